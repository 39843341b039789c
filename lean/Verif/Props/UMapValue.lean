import Verif.Props.UMap
/-!
# C91: removing entries by value
-/
namespace Verif.Props
open Verif.UMap

private theorem find_self {es : List Ent} (hg : Good es) {e : Ent} (hme : e ∈ es) :
    es.find? (fun x => x.key == e.key) = some e := by
  rcases findIdx?_find? (fun x : Ent => x.key == e.key) es with ⟨_, h2⟩ | ⟨i, e', _, h2, h3⟩
  · rw [List.find?_eq_none] at h2
    exact absurd (by simp) (h2 e hme)
  · rw [h3, nodup_inj hg.1 (List.mem_of_getElem? h2) hme (by simpa using List.find?_some h3)]

/-- an entry without a value (length 0) holds the one byte NUL, which reads as the empty string -/
private theorem buf_zero {e : Ent} (he : e.Good) (h : ¬ e.len > 0) : e.buf = [some 0] := by
  have h0 : e.len = 0 := by omega
  obtain ⟨_, h2, h3, _⟩ := he
  rw [h0] at h2 h3
  obtain ⟨x, hx⟩ := List.length_eq_one_iff.1 h2
  rw [hx] at h3
  simp only [List.getElem?_cons_zero, Option.some.injEq] at h3
  rw [hx, h3]

private theorem getStr_rep {es : List Ent} (hg : Good es) {e : Ent} (he : e ∈ es) {s : Option Bytes}
    (h : getStr (rep es) e.key = .ok s) : readStr e.buf = .ok (s.getD []) := by
  simp only [getStr, get_rep, find_self hg he, Res.ok_bind, Option.bind_some] at h
  by_cases hl : e.len > 0
  · rw [if_pos hl] at h
    simp only at h
    cases hr : readStr e.buf with
    | ub => rw [hr] at h; cases h
    | ok r => rw [hr] at h; cases h; rfl
  · rw [if_neg hl] at h
    cases h
    rw [buf_zero (hg.2 e he) hl]; rfl

/-- what is left of a filtered map -/
private theorem rest_rep {es : List Ent} (hg : Good es) (q : Ent → Bool) (x : Bytes)
    (hx : ∀ e ∈ es, e.key = x → q e = false) :
    UMap.get (rep (es.filter fun e => !q e)) (some x) = UMap.get (rep es) (some x) ∧
    UMap.getLength (rep (es.filter fun e => !q e)) (some x) = UMap.getLength (rep es) (some x) := by
  have : (es.filter fun e => !q e).find? (fun e => e.key == x) = es.find? (fun e => e.key == x) := by
    clear hg
    induction es with
    | nil => rfl
    | cons e es ih =>
      have ih := ih (fun e he => hx e (by simp [he]))
      by_cases hk : e.key = x
      · simp [hx e (by simp) hk, hk]
      · cases hq : q e <;> simp [hq, hk, ih]
  rw [get_rep, get_rep, getLength_rep, getLength_rep, this]
  exact ⟨rfl, rfl⟩

/-- **C91, partial.** `u_map_remove_from_value_case` does what is claimed: on a reachable map whose values are
strings (or NULL, read as the empty string), with `ks` the keys in order and `val k` the string stored under `k`,
it removes exactly the entries whose value equals `v` up to ASCII case, keeps the others in order with their
values, and reports `U_ERROR_NOT_FOUND` exactly when there is none. Missing: the same for
`u_map_remove_from_value`, which is false (`C91_prefix_false`, `C91_overread_false`). -/
theorem C91_case_partial (m : UMap) (h : Reach m) (v : Bytes) (val : Bytes → Option Bytes) (ks : List Bytes)
    (hks : UMap.enumKeys m = .ok ks) (hval : ∀ k ∈ ks, getStr m k = .ok (val k)) :
    let hit := fun k => fold ((val k).getD []) == fold v
    ∃ m', UMap.removeValueCase m (some v) = .ok (if ks.any hit then .ok else .notFound, m') ∧
      UMap.enumKeys m' = .ok (ks.filter fun k => !hit k) ∧
      ∀ k ∈ ks, hit k = false → UMap.get m' (some k) = UMap.get m (some k) ∧
        UMap.getLength m' (some k) = UMap.getLength m (some k) := by
  obtain ⟨es, rfl, hg⟩ := reach_wf h
  rw [enumKeys_rep] at hks
  cases hks
  intro hit
  have hb : ∀ e ∈ es, readStr e.buf = .ok ((val e.key).getD []) := fun e he =>
    getStr_rep hg he (hval _ (List.mem_map.2 ⟨e, he, rfl⟩))
  have hq : ∀ es' i e, es'[i]? = some e → e ∈ es →
      testValue (fun b => do let s ← readStr b; return eqCase s v) (rep es') i = .ok (hit e.key) := by
    intro es' i e hi he
    rw [testValue_rep _ es' i e hi, hb e he]; rfl
  have := removeLoop_rep _ (fun e => hit e.key) es [] false hq
  simp only [List.append_nil, Bool.false_or] at this
  refine ⟨rep (es.filter fun e => !hit e.key), ?_, ?_, ?_⟩
  · show removeLoop _ es.length _ _ = _
    rw [this, List.any_map]; rfl
  · rw [enumKeys_rep, List.filter_map]; rfl
  · intro k _ hk
    exact rest_rep hg (fun e => hit e.key) k (fun e _ hek => by rw [hek]; exact hk)

example : ∃ m', UMap.removeValueCase sampleMap (some b!"V") = .ok (.ok, m') ∧
    UMap.enumKeys m' = .ok [b!"Bin"] ∧ getStr sampleMap b!"Bin" = .ok (some [1]) ∧
    getStr sampleMap b!"s" = .ok (some b!"v") ∧ UMap.enumKeys sampleMap = .ok [b!"Bin", b!"s"] :=
  ⟨_, rfl, by decide +kernel, by decide +kernel, by decide +kernel, by decide +kernel⟩

/-- **C15, partial.** `u_map_has_value_case` is exact: on a reachable map whose values are strings (or NULL, read as
the empty string), with `ks` the keys and `val k` the string stored under `k`, it is true exactly when some value
equals `v` up to ASCII case. Missing: the same for `u_map_has_value` (`C15_false`). -/
theorem C15_case_partial (m : UMap) (h : Reach m) (v : Bytes) (val : Bytes → Option Bytes) (ks : List Bytes)
    (hks : UMap.enumKeys m = .ok ks) (hval : ∀ k ∈ ks, getStr m k = .ok (val k)) :
    UMap.hasValueCase m (some v) = .ok (ks.any fun k => fold ((val k).getD []) == fold v) := by
  obtain ⟨es, rfl, hg⟩ := reach_wf h
  rw [enumKeys_rep] at hks
  cases hks
  have e1 : deref (rep es).values = .ok (es.map (fun e => Ptr.to e.buf) ++ [Ptr.null]) := rfl
  simp only [UMap.hasValueCase]
  rw [e1, Res.ok_bind]
  have hs : ∀ (l : List Ent) (i : Nat), (∀ e ∈ l, e ∈ es) →
      (scan (fun x => do let s ← readStr x; return eqCase s v) i (l.map (fun e => Ptr.to e.buf) ++ [Ptr.null]) >>=
        fun r => (pure r.isSome : Res Bool)) = .ok (l.any fun e => fold ((val e.key).getD []) == fold v) := by
    intro l
    induction l with
    | nil => intro i _; rfl
    | cons e l ih =>
      intro i hl
      have hb := getStr_rep hg (hl e (by simp)) (hval _ (List.mem_map.2 ⟨e, hl e (by simp), rfl⟩))
      have ih := ih (i + 1) (fun e he => hl e (by simp [he]))
      simp only [List.map_cons, List.cons_append, scan, hb, Res.ok_bind, Res.pure_eq, List.any_cons]
      cases hq : eqCase ((val e.key).getD []) v with
      | true =>
        have hq' : (fold ((val e.key).getD []) == fold v) = true := hq
        rw [hq']; rfl
      | false =>
        have hq' : (fold ((val e.key).getD []) == fold v) = false := hq
        rw [hq', Bool.false_or]
        exact ih
  rw [List.any_map]
  exact hs es 0 (fun e he => he)

example : UMap.hasValueCase sampleMap (some b!"V") = .ok true ∧ UMap.hasValueCase sampleMap (some b!"W") = .ok false ∧
    UMap.enumKeys sampleMap = .ok [b!"Bin", b!"s"] ∧ getStr sampleMap b!"Bin" = .ok (some [1]) ∧
    getStr sampleMap b!"s" = .ok (some b!"v") :=
  ⟨by decide +kernel, by decide +kernel, by decide +kernel, by decide +kernel, by decide +kernel⟩

/-- **C91, partial.** What `u_map_remove_from_value` does instead: when no stored block is shorter than the string,
it removes exactly the entries whose block *begins* with it. -/
theorem C91_prefix_partial (m : UMap) (h : Reach m) (v : Bytes) (block : Bytes → Buf) (ks : List Bytes)
    (hks : UMap.enumKeys m = .ok ks)
    (hblock : ∀ k ∈ ks, ∃ l, UMap.getLength m (some k) = .ok (some l) ∧ v.length ≤ l ∧
      UMap.get m (some k) = .ok (some (block k)) ∧ (block k).all Option.isSome) :
    let hit := fun k => (block k).take v.length == v.map some
    ∃ m', UMap.removeValue m (some v) = .ok (if ks.any hit then .ok else .notFound, m') ∧
      UMap.enumKeys m' = .ok (ks.filter fun k => !hit k) ∧
      ∀ k ∈ ks, hit k = false → UMap.get m' (some k) = UMap.get m (some k) ∧
        UMap.getLength m' (some k) = UMap.getLength m (some k) := by
  obtain ⟨es, rfl, hg⟩ := reach_wf h
  rw [enumKeys_rep] at hks
  cases hks
  intro hit
  have ht : (strBuf v).take v.length = v.map some := by simp [strBuf]
  have hq : ∀ es' i e, es'[i]? = some e → e ∈ es →
      testValue (fun b => memEq b (strBuf v) v.length) (rep es') i = .ok (hit e.key) := by
    intro es' i e hi he
    obtain ⟨l, h1, h2, h3, h4⟩ := hblock e.key (List.mem_map.2 ⟨e, he, rfl⟩)
    rw [getLength_rep, find_self hg he] at h1
    simp only [Option.map_some, Res.ok.injEq, Option.some.injEq] at h1
    rw [get_rep, find_self hg he] at h3
    simp only [Option.bind_some, Res.ok.injEq] at h3
    have hbuf : e.buf = block e.key := by
      by_cases hl : e.len > 0
      · rw [if_pos hl] at h3; exact Option.some.inj h3
      · rw [if_neg hl] at h3; cases h3
    have hlen := (hg.2 e he).2.1
    rw [testValue_rep _ es' i e hi]
    unfold memEq
    rw [if_pos, ht, hbuf]
    refine ⟨by omega, by simp [strBuf], ?_, ?_⟩
    · rw [hbuf]
      rw [List.all_eq_true] at h4 ⊢
      exact fun x hx => h4 x (List.mem_of_mem_take hx)
    · rw [ht]; simp
  have := removeLoop_rep _ (fun e => hit e.key) es [] false hq
  simp only [List.append_nil, Bool.false_or] at this
  refine ⟨rep (es.filter fun e => !hit e.key), ?_, ?_, ?_⟩
  · show removeLoop _ es.length _ _ = _
    simp only [Option.getD_some]
    rw [this, List.any_map]; rfl
  · rw [enumKeys_rep, List.filter_map]; rfl
  · intro k _ hk
    exact rest_rep hg (fun e => hit e.key) k (fun e _ hek => by rw [hek]; exact hk)

example : ∀ k ∈ [b!"Bin", b!"s"], ∃ l, UMap.getLength sampleMap (some k) = .ok (some l) ∧ b!"v".length ≤ l := by
  intro k hk
  simp only [List.mem_cons, List.not_mem_nil, or_false] at hk
  rcases hk with rfl | rfl
  · exact ⟨3, by decide +kernel, by decide⟩
  · exact ⟨2, by decide +kernel, by decide⟩

/-- C91 fails: removing the value "a" also removes the entry that holds "abc". -/
theorem C91_prefix_false :
    ∃ m m', UMap.put UMap.init (some b!"k") (some b!"abc") = .ok (.ok, m) ∧
      UMap.removeValue m (some b!"a") = .ok (.ok, m') ∧ UMap.count m' = 0 :=
  ⟨_, _, rfl, rfl, by decide +kernel⟩

/-- C91 fails: a searched value longer than a stored one is compared past the end of the stored one. -/
theorem C91_overread_false : ∃ m, Reach m ∧ UMap.removeValue m (some b!"abcdef") = .ub :=
  ⟨sampleMap, sampleMap_reach, by decide +kernel⟩

end Verif.Props
