import Verif.Lemmas.UMapStr
/-!
# C07–C16: `u_map`
-/
namespace Verif.Props
open Verif.UMap
open Verif.Spec.OMap (OMap Op Code)

/-! ## C07: string histories -/

/-- A call of the C library (with the default: no allocation fails). -/
def callMap (m : UMap) : Op → Res (Rc × UMap)
  | .put k v => UMap.put m (some k) v
  | .removeKey k => UMap.removeKey m (some k)
  | .removeAt i => UMap.removeAt m i
  | .empty => UMap.empty m

/-- A history of calls: return codes and final map. -/
def runMap (m : UMap) : List Op → Res (List Rc × UMap)
  | [] => .ok ([], m)
  | op :: t => do
    let (rc, m') ← callMap m op
    let (rcs, m'') ← runMap m' t
    .ok (rc :: rcs, m'')

/-- The return code documented for an outcome. -/
def rcOf : Code → Rc
  | .done => .ok
  | .badParams => .params
  | .notFound => .notFound

/-- Arguments of a call are C strings that fit in memory. -/
def ValidOp : Op → Prop
  | .put k v => NoNul k ∧ ∀ s, v = some s → NoNul s ∧ s.length + 2 < 2 ^ 64
  | _ => True

/-- `u_map_get` read as a C string by the caller. -/
def getStr (m : UMap) (k : Bytes) : Res (Option Bytes) := do
  match ← UMap.get m (some k) with
  | none => .ok none
  | some b => do
    let s ← readStr b
    .ok (some s)

theorem UMapSim.step_sim (es : List Ent) (a : OMap) (hg : Good es) (hs : Sim es a) (op : Op) (hv : ValidOp op) :
    ∃ es', callMap (rep es) op = .ok (rcOf (Spec.OMap.step a op).1, rep es') ∧ Good es' ∧
      Sim es' (Spec.OMap.step a op).2 := by
  cases op with
  | put k v =>
    by_cases hk : k = []
    · subst hk
      refine ⟨es, ?_, hg, by simpa [Spec.OMap.step] using hs⟩
      cases v <;> rfl
    · have hva : ValidArgs (valOf v) 0 (lenOf v) := by
        apply validArgs_str
        cases v with
        | none => simp [lenOf]
        | some s => exact (hv.2 s rfl).2
      refine ⟨eput es k (valOf v) 0 (lenOf v), ?_, eput_good _ _ _ _ _ hk hg hva, ?_⟩
      · simp only [callMap, put_eq, Spec.OMap.step, hk, if_false]
        exact putBinary_rep es k _ _ _ hk hg hva
      · simpa [Spec.OMap.step, hk] using sim_eput hs k v
  | removeKey k =>
    refine ⟨es.filter (fun e => !(e.key == k)), (removeKey_rep es k).trans ?_, good_sublist List.filter_sublist hg, ?_⟩
    · rw [sim_any hs (fun x => x == k)]
      simp only [Spec.OMap.step, Spec.OMap.lookup]
      congr 2
      by_cases h : (a.any fun p => p.1 == k) = true
      · have : (a.find? fun p => p.1 == k).isSome = true := by
          rw [List.find?_isSome]; simpa [List.any_eq_true] using h
        simp [h, this, rcOf]
      · have : a.find? (fun p => p.1 == k) = none := by
          rw [List.find?_eq_none]; intro x hx hxk; exact h (List.any_eq_true.2 ⟨x, hx, hxk⟩)
        simp [h, this, rcOf]
    · exact sim_filter hs (fun x => !(x == k))
  | removeAt i =>
    by_cases hi : i < es.length
    · have hi' : i < a.length := by rw [← hs.1]; exact hi
      refine ⟨es.eraseIdx i, ?_, good_sublist (List.eraseIdx_sublist _ _) hg, ?_⟩
      · simp [callMap, removeAt_rep es i hi, Spec.OMap.step, hi', rcOf]
      · simpa [Spec.OMap.step, hi'] using sim_eraseIdx hs i
    · have hi' : ¬ i < a.length := by rw [← hs.1]; exact hi
      refine ⟨es, ?_, hg, ?_⟩
      · simp [callMap, removeAt_rep_out es i (by omega), Spec.OMap.step, hi', rcOf]
      · simpa [Spec.OMap.step, hi'] using hs
  | empty => exact ⟨[], empty_rep es, good_nil, sim_nil⟩

private theorem run_sim (h : List Op) : ∀ (es : List Ent) (a : OMap), Good es → Sim es a → (∀ op ∈ h, ValidOp op) →
    ∃ es', runMap (rep es) h = .ok ((Spec.OMap.run a h).1.map rcOf, rep es') ∧ Good es' ∧
      Sim es' (Spec.OMap.run a h).2 := by
  induction h with
  | nil => intro es a hg hs _; exact ⟨es, rfl, hg, hs⟩
  | cons op t ih =>
    intro es a hg hs hv
    obtain ⟨es1, h1, g1, s1⟩ := UMapSim.step_sim es a hg hs op (hv op (by simp))
    obtain ⟨es2, h2, g2, s2⟩ := ih es1 _ g1 s1 (fun o ho => hv o (by simp [ho]))
    exact ⟨es2, by simp [runMap, h1, h2, Spec.OMap.run], g2, s2⟩

theorem UMapSim.noNul_run (h : List Op) : ∀ (a : OMap), (∀ p ∈ a, ∀ s, p.2 = some s → NoNul s) →
    (∀ op ∈ h, ValidOp op) → ∀ p ∈ (Spec.OMap.run a h).2, ∀ s, p.2 = some s → NoNul s := by
  induction h with
  | nil => intro a ha _; exact ha
  | cons op t ih =>
    intro a ha hv
    refine ih _ ?_ (fun o ho => hv o (by simp [ho]))
    have hop := hv op (by simp)
    cases op with
    | put k v =>
      simp only [Spec.OMap.step]
      split
      · exact ha
      · unfold Spec.OMap.put
        split
        · intro p hp s hps
          rw [List.mem_map] at hp
          obtain ⟨q, hq, rfl⟩ := hp
          split at hps
          · exact (hop.2 s hps).1
          · exact ha q hq s hps
        · intro p hp s hps
          rw [List.mem_append, List.mem_singleton] at hp
          rcases hp with hp | rfl
          · exact ha p hp s hps
          · exact (hop.2 s hps).1
    | removeKey k => exact fun p hp s hps => ha p (List.mem_filter.1 hp).1 s hps
    | removeAt i =>
      simp only [Spec.OMap.step]
      split
      · exact fun p hp s hps => ha p (List.mem_of_mem_eraseIdx hp) s hps
      · exact ha
    | empty => intro p hp; simp [Spec.OMap.step] at hp

/-- **C07.** Every history of `u_map_put`, `u_map_remove_from_key`, `u_map_remove_at`, `u_map_empty` on a fresh
map runs without undefined behaviour, returns the documented codes, and leaves a map that answers
`u_map_get`, `u_map_has_key`, `u_map_count`, `u_map_enum_keys` as the ideal insertion-ordered map. -/
theorem C07_refines_ordered_map (h : List Op) (hv : ∀ op ∈ h, ValidOp op) :
    ∃ m, runMap UMap.init h = .ok ((Spec.OMap.run [] h).1.map rcOf, m) ∧
      (∀ k, getStr m k = .ok ((Spec.OMap.lookup (Spec.OMap.run [] h).2 k).join)) ∧
      (∀ k, UMap.hasKey m (some k) = .ok (Spec.OMap.lookup (Spec.OMap.run [] h).2 k).isSome) ∧
      UMap.count m = (Spec.OMap.run [] h).2.length ∧
      UMap.enumKeys m = .ok ((Spec.OMap.run [] h).2.map (·.1)) := by
  obtain ⟨es, h1, hg, hs⟩ := run_sim h [] [] good_nil sim_nil hv
  have hnn := UMapSim.noNul_run h [] (by simp) hv
  generalize (Spec.OMap.run [] h).2 = a at *
  refine ⟨rep es, h1, ?_, ?_, hs.1, ?_⟩
  · intro k
    simp only [getStr, get_rep]
    rcases sim_find hs (fun x => x == k) with ⟨f1, f2⟩ | ⟨e, p, f1, f2, f3⟩
    · simp [f1, f2, Spec.OMap.lookup]
    · simp only [f1, Spec.OMap.lookup, f2, Option.bind_some, Option.map_some, Option.join_some]
      obtain ⟨g1, g2⟩ := f3
      cases hp : p.2 with
      | none => rw [hp] at g2; simp [g2]
      | some v =>
        rw [hp] at g2
        obtain ⟨g2, t, g3⟩ := g2
        have := readStr_strBuf v t (hnn p (List.mem_of_find?_eq_some f2) v hp)
        simp [g2, g3, this]
  · intro k
    rw [hasKey_rep]
    congr 1
    rcases sim_find hs (fun x => x == k) with ⟨f1, f2⟩ | ⟨e, p, f1, f2, f3⟩
    · simp only [Spec.OMap.lookup, f2, Option.map_none, Option.isSome_none]
      rw [List.find?_eq_none] at f1
      rw [List.any_eq_false]; exact f1
    · simp only [Spec.OMap.lookup, f2, Option.map_some, Option.isSome_some]
      rw [List.any_eq_true]
      exact ⟨e, List.mem_of_find?_eq_some f1, List.find?_some (p := fun e : Ent => e.key == k) f1⟩
  · rw [enumKeys_rep, sim_keys hs]

/-- a history with an overwrite by a shorter value, a NULL value, a removal and an empty key -/
example :
    let h : List Op := [.put b!"a" (some b!"long"), .put b!"b" none, .put b!"" (some b!"x"), .put b!"a" (some b!"s"),
      .put b!"c" (some b!""), .removeKey b!"b", .removeAt 7]
    (∀ op ∈ h, ValidOp op) ∧ (Spec.OMap.run [] h).2 = [(b!"a", some b!"s"), (b!"c", some b!"")] ∧
      (Spec.OMap.run [] h).1 = [.done, .done, .badParams, .done, .done, .done, .notFound] := by
  refine ⟨?_, by decide, by decide⟩
  intro op hop
  simp only [List.mem_cons, List.not_mem_nil, or_false] at hop
  rcases hop with rfl | rfl | rfl | rfl | rfl | rfl | rfl <;>
    simp [ValidOp, NoNul]

/-! ## Reachable maps -/

/-- Maps a program can build through the public modifying functions with arguments the functions have a
defined meaning for (see `ValidArgs`). -/
inductive Reach : UMap → Prop
  | init : Reach UMap.init
  | put {m m' k v rc} : Reach m → ValidArgs (valOf v) 0 (lenOf v) → UMap.put m k v = .ok (rc, m') → Reach m'
  | putBinary {m m' k v o l rc} : Reach m → ValidArgs v o l → UMap.putBinary m k v o l = .ok (rc, m') → Reach m'
  | removeKey {m m' k rc} : Reach m → UMap.removeKey m k = .ok (rc, m') → Reach m'
  | removeKeyCase {m m' k rc} : Reach m → UMap.removeKeyCase m k = .ok (rc, m') → Reach m'
  | removeAt {m m' i rc} : Reach m → UMap.removeAt m i = .ok (rc, m') → Reach m'
  | empty {m m' rc} : Reach m → UMap.empty m = .ok (rc, m') → Reach m'
  | removeValueBinary {m m' v l rc} : Reach m → UMap.removeValueBinary m v l = .ok (rc, m') → Reach m'
  | removeValue {m m' v rc} : Reach m → UMap.removeValue m v = .ok (rc, m') → Reach m'
  | removeValueCase {m m' v rc} : Reach m → UMap.removeValueCase m v = .ok (rc, m') → Reach m'
  | copy {m m'} : Reach m → UMap.copy m = .ok (some m') → Reach m'
  | copyInto {d s d' rc} : Reach d → Reach s → (∀ k b, UMap.get s (some k) = .ok (some b) → b.length + 1 < 2 ^ 64) →
      UMap.copyInto d s = .ok (rc, d') → Reach d'

private theorem putBinary_wf {m : UMap} (k : Option Bytes) (v : Option Buf) (o l : Nat) (hw : WF m)
    (hv : ValidArgs v o l) : ∃ rc m', UMap.putBinary m k v o l = .ok (rc, m') ∧ WF m' := by
  obtain ⟨es, rfl, hg⟩ := hw
  match k with
  | none => exact ⟨_, _, rfl, es, rfl, hg⟩
  | some [] => exact ⟨_, _, rfl, es, rfl, hg⟩
  | some (c :: k) => exact ⟨_, _, putBinary_rep es _ v o l (by simp) hg hv, _, rfl, eput_good _ _ _ _ _ (by simp) hg hv⟩

private theorem removeKey_wf {m : UMap} (k : Option Bytes) (hw : WF m) :
    ∃ rc m', UMap.removeKey m k = .ok (rc, m') ∧ WF m' := by
  obtain ⟨es, rfl, hg⟩ := hw
  match k with
  | none => exact ⟨_, _, rfl, es, rfl, hg⟩
  | some k => exact ⟨_, _, removeKey_rep es k, _, rfl, good_sublist List.filter_sublist hg⟩

private theorem removeKeyCase_wf {m : UMap} (k : Option Bytes) (hw : WF m) :
    ∃ rc m', UMap.removeKeyCase m k = .ok (rc, m') ∧ WF m' := by
  obtain ⟨es, rfl, hg⟩ := hw
  match k with
  | none => exact ⟨_, _, rfl, es, rfl, hg⟩
  | some k => exact ⟨_, _, removeKeyCase_rep es k, _, rfl, good_sublist List.filter_sublist hg⟩

private theorem removeAt_wf {m : UMap} (i : Nat) (hw : WF m) :
    ∃ rc m', UMap.removeAt m i = .ok (rc, m') ∧ WF m' := by
  obtain ⟨es, rfl, hg⟩ := hw
  by_cases hi : i < es.length
  · exact ⟨_, _, removeAt_rep es i hi, _, rfl, good_sublist (List.eraseIdx_sublist _ _) hg⟩
  · exact ⟨_, _, removeAt_rep_out es i (by omega), _, rfl, hg⟩

private theorem ok_wf {x : Res (Rc × UMap)} {rc : Rc} {m' : UMap} (h : x = .ok (rc, m'))
    (hw : ∃ rc m', x = .ok (rc, m') ∧ WF m') : WF m' := by
  obtain ⟨_, _, e, hw⟩ := hw
  rw [h] at e; cases e; exact hw

private theorem removeValueBinary_wf {m m' : UMap} {v : Option Buf} {l : Nat} {rc : Rc} (hw : WF m)
    (h : UMap.removeValueBinary m v l = .ok (rc, m')) : WF m' := by
  obtain ⟨es, rfl, hg⟩ := hw
  cases v with
  | none => cases h; exact ⟨es, rfl, hg⟩
  | some v =>
    obtain ⟨es', rfl, hs⟩ := removeLoop_sub _ _ es _ _ _ (Nat.le_refl _) h
    exact ⟨es', rfl, good_sublist hs hg⟩

private theorem removeValueCase_wf {m m' : UMap} {v : Option Bytes} {rc : Rc} (hw : WF m)
    (h : UMap.removeValueCase m v = .ok (rc, m')) : WF m' := by
  obtain ⟨es, rfl, hg⟩ := hw
  cases v with
  | none => cases h; exact ⟨es, rfl, hg⟩
  | some v =>
    obtain ⟨es', rfl, hs⟩ := removeLoop_sub _ _ es _ _ _ (Nat.le_refl _) h
    exact ⟨es', rfl, good_sublist hs hg⟩

private theorem readStr_length (b : Buf) : ∀ s, readStr b = .ok s → s.length + 1 ≤ b.length := by
  induction b with
  | nil => intro s h; cases h
  | cons x t ih =>
    intro s h
    cases x with
    | none => cases h
    | some c =>
      simp only [readStr] at h
      split at h
      · cases h; simp
      · cases hr : readStr t with
        | ub => rw [hr] at h; cases h
        | ok r =>
          rw [hr] at h; cases h
          have := ih r hr
          simp; omega

private theorem copyIntoLoop_wf (src : List Ent)
    (hsz : ∀ k b, UMap.get (rep src) (some k) = .ok (some b) → b.length + 1 < 2 ^ 64) : ∀ (ks : List (Ptr Bytes)) (d d' : UMap) (rc : Rc), WF d →
    copyIntoLoop (rep src) ks d = .ok (rc, d') → WF d' := by
  intro ks
  induction ks with
  | nil => intro d d' rc _ h; cases h
  | cons k t ih =>
    intro d d' rc hw h
    cases k with
    | null => simp only [copyIntoLoop] at h; cases h; exact hw
    | dead => cases h
    | to k =>
      simp only [copyIntoLoop, get_rep, Res.ok_bind] at h
      have key : ∀ x, putPtr d (some k) ((src.find? fun e => e.key == k).bind fun e => if e.len > 0 then some e.buf else none)
          = .ok x → WF x.2 := by
        intro x hx
        have step : ∀ w, ValidArgs (valOf w) 0 (lenOf w) → UMap.put d (some k) w = .ok x → WF x.2 := by
          intro w hv e
          rw [put_eq] at e
          exact ok_wf e (putBinary_wf _ _ _ _ hw hv)
        cases hf : src.find? fun e => e.key == k with
        | none =>
          rw [hf] at hx
          exact step none (validArgs_str _ (by simp [lenOf])) hx
        | some e =>
          rw [hf] at hx
          simp only [Option.bind_some] at hx
          by_cases hl : e.len > 0
          · rw [if_pos hl] at hx
            simp only [putPtr] at hx
            cases hr : readStr e.buf with
            | ub => rw [hr] at hx; cases hx
            | ok v =>
              rw [hr] at hx
              have h1 := readStr_length _ _ hr
              have h2 := hsz k e.buf (by rw [get_rep, hf]; simp [hl])
              exact step (some v) (validArgs_str _ (by simp [lenOf]; omega)) hx
          · rw [if_neg hl] at hx
            exact step none (validArgs_str _ (by simp [lenOf])) hx
      generalize hx : putPtr d (some k) ((src.find? fun e => e.key == k).bind fun e => if e.len > 0 then some e.buf else none) = x at h key
      cases x with
      | ub => cases h
      | ok x =>
        have hw' := key x rfl
        simp only [Res.ok_bind] at h
        split at h
        · exact ih _ _ _ hw' h
        · cases h; exact hw'

/-- Every reachable map satisfies the representation invariant. -/
theorem reach_wf {m : UMap} (h : Reach m) : WF m := by
  induction h with
  | init => exact ⟨[], rfl, good_nil⟩
  | put _ hv e ih => rw [put_eq] at e; exact ok_wf e (putBinary_wf _ _ _ _ ih hv)
  | putBinary _ hv e ih => exact ok_wf e (putBinary_wf _ _ _ _ ih hv)
  | removeKey _ e ih => exact ok_wf e (removeKey_wf _ ih)
  | removeKeyCase _ e ih => exact ok_wf e (removeKeyCase_wf _ ih)
  | removeAt _ e ih => exact ok_wf e (removeAt_wf _ ih)
  | empty _ e ih =>
    obtain ⟨es, rfl, hg⟩ := ih
    exact ok_wf e ⟨_, _, empty_rep es, [], rfl, good_nil⟩
  | removeValueBinary _ e ih => exact removeValueBinary_wf ih e
  | removeValue _ e ih => exact removeValueBinary_wf ih e
  | removeValueCase _ e ih => exact removeValueCase_wf ih e
  | copyInto _ _ hsz e ihd ihs =>
    obtain ⟨es, rfl, _⟩ := ihs
    exact copyIntoLoop_wf es hsz _ _ _ _ ihd e
  | copy _ e ih =>
    obtain ⟨es, rfl, hg⟩ := ih
    rw [copy_rep es hg] at e; cases e; exact ⟨es, rfl, hg⟩

/-- A small reachable map used in the examples: a binary value and a string. -/
def sampleMap : UMap := rep [⟨b!"Bin", [some 1, some 0, some 2, some 0], 3⟩, ⟨b!"s", strBuf b!"v" ++ [some 0], 2⟩]

theorem sampleMap_reach : Reach sampleMap := by
  refine Reach.put (m := rep [⟨b!"Bin", [some 1, some 0, some 2, some 0], 3⟩]) (k := some b!"s") (v := some b!"v") (rc := .ok)
    (Reach.putBinary (m := UMap.init) (k := some b!"Bin") (v := some [some 1, some 0, some 2]) (o := 0) (l := 3) (rc := .ok)
      Reach.init ?_ (by decide +kernel)) ?_ (by decide +kernel)
  · exact ⟨by decide, by intro src h; cases h; decide, by simp⟩
  · exact validArgs_str _ (by decide)

/-! ## C08 -/

/-- **C08.** In every reachable map the keys seen by `u_map_enum_keys` are pairwise distinct and not empty,
and `u_map_count` is their number. -/
theorem C08_keys_unique (m : UMap) (h : Reach m) :
    ∃ ks, UMap.enumKeys m = .ok ks ∧ ks.Nodup ∧ [] ∉ ks ∧ UMap.count m = ks.length := by
  obtain ⟨es, rfl, hg⟩ := reach_wf h
  refine ⟨_, enumKeys_rep es, hg.1, ?_, by simp [UMap.count, rep]⟩
  intro hm
  rw [List.mem_map] at hm
  obtain ⟨e, he, hek⟩ := hm
  exact (hg.2 e he).1 hek

example : UMap.enumKeys sampleMap = .ok [b!"Bin", b!"s"] ∧ UMap.count sampleMap = 2 := by decide +kernel

/-! ## C09 -/

/-- **C09, partial.** On every reachable map the functions below have defined behaviour for all arguments
(for `u_map_put_binary`: all arguments satisfying `ValidArgs`), and a block returned by `u_map_get` has
`u_map_get_length` + 1 bytes, the last one NUL. Missing from the full statement: the value-search functions
(`u_map_has_value*`, `u_map_remove_from_value*`), NULL values with a non-zero length and wrapping offsets, for
which it is false (`C09_false_value_search`, `C09_false_null_value`, `C09_false_wrap`). -/
theorem C09_memory_safe_partial (m : UMap) (h : Reach m) (k : Option Bytes) :
    (∀ v, ValidArgs (valOf v) 0 (lenOf v) → UMap.put m k v ≠ .ub) ∧
    (∀ v o l, ValidArgs v o l → UMap.putBinary m k v o l ≠ .ub) ∧
    UMap.removeKey m k ≠ .ub ∧ UMap.removeKeyCase m k ≠ .ub ∧ (∀ i, UMap.removeAt m i ≠ .ub) ∧ UMap.empty m ≠ .ub ∧
    UMap.copy m ≠ .ub ∧ UMap.enumKeys m ≠ .ub ∧
    UMap.hasKey m k ≠ .ub ∧ UMap.hasKeyCase m k ≠ .ub ∧ UMap.get m k ≠ .ub ∧ UMap.getCase m k ≠ .ub ∧
    UMap.getLength m k ≠ .ub ∧ UMap.getCaseLength m k ≠ .ub ∧ UMap.countKeysCase m k ≠ .ub ∧
    (∀ b, UMap.get m k = .ok (some b) →
      ∃ l, UMap.getLength m k = .ok (some l) ∧ b.length = l + 1 ∧ b[l]? = some (some 0)) := by
  have hw := reach_wf h
  have okne : ∀ {x : Res (Rc × UMap)}, (∃ rc m', x = .ok (rc, m') ∧ WF m') → x ≠ .ub := by
    rintro x ⟨rc, m', rfl, _⟩; simp
  refine ⟨fun v hv => by rw [put_eq]; exact okne (putBinary_wf _ _ _ _ hw hv),
    fun v o l hv => okne (putBinary_wf _ _ _ _ hw hv), okne (removeKey_wf _ hw), okne (removeKeyCase_wf _ hw),
    fun i => okne (removeAt_wf _ hw), ?_⟩
  obtain ⟨es, rfl, hg⟩ := hw
  refine ⟨by simp [empty_rep], by simp [copy_rep es hg], by simp [enumKeys_rep], ?_⟩
  cases k with
  | none =>
    simp [UMap.hasKey, UMap.hasKeyCase, UMap.get, UMap.getCase, UMap.getLength, UMap.getCaseLength, UMap.countKeysCase]
  | some k =>
    refine ⟨by simp [hasKey_rep], by simp [hasKeyCase_rep], by simp [get_rep], by simp [getCase_rep],
      by simp [getLength_rep], by simp [getCaseLength_rep], by simp [countKeysCase_rep], ?_⟩
    intro b hb
    rw [get_rep] at hb
    cases hf : es.find? (fun e => e.key == k) with
    | none => simp [hf] at hb
    | some e =>
      have he := hg.2 e (List.mem_of_find?_eq_some hf)
      simp only [hf, Option.bind_some, Res.ok.injEq] at hb
      by_cases hl : e.len > 0
      · simp only [hl, if_true, Option.some.injEq] at hb
        subst hb
        exact ⟨e.len, by simp [getLength_rep, hf], he.2.1, he.2.2.1⟩
      · simp [hl] at hb

example : Reach sampleMap ∧ UMap.get sampleMap (some b!"Bin") = .ok (some [some 1, some 0, some 2, some 0]) :=
  ⟨sampleMap_reach, by decide +kernel⟩

/-- C09 fails: `u_map_has_value` reads past a stored value shorter than the searched one. -/
theorem C09_false_value_search : ∃ m, Reach m ∧ UMap.hasValue m (some b!"abcdef") = .ub :=
  ⟨sampleMap, sampleMap_reach, by decide +kernel⟩

/-- C09 fails: a NULL value stored with a length, then a write within that length, overflows a one-byte block. -/
theorem C09_false_null_value :
    ∃ m, UMap.putBinary UMap.init (some b!"k") none 0 10 = .ok (.ok, m) ∧
      UMap.putBinary m (some b!"k") (some [some 1, some 2, some 3]) 0 3 = .ub :=
  ⟨rep [⟨b!"k", [some 0], 10⟩], by decide +kernel, by decide +kernel⟩

/-- C09 fails: the guard `offset+length+1 <= SIZE_MAX` never rejects, so a wrapping sum overflows the block. -/
theorem C09_false_wrap :
    UMap.putBinary UMap.init (some b!"k") (some [some 1, some 2]) (2 ^ 64 - 1) 2 = .ub := by decide +kernel

/-! ## C10 -/

/-- The caller writes the blocks one after the other at increasing offsets. -/
def putBlocks (m : UMap) (k : Bytes) : Nat → List Bytes → Res UMap
  | _, [] => .ok m
  | off, b :: t => do
    let (_, m') ← UMap.putBinary m (some k) (some (b.map some)) off b.length
    putBlocks m' k (off + b.length) t

private theorem upd_block (e : Ent) (b : Bytes) (he : e.Good) (hlen : e.len + b.length + 1 < 2 ^ 64)
    (A : Bytes) (hA : e.buf = A.map some ++ [some 0]) (hl : e.len = A.length) :
    upd e (some (b.map some)) e.len b.length = ⟨e.key, (A ++ b).map some ++ [some 0], e.len + b.length⟩ := by
  unfold upd
  by_cases hb : b = []
  · subst hb
    simp only [List.length_nil, Nat.add_zero, Nat.lt_irrefl, if_false, List.append_nil]
    have : copyAt e.buf e.len ([].map some) 0 = e.buf := by simp [copyAt]
    rw [this, hA]
  · have hpos : 0 < b.length := List.length_pos_iff.2 hb
    have h1 : e.len < e.len + b.length := by omega
    simp only [h1, if_true]
    congr 1
    rw [copyAt, hl, hA]
    have t1 : (resize (A.map some ++ [some 0]) (A.length + b.length + 1)).take A.length = A.map some := by
      rw [resize, List.take_of_length_le (l := A.map some ++ [some 0]) (by simp), List.append_assoc]
      conv => lhs; arg 1; rw [← List.length_map (as := A) some]
      exact List.take_left
    have t3 : ((resize (A.map some ++ [some 0]) (A.length + b.length + 1)).drop (A.length + b.length)).length = 1 := by
      simp [resize]; omega
    obtain ⟨x, hx⟩ := List.length_eq_one_iff.1 t3
    rw [t1, hx]
    have t2 : (b.map some).take b.length = b.map some := by rw [List.take_of_length_le (by simp)]
    rw [t2]
    have : A.length + b.length = (A.map some ++ b.map some).length := by simp
    rw [this, set_last]; simp

private theorem putBlocks_rest (t : List Bytes) : ∀ (es : List Ent) (k A : Bytes) (e : Ent), k ≠ [] → Good es →
    es.find? (fun e => e.key == k) = some e → e.buf = A.map some ++ [some 0] → e.len = A.length →
    A.length + t.flatten.length + 1 < 2 ^ 64 →
    ∃ es' e', putBlocks (rep es) k A.length t = .ok (rep es') ∧ es'.find? (fun e => e.key == k) = some e' ∧
      e'.buf = (A ++ t.flatten).map some ++ [some 0] ∧ e'.len = (A ++ t.flatten).length := by
  induction t with
  | nil => intro es k A e hk hg hf h1 h2 _; exact ⟨es, e, rfl, hf, by simpa using h1, by simpa using h2⟩
  | cons b t ih =>
    intro es k A e hk hg hf h1 h2 h3
    rw [List.flatten_cons, List.length_append] at h3
    have hv : ValidArgs (some (b.map some)) A.length b.length :=
      ⟨by omega, by intro src hs; cases hs; simp, by simp⟩
    have he := hg.2 e (List.mem_of_find?_eq_some hf)
    have hub := upd_block e b he (by omega) A h1 h2
    have hf' : (eput es k (some (b.map some)) A.length b.length).find? (fun e => e.key == k) =
        some ⟨e.key, (A ++ b).map some ++ [some 0], e.len + b.length⟩ := by
      rw [find?_eput, if_pos rfl, hf]
      simp only
      rw [← hub, h2]
    obtain ⟨es', e', r1, r2, r3, r4⟩ := ih _ k (A ++ b) _ hk (eput_good _ _ _ _ _ hk hg hv) hf' rfl
      (by simp [h2]) (by rw [List.length_append]; omega)
    refine ⟨es', e', ?_, r2, by simpa using r3, by simpa using r4⟩
    simp only [putBlocks]
    rw [putBinary_rep es k _ _ _ hk hg hv]
    simpa using r1

/-- **C10.** Writing any list of blocks at consecutive offsets under a new key of any reachable map stores their
concatenation, NUL-terminated, and `u_map_get_length` reports the total length. -/
theorem C10_blocks_concatenate (m : UMap) (h : Reach m) (k : Bytes) (hk : k ≠ [])
    (hnew : UMap.hasKey m (some k) = .ok false) (b : Bytes) (t : List Bytes)
    (hlen : (b :: t).flatten.length + 1 < 2 ^ 64) :
    ∃ m', putBlocks m k 0 (b :: t) = .ok m' ∧
      UMap.getLength m' (some k) = .ok (some (b :: t).flatten.length) ∧
      UMap.getCase m' (some k) ≠ .ub ∧
      (0 < (b :: t).flatten.length →
        UMap.get m' (some k) = .ok (some ((b :: t).flatten.map some ++ [some 0]))) := by
  obtain ⟨es, rfl, hg⟩ := reach_wf h
  rw [hasKey_rep] at hnew
  have hany : es.any (fun e => e.key == k) = false := by simpa using hnew
  have hnone : es.find? (fun e => e.key == k) = none := by
    rw [List.find?_eq_none]; rw [List.any_eq_false] at hany; exact hany
  rw [List.flatten_cons, List.length_append] at hlen
  have hv : ValidArgs (some (b.map some)) 0 b.length := ⟨by omega, by intro src hs; cases hs; simp, by simp⟩
  have hmk : mk k (some (b.map some)) 0 b.length = ⟨k, b.map some ++ [some 0], b.length⟩ := by
    simp only [mk, Nat.zero_add, Ent.mk.injEq, true_and, and_true, copyAt, List.take_zero, List.nil_append]
    have hd : (List.replicate (b.length + 1) (none : Option UInt8)).drop b.length = [none] := by simp
    rw [hd]
    have t2 : (b.map some).take b.length = b.map some := by rw [List.take_of_length_le (by simp)]
    rw [t2]
    have : b.length = (b.map (some : UInt8 → Option UInt8)).length := by simp
    conv => lhs; arg 2; rw [this]
    exact set_last _ _ _
  have hf : (eput es k (some (b.map some)) 0 b.length).find? (fun e => e.key == k) =
      some ⟨k, b.map some ++ [some 0], b.length⟩ := by
    rw [find?_eput, if_pos rfl, hnone]; simp only; rw [hmk]
  obtain ⟨es', e', r1, r2, r3, r4⟩ := putBlocks_rest t _ k b _ hk (eput_good _ _ _ _ _ hk hg hv) hf rfl rfl (by omega)
  refine ⟨rep es', ?_, ?_, ?_, ?_⟩
  · simp only [putBlocks]
    rw [putBinary_rep es k _ _ _ hk hg hv]
    simpa using r1
  · rw [getLength_rep, r2]; simp [r4]
  · simp [getCase_rep]
  · intro hp
    rw [get_rep, r2]
    simp only [Option.bind_some, r3, r4]
    rw [if_pos (by simpa using hp)]; simp

example : ∃ m', putBlocks sampleMap b!"k" 0 [[1, 0], [], [7]] = .ok m' ∧
    UMap.get m' (some b!"k") = .ok (some [some 1, some 0, some 7, some 0]) :=
  ⟨_, rfl, by decide +kernel⟩

/-! ## C11 -/

/-- C11 fails: after replacing "long" by "x" the recorded length is still the one of "long". -/
theorem C11_false :
    ∃ m m', UMap.put UMap.init (some b!"k") (some b!"long") = .ok (.ok, m) ∧
      UMap.put m (some b!"k") (some b!"x") = .ok (.ok, m') ∧
      UMap.getLength m' (some b!"k") = .ok (some 5) ∧ (strBuf b!"x").length = 2 :=
  ⟨_, _, rfl, rfl, by decide +kernel, by decide⟩

/-- **C11, partial.** After `u_map_put` of a string on any reachable map, `u_map_get_length` is the larger of the
former length and the new one (terminator included); so it is the new value's length exactly when the former
value was not longer. Missing: the claim itself for a longer former value, which is false (`C11_false`). -/
theorem C11_length_partial (m m' : UMap) (h : Reach m) (k v : Bytes) (rc : Rc) (hk : k ≠ []) (hl : v.length + 2 < 2 ^ 64)
    (hput : UMap.put m (some k) (some v) = .ok (rc, m')) (old : Option Nat)
    (hold : UMap.getLength m (some k) = .ok old) :
    rc = .ok ∧ UMap.getLength m' (some k) = .ok (some (max (old.getD 0) (v.length + 1))) := by
  obtain ⟨es, rfl, hg⟩ := reach_wf h
  have hv : ValidArgs (valOf (some v)) 0 (lenOf (some v)) := validArgs_str _ hl
  rw [put_eq, putBinary_rep es k _ _ _ hk hg hv] at hput
  cases hput
  refine ⟨rfl, ?_⟩
  rw [getLength_rep] at hold ⊢
  simp only [Res.ok.injEq] at hold
  rw [find?_eput, if_pos rfl]
  subst hold
  cases hf : es.find? (fun e => e.key == k) with
  | none => simp [mk, valOf, lenOf]
  | some e =>
    simp only [Option.map_some, Option.getD_some]
    simp only [upd, valOf, Option.map_some, lenOf, Nat.zero_add]
    by_cases hlt : e.len < v.length + 1
    · rw [if_pos hlt]; simp only; congr 2; omega
    · rw [if_neg hlt]; simp only; congr 2; omega

example : UMap.getLength sampleMap (some b!"s") = .ok (some 2) := by decide +kernel

/-! ## C12 -/

/-- **C12.** On every reachable map, with `ks` the keys in order: `u_map_has_key_case` and `u_map_count_keys_case`
count the keys equal up to ASCII case; `u_map_get_case` returns the value of the oldest such key;
`u_map_remove_from_key_case` removes exactly those keys, keeps the others in order with their values, and
reports `U_ERROR_NOT_FOUND` exactly when there is none. -/
theorem C12_case_insensitive (m : UMap) (h : Reach m) (k : Bytes) :
    ∃ ks, UMap.enumKeys m = .ok ks ∧
      UMap.hasKeyCase m (some k) = .ok (ks.any (fun x => fold x == fold k)) ∧
      UMap.countKeysCase m (some k) = .ok (ks.countP (fun x => fold x == fold k)) ∧
      (match ks.find? (fun x => fold x == fold k) with
        | none => UMap.getCase m (some k) = .ok none ∧ UMap.getCaseLength m (some k) = .ok none
        | some x => ∃ b l, UMap.getCase m (some k) = .ok (some b) ∧ UMap.getLength m (some x) = .ok (some l) ∧
            UMap.getCaseLength m (some k) = .ok (some l) ∧ b.length = l + 1 ∧
            UMap.get m (some x) = .ok (if l > 0 then some b else none)) ∧
      ∃ m', UMap.removeKeyCase m (some k) =
          .ok (if ks.any (fun x => fold x == fold k) then .ok else .notFound, m') ∧
        UMap.enumKeys m' = .ok (ks.filter (fun x => !(fold x == fold k))) ∧
        ∀ x, fold x ≠ fold k → UMap.get m' (some x) = UMap.get m (some x) ∧
          UMap.getLength m' (some x) = UMap.getLength m (some x) := by
  obtain ⟨es, rfl, hg⟩ := reach_wf h
  refine ⟨_, enumKeys_rep es, ?_, ?_, ?_, rep (es.filter (fun e => !(eqCase e.key k))),
    (removeKeyCase_rep es k).trans ?_, ?_, ?_⟩
  · rw [hasKeyCase_rep, List.any_map]; rfl
  · rw [countKeysCase_rep, List.countP_map]; rfl
  · rw [List.find?_map, getCase_rep, getCaseLength_rep]
    have e0 : ((fun x : Bytes => fold x == fold k) ∘ fun e : Ent => e.key) = fun e : Ent => eqCase e.key k := rfl
    rw [e0]
    cases hf : es.find? (fun e => eqCase e.key k) with
    | none => simp
    | some e =>
      have hme := List.mem_of_find?_eq_some hf
      have hfk : es.find? (fun x => x.key == e.key) = some e := by
        rcases findIdx?_find? (fun x : Ent => x.key == e.key) es with ⟨_, h2⟩ | ⟨i, e', _, h2, h3⟩
        · rw [List.find?_eq_none] at h2
          exact absurd (by simp) (h2 e hme)
        · rw [h3, nodup_inj hg.1 (List.mem_of_getElem? h2) hme (by simpa using List.find?_some h3)]
      refine ⟨e.buf, e.len, rfl, ?_, rfl, (hg.2 e hme).2.1, ?_⟩
      · rw [getLength_rep, hfk]; rfl
      · rw [get_rep, hfk]; rfl
  · rw [List.any_map]; rfl
  · rw [enumKeys_rep, List.filter_map]; rfl
  · intro x hx
    have : (es.filter (fun e => !(eqCase e.key k))).find? (fun e => e.key == x) = es.find? (fun e => e.key == x) := by
      rw [List.find?_filter]
      congr 1
      funext e
      by_cases hex : e.key = x
      · subst hex
        have : eqCase e.key k = false := by simpa [eqCase] using hx
        simp [this]
      · simp [hex]
    rw [get_rep, get_rep, getLength_rep, getLength_rep, this]
    exact ⟨rfl, rfl⟩

example : UMap.hasKeyCase sampleMap (some b!"bIN") = .ok true ∧
    UMap.getCaseLength sampleMap (some b!"bIN") = .ok (some 3) := by decide +kernel

/-! ## C13 -/

/-- **C13.** `u_map_copy` of any reachable map succeeds and yields the same structure: same keys in the same
order, same lengths, same bytes, same count. -/
theorem C13_copy_exact (m : UMap) (h : Reach m) : UMap.copy m = .ok (some m) := by
  obtain ⟨es, rfl, hg⟩ := reach_wf h
  exact copy_rep es hg

example : Reach sampleMap ∧ UMap.copy sampleMap = .ok (some sampleMap) := ⟨sampleMap_reach, by decide +kernel⟩

/-! ## C14 -/

/-- C14 fails for binary values: the copy of the three bytes 1,0,2 is the one-byte string 1. -/
theorem C14_false :
    ∃ src d, Reach src ∧ UMap.copyInto UMap.init src = .ok (.ok, d) ∧
      UMap.get src (some b!"Bin") = .ok (some [some 1, some 0, some 2, some 0]) ∧
      UMap.get d (some b!"Bin") = .ok (some [some 1, some 0, some 0]) ∧
      UMap.getLength d (some b!"Bin") = .ok (some 2) :=
  ⟨sampleMap, _, sampleMap_reach, rfl, by decide +kernel, by decide +kernel, by decide +kernel⟩

private theorem copyIntoLoop_rep (src : List Ent) (hgs : Good src) : ∀ (B : List Ent) (d : List Ent),
    (∃ A, src = A ++ B) → Good d →
    (∀ e ∈ B, e.len > 0 → ∃ v t, e.buf = strBuf v ++ t ∧ NoNul v ∧ v.length + 2 < 2 ^ 64) →
    ∃ d', copyIntoLoop (rep src) (B.map (fun e => Ptr.to e.key) ++ [Ptr.null]) (rep d) = .ok (.ok, rep d') ∧ Good d' ∧
      ∀ k, match B.find? (fun e => e.key == k) with
        | some e => ∃ e', d'.find? (fun e => e.key == k) = some e' ∧
            (e.len = 0 → e'.len = 0) ∧
            (∀ v t, e.len > 0 → e.buf = strBuf v ++ t → NoNul v → e'.len > 0 ∧ ∃ t', e'.buf = strBuf v ++ t')
        | none => d'.find? (fun e => e.key == k) = d.find? (fun e => e.key == k) := by
  intro B
  induction B with
  | nil => intro d _ hg _; exact ⟨d, rfl, hg, fun k => by simp⟩
  | cons e t ih =>
    intro d hA hg hstr
    obtain ⟨A, hA⟩ := hA
    have hme : e ∈ src := by subst hA; simp
    have hge := hgs.2 e hme
    have hfind : src.find? (fun x => x.key == e.key) = some e := by
      rcases findIdx?_find? (fun x : Ent => x.key == e.key) src with ⟨_, h2⟩ | ⟨i, e', _, h2, h3⟩
      · rw [List.find?_eq_none] at h2
        exact absurd (by simp) (h2 e hme)
      · rw [h3, nodup_inj hgs.1 (List.mem_of_getElem? h2) hme (by simpa using List.find?_some h3)]
    -- the value handed over
    obtain ⟨w, hw1, hw2, hw3, hw4⟩ : ∃ w : Option Bytes,
        (∀ c : UMap, putPtr c (some e.key) (if e.len > 0 then some e.buf else none) = UMap.put c (some e.key) w) ∧
        ValidArgs (valOf w) 0 (lenOf w) ∧ (e.len = 0 → w = none) ∧
        (∀ v t, e.len > 0 → e.buf = strBuf v ++ t → NoNul v → w = some v) := by
      by_cases hl : e.len > 0
      · obtain ⟨v, t', h1, h2, h3⟩ := hstr e (by simp) hl
        refine ⟨some v, ?_, validArgs_str _ h3, by omega, ?_⟩
        · intro c; rw [if_pos hl]; simp only [putPtr]; rw [h1, readStr_strBuf v t' h2]; rfl
        · intro v2 t2 _ hb hn
          rw [h1] at hb
          have e1 := readStr_strBuf v t' h2
          rw [hb, readStr_strBuf v2 t2 hn] at e1
          cases e1; rfl
      · refine ⟨none, ?_, validArgs_str _ (by simp [lenOf]), fun _ => rfl, by omega⟩
        intro c; rw [if_neg hl]; rfl
    obtain ⟨d', r1, r2, r3⟩ := ih (eput d e.key (valOf w) 0 (lenOf w)) ⟨A ++ [e], by simp [hA]⟩
      (eput_good _ _ _ _ _ hge.1 hg hw2) (fun x hx => hstr x (by simp [hx]))
    refine ⟨d', ?_, r2, ?_⟩
    · simp only [List.map_cons, List.cons_append, copyIntoLoop]
      rw [get_rep, hfind]
      simp only [Res.ok_bind, Option.bind_some]
      rw [hw1, put_eq, putBinary_rep d e.key _ _ _ hge.1 hg hw2]
      simpa using r1
    · intro k
      have r3k := r3 k
      by_cases hk : e.key = k
      · have hkt : t.find? (fun e => e.key == k) = none := by
          rw [List.find?_eq_none]
          intro x hx hxk
          subst hA
          have := hgs.1
          rw [List.map_append, List.nodup_append] at this
          have := this.2.1
          rw [List.map_cons, List.nodup_cons] at this
          exact this.1 (List.mem_map.2 ⟨x, hx, by rw [hk]; simpa using hxk⟩)
        rw [hkt] at r3k
        simp only at r3k
        rw [List.find?_cons, show (e.key == k) = true by simpa using hk]
        simp only
        rw [r3k, find?_eput, if_pos hk]
        cases d.find? (fun e_1 => e_1.key == e.key) with
        | some e0 =>
          refine ⟨_, rfl, fun h0 => ?_, fun v t' h1 h2 h3 => ?_⟩
          · rw [hw3 h0]; simp [upd, valOf]
          · rw [hw4 v t' h1 h2 h3]; exact ⟨(upd_str e0 v).2, (upd_str e0 v).1⟩
        | none =>
          refine ⟨_, rfl, fun h0 => ?_, fun v t' h1 h2 h3 => ?_⟩
          · rw [hw3 h0]; simp [mk, valOf]
          · rw [hw4 v t' h1 h2 h3]; exact ⟨(mk_str _ v).2, (mk_str _ v).1⟩
      · rw [List.find?_cons, show (e.key == k) = false by simpa using hk]
        simp only
        cases hft : t.find? (fun e => e.key == k) with
        | some e' => rw [hft] at r3k; exact r3k
        | none => rw [hft] at r3k; simp only at r3k ⊢; rw [r3k, find?_eput, if_neg hk]

/-- **C14, partial.** When every value of `source` is a C string (or NULL), `u_map_copy_into` succeeds and gives
`dest` the string value of `source` for every key of `source` and leaves every other key as it was. Missing:
binary values, for which the claim is false (`C14_false`). -/
theorem C14_copy_into_partial (dest src : UMap) (hd : Reach dest) (hs : Reach src)
    (hstr : ∀ k b, UMap.get src (some k) = .ok (some b) → ∃ v t, b = strBuf v ++ t ∧ NoNul v ∧ v.length + 2 < 2 ^ 64) :
    ∃ d', UMap.copyInto dest src = .ok (.ok, d') ∧
      ∀ k, (UMap.hasKey src (some k) = .ok true → UMap.hasKey d' (some k) = .ok true ∧ getStr d' k = getStr src k) ∧
        (UMap.hasKey src (some k) = .ok false → UMap.get d' (some k) = UMap.get dest (some k) ∧
          UMap.getLength d' (some k) = UMap.getLength dest (some k)) := by
  obtain ⟨ed, rfl, hgd⟩ := reach_wf hd
  obtain ⟨es, rfl, hgs⟩ := reach_wf hs
  have hfindself : ∀ e ∈ es, es.find? (fun x => x.key == e.key) = some e := by
    intro e hme
    rcases findIdx?_find? (fun x : Ent => x.key == e.key) es with ⟨_, h2⟩ | ⟨i, e', _, h2, h3⟩
    · rw [List.find?_eq_none] at h2
      exact absurd (by simp) (h2 e hme)
    · rw [h3, nodup_inj hgs.1 (List.mem_of_getElem? h2) hme (by simpa using List.find?_some h3)]
  have hstr' : ∀ e ∈ es, e.len > 0 → ∃ v t, e.buf = strBuf v ++ t ∧ NoNul v ∧ v.length + 2 < 2 ^ 64 := by
    intro e he hl
    apply hstr e.key
    rw [get_rep, hfindself e he]; simp [hl]
  obtain ⟨d', r1, r2, r3⟩ := copyIntoLoop_rep es hgs es ed ⟨[], rfl⟩ hgd hstr'
  refine ⟨rep d', r1, ?_⟩
  intro k
  have r3k := r3 k
  constructor
  · intro hk
    rw [hasKey_rep] at hk
    cases hf : es.find? (fun e => e.key == k) with
    | none =>
      rw [List.find?_eq_none] at hf
      simp only [Res.ok.injEq, List.any_eq_true] at hk
      obtain ⟨x, hx, hxk⟩ := hk
      exact absurd hxk (hf x hx)
    | some e =>
      rw [hf] at r3k
      obtain ⟨e', q1, q2, q3⟩ := r3k
      have hek := List.find?_some q1
      refine ⟨?_, ?_⟩
      · rw [hasKey_rep]; congr 1; rw [List.any_eq_true]; exact ⟨e', List.mem_of_find?_eq_some q1, hek⟩
      · simp only [getStr, get_rep, hf, q1, Option.bind_some]
        by_cases hl : e.len > 0
        · obtain ⟨v, t, b1, b2, b3⟩ := hstr' e (List.mem_of_find?_eq_some hf) hl
          obtain ⟨l1, t', l2⟩ := q3 v t hl b1 b2
          simp [hl, l1, b1, l2, readStr_strBuf _ _ b2]
        · have := q2 (by omega)
          simp [hl, this]
  · intro hk
    rw [hasKey_rep] at hk
    have : es.find? (fun e => e.key == k) = none := by
      rw [List.find?_eq_none]
      simp only [Res.ok.injEq] at hk
      rw [List.any_eq_false] at hk; exact hk
    rw [this] at r3k
    simp only at r3k
    rw [get_rep, get_rep, getLength_rep, getLength_rep, r3k]
    exact ⟨rfl, rfl⟩

example : ∃ d, UMap.copyInto sampleMap (rep [⟨b!"s", strBuf b!"new" ++ [some 0], 4⟩]) = .ok (.ok, d) ∧
    getStr d b!"s" = .ok (some b!"new") := ⟨_, rfl, by decide +kernel⟩

/-! ## C15 -/

/-- C15 fails: searching "a" finds the value "abc" (and searching "abcdef" reads out of bounds,
`C09_false_value_search`). -/
theorem C15_false :
    ∃ m, UMap.put UMap.init (some b!"k") (some b!"abc") = .ok (.ok, m) ∧
      UMap.hasValue m (some b!"a") = .ok true ∧ getStr m b!"k" = .ok (some b!"abc") :=
  ⟨_, rfl, by decide +kernel, by decide +kernel⟩

/-- **C15, no value.** A null pointer is the value of no entry, whatever the map. -/
theorem C15_null (m : UMap) (n : Nat) :
    UMap.hasValueBinary m none n = .ok false ∧ UMap.hasValue m none = .ok false ∧ UMap.hasValueCase m none = .ok false := ⟨rfl, rfl, rfl⟩

/-- **C15, partial.** On a reachable map whose stored blocks are initialised and at least as long as the searched bytes, `u_map_has_value_binary` with
a value of just these bytes answers whether some stored block *starts with* them. Missing as below. -/
theorem C15_binary_partial (m : UMap) (h : Reach m) (v : Bytes) (more : Buf)
    (hb : ∀ b, Ptr.to b ∈ m.values.getD [] → v.length ≤ b.length ∧ b.all Option.isSome) :
    ∃ r, UMap.hasValueBinary m (some (v.map some ++ more)) v.length = .ok r ∧
      (r = true ↔ ∃ b, Ptr.to b ∈ m.values.getD [] ∧ b.take v.length = v.map some) := by
  obtain ⟨es, rfl, hg⟩ := reach_wf h
  have hmem : ∀ b, Ptr.to b ∈ (rep es).values.getD [] ↔ ∃ e ∈ es, e.buf = b := by
    intro b; simp [rep]
  simp only [UMap.hasValueBinary]
  have e1 : deref (rep es).values = .ok (es.map (fun e => Ptr.to e.buf) ++ [Ptr.null]) := rfl
  have ht : (v.map some ++ more).take v.length = v.map some := by simp
  rw [e1, Res.ok_bind, scan_rep (fun x => x.take v.length == v.map some) _ Ent.buf es 0]
  · refine ⟨_, rfl, ?_⟩
    simp only [Option.isSome_map, List.findIdx?_isSome, List.any_eq_true, beq_iff_eq]
    constructor
    · rintro ⟨e, he, h1⟩; exact ⟨e.buf, (hmem _).2 ⟨e, he, rfl⟩, h1⟩
    · rintro ⟨b, hb', h1⟩
      obtain ⟨e, he, rfl⟩ := (hmem _).1 hb'
      exact ⟨e, he, h1⟩
  · intro e he
    obtain ⟨h1, h2⟩ := hb e.buf ((hmem _).2 ⟨e, he, rfl⟩)
    unfold memEq
    rw [if_pos, ht]
    refine ⟨h1, by simp, ?_, ?_⟩
    · rw [List.all_eq_true] at h2 ⊢
      exact fun x hx => h2 x (List.mem_of_mem_take hx)
    · rw [ht]; simp

/-- **C15, partial.** On a reachable map whose stored blocks are initialised and at least as long as the searched
string, `u_map_has_value` answers whether some stored block *starts with* the searched bytes. Missing: equality
instead of prefix and the absence of over-read, both false. -/
theorem C15_prefix_partial (m : UMap) (h : Reach m) (v : Bytes)
    (hb : ∀ b, Ptr.to b ∈ m.values.getD [] → v.length ≤ b.length ∧ b.all Option.isSome) :
    ∃ r, UMap.hasValue m (some v) = .ok r ∧
      (r = true ↔ ∃ b, Ptr.to b ∈ m.values.getD [] ∧ b.take v.length = v.map some) :=
  C15_binary_partial m h v [some 0] hb

/-- a value with a NUL, found by its bytes alone -/
example : UMap.hasValueBinary (rep [⟨b!"k", [some 1, some 0, some 2, some 0], 3⟩]) (some [some 1, some 0, some 2]) 3 = .ok true := by decide +kernel
example : (∀ b, Ptr.to b ∈ sampleMap.values.getD [] → b!"v".length ≤ b.length ∧ b.all Option.isSome) ∧
    UMap.hasValue sampleMap (some b!"v") = .ok true := by
  refine ⟨?_, by decide +kernel⟩
  intro b hb
  simp [sampleMap, rep] at hb
  rcases hb with rfl | rfl <;> decide

/-! ## C16 -/

/-- C16 fails: if the array of keys cannot be extended, the map loses its keys and the next query dereferences
NULL. -/
theorem C16_false_new_key :
    ∃ m m', Reach m ∧ UMap.putBinary m (some b!"new") (some (strBuf b!"v")) 0 2 (oom := some 2) = .ok (.memory, m') ∧
      UMap.hasKey m (some b!"s") = .ok true ∧ UMap.hasKey m' (some b!"s") = .ub :=
  ⟨sampleMap, _, sampleMap_reach, rfl, by decide +kernel, by decide +kernel⟩

/-- C16 fails: if an existing value cannot be extended, the former value is lost. -/
theorem C16_false_existing_key :
    ∃ m m', Reach m ∧ UMap.putBinary m (some b!"s") (some (strBuf b!"longer")) 0 7 (oom := some 0) = .ok (.memory, m') ∧
      getStr m b!"s" = .ok (some b!"v") ∧ getStr m' b!"s" = .ok none :=
  ⟨sampleMap, _, sampleMap_reach, rfl, by decide +kernel, by decide +kernel⟩

/-- **C16, partial.** When one of the first two allocations made for a new key fails (the copy of the key, the copy
of the value), `u_map_put_binary` returns `U_ERROR_MEMORY` and the map is unchanged. Missing: the later
allocations and existing keys, for which the claim is false. -/
theorem C16_failed_put_partial (m : UMap) (h : Reach m) (k : Bytes) (hk : k ≠ []) (v : Buf) (o l : Nat)
    (hnew : UMap.hasKey m (some k) = .ok false) (j : Nat) (hj : j < 2) :
    UMap.putBinary m (some k) (some v) o l (oom := some j) = .ok (.memory, m) := by
  obtain ⟨es, rfl, hg⟩ := reach_wf h
  rw [hasKey_rep] at hnew
  have hany : es.any (fun e => e.key == k) = false := by simpa using hnew
  have hnone : es.findIdx? (fun e => e.key == k) = none := by
    rw [List.findIdx?_eq_none_iff]; rw [List.any_eq_false] at hany; simpa using hany
  cases k with
  | nil => exact absurd rfl hk
  | cons c k =>
    simp only [UMap.putBinary]
    generalize c :: k = key at *
    have e1 : deref (rep es).keys = .ok (es.map (fun e => Ptr.to e.key) ++ [Ptr.null]) := rfl
    have e2 : deref (rep es).values = .ok (es.map (fun e => Ptr.to e.buf) ++ [Ptr.null]) := rfl
    have e3 : (rep es).nb = es.length := rfl
    have e4 : aget (es.map (fun e : Ent => Ptr.to e.buf) ++ [Ptr.null]) es.length = .ok .null := by
      simp [aget]
    rw [e1, e2, e3]
    simp only [Res.ok_bind, scanNb_rep, hnone, Option.map_none, e4]
    unfold putNew
    have : j = 0 ∨ j = 1 := by omega
    rcases this with rfl | rfl <;> simp

example : UMap.hasKey sampleMap (some b!"new") = .ok false := by decide +kernel

end Verif.Props
