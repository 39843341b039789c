import Verif.Props.Client
/-!
# Lemmas: what a map holds after `u_map_put` and after `u_map_copy_into` an empty map
-/
namespace Verif.Props
open Verif.UMap Verif.Client
open Verif.Spec.OMap (OMap)

/-- The strings are shorter than the address space. -/
def Fit (ps : List (Bytes × Option Bytes)) : Prop := ∀ p ∈ ps, ∀ v, p.2 = some v → v.length + 2 < 2 ^ 64

private theorem readStr_shape : ∀ (b : Buf) (v : Bytes), readStr b = .ok v → ∃ t, b = strBuf v ++ t
  | [], _, h => by cases h
  | none :: _, _, h => by cases h
  | some c :: t, v, h => by
    unfold readStr at h
    by_cases hc : c = 0
    · subst hc
      simp only [beq_self_eq_true, if_true] at h
      cases h
      exact ⟨t, rfl⟩
    · simp only [beq_iff_eq, hc, if_false] at h
      cases hr : readStr t with
      | ub => rw [hr] at h; cases h
      | ok r =>
        rw [hr] at h
        cases h
        obtain ⟨u, hu⟩ := readStr_shape t r hr
        exact ⟨u, by rw [hu]; rfl⟩

private theorem find_self (es : List Ent) (hn : (es.map (·.key)).Nodup) (e : Ent) (he : e ∈ es) :
    es.find? (fun x => x.key == e.key) = some e := by
  rcases findIdx?_find? (fun x : Ent => x.key == e.key) es with ⟨_, h2⟩ | ⟨i, e', _, h2, h3⟩
  · rw [List.find?_eq_none] at h2
    exact absurd (by simp) (h2 e he)
  · rw [h3, nodup_inj hn (List.mem_of_getElem? h2) he (by simpa using List.find?_some h3)]

theorem holds_sim {m : UMap} {ps : List (Bytes × Option Bytes)} (h : HoldsParams m ps) :
    ∃ es, m = rep es ∧ Good es ∧ Sim es ps := by
  obtain ⟨es, rfl, hg⟩ := reach_wf h.1
  refine ⟨es, rfl, hg, ?_⟩
  have hk := h.2.1
  rw [enumKeys_rep] at hk
  injection hk with hk
  have hlen := congrArg List.length hk
  simp only [List.length_map] at hlen
  refine ⟨hlen, ?_⟩
  intro i e p he hp
  have hkey : e.key = p.1 := by
    have := congrArg (·[i]?) hk
    simpa [List.getElem?_map, he, hp] using this
  refine ⟨hkey, ?_⟩
  have hg1 := (h.2.2 p (List.mem_of_getElem? hp)).1
  rw [← hkey] at hg1
  simp only [getStr, get_rep, find_self es hg.1 e (List.mem_of_getElem? he), Option.bind_some, Res.ok_bind] at hg1
  by_cases hl : e.len > 0
  · rw [if_pos hl] at hg1
    simp only at hg1
    cases hr : readStr e.buf with
    | ub => rw [hr] at hg1; cases hg1
    | ok v =>
      rw [hr] at hg1
      have : some v = p.2 := by injection hg1
      rw [← this]
      exact ⟨hl, readStr_shape _ _ hr⟩
  · rw [if_neg hl] at hg1
    have : none = p.2 := by injection hg1
    rw [← this]
    show e.len = 0
    omega

theorem sim_holds {es : List Ent} {ps : List (Bytes × Option Bytes)} (hr : Reach (rep es)) (hs : Sim es ps)
    (hn : ∀ p ∈ ps, NoNul p.1 ∧ ∀ v, p.2 = some v → NoNul v) : HoldsParams (rep es) ps := by
  obtain ⟨es', he, hg⟩ := reach_wf hr
  have hee : es = es' := by
    have hk := congrArg UMap.keys he
    have hv := congrArg UMap.values he
    have hl := congrArg UMap.lengths he
    simp only [rep, Option.some.injEq, List.append_cancel_right_eq] at hk hv hl
    clear he hg hr hs
    induction es generalizing es' with
    | nil => cases es' with
      | nil => rfl
      | cons _ _ => simp at hk
    | cons a t ih => cases es' with
      | nil => simp at hk
      | cons b t' =>
        simp only [List.map_cons, List.cons.injEq, Ptr.to.injEq] at hk hv hl
        obtain ⟨k, b', l⟩ := a
        obtain ⟨k', b'', l'⟩ := b
        simp only at hk hv hl
        rw [hk.1, hv.1, hl.1, ih _ hk.2 hv.2 hl.2]
  subst hee
  refine ⟨hr, by rw [enumKeys_rep, sim_keys hs], ?_⟩
  intro p hp
  refine ⟨?_, hn p hp⟩
  obtain ⟨i, hi, hpi⟩ := List.mem_iff_getElem.1 hp
  have hi' : i < es.length := by rw [hs.1]; exact hi
  have hsh := hs.2 i es[i] p (List.getElem?_eq_getElem hi') (by rw [List.getElem?_eq_getElem hi, hpi])
  have hme : es[i] ∈ es := List.getElem_mem hi'
  generalize es[i] = e at hsh hme
  rw [← hsh.1]
  simp only [getStr, get_rep, find_self es hg.1 e hme, Option.bind_some, Res.ok_bind]
  have h2 := hsh.2
  have hnv := (hn p hp).2
  cases hp2 : p.2 with
  | none =>
    rw [hp2] at h2
    simp only at h2
    rw [if_neg (by omega)]
  | some v =>
    rw [hp2] at h2
    obtain ⟨hl, t, ht⟩ := h2
    rw [if_pos hl]
    simp only [ht, readStr_strBuf v t (hnv v hp2)]
    rfl

theorem holds_put {m : UMap} {ps : List (Bytes × Option Bytes)} (h : HoldsParams m ps) (k : Bytes) (v : Option Bytes)
    (hk : k ≠ []) (hkn : NoNul k) (hv : ∀ x, v = some x → NoNul x ∧ x.length + 2 < 2 ^ 64) :
    ∃ m', UMap.put m (some k) v = .ok (.ok, m') ∧ HoldsParams m' (Spec.OMap.put ps k v) := by
  obtain ⟨es, rfl, hg, hs⟩ := holds_sim h
  have hva : ValidArgs (valOf v) 0 (lenOf v) := by
    apply validArgs_str
    cases v with
    | none => simp [lenOf]
    | some x => have := (hv x rfl).2; simp only [lenOf]; omega
  have hput : UMap.put (rep es) (some k) v = .ok (.ok, rep (eput es k (valOf v) 0 (lenOf v))) := by
    rw [put_eq, putBinary_rep es k _ _ _ hk hg hva]
  refine ⟨_, hput, sim_holds (Reach.put h.1 hva hput) (sim_eput hs k v) ?_⟩
  intro p hp
  unfold Spec.OMap.put at hp
  split at hp
  · obtain ⟨q, hq, rfl⟩ := List.mem_map.1 hp
    split
    · exact ⟨hkn, fun x hx => (hv x hx).1⟩
    · exact (h.2.2 q hq).2
  · rcases List.mem_append.1 hp with hp | hp
    · exact (h.2.2 p hp).2
    · rw [List.mem_singleton.1 hp]
      exact ⟨hkn, fun x hx => (hv x hx).1⟩

theorem holds_init : HoldsParams UMap.init [] := ⟨Reach.init, rfl, by simp⟩

theorem holds_ne {m : UMap} {ps : List (Bytes × Option Bytes)} (h : HoldsParams m ps) : ∀ p ∈ ps, p.1 ≠ [] := by
  intro p hp
  obtain ⟨es, rfl, hg, hs⟩ := holds_sim h
  obtain ⟨i, hi, hpi⟩ := List.mem_iff_getElem.1 hp
  have hi' : i < es.length := by rw [hs.1]; exact hi
  have hsh := hs.2 i es[i] p (List.getElem?_eq_getElem hi') (by rw [List.getElem?_eq_getElem hi, hpi])
  rw [← hsh.1]
  exact (hg.2 _ (List.getElem_mem hi')).1

theorem holds_nodup {m : UMap} {ps : List (Bytes × Option Bytes)} (h : HoldsParams m ps) : (ps.map (·.1)).Nodup := by
  obtain ⟨es, rfl, hg, hs⟩ := holds_sim h
  rw [← sim_keys hs]
  exact hg.1

private theorem copy_loop {src : UMap} {all : List (Bytes × Option Bytes)} (hs : HoldsParams src all) (hf : Fit all) :
    ∀ (B A : List (Bytes × Option Bytes)) (d : UMap), all = A ++ B → HoldsParams d A →
      ∃ d', copyIntoLoop src (B.map (fun p => Ptr.to p.1) ++ [Ptr.null]) d = .ok (.ok, d') ∧ HoldsParams d' all := by
  intro B
  induction B with
  | nil => intro A d hA hd; exact ⟨d, rfl, by rw [hA, List.append_nil]; exact hd⟩
  | cons p t ih =>
    intro A d hA hd
    have hp : p ∈ all := by rw [hA]; simp
    obtain ⟨hp1, hp2, hp3⟩ := hs.2.2 p hp
    have hnew : Spec.OMap.put A p.1 p.2 = A ++ [p] := by
      unfold Spec.OMap.put
      rw [if_neg]
      intro hc
      obtain ⟨q, hq, hqp⟩ := List.any_eq_true.1 hc
      have hn := holds_nodup hs
      rw [hA, List.map_append, List.nodup_append] at hn
      exact hn.2.2 q.1 (List.mem_map.2 ⟨q, hq, rfl⟩) p.1 (by simp) (by simpa using hqp)
    obtain ⟨d1, e1, e2⟩ := holds_put hd p.1 p.2 (holds_ne hs p hp) hp2 (fun x hx => ⟨hp3 x hx, hf p hp x hx⟩)
    rw [hnew] at e2
    obtain ⟨d', r1, r2⟩ := ih (A ++ [p]) d1 (by rw [hA]; simp) e2
    refine ⟨d', ?_, r2⟩
    have hstep : ∀ l, copyIntoLoop src (Ptr.to p.1 :: l) d = copyIntoLoop src l d1 := by
      intro l
      conv => lhs; unfold copyIntoLoop
      unfold getStr at hp1
      cases hg : UMap.get src (some p.1) with
      | ub => rw [hg] at hp1; cases hp1
      | ok o =>
        rw [hg] at hp1
        cases o with
        | none =>
          have : none = p.2 := by injection hp1
          rw [← this] at e1
          simp only [Res.ok_bind, putPtr, e1, if_true]
        | some b =>
          simp only [Res.ok_bind] at hp1
          cases hr : readStr b with
          | ub => rw [hr] at hp1; cases hp1
          | ok v =>
            rw [hr] at hp1
            have : some v = p.2 := by injection hp1
            rw [← this] at e1
            simp only [Res.ok_bind, putPtr, hr, e1, if_true]
    rw [List.map_cons, List.cons_append, hstep, r1]

/-- A map of strings copied into an empty one: same entries in the same order. -/
theorem holds_copy {m : UMap} {ps : List (Bytes × Option Bytes)} (h : HoldsParams m ps) (hf : Fit ps) :
    ∃ d, UMap.copyInto UMap.init m = .ok (.ok, d) ∧ HoldsParams d ps := by
  obtain ⟨es, rfl, hg, hs⟩ := holds_sim h
  have : es.map (fun e => Ptr.to e.key) = ps.map (fun p => Ptr.to p.1) := by
    have := congrArg (List.map Ptr.to) (sim_keys hs)
    simpa [Function.comp_def] using this
  obtain ⟨d, e1, e2⟩ := copy_loop h hf ps [] UMap.init rfl holds_init
  refine ⟨d, ?_, e2⟩
  unfold copyInto
  show copyIntoLoop (rep es) (es.map (fun e => Ptr.to e.key) ++ [Ptr.null]) UMap.init = _
  rw [this, e1]

private theorem into_loop {src : UMap} {all : List (Bytes × Option Bytes)} (hs : HoldsParams src all) (hf : Fit all) :
    ∀ (B ps : List (Bytes × Option Bytes)) (d : UMap), (∀ p ∈ B, p ∈ all) → HoldsParams d ps →
      ∃ d', copyIntoLoop src (B.map (fun p => Ptr.to p.1) ++ [Ptr.null]) d = .ok (.ok, d') ∧
        HoldsParams d' (B.foldl (fun m p => Spec.OMap.put m p.1 p.2) ps) := by
  intro B
  induction B with
  | nil => intro ps d _ hd; exact ⟨d, rfl, hd⟩
  | cons p t ih =>
    intro ps d hB hd
    have hp : p ∈ all := hB p (by simp)
    obtain ⟨hp1, hp2, hp3⟩ := hs.2.2 p hp
    obtain ⟨d1, e1, e2⟩ := holds_put hd p.1 p.2 (holds_ne hs p hp) hp2 (fun x hx => ⟨hp3 x hx, hf p hp x hx⟩)
    obtain ⟨d', r1, r2⟩ := ih _ d1 (fun q hq => hB q (by simp [hq])) e2
    refine ⟨d', ?_, r2⟩
    have hstep : ∀ l, copyIntoLoop src (Ptr.to p.1 :: l) d = copyIntoLoop src l d1 := by
      intro l
      conv => lhs; unfold copyIntoLoop
      unfold getStr at hp1
      cases hg : UMap.get src (some p.1) with
      | ub => rw [hg] at hp1; cases hp1
      | ok o =>
        rw [hg] at hp1
        cases o with
        | none =>
          have : none = p.2 := by injection hp1
          rw [← this] at e1
          simp only [Res.ok_bind, putPtr, e1, if_true]
        | some b =>
          simp only [Res.ok_bind] at hp1
          cases hr : readStr b with
          | ub => rw [hr] at hp1; cases hp1
          | ok v =>
            rw [hr] at hp1
            have : some v = p.2 := by injection hp1
            rw [← this] at e1
            simp only [Res.ok_bind, putPtr, hr, e1, if_true]
    rw [List.map_cons, List.cons_append, hstep, r1]

/-- A map of strings copied into another one: its entries are put one after the other. -/
theorem holds_into {m d : UMap} {ps qs : List (Bytes × Option Bytes)} (h : HoldsParams m ps) (hf : Fit ps) (hd : HoldsParams d qs) :
    ∃ d', UMap.copyInto d m = .ok (.ok, d') ∧ HoldsParams d' (ps.foldl (fun m p => Spec.OMap.put m p.1 p.2) qs) := by
  obtain ⟨es, rfl, hg, hs⟩ := holds_sim h
  have : es.map (fun e => Ptr.to e.key) = ps.map (fun p => Ptr.to p.1) := by
    have := congrArg (List.map Ptr.to) (sim_keys hs)
    simpa [Function.comp_def] using this
  obtain ⟨d', e1, e2⟩ := into_loop h hf ps qs d (fun _ hp => hp) hd
  refine ⟨d', ?_, e2⟩
  unfold copyInto
  show copyIntoLoop (rep es) (es.map (fun e => Ptr.to e.key) ++ [Ptr.null]) d = _
  rw [this, e1]

end Verif.Props
