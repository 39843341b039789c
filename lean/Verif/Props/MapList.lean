import Verif.Props.UMap
import Verif.Model.MapList
/-!
# C189: the lists of a map belong to the caller
-/
namespace Verif.Props
open Verif.UMap
open Verif.Spec.MapList (Side Act shown keeps Careful)
open Verif.Spec.OMap (OMap Op)

namespace MapListAux

theorem call_eq (m : UMap) (op : Op) : MapList.call m op = callMap m op := by cases op <;> rfl

theorem valuesLoop_rep : ∀ (es : List Ent) (m : OMap), (∀ e ∈ es, e.Good) → Sim es m →
    (∀ p ∈ m, ∀ s, p.2 = some s → NoNul s) →
    MapList.valuesLoop (es.map (fun e => Ptr.to e.buf) ++ [Ptr.null]) = .ok (m.map fun p => p.2.getD []) := by
  intro es
  induction es with
  | nil =>
    intro m _ hs _
    cases m with
    | nil => rfl
    | cons p t => exact absurd hs.1 (by simp)
  | cons e t ih =>
    intro m hg hs hn
    cases m with
    | nil => exact absurd hs.1 (by simp)
    | cons p u =>
      rw [sim_cons_iff] at hs
      have hrest := ih u (fun x hx => hg x (by simp [hx])) hs.2 (fun x hx => hn x (by simp [hx]))
      have hread : readStr e.buf = .ok (p.2.getD []) := by
        obtain ⟨_, hlen, hz, _⟩ := hg e (by simp)
        obtain ⟨_, h2⟩ := hs.1
        cases hp : p.2 with
        | none =>
          rw [hp] at h2
          simp only at h2
          rw [h2] at hlen hz
          match hb : e.buf, hlen, hz with
          | [x], _, hz =>
            simp at hz
            subst hz
            rfl
        | some v =>
          rw [hp] at h2
          obtain ⟨_, t', ht⟩ := h2
          rw [ht]
          exact readStr_strBuf v t' (hn p (by simp) v hp)
      simp only [List.map_cons, List.cons_append, MapList.valuesLoop, hread, Res.ok_bind, hrest]
      rfl

theorem enumValues_rep (es : List Ent) (m : OMap) (hg : Good es) (hs : Sim es m)
    (hn : ∀ p ∈ m, ∀ s, p.2 = some s → NoNul s) : MapList.enumValues (rep es) = .ok (shown m .values) :=
  valuesLoop_rep es m hg.2 hs hn

theorem sim_keys : ∀ (es : List Ent) (m : OMap), Sim es m → es.map (·.key) = m.map (·.1) := by
  intro es
  induction es with
  | nil => intro m hs; cases m with
    | nil => rfl
    | cons p t => exact absurd hs.1 (by simp)
  | cons e t ih => intro m hs; cases m with
    | nil => exact absurd hs.1 (by simp)
    | cons p u =>
      rw [sim_cons_iff] at hs
      simp [ih u hs.2, hs.1.1]

theorem enumKeys_sim (es : List Ent) (m : OMap) (hs : Sim es m) : enumKeys (rep es) = .ok (shown m .keys) := by
  rw [enumKeys_rep, sim_keys es m hs]; rfl

theorem keeps_shown (m : OMap) (s : Side) (op : Op) (h : keeps m s op = true) :
    shown (Spec.OMap.step m op).2 s = shown m s ∧ (Spec.OMap.step m op).2.length = m.length ∧ op ≠ .empty := by
  cases op with
  | put k v =>
    simp only [keeps, Bool.or_eq_true, beq_iff_eq, Bool.and_eq_true] at h
    by_cases hk : k = []
    · simp [Spec.OMap.step, hk]
    · obtain h | ⟨rfl, ha⟩ := h
      · exact absurd h hk
      · refine ⟨?_, ?_, by simp⟩
        · simp only [Spec.OMap.step, hk, if_false, Spec.OMap.put, ha, if_true, shown, List.map_map]
          apply List.map_congr_left
          intro p _
          simp only [Function.comp]
          split <;> simp_all
        · simp [Spec.OMap.step, hk, Spec.OMap.put, ha]
  | removeKey k =>
    have hr : Spec.OMap.remove m k = m := by
      unfold Spec.OMap.remove
      rw [List.filter_eq_self]
      intro p hp
      simp only [keeps, Bool.not_eq_true', List.any_eq_false] at h
      simpa using h p hp
    simp [Spec.OMap.step, hr]
  | removeAt i =>
    simp only [keeps, decide_eq_true_eq] at h
    have : ¬ i < m.length := by omega
    simp [Spec.OMap.step, this]
  | empty => simp [keeps] at h

/-- What the careful program relies on. -/
structure Inv (s : MapList.St) (m : OMap) (fresh : List (Side × Bool)) (snaps : List (List Bytes)) : Prop where
  rep : ∃ es, s.map = UMap.rep es ∧ Good es ∧ Sim es m
  nul : ∀ p ∈ m, ∀ x, p.2 = some x → NoNul x
  k : s.keysGone = false
  v : s.valuesGone = false
  lenT : s.taken.length = fresh.length
  lenS : snaps.length = fresh.length
  lists : ∀ (i : Nat) (side : Side), fresh[i]? = some (side, true) →
    s.taken[i]? = some (side, s.block) ∧ snaps[i]? = some (shown m side)

theorem run_careful (p : List Act) : ∀ (s : MapList.St) (m : OMap) (fresh : List (Side × Bool))
    (snaps : List (List Bytes)), Inv s m fresh snaps → (∀ op, Act.change op ∈ p → ValidOp op) → Careful m fresh p →
    MapList.run s p = .ok (Spec.MapList.run m snaps p) := by
  induction p with
  | nil =>
    intro s m fresh snaps hi _ _
    obtain ⟨es, he, _, _⟩ := hi.rep
    simp [MapList.run, MapList.clean, hi.k, hi.v, he, empty_rep, Spec.MapList.run]
  | cons a t ih =>
    intro s m fresh snaps hi hv hc
    have hv' : ∀ op, Act.change op ∈ t → ValidOp op := fun op h => hv op (by simp [h])
    obtain ⟨es, he, hg, hs⟩ := hi.rep
    cases a with
    | change op =>
      obtain ⟨es', h1, g', s'⟩ := UMapSim.step_sim es m hg hs op (hv op (by simp))
      have hn' := UMapSim.noNul_run [op] m hi.nul (by simpa using hv op (by simp))
      have hact : MapList.act s (.change op) = .ok ([], { s with map := UMap.rep es', block := if MapList.moves s.map (UMap.rep es') op then s.block + 1 else s.block }) := by
        simp only [MapList.act, call_eq, he, h1, Res.ok_bind, hi.k, hi.v, Bool.false_and, Bool.or_self]
        rfl
      simp only [MapList.run, hact, Res.ok_bind, Spec.MapList.run]
      rw [ih _ _ _ snaps ?_ hv' hc]
      · rfl
      · refine ⟨⟨es', rfl, g', s'⟩, hn', hi.k, hi.v, by simpa using hi.lenT, by simpa using hi.lenS, ?_⟩
        intro i side hf
        rw [List.getElem?_map, Option.map_eq_some_iff] at hf
        obtain ⟨⟨sd, b⟩, hf, hb⟩ := hf
        simp only [Prod.mk.injEq, Bool.and_eq_true] at hb
        obtain ⟨rfl, rfl, hk⟩ := hb
        obtain ⟨ht, hsn⟩ := hi.lists i sd hf
        obtain ⟨k1, k2, k3⟩ := keeps_shown m sd op hk
        have hmv : MapList.moves s.map (UMap.rep es') op = false := by
          have hl : es'.length = es.length := by rw [s'.1, hs.1, k2]
          rw [he]
          cases op with
          | empty => exact absurd rfl k3
          | _ => simp [MapList.moves, UMap.rep, hl]
        simp only [hmv, Bool.false_eq_true, if_false]
        exact ⟨ht, by rw [k1]; exact hsn⟩
    | take side =>
      simp only [MapList.run, MapList.act, Spec.MapList.run]
      show (do let rest ← MapList.run { s with taken := s.taken ++ [(side, s.block)] } t; Res.ok ([] ++ rest)) = _
      rw [ih _ _ _ (snaps ++ [shown m side]) ?_ hv' hc]
      · rfl
      · refine ⟨⟨es, he, hg, hs⟩, hi.nul, hi.k, hi.v, by simpa using hi.lenT, by simpa using hi.lenS, ?_⟩
        intro i sd hf
        by_cases hlt : i < fresh.length
        · rw [List.getElem?_append_left hlt] at hf
          obtain ⟨a1, a2⟩ := hi.lists i sd hf
          rw [List.getElem?_append_left (by rw [hi.lenT]; exact hlt), List.getElem?_append_left (by rw [hi.lenS]; exact hlt)]
          exact ⟨a1, a2⟩
        · have hge : fresh.length ≤ i := by omega
          rw [List.getElem?_append_right hge] at hf
          rw [List.getElem?_append_right (by rw [hi.lenT]; exact hge), List.getElem?_append_right (by rw [hi.lenS]; exact hge),
            hi.lenT, hi.lenS]
          match hd : i - fresh.length, hf with
          | 0, hf =>
            simp at hf
            subst hf
            simp
    | read i =>
      obtain ⟨⟨side, hf⟩, hc'⟩ := hc
      obtain ⟨ht, hsn⟩ := hi.lists i side hf
      have hact : MapList.act s (.read i) = .ok ([shown m side], s) := by
        have hgone : MapList.gone s side = false := by cases side <;> simp [MapList.gone, hi.k, hi.v]
        simp only [MapList.act, ht, hgone, ne_eq, not_true_eq_false, Bool.false_eq_true, or_self, if_false, he]
        cases side with
        | keys => simp only [enumKeys_sim es m hs, Res.ok_bind]; rfl
        | values => simp only [enumValues_rep es m hg hs hi.nul, Res.ok_bind]; rfl
      simp only [MapList.run, hact, Res.ok_bind, Spec.MapList.run]
      rw [ih s m fresh snaps hi hv' hc']
      simp [List.getD_eq_getElem?_getD, hsn]
    | free i => exact absurd hc (by simp [Careful])

/-- A freed array stays freed. -/
theorem act_gone (s s' : MapList.St) (a : Act) (r : List (List Bytes)) (h : MapList.act s a = .ok (r, s'))
    (hg : s.keysGone = true ∨ s.valuesGone = true) : s'.keysGone = true ∨ s'.valuesGone = true := by
  cases a with
  | change op =>
    simp only [MapList.act] at h
    cases hc : MapList.call s.map op with
    | ub => simp [hc] at h
    | ok x =>
      simp only [hc, Res.ok_bind] at h
      split at h
      · cases h
      · cases h; exact hg
  | take side => simp only [MapList.act] at h; cases h; exact hg
  | read i =>
    simp only [MapList.act] at h
    cases ht : s.taken[i]? with
    | none => simp [ht] at h
    | some x =>
      obtain ⟨side, b⟩ := x
      simp only [ht] at h
      split at h
      · cases h
      · cases side with
        | keys =>
          simp only at h
          cases he : enumKeys s.map with
          | ub => simp [he] at h
          | ok x => simp only [he, Res.ok_bind] at h; cases h; exact hg
        | values =>
          simp only at h
          cases he : MapList.enumValues s.map with
          | ub => simp [he] at h
          | ok x => simp only [he, Res.ok_bind] at h; cases h; exact hg
  | free i =>
    simp only [MapList.act] at h
    cases ht : s.taken[i]? with
    | none => simp [ht] at h
    | some x =>
      obtain ⟨side, b⟩ := x
      simp only [ht] at h
      split at h
      · cases h
      · cases side <;> (cases h; simp)

theorem act_free (s s' : MapList.St) (i : Nat) (r : List (List Bytes)) (h : MapList.act s (.free i) = .ok (r, s')) :
    s'.keysGone = true ∨ s'.valuesGone = true := by
  simp only [MapList.act] at h
  cases ht : s.taken[i]? with
  | none => simp [ht] at h
  | some x =>
    obtain ⟨side, b⟩ := x
    simp only [ht] at h
    split at h
    · cases h
    · cases side <;> (cases h; simp)

theorem run_gone (p : List Act) : ∀ s : MapList.St, (s.keysGone = true ∨ s.valuesGone = true) →
    MapList.run s p = .ub := by
  induction p with
  | nil =>
    intro s h
    have : MapList.clean s = .ub := by
      rcases h with h | h <;> simp [MapList.clean, h]
    simp [MapList.run, this]
  | cons a t ih =>
    intro s h
    simp only [MapList.run]
    cases ha : MapList.act s a with
    | ub => rfl
    | ok x => simp [ih x.2 (act_gone s x.2 a x.1 ha h)]

theorem run_free (p : List Act) : ∀ s : MapList.St, (∃ i, Act.free i ∈ p) → MapList.run s p = .ub := by
  induction p with
  | nil => intro s h; simp at h
  | cons a t ih =>
    intro s ⟨i, h⟩
    simp only [MapList.run]
    cases ha : MapList.act s a with
    | ub => rfl
    | ok x =>
      rcases List.mem_cons.1 h with rfl | h
      · simp [run_gone t x.2 (act_free s x.2 i x.1 ha)]
      · simp [ih x.2 ⟨i, h⟩]

end MapListAux
open MapListAux

/-- **C189, the lists.** After every history of changes on a fresh map the two lists show the ideal map: same length, the
keys in the order of insertion, beside each key its value (the empty string for NULL). -/
theorem C189_shown (h : List Op) (hv : ∀ op ∈ h, ValidOp op) :
    MapList.run MapList.start (h.map Act.change ++ [.take .keys, .take .values, .read 0, .read 1]) =
      .ok [(Spec.OMap.run [] h).2.map (·.1), (Spec.OMap.run [] h).2.map (fun p => p.2.getD [])] := by
  have hrun : ∀ (h : List Op) (m : OMap), Careful m [] (h.map Act.change ++ [.take .keys, .take .values, .read 0, .read 1]) ∧
      Spec.MapList.run m [] (h.map Act.change ++ [.take .keys, .take .values, .read 0, .read 1]) =
        [(Spec.OMap.run m h).2.map (·.1), (Spec.OMap.run m h).2.map (fun p => p.2.getD [])] := by
    intro h
    induction h with
    | nil => intro m; exact ⟨⟨⟨.keys, rfl⟩, ⟨.values, rfl⟩, trivial⟩, rfl⟩
    | cons op t ih => intro m; exact ih (Spec.OMap.step m op).2
  rw [run_careful _ _ [] [] [] ⟨⟨[], rfl, good_nil, sim_nil⟩, by simp, rfl, rfl, rfl, rfl, by simp⟩ ?_ (hrun h []).1,
    (hrun h []).2]
  intro op hop
  simp at hop
  exact hv op hop

/-- **C189, careful programs.** A program that reads a list only as long as the map keeps it — no new key, no removal, for
a list of values no new value — and that frees none sees what the documentation says, and `u_map_clean` frees
everything once. -/
theorem C189_careful_partial (p : List Act) (hv : ∀ op, Act.change op ∈ p → ValidOp op) (hc : Careful [] [] p) :
    MapList.run MapList.start p = .ok (Spec.MapList.run [] [] p) :=
  run_careful p _ [] [] [] ⟨⟨[], rfl, good_nil, sim_nil⟩, by simp, rfl, rfl, rfl, rfl, by simp⟩ hv hc

/-- C189 fails: no program that frees a list with `u_map_clean_enum`, as the header says, survives — the map itself is
freed with it. -/
theorem C189_free_false (p : List Act) (h : ∃ i, Act.free i ∈ p) : MapList.run MapList.start p = .ub :=
  run_free p _ h

/-- C189 fails: a list of values asked for before a value is replaced shows the new value. -/
theorem C189_copy_false :
    MapList.run MapList.start [.change (.put b!"k" (some b!"old")), .take .values, .change (.put b!"k" (some b!"new")), .read 0]
      = .ok [[b!"new"]] ∧
    Spec.MapList.run [] [] [.change (.put b!"k" (some b!"old")), .take .values, .change (.put b!"k" (some b!"new")), .read 0]
      = [[b!"old"]] := ⟨by decide +kernel, by decide +kernel⟩

/-- C189 fails: a list asked for before a key is added or removed, or the map is emptied, is freed memory. -/
theorem C189_stale_false :
    MapList.run MapList.start [.change (.put b!"k" (some b!"v")), .take .keys, .change (.put b!"l" (some b!"w")), .read 0]
      = .ub ∧
    MapList.run MapList.start [.change (.put b!"k" (some b!"v")), .take .keys, .change (.removeKey b!"k"), .read 0] = .ub ∧
    MapList.run MapList.start [.change (.put b!"k" (some b!"v")), .take .keys, .change (.removeAt 0), .read 0] = .ub ∧
    MapList.run MapList.start [.take .values, .change .empty, .read 0] = .ub ∧
    MapList.run MapList.start [.change (.put b!"k" (some b!"v")), .take .keys, .change (.put b!"l" (some b!"w"))] = .ok [] :=
  ⟨by decide +kernel, by decide +kernel, by decide +kernel, by decide +kernel, by decide +kernel⟩

/-- The program of the next example. -/
def sampleListing : List Act :=
  [.change (.put b!"a" (some b!"1")), .change (.put b!"b" none), .take .keys, .take .values, .read 1,
   .change (.put b!"a" (some b!"2")), .read 0, .take .values, .read 2, .change (.removeKey b!"zzz"), .read 2]

example : Careful [] [] sampleListing := by
  refine ⟨⟨.values, by decide +kernel⟩, ⟨.keys, by decide +kernel⟩, ⟨.values, by decide +kernel⟩,
    ⟨.values, by decide +kernel⟩, trivial⟩

example : MapList.run MapList.start sampleListing =
    .ok [[b!"1", []], [b!"a", b!"b"], [b!"2", []], [b!"2", []]] := by decide +kernel

end Verif.Props
