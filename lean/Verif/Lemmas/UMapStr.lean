import Verif.Lemmas.UMap
import Verif.Spec.OMap
/-!
# String maps: entries as (key, optional string)
-/
namespace Verif.UMap
open Verif.Spec.OMap (OMap)

/-- A string entry: what the API shows of it. -/
def Shows (e : Ent) (p : Bytes × Option Bytes) : Prop :=
  e.key = p.1 ∧
  match p.2 with
  | some v => e.len > 0 ∧ ∃ t, e.buf = strBuf v ++ t
  | none => e.len = 0

/-- A list of entries shows an ideal map. -/
def Sim (es : List Ent) (m : OMap) : Prop :=
  es.length = m.length ∧ ∀ (i : Nat) e p, es[i]? = some e → m[i]? = some p → Shows e p

theorem sim_nil : Sim [] [] := ⟨rfl, by simp⟩

theorem sim_cons_iff (e : Ent) (p : Bytes × Option Bytes) (es : List Ent) (m : OMap) :
    Sim (e :: es) (p :: m) ↔ Shows e p ∧ Sim es m := by
  constructor
  · rintro ⟨h1, h2⟩
    exact ⟨h2 0 e p rfl rfl, by simpa using h1, fun i e' p' he hp => h2 (i + 1) e' p' (by simpa using he) (by simpa using hp)⟩
  · rintro ⟨h0, h1, h2⟩
    refine ⟨by simpa using h1, ?_⟩
    intro i e' p' he hp
    cases i with
    | zero => simp only [List.getElem?_cons_zero, Option.some.injEq] at he hp; subst he; subst hp; exact h0
    | succ i => exact h2 i e' p' (by simpa using he) (by simpa using hp)

/-- Induction principle for `Sim`. -/
theorem sim_ind {P : List Ent → OMap → Prop} (nil : P [] [])
    (cons : ∀ e p es m, Shows e p → Sim es m → P es m → P (e :: es) (p :: m)) :
    ∀ es m, Sim es m → P es m := by
  intro es
  induction es with
  | nil =>
    intro m h
    have : m = [] := List.length_eq_zero_iff.1 (by simpa using h.1.symm)
    subst this; exact nil
  | cons e es ih =>
    intro m h
    cases m with
    | nil => exact absurd h.1 (by simp)
    | cons p m =>
      rw [sim_cons_iff] at h
      exact cons e p es m h.1 h.2 (ih m h.2)

theorem sim_keys {es : List Ent} {m : OMap} (h : Sim es m) : es.map (·.key) = m.map (·.1) :=
  sim_ind (P := fun es m => es.map (·.key) = m.map (·.1)) rfl (fun e p es m hs _ ih => by
    rw [List.map_cons, List.map_cons, hs.1, ih]) es m h

theorem sim_any {es : List Ent} {m : OMap} (h : Sim es m) (q : Bytes → Bool) :
    es.any (fun e => q e.key) = m.any (fun p => q p.1) :=
  sim_ind (P := fun es m => es.any (fun e => q e.key) = m.any (fun p => q p.1)) rfl (fun e p es m hs _ ih => by
    rw [List.any_cons, List.any_cons, hs.1, ih]) es m h

theorem sim_filter {es : List Ent} {m : OMap} (h : Sim es m) (q : Bytes → Bool) :
    Sim (es.filter (fun e => q e.key)) (m.filter (fun p => q p.1)) :=
  sim_ind (P := fun es m => Sim (es.filter (fun e => q e.key)) (m.filter (fun p => q p.1))) sim_nil
    (fun e p es m hs _ ih => by
      rw [List.filter_cons, List.filter_cons, hs.1]
      split
      · rw [sim_cons_iff]; exact ⟨hs, ih⟩
      · exact ih) es m h

theorem sim_eraseIdx {es : List Ent} {m : OMap} (h : Sim es m) (i : Nat) :
    Sim (es.eraseIdx i) (m.eraseIdx i) := by
  revert i
  exact sim_ind (P := fun es m => ∀ i, Sim (es.eraseIdx i) (m.eraseIdx i)) (fun i => by simpa using sim_nil)
    (fun e p es m hs hsim ih i => by
      cases i with
      | zero => simpa using hsim
      | succ i => rw [List.eraseIdx_cons_succ, List.eraseIdx_cons_succ, sim_cons_iff]; exact ⟨hs, ih i⟩) es m h

theorem sim_append {es : List Ent} {m : OMap} (h : Sim es m) (e : Ent) (p : Bytes × Option Bytes) (hs : Shows e p) :
    Sim (es ++ [e]) (m ++ [p]) :=
  sim_ind (P := fun es m => Sim (es ++ [e]) (m ++ [p])) ((sim_cons_iff e p [] []).2 ⟨hs, sim_nil⟩)
    (fun e' p' es m hs' _ ih => (sim_cons_iff e' p' _ _).2 ⟨hs', ih⟩) es m h

theorem sim_map {es : List Ent} {m : OMap} (h : Sim es m) (f : Ent → Ent) (g : Bytes × Option Bytes → Bytes × Option Bytes)
    (hfg : ∀ e p, Shows e p → Shows (f e) (g p)) : Sim (es.map f) (m.map g) :=
  sim_ind (P := fun es m => Sim (es.map f) (m.map g)) sim_nil
    (fun e' p' es m hs' _ ih => (sim_cons_iff _ _ _ _).2 ⟨hfg _ _ hs', ih⟩) es m h

theorem sim_find {es : List Ent} {m : OMap} (h : Sim es m) (q : Bytes → Bool) :
    (es.find? (fun e => q e.key) = none ∧ m.find? (fun p => q p.1) = none) ∨
    ∃ e p, es.find? (fun e => q e.key) = some e ∧ m.find? (fun p => q p.1) = some p ∧ Shows e p :=
  sim_ind (P := fun es m => (es.find? (fun e => q e.key) = none ∧ m.find? (fun p => q p.1) = none) ∨
      ∃ e p, es.find? (fun e => q e.key) = some e ∧ m.find? (fun p => q p.1) = some p ∧ Shows e p)
    (Or.inl ⟨rfl, rfl⟩)
    (fun e p es m hs _ ih => by
      simp only [List.find?_cons, hs.1]
      by_cases hq : q p.1 = true
      · right; exact ⟨e, p, by simp [hq], by simp [hq], hs⟩
      · simpa [hq] using ih) es m h

/-- The arguments `u_map_put` passes on. -/
def valOf (v : Option Bytes) : Option Buf := v.map strBuf
/-- The length `u_map_put` passes on. -/
def lenOf : Option Bytes → Nat
  | some v => v.length + 1
  | none => 0

theorem put_eq (m : UMap) (k : Option Bytes) (v : Option Bytes) (oom : Option Nat) :
    put m k v oom = putBinary m k (valOf v) 0 (lenOf v) oom := by
  cases v <;> rfl

theorem strBuf_length (v : Bytes) : (strBuf v).length = v.length + 1 := by simp [strBuf]

theorem validArgs_str (v : Option Bytes) (h : lenOf v + 1 < 2 ^ 64) : ValidArgs (valOf v) 0 (lenOf v) := by
  refine ⟨by simpa using h, ?_, ?_⟩
  · intro src hs
    cases v with
    | none => simp [valOf] at hs
    | some v => simp only [valOf, Option.map_some, Option.some.injEq] at hs; subst hs; simp [lenOf, strBuf_length]
  · cases v with
    | none => simp [lenOf]
    | some v => simp [valOf]

theorem upd_str (e : Ent) (v : Bytes) :
    (∃ t, (upd e (some (strBuf v)) 0 (v.length + 1)).buf = strBuf v ++ t) ∧
      (upd e (some (strBuf v)) 0 (v.length + 1)).len > 0 := by
  have ht : (strBuf v).take (v.length + 1) = strBuf v := by rw [← strBuf_length, List.take_length]
  unfold upd
  simp only [Nat.zero_add]
  by_cases h : e.len < v.length + 1
  · simp only [h, if_true]
    refine ⟨?_, by omega⟩
    rw [copyAt, ht, List.take_zero, List.nil_append, List.set_append_right _ _ (by simp [strBuf_length])]
    exact ⟨_, rfl⟩
  · simp only [h, if_false]
    refine ⟨?_, by omega⟩
    rw [copyAt, ht, List.take_zero, List.nil_append]
    exact ⟨_, rfl⟩

theorem mk_str (k : Bytes) (v : Bytes) :
    (∃ t, (mk k (some (strBuf v)) 0 (v.length + 1)).buf = strBuf v ++ t) ∧
      (mk k (some (strBuf v)) 0 (v.length + 1)).len > 0 := by
  have ht : (strBuf v).take (v.length + 1) = strBuf v := by rw [← strBuf_length, List.take_length]
  unfold mk
  simp only [Nat.zero_add]
  refine ⟨?_, by omega⟩
  rw [copyAt, ht, List.take_zero, List.nil_append, List.set_append_right _ _ (by simp [strBuf_length])]
  exact ⟨_, rfl⟩

theorem shows_upd (e : Ent) (v : Option Bytes) : Shows (upd e (valOf v) 0 (lenOf v)) (e.key, v) := by
  refine ⟨upd_key .., ?_⟩
  cases v with
  | none => simp [valOf, upd]
  | some v => exact ⟨(upd_str e v).2, (upd_str e v).1⟩

theorem shows_mk (k : Bytes) (v : Option Bytes) : Shows (mk k (valOf v) 0 (lenOf v)) (k, v) := by
  refine ⟨mk_key .., ?_⟩
  cases v with
  | none => simp [valOf, mk]
  | some v => exact ⟨(mk_str k v).2, (mk_str k v).1⟩

theorem sim_eput {es : List Ent} {m : OMap} (h : Sim es m) (k : Bytes) (v : Option Bytes) :
    Sim (eput es k (valOf v) 0 (lenOf v)) (Spec.OMap.put m k v) := by
  unfold eput Spec.OMap.put
  rw [sim_any h (fun x => x == k)]
  split
  · apply sim_map h
    intro e p hs
    rw [hs.1]
    split
    · rename_i hp
      have := shows_upd e v
      rw [hs.1, (by simpa using hp : p.1 = k)] at this
      exact this
    · exact hs
  · exact sim_append h _ _ (shows_mk k v)

end Verif.UMap
