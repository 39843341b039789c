import Verif.Spec.Oom
import Verif.Lemmas.Memory
/-! # Lemmas about maps and responses when memory runs out: who owns what, and what is reported -/
namespace Verif.Oom
open Verif.UMap (Rc)
open Verif.Memory (P Ck Own cP cA cL cL_append)

/-- What a call reports: an answer other than `U_OK` if an allocation failed, `U_ERROR_MEMORY` only then. -/
structure Rep (h h' : H) (rc : Rc) : Prop where
  le : h.failed ≤ h'.failed
  bad : h.failed < h'.failed → rc ≠ .ok
  mem : rc = .memory → h.failed < h'.failed

theorem Rep.same {h h' : H} {rc : Rc} (e : h'.failed = h.failed) (n : rc ≠ .memory) : Rep h h' rc :=
  ⟨by omega, by omega, fun x => absurd x n⟩

theorem Rep.fail {h h' : H} {rc : Rc} (e : h.failed < h'.failed) (n : rc ≠ .ok) : Rep h h' rc := ⟨by omega, fun _ => n, fun _ => e⟩

theorem Rep.ok {h h' : H} (r : Rep h h' .ok) : h'.failed = h.failed := by
  have := r.le
  by_cases x : h.failed < h'.failed
  · exact absurd rfl (r.bad x)
  · omega

theorem Rep.after {h h' h'' : H} {rc : Rc} (e : h'.failed = h.failed) (r : Rep h' h'' rc) : Rep h h'' rc :=
  ⟨by have := r.le; omega, fun x => r.bad (by omega), fun x => by have := r.mem x; omega⟩

theorem Rep.then {h h' h'' : H} {rc : Rc} (r : Rep h h' rc) (e : h''.failed = h'.failed) : Rep h h'' rc :=
  ⟨by have := r.le; omega, fun x => r.bad (by omega), fun x => by have := r.mem x; omega⟩

theorem own_fail {h : H} {c : Nat → Nat} (o : Own h.mem c) : Own { h.mem with next := h.mem.next + 1 } c := by
  intro n
  have := o n
  exact ⟨this.1, this.2.1, fun hn => this.2.2 (by simp at hn; omega)⟩

theorem own_malloc {f : F} (s : Site) {h : H} {c : Nat → Nat} (o : Own h.mem c) :
    (∃ n h', malloc f s h = (.at n, h') ∧ Own h'.mem (fun k => cA (.at n) k + c k) ∧ h'.failed = h.failed) ∨
    (f h.mem.next s = true ∧ ∃ h', malloc f s h = (.null, h') ∧ Own h'.mem c ∧ h'.failed = h.failed + 1) := by
  by_cases e : f h.mem.next s = true
  · exact .inr ⟨e, ⟨{ h.mem with next := h.mem.next + 1 }, h.failed + 1⟩, by simp [malloc, e], own_fail o, rfl⟩
  · refine .inl ⟨h.mem.next, ⟨(Memory.malloc h.mem).2, h.failed⟩, by simp [malloc, e]; rfl, ?_, rfl⟩
    obtain ⟨p, h', e1, o1, -⟩ := Memory.own_malloc o
    have e2 : p = .at h.mem.next := by have := congrArg Prod.fst e1; exact this.symm
    have e3 : h' = (Memory.malloc h.mem).2 := by rw [e1]
    rw [← e3, ← e2]
    exact o1

theorem own_mallocOk {f : F} (F : OnlySafe f) (s : Site) (hs : Safe s = false) {h : H} {c : Nat → Nat} (o : Own h.mem c) :
    ∃ n h', malloc f s h = (.at n, h') ∧ Own h'.mem (fun k => cA (.at n) k + c k) ∧ h'.failed = h.failed := by
  rcases own_malloc (f := f) s o with x | ⟨e, -⟩
  · exact x
  · rw [F _ _ e] at hs; cases hs

theorem own_free {h : H} {c d : Nat → Nat} {p : P} (o : Own h.mem c) (e : ∀ n, c n = cP p n + d n) :
    ∃ h', free h p = .ok h' ∧ Own h'.mem d ∧ h'.failed = h.failed := by
  obtain ⟨m, e1, o1⟩ := Memory.own_free o e
  exact ⟨⟨m, h.failed⟩, by simp [free, e1], o1, rfl⟩

theorem own_freeAll {h : H} {c d : Nat → Nat} (l : List P) (o : Own h.mem c) (e : ∀ n, c n = cL l n + d n) :
    ∃ h', freeAll h l = .ok h' ∧ Own h'.mem d ∧ h'.failed = h.failed := by
  obtain ⟨m, e1, o1⟩ := Memory.own_freeAll l o e
  exact ⟨⟨m, h.failed⟩, by simp [freeAll, e1], o1, rfl⟩

theorem own_need {h : H} {c : Nat → Nat} {p : P} (d : Nat → Nat) (o : Own h.mem c) (e : ∀ n, c n = cA p n + d n) : need h p = .ok () :=
  Memory.own_need o e

theorem own_touch {h : H} {c : Nat → Nat} {p : P} (d : Nat → Nat) (o : Own h.mem c) (e : ∀ n, c n = cP p n + d n) : touch h p = .ok () := by
  unfold touch
  split
  · rfl
  · rename_i hp
    refine own_need d o ?_
    intro n
    rw [e n]
    cases p with
    | null => exact absurd rfl hp
    | _ => rfl

theorem own_reallocOk {f : F} (F : OnlySafe f) (s : Site) (hs : Safe s = false) {h : H} {c d : Nat → Nat} {p : P} (o : Own h.mem c)
    (e : ∀ n, c n = cP p n + d n) :
    ∃ q h', realloc f s h p = .ok (.at q, h') ∧ Own h'.mem (fun k => cA (.at q) k + d k) ∧ h'.failed = h.failed := by
  have hf : f h.mem.next s = false := by
    rcases hx : f h.mem.next s with _ | _
    · rfl
    · rw [F _ _ hx] at hs; cases hs
  obtain ⟨h1, e1, o1, x1⟩ := own_free o e
  rcases own_malloc (f := fun _ _ => false) s o1 with ⟨q, h2, e2, o2, x2⟩ | ⟨x, -⟩
  · exact ⟨q, h2, by simp [realloc, hf, e1, e2], o2, by omega⟩
  · cases x

/-- A pointer that must be NULL: no heap can account for another. -/
def cZ (p : P) (_ : Nat) : Nat := if p = .null then 0 else 2

theorem Z_null {h : H} {c : Nat → Nat} {p : P} (d : Nat → Nat) (o : Own h.mem c) (e : ∀ n, c n = cZ p n + d n) : p = .null := by
  rcases Decidable.em (p = .null) with hp | hp
  · exact hp
  · have := o 0
    have e0 := e 0
    simp only [cZ, hp, if_false] at e0
    omega

theorem A_at {h : H} {c : Nat → Nat} {p : P} (d : Nat → Nat) (o : Own h.mem c) (e : ∀ n, c n = cA p n + d n) : ∃ k, p = .at k := by
  cases p with
  | «at» m => exact ⟨m, rfl⟩
  | null => have := o 0; have e0 := e 0; simp only [cA] at e0; omega
  | junk => have := o 0; have e0 := e 0; simp only [cA] at e0; omega

/-! ## Maps -/

/-- There is no entry without a name. -/
def cK : Bytes → Nat → Nat
  | [], _ => 2
  | _ :: _, _ => 0

/-- The blocks of entries. -/
def cE : List Entry → Nat → Nat
  | [], _ => 0
  | e :: t, n => cK e.key n + cA e.kp n + cA e.vp n + cE t n

theorem cE_append (a b : List Entry) (n : Nat) : cE (a ++ b) n = cE a n + cE b n := by
  induction a with
  | nil => simp [cE]
  | cons p t ih => simp [cE, ih]; omega

/-- The blocks of a map that is in order. -/
def cM (m : Map) (n : Nat) : Nat :=
  cP m.box n + cA m.keys n + cA m.values n + cA m.lengths n + cE m.entries n + cZ m.tailKey n + cZ m.tailValue n

theorem cA_at (k n : Nat) : cP (.at k) n = cA (.at k) n := rfl

theorem cA_eq {h : H} {c : Nat → Nat} {p : P} (d : Nat → Nat) (o : Own h.mem c) (e : ∀ n, c n = cA p n + d n) (n : Nat) : cP p n = cA p n := by
  obtain ⟨k, rfl⟩ := A_at d o e
  rfl

theorem K_zero {h : H} {c : Nat → Nat} {k : Bytes} (d : Nat → Nat) (o : Own h.mem c) (e : ∀ n, c n = cK k n + d n) : k ≠ [] ∧ ∀ n, cK k n = 0 := by
  cases k with
  | nil => have := o 0; have e0 := e 0; simp only [cK] at e0; omega
  | cons x t => exact ⟨by simp, fun _ => rfl⟩

theorem cL_entries {h : H} {c : Nat → Nat} (es : List Entry) (d : Nat → Nat) (o : Own h.mem c) (e : ∀ n, c n = cE es n + d n) (n : Nat) :
    cL (entryPtrs es) n = cE es n := by
  induction es generalizing d with
  | nil => simp [entryPtrs, cL, cE]
  | cons x t ih =>
    have ht := ih (fun n => cK x.key n + cA x.kp n + cA x.vp n + d n) (by intro n; rw [e n]; simp only [cE]; omega)
    have z := (K_zero (k := x.key) (fun n => cA x.kp n + cA x.vp n + cE t n + d n) o (by intro n; rw [e n]; simp only [cE]; omega)).2 n
    have k := cA_eq (fun n => cK x.key n + cA x.vp n + cE t n + d n) o (p := x.kp) (by intro n; rw [e n]; simp only [cE]; omega) n
    have v := cA_eq (fun n => cK x.key n + cA x.kp n + cE t n + d n) o (p := x.vp) (by intro n; rw [e n]; simp only [cE]; omega) n
    simp only [entryPtrs, List.flatMap_cons] at ht ⊢
    rw [cL_append, ht]
    simp only [cL, cE]
    omega

/-- The parts of a map that is in order. -/
theorem map_parts {h : H} {c : Nat → Nat} {m : Map} (d : Nat → Nat) (o : Own h.mem c) (e : ∀ n, c n = cM m n + d n) :
    touch h m.box = .ok () ∧ need h m.keys = .ok () ∧ need h m.values = .ok () ∧ need h m.lengths = .ok () ∧ m.tailKey = .null ∧
    m.tailValue = .null := by
  refine ⟨own_touch (fun n => cA m.keys n + cA m.values n + cA m.lengths n + cE m.entries n + cZ m.tailKey n + cZ m.tailValue n + d n) o ?_,
    own_need (fun n => cP m.box n + cA m.values n + cA m.lengths n + cE m.entries n + cZ m.tailKey n + cZ m.tailValue n + d n) o ?_,
    own_need (fun n => cP m.box n + cA m.keys n + cA m.lengths n + cE m.entries n + cZ m.tailKey n + cZ m.tailValue n + d n) o ?_,
    own_need (fun n => cP m.box n + cA m.keys n + cA m.values n + cE m.entries n + cZ m.tailKey n + cZ m.tailValue n + d n) o ?_,
    Z_null (fun n => cP m.box n + cA m.keys n + cA m.values n + cA m.lengths n + cE m.entries n + cZ m.tailValue n + d n) o ?_,
    Z_null (fun n => cP m.box n + cA m.keys n + cA m.values n + cA m.lengths n + cE m.entries n + cZ m.tailKey n + d n) o ?_⟩
  all_goals intro n; rw [e n]; simp only [cM]; omega

theorem own_mapInit {f : F} (w : Place) {h : H} {c : Nat → Nat} (box : P) (o : Own h.mem c) :
    (∃ m h', mapInit f w h box = .ok (.ok, m, h') ∧ m.box = box ∧ m.entries = [] ∧ h'.failed = h.failed ∧
      Own h'.mem (fun n => cM m n - cP box n + c n) ∧ (∀ n, cP box n ≤ cM m n)) ∨
    (((∃ n, f n (.initKeys w) = true) ∨ (∃ n, f n (.initValues w) = true) ∨ (∃ n, f n (.initLengths w) = true)) ∧
      ∃ m h', mapInit f w h box = .ok (.memory, m, h') ∧ h.failed < h'.failed ∧ Own h'.mem c) := by
  rcases own_malloc (f := f) (.initKeys w) o with ⟨k, h1, e1, o1, x1⟩ | ⟨y, h1, e1, o1, x1⟩
  · rcases own_malloc (f := f) (.initValues w) o1 with ⟨v, h2, e2, o2, x2⟩ | ⟨y, h2, e2, o2, x2⟩
    · rcases own_malloc (f := f) (.initLengths w) o2 with ⟨l, h3, e3, o3, x3⟩ | ⟨y, h3, e3, o3, x3⟩
      · refine .inl ⟨{ box := box, keys := .at k, values := .at v, lengths := .at l }, h3, by simp [mapInit, e1, e2, e3], rfl, rfl, by omega,
          o3.congr ?_, ?_⟩
        · intro n; simp only [cM, cE, cZ]; simp; omega
        · intro n; simp only [cM]; omega
      · obtain ⟨h4, e4, o4, x4⟩ := own_freeAll (d := c) [.at k, .at v] o3 (by intro n; simp only [cL, cA_at]; omega)
        exact .inr ⟨.inr (.inr ⟨_, y⟩), _, h4, by simp [mapInit, e1, e2, e3, e4]; rfl, by omega, o4⟩
    · obtain ⟨h4, e4, o4, x4⟩ := own_free (d := c) (p := .at k) o2 (by intro n; simp only [cA_at])
      exact .inr ⟨.inr (.inl ⟨_, y⟩), _, h4, by simp [mapInit, e1, e2, e4]; rfl, by omega, o4⟩
  · exact .inr ⟨.inl ⟨_, y⟩, _, h1, by simp [mapInit, e1]; rfl, by omega, o1⟩

theorem own_mapCleanFull {h : H} {c d : Nat → Nat} {m : Map} (o : Own h.mem c) (e : ∀ n, c n = cM m n + d n) :
    ∃ h', mapCleanFull h m = .ok h' ∧ Own h'.mem d ∧ h'.failed = h.failed := by
  obtain ⟨p1, p2, p3, p4, p5, p6⟩ := map_parts d o e
  have he := cL_entries m.entries (fun n => cP m.box n + cA m.keys n + cA m.values n + cA m.lengths n + cZ m.tailKey n + cZ m.tailValue n + d n) o
    (by intro n; rw [e n]; simp only [cM]; omega)
  have z : ∀ n, cZ m.tailKey n = 0 ∧ cZ m.tailValue n = 0 := by intro n; simp [cZ, p5, p6]
  have hk := cA_eq (p := m.keys) (fun n => cP m.box n + cA m.values n + cA m.lengths n + cE m.entries n + cZ m.tailKey n + cZ m.tailValue n + d n) o
    (by intro n; rw [e n]; simp only [cM]; omega)
  have hv := cA_eq (p := m.values) (fun n => cP m.box n + cA m.keys n + cA m.lengths n + cE m.entries n + cZ m.tailKey n + cZ m.tailValue n + d n) o
    (by intro n; rw [e n]; simp only [cM]; omega)
  have hl := cA_eq (p := m.lengths) (fun n => cP m.box n + cA m.keys n + cA m.values n + cE m.entries n + cZ m.tailKey n + cZ m.tailValue n + d n) o
    (by intro n; rw [e n]; simp only [cM]; omega)
  obtain ⟨h1, e1, o1, x1⟩ := own_freeAll (d := fun n => cP m.box n + cA m.keys n + cA m.values n + cA m.lengths n + d n) (entryPtrs m.entries) o (by
    intro n; rw [e n, he n]; have := z n; simp only [cM]; omega)
  obtain ⟨h2, e2, o2, x2⟩ := own_freeAll (d := fun n => cP m.box n + d n) [m.keys, m.values, m.lengths] o1 (by
    intro n; simp only [cL]; have := hk n; have := hv n; have := hl n; omega)
  obtain ⟨h3, e3, o3, x3⟩ := own_free (d := d) (p := m.box) o2 (fun _ => rfl)
  refine ⟨h3, ?_, o3, by omega⟩
  have q1 : (if m.entries = [] then Res.ok () else need h m.keys) = .ok () := by split <;> simp [p2]
  have q2 : (if m.entries = [] then Res.ok () else need h m.values) = .ok () := by split <;> simp [p3]
  unfold mapCleanFull mapClean
  rw [p1]
  simp only [Res.ok_bind, q1, q2, e1, e2, e3]

theorem own_updEntry {f : F} (F : OnlySafe f) (w : Place) {h : H} {c d : Nat → Nat} {x : Entry} (given : Bool) (total : Nat) (o : Own h.mem c)
    (e : ∀ n, c n = cA x.vp n + d n) :
    ∃ y h', updEntry f w h given total x = .ok (.ok, y, h') ∧ y.key = x.key ∧ y.kp = x.kp ∧ Own h'.mem (fun n => cA y.vp n + d n) ∧
      h'.failed = h.failed := by
  have first : ∃ v h1, (if x.len < total then realloc f (.grow w) h x.vp else Res.ok (x.vp, h)) = .ok (.at v, h1) ∧
      Own h1.mem (fun n => cA (.at v) n + d n) ∧ h1.failed = h.failed := by
    split
    · exact own_reallocOk F _ rfl o (fun n => by rw [e n, cA_eq d o e])
    · obtain ⟨k, hk⟩ := A_at d o e
      refine ⟨k, h, by rw [hk], o.congr (by intro n; rw [e n, hk]), rfl⟩
  obtain ⟨v, h1, e1, o1, x1⟩ := first
  cases given with
  | true =>
    have hn : need h1 (.at v) = .ok () := own_need d o1 (fun _ => rfl)
    refine ⟨{ x with vp := .at v, len := if x.len < total then total else x.len }, h1, ?_, rfl, rfl, o1, x1⟩
    unfold updEntry
    rw [e1]
    simp [hn]
  | false =>
    obtain ⟨h2, e2, o2, x2⟩ := own_free (d := d) (p := .at v) o1 (fun _ => rfl)
    obtain ⟨q, h3, e3, o3, x3⟩ := own_mallocOk F (.renew w) rfl o2
    refine ⟨{ x with vp := .at q, len := 0 }, h3, ?_, rfl, rfl, o3, by omega⟩
    unfold updEntry
    rw [e1]
    simp [e2, e3]

theorem own_putFound {f : F} (F : OnlySafe f) (w : Place) {c : Nat → Nat} (m : Map) (key : Bytes) (given : Bool) (total : Nat) (es : List Entry)
    (d : Nat → Nat) {h : H} (o : Own h.mem c) (e : ∀ n, c n = cE es n + d n) (n1 : need h m.keys = .ok ()) (n2 : need h m.lengths = .ok ())
    (n3 : need h m.values = .ok ()) :
    putFound f w h m key given total es = .ok none ∨
    ∃ es' h', putFound f w h m key given total es = .ok (some (.ok, es', h')) ∧ Own h'.mem (fun n => cE es' n + d n) ∧ h'.failed = h.failed := by
  induction es generalizing d with
  | nil => exact .inl rfl
  | cons x t ih =>
    have hn : need h x.kp = .ok () := own_need (fun n => cK x.key n + cA x.vp n + cE t n + d n) o (by intro n; rw [e n]; simp only [cE]; omega)
    by_cases hk : x.key = key
    · obtain ⟨y, h1, e1, ey, ek, o1, x1⟩ := own_updEntry F w (x := x) (d := fun n => cK x.key n + cA x.kp n + cE t n + d n) given total o
        (by intro n; rw [e n]; simp only [cE]; omega)
      refine .inr ⟨y :: t, h1, by simp [putFound, n1, n2, n3, hn, hk, e1], o1.congr ?_, x1⟩
      intro n; simp only [cE, ek, ey]; omega
    · rcases ih (fun n => cK x.key n + cA x.kp n + cA x.vp n + d n) (by intro n; rw [e n]; simp only [cE]; omega) with hi | ⟨es', h', hi, o', x'⟩
      · exact .inl (by simp [putFound, n1, hn, hk, hi])
      · refine .inr ⟨x :: es', h', by simp [putFound, n1, hn, hk, hi], o'.congr ?_, x'⟩
        intro n; simp only [cE]; omega

theorem own_append {f : F} (F : OnlySafe f) (w : Place) {h : H} {c d : Nat → Nat} {m : Map} (key : Bytes) (hk : key ≠ []) (kp vp : Nat) (total : Nat)
    (o : Own h.mem c) (e : ∀ n, c n = cA (.at vp) n + (cA (.at kp) n + (cM m n + d n))) :
    ∃ m' h', append f w h m key (.at kp) (.at vp) total = .ok (.ok, m', h') ∧ m'.box = m.box ∧ Own h'.mem (fun n => cM m' n + d n) ∧
      h'.failed = h.failed := by
  obtain ⟨p1, p2, p3, p4, p5, p6⟩ := map_parts (m := m) (fun n => cA (.at vp) n + cA (.at kp) n + d n) o (by intro n; rw [e n]; omega)
  obtain ⟨k0, hk0⟩ := A_at (p := m.keys) (fun n => cA (.at vp) n + cA (.at kp) n + cP m.box n + cA m.values n + cA m.lengths n + cE m.entries n +
    cZ m.tailKey n + cZ m.tailValue n + d n) o (by intro n; rw [e n]; simp only [cM]; omega)
  obtain ⟨v0, hv0⟩ := A_at (p := m.values) (fun n => cA (.at vp) n + cA (.at kp) n + cP m.box n + cA m.keys n + cA m.lengths n + cE m.entries n +
    cZ m.tailKey n + cZ m.tailValue n + d n) o (by intro n; rw [e n]; simp only [cM]; omega)
  obtain ⟨l0, hl0⟩ := A_at (p := m.lengths) (fun n => cA (.at vp) n + cA (.at kp) n + cP m.box n + cA m.keys n + cA m.values n + cE m.entries n +
    cZ m.tailKey n + cZ m.tailValue n + d n) o (by intro n; rw [e n]; simp only [cM]; omega)
  obtain ⟨ks, h3, e3, o3, x3⟩ := own_reallocOk F (.keys w) rfl (p := m.keys)
    (d := fun n => cA (.at vp) n + cA (.at kp) n + cP m.box n + cA m.values n + cA m.lengths n + cE m.entries n + d n) o
    (by intro n; simp only [e n, cM, p5, p6, cZ, hk0, cA_at]; simp; omega)
  obtain ⟨vs, h4, e4, o4, x4⟩ := own_reallocOk F (.values w) rfl (p := m.values)
    (d := fun n => cA (.at ks) n + cA (.at vp) n + cA (.at kp) n + cP m.box n + cA m.lengths n + cE m.entries n + d n) o3
    (by intro n; simp only [hv0, cA_at]; omega)
  obtain ⟨ls, h5, e5, o5, x5⟩ := own_reallocOk F (.lengths w) rfl (p := m.lengths)
    (d := fun n => cA (.at vs) n + cA (.at ks) n + cA (.at vp) n + cA (.at kp) n + cP m.box n + cE m.entries n + d n) o4
    (by intro n; simp only [hl0, cA_at]; omega)
  refine ⟨{ m with keys := .at ks, values := .at vs, lengths := .at ls, entries := m.entries ++ [⟨key, .at kp, .at vp, total⟩] }, h5, ?_, rfl,
    o5.congr ?_, by omega⟩
  · simp [append, p2, p5, e3, e4, e5]
  · intro n
    cases key with
    | nil => exact absurd rfl hk
    | cons a t => simp only [cM, cE_append, cE, cK, p5, p6, cZ]; simp; omega

/-- `u_map_put` when only allocations fail that the code deals with: the map is as before, or the entry is there. -/
theorem own_putBinary {f : F} (F : OnlySafe f) (w : Place)  {h : H} {c d : Nat → Nat} {m : Map} (key : Option Bytes) (given : Bool) (total : Nat) (o : Own h.mem c) (e : ∀ n, c n = cM m n + d n) :
    ∃ rc m' h', putBinary f w h m key given total = .ok (rc, m', h') ∧ m'.box = m.box ∧ Own h'.mem (fun n => cM m' n + d n) ∧ Rep h h' rc ∧
      (rc ≠ .ok → m' = m) ∧ (Safe (.key w) = false → h'.failed = h.failed) ∧ (∀ k, key = some k → k ≠ [] → rc = .ok ∨ rc = .memory) := by
  cases key with
  | none => exact ⟨_, m, h, rfl, rfl, o.congr e, .same rfl (by simp), fun _ => rfl, fun _ => rfl, by simp⟩
  | some key =>
    cases key with
    | nil => exact ⟨_, m, h, rfl, rfl, o.congr e, .same rfl (by simp), fun _ => rfl, fun _ => rfl, by simp⟩
    | cons b key =>
      obtain ⟨p1, p2, p3, p4, p5, p6⟩ := map_parts d o e
      rcases own_putFound F w m (b :: key) given total m.entries
        (fun n => cP m.box n + cA m.keys n + cA m.values n + cA m.lengths n + cZ m.tailKey n + cZ m.tailValue n + d n) o
        (by intro n; rw [e n]; simp only [cM]; omega) p2 p4 p3 with hf | ⟨es, h', hf, o', x'⟩
      · rcases own_malloc (f := f) (.key w) o with ⟨kp, h1, e1, o1, x1⟩ | ⟨y, h1, e1, o1, x1⟩
        · cases given with
          | true =>
            rcases own_malloc (f := f) (.value w) o1 with ⟨vp, h2, e2, o2, x2⟩ | ⟨y, h2, e2, o2, x2⟩
            · obtain ⟨m', h3, e3, b3, o3, x3⟩ := own_append F w (m := m) (d := d) (b :: key) (by simp) kp vp total o2
                (by intro n; simp only [e n])
              exact ⟨.ok, m', h3, by simp [putBinary, p1, p3, p6, hf, e1, e2, e3], b3, o3, .same (by omega) (by simp), by simp, fun _ => by omega,
                fun _ _ _ => .inl rfl⟩
            · obtain ⟨h3, e3, o3, x3⟩ := own_free (p := .at kp) (d := fun n => cM m n + d n) o2 (by intro n; simp only [e n, cA_at])
              refine ⟨.memory, m, h3, by simp [putBinary, p1, p3, p6, hf, e1, e2, e3], rfl, o3, .fail (by omega) (by simp), fun _ => rfl, fun hs => ?_,
                fun _ _ _ => .inr rfl⟩
              have hy : Safe (.key w) = true := by have := F _ _ y; exact this
              rw [hy] at hs
              cases hs
          | false =>
            obtain ⟨vp, h2, e2, o2, x2⟩ := own_mallocOk F (.empty w) rfl o1
            obtain ⟨m', h3, e3, b3, o3, x3⟩ := own_append F w (m := m) (d := d) (b :: key) (by simp) kp vp total o2
              (by intro n; simp only [e n])
            exact ⟨.ok, m', h3, by simp [putBinary, p1, p3, p6, hf, e1, e2, e3], b3, o3, .same (by omega) (by simp), by simp, fun _ => by omega,
              fun _ _ _ => .inl rfl⟩
        · refine ⟨.memory, m, h1, by simp [putBinary, p1, p3, p6, hf, e1], rfl, o1.congr e, .fail (by omega) (by simp), fun _ => rfl, fun hs => ?_,
            fun _ _ _ => .inr rfl⟩
          have := F _ _ y
          rw [this] at hs
          cases hs
      · refine ⟨.ok, { m with entries := es }, h', by simp [putBinary, p1, hf], rfl, o'.congr ?_, .same x' (by simp), by simp, fun _ => x',
          fun _ _ _ => .inl rfl⟩
        intro n; simp only [cM]; omega

theorem own_readEntries {h : H} {c : Nat → Nat} (m : Map) (es : List Entry) (d : Nat → Nat) (o : Own h.mem c) (e : ∀ n, c n = cE es n + d n)
    (z : m.tailKey = .null) (n1 : need h m.lengths = .ok ()) (n2 : need h m.values = .ok ()) : readEntries h m es = .ok () := by
  induction es generalizing d with
  | nil => simp [readEntries, z]
  | cons x t ih =>
    have k : need h x.kp = .ok () := own_need (fun n => cK x.key n + cA x.vp n + cE t n + d n) o (by intro n; rw [e n]; simp only [cE]; omega)
    have v : need h x.vp = .ok () := own_need (fun n => cK x.key n + cA x.kp n + cE t n + d n) o (by intro n; rw [e n]; simp only [cE]; omega)
    have v' : touch h x.vp = .ok () := by unfold touch; split <;> simp [v]
    have ht := ih (fun n => cK x.key n + cA x.kp n + cA x.vp n + d n) (by intro n; rw [e n]; simp only [cE]; omega)
    have q1 : (if 0 < x.len then need h m.values else Res.ok ()) = .ok () := by split <;> simp [n2]
    have q2 : (if 0 < x.len then touch h x.vp else Res.ok ()) = .ok () := by split <;> simp [v']
    simp only [readEntries, k, n1, q1, q2, ht, Res.ok_bind]

theorem own_readMap {h : H} {c : Nat → Nat} {m : Map} (d : Nat → Nat) (o : Own h.mem c) (e : ∀ n, c n = cM m n + d n) : readMap h m = .ok () := by
  obtain ⟨p1, p2, p3, p4, p5, p6⟩ := map_parts d o e
  have r := own_readEntries m m.entries (fun n => cP m.box n + cA m.keys n + cA m.values n + cA m.lengths n + cZ m.tailKey n + cZ m.tailValue n + d n) o
    (by intro n; rw [e n]; simp only [cM]; omega) p5 p4 p3
  simp only [readMap, p1, Res.ok_bind]
  split
  · rfl
  · simp only [p2, r, Res.ok_bind]

theorem own_copyEntries {f : F} (F : OnlySafe f) (src : Map) (es : List Entry) {h : H} {c : Nat → Nat} (d : Nat → Nat) {dest : Map} (o : Own h.mem c)
    (e : ∀ n, c n = cM dest n + (cE es n + d n)) (l : ∀ h' : H, (∃ x : Map, Own h'.mem (fun n => cM x n + (cE es n + d n))) → need h' src.lengths = .ok ()) :
    ∃ rc m' h', copyEntries f h src dest es = .ok (rc, m', h') ∧ m'.box = dest.box ∧ Own h'.mem (fun n => cM m' n + (cE es n + d n)) ∧ Rep h h' rc ∧
      (rc = .ok ∨ rc = .memory) := by
  induction es generalizing h c d dest with
  | nil => exact ⟨.ok, dest, h, rfl, rfl, o.congr e, .same rfl (by simp), .inl rfl⟩
  | cons x t ih =>
    have k : need h x.kp = .ok () := own_need (fun n => cM dest n + (cK x.key n + cA x.vp n + cE t n + d n)) o
      (by intro n; rw [e n]; simp only [cE]; omega)
    have v : need h x.vp = .ok () := own_need (fun n => cM dest n + (cK x.key n + cA x.kp n + cE t n + d n)) o
      (by intro n; rw [e n]; simp only [cE]; omega)
    have v' : touch h x.vp = .ok () := by unfold touch; split <;> simp [v]
    have q2 : (if 0 < x.len then touch h x.vp else Res.ok ()) = .ok () := by split <;> simp [v']
    have hk := (K_zero (k := x.key) (fun n => cM dest n + (cA x.kp n + cA x.vp n + cE t n + d n)) o (by intro n; rw [e n]; simp only [cE]; omega)).1
    have n1 := l h ⟨dest, o.congr e⟩
    obtain ⟨rc, m1, h1, e1, b1, o1, r1, -, -, rk⟩ := own_putBinary F .copy (m := dest) (d := fun n => cE (x :: t) n + d n) (some x.key)
      (decide (0 < x.len ∧ x.vp ≠ .null)) x.len o e
    by_cases hr : rc = .ok
    · subst hr
      obtain ⟨rc2, m2, h2, e2, b2, o2, r2, k2⟩ := ih (dest := m1) (fun n => cK x.key n + cA x.kp n + cA x.vp n + d n) o1
        (by intro n; simp only [cE]; omega)
        (by rintro h' ⟨y, oy⟩; exact l h' ⟨y, oy.congr (by intro n; simp only [cE]; omega)⟩)
      refine ⟨rc2, m2, h2, ?_, by rw [b2, b1], o2.congr (by intro n; simp only [cE]; omega), .after r1.ok r2, k2⟩
      simp only [copyEntries, k, n1, q2, e1, Res.ok_bind, if_true, e2]
    · refine ⟨rc, m1, h1, ?_, b1, o1, r1, rk _ rfl hk⟩
      simp only [copyEntries, k, n1, q2, e1, Res.ok_bind, hr, if_false]
      rfl

theorem own_mapCopy {f : F} (F : OnlySafe f) {h : H} {c d : Nat → Nat} {m : Map} (o : Own h.mem c) (e : ∀ n, c n = cM m n + d n) :
    (∃ x h', mapCopy f h m = .ok (some x, h') ∧ Own h'.mem (fun n => cM x n + c n) ∧ h'.failed = h.failed) ∨
    (∃ h', mapCopy f h m = .ok (none, h') ∧ Own h'.mem c ∧ h.failed < h'.failed) := by
  rcases own_malloc (f := f) .copyBox o with ⟨b, h1, e1, o1, x1⟩ | ⟨y, h1, e1, o1, x1⟩
  · rcases own_mapInit (f := f) .copy (.at b) o1 with ⟨x, h2, e2, b2, -, x2, o2, l2⟩ | ⟨-, x, h2, e2, x2, o2⟩
    · have o2' : Own h2.mem (fun n => cM x n + c n) := o2.congr (by intro n; have := l2 n; simp only [cA_at] at *; omega)
      have hr := own_readMap (m := m) (fun n => cM x n + d n) o2' (by intro n; rw [e n]; omega)
      obtain ⟨p1, p2, p3, p4, p5, p6⟩ := map_parts (m := m) (fun n => cM x n + d n) o2' (by intro n; rw [e n]; omega)
      have kn : m.keys ≠ .null := by
        intro hk; rw [hk] at p2; simp [need, Memory.need] at p2
      obtain ⟨rc, m3, h3, e3, b3, o3, r3, k3⟩ := own_copyEntries F m m.entries
        (fun n => cP m.box n + cA m.keys n + cA m.values n + cA m.lengths n + cZ m.tailKey n + cZ m.tailValue n + d n) (dest := x) o2'
        (by intro n; rw [e n]; simp only [cM]; omega)
        (by rintro h' ⟨z, oz⟩
            exact own_need (fun n => cM z n + cE m.entries n + cP m.box n + cA m.keys n + cA m.values n + cZ m.tailKey n + cZ m.tailValue n + d n) oz
              (by intro n; omega))
      have o3' : Own h3.mem (fun n => cM m3 n + c n) := o3.congr (by intro n; rw [e n]; simp only [cM]; omega)
      rcases k3 with rfl | rfl
      · refine .inl ⟨m3, h3, ?_, o3', by have := r3.ok; omega⟩
        simp [mapCopy, e1, e2, hr, kn, e3]
      · obtain ⟨h4, e4, o4, x4⟩ := own_mapCleanFull (m := m3) (d := c) o3' (fun _ => rfl)
        refine .inr ⟨h4, ?_, o4, by have := r3.mem rfl; omega⟩
        simp [mapCopy, e1, e2, hr, kn, e3, e4]
    · obtain ⟨h3, e3, o3, x3⟩ := own_free (p := .at b) (d := c) o2 (fun _ => rfl)
      refine .inr ⟨h3, ?_, o3, by omega⟩
      simp [mapCopy, e1, e2, e3]
  · exact .inr ⟨h1, by simp [mapCopy, e1], o1, by omega⟩

/-! ## Responses -/

/-- The blocks of cookies. -/
def cC : List Ck → Nat → Nat
  | [], _ => 0
  | c :: t, n => cA c.key n + cA c.value n + cP c.expires n + cP c.domain n + cP c.path n + cC t n

theorem cC_append (a b : List Ck) (n : Nat) : cC (a ++ b) n = cC a n + cC b n := by
  induction a with
  | nil => simp [cC]
  | cons p t ih => simp [cC, ih]; omega

/-- The array of the cookies: there is none without cookies. -/
def cV (p : P) (cs : List Ck) (n : Nat) : Nat := if cs = [] then cZ p n else cA p n

/-- The body: there is one if it has a length. -/
def cB (p : P) (len : Nat) (n : Nat) : Nat := if len = 0 then cP p n else cA p n

/-- The blocks of a response that is in order. -/
def cR (r : Resp) (n : Nat) : Nat :=
  cP r.box n + cP r.realm n + cB r.body r.bodyLen n + cM r.header n + cV r.array r.cookies n + cC r.cookies n + cA r.handle n + cA r.list n

theorem B_eq {h : H} {c : Nat → Nat} {p : P} {len : Nat} (d : Nat → Nat) (o : Own h.mem c) (e : ∀ n, c n = cB p len n + d n) (n : Nat) :
    cB p len n = cP p n := by
  by_cases hl : len = 0
  · simp [cB, hl]
  · have e' : ∀ n, c n = cA p n + d n := by intro n; rw [e n]; simp [cB, hl]
    rw [cA_eq d o e' n]
    simp [cB, hl]

theorem V_eq {h : H} {c : Nat → Nat} {p : P} {cs : List Ck} (d : Nat → Nat) (o : Own h.mem c) (e : ∀ n, c n = cV p cs n + d n) :
    (∀ n, cV p cs n = cP p n) ∧ (cs = [] → p = .null) ∧ (cs ≠ [] → need h p = .ok ()) := by
  by_cases hl : cs = []
  · have e' : ∀ n, c n = cZ p n + d n := by intro n; rw [e n]; simp [cV, hl]
    have := Z_null d o e'
    refine ⟨by intro n; simp [cV, hl, this, cZ, cP], fun _ => this, fun x => absurd hl x⟩
  · have e' : ∀ n, c n = cA p n + d n := by intro n; rw [e n]; simp [cV, hl]
    refine ⟨by intro n; rw [cA_eq d o e' n]; simp [cV, hl], fun x => absurd x hl, fun _ => own_need d o e'⟩

theorem cL_cookies {h : H} {c : Nat → Nat} (cs : List Ck) (d : Nat → Nat) (o : Own h.mem c) (e : ∀ n, c n = cC cs n + d n) (n : Nat) :
    cL (cs.flatMap ckPtrs) n = cC cs n := by
  induction cs generalizing d with
  | nil => simp [cL, cC]
  | cons x t ih =>
    have ht := ih (fun n => cA x.key n + cA x.value n + cP x.expires n + cP x.domain n + cP x.path n + d n)
      (by intro n; rw [e n]; simp only [cC]; omega)
    have k := cA_eq (fun n => cA x.value n + cP x.expires n + cP x.domain n + cP x.path n + cC t n + d n) o (p := x.key)
      (by intro n; rw [e n]; simp only [cC]; omega) n
    have v := cA_eq (fun n => cA x.key n + cP x.expires n + cP x.domain n + cP x.path n + cC t n + d n) o (p := x.value)
      (by intro n; rw [e n]; simp only [cC]; omega) n
    rw [List.flatMap_cons, cL_append, ht]
    simp only [ckPtrs, cL, cC]
    omega

theorem own_initResponse {f : F} (F : OnlySafe f) {h : H} {c : Nat → Nat} (o : Own h.mem c) :
    (∃ r h', initResponse f h .null = .ok (.ok, some r, h') ∧ Own h'.mem (fun n => cR r n + c n) ∧ h'.failed = h.failed) ∨
    (∃ h', initResponse f h .null = .ok (.memory, none, h') ∧ Own h'.mem c ∧ h.failed < h'.failed) := by
  rcases own_malloc (f := f) .respMap o with ⟨b, h1, e1, o1, x1⟩ | ⟨y, h1, e1, o1, x1⟩
  · rcases own_mapInit (f := f) .init (.at b) o1 with ⟨x, h2, e2, b2, -, x2, o2, l2⟩ | ⟨y, -⟩
    · have o2' : Own h2.mem (fun n => cM x n + c n) := o2.congr (by intro n; have := l2 n; simp only [cA_at] at *; omega)
      obtain ⟨w, h3, e3, o3, x3⟩ := own_mallocOk F .respHandle rfl o2'
      obtain ⟨l, h4, e4, o4, x4⟩ := own_mallocOk F .respList rfl o3
      refine .inl ⟨{ header := x, handle := .at w, list := .at l }, h4, by simp [initResponse, e1, e2, e3, e4], o4.congr ?_, by omega⟩
      intro n; simp only [cR, cP, cB, cV, cZ, cC]; simp; omega
    · exfalso
      rcases y with ⟨n, y⟩ | ⟨n, y⟩ | ⟨n, y⟩ <;> · have := F _ _ y; cases this
  · exact .inr ⟨h1, by simp [initResponse, e1], o1, by omega⟩

theorem own_cleanResponse {h : H} {c d : Nat → Nat} {r : Resp} (o : Own h.mem c) (e : ∀ n, c n = cR r n + d n) :
    ∃ h', cleanResponse h r = .ok h' ∧ Own h'.mem d ∧ h'.failed = h.failed := by
  obtain ⟨h1, e1, o1, x1⟩ := own_mapCleanFull (m := r.header)
    (d := fun n => cP r.box n + cP r.realm n + cB r.body r.bodyLen n + cV r.array r.cookies n + cC r.cookies n + cA r.handle n + cA r.list n + d n) o
    (by intro n; rw [e n]; simp only [cR]; omega)
  obtain ⟨v1, v2, v3⟩ := V_eq (p := r.array) (cs := r.cookies)
    (fun n => cP r.box n + cP r.realm n + cB r.body r.bodyLen n + cC r.cookies n + cA r.handle n + cA r.list n + d n) o1 (by intro n; omega)
  have bb := B_eq (p := r.body) (len := r.bodyLen)
    (fun n => cP r.box n + cP r.realm n + cV r.array r.cookies n + cC r.cookies n + cA r.handle n + cA r.list n + d n) o1 (by intro n; omega)
  have kk := cL_cookies r.cookies (fun n => cP r.box n + cP r.realm n + cB r.body r.bodyLen n + cV r.array r.cookies n + cA r.handle n + cA r.list n + d n) o1
    (by intro n; omega)
  have ha := cA_eq (p := r.handle) (fun n => cP r.box n + cP r.realm n + cB r.body r.bodyLen n + cV r.array r.cookies n + cC r.cookies n + cA r.list n + d n) o1
    (by intro n; omega)
  have li := cA_eq (p := r.list) (fun n => cP r.box n + cP r.realm n + cB r.body r.bodyLen n + cV r.array r.cookies n + cC r.cookies n + cA r.handle n + d n) o1
    (by intro n; omega)
  have q : (if r.cookies = [] then Res.ok () else need h1 r.array) = .ok () := by
    by_cases hc : r.cookies = []
    · simp [hc]
    · simp [hc, v3 hc]
  obtain ⟨h2, e2, o2, x2⟩ := own_freeAll (d := fun n => cP r.box n + cP r.realm n + cP r.body n + cP r.array n + cA r.handle n + cA r.list n + d n)
    (r.cookies.flatMap ckPtrs) o1 (by intro n; rw [kk n]; have := v1 n; have := bb n; omega)
  obtain ⟨h3, e3, o3, x3⟩ := own_freeAll (d := fun n => cP r.box n + cA r.handle n + cA r.list n + d n)
    [r.realm, r.array, r.body] o2 (by intro n; simp only [cL]; omega)
  have nh : need h3 r.handle = .ok () := own_need (fun n => cP r.box n + cA r.list n + d n) o3 (by intro n; omega)
  obtain ⟨h4, e4, o4, x4⟩ := own_freeAll (d := d) [r.list, r.handle, r.box] o3 (by
    intro n; simp only [cL]; have := ha n; have := li n; omega)
  exact ⟨h4, by simp only [cleanResponse, e1, q, e2, e3, nh, e4, Res.ok_bind], o4, by omega⟩

/-! ### Cookies -/

theorem own_malloc' {f : F} (s : Site) {h : H} {c : Nat → Nat} (o : Own h.mem c) :
    ∃ p h', malloc f s h = (p, h') ∧ Own h'.mem (fun n => cP p n + c n) ∧
      ((h'.failed = h.failed ∧ ∃ k, p = .at k) ∨ (h'.failed = h.failed + 1 ∧ p = .null ∧ ∃ n, f n s = true)) := by
  rcases own_malloc (f := f) s o with ⟨k, h1, e1, o1, x1⟩ | ⟨y, h1, e1, o1, x1⟩
  · exact ⟨.at k, h1, e1, o1, .inl ⟨x1, k, rfl⟩⟩
  · exact ⟨.null, h1, e1, o1.congr (by intro n; simp [cP]), .inr ⟨x1, rfl, _, y⟩⟩

theorem own_strdup {f : F} (s : Site) {h : H} {c : Nat → Nat} (o : Own h.mem c) (v : Option Bytes) :
    ∃ p h', strdup f s h v = (p, h') ∧ Own h'.mem (fun n => cP p n + c n) ∧
      ((h'.failed = h.failed ∧ (v.isSome && p = .null) = false) ∨ (h'.failed = h.failed + 1 ∧ (v.isSome && p = .null) = true ∧ ∃ n, f n s = true)) := by
  cases v with
  | none => exact ⟨.null, h, rfl, o.congr (by intro n; simp [cP]), .inl ⟨rfl, rfl⟩⟩
  | some v =>
    obtain ⟨p, h', e1, o1, y⟩ := own_malloc' (f := f) s o
    refine ⟨p, h', e1, o1, ?_⟩
    rcases y with ⟨x, k, rfl⟩ | ⟨x, rfl, y⟩
    · exact .inl ⟨x, by simp⟩
    · exact .inr ⟨x, by simp, y⟩

theorem own_texts {f : F} (F : OnlySafe f) (s sE : Site) (hE : Safe sE = false) {h : H} {c : Nat → Nat} (o : Own h.mem c)
    (value expires domain path : Option Bytes) :
    ∃ x h', texts f s sE h value expires domain path = (x, h') ∧
      Own h'.mem (fun n => cP x.1 n + cP x.2.1 n + cP x.2.2.1 n + cP x.2.2.2 n + c n) ∧
      ((h'.failed = h.failed ∧ missing value expires domain path x = false ∧ ∃ k, x.1 = .at k) ∨
       (h.failed < h'.failed ∧ missing value expires domain path x = true ∧ ∃ n, f n s = true)) := by
  have first : ∃ p h', malloc f (if value.isSome then s else sE) h = (p, h') ∧ Own h'.mem (fun n => cP p n + c n) ∧
      ((h'.failed = h.failed ∧ (value.isSome && p = .null) = false ∧ ∃ k, p = .at k) ∨
       (h'.failed = h.failed + 1 ∧ (value.isSome && p = .null) = true ∧ ∃ n, f n s = true)) := by
    obtain ⟨p, h', e1, o1, y⟩ := own_malloc' (f := f) (if value.isSome then s else sE) o
    refine ⟨p, h', e1, o1, ?_⟩
    rcases y with ⟨x, k, rfl⟩ | ⟨x, rfl, n, y⟩
    · exact .inl ⟨x, by simp, k, rfl⟩
    · cases value with
      | none => have := F _ _ y; simp [hE] at this
      | some v => exact .inr ⟨x, by simp, n, y⟩
  obtain ⟨v, h1, e1, o1, y1⟩ := first
  obtain ⟨e, h2, e2, o2, y2⟩ := own_strdup (f := f) s o1 expires
  obtain ⟨d, h3, e3, o3, y3⟩ := own_strdup (f := f) s o2 domain
  obtain ⟨p, h4, e4, o4, y4⟩ := own_strdup (f := f) s o3 path
  refine ⟨(v, e, d, p), h4, by simp [texts, e1, e2, e3, e4], o4.congr (by intro n; dsimp only; omega), ?_⟩
  have m : missing value expires domain path (v, e, d, p) =
      ((value.isSome && v = .null) || (expires.isSome && e = .null) || (domain.isSome && d = .null) || (path.isSome && p = .null)) := rfl
  rw [m]
  rcases y1 with ⟨x1, m1, k⟩ | ⟨x1, m1, k⟩ <;> rcases y2 with ⟨x2, m2⟩ | ⟨x2, m2, k2⟩ <;> rcases y3 with ⟨x3, m3⟩ | ⟨x3, m3, k3⟩ <;>
    rcases y4 with ⟨x4, m4⟩ | ⟨x4, m4, k4⟩
  · exact .inl ⟨by omega, by rw [m1, m2, m3, m4]; rfl, k⟩
  all_goals refine .inr ⟨by omega, by rw [m1, m2, m3, m4]; rfl, by assumption⟩

theorem own_replaceCookie {f : F} (F : OnlySafe f) (key : Bytes) (value expires domain path : Option Bytes) (cs : List Ck) {h : H} {c : Nat → Nat}
    (d : Nat → Nat) (o : Own h.mem c) (e : ∀ n, c n = cC cs n + d n) :
    replaceCookie f h key value expires domain path cs = .ok none ∨
    ∃ cs' h', replaceCookie f h key value expires domain path cs = .ok (some (.ok, cs', h')) ∧ cs ≠ [] ∧ cs' ≠ [] ∧
      Own h'.mem (fun n => cC cs' n + d n) ∧ h'.failed = h.failed := by
  induction cs generalizing d with
  | nil => exact .inl rfl
  | cons x t ih =>
    obtain ⟨k, hk⟩ := A_at (p := x.key) (fun n => cA x.value n + cP x.expires n + cP x.domain n + cP x.path n + cC t n + d n) o
      (by intro n; rw [e n]; simp only [cC]; omega)
    have hn : touch h x.key = .ok () := by
      refine own_touch (fun n => cA x.value n + cP x.expires n + cP x.domain n + cP x.path n + cC t n + d n) o ?_
      intro n; rw [e n, hk, cA_at]; simp only [cC, hk]; omega
    have hv := cA_eq (p := x.value) (fun n => cA x.key n + cP x.expires n + cP x.domain n + cP x.path n + cC t n + d n) o
      (by intro n; rw [e n]; simp only [cC]; omega)
    by_cases hx : x.text = key
    · obtain ⟨h1, e1, o1, x1⟩ := own_freeAll (d := fun n => cA x.key n + cC t n + d n) [x.value, x.expires, x.domain, x.path] o
        (by intro n; rw [e n]; simp only [cC, cL]; have := hv n; omega)
      obtain ⟨y, h2, e2, o2, z⟩ := own_texts F .replaceText .replaceEmpty rfl o1 value expires domain path
      rcases z with ⟨x2, m2, q, hq⟩ | ⟨-, -, n, hn'⟩
      · refine .inr ⟨{ x with value := y.1, expires := y.2.1, domain := y.2.2.1, path := y.2.2.2 } :: t, h2, ?_, by simp, by simp, o2.congr ?_, by omega⟩
        · have k1 : x.key ≠ .null := by rw [hk]; simp
          simp only [replaceCookie, hn, k1, hx, e1, e2, m2, Res.ok_bind, ne_eq, not_false_eq_true, and_self, if_true, Bool.false_eq_true, if_false]
          rfl
        · intro n; simp only [cC, hq, cA_at]; omega
      · have := F _ _ hn'; cases this
    · rcases ih (fun n => cA x.key n + cA x.value n + cP x.expires n + cP x.domain n + cP x.path n + d n)
        (by intro n; rw [e n]; simp only [cC]; omega) with hi | ⟨cs', h', hi, -, -, o', x'⟩
      · exact .inl (by simp [replaceCookie, hn, hx, hi])
      · refine .inr ⟨x :: cs', h', by simp [replaceCookie, hn, hx, hi], by simp, by simp, o'.congr ?_, x'⟩
        intro n; simp only [cC]; omega

theorem Kept.refl (r : Resp) : Kept r r := ⟨rfl, rfl, rfl, .inl ⟨rfl, rfl⟩⟩

theorem own_addCookie {f : F} (F : OnlySafe f) {h : H} {c d : Nat → Nat} {r : Resp} (key : Bytes) (value expires domain path : Option Bytes)
    (o : Own h.mem c) (e : ∀ n, c n = cR r n + d n) :
    ∃ rc r' h', addCookie f h r key value expires domain path = .ok (rc, r', h') ∧ Own h'.mem (fun n => cR r' n + d n) ∧ Rep h h' rc ∧
      (rc ≠ .ok → Kept r r') := by
  obtain ⟨v1, v2, v3⟩ := V_eq (p := r.array) (cs := r.cookies)
    (fun n => cP r.box n + cP r.realm n + cB r.body r.bodyLen n + cM r.header n + cC r.cookies n + cA r.handle n + cA r.list n + d n) o
    (by intro n; rw [e n]; simp only [cR]; omega)
  have q : (if r.cookies = [] then Res.ok () else need h r.array) = .ok () := by
    by_cases hc : r.cookies = []
    · simp [hc]
    · simp [hc, v3 hc]
  rcases own_replaceCookie F key value expires domain path r.cookies
    (fun n => cP r.box n + cP r.realm n + cB r.body r.bodyLen n + cM r.header n + cV r.array r.cookies n + cA r.handle n + cA r.list n + d n) o
    (by intro n; rw [e n]; simp only [cR]; omega) with hr | ⟨cs', h', hr, c1, c2, o', x'⟩
  · -- a new cookie
    have arr : (∃ a h1, (if r.cookies = [] then Res.ok (malloc f .cookieArray h) else realloc f .cookieArrayGrow h r.array) = .ok (.at a, h1) ∧
        Own h1.mem (fun n => cA (.at a) n + (cP r.box n + cP r.realm n + cB r.body r.bodyLen n + cM r.header n + cC r.cookies n + cA r.handle n + cA r.list n + d n)) ∧
        h1.failed = h.failed) ∨
        (r.cookies = [] ∧ ∃ h1, malloc f .cookieArray h = (.null, h1) ∧ Own h1.mem c ∧ h1.failed = h.failed + 1) := by
      by_cases hc : r.cookies = []
      · rcases own_malloc (f := f) .cookieArray o with ⟨a, h1, e1, o1, x1⟩ | ⟨y, h1, e1, o1, x1⟩
        · refine .inl ⟨a, h1, by simp [hc, e1], o1.congr ?_, x1⟩
          intro n; rw [e n]; have z : cV r.array r.cookies n = 0 := by simp [cV, hc, v2 hc, cZ]
          simp only [cR, z]; omega
        · exact .inr ⟨hc, h1, e1, o1, x1⟩
      · obtain ⟨a, h1, e1, o1, x1⟩ := own_reallocOk F .cookieArrayGrow rfl (p := r.array)
          (d := fun n => cP r.box n + cP r.realm n + cB r.body r.bodyLen n + cM r.header n + cC r.cookies n + cA r.handle n + cA r.list n + d n) o
          (by intro n; rw [e n]; simp only [cR, v1 n]; omega)
        exact .inl ⟨a, h1, by simp [hc, e1], o1, x1⟩
    rcases arr with ⟨a, h1, e1, o1, x1⟩ | ⟨hc, h1, e1, o1, x1⟩
    · obtain ⟨k, h2, e2, o2, y2⟩ := own_malloc' (f := f) (.cookieText (decide (r.cookies = []))) o1
      obtain ⟨x, h3, e3, o3, y3⟩ := own_texts F (.cookieText (decide (r.cookies = []))) (.cookieEmpty (decide (r.cookies = []))) rfl o2 value expires domain path
      by_cases bad : k = .null ∨ missing value expires domain path x = true
      · -- a text is missing
        have hc : r.cookies ≠ [] := by
          intro hc
          have : ∃ n, f n (.cookieText true) = true := by
            rcases y2 with ⟨-, q, rfl⟩ | ⟨-, -, n, hn⟩
            · rcases y3 with ⟨-, m3, -⟩ | ⟨-, -, n, hn⟩
              · rcases bad with b | b
                · cases b
                · rw [m3] at b; cases b
              · exact ⟨n, by simpa [hc] using hn⟩
            · exact ⟨n, by simpa [hc] using hn⟩
          obtain ⟨n, hn⟩ := this
          have := F _ _ hn
          cases this
        have lt : h.failed < h3.failed := by
          rcases y2 with ⟨z2, q, rfl⟩ | ⟨z2, -, -⟩ <;> rcases y3 with ⟨z3, m3, -⟩ | ⟨z3, -, -⟩
          · rcases bad with b | b
            · cases b
            · rw [m3] at b; cases b
          all_goals omega
        obtain ⟨h4, e4, o4, x4⟩ := own_freeAll (d := fun n => cA (.at a) n + (cP r.box n + cP r.realm n + cB r.body r.bodyLen n + cM r.header n +
            cC r.cookies n + cA r.handle n + cA r.list n + d n)) [k, x.1, x.2.1, x.2.2.1, x.2.2.2] o3 (by intro n; simp only [cL]; omega)
        refine ⟨.memory, { r with array := .at a }, h4, ?_, o4.congr ?_, .fail (by omega) (by simp), fun _ => ⟨rfl, rfl, rfl, .inl ⟨rfl, rfl⟩⟩⟩
        · simp [addCookie, q, hr, e1, e2, e3, bad, e4]
        · intro n; simp only [cR, cV, hc, if_false]; omega
      · have b1 : k ≠ .null := fun z => bad (.inl z)
        have b2 : missing value expires domain path x = false := by
          rcases hm : missing value expires domain path x with _ | _
          · rfl
          · exact absurd (.inr hm) bad
        rcases y2 with ⟨x2, q2, rfl⟩ | ⟨-, z, -⟩
        · rcases y3 with ⟨x3, -, q3, hq3⟩ | ⟨-, z, -⟩
          · refine ⟨.ok, { r with array := .at a, cookies := r.cookies ++ [⟨key, .at q2, x.1, x.2.1, x.2.2.1, x.2.2.2⟩] }, h3, ?_, o3.congr ?_,
              .same (by omega) (by simp), by simp⟩
            · simp [addCookie, q, hr, e1, e2, e3, b2]
            · intro n; simp only [cR, cV, cC_append, cC, hq3, cA_at]; simp; omega
          · rw [b2] at z; cases z
        · exact absurd z b1
    · refine ⟨.memory, { r with array := .null }, h1, ?_, o1.congr ?_, .fail (by omega) (by simp), fun _ => ⟨rfl, rfl, rfl, .inl ⟨rfl, rfl⟩⟩⟩
      · have hr' := hr
        rw [hc] at hr'
        simp [addCookie, hc, hr', e1]
      · intro n; rw [e n]; simp only [cR, v2 hc]
  · refine ⟨.ok, { r with cookies := cs' }, h', by simp [addCookie, q, hr], o'.congr ?_, .same x' (by simp), by simp⟩
    intro n; simp only [cR, cV, c1, c2, if_false]; omega

/-! ### The answer -/

theorem own_attributes {f : F} {d : Nat → Nat} (l : List (Option P × Bool)) {h : H} (made : List P) (o : Own h.mem (fun n => cL made n + d n))
    (N : ∀ h' : H, (∃ x : Nat → Nat, Own h'.mem (fun n => x n + d n)) → ∀ p ∈ l, ∀ q, p.1 = some q → need h' q = .ok ()) :
    (∃ made' h', attributes f h made l = .ok (some made', h') ∧ Own h'.mem (fun n => cL made' n + d n) ∧ h.failed ≤ h'.failed ∧
      (h.failed < h'.failed → .null ∈ made') ∧ (.null ∈ made' → .null ∈ made ∨ h.failed < h'.failed) ∧ (.null ∈ made → .null ∈ made')) ∨
    (∃ h', attributes f h made l = .ok (none, h') ∧ Own h'.mem d ∧ h.failed < h'.failed) := by
  induction l generalizing h made with
  | nil => exact .inl ⟨made, h, rfl, o, Nat.le_refl _, fun x => absurd x (Nat.lt_irrefl _), .inl, id⟩
  | cons x t ih =>
    obtain ⟨p, print⟩ := x
    have hn : needOpt h p = .ok () := by
      cases p with
      | none => rfl
      | some q => exact N h ⟨_, o⟩ (some q, print) (by simp) q rfl
    obtain ⟨a, h1, e1, o1, y⟩ := own_malloc' (f := f) .attribute o
    by_cases stop : print = true ∧ a = .null
    · obtain ⟨h2, e2, o2, x2⟩ := own_freeAll (d := d) made o1 (by intro n; rw [stop.2]; simp [cP])
      refine .inr ⟨h2, ?_, o2, ?_⟩
      · have s1 := stop.1
        have s2 := stop.2
        subst s1 s2
        simp only [attributes, hn, e1, Res.ok_bind, and_self, if_true, e2]
        rfl
      · rcases y with ⟨x, k, hk⟩ | ⟨x, -, -⟩
        · rw [stop.2] at hk; cases hk
        · omega
    · have o1' : Own h1.mem (fun n => cL (made ++ [a]) n + d n) := o1.congr (by intro n; rw [cL_append]; simp only [cL]; omega)
      have red : attributes f h made ((p, print) :: t) = attributes f h1 (made ++ [a]) t := by
        simp only [attributes, hn, e1, Res.ok_bind, stop, if_false]
      rcases ih (made ++ [a]) o1' (fun h' x p hp => N h' x p (by simp [hp])) with ⟨m', h', e', o', le, b1, b2, b3⟩ | ⟨h', e', o', lt⟩
      · refine .inl ⟨m', h', by rw [red, e'], o', ?_, ?_, ?_, fun z => b3 (by simp [z])⟩
        · rcases y with ⟨x, -⟩ | ⟨x, -⟩ <;> omega
        · intro lt
          rcases y with ⟨x, -⟩ | ⟨x, hx, -⟩
          · exact b1 (by omega)
          · exact b3 (by simp [hx])
        · intro z
          rcases b2 z with z | z
          · rcases List.mem_append.1 z with z | z
            · exact .inl z
            · rcases y with ⟨x, k, hk⟩ | ⟨x, -, -⟩
              · simp [hk] at z
              · exact .inr (by omega)
          · rcases y with ⟨x, -⟩ | ⟨x, -⟩ <;> exact .inr (by omega)
      · refine .inr ⟨h', by rw [red, e'], o', ?_⟩
        rcases y with ⟨x, -⟩ | ⟨x, -⟩ <;> omega

theorem own_generate {f : F} {h : H} {c : Nat → Nat} {x : Ck} (flags : Bool × Bool × Bool) (d : Nat → Nat) (o : Own h.mem c)
    (e : ∀ n, c n = cA x.key n + cA x.value n + cP x.expires n + cP x.domain n + cP x.path n + d n) :
    ∃ ok h', generate f h x flags = .ok (ok, h') ∧ Own h'.mem c ∧
      ((ok = true ∧ h'.failed = h.failed) ∨ (ok = false ∧ h.failed < h'.failed)) := by
  have rd : ∀ h' : H, (∃ y : Nat → Nat, Own h'.mem (fun n => y n + c n)) →
      need h' x.key = .ok () ∧ need h' x.value = .ok () ∧ touch h' x.expires = .ok () ∧ touch h' x.domain = .ok () ∧ touch h' x.path = .ok () := by
    rintro h' ⟨y, oy⟩
    refine ⟨own_need (fun n => y n + (cA x.value n + cP x.expires n + cP x.domain n + cP x.path n + d n)) oy ?_,
      own_need (fun n => y n + (cA x.key n + cP x.expires n + cP x.domain n + cP x.path n + d n)) oy ?_,
      own_touch (fun n => y n + (cA x.key n + cA x.value n + cP x.domain n + cP x.path n + d n)) oy ?_,
      own_touch (fun n => y n + (cA x.key n + cA x.value n + cP x.expires n + cP x.path n + d n)) oy ?_,
      own_touch (fun n => y n + (cA x.key n + cA x.value n + cP x.expires n + cP x.domain n + d n)) oy ?_⟩
    all_goals intro n; simp only [e n]; omega
  have tn : ∀ (h' : H) (p q : P), touch h' p = .ok () → (if p = .null then ((none : Option P), false) else (some p, true)).1 = some q →
      need h' q = .ok () := by
    intro h' p q ht hq
    by_cases hp : p = .null
    · simp [hp] at hq
    · simp [hp] at hq
      subst hq
      simpa [touch, hp] using ht
  have N : ∀ h' : H, (∃ y : Nat → Nat, Own h'.mem (fun n => y n + c n)) → ∀ p ∈ attributesOf x flags, ∀ q, p.1 = some q → need h' q = .ok () := by
    intro h' hy p hp q hq
    obtain ⟨-, -, r3, r4, r5⟩ := rd h' hy
    simp only [attributesOf, List.mem_cons, List.mem_nil_iff, or_false] at hp
    rcases hp with rfl | rfl | rfl | rfl | rfl | rfl
    · exact tn h' _ q r3 hq
    · cases hq
    · exact tn h' _ q r4 hq
    · exact tn h' _ q r5 hq
    · cases hq
    · cases hq
  have o0 : Own h.mem (fun n => cL [] n + c n) := o.congr (by intro n; simp [cL])
  rcases own_attributes (f := f) (attributesOf x flags) [] o0 N with ⟨made, h1, e1, o1, le, b1, b2, -⟩ | ⟨h1, e1, o1, lt⟩
  · by_cases hz : P.null ∈ made
    · obtain ⟨h2, e2, o2, x2⟩ := own_freeAll (d := c) made o1 (fun _ => rfl)
      refine ⟨false, h2, ?_, o2, .inr ⟨rfl, ?_⟩⟩
      · simp [generate, e1, hz, e2]
      · rcases b2 hz with z | z
        · cases z
        · omega
    · obtain ⟨r1, r2, -⟩ := rd h1 ⟨_, o1⟩
      obtain ⟨t, h2, e2, o2, y⟩ := own_malloc' (f := f) .attribute o1
      obtain ⟨h3, e3, o3, x3⟩ := own_freeAll (d := fun n => cP t n + c n) made o2 (by intro n; omega)
      obtain ⟨h4, e4, o4, x4⟩ := own_free (d := c) (p := t) o3 (fun _ => rfl)
      refine ⟨decide (t ≠ .null), h4, ?_, o4, ?_⟩
      · simp [generate, e1, hz, r1, r2, e2, e3, e4]
      · have eq : h1.failed = h.failed := by
          by_cases z : h.failed < h1.failed
          · exact absurd (b1 z) hz
          · omega
        rcases y with ⟨z, k, rfl⟩ | ⟨z, rfl, -⟩
        · exact .inl ⟨by simp, by omega⟩
        · exact .inr ⟨by simp, by omega⟩
  · exact ⟨false, h1, by simp [generate, e1], o1, .inr ⟨rfl, lt⟩⟩

theorem own_setCookies {f : F} {c : Nat → Nat} (flags : Bool × Bool × Bool) (cs : List Ck) (d : Nat → Nat) {h : H} (o : Own h.mem c)
    (e : ∀ n, c n = cC cs n + d n) :
    ∃ ok h', setCookies f h flags cs = .ok (ok, h') ∧ Own h'.mem c ∧
      ((ok = true ∧ h'.failed = h.failed) ∨ (ok = false ∧ h.failed < h'.failed)) := by
  induction cs generalizing d h with
  | nil => exact ⟨true, h, rfl, o, .inl ⟨rfl, rfl⟩⟩
  | cons x t ih =>
    obtain ⟨ok, h1, e1, o1, y⟩ := own_generate (f := f) (x := x) flags (fun n => cC t n + d n) o (by intro n; rw [e n]; simp only [cC]; omega)
    rcases y with ⟨rfl, x1⟩ | ⟨rfl, x1⟩
    · obtain ⟨ok, h2, e2, o2, y⟩ := ih (fun n => cA x.key n + cA x.value n + cP x.expires n + cP x.domain n + cP x.path n + d n) o1
        (by intro n; rw [e n]; simp only [cC]; omega)
      refine ⟨ok, h2, by simp [setCookies, e1, e2], o2, ?_⟩
      rcases y with ⟨z, x2⟩ | ⟨z, x2⟩
      · exact .inl ⟨z, by omega⟩
      · exact .inr ⟨z, by omega⟩
    · exact ⟨false, h1, by simp [setCookies, e1], o1, .inr ⟨rfl, x1⟩⟩

theorem own_answer {f : F} (F : OnlySafe f) {h : H} {c d : Nat → Nat} {r : Resp} (flags : Bool × Bool × Bool) (o : Own h.mem c)
    (e : ∀ n, c n = cR r n + d n) :
    ∃ rc h', answer f h r flags = .ok (rc, r, h') ∧ Own h'.mem c ∧ Rep h h' rc := by
  have body : ∃ b h1, getBody f h r = .ok (.ok, b, r, h1) ∧ Own h1.mem (fun n => cP b n + c n) ∧ h1.failed = h.failed := by
    by_cases hb : r.body ≠ .null ∧ 0 < r.bodyLen
    · obtain ⟨b, h1, e1, o1, x1⟩ := own_mallocOk F .buffer rfl o
      have hl : r.bodyLen ≠ 0 := by omega
      have n1 : need h1 r.body = .ok () := own_need
        (fun n => cA (.at b) n + (cP r.box n + cP r.realm n + cM r.header n + cV r.array r.cookies n + cC r.cookies n + cA r.handle n + cA r.list n + d n)) o1
        (by intro n; simp only [e n, cR, cB, hl, if_false]; omega)
      exact ⟨.at b, h1, by simp [getBody, hb, e1, n1], o1, x1⟩
    · exact ⟨.null, h, by simp only [getBody, hb, if_false], o.congr (by intro n; simp [cP]), rfl⟩
  obtain ⟨b, h1, e1, o1, x1⟩ := body
  have rm := own_readMap (m := r.header)
    (fun n => cP b n + (cP r.box n + cP r.realm n + cB r.body r.bodyLen n + cV r.array r.cookies n + cC r.cookies n + cA r.handle n + cA r.list n + d n)) o1
    (by intro n; simp only [e n, cR]; omega)
  obtain ⟨v1, v2, v3⟩ := V_eq (p := r.array) (cs := r.cookies)
    (fun n => cP b n + (cP r.box n + cP r.realm n + cB r.body r.bodyLen n + cM r.header n + cC r.cookies n + cA r.handle n + cA r.list n + d n)) o1
    (by intro n; simp only [e n, cR]; omega)
  have q : (if r.cookies = [] then Res.ok () else need h1 r.array) = .ok () := by
    by_cases hc : r.cookies = []
    · simp [hc]
    · simp [hc, v3 hc]
  obtain ⟨ok, h2, e2, o2, y⟩ := own_setCookies (f := f) flags r.cookies
    (fun n => cP b n + (cP r.box n + cP r.realm n + cB r.body r.bodyLen n + cM r.header n + cV r.array r.cookies n + cA r.handle n + cA r.list n + d n)) o1
    (by intro n; simp only [e n, cR]; omega)
  obtain ⟨h3, e3, o3, x3⟩ := own_free (d := c) (p := b) o2 (fun _ => rfl)
  refine ⟨if ok then .ok else .memory, h3, by simp [answer, e1, rm, q, e2, e3], o3, ?_⟩
  rcases y with ⟨rfl, x2⟩ | ⟨rfl, x2⟩
  · exact .same (by omega) (by simp)
  · exact .fail (by omega) (by simp)

/-- One call on a response when only allocations fail that the code deals with. -/
theorem own_step {f : F} (F : OnlySafe f) (op : Op) {h : H} {c d : Nat → Nat} {r : Resp} (o : Own h.mem c) (e : ∀ n, c n = cR r n + d n) :
    ∃ rc r' h', step f h r op = .ok (rc, r', h') ∧ Own h'.mem (fun n => cR r' n + d n) ∧ Rep h h' rc ∧ (rc ≠ .ok → Kept r r') := by
  have idle : ∀ rc, rc ≠ .memory → step f h r op = .ok (rc, r, h) →
      ∃ rc r' h', step f h r op = .ok (rc, r', h') ∧ Own h'.mem (fun n => cR r' n + d n) ∧ Rep h h' rc ∧ (rc ≠ .ok → Kept r r') :=
    fun rc hr hs => ⟨rc, r, h, hs, o.congr e, .same rfl hr, fun _ => .refl r⟩
  have bb := B_eq (p := r.body) (len := r.bodyLen)
    (fun n => cP r.box n + cP r.realm n + cM r.header n + cV r.array r.cookies n + cC r.cookies n + cA r.handle n + cA r.list n + d n) o
    (by intro n; rw [e n]; simp only [cR]; omega)
  have noBody : ∃ h1, free h r.body = .ok h1 ∧ h1.failed = h.failed ∧
      Own h1.mem (fun n => cP r.box n + cP r.realm n + cM r.header n + cV r.array r.cookies n + cC r.cookies n + cA r.handle n + cA r.list n + d n) := by
    obtain ⟨h1, e1, o1, x1⟩ := own_free (p := r.body)
      (d := fun n => cP r.box n + cP r.realm n + cM r.header n + cV r.array r.cookies n + cC r.cookies n + cA r.handle n + cA r.list n + d n) o
      (by intro n; rw [e n]; simp only [cR, bb n]; omega)
    exact ⟨h1, e1, x1, o1⟩
  obtain ⟨hb, eb, xb, ob⟩ := noBody
  cases op with
  | header k v =>
    by_cases hn : k = none ∨ v = none
    · exact idle .params (by simp) (by simp only [step, hn, if_true])
    · obtain ⟨rc, m, h1, e1, -, o1, r1, kp, -⟩ := own_putBinary F .call (m := r.header)
        (d := fun n => cP r.box n + cP r.realm n + cB r.body r.bodyLen n + cV r.array r.cookies n + cC r.cookies n + cA r.handle n + cA r.list n + d n)
        k v.isSome (valueSize v) o (by intro n; rw [e n]; simp only [cR]; omega)
      refine ⟨rc, { r with header := m }, h1, ?_, o1.congr (by intro n; simp only [cR]; omega), r1, fun hr => ⟨rfl, kp hr, rfl, .inl ⟨rfl, rfl⟩⟩⟩
      have e1' : put f .call h r.header k v = .ok (rc, m, h1) := e1
      simp only [step, hn, if_false, e1', Res.ok_bind]
      rfl
  | realm v =>
    obtain ⟨h1, e1, o1, x1⟩ := own_free (p := r.realm)
      (d := fun n => cP r.box n + cB r.body r.bodyLen n + cM r.header n + cV r.array r.cookies n + cC r.cookies n + cA r.handle n + cA r.list n + d n) o
      (by intro n; rw [e n]; simp only [cR]; omega)
    obtain ⟨p, h2, e2, o2, y⟩ := own_strdup (f := f) .realm o1 (if v = some [] then none else v)
    rcases y with ⟨x2, -⟩ | ⟨-, -, n, hn⟩
    · refine ⟨.ok, { r with realm := p }, h2, ?_, o2.congr (by intro n; simp only [cR]; omega), .same (by omega) (by simp), by simp⟩
      simp only [step, e1, Res.ok_bind, e2]
      rfl
    · have := F _ _ hn; cases this
  | cookie key value expires domain path =>
    cases key with
    | none => exact idle .params (by simp) rfl
    | some key => exact own_addCookie F key value expires domain path o e
  | stringBody v =>
    cases v with
    | none => exact idle .params (by simp) rfl
    | some v =>
      obtain ⟨p, h2, e2, o2, x2⟩ := own_mallocOk F .stringBody rfl ob
      refine ⟨.ok, { r with body := .at p, bodyLen := v.length }, h2, by simp [step, eb, e2], o2.congr ?_, .same (by omega) (by simp), by simp⟩
      intro n; simp only [cR, cB, cA_at]; split <;> omega
  | binaryBody v =>
    cases v with
    | none => exact idle .params (by simp) rfl
    | some v =>
      cases v with
      | nil => exact idle .params (by simp) rfl
      | cons a v =>
        rcases own_malloc (f := f) .binaryBody ob with ⟨p, h2, e2, o2, x2⟩ | ⟨-, h2, e2, o2, x2⟩
        · refine ⟨.ok, { r with body := .at p, bodyLen := (a :: v).length }, h2, by simp [step, eb, e2], o2.congr ?_, .same (by omega) (by simp), by simp⟩
          intro n; simp only [cR, cB, cA_at]; split <;> omega
        · refine ⟨.memory, { r with body := .null, bodyLen := 0 }, h2, by simp [step, eb, e2], o2.congr ?_, .fail (by omega) (by simp),
            fun _ => ⟨rfl, rfl, rfl, .inr ⟨rfl, rfl⟩⟩⟩
          intro n; simp only [cR, cB, cP]; simp
  | emptyBody =>
    refine ⟨.ok, { r with body := .null, bodyLen := 0 }, hb, by simp [step, eb], ob.congr ?_, .same (by omega) (by simp), by simp⟩
    intro n; simp only [cR, cB, cP]; simp
  | jsonBody v =>
    cases v with
    | none => exact idle .params (by simp) rfl
    | some v =>
      rcases own_malloc (f := f) .jsonBody ob with ⟨p, h2, e2, o2, x2⟩ | ⟨-, h2, e2, o2, x2⟩
      · obtain ⟨rc, m, h3, e3, -, o3, -, -, x3, -⟩ := own_putBinary F .json (m := r.header)
          (d := fun n => cA (.at p) n + (cP r.box n + cP r.realm n + cV r.array r.cookies n + cC r.cookies n + cA r.handle n + cA r.list n + d n))
          (some b!"Content-Type") true (b!"application/json".length + 1) o2 (by intro n; omega)
        have e3' : put f .json h2 r.header (some b!"Content-Type") (some b!"application/json") = .ok (rc, m, h3) := e3
        have x3' := x3 rfl
        refine ⟨.ok, { r with body := .at p, bodyLen := v.length, header := m }, h3, ?_, o3.congr ?_, .same (by omega) (by simp), by simp⟩
        · simp [step, eb, e2, e3']
        · intro n; simp only [cR, cB, cA_at]; split <;> omega
      · refine ⟨.memory, { r with body := .null, bodyLen := 0 }, h2, by simp [step, eb, e2], o2.congr ?_, .fail (by omega) (by simp),
          fun _ => ⟨rfl, rfl, rfl, .inr ⟨rfl, rfl⟩⟩⟩
        intro n; simp only [cR, cB, cP]; simp
  | answer flags =>
    obtain ⟨rc, h1, e1, o1, r1⟩ := own_answer F flags o e
    exact ⟨rc, r, h1, e1, o1.congr e, r1, fun _ => .refl r⟩
  | exported =>
    have rm := own_readMap (m := r.header)
      (fun n => cP r.box n + cP r.realm n + cB r.body r.bodyLen n + cV r.array r.cookies n + cC r.cookies n + cA r.handle n + cA r.list n + d n) o
      (by intro n; simp only [e n, cR]; omega)
    refine idle .ok (by simp) ?_
    by_cases hl : r.bodyLen = 0
    · simp [step, exportAll, rm, hl]
    · have n1 : need h r.body = .ok () := own_need
        (fun n => cP r.box n + cP r.realm n + cM r.header n + cV r.array r.cookies n + cC r.cookies n + cA r.handle n + cA r.list n + d n) o
        (by intro n; simp only [e n, cR, cB, hl, if_false]; omega)
      simp [step, exportAll, rm, hl, n1]

/-! ### Programs -/

/-- The blocks of all objects. -/
def cS {α : Type} (g : α → Nat → Nat) : List (Option α) → Nat → Nat
  | [], _ => 0
  | none :: t, n => cS g t n
  | some a :: t, n => g a n + cS g t n

theorem cS_append {α : Type} (g : α → Nat → Nat) (a b : List (Option α)) (n : Nat) : cS g (a ++ b) n = cS g a n + cS g b n := by
  induction a with
  | nil => simp [cS]
  | cons x t ih => cases x <;> simp only [List.cons_append, cS, ih] <;> omega

theorem cS_pick {α : Type} (g : α → Nat → Nat) {l : List (Option α)} {i : Nat} {a : α} (h : l[i]? = some (some a)) :
    ∃ rest : Nat → Nat, (∀ n, cS g l n = g a n + rest n) ∧ (∀ b n, cS g (l.set i (some b)) n = g b n + rest n) ∧ ∀ n, cS g (l.set i none) n = rest n := by
  induction l generalizing i with
  | nil => simp at h
  | cons x t ih =>
    cases i with
    | zero =>
      simp at h
      subst h
      exact ⟨cS g t, fun n => rfl, fun b n => rfl, fun n => rfl⟩
    | succ i =>
      obtain ⟨rest, r1, r2, r3⟩ := ih (i := i) (by simpa using h)
      cases x with
      | none => exact ⟨rest, r1, r2, r3⟩
      | some x =>
        exact ⟨fun n => g x n + rest n, fun n => by simp only [cS, r1 n]; omega, fun b n => by simp only [List.set_cons_succ, cS, r2 b n]; omega,
          fun n => by simp only [List.set_cons_succ, cS, r3 n]⟩

theorem cS_none {α : Type} (g : α → Nat → Nat) {l : List (Option α)} (h : ∀ x ∈ l, x = none) (n : Nat) : cS g l n = 0 := by
  induction l with
  | nil => rfl
  | cons x t ih =>
    have : x = none := h x (by simp)
    subst this
    exact ih (fun y hy => h y (by simp [hy]))

theorem Unharmed.refl (s : State) (h : H) : Unharmed s { s with heap := h } :=
  ⟨fun _ => rfl, fun _ _ e => ⟨_, e, .refl _⟩, fun _ _ e => ⟨_, e⟩⟩

theorem pad {α : Type} (l : List (Option α)) (i : Nat) : (l ++ [none])[i]?.join = l[i]?.join := by
  rw [List.getElem?_append]
  split
  · rfl
  · next h =>
    rw [List.getElem?_eq_none (by omega : l.length ≤ i)]
    cases i - l.length <;> simp

theorem get_set_same {α : Type} {l : List (Option α)} {i : Nat} {a : α} (h : l[i]? = some (some a)) : l.set i (some a) = l := by
  apply List.ext_getElem?
  intro j
  rw [List.getElem?_set]
  split
  · next e =>
    subst e
    have : i < l.length := by
      rcases Nat.lt_or_ge i l.length with x | x
      · exact x
      · rw [List.getElem?_eq_none x] at h; cases h
    simp only [this, if_true, h]
  · rfl

theorem Unharmed.grow (s : State) (h : H) (a b : Bool) :
    Unharmed s { heap := h, maps := if a then s.maps ++ [none] else s.maps, resps := if b then s.resps ++ [none] else s.resps } := by
  have pr : ∀ (i : Nat) (r : Resp), (s.resps ++ [none])[i]? = some (some r) ↔ s.resps[i]? = some (some r) := by
    intro i r
    have := pad s.resps i
    constructor
    · intro e
      rw [e] at this
      cases z : s.resps[i]? with
      | none => rw [z] at this; cases this
      | some y => rw [z] at this; cases y with
        | none => cases this
        | some y => simp at this; rw [this]
    · intro e
      rw [e] at this
      cases z : (s.resps ++ [none])[i]? with
      | none => rw [z] at this; cases this
      | some y => rw [z] at this; cases y with
        | none => cases this
        | some y => simp at this; rw [this]
  refine ⟨fun i => ?_, fun i r e => ⟨r, ?_, .refl _⟩, fun i r e => ⟨r, ?_⟩⟩
  · cases a
    · rfl
    · exact pad s.maps i
  · cases b
    · exact e
    · exact (pr i r).2 e
  · cases b
    · exact e
    · exact (pr i r).1 e

theorem own_exec {f : F} (F : OnlySafe f) (x : Cmd) {s : State} {d : Nat → Nat} (o : Own s.heap.mem (fun n => cS cM s.maps n + cS cR s.resps n + d n)) :
    ∃ rc s', exec f s x = .ok (rc, s') ∧ Own s'.heap.mem (fun n => cS cM s'.maps n + cS cR s'.resps n + d n) ∧ Rep s.heap s'.heap rc ∧
      (rc ≠ .ok → Unharmed s s') := by
  have idle : exec f s x = .ok (.params, s) →
      ∃ rc s', exec f s x = .ok (rc, s') ∧ Own s'.heap.mem (fun n => cS cM s'.maps n + cS cR s'.resps n + d n) ∧ Rep s.heap s'.heap rc ∧
        (rc ≠ .ok → Unharmed s s') :=
    fun e => ⟨.params, s, e, o, .same rfl (by simp), fun _ => .refl s s.heap⟩
  cases x with
  | map =>
    rcases own_mapInit (f := f) .call .null o with ⟨m, h, e1, b1, -, x1, o1, -⟩ | ⟨-, m, h, e1, x1, o1⟩
    · refine ⟨.ok, { s with heap := h, maps := s.maps ++ [some m] }, by simp [exec, e1], o1.congr ?_, .same x1 (by simp), by simp⟩
      intro n; simp only [cS_append, cS, cP]; omega
    · refine ⟨.memory, { s with heap := h, maps := s.maps ++ [none] }, by simp [exec, e1], o1.congr ?_, .fail x1 (by simp), fun _ => .grow s h true false⟩
      intro n; simp only [cS_append, cS]; omega
  | put i k v =>
    rcases hm : s.maps[i]? with _ | _ | m
    · exact idle (by simp [exec, hm])
    · exact idle (by simp [exec, hm])
    · obtain ⟨rest, r1, r2, -⟩ := cS_pick cM hm
      obtain ⟨rc, m', h', e1, -, o1, p1, k1, -⟩ := own_putBinary F .call (m := m) (d := fun n => rest n + cS cR s.resps n + d n) k v.isSome (valueSize v) o
        (by intro n; rw [r1 n]; omega)
      refine ⟨rc, { s with heap := h', maps := s.maps.set i (some m') }, by simp [exec, hm, put, e1], o1.congr ?_, p1, fun hr => ?_⟩
      · intro n; simp only [r2]; omega
      · rw [k1 hr, get_set_same hm]; exact .refl s h'
  | read i =>
    rcases hm : s.maps[i]? with _ | _ | m
    · exact idle (by simp [exec, hm])
    · exact idle (by simp [exec, hm])
    · obtain ⟨rest, r1, -, -⟩ := cS_pick cM hm
      have := own_readMap (m := m) (fun n => rest n + cS cR s.resps n + d n) o (by intro n; rw [r1 n]; omega)
      exact ⟨.ok, s, by simp [exec, hm, this], o, .same rfl (by simp), by simp⟩
  | copy i =>
    rcases hm : s.maps[i]? with _ | _ | m
    · refine ⟨.params, { s with maps := s.maps ++ [none] }, by simp [exec, hm], o.congr ?_, .same rfl (by simp), fun _ => .grow s s.heap true false⟩
      intro n; simp only [cS_append, cS]; omega
    · refine ⟨.params, { s with maps := s.maps ++ [none] }, by simp [exec, hm], o.congr ?_, .same rfl (by simp), fun _ => .grow s s.heap true false⟩
      intro n; simp only [cS_append, cS]; omega
    · obtain ⟨rest, r1, -, -⟩ := cS_pick cM hm
      rcases own_mapCopy F (m := m) (d := fun n => rest n + cS cR s.resps n + d n) o (by intro n; rw [r1 n]; omega) with
        ⟨x, h, e1, o1, x1⟩ | ⟨h, e1, o1, x1⟩
      · refine ⟨.ok, { s with heap := h, maps := s.maps ++ [some x] }, by simp [exec, hm, e1], o1.congr ?_, .same x1 (by simp), by simp⟩
        intro n; simp only [cS_append, cS]; omega
      · refine ⟨.memory, { s with heap := h, maps := s.maps ++ [none] }, by simp [exec, hm, e1], o1.congr ?_, .fail x1 (by simp), fun _ => .grow s h true false⟩
        intro n; simp only [cS_append, cS]; omega
  | drop i =>
    rcases hm : s.maps[i]? with _ | _ | m
    · exact idle (by simp [exec, hm])
    · exact idle (by simp [exec, hm])
    · obtain ⟨rest, r1, -, r3⟩ := cS_pick cM hm
      obtain ⟨h, e1, o1, x1⟩ := own_mapCleanFull (m := m) (d := fun n => rest n + cS cR s.resps n + d n) o (by intro n; rw [r1 n]; omega)
      refine ⟨.ok, { s with heap := h, maps := s.maps.set i none }, by simp [exec, hm, e1], o1.congr ?_, .same x1 (by simp), by simp⟩
      intro n; simp only [r3]
  | response =>
    rcases own_initResponse F o with ⟨r, h, e1, o1, x1⟩ | ⟨h, e1, o1, x1⟩
    · refine ⟨.ok, { s with heap := h, resps := s.resps ++ [some r] }, by simp [exec, e1], o1.congr ?_, .same x1 (by simp), by simp⟩
      intro n; simp only [cS_append, cS]; omega
    · refine ⟨.memory, { s with heap := h, resps := s.resps ++ [none] }, by simp [exec, e1], o1.congr ?_, .fail x1 (by simp), fun _ => .grow s h false true⟩
      intro n; simp only [cS_append, cS]; omega
  | op i a =>
    rcases hm : s.resps[i]? with _ | _ | r
    · exact idle (by simp [exec, hm])
    · exact idle (by simp [exec, hm])
    · obtain ⟨rest, r1, r2, -⟩ := cS_pick cR hm
      obtain ⟨rc, r', h', e1, o1, p1, k1⟩ := own_step F a (r := r) (d := fun n => rest n + cS cM s.maps n + d n) o (by intro n; rw [r1 n]; omega)
      refine ⟨rc, { s with heap := h', resps := s.resps.set i (some r') }, by simp [exec, hm, e1], o1.congr ?_, p1, fun hr => ?_⟩
      · intro n; simp only [r2]; omega
      · have il : i < s.resps.length := by
          rcases Nat.lt_or_ge i s.resps.length with x | x
          · exact x
          · rw [List.getElem?_eq_none x] at hm; cases hm
        refine ⟨fun _ => rfl, fun j q hq => ?_, fun j q hq => ?_⟩
        · by_cases hj : i = j
          · subst hj
            rw [hm] at hq
            cases hq
            exact ⟨r', by simp [il], k1 hr⟩
          · exact ⟨q, by simp [List.getElem?_set, hj, hq], .refl _⟩
        · by_cases hj : i = j
          · subst hj
            exact ⟨r, hm⟩
          · exact ⟨q, by simpa [List.getElem?_set, hj] using hq⟩
  | clean i =>
    rcases hm : s.resps[i]? with _ | _ | r
    · exact idle (by simp [exec, hm])
    · exact idle (by simp [exec, hm])
    · obtain ⟨rest, r1, -, r3⟩ := cS_pick cR hm
      obtain ⟨h, e1, o1, x1⟩ := own_cleanResponse (r := r) (d := fun n => rest n + cS cM s.maps n + d n) o (by intro n; rw [r1 n]; omega)
      refine ⟨.ok, { s with heap := h, resps := s.resps.set i none }, by simp [exec, hm, e1], o1.congr ?_, .same x1 (by simp), by simp⟩
      intro n; simp only [r3]; omega

theorem own_run {f : F} (F : OnlySafe f) (prog : List Cmd) {s : State} {d : Nat → Nat} (o : Own s.heap.mem (fun n => cS cM s.maps n + cS cR s.resps n + d n)) :
    ∃ out s', run f s prog = .ok (out, s') ∧ Own s'.heap.mem (fun n => cS cM s'.maps n + cS cR s'.resps n + d n) ∧
      ∀ x ∈ out, (0 < x.2 → x.1 ≠ .ok) ∧ (x.1 = .memory → 0 < x.2) := by
  induction prog generalizing s with
  | nil => exact ⟨[], s, rfl, o, by simp⟩
  | cons c t ih =>
    obtain ⟨rc, s1, e1, o1, p1, -⟩ := own_exec F c o
    obtain ⟨out, s2, e2, o2, p2⟩ := ih o1
    refine ⟨_, s2, by simp [run, e1, e2]; rfl, o2, ?_⟩
    intro x hx
    rcases List.mem_cons.1 hx with rfl | hx
    · exact ⟨fun h => p1.bad (by simp at h; omega), fun h => by have := p1.mem h; simp; omega⟩
    · exact p2 x hx

end Verif.Oom
