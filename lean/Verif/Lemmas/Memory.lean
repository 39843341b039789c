import Verif.Model.Memory
/-! # Lemmas about the blocks of requests: who owns what, counted -/
namespace Verif.Memory
open Verif.UMap (Rc)

/-- How often the pointer accounts for the block `n`; 2 is impossible. -/
def cP : P → Nat → Nat
  | .null, _ => 0
  | .at m, n => if m = n then 1 else 0
  | .junk, _ => 2

/-- The same for a pointer that is not NULL. -/
def cA : P → Nat → Nat
  | .at m, n => if m = n then 1 else 0
  | _, _ => 2

/-- `c` accounts for every allocated block. -/
def Own (h : Heap) (c : Nat → Nat) : Prop := ∀ n, h.live.count n = c n ∧ c n ≤ 1 ∧ (h.next ≤ n → c n = 0)

theorem Own.congr {h : Heap} {c d : Nat → Nat} (o : Own h c) (e : ∀ n, c n = d n) : Own h d := by
  intro n
  rw [← e n]
  exact o n

theorem own_free {h : Heap} {c d : Nat → Nat} {p : P} (o : Own h c) (e : ∀ n, c n = cP p n + d n) :
    ∃ h', free h p = .ok h' ∧ Own h' d := by
  cases p with
  | null => exact ⟨h, rfl, o.congr (by intro n; rw [e n]; simp [cP])⟩
  | junk => have := o 0; have e0 := e 0; simp only [cP] at e0; omega
  | «at» m =>
    have hm : m ∈ h.live := by
      rw [← List.count_pos_iff]
      have := (o m).1
      have e0 := e m
      simp [cP] at e0
      omega
    refine ⟨{ h with live := h.live.erase m }, by simp [free, hm], ?_⟩
    intro n
    have h1 := o n
    have e1 := e n
    simp only [cP] at e1
    refine ⟨?_, by omega, fun hn => ?_⟩
    · dsimp only
      rw [List.count_erase, h1.1, e1]
      by_cases hmn : m = n
      · subst hmn; simp
      · simp [hmn, Ne.symm hmn]
    · have := h1.2.2 hn; omega

theorem own_freeA {h : Heap} {c d : Nat → Nat} {p : P} (o : Own h c) (e : ∀ n, c n = cA p n + d n) :
    ∃ h', free h p = .ok h' ∧ Own h' d := by
  cases p with
  | «at» m => exact own_free o e
  | null => have := o 0; have e0 := e 0; simp only [cA] at e0; omega
  | junk => have := o 0; have e0 := e 0; simp only [cA] at e0; omega

theorem own_need {h : Heap} {c d : Nat → Nat} {p : P} (o : Own h c) (e : ∀ n, c n = cA p n + d n) : need h p = .ok () := by
  cases p with
  | «at» m =>
    have hm : m ∈ h.live := by
      rw [← List.count_pos_iff]
      have := (o m).1
      have e0 := e m
      simp [cA] at e0
      omega
    simp [need, hm]
  | null => have := o 0; have e0 := e 0; simp only [cA] at e0; omega
  | junk => have := o 0; have e0 := e 0; simp only [cA] at e0; omega

theorem own_malloc {h : Heap} {c : Nat → Nat} (o : Own h c) : ∃ p h', malloc h = (p, h') ∧ Own h' (fun n => cA p n + c n) ∧ ∀ n, cP p n = cA p n := by
  refine ⟨.at h.next, _, rfl, ?_, fun _ => rfl⟩
  intro n
  have h1 := o n
  simp only [cA]
  rw [List.count_cons, h1.1]
  by_cases hn : h.next = n
  · subst hn
    have := h1.2.2 (Nat.le_refl _)
    simp [this]
  · have : (h.next == n) = false := by simp [hn]
    simp only [hn, if_false, this]
    refine ⟨by simp, by omega, fun hk => ?_⟩
    have := h1.2.2 (by omega)
    omega

theorem own_reallocA {h : Heap} {c d : Nat → Nat} {p : P} (o : Own h c) (e : ∀ n, c n = cA p n + d n) :
    ∃ q h', realloc h p = .ok (q, h') ∧ Own h' (fun n => cA q n + d n) ∧ ∀ n, cP q n = cA q n := by
  obtain ⟨h1, e1, o1⟩ := own_freeA o e
  obtain ⟨q, h2, e2, o2, q2⟩ := own_malloc o1
  exact ⟨q, h2, by simp [realloc, e1, e2], o2, q2⟩

theorem own_realloc {h : Heap} {c d : Nat → Nat} {p : P} (o : Own h c) (e : ∀ n, c n = cP p n + d n) :
    ∃ q h', realloc h p = .ok (q, h') ∧ Own h' (fun n => cP q n + d n) := by
  obtain ⟨h1, e1, o1⟩ := own_free o e
  obtain ⟨q, h2, e2, o2, q2⟩ := own_malloc o1
  exact ⟨q, h2, by simp [realloc, e1, e2], o2.congr (fun n => by rw [q2])⟩

theorem own_strdup {h : Heap} {c : Nat → Nat} (o : Own h c) (v : Option Bytes) :
    ∃ p h', strdup h v = (p, h') ∧ Own h' (fun n => cP p n + c n) ∧ (v ≠ none → ∀ n, cP p n = cA p n) := by
  cases v with
  | none => exact ⟨.null, h, rfl, o.congr (by intro n; simp [cP]), by simp⟩
  | some s =>
    obtain ⟨q, h2, e2, o2, q2⟩ := own_malloc o
    exact ⟨q, h2, e2, o2.congr (fun n => by rw [q2]), fun _ => q2⟩

theorem own_copyP {h : Heap} {c d : Nat → Nat} {p : P} (o : Own h c) (e : ∀ n, c n = cP p n + d n) :
    ∃ q h', copyP h p = .ok (q, h') ∧ Own h' (fun n => cP q n + c n) := by
  cases p with
  | null => exact ⟨.null, h, rfl, o.congr (by intro n; simp [cP])⟩
  | junk => have := o 0; have e0 := e 0; simp only [cP] at e0; omega
  | «at» m =>
    have hn : need h (.at m) = .ok () := own_need o e
    obtain ⟨q, h2, e2, o2, q2⟩ := own_malloc o
    exact ⟨q, h2, by simp [copyP, hn, e2], o2.congr (fun n => by rw [q2])⟩

/-- The blocks of a list of pointers. -/
def cL : List P → Nat → Nat
  | [], _ => 0
  | p :: t, n => cP p n + cL t n

theorem cL_append (a b : List P) (n : Nat) : cL (a ++ b) n = cL a n + cL b n := by
  induction a with
  | nil => simp [cL]
  | cons p t ih => simp [cL, ih]; omega

theorem own_freeAll {c d : Nat → Nat} (l : List P) {h : Heap} (o : Own h c) (e : ∀ n, c n = cL l n + d n) :
    ∃ h', freeAll h l = .ok h' ∧ Own h' d := by
  induction l generalizing h c with
  | nil => exact ⟨h, rfl, o.congr (by intro n; rw [e n]; simp [cL])⟩
  | cons p t ih =>
    obtain ⟨h1, e1, o1⟩ := own_free (p := p) (d := fun n => cL t n + d n) o (by intro n; rw [e n]; simp only [cL]; omega)
    obtain ⟨h2, e2, o2⟩ := ih o1 (fun _ => rfl)
    exact ⟨h2, by simp [freeAll, e1, e2], o2⟩

/-! ## Maps -/

/-- There is no entry without a name: no heap can account for one. -/
def cK : Bytes → Nat → Nat
  | [], _ => 2
  | _ :: _, _ => 0

/-- The blocks of entries. -/
def cE : List Entry → Nat → Nat
  | [], _ => 0
  | e :: t, n => cK e.key n + cA e.kp n + cA e.vp n + cE t n

theorem K_zero {h : Heap} {c d : Nat → Nat} {k : Bytes} (o : Own h c) (e : ∀ n, c n = cK k n + d n) : k ≠ [] ∧ ∀ n, cK k n = 0 := by
  cases k with
  | nil => have := o 0; have e0 := e 0; simp only [cK] at e0; omega
  | cons x t => exact ⟨by simp, fun _ => rfl⟩

theorem cE_append (a b : List Entry) (n : Nat) : cE (a ++ b) n = cE a n + cE b n := by
  induction a with
  | nil => simp [cE]
  | cons p t ih => simp [cE, ih]; omega

/-- The blocks of a map. -/
def cM (m : RMap) (n : Nat) : Nat := cA m.box n + cA m.keys n + cA m.values n + cA m.lengths n + cE m.entries n

/-- The same for a pointer to a map. -/
def cO : Option RMap → Nat → Nat
  | none, _ => 0
  | some m, n => cM m n

/-- The same for a pointer that is not NULL. -/
def cX : Option RMap → Nat → Nat
  | none, _ => 2
  | some m, n => cM m n

theorem le_A (p : P) (n : Nat) : cP p n ≤ cA p n := by cases p <;> simp [cP, cA]

/-- Bound of a sum that accounts for a heap. -/
theorem A_eq {h : Heap} {c d : Nat → Nat} {p : P} (o : Own h c) (e : ∀ n, c n = cA p n + d n) (n : Nat) : cP p n = cA p n := by
  cases p with
  | «at» m => rfl
  | null => have := o 0; have e0 := e 0; simp only [cA] at e0; omega
  | junk => rfl

theorem cL_entries {h : Heap} {c : Nat → Nat} (es : List Entry) (d : Nat → Nat) (o : Own h c) (e : ∀ n, c n = cE es n + d n) (n : Nat) :
    cL (entryPtrs es) n = cE es n := by
  induction es generalizing d with
  | nil => simp [entryPtrs, cL, cE]
  | cons x t ih =>
    have ht := ih (fun n => cK x.key n + cA x.kp n + cA x.vp n + d n) (by intro n; rw [e n]; simp only [cE]; omega)
    have z := (K_zero (k := x.key) (d := fun n => cA x.kp n + cA x.vp n + cE t n + d n) o (by intro n; rw [e n]; simp only [cE]; omega)).2 n
    have k := A_eq (d := fun n => cK x.key n + cA x.vp n + cE t n + d n) o (p := x.kp) (by intro n; rw [e n]; simp only [cE]; omega) n
    have v := A_eq (d := fun n => cK x.key n + cA x.kp n + cE t n + d n) o (p := x.vp) (by intro n; rw [e n]; simp only [cE]; omega) n
    simp only [entryPtrs, List.flatMap_cons] at ht ⊢
    rw [cL_append, ht]
    simp only [cL, cE]
    omega

theorem own_mapInit {h : Heap} {c : Nat → Nat} (box : P) (o : Own h c) :
    ∃ m h', mapInit h box = (m, h') ∧ m.box = box ∧ Own h' (fun n => cM m n - cA box n + c n) ∧ (∀ n, cA box n ≤ cM m n) := by
  obtain ⟨k, h1, e1, o1, -⟩ := own_malloc o
  obtain ⟨v, h2, e2, o2, -⟩ := own_malloc o1
  obtain ⟨l, h3, e3, o3, -⟩ := own_malloc o2
  refine ⟨⟨box, k, v, l, []⟩, h3, by simp [mapInit, e1, e2, e3], rfl, o3.congr ?_, ?_⟩
  · intro n; simp only [cM, cE]; omega
  · intro n; simp only [cM]; omega

theorem own_mapClean {h : Heap} {c d : Nat → Nat} {m : RMap} (o : Own h c) (e : ∀ n, c n = cM m n + d n) :
    ∃ h', mapClean h m = .ok h' ∧ Own h' (fun n => cA m.box n + d n) := by
  have hn : need h m.box = .ok () := own_need (d := fun n => cA m.keys n + cA m.values n + cA m.lengths n + cE m.entries n + d n) o
    (by intro n; rw [e n]; simp only [cM]; omega)
  have he := cL_entries m.entries (fun n => cA m.box n + cA m.keys n + cA m.values n + cA m.lengths n + d n) o
    (by intro n; rw [e n]; simp only [cM]; omega)
  have hk := A_eq (p := m.keys) (d := fun n => cA m.box n + cA m.values n + cA m.lengths n + cE m.entries n + d n) o
    (by intro n; rw [e n]; simp only [cM]; omega)
  have hv := A_eq (p := m.values) (d := fun n => cA m.box n + cA m.keys n + cA m.lengths n + cE m.entries n + d n) o
    (by intro n; rw [e n]; simp only [cM]; omega)
  have hl := A_eq (p := m.lengths) (d := fun n => cA m.box n + cA m.keys n + cA m.values n + cE m.entries n + d n) o
    (by intro n; rw [e n]; simp only [cM]; omega)
  obtain ⟨h', e', o'⟩ := own_freeAll (d := fun n => cA m.box n + d n) (entryPtrs m.entries ++ [m.keys, m.values, m.lengths]) o (by
    intro n
    rw [e n, cL_append, he n]
    simp only [cL, cM]
    have := hk n
    have := hv n
    have := hl n
    omega)
  exact ⟨h', by simp [mapClean, hn, e'], o'⟩

theorem own_mapCleanFull {h : Heap} {c d : Nat → Nat} {m : Option RMap} (o : Own h c) (e : ∀ n, c n = cO m n + d n) :
    ∃ h', mapCleanFull h m = .ok h' ∧ Own h' d := by
  cases m with
  | none => exact ⟨h, rfl, o.congr (by intro n; rw [e n]; simp [cO])⟩
  | some m =>
    obtain ⟨h1, e1, o1⟩ := own_mapClean o e
    obtain ⟨h2, e2, o2⟩ := own_freeA o1 (fun _ => rfl)
    exact ⟨h2, by simp [mapCleanFull, e1, e2], o2⟩

theorem own_mapCleanFullX {h : Heap} {c d : Nat → Nat} {m : Option RMap} (o : Own h c) (e : ∀ n, c n = cX m n + d n) :
    ∃ h', mapCleanFull h m = .ok h' ∧ Own h' d := by
  cases m with
  | none => have := o 0; have e0 := e 0; simp only [cX] at e0; omega
  | some m => exact own_mapCleanFull (m := some m) o e

theorem own_updEntry {h : Heap} {c d : Nat → Nat} {x : Entry} (given : Bool) (total : Nat) (o : Own h c)
    (e : ∀ n, c n = cA x.vp n + d n) :
    ∃ y h', updEntry h given total x = .ok (y, h') ∧ y.key = x.key ∧ y.kp = x.kp ∧ Own h' (fun n => cA y.vp n + d n) := by
  have first : ∃ v h1, (if x.len < total then realloc h x.vp else Res.ok (x.vp, h)) = .ok (v, h1) ∧ Own h1 (fun n => cA v n + d n) := by
    split
    · obtain ⟨q, h1, e1, o1, -⟩ := own_reallocA o e
      exact ⟨q, h1, e1, o1⟩
    · exact ⟨x.vp, h, rfl, o.congr e⟩
  obtain ⟨v, h1, e1, o1⟩ := first
  cases given with
  | true =>
    have hn : need h1 v = .ok () := own_need o1 (fun _ => rfl)
    refine ⟨{ x with vp := v, len := if x.len < total then total else x.len }, h1, ?_, rfl, rfl, o1⟩
    unfold updEntry
    rw [e1]
    simp [hn]
  | false =>
    obtain ⟨h2, e2, o2⟩ := own_freeA o1 (fun _ => rfl)
    obtain ⟨q, h3, e3, o3, -⟩ := own_malloc o2
    refine ⟨{ x with vp := q, len := 0 }, h3, ?_, rfl, rfl, o3⟩
    unfold updEntry
    rw [e1]
    simp [e2, e3]

theorem own_putFound {c : Nat → Nat} (key : Bytes) (given : Bool) (total : Nat) (es : List Entry) (d : Nat → Nat) {h : Heap}
    (o : Own h c) (e : ∀ n, c n = cE es n + d n) :
    putFound h key given total es = .ok none ∨
    ∃ es' h', putFound h key given total es = .ok (some (es', h')) ∧ Own h' (fun n => cE es' n + d n) := by
  induction es generalizing d with
  | nil => exact .inl rfl
  | cons x t ih =>
    have hn : need h x.kp = .ok () := own_need (d := fun n => cK x.key n + cA x.vp n + cE t n + d n) o (by intro n; rw [e n]; simp only [cE]; omega)
    by_cases hk : x.key = key
    · obtain ⟨y, h1, e1, ey, ek, o1⟩ := own_updEntry (x := x) (d := fun n => cK x.key n + cA x.kp n + cE t n + d n) given total o
        (by intro n; rw [e n]; simp only [cE]; omega)
      refine .inr ⟨y :: t, h1, by simp [putFound, hn, hk, e1], o1.congr ?_⟩
      intro n; simp only [cE, ek, ey]; omega
    · rcases ih (fun n => cK x.key n + cA x.kp n + cA x.vp n + d n) (by intro n; rw [e n]; simp only [cE]; omega) with hi | ⟨es', h', hi, o'⟩
      · exact .inl (by simp [putFound, hn, hk, hi])
      · refine .inr ⟨x :: es', h', by simp [putFound, hn, hk, hi], o'.congr ?_⟩
        intro n; simp only [cE]; omega

theorem own_putBinary {h : Heap} {c d : Nat → Nat} {m : RMap} (key : Option Bytes) (given : Bool) (total : Nat) (o : Own h c)
    (e : ∀ n, c n = cM m n + d n) :
    ∃ rc m' h', putBinary h m key given total = .ok (rc, m', h') ∧ m'.box = m.box ∧ Own h' (fun n => cM m' n + d n) := by
  cases key with
  | none => exact ⟨_, m, h, rfl, rfl, o.congr e⟩
  | some key =>
    cases key with
    | nil => exact ⟨_, m, h, rfl, rfl, o.congr e⟩
    | cons b key =>
      have hn : need h m.box = .ok () := own_need (d := fun n => cA m.keys n + cA m.values n + cA m.lengths n + cE m.entries n + d n) o
        (by intro n; rw [e n]; simp only [cM]; omega)
      have hn2 : need h m.keys = .ok () := own_need (d := fun n => cA m.box n + cA m.values n + cA m.lengths n + cE m.entries n + d n) o
        (by intro n; rw [e n]; simp only [cM]; omega)
      rcases own_putFound (b :: key) given total m.entries (fun n => cA m.box n + cA m.keys n + cA m.values n + cA m.lengths n + d n) o
        (by intro n; rw [e n]; simp only [cM]; omega) with hf | ⟨es, h', hf, o'⟩
      · obtain ⟨kp, h1, e1, o1, -⟩ := own_malloc o
        obtain ⟨vp, h2, e2, o2, -⟩ := own_malloc o1
        obtain ⟨ks, h3, e3, o3, -⟩ := own_reallocA (p := m.keys)
          (d := fun n => cA vp n + cA kp n + cA m.box n + cA m.values n + cA m.lengths n + cE m.entries n + d n) o2
          (by intro n; simp only [e n, cM]; omega)
        obtain ⟨vs, h4, e4, o4, -⟩ := own_reallocA (p := m.values)
          (d := fun n => cA ks n + cA vp n + cA kp n + cA m.box n + cA m.lengths n + cE m.entries n + d n) o3
          (by intro n; omega)
        obtain ⟨ls, h5, e5, o5, -⟩ := own_reallocA (p := m.lengths)
          (d := fun n => cA vs n + cA ks n + cA vp n + cA kp n + cA m.box n + cE m.entries n + d n) o4
          (by intro n; omega)
        refine ⟨.ok, { m with keys := ks, values := vs, lengths := ls, entries := m.entries ++ [⟨b :: key, kp, vp, total⟩] }, h5, ?_, rfl, o5.congr ?_⟩
        · simp [putBinary, hn, hn2, hf, e1, e2, e3, e4, e5]
        · intro n; simp only [cM, cE_append, cE, cK]; omega
      · refine ⟨.ok, { m with entries := es }, h', by simp [putBinary, hn, hn2, hf], rfl, o'.congr ?_⟩
        intro n; simp only [cM]; omega

theorem own_removeAt {h : Heap} {c d : Nat → Nat} {m : RMap} {x : Entry} (o : Own h c) (e : ∀ n, c n = cM m n + (cA x.kp n + cA x.vp n + d n)) :
    ∃ m' h', removeAt h m x = .ok (m', h') ∧ m'.box = m.box ∧ Own h' (fun n => cM m' n + d n) := by
  have k := A_eq (d := fun n => cM m n + cA x.vp n + d n) o (p := x.kp) (by intro n; rw [e n]; omega)
  have v := A_eq (d := fun n => cM m n + cA x.kp n + d n) o (p := x.vp) (by intro n; rw [e n]; omega)
  obtain ⟨h1, e1, o1⟩ := own_freeAll (d := fun n => cM m n + d n) [x.kp, x.vp] o (by
    intro n; rw [e n]; simp only [cL]; have := k n; have := v n; omega)
  obtain ⟨ks, h3, e3, o3, -⟩ := own_reallocA (p := m.keys)
    (d := fun n => cA m.box n + cA m.values n + cA m.lengths n + cE m.entries n + d n) o1
    (by intro n; simp only [cM]; omega)
  obtain ⟨vs, h4, e4, o4, -⟩ := own_reallocA (p := m.values)
    (d := fun n => cA ks n + cA m.box n + cA m.lengths n + cE m.entries n + d n) o3
    (by intro n; omega)
  obtain ⟨ls, h5, e5, o5, -⟩ := own_reallocA (p := m.lengths)
    (d := fun n => cA vs n + cA ks n + cA m.box n + cE m.entries n + d n) o4
    (by intro n; omega)
  refine ⟨{ m with keys := ks, values := vs, lengths := ls }, h5, by simp [removeAt, e1, e3, e4, e5], rfl, o5.congr ?_⟩
  intro n; simp only [cM]; omega

theorem own_removeLoop {c : Nat → Nat} (same : Bytes → Bool) (es : List Entry) {h : Heap} {m : RMap} (d : Nat → Nat) (o : Own h c)
    (e : ∀ n, c n = cM m n - cE m.entries n + cE es n + d n) :
    ∃ b m' h', removeLoop h m same es = .ok (b, m', h') ∧ m'.box = m.box ∧ Own h' (fun n => cM m' n + d n) := by
  induction es generalizing d with
  | nil =>
    refine ⟨_, _, h, rfl, rfl, o.congr ?_⟩
    intro n; rw [e n]; simp only [cM, cE]; omega
  | cons x t ih =>
    obtain ⟨b, m1, h1, e1, b1, o1⟩ := ih (fun n => cK x.key n + cA x.kp n + cA x.vp n + d n) (by intro n; rw [e n]; simp only [cE]; omega)
    have hn : need h1 x.kp = .ok () := own_need (d := fun n => cK x.key n + cM m1 n + cA x.vp n + d n) o1 (by intro n; omega)
    have z := (K_zero (k := x.key) (d := fun n => cM m1 n + cA x.kp n + cA x.vp n + d n) o1 (by intro n; omega)).2
    by_cases hk : same x.key = true
    · obtain ⟨m2, h2, e2, b2, o2⟩ := own_removeAt (m := m1) (x := x) (d := d) o1 (by intro n; have := z n; omega)
      exact ⟨true, m2, h2, by simp [removeLoop, e1, hn, hk, e2], b2.trans b1, o2⟩
    · refine ⟨b, { m1 with entries := x :: m1.entries }, h1, by simp [removeLoop, e1, hn, hk], b1, o1.congr ?_⟩
      intro n; simp only [cM, cE]; omega

theorem own_remove {h : Heap} {c d : Nat → Nat} {m : RMap} (key : Option Bytes) (same : Bytes → Bytes → Bool) (o : Own h c) (e : ∀ n, c n = cM m n + d n) :
    ∃ rc m' h', remove h m key same = .ok (rc, m', h') ∧ m'.box = m.box ∧ Own h' (fun n => cM m' n + d n) := by
  cases key with
  | none => exact ⟨_, m, h, rfl, rfl, o.congr e⟩
  | some key =>
    have hn : need h m.box = .ok () := own_need (d := fun n => cA m.keys n + cA m.values n + cA m.lengths n + cE m.entries n + d n) o
      (by intro n; rw [e n]; simp only [cM]; omega)
    have hn2 : need h m.keys = .ok () := own_need (d := fun n => cA m.box n + cA m.values n + cA m.lengths n + cE m.entries n + d n) o
      (by intro n; rw [e n]; simp only [cM]; omega)
    obtain ⟨b, m1, h1, e1, b1, o1⟩ := own_removeLoop (fun k => same k key) m.entries (m := m) d o (by intro n; rw [e n]; simp only [cM]; omega)
    exact ⟨_, m1, h1, by simp [remove, hn, hn2, e1]; rfl, b1, o1⟩

theorem own_copyEntries {c : Nat → Nat} (es : List Entry) {h : Heap} {m : RMap} (d : Nat → Nat) (o : Own h c)
    (e : ∀ n, c n = cM m n + (cE es n + d n)) :
    ∃ b m' h', copyEntries h m es = .ok (b, m', h') ∧ m'.box = m.box ∧ Own h' (fun n => cM m' n + (cE es n + d n)) := by
  induction es generalizing h c m d with
  | nil => exact ⟨_, m, h, rfl, rfl, o.congr e⟩
  | cons x t ih =>
    have hn : need h x.kp = .ok () := own_need (d := fun n => cM m n + cK x.key n + cA x.vp n + cE t n + d n) o (by intro n; rw [e n]; simp only [cE]; omega)
    have hv : (if 0 < x.len then need h x.vp else Res.ok ()) = .ok () := by
      split
      · exact own_need (d := fun n => cM m n + cK x.key n + cA x.kp n + cE t n + d n) o (by intro n; rw [e n]; simp only [cE]; omega)
      · rfl
    obtain ⟨rc, m1, h1, e1, b1, o1⟩ := own_putBinary (m := m) (d := fun n => cE (x :: t) n + d n) (some x.key) (decide (0 < x.len)) x.len o e
    by_cases hrc : rc = .ok
    · obtain ⟨b, m2, h2, e2, b2, o2⟩ := ih (m := m1) (fun n => cK x.key n + cA x.kp n + cA x.vp n + d n) o1 (by intro n; simp only [cE]; omega)
      refine ⟨b, m2, h2, ?_, b2.trans b1, o2.congr ?_⟩
      · rw [copyEntries, hn, Res.ok_bind, hv, Res.ok_bind, e1]
        simp [hrc, e2]
      · intro n; simp only [cE]; omega
    · refine ⟨false, m1, h1, ?_, b1, o1.congr (by intro n; simp only [cE])⟩
      rw [copyEntries, hn, Res.ok_bind, hv, Res.ok_bind, e1]
      simp [hrc]

/-! ## Copies succeed -/

theorem bind_inv {α β : Type} {x : Res α} {f : α → Res β} {b : β} (e : x >>= f = .ok b) : ∃ a, x = .ok a ∧ f a = .ok b := by
  cases x with
  | ok a => exact ⟨a, rfl, e⟩
  | ub => cases e

theorem putBinary_ok {h h' : Heap} {m m' : RMap} {k : Bytes} {g : Bool} {t : Nat} {rc : Rc} (hk : k ≠ [])
    (e : putBinary h m (some k) g t = .ok (rc, m', h')) : rc = .ok := by
  cases k with
  | nil => exact absurd rfl hk
  | cons x xs =>
    unfold putBinary at e
    simp only at e
    rcases h1 : need h m.box with _ | _
    · rw [h1] at e
      simp only [Res.ok_bind] at e
      rcases h2 : need h m.keys with _ | _
      · rw [h2] at e
        simp only [Res.ok_bind] at e
        rcases h3 : putFound h (x :: xs) g t m.entries with y | _
        · rw [h3] at e
          simp only [Res.ok_bind] at e
          cases y with
          | some z =>
            simp only [Res.pure_eq, Res.ok.injEq, Prod.mk.injEq] at e
            exact e.1.symm
          | none =>
            simp only at e
            rcases h4 : realloc (malloc (malloc h).2).2 m.keys with y | _
            · rw [h4] at e
              simp only [Res.ok_bind] at e
              rcases h5 : realloc y.2 m.values with z | _
              · rw [h5] at e
                simp only [Res.ok_bind] at e
                rcases h6 : realloc z.2 m.lengths with u | _
                · rw [h6] at e
                  simp only [Res.ok_bind, Res.pure_eq, Res.ok.injEq, Prod.mk.injEq] at e
                  exact e.1.symm
                · rw [h6] at e; cases e
              · rw [h5] at e; cases e
            · rw [h4] at e; cases e
        · rw [h3] at e; cases e
      · rw [h2] at e; cases e
    · rw [h1] at e; cases e

/-- The keys of a map are not empty. -/
def KeysOk (es : List Entry) : Prop := ∀ x ∈ es, x.key ≠ []

theorem copyEntries_ok (es : List Entry) {h h' : Heap} {m m' : RMap} {b : Bool} (hk : KeysOk es) (e : copyEntries h m es = .ok (b, m', h')) :
    b = true := by
  induction es generalizing h m with
  | nil => simp only [copyEntries, Res.ok.injEq, Prod.mk.injEq] at e; exact e.1.symm
  | cons x t ih =>
    unfold copyEntries at e
    obtain ⟨_, -, e⟩ := bind_inv e
    obtain ⟨_, -, e⟩ := bind_inv e
    obtain ⟨⟨rc, m1, h1⟩, e1, e⟩ := bind_inv e
    have := putBinary_ok (hk x (by simp)) e1
    simp only [this, if_true] at e
    exact ih (fun y hy => hk y (by simp [hy])) e

theorem own_keys {h : Heap} {c : Nat → Nat} (es : List Entry) (d : Nat → Nat) (o : Own h c) (e : ∀ n, c n = cE es n + d n) : KeysOk es := by
  induction es generalizing d with
  | nil => intro x hx; cases hx
  | cons x t ih =>
    have z := (K_zero (k := x.key) (d := fun n => cA x.kp n + cA x.vp n + cE t n + d n) o (by intro n; rw [e n]; simp only [cE]; omega)).1
    intro y hy
    rcases List.mem_cons.1 hy with h0 | h0
    · rw [h0]; exact z
    · exact ih (fun n => cK x.key n + cA x.kp n + cA x.vp n + d n) (by intro n; rw [e n]; simp only [cE]; omega) y h0

end Verif.Memory
