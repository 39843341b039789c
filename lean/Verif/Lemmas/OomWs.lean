import Verif.Spec.OomWs
import Verif.Lemmas.Oom
/-! # Lemmas about the messages of a websocket when memory runs out -/
namespace Verif.OomWs
open Verif.Memory (P Own cP cA cL cL_append)
open Verif.Oom (H cB cZ B_eq Z_null A_at own_need own_free own_freeAll cA_at cA_eq)

theorem own_alloc {f : F} (s : Spot) {h : H} {c : Nat → Nat} (o : Own h.mem c) :
    (∃ n h', alloc f s h = (.at n, h') ∧ Own h'.mem (fun k => cA (.at n) k + c k) ∧ h'.failed = h.failed) ∨
    ((∃ n, f n s = true) ∧ ∃ h', alloc f s h = (.null, h') ∧ Own h'.mem c ∧ h'.failed = h.failed + 1) := by
  rcases Oom.own_malloc (f := fun n _ => f n s) .realm o with x | ⟨e, x⟩
  · exact .inl x
  · exact .inr ⟨⟨_, e⟩, x⟩

theorem own_allocOk {f : F} (F : OnlySafe f) (s : Spot) (hs : Safe s = false) {h : H} {c : Nat → Nat} (o : Own h.mem c) :
    ∃ n h', alloc f s h = (.at n, h') ∧ Own h'.mem (fun k => cA (.at n) k + c k) ∧ h'.failed = h.failed := by
  rcases own_alloc (f := f) s o with x | ⟨⟨n, e⟩, -⟩
  · exact x
  · rw [F _ _ e] at hs; cases hs

/-- The extension allocates. -/
theorem own_given {h : H} {c : Nat → Nat} (o : Own h.mem c) :
    ∃ n h', Oom.malloc (fun _ _ => false) .realm h = (.at n, h') ∧ Own h'.mem (fun k => cA (.at n) k + c k) ∧ h'.failed = h.failed := by
  rcases Oom.own_malloc (f := fun _ _ => false) .realm o with x | ⟨e, -⟩
  · exact x
  · cases e

theorem own_realloc {f : F} (F : OnlySafe f) (s : Spot) (hs : Safe s = false) {h : H} {c d : Nat → Nat} {p : P} (o : Own h.mem c)
    (e : ∀ n, c n = cP p n + d n) :
    ∃ q h', realloc f s h p = .ok (.at q, h') ∧ Own h'.mem (fun k => cA (.at q) k + d k) ∧ h'.failed = h.failed := by
  refine Oom.own_reallocOk (f := fun n _ => f n s) ?_ .realm rfl o e
  intro n t x
  have := F n s x
  rw [hs] at this; cases this

/-- `o_realloc` of NULL. -/
theorem own_reallocNull {f : F} (s : Spot) {h : H} {c : Nat → Nat} (o : Own h.mem c) :
    (∃ n h', realloc f s h .null = .ok (.at n, h') ∧ Own h'.mem (fun k => cA (.at n) k + c k) ∧ h'.failed = h.failed) ∨
    (∃ h', realloc f s h .null = .ok (.null, h') ∧ Own h'.mem c ∧ h'.failed = h.failed + 1) := by
  unfold realloc Oom.realloc
  by_cases hf : f h.mem.next s = true
  · right
    refine ⟨⟨{ h.mem with next := h.mem.next + 1 }, h.failed + 1⟩, ?_, Oom.own_fail o, rfl⟩
    simp [hf, Oom.touch]
  · left
    obtain ⟨h1, e1, o1, x1⟩ := own_free (d := c) (p := .null) o (by intro n; have zz : cP .null n = 0 := rfl; omega)
    rcases Oom.own_malloc (f := fun _ _ => false) .realm o1 with ⟨q, h2, e2, o2, x2⟩ | ⟨x, -⟩
    · exact ⟨q, h2, by simp [hf, e1, e2], o2, by omega⟩
    · cases x

/-- The block for bytes: there must be one unless there are none. -/
def cD (p : P) (b : Bytes) (n : Nat) : Nat := cB p b.length n

theorem D_nil (n : Nat) : cD .null [] n = 0 := rfl

theorem D_at (k : Nat) (b : Bytes) (n : Nat) : cD (.at k) b n = cA (.at k) n := by
  simp only [cD, cB]; split <;> rfl

theorem D_eq {h : H} {c : Nat → Nat} {p : P} {b : Bytes} (d : Nat → Nat) (o : Own h.mem c) (e : ∀ n, c n = cD p b n + d n) (n : Nat) :
    cP p n = cD p b n := by
  simp only [cD]
  exact (B_eq d o e n).symm

theorem own_needD {h : H} {c : Nat → Nat} {p : P} {b : Bytes} (d : Nat → Nat) (o : Own h.mem c) (e : ∀ n, c n = cD p b n + d n) :
    (if b = [] then Res.ok () else Oom.need h p) = .ok () := by
  split
  · rfl
  · rename_i hb
    have hl : b.length ≠ 0 := by simpa using hb
    refine own_need d o ?_
    intro n
    rw [e n]
    simp [cD, cB, hl]

theorem own_buffer {f : F} (s : Spot) {h : H} {c : Nat → Nat} (b : Bytes) (o : Own h.mem c) :
    (∃ p h', buffer f s h b = (some p, h') ∧ Own h'.mem (fun n => cD p b n + c n) ∧ h'.failed = h.failed) ∨
    ((∃ n, f n s = true) ∧ ∃ h', buffer f s h b = (none, h') ∧ Own h'.mem c ∧ h'.failed = h.failed + 1) := by
  unfold buffer
  split
  · subst b
    exact .inl ⟨.null, h, rfl, o.congr (by intro n; simp only [D_nil]; omega), rfl⟩
  · rcases own_alloc (f := f) s o with ⟨k, h1, e1, o1, x1⟩ | ⟨y, h1, e1, o1, x1⟩
    · exact .inl ⟨.at k, h1, by simp [e1], o1.congr (by intro n; simp only [D_at]), x1⟩
    · exact .inr ⟨y, h1, by simp [e1], o1, x1⟩

theorem own_bufferOk {f : F} (F : OnlySafe f) (s : Spot) (hs : Safe s = false) {h : H} {c : Nat → Nat} (b : Bytes) (o : Own h.mem c) :
    ∃ p h', buffer f s h b = (some p, h') ∧ Own h'.mem (fun n => cD p b n + c n) ∧ h'.failed = h.failed := by
  rcases own_buffer (f := f) s b o with x | ⟨⟨n, e⟩, -⟩
  · exact x
  · rw [F _ _ e] at hs; cases hs

/-- The blocks of a message. -/
def cMsg (m : Msg) (n : Nat) : Nat := cA m.box n + cD m.data m.bytes n

/-- Of one that may be missing. -/
def cMsgO : Option Msg → Nat → Nat
  | none, _ => 0
  | some m, n => cMsg m n

/-- Of the messages of a list; there is always a message. -/
def cItems : List (Option Msg) → Nat → Nat
  | [], _ => 0
  | none :: _, _ => 2
  | some m :: t, n => cMsg m n + cItems t n

theorem own_clearMsg {h : H} {c d : Nat → Nat} {m : Msg} (o : Own h.mem c) (e : ∀ n, c n = cMsg m n + d n) :
    ∃ h', clearMsg h m = .ok h' ∧ Own h'.mem d ∧ h'.failed = h.failed := by
  have n1 := own_need (p := m.box) (fun n => cD m.data m.bytes n + d n) o (by intro n; rw [e n]; simp only [cMsg]; omega)
  have a1 := cA_eq (p := m.box) (fun n => cD m.data m.bytes n + d n) o (by intro n; rw [e n]; simp only [cMsg]; omega)
  have a2 := D_eq (p := m.data) (b := m.bytes) (fun n => cA m.box n + d n) o (by intro n; rw [e n]; simp only [cMsg]; omega)
  obtain ⟨h1, e1, o1, x1⟩ := own_freeAll (d := d) [m.data, m.box] o (by
    intro n; rw [e n]; simp only [cL, cMsg, a1, a2]; omega)
  exact ⟨h1, by unfold clearMsg; rw [n1]; exact e1, o1, x1⟩

theorem own_clearMsgO {h : H} {c d : Nat → Nat} {m : Option Msg} (o : Own h.mem c) (e : ∀ n, c n = cMsgO m n + d n) :
    ∃ h', clearMsgO h m = .ok h' ∧ Own h'.mem d ∧ h'.failed = h.failed := by
  cases m with
  | none => exact ⟨h, rfl, o.congr (by intro n; rw [e n]; simp [cMsgO]), rfl⟩
  | some m => exact own_clearMsg o e

theorem own_clearItems (l : List (Option Msg)) {h : H} {c d : Nat → Nat} (o : Own h.mem c) (e : ∀ n, c n = cItems l n + d n) :
    ∃ h', clearItems h l = .ok h' ∧ Own h'.mem d ∧ h'.failed = h.failed := by
  induction l generalizing h c with
  | nil => exact ⟨h, rfl, o.congr (by intro n; rw [e n]; simp [cItems]), rfl⟩
  | cons x t ih =>
    cases x with
    | none => have := o 0; have e0 := e 0; simp only [cItems] at e0; omega
    | some m =>
      obtain ⟨h1, e1, o1, x1⟩ := own_clearMsg (m := m) (d := fun n => cItems t n + d n) o (by intro n; rw [e n]; simp only [cItems]; omega)
      obtain ⟨h2, e2, o2, x2⟩ := ih o1 (fun _ => rfl)
      exact ⟨h2, by simp only [clearItems, e1, Res.ok_bind, e2], o2, by omega⟩

/-- The array of a list. -/
def cArr (p : P) (l : List (Option Msg)) (n : Nat) : Nat := if l = [] then cZ p n else cA p n

/-- The messages in a list. -/
def bytesOf (l : MList) : List Bytes := l.items.filterMap (·.map (·.bytes))

/-- A list. -/
def cList (l : MList) (n : Nat) : Nat := cA l.box n + cArr l.array l.items n + cItems l.items n

theorem Arr_eq {h : H} {c : Nat → Nat} {p : P} {l : List (Option Msg)} (d : Nat → Nat) (o : Own h.mem c) (e : ∀ n, c n = cArr p l n + d n) :
    (l = [] → p = .null) ∧ ∀ n, cP p n = cArr p l n := by
  by_cases hl : l = []
  · have hp : p = .null := Z_null d o (by intro n; rw [e n]; simp only [cArr, hl, if_true])
    refine ⟨fun _ => hp, fun n => ?_⟩
    subst hp
    simp only [cArr, hl, if_true, cZ]
    rfl
  · refine ⟨fun x => absurd x hl, fun n => ?_⟩
    have := cA_eq (p := p) d o (by intro n; rw [e n]; simp only [cArr, hl, if_false]) n
    simp only [cArr, hl, if_false, this]

theorem cItems_append (a : List (Option Msg)) (m : Msg) {h : H} {c : Nat → Nat} (d : Nat → Nat) (o : Own h.mem c)
    (e : ∀ n, c n = cItems a n + d n) (n : Nat) : cItems (a ++ [some m]) n = cItems a n + cMsg m n := by
  induction a generalizing d with
  | nil => simp [cItems]
  | cons x t ih =>
    cases x with
    | none => have := o 0; have e0 := e 0; simp only [cItems] at e0; omega
    | some y =>
      have := ih (fun n => cMsg y n + d n) (by intro n; rw [e n]; simp only [cItems]; omega)
      simp only [List.cons_append, cItems, this]; omega

theorem own_clearList {l : MList} {h : H} {c d : Nat → Nat} (o : Own h.mem c) (e : ∀ n, c n = cList l n + d n) :
    ∃ h', clearList h l = .ok h' ∧ Own h'.mem d ∧ h'.failed = h.failed := by
  have n1 := own_need (p := l.box) (fun n => cArr l.array l.items n + cItems l.items n + d n) o (by intro n; rw [e n]; simp only [cList]; omega)
  have a1 := cA_eq (p := l.box) (fun n => cArr l.array l.items n + cItems l.items n + d n) o (by intro n; rw [e n]; simp only [cList]; omega)
  obtain ⟨-, a2⟩ := Arr_eq (p := l.array) (l := l.items) (fun n => cA l.box n + cItems l.items n + d n) o (by intro n; rw [e n]; simp only [cList]; omega)
  have n2 : (if l.items = [] then Res.ok () else Oom.need h l.array) = .ok () := by
    split
    · rfl
    · rename_i hl
      exact own_need (fun n => cA l.box n + cItems l.items n + d n) o (by intro n; rw [e n]; simp only [cList, cArr, hl, if_false]; omega)
  obtain ⟨h1, e1, o1, x1⟩ := own_clearItems l.items (d := fun n => cA l.box n + cArr l.array l.items n + d n) o (by intro n; rw [e n]; simp only [cList]; omega)
  obtain ⟨h2, e2, o2, x2⟩ := own_freeAll (d := d) [l.array, l.box] o1 (by intro n; simp only [cL, a1, a2]; omega)
  refine ⟨h2, ?_, o2, by omega⟩
  unfold clearList
  rw [n1, n2]
  simp only [Res.ok_bind, e1, e2]

theorem own_push {f : F} (F : OnlySafe f) (s : Bool → Spot) {l : MList} (hs : Safe (s l.items.isEmpty) = false) {h : H} {c d : Nat → Nat} {m : Msg}
    (o : Own h.mem c) (e : ∀ n, c n = cList l n + cMsg m n + d n) :
    ∃ l' h', push f s h l m = .ok (true, l', h') ∧ Own h'.mem (fun n => cList l' n + d n) ∧ h'.failed = h.failed ∧ bytesOf l' = bytesOf l ++ [m.bytes] := by
  have n1 := own_need (p := l.box) (fun n => cArr l.array l.items n + cItems l.items n + cMsg m n + d n) o (by intro n; rw [e n]; simp only [cList]; omega)
  obtain ⟨-, a2⟩ := Arr_eq (p := l.array) (l := l.items) (fun n => cA l.box n + cItems l.items n + cMsg m n + d n) o (by
    intro n; rw [e n]; simp only [cList]; omega)
  have a3 := cItems_append l.items m (fun n => cA l.box n + cArr l.array l.items n + cMsg m n + d n) o (by intro n; rw [e n]; simp only [cList]; omega)
  obtain ⟨q, h1, e1, o1, x1⟩ := own_realloc F (s l.items.isEmpty) hs (p := l.array) (d := fun n => cA l.box n + cItems l.items n + cMsg m n + d n) o (by
    intro n; rw [e n, a2]; simp only [cList]; omega)
  refine ⟨{ l with array := .at q, items := l.items ++ [some m] }, h1, ?_, o1.congr ?_, x1, by simp [bytesOf]⟩
  · unfold push
    rw [n1]
    simp only [Res.ok_bind, e1]
    rw [if_neg (by simp)]
    rfl
  · intro n
    simp only [cList, a3, cArr]
    rw [if_neg (by simp)]
    omega

theorem own_pushIn {f : F} (F : OnlySafe f) {l : MList} {h : H} {c d : Nat → Nat} {m : Msg} (o : Own h.mem c)
    (e : ∀ n, c n = cList l n + cMsg m n + d n) :
    (∃ l' h', push f .pushIn h l m = .ok (true, l', h') ∧ Own h'.mem (fun n => cList l' n + d n) ∧ h'.failed = h.failed ∧ bytesOf l' = bytesOf l ++ [m.bytes]) ∨
    (∃ l' h', push f .pushIn h l m = .ok (false, l', h') ∧ Own h'.mem (fun n => cList l' n + cMsg m n + d n) ∧ h.failed < h'.failed ∧ bytesOf l' = bytesOf l) := by
  by_cases hl : l.items = []
  · have n1 := own_need (p := l.box) (fun n => cArr l.array l.items n + cItems l.items n + cMsg m n + d n) o (by intro n; rw [e n]; simp only [cList]; omega)
    obtain ⟨a1, -⟩ := Arr_eq (p := l.array) (l := l.items) (fun n => cA l.box n + cItems l.items n + cMsg m n + d n) o (by
      intro n; rw [e n]; simp only [cList]; omega)
    have a1 := a1 hl
    have zz : ∀ n, cZ .null n = 0 := fun _ => rfl
    rcases own_reallocNull (f := f) (.pushIn l.items.isEmpty) o with ⟨q, h1, e1, o1, x1⟩ | ⟨h1, e1, o1, x1⟩
    · refine .inl ⟨{ l with array := .at q, items := [some m] }, h1, ?_, o1.congr ?_, x1, by simp [bytesOf, hl]⟩
      · unfold push
        rw [n1, a1]
        simp only [Res.ok_bind, e1]
        rw [if_neg (by simp), hl]
        rfl
      · intro n
        rw [e n]
        simp only [cList, cArr, hl, cItems, a1, zz, if_true]
        rw [if_neg (by simp)]
        omega
    · refine .inr ⟨{ l with array := .null, items := [] }, h1, ?_, o1.congr ?_, by omega, by simp [bytesOf, hl]⟩
      · unfold push
        rw [n1, a1]
        simp only [Res.ok_bind, e1]
        rw [if_pos trivial, hl]
        rfl
      · intro n
        rw [e n]
        simp only [cList, cArr, hl, a1]
  · refine .inl (own_push F .pushIn ?_ o e)
    have : l.items.isEmpty = false := by simpa using hl
    rw [this]; rfl

theorem own_pop {f : F} (F : OnlySafe f) {l : MList} {h : H} {c d : Nat → Nat} (o : Own h.mem c) (e : ∀ n, c n = cList l n + d n) :
    ∃ m l' h', pop f h l = .ok (m, l', h') ∧ Own h'.mem (fun n => cMsgO m n + (cList l' n + d n)) ∧ h'.failed = h.failed ∧
      m.map (·.bytes) = (bytesOf l).head? ∧ bytesOf l' = (bytesOf l).tail := by
  have n1 := own_need (p := l.box) (fun n => cArr l.array l.items n + cItems l.items n + d n) o (by intro n; rw [e n]; simp only [cList]; omega)
  unfold pop
  rw [n1]
  simp only [Res.ok_bind]
  obtain ⟨b, a, items⟩ := l
  cases items with
  | nil => exact ⟨none, _, h, rfl, o.congr (by intro n; rw [e n]; simp only [cMsgO]; omega), rfl, rfl, rfl⟩
  | cons x t =>
    simp only [cList, cArr] at e n1
    simp only [List.cons_ne_nil, if_false] at e
    have n2 := own_need (p := a) (fun n => cA b n + cItems (x :: t) n + d n) o (by intro n; rw [e n]; omega)
    have a2 := cA_eq (p := a) (fun n => cA b n + cItems (x :: t) n + d n) o (by intro n; rw [e n]; omega)
    simp only [n2, Res.ok_bind]
    cases x with
    | none => have := o 0; have e0 := e 0; simp only [cItems] at e0; omega
    | some m =>
      by_cases ht : t = []
      · subst t
        obtain ⟨h1, e1, o1, x1⟩ := own_free (p := a) (d := fun n => cA b n + cMsg m n + d n) o (by intro n; rw [e n, a2]; simp only [cItems]; omega)
        refine ⟨some m, ⟨b, .null, []⟩, h1, by simp [e1], o1.congr ?_, x1, by simp [bytesOf], by simp [bytesOf]⟩
        intro n
        have zz : cZ .null n = 0 := rfl
        simp only [cMsgO, cList, cArr, if_true, cItems]
        omega
      · obtain ⟨q, h1, e1, o1, x1⟩ := own_realloc F .shrink rfl (p := a) (d := fun n => cA b n + cMsg m n + cItems t n + d n) o (by
          intro n; rw [e n, a2]; simp only [cItems]; omega)
        refine ⟨some m, ⟨b, .at q, t⟩, h1, ?_, o1.congr ?_, x1, by simp [bytesOf], by simp [bytesOf]⟩
        · simp [e1, ht]
        · intro n
          simp only [cMsgO, cList, cArr, ht, if_false]
          omega

/-- What there is. -/
def store (w : W) : Store := ⟨w.prev.map (·.bytes), bytesOf w.incoming, bytesOf w.outcoming, w.keepIn, w.keepOut⟩

/-- The websocket. -/
def cW (w : W) (n : Nat) : Nat := cA w.manager n + cList w.incoming n + cList w.outcoming n + cMsgO w.prev n

theorem own_init {f : F} (F : OnlySafe f) {h : H} {c : Nat → Nat} (o : Own h.mem c) :
    (∃ w h', init f h = .ok (some w, h') ∧ Own h'.mem (fun n => cW w n + c n) ∧ h'.failed = h.failed ∧ w.connected = true ∧ w.running = true ∧ store w = {}) ∨
    (∃ h', init f h = .ok (none, h') ∧ Own h'.mem c ∧ h.failed < h'.failed) := by
  have zz : ∀ n, cP .null n = 0 := fun _ => rfl
  rcases own_alloc (f := f) .manager o with ⟨m, h1, e1, o1, x1⟩ | ⟨-, h1, e1, o1, x1⟩
  · obtain ⟨i, h2, e2, o2, x2⟩ := own_allocOk F .listIn rfl o1
    rcases own_alloc (f := f) .listOut o2 with ⟨k, h3, e3, o3, x3⟩ | ⟨-, h3, e3, o3, x3⟩
    · refine .inl ⟨_, h3, by simp [init, e1, e2, e3]; rfl, o3.congr ?_, by omega, rfl, rfl, rfl⟩
      intro n
      have zz : cZ .null n = 0 := rfl
      simp only [cW, cList, cArr, if_true, cItems, cMsgO, zz]
      omega
    · obtain ⟨h4, e4, o4, x4⟩ := own_freeAll (d := c) [.at i, .null, .at m] o3 (by intro n; simp only [cL, cA_at, zz]; omega)
      exact .inr ⟨h4, by simp [init, e1, e2, e3, e4], o4, by omega⟩
  · exact .inr ⟨h1, by simp [init, e1], o1, by omega⟩

theorem own_finish {w : W} {h : H} {c d : Nat → Nat} (o : Own h.mem c) (e : ∀ n, c n = cW w n + d n) :
    ∃ h', finish h w = .ok h' ∧ Own h'.mem d ∧ h'.failed = h.failed := by
  have a1 := cA_eq (p := w.manager) (fun n => cList w.incoming n + cList w.outcoming n + cMsgO w.prev n + d n) o (by
    intro n; rw [e n]; simp only [cW]; omega)
  obtain ⟨h1, e1, o1, x1⟩ := own_clearMsgO (m := w.prev) (d := fun n => cA w.manager n + cList w.incoming n + cList w.outcoming n + d n) o (by
    intro n; rw [e n]; simp only [cW]; omega)
  obtain ⟨h2, e2, o2, x2⟩ := own_clearList (l := w.incoming) (d := fun n => cA w.manager n + cList w.outcoming n + d n) o1 (by intro n; omega)
  obtain ⟨h3, e3, o3, x3⟩ := own_clearList (l := w.outcoming) (d := fun n => cA w.manager n + d n) o2 (by intro n; omega)
  obtain ⟨h4, e4, o4, x4⟩ := own_free (p := w.manager) (d := d) o3 (by intro n; rw [a1])
  exact ⟨h4, by simp only [finish, e1, e2, e3, e4, Res.ok_bind], o4, by omega⟩

/-! ## Sending -/

theorem own_build {f : F} {h : H} {c : Nat → Nat} (close : Bool) (b : Bytes) (o : Own h.mem c) :
    (∃ m h', build f h close b = .ok (some m, h') ∧ Own h'.mem (fun n => cMsg m n + c n) ∧ h'.failed = h.failed ∧ m.bytes = b) ∨
    (∃ h', build f h close b = .ok (none, h') ∧ Own h'.mem c ∧ h.failed < h'.failed ∧ ((∃ n, f n (.box close) = true) ∨ b ≠ [])) := by
  rcases own_alloc (f := f) (.box close) o with ⟨x, h1, e1, o1, x1⟩ | ⟨y, h1, e1, o1, x1⟩
  · rcases own_buffer (f := f) .data b o1 with ⟨p, h2, e2, o2, x2⟩ | ⟨y, h2, e2, o2, x2⟩
    · exact .inl ⟨⟨.at x, p, b⟩, h2, by simp [build, e1, e2], o2.congr (by intro n; simp only [cMsg]; omega), by omega, rfl⟩
    · obtain ⟨h3, e3, o3, x3⟩ := own_free (p := .at x) (d := c) o2 (by intro n; rw [cA_at])
      refine .inr ⟨h3, by simp [build, e1, e2, e3], o3, by omega, .inr ?_⟩
      rintro rfl
      simp [buffer] at e2
  · exact .inr ⟨h1, by simp [build, e1], o1, by omega, .inl y⟩

theorem own_framesLoop {f : F} (F : OnlySafe f) (k n : Nat) (b : Bytes) (hn : b.length ≤ n) {h : H} {c : Nat → Nat} (o : Own h.mem c) :
    ∃ l h', framesLoop f k n h b = .ok (l, true, h') ∧ Own h'.mem c ∧ h'.failed = h.failed ∧ l.flatten = b ∧ (b ≠ [] → l ≠ []) ∧
      (∀ x ∈ l, x.length ≤ k + 1) ∧ (b ≠ [] → b.length ≤ k + 1 → l = [b]) := by
  induction n generalizing b h with
  | zero =>
    have : b = [] := by simpa using hn
    subst this
    exact ⟨[], h, rfl, o, rfl, rfl, by simp, by simp, by simp⟩
  | succ n ih =>
    unfold framesLoop
    split
    · subst b
      exact ⟨[], h, rfl, o, rfl, rfl, by simp, by simp, by simp⟩
    · rename_i hb
      obtain ⟨p, h1, e1, o1, x1⟩ := own_allocOk F .frame rfl o
      obtain ⟨h2, e2, o2, x2⟩ := own_free (p := .at p) (d := c) o1 (by intro n; rw [cA_at])
      obtain ⟨l, h3, e3, o3, x3, f3, -, s3, -⟩ := ih (b.drop (k + 1)) (by simp; omega) o2
      refine ⟨b.take (k + 1) :: l, h3, by simp [e1, e2, e3], o3, by omega, by simp [f3], by simp, ?_, ?_⟩
      · intro x hx
        rcases List.mem_cons.1 hx with rfl | hx
        · simp; omega
        · exact s3 x hx
      · intro _ hl
        have hd : b.drop (k + 1) = [] := by simpa using hl
        rw [hd] at e3
        have : l = [] := by
          cases n with
          | zero => simp [framesLoop] at e3; exact e3.1
          | succ n => simp [framesLoop] at e3; exact e3.1
        rw [this, List.take_of_length_le hl]

theorem own_frames {f : F} (F : OnlySafe f) (frag : Nat) (b : Bytes) {h : H} {c : Nat → Nat} (o : Own h.mem c) :
    ∃ l h', frames f h frag b = .ok (l, .ok, h') ∧ Own h'.mem c ∧ h'.failed = h.failed ∧ Carries frag b l := by
  unfold frames
  split
  · subst b
    obtain ⟨p, h1, e1, o1, x1⟩ := own_allocOk F .frame rfl o
    obtain ⟨h2, e2, o2, x2⟩ := own_free (p := .at p) (d := c) o1 (by intro n; rw [cA_at])
    exact ⟨[[]], h2, by simp [e1, e2], o2, by omega, rfl, by simp, by simp, by simp⟩
  · rename_i hb
    have hpos : 0 < b.length := List.length_pos_iff.2 hb
    obtain ⟨l, h1, e1, o1, x1, f1, n1, s1, w1⟩ := own_framesLoop F ((if frag = 0 then b.length else frag) - 1) b.length b (Nat.le_refl _) o
    refine ⟨l, h1, by rw [e1]; rfl, o1, x1, f1, n1 hb, ?_, ?_⟩
    · intro hz
      subst hz
      refine w1 hb ?_
      rw [if_pos rfl]; omega
    · intro hz x hx
      have := s1 x hx
      rw [if_neg hz] at this
      omega

theorem own_sendManaged {f : F} (F : OnlySafe f) {w : W} (close : Bool) (frag : Nat) (b : Bytes) (hcl : close = true → b = []) {h : H} {c d : Nat → Nat} (o : Own h.mem c)
    (e : ∀ n, c n = cW w n + d n) :
    ∃ rc l w' h', sendManaged f h w close frag b = .ok (rc, l, w', h') ∧ Own h'.mem (fun n => cW w' n + d n) ∧
      ((rc = .ok ∧ Carries frag b l ∧ h'.failed = h.failed) ∨ (rc = .error ∧ l = [] ∧ h.failed < h'.failed ∧ close = false)) ∧
      w'.connected = w.connected ∧ w'.running = w.running ∧ store w' = { store w with out := (store w).out ++ if w.keepOut && rc == .ok then [b] else [] } := by
  unfold sendManaged
  rcases own_build (f := f) close b o with ⟨m, h1, e1, o1, x1, y1⟩ | ⟨h1, e1, o1, x1, y2⟩
  · obtain ⟨l, h2, e2, o2, x2, k2⟩ := own_frames F frag b o1
    rw [e1]
    simp only [Res.ok_bind, e2]
    cases hk : w.keepOut with
    | true =>
      obtain ⟨o', h3, e3, o3, x3, y3⟩ := own_push F .pushOut (l := w.outcoming) rfl (m := m)
        (d := fun n => cA w.manager n + cList w.incoming n + cMsgO w.prev n + d n) o2 (by intro n; rw [e n]; simp only [cW]; omega)
      refine ⟨.ok, l, { w with outcoming := o' }, h3, ?_, o3.congr (by intro n; simp only [cW]; omega), .inl ⟨rfl, k2, by omega⟩, rfl, rfl, by simp [store, y3, hk, y1]⟩
      simp [e3, hk]
    | false =>
      obtain ⟨h3, e3, o3, x3⟩ := own_clearMsg (m := m) (d := c) o2 (fun _ => rfl)
      refine ⟨.ok, l, w, h3, ?_, o3.congr e, .inl ⟨rfl, k2, by omega⟩, rfl, rfl, by simp [store, hk]⟩
      simp [e3]
  · refine ⟨.error, [], w, h1, by rw [e1]; rfl, o1.congr e, .inr ⟨rfl, rfl, x1, ?_⟩, rfl, rfl, by simp⟩
    cases close with
    | false => rfl
    | true =>
      rcases y2 with ⟨n, y⟩ | y
      · have := F _ _ y; cases this
      · exact absurd (hcl rfl) y

theorem own_performOut {f : F} (outs : List (Option Bytes)) {h : H} {c : Nat → Nat} (d : Nat → Nat) (p : P) (b : Bytes)
    (o : Own h.mem c) (e : ∀ n, c n = cP p n + d n) :
    ∃ rc q b' h', performOut f h p b outs = .ok (rc, q, b', h') ∧ Own h'.mem (fun n => cP q n + d n) ∧
      ((rc = .ok ∧ through b outs = some b' ∧ h'.failed = h.failed) ∨ (rc = .error ∧ through b outs = none ∧ h'.failed = h.failed) ∨ (rc = .memory ∧ h.failed < h'.failed)) := by
  induction outs generalizing h c p b with
  | nil => exact ⟨.ok, p, b, h, rfl, o.congr e, .inl ⟨rfl, rfl, rfl⟩⟩
  | cons x t ih =>
    cases x with
    | none => exact ⟨.error, p, b, h, rfl, o.congr e, .inr (.inl ⟨rfl, rfl, rfl⟩)⟩
    | some b' =>
      obtain ⟨g, h1, e1, o1, x1⟩ := own_given o
      obtain ⟨h2, e2, o2, x2⟩ := own_free (p := p) (d := fun n => cA (.at g) n + d n) o1 (by intro n; rw [e n]; omega)
      rcases own_alloc (f := f) .outNew o2 with ⟨q, h3, e3, o3, x3⟩ | ⟨y, h3, e3, o3, x3⟩
      · obtain ⟨h4, e4, o4, x4⟩ := own_free (p := .at g) (d := fun n => cP (.at q) n + d n) o3 (by intro n; rw [cA_at, cA_at]; omega)
        obtain ⟨rc, q', b2, h5, e5, o5, r5⟩ := ih (.at q) b' o4 (fun _ => rfl)
        refine ⟨rc, q', b2, h5, ?_, o5, ?_⟩
        · unfold performOut
          simp only [e1, e2, e3, e4, Res.ok_bind]
          rw [if_neg (by simp)]
          exact e5
        · rcases r5 with ⟨r1, r2, r3⟩ | ⟨r1, r2, r3⟩ | ⟨r1, r2⟩
          · exact .inl ⟨r1, r2, by omega⟩
          · exact .inr (.inl ⟨r1, r2, by omega⟩)
          · exact .inr (.inr ⟨r1, by omega⟩)
      · obtain ⟨h4, e4, o4, x4⟩ := own_free (p := .at g) (d := d) o3 (by intro n; rw [cA_at])
        refine ⟨.memory, .null, b, h4, ?_, o4.congr (by intro n; have zz : cP .null n = 0 := rfl; omega), .inr (.inr ⟨rfl, by omega⟩)⟩
        unfold performOut
        simp only [e1, e2, e3, e4, Res.ok_bind]
        rfl

theorem own_sendData {f : F} (F : OnlySafe f) {w : W} (frag : Nat) (b : Bytes) (outs : List (Option Bytes)) {h : H} {c d : Nat → Nat} (o : Own h.mem c)
    (e : ∀ n, c n = cW w n + d n) :
    ∃ rc l w' h', sendData f h w frag b outs = .ok (rc, l, w', h') ∧ Own h'.mem (fun n => cW w' n + d n) ∧
      ((rc = .ok ∧ (∃ c, through b outs = some c ∧ Carries frag c l) ∧ h'.failed = h.failed) ∨
        (rc = .error ∧ l = [] ∧ h'.failed = h.failed ∧ through b outs = none) ∨
        ((rc = .error ∨ rc = .memory) ∧ l = [] ∧ h.failed < h'.failed)) ∧
      w'.connected = w.connected ∧ w'.running = w.running ∧ store w' = { store w with out := (store w).out ++ if w.keepOut && rc == .ok then [l.flatten] else [] } := by
  unfold sendData
  rcases own_buffer (f := f) .outCopy b o with ⟨p, h1, e1, o1, x1⟩ | ⟨y, h1, e1, o1, x1⟩
  · have a1 := D_eq (p := p) (b := b) c o1 (fun _ => rfl)
    obtain ⟨rc, q, b', h2, e2, o2, r2⟩ := own_performOut (f := f) outs c p b o1 (by intro n; rw [a1])
    rw [e1]
    simp only [e2, Res.ok_bind]
    rcases r2 with ⟨rfl, r2, r3⟩ | ⟨rfl, r2, r3⟩ | ⟨rfl, r2⟩
    · obtain ⟨rc, l, w', h3, e3, o3, r4, k1, k2, k3⟩ := own_sendManaged F (w := w) false frag b' (by simp) (d := fun n => cP q n + d n) o2 (by intro n; rw [e n]; omega)
      obtain ⟨h4, e4, o4, x4⟩ := own_free (p := q) (d := fun n => cW w' n + d n) o3 (by intro n; omega)
      rcases r4 with ⟨rfl, r5, r6⟩ | ⟨rfl, r5, r6, -⟩
      · exact ⟨.ok, l, w', h4, by simp [e3, e4], o4, .inl ⟨rfl, ⟨b', r2, r5⟩, by omega⟩, k1, k2, by rw [k3, r5.1]⟩
      · exact ⟨.error, l, w', h4, by simp [e3, e4], o4, .inr (.inr ⟨.inl rfl, r5, by omega⟩), k1, k2, by rw [k3]; simp⟩
    · obtain ⟨h4, e4, o4, x4⟩ := own_free (p := q) (d := c) o2 (fun _ => rfl)
      exact ⟨.error, [], w, h4, by simp [e4], o4.congr e, .inr (.inl ⟨rfl, rfl, by omega, r2⟩), rfl, rfl, by simp⟩
    · obtain ⟨h4, e4, o4, x4⟩ := own_free (p := q) (d := c) o2 (fun _ => rfl)
      exact ⟨.memory, [], w, h4, by simp [e4], o4.congr e, .inr (.inr ⟨.inr rfl, rfl, by omega⟩), rfl, rfl, by simp⟩
  · exact ⟨.memory, [], w, h1, by rw [e1], o1.congr e, .inr (.inr ⟨.inr rfl, rfl, by omega⟩), rfl, rfl, by simp⟩

/-! ## Receiving -/

theorem own_read {f : F} (F : OnlySafe f) (drain : Bool) (b : Bytes) {h : H} {c : Nat → Nat} (o : Own h.mem c) :
    ∃ r h', read f drain h b = .ok (r, h') ∧
      ((∃ m, r = .message m ∧ m.bytes = b ∧ Own h'.mem (fun n => cMsg m n + c n) ∧ h'.failed = h.failed) ∨
        (r = .failed ∧ Own h'.mem c ∧ h.failed < h'.failed) ∨ (r = .nothing ∧ drain = true ∧ Own h'.mem c ∧ h.failed < h'.failed)) := by
  unfold read
  rcases own_alloc (f := f) (.message drain) o with ⟨x, h1, e1, o1, x1⟩ | ⟨⟨n, y⟩, h1, e1, o1, x1⟩
  · rcases own_buffer (f := f) .payload b o1 with ⟨p, h2, e2, o2, x2⟩ | ⟨y, h2, e2, o2, x2⟩
    · obtain ⟨q, h3, e3, o3, x3⟩ := own_bufferOk F .unmasked rfl b o2
      have n3 := own_needD (p := q) (b := b) _ o3 (fun _ => rfl)
      have a3 := D_eq (p := p) (b := b) (fun n => cD q b n + (cA (.at x) n + c n)) o3 (by intro n; omega)
      obtain ⟨h4, e4, o4, x4⟩ := own_free (p := p) (d := fun n => cD q b n + (cA (.at x) n + c n)) o3 (by intro n; rw [a3]; omega)
      refine ⟨.message ⟨.at x, q, b⟩, h4, ?_, .inl ⟨_, rfl, rfl, o4.congr (by intro n; simp only [cMsg]; omega), by omega⟩⟩
      simp only [e1, e2, e3]
      rw [if_neg (by simp), n3]
      simp only [Res.ok_bind, e4]
      rfl
    · obtain ⟨h3, e3, o3, x3⟩ := own_clearMsg (m := ⟨.at x, .null, []⟩) (d := c) o2 (by intro n; simp only [cMsg, D_nil]; omega)
      exact ⟨.failed, h3, by simp [e1, e2, e3], .inr (.inl ⟨rfl, o3, by omega⟩)⟩
  · refine ⟨.nothing, h1, by simp [e1], .inr (.inr ⟨rfl, ?_, o1, by omega⟩)⟩
    cases drain with
    | true => rfl
    | false => have := F _ _ y; cases this

theorem own_merge {f : F} (F : OnlySafe f) {m x : Msg} {h : H} {c d : Nat → Nat} (o : Own h.mem c) (e : ∀ n, c n = cMsg m n + cMsg x n + d n) :
    ∃ m' h', merge f h m x = .ok (true, m', h') ∧ m'.bytes = m.bytes ++ x.bytes ∧ Own h'.mem (fun n => cMsg m' n + cMsg x n + d n) ∧ h'.failed = h.failed := by
  unfold merge
  split
  · rename_i hx
    exact ⟨m, h, rfl, by simp [hx], o.congr e, rfl⟩
  · rename_i hx
    have a1 := D_eq (p := m.data) (b := m.bytes) (fun n => cA m.box n + cMsg x n + d n) o (by intro n; rw [e n]; simp only [cMsg]; omega)
    obtain ⟨q, h1, e1, o1, x1⟩ := own_realloc F .merge rfl (p := m.data) (d := fun n => cA m.box n + cMsg x n + d n) o (by
      intro n; rw [e n, a1]; simp only [cMsg]; omega)
    have n1 := own_needD (p := x.data) (b := x.bytes) (fun n => cA (.at q) n + cA m.box n + cA x.box n + d n) o1 (by intro n; simp only [cMsg]; omega)
    rw [if_neg hx] at n1
    refine ⟨⟨m.box, .at q, m.bytes ++ x.bytes⟩, h1, ?_, rfl, o1.congr (by intro n; simp only [cMsg, D_at]; omega), x1⟩
    rw [e1]
    simp only [Res.ok_bind]
    rw [if_neg (by simp), n1]
    rfl

theorem own_performIn {f : F} (outs : List (Option Bytes)) {h : H} {c : Nat → Nat} (d : Nat → Nat) (p : P) (b : Bytes)
    (o : Own h.mem c) (e : ∀ n, c n = cD p b n + d n) :
    ∃ ok q b' h', performIn f h p b outs = .ok (ok, q, b', h') ∧ Own h'.mem (fun n => cD q b' n + d n) ∧
      ((ok = true ∧ through b outs = some b' ∧ h'.failed = h.failed) ∨ (ok = false ∧ through b outs = none ∧ h'.failed = h.failed) ∨ (ok = false ∧ h.failed < h'.failed)) := by
  induction outs generalizing h c p b with
  | nil => exact ⟨true, p, b, h, rfl, o.congr e, .inl ⟨rfl, rfl, rfl⟩⟩
  | cons x t ih =>
    cases x with
    | none => exact ⟨false, p, b, h, rfl, o.congr e, .inr (.inl ⟨rfl, rfl, rfl⟩)⟩
    | some b' =>
      have a0 := D_eq (p := p) (b := b) d o e
      obtain ⟨g, h1, e1, o1, x1⟩ := own_given o
      obtain ⟨h2, e2, o2, x2⟩ := own_free (p := p) (d := fun n => cA (.at g) n + d n) o1 (by intro n; rw [e n, a0]; omega)
      rcases own_buffer (f := f) .inNew b' o2 with ⟨q, h3, e3, o3, x3⟩ | ⟨y, h3, e3, o3, x3⟩
      · obtain ⟨h4, e4, o4, x4⟩ := own_free (p := .at g) (d := fun n => cD q b' n + d n) o3 (by intro n; rw [cA_at]; omega)
        obtain ⟨ok, q', b2, h5, e5, o5, r5⟩ := ih q b' o4 (fun _ => rfl)
        refine ⟨ok, q', b2, h5, ?_, o5, ?_⟩
        · unfold performIn
          simp only [e1, e2, e3, e4, Res.ok_bind, e5]
        · rcases r5 with ⟨r1, r2, r3⟩ | ⟨r1, r2, r3⟩ | ⟨r1, r2⟩
          · exact .inl ⟨r1, r2, by omega⟩
          · exact .inr (.inl ⟨r1, r2, by omega⟩)
          · exact .inr (.inr ⟨r1, by omega⟩)
      · obtain ⟨h4, e4, o4, x4⟩ := own_free (p := .at g) (d := d) o3 (by intro n; rw [cA_at])
        refine ⟨false, .null, [], h4, ?_, o4.congr (by intro n; simp only [D_nil]; omega), .inr (.inr ⟨rfl, by omega⟩)⟩
        unfold performIn
        simp only [e1, e2, e3, e4, Res.ok_bind]
        rfl

theorem own_performMsg {f : F} (exts : Bool) {m : Msg} (outs : List (Option Bytes)) {h : H} {c d : Nat → Nat} (o : Own h.mem c) (e : ∀ n, c n = cMsg m n + d n) :
    ∃ ok m' h', performMsg f exts h m outs = .ok (ok, m', h') ∧ Own h'.mem (fun n => cMsg m' n + d n) ∧
      ((ok = true ∧ (if exts then through m.bytes outs else some m.bytes) = some m'.bytes ∧ h'.failed = h.failed) ∨
        (ok = false ∧ (if exts then through m.bytes outs else some m.bytes) = none ∧ h'.failed = h.failed) ∨ (ok = false ∧ h.failed < h'.failed)) := by
  cases exts with
  | false => exact ⟨true, m, h, rfl, o.congr e, .inl ⟨rfl, rfl, rfl⟩⟩
  | true =>
    unfold performMsg
    rw [if_pos rfl]
    simp only [if_true]
    rcases own_buffer (f := f) .inCopy m.bytes o with ⟨p, h1, e1, o1, x1⟩ | ⟨y, h1, e1, o1, x1⟩
    · have n1 := own_needD (p := m.data) (b := m.bytes) (fun n => cD p m.bytes n + cA m.box n + d n) o1 (by intro n; rw [e n]; simp only [cMsg]; omega)
      have a1 := D_eq (p := m.data) (b := m.bytes) (fun n => cD p m.bytes n + cA m.box n + d n) o1 (by intro n; rw [e n]; simp only [cMsg]; omega)
      obtain ⟨ok, q, b, h2, e2, o2, r2⟩ := own_performIn (f := f) outs c p m.bytes o1 (fun _ => rfl)
      obtain ⟨h3, e3, o3, x3⟩ := own_free (p := m.data) (d := fun n => cD q b n + cA m.box n + d n) o2 (by
        intro n; rw [e n, a1]; simp only [cMsg]; omega)
      refine ⟨ok, ⟨m.box, q, b⟩, h3, ?_, o3.congr (by intro n; simp only [cMsg]; omega), ?_⟩
      · rw [e1]
        simp only [n1, Res.ok_bind, e2, e3]
        rfl
      · rcases r2 with ⟨r1, r2, r3⟩ | ⟨r1, r2, r3⟩ | ⟨r1, r2⟩
        · exact .inl ⟨r1, r2, by omega⟩
        · exact .inr (.inl ⟨r1, r2, by omega⟩)
        · exact .inr (.inr ⟨r1, by omega⟩)
    · exact ⟨false, m, h1, by rw [e1], o1.congr e, .inr (.inr ⟨rfl, by omega⟩)⟩

/-- What came of a complete message. -/
structure Del (exts : Bool) (b : Bytes) (x : Frame) (failed : Nat) (d : Option Bytes) (connected connected' : Bool) : Prop where
  ends : content exts b x = none → d = none ∧ connected' = false
  goes : ∀ z, content exts b x = some z → failed = 0 → d = some z ∧ connected' = connected
  fails : 0 < failed → connected' = false ∧ (d = none ∨ content exts b x = d)

theorem own_deliver {f : F} (F : OnlySafe f) (exts : Bool) {w : W} {m : Msg} (x : Frame) {h : H} {c d : Nat → Nat} (o : Own h.mem c)
    (e : ∀ n, c n = cMsg m n + cW w n + d n) :
    ∃ s m' w' h', deliver f exts h w m x = .ok (s, m', w', h') ∧ Own h'.mem (fun n => cMsgO m' n + cW w' n + d n) ∧ h.failed ≤ h'.failed ∧
      Del exts m.bytes x (h'.failed - h.failed) s w.connected w'.connected ∧ w'.running = w.running ∧
      store w' = { store w with inc := (store w).inc ++ if w.keepIn && h'.failed - h.failed == 0 then s.toList else [] } := by
  unfold deliver
  obtain ⟨ok, m1, h1, e1, o1, r1⟩ := own_performMsg (f := f) exts (m := m) x.outs (d := fun n => cW w n + d n) o (by intro n; rw [e n]; omega)
  rw [e1]
  simp only [Res.ok_bind]
  rcases r1 with ⟨rfl, r2, r3⟩ | ⟨rfl, r2, r3⟩ | ⟨rfl, r2⟩
  · cases hf : x.fine with
    | true =>
      have hc : content exts m.bytes x = some m1.bytes := by simp only [content, hf, if_true]; exact r2
      have n1 := own_needD (p := m1.data) (b := m1.bytes) (fun n => cA m1.box n + cW w n + d n) o1 (by intro n; simp only [cMsg]; omega)
      simp only [Bool.and_self, if_true, n1, Res.ok_bind]
      cases hk : w.keepIn with
      | true =>
        rcases own_pushIn F (l := w.incoming) (m := m1) (d := fun n => cA w.manager n + cList w.outcoming n + cMsgO w.prev n + d n) o1 (by
          intro n; simp only [cW]; omega) with ⟨l, h2, e2, o2, x2, y2⟩ | ⟨l, h2, e2, o2, x2, y2⟩
        · refine ⟨some m1.bytes, none, { w with incoming := l, connected := w.connected && true }, h2, by simp [e2, hk], o2.congr (by intro n; simp only [cW, cMsgO]; omega), by omega, ⟨?_, ?_, ?_⟩, rfl, by simp [store, y2, hk, x2, r3]⟩
          · rw [hc]; simp
          · intro z hz _; rw [hc] at hz; exact ⟨hz, by simp⟩
          · omega
        · refine ⟨some m1.bytes, some m1, { w with incoming := l, connected := w.connected && false }, h2, by simp [e2, hk], o2.congr (by intro n; simp only [cW, cMsgO]; omega), by omega, ⟨?_, ?_, ?_⟩, rfl, by simp [store, y2, hk]; omega⟩
          · rw [hc]; simp
          · omega
          · intro _; exact ⟨by simp, .inr hc⟩
      | false =>
        obtain ⟨h2, e2, o2, x2⟩ := own_clearMsg (m := m1) (d := fun n => cW w n + d n) o1 (fun _ => rfl)
        refine ⟨some m1.bytes, none, w, h2, by simp [e2], o2.congr (by intro n; simp only [cMsgO]; omega), by omega, ⟨?_, ?_, ?_⟩, rfl, by simp [hk]⟩
        · rw [hc]; simp
        · intro z hz _; rw [hc] at hz; exact ⟨hz, rfl⟩
        · omega
    | false =>
      refine ⟨none, some m1, { w with connected := false }, h1, by simp, o1.congr (by intro n; simp only [cMsgO, cW]; omega), by omega, ⟨by simp, ?_, by simp⟩, rfl, by simp [store]⟩
      intro z hz; simp [content, hf] at hz
  · refine ⟨none, some m1, { w with connected := false }, h1, by simp, o1.congr (by intro n; simp only [cMsgO, cW]; omega), by omega, ⟨by simp, ?_, by simp⟩, rfl, by simp [store]⟩
    intro z hz
    simp only [content] at hz
    split at hz
    · rw [r2] at hz; cases hz
    · cases hz
  · exact ⟨none, some m1, { w with connected := false }, h1, by simp, o1.congr (by intro n; simp only [cMsgO, cW]; omega), by omega, ⟨by simp, by omega, by simp⟩, rfl, by simp [store]⟩


/-- What came of a frame. -/
abbrev took (h h' : H) (l : List Bytes) (s : Option Bytes) (w' : W) : Out := ⟨.ok, h'.failed - h.failed, l, s, w'.connected && w'.running⟩

/-- The connection ends, and nothing was shown. -/
theorem Ends (exts : Bool) {p : Option Bytes} {x : Frame} {h h' : H} {w' : W} (p' : Option Bytes) (hc : (w'.connected && w'.running) = false)
    (hx : expected exts p x = none ∨ h.failed < h'.failed) (hcl : x.op = .close → x.fin = true → 125 < x.data.length ∨ h.failed < h'.failed) :
    TakenIn exts p x (took h h' [] none w') p' where
  ends := fun _ => ⟨rfl, hc⟩
  goes := by
    intro d q e z
    rcases hx with hx | hx
    · rw [hx] at e; cases e
    · simp only [took] at z; omega
  fails := fun _ => ⟨hc, .inl rfl⟩
  pong := by intro _ _ a; simp only [took, hc] at a; cases a
  close := by
    intro a b c z
    simp only [took] at z
    rcases hcl a b with y | y <;> omega

theorem Taken {exts : Bool} {b : Bytes} {p : Option Bytes} {x : Frame} {h h' : H} {s : Option Bytes} {w w' : W} (hl : h.failed ≤ h'.failed)
    (hw : w.connected = true) (hr : w'.running = true) (hp : w'.prev.map (·.bytes) = none) (k : Del exts b x (h'.failed - h.failed) s w.connected w'.connected)
    (hx : expected exts p x = (content exts b x).map (fun c => (some c, none))) (ho : x.op ≠ .ping ∧ x.op ≠ .close) :
    TakenIn exts p x (took h h' [] s w') (w'.prev.map (·.bytes)) where
  ends := by
    intro e
    rw [hx] at e
    have : content exts b x = none := by simpa using e
    obtain ⟨a, b⟩ := k.ends this
    exact ⟨a, by simp only [took, b, Bool.false_and]⟩
  goes := by
    intro d q e z
    rw [hx] at e
    cases hc : content exts b x with
    | none => rw [hc] at e; cases e
    | some v =>
      rw [hc] at e
      obtain ⟨a, b⟩ := k.goes v hc z
      simp only [Option.map_some, Option.some.injEq, Prod.mk.injEq] at e
      refine ⟨by rw [a]; exact e.1, by simp only [took, b, hw, hr, Bool.and_self], by rw [hp]; exact e.2⟩
  fails := by
    intro z
    obtain ⟨a, b⟩ := k.fails z
    refine ⟨by simp only [took, a, Bool.false_and], ?_⟩
    rcases b with b | b
    · exact .inl b
    · cases s with
      | none => exact .inl rfl
      | some v => exact .inr ⟨some v, none, by rw [hx, b]; rfl, rfl⟩
  pong := fun a => absurd a ho.1
  close := fun a => absurd a ho.2

theorem Stored.same {w w' : W} {o : Out} (h : store w' = { store w with prev := (store w').prev }) (e : o.shown = none) (n : o.sent = []) :
    Stored (store w) (store w') o := by
  rw [h]
  simp [Stored, e, n]

theorem own_handle {f : F} (F : OnlySafe f) (exts : Bool) {w : W} {m : Msg} (x : Frame) {h : H} {c d : Nat → Nat} (o : Own h.mem c)
    (hc : w.connected = true) (hr : w.running = true) (hm : m.bytes = x.data) (e : ∀ n, c n = cMsg m n + cW w n + d n) :
    ∃ l s m' w' h', handle f exts h w m x = .ok (l, s, m', w', h') ∧ Own h'.mem (fun n => cMsgO m' n + cW w' n + d n) ∧ h.failed ≤ h'.failed ∧
      TakenIn exts (w.prev.map (·.bytes)) x (took h h' l s w') (w'.prev.map (·.bytes)) ∧ Stored (store w) (store w') (took h h' l s w') := by
  have stop : ∀ w' : W, (∀ n, cW w' n = cW w n) → store w' = store w → (w'.connected && w'.running) = false → expected exts (w.prev.map (·.bytes)) x = none →
      (x.op = .close → x.fin = true → 125 < x.data.length) →
      ∀ r, r = Res.ok (([] : List Bytes), (none : Option Bytes), some m, w', h) →
      ∃ l s m' w' h', r = .ok (l, s, m', w', h') ∧ Own h'.mem (fun n => cMsgO m' n + cW w' n + d n) ∧ h.failed ≤ h'.failed ∧
      TakenIn exts (w.prev.map (·.bytes)) x (took h h' l s w') (w'.prev.map (·.bytes)) ∧ Stored (store w) (store w') (took h h' l s w') := by
    intro w' h1 h5 h2 h3 h4 r hr
    exact ⟨_, _, _, _, _, hr, o.congr (by intro n; rw [e n, h1]; rfl), Nat.le_refl _, Ends exts _ h2 (.inl h3) (fun a b => .inl (h4 a b)), .same (by rw [h5]) rfl rfl⟩
  unfold handle
  cases ho : x.op with
  | other =>
    exact stop { w with connected := false } (fun _ => rfl) rfl rfl (by simp [expected, ho]) (by simp [ho]) _ rfl
  | close =>
    cases hf : x.fin with
    | false => exact stop { w with connected := false } (fun _ => rfl) rfl rfl (by simp [expected, ho, hf]) (by simp [hf]) _ rfl
    | true =>
      by_cases hl : x.data.length ≤ 125
      · obtain ⟨rc, l, w', h1, e1, o1, r1, k1, k2, k3⟩ := own_sendManaged F (w := w) true 0 [] (fun _ => rfl) (d := fun n => cMsg m n + d n) o (by
          intro n; rw [e n]; omega)
        rcases r1 with ⟨rfl, r2, r3⟩ | ⟨-, -, -, r4⟩
        · refine ⟨l, none, some m, { w' with connected := false }, h1, by simp [hl, e1], o1.congr (by intro n; simp only [cMsgO, cW]; omega), by omega, ⟨fun _ => ⟨rfl, rfl⟩, ?_, ?_, ?_, ?_⟩, ?_⟩
          · intro a b y; simp [expected, ho, hf] at y
          · intro y; simp only [took] at y; omega
          · intro y; rw [ho] at y; cases y
          · intro _ _ _ _; exact r2.2.2.1 rfl
          · have : store { w' with connected := false } = store w' := rfl
            rw [this, k3, r2.2.2.1 rfl]
            simp [Stored, store]
            rfl
        · cases r4
      · exact stop { w with connected := false } (fun _ => rfl) rfl rfl (by simp [expected, ho, hf]) (by intro _ _; omega) _ (by simp [hl])
  | ping =>
    cases hf : x.fin with
    | false => exact stop { w with connected := false } (fun _ => rfl) rfl rfl (by simp [expected, ho, hf]) (by simp [ho]) _ rfl
    | true =>
      by_cases hl : x.data.length ≤ 125
      · have hx : expected exts (w.prev.map (·.bytes)) x = some (none, w.prev.map (·.bytes)) := by simp [expected, ho, hf, hl]
        obtain ⟨rc, l, w', h1, e1, o1, r1, k1, k2, k3⟩ := own_sendData F (w := w) 0 x.data [] (d := fun n => cMsg m n + d n) o (by
          intro n; rw [e n]; omega)
        refine ⟨l, none, some m, { w' with connected := w'.connected && rc == .ok }, h1, by simp [hl, e1], o1.congr (by intro n; simp only [cMsgO, cW]; omega), ?_, ?_⟩
        · rcases r1 with ⟨-, -, r⟩ | ⟨-, -, r, -⟩ | ⟨-, -, r⟩ <;> omega
        · rcases r1 with ⟨rfl, ⟨z, r2, r3⟩, r4⟩ | ⟨-, -, -, r2⟩ | ⟨r2, rfl, r4⟩
          · have hz : x.data = z := by simpa [through] using r2
            subst hz
            refine ⟨⟨?_, ?_, ?_, ?_, ?_⟩, ?_⟩
            · intro y; rw [hx] at y; cases y
            · intro a b y _
              rw [hx] at y
              simp only [Option.some.injEq, Prod.mk.injEq] at y
              refine ⟨y.1, by simp only [took, k1, k2, hc, hr]; rfl, by rw [← y.2]; exact congrArg Store.prev k3⟩
            · intro y; simp only [took] at y; omega
            · intro _ _ _; exact r3.2.2.1 rfl
            · intro y; rw [ho] at y; cases y
            · rw [show store { w' with connected := w'.connected && Code.ok == Code.ok } = store w' from rfl, k3, r3.2.2.1 rfl]
              simp [Stored, store]
              rfl
          · simp [through] at r2
          · have hn : (rc == Code.ok) = false := by rcases r2 with rfl | rfl <;> rfl
            refine ⟨Ends exts _ (by simp [hn]) (.inr r4) (by simp [ho]), .same ?_ rfl rfl⟩
            rw [show store { w' with connected := w'.connected && rc == Code.ok } = store w' from rfl, k3]
            simp [hn]
      · exact stop { w with connected := false } (fun _ => rfl) rfl rfl (by simp [expected, ho, hf, hl]) (by simp [ho]) _ (by simp [hl])
  | pong =>
    cases hf : x.fin with
    | false => exact stop { w with connected := false } (fun _ => rfl) rfl rfl (by simp [expected, ho, hf]) (by simp [ho]) _ rfl
    | true =>
      have hx : expected exts (w.prev.map (·.bytes)) x = some (none, w.prev.map (·.bytes)) := by simp [expected, ho, hf]
      refine ⟨[], none, some m, w, h, rfl, o.congr (by intro n; rw [e n]; rfl), Nat.le_refl _, ⟨?_, ?_, ?_, ?_, ?_⟩, .same rfl rfl rfl⟩
      · intro y; rw [hx] at y; cases y
      · intro a b y _
        rw [hx] at y
        simp only [Option.some.injEq, Prod.mk.injEq] at y
        exact ⟨y.1, by simp only [took, hc, hr]; rfl, y.2⟩
      · intro y; simp only [took] at y; omega
      · intro y; rw [ho] at y; cases y
      · intro y; rw [ho] at y; cases y
  | first =>
    cases hf : x.fin with
    | false =>
      cases hp : w.prev with
      | none =>
        have hx : expected exts none x = some (none, some x.data) := by simp [expected, ho, hf]
        refine ⟨[], none, none, { w with prev := some m }, h, by simp, o.congr (by intro n; rw [e n]; simp only [cW, hp, cMsgO]; omega), Nat.le_refl _, ⟨?_, ?_, ?_, ?_, ?_⟩, .same rfl rfl rfl⟩
        · intro y; rw [Option.map_none, hx] at y; cases y
        · intro a b y _
          rw [Option.map_none, hx] at y
          simp only [Option.some.injEq, Prod.mk.injEq] at y
          exact ⟨y.1, by simp only [took, hc, hr]; rfl, by rw [← y.2, ← hm]; rfl⟩
        · intro y; simp only [took] at y; omega
        · intro y; rw [ho] at y; cases y
        · intro y; rw [ho] at y; cases y
      | some p =>
        rw [hp] at stop
        exact stop { w with connected := false } (fun _ => rfl) rfl rfl (by simp [expected, ho, hf]) (by simp [ho]) _ (by simp [hp])
    | true =>
      cases hp : w.prev with
      | none =>
        obtain ⟨s, m', w', h1, e1, o1, x1, k1, k2, k3⟩ := own_deliver F exts (w := w) (m := m) x o e
        refine ⟨[], s, m', w', h1, by simp [e1], o1, x1, ?_, ?_⟩
        · refine Taken (b := x.data) x1 hc (by rw [k2, hr]) ?_ (hm ▸ k1) (by simp [expected, ho, hf]) (by simp [ho])
          have := congrArg Store.prev k3
          simp only [store, hp] at this
          exact this
        · rw [k3]; exact ⟨rfl, by simp, rfl, rfl⟩
      | some p =>
        rw [hp] at stop
        exact stop { w with running := false } (fun _ => rfl) rfl (by simp) (by simp [expected, ho, hf]) (by simp [ho]) _ (by simp [hp])
  | «continue» =>
    cases hf : x.fin with
    | false =>
      cases hp : w.prev with
      | none =>
        rw [hp] at stop
        exact stop { w with connected := false } (fun _ => rfl) rfl rfl (by simp [expected, ho, hf]) (by simp [ho]) _ (by simp [hp])
      | some p =>
        obtain ⟨p', h1, e1, b1, o1, x1⟩ := own_merge F (m := p) (x := m) (d := fun n => cA w.manager n + cList w.incoming n + cList w.outcoming n + d n) o (by
          intro n; rw [e n]; simp only [cW, hp, cMsgO]; omega)
        have hx : expected exts (some p.bytes) x = some (none, some (p.bytes ++ x.data)) := by simp [expected, ho, hf]
        refine ⟨[], none, some m, { w with prev := some p', connected := w.connected && true }, h1, by simp [e1], o1.congr (by intro n; simp only [cW, cMsgO]; omega), by omega, ⟨?_, ?_, ?_, ?_, ?_⟩, .same rfl rfl rfl⟩
        · intro y; rw [Option.map_some, hx] at y; cases y
        · intro a b y _
          rw [Option.map_some, hx] at y
          simp only [Option.some.injEq, Prod.mk.injEq] at y
          exact ⟨y.1, by simp only [took, hc, hr]; rfl, by rw [← y.2, ← hm, ← b1]; rfl⟩
        · intro y; simp only [took] at y; omega
        · intro y; rw [ho] at y; cases y
        · intro y; rw [ho] at y; cases y
    | true =>
      cases hp : w.prev with
      | none =>
        rw [hp] at stop
        exact stop { w with connected := false } (fun _ => rfl) rfl rfl (by simp [expected, ho, hf]) (by simp [ho]) _ (by simp [hp])
      | some p =>
        obtain ⟨p', h1, e1, b1, o1, x1⟩ := own_merge F (m := p) (x := m) (d := fun n => cA w.manager n + cList w.incoming n + cList w.outcoming n + d n) o (by
          intro n; rw [e n]; simp only [cW, hp, cMsgO]; omega)
        obtain ⟨h2, e2, o2, x2⟩ := own_clearMsg (m := m) (d := fun n => cMsg p' n + cW { w with prev := none } n + d n) o1 (by
          intro n; simp only [cW, cMsgO]; omega)
        obtain ⟨s, m', w', h3, e3, o3, x3, k1, k2, k3⟩ := own_deliver F exts (w := { w with prev := none }) (m := p') x o2 (fun _ => rfl)
        have hd : h3.failed - h.failed = h3.failed - h2.failed := by omega
        refine ⟨[], s, m', w', h3, by simp [e1, e2, e3], o3, by omega, ?_, ?_⟩
        · refine Taken (w := w) (b := p.bytes ++ x.data) (by omega) hc (by rw [k2]; exact hr) (congrArg Store.prev k3) ?_ (by simp [expected, ho, hf]) (by simp [ho])
          rw [← hm, ← b1, hd]
          exact k1
        · rw [k3]
          simp only [Stored, took, hd]
          refine ⟨rfl, ?_, rfl, rfl⟩
          rw [ite_self, List.append_nil]
          rfl

theorem own_arrive {f : F} (F : OnlySafe f) (exts : Bool) {w : W} (x : Frame) {h : H} {c d : Nat → Nat} (o : Own h.mem c)
    (hc : w.connected = true) (hr : w.running = true) (e : ∀ n, c n = cW w n + d n) :
    ∃ l s w' h', arrive f exts h w x = .ok (l, s, w', h') ∧ Own h'.mem (fun n => cW w' n + d n) ∧ h.failed ≤ h'.failed ∧
      TakenIn exts (w.prev.map (·.bytes)) x (took h h' l s w') (w'.prev.map (·.bytes)) ∧ Stored (store w) (store w') (took h h' l s w') := by
  unfold arrive
  obtain ⟨r, h1, e1, k⟩ := own_read F false x.data o
  rw [e1]
  rcases k with ⟨m, rfl, hb, o1, x1⟩ | ⟨rfl, o1, x1⟩ | ⟨-, y, -⟩
  · obtain ⟨l, s, m', w', h2, e2, o2, x2, k2⟩ := own_handle F exts (w := w) (m := m) x (d := d) o1 hc hr hb (by intro n; rw [e n]; omega)
    obtain ⟨h3, e3, o3, x3⟩ := own_clearMsgO (m := m') (d := fun n => cW w' n + d n) o2 (by intro n; omega)
    refine ⟨l, s, w', h3, by simp [e2, e3], o3, by omega, ?_⟩
    have : took h h3 l s w' = took h1 h2 l s w' := by
      have : h3.failed - h.failed = h2.failed - h1.failed := by omega
      simp only [took, this]
    rw [this]
    exact k2
  · exact ⟨[], none, { w with connected := false }, h1, rfl, o1.congr e, by omega, Ends exts _ rfl (.inr x1) (fun _ _ => .inr x1), .same rfl rfl rfl⟩
  · cases y

theorem own_drainLoop {f : F} (F : OnlySafe f) (reads : List Bytes) {w : W} {h : H} {c d : Nat → Nat} (o : Own h.mem c) (e : ∀ n, c n = cW w n + d n) :
    ∃ w' h', drainLoop f h w reads = .ok (w', h') ∧ Own h'.mem (fun n => cW w' n + d n) ∧ h.failed ≤ h'.failed ∧
      ∃ k, (h'.failed = h.failed → k = reads.length) ∧ store w' = { store w with inc := (store w).inc ++ if w.keepIn then reads.take k else [] } := by
  induction reads generalizing w h c with
  | nil => exact ⟨w, h, rfl, o.congr e, Nat.le_refl _, 0, fun _ => rfl, by simp⟩
  | cons b t ih =>
    unfold drainLoop
    obtain ⟨r, h1, e1, k⟩ := own_read F true b o
    rw [e1]
    rcases k with ⟨m, rfl, hb, o1, x1⟩ | ⟨rfl, o1, x1⟩ | ⟨rfl, y, o1, x1⟩
    · simp only [Res.ok_bind]
      cases hk : w.keepIn with
      | true =>
        obtain ⟨l, h2, e2, o2, x2, y2⟩ := own_push F .pushDrain (l := w.incoming) rfl (m := m) (d := fun n => cA w.manager n + cList w.outcoming n + cMsgO w.prev n + d n) o1 (by
          intro n; rw [e n]; simp only [cW]; omega)
        obtain ⟨w', h3, e3, o3, x3, k, k1, k2⟩ := ih (w := { w with incoming := l }) o2 (by intro n; simp only [cW]; omega)
        refine ⟨w', h3, ?_, o3, by omega, k + 1, ?_, ?_⟩
        · rw [if_pos rfl, e2]
          simp only [Res.ok_bind]
          rw [hk] at e3
          exact e3
        · intro z; rw [k1 (by omega)]; rfl
        · rw [k2]; simp [store, y2, hk, hb]
      | false =>
        obtain ⟨h2, e2, o2, x2⟩ := own_clearMsg (m := m) (d := c) o1 (fun _ => rfl)
        obtain ⟨w', h3, e3, o3, x3, k, k1, k2⟩ := ih o2 e
        exact ⟨w', h3, by simp [e2, e3], o3, by omega, k + 1, by intro z; rw [k1 (by omega)]; rfl, by rw [k2]; simp [hk]⟩
    · exact ⟨w, h1, rfl, o1.congr e, by omega, 0, by omega, by simp⟩
    · exact ⟨w, h1, rfl, o1.congr e, by omega, 0, by omega, by simp⟩

theorem own_sendClose {f : F} (F : OnlySafe f) (reads : List Bytes) {w : W} {h : H} {c d : Nat → Nat} (o : Own h.mem c) (e : ∀ n, c n = cW w n + d n) :
    ∃ w' h', sendClose f h w reads = .ok (.ok, [[]], w', h') ∧ Own h'.mem (fun n => cW w' n + d n) ∧ h.failed ≤ h'.failed ∧ w'.connected = false ∧
      ∃ k, (h'.failed = h.failed → k = reads.length) ∧ store w' = { store w with
        inc := (store w).inc ++ (if w.keepIn then reads.take k else []), out := (store w).out ++ if w.keepOut then [[]] else [] } := by
  obtain ⟨rc, l, w1, h1, e1, o1, r1, k1, k2, k3⟩ := own_sendManaged F (w := w) true 0 [] (fun _ => rfl) o e
  rcases r1 with ⟨rfl, r2, r3⟩ | ⟨-, -, -, r4⟩
  · obtain ⟨w2, h2, e2, o2, x2, k, k4, k5⟩ := own_drainLoop F reads (w := w1) o1 (fun _ => rfl)
    have hl : l = [[]] := r2.2.2.1 rfl
    refine ⟨{ w2 with connected := false }, h2, by simp [sendClose, e1, e2, hl], o2.congr (fun _ => rfl), by omega, rfl, k, fun z => k4 (by omega), ?_⟩
    have hk : w1.keepIn = w.keepIn := congrArg Store.keepIn k3
    rw [show store { w2 with connected := false } = store w2 from rfl, k5, k3, hk]
    simp
  · cases r4

theorem own_event {f : F} (F : OnlySafe f) (exts : Bool) (ev : Ev) {w : W} {h : H} {c d : Nat → Nat} (o : Own h.mem c) (e : ∀ n, c n = cW w n + d n) :
    ∃ rc l s w' h', event f exts h w ev = .ok (rc, l, s, w', h') ∧ Own h'.mem (fun n => cW w' n + d n) ∧ h.failed ≤ h'.failed ∧
      Step exts (w.connected && w.running) (store w) ⟨rc, h'.failed - h.failed, l, s, w'.connected && w'.running⟩ (store w') ev := by
  cases ev with
  | arrives x =>
    by_cases ha : (w.connected && w.running) = true
    · have hb := ha
      rw [Bool.and_eq_true] at hb
      obtain ⟨l, s, w', h1, e1, o1, x1, k⟩ := own_arrive F exts x o hb.1 hb.2 e
      refine ⟨.ok, l, s, w', h1, by simp [event, hb, e1], o1, x1, ?_⟩
      simp only [Step, ha, if_true]
      exact k
    · refine ⟨.params, [], none, w, h, by simp only [event, if_neg ha], o.congr e, Nat.le_refl _, ?_⟩
      simp only [Step, if_neg ha]
      simpa using ha
  | send b frag outs =>
    by_cases ha : w.connected = true
    · obtain ⟨rc, l, w', h1, e1, o1, r1, k1, k2, k3⟩ := own_sendData F frag b outs o e
      refine ⟨rc, l, none, w', h1, by simp [event, ha, e1], o1, ?_, ?_, by simp only [k1, k2], k3⟩
      · rcases r1 with ⟨-, -, r⟩ | ⟨-, -, r, -⟩ | ⟨-, -, r⟩ <;> omega
      · rcases r1 with ⟨rfl, r2, r3⟩ | ⟨rfl, r2, r3, r4⟩ | ⟨r1, r2, r3⟩
        · exact ⟨fun _ => ⟨by simp only; omega, r2⟩, by simp, by simp, by simp, by simp⟩
        · exact ⟨by simp, fun _ => r2, by simp, fun _ => .inr r4, by simp⟩
        · have : 0 < h1.failed - h.failed := by omega
          rcases r1 with rfl | rfl
          · exact ⟨by simp, fun _ => r2, by simp, fun _ => .inl this, by simp⟩
          · exact ⟨by simp, fun _ => r2, fun _ => this, by simp, by simp⟩
    · have hb : w.connected = false := by simpa using ha
      refine ⟨.params, [], none, w, h, by simp [event, hb], o.congr e, Nat.le_refl _, ⟨by simp, fun _ => rfl, by simp, by simp, fun _ => by simp [hb]⟩, rfl, by simp⟩
  | close reads =>
    by_cases ha : w.connected = true
    · obtain ⟨w', h1, e1, o1, x1, k, j, j1, j2⟩ := own_sendClose F reads o e
      refine ⟨.ok, [[]], none, w', h1, by simp [event, ha, e1], o1, x1, by simp [k], fun _ => ⟨rfl, j, fun z => j1 ?_, j2⟩, by simp⟩
      simp only at z; omega
    · have hb : w.connected = false := by simpa using ha
      exact ⟨.params, [], none, w, h, by simp [event, hb], o.congr e, Nat.le_refl _, by simp [hb], by simp, fun _ => ⟨rfl, by simp [hb], rfl⟩⟩
  | pop i =>
    cases i with
    | true =>
      obtain ⟨m, l, h1, e1, o1, x1, y1, z1⟩ := own_pop F (l := w.incoming) (d := fun n => cA w.manager n + cList w.outcoming n + cMsgO w.prev n + d n) o (by
        intro n; rw [e n]; simp only [cW]; omega)
      obtain ⟨h2, e2, o2, x2⟩ := own_clearMsgO (m := m) (d := fun n => cW { w with incoming := l } n + d n) o1 (by intro n; simp only [cW]; omega)
      exact ⟨.ok, [], m.map (·.bytes), { w with incoming := l }, h2, by simp [event, e1, e2], o2, by omega, rfl, rfl, y1, by simp [store, z1]⟩
    | false =>
      obtain ⟨m, l, h1, e1, o1, x1, y1, z1⟩ := own_pop F (l := w.outcoming) (d := fun n => cA w.manager n + cList w.incoming n + cMsgO w.prev n + d n) o (by
        intro n; rw [e n]; simp only [cW]; omega)
      obtain ⟨h2, e2, o2, x2⟩ := own_clearMsgO (m := m) (d := fun n => cW { w with outcoming := l } n + d n) o1 (by intro n; simp only [cW]; omega)
      exact ⟨.ok, [], m.map (·.bytes), { w with outcoming := l }, h2, by simp [event, e1, e2], o2, by omega, rfl, rfl, y1, by simp [store, z1]⟩
  | keep i k => exact ⟨.ok, [], none, { w with keepIn := i, keepOut := k }, h, rfl, o.congr e, Nat.le_refl _, rfl, rfl, rfl⟩

theorem own_events {f : F} (F : OnlySafe f) (exts : Bool) (evs : List Ev) {w : W} {h : H} {c d : Nat → Nat} (o : Own h.mem c) (e : ∀ n, c n = cW w n + d n) :
    ∃ out w' h', events f exts h w evs = .ok (out, w', h') ∧ Own h'.mem (fun n => cW w' n + d n) ∧
      Right exts (w.connected && w.running) (store w) evs out := by
  induction evs generalizing w h c with
  | nil => exact ⟨[], w, h, rfl, o.congr e, .nil _ _⟩
  | cons ev t ih =>
    obtain ⟨rc, l, s, w1, h1, e1, o1, x1, k1⟩ := own_event F exts ev o e
    obtain ⟨out, w2, h2, e2, o2, k2⟩ := ih o1 (fun _ => rfl)
    exact ⟨_, w2, h2, by simp only [events, e1, e2, Res.ok_bind]; rfl, o2, .cons _ _ _ _ _ _ _ k1 k2⟩

end Verif.OomWs
