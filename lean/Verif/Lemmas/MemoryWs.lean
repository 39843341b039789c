import Verif.Lemmas.MemoryServer
/-! # Lemmas about the blocks of websockets -/
namespace Verif.Memory

/-! ## Messages -/

theorem own_reallocP {h : Heap} {c d : Nat → Nat} {p : P} (o : Own h c) (e : ∀ n, c n = cP p n + d n) :
    ∃ q h', realloc h p = .ok (q, h') ∧ Own h' (fun n => cA q n + d n) ∧ ∀ n, cP q n = cA q n := by
  obtain ⟨h1, e1, o1⟩ := own_free o e
  obtain ⟨q, h2, e2, o2, q2⟩ := own_malloc o1
  exact ⟨q, h2, by simp [realloc, e1, e2], o2, q2⟩

/-- A buffer for `k` bytes: not NULL if there are any. -/
def cD (k : Nat) (p : P) (n : Nat) : Nat := if k = 0 then cP p n else cA p n

theorem D_eq {h : Heap} {c d : Nat → Nat} {k : Nat} {p : P} (o : Own h c) (e : ∀ n, c n = cD k p n + d n) (n : Nat) : cP p n = cD k p n := by
  unfold cD at e ⊢
  split
  · rfl
  · rename_i hk
    exact P_eq (p := p) (d := d) o (by intro n; rw [e n, if_neg hk]) n

theorem own_buffer {h : Heap} {c : Nat → Nat} (k : Nat) (o : Own h c) : ∃ p h', buffer h k = (p, h') ∧ Own h' (fun n => cD k p n + c n) ∧
    ∀ n, cP p n = cD k p n := by
  unfold buffer cD
  by_cases hk : k = 0
  · subst hk
    exact ⟨.null, h, rfl, o.congr (by intro n; simp [cP]), by simp⟩
  · obtain ⟨p, h1, e1, o1, q1⟩ := own_malloc o
    exact ⟨p, h1, by rw [if_neg hk, e1], o1.congr (by intro n; rw [if_neg hk]), by intro n; rw [if_neg hk, q1]⟩

theorem own_freeD {h : Heap} {c d : Nat → Nat} {k : Nat} {p : P} (o : Own h c) (e : ∀ n, c n = cD k p n + d n) : ∃ h', free h p = .ok h' ∧ Own h' d :=
  own_free o (by intro n; rw [e n, D_eq o e n])

/-- The blocks of a message. -/
def cG (m : Msg) (n : Nat) : Nat := cA m.box n + cD m.len m.data n

/-- The same for a pointer to one. -/
def cGo : Option Msg → Nat → Nat
  | none, _ => 0
  | some m, n => cG m n

/-- The blocks of the messages in a list: each entry is one. -/
def cIt : List (Option Msg) → Nat → Nat
  | [], _ => 0
  | none :: t, n => 2 + cIt t n
  | some m :: t, n => cG m n + cIt t n

theorem cIt_append (a b : List (Option Msg)) (n : Nat) : cIt (a ++ b) n = cIt a n + cIt b n := by
  induction a with
  | nil => simp [cIt]
  | cons x t ih => cases x <;> simp [cIt, ih] <;> omega

/-- The blocks of a list of messages. -/
def cML (l : MList) (n : Nat) : Nat := cA l.box n + cD l.items.length l.array n + cIt l.items n

theorem own_clearMsg {h : Heap} {c d : Nat → Nat} {m : Msg} (o : Own h c) (e : ∀ n, c n = cG m n + d n) : ∃ h', clearMsg h m = .ok h' ∧ Own h' d := by
  have n1 : need h m.box = .ok () := own_need (d := fun n => cD m.len m.data n + d n) o (by intro n; rw [e n]; simp only [cG]; omega)
  obtain ⟨h1, e1, o1⟩ := own_freeD (k := m.len) (p := m.data) (d := fun n => cA m.box n + d n) o (by intro n; rw [e n]; simp only [cG]; omega)
  obtain ⟨h2, e2, o2⟩ := own_freeA (p := m.box) (d := d) o1 (fun _ => rfl)
  exact ⟨h2, by simp [clearMsg, n1, freeAll, e1, e2], o2⟩

theorem own_clearMsgO {h : Heap} {c d : Nat → Nat} {m : Option Msg} (o : Own h c) (e : ∀ n, c n = cGo m n + d n) :
    ∃ h', clearMsgO h m = .ok h' ∧ Own h' d := by
  cases m with
  | none => exact ⟨h, rfl, o.congr (by intro n; rw [e n]; simp [cGo])⟩
  | some m => exact own_clearMsg o e

theorem own_pushMsg {h : Heap} {c d : Nat → Nat} {l : MList} {m : Msg} (o : Own h c) (e : ∀ n, c n = cML l n + (cG m n + d n)) :
    ∃ l' h', pushMsg h l m = .ok (l', h') ∧ Own h' (fun n => cML l' n + d n) := by
  have n1 : need h l.box = .ok () := own_need (d := fun n => cD l.items.length l.array n + cIt l.items n + (cG m n + d n)) o
    (by intro n; rw [e n]; simp only [cML]; omega)
  have hd := D_eq (k := l.items.length) (p := l.array) (d := fun n => cA l.box n + cIt l.items n + (cG m n + d n)) o
    (by intro n; rw [e n]; simp only [cML]; omega)
  obtain ⟨a, h1, e1, o1, -⟩ := own_reallocP (p := l.array) (d := fun n => cA l.box n + cIt l.items n + (cG m n + d n)) o
    (by intro n; rw [e n]; simp only [cML]; have := hd n; omega)
  refine ⟨{ l with array := a, items := l.items ++ [some m] }, h1, by simp [pushMsg, n1, e1], o1.congr ?_⟩
  intro n
  simp only [cML, cIt_append, cIt, cD, List.length_append, List.length_cons, List.length_nil]
  rw [if_neg (by omega)]
  omega

theorem own_popMsg {h : Heap} {c d : Nat → Nat} {l : MList} (o : Own h c) (e : ∀ n, c n = cML l n + d n) :
    ∃ m l' h', popMsg h l = .ok (m, l', h') ∧ Own h' (fun n => cGo m n + (cML l' n + d n)) := by
  have n1 : need h l.box = .ok () := own_need (d := fun n => cD l.items.length l.array n + cIt l.items n + d n) o
    (by intro n; rw [e n]; simp only [cML]; omega)
  have e' := e
  simp only [cML] at e'
  unfold popMsg
  rw [n1]
  simp only [Res.ok_bind]
  cases hi : l.items with
  | nil => exact ⟨none, l, h, rfl, o.congr (by intro n; rw [e n]; simp [cGo])⟩
  | cons x t =>
    rw [hi] at e'
    cases x with
    | none => have := o 0; have := e' 0; simp only [cIt] at this; omega
    | some m =>
      have e2 : ∀ n, c n = cA l.array n + (cG m n + (cA l.box n + cIt t n + d n)) := by
        intro n; rw [e' n]
        simp only [cIt, cD, List.length_cons]
        rw [if_neg (by omega)]
        omega
      have n2 := own_need o e2
      simp only [n2, Res.ok_bind]
      by_cases ht : t = []
      · subst ht
        obtain ⟨h1, e1, o1⟩ := own_freeA o e2
        rw [if_pos rfl, e1]
        refine ⟨some m, { l with array := .null, items := [] }, h1, rfl, o1.congr ?_⟩
        intro n; simp only [cGo, cML, cIt, cD, List.length_nil, if_true, cP]
      · obtain ⟨a, h1, e1, o1, -⟩ := own_reallocA o e2
        rw [if_neg ht, e1]
        refine ⟨some m, { l with array := a, items := t }, h1, rfl, o1.congr ?_⟩
        intro n; simp only [cGo, cML, cD]
        rw [if_neg (by intro h0; exact ht (List.eq_nil_of_length_eq_zero h0))]
        omega

theorem own_clearItems {c d : Nat → Nat} (l : List (Option Msg)) {h : Heap} (o : Own h c) (e : ∀ n, c n = cIt l n + d n) :
    ∃ h', clearItems h l = .ok h' ∧ Own h' d := by
  induction l generalizing h c with
  | nil => exact ⟨h, rfl, o.congr (by intro n; rw [e n]; simp [cIt])⟩
  | cons x t ih =>
    cases x with
    | none => have := o 0; have := e 0; simp only [cIt] at this; omega
    | some m =>
      obtain ⟨h1, e1, o1⟩ := own_clearMsg (m := m) (d := fun n => cIt t n + d n) o (by intro n; rw [e n]; simp only [cIt]; omega)
      obtain ⟨h2, e2, o2⟩ := ih o1 (fun _ => rfl)
      exact ⟨h2, by simp [clearItems, e1, e2], o2⟩

theorem own_clearList {h : Heap} {c d : Nat → Nat} {l : MList} (o : Own h c) (e : ∀ n, c n = cML l n + d n) :
    ∃ l' h', clearList h l = .ok (l', h') ∧ Own h' (fun n => cA l.box n + d n) := by
  have n1 : need h l.box = .ok () := own_need (d := fun n => cD l.items.length l.array n + cIt l.items n + d n) o
    (by intro n; rw [e n]; simp only [cML]; omega)
  have n2 : (if l.items = [] then Res.ok () else need h l.array) = .ok () := by
    split
    · rfl
    · rename_i hi
      refine own_need (d := fun n => cA l.box n + cIt l.items n + d n) o ?_
      intro n; rw [e n]; simp only [cML, cD]
      rw [if_neg (by intro h0; exact hi (List.eq_nil_of_length_eq_zero h0))]
      omega
  obtain ⟨h1, e1, o1⟩ := own_clearItems l.items (d := fun n => cD l.items.length l.array n + (cA l.box n + d n)) o
    (by intro n; rw [e n]; simp only [cML]; omega)
  obtain ⟨h2, e2, o2⟩ := own_freeD o1 (fun _ => rfl)
  refine ⟨{ l with array := .null, items := l.items.map (fun _ => none) }, h2, ?_, o2⟩
  simp only [clearList, n1, Res.ok_bind, n2, e1, e2, Res.pure_eq]

/-! ## The websocket -/

/-- The blocks of an extension. -/
def cWX : List WExt → Nat → Nat
  | [], _ => 0
  | e :: t, n => cP e.ext.box n + cP e.ext.server n + cP e.ext.client n + cP e.context n + cWX t n

/-- The blocks of a websocket except its messages. -/
def cW0 (w : Ws) (n : Nat) : Nat :=
  cA w.box n + cA w.manager n + cQo w.request n + cP w.list n + cP w.array n + cWX w.exts n

/-- The blocks of a websocket. -/
def cWs (w : Ws) (n : Nat) : Nat := cW0 w n + cML w.incoming n + cML w.outcoming n

/-- A context is there only if somebody frees it. -/
def XOk (e : WExt) : Prop := (e.enabled = true ∧ e.frees = true) ∨ e.context = .null

/-- A websocket the code can clear. -/
def WOk (w : Ws) : Prop := ∀ e ∈ w.exts, XOk e

/-- The same websocket except for messages. -/
structure SameWs (w w' : Ws) : Prop where
  box : w'.box = w.box
  manager : w'.manager = w.manager
  request : w'.request = w.request
  list : w'.list = w.list
  array : w'.array = w.array
  exts : w'.exts = w.exts

theorem SameWs.refl (w : Ws) : SameWs w w := ⟨rfl, rfl, rfl, rfl, rfl, rfl⟩

theorem SameWs.trans {a b c : Ws} (x : SameWs a b) (y : SameWs b c) : SameWs a c :=
  ⟨y.box.trans x.box, y.manager.trans x.manager, y.request.trans x.request, y.list.trans x.list, y.array.trans x.array, y.exts.trans x.exts⟩

theorem SameWs.c0 {a b : Ws} (x : SameWs a b) (n : Nat) : cW0 b n = cW0 a n := by
  simp only [cW0, x.box, x.manager, x.request, x.list, x.array, x.exts]

theorem SameWs.ok {a b : Ws} (x : SameWs a b) (h : WOk a) : WOk b := by
  unfold WOk; rw [x.exts]; exact h

theorem own_initWs {h : Heap} {c : Nat → Nat} (o : Own h c) :
    ∃ w h', initWs h = (w, h') ∧ Own h' (fun n => cWs w n + c n) ∧ w.exts = [] ∧ w.request = none ∧ w.list = .null ∧ w.array = .null := by
  obtain ⟨b, h1, e1, o1, -⟩ := own_malloc o
  obtain ⟨m, h2, e2, o2, -⟩ := own_malloc o1
  obtain ⟨i, h3, e3, o3, -⟩ := own_malloc o2
  obtain ⟨u, h4, e4, o4, -⟩ := own_malloc o3
  refine ⟨{ box := b, manager := m, incoming := ⟨i, .null, []⟩, outcoming := ⟨u, .null, []⟩ }, h4, by simp [initWs, e1, e2, e3, e4], o4.congr ?_, rfl, rfl, rfl, rfl⟩
  intro n
  simp only [cWs, cW0, cML, cD, cIt, cQo, cWX, cP, List.length_nil, if_true]
  omega

theorem own_freeContexts {c d : Nat → Nat} (es : List WExt) {h : Heap} (ok : ∀ e ∈ es, XOk e) (o : Own h c) (e : ∀ n, c n = cWX es n + d n) :
    ∃ h', freeContexts h es = .ok h' ∧ Own h' (fun n => cXs (es.map (fun e => e.ext)) n + d n) := by
  induction es generalizing h c d with
  | nil => exact ⟨h, rfl, o.congr e⟩
  | cons x t ih =>
    have n1 : touch h x.ext.box = .ok () := own_touch (d := fun n => cP x.ext.server n + cP x.ext.client n + cP x.context n + cWX t n + d n) o
      (by intro n; rw [e n]; simp only [cWX]; omega)
    have mid : ∃ h1, (if x.enabled && x.frees then free h x.context else Res.ok h) = .ok h1 ∧
        Own h1 (fun n => cWX t n + (cP x.ext.box n + cP x.ext.server n + cP x.ext.client n + d n)) := by
      split
      · exact own_free (p := x.context) o (by intro n; rw [e n]; simp only [cWX]; omega)
      · rename_i hx
        refine ⟨h, rfl, o.congr ?_⟩
        rcases ok x (by simp) with h0 | h0
        · rw [h0.1, h0.2] at hx; exact absurd rfl hx
        · intro n; rw [e n]; simp only [cWX, h0, cP]; omega
    obtain ⟨h1, e1, o1⟩ := mid
    obtain ⟨h2, e2, o2⟩ := ih (fun y hy => ok y (by simp [hy])) o1 (fun _ => rfl)
    refine ⟨h2, ?_, o2.congr (by intro n; simp only [List.map_cons, cXs]; omega)⟩
    rw [freeContexts, n1, Res.ok_bind, e1, Res.ok_bind, e2]

theorem own_clearManager {h : Heap} {c d : Nat → Nat} {w : Ws} (ok : WOk w) (o : Own h c)
    (e : ∀ n, c n = cA w.manager n + (cML w.incoming n + (cML w.outcoming n + (cP w.list n + cP w.array n + cWX w.exts n + d n)))) :
    ∃ h', clearManager h w = .ok h' ∧ Own h' (fun n => cA w.manager n + d n) := by
  have n1 := own_need o e
  obtain ⟨l1, h1, e1, o1⟩ := own_clearList (l := w.incoming)
    (d := fun n => cA w.manager n + (cML w.outcoming n + (cP w.list n + cP w.array n + cWX w.exts n + d n))) o (by intro n; rw [e n]; omega)
  obtain ⟨h2, e2, o2⟩ := own_freeA o1 (fun _ => rfl)
  obtain ⟨l3, h3, e3, o3⟩ := own_clearList (l := w.outcoming)
    (d := fun n => cA w.manager n + (cP w.list n + cP w.array n + cWX w.exts n + d n)) o2 (by intro n; omega)
  obtain ⟨h4, e4, o4⟩ := own_freeA o3 (fun _ => rfl)
  have n2 : touch h4 w.list = .ok () := own_touch (d := fun n => cA w.manager n + (cP w.array n + cWX w.exts n + d n)) o4 (by intro n; omega)
  obtain ⟨h5, e5, o5⟩ := own_freeContexts w.exts (d := fun n => cA w.manager n + (cP w.list n + cP w.array n + d n)) ok o4 (by intro n; omega)
  obtain ⟨h6, e6, o6⟩ := own_freeAll (w.exts.flatMap (fun e => extPtrs e.ext)) (d := fun n => cA w.manager n + (cP w.list n + cP w.array n + d n)) o5 (by
    intro n
    have := cL_exts (w.exts.map (fun e => e.ext)) n
    rw [List.flatMap_map] at this
    omega)
  obtain ⟨h7, e7, o7⟩ := own_freeAll [w.array, w.list] (d := fun n => cA w.manager n + d n) o6 (by intro n; simp only [cL]; omega)
  exact ⟨h7, by simp [clearManager, n1, e1, e2, e3, e4, n2, e5, e6, e7], o7⟩

/-- The array is there as long as there are active websockets. -/
def TOk (t : Table) : Prop := t.members = [] ↔ t.array = .null

theorem own_addActive {h : Heap} {c d : Nat → Nat} {t : Table} (w : P) (o : Own h c) (e : ∀ n, c n = cP t.array n + d n) :
    ∃ t' h', addActive h t w = .ok (t', h') ∧ Own h' (fun n => cP t'.array n + d n) ∧ TOk t' ∧ t'.members = t.members ++ [w] := by
  obtain ⟨a, h1, e1, o1, q1⟩ := own_reallocP o e
  have ha : a ≠ .null := realloc_ne e1
  refine ⟨⟨a, t.members ++ [w]⟩, h1, by simp [addActive, e1], o1.congr (by intro n; rw [q1]), ?_, rfl⟩
  simp [TOk, ha]

theorem own_removeActive {h : Heap} {c d : Nat → Nat} {t : Table} (w : P) (T : TOk t) (o : Own h c) (e : ∀ n, c n = cP t.array n + d n) :
    ∃ t' h', removeActive h t w = .ok (t', h') ∧ Own h' (fun n => cP t'.array n + d n) ∧ TOk t' ∧ t'.members = t.members.erase w := by
  unfold removeActive
  by_cases ha : t.array = .null
  · rw [if_pos ha]
    exact ⟨t, h, rfl, o.congr e, T, by rw [T.2 ha]; rfl⟩
  · rw [if_neg ha, own_needP o ha e]
    simp only [Res.ok_bind]
    by_cases hw : w ∈ t.members
    · rw [if_pos hw]
      by_cases hl : t.members.length ≤ 1
      · rw [if_pos hl]
        obtain ⟨h1, e1, o1⟩ := own_free o e
        refine ⟨⟨.null, []⟩, h1, by simp [e1], o1.congr (by intro n; simp [cP]), by simp [TOk], ?_⟩
        cases hm : t.members with
        | nil => rfl
        | cons x s =>
          rw [hm] at hl hw
          cases s with
          | nil => rw [List.mem_singleton.1 hw]; simp
          | cons y s => simp at hl
      · rw [if_neg hl]
        obtain ⟨a, h1, e1, o1, q1⟩ := own_reallocP o e
        have hn : a ≠ .null := realloc_ne e1
        refine ⟨⟨a, t.members.erase w⟩, h1, by simp [e1], o1.congr (by intro n; rw [q1]), ?_, rfl⟩
        have hlen := List.length_erase_of_mem hw
        have : t.members.erase w ≠ [] := by
          intro h0; rw [h0] at hlen; simp at hlen; omega
        simp [TOk, hn, this]
    · rw [if_neg hw]
      exact ⟨t, h, rfl, o.congr e, T, (List.erase_of_not_mem hw).symm⟩

theorem own_clearWs {h : Heap} {c d : Nat → Nat} {t : Table} {w : Ws} (known : Bool) (ok : WOk w) (T : TOk t) (o : Own h c)
    (e : ∀ n, c n = cWs w n + (cP t.array n + d n)) :
    ∃ t' h', clearWs h t w known = .ok (t', h') ∧ Own h' (fun n => cP t'.array n + d n) ∧ TOk t' ∧
      t'.members = (if known then t.members.erase w.box else t.members) ∧ (known = false → t' = t) := by
  have e0 := e
  simp only [cWs, cW0] at e0
  have n1 : need h w.box = .ok () := own_need (d := fun n => cA w.manager n + cQo w.request n + cP w.list n + cP w.array n + cWX w.exts n +
    cML w.incoming n + cML w.outcoming n + (cP t.array n + d n)) o (by intro n; rw [e0 n]; omega)
  have hr : ∃ t1 h1, (if known then removeActive h t w.box else Res.ok (t, h)) = .ok (t1, h1) ∧ Own h1 (fun n => cP t1.array n + (cWs w n + d n)) ∧ TOk t1 ∧
      t1.members = (if known then t.members.erase w.box else t.members) ∧ (known = false → t1 = t) := by
    cases known with
    | true =>
      obtain ⟨t1, h1, e1, o1, T1, m1⟩ := own_removeActive (d := fun n => cWs w n + d n) w.box T o (by intro n; rw [e n]; omega)
      exact ⟨t1, h1, e1, o1, T1, m1, fun h0 => by cases h0⟩
    | false => exact ⟨t, h, rfl, o.congr (by intro n; rw [e n]; omega), T, rfl, fun _ => rfl⟩
  obtain ⟨t1, h1, e1, o1, T1, m1, k1⟩ := hr
  have hq : ∃ h2, (match w.request with | some r => cleanRequestFull h1 r | none => Res.ok h1) = .ok h2 ∧
      Own h2 (fun n => cA w.manager n + (cML w.incoming n + (cML w.outcoming n + (cP w.list n + cP w.array n + cWX w.exts n + (cA w.box n + (cP t1.array n + d n)))))) := by
    cases hx : w.request with
    | none => exact ⟨h1, rfl, o1.congr (by intro n; simp only [cWs, cW0, hx, cQo]; omega)⟩
    | some r => exact own_cleanRequestFull (r := r) o1 (by intro n; simp only [cWs, cW0, hx, cQo]; omega)
  obtain ⟨h2, e2, o2⟩ := hq
  obtain ⟨h3, e3, o3⟩ := own_clearManager (w := w) (d := fun n => cA w.box n + (cP t1.array n + d n)) ok o2 (by intro n; omega)
  obtain ⟨h4, e4, o4⟩ := own_freeA o3 (fun _ => rfl)
  obtain ⟨h5, e5, o5⟩ := own_freeA o4 (fun _ => rfl)
  refine ⟨t1, h5, ?_, o5, T1, m1, k1⟩
  unfold clearWs
  rw [n1, Res.ok_bind, e1, Res.ok_bind]
  cases hx : w.request with
  | none => rw [hx] at e2; simp only at e2 ⊢; rw [e2]; simp [e3, freeAll, e4, e5]
  | some r => rw [hx] at e2; simp only at e2 ⊢; rw [e2]; simp [e3, freeAll, e4, e5]

/-! ## Messages of a websocket -/

/-- The blocks of messages that were taken out. -/
def cHs : List (Option Msg) → Nat → Nat
  | [], _ => 0
  | m :: t, n => cGo m n + cHs t n

theorem cHs_append (a b : List (Option Msg)) (n : Nat) : cHs (a ++ b) n = cHs a n + cHs b n := by
  induction a with
  | nil => simp [cHs]
  | cons x t ih => simp only [List.cons_append, cHs, ih]; omega

theorem cHs_set {l : List (Option Msg)} {i : Nat} {m : Msg} (h : l[i]? = some (some m)) (n : Nat) : cHs l n = cG m n + cHs (l.set i none) n := by
  induction l generalizing i with
  | nil => simp at h
  | cons x t ih =>
    cases i with
    | zero =>
      simp only [List.getElem?_cons_zero, Option.some.injEq] at h
      subst h
      simp [cHs, cGo]
    | succ i =>
      simp only [List.getElem?_cons_succ] at h
      simp only [List.set_cons_succ, cHs, ih h]
      omega

theorem own_readMsg {h : Heap} {c : Nat → Nat} (x : Read) (o : Own h c) : ∃ m h', readMsg h x = .ok (m, h') ∧ Own h' (fun n => cGo m n + c n) := by
  cases x with
  | broken b =>
    obtain ⟨p, h1, e1, o1, -⟩ := own_malloc o
    obtain ⟨q, h2, e2, o2, -⟩ := own_buffer b.toNat o1
    obtain ⟨h3, e3, o3⟩ := own_freeD o2 (fun _ => rfl)
    obtain ⟨h4, e4, o4⟩ := own_clearMsg (m := ⟨p, .null, 0⟩) (d := c) o3 (by intro n; simp [cG, cD, cP])
    exact ⟨none, h4, by simp [readMsg, e1, e2, e3, e4], o4.congr (by intro n; simp [cGo])⟩
  | message k =>
    obtain ⟨p, h1, e1, o1, -⟩ := own_malloc o
    obtain ⟨q, h2, e2, o2, -⟩ := own_buffer k o1
    obtain ⟨d, h3, e3, o3, -⟩ := own_buffer k o2
    obtain ⟨h4, e4, o4⟩ := own_freeD (k := k) (p := q) (d := fun n => cD k d n + (cA p n + c n)) o3 (by intro n; omega)
    exact ⟨some ⟨p, d, k⟩, h4, by simp [readMsg, e1, e2, e3, e4], o4.congr (by intro n; simp only [cGo, cG]; omega)⟩

theorem own_frames {c : Nat → Nat} (k : Nat) {h : Heap} (o : Own h c) : ∃ h', frames h k = .ok h' ∧ Own h' c := by
  induction k generalizing h with
  | zero => exact ⟨h, rfl, o⟩
  | succ k ih =>
    obtain ⟨p, h1, e1, o1, -⟩ := own_malloc o
    obtain ⟨h2, e2, o2⟩ := own_freeA o1 (fun _ => rfl)
    obtain ⟨h3, e3, o3⟩ := ih o2
    exact ⟨h3, by simp [frames, e1, e2, e3], o3⟩

theorem own_pushOut {h : Heap} {c d : Nat → Nat} {w : Ws} {m : Msg} (o : Own h c) (e : ∀ n, c n = cWs w n + (cG m n + d n)) :
    ∃ l h', pushMsg h w.outcoming m = .ok (l, h') ∧ Own h' (fun n => cWs { w with outcoming := l } n + d n) := by
  obtain ⟨l, h1, e1, o1⟩ := own_pushMsg (l := w.outcoming) (m := m) (d := fun n => cW0 w n + cML w.incoming n + d n) o
    (by intro n; rw [e n]; simp only [cWs]; omega)
  exact ⟨l, h1, e1, o1.congr (by intro n; show _ = cW0 w n + cML w.incoming n + cML l n + d n; omega)⟩

theorem own_pushIn {h : Heap} {c d : Nat → Nat} {w : Ws} {m : Msg} (o : Own h c) (e : ∀ n, c n = cWs w n + (cG m n + d n)) :
    ∃ l h', pushMsg h w.incoming m = .ok (l, h') ∧ Own h' (fun n => cWs { w with incoming := l } n + d n) := by
  obtain ⟨l, h1, e1, o1⟩ := own_pushMsg (l := w.incoming) (m := m) (d := fun n => cW0 w n + cML w.outcoming n + d n) o
    (by intro n; rw [e n]; simp only [cWs]; omega)
  exact ⟨l, h1, e1, o1.congr (by intro n; show _ = cW0 w n + cML l n + cML w.outcoming n + d n; omega)⟩

theorem own_sendManaged {h : Heap} {c d : Nat → Nat} {w : Ws} (k f : Nat) (o : Own h c) (e : ∀ n, c n = cWs w n + d n) :
    ∃ w' h', sendManaged h w k f = .ok (w', h') ∧ SameWs w w' ∧ Own h' (fun n => cWs w' n + d n) := by
  have n1 : need h w.manager = .ok () := own_need (d := fun n => cA w.box n + cQo w.request n + cP w.list n + cP w.array n + cWX w.exts n +
    cML w.incoming n + cML w.outcoming n + d n) o (by intro n; rw [e n]; simp only [cWs, cW0]; omega)
  obtain ⟨b, h1, e1, o1, -⟩ := own_malloc o
  obtain ⟨p, h2, e2, o2, -⟩ := own_buffer k o1
  obtain ⟨h3, e3, o3⟩ := own_frames f o2
  cases hk : w.keepOut with
  | true =>
    obtain ⟨l, h4, e4, o4⟩ := own_pushOut (w := w) (m := ⟨b, p, k⟩) (d := d) o3 (by intro n; rw [e n]; simp only [cG]; omega)
    exact ⟨{ w with outcoming := l }, h4, by simp [sendManaged, n1, e1, e2, e3, hk, e4], ⟨rfl, rfl, rfl, rfl, rfl, rfl⟩, o4⟩
  | false =>
    obtain ⟨h4, e4, o4⟩ := own_clearMsg (m := ⟨b, p, k⟩) (d := c) o3 (by intro n; simp only [cG]; omega)
    exact ⟨w, h4, by simp [sendManaged, n1, e1, e2, e3, hk, e4], SameWs.refl w, o4.congr e⟩

theorem own_drain {c d : Nat → Nat} (l : List Read) {h : Heap} {w : Ws} (o : Own h c) (e : ∀ n, c n = cWs w n + d n) :
    ∃ w' h', drain h w l = .ok (w', h') ∧ SameWs w w' ∧ Own h' (fun n => cWs w' n + d n) := by
  induction l generalizing h w c with
  | nil => exact ⟨w, h, rfl, SameWs.refl w, o.congr e⟩
  | cons x t ih =>
    obtain ⟨m, h1, e1, o1⟩ := own_readMsg x o
    cases m with
    | none =>
      obtain ⟨w2, h2, e2, s2, o2⟩ := ih (w := w) o1 (by intro n; rw [e n]; simp [cGo])
      exact ⟨w2, h2, by simp [drain, e1, e2], s2, o2⟩
    | some m =>
      cases hk : w.keepIn with
      | true =>
        obtain ⟨l2, h2, e2, o2⟩ := own_pushIn (w := w) (m := m) (d := d) o1 (by intro n; rw [e n]; simp only [cGo]; omega)
        obtain ⟨w3, h3, e3, s3, o3⟩ := ih o2 (fun _ => rfl)
        refine ⟨w3, h3, ?_, SameWs.trans (b := { w with incoming := l2 }) ⟨rfl, rfl, rfl, rfl, rfl, rfl⟩ s3, o3⟩
        unfold drain
        simp only [e1, Res.ok_bind]
        rw [if_pos hk, e2]
        exact e3
      | false =>
        obtain ⟨h2, e2, o2⟩ := own_clearMsg (m := m) (d := c) o1 (by intro n; simp only [cGo])
        obtain ⟨w3, h3, e3, s3, o3⟩ := ih o2 e
        exact ⟨w3, h3, by simp [drain, e1, hk, e2, e3], s3, o3⟩

theorem own_performOut {c d : Nat → Nat} (l : List (Option Nat)) {h : Heap} {p : P} {k : Nat} (o : Own h c) (e : ∀ n, c n = cP p n + d n) :
    ∃ q k' b h', performOut h p k l = .ok (q, k', b, h') ∧ Own h' (fun n => cP q n + d n) := by
  induction l generalizing h p k c with
  | nil => exact ⟨p, k, true, h, rfl, o.congr e⟩
  | cons x t ih =>
    cases x with
    | none => exact ⟨p, k, false, h, rfl, o.congr e⟩
    | some k' =>
      obtain ⟨b, h1, e1, o1, q1⟩ := own_buffer k' o
      obtain ⟨h2, e2, o2⟩ := own_free (p := p) (d := fun n => cD k' b n + d n) o1 (by intro n; rw [e n]; omega)
      obtain ⟨q, h3, e3, o3, q3⟩ := own_malloc o2
      obtain ⟨h4, e4, o4⟩ := own_free (p := b) (d := fun n => cP q n + d n) o3 (by intro n; rw [q1, q3]; omega)
      obtain ⟨q5, k5, b5, h5, e5, o5⟩ := ih (k := k') o4 (fun _ => rfl)
      exact ⟨q5, k5, b5, h5, by simp [performOut, e1, e2, e3, e4, e5], o5⟩

theorem own_sendMsg {h : Heap} {c d : Nat → Nat} {w : Ws} (s : Send) (o : Own h c) (e : ∀ n, c n = cWs w n + d n) :
    ∃ w' h', sendMsg h w s = .ok (w', h') ∧ SameWs w w' ∧ Own h' (fun n => cWs w' n + d n) := by
  cases s with
  | ignored => exact ⟨w, h, rfl, SameWs.refl w, o.congr e⟩
  | close l =>
    obtain ⟨w1, h1, e1, s1, o1⟩ := own_sendManaged 0 1 o e
    obtain ⟨w2, h2, e2, s2, o2⟩ := own_drain l o1 (fun _ => rfl)
    exact ⟨w2, h2, by simp [sendMsg, e1, e2], s1.trans s2, o2⟩
  | data k outs f =>
    obtain ⟨b, h1, e1, o1, q1⟩ := own_buffer k o
    obtain ⟨p, k2, ok, h2, e2, o2⟩ := own_performOut outs (p := b) (k := k) (d := fun n => cWs w n + d n) o1 (by intro n; rw [e n, q1])
    have mid : ∃ w3 h3, (if ok then sendManaged h2 w k2 f else Res.ok (w, h2)) = .ok (w3, h3) ∧ SameWs w w3 ∧ Own h3 (fun n => cWs w3 n + (cP p n + d n)) := by
      cases ok with
      | true => exact own_sendManaged k2 f o2 (by intro n; omega)
      | false => exact ⟨w, h2, rfl, SameWs.refl w, o2.congr (by intro n; omega)⟩
    obtain ⟨w3, h3, e3, s3, o3⟩ := mid
    obtain ⟨h4, e4, o4⟩ := own_free (p := p) (d := fun n => cWs w3 n + d n) o3 (by intro n; omega)
    refine ⟨w3, h4, ?_, s3, o4⟩
    unfold sendMsg
    simp only [e1, e2, Res.ok_bind]
    rw [e3]
    simp [e4]

/-- Calls the code gets right: no list of messages is cleared. -/
def MOpsOk (l : List MOp) : Prop := ∀ b, MOp.clear b ∉ l

theorem own_mop {h : Heap} {c d : Nat → Nat} {w : Ws} {held : List (Option Msg)} (x : MOp) (hx : ∀ b, x ≠ .clear b) (o : Own h c)
    (e : ∀ n, c n = cWs w n + (cHs held n + d n)) :
    ∃ w' held' h', mop h w held x = .ok (w', held', h') ∧ SameWs w w' ∧ Own h' (fun n => cWs w' n + (cHs held' n + d n)) := by
  cases x with
  | send s =>
    obtain ⟨w1, h1, e1, s1, o1⟩ := own_sendMsg s o e
    exact ⟨w1, held, h1, by simp [mop, e1], s1, o1⟩
  | pop i =>
    cases i with
    | true =>
      obtain ⟨m, l, h1, e1, o1⟩ := own_popMsg (l := w.incoming) (d := fun n => cW0 w n + cML w.outcoming n + (cHs held n + d n)) o
        (by intro n; rw [e n]; simp only [cWs]; omega)
      refine ⟨{ w with incoming := l }, held ++ [m], h1, by simp [mop, e1], ⟨rfl, rfl, rfl, rfl, rfl, rfl⟩, o1.congr ?_⟩
      intro n
      show _ = cW0 w n + cML l n + cML w.outcoming n + _
      simp only [cHs_append, cHs]; omega
    | false =>
      obtain ⟨m, l, h1, e1, o1⟩ := own_popMsg (l := w.outcoming) (d := fun n => cW0 w n + cML w.incoming n + (cHs held n + d n)) o
        (by intro n; rw [e n]; simp only [cWs]; omega)
      refine ⟨{ w with outcoming := l }, held ++ [m], h1, by simp [mop, e1], ⟨rfl, rfl, rfl, rfl, rfl, rfl⟩, o1.congr ?_⟩
      intro n
      show _ = cW0 w n + cML w.incoming n + cML l n + _
      simp only [cHs_append, cHs]; omega
  | drop i =>
    cases hm : held[i]? with
    | none => exact ⟨w, held, h, by simp [mop, hm], SameWs.refl w, o.congr e⟩
    | some m =>
      cases m with
      | none => exact ⟨w, held, h, by simp [mop, hm], SameWs.refl w, o.congr e⟩
      | some m =>
        obtain ⟨h1, e1, o1⟩ := own_clearMsg (m := m) (d := fun n => cWs w n + (cHs (held.set i none) n + d n)) o
          (by intro n; rw [e n, cHs_set hm]; omega)
        exact ⟨w, held.set i none, h1, by simp [mop, hm, e1], SameWs.refl w, o1⟩
  | keep i j => exact ⟨{ w with keepIn := i, keepOut := j }, held, h, rfl, ⟨rfl, rfl, rfl, rfl, rfl, rfl⟩, o.congr e⟩
  | clear b => exact absurd rfl (hx b)

theorem own_mops {c d : Nat → Nat} (l : List MOp) {h : Heap} {w : Ws} {held : List (Option Msg)} (hl : MOpsOk l) (o : Own h c)
    (e : ∀ n, c n = cWs w n + (cHs held n + d n)) :
    ∃ w' held' h', mops h w held l = .ok (w', held', h') ∧ SameWs w w' ∧ Own h' (fun n => cWs w' n + (cHs held' n + d n)) := by
  induction l generalizing h w held c with
  | nil => exact ⟨w, held, h, rfl, SameWs.refl w, o.congr e⟩
  | cons x t ih =>
    obtain ⟨w1, g1, h1, e1, s1, o1⟩ := own_mop x (fun b hb => hl b (by simp [hb])) o e
    obtain ⟨w2, g2, h2, e2, s2, o2⟩ := ih (fun b hb => hl b (by simp [hb])) o1 (fun _ => rfl)
    exact ⟨w2, g2, h2, by simp [mops, e1, e2], s1.trans s2, o2⟩

theorem own_performIn {c d : Nat → Nat} (l : List (Option Nat)) {h : Heap} {p : P} {k : Nat} (o : Own h c) (e : ∀ n, c n = cD k p n + d n) :
    ∃ q k' b h', performIn h p k l = .ok (q, k', b, h') ∧ Own h' (fun n => cD k' q n + d n) := by
  induction l generalizing h p k c with
  | nil => exact ⟨p, k, true, h, rfl, o.congr e⟩
  | cons x t ih =>
    cases x with
    | none => exact ⟨p, k, false, h, rfl, o.congr e⟩
    | some k' =>
      obtain ⟨b, h1, e1, o1, q1⟩ := own_buffer k' o
      obtain ⟨h2, e2, o2⟩ := own_freeD (k := k) (p := p) (d := fun n => cD k' b n + d n) o1 (by intro n; rw [e n]; omega)
      obtain ⟨q, h3, e3, o3, q3⟩ := own_buffer k' o2
      obtain ⟨h4, e4, o4⟩ := own_freeD (k := k') (p := b) (d := fun n => cD k' q n + d n) o3 (by intro n; omega)
      obtain ⟨q5, k5, b5, h5, e5, o5⟩ := ih (k := k') o4 (fun _ => rfl)
      exact ⟨q5, k5, b5, h5, by simp [performIn, e1, e2, e3, e4, e5], o5⟩

theorem own_performMsg {h : Heap} {c d : Nat → Nat} {m : Msg} (w : Ws) (outs : List (Option Nat)) (o : Own h c) (e : ∀ n, c n = cG m n + d n) :
    ∃ ok m' h', performMsg h w m outs = .ok (ok, m', h') ∧ Own h' (fun n => cG m' n + d n) := by
  unfold performMsg
  split
  · exact ⟨true, m, h, rfl, o.congr e⟩
  · obtain ⟨b, h1, e1, o1, -⟩ := own_buffer m.len o
    obtain ⟨p, k2, ok, h2, e2, o2⟩ := own_performIn outs o1 (fun _ => rfl)
    obtain ⟨h3, e3, o3⟩ := own_freeD (k := m.len) (p := m.data) (d := fun n => cD k2 p n + (cA m.box n + d n)) o2
      (by intro n; rw [e n]; simp only [cG]; omega)
    exact ⟨ok, ⟨m.box, p, k2⟩, h3, by simp [e1, e2, e3], o3.congr (by intro n; simp only [cG]; omega)⟩

theorem own_mergeMsg {h : Heap} {c d : Nat → Nat} {m x : Msg} (o : Own h c) (e : ∀ n, c n = cG m n + (cG x n + d n)) :
    ∃ m' h', mergeMsg h m x = .ok (m', h') ∧ Own h' (fun n => cG m' n + (cG x n + d n)) := by
  unfold mergeMsg
  split
  · exact ⟨m, h, rfl, o.congr e⟩
  · rename_i hx
    have hd := D_eq (k := m.len) (p := m.data) (d := fun n => cA m.box n + (cG x n + d n)) o (by intro n; rw [e n]; simp only [cG]; omega)
    obtain ⟨q, h1, e1, o1, -⟩ := own_reallocP (p := m.data) (d := fun n => cA m.box n + (cG x n + d n)) o
      (by intro n; rw [e n, hd]; simp only [cG]; omega)
    have n1 : need h1 x.data = .ok () := own_need (d := fun n => cA q n + (cA m.box n + (cA x.box n + d n))) o1
      (by intro n; simp only [cG, cD, if_neg hx]; omega)
    refine ⟨⟨m.box, q, m.len + x.len⟩, h1, by simp [e1, n1], o1.congr ?_⟩
    intro n
    have : cG ⟨m.box, q, m.len + x.len⟩ n = cA m.box n + cA q n := by
      simp only [cG, cD]; rw [if_neg (by omega)]
    omega

theorem own_deliver {h : Heap} {c d : Nat → Nat} {w : Ws} {held : List (Option Msg)} {m : Msg} (outs : List (Option Nat)) (fine : Bool)
    {calls : List MOp} (hl : MOpsOk calls) (o : Own h c) (e : ∀ n, c n = cWs w n + (cG m n + (cHs held n + d n))) :
    ∃ w' m' held' h', deliver h w held m outs fine calls = .ok (w', m', held', h') ∧ SameWs w w' ∧
      Own h' (fun n => cWs w' n + (cGo m' n + (cHs held' n + d n))) := by
  obtain ⟨ok, m1, h1, e1, o1⟩ := own_performMsg (m := m) (d := fun n => cWs w n + (cHs held n + d n)) w outs o (by intro n; rw [e n]; omega)
  unfold deliver
  simp only [e1, Res.ok_bind]
  split
  · obtain ⟨w2, g2, h2, e2, s2, o2⟩ := own_mops (w := w) (held := held) (d := fun n => cG m1 n + d n) calls hl o1 (by intro n; omega)
    simp only [e2, Res.ok_bind]
    by_cases hk : w2.keepIn = true
    · obtain ⟨l, h3, e3, o3⟩ := own_pushIn (w := w2) (m := m1) (d := fun n => cHs g2 n + d n) o2 (by intro n; omega)
      exact ⟨{ w2 with incoming := l }, none, g2, h3, by rw [if_pos hk, e3]; rfl, s2.trans ⟨rfl, rfl, rfl, rfl, rfl, rfl⟩, o3.congr (by intro n; simp only [cGo]; omega)⟩
    · obtain ⟨h3, e3, o3⟩ := own_clearMsg (m := m1) (d := fun n => cWs w2 n + (cHs g2 n + d n)) o2 (by intro n; omega)
      exact ⟨w2, none, g2, h3, by rw [if_neg hk, e3]; rfl, s2, o3.congr (by intro n; simp only [cGo]; omega)⟩
  · exact ⟨w, some m1, held, h1, rfl, SameWs.refl w, o1.congr (by intro n; simp only [cGo]; omega)⟩

/-- The blocks of an open websocket. -/
def cLv (v : Live) (n : Nat) : Nat := cWs v.ws n + cGo v.prev n

/-- Messages whose callback does what the code gets right. -/
def FrameOk : Frame → Prop
  | .final _ _ _ calls => MOpsOk calls
  | _ => True

theorem own_handle {h : Heap} {c d : Nat → Nat} {v : Live} {held : List (Option Msg)} {m : Msg} {s : Frame} (hs : FrameOk s) (o : Own h c)
    (e : ∀ n, c n = cLv v n + (cG m n + (cHs held n + d n))) :
    ∃ v' m' held' h', handle h v held m s = .ok (v', m', held', h') ∧ SameWs v.ws v'.ws ∧
      Own h' (fun n => cLv v' n + (cGo m' n + (cHs held' n + d n))) := by
  have stay : ∃ v' m' held' h', Res.ok (v, some m, held, h) = .ok (v', m', held', h') ∧ SameWs v.ws v'.ws ∧
      Own h' (fun n => cLv v' n + (cGo m' n + (cHs held' n + d n))) :=
    ⟨v, some m, held, h, rfl, SameWs.refl _, o.congr e⟩
  cases s with
  | close b =>
    cases b with
    | true =>
      obtain ⟨w, h1, e1, s1, o1⟩ := own_sendManaged (w := v.ws) (d := fun n => cGo v.prev n + (cG m n + (cHs held n + d n))) 0 1 o
        (by intro n; rw [e n]; simp only [cLv]; omega)
      exact ⟨{ v with ws := w }, some m, held, h1, by simp [handle, e1], s1, o1.congr (by intro n; simp only [cLv, cGo]; omega)⟩
    | false => exact stay
  | ping b =>
    cases b with
    | true =>
      obtain ⟨w, h1, e1, s1, o1⟩ := own_sendMsg (w := v.ws) (d := fun n => cGo v.prev n + (cG m n + (cHs held n + d n))) (.data m.len [] 1) o
        (by intro n; rw [e n]; simp only [cLv]; omega)
      exact ⟨{ v with ws := w }, some m, held, h1, by simp [handle, e1], s1, o1.congr (by intro n; simp only [cLv, cGo]; omega)⟩
    | false => exact stay
  | other => exact stay
  | final first outs fine calls =>
    obtain ⟨w, pr⟩ := v
    cases pr with
    | none =>
      cases first with
      | false => exact stay
      | true =>
        obtain ⟨w1, m1, g1, h1, e1, s1, o1⟩ := own_deliver (w := w) (m := m) (held := held) (d := d) outs fine hs o
          (by intro n; rw [e n]; simp only [cLv, cGo]; omega)
        exact ⟨⟨w1, none⟩, m1, g1, h1, by simp [handle, e1], s1, o1.congr (by intro n; simp only [cLv, cGo]; omega)⟩
    | some p =>
      cases first with
      | true => exact stay
      | false =>
        obtain ⟨p1, h1, e1, o1⟩ := own_mergeMsg (m := p) (x := m) (d := fun n => cWs w n + (cHs held n + d n)) o
          (by intro n; rw [e n]; simp only [cLv, cGo]; omega)
        obtain ⟨h2, e2, o2⟩ := own_clearMsg (m := m) (d := fun n => cWs w n + (cG p1 n + (cHs held n + d n))) o1 (by intro n; omega)
        obtain ⟨w3, m3, g3, h3, e3, s3, o3⟩ := own_deliver (w := w) (m := p1) (held := held) (d := d) outs fine hs o2 (fun _ => rfl)
        exact ⟨⟨w3, none⟩, m3, g3, h3, by simp [handle, e1, e2, e3], s3, o3.congr (by intro n; simp only [cLv, cGo]; omega)⟩
  | part first =>
    obtain ⟨w, pr⟩ := v
    cases pr with
    | none =>
      cases first with
      | false => exact stay
      | true => exact ⟨⟨w, some m⟩, none, held, h, rfl, SameWs.refl _, o.congr (by intro n; rw [e n]; simp only [cLv, cGo]; omega)⟩
    | some p =>
      cases first with
      | true => exact stay
      | false =>
        obtain ⟨p1, h1, e1, o1⟩ := own_mergeMsg (m := p) (x := m) (d := fun n => cWs w n + (cHs held n + d n)) o
          (by intro n; rw [e n]; simp only [cLv, cGo]; omega)
        exact ⟨⟨w, some p1⟩, some m, held, h1, by simp [handle, e1], SameWs.refl _, o1.congr (by intro n; simp only [cLv, cGo]; omega)⟩

/-- Events the code gets right. -/
def EvOk : Ev → Prop
  | .arrives _ s => FrameOk s
  | .calls x => ∀ b, x ≠ .clear b

theorem own_event {h : Heap} {c d : Nat → Nat} {v : Live} {held : List (Option Msg)} {x : Ev} (hx : EvOk x) (o : Own h c)
    (e : ∀ n, c n = cLv v n + (cHs held n + d n)) :
    ∃ v' held' h', event h v held x = .ok (v', held', h') ∧ SameWs v.ws v'.ws ∧ Own h' (fun n => cLv v' n + (cHs held' n + d n)) := by
  cases x with
  | arrives x s =>
    obtain ⟨m, h1, e1, o1⟩ := own_readMsg x o
    cases m with
    | none => exact ⟨v, held, h1, by simp [event, receiveMsg, e1], SameWs.refl _, o1.congr (by intro n; rw [e n]; simp [cGo])⟩
    | some m =>
      obtain ⟨v2, m2, g2, h2, e2, s2, o2⟩ := own_handle (v := v) (m := m) (held := held) (d := d) hx o1 (by intro n; rw [e n]; simp only [cGo]; omega)
      obtain ⟨h3, e3, o3⟩ := own_clearMsgO (m := m2) (d := fun n => cLv v2 n + (cHs g2 n + d n)) o2 (by intro n; omega)
      exact ⟨v2, g2, h3, by simp [event, receiveMsg, e1, e2, e3], s2, o3⟩
  | calls x =>
    obtain ⟨w, g, h1, e1, s1, o1⟩ := own_mop (w := v.ws) (held := held) (d := fun n => cGo v.prev n + d n) x hx o (by intro n; rw [e n]; simp only [cLv]; omega)
    exact ⟨{ v with ws := w }, g, h1, by simp [event, e1], s1, o1.congr (by intro n; simp only [cLv]; omega)⟩

theorem own_finish {h : Heap} {c d : Nat → Nat} {t : Table} {v : Live} {held : List (Option Msg)} {calls : List MOp} (hc : MOpsOk calls)
    (ok : WOk v.ws) (T : TOk t) (o : Own h c) (e : ∀ n, c n = cLv v n + (cHs held n + (cP t.array n + d n))) :
    ∃ t' held' h', finish h t v held calls = .ok (t', held', h') ∧ TOk t' ∧ t'.members = t.members.erase v.ws.box ∧
      Own h' (fun n => cHs held' n + (cP t'.array n + d n)) := by
  obtain ⟨h1, e1, o1⟩ := own_clearMsgO (m := v.prev) (d := fun n => cWs v.ws n + (cHs held n + (cP t.array n + d n))) o
    (by intro n; rw [e n]; simp only [cLv]; omega)
  obtain ⟨w, g, h2, e2, s2, o2⟩ := own_mops calls hc o1 (fun _ => rfl)
  obtain ⟨t3, h3, e3, o3, T3, m3, -⟩ := own_clearWs (w := w) (t := t) (d := fun n => cHs g n + d n) true (s2.ok ok) T o2 (by intro n; omega)
  refine ⟨t3, g, h3, by simp [finish, e1, e2, e3], T3, ?_, o3.congr (by intro n; omega)⟩
  rw [m3, if_pos rfl, s2.box]

/-! ## Responses -/

/-- A response in the dispatcher. -/
structure RFine (r : Resp) : Prop where
  inv : RInv r
  header : r.header ≠ none

/-- A response that can be sent and cleaned. -/
structure Sendable (r : Resp) : Prop where
  header : r.header ≠ none
  arr' : r.cookies ≠ [] → r.array ≠ .null
  good : ∀ c ∈ r.cookies, GoodCk c

theorem RFine.send {r : Resp} (I : RFine r) : Sendable r := ⟨I.header, I.inv.arr', I.inv.good⟩

theorem own_renderCookies {c : Nat → Nat} (cs : List Ck) (d : Nat → Nat) {h : Heap} (g : ∀ x ∈ cs, GoodCk x) (o : Own h c)
    (e : ∀ n, c n = cCs cs n + d n) : ∃ h', renderCookies h cs = .ok h' ∧ Own h' c := by
  induction cs generalizing h d with
  | nil => exact ⟨h, rfl, o⟩
  | cons x t ih =>
    have gx := g x (by simp)
    have hk : need h x.key = .ok () := own_needP (p := x.key) (d := fun n => cP x.value n + cP x.expires n + cP x.domain n + cP x.path n + cCs t n + d n) o
      gx.1 (by intro n; rw [e n]; simp only [cCs, cC]; omega)
    have hv : need h x.value = .ok () := own_needP (p := x.value) (d := fun n => cP x.key n + cP x.expires n + cP x.domain n + cP x.path n + cCs t n + d n) o
      gx.2 (by intro n; rw [e n]; simp only [cCs, cC]; omega)
    obtain ⟨p, h1, e1, o1, -⟩ := own_malloc o
    obtain ⟨h2, e2, o2⟩ := own_freeA (p := p) (d := c) o1 (fun _ => rfl)
    obtain ⟨h3, e3, o3⟩ := ih (fun n => cC x n + d n) (fun y hy => g y (by simp [hy])) o2 (by intro n; rw [e n]; simp only [cCs]; omega)
    exact ⟨h3, by simp [renderCookies, hk, hv, e1, e2, e3], o3⟩

theorem own_setFields {h : Heap} {c d : Nat → Nat} {r : Resp} (acc : Bool) (I : Sendable r) (o : Own h c) (e : ∀ n, c n = cRs r n + d n) :
    ∃ h', setFields h r acc = .ok (acc, h') ∧ Own h' c := by
  cases hx : r.header with
  | none => exact absurd hx I.header
  | some m =>
    obtain ⟨n1, n2⟩ := own_box (m := m) (d := fun n => cP r.box n + cP r.protocol n + cP r.realm n + cP r.body n + cP r.array n + cCs r.cookies n +
      cWo r.ws n + d n) o (by intro n; rw [e n]; simp only [cRs, hx, cO]; omega)
    have n3 := needIf (cs := r.cookies) (p := r.array) (d := fun n => cP r.box n + cP r.protocol n + cP r.realm n + cP r.body n + cO r.header n +
      cCs r.cookies n + cWo r.ws n + d n) o I.arr' (by intro n; rw [e n]; simp only [cRs]; omega)
    obtain ⟨h1, e1, o1⟩ := own_renderCookies r.cookies (fun n => cP r.box n + cP r.protocol n + cP r.realm n + cP r.body n + cO r.header n +
      cP r.array n + cWo r.ws n + d n) I.good o (by intro n; rw [e n]; simp only [cRs]; omega)
    exact ⟨h1, by simp only [setFields, hx, n1, n2, n3, e1, Res.ok_bind, Res.pure_eq], o1⟩

/-! ## The handshake -/

/-- Handshakes the code gets right: extensions that accept an offer use different bits; if a context is made there is a function to free it, and
the handshake does not fail afterwards. -/
structure KOk (k : Handshake) : Prop where
  apart : ∀ x y c x' y' c', k.answers x y = .accept c → k.answers x' y' = .accept c' → y ≠ y' → (k.kind y).rsv ≠ (k.kind y').rsv
  freed : ∀ x y, (k.kind y).matching = true → k.answers x y = .accept true → (k.kind y).frees = true
  done : ∀ x y, (k.kind y).matching = true → k.answers x y = .accept true → k.protocol.isSome = true ∧ k.hashed = true

/-- Extension number `y` during the handshake, when the bits `rsv` are in use. -/
def EOk (k : Handshake) (rsv : List (Fin 3)) (y : Nat) (e : WExt) : Prop :=
  e.frees = (k.kind y).frees ∧ ((e.enabled = true ∧ XOk e) ∨
    (e.enabled = false ∧ e.ext.client = .null ∧ e.context = .null ∧ ∀ x c, k.answers x y = .accept c → (k.kind y).rsv ∉ rsv))

/-- The extensions from number `y` on. -/
def HX (k : Handshake) (rsv : List (Fin 3)) : Nat → List WExt → Prop
  | _, [] => True
  | y, e :: t => EOk k rsv y e ∧ HX k rsv (y + 1) t

/-- No extension makes a context. -/
def NoCtx (k : Handshake) : Prop := ∀ x y, (k.kind y).matching = true → k.answers x y ≠ .accept true

/-- The bits in use after an offer to the extensions from number `y` on. -/
def Bits (k : Handshake) (rsv rsv' : List (Fin 3)) (y : Nat) : Prop :=
  rsv' = rsv ∨ ∃ j x c, y ≤ j ∧ k.answers x j = .accept c ∧ rsv' = (k.kind j).rsv :: rsv

theorem EOk.more {k : Handshake} (K : KOk k) {rsv rsv' : List (Fin 3)} {y z : Nat} {e : WExt} (h : EOk k rsv y e) (hb : Bits k rsv rsv' z) (hz : y < z) :
    EOk k rsv' y e := by
  refine ⟨h.1, ?_⟩
  rcases h.2 with h0 | ⟨h1, h2, h3, h4⟩
  · exact .inl h0
  · refine .inr ⟨h1, h2, h3, ?_⟩
    intro x c hx
    rcases hb with h0 | ⟨j, x', c', hj, ha, h0⟩
    · rw [h0]; exact h4 x c hx
    · rw [h0]
      intro hm
      rcases List.mem_cons.1 hm with h5 | h5
      · exact K.apart x y c x' j c' hx ha (by omega) h5
      · exact h4 x c hx h5

theorem HX.used {k : Handshake} (K : KOk k) {rsv : List (Fin 3)} {x j : Nat} {c : Bool} (ha : k.answers x j = .accept c) {y : Nat} {es : List WExt} (hy : j < y)
    (h : HX k rsv y es) : HX k ((k.kind j).rsv :: rsv) y es := by
  induction es generalizing y with
  | nil => trivial
  | cons e t ih =>
    refine ⟨⟨h.1.1, ?_⟩, ih (by omega) h.2⟩
    rcases h.1.2 with h0 | ⟨h1, h2, h3, h4⟩
    · exact .inl h0
    · refine .inr ⟨h1, h2, h3, ?_⟩
      intro x' c' hx hm
      rcases List.mem_cons.1 hm with h5 | h5
      · exact K.apart x' y c' x j c hx ha (by omega) h5
      · exact h4 x' c' hx h5

theorem own_offerOne {k : Handshake} (K : KOk k) (x : Nat) {c d : Nat → Nat} (es : List WExt) (y : Nat) {rsv : List (Fin 3)} {text : P} {h : Heap}
    (H : HX k rsv y es) (o : Own h c) (e : ∀ n, c n = cP text n + (cWX es n + d n)) :
    ∃ rsv' text' es' h', offerOne k x h rsv text y es = .ok (rsv', text', es', h') ∧ HX k rsv' y es' ∧ Bits k rsv rsv' y ∧
      (NoCtx k → (∀ e ∈ es, e.context = .null) → ∀ e ∈ es', e.context = .null) ∧ Own h' (fun n => cP text' n + (cWX es' n + d n)) := by
  induction es generalizing y rsv text h c d with
  | nil => exact ⟨rsv, text, [], h, rfl, trivial, .inl rfl, fun _ h => h, o.congr e⟩
  | cons a t ih =>
    have hd := H.1
    -- the extension stays as it is
    have skip : ∃ rsv' text' t' h', offerOne k x h rsv text (y + 1) t = .ok (rsv', text', t', h') ∧ HX k rsv' y (a :: t') ∧ Bits k rsv rsv' y ∧
        (NoCtx k → (∀ e ∈ a :: t, e.context = .null) → ∀ e ∈ a :: t', e.context = .null) ∧ Own h' (fun n => cP text' n + (cWX (a :: t') n + d n)) := by
      obtain ⟨rsv', text', t', h', e1, H1, B1, C1, o1⟩ := ih (y + 1) (rsv := rsv) (text := text) (d := fun n => cP a.ext.box n + cP a.ext.server n + cP a.ext.client n + cP a.context n + d n)
        H.2 o (by intro n; rw [e n]; simp only [cWX]; omega)
      refine ⟨rsv', text', t', h', e1, ⟨hd.more K B1 (by omega), H1⟩, ?_, ?_, o1.congr (by intro n; simp only [cWX]; omega)⟩
      · rcases B1 with h0 | ⟨j, x', c', hj, ha, h0⟩
        · exact .inl h0
        · exact .inr ⟨j, x', c', by omega, ha, h0⟩
      · intro hN hc z hz
        rcases List.mem_cons.1 hz with h0 | h0
        · rw [h0]; exact hc a (by simp)
        · exact C1 hN (fun w hw => hc w (by simp [hw])) z h0
    obtain ⟨rsvS, textS, tS, hS, eS, HS, BS, CS, oS⟩ := skip
    unfold offerOne
    by_cases hen : a.enabled = true
    · rw [if_pos hen, eS]
      exact ⟨rsvS, textS, a :: tS, hS, rfl, HS, BS, CS, oS⟩
    · rw [if_neg hen]
      obtain ⟨hcl, hct, hrs⟩ : a.ext.client = .null ∧ a.context = .null ∧ ∀ x c, k.answers x y = .accept c → (k.kind y).rsv ∉ rsv := by
        rcases hd.2 with h0 | h0
        · exact absurd h0.1 hen
        · exact h0.2
      cases ha : k.answers x y with
      | refuse =>
        simp only [eS, Res.ok_bind]
        exact ⟨rsvS, textS, a :: tS, hS, rfl, HS, BS, CS, oS⟩
      | reset =>
        have hs : (if (k.kind y).matching then { a with context := .null } else a) = a := by
          split
          · obtain ⟨_, _, _, _⟩ := a; simp only at hct; rw [hct]
          · rfl
        simp only [eS, Res.ok_bind, hs]
        exact ⟨rsvS, textS, a :: tS, hS, rfl, HS, BS, CS, oS⟩
      | accept b =>
        have hns := hrs x b ha
        have bits : Bits k rsv ((k.kind y).rsv :: rsv) y := .inr ⟨y, x, b, Nat.le_refl y, ha, rfl⟩
        have HT : HX k ((k.kind y).rsv :: rsv) (y + 1) t := HX.used K ha (by omega) H.2
        obtain ⟨p, h1, e1, o1, q1⟩ := own_malloc o
        by_cases hm : (k.kind y).matching = true
        · simp only [hm, if_true, if_neg hns]
          have ctx : ∃ q h2, (if b then malloc h1 else (a.context, h1)) = (q, h2) ∧ (b = false → q = .null) ∧
              Own h2 (fun n => cP q n + (cP p n + (cP text n + (cP a.ext.box n + cP a.ext.server n + cWX t n + d n)))) := by
            cases b with
            | true =>
              obtain ⟨q, h2, e2, o2, q2⟩ := own_malloc o1
              exact ⟨q, h2, e2, by simp, o2.congr (by intro n; rw [e n, q2, q1]; simp only [cWX, hcl, hct, cP_null]; omega)⟩
            | false =>
              exact ⟨a.context, h1, rfl, fun _ => hct, o1.congr (by intro n; rw [e n, q1]; simp only [cWX, hcl, hct, cP_null]; omega)⟩
          obtain ⟨q, h2, e2, z2, o2⟩ := ctx
          obtain ⟨t3, h3, e3, o3, q3⟩ := own_reallocP (p := text) (d := fun n => cP q n + (cP p n + (cP a.ext.box n + cP a.ext.server n + cWX t n + d n))) o2
            (by intro n; omega)
          refine ⟨(k.kind y).rsv :: rsv, t3, { a with ext := { a.ext with client := p }, context := q, enabled := true } :: t, h3, ?_, ⟨⟨hd.1, .inl ⟨rfl, ?_⟩⟩, HT⟩, bits, ?_,
            o3.congr (by intro n; simp only [cWX, q3]; omega)⟩
          · simp only [e1]
            rw [e2]
            simp only [addText, e3, Res.ok_bind, Res.pure_eq]
          · cases b with
            | true => exact .inl ⟨rfl, by show a.frees = true; rw [hd.1]; exact K.freed x y hm ha⟩
            | false => exact .inr (z2 rfl)
          · intro hN hc z hz
            rcases List.mem_cons.1 hz with h0 | h0
            · rw [h0]
              cases b with
              | true => exact absurd ha (hN x y hm)
              | false => exact z2 rfl
            · exact hc z (by simp [h0])
        · simp only [if_neg hm, if_neg hns]
          obtain ⟨t3, h3, e3, o3, q3⟩ := own_reallocP (p := text) (d := fun n => cP p n + (cP a.ext.box n + cP a.ext.server n + cP a.context n + cWX t n + d n)) o1
            (by intro n; rw [e n, q1]; simp only [cWX, hcl, cP_null]; omega)
          refine ⟨(k.kind y).rsv :: rsv, t3, { a with ext := { a.ext with client := p }, enabled := true } :: t, h3, ?_, ⟨⟨hd.1, .inl ⟨rfl, .inr hct⟩⟩, HT⟩, bits, ?_,
            o3.congr (by intro n; simp only [cWX, q3]; omega)⟩
          · simp only [e1, addText, e3, Res.ok_bind, Res.pure_eq]
          · intro hN hc z hz
            rcases List.mem_cons.1 hz with h0 | h0
            · rw [h0]; exact hct
            · exact hc z (by simp [h0])

theorem own_offerAll {k : Handshake} (K : KOk k) {c d : Nat → Nat} (m x : Nat) {es : List WExt} {rsv : List (Fin 3)} {text : P} {h : Heap}
    (H : HX k rsv 0 es) (o : Own h c) (e : ∀ n, c n = cP text n + (cWX es n + d n)) :
    ∃ text' es' rsv' h', offerAll k h rsv text es x m = .ok (text', es', h') ∧ HX k rsv' 0 es' ∧
      (NoCtx k → (∀ e ∈ es, e.context = .null) → ∀ e ∈ es', e.context = .null) ∧ Own h' (fun n => cP text' n + (cWX es' n + d n)) := by
  induction m generalizing x es rsv text h c with
  | zero => exact ⟨text, es, rsv, h, rfl, H, fun _ h => h, o.congr e⟩
  | succ m ih =>
    obtain ⟨rsv1, text1, es1, h1, e1, H1, -, C1, o1⟩ := own_offerOne K x es 0 H o e
    obtain ⟨text2, es2, rsv2, h2, e2, H2, C2, o2⟩ := ih (x + 1) H1 o1 (fun _ => rfl)
    exact ⟨text2, es2, rsv2, h2, by simp [offerAll, e1, e2], H2, fun hN hc => C2 hN (C1 hN hc), o2⟩

theorem HX.ok {k : Handshake} {rsv : List (Fin 3)} {y : Nat} {es : List WExt} (H : HX k rsv y es) : ∀ e ∈ es, XOk e := by
  induction es generalizing y with
  | nil => intro e he; cases he
  | cons a t ih =>
    intro e he
    rcases List.mem_cons.1 he with h0 | h0
    · rw [h0]
      rcases H.1.2 with h1 | h1
      · exact h1.2
      · exact .inr h1.2.2.1
    · exact ih H.2 e h0

theorem dress_HX (k : Handshake) (y : Nat) {es : List Ext} (h : ∀ e ∈ es, e.client = .null) : HX k [] y (dress k y es) := by
  induction es generalizing y with
  | nil => trivial
  | cons a t ih =>
    exact ⟨⟨rfl, .inr ⟨rfl, h a (by simp), rfl, fun _ _ _ => by simp⟩⟩, ih (y + 1) (fun e he => h e (by simp [he]))⟩

theorem dress_ctx (k : Handshake) (y : Nat) (es : List Ext) : ∀ e ∈ dress k y es, e.context = .null := by
  induction es generalizing y with
  | nil => intro e he; cases he
  | cons a t ih =>
    intro e he
    rcases List.mem_cons.1 he with h0 | h0
    · rw [h0]
    · exact ih (y + 1) e h0

theorem cWX_dress (k : Handshake) (y : Nat) (es : List Ext) (n : Nat) : cWX (dress k y es) n = cXs es n := by
  induction es generalizing y with
  | nil => rfl
  | cons a t ih => simp only [dress, cWX, cXs, ih, cP_null]; omega

theorem cWX_exts {es : List WExt} (h : ∀ e ∈ es, e.context = .null) (n : Nat) : cWX es n = cXs (es.map (fun e => e.ext)) n := by
  induction es with
  | nil => rfl
  | cons a t ih =>
    simp only [List.map_cons, cWX, cXs, ih (fun e he => h e (by simp [he])), h a (by simp), cP_null]; omega

theorem own_extensions {k : Handshake} (K : KOk k) {c d : Nat → Nat} {es : List Ext} {h : Heap} (hc : ∀ e ∈ es, e.client = .null) (o : Own h c)
    (e : ∀ n, c n = cXs es n + d n) :
    ∃ ok text es' h', extensions k h es = .ok (ok, text, es', h') ∧ (∀ e ∈ es', XOk e) ∧
      (NoCtx k → ∀ e ∈ es', e.context = .null) ∧ (ok = false → ∀ e ∈ es', e.context = .null) ∧ Own h' (fun n => cP text n + (cWX es' n + d n)) := by
  have H0 := dress_HX k 0 hc
  have other : ∃ ok text es' h', (match k.listed with
      | none => Res.ok (false, P.null, dress k 0 es, h)
      | some b => .ok (true, (buffer h b.toNat).1, dress k 0 es, (buffer h b.toNat).2)) = .ok (ok, text, es', h') ∧ (∀ e ∈ es', XOk e) ∧
      (NoCtx k → ∀ e ∈ es', e.context = .null) ∧ (ok = false → ∀ e ∈ es', e.context = .null) ∧ Own h' (fun n => cP text n + (cWX es' n + d n)) := by
    cases hl : k.listed with
    | none =>
      exact ⟨false, .null, dress k 0 es, h, rfl, H0.ok, fun _ => dress_ctx k 0 es, fun _ => dress_ctx k 0 es,
        o.congr (by intro n; rw [e n, cWX_dress, cP_null]; omega)⟩
    | some b =>
      obtain ⟨p, h1, e1, o1, q1⟩ := own_buffer b.toNat o
      exact ⟨true, p, dress k 0 es, h1, by simp [e1], H0.ok, fun _ => dress_ctx k 0 es, fun _ => dress_ctx k 0 es,
        o1.congr (by intro n; rw [e n, cWX_dress, q1])⟩
  unfold extensions
  cases ho : k.offers with
  | none => exact other
  | some m =>
    cases es with
    | nil => exact other
    | cons a t =>
      obtain ⟨text, es', rsv, h1, e1, H1, C1, o1⟩ := own_offerAll K m 0 (text := .null) (d := d) H0 o (by intro n; rw [e n, cWX_dress, cP_null]; omega)
      exact ⟨true, text, es', h1, by simp [e1], H1.ok, fun hN => C1 hN (dress_ctx k 0 _), fun h0 => by (cases h0), o1⟩

/-- The blocks of a response except the handle. -/
def cRw (r : Resp) (n : Nat) : Nat := cP r.box n + cP r.protocol n + cP r.realm n + cP r.body n + cO r.header n + cP r.array n + cCs r.cookies n

/-- The blocks of a handle except the extensions. -/
def cWh (g : WsH) (n : Nat) : Nat := cA g.box n + cP g.protocol n + cP g.extensions n

/-- The blocks of a websocket that was opened. -/
def cSo : Option Ws → Nat → Nat
  | none, _ => 0
  | some w, n => cWs w n

/-- What a request for a websocket leaves. -/
structure UpOk (t : Table) (up : Up) : Prop where
  table : TOk up.table
  none : up.socket = none → up = ⟨t, none, .null⟩
  some : ∀ w, up.socket = some w → up.cls = w.box ∧ WOk w ∧ up.table.members = t.members ++ [w.box]

theorem UpOk.same {t : Table} (T : TOk t) : UpOk t ⟨t, .none, .null⟩ := ⟨T, fun _ => rfl, fun w h => by cases h⟩

theorem own_upgrade {h : Heap} {c d : Nat → Nat} {t : Table} {w : Ws} {q : Req} {r : Resp} {g : WsH} {es : List WExt} (S : Sendable r)
    (we : w.exts = []) (wr : w.request = none) (wl : w.list = .null) (wa : w.array = .null) (X : ∀ e ∈ es, XOk e) (o : Own h c)
    (e : ∀ n, c n = cWs w n + (cWX es n + (cR q n + (cRw r n + (cWh g n + cP g.list n + cP g.array n + (cP t.array n + d n)))))) :
    ∃ a up r' h', upgrade h t w q r g es true true = .ok (some a, up, r', h') ∧ Sendable r' ∧ UpOk t up ∧
      Own h' (fun n => cL a n + (cRs r' n + (cP up.table.array n + (cSo up.socket n + d n)))) := by
  obtain ⟨a, h1, e1, o1, q1⟩ := own_malloc o
  have S' : Sendable { r with ws := some { g with list := .null, array := .null, exts := [] } } := ⟨S.header, S.arr', S.good⟩
  have ew : ∀ n, cWs { w with request := some q, list := g.list, array := g.array, exts := es } n = cWs w n + (cR q n + (cP g.list n + (cP g.array n + cWX es n))) := by
    intro n
    simp only [cWs, cW0, we, wr, wl, wa, cQo, cWX, cP_null]
    omega
  have er : ∀ n, cRs { r with ws := some { g with list := .null, array := .null, exts := [] } } n = cRw r n + cWh g n := by
    intro n
    simp only [cRs, cRw, cWo, cW, cWh, cXs, cP_null]
    omega
  obtain ⟨h2, e2, o2⟩ := own_setFields (d := fun n => cA a n + (cWs { w with request := some q, list := g.list, array := g.array, exts := es } n + (cP t.array n + d n))) true S' o1
    (by intro n; rw [e n, er, ew]; omega)
  obtain ⟨t3, h3, e3, o3, T3, m3⟩ := own_addActive (t := t) (d := fun n => cA a n + (cWs { w with request := some q, list := g.list, array := g.array, exts := es } n +
    (cRs { r with ws := some { g with list := .null, array := .null, exts := [] } } n + d n))) w.box o2 (by intro n; rw [e n, er, ew]; omega)
  refine ⟨[a], ⟨t3, some { w with request := some q, list := g.list, array := g.array, exts := es }, w.box⟩, _, h3, ?_, S', ⟨T3, fun h0 => by (cases h0), ?_⟩,
    o3.congr ?_⟩
  · simp only [upgrade, if_true, e1, e2, Res.ok_bind, e3, Res.pure_eq]
  · rintro _ ⟨⟩
    exact ⟨rfl, X, m3⟩
  · intro n
    simp only [cL, cSo, q1]
    omega

theorem own_refuse {h : Heap} {c d : Nat → Nat} {t : Table} {w : Ws} {r : Resp} {g : WsH} {es : List WExt} (S : Sendable r)
    (we : w.exts = []) (T : TOk t) (X : ∀ e ∈ es, e.context = .null) (o : Own h c)
    (e : ∀ n, c n = cWs w n + (cWX es n + (cRw r n + (cWh g n + cP g.list n + cP g.array n + (cP t.array n + d n))))) :
    ∃ a up r' h', refuse h t w r g es true = .ok (some a, up, r', h') ∧ Sendable r' ∧ UpOk t up ∧
      Own h' (fun n => cL a n + (cRs r' n + (cP up.table.array n + (cSo up.socket n + d n)))) := by
  obtain ⟨b, h1, e1, o1, q1⟩ := own_malloc o
  obtain ⟨a, h2, e2, o2, q2⟩ := own_malloc o1
  have ok : WOk w := by intro x hx; rw [we] at hx; cases hx
  obtain ⟨t3, h3, e3, o3, T3, -, k3⟩ := own_clearWs (w := w) (t := t) (d := fun n => cA a n + (cA b n + (cWX es n + (cRw r n + (cWh g n + cP g.list n + cP g.array n + d n)))))
    false ok T o2 (by intro n; rw [e n]; omega)
  have ht := k3 rfl
  subst ht
  refine ⟨[b, a], ⟨t3, none, .null⟩, { r with ws := some { g with exts := es.map (fun e => e.ext) } }, h3, ?_, ⟨S.header, S.arr', S.good⟩, UpOk.same T, o3.congr ?_⟩
  · simp [refuse, plain, e1, e2, e3]
  · intro n
    have := cWX_exts X n
    simp only [cL, cSo, q1, q2, cRs, cRw, cWo, cW, cWh] at *
    omega

theorem own_openWs {h : Heap} {c d : Nat → Nat} {t : Table} {q : Req} {r : Resp} {k : Handshake} (K : KOk k) (I : RFine r) (hb : BodyOk q)
    (hc : q.slot .cert = .null) (T : TOk t) (o : Own h c) (e : ∀ n, c n = cR q n + (cRs r n + (cP t.array n + d n))) :
    ∃ a up r' h', openWs h t q r k true true = .ok (some a, up, r', h') ∧ Sendable r' ∧ UpOk t up ∧
      Own h' (fun n => cL a n + (cR q n + (cRs r' n + (cP up.table.array n + (cSo up.socket n + d n))))) := by
  obtain ⟨g, hg, hl, hx⟩ := I.inv.ws
  have er : ∀ n, cRs r n = cRw r n + (cWh g n + cP g.list n + cP g.array n + cXs g.exts n) := by
    intro n; simp only [cRs, cRw, cWh, hg, cWo, cW]
  have n1 : need h g.box = .ok () := own_need (d := fun n => cR q n + (cRw r n + (cP g.protocol n + cP g.extensions n + cP g.list n + cP g.array n + cXs g.exts n + (cP t.array n + d n)))) o
    (by intro n; rw [e n, er]; simp only [cWh]; omega)
  obtain ⟨w, h1, e1, o1, we, wr, wl, wa⟩ := own_initWs o
  unfold openWs
  rw [hg]
  simp only [n1, e1, Res.ok_bind]
  by_cases hv : k.valid = true
  · rw [if_pos hv]
    have n2 : need h1 g.list = .ok () := own_needP (d := fun n => cWs w n + (cR q n + (cRw r n + (cWh g n + cP g.array n + cXs g.exts n + (cP t.array n + d n))))) o1 hl
      (by intro n; rw [e n, er]; omega)
    obtain ⟨ok, text, es, h2, e2, X2, N2, F2, o2⟩ := own_extensions K (es := g.exts) (d := fun n => cWs w n + (cR q n + (cRw r n + (cWh g n + cP g.list n + cP g.array n + (cP t.array n + d n)))))
      hx o1 (by intro n; rw [e n, er]; omega)
    simp only [n2, e2, Res.ok_bind]
    have ref : (∀ e ∈ es, e.context = .null) → ∃ a up r' h', (do
        let (a, up, r, h) ← refuse h2 t w r g es true
        let h ← free h text
        return (a, up, r, h) : Res (Option (List P) × Up × Resp × Heap)) = .ok (some a, up, r', h') ∧ Sendable r' ∧ UpOk t up ∧
        Own h' (fun n => cL a n + (cR q n + (cRs r' n + (cP up.table.array n + (cSo up.socket n + d n))))) := by
      intro hn
      obtain ⟨a, up, r3, h3, e3, S3, U3, o3⟩ := own_refuse (w := w) (g := g) (es := es) (d := fun n => cP text n + (cR q n + d n)) I.send we T hn o2 (by intro n; omega)
      obtain ⟨h4, e4, o4⟩ := own_free (p := text) (d := fun n => cL a n + (cR q n + (cRs r3 n + (cP up.table.array n + (cSo up.socket n + d n))))) o3 (by intro n; omega)
      exact ⟨a, up, r3, h4, by simp [e3, e4], S3, U3, o4⟩
    have noc : k.protocol = none ∨ k.hashed = false → ∀ e ∈ es, e.context = .null := by
      intro h0
      apply N2
      intro x y hm ha
      have := K.done x y hm ha
      rcases h0 with h0 | h0
      · rw [h0] at this; exact absurd this.1 (by simp)
      · rw [h0] at this; exact absurd this.2 (by simp)
    cases ok with
    | false => exact ref (F2 rfl)
    | true =>
      cases hp : k.protocol with
      | none => exact ref (noc (.inl hp))
      | some b =>
        obtain ⟨p, h3, e3, o3, q3⟩ := own_buffer b.toNat o2
        simp only [e3]
        have ans : ∃ a up r' h', answerWs h3 t w q r g es k true true = .ok (some a, up, r', h') ∧ Sendable r' ∧ UpOk t up ∧
            Own h' (fun n => cL a n + (cRs r' n + (cP up.table.array n + (cSo up.socket n + (cP p n + (cP text n + (cR q n + d n))))))) := by
          unfold answerWs
          by_cases hh : k.hashed = true
          · rw [if_pos hh]
            obtain ⟨q4, h4, e4, o4, -, -⟩ := own_duplicateRequest (src := q)
              (d := fun n => cD b.toNat p n + (cP text n + (cWX es n + (cWs w n + (cRw r n + (cWh g n + cP g.list n + cP g.array n + (cP t.array n + d n))))))) hb hc o3
              (by intro n; omega)
            simp only [e4, Res.ok_bind]
            exact own_upgrade (d := fun n => cP p n + (cP text n + (cR q n + d n))) I.send we wr wl wa X2 o4 (by intro n; rw [q3]; omega)
          · rw [if_neg hh]
            exact own_refuse (d := fun n => cP p n + (cP text n + (cR q n + d n))) I.send we T (noc (.inr (by simpa using hh))) o3 (by intro n; rw [q3]; omega)
        obtain ⟨a, up, r4, h4, e4, S4, U4, o4⟩ := ans
        obtain ⟨h5, e5, o5⟩ := own_freeAll [p, text] (d := fun n => cL a n + (cR q n + (cRs r4 n + (cP up.table.array n + (cSo up.socket n + d n))))) o4
          (by intro n; simp only [cL]; omega)
        exact ⟨a, up, r4, h5, by simp only [e4, Res.ok_bind, e5, Res.pure_eq], S4, U4, o5⟩
  · rw [if_neg hv]
    obtain ⟨a, up, r3, h3, e3, S3, U3, o3⟩ := own_refuse (w := w) (g := g) (es := dress k 0 g.exts) (d := fun n => cR q n + d n) I.send we T (dress_ctx k 0 _) o1
      (by intro n; rw [e n, er, cWX_dress]; omega)
    exact ⟨a, up, r3, h3, e3, S3, U3, o3.congr (by intro n; omega)⟩

end Verif.Memory
