import Verif.Spec.OomInstance
import Verif.Lemmas.Oom
import Verif.Lemmas.Endpoint
/-! # Lemmas about instances and endpoints when memory runs out -/
namespace Verif.OomInstance
open Verif.UMap (Rc)
open Verif.Memory (P Own cP cA cL cL_append)
open Verif.Oom (H Map Rep cM own_need own_free own_freeAll cA_at)
open Verif.Endpoint (Endpoint emptyEndpoint equals isValid sameTrim hit hit_iff equals_empty)
open Verif.Spec.Routing (Null Designates)

theorem own_alloc {f : F} (s : Spot) {h : H} {c : Nat → Nat} (o : Own h.mem c) :
    (∃ n h', alloc f s h = (.at n, h') ∧ Own h'.mem (fun k => cA (.at n) k + c k) ∧ h'.failed = h.failed) ∨
    ((∃ n, f n s = true) ∧ ∃ h', alloc f s h = (.null, h') ∧ Own h'.mem c ∧ h'.failed = h.failed + 1) := by
  rcases Oom.own_malloc (f := fun n _ => f n s) .realm o with x | ⟨e, x⟩
  · exact .inl x
  · exact .inr ⟨⟨_, e⟩, x⟩

theorem own_allocOk {f : F} (F : OnlySafe f) (s : Spot) (hs : Safe s = false) {h : H} {c : Nat → Nat} (o : Own h.mem c) :
    ∃ n h', alloc f s h = (.at n, h') ∧ Own h'.mem (fun k => cA (.at n) k + c k) ∧ h'.failed = h.failed := by
  rcases own_alloc (f := f) s o with x | ⟨⟨n, e⟩, -⟩
  · exact x
  · rw [F _ _ e] at hs; cases hs

theorem own_realloc {f : F} (F : OnlySafe f) (s : Spot) (hs : Safe s = false) {h : H} {c d : Nat → Nat} {p : P} (o : Own h.mem c)
    (e : ∀ n, c n = cP p n + d n) :
    ∃ q h', realloc f s h p = .ok (.at q, h') ∧ Own h'.mem (fun k => cA (.at q) k + d k) ∧ h'.failed = h.failed := by
  refine Oom.own_reallocOk (f := fun n _ => f n s) ?_ .realm rfl o e
  intro n t x
  have := F n s x
  rw [hs] at this; cases this

/-- The block of a text. -/
def cT : Txt → Nat → Nat
  | none, _ => 0
  | some t, n => cA t.2 n

/-- The blocks of an endpoint. -/
def cEp (e : E) (n : Nat) : Nat := cT e.method n + cT e.pfx n + cT e.format n

/-- The blocks of endpoints. -/
def cEs : List E → Nat → Nat
  | [], _ => 0
  | e :: t, n => cEp e n + cEs t n

theorem cEs_append (a b : List E) (n : Nat) : cEs (a ++ b) n = cEs a n + cEs b n := by
  induction a with
  | nil => simp [cEs]
  | cons x t ih => simp only [List.cons_append, cEs, ih]; omega

theorem T_eq {h : H} {c : Nat → Nat} {t : Txt} (d : Nat → Nat) (o : Own h.mem c) (e : ∀ n, c n = cT t n + d n) (n : Nat) :
    cP t.ptr n = cT t n := by
  cases t with
  | none => rfl
  | some t => exact Oom.cA_eq d o e n

theorem own_needTxt {h : H} {c : Nat → Nat} {t : Txt} (d : Nat → Nat) (o : Own h.mem c) (e : ∀ n, c n = cT t n + d n) : needTxt h t = .ok () := by
  cases t with
  | none => rfl
  | some t => exact own_need d o e

theorem own_dup {f : F} (F : OnlySafe f) (s : Spot) (hs : Safe s = false) {h : H} {c : Nat → Nat} (o : Own h.mem c) (v : Option Bytes) :
    ∃ t h', dup f s h v = (t, h') ∧ t.text = v ∧ Own h'.mem (fun n => cT t n + c n) ∧ h'.failed = h.failed := by
  cases v with
  | none => exact ⟨none, h, rfl, rfl, o.congr (by intro n; simp only [cT]; omega), rfl⟩
  | some v =>
    obtain ⟨k, h', e1, o1, x1⟩ := own_allocOk F s hs o
    exact ⟨some (v, .at k), h', by simp [dup, e1], rfl, o1, x1⟩

theorem own_ptrs {h : H} {c : Nat → Nat} {e : E} (d : Nat → Nat) (o : Own h.mem c) (hc : ∀ n, c n = cEp e n + d n) (n : Nat) :
    cL e.ptrs n = cEp e n := by
  have h1 := T_eq (t := e.method) (fun n => cT e.pfx n + cT e.format n + d n) o (by intro n; rw [hc n]; simp only [cEp]; omega) n
  have h2 := T_eq (t := e.pfx) (fun n => cT e.method n + cT e.format n + d n) o (by intro n; rw [hc n]; simp only [cEp]; omega) n
  have h3 := T_eq (t := e.format) (fun n => cT e.method n + cT e.pfx n + d n) o (by intro n; rw [hc n]; simp only [cEp]; omega) n
  simp only [E.ptrs, cL, cEp]
  omega

theorem own_needE {h : H} {c : Nat → Nat} {e : E} (d : Nat → Nat) (o : Own h.mem c) (hc : ∀ n, c n = cEp e n + d n) : e.need h = .ok () := by
  have h1 := own_needTxt (t := e.method) (fun n => cT e.pfx n + cT e.format n + d n) o (by intro n; rw [hc n]; simp only [cEp]; omega)
  have h2 := own_needTxt (t := e.pfx) (fun n => cT e.method n + cT e.format n + d n) o (by intro n; rw [hc n]; simp only [cEp]; omega)
  have h3 := own_needTxt (t := e.format) (fun n => cT e.method n + cT e.pfx n + d n) o (by intro n; rw [hc n]; simp only [cEp]; omega)
  simp only [E.need, h1, h2, h3, Res.ok_bind]

theorem own_cleanSlots (es : List E) {h : H} {c d : Nat → Nat} (o : Own h.mem c) (hc : ∀ n, c n = cEs es n + d n)
    (hm : ∀ e ∈ es, e.method.isSome) :
    ∃ h', cleanSlots h (es.map .ep ++ [.ep {}]) = .ok h' ∧ Own h'.mem d ∧ h'.failed = h.failed := by
  induction es generalizing h c with
  | nil => exact ⟨h, rfl, o.congr (by intro n; rw [hc n]; simp [cEs]), rfl⟩
  | cons e t ih =>
    have h0 : ∀ n, c n = cEp e n + (cEs t n + d n) := by intro n; rw [hc n]; simp only [cEs]; omega
    obtain ⟨h1, e1, o1, x1⟩ := own_freeAll (d := fun n => cEs t n + d n) e.ptrs o (by
      intro n; rw [own_ptrs _ o h0, h0 n])
    obtain ⟨h2, e2, o2, x2⟩ := ih o1 (fun _ => rfl) (fun e he => hm e (by simp [he]))
    have := hm e (by simp)
    refine ⟨h2, ?_, o2, by omega⟩
    simp only [List.map_cons, List.cons_append, cleanSlots]
    rw [if_neg (by rw [Option.isNone_iff_eq_none]; intro z; rw [z] at this; cases this), e1]
    exact e2

theorem own_lookLoop (es : List E) {h : H} {c : Nat → Nat} (d : Nat → Nat) (o : Own h.mem c) (hc : ∀ n, c n = cEs es n + d n)
    (hm : ∀ e ∈ es, e.method.isSome) : lookLoop h (es.map .ep ++ [.ep {}]) = .ok (es.map E.view) := by
  induction es generalizing d with
  | nil => rfl
  | cons e t ih =>
    have h1 := own_needE (e := e) (fun n => cEs t n + d n) o (by intro n; rw [hc n]; simp only [cEs]; omega)
    have h2 := ih (fun n => cEp e n + d n) (by intro n; rw [hc n]; simp only [cEs]; omega) (fun e he => hm e (by simp [he]))
    have h3 := hm e (by simp)
    have h4 : equals e.view emptyEndpoint = false := by
      rcases hx : equals e.view emptyEndpoint with _ | _
      · rfl
      · obtain ⟨x, -⟩ := (equals_empty _).1 hx
        obtain ⟨v, hv⟩ := Option.isSome_iff_exists.1 h3
        simp [E.view, Txt.text, hv] at x
    obtain ⟨v, hv⟩ := Option.isSome_iff_exists.1 h3
    simp only [List.map_cons, List.cons_append, lookLoop, h1, Res.ok_bind, h4, hv, h2]
    rfl

/-- The blocks of `default_headers`. -/
def cH : Option Map → Nat → Nat
  | none, _ => 0
  | some m, n => cM m n

/-- What the instance has apart from its list. -/
def cRest (i : Inst) (n : Nat) : Nat := cP i.realm n + cH i.headers n + cP i.handler n + cP i.default n

/-- The list holds these endpoints. -/
def Lst (i : Inst) (es : List E) : Prop :=
  (i.list = .null ∧ i.nb = 0 ∧ es = []) ∨
  ((∃ k, i.list = .at k) ∧ i.slots = es.map .ep ++ [.ep {}] ∧ i.nb = es.length ∧ ∀ e ∈ es, e.method.isSome)

theorem own_clean {h : H} {c d : Nat → Nat} {i : Inst} {es : List E} (L : Lst i es) (o : Own h.mem c)
    (hc : ∀ n, c n = cRest i n + cP i.list n + cEs es n + d n) :
    ∃ h', clean h i = .ok h' ∧ Own h'.mem d ∧ h'.failed = h.failed := by
  have first : ∃ h', cleanList h i = .ok h' ∧ Own h'.mem (fun n => cRest i n + d n) ∧ h'.failed = h.failed := by
    rcases L with ⟨l1, -, rfl⟩ | ⟨⟨k, l1⟩, l2, -, l4⟩
    · refine ⟨h, by simp [cleanList, l1], o.congr ?_, rfl⟩
      intro n; rw [hc n, l1]; have zz : cP .null n = 0 := rfl; simp only [cEs]; omega
    · have n1 := own_need (p := i.list) (fun n => cRest i n + cEs es n + d n) o (by intro n; rw [hc n, l1, cA_at]; omega)
      obtain ⟨h1, e1, o1, x1⟩ := own_cleanSlots es (d := fun n => cRest i n + cP i.list n + d n) o (by intro n; rw [hc n]; omega) l4
      obtain ⟨h2, e2, o2, x2⟩ := own_free (d := fun n => cRest i n + d n) (p := i.list) o1 (by intro n; omega)
      refine ⟨h2, ?_, o2, by omega⟩
      unfold cleanList
      rw [if_neg (by rw [l1]; simp), n1, l2]
      simp only [Res.ok_bind, e1, e2]
  obtain ⟨h1, e1, o1, x1⟩ := first
  have second : ∃ h', cleanHeaders h1 i = .ok h' ∧ Own h'.mem (fun n => cL [i.realm, i.default, i.handler] n + d n) ∧ h'.failed = h1.failed := by
    unfold cleanHeaders
    rcases hh : i.headers with _ | m
    · exact ⟨h1, rfl, o1.congr (by intro n; simp only [cRest, hh, cH, cL]; omega), rfl⟩
    · exact Oom.own_mapCleanFull o1 (by intro n; simp only [cRest, hh, cH, cL]; omega)
  obtain ⟨h2, e2, o2, x2⟩ := second
  obtain ⟨h3, e3, o3, x3⟩ := own_freeAll (d := d) [i.realm, i.default, i.handler] o2 (fun _ => rfl)
  exact ⟨h3, by simp only [clean, e1, e2, e3, Res.ok_bind], o3, by omega⟩

theorem own_look {h : H} {c : Nat → Nat} {i : Inst} {es : List E} (d : Nat → Nat) (L : Lst i es) (o : Own h.mem c)
    (hc : ∀ n, c n = cP i.list n + cEs es n + d n) : look h i = .ok (es.map E.view) := by
  unfold look
  rcases L with ⟨l1, -, rfl⟩ | ⟨⟨k, l1⟩, l2, -, l4⟩
  · rw [if_pos l1]; rfl
  · have n1 := own_need (p := i.list) (fun n => cEs es n + d n) o (by intro n; rw [hc n, l1, cA_at]; omega)
    rw [if_neg (by rw [l1]; simp), n1, l2]
    exact own_lookLoop es (fun n => cP i.list n + d n) o (by intro n; rw [hc n]; omega) l4

theorem own_init {f : F} (F : OnlySafe f) {h : H} {c : Nat → Nat} (realm : Option Bytes) (o : Own h.mem c) :
    ∃ rc i h', init f h realm = .ok (rc, i, h') ∧ Rep h h' rc ∧
      ((rc = .ok ∧ ∃ x, i = some x ∧ Lst x [] ∧ Own h'.mem (fun n => cRest x n + cP x.list n + c n)) ∨
        (rc ≠ .ok ∧ i = none ∧ Own h'.mem c)) := by
  obtain ⟨r, h1, e1, -, o1, x1⟩ := own_dup F .realm rfl o realm
  have hr := T_eq (t := r) c o1 (fun _ => rfl)
  rcases own_alloc (f := f) .headers o1 with ⟨b, h2, e2, o2, x2⟩ | ⟨-, h2, e2, o2, x2⟩
  · rcases Oom.own_mapInit (f := fun n s => f n (.headersMap s)) .call (.at b) o2 with ⟨m, h3, e3, b3, -, x3, o3, l3⟩ | ⟨y, -⟩
    · rcases own_alloc (f := f) .handler o3 with ⟨w, h4, e4, o4, x4⟩ | ⟨-, h4, e4, o4, x4⟩
      · refine ⟨.ok, _, h4, by simp [init, e1, e2, e3, e4]; rfl, Rep.same (by omega) (by simp), .inl ⟨rfl, _, rfl, .inl ⟨rfl, rfl, rfl⟩, o4.congr ?_⟩⟩
        intro n
        have := l3 n; have := hr n
        have zz : cP .null n = 0 := rfl
        simp only [cRest, cH, cA_at] at *
        omega
      · obtain ⟨h5, e5, o5, x5⟩ := own_clean (h := h4) (d := c) (i := { realm := r.ptr, headers := some m }) (es := []) (.inl ⟨rfl, rfl, rfl⟩) o4 (by
          intro n
          have := l3 n; have := hr n
          have zz : cP .null n = 0 := rfl
          simp only [cRest, cH, cA_at, cEs] at *
          omega)
        exact ⟨.memory, none, h5, by simp [init, e1, e2, e3, e4, e5], Rep.fail (by omega) (by simp), .inr ⟨by simp, rfl, o5⟩⟩
    · rcases y with ⟨n, y⟩ | ⟨n, y⟩ | ⟨n, y⟩ <;> · have := F _ _ y; cases this
  · obtain ⟨h5, e5, o5, x5⟩ := own_clean (h := h2) (d := c) (i := { realm := r.ptr }) (es := []) (.inl ⟨rfl, rfl, rfl⟩) o2 (by
      intro n
      have := hr n
      have zz : cP .null n = 0 := rfl
      simp only [cRest, cH, cEs] at *
      omega)
    exact ⟨.memory, none, h5, by simp [init, e1, e2, e5], Rep.fail (by omega) (by simp), .inr ⟨by simp, rfl, o5⟩⟩

theorem own_copyEndpoint {f : F} (F : OnlySafe f) {h : H} {c : Nat → Nat} (e : Endpoint) (o : Own h.mem c) :
    ∃ x h', copyEndpoint f h e = (x, h') ∧ x.view = e ∧ Own h'.mem (fun n => cEp x n + c n) ∧ h'.failed = h.failed := by
  obtain ⟨m, h1, e1, t1, o1, x1⟩ := own_dup F .method rfl o e.method
  obtain ⟨p, h2, e2, t2, o2, x2⟩ := own_dup F .pfx rfl o1 e.pfx
  obtain ⟨t, h3, e3, t3, o3, x3⟩ := own_dup F .format rfl o2 e.format
  refine ⟨_, h3, by simp [copyEndpoint, e1, e2, e3]; rfl, ?_, o3.congr (by intro n; simp only [cEp]; omega), by omega⟩
  simp [E.view, t1, t2, t3]

theorem own_room {f : F} (F : OnlySafe f) {h : H} {c d : Nat → Nat} {i : Inst} {es : List E} (L : Lst i es) (o : Own h.mem c)
    (hc : ∀ n, c n = cP i.list n + d n) :
    (∃ k h' a b, room f h i = .ok ({ i with list := .at k, slots := es.map .ep ++ [a, b], nb := es.length + 1 }, h') ∧
      Own h'.mem (fun n => cA (.at k) n + d n) ∧ h'.failed = h.failed) ∨
    (∃ h', room f h i = .ok (i, h') ∧ i.list = .null ∧ Own h'.mem c ∧ h.failed < h'.failed) := by
  rcases L with ⟨l1, l2, rfl⟩ | ⟨⟨k, l1⟩, l2, l3, -⟩
  · rcases own_alloc (f := f) .list o with ⟨b, h2, e2, o2, x2⟩ | ⟨-, h2, e2, o2, x2⟩
    · refine .inl ⟨b, h2, .junk, .junk, by simp [room, l1, e2], o2.congr ?_, x2⟩
      intro n; have zz : cP .null n = 0 := rfl; rw [hc n, l1]; omega
    · exact .inr ⟨h2, by simp [room, l1, e2], l1, o2, by omega⟩
  · obtain ⟨q, h2, e2, o2, x2⟩ := own_realloc F .grow rfl (p := i.list) o hc
    refine .inl ⟨q, h2, .ep {}, .junk, ?_, o2, x2⟩
    unfold room
    rw [if_neg (by rw [l1]; simp), e2]
    simp only [Res.ok_bind, l2, l3]
    have : (es.map Slot.ep ++ [Slot.ep {}] ++ [Slot.junk, Slot.junk]).take (es.length + 2) = es.map Slot.ep ++ [Slot.ep {}, Slot.junk] := by
      rw [List.append_assoc, List.take_append, List.take_of_length_le (by simp)]
      simp
    rw [this]
    simp

theorem own_add {f : F} (F : OnlySafe f) {h : H} {c d : Nat → Nat} {i : Inst} {es : List E} (e : Endpoint) (ne : ¬ Null e) (L : Lst i es) (o : Own h.mem c)
    (hc : ∀ n, c n = cRest i n + cP i.list n + cEs es n + d n) :
    ∃ rc i' es' h', add f h i e = .ok (rc, i', h') ∧ Rep h h' rc ∧ Lst i' es' ∧
      Own h'.mem (fun n => cRest i' n + cP i'.list n + cEs es' n + d n) ∧
      es'.map E.view = if rc = .ok then es.map E.view ++ [e] else es.map E.view := by
  unfold add
  by_cases v : isValid e false = true
  · rw [v]
    simp only [Bool.not_true, Bool.false_eq_true, if_false]
    rcases own_room F (d := fun n => cRest i n + cEs es n + d n) L o (by intro n; rw [hc n]; omega) with
      ⟨k, h1, a, b, e1, o1, x1⟩ | ⟨h1, e1, l1, o1, x1⟩
    · obtain ⟨x, h2, e2, w2, o2, x2⟩ := own_copyEndpoint F e o1
      refine ⟨.ok, { i with list := .at k, slots := (es ++ [x]).map .ep ++ [.ep {}], nb := es.length + 1 }, es ++ [x], h2, ?_,
        Rep.same (by omega) (by simp), .inr ⟨⟨k, rfl⟩, rfl, by simp, ?_⟩, o2.congr ?_, by simp [w2]⟩
      · rw [e1]
        simp only [Res.ok_bind, e2, w2, v]
        have s1 : setSlot (es.map Slot.ep ++ [a, b]) (es.length + 1 - 1) (.ep x) = .ok (es.map Slot.ep ++ [.ep x, b]) := by
          unfold setSlot
          rw [if_pos (by simp), List.set_append_right _ _ (by simp)]
          simp
        have s2 : setSlot (es.map Slot.ep ++ [.ep x, b]) (es.length + 1) (.ep {}) = .ok (es.map Slot.ep ++ [.ep x, .ep {}]) := by
          unfold setSlot
          rw [if_pos (by simp), List.set_append_right _ _ (by simp)]
          simp
        rw [if_neg (by simp), s1]
        simp only [Res.ok_bind]
        rw [if_neg (by simp), s2]
        simp
      · intro y hy
        rcases L with ⟨-, -, rfl⟩ | ⟨-, -, -, l4⟩
        all_goals
          rcases List.mem_append.1 hy with hy | hy
          · first | exact l4 y hy | cases hy
          · rw [List.mem_singleton] at hy
            subst hy
            rcases hm : y.method with _ | t
            · exfalso
              have hv : e.method = none := by rw [← w2]; simp [E.view, hm, Txt.text]
              unfold isValid at v
              rw [if_neg (by rw [equals_empty]; exact ne), hv] at v
              simp at v
            · rfl
      · intro n
        simp only [cRest, cEs_append, cEs, cA_at]
        omega
    · refine ⟨.memory, i, es, h1, by rw [e1]; simp [l1], Rep.fail x1 (by simp), L, o1.congr (fun n => hc n), by simp⟩
  · rw [Bool.not_eq_true] at v
    rw [v]
    exact ⟨.params, i, es, h, rfl, Rep.same rfl (by simp), L, o.congr (fun n => hc n), by simp⟩

theorem shift_eq (pre post : List Slot) (x : Slot) (n j : Nat) (hn : post.length = n) (hj : pre.length = j) :
    ∃ y, shift n j (pre ++ x :: post) = .ok (pre ++ post ++ [y]) := by
  induction post generalizing pre x n j with
  | nil => subst hn; exact ⟨x, by simp [shift]⟩
  | cons z t ih =>
    subst hn hj
    rw [List.length_cons, shift]
    have h1 : (pre ++ x :: z :: t)[pre.length + 1]? = some z := by
      rw [List.getElem?_append_right (by omega)]; simp
    have h2 : (pre ++ x :: z :: t).set pre.length z = (pre ++ [z]) ++ z :: t := by
      rw [List.set_append_right _ _ (by omega)]; simp
    rw [h1]
    simp only [h2]
    obtain ⟨y, hy⟩ := ih (pre ++ [z]) z t.length (pre.length + 1) rfl (by simp)
    exact ⟨y, by rw [hy]; simp⟩

theorem own_removeLoop {f : F} (F : OnlySafe f) (e : Endpoint) (ap af : Txt) (ha : ap.text = e.pfx) (hf : af.text = e.format) (k : Nat)
    (p q : List E) (hp : p.length = k) {h : H} {c d : Nat → Nat} {i : Inst} (found : Bool) (o : Own h.mem c) (b : Nat) (l1 : i.list = .at b)
    (l2 : i.slots = (p ++ q).map .ep ++ [.ep {}]) (l3 : i.nb = (p ++ q).length)
    (hc : ∀ n, c n = cA (.at b) n + cEs p n + cEs q n + d n) :
    ∃ b' h', removeLoop f e ap af k h i found =
        .ok (if found || p.any (fun x => hit e x.view) then .ok else .notFound,
          { i with
            list := .at b', slots := (p.filter (fun x => !hit e x.view) ++ q).map .ep ++ [.ep {}],
            nb := (p.filter (fun x => !hit e x.view) ++ q).length }, h') ∧
      Own h'.mem (fun n => cA (.at b') n + cEs (p.filter (fun x => !hit e x.view)) n + cEs q n + d n) ∧ h'.failed = h.failed := by
  induction k generalizing p q h c i found b with
  | zero =>
    rw [List.length_eq_zero_iff] at hp
    subst hp
    refine ⟨b, h, ?_, o.congr (by intro n; rw [hc n]; simp), rfl⟩
    simp only [removeLoop, List.any_nil, Bool.or_false, List.filter_nil, List.nil_append] at *
    rw [← l2, ← l3, ← l1]
  | succ k ih =>
    rcases List.eq_nil_or_concat p with rfl | ⟨p, x, rfl⟩
    · simp at hp
    rw [List.concat_eq_append] at *
    have hp' : p.length = k := by simpa using hp
    have hE : ∀ n, cEs (p ++ [x]) n = cEs p n + cEp x n := by intro n; rw [cEs_append]; simp [cEs]
    have n1 := own_need (p := i.list) (fun n => cEs (p ++ [x]) n + cEs q n + d n) o (by intro n; rw [hc n, l1]; omega)
    have hx : i.slots[k]? = some (.ep x) := by
      rw [l2, ← hp']
      simp
    have n2 := own_needTxt (t := x.pfx) (fun n => cA (.at b) n + cEs p n + cT x.method n + cT x.format n + cEs q n + d n) o (by
      intro n; rw [hc n, hE]; simp only [cEp]; omega)
    obtain ⟨cp, h1, e1, t1, o1, x1⟩ := own_dup F .curPrefix rfl o x.pfx.text
    have n3 := own_needTxt (t := x.format) (fun n => cT cp n + cA (.at b) n + cEs p n + cT x.method n + cT x.pfx n + cEs q n + d n) o1 (by
      intro n; rw [hc n, hE]; simp only [cEp]; omega)
    obtain ⟨cf, h2, e2, t2, o2, x2⟩ := own_dup F .curFormat rfl o1 x.format.text
    have n4 := own_needTxt (t := x.method) (fun n => cT cf n + cT cp n + cA (.at b) n + cEs p n + cT x.format n + cT x.pfx n + cEs q n + d n) o2 (by
      intro n; rw [hc n, hE]; simp only [cEp]; omega)
    have hh : (x.method.text == e.method && sameTrim cp.text ap.text && sameTrim cf.text af.text) = hit e x.view := by
      rw [t1, t2, ha, hf]; rfl
    have c1 := T_eq (t := cp) (fun n => cT cf n + c n) o2 (by intro n; omega)
    have c2 := T_eq (t := cf) (fun n => cT cp n + c n) o2 (by intro n; rfl)
    have d1 : dupTxt f .curPrefix h x.pfx = .ok (cp, h1) := by unfold dupTxt; rw [n2, ← e1]; rfl
    have d2 : dupTxt f .curFormat h1 x.format = .ok (cf, h2) := by unfold dupTxt; rw [n3, ← e2]; rfl
    rw [removeLoop, n1]
    simp only [Res.ok_bind, hx, d1, d2, n4, hh]
    by_cases hit' : hit e x.view = true
    · rw [if_pos hit']
      have h0 : ∀ n, cT cf n + (cT cp n + c n) = cEp x n + (cT cf n + cT cp n + cA (.at b) n + cEs p n + cEs q n + d n) := by
        intro n; rw [hc n, hE]; omega
      obtain ⟨h3, e3, o3, x3⟩ := own_freeAll (d := fun n => cT cf n + cT cp n + cA (.at b) n + cEs p n + cEs q n + d n) x.ptrs o2 (by
        intro n; rw [own_ptrs _ o2 h0, h0 n])
      obtain ⟨y, e4⟩ := shift_eq (p.map .ep) (q.map .ep ++ [.ep {}]) (.ep x) (i.nb - k) k (by rw [l3]; simp; omega) (by simpa using hp')
      have hs : i.slots = p.map .ep ++ .ep x :: (q.map .ep ++ [.ep {}]) := by rw [l2]; simp
      rw [← hs] at e4
      obtain ⟨b', h5, e5, o5, x5⟩ := own_realloc F .shrink rfl (p := i.list) (d := fun n => cT cf n + cT cp n + cEs p n + cEs q n + d n) o3 (by
        intro n; rw [l1, cA_at]; omega)
      obtain ⟨h6, e6, o6, x6⟩ := own_freeAll (d := fun n => cA (.at b') n + cEs p n + cEs q n + d n) [cp.ptr, cf.ptr] o5 (by
        intro n; simp only [cL]; rw [c1, c2]; omega)
      have ht : (p.map Slot.ep ++ (q.map Slot.ep ++ [Slot.ep {}]) ++ [y]).take i.nb = (p ++ q).map .ep ++ [.ep {}] := by
        rw [l3, List.take_append_of_le_length (by simp), List.take_of_length_le (by simp)]
        simp
      obtain ⟨b2, h7, e7, o7, x7⟩ := ih p q hp' (h := h6) (i := { i with list := .at b', slots := (p ++ q).map .ep ++ [.ep {}], nb := i.nb - 1 }) true o6 b' rfl
        rfl (by rw [l3]; simp) (fun _ => rfl)
      refine ⟨b2, h7, ?_, o7.congr (by intro n; rw [List.filter_append]; simp [hit']), by omega⟩
      rw [e3]
      simp only [Res.ok_bind, e4, e5, e6]
      rw [if_neg (by simp), ht, e7]
      simp [hit']
    · rw [if_neg hit']
      rw [Bool.not_eq_true] at hit'
      obtain ⟨h6, e6, o6, x6⟩ := own_freeAll (d := c) [cp.ptr, cf.ptr] o2 (by
        intro n; simp only [cL]; rw [c1, c2]; omega)
      obtain ⟨b2, h7, e7, o7, x7⟩ := ih p (x :: q) hp' (h := h6) (i := i) found o6 b l1 (by rw [l2]; simp) (by rw [l3]; simp) (by
        intro n; rw [hc n, hE]; simp only [cEs]; omega)
      refine ⟨b2, h7, ?_, o7.congr ?_, by omega⟩
      · rw [e6]
        simp only [Res.ok_bind, e7]
        simp [hit']
      · intro n; rw [List.filter_append, cEs_append]; simp [hit', cEs]; omega

theorem filter_none {α : Type} {l : List α} {p : α → Bool} (h : l.any p = false) : l.filter (fun x => !p x) = l := by
  rw [List.filter_eq_self]
  intro x hx
  rw [List.any_eq_false] at h
  simpa using h x hx

theorem own_remove {f : F} (F : OnlySafe f) {h : H} {c d : Nat → Nat} {i : Inst} {es : List E} (e : Endpoint) (L : Lst i es) (o : Own h.mem c)
    (hc : ∀ n, c n = cRest i n + cP i.list n + cEs es n + d n) :
    ∃ rc i' es' h', remove f h i e = .ok (rc, i', h') ∧ Rep h h' rc ∧ Lst i' es' ∧
      Own h'.mem (fun n => cRest i' n + cP i'.list n + cEs es' n + d n) ∧
      ((rc = .ok ∧ es' = es.filter (fun x => !hit e x.view)) ∨ (rc = .notFound ∧ es' = es ∧ es.any (fun x => hit e x.view) = false) ∨
        (rc = .params ∧ es' = es)) := by
  unfold remove
  split
  · obtain ⟨ap, h1, e1, t1, o1, x1⟩ := own_dup F .argPrefix rfl o e.pfx
    obtain ⟨af, h2, e2, t2, o2, x2⟩ := own_dup F .argFormat rfl o1 e.format
    have c1 := T_eq (t := ap) (fun n => cT af n + c n) o2 (by intro n; omega)
    have c2 := T_eq (t := af) (fun n => cT ap n + c n) o2 (by intro n; rfl)
    simp only [e1, e2]
    have LL := L
    rcases L with ⟨l1, l2, rfl⟩ | ⟨⟨b, l1⟩, l2, l3, l4⟩
    · obtain ⟨h6, e6, o6, x6⟩ := own_freeAll (d := c) [ap.ptr, af.ptr] o2 (by
        intro n; simp only [cL]; rw [c1, c2]; omega)
      exact ⟨.notFound, i, [], h6, by simp [l2, removeLoop, e6], Rep.same (by omega) (by simp), LL, o6.congr hc, .inr (.inl ⟨rfl, rfl, rfl⟩)⟩
    · obtain ⟨b', h3, e3, o3, x3⟩ := own_removeLoop F e ap af t1 t2 i.nb es [] l3.symm false o2 b l1 (by rw [l2]; simp) (by rw [l3]; simp)
        (d := fun n => cT af n + cT ap n + cRest i n + d n) (by intro n; rw [hc n, l1, cA_at]; simp only [cEs]; omega)
      obtain ⟨h6, e6, o6, x6⟩ := own_freeAll (d := fun n => cA (.at b') n + cEs (es.filter (fun x => !hit e x.view)) n + cRest i n + d n) [ap.ptr, af.ptr] o3 (by
        intro n; simp only [cL, cEs]; rw [c1, c2]; omega)
      rw [e3]
      simp only [Res.ok_bind, e6, List.append_nil, Bool.false_or]
      refine ⟨_, _, es.filter (fun x => !hit e x.view), h6, rfl, Rep.same (by omega) (by split <;> simp), .inr ⟨⟨b', rfl⟩, rfl, rfl, ?_⟩,
        o6.congr (by intro n; simp only [cRest, cA_at]; omega), ?_⟩
      · intro x hx
        exact l4 x (List.mem_filter.1 hx).1
      · by_cases hy : es.any (fun x => hit e x.view) = true
        · exact .inl ⟨by rw [if_pos hy], rfl⟩
        · rw [Bool.not_eq_true] at hy
          exact .inr (.inl ⟨by rw [hy]; rfl, filter_none hy, hy⟩)
  · exact ⟨.params, i, es, h, rfl, Rep.same rfl (by simp), L, o.congr hc, .inr (.inr ⟨rfl, rfl⟩)⟩

theorem own_setDefault {f : F} {h : H} {c d : Nat → Nat} {i : Inst} {es : List E} (L : Lst i es) (o : Own h.mem c)
    (hc : ∀ n, c n = cRest i n + cP i.list n + cEs es n + d n) :
    ∃ rc i' h', setDefault f h i = .ok (rc, i', h') ∧ Rep h h' rc ∧ Lst i' es ∧
      Own h'.mem (fun n => cRest i' n + cP i'.list n + cEs es n + d n) := by
  unfold setDefault
  split
  · rename_i z
    rcases own_alloc (f := f) .default o with ⟨b, h2, e2, o2, x2⟩ | ⟨-, h2, e2, o2, x2⟩
    · refine ⟨.ok, { i with default := .at b }, h2, by simp [e2], Rep.same x2 (by simp), L, o2.congr ?_⟩
      intro n
      have zz : cP .null n = 0 := rfl
      rw [hc n]
      simp only [cRest, z, cA_at]
      omega
    · exact ⟨.memory, i, h2, by simp [e2], Rep.fail (by omega) (by simp), L, o2.congr hc⟩
  · rename_i z
    have n1 := own_need (p := i.default) (fun n => cP i.realm n + cH i.headers n + cP i.handler n + cP i.list n + cEs es n + d n) o (by
      intro n
      rw [hc n]
      have : cP i.default n = cA i.default n := by
        cases hd : i.default with
        | null => exact absurd hd z
        | _ => rfl
      simp only [cRest]; omega)
    rw [n1]
    exact ⟨.ok, i, h, rfl, Rep.same rfl (by simp), L, o.congr hc⟩

/-- The instance, if there is one, holds the endpoints and nothing else is held. -/
def Inv (s : State) (l : List Endpoint) (d : Nat → Nat) : Prop :=
  match s.inst with
  | none => l = [] ∧ Own s.heap.mem d
  | some i => ∃ es, Lst i es ∧ es.map E.view = l ∧ Own s.heap.mem (fun n => cRest i n + cP i.list n + cEs es n + d n)

theorem own_exec {f : F} (F : OnlySafe f) (c : Cmd) (na : ∀ e, c = .add e → ¬ Null e) {s : State} {l : List Endpoint} {d : Nat → Nat} (I : Inv s l d) :
    ∃ rc seen s' l', exec f s c = .ok (rc, seen, s') ∧ Rep s.heap s'.heap rc ∧ (c = .request → rc = .ok → seen = l) ∧ Next l c rc l' ∧ Inv s' l' d := by
  have other : ∀ {s : State}, Inv s l d → ∀ seen, ∃ rc seen' s' l', (Res.ok (Rc.params, seen, s) : Res (Rc × List Endpoint × State)) = .ok (rc, seen', s') ∧
      Rep s.heap s'.heap rc ∧ (c = .request → rc = .ok → seen' = l) ∧ Next l c rc l' ∧ Inv s' l' d := by
    intro s I seen
    exact ⟨.params, seen, s, l, rfl, Rep.same rfl (by simp), by simp, .error _ _ _ (by simp) (by simp), I⟩
  unfold exec
  unfold Inv at I
  rcases s with ⟨h, _ | i⟩
  · obtain ⟨rfl, o⟩ := I
    cases c with
    | init r =>
      obtain ⟨rc, i, h', e1, r1, ⟨rfl, x, rfl, L, o1⟩ | ⟨n1, rfl, o1⟩⟩ := own_init F r o
      · dsimp only
        rw [e1]
        exact ⟨.ok, [], _, [], rfl, r1, by simp, .init _ _, [], L, rfl, o1.congr (by intro n; simp only [cEs]; omega)⟩
      · dsimp only
        rw [e1]
        exact ⟨rc, [], _, [], rfl, r1, by simp, .error _ _ _ n1 (by simp), rfl, o1⟩
    | _ => exact other (s := ⟨h, none⟩) ⟨rfl, o⟩ []
  · obtain ⟨es, L, rfl, o⟩ := I
    cases c with
    | init r => exact other (s := ⟨h, some i⟩) ⟨es, L, rfl, o⟩ []
    | add e =>
      obtain ⟨rc, i', es', h', e1, r1, L1, o1, v1⟩ := own_add F e (na e rfl) L o (fun _ => rfl)
      dsimp only
      rw [e1]
      refine ⟨rc, [], _, es'.map E.view, rfl, r1, by simp, ?_, es', L1, rfl, o1⟩
      rw [v1]
      split
      · subst rc; exact .add _ _
      · exact .error _ _ _ ‹_› (by simp)
    | remove e =>
      obtain ⟨rc, i', es', h', e1, r1, L1, o1, v1⟩ := own_remove F e L o (fun _ => rfl)
      dsimp only
      rw [e1]
      refine ⟨rc, [], _, es'.map E.view, rfl, r1, by simp, ?_, es', L1, rfl, o1⟩
      rcases v1 with ⟨rfl, rfl⟩ | ⟨rfl, rfl, v⟩ | ⟨rfl, rfl⟩
      · have : (es.filter (fun x => !hit e x.view)).map E.view = (es.map E.view).filter (fun x => !hit e x) := by
          rw [List.filter_map]; rfl
        rw [this]
        refine .remove _ _ _ ?_
        intro x
        rw [← hit_iff]
        simp
      · refine .error _ _ _ (by simp) ?_
        rintro e' hx - x hm
        cases hx
        rw [← hit_iff]
        obtain ⟨y, hy, rfl⟩ := List.mem_map.1 hm
        rw [List.any_eq_false] at v
        exact v y hy
      · exact .error _ _ _ (by simp) (by simp)
    | setDefault =>
      obtain ⟨rc, i', h', e1, r1, L1, o1⟩ := own_setDefault (f := f) L o (fun _ => rfl)
      dsimp only
      rw [e1]
      refine ⟨rc, [], _, es.map E.view, rfl, r1, by simp, ?_, es, L1, rfl, o1⟩
      by_cases hr : rc = .ok
      · subst rc; exact .setDefault _
      · exact .error _ _ _ hr (by simp)
    | request =>
      have e1 := own_look (fun n => cRest i n + d n) L o (by intro n; omega)
      dsimp only
      rw [e1]
      exact ⟨.ok, _, _, es.map E.view, rfl, Rep.same rfl (by simp), by simp, .request _, es, L, rfl, o⟩
    | clean =>
      obtain ⟨h', e1, o1, x1⟩ := own_clean (d := d) L o (fun _ => rfl)
      dsimp only
      rw [e1]
      exact ⟨.ok, [], _, [], rfl, Rep.same x1 (by simp), by simp, .clean _, rfl, o1⟩

theorem own_run {f : F} (F : OnlySafe f) (prog : List Cmd) (na : AddsNoEnd prog) {s : State} {l : List Endpoint} {d : Nat → Nat} (I : Inv s l d) :
    ∃ out s' l', run f s prog = .ok (out, s') ∧ Inv s' l' d ∧ Right l prog out ∧
      ∀ o ∈ out, (0 < o.failed → o.rc ≠ .ok) ∧ (o.rc = .memory → 0 < o.failed) := by
  induction prog generalizing s l with
  | nil => exact ⟨[], s, l, rfl, I, .nil _, by simp⟩
  | cons c t ih =>
    obtain ⟨rc, seen, s1, l1, e1, p1, w1, n1, I1⟩ := own_exec F c (fun e he => na e (by simp [he])) I
    obtain ⟨out, s2, l2, e2, I2, r2, p2⟩ := ih (fun e he => na e (by simp [he])) I1
    refine ⟨_, s2, l2, by simp [run, e1, e2]; rfl, I2, .cons _ _ _ _ _ _ w1 n1 r2, ?_⟩
    intro x hx
    rcases List.mem_cons.1 hx with rfl | hx
    · exact ⟨fun h => p1.bad (by simp at h; omega), fun h => by have := p1.mem h; simp; omega⟩
    · exact p2 x hx

end Verif.OomInstance
