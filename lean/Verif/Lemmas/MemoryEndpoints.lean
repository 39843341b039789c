import Verif.Lemmas.MemoryServer
/-! # Blocks of endpoint selection and of URL parameters -/
namespace Verif.Memory
open Verif.UMap (Rc)
open Verif.Endpoint (Endpoint slashWords splitUrl formatMatch skipPrefix byte0)
open Verif.Utf8 (utf8Ok)

/-- The blocks of an array of strings. -/
def cWd (w : Words) (n : Nat) : Nat := cA w.array n + cL w.strings n

theorem own_addWords {c d : Nat → Nat} (k : Nat) {h : Heap} {a : Words} (o : Own h c) (e : ∀ n, c n = cWd a n + d n) :
    ∃ a' h', addWords h a k = .ok (a', h') ∧ Own h' (fun n => cWd a' n + d n) := by
  induction k generalizing h a c with
  | zero => exact ⟨a, h, rfl, o.congr e⟩
  | succ k ih =>
    obtain ⟨p, h1, e1, o1, -⟩ := own_reallocA (p := a.array) (d := fun n => cL a.strings n + d n) o (by intro n; rw [e n]; simp only [cWd]; omega)
    obtain ⟨w, h2, e2, o2, q2⟩ := own_malloc o1
    obtain ⟨a', h3, e3, o3⟩ := ih (a := ⟨p, a.strings ++ [w]⟩) o2 (by
      intro n; simp only [cWd, cL_append, cL]; have := q2 n; omega)
    exact ⟨a', h3, by simp [addWords, e1, e2, e3], o3⟩

theorem own_splitMem {h : Heap} {c : Nat → Nat} (pfx url : Option Bytes) (o : Own h c) :
    ∃ w h', splitMem h pfx url = .ok (w, h') ∧ Own h' (fun n => cWd w n + c n) := by
  obtain ⟨a, h1, e1, o1, -⟩ := own_malloc o
  obtain ⟨p, h2, e2, o2, -⟩ := own_strdup o1 pfx
  obtain ⟨w3, h3, e3, o3⟩ := own_addWords (a := ⟨a, []⟩) (d := fun n => cP p n + c n) (splitUrl pfx none).length o2 (by
    intro n; simp only [cWd, cL]; omega)
  obtain ⟨h4, e4, o4⟩ := own_free (p := p) (d := fun n => cWd w3 n + c n) o3 (by intro n; omega)
  obtain ⟨u, h5, e5, o5, -⟩ := own_strdup o4 url
  obtain ⟨w6, h6, e6, o6⟩ := own_addWords (a := w3) (d := fun n => cP u n + c n) (splitUrl none url).length o5 (by intro n; omega)
  obtain ⟨h7, e7, o7⟩ := own_free (p := u) (d := fun n => cWd w6 n + c n) o6 (by intro n; omega)
  exact ⟨w6, h7, by simp [splitMem, e1, e2, e3, e4, e5, e6, e7], o7⟩

theorem own_cleanEnum {h : Heap} {c d : Nat → Nat} {w : Words} (o : Own h c) (e : ∀ n, c n = cWd w n + d n) :
    ∃ h', cleanEnum h (some w) = .ok h' ∧ Own h' d := by
  have hn : need h w.array = .ok () := own_need (d := fun n => cL w.strings n + d n) o (by intro n; rw [e n]; simp only [cWd]; omega)
  have ha := P_eq (p := w.array) (d := fun n => cL w.strings n + d n) o (by intro n; rw [e n]; simp only [cWd]; omega)
  obtain ⟨h1, e1, o1⟩ := own_freeAll (d := d) (w.strings ++ [w.array]) o (by
    intro n; rw [e n, cL_append]; simp only [cWd, cL]; have := ha n; omega)
  exact ⟨h1, by simp [cleanEnum, hn, e1], o1⟩

theorem cleanEnum_none (h : Heap) : cleanEnum h none = .ok h := rfl

/-- The blocks of the copy of an endpoint. -/
def cEp (c : EpCopy) (n : Nat) : Nat := cA c.box n + cP c.method n + cP c.pfx n + cP c.format n

/-- The blocks of copies. -/
def cEps : List EpCopy → Nat → Nat
  | [], _ => 0
  | c :: t, n => cEp c n + cEps t n

theorem cEps_append (a b : List EpCopy) (n : Nat) : cEps (a ++ b) n = cEps a n + cEps b n := by
  induction a with
  | nil => simp [cEps]
  | cons p t ih => simp [cEps, ih]; omega

theorem cEps_perm {a b : List EpCopy} (p : a.Perm b) (n : Nat) : cEps a n = cEps b n := by
  induction p with
  | nil => rfl
  | cons x _ ih => simp [cEps, ih]
  | swap x y l => simp [cEps]; omega
  | trans _ _ i1 i2 => exact i1.trans i2

theorem own_copyEndpoint {h : Heap} {c d : Nat → Nat} (box : P) (ep : Endpoint) (o : Own h c) (e : ∀ n, c n = cA box n + d n) :
    ∃ x h', copyEndpoint h box ep = (x, h') ∧ x.of = ep ∧ Own h' (fun n => cEp x n + d n) := by
  obtain ⟨m, h1, e1, o1, -⟩ := own_strdup o ep.method
  obtain ⟨p, h2, e2, o2, -⟩ := own_strdup o1 ep.pfx
  obtain ⟨f, h3, e3, o3, -⟩ := own_strdup o2 ep.format
  exact ⟨⟨ep, box, m, p, f⟩, h3, by simp [copyEndpoint, e1, e2, e3], rfl, o3.congr (by intro n; rw [e n]; simp only [cEp]; omega)⟩

theorem own_matchOne {h : Heap} {c d : Nat → Nat} (method url : Bytes) {arr : P} {found : List EpCopy} {ep : Endpoint} (hm : ep.method ≠ none)
    (o : Own h c) (e : ∀ n, c n = cA arr n + (cEps found n + d n)) :
    ∃ arr' found' h', matchOne h method url arr found ep = .ok (arr', found', h') ∧ Own h' (fun n => cA arr' n + (cEps found' n + d n)) ∧
      (∀ x ∈ found', x ∈ found ∨ x.of = ep) := by
  cases hx : ep.method with
  | none => exact absurd hx hm
  | some m =>
    unfold matchOne
    rw [hx]
    simp only
    split
    · obtain ⟨w, h1, e1, o1⟩ := own_splitMem ep.pfx ep.format o
      rw [e1]
      simp only [Res.ok_bind]
      split
      · obtain ⟨arr', h2, e2, o2, -⟩ := own_reallocA (p := arr) (d := fun n => cWd w n + (cEps found n + d n)) o1 (by intro n; rw [e n]; omega)
        obtain ⟨box, h3, e3, o3, -⟩ := own_malloc o2
        obtain ⟨x, h4, e4, of4, o4⟩ := own_copyEndpoint (d := fun n => cA arr' n + (cWd w n + (cEps found n + d n))) box ep o3 (fun _ => rfl)
        obtain ⟨h5, e5, o5⟩ := own_cleanEnum (w := w) (d := fun n => cA arr' n + (cEps (found ++ [x]) n + d n)) o4 (by
          intro n; rw [cEps_append]; simp only [cEps]; omega)
        refine ⟨arr', found ++ [x], h5, by simp [e2, e3, e4, e5, cleanEnum_none], o5, ?_⟩
        intro y hy
        rcases List.mem_append.1 hy with h0 | h0
        · exact .inl h0
        · rw [List.mem_singleton.1 h0]; exact .inr of4
      · obtain ⟨h5, e5, o5⟩ := own_cleanEnum (w := w) (d := c) o1 (fun _ => rfl)
        exact ⟨arr, found, h5, by simp [e5], o5.congr e, fun y hy => .inl hy⟩
    · exact ⟨arr, found, h, rfl, o.congr e, fun y hy => .inl hy⟩

theorem own_matchMem {c d : Nat → Nat} (method url : Bytes) (eps : List Endpoint) {h : Heap} {arr : P} {found : List EpCopy}
    (hm : ∀ ep ∈ eps, ep.method ≠ none) (o : Own h c) (e : ∀ n, c n = cA arr n + (cEps found n + d n)) :
    ∃ arr' found' h', matchMem h method url arr found eps = .ok (arr', found', h') ∧ Own h' (fun n => cA arr' n + (cEps found' n + d n)) ∧
      (∀ x ∈ found', x ∈ found ∨ x.of ∈ eps) := by
  induction eps generalizing h arr found c with
  | nil => exact ⟨arr, found, h, rfl, o.congr e, fun y hy => .inl hy⟩
  | cons ep t ih =>
    obtain ⟨arr1, f1, h1, e1, o1, m1⟩ := own_matchOne method url (hm ep (by simp)) o e
    obtain ⟨arr2, f2, h2, e2, o2, m2⟩ := ih (fun x hx => hm x (by simp [hx])) o1 (fun _ => rfl)
    refine ⟨arr2, f2, h2, by simp [matchMem, e1, e2], o2, ?_⟩
    intro y hy
    rcases m2 y hy with h0 | h0
    · rcases m1 y h0 with h3 | h3
      · exact .inl h3
      · exact .inr (by simp [h3])
    · exact .inr (by simp [h0])

theorem own_endpointMatchMem {h : Heap} {c : Nat → Nat} (method url : Bytes) (eps : List Endpoint) (sort : List EpCopy → List EpCopy)
    (hs : ∀ l, (sort l).Perm l) (hm : ∀ ep ∈ eps, ep.method ≠ none) (o : Own h c) :
    ∃ arr found h', endpointMatchMem h method url eps sort = .ok (arr, found, h') ∧ Own h' (fun n => cA arr n + (cEps found n + c n)) ∧
      (∀ x ∈ found, x.of ∈ eps) := by
  obtain ⟨arr, h1, e1, o1, -⟩ := own_malloc o
  obtain ⟨w, h2, e2, o2⟩ := own_splitMem (some url) none o1
  obtain ⟨arr3, f3, h3, e3, o3, m3⟩ := own_matchMem (arr := arr) (found := []) (d := fun n => cWd w n + c n) method url eps hm o2 (by
    intro n; simp only [cEps]; omega)
  obtain ⟨h4, e4, o4⟩ := own_cleanEnum (w := w) (d := fun n => cA arr3 n + (cEps f3 n + c n)) o3 (by intro n; omega)
  refine ⟨arr3, sort f3, h4, by simp [endpointMatchMem, e1, e2, e3, e4], o4.congr ?_, ?_⟩
  · intro n; rw [cEps_perm (hs f3) n]
  · intro x hx
    rcases m3 x ((hs f3).mem_iff.1 hx) with h0 | h0
    · cases h0
    · exact h0

theorem own_freeEndpoints {c d : Nat → Nat} {arr : P} (cs : List EpCopy) {h : Heap} (o : Own h c) (e : ∀ n, c n = cA arr n + (cEps cs n + d n)) :
    ∃ h', freeEndpoints h arr cs = .ok h' ∧ Own h' d := by
  induction cs generalizing h c with
  | nil =>
    obtain ⟨h1, e1, o1⟩ := own_freeA (p := arr) (d := d) o (by intro n; rw [e n]; simp only [cEps]; omega)
    exact ⟨h1, by simp [freeEndpoints, e1], o1⟩
  | cons x t ih =>
    have hn : need h x.box = .ok () := own_need (d := fun n => cA arr n + (cP x.method n + cP x.pfx n + cP x.format n + cEps t n + d n)) o (by
      intro n; rw [e n]; simp only [cEps, cEp]; omega)
    have hb := P_eq (p := x.box) (d := fun n => cA arr n + (cP x.method n + cP x.pfx n + cP x.format n + cEps t n + d n)) o (by
      intro n; rw [e n]; simp only [cEps, cEp]; omega)
    obtain ⟨h1, e1, o1⟩ := own_freeAll (d := fun n => cA arr n + (cEps t n + d n)) [x.method, x.pfx, x.format, x.box] o (by
      intro n; rw [e n]; simp only [cEps, cEp, cL]; have := hb n; omega)
    obtain ⟨h2, e2, o2⟩ := ih o1 (fun _ => rfl)
    exact ⟨h2, by simp [freeEndpoints, hn, e1, e2], o2⟩

/-! ## URL parameters -/

theorem strdup_head {h h' : Heap} {us : List Bytes} {w : P} (e : strdup h us.head? = (w, h')) (hu : us ≠ []) : w ≠ .null :=
  strdup_some e (by cases us with | nil => exact absurd rfl hu | cons _ _ => simp)

theorem own_skipMem {c d : Nat → Nat} (ps us : List Bytes) {h : Heap} {cur : P} (hc : us ≠ [] → cur ≠ .null) (o : Own h c)
    (e : ∀ n, c n = cP cur n + d n) :
    ∃ w h', skipMem h cur ps us = .ok (w, h') ∧ Own h' (fun n => cP w n + d n) ∧ (skipPrefix ps us ≠ [] → w ≠ .null) := by
  induction ps generalizing h cur us c with
  | nil => exact ⟨cur, h, by cases us <;> rfl, o.congr e, by simpa [skipPrefix] using hc⟩
  | cons p ps ih =>
    cases us with
    | nil => exact ⟨cur, h, rfl, o.congr e, by simp [skipPrefix]⟩
    | cons u us =>
      obtain ⟨h1, e1, o1⟩ := own_free o e
      obtain ⟨w, h2, e2, o2, -⟩ := own_strdup o1 us.head?
      obtain ⟨w3, h3, e3, o3, n3⟩ := ih us (strdup_head e2) o2 (fun _ => rfl)
      exact ⟨w3, h3, by simp [skipMem, e1, e2, e3], o3, by simpa [skipPrefix] using n3⟩

/-- No parameter of the format has an empty name. -/
def Named (fmt : List Bytes) : Prop := ∀ f ∈ fmt, (byte0 f == 0x3a || byte0 f == 0x40) = true → f.drop 1 ≠ []

/-- One parameter. -/
theorem own_param (check : Bool) {h : Heap} {c d : Nat → Nat} {m : RMap} {f u : Bytes}
    (hf : (byte0 f == 0x3a || byte0 f == 0x40) = true → f.drop 1 ≠ []) (o : Own h c) (e : ∀ n, c n = cM m n + d n) :
    ∃ m' h', (if (byte0 f == 0x3a || byte0 f == 0x40) && (!check || utf8Ok (decoded u)) then (do
        let old ← seek h (f.drop 1) m.entries
        if old.isSome then do
          let (c, h) := malloc h
          let (rc, m, h) ← putBinary h m (some (f.drop 1)) true (old.getD 0 + 1 + (decoded u).length)
          let h ← (if rc = .ok then free h c else .ok h)
          return (decide (rc = .ok), m, h)
        else do
          let (rc, m, h) ← put h m (some (f.drop 1)) (some (decoded u))
          return (decide (rc = .ok), m, h))
      else Res.ok (true, m, h)) = .ok (true, m', h') ∧ m'.box = m.box ∧ Own h' (fun n => cM m' n + d n) := by
  split
  · rename_i hc
    have hk := hf (by simp only [Bool.and_eq_true] at hc; exact hc.1)
    obtain ⟨x, ex⟩ := own_seekM (f.drop 1) o e
    rw [ex]
    simp only [Res.ok_bind]
    split
    · obtain ⟨t, h1, rc, m', h2, h3, e1, e2, e3, b2, o3⟩ := own_putTemp (some (f.drop 1)) (x.getD 0 + 1 + (decoded u).length) o e
      have hr := putBinary_ok hk e2
      exact ⟨m', h3, by simp [-List.drop_one, e1, e2, hr, e3], b2, o3⟩
    · obtain ⟨rc, m', h', e1, b1, o1⟩ := own_putB (m := m) (d := d) (some (f.drop 1)) (some (decoded u)) o e
      have hr : rc = .ok := by
        unfold put at e1
        exact putBinary_ok hk e1
      exact ⟨m', h', by simp [-List.drop_one, e1, hr], b1, o1⟩
  · exact ⟨m, h, rfl, rfl, o.congr e⟩

theorem own_paramMem (check : Bool) {c d : Nat → Nat} (fmt us : List Bytes) {h : Heap} {m : RMap} {cur : P} (hf : Named fmt)
    (hc : us ≠ [] → cur ≠ .null) (o : Own h c) (e : ∀ n, c n = cM m n + (cP cur n + d n)) :
    ∃ w m' h', paramMem check h m cur fmt us = .ok (true, w, m', h') ∧ m'.box = m.box ∧ Own h' (fun n => cM m' n + (cP w n + d n)) := by
  induction fmt generalizing h m cur us c with
  | nil => exact ⟨cur, m, h, by cases us <;> rfl, rfl, o.congr e⟩
  | cons f fs ih =>
    cases us with
    | nil => exact ⟨cur, m, h, rfl, rfl, o.congr e⟩
    | cons u us =>
      have hn : need h cur = .ok () := own_needP (d := fun n => cM m n + d n) o (hc (by simp)) (by intro n; rw [e n]; omega)
      obtain ⟨m1, h1, e1, b1, o1⟩ := own_param check (m := m) (f := f) (u := u) (d := fun n => cP cur n + d n) (hf f (by simp)) o e
      obtain ⟨h2, e2, o2⟩ := own_free (p := cur) (d := fun n => cM m1 n + d n) o1 (by intro n; omega)
      obtain ⟨w, h3, e3, o3, -⟩ := own_strdup o2 us.head?
      obtain ⟨w4, m4, h4, e4, b4, o4⟩ := ih us (m := m1) (cur := w) (fun x hx => hf x (by simp [hx])) (strdup_head e3) o3 (by intro n; omega)
      refine ⟨w4, m4, h4, ?_, b4.trans b1, o4⟩
      unfold paramMem
      rw [hn]
      simp only [Res.ok_bind]
      rw [e1]
      simp [e2, e3, e4]

theorem own_parseMem (check : Bool) {h : Heap} {c d : Nat → Nat} {m : RMap} (url : Bytes) (ep : Endpoint)
    (hf : Named ((ep.format.map slashWords).getD [])) (o : Own h c) (e : ∀ n, c n = cM m n + d n) :
    ∃ m' h', parseMem check h m url ep = .ok (m', h') ∧ Own h' (fun n => cM m' n + d n) := by
  obtain ⟨u, h1, e1, o1, q1⟩ := own_malloc o
  obtain ⟨p, h2, e2, o2, -⟩ := own_strdup o1 ep.pfx
  obtain ⟨w, h3, e3, o3, -⟩ := own_strdup o2 (slashWords url).head?
  obtain ⟨w4, h4, e4, o4, n4⟩ := own_skipMem (d := fun n => cP p n + (cA u n + c n)) ((ep.pfx.map slashWords).getD []) (slashWords url) (strdup_head e3) o3
    (fun _ => rfl)
  obtain ⟨h5, e5, o5⟩ := own_free (p := p) (d := fun n => cP w4 n + (cA u n + c n)) o4 (by intro n; omega)
  obtain ⟨f, h6, e6, o6, -⟩ := own_strdup o5 ep.format
  obtain ⟨w7, m7, h7, e7, b7, o7⟩ := own_paramMem check (m := m) (cur := w4) (d := fun n => cP f n + (cA u n + d n)) ((ep.format.map slashWords).getD [])
    (skipPrefix ((ep.pfx.map slashWords).getD []) (slashWords url)) hf n4 o6 (by intro n; rw [e n]; omega)
  obtain ⟨h8, e8, o8⟩ := own_freeAll (d := fun n => cM m7 n + d n) [w7, u, f] o7 (by intro n; simp only [cL]; have := q1 n; omega)
  exact ⟨m7, h8, by simp [parseMem, e1, e2, e3, e4, e5, e6, e7, e8], o8⟩

end Verif.Memory
