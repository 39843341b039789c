import Verif.Model.Live
import Verif.Lemmas.MemoryEndpoints
import Verif.Lemmas.Endpoint
/-! # Lemmas about endpoint lists that change while requests are served -/
namespace Verif.Live
open Verif.Memory Verif.Endpoint Verif.Spec.Routing

def cSl (x : Slot) (n : Nat) : Nat := cP x.mp n + cP x.pp n + cP x.fp n

def cSls : List Slot → Nat → Nat
  | [], _ => 0
  | x :: t, n => cSl x n + cSls t n

theorem cSls_append (a b : List Slot) (n : Nat) : cSls (a ++ b) n = cSls a n + cSls b n := by
  induction a with
  | nil => simp [cSls]
  | cons p t ih => simp [cSls, ih]; omega

def cI (s : Inst) (n : Nat) : Nat := cP s.arr n + cSls s.slots n

/-- The instance holds the endpoints `l`. -/
inductive Reg : Inst → List Endpoint → Prop
  | none : Reg {} []
  | some (m : Nat) (ls : List Slot) (z : Endpoint) (hz : Null z) : Reg ⟨.at m, ls ++ [⟨z, .null, .null, .null⟩], ls.length⟩ (ls.map (·.e))

theorem own_copySlot {h : Heap} {c : Nat → Nat} (o : Own h c) (e : Endpoint) :
    ∃ x h', copySlot h e = (x, h') ∧ x.e = e ∧ Own h' (fun n => cSl x n + c n) := by
  obtain ⟨m, h1, e1, o1, -⟩ := own_strdup o e.method
  obtain ⟨p, h2, e2, o2, -⟩ := own_strdup o1 e.pfx
  obtain ⟨f, h3, e3, o3, -⟩ := own_strdup o2 e.format
  exact ⟨⟨e, m, p, f⟩, h3, by simp [copySlot, e1, e2, e3], rfl, o3.congr (by intro n; simp only [cSl]; omega)⟩

theorem copySlot_empty (h : Heap) : copySlot h emptyEndpoint = (⟨emptyEndpoint, .null, .null, .null⟩, h) := rfl

theorem null_empty : Null emptyEndpoint := ⟨rfl, rfl, rfl⟩

theorem own_at {h : Heap} {c : Nat → Nat} (o : Own h c) : ∃ m h', malloc h = (.at m, h') ∧ Own h' (fun n => cP (.at m) n + c n) := by
  obtain ⟨p, h', e, o', -⟩ := own_malloc o
  cases e
  exact ⟨_, _, rfl, o'⟩

theorem own_add {h : Heap} {c d : Nat → Nat} {s : Inst} {l : List Endpoint} {e : Endpoint} (r : Reg s l) (hv : isValid e false = true)
    (o : Own h c) (he : ∀ n, c n = cI s n + d n) :
    ∃ s' h', addMem h s e = .ok (true, s', h') ∧ Reg s' (l ++ [e]) ∧ Own h' (fun n => cI s' n + d n) := by
  unfold addMem
  rw [if_pos hv]
  cases r with
  | none =>
    obtain ⟨m, h1, e1, o1⟩ := own_at o
    obtain ⟨x, h2, e2, ex, o2⟩ := own_copySlot o1 e
    refine ⟨⟨.at m, [x] ++ [⟨emptyEndpoint, .null, .null, .null⟩], 1⟩, h2, ?_, ?_, o2.congr ?_⟩
    · simp [e1, e2, copySlot_empty, aset]
    · have := Reg.some m [x] emptyEndpoint null_empty
      simpa [ex] using this
    · intro n; rw [he n]; simp only [cI, cSls, cP, cSl, List.cons_append, List.nil_append]; omega
  | some k ls z hz =>
    obtain ⟨h0, e0, o0⟩ := own_free (p := .at k) (d := fun n => cSls ls n + d n) o (by
      intro n; rw [he n]; simp only [cI, cSls_append, cSls, cSl, cP]; omega)
    obtain ⟨m, h1, e1, o1⟩ := own_at o0
    obtain ⟨x, h2, e2, ex, o2⟩ := own_copySlot o1 e
    refine ⟨⟨.at m, (ls ++ [x]) ++ [⟨emptyEndpoint, .null, .null, .null⟩], (ls ++ [x]).length⟩, h2, ?_, ?_, o2.congr ?_⟩
    · have hr : realloc h (.at k) = .ok (.at m, h1) := by simp [realloc, e0, e1]
      rw [if_neg (by simp)]
      simp only [hr, Res.ok_bind, if_neg (show ¬ P.at k = P.null by simp), e2, copySlot_empty]
      have t1 : (ls ++ [(⟨z, .null, .null, .null⟩ : Slot)] ++ [unwritten, unwritten]).take (ls.length + 1 + 1) = ls ++ [(⟨z, .null, .null, .null⟩ : Slot), unwritten] := by
        rw [List.append_assoc, List.take_append, List.take_of_length_le (by omega), show ls.length + 1 + 1 - ls.length = 2 by omega]
        rfl
      rw [t1]
      unfold aset
      rw [if_pos (show ls.length + 1 - 1 < (ls ++ [(⟨z, .null, .null, .null⟩ : Slot), unwritten]).length by simp)]
      simp only [Res.ok_bind]
      rw [if_pos (by simp)]
      simp [List.set_append]
    · have := Reg.some m (ls ++ [x]) emptyEndpoint null_empty
      simpa [ex] using this
    · intro n; simp only [cI, cSls_append, cSls, cSl, cP]; omega

theorem own_readP {h : Heap} {c d : Nat → Nat} {p : P} (o : Own h c) (e : ∀ n, c n = cP p n + d n) : readP h p = .ok () := by
  cases p with
  | null => rfl
  | junk => have := o 0; have e0 := e 0; simp only [cP] at e0; omega
  | «at» m => exact own_need (p := .at m) o e

theorem getElem_split {α : Type} {l : List α} {i : Nat} {x : α} (h : l[i]? = some x) : ∃ a b, l = a ++ x :: b ∧ a.length = i := by
  obtain ⟨hi, e⟩ := List.getElem?_eq_some_iff.1 h
  refine ⟨l.take i, l.drop (i + 1), ?_, by rw [List.length_take]; omega⟩
  rw [← e]
  simp

theorem own_removeLoop (e : Endpoint) (d : Nat → Nat) : ∀ (i : Nat) {h : Heap} {c : Nat → Nat} {m : Nat} {ls : List Slot} {z : Endpoint} (found : Bool),
    Null z → i ≤ ls.length → Own h c → (∀ n, c n = cI ⟨.at m, ls ++ [⟨z, .null, .null, .null⟩], ls.length⟩ n + d n) →
    ∃ f' m' ls' h', removeLoopMem e i h ⟨.at m, ls ++ [⟨z, .null, .null, .null⟩], ls.length⟩ found =
        .ok (f', ⟨.at m', ls' ++ [⟨z, .null, .null, .null⟩], ls'.length⟩, h') ∧
      ls'.map (·.e) = ((ls.take i).filter (fun x => !hit e x.e) ++ ls.drop i).map (·.e) ∧
      Own h' (fun n => cI ⟨.at m', ls' ++ [⟨z, .null, .null, .null⟩], ls'.length⟩ n + d n) := by
  intro i
  induction i with
  | zero =>
    intro h c m ls z found _ _ o he
    exact ⟨found, m, ls, h, rfl, by simp, o.congr he⟩
  | succ i ih =>
    intro h c m ls z found hz hi o he
    have hn : need h (.at m) = .ok () := own_need (d := fun n => cSls (ls ++ [⟨z, .null, .null, .null⟩]) n + d n) o (by
      intro n; rw [he n]; simp only [cI, cP, cA]; omega)
    have hlt : i < ls.length := by omega
    have hx : (ls ++ [⟨z, .null, .null, .null⟩])[i]? = some ls[i] := by
      rw [List.getElem?_append_left hlt]; exact List.getElem?_eq_getElem hlt
    generalize hxx : ls[i] = x at hx
    obtain ⟨a, b, hab, hal⟩ := getElem_split (l := ls) (x := x) (by rw [List.getElem?_eq_getElem hlt, hxx])
    subst hab
    subst hal
    unfold removeLoopMem
    simp only [hn, Res.ok_bind, hx]
    obtain ⟨p, h1, e1, o1⟩ := own_copyP (p := x.pp)
      (d := fun n => cP (.at m) n + cSls a n + cP x.mp n + cP x.fp n + cSls b n + d n) o (by
        intro n; rw [he n]; simp only [cI, cSls_append, cSls, cSl, cP]; omega)
    obtain ⟨f, h2, e2, o2⟩ := own_copyP (p := x.fp)
      (d := fun n => cP p n + cP (.at m) n + cSls a n + cP x.mp n + cP x.pp n + cSls b n + d n) o1 (by
        intro n; have := he n; simp only [cI, cSls_append, cSls, cSl, cP] at this ⊢; omega)
    have hr : readP h2 x.mp = .ok () := own_readP (d := fun n => cP f n + cP p n + cP (.at m) n + cSls a n + cP x.fp n + cP x.pp n + cSls b n + d n) o2 (by
        intro n; have := he n; simp only [cI, cSls_append, cSls, cSl, cP] at this ⊢; omega)
    simp only [e1, e2, hr, Res.ok_bind]
    have hh : (x.e.method == e.method && sameTrim x.e.pfx e.pfx && sameTrim x.e.format e.format) = hit e x.e := rfl
    rw [hh]
    have ht : (a ++ x :: b).take (a.length + 1) = a ++ [x] := by
      rw [List.take_append, List.take_of_length_le (by omega), show a.length + 1 - a.length = 1 by omega]
      rfl
    have hd : (a ++ x :: b).drop (a.length + 1) = b := by
      rw [List.drop_append]; simp
    by_cases hit1 : hit e x.e = true
    · rw [if_pos hit1]
      obtain ⟨h3, e3, o3⟩ := own_freeAll (d := fun n => cP (.at m) n + (cP p n + cP f n + cSls a n + cSls b n + d n)) [x.mp, x.pp, x.fp] o2 (by
        intro n; have := he n; simp only [cI, cSls_append, cSls, cSl, cP, cL] at this ⊢; omega)
      obtain ⟨h4, e4, o4⟩ := own_free o3 (fun _ => rfl)
      obtain ⟨m', h5, e5, o5⟩ := own_at o4
      have hre : realloc h3 (.at m) = .ok (.at m', h5) := by simp [realloc, e4, e5]
      obtain ⟨h6, e6, o6⟩ := own_freeAll (d := fun n => cI ⟨.at m', (a ++ b) ++ [⟨z, .null, .null, .null⟩], (a ++ b).length⟩ n + d n) [p, f] o5 (by
        intro n; simp only [cI, cSls_append, cSls, cSl, cP, cL]; omega)
      obtain ⟨f', m'', ls', h', e7, s7, o7⟩ := ih (ls := a ++ b) (z := z) true hz (by simp) o6 (fun _ => rfl)
      refine ⟨f', m'', ls', h', ?_, ?_, o7⟩
      · simp only [e3, hre, e6, Res.ok_bind]
        have her : (a ++ x :: b ++ [(⟨z, .null, .null, .null⟩ : Slot)]).eraseIdx a.length = (a ++ b) ++ [⟨z, .null, .null, .null⟩] := by
          rw [List.append_assoc, List.eraseIdx_append_of_length_le (Nat.le_refl _)]
          simp
        have hln : (a ++ x :: b).length - 1 = (a ++ b).length := by simp
        rw [her, hln]
        exact e7
      · rw [s7, ht, hd]
        simp [hit1]
    · rw [if_neg hit1]
      obtain ⟨h6, e6, o6⟩ := own_freeAll (d := fun n => cI ⟨.at m, (a ++ x :: b) ++ [⟨z, .null, .null, .null⟩], (a ++ x :: b).length⟩ n + d n) [p, f] o2 (by
        intro n; have := he n; simp only [cL]; omega)
      obtain ⟨f', m'', ls', h', e7, s7, o7⟩ := ih (ls := a ++ x :: b) (z := z) found hz (by simp) o6 (fun _ => rfl)
      refine ⟨f', m'', ls', h', ?_, ?_, o7⟩
      · simp only [e6, Res.ok_bind]
        exact e7
      · rw [s7, ht, hd]
        simp [hit1]

theorem own_remove {h : Heap} {c d : Nat → Nat} {s : Inst} {l : List Endpoint} {e : Endpoint} (r : Reg s l)
    (hv : (!equals e emptyEndpoint && isValid e true) = true) (o : Own h c) (he : ∀ n, c n = cI s n + d n) :
    ∃ b s' h', removeMem h s e = .ok (b, s', h') ∧ Reg s' (l.filter (fun x => !hit e x)) ∧ Own h' (fun n => cI s' n + d n) := by
  unfold removeMem
  rw [if_pos hv]
  obtain ⟨p, h1, e1, o1, -⟩ := own_strdup o e.pfx
  obtain ⟨f, h2, e2, o2, -⟩ := own_strdup o1 e.format
  simp only [e1, e2]
  cases r with
  | none =>
    obtain ⟨h3, e3, o3⟩ := own_freeAll (d := fun n => cI {} n + d n) [p, f] o2 (by intro n; have := he n; simp only [cL]; omega)
    exact ⟨false, {}, h3, by simp [removeLoopMem, e3], .none, o3⟩
  | some m ls z hz =>
    obtain ⟨f', m', ls', h3, e3, s3, o3⟩ := own_removeLoop e (fun n => cP p n + cP f n + d n) ls.length (ls := ls) (m := m) false hz (Nat.le_refl _) o2 (by
      intro n; have := he n; omega)
    obtain ⟨h4, e4, o4⟩ := own_freeAll (d := fun n => cI ⟨.at m', ls' ++ [⟨z, .null, .null, .null⟩], ls'.length⟩ n + d n) [p, f] o3 (by
      intro n; simp only [cL]; omega)
    refine ⟨f', _, h4, ?_, ?_, o4⟩
    · rw [e3]; simp [e4]
    · have := Reg.some m' ls' z hz
      rw [s3] at this
      simpa [List.filter_map, Function.comp_def] using this

theorem own_cleanSlots {d : Nat → Nat} : ∀ (ls : List Slot) {h : Heap} {c : Nat → Nat} {z : Endpoint}, Null z → (∀ x ∈ ls, x.e.method ≠ none) →
    Own h c → (∀ n, c n = cSls ls n + d n) →
    ∃ h', cleanSlots h (ls ++ [⟨z, .null, .null, .null⟩]) = .ok h' ∧ Own h' d := by
  intro ls
  induction ls with
  | nil =>
    intro h c z hz _ o he
    exact ⟨h, by simp [cleanSlots, hz.1], o.congr (by intro n; rw [he n]; simp [cSls])⟩
  | cons x t ih =>
    intro h c z hz hm o he
    obtain ⟨h1, e1, o1⟩ := own_freeAll (d := fun n => cSls t n + d n) [x.mp, x.pp, x.fp] o (by
      intro n; rw [he n]; simp only [cSls, cSl, cL]; omega)
    obtain ⟨h2, e2, o2⟩ := ih hz (fun y hy => hm y (List.mem_cons_of_mem _ hy)) o1 (fun _ => rfl)
    refine ⟨h2, ?_, o2⟩
    rw [List.cons_append, cleanSlots, if_neg (hm x List.mem_cons_self), e1, Res.ok_bind, e2]

theorem own_clean {h : Heap} {c d : Nat → Nat} {s : Inst} {l : List Endpoint} (r : Reg s l) (hm : ∀ x ∈ l, x.method ≠ none)
    (o : Own h c) (he : ∀ n, c n = cI s n + d n) : ∃ h', cleanList h s = .ok h' ∧ Own h' d := by
  unfold cleanList
  cases r with
  | none =>
    exact ⟨h, rfl, o.congr (by intro n; rw [he n]; simp [cI, cP, cSls])⟩
  | some m ls z hz =>
    rw [if_neg (by simp)]
    have hn : need h (.at m) = .ok () := own_need (d := fun n => cSls (ls ++ [⟨z, .null, .null, .null⟩]) n + d n) o (by
      intro n; rw [he n]; simp only [cI, cP, cA]; omega)
    obtain ⟨h1, e1, o1⟩ := own_cleanSlots ls (d := fun n => cP (.at m) n + d n) hz
      (fun x hx => hm x.e (List.mem_map.2 ⟨x, hx, rfl⟩)) o (by
      intro n; rw [he n]; simp only [cI, cSls_append, cSls, cSl, cP]; omega)
    obtain ⟨h2, e2, o2⟩ := own_free o1 (fun _ => rfl)
    exact ⟨h2, by simp [hn, e1, e2], o2⟩

/-- `own_matchOne` with the endpoints of the copies. -/
theorem own_matchSel {h : Heap} {c d : Nat → Nat} (method url : Bytes) {arr : P} {found : List EpCopy} {ep : Endpoint} (hm : ep.method ≠ none)
    (o : Own h c) (e : ∀ n, c n = cA arr n + (cEps found n + d n)) :
    ∃ arr' found' h', matchOne h method url arr found ep = .ok (arr', found', h') ∧ Own h' (fun n => cA arr' n + (cEps found' n + d n)) ∧
      found'.map (·.of) = found.map (·.of) ++ [ep].filter (sel method url) := by
  cases hx : ep.method with
  | none => exact absurd hx hm
  | some m =>
    unfold matchOne
    rw [hx]
    simp only
    split
    · rename_i hs
      obtain ⟨w, h1, e1, o1⟩ := own_splitMem ep.pfx ep.format o
      rw [e1]
      simp only [Res.ok_bind]
      split
      · rename_i hf
        obtain ⟨arr', h2, e2, o2, -⟩ := own_reallocA (p := arr) (d := fun n => cWd w n + (cEps found n + d n)) o1 (by intro n; rw [e n]; omega)
        obtain ⟨box, h3, e3, o3, -⟩ := own_malloc o2
        obtain ⟨x, h4, e4, of4, o4⟩ := own_copyEndpoint (d := fun n => cA arr' n + (cWd w n + (cEps found n + d n))) box ep o3 (fun _ => rfl)
        obtain ⟨h5, e5, o5⟩ := own_cleanEnum (w := w) (d := fun n => cA arr' n + (cEps (found ++ [x]) n + d n)) o4 (by
          intro n; rw [cEps_append]; simp only [cEps]; omega)
        refine ⟨arr', found ++ [x], h5, by simp [e2, e3, e4, e5, cleanEnum_none], o5, ?_⟩
        have : sel method url ep = true := by unfold sel; rw [hx]; simp only [Option.getD_some, hs, hf, Bool.and_self]
        simp [this, of4]
      · rename_i hf
        obtain ⟨h5, e5, o5⟩ := own_cleanEnum (w := w) (d := c) o1 (fun _ => rfl)
        have : sel method url ep = false := by unfold sel; rw [Bool.eq_false_iff.2 hf, Bool.and_false]
        exact ⟨arr, found, h5, by simp [e5], o5.congr e, by simp [this]⟩
    · rename_i hs
      have : sel method url ep = false := by unfold sel; rw [hx]; simp only [Option.getD_some, Bool.eq_false_iff.2 hs, Bool.false_and]
      exact ⟨arr, found, h, rfl, o.congr e, by simp [this]⟩

/-! ## The requests -/

/-- The blocks of a request. -/
def cSt : Stage → Nat → Nat
  | .matching _ _ arr w found, n => cA arr n + cWd w n + cEps found n
  | .calling arr all _ _ _, n => cA arr n + cEps all n
  | .done _ _, _ => 0

def cRs : List Request → Nat → Nat
  | [], _ => 0
  | r :: t, n => cSt r.stage n + cRs t n

theorem cRs_append (a b : List Request) (n : Nat) : cRs (a ++ b) n = cRs a n + cRs b n := by
  induction a with
  | nil => simp [cRs]
  | cons p t ih => simp [cRs, ih]; omega

theorem cRs_set {l : List Request} {i : Nat} {r : Request} (r' : Request) (hr : l[i]? = some r) (n : Nat) :
    cRs (l.set i r') n + cSt r.stage n = cRs l n + cSt r'.stage n := by
  induction l generalizing i with
  | nil => simp at hr
  | cons x t ih =>
    cases i with
    | zero =>
      simp only [List.getElem?_cons_zero, Option.some.injEq] at hr
      subst hr
      simp only [List.set_cons_zero, cRs]; omega
    | succ i =>
      have := ih (by simpa using hr)
      simp only [List.set_cons_succ, cRs]; omega

/-- Which endpoints there are after a change. -/
def step (l : List Endpoint) : Change → List Endpoint
  | .add e => if isValid e false then l ++ [e] else l
  | .remove e => if !equals e emptyEndpoint && isValid e true then l.filter (fun x => !hit e x) else l

/-- Only the last callback may have ended the loop. -/
def Ends (close : Bool) (called : List (Endpoint × Bool)) : Prop :=
  (close = true → ∃ init e, called = init ++ [(e, true)] ∧ ∀ x ∈ init, x.2 = false) ∧ (close = false → ∀ x ∈ called, x.2 = false)

/-- A request that began when the endpoints `b` were registered; now they are `l`. -/
def ReqOk (inst : Inst) (l : List Endpoint) (r : Request) (b : List Endpoint) : Prop :=
  match r.stage with
  | .matching list k _ _ found => list = inst.arr ∧ inst.arr ≠ .null ∧ b = l ∧ k ≤ l.length ∧ found.map (·.of) = (l.take k).filter (sel r.method r.url)
  | .calling _ all left close called => Sorted (b.filter (sel r.method r.url)) (all.map (·.of)) ∧ Ends close called ∧
      ∃ pre, all = pre ++ left ∧ called.map (·.1) = pre.map (·.of)
  | .done close called => ∃ rr, Sorted (b.filter (sel r.method r.url)) rr ∧ Ends close called ∧ called.map (·.1) <+: rr ∧ (close = false → called.map (·.1) = rr)

/-- A request that reads the list. -/
def Looks (r : Request) : Prop := ∃ list k arr w found, r.stage = .matching list k arr w found

theorem ends_nil : Ends false [] := ⟨(fun h => by cases h), (fun _ x hx => by cases hx)⟩

theorem ends_add {called : List (Endpoint × Bool)} (h : ∀ x ∈ called, x.2 = false) (e : Endpoint) (stop : Bool) : Ends stop (called ++ [(e, stop)]) := by
  refine ⟨?_, ?_⟩
  · intro hs; subst hs; exact ⟨called, e, rfl, h⟩
  · intro hs x hx
    rcases List.mem_append.1 hx with h0 | h0
    · exact h x h0
    · rw [List.mem_singleton.1 h0]; exact hs

/-- What holds between two actions. -/
structure Good (d : Nat → Nat) (s : Sys) (l : List Endpoint) (bs : List (List Endpoint)) : Prop where
  reg : Reg s.inst l
  meth : ∀ x ∈ l, x.method ≠ none
  own : Own s.h (fun n => cI s.inst n + cRs s.reqs n + d n)
  len : bs.length = s.reqs.length
  reqs : ∀ (i : Nat) r b, s.reqs[i]? = some r → bs[i]? = some b → ReqOk s.inst l r b
  wr : ∀ e, s.writer = some (.add e) → ¬ Null e
  idle : s.writer ≠ none → ∀ r ∈ s.reqs, ¬ Looks r

/-- When an action is allowed. -/
def Calm (s : Sys) : Act → Prop
  | .request _ _ => s.writer = none
  | .look _ => s.writer = none
  | .change c => s.writer = none ∧ (∀ r ∈ s.reqs, ¬ Looks r) ∧ ∀ e, c = .add e → ¬ Null e
  | _ => True

/-- The sort of `qsort`. -/
def Sorts (sort : List EpCopy → List EpCopy) : Prop :=
  ∀ l, (sort l).Perm l ∧ (sort l).Pairwise (fun a b => a.of.priority ≤ b.of.priority)

theorem sorts_of {sort : List EpCopy → List EpCopy} (hs : Sorts sort) (l : List EpCopy) : Sorted (l.map (·.of)) ((sort l).map (·.of)) :=
  ⟨((hs l).1.map _).symm, List.pairwise_map.2 (hs l).2⟩

theorem reg_null {s : Inst} {l : List Endpoint} (r : Reg s l) (h : s.arr = .null) : l = [] := by
  cases r with
  | none => rfl
  | some m ls z hz => simp at h

theorem reg_junk {s : Inst} {l : List Endpoint} (r : Reg s l) : s.arr ≠ .junk := by
  cases r <;> simp

theorem reg_get {s : Inst} {l : List Endpoint} (r : Reg s l) (h : s.arr ≠ .null) {k : Nat} (hk : k ≤ l.length) :
    ∃ x, s.slots[k]? = some x ∧ (k < l.length → l[k]? = some x.e) ∧ (k = l.length → Null x.e) ∧
      ∀ p ∈ [x.mp, x.pp, x.fp], ∃ d : Nat → Nat, ∀ n, cI s n = cP p n + d n := by
  cases r with
  | none => exact absurd rfl h
  | some m ls z hz =>
    rw [List.length_map] at hk
    rcases Nat.lt_or_ge k ls.length with hlt | hge
    · refine ⟨ls[k], ?_, ?_, ?_, ?_⟩
      · rw [List.getElem?_append_left hlt, List.getElem?_eq_getElem hlt]
      · intro _; rw [List.getElem?_map, List.getElem?_eq_getElem hlt]; rfl
      · intro he; rw [List.length_map] at he; omega
      · intro p hp
        obtain ⟨a, b, hab, -⟩ := getElem_split (List.getElem?_eq_getElem hlt)
        generalize ls[k] = x at hab hp
        subst hab
        simp only [List.mem_cons, List.not_mem_nil, or_false] at hp
        rcases hp with rfl | rfl | rfl
        · exact ⟨fun n => cP (.at m) n + cSls a n + cP x.pp n + cP x.fp n + cSls b n, by intro n; simp only [cI, cSls_append, cSls, cSl, cP]; omega⟩
        · exact ⟨fun n => cP (.at m) n + cSls a n + cP x.mp n + cP x.fp n + cSls b n, by intro n; simp only [cI, cSls_append, cSls, cSl, cP]; omega⟩
        · exact ⟨fun n => cP (.at m) n + cSls a n + cP x.mp n + cP x.pp n + cSls b n, by intro n; simp only [cI, cSls_append, cSls, cSl, cP]; omega⟩
    · have hk' : k = ls.length := by omega
      subst hk'
      refine ⟨⟨z, .null, .null, .null⟩, by simp, ?_, fun _ => hz, ?_⟩
      · intro h0; rw [List.length_map] at h0; omega
      · intro p hp
        simp only [List.mem_cons, List.not_mem_nil, or_false, or_self] at hp
        subst hp
        exact ⟨fun n => cI ⟨.at m, ls ++ [⟨z, .null, .null, .null⟩], ls.length⟩ n, by intro n; simp only [cP]; omega⟩

/-- Request `i` moves on to `r'`. -/
theorem good_put {d : Nat → Nat} {s : Sys} {l : List Endpoint} {bs : List (List Endpoint)} (g : Good d s l bs) {i : Nat} {r r' : Request} {h : Heap}
    (hr : s.reqs[i]? = some r) (hm : r'.method = r.method) (hu : r'.url = r.url) (o : Own h (fun n => cI s.inst n + cRs (s.reqs.set i r') n + d n))
    (hl : s.writer = none ∨ ¬ Looks r') (hk : ∀ b, bs[i]? = some b → ReqOk s.inst l r' b) : Good d (put s i r' h) l bs where
  reg := g.reg
  meth := g.meth
  own := o
  len := by simp only [put, List.length_set]; exact g.len
  reqs := by
    intro j x b hx hb
    simp only [put] at hx ⊢
    by_cases hij : i = j
    · subst hij
      rw [List.getElem?_set_self (by rw [List.getElem?_eq_some_iff] at hr; exact hr.1), Option.some.injEq] at hx
      subst hx
      exact hk b hb
    · rw [List.getElem?_set_ne hij] at hx
      exact g.reqs j x b hx hb
  wr := g.wr
  idle := by
    intro hw x hx
    rcases hl with h0 | h0
    · exact absurd h0 hw
    · rcases List.mem_or_eq_of_mem_set hx with h1 | h1
      · exact g.idle hw x h1
      · rw [h1]; exact h0

theorem same_put {s : Sys} {i : Nat} {r r' : Request} (h : Heap) (hr : s.reqs[i]? = some r) (hm : r'.method = r.method) (hu : r'.url = r.url) :
    (put s i r' h).reqs.map (fun r => (r.method, r.url)) = s.reqs.map (fun r => (r.method, r.url)) := by
  simp only [put, List.map_set, hm, hu]
  apply List.ext_getElem?
  intro j
  by_cases hij : i = j
  · subst hij
    have hlt := (List.getElem?_eq_some_iff.1 hr).1
    rw [List.getElem?_set_self (by simpa using hlt), List.getElem?_map, hr]; rfl
  · rw [List.getElem?_set_ne hij]

theorem bs_get {d : Nat → Nat} {s : Sys} {l : List Endpoint} {bs : List (List Endpoint)} (g : Good d s l bs) {i : Nat} {r : Request}
    (hr : s.reqs[i]? = some r) : ∃ b, bs[i]? = some b ∧ ReqOk s.inst l r b := by
  have hlt := (List.getElem?_eq_some_iff.1 hr).1
  have hb : bs[i]? = some (bs[i]'(by rw [g.len]; exact hlt)) := List.getElem?_eq_getElem _
  exact ⟨_, hb, g.reqs i r _ hr hb⟩

theorem own_look {d : Nat → Nat} {s : Sys} {l : List Endpoint} {bs : List (List Endpoint)} {sort : List EpCopy → List EpCopy} (hs : Sorts sort)
    (g : Good d s l bs) {i : Nat} {r : Request} (hr : s.reqs[i]? = some r) {list : P} {k : Nat} {arr : P} {w : Words} {found : List EpCopy}
    (hst : r.stage = .matching list k arr w found) (hw : s.writer = none) :
    ∃ r' h', look sort s i r list k arr w found = .ok (put s i r' h') ∧ r'.method = r.method ∧ r'.url = r.url ∧ Good d (put s i r' h') l bs ∧
      ((∃ arr' found', r'.stage = .matching list (k + 1) arr' w found' ∧ k < l.length) ∨ ∃ arr' all, r'.stage = .calling arr' all all false []) := by
  obtain ⟨b, hb, rk⟩ := bs_get g hr
  unfold ReqOk at rk
  rw [hst] at rk
  obtain ⟨rfl, hnn, rfl, hkl, hf⟩ := rk
  have cset := fun (r' : Request) n => cRs_set r' hr n
  rw [hst] at cset
  simp only [cSt] at cset
  obtain ⟨x, hx, hx1, hx2, hx3⟩ := reg_get g.reg hnn hkl
  have hn : need s.h s.inst.arr = .ok () := by
    cases ha : s.inst.arr with
    | null => exact absurd ha hnn
    | junk => exact absurd ha (reg_junk g.reg)
    | «at» m =>
      exact own_need (p := .at m) (d := fun n => cSls s.inst.slots n + cRs s.reqs n + d n) g.own (by
        intro n; simp only [cI, ha, cP, cA]; omega)
  have hp : ∀ p ∈ [x.mp, x.pp, x.fp], readP s.h p = .ok () := by
    intro p hp
    obtain ⟨d', hd'⟩ := hx3 p hp
    exact own_readP (d := fun n => d' n + cRs s.reqs n + d n) g.own (by intro n; simp only [hd' n]; omega)
  unfold look
  rw [hw]
  simp only [hn, hx, hp x.mp (by simp), hp x.pp (by simp), hp x.fp (by simp), Res.ok_bind]
  rcases Nat.lt_or_ge k b.length with hlt | hge
  · have hxe := hx1 hlt
    have hme : x.e.method ≠ none := g.meth x.e (List.mem_of_getElem? hxe)
    have hne : ¬ equals x.e emptyEndpoint = true := by
      rw [equals_empty]; intro h0; exact hme h0.1
    rw [if_neg hne]
    have hex := fun (n : Nat) => cset ⟨r.method, r.url, .done false []⟩ n
    simp only [cSt] at hex
    obtain ⟨arr', found', h', e1, o1, hf1⟩ := own_matchSel r.method r.url (arr := arr) (found := found)
      (d := fun n => cWd w n + cI s.inst n + cRs (s.reqs.set i ⟨r.method, r.url, .done false []⟩) n + d n) hme g.own (by
        intro n; have := hex n; omega)
    refine ⟨{ r with stage := .matching s.inst.arr (k + 1) arr' w found' }, h', ?_, rfl, rfl, ?_, .inl ⟨_, _, rfl, hlt⟩⟩
    · rw [e1]; rfl
    · refine good_put g hr rfl rfl (o1.congr ?_) (.inl hw) ?_
      · intro n
        have h1 := hex n
        have h2 := cset { r with stage := .matching s.inst.arr (k + 1) arr' w found' } n
        simp only [cSt] at h2
        omega
      · intro b' hb'
        rw [hb, Option.some.injEq] at hb'
        subst hb'
        refine ⟨rfl, hnn, rfl, hlt, ?_⟩
        have : b.take (k + 1) = b.take k ++ [x.e] := by
          rw [List.take_add_one, hxe]; rfl
        simp only [this, List.filter_append, hf1, hf]
  · have hk' : k = b.length := by omega
    have hz := hx2 hk'
    rw [if_pos ((equals_empty _).2 hz)]
    have hex := fun (n : Nat) => cset ⟨r.method, r.url, .done false []⟩ n
    simp only [cSt] at hex
    obtain ⟨h', e1, o1⟩ := own_cleanEnum (w := w)
      (d := fun n => cA arr n + cEps found n + cI s.inst n + cRs (s.reqs.set i ⟨r.method, r.url, .done false []⟩) n + d n) g.own (by
        intro n; have := hex n; omega)
    refine ⟨{ r with stage := .calling arr (sort found) (sort found) false [] }, h', ?_, rfl, rfl, ?_, .inr ⟨_, _, rfl⟩⟩
    · rw [e1]; rfl
    · refine good_put g hr rfl rfl (o1.congr ?_) (.inl hw) ?_
      · intro n
        have h1 := hex n
        have h2 := cset { r with stage := .calling arr (sort found) (sort found) false [] } n
        simp only [cSt] at h2
        have h3 := cEps_perm (hs found).1 n
        omega
      · intro b' hb'
        rw [hb, Option.some.injEq] at hb'
        subst hb'
        have h0 := sorts_of hs found
        rw [hf, hk', List.take_length] at h0
        exact ⟨h0, ends_nil, [], rfl, rfl⟩

theorem own_call {d : Nat → Nat} {s : Sys} {l : List Endpoint} {bs : List (List Endpoint)} (sort : List EpCopy → List EpCopy)
    (g : Good d s l bs) {i : Nat} {r : Request} (hr : s.reqs[i]? = some r) {arr : P} {all left : List EpCopy} {close : Bool} {called : List (Endpoint × Bool)}
    (hst : r.stage = .calling arr all left close called) (stop : Bool) :
    ∃ r' h', act sort s (.call i stop) = .ok (put s i r' h') ∧ r'.method = r.method ∧ r'.url = r.url ∧ Good d (put s i r' h') l bs ∧
      ((∃ c t, left = c :: t ∧ close = false ∧ r'.stage = .calling arr all t stop (called ++ [(c.of, stop)])) ∨
        ((left = [] ∨ close = true) ∧ r'.stage = .done close called)) := by
  obtain ⟨b, hb, rk⟩ := bs_get g hr
  unfold ReqOk at rk
  rw [hst] at rk
  obtain ⟨hsd, hen, pre, hpre, hcl⟩ := rk
  have cset := fun (r' : Request) n => cRs_set r' hr n
  rw [hst] at cset
  simp only [cSt] at cset
  have fin : (left = [] ∨ close = true) → ∃ h', freeEndpoints s.h arr all = .ok h' ∧ Good d (put s i { r with stage := .done close called } h') l bs := by
    intro hcase
    obtain ⟨h', e1, o1⟩ := own_freeEndpoints (arr := arr) (d := fun n => cI s.inst n + cRs (s.reqs.set i { r with stage := .done close called }) n + d n) all g.own (by
      intro n; have h2 := cset { r with stage := .done close called } n
      simp only [cSt] at h2; omega)
    refine ⟨h', e1, good_put g hr rfl rfl o1 (.inr (by rintro ⟨_, _, _, _, _, h0⟩; cases h0)) ?_⟩
    intro b' hb'
    rw [hb, Option.some.injEq] at hb'
    subst hb'
    refine ⟨_, hsd, hen, ?_, ?_⟩
    · rw [hcl, hpre, List.map_append]; exact List.prefix_append _ _
    · intro hc
      rcases hcase with rfl | h0
      · rw [hcl, hpre, List.append_nil]
      · rw [hc] at h0; simp at h0
  simp only [act, hr, hst]
  cases left with
  | nil =>
    obtain ⟨h', e1, g1⟩ := fin (.inl rfl)
    refine ⟨{ r with stage := .done close called }, h', ?_, rfl, rfl, g1, .inr ⟨.inl rfl, rfl⟩⟩
    simp only [e1, Res.ok_bind]; rfl
  | cons c t =>
    cases close with
    | true =>
      obtain ⟨h', e1, g1⟩ := fin (.inr rfl)
      refine ⟨{ r with stage := .done true called }, h', ?_, rfl, rfl, g1, .inr ⟨.inr rfl, rfl⟩⟩
      simp only [e1, Res.ok_bind]; rfl
    | false =>
      have hex := fun (n : Nat) => cset ⟨r.method, r.url, .done false []⟩ n
      simp only [cSt] at hex
      have hn : need s.h c.box = .ok () := own_need (p := c.box)
        (d := fun n => cA arr n + cEps pre n + (cP c.method n + cP c.pfx n + cP c.format n) + cEps t n + cI s.inst n + cRs (s.reqs.set i ⟨r.method, r.url, .done false []⟩) n + d n) g.own (by
        intro n; have := hex n
        rw [hpre, cEps_append] at this
        simp only [cEps, cEp] at this
        omega)
      refine ⟨{ r with stage := .calling arr all t stop (called ++ [(c.of, stop)]) }, s.h, ?_, rfl, rfl, good_put (r' := { r with stage := .calling arr all t stop (called ++ [(c.of, stop)]) }) g hr rfl rfl (g.own.congr ?_) (.inr (by rintro ⟨_, _, _, _, _, h0⟩; cases h0)) ?_, .inl ⟨c, t, rfl, rfl, rfl⟩⟩
      · simp only [hn, Res.ok_bind]; rfl
      · intro n
        have h2 := cset { r with stage := .calling arr all t stop (called ++ [(c.of, stop)]) } n
        simp only [cSt] at h2
        omega
      · intro b' hb'
        rw [hb, Option.some.injEq] at hb'
        subst hb'
        exact ⟨hsd, ends_add (hen.2 rfl) c.of stop, pre ++ [c], by simp [hpre], by simp [hcl]⟩

/-- The endpoints once the call in progress, if any, is done. -/
def full (s : Sys) (l : List Endpoint) : List Endpoint :=
  match s.writer with
  | none => l
  | some c => step l c

/-- The change of an action. -/
def changeOf : Act → List Change
  | .change c => [c]
  | _ => []

/-- The request of an action. -/
def requestOf : Act → List (Bytes × Bytes)
  | .request m u => [(m, u)]
  | _ => []

def asked (s : Sys) : List (Bytes × Bytes) := s.reqs.map (fun r => (r.method, r.url))

theorem good_act {d : Nat → Nat} {s : Sys} {l : List Endpoint} {bs : List (List Endpoint)} {sort : List EpCopy → List EpCopy} (hs : Sorts sort)
    (g : Good d s l bs) (a : Act) (hq : Calm s a) :
    ∃ s' l' bs', act sort s a = .ok s' ∧ Good d s' l' (bs ++ bs') ∧ full s' l' = (changeOf a).foldl step (full s l) ∧
      asked s' = asked s ++ requestOf a ∧ (∀ m u, a = .request m u → bs' = [full s l]) := by
  have stay : ∀ a, changeOf a = [] → requestOf a = [] → act sort s a = .ok s →
      ∃ s' l' bs', act sort s a = .ok s' ∧ Good d s' l' (bs ++ bs') ∧ full s' l' = (changeOf a).foldl step (full s l) ∧
      asked s' = asked s ++ requestOf a ∧ (∀ m u, a = .request m u → bs' = [full s l]) := by
    intro a h1 h2 h3
    refine ⟨s, l, [], h3, by rw [List.append_nil]; exact g, by rw [h1]; rfl, by rw [h2]; simp, ?_⟩
    intro m u h0; subst h0; simp [requestOf] at h2
  cases a with
  | request m u =>
    have hw : s.writer = none := hq
    obtain ⟨arr, h1, e1, o1, -⟩ := own_malloc g.own
    have hfull : full s l = l := by simp [full, hw]
    have mk : ∀ (st : Stage) (h : Heap), Own h (fun n => cI s.inst n + cRs (s.reqs ++ [⟨m, u, st⟩]) n + d n) → ReqOk s.inst l ⟨m, u, st⟩ l →
        Good d { s with h := h, reqs := s.reqs ++ [⟨m, u, st⟩] } l (bs ++ [l]) := by
      intro st h o hk
      refine ⟨g.reg, g.meth, o, by simp [g.len], ?_, g.wr, fun h0 => absurd hw h0⟩
      intro i r b hr hb
      simp only at hr
      rcases Nat.lt_or_ge i s.reqs.length with hlt | hge
      · rw [List.getElem?_append_left hlt] at hr
        rw [List.getElem?_append_left (by rw [g.len]; exact hlt)] at hb
        exact g.reqs i r b hr hb
      · rw [List.getElem?_append_right hge, List.getElem?_singleton] at hr
        rw [List.getElem?_append_right (by rw [g.len]; exact hge), List.getElem?_singleton] at hb
        split at hr
        · rw [Option.some.injEq] at hr
          subst hr
          split at hb
          · rw [Option.some.injEq] at hb
            subst hb
            exact hk
          · simp at hb
        · simp at hr
    unfold act
    rw [hw]
    simp only [e1]
    by_cases hn : s.inst.arr = .null
    · rw [if_pos hn]
      have hl := reg_null g.reg hn
      refine ⟨{ s with h := h1, reqs := s.reqs ++ [⟨m, u, .calling arr [] [] false []⟩] }, l, [l], by rw [← hw]; rfl, mk _ _ (o1.congr ?_) ?_, by simp [full, hw, changeOf], by simp [asked, requestOf], by intro _ _ _; rw [hfull]⟩
      · intro n; rw [cRs_append]; simp only [cRs, cSt, cEps]; omega
      · refine ⟨?_, ends_nil, [], rfl, rfl⟩
        subst hl
        exact ⟨by simp, by simp⟩
    · rw [if_neg hn]
      obtain ⟨w, h2, e2, o2⟩ := own_splitMem (some u) none o1
      rw [e2]
      refine ⟨{ s with h := h2, reqs := s.reqs ++ [⟨m, u, .matching s.inst.arr 0 arr w []⟩] }, l, [l], by rw [← hw]; rfl, mk _ _ (o2.congr ?_) ?_, by simp [full, hw, changeOf], by simp [asked, requestOf], by intro _ _ _; rw [hfull]⟩
      · intro n; rw [cRs_append]; simp only [cRs, cSt, cEps]; omega
      · exact ⟨rfl, hn, rfl, Nat.zero_le _, by simp⟩
  | look i =>
    cases hr : s.reqs[i]? with
    | none => exact stay _ rfl rfl (by simp [act, hr])
    | some r =>
      cases hst : r.stage with
      | matching list k arr w found =>
        obtain ⟨r', h', e1, em, eu, g1, -⟩ := own_look hs g hr hst hq
        refine ⟨put s i r' h', l, [], ?_, by rw [List.append_nil]; exact g1, rfl, ?_, by intro m u h0; cases h0⟩
        · simp only [act, hr, hst]; exact e1
        · simp only [requestOf, List.append_nil]; exact same_put h' hr em eu
      | calling => exact stay _ rfl rfl (by simp [act, hr, hst])
      | done => exact stay _ rfl rfl (by simp [act, hr, hst])
  | call i stop =>
    cases hr : s.reqs[i]? with
    | none => exact stay _ rfl rfl (by simp [act, hr])
    | some r =>
      cases hst : r.stage with
      | calling arr all left close called =>
        obtain ⟨r', h', e1, em, eu, g1, -⟩ := own_call sort g hr hst stop
        refine ⟨_, l, [], e1, by rw [List.append_nil]; exact g1, rfl, ?_, by intro m u h0; cases h0⟩
        simp only [requestOf, List.append_nil]; exact same_put h' hr em eu
      | matching => exact stay _ rfl rfl (by simp [act, hr, hst])
      | done => exact stay _ rfl rfl (by simp [act, hr, hst])
  | change c =>
    obtain ⟨hw, hl, hc⟩ := hq
    refine ⟨{ s with writer := some c }, l, [], by simp [act, hw], ?_, by simp [full, hw, changeOf], by simp [asked, requestOf], by intro m u h0; cases h0⟩
    rw [List.append_nil]
    exact ⟨g.reg, g.meth, g.own, g.len, g.reqs, by intro e he; exact hc e (by simpa using he), fun _ => hl⟩
  | changed =>
    cases hw : s.writer with
    | none => exact stay _ rfl rfl (by simp [act, hw])
    | some c =>
      have app : ∃ b inst h, apply s.h s.inst c = .ok (b, inst, h) ∧ Reg inst (step l c) ∧ (∀ x ∈ step l c, x.method ≠ none) ∧
          Own h (fun n => cI inst n + cRs s.reqs n + d n) := by
        cases c with
        | add e =>
          simp only [apply, step]
          by_cases hv : isValid e false = true
          · rw [if_pos hv]
            obtain ⟨s', h', e1, r1, o1⟩ := own_add (d := fun n => cRs s.reqs n + d n) g.reg hv g.own (by intro n; omega)
            refine ⟨_, _, _, e1, r1, ?_, o1.congr (by intro n; omega)⟩
            intro x hx
            rcases List.mem_append.1 hx with h0 | h0
            · exact g.meth x h0
            · rw [List.mem_singleton.1 h0]
              have := ((isValid_iff e (g.wr e hw)).1 hv).1
              intro h1; rw [h1] at this; simp at this
          · rw [if_neg hv]
            exact ⟨false, s.inst, s.h, by simp [addMem, hv], g.reg, g.meth, g.own⟩
        | remove e =>
          simp only [apply, step]
          by_cases hv : (!equals e emptyEndpoint && isValid e true) = true
          · rw [if_pos hv]
            obtain ⟨b, s', h', e1, r1, o1⟩ := own_remove (d := fun n => cRs s.reqs n + d n) g.reg hv g.own (by intro n; omega)
            exact ⟨_, _, _, e1, r1, fun x hx => g.meth x (List.mem_filter.1 hx).1, o1.congr (by intro n; omega)⟩
          · rw [if_neg hv]
            exact ⟨false, s.inst, s.h, by unfold removeMem; rw [if_neg hv], g.reg, g.meth, g.own⟩
      obtain ⟨b, inst, h, e1, r1, m1, o1⟩ := app
      refine ⟨{ s with h := h, inst := inst, writer := none }, step l c, [], by simp [act, hw, e1], ?_, by simp [full, hw, changeOf], by simp [asked, requestOf], by intro m u h0; cases h0⟩
      rw [List.append_nil]
      refine ⟨r1, m1, o1, g.len, ?_, by intro e he; simp at he, by intro h0; simp at h0⟩
      intro i r b hr hb
      have hk := g.reqs i r b hr hb
      have hl := g.idle (by rw [hw]; simp) r (List.mem_of_getElem? hr)
      unfold ReqOk at hk ⊢
      cases hst : r.stage with
      | matching list k arr w found => exact absurd ⟨_, _, _, _, _, hst⟩ hl
      | calling => rw [hst] at hk; exact hk
      | done => rw [hst] at hk; exact hk

/-- All actions of a schedule are allowed. -/
def CalmAll (sort : List EpCopy → List EpCopy) (s : Sys) : List Act → Prop
  | [] => True
  | a :: t => Calm s a ∧ ∀ s', act sort s a = .ok s' → CalmAll sort s' t

theorem good_exec {d : Nat → Nat} {sort : List EpCopy → List EpCopy} (hs : Sorts sort) (acts : List Act) {s : Sys} {l : List Endpoint}
    {bs : List (List Endpoint)} (g : Good d s l bs) (hq : CalmAll sort s acts) :
    ∃ s' l' bs', exec sort s acts = .ok s' ∧ Good d s' l' (bs ++ bs') ∧ full s' l' = (acts.flatMap changeOf).foldl step (full s l) ∧
      asked s' = asked s ++ acts.flatMap requestOf := by
  induction acts generalizing s l bs with
  | nil => exact ⟨s, l, [], rfl, by rw [List.append_nil]; exact g, rfl, by simp⟩
  | cons a t ih =>
    obtain ⟨s1, l1, b1, e1, g1, f1, a1, -⟩ := good_act hs g a hq.1
    obtain ⟨s2, l2, b2, e2, g2, f2, a2⟩ := ih g1 (hq.2 s1 e1)
    refine ⟨s2, l2, b1 ++ b2, by simp [exec, e1, e2], by rw [← List.append_assoc]; exact g2, ?_, ?_⟩
    · rw [f2, f1, List.flatMap_cons, List.foldl_append]
    · rw [a2, a1, List.flatMap_cons, List.append_assoc]

theorem exec_append (sort : List EpCopy → List EpCopy) (a b : List Act) (s : Sys) :
    exec sort s (a ++ b) = (do let s ← exec sort s a; exec sort s b) := by
  induction a generalizing s with
  | nil => rfl
  | cons x t ih =>
    simp only [List.cons_append, exec]
    cases h : act sort s x with
    | ub => rfl
    | ok s1 => simp only [Res.ok_bind]; exact ih s1

theorem calm_append {sort : List EpCopy → List EpCopy} {a b : List Act} {s s1 : Sys} (hq : CalmAll sort s (a ++ b)) (e : exec sort s a = .ok s1) :
    CalmAll sort s a ∧ CalmAll sort s1 b := by
  induction a generalizing s with
  | nil => simp only [exec, Res.ok.injEq] at e; subst e; exact ⟨trivial, hq⟩
  | cons x t ih =>
    obtain ⟨h1, h2⟩ := hq
    cases h : act sort s x with
    | ub => simp [exec, h] at e
    | ok s2 =>
      simp only [exec, h, Res.ok_bind] at e
      obtain ⟨h3, h4⟩ := ih (h2 s2 h) e
      refine ⟨⟨h1, fun s' hs' => ?_⟩, h4⟩
      rw [h, Res.ok.injEq] at hs'
      subst hs'
      exact h3

theorem calm_left {sort : List EpCopy → List EpCopy} {a b : List Act} {s : Sys} (hq : CalmAll sort s (a ++ b)) : CalmAll sort s a := by
  induction a generalizing s with
  | nil => trivial
  | cons x t ih => exact ⟨hq.1, fun s' hs' => ih (hq.2 s' hs')⟩

theorem get_put {s : Sys} {i : Nat} {r : Request} (r' : Request) (h : Heap) (hr : s.reqs[i]? = some r) : (put s i r' h).reqs[i]? = some r' := by
  simp only [put]
  exact List.getElem?_set_self (List.getElem?_eq_some_iff.1 hr).1

theorem looks_end {d : Nat → Nat} {sort : List EpCopy → List EpCopy} (hs : Sorts sort) {l : List Endpoint} {bs : List (List Endpoint)} (m : Nat) :
    ∀ {s : Sys} {i : Nat} {r : Request} {list : P} {k : Nat} {arr : P} {w : Words} {found : List EpCopy}, Good d s l bs → s.writer = none →
      s.reqs[i]? = some r → r.stage = .matching list k arr w found → l.length - k ≤ m →
      ∃ n s' r' arr' all, exec sort s (List.replicate n (.look i)) = .ok s' ∧ Good d s' l bs ∧ s'.reqs[i]? = some r' ∧
        r'.stage = .calling arr' all all false [] := by
  induction m with
  | zero =>
    intro s i r list k arr w found g hw hr hst hk
    obtain ⟨r', h', e1, -, -, g1, h0⟩ := own_look hs g hr hst hw
    rcases h0 with ⟨_, _, _, h0⟩ | ⟨arr', all, h0⟩
    · omega
    · exact ⟨1, _, r', arr', all, by simp [exec, act, hr, hst, e1], g1, get_put r' h' hr, h0⟩
  | succ m ih =>
    intro s i r list k arr w found g hw hr hst hk
    obtain ⟨r', h', e1, -, -, g1, h0⟩ := own_look hs g hr hst hw
    rcases h0 with ⟨arr', found', h0, hlt⟩ | ⟨arr', all, h0⟩
    · obtain ⟨n, s2, r2, arr2, all2, e2, g2, hr2, st2⟩ := ih g1 hw (get_put r' h' hr) h0 (by omega)
      exact ⟨n + 1, s2, r2, arr2, all2, by simp [List.replicate_succ, exec, act, hr, hst, e1, e2], g2, hr2, st2⟩
    · exact ⟨1, _, r', arr', all, by simp [exec, act, hr, hst, e1], g1, get_put r' h' hr, h0⟩

theorem calls_end {d : Nat → Nat} (sort : List EpCopy → List EpCopy) {l : List Endpoint} {bs : List (List Endpoint)} {all left : List EpCopy} :
    ∀ {s : Sys} {i : Nat} {r : Request} {arr : P} {close : Bool} {called : List (Endpoint × Bool)}, Good d s l bs →
      s.reqs[i]? = some r → r.stage = .calling arr all left close called →
      ∃ n s' r' called', exec sort s (List.replicate n (.call i false)) = .ok s' ∧ Good d s' l bs ∧ s'.reqs[i]? = some r' ∧
        r'.stage = .done close called' := by
  induction left with
  | nil =>
    intro s i r arr close called g hr hst
    obtain ⟨r', h', e1, -, -, g1, h0⟩ := own_call sort g hr hst false
    rcases h0 with ⟨_, _, h0, _⟩ | ⟨-, h0⟩
    · simp at h0
    · exact ⟨1, _, r', called, by simp [exec, e1], g1, get_put r' h' hr, h0⟩
  | cons c t ih =>
    intro s i r arr close called g hr hst
    obtain ⟨r', h', e1, -, -, g1, h0⟩ := own_call sort g hr hst false
    rcases h0 with ⟨c', t', h0, h1, h2⟩ | ⟨-, h0⟩
    · obtain ⟨rfl, rfl⟩ := List.cons.inj h0
      subst h1
      obtain ⟨n, s2, r2, called2, e2, g2, hr2, st2⟩ := ih g1 (get_put r' h' hr) h2
      exact ⟨n + 1, s2, r2, called2, by simp [List.replicate_succ, exec, e1, e2], g2, hr2, st2⟩
    · exact ⟨1, _, r', called, by simp [exec, e1], g1, get_put r' h' hr, h0⟩

theorem cRs_done {l : List Request} (h : ∀ r ∈ l, ∃ close called, r.stage = .done close called) (n : Nat) : cRs l n = 0 := by
  induction l with
  | nil => rfl
  | cons r t ih =>
    obtain ⟨c, k, e⟩ := h r (by simp)
    simp only [cRs, e, cSt, ih (fun x hx => h x (by simp [hx]))]

end Verif.Live
