import Verif.Lemmas.Live
import Verif.Props.Memory
/-! # C139: endpoints added and removed while requests are served -/
namespace Verif.Props
open Verif.Memory hiding cRs step exec
open Verif.Endpoint Verif.Live Verif.Spec.Routing

/-! ## Specification -/

open Classical in
/-- The endpoints after a change. -/
noncomputable def afterChange (l : List Endpoint) : Change → List Endpoint
  | .add e => if Acceptable e then l ++ [e] else l
  | .remove e => if e.method.isSome ∧ (e.pfx.isSome ∨ e.format.isSome) then l.filter (fun x => decide (¬ Designates e x)) else l

/-- The endpoints after some changes, none at first. -/
noncomputable def registered (cs : List Change) : List Endpoint := cs.foldl afterChange []

/-- The changes of a schedule, in their order. -/
def changesOf (acts : List Act) : List Change := acts.filterMap fun a => match a with | .change c => some c | _ => none

/-- The requests of a schedule, in their order. -/
def requestsOf (acts : List Act) : List (Bytes × Bytes) := acts.filterMap fun a => match a with | .request m u => some (m, u) | _ => none

/-- The request still reads the list of the instance. -/
def Looking (r : Request) : Prop := ∃ list i arr words found, r.stage = .matching list i arr words found

/-- No request reads the list while it is changed, and one change at a time. -/
def Quiet (sort : List EpCopy → List EpCopy) (s : Sys) : List Act → Prop
  | [] => True
  | a :: t => (match a with
    | .request _ _ => s.writer = none
    | .look _ => s.writer = none
    | .change _ => s.writer = none ∧ ∀ r ∈ s.reqs, ¬ Looking r
    | _ => True) ∧ ∀ s', act sort s a = .ok s' → Quiet sort s' t

/-- The program does not add the empty endpoint. -/
def NoneEmpty (acts : List Act) : Prop := ∀ e, .change (.add e) ∈ acts → ¬ Null e

/-- What `qsort` promises. -/
def SortsCopies (sort : List EpCopy → List EpCopy) : Prop :=
  ∀ l, (sort l).Perm l ∧ (sort l).Pairwise (fun a b => a.of.priority ≤ b.of.priority)

/-- The endpoints of `l` that are meant for a request, each as often as in `l`, by priority. -/
def Selection (method url : Bytes) (l r : List Endpoint) : Prop :=
  (∀ e, Handles method url e → r.count e = l.count e) ∧
  (∀ e, ¬ Handles method url e → e ∉ r) ∧ r.Pairwise (fun a b => a.priority ≤ b.priority)

/-- The endpoints whose callbacks a request called so far, and whether they ended the loop. -/
def calledBy : Stage → List (Endpoint × Bool)
  | .matching _ _ _ _ _ => []
  | .calling _ _ _ _ called => called
  | .done _ called => called

/-! ## Proofs -/

private theorem calm_of {sort : List EpCopy → List EpCopy} {s : Sys} {acts : List Act} (q : Quiet sort s acts) (ne : NoneEmpty acts) :
    CalmAll sort s acts := by
  induction acts generalizing s with
  | nil => trivial
  | cons a t ih =>
    refine ⟨?_, fun s' hs' => ih (q.2 s' hs') (fun e he => ne e (List.mem_cons_of_mem _ he))⟩
    have h0 := q.1
    cases a with
    | change c => exact ⟨h0.1, h0.2, fun e he => ne e (by rw [he]; simp)⟩
    | _ => exact h0

private theorem own_zero {h0 : Heap} (fine : FineHeap h0) : Own h0 (fun n => h0.live.count n) := by
  intro n
  refine ⟨rfl, List.nodup_iff_count.1 fine.1 n, fun hn => List.count_eq_zero.2 (fun hm => ?_)⟩
  have := fine.2 n hm; omega

private theorem good_zero {h0 : Heap} (fine : FineHeap h0) : Good (fun n => h0.live.count n) { h := h0 } [] [] :=
  ⟨.none, by simp, (own_zero fine).congr (by intro n; simp [cI, cP, cSls, cRs]), rfl, by intro i r b hr; simp at hr, by intro e he; simp at he,
    by intro h; simp at h⟩

private theorem step_eq (l : List Endpoint) (c : Change) (hc : ∀ e, c = .add e → ¬ Null e) : step l c = afterChange l c := by
  cases c with
  | add e =>
    have := isValid_iff e (hc e rfl)
    simp only [step, afterChange]
    by_cases h : Acceptable e
    · rw [if_pos h, if_pos (this.2 h)]
    · rw [if_neg h, if_neg (fun h0 => h (this.1 h0))]
  | remove e =>
    have : (!equals e emptyEndpoint && isValid e true) = true ↔ (e.method.isSome ∧ (e.pfx.isSome ∨ e.format.isSome)) := by
      rw [Bool.and_eq_true, Bool.not_eq_true', Bool.eq_false_iff, Ne, equals_empty]
      unfold isValid Null
      by_cases hn : Null e
      · obtain ⟨h1, h2, h3⟩ := hn
        simp [h1, h2, h3]
      · rw [if_neg (by rw [equals_empty]; exact hn)]
        cases e.method <;> cases e.pfx <;> cases e.format <;> simp
    simp only [step, afterChange]
    by_cases h : (e.method.isSome ∧ (e.pfx.isSome ∨ e.format.isSome))
    · rw [if_pos h, if_pos (this.2 h)]
      apply List.filter_congr
      intro x _
      by_cases hd : Designates e x
      · simp [hd, (hit_iff e x).2 hd]
      · simp [hd, Bool.eq_false_iff.2 (fun h0 => hd ((hit_iff e x).1 h0))]
    · rw [if_neg h, if_neg (fun h0 => h (this.1 h0))]

private theorem changes_eq (acts : List Act) : acts.flatMap changeOf = changesOf acts := by
  induction acts with
  | nil => rfl
  | cons a t ih => rw [List.flatMap_cons, ih]; cases a <;> rfl

private theorem requests_eq (acts : List Act) : acts.flatMap requestOf = requestsOf acts := by
  induction acts with
  | nil => rfl
  | cons a t ih => rw [List.flatMap_cons, ih]; cases a <;> rfl

private theorem fold_eq (cs : List Change) (l : List Endpoint) (hc : ∀ e, .add e ∈ cs → ¬ Null e) : cs.foldl step l = cs.foldl afterChange l := by
  induction cs generalizing l with
  | nil => rfl
  | cons c t ih =>
    rw [List.foldl_cons, List.foldl_cons, step_eq l c (fun e he => hc e (by rw [he]; simp)), ih _ (fun e he => hc e (List.mem_cons_of_mem _ he))]

private theorem mem_changes {acts : List Act} {c : Change} (h : c ∈ changesOf acts) : .change c ∈ acts := by
  unfold changesOf at h
  obtain ⟨a, ha, e⟩ := List.mem_filterMap.1 h
  cases a with
  | change c' => simp only [Option.some.injEq] at e; subst e; exact ha
  | _ => simp at e

private theorem registered_eq {acts : List Act} (ne : NoneEmpty acts) : (acts.flatMap changeOf).foldl step [] = registered (changesOf acts) := by
  rw [changes_eq, registered]
  exact fold_eq _ _ (fun e he => ne e (mem_changes he))

private theorem selection_of {method url : Bytes} {l r : List Endpoint} (hl : ∀ x ∈ l, x.method ≠ none)
    (h : Sorted (l.filter (sel method url)) r) : Selection method url l r := by
  obtain ⟨hp, hsort⟩ := h
  refine ⟨?_, ?_, hsort⟩
  · intro e he
    rw [← hp.count_eq e]
    have : sel method url e = true := by
      refine (sel_iff method url e ?_).2 he
      obtain ⟨⟨m, hm, _⟩, _⟩ := he
      rw [hm]; rfl
    exact List.count_filter this
  · intro e he hm
    obtain ⟨h1, h2⟩ := List.mem_filter.1 (hp.mem_iff.2 hm)
    exact he ((sel_iff method url e (Option.isSome_iff_ne_none.2 (hl e h1))).1 h2)

private theorem noneEmpty_left {a b : List Act} (ne : NoneEmpty (a ++ b)) : NoneEmpty a := fun e he => ne e (List.mem_append_left _ he)

/-- **C139, part.** As long as no request reads the list while it is changed, nothing goes wrong, and each request calls endpoints that were registered
when it came in: those meant for it, by priority, up to the one that ends the loop, whatever is added or removed meanwhile, by its own
callbacks too. -/
theorem C139_snapshot_partial (sort : List EpCopy → List EpCopy) (hs : SortsCopies sort) (h0 : Heap) (fine : FineHeap h0) (before later : List Act)
    (method url : Bytes) (quiet : Quiet sort { h := h0 } (before ++ .request method url :: later))
    (ne : NoneEmpty (before ++ .request method url :: later)) :
    ∃ s r, exec sort { h := h0 } (before ++ .request method url :: later) = .ok s ∧ s.reqs[(requestsOf before).length]? = some r ∧
      r.method = method ∧ r.url = url ∧
      ∃ sel, Selection method url (registered (changesOf before)) sel ∧ (calledBy r.stage).map (·.1) <+: sel ∧
        (∀ x ∈ (calledBy r.stage).dropLast, x.2 = false) ∧
        ∀ close called, r.stage = .done close called → (called.map (·.1) = sel ∨ ∃ e, called.getLast? = some (e, true)) := by
  have hs' : Sorts sort := hs
  have q1 := calm_of quiet ne
  obtain ⟨s1, l1, b1, e1, g1, f1, a1⟩ := good_exec hs' before (good_zero fine) (calm_left q1)
  have q2 := (calm_append q1 e1).2
  obtain ⟨s2, l2, b2, e2, g2, f2, a2, h2⟩ := good_act hs' g1 (.request method url) q2.1
  obtain ⟨s3, l3, b3, e3, g3, f3, a3⟩ := good_exec hs' later g2 (q2.2 s2 e2)
  have hw : s1.writer = none := q2.1
  have hf : l1 = registered (changesOf before) := by
    rw [← registered_eq (noneEmpty_left ne)]
    simpa [full, hw] using f1
  have hb2 := h2 method url rfl
  simp only [full, hw] at hb2
  have hb1 : b1.length = s1.reqs.length := by simpa using g1.len
  have hn : s1.reqs.length = (requestsOf before).length := by
    have h0 := congrArg List.length a1
    rw [requests_eq] at h0
    simpa [asked] using h0
  have hask : (asked s3)[(requestsOf before).length]? = some (method, url) := by
    rw [a3, a2, List.append_assoc, List.getElem?_append_right (by simp [asked, hn])]
    simp [asked, hn, requestOf]
  unfold asked at hask
  rw [List.getElem?_map, Option.map_eq_some_iff] at hask
  obtain ⟨r, hr, hmu⟩ := hask
  rw [Prod.mk.injEq] at hmu
  obtain ⟨rfl, rfl⟩ := hmu
  have hbb : ([] ++ b1 ++ b2 ++ b3)[(requestsOf before).length]? = some l1 := by
    rw [hb2, List.nil_append, List.append_assoc, List.getElem?_append_right (by omega)]
    simp [hb1, hn]
  have rk := g3.reqs _ r l1 hr hbb
  refine ⟨s3, r, ?_, hr, rfl, rfl, ?_⟩
  · rw [exec_append, e1]
    simp only [Res.ok_bind, exec, e2, e3]
  rw [← hf]
  unfold ReqOk at rk
  have ends : ∀ {close called}, Ends close called → ∀ x ∈ called.dropLast, x.2 = false := by
    intro close called he x hx
    cases close with
    | false => exact he.2 rfl x (List.dropLast_subset _ hx)
    | true =>
      obtain ⟨init, e, rfl, h0⟩ := he.1 rfl
      rw [List.dropLast_concat] at hx
      exact h0 x hx
  cases hst : r.stage with
  | matching list k arr w found =>
    obtain ⟨rr, hrr⟩ := exists_sorted (l1.filter (sel r.method r.url))
    exact ⟨rr, selection_of g1.meth hrr, List.nil_prefix, by simp [calledBy], by intro _ c h0; cases h0⟩
  | calling arr all left close called =>
    rw [hst] at rk
    obtain ⟨hsd, hen, pre, rfl, hcl⟩ := rk
    refine ⟨_, selection_of g1.meth hsd, ?_, ends hen, by intro _ c h0; cases h0⟩
    simp only [calledBy, List.map_append, hcl]; exact List.prefix_append _ _
  | done close called =>
    rw [hst] at rk
    obtain ⟨rr, hsd, hen, hp, hc⟩ := rk
    refine ⟨rr, selection_of g1.meth hsd, hp, ends hen, ?_⟩
    intro c k h0
    cases h0
    cases close with
    | false => exact .inl (hc rfl)
    | true =>
      obtain ⟨init, e, rfl, -⟩ := hen.1 rfl
      exact .inr ⟨e, by simp⟩

/-- **C139, part.** And any request can be brought to its end from there, as soon as no change is in progress. -/
theorem C139_answered_partial (sort : List EpCopy → List EpCopy) (hs : SortsCopies sort) (h0 : Heap) (fine : FineHeap h0) (acts : List Act)
    (quiet : Quiet sort { h := h0 } acts) (ne : NoneEmpty acts) (s : Sys) (hex : exec sort { h := h0 } acts = .ok s) (hw : s.writer = none) (i : Nat)
    (hi : i < (requestsOf acts).length) :
    ∃ looks calls s' r close called, exec sort s (List.replicate looks (.look i) ++ List.replicate calls (.call i false)) = .ok s' ∧
      s'.reqs[i]? = some r ∧ r.stage = .done close called := by
  obtain ⟨s1, l1, b1, e1, g1, f1, a1⟩ := good_exec (show Sorts sort from hs) acts (good_zero fine) (calm_of quiet ne)
  rw [hex, Res.ok.injEq] at e1
  subst e1
  have hn : s.reqs.length = (requestsOf acts).length := by
    have h0 := congrArg List.length a1
    rw [requests_eq] at h0
    simpa [asked] using h0
  have hr : s.reqs[i]? = some (s.reqs[i]'(by omega)) := List.getElem?_eq_getElem _
  generalize s.reqs[i]'(by omega) = r at hr
  cases hst : r.stage with
  | done close called => exact ⟨0, 0, s, r, close, called, rfl, hr, hst⟩
  | calling arr all left close called =>
    obtain ⟨n, s2, r2, called2, e2, -, hr2, st2⟩ := calls_end sort g1 hr hst
    exact ⟨0, n, s2, r2, close, called2, by simpa using e2, hr2, st2⟩
  | matching list k arr w found =>
    obtain ⟨n, s2, r2, arr2, all2, e2, g2, hr2, st2⟩ := looks_end (show Sorts sort from hs) (l1.length - k) g1 hw hr hst (Nat.le_refl _)
    obtain ⟨m, s3, r3, called3, e3, -, hr3, st3⟩ := calls_end sort g2 hr2 st2
    exact ⟨n, m, s3, r3, _, called3, by rw [exec_append, e2]; exact e3, hr3, st3⟩

/-- **C139, part.** Once all requests are answered and no change is in progress, cleaning the list gives back all that was allocated. -/
theorem C139_memory_partial (sort : List EpCopy → List EpCopy) (hs : SortsCopies sort) (h0 : Heap) (fine : FineHeap h0) (acts : List Act)
    (quiet : Quiet sort { h := h0 } acts) (ne : NoneEmpty acts) :
    ∃ s, exec sort { h := h0 } acts = .ok s ∧ ((∀ r ∈ s.reqs, ∃ close called, r.stage = .done close called) →
      ∃ h, cleanList s.h s.inst = .ok h ∧ h.live.Perm h0.live) := by
  obtain ⟨s1, l1, b1, e1, g1, -, -⟩ := good_exec (show Sorts sort from hs) acts (good_zero fine) (calm_of quiet ne)
  refine ⟨s1, e1, fun hd => ?_⟩
  obtain ⟨h, e2, o2⟩ := own_clean (d := fun n => h0.live.count n) g1.reg g1.meth g1.own (by intro n; rw [cRs_done hd]; omega)
  exact ⟨h, e2, List.perm_iff_count.2 (fun n => (o2 n).1)⟩

/-! ## A case -/

private def ep (f : Bytes) (p : Nat) : Endpoint := ⟨some b!"GET", none, some f, p, some p, 0⟩

private def insertCopy (c : EpCopy) : List EpCopy → List EpCopy
  | [] => [c]
  | x :: t => if c.of.priority ≤ x.of.priority then c :: x :: t else x :: insertCopy c t

/-- A sort. -/
private def sortCopies : List EpCopy → List EpCopy
  | [] => []
  | x :: t => insertCopy x (sortCopies t)

private theorem insert_perm (c : EpCopy) (l : List EpCopy) : (insertCopy c l).Perm (c :: l) := by
  induction l with
  | nil => exact .refl _
  | cons x t ih =>
    unfold insertCopy
    split
    · exact .refl _
    · exact (ih.cons x).trans (.swap c x t)

private theorem insert_sorted (c : EpCopy) (l : List EpCopy) (h : l.Pairwise (fun a b => a.of.priority ≤ b.of.priority)) :
    (insertCopy c l).Pairwise (fun a b => a.of.priority ≤ b.of.priority) := by
  induction l with
  | nil => simp [insertCopy]
  | cons x t ih =>
    unfold insertCopy
    rw [List.pairwise_cons] at h
    split
    · rename_i hx
      refine List.pairwise_cons.2 ⟨?_, List.pairwise_cons.2 h⟩
      intro y hy
      rcases List.mem_cons.1 hy with rfl | hy
      · exact hx
      · exact Nat.le_trans hx (h.1 y hy)
    · rename_i hx
      refine List.pairwise_cons.2 ⟨?_, ih h.2⟩
      intro y hy
      rcases List.mem_cons.1 ((insert_perm c t).mem_iff.1 hy) with rfl | hy
      · omega
      · exact h.1 y hy

private theorem sortCopies_sorts : SortsCopies sortCopies := by
  intro l
  induction l with
  | nil => exact ⟨.refl _, .nil⟩
  | cons x t ih => exact ⟨(insert_perm x _).trans (ih.1.cons x), insert_sorted x _ ih.2⟩

private def reading (r : Request) : Bool :=
  match r.stage with
  | .matching _ _ _ _ _ => true
  | _ => false

private def allowedB (s : Sys) : Act → Bool
  | .request _ _ => s.writer == none
  | .look _ => s.writer == none
  | .change _ => s.writer == none && s.reqs.all (fun r => !reading r)
  | _ => true

private def quietB (s : Sys) : List Act → Bool
  | [] => true
  | a :: t => allowedB s a && match act sortCopies s a with | .ok s' => quietB s' t | .ub => true

private theorem quiet_of {acts : List Act} {s : Sys} (h : quietB s acts = true) : Quiet sortCopies s acts := by
  induction acts generalizing s with
  | nil => trivial
  | cons a t ih =>
    rw [quietB, Bool.and_eq_true] at h
    refine ⟨?_, ?_⟩
    · have h1 := h.1
      cases a with
      | request => simpa [allowedB] using h1
      | look => simpa [allowedB] using h1
      | change c =>
        simp only [allowedB, Bool.and_eq_true, beq_iff_eq, List.all_eq_true] at h1
        refine ⟨h1.1, fun r hr => ?_⟩
        rintro ⟨_, _, _, _, _, h2⟩
        have := h1.2 r hr
        simp [reading, h2] at this
      | _ => trivial
    · intro s' hs'
      have h2 := h.2
      rw [hs'] at h2
      exact ih h2

/-- Two endpoints; a request is answered by both; the first one removes the second and adds a third; the next request sees that. -/
private def day : List Act :=
  [.change (.add (ep b!"/a" 2)), .changed, .change (.add (ep b!"/*" 3)), .changed, .request b!"GET" b!"/a", .look 0, .look 0, .look 0, .call 0 false,
   .change (.remove (ep b!"*" 0)), .changed, .change (.add (ep b!"/:x" 1)), .changed, .call 0 false, .call 0 false, .request b!"GET" b!"/a",
   .look 1, .look 1, .look 1, .call 1 false, .call 1 false, .call 1 false]

private def seen : Res Sys → Option (List (List (Option Nat)))
  | .ok s => some (s.reqs.map (fun r => (calledBy r.stage).map (·.1.callback)))
  | .ub => none

example : SortsCopies sortCopies := sortCopies_sorts
example : Quiet sortCopies { h := {} } day := quiet_of (by decide +kernel)
example : NoneEmpty day := by
  intro e he
  simp only [day, List.mem_cons, Act.change.injEq, Change.add.injEq, reduceCtorEq, false_or, List.not_mem_nil, or_false] at he
  rintro ⟨h, -, -⟩
  rcases he with rfl | rfl | rfl <;> exact absurd h (by decide)
example : FineHeap {} := ⟨List.nodup_nil, by simp⟩
/-- the first request calls the endpoint that was removed meanwhile, not the one that was added; the second one the contrary -/
example : seen (exec sortCopies { h := {} } day) = some [[some 2, some 3], [some 1, some 2]] := by decide +kernel
/-- and all is given back -/
example : (match exec sortCopies { h := {} } day with | .ok s => (match cleanList s.h s.inst with | .ok h => h.live == [] | .ub => false) | .ub => false) = true := by
  decide +kernel

/-! ## What goes wrong otherwise -/

private theorem ub_of {r : Res Sys} (h : (match r with | .ok _ => false | .ub => true) = true) : r = .ub := by
  cases r with
  | ok _ => cases h
  | ub => rfl

/-- **C139, what is false.** An endpoint that is added while a request on another connection goes through the list: the array has moved, the request
reads the old one. The documentation allows it. -/
theorem C139_moved_false : ∃ acts, NoneEmpty acts ∧ changesOf acts = [.add (ep b!"/a" 2), .add (ep b!"/b" 2)] ∧
    requestsOf acts = [(b!"GET", b!"/a")] ∧ exec sortCopies { h := {} } acts = .ub := by
  refine ⟨[.change (.add (ep b!"/a" 2)), .changed, .request b!"GET" b!"/a", .look 0, .change (.add (ep b!"/b" 2)), .changed, .look 0], ?_, rfl, rfl,
    ub_of (by decide +kernel)⟩
  intro e he
  simp only [List.mem_cons, Act.change.injEq, Change.add.injEq, reduceCtorEq, false_or, List.not_mem_nil, or_false] at he
  rintro ⟨h, -, -⟩
  rcases he with rfl | rfl <;> exact absurd h (by decide)

/-- **C139, what is false.** The same for an endpoint that is removed, and for one being removed while a request comes in. -/
theorem C139_removed_false :
    exec sortCopies { h := {} } [.change (.add (ep b!"/a" 2)), .changed, .request b!"GET" b!"/a", .change (.remove (ep b!"/a" 2)), .changed, .look 0] = .ub ∧
    exec sortCopies { h := {} } [.change (.add (ep b!"/a" 2)), .changed, .change (.remove (ep b!"/a" 2)), .request b!"GET" b!"/a"] = .ub :=
  ⟨ub_of (by decide +kernel), ub_of (by decide +kernel)⟩

/-- **C139, what is false.** Two threads that add an endpoint at the same time: a data race. -/
theorem C139_both_false : exec sortCopies { h := {} } [.change (.add (ep b!"/a" 2)), .change (.add (ep b!"/b" 2))] = .ub := rfl

private def lost : Res Sys → Bool
  | .ok s => match cleanList s.h s.inst with
    | .ok h => h.live.length == 2 && s.reqs.all (fun r => match r.stage with | .done false [] => true | _ => false)
    | .ub => false
  | .ub => false

private theorem lost_of {r : Res Sys} (h : lost r = true) :
    ∃ s h, r = .ok s ∧ (∀ r ∈ s.reqs, r.stage = .done false []) ∧ cleanList s.h s.inst = .ok h ∧ h.live.length = 2 := by
  cases r with
  | ub => cases h
  | ok s =>
    simp only [lost] at h
    cases hc : cleanList s.h s.inst with
    | ub => rw [hc] at h; cases h
    | ok h' =>
      rw [hc] at h
      simp only [Bool.and_eq_true, beq_iff_eq, List.all_eq_true] at h
      refine ⟨s, h', rfl, ?_, hc, h.1⟩
      intro r hr
      have := h.2 r hr
      cases hst : r.stage with
      | done close called =>
        rw [hst] at this
        cases close with
        | true => cases this
        | false =>
          cases called with
          | nil => rfl
          | cons _ _ => cases this
      | _ => rw [hst] at this; cases this

/-- **C139, what is false.** The empty endpoint can be added (the function that checks endpoints accepts it) and from then on hides those that are added
after it: a request calls none of them, and cleaning the list leaves their strings behind. -/
theorem C139_empty_false : ∃ acts, Quiet sortCopies { h := {} } acts ∧ changesOf acts = [.add emptyEndpoint, .add (ep b!"/a" 2)] ∧
    requestsOf acts = [(b!"GET", b!"/a")] ∧ Handles b!"GET" b!"/a" (ep b!"/a" 2) ∧
    ∃ s h, exec sortCopies { h := {} } acts = .ok s ∧ (∀ r ∈ s.reqs, r.stage = .done false []) ∧ cleanList s.h s.inst = .ok h ∧ h.live.length = 2 := by
  refine ⟨[.change (.add emptyEndpoint), .changed, .change (.add (ep b!"/a" 2)), .changed, .request b!"GET" b!"/a", .look 0, .call 0 false],
    quiet_of (by decide +kernel), rfl, rfl, ?_, lost_of (by decide +kernel)⟩
  rw [← sel_iff _ _ _ (by decide)]; decide +kernel
end Verif.Props
