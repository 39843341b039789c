import Verif.Model.EndpointList
import Verif.Props.Routing
/-!
# C144: lists of endpoints and endpoints given by value
-/
namespace Verif.Props
open Verif.Endpoint Verif.Spec.Routing

/-- What ends a list given to ulfius_add_endpoint_list: a NULL pointer or a null endpoint. -/
def EndOfList (p : Option Endpoint) : Prop := p = none ∨ ∃ z, p = some z ∧ Null z

private theorem equals_empty (e : Endpoint) : equals e emptyEndpoint = true ↔ Null e := by
  obtain ⟨m, p, f, pr, c, u⟩ := e
  simp only [equals, emptyEndpoint, Null, Bool.and_eq_true, beq_iff_eq]
  constructor
  · rintro ⟨⟨h1, h2⟩, h3⟩; exact ⟨h1.symm, h2.symm, h3.symm⟩
  · rintro ⟨h1, h2, h3⟩; exact ⟨⟨h1.symm, h2.symm⟩, h3.symm⟩

private theorem list_step (s : Inst) (e : Endpoint) (t : List (Option Endpoint)) (hn : ¬ Null e) :
    addEndpointList s (some e :: t) =
      (addEndpoint s e).bind (fun x => if x.1 = .ok then addEndpointList x.2 t else .ok (x.1, x.2)) := by
  have : endsList (some e) = false := by
    cases h : equals e emptyEndpoint
    · simp [endsList, h]
    · exact absurd ((equals_empty e).1 h) hn
  rw [addEndpointList, this]
  rfl

private theorem list_end (s : Inst) (p : Option Endpoint) (t : List (Option Endpoint)) (hp : EndOfList p) :
    addEndpointList s (p :: t) = .ok (.ok, s) := by
  have : endsList p = true := by
    rcases hp with rfl | ⟨z, rfl, hz⟩
    · rfl
    · exact (equals_empty z).2 hz
  simp only [addEndpointList, this, if_true]

/-- **C144, lists.** Whatever follows the end of the list: when all endpoints are acceptable they are all registered, in
their order, behind those of the instance, and the call returns U_OK; otherwise those before the first refused one
are registered, nothing else changes, and the call returns U_ERROR_PARAMS. -/
theorem C144_list (s : Inst) (l es : List Endpoint) (p : Option Endpoint) (rest : List (Option Endpoint))
    (hs : Holds s l) (hes : ∀ e ∈ es, ¬ Null e) (hp : EndOfList p) :
    ((∀ e ∈ es, Acceptable e) →
      ∃ s', addEndpointList s (es.map some ++ p :: rest) = .ok (.ok, s') ∧ Holds s' (l ++ es)) ∧
    (∀ pre e post, es = pre ++ e :: post → (∀ x ∈ pre, Acceptable x) → ¬ Acceptable e →
      ∃ s', addEndpointList s (es.map some ++ p :: rest) = .ok (.params, s') ∧ Holds s' (l ++ pre)) := by
  induction es generalizing s l with
  | nil =>
    refine ⟨fun _ => ⟨s, list_end s p rest hp, by simpa using hs⟩, ?_⟩
    intro pre e post h
    simp at h
  | cons a t ih =>
    have hna := hes a (List.mem_cons_self ..)
    have hnt : ∀ e ∈ t, ¬ Null e := fun e he => hes e (List.mem_cons_of_mem _ he)
    have hstep : addEndpointList s ((a :: t).map some ++ p :: rest) = _ := list_step s a (t.map some ++ p :: rest) hna
    by_cases hacc : Acceptable a
    · obtain ⟨s1, h1, hs1⟩ := (C20_add s l a hs hna).1 hacc
      have hstep' : addEndpointList s ((a :: t).map some ++ p :: rest) =
          addEndpointList s1 (t.map some ++ p :: rest) := by
        rw [hstep, h1]; rfl
      rw [hstep']
      constructor
      · intro hall
        obtain ⟨s', h, hh⟩ := (ih s1 (l ++ [a]) hs1 hnt).1 (fun e he => hall e (List.mem_cons_of_mem _ he))
        exact ⟨s', h, by simpa using hh⟩
      · intro pre e post heq hpre he
        cases pre with
        | nil =>
          simp only [List.nil_append, List.cons.injEq] at heq
          exact absurd (heq.1 ▸ hacc) he
        | cons b pre =>
          simp only [List.cons_append, List.cons.injEq] at heq
          obtain ⟨rfl, heq⟩ := heq
          obtain ⟨s', h, hh⟩ := (ih s1 (l ++ [a]) hs1 hnt).2 pre e post heq
            (fun x hx => hpre x (List.mem_cons_of_mem _ hx)) he
          exact ⟨s', h, by simpa using hh⟩
    · have h1 := (C20_add s l a hs hna).2 hacc
      have hstep' : addEndpointList s ((a :: t).map some ++ p :: rest) = .ok (.params, s) := by
        rw [hstep, h1]; rfl
      rw [hstep']
      constructor
      · intro hall
        exact absurd (hall a (List.mem_cons_self ..)) hacc
      · intro pre e post heq hpre he
        cases pre with
        | nil => exact ⟨s, rfl, by simpa using hs⟩
        | cons b pre =>
          simp only [List.cons_append, List.cons.injEq] at heq
          obtain ⟨rfl, heq⟩ := heq
          exact absurd (hpre a (List.mem_cons_self ..)) hacc

private def listA : Endpoint := ⟨some b!"GET", some b!"/a", none, 0, some 0, 0⟩
private def listB : Endpoint := ⟨some b!"PUT", none, some b!"/b", 1, none, 0⟩
private def listC : Endpoint := ⟨some b!"PUT", none, some b!"/c", 1, some 1, 0⟩

/-- A list of three endpoints, the second without a callback: the first is registered. -/
example : Holds Inst.init [] ∧ EndOfList (some emptyEndpoint) ∧ Acceptable listA ∧ ¬ Acceptable listB ∧
    ¬ Null listB ∧ addEndpointList Inst.init ([listA, listB, listC].map some ++ [some emptyEndpoint]) =
      .ok (.params, ⟨some [listA, emptyEndpoint], 1⟩) :=
  ⟨.inl ⟨rfl, rfl⟩, .inr ⟨_, rfl, rfl, rfl, rfl⟩, ⟨rfl, rfl, .inl rfl⟩, (fun h => by cases h.2.1), (fun h => by cases h.1),
    by decide +kernel⟩

/-- **C144, by value.** An endpoint with a method, a callback and a prefix or format is registered with exactly the given
values; with a missing part, unless method, prefix and format are all missing (see `C20_selectable_false`), it is
refused and nothing changes. -/
theorem C144_add_by_val (s : Inst) (l : List Endpoint) (method pfx format : Option Bytes) (priority : Nat)
    (callback : Option Nat) (data : Nat) (hs : Holds s l) :
    (∀ m c, method = some m → callback = some c → (pfx ≠ none ∨ format ≠ none) →
      ∃ s', addEndpointByVal s method pfx format priority callback data = .ok (.ok, s') ∧
        Holds s' (l ++ [⟨some m, pfx, format, priority, some c, data⟩])) ∧
    (¬ (method = none ∧ pfx = none ∧ format = none) →
      (method = none ∨ callback = none ∨ (pfx = none ∧ format = none)) →
      addEndpointByVal s method pfx format priority callback data = .ok (.params, s)) := by
  constructor
  · rintro m c rfl rfl hf
    refine (C20_add s l ⟨some m, pfx, format, priority, some c, data⟩ hs (fun h => by cases h.1)).1 ⟨rfl, rfl, ?_⟩
    rcases hf with h | h
    · exact .inl (Option.isSome_iff_ne_none.2 h)
    · exact .inr (Option.isSome_iff_ne_none.2 h)
  · intro hn hbad
    refine (C20_add s l ⟨method, pfx, format, priority, callback, data⟩ hs hn).2 ?_
    rintro ⟨h1, h2, h3⟩
    simp only at h1 h2 h3
    rcases hbad with rfl | rfl | ⟨rfl, rfl⟩
    · cases h1
    · cases h2
    · rcases h3 with h | h <;> cases h

/-- **C144, removal by value.** Whatever the fields that are not set hold: exactly the endpoints with this method, prefix
and format (up to slashes at their ends) are removed, the others stay in their order; U_ERROR_NOT_FOUND when there was
none. -/
theorem C144_remove_by_val (s : Inst) (l : List Endpoint) (m : Bytes) (pfx format : Option Bytes)
    (junkPriority junkData : Nat) (hs : Holds s l) (hf : pfx ≠ none ∨ format ≠ none) :
    ∃ (rc : Endpoint.Rc) (s' : Inst) (keep : Endpoint → Bool),
      (∀ x, keep x = true ↔ ¬ (x.method = some m ∧ SameOpt x.pfx pfx ∧ SameOpt x.format format)) ∧
      removeEndpointByVal s (some m) pfx format junkPriority junkData = .ok (rc, s') ∧ Holds s' (l.filter keep) ∧
      ((∃ x ∈ l, keep x = false) → rc = .ok) ∧ ((∀ x ∈ l, keep x = true) → rc = .notFound) := by
  obtain ⟨rc, s', keep, hk, h, hh, h1, h2⟩ := C21_remove s l ⟨some m, pfx, format, junkPriority, none, junkData⟩ hs rfl
    (hf.imp Option.isSome_iff_ne_none.2 Option.isSome_iff_ne_none.2)
  refine ⟨rc, s', keep, hk, h, hh, ?_, ?_⟩
  · rintro ⟨x, hx, hkx⟩
    refine h1 ⟨x, hx, ?_⟩
    refine Classical.byContradiction (fun hd => ?_)
    rw [(hk x).2 hd] at hkx
    cases hkx
  · intro hall
    exact h2 (fun x hx => (hk x).1 (hall x hx))

/-- Without a method, or with neither prefix nor format, nothing is removed. -/
theorem C144_remove_params (s : Inst) (method pfx format : Option Bytes) (junkPriority junkData : Nat)
    (h : method = none ∨ (pfx = none ∧ format = none)) :
    removeEndpointByVal s method pfx format junkPriority junkData = .ok (.params, s) :=
  C21_remove_params s ⟨method, pfx, format, junkPriority, none, junkData⟩ h

/-- An endpoint added by value is removed by value, with other slashes. -/
example : ∃ s, addEndpointByVal Inst.init (some b!"GET") (some b!"/api") none 3 (some 1) 7 = .ok (.ok, s) ∧
    removeEndpointByVal s (some b!"GET") (some b!"api/") none 99 98 = .ok (.ok, ⟨some [emptyEndpoint], 0⟩) :=
  ⟨⟨some [⟨some b!"GET", some b!"/api", none, 3, some 1, 7⟩, emptyEndpoint], 1⟩, by decide +kernel, by decide +kernel⟩

end Verif.Props
