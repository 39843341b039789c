import Verif.Model.Types
/-!
# C195: a website compresses the files of the types that were added
-/
namespace Verif.Props
open Verif.Types

/-- The types that can be added. -/
def namedTypes (l : List (Option Bytes × Types.Mem)) : List Bytes := l.filterMap fun p => if p.1 = some [] then none else p.1

/-- The answer there should be to a call, given that memory for the array is there or not. -/
def typeAnswer (p : Option Bytes × Types.Mem) : Types.Code := if p.1 = none ∨ p.1 = some [] then .params else if p.2.grow then .ok else .error

/-- The array holds just these types, and nothing was lost. -/
private def Holds (c : Types.Config) (ts : List Bytes) : Prop :=
  c.size = ts.length ∧ c.lost = 0 ∧ ((ts = [] ∧ c.array = none) ∨ (ts ≠ [] ∧ c.array = some (ts.map Cell.text ++ [Cell.null])))

private theorem add_ok {c : Types.Config} {ts : List Bytes} (h : Holds c ts) (t : Bytes) (ht : t ≠ []) (mem : Types.Mem) (hg : mem.grow = true)
    (hc : mem.copy = true) : ∃ c', add c mem (some t) = (.ok, c') ∧ Holds c' (ts ++ [t]) := by
  obtain ⟨h1, h2, h3⟩ := h
  have hm : add c mem (some t) = (.ok, { c with
      array := some (((resize c.array (c.size + 2)).set c.size (.text t)).set (c.size + 1) .null), size := c.size + 1 }) := by
    cases t with
    | nil => exact absurd rfl ht
    | cons a r => simp [add, hg, hc]
  refine ⟨_, hm, by simp [h1], h2, Or.inr ⟨by simp, ?_⟩⟩
  have hr : resize c.array (c.size + 2) = ts.map Cell.text ++ (if ts = [] then [.unwritten, .unwritten] else [.null, .unwritten]) := by
    rcases h3 with ⟨e, a⟩ | ⟨e, a⟩
    · subst e
      simp only [h1, a, resize]
      rfl
    · have htk : (ts.map Cell.text ++ [Cell.null]).take (c.size + 2) = ts.map Cell.text ++ [Cell.null] :=
        List.take_of_length_le (by simp [h1])
      simp only [resize, a, Option.getD_some, htk, e, if_false]
      have : c.size + 2 - (ts.map Cell.text ++ [Cell.null]).length = 1 := by simp [h1]
      rw [this]
      simp
  simp only [hr]
  have hs : c.size = (ts.map Cell.text).length := by simp [h1]
  rw [hs]
  split <;> simp

private theorem search_holds (x : Bytes) (ts : List Bytes) : search x (ts.map Cell.text ++ [Cell.null]) = .ok (decide (x ∈ ts)) := by
  induction ts with
  | nil => rfl
  | cons t r ih =>
    simp only [List.map_cons, List.cons_append, search, ih, List.mem_cons]
    by_cases h : t = x
    · simp [h]
    · have : ¬ x = t := fun e => h e.symm
      simp [h, this]

private theorem strings_holds (ts : List Bytes) : strings (ts.map Cell.text ++ [Cell.null]) = .ok ts := by
  induction ts with
  | nil => rfl
  | cons t r ih => simp only [List.map_cons, List.cons_append, strings, ih]; rfl

private theorem blocks_holds (ts : List Bytes) : blocks (some (ts.map Cell.text ++ [Cell.null])) = 1 + ts.length := by
  simp only [blocks, List.filter_append]
  induction ts with
  | nil => rfl
  | cons t r ih =>
    simp only [List.map_cons, List.filter_cons, if_true, List.cons_append, List.length_cons] at ih ⊢
    omega

private theorem addAll_holds : ∀ (l : List (Option Bytes × Types.Mem)) (c : Types.Config) (ts : List Bytes), Holds c ts → (∀ p ∈ l, p.2.copy = true) →
    ((∀ p ∈ l, p.2.grow = true) ∨ (ts = [] ∧ ∃ a b, l = a ++ b ∧ (∀ p ∈ a, typeAnswer p ≠ .ok) ∧ ∀ p ∈ b, p.2.grow = true)) →
    (addAll c l).1 = l.map typeAnswer ∧ Holds (addAll c l).2 (ts ++ namedTypes (l.filter fun p => p.2.grow)) := by
  intro l
  induction l with
  | nil => intro c ts h _ _; exact ⟨rfl, by simpa [addAll, namedTypes] using h⟩
  | cons p r ih =>
    obtain ⟨t, mem⟩ := p
    intro c ts h hcp hg
    have hc : mem.copy = true := hcp (t, mem) (by simp)
    have hcr : ∀ p ∈ r, p.2.copy = true := fun p hp => hcp p (by simp [hp])
    -- the rest is as the whole
    have hrest : (∀ p ∈ r, p.2.grow = true) ∨ (ts = [] ∧ typeAnswer (t, mem) ≠ .ok ∧
        ∃ a b, r = a ++ b ∧ (∀ p ∈ a, typeAnswer p ≠ .ok) ∧ ∀ p ∈ b, p.2.grow = true) := by
      rcases hg with hg | ⟨e, a, b, hab, ha, hb⟩
      · exact Or.inl fun p hp => hg p (by simp [hp])
      · cases a with
        | nil =>
          simp only [List.nil_append] at hab
          exact Or.inl fun p hp => hb p (by rw [← hab]; simp [hp])
        | cons q a =>
          simp only [List.cons_append, List.cons.injEq] at hab
          exact Or.inr ⟨e, by rw [hab.1]; exact ha q (by simp), a, b, hab.2, fun p hp => ha p (by simp [hp]), hb⟩
    have hgrow : mem.grow = true ∨ (ts = [] ∧ mem.grow = false) := by
      rcases hg with hg | ⟨e, _⟩
      · exact Or.inl (hg (t, mem) (by simp))
      · cases hm : mem.grow with
        | true => exact Or.inl rfl
        | false => exact Or.inr ⟨e, rfl⟩
    -- a call that is refused
    have same : ∀ c', add c mem t = (typeAnswer (t, mem), c') → Holds c' ts → namedTypes (((t, mem) :: r).filter fun p => p.2.grow) = namedTypes (r.filter fun p => p.2.grow) →
        (addAll c ((t, mem) :: r)).1 = ((t, mem) :: r).map typeAnswer ∧
          Holds (addAll c ((t, mem) :: r)).2 (ts ++ namedTypes (((t, mem) :: r).filter fun p => p.2.grow)) := by
      intro c' he hh hn
      obtain ⟨i1, i2⟩ := ih c' ts hh hcr (hrest.imp id fun ⟨e, _, q⟩ => ⟨e, q⟩)
      refine ⟨?_, ?_⟩
      · simp only [addAll, he, i1, List.map_cons]
      · simp only [addAll, he, hn]
        exact i2
    cases t with
    | none =>
      refine same c (by simp [add, typeAnswer]) h ?_
      simp only [List.filter_cons]
      split <;> simp [namedTypes]
    | some t =>
      cases t with
      | nil =>
        refine same c (by simp [add, typeAnswer]) h ?_
        simp only [List.filter_cons]
        split <;> simp [namedTypes]
      | cons x xs =>
        rcases hgrow with hm | ⟨e, hm⟩
        · obtain ⟨c', e1, e2⟩ := add_ok h (x :: xs) (by simp) mem hm hc
          have hr : ∀ p ∈ r, p.2.grow = true := by
            rcases hrest with hr | ⟨_, hn, _⟩
            · exact hr
            · exact absurd (by simp [typeAnswer, hm]) hn
          obtain ⟨i1, i2⟩ := ih c' (ts ++ [x :: xs]) e2 hcr (Or.inl hr)
          refine ⟨?_, ?_⟩
          · simp only [addAll, e1, i1, List.map_cons]
            simp [typeAnswer, hm]
          · simp only [addAll, e1]
            have : namedTypes (((some (x :: xs), mem) :: r).filter fun p => p.2.grow) = (x :: xs) :: namedTypes (r.filter fun p => p.2.grow) := by
              simp [namedTypes, hm]
            rw [this, List.append_cons]
            exact i2
        · subst e
          have ha : c.array = none := by
            rcases h.2.2 with ⟨_, a⟩ | ⟨a, _⟩
            · exact a
            · exact absurd rfl a
          refine same { c with array := none, lost := c.lost + blocks c.array } (by simp [add, typeAnswer, hm]) ?_ (by simp [hm])
          exact ⟨h.1, by simp [h.2.1, ha, blocks], Or.inl ⟨rfl, rfl⟩⟩

/-- **C195, partial.** Whatever types are added, with memory running out for the array at most before the first type is in it, and never for the copy of a type:
each call says whether the type was added; just the files of these types are compressed; and cleaning the configuration leaves no memory behind.
Missing: memory running out at other times, for which it is false, below. -/
theorem C195_types_partial (l : List (Option Bytes × Types.Mem)) (hc : ∀ p ∈ l, p.2.copy = true)
    (hg : ∃ a b, l = a ++ b ∧ (∀ p ∈ a, typeAnswer p ≠ .ok) ∧ ∀ p ∈ b, p.2.grow = true) :
    (addAll Types.init l).1 = l.map typeAnswer ∧
    (∀ type, compresses (addAll Types.init l).2 type = .ok (decide (type ∈ namedTypes (l.filter fun p => p.2.grow)))) ∧
    clean (addAll Types.init l).2 = .ok 0 := by
  obtain ⟨h1, h2, h3, h4⟩ := addAll_holds l Types.init [] ⟨rfl, rfl, Or.inl ⟨rfl, rfl⟩⟩ hc (Or.inr ⟨rfl, hg⟩)
  rw [List.nil_append] at h2 h4
  refine ⟨h1, ?_, ?_⟩
  · intro type
    unfold compresses
    rcases h4 with ⟨e, a⟩ | ⟨e, a⟩
    · rw [a, e]; rfl
    · rw [a]; exact search_holds type _
  · unfold clean
    rcases h4 with ⟨e, a⟩ | ⟨e, a⟩
    · rw [a, h3]
    · rw [a]
      simp only [strings_holds, Res.ok_bind, blocks_holds, h3]
      simp

example : (addAll Types.init [(some b!"text/css", { grow := false }), (some [], {}), (some b!"text/html", {}), (none, {}), (some b!"text/css", {})]).1 =
    [.error, .params, .ok, .params, .ok] := by decide +kernel

example : ∃ a b, [(some b!"text/css", ({ grow := false } : Types.Mem)), (some [], {}), (some b!"text/html", {}), (none, {}), (some b!"text/css", {})] = a ++ b ∧
    (∀ p ∈ a, typeAnswer p ≠ .ok) ∧ ∀ p ∈ b, p.2.grow = true :=
  ⟨[(some b!"text/css", { grow := false })], _, rfl, by decide, by decide⟩

/-- **C195 is false** when there is no memory for the copy of a type: the call answers `U_OK`, the array ends there, and types that are added later, with `U_OK`, are
not compressed; their strings are never freed. -/
theorem C195_copy_false : ∃ c, addAll Types.init [(some b!"text/html", { copy := false }), (some b!"text/css", {})] = ([.ok, .ok], c) ∧
    compresses c b!"text/css" = .ok false ∧ clean c = .ok 1 := ⟨_, rfl, by decide +kernel, by decide +kernel⟩

/-- **C195 is false** when the array cannot be made larger: the call says so, but the types that were added before are not compressed any more, and are never
freed. -/
theorem C195_array_false : ∃ c, addAll Types.init [(some b!"text/html", {}), (some b!"text/css", { grow := false })] = ([.ok, .error], c) ∧
    compresses c b!"text/html" = .ok false ∧ clean c = .ok 2 := ⟨_, rfl, by decide +kernel, by decide +kernel⟩

/-- **C195 is false**: and when a type is added after that, the array begins with a pointer nobody has written: looking for a type, and cleaning the configuration,
go through it. -/
theorem C195_unwritten_false : ∃ c, addAll Types.init [(some b!"text/html", {}), (some b!"text/css", { grow := false }), (some b!"text/css", {})] =
    ([.ok, .error, .ok], c) ∧ compresses c b!"text/css" = .ub ∧ clean c = .ub := ⟨_, rfl, by decide +kernel, by decide +kernel⟩

end Verif.Props
