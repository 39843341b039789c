import Verif.Model.OomDispatch
import Verif.Spec.OomDispatch
import Verif.Lemmas.Endpoint
/-!
# Lemmas on the choice of the callbacks when memory runs out
-/
namespace Verif.OomDispatch
open Verif.Endpoint Verif.Spec.Routing Verif.Spec.OomDispatch

theorem ask_ok {f : F} {s : Site} (h : ∀ n, f n s = false) (n : Nat) : ask f s n = (true, n + 1) := by simp [ask, h]

theorem addWords_ok {f : F} {k : Kind} (hg : ∀ n, f n (.grow k) = false) (hw : ∀ n, f n (.word k) = false) (ws : List Bytes) :
    ∀ (n : Nat) (a : Words) (c : Nat), ∃ c' n', addWords f k n (some a) c ws = (some ⟨a.lost, a.words ++ ws⟩, c', n') := by
  induction ws with
  | nil => intro n a c; exact ⟨c, n, by simp [addWords]⟩
  | cons w t ih =>
    intro n a c
    obtain ⟨c', n', h⟩ := ih (n + 1 + 1) ⟨a.lost, a.words ++ [w]⟩ (c + 1)
    exact ⟨c', n', by simp [addWords, ask_ok hg, ask_ok hw, h]⟩

/-- The words that count. -/
def kept (keep : Bytes → Bool) : Option Bytes → List Bytes
  | some s => (slashWords s).filter keep
  | none => []

theorem addPart_ok {f : F} {k : Kind} (hc : ∀ n, f n (.copy k) = false) (hg : ∀ n, f n (.grow k) = false) (hw : ∀ n, f n (.word k) = false)
    (n : Nat) (a : Words) (c : Nat) (s : Option Bytes) (keep : Bytes → Bool) :
    ∃ c' n', addPart f k n (some a) c s keep = .ok (some ⟨a.lost, a.words ++ kept keep s⟩, c', n') := by
  cases s with
  | none => exact ⟨c, n, by simp [addPart, kept]⟩
  | some s =>
    obtain ⟨c', n', h⟩ := addWords_ok hg hw ((slashWords s).filter keep) (n + 1) a c
    exact ⟨c', n', by simp [addPart, kept, ask_ok hc, h]⟩

theorem filter_true (l : List Bytes) : l.filter (fun _ => true) = l := List.filter_eq_self.2 (by simp)

theorem splitUrl_keep (pfx url : Option Bytes) :
    kept (fun _ => true) pfx ++ kept (fun w => !w.isEmpty && !(w.head? == some 0x3f)) url = splitUrl pfx url := by
  cases pfx <;> cases url <;> simp only [splitUrl, kept, filter_true]

/-- Nothing fails: the words. -/
theorem split_ok {f : F} {k : Kind} (ha : ∀ n, f n (.array k) = false) (hc : ∀ n, f n (.copy k) = false) (hg : ∀ n, f n (.grow k) = false)
    (hw : ∀ n, f n (.word k) = false) (n : Nat) (pfx url : Option Bytes) : ∃ n', split f k n pfx url = .ok (some (splitUrl pfx url), n') := by
  obtain ⟨c1, n1, h1⟩ := addPart_ok hc hg hw (n + 1) ⟨0, []⟩ 1 pfx (fun _ => true)
  obtain ⟨c2, n2, h2⟩ := addPart_ok hc hg hw n1 ⟨0, kept (fun _ => true) pfx⟩ c1 url (fun w => !w.isEmpty && !(w.head? == some 0x3f))
  refine ⟨n2, ?_⟩
  rw [← splitUrl_keep]
  simp only [List.nil_append] at h1
  simp only [split, ask_ok ha, h1, Res.ok_bind, h2]
  rfl

/-- Words are copied whenever there is room: the words, or nothing. -/
theorem split_words {f : F} {k : Kind} (hg : ∀ n, f n (.grow k) = false) (hw : ∀ n, f n (.word k) = false) (n : Nat) (pfx url : Option Bytes)
    {ws : List Bytes} {n' : Nat} (h : split f k n pfx url = .ok (some ws, n')) : ws = splitUrl pfx url := by
  have part : ∀ (n : Nat) (a : Words) (c : Nat) (s : Option Bytes) (keep : Bytes → Bool),
      addPart f k n (some a) c s keep = .ub ∨
      ∃ c' n', addPart f k n (some a) c s keep = .ok (some ⟨a.lost, a.words ++ kept keep s⟩, c', n') := by
    intro n a c s keep
    cases s with
    | none => exact .inr ⟨c, n, by simp [addPart, kept]⟩
    | some s =>
      obtain ⟨c', n', h⟩ := addWords_ok hg hw ((slashWords s).filter keep) (n + 1) a c
      cases hf : f n (.copy k) with
      | true => exact .inl (by simp [addPart, ask, hf])
      | false => exact .inr ⟨c', n', by simp [addPart, kept, ask, hf, h]⟩
  rw [← splitUrl_keep]
  unfold split at h
  cases hf : f n (.array k) with
  | true => simp [ask, hf] at h
  | false =>
    simp only [ask, hf] at h
    rcases part (n + 1) ⟨0, []⟩ 1 pfx (fun _ => true) with h1 | ⟨c1, n1, h1⟩
    · simp [h1] at h
    · simp only [List.nil_append] at h1
      rcases part n1 ⟨0, kept (fun _ => true) pfx⟩ c1 url (fun w => !w.isEmpty && !(w.head? == some 0x3f)) with h2 | ⟨c2, n2, h2⟩
      · simp only [h1, Res.ok_bind, h2] at h
        cases h
      · simp only [h1, Res.ok_bind, h2] at h
        have e := Res.ok.inj h
        simpa using (congrArg Prod.fst e).symm

/-- The URL of a request: the words or nothing if they can be copied. -/
theorem split_url {f : F} {k : Kind} (hc : ∀ n, f n (.copy k) = false) (hw : ∀ n, f n (.word k) = false) (n : Nat) (url : Bytes) :
    ∃ n', split f k n (some url) none = .ok (some (slashWords url), n') ∨ split f k n (some url) none = .ok (none, n') := by
  have words : ∀ (ws : List Bytes) (n : Nat) (l : List Bytes) (c : Nat), ∃ c' n',
      addWords f k n (some ⟨0, l⟩) c ws = (some ⟨0, l ++ ws⟩, c', n') ∨ addWords f k n (some ⟨0, l⟩) c ws = (none, c', n') := by
    intro ws
    induction ws with
    | nil => intro n l c; exact ⟨c, n, .inl (by simp [addWords])⟩
    | cons w t ih =>
      intro n l c
      cases hf : f n (.grow k) with
      | true => exact ⟨c, n + 1, .inr (by simp [addWords, ask, hf])⟩
      | false =>
        obtain ⟨c', n', h⟩ := ih (n + 1 + 1) (l ++ [w]) (c + 1)
        refine ⟨c', n', ?_⟩
        simp only [addWords, ask, hf, hw, Bool.not_false, Bool.not_true, if_false, Option.getD_some, Bool.false_eq_true]
        simpa using h
  unfold split
  cases hf : f n (.array k) with
  | true => exact ⟨n + 1, .inr (by simp [ask, hf])⟩
  | false =>
    obtain ⟨c', n', h⟩ := words (slashWords url) (n + 1 + 1) [] 1
    refine ⟨n', ?_⟩
    rcases h with h | h
    · left
      simp only [ask, hf, addPart, hc, filter_true, h, Res.ok_bind, Bool.not_false, Bool.not_true, Bool.false_eq_true, if_false, List.nil_append]; rfl
    · right
      simp only [ask, hf, addPart, hc, filter_true, h, Res.ok_bind, Bool.not_false, Bool.not_true, Bool.false_eq_true, if_false, List.nil_append]; rfl

theorem split_url_words {f : F} {k : Kind} (hw : ∀ n, f n (.word k) = false) (n : Nat) (url : Bytes) {ws : List Bytes} {n' : Nat}
    (h : split f k n (some url) none = .ok (some ws, n')) : ws = slashWords url := by
  cases hc : f (n + 1) (.copy k) with
  | true =>
    unfold split at h
    cases hf : f n (.array k) <;> simp [ask, hf, addPart, hc] at h
  | false =>
    let g : F := fun m s => if s = .copy k then false else f m s
    have e1 : ∀ ws n a c, addWords g k n a c ws = addWords f k n a c ws := by
      intro ws
      induction ws with
      | nil => intros; rfl
      | cons w t ih => intro n a c; simp only [addWords, ask, g, ih, reduceCtorEq, if_false]; rfl
    have e : split g k n (some url) none = split f k n (some url) none := by
      simp only [split, addPart, ask, e1, hc, g, reduceCtorEq, if_false, if_true]
    obtain ⟨m, h1 | h1⟩ := split_url (f := g) (k := k) (by intro n; simp [g]) (by intro n; simp [g, hw]) n url <;> rw [e, h] at h1
    · exact Option.some.inj (congrArg Prod.fst (Res.ok.inj h1))
    · cases congrArg Prod.fst (Res.ok.inj h1)

/-- Whatever fails, what is read of the URL are its first words. -/
theorem split_url_prefix {f : F} {k : Kind} (n : Nat) (url : Bytes) {ws : List Bytes} {n' : Nat}
    (h : split f k n (some url) none = .ok (some ws, n')) : ws <+: slashWords url := by
  have words : ∀ (ws : List Bytes) (n : Nat) (l : List Bytes) (c : Nat),
      (addWords f k n (some ⟨0, l⟩) c ws).1 = none ∨ ∃ p, p <+: ws ∧ (addWords f k n (some ⟨0, l⟩) c ws).1 = some ⟨0, l ++ p⟩ := by
    intro ws
    induction ws with
    | nil => intro n l c; exact .inr ⟨[], List.prefix_refl _, by simp [addWords]⟩
    | cons w t ih =>
      intro n l c
      cases hf : f n (.grow k) with
      | true => exact .inl (by simp [addWords, ask, hf])
      | false =>
        cases hw : f (n + 1) (.word k) with
        | true => exact .inr ⟨[], List.nil_prefix, by simp [addWords, ask, hf, hw]⟩
        | false =>
          simp only [addWords, ask, hf, hw, Bool.not_false, Bool.not_true, if_false, Option.getD_some, Bool.false_eq_true]
          rcases ih (n + 1 + 1) (l ++ [w]) (c + 1) with h | ⟨p, hp, h⟩
          · exact .inl h
          · exact .inr ⟨w :: p, by simpa using hp, by simp [h]⟩
  unfold split at h
  cases hf : f n (.array k) with
  | true => simp [ask, hf] at h
  | false =>
    cases hc : f (n + 1) (.copy k) with
    | true => simp [ask, hf, addPart, hc] at h
    | false =>
      simp only [ask, hf, addPart, hc, filter_true, Res.ok_bind, Bool.not_false, Bool.not_true, Bool.false_eq_true, if_false] at h
      rcases words (slashWords url) (n + 1 + 1) [] 1 with e | ⟨p, hp, e⟩
      · rw [e] at h; cases h
      · rw [e] at h
        simp only [if_true] at h
        have := congrArg Prod.fst (Res.ok.inj h)
        simp only [List.nil_append, Option.some.injEq] at this
        rw [← this]; exact hp

theorem copyEndpoint_same (f : F) (n : Nat) (e : Endpoint) : SameCallback e (copyEndpoint f n e).1 := ⟨rfl, rfl, rfl⟩

theorem dup_ok {f : F} (h : ∀ n, f n .text = false) (n : Nat) (t : Option Bytes) : (dup f n t).1 = t := by
  cases t <;> simp [dup, ask, h]

theorem copyEndpoint_ok {f : F} (h : ∀ n, f n .text = false) (n : Nat) (e : Endpoint) : (copyEndpoint f n e).1 = e := by
  simp only [copyEndpoint, dup_ok h]

/-- Nothing fails in the loop: the endpoints of the filter. -/
theorem loop_ok {f : F} (hf : ∀ n s, s = .array .format ∨ s = .copy .format ∨ s = .grow .format ∨ s = .word .format ∨ s = .list ∨ s = .endpoint ∨ s = .text →
      f n s = false) (method url : Bytes) (l : List Endpoint) : ∀ (n : Nat) (eps : List (Option Endpoint)) (count : Nat), (∀ e ∈ l, e.method.isSome) →
    ∃ c' n', loop f method (slashWords url) n (some ⟨0, eps⟩) count l = .ok (some ⟨0, eps ++ (l.filter (sel method url)).map some⟩, c', n') := by
  induction l with
  | nil => intro n eps count _; exact ⟨count, n, by simp [loop]⟩
  | cons e t ih =>
    intro n eps count hl
    obtain ⟨m, hm⟩ := Option.isSome_iff_exists.1 (hl e (by simp))
    have ht : ∀ e ∈ t, e.method.isSome := fun e h => hl e (by simp [h])
    rw [loop]
    simp only [hm]
    by_cases hx : (eqCase m method || byte0 m == 0x2a) = true
    · obtain ⟨n1, h1⟩ := split_ok (f := f) (k := .format) (fun n => hf n _ (by simp)) (fun n => hf n _ (by simp)) (fun n => hf n _ (by simp))
        (fun n => hf n _ (by simp)) n e.pfx e.format
      simp only [hx, if_true, h1, Res.ok_bind]
      by_cases hy : formatMatch (slashWords url) (splitUrl e.pfx e.format) = true
      · have hs : sel method url e = true := by simp only [sel, hm, Option.getD_some, hx, hy, Bool.and_self]
        have ha : addFound f n1 (some ⟨0, eps⟩) count e = (some ⟨0, eps ++ [some e]⟩, (copyEndpoint f (n1 + 1 + 1) e).2) := by
          simp only [addFound, ask, hf _ .list (by simp), hf _ .endpoint (by simp), Bool.not_false, Bool.not_true, Bool.false_eq_true, if_false, Option.getD_some,
            copyEndpoint_ok (fun n => hf n .text (by simp))]
        simp only [hy, if_true, ha]
        obtain ⟨c', n', h⟩ := ih (copyEndpoint f (n1 + 1 + 1) e).2 (eps ++ [some e]) (count + 1) ht
        exact ⟨c', n', by simp [h, hs]⟩
      · have hs : sel method url e = false := by simp only [sel, hm, Option.getD_some, hx, hy, Bool.and_false]
        simp only [hy, if_false, Bool.false_eq_true]
        obtain ⟨c', n', h⟩ := ih n1 eps count ht
        exact ⟨c', n', by simp [h, hs]⟩
    · have hs : sel method url e = false := by
        simp only [Bool.not_eq_true] at hx
        simp only [sel, hm, Option.getD_some, hx, Bool.false_and]
      simp only [hx, if_false, Bool.false_eq_true]
      obtain ⟨c', n', h⟩ := ih n eps count ht
      exact ⟨c', n', by simp [h, hs]⟩

/-- What the loop leaves comes from endpoints that passed its tests. -/
theorem loop_from {f : F} {method : Bytes} {surl : List Bytes} {Good : Endpoint → Prop} (l : List Endpoint)
    (hgood : ∀ e ∈ l, ∀ m n ws n', e.method = some m → (eqCase m method || byte0 m == 0x2a) = true → split f .format n e.pfx e.format = .ok (some ws, n') →
      formatMatch surl ws = true → Good e) : ∀ (n : Nat) (a : Option Found) (count : Nat) (a' : Option Found) (c' n' : Nat),
    (∀ x, a = some x → ∀ e', some e' ∈ x.eps → ∃ e, Good e ∧ SameCallback e e') → loop f method surl n a count l = .ok (a', c', n') →
    ∀ x, a' = some x → ∀ e', some e' ∈ x.eps → ∃ e, Good e ∧ SameCallback e e' := by
  induction l with
  | nil =>
    intro n a count a' c' n' hi h
    simp only [loop] at h
    have := congrArg Prod.fst (Res.ok.inj h)
    simp only at this
    rw [← this]; exact hi
  | cons e t ih =>
    intro n a count a' c' n' hi h
    have ih := ih (fun e h => hgood e (by simp [h]))
    rw [loop] at h
    cases hm : e.method with
    | none => simp only [hm] at h; cases h
    | some m =>
      simp only [hm] at h
      by_cases hx : (eqCase m method || byte0 m == 0x2a) = true
      · simp only [hx, if_true] at h
        cases hs : split f .format n e.pfx e.format with
        | ub => rw [hs] at h; cases h
        | ok p =>
          obtain ⟨ws, n1⟩ := p
          rw [hs, Res.ok_bind] at h
          cases ws with
          | none => exact ih _ _ _ _ _ _ hi h
          | some ws =>
            simp only at h
            by_cases hy : formatMatch surl ws = true
            · simp only [hy, if_true] at h
              refine ih _ _ _ _ _ _ ?_ h
              have hg := hgood e (by simp) m n ws n1 hm hx hs hy
              intro x hx' e' he'
              unfold addFound at hx'
              cases h1 : f n1 .list with
              | true => simp [ask, h1] at hx'
              | false =>
                have old : ∀ e', some e' ∈ (a.getD ⟨count, []⟩).eps → ∃ e, Good e ∧ SameCallback e e' := by
                  cases a with
                  | none => intro e' h; simp at h
                  | some a => exact hi a rfl
                cases h2 : f (n1 + 1) .endpoint with
                | true =>
                  simp only [ask, h1, h2, Bool.not_false, Bool.not_true, Bool.false_eq_true, if_false, if_true, Option.some.injEq] at hx'
                  rw [← hx'] at he'
                  simp at he'
                  exact old e' he'
                | false =>
                  simp only [ask, h1, h2, Bool.not_false, Bool.not_true, Bool.false_eq_true, if_false, if_true, Option.some.injEq] at hx'
                  rw [← hx'] at he'
                  simp at he'
                  rcases he' with he' | rfl
                  · exact old e' he'
                  · exact ⟨e, hg, copyEndpoint_same f _ e⟩
            · simp only [hy, if_false, Bool.false_eq_true] at h
              exact ih _ _ _ _ _ _ hi h
      · simp only [hx, if_false, Bool.false_eq_true] at h
        exact ih _ _ _ _ _ _ hi h

theorem sorted_from {sort : List Endpoint → List Endpoint} (hsort : ∀ l, Sorted l (sort l)) {a : Found} {r : List Endpoint} (h : sorted sort a = .ok r) :
    InOrder r ∧ ∀ e ∈ r, some e ∈ a.eps := by
  unfold sorted at h
  split at h
  · cases h; exact ⟨List.Pairwise.nil, by simp⟩
  · split at h
    · cases h
    · cases h
      refine ⟨(hsort _).2, fun e he => ?_⟩
      have := (hsort _).1.mem_iff.2 he
      simpa using this
  · cases h

theorem sorted_all (sort : List Endpoint → List Endpoint) (l : List Endpoint) : sorted sort ⟨0, l.map some⟩ = .ok (sort l) := by
  cases l with
  | nil => simp [sorted]
  | cons a t => simp [sorted]

end Verif.OomDispatch
