import Verif.Lemmas.OomDispatch
/-!
# C178: who is called when memory runs out while a request is dispatched
-/
namespace Verif.Props
open Verif.Endpoint Verif.Spec.Routing Verif.Spec.OomDispatch Verif.OomDispatch

private theorem pure_bind' {α β : Type} (a : α) (g : α → Res β) : ((pure a : Res α) >>= g) = g a := rfl

private theorem count_filter (method url : Bytes) (l : List Endpoint) (hl : ∀ e ∈ l, e.method.isSome) (e : Endpoint) (he : Handles method url e) :
    (l.filter (sel method url)).count e = l.count e := by
  by_cases h : e ∈ l
  · rw [List.count_filter ((sel_iff method url e (hl e h)).2 he)]
  · rw [List.count_eq_zero.2 h, List.count_eq_zero.2 (fun h' => h (List.mem_filter.1 h').1)]

private theorem chosen_of {sort : List Endpoint → List Endpoint} (hsort : ∀ l, Sorted l (sort l)) (method url : Bytes) (l : List Endpoint)
    (hl : ∀ e ∈ l, e.method.isSome) (dflt : Option Endpoint) {e : Endpoint} {t : List Endpoint} (h : sort (l.filter (sel method url)) = e :: t) :
    Chosen method url l dflt (e :: t) := by
  have hs := hsort (l.filter (sel method url))
  rw [h] at hs
  refine .inl ⟨by simp, hs.2, fun x hx => ?_, fun x hx => ?_⟩
  · have := List.mem_filter.1 (hs.1.mem_iff.2 hx)
    exact (sel_iff method url x (hl x this.1)).1 this.2
  · rw [← hs.1.count_eq, count_filter method url l hl x hx]

private theorem none_of {sort : List Endpoint → List Endpoint} (hsort : ∀ l, Sorted l (sort l)) (method url : Bytes) (l : List Endpoint)
    (hl : ∀ e ∈ l, e.method.isSome) (h : sort (l.filter (sel method url)) = []) : ∀ e ∈ l, ¬ Handles method url e := by
  intro e he hh
  have hs := (hsort (l.filter (sel method url))).1
  rw [h] at hs
  have : e ∈ l.filter (sel method url) := List.mem_filter.2 ⟨he, (sel_iff method url e (hl e he)).2 hh⟩
  have := hs.mem_iff.1 this
  simp at this

/-- A failure that does no harm: of the list of the default endpoint or of its copy, or, if there is no default endpoint, of the array for the words of
the URL. -/
def HarmlessRoute (dflt : Option Endpoint) (s : Site) : Prop :=
  s = .defaultList ∨ s = .defaultEndpoint ∨ dflt = none ∧ (s = .array .url ∨ s = .grow .url)

private theorem match_of {f : F} {dflt : Option Endpoint} (hf : ∀ n s, f n s = true → HarmlessRoute dflt s) (sort : List Endpoint → List Endpoint)
    (method url : Bytes) (l : List Endpoint) (hl : ∀ e ∈ l, e.method.isSome) :
    ∃ n, endpointMatch f sort 0 method url (some l) = .ok (some (sort (l.filter (sel method url))), n) ∨
      dflt = none ∧ endpointMatch f sort 0 method url (some l) = .ok (some (sort []), n) := by
  have no : ∀ n s, ¬ HarmlessRoute dflt s → f n s = false := by
    intro n s h
    cases e : f n s with
    | false => rfl
    | true => exact absurd (hf n s e) h
  have nk : ∀ n k, f n (.copy k) = false ∧ f n (.word k) = false := fun n k => ⟨no n _ (by simp [HarmlessRoute]), no n _ (by simp [HarmlessRoute])⟩
  have hr : ask f .returned 0 = (true, 1) := ask_ok (fun n => no n _ (by simp [HarmlessRoute])) 0
  have hlp : ∀ n, ∃ c' n', loop f method (slashWords url) n (some ⟨0, []⟩) 0 l = .ok (some ⟨0, (l.filter (sel method url)).map some⟩, c', n') := by
    intro n
    simpa using loop_ok (f := f) (by rintro n s (rfl | rfl | rfl | rfl | rfl | rfl | rfl) <;> exact no n _ (by simp [HarmlessRoute])) method url l n [] 0 hl
  unfold endpointMatch find
  simp only [hr, Bool.not_true, Bool.false_eq_true, if_false]
  cases dflt with
  | some d =>
    obtain ⟨n1, h1⟩ := split_ok (f := f) (k := .url) (fun n => no n _ (by simp [HarmlessRoute])) (fun n => (nk n _).1) (fun n => no n _ (by simp [HarmlessRoute]))
      (fun n => (nk n _).2) 1 (some url) none
    have hw : splitUrl (some url) none = slashWords url := by simp [splitUrl]
    rw [hw] at h1
    obtain ⟨c', n', h2⟩ := hlp n1
    refine ⟨n', .inl ?_⟩
    simp only [h1, Res.ok_bind, h2, pure_bind', sorted_all]
    rfl
  | none =>
    obtain ⟨n1, h1 | h1⟩ := split_url (f := f) (k := .url) (fun n => (nk n _).1) (fun n => (nk n _).2) 1 url
    · obtain ⟨c', n', h2⟩ := hlp n1
      refine ⟨n', .inl ?_⟩
      simp only [h1, Res.ok_bind, h2, pure_bind', sorted_all]
      rfl
    · refine ⟨n1, .inr ⟨rfl, ?_⟩⟩
      have := sorted_all sort []
      simp only [h1, Res.ok_bind, pure_bind']
      rw [show (⟨0, []⟩ : Found) = ⟨0, ([] : List Endpoint).map some⟩ from rfl, this]
      rfl

private theorem sort_nil {sort : List Endpoint → List Endpoint} (hsort : ∀ l, Sorted l (sort l)) : sort [] = [] :=
  List.Perm.nil_eq (hsort []).1 |>.symm

/-- C178: as long as only harmless requests for memory fail, nothing undefined happens; the connection is refused, the answer is 404, or exactly those are
called that are called when nothing fails. If nothing fails, it is refused never and 404 only if there is nobody to call. -/
theorem C178_partial (f : F) (sort : List Endpoint → List Endpoint) (hsort : ∀ l, Sorted l (sort l)) (method url : Bytes) (l : List Endpoint)
    (hl : ∀ e ∈ l, e.method.isSome) (dflt : Option Endpoint) (hd : ∀ d, dflt = some d → d.method = none ∧ d.pfx = none ∧ d.format = none)
    (hf : ∀ n s, f n s = true → HarmlessRoute dflt s) :
    ∃ o, dispatch f sort method url (some l) dflt = .ok o ∧
      (o = .refused ∧ (∃ n, f n .defaultList = true) ∨
       o = .notFound ∧ ((∃ n s, f n s = true) ∨ dflt = none ∧ ∀ e ∈ l, ¬ Handles method url e) ∨
       ∃ r, o = .calls r ∧ Chosen method url l dflt r) := by
  obtain ⟨n, h | ⟨hn, h⟩⟩ := match_of hf sort method url l hl
  · unfold dispatch
    rw [h, Res.ok_bind]
    cases hs : sort (l.filter (sel method url)) with
    | cons e t => exact ⟨_, rfl, .inr (.inr ⟨_, rfl, chosen_of hsort method url l hl dflt hs⟩)⟩
    | nil =>
      have hno := none_of hsort method url l hl hs
      cases dflt with
      | none => exact ⟨_, rfl, .inr (.inl ⟨rfl, .inr ⟨rfl, hno⟩⟩)⟩
      | some d =>
        cases h1 : f n .defaultList with
        | true => exact ⟨.refused, by simp [ask, h1], .inl ⟨rfl, n, h1⟩⟩
        | false =>
          cases h2 : f (n + 1) .defaultEndpoint with
          | true => exact ⟨.notFound, by simp [ask, h1, h2], .inr (.inl ⟨rfl, .inl ⟨_, _, h2⟩⟩)⟩
          | false =>
            refine ⟨.calls [d], ?_, .inr (.inr ⟨_, rfl, .inr ⟨hno, d, rfl, rfl⟩⟩)⟩
            obtain ⟨e1, e2, e3⟩ := hd d rfl
            have : (copyEndpoint f (n + 1 + 1) d).1 = d := by
              cases d; simp only at e1 e2 e3; subst e1; subst e2; subst e3; rfl
            simp [ask, h1, h2, this]
  · unfold dispatch
    rw [h, Res.ok_bind, sort_nil hsort, hn]
    refine ⟨.notFound, rfl, .inr (.inl ⟨rfl, ?_⟩)⟩
    by_cases hx : ∃ n s, f n s = true
    · exact .inl hx
    · refine .inr ⟨rfl, ?_⟩
      have hf' : ∀ n s, f n s = true → HarmlessRoute (some ⟨none, none, none, 0, none, 0⟩) s := fun n s h => absurd ⟨n, s, h⟩ hx
      obtain ⟨m, h' | ⟨h', _⟩⟩ := match_of hf' sort method url l hl
      · rw [h, sort_nil hsort] at h'
        exact none_of hsort method url l hl (Option.some.inj (congrArg Prod.fst (Res.ok.inj h'))).symm
      · cases h'

private theorem dispatch_from {f : F} {sort : List Endpoint → List Endpoint} (hsort : ∀ l, Sorted l (sort l)) {method url : Bytes} {l : List Endpoint}
    {dflt : Option Endpoint} {Good : Endpoint → Prop}
    (hgood : ∀ surl n1 n2, split f .url n1 (some url) none = .ok (some surl, n2) → ∀ e ∈ l, ∀ m n ws n', e.method = some m →
      (eqCase m method || byte0 m == 0x2a) = true → split f .format n e.pfx e.format = .ok (some ws, n') → formatMatch surl ws = true → Good e)
    {r : List Endpoint} (h : dispatch f sort method url (some l) dflt = .ok (.calls r)) :
    InOrder r ∧ r ≠ [] ∧ ((∀ e' ∈ r, ∃ e, Good e ∧ SameCallback e e') ∨ ∃ d d', dflt = some d ∧ r = [d'] ∧ SameCallback d d') := by
  unfold dispatch at h
  cases hm : endpointMatch f sort 0 method url (some l) with
  | ub => rw [hm] at h; cases h
  | ok p =>
    obtain ⟨a, n⟩ := p
    rw [hm, Res.ok_bind] at h
    have dcase : ∀ {x : Res Outcome}, (∀ r, x ≠ .ok (.calls r)) → (match dflt with
        | some d =>
          if (!(ask f .defaultList n).1) = true then (.ok .refused : Res Outcome)
          else if (!(ask f .defaultEndpoint (ask f .defaultList n).2).1) = true then .ok .notFound
            else .ok (.calls [(copyEndpoint f (ask f .defaultEndpoint (ask f .defaultList n).2).2 d).1])
        | none => x) = .ok (.calls r) → InOrder r ∧ r ≠ [] ∧ ((∀ e' ∈ r, ∃ e, Good e ∧ SameCallback e e') ∨ ∃ d d', dflt = some d ∧ r = [d'] ∧ SameCallback d d') := by
      intro x hx h
      cases dflt with
      | none => exact absurd h (hx r)
      | some d =>
        simp only at h
        split at h
        · cases h
        · split at h
          · cases h
          · cases h
            exact ⟨List.pairwise_singleton _ _, by simp, .inr ⟨d, _, rfl, rfl, copyEndpoint_same _ _ d⟩⟩
    match a, h with
    | none, h => exact dcase (x := .ub) (by intro r h; cases h) h
    | some [], h => exact dcase (x := .ok .notFound) (by intro r h; cases h) h
    | some (e :: t), h =>
      cases h
      unfold endpointMatch at hm
      cases hfd : find f 0 method url (some l) with
      | ub => rw [hfd] at hm; cases hm
      | ok p =>
        obtain ⟨a, n1⟩ := p
        rw [hfd, Res.ok_bind] at hm
        cases a with
        | none => cases hm
        | some a =>
          have hso : sorted sort a = .ok (e :: t) := by
            simp only at hm
            cases es : sorted sort a with
            | ub => rw [es] at hm; cases hm
            | ok x => rw [es] at hm; cases hm; rfl
          have hin := sorted_from hsort hso
          refine ⟨hin.1, by simp, .inl fun e' he' => ?_⟩
          have he' := hin.2 e' he'
          unfold find at hfd
          cases hr : f 0 .returned with
          | true => simp [ask, hr] at hfd
          | false =>
            simp only [ask, hr, Bool.not_false, Bool.not_true, Bool.false_eq_true, if_false] at hfd
            cases hs : split f .url (0 + 1) (some url) none with
            | ub => rw [hs] at hfd; cases hfd
            | ok p =>
              obtain ⟨surl, n1⟩ := p
              rw [hs, Res.ok_bind] at hfd
              cases surl with
              | none => cases hfd; simp at he'
              | some surl =>
                simp only at hfd
                cases hlp : loop f method surl n1 (some ⟨0, []⟩) 0 l with
                | ub => rw [hlp] at hfd; cases hfd
                | ok p =>
                  obtain ⟨a', c, n2⟩ := p
                  rw [hlp, Res.ok_bind] at hfd
                  cases hfd
                  exact loop_from l (hgood surl _ _ hs) n1 (some ⟨0, []⟩) 0 (some a) c n2 (by rintro x hx e' he'; cases hx; simp at he') hlp a rfl e' he'

/-- C178: whatever fails, unless something undefined happens, those that are called are registered for the method of the request, or it is the default
endpoint alone; they are called with their own user data and in the order of their priorities. -/
theorem C178_method_partial (f : F) (sort : List Endpoint → List Endpoint) (hsort : ∀ l, Sorted l (sort l)) (method url : Bytes) (l : List Endpoint)
    (dflt : Option Endpoint) (r : List Endpoint) (h : dispatch f sort method url (some l) dflt = .ok (.calls r)) :
    InOrder r ∧ r ≠ [] ∧
      ((∀ e' ∈ r, ∃ e ∈ l, Accepts method e ∧ SameCallback e e') ∨ ∃ d d', dflt = some d ∧ r = [d'] ∧ SameCallback d d') := by
  have := dispatch_from (Good := fun e => e ∈ l ∧ Accepts method e) hsort (by
    intro surl n1 n2 _ e he m n ws n' hm hx _ _
    refine ⟨he, m, hm, ?_⟩
    rw [Bool.or_eq_true, beq_iff_eq, byte0_eq (by decide)] at hx
    rcases hx with hx | hx
    · exact .inl (by simpa [eqCase] using hx)
    · exact .inr hx) h
  simpa [and_assoc] using this

/-- C178: if it is not a word, nor the room for a word of an endpoint, that fails, the URL is right as well. -/
theorem C178_url_partial (f : F) (sort : List Endpoint → List Endpoint) (hsort : ∀ l, Sorted l (sort l)) (method url : Bytes) (l : List Endpoint)
    (dflt : Option Endpoint) (hf : ∀ n s, f n s = true → (∀ k, s ≠ .word k) ∧ s ≠ .grow .format)
    (r : List Endpoint) (h : dispatch f sort method url (some l) dflt = .ok (.calls r)) :
    InOrder r ∧ r ≠ [] ∧
      ((∀ e' ∈ r, ∃ e ∈ l, Handles method url e ∧ SameCallback e e') ∨ ∃ d d', dflt = some d ∧ r = [d'] ∧ SameCallback d d') := by
  have hw : ∀ k n, f n (.word k) = false := by
    intro k n
    cases e : f n (.word k) with
    | false => rfl
    | true => exact absurd rfl ((hf n _ e).1 k)
  have hg : ∀ n, f n (.grow .format) = false := by
    intro n
    cases e : f n (.grow .format) with
    | false => rfl
    | true => exact absurd rfl (hf n _ e).2
  have := dispatch_from (Good := fun e => e ∈ l ∧ Handles method url e) hsort (by
    intro surl n1 n2 hs e he m n ws n' hm hx hws hmt
    refine ⟨he, (sel_iff method url e (by simp [hm])).1 ?_⟩
    rw [split_url_words (hw .url) n1 url hs, split_words hg (hw .format) n e.pfx e.format hws] at hmt
    simp only [sel, hm, Option.getD_some, hx, hmt, Bool.and_self]) h
  simpa [and_assoc] using this

/-- C178: if a word of the URL cannot be copied either, those that are called are registered for a URL made of the first segments of this one. -/
theorem C178_prefix_partial (f : F) (sort : List Endpoint → List Endpoint) (hsort : ∀ l, Sorted l (sort l)) (method url : Bytes) (l : List Endpoint)
    (dflt : Option Endpoint) (hf : ∀ n s, f n s = true → s ≠ .word .format ∧ s ≠ .grow .format)
    (r : List Endpoint) (h : dispatch f sort method url (some l) dflt = .ok (.calls r)) :
    InOrder r ∧ r ≠ [] ∧
      ((∀ e' ∈ r, ∃ e ∈ l, (Accepts method e ∧ ∃ ws, ws <+: Spec.Segments.segments url ∧ Matches (formatSegments e.pfx e.format) ws) ∧ SameCallback e e') ∨
        ∃ d d', dflt = some d ∧ r = [d'] ∧ SameCallback d d') := by
  have hw : ∀ n, f n (.word .format) = false := by
    intro n
    cases e : f n (.word .format) with
    | false => rfl
    | true => exact absurd rfl (hf n _ e).1
  have hg : ∀ n, f n (.grow .format) = false := by
    intro n
    cases e : f n (.grow .format) with
    | false => rfl
    | true => exact absurd rfl (hf n _ e).2
  have := dispatch_from (Good := fun e => e ∈ l ∧ Accepts method e ∧
      ∃ ws, ws <+: Spec.Segments.segments url ∧ Matches (formatSegments e.pfx e.format) ws) hsort (by
    intro surl n1 n2 hs e he m n ws n' hm hx hws hmt
    refine ⟨he, ⟨m, hm, ?_⟩, surl, ?_, ?_⟩
    · rw [Bool.or_eq_true, beq_iff_eq, byte0_eq (by decide)] at hx
      rcases hx with hx | hx
      · exact .inl (by simpa [eqCase] using hx)
      · exact .inr hx
    · rw [← slashWords_eq]; exact split_url_prefix n1 url hs
    · rw [split_words hg hw n e.pfx e.format hws, formatMatch_iff, splitUrl_eq] at hmt; exact hmt) h
  simpa [and_assoc] using this

/-! ## A concrete case and what else can happen -/

private def guard : Endpoint := ⟨some b!"*", none, some b!"*", 0, some 1, 0⟩
private def secret : Endpoint := ⟨some b!"GET", some b!"api", some b!"secret", 1, some 2, 7⟩
private def other : Endpoint := ⟨none, none, none, 0, some 9, 0⟩

/-- Only the request number `i` fails, and only at `s`. -/
private def only (i : Nat) (s : Site) : F := fun n t => decide (n = i ∧ t = s)

/-- Any request at `s` fails. -/
private def every (s : Site) : F := fun _ t => decide (t = s)

/-- How the array is sorted makes no difference. -/
private def Indep : Res (Option Found × Nat) → Bool
  | .ok (some a, _) => a.lost ≠ 0 ∨ a.eps.length ≤ 1 ∨ none ∈ a.eps
  | _ => true

private theorem same {f : F} {sort : List Endpoint → List Endpoint} (hsort : ∀ l, Sorted l (sort l)) {method url : Bytes} {list : Option (List Endpoint)}
    {dflt : Option Endpoint} (h : Indep (find f 0 method url list) = true) :
    dispatch f sort method url list dflt = dispatch f id method url list dflt := by
  have key : endpointMatch f sort 0 method url list = endpointMatch f id 0 method url list := by
    unfold endpointMatch
    cases hx : find f 0 method url list with
    | ub => rfl
    | ok p =>
      obtain ⟨a, n⟩ := p
      rw [hx] at h
      cases a with
      | none => rfl
      | some a =>
        have hs : sorted sort a = sorted id a := by
          obtain ⟨lost, eps⟩ := a
          simp only [Indep, decide_eq_true_eq] at h
          match lost, eps, h with
          | _ + 1, _, _ => rfl
          | 0, [], _ => simp [sorted, sort_nil hsort]
          | 0, [none], _ => rfl
          | 0, [some e], _ =>
            have : sort [e] = [e] := (List.Perm.singleton_eq (hsort [e]).1).symm
            simp [sorted, this]
          | 0, a :: b :: t, h =>
            have h : none ∈ a :: b :: t := by simpa using h
            have : ∀ sort, sorted sort ⟨0, a :: b :: t⟩ = if none ∈ a :: b :: t then .ub else .ok (sort ((a :: b :: t).filterMap id)) :=
              fun _ => by cases a <;> rfl
            rw [this, this, if_pos h, if_pos h]
        simp only [Res.ok_bind, hs]
  unfold dispatch
  rw [key]

private theorem only_site {i : Nat} {s : Site} {n : Nat} {t : Site} (h : only i s n t = true) : t = s := by
  simp only [only, decide_eq_true_eq] at h; exact h.2

example : (∀ e ∈ [guard, secret], e.method.isSome) ∧ (∀ n s, only 20 .defaultList n s = true → HarmlessRoute (some other) s) ∧
    dispatch (only 20 .defaultList) id b!"GET" b!"/api/secret" (some [guard, secret]) (some other) = .ok (.calls [guard, secret]) ∧
    dispatch (every .defaultList) id b!"GET" b!"/api" (some [secret]) (some other) = .ok .refused ∧
    dispatch (every .defaultEndpoint) id b!"GET" b!"/api" (some [secret]) (some other) = .ok .notFound ∧
    dispatch (every (.grow .url)) id b!"GET" b!"/api/secret" (some [secret]) none = .ok .notFound :=
  ⟨by decide, fun n s h => .inl (only_site h), by decide +kernel, by decide +kernel, by decide +kernel, by decide +kernel⟩

example : dispatch (only 18 (.word .format)) id b!"get" b!"/api/secret" (some [guard, secret]) none = .ok (.calls [guard]) := by decide +kernel

example : dispatch (only 4 (.word .url)) id b!"GET" b!"/api/secret" (some [guard, secret]) none = .ok (.calls [guard]) := by decide +kernel

/-- It is not true that all endpoints meant for a request are called, or none: if the words of a guard cannot be split, the guard is left out and the
callback behind it is called. -/
theorem C178_guard_false : ∃ (f : F) (method url : Bytes) (g e : Endpoint), (∀ n s, f n s = true → s = .array .format) ∧
    Handles method url g ∧ Handles method url e ∧ g.priority < e.priority ∧
    ∀ sort, (∀ l, Sorted l (sort l)) → dispatch f sort method url (some [g, e]) none = .ok (.calls [e]) := by
  refine ⟨only 7 (.array .format), b!"GET", b!"/api/secret", guard, secret, fun n s h => only_site h, ?_, ?_, by decide, ?_⟩
  · exact (sel_iff _ _ _ (by decide)).1 (by decide +kernel)
  · exact (sel_iff _ _ _ (by decide)).1 (by decide +kernel)
  · intro sort hsort
    rw [same hsort (by decide +kernel)]; decide +kernel

/-- It is not true that those called are meant for the URL: a word of the URL is lost, or a word of the prefix. -/
theorem C178_url_false : ∀ s ∈ [Site.word .url, .word .format, .grow .format], ∃ (f : F) (method url : Bytes) (e : Endpoint),
    (∀ n t, f n t = true → t = s) ∧ e.method.isSome ∧ ¬ Handles method url e ∧
    ∀ sort, (∀ l, Sorted l (sort l)) → dispatch f sort method url (some [e]) none = .ok (.calls [e]) := by
  have no : ∀ {method url : Bytes} {e : Endpoint}, e.method.isSome → sel method url e = false → ¬ Handles method url e := by
    intro method url e h h' hh
    rw [(sel_iff method url e h).2 hh] at h'; cases h'
  intro s hs
  simp only [List.mem_cons, List.not_mem_nil, or_false] at hs
  rcases hs with rfl | rfl | rfl
  · refine ⟨only 6 (.word .url), b!"GET", b!"/list/secret", ⟨some b!"GET", some b!"list", none, 0, some 3, 0⟩, fun n s h => only_site h, by decide,
      no (by decide) (by decide +kernel), ?_⟩
    intro sort hsort
    rw [same hsort (by decide +kernel)]; decide +kernel
  · refine ⟨only 8 (.word .format), b!"GET", b!"/7", ⟨some b!"GET", some b!"admin", some b!":id", 0, some 3, 0⟩, fun n s h => only_site h, by decide,
      no (by decide) (by decide +kernel), ?_⟩
    intro sort hsort
    rw [same hsort (by decide +kernel)]; decide +kernel
  · refine ⟨only 7 (.grow .format), b!"GET", b!"/7", ⟨some b!"GET", some b!"admin", some b!":id", 0, some 3, 0⟩, fun n s h => only_site h, by decide,
      no (by decide) (by decide +kernel), ?_⟩
    intro sort hsort
    rw [same hsort (by decide +kernel)]; decide +kernel

/-- It is not true that nothing undefined happens: NULL or memory never written is read. -/
theorem C178_crash_false : ∀ s ∈ [Site.returned, .copy .url, .copy .format, .grow .format, .list, .endpoint], ∃ (f : F) (method url : Bytes) (l : List Endpoint),
    (∀ n t, f n t = true → t = s) ∧ (∀ e ∈ l, e.method.isSome) ∧ ∀ sort, (∀ l, Sorted l (sort l)) → dispatch f sort method url (some l) none = .ub := by
  intro s hs
  simp only [List.mem_cons, List.not_mem_nil, or_false] at hs
  rcases hs with rfl | rfl | rfl | rfl | rfl | rfl
  · exact ⟨only 0 _, b!"GET", b!"/api/secret", [secret], fun n s h => only_site h, by decide, fun sort hsort => by rw [same hsort (by decide +kernel)]; decide +kernel⟩
  · exact ⟨every _, b!"GET", b!"/api/secret", [secret], fun n s h => by simpa [every] using h, by decide, fun sort hsort => by rw [same hsort (by decide +kernel)]; decide +kernel⟩
  · exact ⟨every _, b!"GET", b!"/api/secret", [secret], fun n s h => by simpa [every] using h, by decide, fun sort hsort => by rw [same hsort (by decide +kernel)]; decide +kernel⟩
  · exact ⟨only 11 _, b!"GET", b!"/api/secret", [⟨some b!"GET", some b!"a/b", some b!"c", 0, some 2, 0⟩], fun n s h => only_site h, by decide, fun sort hsort => by rw [same hsort (by decide +kernel)]; decide +kernel⟩
  · exact ⟨every _, b!"GET", b!"/api/secret", [secret], fun n s h => by simpa [every] using h, by decide, fun sort hsort => by rw [same hsort (by decide +kernel)]; decide +kernel⟩
  · exact ⟨every _, b!"GET", b!"/api/secret", [guard, secret], fun n s h => by simpa [every] using h, by decide, fun sort hsort => by rw [same hsort (by decide +kernel)]; decide +kernel⟩

/-- It is not true that the default endpoint is called only if nobody is meant for the request. -/
theorem C178_default_false : ∀ s ∈ [Site.returned, .array .url, .grow .url, .array .format, .list, .endpoint], ∃ (f : F) (method url : Bytes) (e d : Endpoint),
    (∀ n t, f n t = true → t = s) ∧ Handles method url e ∧
    ∀ sort, (∀ l, Sorted l (sort l)) → dispatch f sort method url (some [e]) (some d) = .ok (.calls [d]) := by
  intro s hs
  refine ⟨every s, b!"GET", b!"/api/secret", secret, other, fun n s h => by simpa [every] using h, (sel_iff _ _ _ (by decide)).1 (by decide +kernel), ?_⟩
  intro sort hsort
  simp only [List.mem_cons, List.not_mem_nil, or_false] at hs
  rcases hs with rfl | rfl | rfl | rfl | rfl | rfl <;> (rw [same hsort (by decide +kernel)]; decide +kernel)

/-- It is not true that a callback finds the parameters of the URL: if the prefix of the copy is missing, the first segment of the URL is taken for the
parameter. -/
theorem C178_parameter_false : ∃ (f : F) (method url : Bytes) (e e' : Endpoint), (∀ n s, f n s = true → s = .text) ∧
    (∀ sort, (∀ l, Sorted l (sort l)) → dispatch f sort method url (some [e]) none = .ok (.calls [e'])) ∧
    parseUrl url e [] false = .ok (.ok, [(b!"id", some b!"7")]) ∧ parseUrl url e' [] false = .ok (.ok, [(b!"id", some b!"user")]) := by
  refine ⟨only 17 .text, b!"GET", b!"/user/7", ⟨some b!"GET", some b!"user", some b!":id", 0, some 3, 0⟩, ⟨some b!"GET", none, some b!":id", 0, some 3, 0⟩,
    fun n s h => only_site h, ?_, by decide +kernel, by decide +kernel⟩
  intro sort hsort
  rw [same hsort (by decide +kernel)]; decide +kernel

end Verif.Props
