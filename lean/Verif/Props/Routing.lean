import Verif.Lemmas.UrlParams
/-!
# C17–C23: routing, endpoint registration, URL parameters
-/
namespace Verif.Props
open Verif.Endpoint Verif.UrlCodec Verif.Utf8
open Verif.Spec.Segments Verif.Spec.Routing Verif.Spec.Utf8
open Verif.Spec.OMap (OMap lookup put)

/-- **C17.** A URL is accepted by an endpoint iff its segments match the segments of prefix and format by the
documented rule, for every URL, prefix and format. -/
theorem C17_format_match (url : Bytes) (pfx format : Option Bytes) :
    formatMatch (slashWords url) (splitUrl pfx format) = true ↔
      Matches (formatSegments pfx format) (segments url) := by
  rw [formatMatch_iff, splitUrl_eq, slashWords_eq]

example : Matches (formatSegments (some b!"/api/") (some b!"user/:id/*")) (segments b!"/api//user/42/a/b") :=
  .cons (.inl rfl) (.cons (.inl rfl) (.cons (.inr (.inl ⟨_, rfl⟩)) (.star ⟨_, rfl⟩)))
example : ¬ Matches (formatSegments none (some b!"user/:id")) (segments b!"/user") := by
  rw [← C17_format_match]; decide +kernel
/-- a `*` that is not last is an ordinary segment -/
example : ¬ Matches (formatSegments none (some b!"*/b")) (segments b!"/a/b") := by
  rw [← C17_format_match]; decide +kernel

/-- **C18.** URLs that differ in leading, trailing and repeated slashes select the same endpoints and give the same
URL parameters. -/
theorem C18_slashes (u v : Bytes) (h : SlashEquiv u v) :
    (∀ method list r, EndpointMatch method u list r ↔ EndpointMatch method v list r) ∧
    (∀ e m check, parseUrl u e m check = parseUrl v e m check) := by
  have hs := segments_equiv h
  constructor
  · intro method list r
    unfold EndpointMatch
    rw [slashWords_eq, slashWords_eq, hs]
  · intro e m check
    rw [parseUrl_eq, parseUrl_eq, hs]

example : SlashEquiv b!"/a//b/" b!"a/b" :=
  .trans _ _ _ (.symm _ _ (.rel _ _ (SlashStep.trail b!"/a//b")))
    (.trans _ _ _ (.symm _ _ (.rel _ _ (SlashStep.double b!"/a" b!"b"))) (.symm _ _ (.rel _ _ (.lead b!"a/b"))))

/-- **C19.** For a list of endpoints with a method, closed by a null endpoint: selection succeeds, and whatever order
the sort gives to equal priorities, the result contains exactly the endpoints meant for the request, each as
often as it is registered, in non-decreasing priority number. -/
theorem C19_selection (method url : Bytes) (l rest : List Endpoint) (z : Endpoint) (hz : Null z)
    (hl : ∀ e ∈ l, e.method.isSome) :
    (∃ r, EndpointMatch method url (l ++ z :: rest) r) ∧
    ∀ r, EndpointMatch method url (l ++ z :: rest) r →
      (∀ e, Handles method url e → r.count e = l.count e) ∧
      (∀ e, ¬ Handles method url e → e ∉ r) ∧
      r.Pairwise (fun a b => a.priority ≤ b.priority) := by
  have hm := matchLoop_eq method url l rest z hz hl
  constructor
  · obtain ⟨r, hr⟩ := exists_sorted (l.filter (sel method url))
    exact ⟨r, _, hm, hr⟩
  · rintro r ⟨l', h1, hp, hsort⟩
    rw [hm, Res.ok.injEq] at h1
    subst h1
    refine ⟨?_, ?_, hsort⟩
    · intro e he
      rw [← hp.count_eq]
      have hsome : e.method.isSome := by obtain ⟨m, hm, _⟩ := he.1; simp [hm]
      rw [List.count_filter]
      exact (sel_iff _ _ _ hsome).2 he
    · intro e he hmem
      have := hp.mem_iff.2 hmem
      rw [List.mem_filter] at this
      exact he ((sel_iff _ _ _ (hl e this.1)).1 this.2)

private def epA : Endpoint := ⟨some b!"GET", some b!"/api", some b!"user/:id", 1, some 0, 0⟩
private def epB : Endpoint := ⟨some b!"*", none, some b!"*", 0, some 1, 0⟩

example : ∀ e ∈ [epA, epB], e.method.isSome := by decide
example : EndpointMatch b!"get" b!"/api/user/7" [epA, epB, emptyEndpoint] [epB, epA] :=
  ⟨[epA, epB], by decide +kernel, List.Perm.swap _ _ _, by decide⟩

/-! ## C20, C21: histories of additions and removals -/

/-- A call on the endpoint list of an instance. -/
inductive EpOp where
  | add (e : Endpoint)
  | remove (e : Endpoint)

/-- Run a history on the model. -/
def runEp (s : Inst) : List EpOp → Res Inst
  | [] => .ok s
  | .add e :: t => do let (_, s) ← addEndpoint s e; runEp s t
  | .remove e :: t => do let (_, s) ← removeEndpoint s e; runEp s t

/-- The instance holds exactly the endpoints `l`: before any addition there is no list, then the list is `l`
and a null endpoint. -/
def Holds (s : Inst) (l : List Endpoint) : Prop :=
  (l = [] ∧ s = Inst.init) ∨ ∃ z, Null z ∧ s = { list := some (l ++ [z]), nb := l.length }

/-- **C20, the addition itself.** An acceptable endpoint is appended and the call returns U_OK; an endpoint that is
neither acceptable nor null is refused and nothing changes. -/
theorem C20_add (s : Inst) (l : List Endpoint) (e : Endpoint) (hs : Holds s l) (hn : ¬ Null e) :
    (Acceptable e → ∃ s', addEndpoint s e = .ok (.ok, s') ∧ Holds s' (l ++ [e])) ∧
    (¬ Acceptable e → addEndpoint s e = .ok (.params, s)) := by
  constructor
  · intro ha
    exact add_shape s l e _ hs ((isValid_iff e hn).2 ha)
  · intro ha
    unfold addEndpoint
    rw [if_neg (by rw [isValid_iff e hn]; exact ha)]

example : Holds Inst.init [] ∧ ¬ Null epA ∧ Acceptable epA := by
  refine ⟨.inl ⟨rfl, rfl⟩, ?_, ?_⟩
  · simp [Null, epA]
  · simp [Acceptable, epA]

/-- **C21.** Removal drops exactly the designated endpoints, keeps the others in order, returns U_OK iff there was
one and U_ERROR_NOT_FOUND otherwise; on every instance and every non-null argument with a method and a prefix or
format. -/
theorem C21_remove (s : Inst) (l : List Endpoint) (e : Endpoint) (hs : Holds s l)
    (hm : e.method.isSome) (hf : e.pfx.isSome ∨ e.format.isSome) :
    ∃ (rc : Endpoint.Rc) (s' : Inst) (keep : Endpoint → Bool), (∀ x, keep x = true ↔ ¬ Designates e x) ∧
      removeEndpoint s e = .ok (rc, s') ∧ Holds s' (l.filter keep) ∧
      ((∃ x ∈ l, Designates e x) → rc = .ok) ∧ ((∀ x ∈ l, ¬ Designates e x) → rc = .notFound) := by
  have hn : ¬ Null e := by rintro ⟨h, _⟩; rw [h] at hm; cases hm
  have hv : isValid e true = true := by
    unfold isValid
    rw [if_neg (by rw [equals_empty]; exact hn)]
    cases h1 : e.method <;> cases h2 : e.pfx <;> cases h3 : e.format <;> simp_all
  obtain ⟨s', h1, h2⟩ := remove_shape s l e hs hv hn
  refine ⟨_, s', fun x => !hit e x, ?_, h1, h2, ?_, ?_⟩
  · intro x
    rw [← hit_iff]; simp
  · rintro ⟨x, hx, hd⟩
    rw [if_pos (List.any_eq_true.2 ⟨x, hx, (hit_iff e x).2 hd⟩)]
  · intro h
    rw [if_neg]
    rw [List.any_eq_true]
    rintro ⟨x, hx, hh⟩
    exact h x hx ((hit_iff e x).1 hh)

/-- Arguments that cannot designate anything are refused. -/
theorem C21_remove_params (s : Inst) (e : Endpoint) (h : e.method = none ∨ (e.pfx = none ∧ e.format = none)) :
    removeEndpoint s e = .ok (.params, s) := by
  unfold removeEndpoint isValid equals emptyEndpoint
  rcases h with h | ⟨h1, h2⟩
  · cases hp : e.pfx <;> cases hf : e.format <;> simp [h]
  · cases hp : e.method <;> simp [h1, h2]

example : Holds ⟨some [epA, epB, emptyEndpoint], 2⟩ [epA, epB] ∧
    removeEndpoint ⟨some [epA, epB, emptyEndpoint], 2⟩ { epA with pfx := some b!"api//" } =
      .ok (.ok, ⟨some [epB, emptyEndpoint], 1⟩) :=
  ⟨.inr ⟨emptyEndpoint, ⟨rfl, rfl, rfl⟩, rfl⟩, by decide +kernel⟩

/-- Histories that never add the null endpoint keep the instance well formed, with acceptable endpoints. -/
theorem runEp_holds (h : List EpOp) (s : Inst) (l : List Endpoint) (hs : Holds s l) (hl : ∀ e ∈ l, e.method.isSome)
    (hn : ∀ e, EpOp.add e ∈ h → ¬ Null e) :
    ∃ s' l', runEp s h = .ok s' ∧ Holds s' l' ∧ (∀ e ∈ l', e.method.isSome) ∧
      ∀ e ∈ l, (∀ e', EpOp.remove e' ∈ h → ¬ Designates e' e) → e ∈ l' := by
  induction h generalizing s l with
  | nil => exact ⟨s, l, rfl, hs, hl, fun e he _ => he⟩
  | cons op t ih =>
    have hn' : ∀ e, EpOp.add e ∈ t → ¬ Null e := fun e he => hn e (by simp [he])
    cases op with
    | add e =>
      obtain ⟨h1, h2⟩ := C20_add s l e hs (hn e (by simp))
      by_cases ha : Acceptable e
      · obtain ⟨s', ha', hs'⟩ := h1 ha
        obtain ⟨s'', l'', r1, r2, r3, r4⟩ := ih s' (l ++ [e]) hs' (by
          intro x hx
          rw [List.mem_append, List.mem_singleton] at hx
          rcases hx with hx | rfl
          · exact hl x hx
          · exact ha.1) hn'
        refine ⟨s'', l'', ?_, r2, r3, ?_⟩
        · simp only [runEp, ha', Res.ok_bind]; exact r1
        · intro x hx hr
          exact r4 x (by simp [hx]) (fun e' he' => hr e' (by simp [he']))
      · obtain ⟨s'', l'', r1, r2, r3, r4⟩ := ih s l hs hl hn'
        refine ⟨s'', l'', ?_, r2, r3, ?_⟩
        · simp only [runEp, h2 ha, Res.ok_bind]; exact r1
        · intro x hx hr
          exact r4 x hx (fun e' he' => hr e' (by simp [he']))
    | remove e =>
      by_cases hm : e.method = none ∨ (e.pfx = none ∧ e.format = none)
      · obtain ⟨s'', l'', r1, r2, r3, r4⟩ := ih s l hs hl hn'
        refine ⟨s'', l'', ?_, r2, r3, ?_⟩
        · simp only [runEp, C21_remove_params s e hm, Res.ok_bind]; exact r1
        · intro x hx hr
          exact r4 x hx (fun e' he' => hr e' (by simp [he']))
      · rw [not_or, not_and_or, ← ne_eq, ← ne_eq, ← ne_eq, Option.ne_none_iff_isSome, Option.ne_none_iff_isSome,
          Option.ne_none_iff_isSome] at hm
        obtain ⟨rc, s', keep, hk, hr, hs', _⟩ := C21_remove s l e hs hm.1 hm.2
        obtain ⟨s'', l'', r1, r2, r3, r4⟩ := ih s' (l.filter keep) hs'
          (fun x hx => hl x (List.mem_filter.1 hx).1) hn'
        refine ⟨s'', l'', ?_, r2, r3, ?_⟩
        · simp only [runEp, hr, Res.ok_bind]; exact r1
        · intro x hx hrm
          exact r4 x (List.mem_filter.2 ⟨hx, (hk x).2 (hrm e (by simp))⟩) (fun e' he' => hrm e' (by simp [he']))

/-- **C20 (partial).** In every history of additions and removals that never adds the null endpoint: an acceptable
endpoint that was added and not designated by a later removal is selected by every request meant for it.
Missing for the full property: histories that add the null endpoint, see `C20_selectable_false`. -/
theorem C20_selectable_partial (h1 h2 : List EpOp) (e : Endpoint) (he : Acceptable e)
    (hn : ∀ x, EpOp.add x ∈ h1 ++ h2 → ¬ Null x) (hr : ∀ x, EpOp.remove x ∈ h2 → ¬ Designates x e) :
    ∃ s l z, runEp Inst.init (h1 ++ EpOp.add e :: h2) = .ok s ∧ s.list = some (l ++ [z]) ∧ Null z ∧
      ∀ method url, Handles method url e →
        ∃ r, EndpointMatch method url (l ++ [z]) r ∧
        ∀ r, EndpointMatch method url (l ++ [z]) r → e ∈ r := by
  have hne : ¬ Null e := by rintro ⟨h, _⟩; have := he.1; rw [h] at this; cases this
  have hrun : ∀ (a b : List EpOp) (s s' : Inst), runEp s a = .ok s' → runEp s (a ++ b) = runEp s' b := by
    intro a b
    induction a with
    | nil => intro s s' h; rw [runEp, Res.ok.injEq] at h; subst h; rfl
    | cons op t ih =>
      intro s s' h
      cases op <;> rw [List.cons_append, runEp] <;> rw [runEp] at h
      · rename_i e
        cases ha : addEndpoint s e with
        | ub => rw [ha] at h; simp at h
        | ok x => rw [ha] at h; exact ih _ _ h
      · rename_i e
        cases ha : removeEndpoint s e with
        | ub => rw [ha] at h; simp at h
        | ok x => rw [ha] at h; exact ih _ _ h
  obtain ⟨s1, l1, r1, hs1, hm1, _⟩ := runEp_holds h1 Inst.init [] (.inl ⟨rfl, rfl⟩) (by simp)
    (fun x hx => hn x (by simp [hx]))
  obtain ⟨s2, ha, hs2⟩ := (C20_add s1 l1 e hs1 hne).1 he
  obtain ⟨s3, l3, r3, hs3, hm3, hin⟩ := runEp_holds h2 s2 (l1 ++ [e]) hs2 (by
    intro x hx
    rw [List.mem_append, List.mem_singleton] at hx
    rcases hx with hx | rfl
    · exact hm1 x hx
    · exact he.1) (fun x hx => hn x (by simp [hx]))
  have hel : e ∈ l3 := hin e (by simp) hr
  rcases hs3 with ⟨rfl, _⟩ | ⟨z, hz, rfl⟩
  · cases hel
  · refine ⟨⟨some (l3 ++ [z]), l3.length⟩, l3, z, ?_, rfl, hz, ?_⟩
    · rw [hrun h1 _ _ _ r1, runEp, ha]; exact r3
    · intro method url hh
      obtain ⟨⟨r, hr⟩, hall⟩ := C19_selection method url l3 [] z hz hm3
      refine ⟨r, hr, ?_⟩
      intro r hr
      have := (hall r hr).1 e hh
      rw [← List.count_pos_iff, this, List.count_pos_iff]
      exact hel

example : ∃ h1 h2 : List EpOp, h1 ≠ [] ∧ h2 ≠ [] ∧ (∀ x, EpOp.add x ∈ h1 ++ h2 → ¬ Null x) ∧
    ∀ x, EpOp.remove x ∈ h2 → ¬ Designates x epA :=
  ⟨[.add epB, .remove epA], [.add epB, .remove epB], by simp, by simp, by simp [Null, epB],
    by rintro x hx ⟨h, _⟩
       simp at hx; subst hx; simp [epA, epB] at h⟩

/-- **C20 is false of the code**: ulfius_add_endpoint accepts the null endpoint (U_OK) and what is added after it is
never selected. -/
theorem C20_selectable_false :
    (addEndpoint Inst.init emptyEndpoint).bind (fun x => (addEndpoint x.2 epA).bind fun y => .ok (x.1, y)) =
        .ok (.ok, .ok, ⟨some [emptyEndpoint, epA, emptyEndpoint], 2⟩) ∧
      Handles b!"GET" b!"/api/user/7" epA ∧
      ∀ r, EndpointMatch b!"GET" b!"/api/user/7" [emptyEndpoint, epA, emptyEndpoint] r → epA ∉ r := by
  refine ⟨by decide +kernel, ?_, ?_⟩
  · rw [← sel_iff _ _ _ (by decide)]; decide +kernel
  · rintro r ⟨l, h, hp, _⟩
    have : l = [] := by
      have h' : matchLoop b!"GET" (slashWords b!"/api/user/7") [emptyEndpoint, epA, emptyEndpoint] = .ok [] := by
        decide +kernel
      rw [h'] at h; cases h; rfl
    subst this
    rw [hp.symm.eq_nil]; simp

/-! ## C22: URL parameters -/

open Classical in
/-- **C22 (partial).** When no format segment begins with `?` and none is a bare `:` or `@`: building the map for a
callback succeeds, and the value of each parameter is the comma-joined list of the decoded segments (valid UTF-8
ones if checking is on) at the positions of `:name` and `@name`, preceded by the query parameter of the same
name if there is one. Missing for the full property: `?` segments, query parameters of the same name and empty
names, see `C22_params_false`. -/
theorem C22_params_partial (url : Bytes) (hurl : NoNul url) (e : Endpoint) (query : OMap) (check : Bool)
    (dec : Bytes → Bytes) (hdec : ∀ w, NoNul w → urlDecode (some w) = .ok (some (dec w)))
    (hq : (query.map Prod.fst).Nodup)
    (hm : Matches (formatSegments e.pfx e.format) (segments url))
    (hf : ∀ f ∈ segments (e.format.getD []), f ≠ [0x3a] ∧ f ≠ [0x40] ∧ ¬ StartsWith 0x3f f) :
    ∃ m, callbackUrlMap url e query check = .ok (.ok, m) ∧ ∀ k, lookup m k = merged (lookup query k)
      (paramValues dec (fun w => check = true → IsUtf8 w) k
        ((formatSegments e.pfx e.format).drop (segments (e.pfx.getD [])).length)
        ((segments url).drop (segments (e.pfx.getD [])).length)) := by
  have hfs : (formatSegments e.pfx e.format).drop (segments (e.pfx.getD [])).length = segments (e.format.getD []) := by
    unfold formatSegments
    rw [List.drop_left, List.filter_eq_self]
    intro f hfm
    have := (hf f hfm).2.2
    cases f with
    | nil => rfl
    | cons c t =>
      have : c ≠ 0x3f := fun h => this ⟨t, by rw [h]⟩
      simpa using this
  unfold callbackUrlMap
  have hfold := foldl_put query [] (by simpa using hq)
  rw [List.nil_append] at hfold
  rw [hfold, hfs, parseUrl_eq]
  apply paramLoop_eq
  · intro u hu
    apply hdec
    intro h0
    exact hurl ((Strtok.fields_mem _ _ _ (List.mem_of_mem_drop hu)).2.2 0 h0)
  · exact fun f h => ⟨(hf f h).1, (hf f h).2.1⟩

/-- Reading of the partial theorem for a parameter that is not also a query parameter and occurs in the format. -/
theorem C22_params_value_partial (url : Bytes) (hurl : NoNul url) (e : Endpoint) (query : OMap)
    (dec : Bytes → Bytes) (hdec : ∀ w, NoNul w → urlDecode (some w) = .ok (some (dec w)))
    (hq : (query.map Prod.fst).Nodup)
    (hm : Matches (formatSegments e.pfx e.format) (segments url))
    (hf : ∀ f ∈ segments (e.format.getD []), f ≠ [0x3a] ∧ f ≠ [0x40] ∧ ¬ StartsWith 0x3f f)
    (name : Bytes) (hname : lookup query name = none) (before after ub ua : List Bytes) (seg : Bytes)
    (hfmt : formatSegments e.pfx e.format = segments (e.pfx.getD []) ++ before ++ (0x3a :: name) :: after)
    (hu : segments url = ub ++ seg :: ua) (hlen : ub.length = (segments (e.pfx.getD []) ++ before).length)
    (huniq : ∀ f ∈ before ++ after, f ≠ 0x3a :: name ∧ f ≠ 0x40 :: name) :
    ∃ m, callbackUrlMap url e query false = .ok (.ok, m) ∧ lookup m name = some (some (dec seg)) := by
  classical
  obtain ⟨m, h1, h2⟩ := C22_params_partial url hurl e query false dec hdec hq hm hf
  refine ⟨m, h1, ?_⟩
  rw [h2, hname, hfmt, hu]
  generalize segments (e.pfx.getD []) = p at *
  have hd1 : (p ++ before ++ (0x3a :: name) :: after).drop p.length = before ++ (0x3a :: name) :: after := by
    rw [List.append_assoc, List.drop_left]
  rw [List.length_append] at hlen
  have hd2 : (ub ++ seg :: ua).drop p.length = ub.drop p.length ++ seg :: ua := by
    rw [List.drop_append_of_le_length (by omega)]
  rw [hd1, hd2]
  unfold paramValues
  rw [List.zip_append (by simp; omega), List.filter_append, List.zip_cons_cons, List.filter_cons]
  have hnone : ∀ l1 l2 : List Bytes, (∀ f ∈ l1, f ≠ 0x3a :: name ∧ f ≠ 0x40 :: name) →
      (l1.zip l2).filter (fun p => decide ((p.1 = 0x3a :: name ∨ p.1 = 0x40 :: name) ∧
        (false = true → IsUtf8 (dec p.2)))) = [] := by
    intro l1 l2 h
    rw [List.filter_eq_nil_iff]
    intro x hx
    have := h x.1 (List.of_mem_zip hx).1
    simp [this]
  rw [hnone _ _ (fun f hf => huniq f (by simp [hf])), hnone _ _ (fun f hf => huniq f (by simp [hf]))]
  simp [merged, joinComma]

private def epU : Endpoint := ⟨some b!"GET", some b!"/api", some b!"user/:id/:id", 0, some 0, 0⟩

example : NoNul b!"/api/user/a%20b/c" ∧
    callbackUrlMap b!"/api/user/a%20b/c" epU [(b!"q", some b!"1")] true =
      .ok (.ok, [(b!"q", some b!"1"), (b!"id", some b!"a b,c")]) := by decide +kernel

/-- **C22 is false of the code.** (1) A format segment beginning with `?` is ignored by the match but not by the
extraction: the parameter after it is missing. (2) A query parameter of the same name is prepended: the client of
`/user/7?id=1` gives `id` the value `1,7`. -/
theorem C22_params_false :
    (formatMatch (slashWords b!"/a/7") (splitUrl none (some b!"a/?q/:id")) = true ∧
      callbackUrlMap b!"/a/7" ⟨some b!"GET", none, some b!"a/?q/:id", 0, some 0, 0⟩ [] true = .ok (.ok, [])) ∧
    (formatMatch (slashWords b!"/user/7") (splitUrl none (some b!"user/:id")) = true ∧
      callbackUrlMap b!"/user/7" ⟨some b!"GET", none, some b!"user/:id", 0, some 0, 0⟩ [(b!"id", some b!"1")] true =
        .ok (.ok, [(b!"id", some b!"1,7")])) :=
  ⟨⟨by decide +kernel, by decide +kernel⟩, ⟨by decide +kernel, by decide +kernel⟩⟩

/-! ## C23: repeated keys -/

open Classical in
/-- **C23 (partial).** When no pair has an empty key: after collecting, each key maps to the comma-joined list of its
values in order (absent values count as empty), pairs with invalid UTF-8 being ignored when checking is on.
Missing for the full property: pairs with an empty key, see `C23_collect_false`. -/
theorem C23_collect_partial (check : Bool) (ps : List (Bytes × Option Bytes)) (hk : ∀ p ∈ ps, p.1 ≠ []) (k : Bytes) :
    lookup (collect check ps []) k =
      match valuesOf (fun p => check = true → IsUtf8 p.1 ∧ ∀ v, p.2 = some v → IsUtf8 v) k ps with
      | [] => none
      | v :: t => some (some (joinComma (v :: t))) := by
  rw [collect_eq check ps [] hk (by simp [lookup]) k]
  have : lookup [] k = none := rfl
  rw [this]
  cases valuesOf (fun p => check = true → IsUtf8 p.1 ∧ ∀ v, p.2 = some v → IsUtf8 v) k ps <;> rfl

example : (∀ p ∈ [(b!"a", some b!"1"), (b!"b", none), (b!"a", some [0xff]), (b!"a", some b!"2")], p.1 ≠ []) ∧
    collect true [(b!"a", some b!"1"), (b!"b", none), (b!"a", some [0xff]), (b!"a", some b!"2")] [] =
      [(b!"a", some b!"1,2"), (b!"b", some [])] := by decide +kernel

/-- **C23 is false of the code**: a pair with an empty key stops the collection, so later keys are missing
(query string `?=x&a=1`). -/
theorem C23_collect_false :
    collect true [([], some b!"x"), (b!"a", some b!"1")] [] = [] := by decide +kernel

end Verif.Props
