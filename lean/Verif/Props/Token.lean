import Verif.Lemmas.Token
import Verif.Props.Send
/-! # Properties of the callbacks that check access tokens -/
namespace Verif.Props
open Verif.UMap Verif.Message Verif.Token Verif.Handshake Verif.Printf
open Verif.Spec.Json Verif.Spec.Client Verif.Spec.Handshake Verif.Spec.Segments Verif.Spec.Token

/-- The request shows these headers, form parameters, query parameters. -/
def HoldsReq (q : Req) (headers form query : Params) : Prop :=
  HoldsParams q.header headers ∧ HoldsParams q.postBody form ∧ HoldsParams q.url query

/-- The token is signed with the key in the configuration by the expected algorithm, and carries these claims. -/
def Signed (L : Lib) (c : Config L) (token : Bytes) (claims : Json) : Prop :=
  ∃ j, L.parse token = some j ∧ L.verify j none = true ∧ L.alg j = c.alg ∧ L.claims j = some claims

/-- The same with one of several keys: the one the token names, which has to be known, or the default one if it names none. -/
def SignedByOne (L : Lib) (c : Config L) (token : Bytes) (claims : Json) : Prop :=
  ∃ j, L.parse token = some j ∧ L.alg j = c.alg ∧ L.claims j = some claims ∧
    ((∃ n k, L.kid j = some n ∧ L.byKid n = some k ∧ L.verify j (some k) = true) ∨ (L.kid j = none ∧ L.verify j c.dflt = true))

/-- The scopes handed on are those required that the token has. -/
def GrantedScopes (required : Option Bytes) (claims : Json) (ws : List Bytes) : Prop :=
  ∀ w, w ∈ ws ↔ w ∈ scopes (required.getD []) ∧ ∃ s, claimText claims b!"scope" = some s ∧ w ∈ scopes s

private theorem bind_inv {α β : Type} {x : Res α} {f : α → Res β} {b : β} (h : x >>= f = .ok b) : ∃ a, x = .ok a ∧ f a = .ok b := by
  cases x with
  | ub => cases h
  | ok a => exact ⟨a, rfl, h⟩

private theorem signature_iff (L : Lib) (c : Config L) (t : Bytes) (claims : Json) :
    signature L c t = some claims ↔ Signed L c t claims := by
  unfold signature Signed
  cases hp : L.parse t with
  | none => simp
  | some j =>
    simp only [Option.some.injEq, exists_eq_left']
    by_cases h : (L.verify j none && L.alg j == c.alg) = true
    · rw [if_pos h]
      rw [Bool.and_eq_true, beq_iff_eq] at h
      exact ⟨fun hc => ⟨h.1, h.2, hc⟩, fun hc => hc.2.2⟩
    · rw [if_neg h]
      rw [Bool.and_eq_true, beq_iff_eq] at h
      constructor
      · intro hc; cases hc
      · exact fun hc => absurd ⟨hc.1, hc.2.1⟩ h

private theorem signatureOidc_iff (L : Lib) (c : Config L) (t : Bytes) (claims : Json) :
    signatureOidc L c t = some claims ↔ SignedByOne L c t claims := by
  unfold signatureOidc SignedByOne
  cases hp : L.parse t with
  | none => simp
  | some j =>
    simp only [Option.some.injEq, exists_eq_left']
    cases hk : L.kid j with
    | none =>
      simp only [reduceCtorEq, false_and, exists_false, false_or, true_and]
      by_cases h : (L.verify j c.dflt && L.alg j == c.alg) = true
      · rw [if_pos h]
        rw [Bool.and_eq_true, beq_iff_eq] at h
        exact ⟨fun hc => ⟨h.2, hc, h.1⟩, fun hc => hc.2.1⟩
      · rw [if_neg h]
        rw [Bool.and_eq_true, beq_iff_eq] at h
        constructor
        · intro hc; cases hc
        · exact fun hc => absurd ⟨hc.2.2, hc.1⟩ h
    | some n =>
      simp only [reduceCtorEq, false_and, or_false]
      cases hb : L.byKid n with
      | none =>
        constructor
        · intro hc; cases hc
        · rintro ⟨_, _, n', k, e, hk, _⟩
          cases e
          rw [hb] at hk
          cases hk
      | some key =>
        by_cases h : (L.verify j (some key) && L.alg j == c.alg) = true
        · simp only [if_pos h]
          rw [Bool.and_eq_true, beq_iff_eq] at h
          exact ⟨fun hc => ⟨h.2, hc, n, key, rfl, hb, h.1⟩, fun hc => hc.2.1⟩
        · simp only [if_neg h]
          rw [Bool.and_eq_true, beq_iff_eq] at h
          constructor
          · intro hc; cases hc
          · rintro ⟨h1, _, n', k, e, hk, h2⟩
            cases e
            rw [hb] at hk
            cases hk
            exact absurd ⟨h2, h1⟩ h

private theorem named_iff (claims : Json) (k : Bytes) : 0 < jlen (jget (some claims) k) ↔ Named claims k := by
  unfold jlen Named claimText
  cases h : jstr (jget (some claims) k) with
  | none => simp
  | some s => simp [List.length_pos_iff]

private theorem typed_iff (a b : Bool) (user app : Bytes) (claims : Json) :
    typeOk a b user app claims = true ↔ Typed a b user app claims := by
  unfold typeOk Typed claimText
  cases h : jstr (jget (some claims) b!"type") with
  | none => simp
  | some t =>
    simp only [Bool.or_eq_true, Bool.and_eq_true, beq_iff_eq, decide_eq_true_eq, named_iff, Option.some.injEq]
    constructor
    · rintro (⟨⟨h1, h2⟩, h3⟩ | ⟨⟨h1, h2⟩, h3⟩)
      · exact .inl ⟨h1, h2.symm, h3⟩
      · exact .inr ⟨h1, h2.symm, h3⟩
    · rintro (⟨h1, h2, h3⟩ | ⟨h1, h2, h3⟩)
      · exact .inl ⟨⟨h1, h2.symm⟩, h3⟩
      · exact .inr ⟨⟨h1, h2.symm⟩, h3⟩

/-- The claims are those of a live OAuth2 token of an accepted type. -/
def LiveOauth2 (L : Lib) (c : Config L) (claims : Json) : Prop :=
  L.now < claimNumber claims b!"iat" + claimNumber claims b!"expires_in" ∧
  Typed c.acceptAccess c.acceptClient b!"username" b!"client_id" claims

/-- The claims are those of a live JWT access token of an accepted type. -/
def LiveOidc (L : Lib) (c : Config L) (claims : Json) : Prop :=
  L.now < claimNumber claims b!"exp" ∧ Typed c.acceptAccess c.acceptClient b!"sub" b!"aud" claims

private theorem validity_iff {L : Lib} {c : Config L} {claims : Json} {v : Bool} (h : validity L c claims = .ok v) :
    v = true ↔ LiveOauth2 L c claims := by
  obtain ⟨e, h1, h2⟩ := bind_inv h
  unfold add64 at h1
  split at h1
  · cases h1
    cases h2
    rw [Bool.and_eq_true, typed_iff, decide_eq_true_eq]
    rfl
  · cases h1

private theorem validityOidc_iff (L : Lib) (c : Config L) (claims : Json) : validityOidc L c claims = true ↔ LiveOidc L c claims := by
  unfold validityOidc
  rw [Bool.and_eq_true, typed_iff, decide_eq_true_eq]
  rfl

/-- The words of a refusal. -/
inductive Reason where
  | missing | invalid | internal | scope | proof
  deriving DecidableEq

/-- The error code and the description sent. -/
def Reason.words : Reason → Bytes × Bytes
  | .missing => (b!"invalid_token", b!"The access token is missing")
  | .invalid => (b!"invalid_request", b!"The access token is invalid")
  | .internal => (b!"invalid_request", b!"Internal server error")
  | .scope => (b!"insufficient_scope", b!"The scope is invalid")
  | .proof => (b!"invalid_request", b!"The DPoP token is invalid")

private theorem oauth2_outcome {L : Lib} {c : Config L} {q : Req} {r : Response} {out : Out} (h : oauth2 L (some c) q r = .ok out)
    (ht : TidyScopes c.scope) :
    ∃ o, bearerToken true c.method q = .ok o ∧
      ((o = none ∧ refuse c.realm Reason.missing.words.1 Reason.missing.words.2 r = .ok out) ∨
       ∃ t, o = some t ∧
        (((∀ claims, ¬ Signed L c t claims) ∧ refuse c.realm Reason.invalid.words.1 Reason.invalid.words.2 r = .ok out) ∨
         ∃ claims, Signed L c t claims ∧
          ((¬ LiveOauth2 L c claims ∧ refuse c.realm Reason.internal.words.1 Reason.internal.words.2 r = .ok out) ∨
           (LiveOauth2 L c claims ∧
            ((¬ Enough c.scope claims ∧ refuse c.realm Reason.scope.words.1 Reason.scope.words.2 r = .ok out) ∨
             (claimText claims b!"scope" = none ∧ refuse c.realm Reason.internal.words.1 Reason.internal.words.2 r = .ok out) ∨
             (Enough c.scope claims ∧
              ((claimText claims b!"username" = none ∧ out = { code := 4, resp := r, shared := none }) ∨
               ∃ u ws, claimText claims b!"username" = some u ∧ GrantedScopes c.scope claims ws ∧
                out = { code := 0, resp := r,
                        shared := some (.obj [(b!"username", .str u), (b!"scope", .arr (ws.map .str))]) }))))))) := by
  unfold oauth2 at h
  simp only at h
  obtain ⟨o, h1, h⟩ := bind_inv h
  refine ⟨o, h1, ?_⟩
  cases o with
  | none => exact .inl ⟨rfl, h⟩
  | some t =>
    refine .inr ⟨t, rfl, ?_⟩
    simp only at h
    cases hsg : signature L c t with
    | none =>
      rw [hsg] at h
      refine .inl ⟨?_, h⟩
      intro claims hc
      rw [(signature_iff L c t claims).2 hc] at hsg
      cases hsg
    | some claims =>
      rw [hsg] at h
      refine .inr ⟨claims, (signature_iff L c t claims).1 hsg, ?_⟩
      simp only at h
      obtain ⟨v, h2, h⟩ := bind_inv h
      have hv := validity_iff h2
      by_cases hvt : v = true
      · rw [if_pos hvt] at h
        refine .inr ⟨hv.1 hvt, ?_⟩
        obtain ⟨x, h3, h⟩ := bind_inv h
        have hx := checkScope_spec ht h3
        cases x with
        | insufficient => exact .inl ⟨hx, h⟩
        | internal =>
          rcases hx with hx | ⟨_, hx⟩
          · exact .inr (.inl ⟨hx, h⟩)
          · cases hx
        | ok j =>
          obtain ⟨he, hj⟩ := hx
          refine .inr (.inr ⟨he, ?_⟩)
          simp only at h
          cases hu : jstr (jget (some claims) b!"username") with
          | none =>
            rw [hu] at h
            cases h
            exact .inl ⟨hu, rfl⟩
          | some u =>
            rw [hu] at h
            cases h
            rcases hj with ⟨hl, hj⟩ | ⟨ws, hj, hws⟩
            · cases hj
              refine .inr ⟨u, [], hu, ?_, rfl⟩
              intro w
              have : c.scope.getD [] = [] := List.length_eq_zero_iff.1 hl
              rw [this, scopes_nil]
              simp
            · subst hj
              exact .inr ⟨u, ws, hu, hws, rfl⟩
      · rw [if_neg hvt] at h
        exact .inl ⟨fun hl => hvt (hv.2 hl), h⟩

/-- What the callback for JWT access tokens hands on to the next callbacks. -/
def HandsOn (required : Option Bytes) (claims j : Json) : Prop :=
  (∃ s, claimText claims b!"sub" = some s ∧ claimText j b!"sub" = some s) ∧
  (∀ k ∈ [b!"aud", b!"client_id", b!"claims"], jget (some j) k = jget (some claims) k) ∧
  jget (some j) b!"jkt" = jget (jget (some claims) b!"cnf") b!"jkt" ∧
  ((required.getD [] = [] ∧ jget (some j) b!"scope" = jget (some claims) b!"scope") ∨
   ∃ ws, jget (some j) b!"scope" = some (.arr (ws.map .str)) ∧ GrantedScopes required claims ws)

private theorem shared_spec {claims sc j : Json} (h : sharedOidc claims sc = some j) :
    (∃ s, claimText claims b!"sub" = some s ∧ claimText j b!"sub" = some s) ∧
    (∀ k ∈ [b!"aud", b!"client_id", b!"claims"], jget (some j) k = jget (some claims) k) ∧
    jget (some j) b!"jkt" = jget (jget (some claims) b!"cnf") b!"jkt" ∧ jget (some j) b!"scope" = some sc := by
  unfold sharedOidc at h
  simp only at h
  cases hs : jstr (jget (some claims) b!"sub") with
  | none => rw [hs] at h; cases h
  | some u =>
    rw [hs] at h
    cases h
    refine ⟨⟨u, hs, rfl⟩, ?_, ?_, rfl⟩
    · intro k hk
      simp only [List.mem_cons, List.not_mem_nil, or_false] at hk
      rcases hk with rfl | rfl | rfl <;>
        cases jget (jget (some claims) b!"cnf") b!"jkt" <;> cases jget (some claims) b!"aud" <;>
        cases jget (some claims) b!"client_id" <;> cases jget (some claims) b!"claims" <;> rfl
    · cases jget (jget (some claims) b!"cnf") b!"jkt" <;> cases jget (some claims) b!"aud" <;>
        cases jget (some claims) b!"client_id" <;> cases jget (some claims) b!"claims" <;> rfl

private theorem oidc_outcome {L : Lib} {c : Config L} {q : Req} {r : Response} {out : Out} (h : oidc L (some c) q r = .ok out)
    (ht : TidyScopes c.scope) :
    ∃ o, bearerToken false c.method q = .ok o ∧
      ((o = none ∧ refuse c.realm Reason.missing.words.1 Reason.missing.words.2 r = .ok out) ∨
       ∃ t, o = some t ∧
        (((∀ claims, ¬ SignedByOne L c t claims) ∧ refuse c.realm Reason.invalid.words.1 Reason.invalid.words.2 r = .ok out) ∨
         ∃ claims, SignedByOne L c t claims ∧
          ((¬ LiveOidc L c claims ∧ refuse c.realm Reason.internal.words.1 Reason.internal.words.2 r = .ok out) ∨
           (LiveOidc L c claims ∧
            ((¬ Enough c.scope claims ∧ refuse c.realm Reason.scope.words.1 Reason.scope.words.2 r = .ok out) ∨
             (claimText claims b!"scope" = none ∧ refuse c.realm Reason.internal.words.1 Reason.internal.words.2 r = .ok out) ∨
             (Enough c.scope claims ∧
              ((claimText claims b!"sub" = none ∧ out = { code := 4, resp := r, shared := none }) ∨
               ∃ j, HandsOn c.scope claims j ∧ out = { code := 0, resp := r, shared := some j }))))))) := by
  unfold oidc at h
  simp only at h
  obtain ⟨o, h1, h⟩ := bind_inv h
  refine ⟨o, h1, ?_⟩
  cases o with
  | none => exact .inl ⟨rfl, h⟩
  | some t =>
    refine .inr ⟨t, rfl, ?_⟩
    simp only at h
    cases hsg : signatureOidc L c t with
    | none =>
      rw [hsg] at h
      refine .inl ⟨?_, h⟩
      intro claims hc
      rw [(signatureOidc_iff L c t claims).2 hc] at hsg
      cases hsg
    | some claims =>
      rw [hsg] at h
      refine .inr ⟨claims, (signatureOidc_iff L c t claims).1 hsg, ?_⟩
      simp only at h
      have hv := validityOidc_iff L c claims
      by_cases hvt : validityOidc L c claims = true
      · rw [if_pos hvt] at h
        refine .inr ⟨hv.1 hvt, ?_⟩
        obtain ⟨x, h3, h⟩ := bind_inv h
        have hx := checkScope_spec ht h3
        cases x with
        | insufficient => exact .inl ⟨hx, h⟩
        | internal =>
          rcases hx with hx | ⟨_, hx⟩
          · exact .inr (.inl ⟨hx, h⟩)
          · refine .inr (.inl ⟨?_, h⟩)
            unfold claimText
            rw [hx]
            rfl
        | ok j =>
          obtain ⟨he, hj⟩ := hx
          refine .inr (.inr ⟨he, ?_⟩)
          simp only at h
          cases hu : sharedOidc claims j with
          | none =>
            rw [hu] at h
            cases h
            refine .inl ⟨?_, rfl⟩
            unfold sharedOidc at hu
            simp only at hu
            unfold claimText
            cases hs : jstr (jget (some claims) b!"sub") with
            | none => rfl
            | some s => rw [hs] at hu; cases hu
          | some d =>
            rw [hu] at h
            cases h
            obtain ⟨e1, e2, e3, e4⟩ := shared_spec hu
            refine .inr ⟨d, ⟨e1, e2, e3, ?_⟩, rfl⟩
            rcases hj with ⟨hl, hj⟩ | ⟨ws, hj, hws⟩
            · exact .inl ⟨List.length_eq_zero_iff.1 hl, by rw [e4, hj]⟩
            · subst hj
              exact .inr ⟨ws, e4, hws⟩
      · rw [if_neg hvt] at h
        exact .inl ⟨fun hl => hvt (hv.2 hl), h⟩

private theorem refuse_code {realm : Option Bytes} {e d : Bytes} {r : Response} {out : Out} (h : refuse realm e d r = .ok out) :
    out.code = 3 ∧ out.shared = none := by
  obtain ⟨⟨_, m⟩, _, h⟩ := bind_inv h
  cases h
  exact ⟨rfl, rfl⟩

/-! ## Only good tokens get through -/

/-- **C132, for OAuth2 tokens.** When the callback lets a request through, the request carries, at the configured place, a token
that is signed with the configured key and algorithm, that has not expired, is of an accepted type, names its subject, and has
one of the required scopes. The response is unchanged; the next callbacks get the user's name and the scopes granted. Without a
configuration nothing gets through. Missing: lists of required scopes with additional spaces (`C132_scope_false`). -/
theorem C132_oauth2_partial (L : Lib) (cfg : Option (Config L)) (q : Req) (r : Response) (out : Out) (headers form query : Params)
    (hq : HoldsReq q headers form query) (ht : ∀ c, cfg = some c → TidyScopes c.scope)
    (h : oauth2 L cfg q r = .ok out) (h0 : out.code = 0) :
    ∃ c t claims u ws, cfg = some c ∧ Carries c.method headers form query b!"Bearer" t ∧ Signed L c t claims ∧
      LiveOauth2 L c claims ∧ Enough c.scope claims ∧ out.resp = r ∧
      claimText claims b!"username" = some u ∧ GrantedScopes c.scope claims ws ∧
      out.shared = some (.obj [(b!"username", .str u), (b!"scope", .arr (ws.map .str))]) := by
  cases cfg with
  | none => cases h; cases h0
  | some c =>
    obtain ⟨o, h1, h2⟩ := oauth2_outcome h (ht c rfl)
    obtain ⟨o', b1, b2, _⟩ := bearerToken_spec true c.method hq.1 hq.2.1 hq.2.2
    rw [h1] at b1
    cases b1
    have no {e d : Bytes} (hr : refuse c.realm e d r = .ok out) : False := by
      rw [(refuse_code hr).1] at h0
      cases h0
    rcases h2 with ⟨_, h2⟩ | ⟨t, rfl, h2⟩
    · exact (no h2).elim
    · rcases h2 with ⟨_, h2⟩ | ⟨claims, hs, h2⟩
      · exact (no h2).elim
      · rcases h2 with ⟨_, h2⟩ | ⟨hl, h2⟩
        · exact (no h2).elim
        · rcases h2 with ⟨_, h2⟩ | ⟨_, h2⟩ | ⟨he, h2⟩
          · exact (no h2).elim
          · exact (no h2).elim
          · rcases h2 with ⟨_, rfl⟩ | ⟨u, ws, hu, hw, rfl⟩
            · cases h0
            · exact ⟨c, t, claims, u, ws, rfl, b2 t rfl, hs, hl, he, rfl, hu, hw, rfl⟩

/-- **C132, for JWT access tokens.** Likewise; the key is the one the token names, if it names one. The next callbacks get the
subject, the scopes, and what the token says on the client, the audience, further claims and the key it is bound to. Missing: as
above. -/
theorem C132_oidc_partial (L : Lib) (cfg : Option (Config L)) (q : Req) (r : Response) (out : Out) (headers form query : Params)
    (hq : HoldsReq q headers form query) (ht : ∀ c, cfg = some c → TidyScopes c.scope)
    (h : oidc L cfg q r = .ok out) (h0 : out.code = 0) :
    ∃ c t claims j, cfg = some c ∧ Carries c.method headers form query b!"Bearer" t ∧ SignedByOne L c t claims ∧
      LiveOidc L c claims ∧ Enough c.scope claims ∧ out.resp = r ∧ out.shared = some j ∧ HandsOn c.scope claims j := by
  cases cfg with
  | none => cases h; cases h0
  | some c =>
    obtain ⟨o, h1, h2⟩ := oidc_outcome h (ht c rfl)
    obtain ⟨o', b1, b2, _⟩ := bearerToken_spec false c.method hq.1 hq.2.1 hq.2.2
    rw [h1] at b1
    cases b1
    have no {e d : Bytes} (hr : refuse c.realm e d r = .ok out) : False := by
      rw [(refuse_code hr).1] at h0
      cases h0
    rcases h2 with ⟨_, h2⟩ | ⟨t, rfl, h2⟩
    · exact (no h2).elim
    · rcases h2 with ⟨_, h2⟩ | ⟨claims, hs, h2⟩
      · exact (no h2).elim
      · rcases h2 with ⟨_, h2⟩ | ⟨hl, h2⟩
        · exact (no h2).elim
        · rcases h2 with ⟨_, h2⟩ | ⟨_, h2⟩ | ⟨he, h2⟩
          · exact (no h2).elim
          · exact (no h2).elim
          · rcases h2 with ⟨_, rfl⟩ | ⟨j, hj, rfl⟩
            · cases h0
            · exact ⟨c, t, claims, j, rfl, b2 t rfl, hs, hl, he, rfl, rfl, hj⟩

/-! ## Good tokens get through -/

/-- **C133, for OAuth2 tokens.** A request that carries such a token gets through, whatever else it contains. Missing: tokens
without a user's name (`C133_client_false`) or without a text "scope" (`C133_scopeless_false`), lists of required scopes with
additional spaces, times beyond 64 bits (`C133_overflow_false`), further headers Authorization before the one with the token. -/
theorem C133_oauth2_partial (L : Lib) (c : Config L) (q : Req) (r : Response) (headers form query : Params)
    (t : Bytes) (claims : Json) (hq : HoldsReq q headers form query)
    (ht : TidyScopes c.scope) (hc : CarriesPlainly c.method headers form query b!"Bearer" t) (hs : Signed L c t claims)
    (hl : LiveOauth2 L c claims) (h63 : -2 ^ 63 ≤ claimNumber claims b!"iat" + claimNumber claims b!"expires_in" ∧
      claimNumber claims b!"iat" + claimNumber claims b!"expires_in" < 2 ^ 63)
    (he : Enough c.scope claims) (hsc : ∃ s, claimText claims b!"scope" = some s) (hu : ∃ u, claimText claims b!"username" = some u) :
    ∃ out, oauth2 L (some c) q r = .ok out ∧ out.code = 0 := by
  obtain ⟨o, b1, _, b3⟩ := bearerToken_spec true c.method hq.1 hq.2.1 hq.2.2
  have ho := b3 t hc
  subst ho
  obtain ⟨s, hsc⟩ := hsc
  obtain ⟨u, hu⟩ := hu
  obtain ⟨x, hx⟩ := checkScope_defined (null := L.nullSets) (free := some (.arr [])) (e := c.scope) hsc
  have hspec := checkScope_spec ht hx
  have hv : validity L c claims = .ok true := by
    have : ∃ v, validity L c claims = .ok v := by
      have ha : add64 (jint (jget (some claims) b!"iat")) (jint (jget (some claims) b!"expires_in")) =
          .ok (jint (jget (some claims) b!"iat") + jint (jget (some claims) b!"expires_in")) := if_pos h63
      unfold validity
      simp only [ha, Res.ok_bind]
      exact ⟨_, rfl⟩
    obtain ⟨v, hv⟩ := this
    rw [hv, (validity_iff hv).2 hl]
  unfold oauth2
  simp only [b1, Res.ok_bind, (signature_iff L c t claims).2 hs, hv, if_true, hx]
  cases x with
  | insufficient => exact absurd he hspec
  | internal =>
    rcases hspec with h | ⟨_, h⟩
    · rw [hsc] at h; cases h
    · cases h
  | ok j =>
    simp only [show jstr (jget (some claims) b!"username") = some u from hu]
    exact ⟨_, rfl, rfl⟩

/-- **C133, for JWT access tokens.** Likewise. Missing: tokens without a subject (`C133_client_false`) or a text "scope", and as
above. -/
theorem C133_oidc_partial (L : Lib) (c : Config L) (q : Req) (r : Response) (headers form query : Params)
    (t : Bytes) (claims : Json) (hq : HoldsReq q headers form query)
    (ht : TidyScopes c.scope) (hc : CarriesPlainly c.method headers form query b!"Bearer" t) (hs : SignedByOne L c t claims)
    (hl : LiveOidc L c claims) (he : Enough c.scope claims)
    (hsc : ∃ s, claimText claims b!"scope" = some s) (hu : ∃ u, claimText claims b!"sub" = some u) :
    ∃ out, oidc L (some c) q r = .ok out ∧ out.code = 0 := by
  obtain ⟨o, b1, _, b3⟩ := bearerToken_spec false c.method hq.1 hq.2.1 hq.2.2
  have ho := b3 t hc
  subst ho
  obtain ⟨s, hsc⟩ := hsc
  obtain ⟨u, hu⟩ := hu
  obtain ⟨x, hx⟩ := checkScope_defined (null := L.nullSets) (free := jget (some claims) b!"scope") (e := c.scope) hsc
  have hspec := checkScope_spec ht hx
  unfold oidc
  simp only [b1, Res.ok_bind, (signatureOidc_iff L c t claims).2 hs, (validityOidc_iff L c claims).2 hl, if_true, hx]
  cases x with
  | insufficient => exact absurd he hspec
  | internal =>
    rcases hspec with h | ⟨_, h⟩
    · rw [hsc] at h; cases h
    · unfold claimText at hsc
      rw [h] at hsc
      cases hsc
  | ok j =>
    have : ∃ d, sharedOidc claims j = some d := by
      unfold sharedOidc
      simp only [show jstr (jget (some claims) b!"sub") = some u from hu]
      exact ⟨_, rfl⟩
    obtain ⟨d, hd⟩ := this
    simp only [hd]
    exact ⟨_, rfl, rfl⟩

/-! ## Refusals -/

/-- Why a request is refused. -/
def Because (place : Nat) (headers form query : Params) (signed : Bytes → Json → Prop) (live : Json → Prop)
    (required : Option Bytes) : Reason → Prop
  | .missing => ∀ t, ¬ CarriesPlainly place headers form query b!"Bearer" t
  | .invalid => ∃ t, Carries place headers form query b!"Bearer" t ∧ ∀ claims, ¬ signed t claims
  | .internal => ∃ t claims, Carries place headers form query b!"Bearer" t ∧ signed t claims ∧
      (¬ live claims ∨ claimText claims b!"scope" = none)
  | .scope => ∃ t claims, Carries place headers form query b!"Bearer" t ∧ signed t claims ∧ live claims ∧ ¬ Enough required claims
  | .proof => False

/-- The realm is a word. -/
def WordRealm (realm : Option Bytes) : Prop := ∀ x, realm = some x → x ≠ [] ∧ x.all tchar = true ∧ x.length < 2 ^ 63

/-- The parameter that names the realm. -/
def realmParams : Option Bytes → List (Bytes × Bytes)
  | none => []
  | some x => [(b!"realm", x)]

/-- The response is `r` with a challenge added that a client reads as the realm, the error and its description. -/
def Challenged (realm : Option Bytes) (why : Reason) (r : Response) (hs : Params) (cs : List Bytes) (body : Bytes)
    (r' : Response) : Prop :=
  ∃ v, HoldsResp r' (Spec.OMap.put hs b!"WWW-Authenticate" (some v)) cs body ∧ r' = { r with header := r'.header } ∧
    readChallenge v = some (b!"Bearer", realmParams realm ++
      [(b!"error", why.words.1), (b!"error_description", why.words.2)])

private theorem tchar_ne {x : Bytes} (h : x.all tchar = true) : NoNul x := by
  intro hc
  have := List.all_eq_true.1 h 0 hc
  revert this
  decide

private theorem takeWhile_stop {p : UInt8 → Bool} {x : Bytes} (h : x.all p = true) {c : UInt8} (hc : p c = false) (t : Bytes) :
    (x ++ c :: t).takeWhile p = x ∧ (x ++ c :: t).dropWhile p = c :: t := by
  induction x with
  | nil => simp [hc]
  | cons a u ih =>
    rw [List.all_cons, Bool.and_eq_true] at h
    simp [h.1, ih h.2]

private theorem words_read (why : Reason) :
    ∃ t, readParam (b!"error=\"" ++ why.words.1 ++ b!"\",error_description=\"" ++ why.words.2 ++ b!"\"") =
        some ((b!"error", why.words.1), 0x2c :: t) ∧ readParam t = some ((b!"error_description", why.words.2), []) := by
  cases why <;> exact ⟨_, rfl, by decide⟩

private theorem words_params (n : Nat) (why : Reason) :
    readParams (n + 2) (b!"error=\"" ++ why.words.1 ++ b!"\",error_description=\"" ++ why.words.2 ++ b!"\"") =
      some [(b!"error", why.words.1), (b!"error_description", why.words.2)] := by
  obtain ⟨t, e1, e2⟩ := words_read why
  unfold readParams
  rw [e1]
  simp only
  unfold readParams
  rw [e2]
  rfl

private theorem challenge_read (realm : Option Bytes) (hr : WordRealm realm) (why : Reason) :
    readChallenge (challenge realm why.words.1 why.words.2) =
      some (b!"Bearer", realmParams realm ++
        [(b!"error", why.words.1), (b!"error_description", why.words.2)]) := by
  have scheme (t : Bytes) : (b!"Bearer " ++ t).takeWhile tchar = b!"Bearer" ∧ (b!"Bearer " ++ t).dropWhile tchar = 0x20 :: t :=
    takeWhile_stop (p := tchar) (x := b!"Bearer") (by decide) (c := 0x20) (by decide) t
  cases realm with
  | none =>
    have e : challenge none why.words.1 why.words.2 = b!"Bearer " ++
        (b!"error=\"" ++ why.words.1 ++ b!"\",error_description=\"" ++ why.words.2 ++ b!"\"") := by
      simp [challenge]
    rw [e]
    unfold readChallenge
    rw [(scheme _).1, (scheme _).2]
    simp only
    have hw := words_params ((b!"Bearer " ++
        (b!"error=\"" ++ why.words.1 ++ b!"\",error_description=\"" ++ why.words.2 ++ b!"\"")).length - 1) why
    rw [show ∀ l : Bytes, (b!"Bearer " ++ l).length - 1 + 2 = (b!"Bearer " ++ l).length + 1 from by
      intro l; simp] at hw
    rw [hw]
    rfl
  | some x =>
    obtain ⟨h1, h2, _⟩ := hr x rfl
    have e : challenge (some x) why.words.1 why.words.2 = b!"Bearer " ++ (b!"realm=" ++ (x ++ 0x2c ::
        (b!"error=\"" ++ why.words.1 ++ b!"\",error_description=\"" ++ why.words.2 ++ b!"\""))) := by
      simp [challenge]
    rw [e]
    unfold readChallenge
    rw [(scheme _).1, (scheme _).2]
    simp only
    have hp : readParam (b!"realm=" ++ (x ++ 0x2c ::
        (b!"error=\"" ++ why.words.1 ++ b!"\",error_description=\"" ++ why.words.2 ++ b!"\""))) =
        some ((b!"realm", x), 0x2c :: (b!"error=\"" ++ why.words.1 ++ b!"\",error_description=\"" ++ why.words.2 ++ b!"\"")) := by
      have hn (t : Bytes) : (b!"realm=" ++ t).takeWhile tchar = b!"realm" ∧ (b!"realm=" ++ t).dropWhile tchar = 0x3d :: t :=
        takeWhile_stop (p := tchar) (x := b!"realm") (by decide) (c := 0x3d) (by decide) t
      unfold readParam
      rw [(hn _).1, (hn _).2]
      simp only
      rw [if_neg (by decide)]
      have hv : readValue (x ++ 0x2c ::
          (b!"error=\"" ++ why.words.1 ++ b!"\",error_description=\"" ++ why.words.2 ++ b!"\"")) =
          some (x, 0x2c :: (b!"error=\"" ++ why.words.1 ++ b!"\",error_description=\"" ++ why.words.2 ++ b!"\"")) := by
        have hx := takeWhile_stop h2 (c := 0x2c) (by decide)
          (b!"error=\"" ++ why.words.1 ++ b!"\",error_description=\"" ++ why.words.2 ++ b!"\"")
        unfold readValue
        split
        · rename_i t ht
          cases x with
          | nil => exact absurd rfl h1
          | cons a u =>
            simp only [List.cons_append, List.cons.injEq] at ht
            rw [ht.1] at h2
            exact absurd h2 (by simp [tchar])
        · rw [hx.1, hx.2, if_neg (by simp [h1])]
      rw [hv]
      rfl
    have hlen : ∃ n, (b!"Bearer " ++ (b!"realm=" ++ (x ++ 0x2c ::
        (b!"error=\"" ++ why.words.1 ++ b!"\",error_description=\"" ++ why.words.2 ++ b!"\"")))).length + 1 = n + 2 + 1 := by
      refine ⟨(b!"realm=" ++ (x ++ 0x2c ::
        (b!"error=\"" ++ why.words.1 ++ b!"\",error_description=\"" ++ why.words.2 ++ b!"\""))).length + 5, ?_⟩
      simp only [List.length_append, List.length_cons, List.length_nil]
      omega
    obtain ⟨n, hn⟩ := hlen
    rw [hn]
    unfold readParams
    rw [hp]
    simp only
    rw [words_params n why]
    rfl

private theorem refuse_challenged {r : Response} {hs : Params} {cs : List Bytes} {body : Bytes} (hr : HoldsResp r hs cs body)
    {realm : Option Bytes} (hw : WordRealm realm) (why : Reason) :
    ∃ out, refuse realm why.words.1 why.words.2 r = .ok out ∧ out.code = 3 ∧ out.shared = none ∧
      Challenged realm why r hs cs body out.resp := by
  have fixed : NoNul (b!"error=\"" ++ why.words.1 ++ b!"\",error_description=\"" ++ why.words.2 ++ b!"\"") ∧
      (b!"error=\"" ++ why.words.1 ++ b!"\",error_description=\"" ++ why.words.2 ++ b!"\"").length ≤ 200 := by
    cases why <;> exact ⟨by decide, by decide⟩
  have hn : NoNul (challenge realm why.words.1 why.words.2) ∧ (challenge realm why.words.1 why.words.2).length + 2 < 2 ^ 64 := by
    cases realm with
    | none =>
      rw [show challenge none why.words.1 why.words.2 = b!"Bearer " ++
        (b!"error=\"" ++ why.words.1 ++ b!"\",error_description=\"" ++ why.words.2 ++ b!"\"") from by simp [challenge]]
      refine ⟨?_, ?_⟩
      · intro hc
        rcases List.mem_append.1 hc with hc | hc
        · revert hc; decide
        · exact fixed.1 hc
      · rw [List.length_append]
        have := fixed.2
        simp only [List.length_cons, List.length_nil] at *
        omega
    | some x =>
      obtain ⟨h1, h2, h3⟩ := hw x rfl
      rw [show challenge (some x) why.words.1 why.words.2 = b!"Bearer realm=" ++ (x ++ (b!"," ++
        (b!"error=\"" ++ why.words.1 ++ b!"\",error_description=\"" ++ why.words.2 ++ b!"\""))) from by simp [challenge]]
      refine ⟨?_, ?_⟩
      · intro hc
        rcases List.mem_append.1 hc with hc | hc
        · revert hc; decide
        · rcases List.mem_append.1 hc with hc | hc
          · exact tchar_ne h2 hc
          · rcases List.mem_append.1 hc with hc | hc
            · revert hc; decide
            · exact fixed.1 hc
      · rw [List.length_append, List.length_append, List.length_append]
        have := fixed.2
        generalize (b!"error=\"" ++ why.words.1 ++ b!"\",error_description=\"" ++ why.words.2 ++ b!"\"").length = m at *
        simp only [List.length_cons, List.length_nil] at *
        omega
  obtain ⟨out, e1, e2, e3, e4, e5⟩ := refuse_spec hr realm why.words.1 why.words.2 hn.1 hn.2
  exact ⟨out, e1, e2, e3, _, e4, e5, challenge_read realm hw why⟩

private theorem refuse_inv {r : Response} {hs : Params} {cs : List Bytes} {body : Bytes} (hr : HoldsResp r hs cs body)
    {realm : Option Bytes} (hw : WordRealm realm) {why : Reason} {out : Out}
    (h : refuse realm why.words.1 why.words.2 r = .ok out) :
    out.code = 3 ∧ out.shared = none ∧ Challenged realm why r hs cs body out.resp := by
  obtain ⟨out', e, h'⟩ := refuse_challenged hr hw why
  rw [h] at e
  cases e
  exact h'

/-- **C134, for OAuth2 tokens.** The callback lets the request through, or stops it: with an error if the token names no user,
otherwise as unauthorized, adding a challenge that a client reads as the realm, the error and its description, and that tells the
reason. It leaves the rest of the response as it was, and hands nothing on. Missing: the error codes of RFC 6750
(`C134_expired_false`, `C134_missing_false`), realms other than words (`C134_realm_false`). -/
theorem C134_oauth2_partial (L : Lib) (c : Config L) (q : Req) (r : Response) (out : Out) (headers form query hs : Params)
    (cs : List Bytes) (body : Bytes) (hq : HoldsReq q headers form query) (hr : HoldsResp r hs cs body)
    (ht : TidyScopes c.scope) (hw : WordRealm c.realm) (h : oauth2 L (some c) q r = .ok out) :
    out.code = 0 ∧ out.resp = r ∨
    out.code = 4 ∧ out.resp = r ∧ out.shared = none ∧ (∃ t claims, Carries c.method headers form query b!"Bearer" t ∧
      Signed L c t claims ∧ claimText claims b!"username" = none) ∨
    out.code = 3 ∧ out.shared = none ∧ ∃ why, Because c.method headers form query (Signed L c) (LiveOauth2 L c) c.scope why ∧
      Challenged c.realm why r hs cs body out.resp := by
  obtain ⟨o, h1, h2⟩ := oauth2_outcome h ht
  obtain ⟨o', b1, b2, b3⟩ := bearerToken_spec true c.method hq.1 hq.2.1 hq.2.2
  rw [h1] at b1
  cases b1
  have no (why : Reason) (hb : Because c.method headers form query (Signed L c) (LiveOauth2 L c) c.scope why)
      (hr' : refuse c.realm why.words.1 why.words.2 r = .ok out) : out.code = 3 ∧ out.shared = none ∧
        ∃ why, Because c.method headers form query (Signed L c) (LiveOauth2 L c) c.scope why ∧
          Challenged c.realm why r hs cs body out.resp :=
    ⟨(refuse_inv hr hw hr').1, (refuse_inv hr hw hr').2.1, why, hb, (refuse_inv hr hw hr').2.2⟩
  rcases h2 with ⟨rfl, h2⟩ | ⟨t, rfl, h2⟩
  · exact .inr (.inr (no .missing (fun t hc => by have := b3 t hc; cases this) h2))
  · have hc := b2 t rfl
    rcases h2 with ⟨hi, h2⟩ | ⟨claims, hs', h2⟩
    · exact .inr (.inr (no .invalid ⟨t, hc, hi⟩ h2))
    · rcases h2 with ⟨hl, h2⟩ | ⟨hl, h2⟩
      · exact .inr (.inr (no .internal ⟨t, claims, hc, hs', .inl hl⟩ h2))
      · rcases h2 with ⟨he, h2⟩ | ⟨hn, h2⟩ | ⟨he, h2⟩
        · exact .inr (.inr (no .scope ⟨t, claims, hc, hs', hl, he⟩ h2))
        · exact .inr (.inr (no .internal ⟨t, claims, hc, hs', .inr hn⟩ h2))
        · rcases h2 with ⟨hu, rfl⟩ | ⟨u, ws, hu, hws, rfl⟩
          · exact .inr (.inl ⟨rfl, rfl, rfl, t, claims, hc, hs', hu⟩)
          · exact .inl ⟨rfl, rfl⟩

/-- **C134, for JWT access tokens.** Likewise. -/
theorem C134_oidc_partial (L : Lib) (c : Config L) (q : Req) (r : Response) (out : Out) (headers form query hs : Params)
    (cs : List Bytes) (body : Bytes) (hq : HoldsReq q headers form query) (hr : HoldsResp r hs cs body)
    (ht : TidyScopes c.scope) (hw : WordRealm c.realm) (h : oidc L (some c) q r = .ok out) :
    out.code = 0 ∧ out.resp = r ∨
    out.code = 4 ∧ out.resp = r ∧ out.shared = none ∧ (∃ t claims, Carries c.method headers form query b!"Bearer" t ∧
      SignedByOne L c t claims ∧ claimText claims b!"sub" = none) ∨
    out.code = 3 ∧ out.shared = none ∧ ∃ why, Because c.method headers form query (SignedByOne L c) (LiveOidc L c) c.scope why ∧
      Challenged c.realm why r hs cs body out.resp := by
  obtain ⟨o, h1, h2⟩ := oidc_outcome h ht
  obtain ⟨o', b1, b2, b3⟩ := bearerToken_spec false c.method hq.1 hq.2.1 hq.2.2
  rw [h1] at b1
  cases b1
  have no (why : Reason) (hb : Because c.method headers form query (SignedByOne L c) (LiveOidc L c) c.scope why)
      (hr' : refuse c.realm why.words.1 why.words.2 r = .ok out) : out.code = 3 ∧ out.shared = none ∧
        ∃ why, Because c.method headers form query (SignedByOne L c) (LiveOidc L c) c.scope why ∧
          Challenged c.realm why r hs cs body out.resp :=
    ⟨(refuse_inv hr hw hr').1, (refuse_inv hr hw hr').2.1, why, hb, (refuse_inv hr hw hr').2.2⟩
  rcases h2 with ⟨rfl, h2⟩ | ⟨t, rfl, h2⟩
  · exact .inr (.inr (no .missing (fun t hc => by have := b3 t hc; cases this) h2))
  · have hc := b2 t rfl
    rcases h2 with ⟨hi, h2⟩ | ⟨claims, hs', h2⟩
    · exact .inr (.inr (no .invalid ⟨t, hc, hi⟩ h2))
    · rcases h2 with ⟨hl, h2⟩ | ⟨hl, h2⟩
      · exact .inr (.inr (no .internal ⟨t, claims, hc, hs', .inl hl⟩ h2))
      · rcases h2 with ⟨he, h2⟩ | ⟨hn, h2⟩ | ⟨he, h2⟩
        · exact .inr (.inr (no .scope ⟨t, claims, hc, hs', hl, he⟩ h2))
        · exact .inr (.inr (no .internal ⟨t, claims, hc, hs', .inr hn⟩ h2))
        · rcases h2 with ⟨hu, rfl⟩ | ⟨j, hj, rfl⟩
          · exact .inr (.inl ⟨rfl, rfl, rfl, t, claims, hc, hs', hu⟩)
          · exact .inl ⟨rfl, rfl⟩

/-! ## Tokens checked by iddawc, tokens bound to a key -/

/-- The key that the token is bound to. -/
def boundTo (claims : Json) : Option Json := jget (jget (some claims) b!"cnf") b!"jkt"

/-- The request proves possession of the key the token is bound to; a token that is bound to none comes without any proof. -/
def Possession (c : IdConfig) (q : Req) (headers : Params) (bound : Bool) (token : Bytes) (claims : Json) : Prop :=
  bound = true ∧ (∃ k v x tail, boundTo claims = some k ∧ Single headers b!"DPoP" v ∧ q.urlPath = some (x :: tail) ∧
    c.proof (some v) q.verb (str c.root ++ tail) (jstr (some k)) token = true) ∨
  bound = false ∧ boundTo claims = none ∧ Absent headers b!"DPoP"

/-- **C135.** When the callback lets a request through, the request carries in its only header Authorization, or at the other place
configured, a token that iddawc takes as valid, with one of the required scopes. If the token is bound to a key, it comes with the
scheme DPoP and exactly one proof, which is valid for that key, that token, the method and the URL of the request; if it is not, it
comes with the scheme Bearer and without proof. The next callbacks get the claims. And such a request gets through. Missing: lists
of required scopes with additional spaces; completeness for headers Content-Type spelled differently (`C135_spelling_false`). -/
theorem C135_iddawc_partial (c : IdConfig) (q : Req) (r : Response) (headers form query : Params)
    (hq : HoldsReq q headers form query) (ht : TidyScopes c.scope) :
    (∀ out, iddawc (some c) q r = .ok out → out.code = 0 →
      ∃ b t claims, CarriesOnce c.method headers form query b t ∧ t ≠ [] ∧ c.verify t = some claims ∧ Enough c.scope claims ∧
        Possession c q headers b t claims ∧ out.resp = r ∧ out.shared = some claims) ∧
    (∀ b t claims, CarriesPlainly c.method headers form query (if b then b!"DPoP" else b!"Bearer") t → (b = true → c.method = 0) →
      t ≠ [] → c.locks = true → c.verify t = some claims → Enough c.scope claims → Possession c q headers b t claims →
      iddawc (some c) q r = .ok { code := 0, resp := r, shared := some claims }) ∧
    (∀ out, iddawc none q r = .ok out → out.code ≠ 0) := by
  obtain ⟨dpop, d1, d2, d3⟩ := caseText_first hq.1 b!"DPoP"
  have hn := (holds_case hq.1 b!"DPoP").1
  obtain ⟨o, i1, i2, i3⟩ := idToken_spec c.method hq.1 hq.2.1 hq.2.2
  have hsc := idScope_spec ht
  refine ⟨?_, ?_, ?_⟩
  · intro out h h0
    unfold iddawc at h
    simp only [d1, hn, i1, Res.ok_bind] at h
    have no {e d : Bytes} (hr : refuse c.realm e d r = .ok out) : False := by
      rw [(refuse_code hr).1] at h0
      cases h0
    cases o with
    | none => exact (no h).elim
    | some p =>
      obtain ⟨t, b⟩ := p
      simp only at h
      by_cases hte : t.isEmpty = true
      · rw [if_pos hte] at h; exact (no h).elim
      rw [if_neg hte] at h
      have hlk : c.locks = true := by
        cases hl : c.locks with
        | true => rfl
        | false => rw [hl, if_neg (by decide)] at h; exact (no h).elim
      rw [if_pos hlk] at h
      cases hv : c.verify t with
      | none => rw [hv] at h; exact (no h).elim
      | some claims =>
        rw [hv] at h
        simp only at h
        have hs := hsc claims
        cases hx : idScope c.scope claims with
        | insufficient => rw [hx] at h; exact (no h).elim
        | internal => rw [hx] at h; exact (no h).elim
        | ok j =>
          rw [hx] at h hs
          simp only at h
          refine ⟨b, t, claims, i2 t b rfl, by simpa using hte, hv, hs, ?_⟩
          by_cases hb : (b && (jget (jget (some claims) b!"cnf") b!"jkt").isSome && dpop.isSome &&
              headers.countP (fun p => eqCase p.1 b!"DPoP") == 1) = true
          · rw [if_pos hb] at h
            simp only [Bool.and_eq_true, beq_iff_eq] at hb
            obtain ⟨⟨⟨hb1, hb2⟩, hb3⟩, hb4⟩ := hb
            obtain ⟨tail, ht1, h⟩ := bind_inv h
            cases dpop with
            | none => cases hb3
            | some v =>
              obtain ⟨k, hk⟩ := Option.isSome_iff_exists.1 hb2
              by_cases hp : c.proof (some v) q.verb (str c.root ++ tail)
                  (jstr (jget (jget (some claims) b!"cnf") b!"jkt")) t = true
              · rw [if_pos hp] at h
                cases h
                refine ⟨.inl ⟨hb1, k, v, ?_⟩, rfl, rfl⟩
                cases hup : q.urlPath with
                | none => rw [hup] at ht1; cases ht1
                | some l =>
                  cases l with
                  | nil => rw [hup] at ht1; cases ht1
                  | cons x tl =>
                    rw [hup] at ht1
                    cases ht1
                    rw [hk] at hp
                    exact ⟨x, tail, hk, single_iff.2 ⟨hb4, (d3 v).1 rfl⟩, rfl, hp⟩
              · rw [if_neg hp] at h
                exact (no h).elim
          · rw [if_neg hb] at h
            by_cases hb' : (!b && (jget (jget (some claims) b!"cnf") b!"jkt").isNone && dpop.isNone) = true
            · rw [if_pos hb'] at h
              cases h
              simp only [Bool.and_eq_true, Bool.not_eq_true', Option.isNone_iff_eq_none] at hb'
              exact ⟨.inr ⟨hb'.1.1, hb'.1.2, d2.1 hb'.2⟩, rfl, rfl⟩
            · rw [if_neg hb'] at h
              cases h
              cases h0
  · intro b t claims hc hb hte hlk hv he hp
    have ho := i3 t b hc hb
    subst ho
    unfold iddawc
    simp only [d1, hn, i1, Res.ok_bind]
    rw [if_neg (by simpa using hte), if_pos hlk, hv]
    simp only
    have hs := hsc claims
    cases hx : idScope c.scope claims with
    | insufficient => rw [hx] at hs; exact absurd he hs
    | internal => rw [hx] at hs; exact absurd he hs.2
    | ok j =>
      simp only
      rcases hp with ⟨rfl, k, v, x, tail, hk, hsg, hup, hpr⟩ | ⟨rfl, hk, ha⟩
      · have hd := (d3 v).2 (single_first hsg)
        subst hd
        unfold boundTo at hk
        rw [hk, single_count hsg, if_pos (by rfl), hup]
        show (if c.proof (some v) q.verb (str c.root ++ tail) (jstr (some k)) t = true then _ else _) = _
        rw [if_pos hpr]
        rfl
      · have hd := d2.2 ha
        subst hd
        unfold boundTo at hk
        rw [hk, if_neg (by simp), if_pos (by rfl)]
        rfl
  · intro out h
    unfold iddawc at h
    simp only [d1, hn, Res.ok_bind] at h
    cases h
    show (3 : Int) ≠ 0
    decide

/-- Why the callback based on iddawc refuses a request. -/
def BecauseId (c : IdConfig) (q : Req) (headers form query : Params) : Reason → Prop
  | .missing => ∀ b t, CarriesPlainly c.method headers form query (if b then b!"DPoP" else b!"Bearer") t →
      (b = true → c.method = 0) → t = []
  | .invalid => ∃ b t, CarriesOnce c.method headers form query b t ∧ c.verify t = none
  | .internal => c.locks = false ∨ ∃ b t claims, CarriesOnce c.method headers form query b t ∧ c.verify t = some claims ∧
      claimText claims b!"scope" = none ∧ ¬ Enough c.scope claims
  | .scope => ∃ b t claims, CarriesOnce c.method headers form query b t ∧ c.verify t = some claims ∧ ¬ Enough c.scope claims
  | .proof => ∃ t claims, CarriesOnce c.method headers form query true t ∧ c.verify t = some claims ∧
      ¬ Possession c q headers true t claims

/-- **C134, for the callback based on iddawc.** It lets the request through or refuses it with a challenge that tells the reason.
Missing: a challenge when the token is bound to a key and comes without proof, and the reverse (`C134_silent_false`). -/
theorem C134_iddawc_partial (c : IdConfig) (q : Req) (r : Response) (out : Out) (headers form query hs : Params)
    (cs : List Bytes) (body : Bytes) (hq : HoldsReq q headers form query) (hr : HoldsResp r hs cs body)
    (ht : TidyScopes c.scope) (hw : WordRealm c.realm) (h : iddawc (some c) q r = .ok out) :
    out.code = 0 ∧ out.resp = r ∨
    out.code = 3 ∧ out.shared = none ∧ ((∃ why, BecauseId c q headers form query why ∧ Challenged c.realm why r hs cs body out.resp) ∨
      out.resp = r ∧ ∃ b t claims, CarriesOnce c.method headers form query b t ∧ c.verify t = some claims ∧
        ¬ Possession c q headers b t claims) := by
  obtain ⟨dpop, d1, d2, d3⟩ := caseText_first hq.1 b!"DPoP"
  have hn := (holds_case hq.1 b!"DPoP").1
  obtain ⟨o, i1, i2, i3⟩ := idToken_spec c.method hq.1 hq.2.1 hq.2.2
  have hsc := idScope_spec ht
  have no (why : Reason) (hb : BecauseId c q headers form query why) (hr' : refuse c.realm why.words.1 why.words.2 r = .ok out) :
      out.code = 0 ∧ out.resp = r ∨ out.code = 3 ∧ out.shared = none ∧
        ((∃ why, BecauseId c q headers form query why ∧ Challenged c.realm why r hs cs body out.resp) ∨
          out.resp = r ∧ ∃ b t claims, CarriesOnce c.method headers form query b t ∧ c.verify t = some claims ∧
            ¬ Possession c q headers b t claims) :=
    .inr ⟨(refuse_inv hr hw hr').1, (refuse_inv hr hw hr').2.1, .inl ⟨why, hb, (refuse_inv hr hw hr').2.2⟩⟩
  unfold iddawc at h
  simp only [d1, hn, i1, Res.ok_bind] at h
  cases o with
  | none => exact no .missing (fun b t hc hb => by have := i3 t b hc hb; cases this) h
  | some p =>
    obtain ⟨t, b⟩ := p
    have hc := i2 t b rfl
    simp only at h
    by_cases hte : t.isEmpty = true
    · rw [if_pos hte] at h
      refine no .missing (fun b' t' hc' hb' => ?_) h
      have := i3 t' b' hc' hb'
      cases this
      exact List.isEmpty_iff.1 hte
    rw [if_neg hte] at h
    cases hlk : c.locks with
    | false => rw [hlk, if_neg (by decide)] at h; exact no .internal (.inl hlk) h
    | true =>
    rw [if_pos hlk] at h
    cases hv : c.verify t with
    | none => rw [hv] at h; exact no .invalid ⟨b, t, hc, hv⟩ h
    | some claims =>
      rw [hv] at h
      simp only at h
      have hs' := hsc claims
      cases hx : idScope c.scope claims with
      | insufficient => rw [hx] at h hs'; exact no .scope ⟨b, t, claims, hc, hv, hs'⟩ h
      | internal => rw [hx] at h hs'; exact no .internal (.inr ⟨b, t, claims, hc, hv, hs'.1, hs'.2⟩) h
      | ok j =>
        rw [hx] at h
        simp only at h
        by_cases hb : (b && (jget (jget (some claims) b!"cnf") b!"jkt").isSome && dpop.isSome &&
            headers.countP (fun p => eqCase p.1 b!"DPoP") == 1) = true
        · rw [if_pos hb] at h
          obtain ⟨tail, ht1, h⟩ := bind_inv h
          simp only [Bool.and_eq_true, beq_iff_eq] at hb
          obtain ⟨⟨⟨rfl, hb2⟩, hb3⟩, hb4⟩ := hb
          split at h
          · cases h
            exact .inl ⟨rfl, rfl⟩
          · rename_i hp
            refine no .proof ⟨t, claims, hc, hv, ?_⟩ h
            rintro (⟨_, k, v, x, tl, hk, hsg, hup, hpr⟩ | ⟨hf, _⟩)
            · unfold boundTo at hk
              rw [(d3 v).2 (single_first hsg), hk] at hp
              rw [hup] at ht1
              cases ht1
              exact hp hpr
            · cases hf
        · rw [if_neg hb] at h
          by_cases hb' : (!b && (jget (jget (some claims) b!"cnf") b!"jkt").isNone && dpop.isNone) = true
          · rw [if_pos hb'] at h
            cases h
            exact .inl ⟨rfl, rfl⟩
          · rw [if_neg hb'] at h
            cases h
            refine .inr ⟨rfl, rfl, .inr ⟨rfl, b, t, claims, hc, hv, ?_⟩⟩
            rintro (⟨rfl, k, v, x, tl, hk, hsg, hup, hpr⟩ | ⟨rfl, hk, ha⟩)
            · unfold boundTo at hk
              rw [(d3 v).2 (single_first hsg), hk, single_count hsg] at hb
              exact hb rfl
            · unfold boundTo at hk
              rw [d2.2 ha, hk] at hb'
              exact hb' rfl

/-! ## Proofs of possession -/

/-- The first header DPoP is a proof: signed, with an asymmetric algorithm, by the key in its header, of the right type, for this
method and this URL, with an identifier, not from the future and not older than allowed, and the key has this thumbprint. -/
def GoodProof (P : ProofLib) (headers : Params) (htm htu : Bytes) (maxIat : Int) (jkt : Bytes) : Prop :=
  ∃ v j h cl k, First headers b!"DPoP" v ∧ P.parse v = some j ∧ P.verify j = true ∧ P.typ j = some b!"dpop+jwt" ∧
    P.asymmetric j = true ∧ P.header j = some h ∧ P.claims j = some cl ∧ jget (some h) b!"x5c" = none ∧
    jget (some h) b!"x5u" = none ∧ P.jwk (jget (some h) b!"jwk") = some k ∧ P.thumb k = some jkt ∧ Named cl b!"jti" ∧
    claimText cl b!"htm" = some htm ∧ claimText cl b!"htu" = some htu ∧
    claimNumber cl b!"iat" ≤ P.now ∧ P.now ≤ claimNumber cl b!"iat" + maxIat

/-- **C136.** `verify_dpop_proof` accepts exactly the good proofs, and its computations are defined. Missing: that the header is
the only one (`C136_many_false`), limits on the age near the end of the range of times (`C136_age_false`). -/
theorem C136_proof_partial (P : ProofLib) (header : UMap) (headers : Params) (htm htu jkt : Bytes) (maxIat : Int)
    (hh : HoldsParams header headers) (h0 : 0 ≤ maxIat) (h63 : P.now + maxIat < 2 ^ 63)
    (hi : ∀ j cl, P.claims j = some cl → -2 ^ 63 ≤ claimNumber cl b!"iat") :
    ∃ b, dpopProof P header (some htm) (some htu) maxIat (some jkt) = .ok b ∧ (b = true ↔ GoodProof P headers htm htu maxIat jkt) := by
  obtain ⟨o, d1, _, d3⟩ := caseText_first hh b!"DPoP"
  unfold dpopProof
  simp only [d1, Res.ok_bind]
  have bad {p : Prop} (h : ¬ p) : ∃ b, (Res.ok false : Res Bool) = .ok b ∧ (b = true ↔ p) := ⟨false, rfl, by simp [h]⟩
  cases o with
  | none =>
    refine bad ?_
    rintro ⟨v, j, h, cl, k, g1, _⟩
    have := (d3 v).2 g1
    cases this
  | some v =>
    simp only
    have key : GoodProof P headers htm htu maxIat jkt ↔ ∃ j h cl k, P.parse v = some j ∧ P.verify j = true ∧
        P.typ j = some b!"dpop+jwt" ∧
        P.asymmetric j = true ∧ P.header j = some h ∧ P.claims j = some cl ∧ jget (some h) b!"x5c" = none ∧
        jget (some h) b!"x5u" = none ∧ P.jwk (jget (some h) b!"jwk") = some k ∧ P.thumb k = some jkt ∧ Named cl b!"jti" ∧
        claimText cl b!"htm" = some htm ∧ claimText cl b!"htu" = some htu ∧
        claimNumber cl b!"iat" ≤ P.now ∧ P.now ≤ claimNumber cl b!"iat" + maxIat := by
      constructor
      · rintro ⟨v', j, h, cl, k, g1, g⟩
        have := (d3 v').2 g1
        cases this
        exact ⟨j, h, cl, k, g⟩
      · rintro ⟨j, h, cl, k, g⟩
        exact ⟨v, j, h, cl, k, (d3 v).1 rfl, g⟩
    simp only [key]
    clear key
    cases hp : P.parse v with
    | none => exact bad (by rintro ⟨j, h, cl, k, g, _⟩; cases g)
    | some j =>
      simp only [Option.some.injEq, exists_eq_left', exists_and_left]
      cases hv : P.verify j with
      | false => exact bad (by rintro ⟨g, _⟩; cases g)
      | true =>
      by_cases hty : P.typ j = some b!"dpop+jwt"
      · cases has : P.asymmetric j with
        | false => rw [hty]; exact bad (by rintro ⟨_, _, g, _⟩; cases g)
        | true =>
        rw [hty]
        cases hhd : P.header j with
        | none => exact bad (by rintro ⟨_, _, _, h, g, _⟩; cases g)
        | some h =>
        cases hcl : P.claims j with
        | none => exact bad (by rintro ⟨_, _, _, h, _, cl, g, _⟩; cases g)
        | some cl =>
          simp only [Option.some.injEq, exists_eq_left', Bool.not_true, beq_self_eq_true, if_false, true_and, Bool.false_eq_true]
          by_cases hx : ((jget (some h) b!"x5c").isSome || (jget (some h) b!"x5u").isSome) = true
          · rw [if_pos hx]
            refine bad ?_
            rintro ⟨g1, g2, _⟩
            rw [g1, g2] at hx
            cases hx
          rw [if_neg hx]
          rw [Bool.or_eq_true, not_or, Option.not_isSome_iff_eq_none, Option.not_isSome_iff_eq_none] at hx
          cases hk : P.jwk (jget (some h) b!"jwk") with
          | none => exact bad (by rintro ⟨_, _, k, g, _⟩; cases g)
          | some k =>
          simp only [Option.some.injEq, exists_eq_left', hx.1, hx.2, true_and]
          by_cases hj : jlen (jget (some cl) b!"jti") = 0
          · rw [if_pos hj]
            refine bad ?_
            rintro ⟨_, g, _⟩
            rw [← named_iff, hj] at g
            exact absurd g (by decide)
          rw [if_neg hj]
          have hj' := (named_iff cl b!"jti").1 (Nat.pos_of_ne_zero hj)
          by_cases hm : jstr (jget (some cl) b!"htm") = some htm
          · rw [hm, if_neg (by simp)]
            by_cases hu : jstr (jget (some cl) b!"htu") = some htu
            · rw [hu, if_neg (by simp)]
              have hib := hi j cl hcl
              unfold claimNumber at hib ⊢
              by_cases hf : jint (jget (some cl) b!"iat") > P.now
              · rw [if_pos hf]
                refine bad ?_
                rintro ⟨_, _, _, _, g, _⟩
                omega
              rw [if_neg hf]
              have ha : add64 (jint (jget (some cl) b!"iat")) maxIat = .ok (jint (jget (some cl) b!"iat") + maxIat) :=
                if_pos (by omega)
              simp only [ha, Res.ok_bind]
              by_cases ho : jint (jget (some cl) b!"iat") + maxIat < P.now
              · rw [if_pos ho]
                refine bad ?_
                rintro ⟨_, _, _, _, _, g⟩
                omega
              rw [if_neg ho]
              cases hth : P.thumb k with
              | none => exact bad (by rintro ⟨g, _⟩; cases g)
              | some t =>
                refine ⟨_, rfl, ?_⟩
                rw [beq_iff_eq]
                exact ⟨fun g => ⟨g.symm, hj', hm, hu, by omega, by omega⟩, fun g => g.1.symm⟩
            · rw [if_pos (by
                rw [Bool.not_eq_true', beq_eq_false_iff_ne]
                exact fun hc => hu hc.symm)]
              exact bad (by rintro ⟨_, _, _, g, _⟩; exact hu g)
          · rw [if_pos (by
              rw [Bool.not_eq_true', beq_eq_false_iff_ne]
              exact fun hc => hm hc.symm)]
            exact bad (by rintro ⟨_, _, g, _⟩; exact hm g)
      · rw [if_neg (by decide), if_pos (by
          rw [Bool.not_eq_true', beq_eq_false_iff_ne]
          exact hty)]
        exact bad (by rintro ⟨_, g, _⟩; exact hty g)

/-! ## Counterexamples -/

/-- A library in which every token is signed, with these claims; the time is 1000. -/
def lenient (nullSets : Bool) (claims : Json) : Lib :=
  { Jwt := Unit, Key := Unit, nullSets := nullSets, now := 1000, parse := fun _ => some (), verify := fun _ _ => true,
    alg := fun _ => 2, claims := fun _ => some claims, kid := fun _ => none, byKid := fun _ => none }

/-- The token is expected in the header. -/
def headerConfig (nullSets : Bool) (claims : Json) (scope : Option Bytes) : Config (lenient nullSets claims) :=
  { method := 0, scope := scope, alg := 2, realm := none, acceptAccess := true, acceptClient := true }

/-- A request with these headers. -/
def headerReq (hs : Params) : Req :=
  { header := buildMap hs, postBody := UMap.init, url := UMap.init, verb := some b!"GET", urlPath := some b!"/a" }

private theorem buildOne (k v : Bytes) (h : k ≠ []) (hl : NoNul k) (hv : NoNul v ∧ v.length + 2 < 2 ^ 64) :
    HoldsParams (buildMap [(k, some v)]) [(k, some v)] := by
  obtain ⟨m', e1, e2⟩ := holds_put holds_init k (some v) h hl (by intro x hx; cases hx; exact hv)
  have : buildMap [(k, some v)] = m' := by
    unfold buildMap
    simp only [List.foldl_cons, List.foldl_nil, e1]
  rw [this]
  exact e2

/-- The header with a token. -/
def withToken : Params := [(b!"Authorization", some b!"Bearer abc")]

private theorem withToken_holds : HoldsReq (headerReq withToken) withToken [] [] :=
  ⟨buildOne b!"Authorization" b!"Bearer abc" (by decide) (by decide) (by decide), holds_init, holds_init⟩

/-- Claims of a token of a user, live until 1500, with this list of scopes. -/
def userClaims (scope : Bytes) : Json :=
  .obj [(b!"type", .str b!"access_token"), (b!"username", .str b!"u"), (b!"sub", .str b!"u"), (b!"iat", .int 500),
    (b!"expires_in", .int 1000), (b!"exp", .int 1500), (b!"scope", .str scope)]

/-- Claims of a token of a client. -/
def clientClaims : Json :=
  .obj [(b!"type", .str b!"client_token"), (b!"client_id", .str b!"c"), (b!"aud", .str b!"c"), (b!"iat", .int 500),
    (b!"expires_in", .int 1000), (b!"exp", .int 1500), (b!"scope", .str b!"s")]

private theorem split_eq : splitString 0x20 = pieces 0x20 := by
  funext s
  exact splitString_eq _ s

private theorem scope_run (s e : Bytes) (free : Option Json) (he : e ≠ []) (null : Bool)
    (hl : 0 < (commonScopes (pieces 0x20 s) (pieces 0x20 e)).length) :
    checkScope null free (some e) (userClaims s) = .ok (.ok (.arr ((commonScopes (pieces 0x20 s) (pieces 0x20 e)).map .str))) := by
  have : jstr (jget (some (userClaims s)) b!"scope") = some s := rfl
  unfold checkScope
  rw [this, split_eq]
  simp only [Option.getD_some]
  rw [if_pos (by simpa using he), if_pos hl]

/-- **C132, counterexample.** With a space after the required scope, a token with a space after another scope gets through. -/
theorem C132_scope_false :
    ¬ Enough (some b!"admin ") (userClaims b!"user ") ∧
    (∃ out, oauth2 (lenient true (userClaims b!"user ")) (some (headerConfig true (userClaims b!"user ") (some b!"admin ")))
      (headerReq withToken) {} = .ok out ∧ out.code = 0) ∧
    ∃ out, oidc (lenient true (userClaims b!"user ")) (some (headerConfig true (userClaims b!"user ") (some b!"admin ")))
      (headerReq withToken) {} = .ok out ∧ out.code = 0 := by
  refine ⟨?_, ?_, ?_⟩
  · rintro (h | ⟨s, w, h1, h2, h3⟩)
    · revert h; decide
    · cases h1
      have e2 : scopes b!"user " = [b!"user"] := by decide
      have e3 : scopes ((some b!"admin ").getD []) = [b!"admin"] := by decide
      rw [e2, List.mem_singleton] at h2
      rw [e3, List.mem_singleton, h2] at h3
      revert h3
      decide
  · unfold oauth2
    have e1 : bearerToken true 0 (headerReq withToken) = .ok (some b!"abc") := by decide
    have e2 : signature _ (headerConfig true (userClaims b!"user ") (some b!"admin ")) b!"abc" = some (userClaims b!"user ") := rfl
    have e3 : validity _ (headerConfig true (userClaims b!"user ") (some b!"admin ")) (userClaims b!"user ") = .ok true := rfl
    have e4 := scope_run b!"user " b!"admin " (some (.arr [])) (by decide) true (by decide)
    simp only [headerConfig] at e2 e3 ⊢
    simp only [e1, e2, e3, Res.ok_bind, if_true]
    rw [show (lenient true (userClaims b!"user ")).nullSets = true from rfl, e4]
    exact ⟨_, rfl, rfl⟩
  · unfold oidc
    have e1 : bearerToken false 0 (headerReq withToken) = .ok (some b!"abc") := by decide
    have e2 : signatureOidc _ (headerConfig true (userClaims b!"user ") (some b!"admin ")) b!"abc" = some (userClaims b!"user ") := rfl
    have e3 : validityOidc _ (headerConfig true (userClaims b!"user ") (some b!"admin ")) (userClaims b!"user ") = true := rfl
    have e4 := scope_run b!"user " b!"admin " (jget (some (userClaims b!"user ")) b!"scope") (by decide) true (by decide)
    simp only [headerConfig] at e2 e3 ⊢
    simp only [e1, e2, e3, Res.ok_bind, if_true]
    rw [show (lenient true (userClaims b!"user ")).nullSets = true from rfl, e4]
    exact ⟨_, rfl, rfl⟩

/-- **C133, counterexample.** A token of a client, of an accepted type and with nothing required, is answered with an error. -/
theorem C133_client_false :
    LiveOauth2 _ (headerConfig true clientClaims none) clientClaims ∧ LiveOidc _ (headerConfig true clientClaims none) clientClaims ∧
    Enough none clientClaims ∧
    (∃ out, oauth2 _ (some (headerConfig true clientClaims none)) (headerReq withToken) {} = .ok out ∧ out.code = 4) ∧
    ∃ out, oidc _ (some (headerConfig true clientClaims none)) (headerReq withToken) {} = .ok out ∧ out.code = 4 :=
  ⟨(validity_iff (v := true) rfl).1 rfl, (validityOidc_iff _ _ _).1 rfl, .inl rfl, ⟨_, rfl, rfl⟩, ⟨_, rfl, rfl⟩⟩

/-- Claims of a token of a user without scopes. -/
def scopelessClaims : Json :=
  .obj [(b!"type", .str b!"access_token"), (b!"username", .str b!"u"), (b!"sub", .str b!"u"), (b!"iat", .int 500),
    (b!"expires_in", .int 1000), (b!"exp", .int 1500)]

/-- **C133, counterexample.** With nothing required, a token without scopes is refused by the callback for JWT access tokens; if
`split_string` leaves the array alone for NULL, both callbacks free an uninitialised pointer. -/
theorem C133_scopeless_false :
    LiveOauth2 _ (headerConfig false scopelessClaims none) scopelessClaims ∧
    LiveOidc _ (headerConfig true scopelessClaims none) scopelessClaims ∧ Enough none scopelessClaims ∧
    (∃ out, oidc _ (some (headerConfig true scopelessClaims none)) (headerReq withToken) {} = .ok out ∧ out.code = 3) ∧
    oauth2 _ (some (headerConfig false scopelessClaims none)) (headerReq withToken) {} = .ub ∧
    oidc _ (some (headerConfig false scopelessClaims none)) (headerReq withToken) {} = .ub :=
  ⟨(validity_iff (v := true) rfl).1 rfl, (validityOidc_iff _ _ _).1 rfl, .inl rfl, ⟨_, rfl, rfl⟩, rfl, rfl⟩

/-- Claims of a token that lives for ever. -/
def eternalClaims : Json :=
  .obj [(b!"type", .str b!"access_token"), (b!"username", .str b!"u"), (b!"iat", .int 500),
    (b!"expires_in", .int (2 ^ 63 - 1)), (b!"scope", .str b!"s")]

/-- **C133, counterexample.** The time of expiry of a token may overflow. -/
theorem C133_overflow_false :
    LiveOauth2 _ (headerConfig true eternalClaims none) eternalClaims ∧
    oauth2 _ (some (headerConfig true eternalClaims none)) (headerReq withToken) {} = .ub :=
  ⟨⟨by decide, .inl ⟨rfl, rfl, b!"u", rfl, by decide⟩⟩, rfl⟩

/-- **C133, counterexample.** The scheme is expected as "Bearer", while it is not case sensitive in HTTP. -/
theorem C133_scheme_false :
    ∃ out, oauth2 _ (some (headerConfig true (userClaims b!"s") none)) (headerReq [(b!"Authorization", some b!"bearer abc")]) {} =
      .ok out ∧ out.code = 3 := ⟨_, rfl, rfl⟩

/-- **C134, counterexample.** An expired token is answered with "invalid_request", where RFC 6750 asks for "invalid_token". -/
theorem C134_expired_false : ∃ out v, oauth2 { lenient true (userClaims b!"s") with now := 2000 }
    (some { method := 0, scope := none, alg := 2, realm := none, acceptAccess := true, acceptClient := true })
    (headerReq withToken) {} = .ok out ∧ out.code = 3 ∧ Client.getText out.resp.header b!"WWW-Authenticate" = .ok (some v) ∧
      readChallenge v = some (b!"Bearer", [(b!"error", b!"invalid_request"), (b!"error_description", b!"Internal server error")]) :=
  ⟨_, challenge none b!"invalid_request" b!"Internal server error", rfl, rfl, by decide +kernel, by decide +kernel⟩

/-- **C134, counterexample.** A request without a token is answered with "invalid_token", where RFC 6750 asks for no error code. -/
theorem C134_missing_false : ∃ out v, oauth2 _ (some (headerConfig true (userClaims b!"s") none)) (headerReq []) {} = .ok out ∧
    out.code = 3 ∧ Client.getText out.resp.header b!"WWW-Authenticate" = .ok (some v) ∧
      readChallenge v = some (b!"Bearer", [(b!"error", b!"invalid_token"), (b!"error_description", b!"The access token is missing")]) :=
  ⟨_, challenge none b!"invalid_token" b!"The access token is missing", rfl, rfl, by decide +kernel, by decide +kernel⟩

/-- **C134, counterexample.** With a realm of two words, no client can read the challenge. -/
theorem C134_realm_false : ∃ out v, oauth2 _ (some { headerConfig true (userClaims b!"s") none with realm := some b!"a b" })
    (headerReq []) {} = .ok out ∧ out.code = 3 ∧ Client.getText out.resp.header b!"WWW-Authenticate" = .ok (some v) ∧
      readChallenge v = none :=
  ⟨_, challenge (some b!"a b") b!"invalid_token" b!"The access token is missing", rfl, rfl, by decide +kernel, by decide +kernel⟩

/-- Claims of a token bound to a key. -/
def boundClaims : Json := .obj [(b!"cnf", .obj [(b!"jkt", .str b!"k")])]

/-- A configuration for iddawc under which every token and every proof is valid. -/
def openConfig (claims : Json) : IdConfig :=
  { method := 0, scope := none, realm := none, root := some b!"http://h/", locks := true, verify := fun _ => some claims,
    proof := fun _ _ _ _ _ => true }

/-- **C134, counterexample.** A token bound to a key that comes without proof is refused without any challenge. -/
theorem C134_silent_false : ∃ out, iddawc (some (openConfig boundClaims)) (headerReq withToken) {} = .ok out ∧ out.code = 3 ∧
    out.resp.header.nb = 0 := ⟨_, rfl, rfl, rfl⟩

/-- **C135, counterexample.** A form is not recognised when the header is spelled content-type. -/
theorem C135_spelling_false :
    ∃ out, iddawc (some { openConfig (.obj []) with method := 1 })
      { headerReq [(b!"content-type", some b!"application/x-www-form-urlencoded")] with
        postBody := buildMap [(b!"access_token", some b!"abc")] } {} = .ok out ∧ out.code = 3 :=
  ⟨_, rfl, rfl⟩

/-- rhonabwy for one proof, made at time 1 for GET on u; the time is 1. -/
def proofLib : ProofLib :=
  { Jwt := Unit, Jwk := Unit, now := 1, parse := fun v => if v == b!"good" then some () else none, verify := fun _ => true,
    typ := fun _ => some b!"dpop+jwt",
    asymmetric := fun _ => true, header := fun _ => some (.obj [(b!"jwk", .obj [])]),
    claims := fun _ => some (.obj [(b!"jti", .str b!"1"), (b!"htm", .str b!"GET"), (b!"htu", .str b!"u"), (b!"iat", .int 1)]),
    jwk := fun j => j.map (fun _ => ()), thumb := fun _ => some b!"k" }

/-- **C136, counterexample.** A request with two proofs is accepted, though RFC 9449 asks for exactly one. -/
theorem C136_many_false : dpopProof proofLib (buildMap [(b!"DPoP", some b!"good"), (b!"dpop", some b!"bad")]) (some b!"GET")
    (some b!"u") 60 (some b!"k") = .ok true := rfl

/-- **C136, counterexample.** The largest age overflows. -/
theorem C136_age_false : dpopProof proofLib (buildMap [(b!"DPoP", some b!"good")]) (some b!"GET")
    (some b!"u") (2 ^ 63 - 1) (some b!"k") = .ub := rfl

/-! ## The hypotheses can be met -/

example : HoldsReq (headerReq withToken) withToken [] [] ∧ CarriesPlainly 0 withToken [] [] b!"Bearer" b!"abc" ∧
    TidyScopes (some b!"s x") ∧
    Signed _ (headerConfig true (userClaims b!"s") (some b!"s x")) b!"abc" (userClaims b!"s") ∧
    SignedByOne _ (headerConfig true (userClaims b!"s") (some b!"s x")) b!"abc" (userClaims b!"s") ∧
    LiveOauth2 _ (headerConfig true (userClaims b!"s") (some b!"s x")) (userClaims b!"s") ∧
    LiveOidc _ (headerConfig true (userClaims b!"s") (some b!"s x")) (userClaims b!"s") ∧
    Enough (some b!"s x") (userClaims b!"s") ∧ WordRealm (some b!"home") ∧ HoldsResp {} [] [] [] :=
  ⟨withToken_holds, .inl ⟨rfl, [], _, [], rfl, rfl, rfl, by simp⟩, .inr (by decide), (signature_iff _ _ _ _).1 rfl,
    (signatureOidc_iff _ _ _ _).1 rfl, (validity_iff (v := true) rfl).1 rfl, (validityOidc_iff _ _ _).1 rfl,
    .inr ⟨b!"s", b!"s", rfl, by decide, by decide⟩, by intro x hx; cases hx; decide, ⟨holds_init, rfl, by decide, by simp⟩⟩

example : Possession (openConfig boundClaims) (headerReq [(b!"DPoP", some b!"p")]) [(b!"DPoP", some b!"p")] true b!"abc" boundClaims ∧
    Possession (openConfig (.obj [])) (headerReq []) [] false b!"abc" (.obj []) :=
  ⟨.inl ⟨rfl, _, b!"p", _, _, rfl, ⟨[], _, [], rfl, rfl, rfl, by simp⟩, rfl, rfl⟩, .inr ⟨rfl, rfl, by simp [Absent]⟩⟩

example : HoldsParams (buildMap [(b!"DPoP", some b!"good")]) [(b!"DPoP", some b!"good")] ∧
    GoodProof proofLib [(b!"DPoP", some b!"good")] b!"GET" b!"u" 60 b!"k" :=
  ⟨buildOne b!"DPoP" b!"good" (by decide) (by decide) (by decide), _, (), _, _, (), ⟨[], _, [], rfl, rfl, rfl, by simp⟩, rfl, rfl, rfl, rfl, rfl,
    rfl, rfl, rfl, rfl, rfl, ⟨b!"1", rfl, by decide⟩, rfl, rfl, by decide, by decide⟩

end Verif.Props
