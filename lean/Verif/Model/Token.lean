import Verif.Model.Answer
import Verif.Model.Handshake
import Verif.Spec.Json
/-!
# Model of the callbacks that check access tokens

* `callback_check_glewlwyd_access_token`, example_callbacks/oauth2_bearer/glewlwyd_resource.c:54–232
* `callback_check_glewlwyd_oidc_access_token` and `verify_dpop_proof`, example_callbacks/jwt_profile/oidc_resource.c:55–366
* `callback_check_jwt_profile_access_token`, example_callbacks/iddawc_jwt_profile/iddawc_resource.c:57–196

Parameters: rhonabwy and iddawc (parsing, signatures, keys, claims, proofs), the clock, and what orcania's `split_string` leaves
in `*return_array` for a NULL string. Simplifications: allocations succeed; the strings in tokens and configuration are UTF-8
without NUL, so jansson takes them; the log calls and the address in them are left out; jansson is `Verif.Spec.Json`. `response->shared_data` is returned apart from the response.
-/
namespace Verif.Token
open Verif.UMap Verif.Message Verif.Handshake Verif.Printf
open Verif.Spec.Json

/-! ## Requests, answers -/

/-- The parts of `struct _u_request` read here. -/
structure Req where
  header : UMap
  postBody : UMap
  url : UMap
  verb : Option Bytes
  urlPath : Option Bytes

/-- What a callback leaves: its code, the response, `response->shared_data` if it was set. -/
structure Out where
  code : Int
  resp : Response
  shared : Option Json

/-- `u_map_get_case`, read as a string. -/
def caseText (m : UMap) (k : Bytes) : Res (Option Bytes) := do
  match ← UMap.getCase m (some k) with
  | none => return none
  | some b => do
    let s ← readStr b
    return some s

/-- The value of WWW-Authenticate, e.g. glewlwyd_resource.c:195. -/
def challenge (realm : Option Bytes) (error description : Bytes) : Bytes :=
  b!"Bearer " ++ (match realm with
    | none => []
    | some r => b!"realm=" ++ r ++ b!",") ++
    b!"error=\"" ++ error ++ b!"\",error_description=\"" ++ description ++ b!"\""

/-- `response_value = msprintf(..); u_map_put(response->map_header, "WWW-Authenticate", response_value);`, e.g.
glewlwyd_resource.c:195–197; the callback then returns U_CALLBACK_UNAUTHORIZED. -/
def refuse (realm : Option Bytes) (error description : Bytes) (r : Response) : Res Out := do
  let (_, h) ← UMap.put r.header (some b!"WWW-Authenticate") (some (challenge realm error description))
  return { code := Dispatch.cbUnauthorized, resp := { r with header := h }, shared := none }

/-- `o_strstr(Content-Type, "application/x-www-form-urlencoded") != NULL`, glewlwyd_resource.c:180. -/
def isForm : Option Bytes → Bool
  | none => false
  | some v => contains b!"application/x-www-form-urlencoded" v

/-- The header Content-Type, looked up in any case (glewlwyd_resource.c:180) or not (oidc_resource.c:194). -/
def contentType (anyCase : Bool) (q : Req) : Res (Option Bytes) :=
  if anyCase then caseText q.header b!"Content-Type" else Client.getText q.header b!"Content-Type"

/-- Where the token is taken from, glewlwyd_resource.c:171–187 and oidc_resource.c:185–201. -/
def bearerToken (anyCase : Bool) (method : Nat) (q : Req) : Res (Option Bytes) :=
  match method with
  | 0 => do
    match ← caseText q.header b!"Authorization" with
    | none => return none
    | some v => return if (b!"Bearer ").isPrefixOf v then some (v.drop 7) else none
  | 1 => do
    let ct ← contentType anyCase q
    if isForm ct then Client.getText q.postBody b!"access_token" else return none
  | 2 => Client.getText q.url b!"access_token"
  | _ => .ok none

/-! ## Scopes -/

/-- `string_array_has_value`. -/
def hasValue (l : List Bytes) (x : Bytes) : Bool := l.any (fun v => v == x)

/-- The scopes that are expected and that the token has, glewlwyd_resource.c:65–69. -/
def commonScopes (token expected : List Bytes) : List Bytes := expected.filter (fun e => hasValue token e)

/-- Result of the check of the scopes: G_TOKEN_OK with the scopes, G_TOKEN_ERROR_INSUFFICIENT_SCOPE, anything else. -/
inductive ScopeRes where
  | ok (j : Json)
  | insufficient
  | internal

/-- `access_token_check_scope` for a token that is not NULL, glewlwyd_resource.c:54–91 and oidc_resource.c:55–92; they differ in the
result when nothing is expected (`free`, NULL when `json_pack` fails). When the token has no string "scope" the array
`scope_list_token` is not initialised unless `split_string` does that (`nullSets`), and freed at the end. -/
def checkScope (nullSets : Bool) (free : Option Json) (expected : Option Bytes) (claims : Json) : Res ScopeRes :=
  match jstr (jget (some claims) b!"scope") with
  | none =>
    if nullSets then
      if (expected.getD []).length ≠ 0 then .ok .internal
      else match free with
        | some j => .ok (.ok j)
        | none => .ok .internal
    else .ub
  | some s =>
    if (expected.getD []).length ≠ 0 then
      let final := commonScopes (splitString 0x20 s) (splitString 0x20 (expected.getD []))
      if final.length > 0 then .ok (.ok (.arr (final.map .str))) else .ok .insufficient
    else match free with
      | some j => .ok (.ok j)
      | none => .ok .internal

/-! ## The callback for OAuth2 tokens -/

/-- rhonabwy, orcania and the clock. `verify jwt none` uses the keys in the token's structure, which is a copy of the one in the
configuration. -/
structure Lib where
  Jwt : Type
  Key : Type
  nullSets : Bool
  now : Int
  parse : Bytes → Option Jwt              -- r_jwt_advanced_parse(.., R_PARSE_NONE, 0)
  verify : Jwt → Option Key → Bool        -- r_jwt_verify_signature
  alg : Jwt → Nat                         -- r_jwt_get_sign_alg
  claims : Jwt → Option Json              -- r_jwt_get_full_claims_json_t
  kid : Jwt → Option Bytes                -- r_jwt_get_header_str_value(.., "kid")
  byKid : Bytes → Option Key              -- r_jwks_get_by_kid(jwt->jwks_pubkey_sign, ..)

/-- `struct _glewlwyd_resource_config` and `struct _oidc_resource_config`; the keys are in `Lib`. -/
structure Config (L : Lib) where
  method : Nat
  scope : Option Bytes
  alg : Nat
  realm : Option Bytes
  acceptAccess : Bool
  acceptClient : Bool
  dflt : Option L.Key := none             -- jwk_verify_default

/-- A sum of two `json_int_t`: overflow is undefined behaviour. -/
def add64 (a b : Int) : Res Int := if -2 ^ 63 ≤ a + b ∧ a + b < 2 ^ 63 then .ok (a + b) else .ub

/-- `access_token_check_signature`, glewlwyd_resource.c:138–158. -/
def signature (L : Lib) (c : Config L) (token : Bytes) : Option Json :=
  match L.parse token with
  | none => none
  | some j => if L.verify j none && L.alg j == c.alg then L.claims j else none

/-- The token is of an accepted type and names its subject, glewlwyd_resource.c:109–121 and oidc_resource.c:108–120. -/
def typeOk (access client : Bool) (user app : Bytes) (claims : Json) : Bool :=
  match jstr (jget (some claims) b!"type") with
  | none => false
  | some t => access && b!"access_token" == t && decide (0 < jlen (jget (some claims) user)) ||
      client && b!"client_token" == t && decide (0 < jlen (jget (some claims) app))

/-- `access_token_check_validity` returns G_TOKEN_OK, glewlwyd_resource.c:99–133; otherwise it returns
G_TOKEN_ERROR_INVALID_REQUEST. -/
def validity (L : Lib) (c : Config L) (claims : Json) : Res Bool := do
  let g := jget (some claims)
  let expiration ← add64 (jint (g b!"iat")) (jint (g b!"expires_in"))
  return decide (L.now < expiration) && typeOk c.acceptAccess c.acceptClient b!"username" b!"client_id" claims

/-- `callback_check_glewlwyd_access_token`, glewlwyd_resource.c:163–232. -/
def oauth2 (L : Lib) (cfg : Option (Config L)) (q : Req) (r : Response) : Res Out :=
  match cfg with
  | none => .ok { code := Dispatch.cbUnauthorized, resp := r, shared := none }
  | some c => do
    match ← bearerToken true c.method q with
    | none => refuse c.realm b!"invalid_token" b!"The access token is missing" r
    | some t =>
      match signature L c t with
      | none => refuse c.realm b!"invalid_request" b!"The access token is invalid" r
      | some claims => do
        if ← validity L c claims then
          match ← checkScope L.nullSets (some (.arr [])) c.scope claims with
          | .insufficient => refuse c.realm b!"insufficient_scope" b!"The scope is invalid" r
          | .internal => refuse c.realm b!"invalid_request" b!"Internal server error" r
          | .ok scopes =>
            -- json_pack("{sssO}", ..) fails for a NULL string, ulfius_set_response_shared_data for NULL
            match jstr (jget (some claims) b!"username") with
            | none => return { code := Dispatch.cbError, resp := r, shared := none }
            | some u => return { code := Dispatch.cbContinue, resp := r,
                                 shared := some (.obj [(b!"username", .str u), (b!"scope", scopes)]) }
        else refuse c.realm b!"invalid_request" b!"Internal server error" r

/-! ## The callback for JWT access tokens -/

/-- `access_token_check_signature`, oidc_resource.c:136–172. -/
def signatureOidc (L : Lib) (c : Config L) (token : Bytes) : Option Json :=
  match L.parse token with
  | none => none
  | some j =>
    match L.kid j with
    | some k =>
      match L.byKid k with
      | none => none
      | some key => if L.verify j (some key) && L.alg j == c.alg then L.claims j else none
    | none => if L.verify j c.dflt && L.alg j == c.alg then L.claims j else none

/-- `access_token_check_validity`, oidc_resource.c:101–131, as above. -/
def validityOidc (L : Lib) (c : Config L) (claims : Json) : Bool :=
  decide (L.now < jint (jget (some claims) b!"exp")) && typeOk c.acceptAccess c.acceptClient b!"sub" b!"aud" claims

/-- A member that is left out when the value is NULL, `"sO*"` of `json_pack` and oidc_resource.c:219–227. -/
def member (k : Bytes) : Option Json → List (Bytes × Json)
  | none => []
  | some j => [(k, j)]

/-- `response->shared_data`, oidc_resource.c:218–227. -/
def sharedOidc (claims scopes : Json) : Option Json :=
  let g := jget (some claims)
  match jstr (g b!"sub") with
  | none => none
  | some s => some (.obj ([(b!"sub", .str s), (b!"scope", scopes)] ++ member b!"jkt" (jget (g b!"cnf") b!"jkt") ++
      member b!"aud" (g b!"aud") ++ member b!"client_id" (g b!"client_id") ++ member b!"claims" (g b!"claims")))

/-- `callback_check_glewlwyd_oidc_access_token`, oidc_resource.c:177–255. -/
def oidc (L : Lib) (cfg : Option (Config L)) (q : Req) (r : Response) : Res Out :=
  match cfg with
  | none => .ok { code := Dispatch.cbUnauthorized, resp := r, shared := none }
  | some c => do
    match ← bearerToken false c.method q with
    | none => refuse c.realm b!"invalid_token" b!"The access token is missing" r
    | some t =>
      match signatureOidc L c t with
      | none => refuse c.realm b!"invalid_request" b!"The access token is invalid" r
      | some claims =>
        if validityOidc L c claims then do
          match ← checkScope L.nullSets (jget (some claims) b!"scope") c.scope claims with
          | .insufficient => refuse c.realm b!"insufficient_scope" b!"The scope is invalid" r
          | .internal => refuse c.realm b!"invalid_request" b!"Internal server error" r
          | .ok scopes =>
            match sharedOidc claims scopes with
            | none => return { code := Dispatch.cbError, resp := r, shared := none }
            | some j => return { code := Dispatch.cbContinue, resp := r, shared := some j }
        else refuse c.realm b!"invalid_request" b!"Internal server error" r

/-! ## The callback based on iddawc -/

/-- `struct _iddawc_resource_config`, with iddawc: `verify` is `i_verify_jwt_access_token` with the issuer's keys and the
configured `aud`, giving the claims; `proof` is `i_verify_dpop_proof(dpop, verb, htu, dpop_max_iat, jkt, token)`; `locks` tells
whether the mutex is taken. -/
structure IdConfig where
  method : Nat
  scope : Option Bytes
  realm : Option Bytes
  root : Option Bytes                     -- resource_url_root
  locks : Bool
  verify : Bytes → Option Json
  proof : Option Bytes → Option Bytes → Bytes → Option Bytes → Bytes → Bool

/-- `get_auth_header_token`, iddawc_resource.c:57–67: the token and `is_header_dpop`. -/
def authToken (v : Bytes) : Option (Bytes × Bool) :=
  if (b!"Bearer ").isPrefixOf v then some (v.drop 7, false)
  else if (b!"DPoP ").isPrefixOf v then some (v.drop 5, true)
  else none

/-- Where the token is taken from, iddawc_resource.c:125–139. -/
def idToken (method : Nat) (q : Req) : Res (Option (Bytes × Bool)) :=
  match method with
  | 0 => do
    let n ← UMap.countKeysCase q.header (some b!"Authorization")
    if n = 1 then do
      match ← caseText q.header b!"Authorization" with
      | none => return none
      | some v => return authToken v
    else return none
  | 1 => do
    let ct ← Client.getText q.header b!"Content-Type"
    if isForm ct then do
      let t ← Client.getText q.postBody b!"access_token"
      return t.map (fun t => (t, false))
    else return none
  | 2 => do
    let t ← Client.getText q.url b!"access_token"
    return t.map (fun t => (t, false))
  | _ => .ok none

/-- `jwt_profile_access_token_check_scope`, iddawc_resource.c:73–111: here both arrays start as NULL. -/
def idScope (expected : Option Bytes) (claims : Json) : ScopeRes :=
  if (expected.getD []).length ≠ 0 then
    match jstr (jget (some claims) b!"scope") with
    | none => .internal
    | some s =>
      if (commonScopes (splitString 0x20 s) (splitString 0x20 (expected.getD []))).length > 0 then .ok .other
      else .insufficient
  else .ok .other

/-- `request->url_path+1`, read as a string. -/
def pathTail : Option Bytes → Res Bytes
  | some (_ :: t) => .ok t
  | _ => .ub

/-- `callback_check_jwt_profile_access_token`, iddawc_resource.c:116–196. -/
def iddawc (cfg : Option IdConfig) (q : Req) (r : Response) : Res Out := do
  let dpop ← caseText q.header b!"DPoP"
  let count ← UMap.countKeysCase q.header (some b!"DPoP")
  match cfg with
  | none => return { code := Dispatch.cbUnauthorized, resp := r, shared := none }
  | some c =>
    match ← idToken c.method q with
    | none => refuse c.realm b!"invalid_token" b!"The access token is missing" r
    | some (t, isDpop) =>
      if t.isEmpty then refuse c.realm b!"invalid_token" b!"The access token is missing" r
      else if c.locks then
        match c.verify t with
        | none => refuse c.realm b!"invalid_request" b!"The access token is invalid" r
        | some claims =>
          match idScope c.scope claims with
          | .insufficient => refuse c.realm b!"insufficient_scope" b!"The scope is invalid" r
          | .internal => refuse c.realm b!"invalid_request" b!"Internal server error" r
          | .ok _ =>
            let jkt := jget (jget (some claims) b!"cnf") b!"jkt"
            if isDpop && jkt.isSome && dpop.isSome && count == 1 then do
              let tail ← pathTail q.urlPath
              if c.proof dpop q.verb (str c.root ++ tail) (jstr jkt) t then
                return { code := Dispatch.cbContinue, resp := r, shared := some claims }
              else refuse c.realm b!"invalid_request" b!"The DPoP token is invalid" r
            else if !isDpop && jkt.isNone && dpop.isNone then
              return { code := Dispatch.cbContinue, resp := r, shared := some claims }
            else return { code := Dispatch.cbUnauthorized, resp := r, shared := none }
      else refuse c.realm b!"invalid_request" b!"Internal server error" r

/-! ## Proofs of possession -/

/-- rhonabwy for a proof: the header `jwk` is imported by `r_jwt_parse`, and `verify` uses it. -/
structure ProofLib where
  Jwt : Type
  Jwk : Type
  now : Int
  parse : Bytes → Option Jwt              -- r_jwt_parse(.., R_FLAG_IGNORE_REMOTE)
  verify : Jwt → Bool                     -- r_jwt_verify_signature(.., NULL, R_FLAG_IGNORE_REMOTE)
  typ : Jwt → Option Bytes                -- r_jwt_get_header_str_value(.., "typ")
  asymmetric : Jwt → Bool                 -- the algorithm is one of those in lines 279–280
  header : Jwt → Option Json
  claims : Jwt → Option Json
  jwk : Option Json → Option Jwk          -- r_jwk_import_from_json_t
  thumb : Jwk → Option Bytes              -- r_jwk_thumbprint(.., R_JWK_THUMB_SHA256, ..)

/-- `verify_dpop_proof` returns G_TOKEN_OK, oidc_resource.c:260–366. The claims are read with `r_jwt_get_claim_str_value` and
`r_jwt_get_claim_int_value`, which are `json_string_value` and `json_integer_value` on the claims. -/
def dpopProof (P : ProofLib) (header : UMap) (htm htu : Option Bytes) (maxIat : Int) (jkt : Option Bytes) : Res Bool := do
  match ← caseText header b!"DPoP" with
  | none => return false
  | some v =>
    match P.parse v with
    | none => return false
    | some j =>
      if !P.verify j then return false
      else if !(P.typ j == some b!"dpop+jwt") then return false
      else if !P.asymmetric j then return false
      else
        match P.header j, P.claims j with
        | some h, some cl =>
          let g := jget (some cl)
          if (jget (some h) b!"x5c").isSome || (jget (some h) b!"x5u").isSome then return false
          else match P.jwk (jget (some h) b!"jwk") with
            | none => return false
            | some k =>
              if jlen (g b!"jti") = 0 then return false
              else if !(htm == jstr (g b!"htm")) then return false
              else if !(htu == jstr (g b!"htu")) then return false
              else if jint (g b!"iat") > P.now then return false
              else do
                let limit ← add64 (jint (g b!"iat")) maxIat
                if limit < P.now then return false
                else match P.thumb k with
                  | none => return false
                  | some t => return jkt == some t
        | _, _ => return false

end Verif.Token
