import Verif.Model.Token
/-!
# Model of setting up the token callback based on iddawc, `example_callbacks/iddawc_jwt_profile/iddawc_resource.c:198–230`

Every allocation of `i_jwt_profile_access_token_init_config` may fail. The callback itself is `Token.iddawc`.

Simplifications: iddawc is a parameter; keys and issuer of the session are set later (`i_jwt_profile_access_token_load_config`, `_load_jwks`) and are part of it.
`config` is not NULL.
-/
namespace Verif.IdSetup
open Verif.Token
open Verif.Message (Response)
open Verif.Spec.Json

/-- What the program asks for. -/
structure Asked where
  method : Nat
  realm : Option Bytes
  aud : Option Bytes
  scope : Option Bytes
  root : Option Bytes
  maxIat : Int

/-- iddawc with the keys of the issuer: `i_verify_jwt_access_token(session, aud)` and `i_verify_dpop_proof`. -/
structure Lib where
  verify : Option Bytes → Bytes → Option Json
  proof : Int → Option Bytes → Option Bytes → Bytes → Option Bytes → Bytes → Bool

/-- Which steps succeed: the four `o_strdup` (204–207), `o_malloc` (210), `i_init_session` (211), `pthread_mutex_init` (214). -/
structure Mem where
  realm : Bool := true
  aud : Bool := true
  scope : Bool := true
  root : Bool := true
  session : Bool := true
  start : Bool := true
  mutex : Bool := true
  deriving DecidableEq, Repr

/-- `I_TOKEN_OK` and `I_TOKEN_ERROR_INTERNAL`. -/
inductive Code where
  | ok | internal
  deriving DecidableEq, Repr

/-- `struct _iddawc_resource_config`, without the session. -/
structure Config where
  method : Nat
  realm : Option Bytes
  aud : Option Bytes
  scope : Option Bytes
  root : Option Bytes
  maxIat : Int

/-- `o_strdup`. -/
def dup (ok : Bool) (s : Option Bytes) : Option Bytes := if ok then s else none

/-- `i_jwt_profile_access_token_init_config`, 198–230. -/
def init (mem : Mem) (a : Asked) : Code × Config :=
  let c := { method := a.method, realm := dup mem.realm a.realm, aud := dup mem.aud a.aud, scope := dup mem.scope a.scope,
             root := dup mem.root a.root, maxIat := a.maxIat }
  if mem.session then
    if mem.start then
      if mem.mutex then (.ok, c) else (.internal, c)
    else (.internal, c)
  else (.internal, c)

/-- The configuration as the callback sees it, 116–196. -/
def view (L : Lib) (c : Config) : IdConfig :=
  { method := c.method, scope := c.scope, realm := c.realm, root := c.root, locks := true, verify := L.verify c.aud, proof := L.proof c.maxIat }

/-- The callback of a program that uses the configuration if, and only if, it could be made. -/
def serve (mem : Mem) (L : Lib) (a : Asked) (q : Req) (r : Response) : Option (Res Out) :=
  match init mem a with
  | (.ok, c) => some (iddawc (some (view L c)) q r)
  | (.internal, _) => none

end Verif.IdSetup
