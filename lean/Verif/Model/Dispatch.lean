import Verif.Basic
/-!
# Model of the callback chain of `ulfius_webservice_dispatcher`

src/ulfius.c:592–1054: what happens once the request is complete. The callbacks are arbitrary functions: what they
do to the response (and to anything else, `user`) may depend on everything that happened before.

Simplifications: allocations succeed, `MHD_create_response_*` does not return NULL, the websocket handshake
(src/ulfius.c:667–836) is a parameter `wsEnd` (its conditions are modelled in `Verif.Model.Handshake`), whether
libmicrohttpd accepts the headers and cookies of a response is the parameter `headersOk`.
-/
namespace Verif.Dispatch

/-- Return values of callbacks, include/ulfius.h. -/
def cbContinue : Int := 0
/-- U_CALLBACK_IGNORE -/
def cbIgnore : Int := 1
/-- U_CALLBACK_COMPLETE -/
def cbComplete : Int := 2
/-- U_CALLBACK_UNAUTHORIZED -/
def cbUnauthorized : Int := 3
/-- U_CALLBACK_ERROR -/
def cbError : Int := 4

/-- What the dispatcher looks at in the response; `user` is everything else. -/
structure World (σ : Type) where
  status : Nat
  stream : Bool                 -- response->stream_callback != NULL
  ws : Bool                     -- a websocket callback was set
  realm : Option Bytes          -- response->auth_realm
  user : σ

/-- A callback gets `request->callback_position` and the world, returns its code and the new world. -/
abbrev Callback (σ : Type) := Nat → World σ → Int × World σ

/-- Who was called. -/
inductive Who where
  | ep (i : Nat)
  | dflt
  deriving DecidableEq, Repr

/-- Record of one call, for stating properties; the dispatcher never reads it. -/
structure Ev (σ : Type) where
  who : Who
  pos : Nat
  before : World σ
  ret : Int
  after : World σ

/-- How the websocket handshake ended: upgrade response built (src/ulfius.c:752–776), upgrade response built but its
headers were refused (769–772), refused with 400 (802–829), failed with 500 (778–800, 830–843). -/
inductive WsEnd where
  | upgraded | headersRefused | refused | failed
  deriving DecidableEq, Repr

/-- Parameters: instance configuration and library behaviour. -/
structure Cfg (σ : Type) where
  wsEnd : World σ → WsEnd
  headersOk : World σ → Bool
  realm : Option Bytes          -- u_instance->default_auth_realm
  streamOk : World σ → Bool     -- MHD_create_response_from_callback does not return NULL

/-- Local variables of the dispatcher. -/
structure St (σ : Type) where
  w : World σ
  pos : Nat                     -- request->callback_position
  trace : List (Ev σ)
  resp : Bool                   -- mhd_response != NULL
  unauth : Bool                 -- inner_error == U_CALLBACK_UNAUTHORIZED
  realm : Option Bytes          -- auth_realm
  upgrade : Bool                -- upgrade_protocol

variable {σ : Type}

/-- Call a callback: src/ulfius.c:645–648; the fallback call of the default endpoint (937) does not count. -/
def call (who : Who) (cb : Callback σ) (s : St σ) : Int × St σ :=
  let (ret, w) := cb s.pos s.w
  (ret, { s with
    w := w
    pos := if ret != cbIgnore then s.pos + 1 else s.pos
    trace := s.trace ++ [⟨who, s.pos, s.w, ret, w⟩] })

/-- `case U_CALLBACK_UNAUTHORIZED`, src/ulfius.c:876–913 and 940–971. -/
def unauthorized (cfg : Cfg σ) (s : St σ) : St σ :=
  let s := { s with resp := true }
  let s := if cfg.headersOk s.w then { s with unauth := true } else { s with w := { s.w with status := 500 } }
  match s.w.realm with
  | some r => { s with realm := some r }
  | none => match cfg.realm with
    | some r => { s with realm := some r }
    | none => s

/-- `case U_CALLBACK_ERROR: default:`, src/ulfius.c:914–926. -/
def error500 (s : St σ) : St σ := { s with w := { s.w with status := 500 }, resp := true }

/-- `case U_CALLBACK_COMPLETE`, src/ulfius.c:851–875: the response is built; refused headers are only logged. -/
def complete (s : St σ) : St σ := { s with resp := true }

/-- The stream branch, src/ulfius.c:653–664: without an MHD response nothing is answered. -/
def stream (cfg : Cfg σ) (s : St σ) : St σ := { s with resp := cfg.streamOk s.w }

/-- The websocket branch, src/ulfius.c:665–842. -/
def websocket (cfg : Cfg σ) (s : St σ) : St σ :=
  match cfg.wsEnd s.w with
  | .upgraded => { s with resp := true, upgrade := true }
  | .headersRefused => { s with resp := true }
  | .refused => { s with w := { s.w with status := 400 }, resp := true }
  | .failed => { s with w := { s.w with status := 500 }, resp := true }

/-- The loop over the selected endpoints, src/ulfius.c:636–930. -/
def loop (cfg : Cfg σ) : List (Who × Callback σ) → St σ → St σ
  | [], s => s
  | (who, cb) :: rest, s =>
    let (ret, s) := call who cb s
    if s.w.stream then stream cfg s                                      -- close_loop = 1
    else if s.w.ws then websocket cfg s                                  -- close_loop = 1
    else
      let ret := if (ret == cbContinue || ret == cbIgnore) && rest.isEmpty then cbComplete else ret
      if ret == cbContinue || ret == cbIgnore then loop cfg rest s
      else if ret == cbComplete then complete s
      else if ret == cbUnauthorized then unauthorized cfg s
      else error500 s

/-- The fallback to the default endpoint, src/ulfius.c:932–1018. -/
def fallback (cfg : Cfg σ) (dflt : Option (Callback σ)) (s : St σ) : St σ :=
  match dflt with
  | none => s
  | some cb =>
    if s.pos == 0 then
      let s := { s with resp := false }
      let (ret, w) := cb s.pos s.w
      let s := { s with w := w, trace := s.trace ++ [⟨.dflt, s.pos, s.w, ret, w⟩] }
      if ret == cbUnauthorized then unauthorized cfg s
      else if ret == cbError then error500 s
      else if ret == cbContinue || ret == cbIgnore || ret == cbComplete then complete s
      else s
    else s

/-- The status line sent, src/ulfius.c:1020–1035; `none`: nothing was queued (the connection is closed). -/
def answer (s : St σ) : Option Nat :=
  if s.resp then
    if s.realm.isSome && s.unauth then some 401
    else if s.unauth then some 401
    else if s.upgrade then some 101
    else some s.w.status
  else none

/-- Number the callbacks of the matched endpoints. -/
def number : Nat → List (Callback σ) → List (Who × Callback σ)
  | _, [] => []
  | i, cb :: t => (.ep i, cb) :: number (i + 1) t

/-- The dispatcher on a complete request, src/ulfius.c:592–1054: `eps` are the callbacks of the selected endpoints in
order, `dflt` that of the default endpoint, `w` the fresh response (status 200). Result: status sent and calls
made. -/
def dispatch (cfg : Cfg σ) (eps : List (Callback σ)) (dflt : Option (Callback σ)) (w : World σ) :
    Option Nat × List (Ev σ) :=
  let list := match eps, dflt with
    | [], some d => [(.dflt, d)]                                         -- 596–610
    | eps, _ => number 0 eps
  if list.isEmpty then (some 404, [])                                    -- 1043–1054
  else
    let s := loop cfg list ⟨w, 0, [], false, false, none, false⟩
    let s := fallback cfg dflt s
    (answer s, s.trace)

end Verif.Dispatch
