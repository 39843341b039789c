import Verif.Model.Dispatch
import Verif.Model.Message
/-!
# Model of the answers built by `ulfius_webservice_dispatcher`

src/ulfius.c:592–1054 once more, this time with what is handed to libmicrohttpd: status, header lines, body. The chain
of callbacks is the one of `Verif.Model.Dispatch`; here the response is the whole `struct _u_response`.

Simplifications: allocations succeed, `MHD_create_response_*` does not return NULL, no callback sets a pointer of the
response to NULL behind the back of the API. `MHD_add_response_header` is the parameter `accept`: it sees the lines
accepted so far. The websocket handshake (src/ulfius.c:667–836) is the parameter `hand`; its conditions are modelled in
`Verif.Model.Handshake`.
-/
namespace Verif.Answer
open Verif.UMap Verif.Message
open Verif.Dispatch (Who)

/-- A header line: name and value. -/
abbrev Field := Bytes × Bytes

/-- What the callbacks see: the response, whether a websocket callback is set on its handle, everything else. -/
structure World (σ : Type) where
  resp : Response
  ws : Bool
  user : σ

/-- A callback gets `request->callback_position` and the world, returns its code and the new world. -/
abbrev Callback (σ : Type) := Nat → World σ → Int × World σ

/-- Record of one call, for stating properties; the dispatcher never reads it. -/
structure Ev (σ : Type) where
  who : Who
  pos : Nat
  before : World σ
  ret : Int
  after : World σ

/-- Content of an MHD response: a buffer, a content reader, a protocol switch. -/
inductive Content where
  | buffer (b : Bytes)
  | stream (s : Nat × Nat × Nat)
  | upgrade
  deriving DecidableEq, Repr

/-- `struct MHD_Response`: the header lines added and the content. -/
structure Msg where
  fields : List Field
  content : Content
  deriving DecidableEq, Repr

/-- Outcome of the handshake, src/ulfius.c:671–841: accepted with the lines of the handshake libmicrohttpd took
(755–768), refused with an explanation (802–829), failed (778–800, 830–841). -/
inductive Hand where
  | accepted (fields : List Field)
  | refused (text : Bytes)
  | failed
  deriving DecidableEq, Repr

/-- Instance configuration and library behaviour. -/
structure Cfg (σ : Type) where
  accept : List Field → Bytes → Bytes → Bool      -- MHD_add_response_header
  hand : World σ → Hand
  realm : Option Bytes                            -- u_instance->default_auth_realm
  defaults : Option UMap                          -- u_instance->default_headers

/-- ULFIUS_HTTP_ERROR_BODY, include/ulfius.h:2118. -/
def errorBody : Bytes := b!"Server Error"
/-- ULFIUS_HTTP_NOT_FOUND_BODY, include/ulfius.h:2117. -/
def notFoundBody : Bytes := b!"Resource not found"

/-- The loop of `ulfius_set_response_header`, src/u_response.c:163–172; `false` is the return value -1. -/
def addHeaders (accept : List Field → Bytes → Bytes → Bool) (m : UMap) : List Bytes → List Field → Res (Bool × List Field)
  | [], fs => .ok (true, fs)
  | k :: ks, fs => do
    match ← UMap.get m (some k) with
    | none => addHeaders accept m ks fs
    | some b => do
      let v ← readStr b
      if accept fs k v then addHeaders accept m ks (fs ++ [(k, v)]) else .ok (false, fs)

/-- `ulfius_set_response_header`, src/u_response.c:153–175. -/
def setHeaders (accept : List Field → Bytes → Bytes → Bool) (m : UMap) (fs : List Field) : Res (Bool × List Field) := do
  let ks ← UMap.enumKeys m
  addHeaders accept m ks fs

/-- `ulfius_set_response_cookie`, src/u_response.c:177–205. -/
def setCookies (accept : List Field → Bytes → Bytes → Bool) : List Cookie → List Field → Res (Bool × List Field)
  | [], fs => .ok (true, fs)
  | c :: cs, fs => do
    let h ← cookieHeader c
    if accept fs b!"Set-Cookie" h then setCookies accept cs (fs ++ [(b!"Set-Cookie", h)]) else .ok (false, fs)

/-- `ulfius_set_response_header(..) == -1 || ulfius_set_response_cookie(..) == -1`, src/ulfius.c:659, 769, 859, 882, 947,
989: the cookies are skipped when a header was refused. The result is `true` when nothing was refused. -/
def fill (accept : List Field → Bytes → Bytes → Bool) (r : Response) (m : Msg) : Res (Bool × Msg) := do
  let (ok, fs) ← setHeaders accept r.header m.fields
  if ok then do
    let (ok, fs) ← setCookies accept r.cookies fs
    return (ok, { m with fields := fs })
  else return (false, { m with fields := fs })

/-- `ulfius_get_body_from_response`, src/ulfius.c:254–280. -/
def getBody (r : Response) : Res Bytes :=
  match r.body with
  | none => .ok []
  | some b => if 0 < r.bodyLen then (if r.bodyLen ≤ b.length then .ok (b.take r.bodyLen) else .ub) else .ok []

/-- Local variables of the dispatcher. -/
structure St (σ : Type) where
  w : World σ
  pos : Nat                     -- request->callback_position
  trace : List (Ev σ)
  resp : Option Msg             -- mhd_response
  unauth : Bool                 -- inner_error == U_CALLBACK_UNAUTHORIZED
  realm : Option Bytes          -- auth_realm
  upgrade : Bool                -- upgrade_protocol

variable {σ : Type}

/-- `response->status = status`. -/
def St.setStatus (s : St σ) (n : Nat) : St σ := { s with w := { s.w with resp := { s.w.resp with status := n } } }

/-- A buffer response with nothing but a body. -/
def bare (b : Bytes) : Option Msg := some ⟨[], .buffer b⟩

/-- Call a callback: src/ulfius.c:645–648. -/
def call (who : Who) (cb : Callback σ) (s : St σ) : Int × St σ :=
  let (ret, w) := cb s.pos s.w
  (ret, { s with
    w := w
    pos := if ret != Dispatch.cbIgnore then s.pos + 1 else s.pos
    trace := s.trace ++ [⟨who, s.pos, s.w, ret, w⟩] })

/-- The stream branch, src/ulfius.c:653–663: a refused header is only logged. `MHD_create_response_from_callback` refuses a
block size of 0 and returns NULL; nothing is answered then. -/
def stream (cfg : Cfg σ) (c : Nat × Nat × Nat) (s : St σ) : Res (St σ) :=
  if c.2.1 = 0 then .ok { s with resp := none }
  else do
    let (_, m) ← fill cfg.accept s.w.resp ⟨[], .stream c⟩
    return { s with resp := some m }

/-- `case U_CALLBACK_COMPLETE`, src/ulfius.c:851–875 and 980–1013: a refused header is only logged. -/
def complete (cfg : Cfg σ) (s : St σ) : Res (St σ) := do
  let b ← getBody s.w.resp
  let (_, m) ← fill cfg.accept s.w.resp ⟨[], .buffer b⟩
  return { s with resp := some m }

/-- `case U_CALLBACK_UNAUTHORIZED`, src/ulfius.c:876–913 and 940–971. When a header is refused the new body is put in the
response structure but the MHD response keeps the old one. -/
def unauthorized (cfg : Cfg σ) (s : St σ) : Res (St σ) := do
  let b ← getBody s.w.resp
  let (ok, m) ← fill cfg.accept s.w.resp ⟨[], .buffer b⟩
  let s := { s with resp := some m }
  let s := if ok then { s with unauth := true } else { s with w := { s.w with resp :=
      { s.w.resp with status := 500, body := some (errorBody ++ [0]), bodyLen := errorBody.length } } }
  return match s.w.resp.realm with
    | some r => { s with realm := some r }
    | none => match cfg.realm with
      | some r => { s with realm := some r }
      | none => s

/-- `case U_CALLBACK_ERROR`, src/ulfius.c:914–926 and 972–979: no header and no cookie is added. -/
def error500 (s : St σ) : St σ := { s.setStatus 500 with resp := bare errorBody }

/-- The websocket branch, src/ulfius.c:665–842. -/
def websocket (cfg : Cfg σ) (s : St σ) : Res (St σ) :=
  match cfg.hand s.w with
  | .accepted fs => do
    let (ok, m) ← fill cfg.accept s.w.resp ⟨fs, .upgrade⟩
    return if ok then { s with resp := some m, upgrade := true } else { s with resp := some m }
  | .refused text => .ok { s.setStatus 400 with resp := bare text }
  | .failed => .ok { s.setStatus 500 with resp := bare errorBody }

/-- The loop over the selected endpoints, src/ulfius.c:636–930. -/
def loop (cfg : Cfg σ) : List (Who × Callback σ) → St σ → Res (St σ)
  | [], s => .ok s
  | (who, cb) :: rest, s =>
    let (ret, s) := call who cb s
    match s.w.resp.stream with
    | some c => stream cfg c s                                           -- close_loop = 1
    | none =>
      if s.w.ws then websocket cfg s                                     -- close_loop = 1
      else
        let ret := if (ret == Dispatch.cbContinue || ret == Dispatch.cbIgnore) && rest.isEmpty then Dispatch.cbComplete else ret
        if ret == Dispatch.cbContinue || ret == Dispatch.cbIgnore then loop cfg rest s
        else if ret == Dispatch.cbComplete then complete cfg s
        else if ret == Dispatch.cbUnauthorized then unauthorized cfg s
        else .ok (error500 s)

/-- The fallback to the default endpoint, src/ulfius.c:932–1018. Neither the stream nor the websocket callback of the
response is looked at here. -/
def fallback (cfg : Cfg σ) (dflt : Option (Callback σ)) (s : St σ) : Res (St σ) :=
  match dflt with
  | none => .ok s
  | some cb =>
    if s.pos == 0 then
      let s := { s with resp := none }
      let (ret, w) := cb s.pos s.w
      let s := { s with w := w, trace := s.trace ++ [⟨.dflt, s.pos, s.w, ret, w⟩] }
      if ret == Dispatch.cbUnauthorized then unauthorized cfg s
      else if ret == Dispatch.cbError then .ok (error500 s)
      else if ret == Dispatch.cbContinue || ret == Dispatch.cbIgnore || ret == Dispatch.cbComplete then complete cfg s
      else .ok s
    else .ok s

/-- What is queued for the client: status, realm of the WWW-Authenticate line, header lines, content. -/
structure Ans where
  status : Nat
  realm : Option Bytes
  fields : List Field
  content : Content
  deriving DecidableEq, Repr

/-- The response queued, src/ulfius.c:1020–1035; `none`: nothing (the connection is closed). -/
def answer (s : St σ) : Option Ans :=
  match s.resp with
  | none => none
  | some m =>
    if s.realm.isSome && s.unauth then some ⟨401, s.realm, m.fields, m.content⟩
    else if s.unauth then some ⟨401, none, m.fields, m.content⟩
    else if s.upgrade then some ⟨101, none, m.fields, m.content⟩
    else some ⟨s.w.resp.status, none, m.fields, m.content⟩

/-- Number the callbacks of the matched endpoints. -/
def number : Nat → List (Callback σ) → List (Who × Callback σ)
  | _, [] => []
  | i, cb :: t => (.ep i, cb) :: number (i + 1) t

/-- Headers of the fresh response, src/ulfius.c:626–630 and `ulfius_init_response`: a copy of the default headers. -/
def initHeaders (defaults : Option UMap) : Res UMap :=
  match defaults with
  | none => .ok UMap.init
  | some d => if 0 < UMap.count d then (do
      match ← UMap.copy d with
      | some c => return c
      | none => .ub)                                                      -- NULL map: not without a failed allocation
    else .ok UMap.init

/-- The dispatcher on a complete request, src/ulfius.c:592–1054: `eps` are the callbacks of the selected endpoints in
order, `dflt` that of the default endpoint. Result: the answer and the calls made. -/
def dispatch (cfg : Cfg σ) (eps : List (Callback σ)) (dflt : Option (Callback σ)) (user : σ) :
    Res (Option Ans × List (Ev σ)) := do
  let list := match eps, dflt with
    | [], some d => [(Who.dflt, d)]                                      -- 596–610
    | eps, _ => number 0 eps
  if list.isEmpty then return (some ⟨404, none, [], .buffer notFoundBody⟩, [])  -- 1043–1054
  else
    let h ← initHeaders cfg.defaults
    let s ← loop cfg list ⟨⟨{ header := h }, false, user⟩, 0, [], none, false, none, false⟩
    let s ← fallback cfg dflt s
    return (answer s, s.trace)

end Verif.Answer
