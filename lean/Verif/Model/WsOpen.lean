import Verif.Model.Handshake
import Verif.Model.Message
import Verif.Model.WsMisc
import Verif.Spec.Options
/-!
# Model of opening a websocket as a client, `src/u_websocket.c:1049–1177, 2407–2640`

Sockets, name resolution, GnuTLS, threads and base64 are parameters (`World`). What leaves the process is a list of steps. A send is
complete. Allocations succeed. The handle is the subject of `Model/WsHandle`; here its websocket is NULL or idle, with the
extensions `es`.
-/
namespace Verif.WsOpen
open Verif.UMap Verif.Ws Verif.Client Verif.Printf Verif.Handshake
open Verif.Message (Request)

/-- `U_OK`, `U_ERROR`, `U_ERROR_MEMORY`, `U_ERROR_PARAMS`. -/
inductive Code where
  | ok | error | memory | params
  deriving DecidableEq, Repr

/-- What leaves the process. -/
inductive Step where
  /-- `socket()` returned a descriptor -/
  | socket
  /-- `connect` to the first address of the host succeeded -/
  | connect (host : Bytes) (port : Nat)
  /-- a TLS session for this server name was established; `verify`: the name the certificate was checked for -/
  | tls (name : Bytes) (verify : Option Bytes)
  | send (text : Bytes)
  /-- the descriptor was closed -/
  | close
  deriving DecidableEq, Repr

/-- The outside world. -/
structure World where
  /-- `gnutls_global_init` to `gnutls_credentials_set`, u_websocket.c:1099–1105, succeed -/
  gnutls : Bool := true
  socket : Bool := true
  /-- `gethostbyname` finds an IPv4 address -/
  resolves : Bytes → Bool := fun _ => true
  connects : Bytes → Nat → Bool := fun _ _ => true
  /-- `gnutls_handshake` succeeds, with the certificate checked for this name or not at all -/
  handshake : Option Bytes → Bool := fun _ => true
  /-- what arrives after this request -/
  replies : Bytes → List Ev := fun _ => []
  /-- `ulfius_check_handshake_response(key, value) == U_OK` -/
  acceptOk : Option Bytes → Bytes → Bool := fun _ _ => true
  /-- `pthread_create` succeeds (and `pthread_detach` then) -/
  thread : Bool := true
  base64 : Bytes → Option Bytes := some

/-- `if (value != NULL) { u_map_put(map, name, value); }`, u_websocket.c:2422–2427. -/
def putGiven (h : UMap) (name : Bytes) (value : Option Bytes) : Res UMap :=
  match value with
  | some v => do let (_, h) ← UMap.put h (some name) (some v); return h
  | none => .ok h

/-- `ulfius_set_websocket_request`, u_websocket.c:2407–2447. `random`: `rand_string` (`none`: NULL); `agent`: the version string;
the results of `u_map_put` are ignored. An error is returned after the fields were changed. `Arg.own`: the URL given is the string
the request holds, which is freed (2418) before it is copied (2421). -/
def setWebsocketRequest (base64 : Bytes → Option Bytes) (random : Option Bytes) (agent : Bytes) (r : Option Request)
    (url : Spec.Options.Arg) (protocol extensions : Option Bytes) : Res (Code × Option Request) :=
  match r, url with
  | some r, .own => if r.url.isSome then .ub else .ok (.error, some r)
  | some r, .text url => do
    let h ← putGiven r.mapHeader b!"Sec-WebSocket-Protocol" protocol
    let h ← putGiven h b!"Sec-WebSocket-Extensions" extensions
    let (_, h) ← UMap.put h (some b!"Sec-WebSocket-Version") (some b!"13")
    let (_, h) ← UMap.put h (some b!"User-Agent") (some (b!"Ulfius Websocket Client Framework/" ++ agent))
    let r := { r with protocol := some b!"1.1", verb := some b!"GET", url := some url }
    match random.bind base64 with
    | none => return (.error, some { r with mapHeader := h })
    | some key => do
      let (_, h) ← UMap.put h (some b!"Sec-WebSocket-Key") (some key)
      return (.ok, some { r with mapHeader := h })
  | r, _ => .ok (.error, r)

/-- `ulfius_websocket_connection_handshake`, u_websocket.c:861–1043: the code, the steps and the result. -/
def connectionHandshake (w : World) (r : Request) (u : Yuarel.Url) (es : List CliExt) (status0 : Int) :
    Res (Code × List Step × ClientResult) := do
  let text ← handshakeRequest r.verb r.protocol r.mapUrl r.mapHeader u
  let keys ← UMap.enumKeys r.mapHeader
  let key ← header r.mapHeader b!"Sec-WebSocket-Key"
  let c ← clientHandshake (w.acceptOk key) keys es status0 (w.replies text)
  let code := if c.ok then Code.ok else if 400 ≤ c.status ∧ c.status ≤ 499 then .params else .error
  return (code, .send text :: (if c.isOpen then [] else [.close]), c)

/-- `htons((uint16_t)y_url->port)`, u_websocket.c:1059. -/
def wirePort (port : Int) : Nat := (port % 2 ^ 16).toNat

/-- `ulfius_open_websocket`, u_websocket.c:1049–1085. -/
def openPlain (w : World) (r : Request) (u : Yuarel.Url) (es : List CliExt) (status0 : Int) :
    Res (Code × List Step × Option ClientResult) :=
  match u.host with
  | none => .ub
  | some host =>
    if w.socket then
      if w.resolves host then
        if w.connects host (wirePort u.port) then do
          let (code, steps, c) ← connectionHandshake w r u es status0
          return (code, [.socket, .connect host (wirePort u.port)] ++ steps, some c)
        else .ok (.error, [.socket, .close], none)
      else .ok (.error, [.socket], none)
    else .ok (.error, [], none)

/-- `ulfius_open_websocket_tls`, u_websocket.c:1091–1177. -/
def openTls (w : World) (r : Request) (u : Yuarel.Url) (es : List CliExt) (status0 : Int) :
    Res (Code × List Step × Option ClientResult) :=
  match u.host with
  | none => .ub
  | some host =>
    if w.gnutls then
      let verify := if r.checkServer ≠ 0 then some host else none
      if w.socket then
        if w.resolves host then
          if w.connects host (wirePort u.port) then
            if w.handshake verify then do
              let (code, steps, c) ← connectionHandshake w r u es status0
              return (code, [.socket, .connect host (wirePort u.port), .tls host verify] ++ steps, some c)
            else .ok (.error, [.socket, .connect host (wirePort u.port)], none)
          else .ok (.error, [.socket, .close], none)
        else .ok (.error, [.socket], none)
      else .ok (.error, [], none)
    else .ok (.error, [], none)

/-- The scheme is `http` or `ws`, u_websocket.c:2565, 2608. -/
def isPlain (scheme : Bytes) : Bool := eqCase b!"http" scheme || eqCase b!"ws" scheme

/-- The scheme is `https` or `wss`. -/
def isTls (scheme : Bytes) : Bool := eqCase b!"https" scheme || eqCase b!"wss" scheme

/-- The header for the credentials of the URL, u_websocket.c:2570–2583. -/
def urlCredentials (w : World) (r : Request) (u : Yuarel.Url) : Res Request :=
  match u.username, u.password with
  | some n, some p =>
    match w.base64 (n ++ b!":" ++ p) with
    | some t => do
      let (_, h) ← UMap.removeKey r.mapHeader (some b!"Authorization")
      let (_, h) ← UMap.put h (some b!"Authorization") (some (b!"Basic: " ++ t))
      return { r with mapHeader := h }
    | none => .ok r
  | _, _ => .ok r

/-- The outcome of a call: its code, the steps, the request of the caller afterwards, the result of the handshake. -/
structure Opened where
  code : Code
  steps : List Step := []
  request : Option Request
  result : Option ClientResult := none

/-- `ulfius_open_websocket_client_connection`, u_websocket.c:2535–2645. `callbacks`: one of the two callbacks is not NULL; `handler`:
`websocket_client_handler` is not NULL; `status0`: the response (`none`: NULL). When no thread is created, `pthread_detach` reads an
unset identifier (2623). -/
def openClient (w : World) (request : Option Request) (callbacks handler : Bool) (es : List CliExt) (status0 : Option Int) :
    Res Opened :=
  match request, status0 with
  | some r, some st =>
    if callbacks then
      match r.url with
      | none => .ok { code := .params, request := some r }
      | some url => do
        match ← Yuarel.parse url with
        | (none, _) => return { code := .params, request := some r }
        | (some u, _) =>
          let scheme := u.scheme.getD []
          if isPlain scheme || isTls scheme then do
            let u := if u.port = 0 then { u with port := if isPlain scheme then 80 else 443 } else u
            let r ← urlCredentials w r u
            if handler then do
              let (code, steps, c) ← (if isPlain scheme then openPlain w r u es st else openTls w r u es st)
              let code := if isPlain scheme then code else if code = .ok then .ok else .error
              if code = .ok then
                if w.thread then return { code := .ok, steps := steps, request := some r, result := c } else Res.ub
              else return { code := code, steps := steps, request := some r, result := c }
            else Res.ub
          else return { code := .params, request := some r }
    else .ok { code := .params, request := some r }
  | r, _ => .ok { code := .params, request := r }

/-! ## Registration of extensions -/

/-- Arguments of `ulfius_add_websocket_extension_message_perform` and of its client version: name, RSV bits, and whether there are an
outgoing and an incoming function. -/
structure Reg where
  name : Option Bytes
  rsv : UInt8
  out : Bool
  inc : Bool
  deriving DecidableEq, Repr

/-- The tests, u_websocket.c:1925–1927 and 2480–2482 (`U_WEBSOCKET_RSV1` 0x40, `RSV2` 0x20, `RSV3` 0x10). -/
def regOk (a : Reg) : Bool :=
  a.name.getD [] != [] && (a.out || a.inc) && (a.rsv == 0x40 || a.rsv == 0x20 || a.rsv == 0x10)

/-- A registered extension. `context`: the field was written. -/
structure Stored where
  reg : Reg
  context : Bool
  deriving DecidableEq, Repr

/-- `ulfius_add_websocket_extension_message_perform`, u_websocket.c:1892–1959, for a response (`client = false`), and
`ulfius_add_websocket_client_extension_message_perform`, 2448–2525, for a handle: the list of extensions. Only the first writes
`context` (1940); `ulfius_init_websocket_extension` (77–94) does not. -/
def addExtension (client : Bool) (l : List Stored) (a : Reg) : Code × List Stored :=
  if regOk a then (.ok, l ++ [⟨a, !client⟩]) else (.params, l)

/-- A sequence of registrations; the codes. -/
def addAll (client : Bool) (l : List Stored) : List Reg → List Code × List Stored
  | [] => ([], l)
  | a :: t => let r := addExtension client l a; let s := addAll client r.2 t; (r.1 :: s.1, s.2)

/-- The extension as the negotiation of the server sees it, u_websocket.c:1930–1931, 1936 (`enabled` is 0 from
`ulfius_init_websocket_extension`). -/
def toServer (s : Stored) (matcher : Option (Nat → Bytes → List Bytes → Option (Option Bytes))) : SrvExt :=
  { rsv := s.reg.rsv, server := s.reg.name, matcher := matcher }

/-- The same for the client, u_websocket.c:2492–2493, 2498. -/
def toClient (s : Stored) (matcher : Option (Nat → Bytes → Bool)) : CliExt :=
  { rsv := s.reg.rsv, client := s.reg.name, matcher := matcher }

/-- `extension->context` as the functions of an enabled extension get it, u_websocket.c:617, 1554, 1832. `set`: a match function
wrote it; otherwise it is what the registration left there. `true`: a value, `false`: NULL. -/
def contextRead (s : Stored) (set : Bool) : Res Bool := if set then .ok true else if s.context then .ok false else .ub

end Verif.WsOpen
