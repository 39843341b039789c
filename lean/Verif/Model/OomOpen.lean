import Verif.Model.WsOpen
/-!
# Model of opening a websocket as a client when memory runs out, `src/u_websocket.c:861–1043, 2535–2645`

What `Model/WsOpen` and `Model/Handshake` do with the URL, the credentials, the request sent and the reply, with every allocation on the way
given as a choice: `true`, it succeeds.

Simplifications: the URL is well formed and the connection (plain or TLS) is established; the reply is given as the lines read from it;
orcania's `split_string` gives all pieces or none, and `o_base64_encode_alloc` refuses NULL; `u_map_remove_from_key` succeeds;
the copies kept in `extension_server` are left out, nothing reads them; `ulfius_duplicate_request` gives a copy or NULL (what is in
the copy: C181). `o_malloc` does not clear the memory it gives.
-/
namespace Verif.OomOpen
open Verif.UMap Verif.Ws Verif.Client Verif.Printf Verif.Handshake
open Verif.Message (Request)

/-- Which allocations succeed. -/
structure Mem where
  /-- `o_strdup(request->http_url)`, u_websocket.c:2560 -/
  url : Bool := true
  /-- `msprintf("%s:%s", …)`, u_websocket.c:2571 -/
  basic : Bool := true
  /-- the allocation of `o_base64_encode_alloc`, u_websocket.c:2572 -/
  encode : Bool := true
  /-- `msprintf("Basic: …")`, u_websocket.c:2573 -/
  basicText : Bool := true
  /-- the allocation of `u_map_put` of the header that fails, u_websocket.c:2575 -/
  basicPut : Option Nat := none
  /-- `o_malloc(sizeof(struct _websocket))`, u_websocket.c:2585 -/
  websocket : Bool := true
  /-- `o_malloc(sizeof(struct _websocket_manager))`, u_websocket.c:1732 -/
  manager : Bool := true
  /-- the two lists of messages, u_websocket.c:1782, 1784 -/
  incoming : Bool := true
  outcoming : Bool := true
  /-- `ulfius_duplicate_request`, u_websocket.c:2598 -/
  request : Bool := true
  /-- `msprintf` of line `i` of the request, u_websocket.c:873–903 -/
  line : Nat → Bool := fun _ => true
  /-- `split_string` of the status line, u_websocket.c:918 -/
  status : Bool := true
  /-- `o_strndup` of the name and `o_strdup` of the value of line `i` of the reply, u_websocket.c:931–932 -/
  key : Nat → Bool := fun _ => true
  value : Nat → Bool := fun _ => true
  /-- the allocation of `u_map_put` of line `i` that fails, u_websocket.c:933 -/
  put : Nat → Option Nat := fun _ => none
  /-- the second copy of the value of line `i`, u_websocket.c:941, 944 -/
  copy : Nat → Bool := fun _ => true
  /-- `split_string` of the extensions, u_websocket.c:998 -/
  split : Bool := true

/-- The lines of a reply as they are read: the first one (`none`: it cannot be read), those up to the empty one, and whether the connection ended
before that. -/
structure Reply where
  first : Option Bytes
  lines : List Bytes
  broken : Bool
  deriving DecidableEq, Repr

/-- The lines read until the empty one, u_websocket.c:926–960, and whether the connection ended before. -/
def readLines (evs : List Ev) : List Bytes × Bool :=
  match h : nextLine [] evs with
  | (some line, r) => if line = [] then ([], false) else let x := readLines r; (line :: x.1, x.2)
  | (none, _) => ([], true)
termination_by size evs
decreasing_by exact nextLine_size _ _ _ _ h

/-- The lines of a reply that comes in these pieces. -/
def readReply (evs : List Ev) : Reply :=
  let f := nextLine [] evs
  let x := readLines f.2
  { first := f.1, lines := x.1, broken := x.2 }

/-- The header for the credentials of the URL, u_websocket.c:2570–2583. -/
def credentials (mem : Mem) (base64 : Bytes → Option Bytes) (r : Request) (u : Yuarel.Url) : Res Request :=
  match u.username, u.password with
  | some n, some p =>
    match (if mem.basic && mem.encode then base64 (n ++ b!":" ++ p) else none) with
    | some t => do
      let (_, h) ← UMap.removeKey r.mapHeader (some b!"Authorization")
      let (_, h) ← UMap.put h (some b!"Authorization") (if mem.basicText then some (b!"Basic: " ++ t) else none) mem.basicPut
      return { r with mapHeader := h }
    | none => .ok r
  | _, _ => .ok r

/-- The header lines, u_websocket.c:899–903. -/
def headerLines (m : UMap) : List Bytes → Res (List Bytes)
  | [] => .ok []
  | k :: t => do
    let v ← header m k
    let rest ← headerLines m t
    return (k ++ b!": " ++ str v ++ b!"\r\n") :: rest

/-- The lines of the request, u_websocket.c:872–909. -/
def requestLines (r : Request) (u : Yuarel.Url) : Res (List Bytes) := do
  let line := str r.verb ++ b!" /" ++ u.path.getD [] ++ (match u.query with | some q => b!"?" ++ q | none => []) ++
    b!" HTTP/" ++ str r.protocol ++ b!"\r\n"
  let host := if u.port != 0 then b!"Host: " ++ str u.host ++ b!":" ++ decimalInt u.port ++ b!"\r\n" else b!"Host: " ++ str u.host ++ b!"\r\n"
  let origin ← match ← header r.mapUrl b!"Origin" with
    | some o => Res.ok [b!"Origin: " ++ o ++ b!"\r\n"]
    | none => Res.ok []
  let keys ← UMap.enumKeys r.mapHeader
  let hs ← headerLines r.mapHeader keys
  return [line, host, b!"Upgrade: websocket\r\n", b!"Connection: Upgrade\r\n"] ++ origin ++ hs

/-- A line that cannot be made is NULL, and `ulfius_websocket_send_frame` (u_websocket.c:130–157) sends nothing of it. -/
def sendLines (mem : Mem) : Nat → List Bytes → Bytes
  | _, [] => []
  | i, l :: t => (if mem.line i then l else []) ++ sendLines mem (i + 1) t

/-- What the header loop gathers; the bits for the sub-protocol and the extensions are set although the copy failed. -/
structure Seen where
  base : Handshake.Seen := {}
  protocolBit : Bool := false
  extensionBit : Bool := false

/-- One line with a colon, u_websocket.c:930–950. `o_strcasecmp` of NULL and a string is not 0. -/
def headerLine (mem : Mem) (i : Nat) (acceptOk : Bytes → Bool) (s : Seen) (line : Bytes) : Res Seen :=
  match Yuarel.cut 0x3a line with
  | (key, some value) => do
    let key := if mem.key i then some key else none
    let value := if mem.value i then some value else none
    let (_, hs) ← UMap.put s.base.headers key value (mem.put i)
    let s := { s with base := { s.base with headers := hs } }
    if eqCase line b!"Upgrade: websocket" then return { s with base := { s.base with upgrade := true } }
    else if eqCase line b!"Connection: Upgrade" then return { s with base := { s.base with connection := true } }
    else if key.any (eqCase · b!"Sec-WebSocket-Protocol") then
      return { s with base := { s.base with protocol := if mem.copy i then value else none }, protocolBit := true }
    else if key.any (eqCase · b!"Sec-WebSocket-Extensions") then
      return { s with base := { s.base with extensions := if mem.copy i then value else none }, extensionBit := true }
    else if eqCase line b!"Sec-WebSocket-Accept" && value.any acceptOk then return { s with base := { s.base with accept := true } }
    else return s
  | (_, none) => .ok s

/-- The header loop, u_websocket.c:926–960. -/
def headerLoop (mem : Mem) (acceptOk : Bytes → Bool) : Nat → Seen → List Bytes → Res Seen
  | _, s, [] => .ok s
  | i, s, l :: t => do
    let s ← headerLine mem i acceptOk s l
    headerLoop mem acceptOk (i + 1) s t

/-- `websocket_response & check_websocket`, u_websocket.c:863, 904–908, 962. -/
def someBit (keys : List Bytes) (s : Seen) : Bool :=
  s.base.upgrade || s.base.connection || s.base.accept || (s.protocolBit && keys.contains b!"Sec-WebSocket-Protocol") ||
    (s.extensionBit && keys.contains b!"Sec-WebSocket-Extension")

/-- Extension negotiation by the client, u_websocket.c:995–1041. -/
def negotiate (mem : Mem) (answer : Option Bytes) (es : List CliExt) : List CliExt × UInt8 × Bool :=
  match answer with
  | none => (es, 0, true)
  | some a => if a = [] ∨ es = [] then (es, 0, true) else if mem.split then cliItems 0 (splitString 0x2c a) es 0 else (es, 0, false)

/-- The outcome: the code, what was sent, and for an open websocket the sub-protocol, the extensions in use and the bits they need, the headers the
caller is shown, and whether the callbacks are given the request. -/
structure Out where
  code : WsOpen.Code
  sent : List Bytes := []
  protocol : Option Bytes := none
  enabled : List Bool := []
  rsv : UInt8 := 0
  headers : UMap := UMap.init
  given : Bool := false
  deriving DecidableEq, Repr

/-- `ulfius_websocket_connection_handshake`, u_websocket.c:861–1043. -/
def handshake (mem : Mem) (acceptOk : Option Bytes → Bytes → Bool) (reply : Bytes → Reply) (r : Request) (u : Yuarel.Url) (es : List CliExt)
    (status0 : Int) : Res Out := do
  let ls ← requestLines r u
  let text := sendLines mem 0 ls ++ b!"\r\n"
  let keys ← UMap.enumKeys r.mapHeader
  let key ← header r.mapHeader b!"Sec-WebSocket-Key"
  let p := reply text
  let http := if mem.status then p.first.bind statusLine else none
  let status := http.getD status0
  let seen ← if http = some 101 then headerLoop mem (acceptOk key) 0 {} p.lines else Res.ok {}
  if http.isNone || !someBit keys seen || status != 101 then
    return { code := if 400 ≤ status ∧ status ≤ 499 then .params else .error, sent := [text] }
  else
    let (es', rsv, ok) := negotiate mem seen.base.extensions es
    if ok then return { code := .ok, sent := [text], protocol := seen.base.protocol, enabled := es'.map CliExt.enabled, rsv := rsv,
                        headers := seen.base.headers, given := mem.request }
    else return { code := .error, sent := [text] }

/-- `ulfius_open_websocket_client_connection`, u_websocket.c:2535–2645, for a well-formed URL and a connection that is established. `fresh`: the handle has
no websocket yet (2584). A missing list of incoming messages makes `ulfius_init_websocket_manager` free the pointer to the other list, which
was not set (u_websocket.c:1782–1800). A websocket whose initialisation fails is freed (2587). The websocket is used whether or not the
request could be copied (2598). -/
def openClient (mem : Mem) (base64 : Bytes → Option Bytes) (acceptOk : Option Bytes → Bytes → Bool) (reply : Bytes → Reply) (fresh : Bool)
    (r : Request) (u : Yuarel.Url) (es : List CliExt) (status0 : Int) : Res Out := do
  if mem.url then
    let r ← credentials mem base64 r u
    if fresh && !(mem.websocket && mem.manager) then return { code := .memory }
    else if fresh && !mem.incoming then Res.ub
    else if fresh && !mem.outcoming then return { code := .memory }
    else handshake mem acceptOk reply r u es status0
  else return { code := .params }

end Verif.OomOpen
