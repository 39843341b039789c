import Verif.Model.Client
import Verif.Model.Frame
import Verif.Model.Yuarel
/-!
# Model of the WebSocket handshake

Server side: `src/ulfius.c:666–840` (decision to upgrade, negotiation of extensions and sub-protocol).
Client side: `ulfius_websocket_connection_handshake`, `src/u_websocket.c:861–1043`, with the line reader 824–853.
List matching: `src/u_websocket.c:1319–1391`.

Parameters: `accept key` stands for `ulfius_generate_handshake_answer` (base64 of the SHA-1 of key and magic string; `none` when
the library calls fail). Extension callbacks are functions of the position of the item: each pair (item, extension) is visited at
most once in a negotiation, so the results of a callback with a state are such a function.

Simplifications: allocations succeed; the log calls are left out; a `read` error during the client handshake ends the
connection (the code polls again); on a refused handshake the code that reads a body (lines 965–984) never reads one because
`response->binary_body` is NULL, and is left out.
-/
namespace Verif.Handshake
open Verif.Strtok Verif.UMap Verif.Ws Verif.Client Verif.Printf

/-! ## Lists of items -/

/-- orcania `split_string(s, sep, &array)` for a one-character separator: every piece, empty ones included. -/
def splitString (d : UInt8) (s : Bytes) : List Bytes :=
  s.takeWhile (· != d) :: match h : s.dropWhile (· != d) with
    | [] => []
    | _ :: t => splitString d t
termination_by s.length
decreasing_by
  have := length_dropWhile_le (· != d) s
  rw [h, List.length_cons] at this
  omega

/-- orcania `string_array_has_trimmed_value(array, needle)`. -/
def hasTrimmed (array : List Bytes) (needle : Bytes) : Bool := array.any (fun v => trimSpace v == trimSpace needle)

/-- `*result` after one matching item, u_websocket.c:1329–1335. -/
def addItem (result : Option Bytes) (sep : UInt8) (item : Bytes) : Option Bytes :=
  match result with
  | none => some (trimSpace item)
  | some r => some (r ++ [sep] ++ trimSpace item)

/-- `ulfius_check_list_match`, u_websocket.c:1319–1349: `(ret == U_OK, *result)`. -/
def listMatch (source mtch : Option Bytes) (sep : UInt8) : Bool × Option Bytes :=
  match mtch, source with
  | some m, some s =>
    let r := (splitString sep s).foldl (fun r i => if hasTrimmed (splitString sep m) i then addItem r sep i else r) none
    (r.isSome, r)
  | _, _ => (true, none)

/-- `ulfius_check_first_match`, u_websocket.c:1356–1391: `(ret == U_OK, *result)`. -/
def firstMatch (source mtch : Option Bytes) (sep : UInt8) : Bool × Option Bytes :=
  match mtch, source with
  | none, none => (true, none)
  | none, some s => (true, (splitString sep s).head?.map trimSpace)
  | some _, none => (false, none)
  | some m, some s =>
    let r := ((splitString sep s).find? (hasTrimmed (splitString sep m))).map trimSpace
    (r.isSome, r)

/-! ## Server -/

/-- The part of `struct _websocket_extension` (include/ulfius.h) used by the server negotiation. `matcher`:
`websocket_extension_server_match`, given the position of the item, the trimmed item and the array; `some c`: it returned `U_OK`
and left `c` in `extension_client`. -/
structure SrvExt where
  rsv : UInt8
  server : Option Bytes := none
  client : Option Bytes := none
  enabled : Bool := false
  matcher : Option (Nat → Bytes → List Bytes → Option (Option Bytes)) := none

/-- State of the negotiation: the array of offered items, `rsv_expected` and the answer. -/
structure Nego where
  items : List Bytes
  rsv : UInt8 := 0
  answer : Option Bytes := none

/-- `extension = mstrcatf(extension, ", %s", …)` or `o_strdup(…)`, ulfius.c:697–701, 712–716. -/
def addAnswer (answer client : Option Bytes) : Option Bytes :=
  match answer with
  | some a => some (a ++ b!", " ++ str client)
  | none => client

/-- The loop over `y`, ulfius.c:688–723. -/
def srvItem (x : Nat) : List SrvExt → Nego → List SrvExt × Nego
  | [], n => ([], n)
  | e :: t, n =>
    if e.enabled then let r := srvItem x t n; (e :: r.1, r.2)
    else match e.matcher with
      | some f =>
        -- trimwhitespace shortens the item in place
        let item := n.items.getD x []
        let n := { n with items := n.items.set x (trimRight item) }
        match f x (trimSpace item) n.items with
        | none => let r := srvItem x t n; (e :: r.1, r.2)
        | some c =>
          let e := { e with client := c }
          if e.rsv &&& n.rsv = 0 then
            ({ e with enabled := true } :: t, { n with rsv := n.rsv ||| e.rsv, answer := addAnswer n.answer c })
          else (e :: t, n)
      | none =>
        if some (n.items.getD x []) = e.server then
          if e.rsv &&& n.rsv = 0 then
            let c := some (n.items.getD x [])
            ({ e with enabled := true, client := c } :: t, { n with rsv := n.rsv ||| e.rsv, answer := addAnswer n.answer c })
          else let r := srvItem x t n; (e :: r.1, r.2)
        else let r := srvItem x t n; (e :: r.1, r.2)

/-- The loop over `x`, ulfius.c:687–724. -/
def srvItems : List Nat → List SrvExt → Nego → List SrvExt × Nego
  | [], es, n => (es, n)
  | x :: xs, es, n => let r := srvItem x es n; srvItems xs r.1 r.2

/-- Extension negotiation by the server from the header value, ulfius.c:685–729. -/
def srvNegotiate (offer : Bytes) (es : List SrvExt) : List SrvExt × Nego :=
  let items := splitString 0x2c offer
  srvItems (List.range items.length) es { items := items }

/-- The part of `struct _websocket_handle` the decision uses. -/
structure Handle where
  protocol : Option Bytes := none
  extensions : Option Bytes := none
  exts : List SrvExt := []

/-- What the server answers. -/
inductive Answer where
  | upgrade (accept : Bytes) (protocol extension : Option Bytes) (rsv : UInt8) (exts : List SrvExt)
  | refused (status : Nat)

/-- `o_strcasestr(value, needle) != NULL` (ASCII case). -/
def containsCase (needle s : Bytes) : Bool := Message.contains (fold needle) (fold s)

/-- `u_map_get_case(headers, name)` read as a string. -/
def header (m : UMap) (name : Bytes) : Res (Option Bytes) := do
  match ← UMap.getCase m (some name) with
  | none => return none
  | some b => do let s ← readStr b; return some s

/-- The ten conditions, ulfius.c:673–682, on the header values and counts. -/
def conditions (up : Option Bytes) (nUp : Nat) (key : Option Bytes) (nKey : Nat) (conn : Option Bytes) (nConn : Nat)
    (ver : Option Bytes) (nVer : Nat) (protocol verb : Option Bytes) : Bool :=
  (match up with | some u => containsCase b!"websocket" u | none => false) && nUp == 1 &&
    key.isSome && nKey == 1 &&
    (match conn with | some c => containsCase b!"Upgrade" c | none => false) && nConn == 1 &&
    protocol == some b!"HTTP/1.1" && ver == some b!"13" && nVer == 1 && verb == some b!"GET"

/-- ulfius.c:673–682. -/
def validUpgrade (m : UMap) (protocol verb : Option Bytes) : Res Bool := do
  let up ← header m b!"upgrade"
  let nUp ← UMap.countKeysCase m (some b!"upgrade")
  let key ← header m b!"Sec-WebSocket-Key"
  let nKey ← UMap.countKeysCase m (some b!"Sec-WebSocket-Key")
  let conn ← header m b!"Connection"
  let nConn ← UMap.countKeysCase m (some b!"Connection")
  let ver ← header m b!"Sec-WebSocket-Version"
  let nVer ← UMap.countKeysCase m (some b!"Sec-WebSocket-Version")
  return conditions up nUp key nKey conn nConn ver nVer protocol verb

/-- ulfius.c:685–731: extensions, `(ret_extensions == U_OK, …)`. -/
def srvExtensions (m : UMap) (h : Handle) : Res (Bool × Option Bytes × UInt8 × List SrvExt) := do
  let has ← UMap.hasKey m (some b!"Sec-WebSocket-Extensions")
  let offer ← header m b!"Sec-WebSocket-Extensions"
  if has && h.exts.length != 0 then
    match offer with
    | some o => let r := srvNegotiate o h.exts; return (true, r.2.answer, r.2.rsv, r.1)
    | none => return (true, none, 0, h.exts)
  else
    let r := listMatch offer h.extensions 0x2c
    return (r.1, r.2, 0, h.exts)

/-- `ulfius_webservice_dispatcher`, ulfius.c:673–817: the answer to a request whose endpoint asked for a websocket. -/
def serverHandshake (accept : Bytes → Option Bytes) (m : UMap) (protocol verb : Option Bytes) (h : Handle) : Res Answer := do
  if ← validUpgrade m protocol verb then
    let (okE, ext, rsv, es) ← srvExtensions m h
    let offered ← header m b!"Sec-WebSocket-Protocol"
    let (okP, proto) := firstMatch offered h.protocol 0x2c
    if okE && okP then
      match ← header m b!"Sec-WebSocket-Key" with
      | some key =>
        match accept key with
        | some a => return .upgrade a proto ext rsv es
        | none => return .refused 500
      | none => return .refused 500
    else return .refused 400
  else return .refused 400

/-! ## Client -/

/-- `U_WEBSOCKET_RESPONSE_BUFFER_LEN`, u_websocket.c:59. -/
def bufferLen : Nat := 4096

/-- `ulfius_get_next_line_from_http_response`, u_websocket.c:824–853: the C string left in the buffer (`none`: `U_ERROR`) and
the rest of the connection. `acc`: bytes already in the buffer. `fail` is a failed `poll` here; a failed `read`, which is ignored, and
silence without end are in Model/WsAwait.lean. -/
def nextLine (acc : Bytes) (evs : List Ev) : Option Bytes × List Ev :=
  match h : readData 1 evs with
  | some ([c], r) =>
    if acc.getLast? == some 0x0d && c == 0x0a then
      (if Utf8.utf8Ok acc.dropLast then some (cstr acc.dropLast) else none, r)
    else if acc.length + 1 < bufferLen then nextLine (acc ++ [c]) r
    else (none, r)
  | _ => (none, [])
termination_by size evs
decreasing_by
  have := readData_size _ _ _ _ h
  omega

/-- `strtol(s, NULL, 10)` (libc, 64-bit `long`). -/
def strtol (s : Bytes) : Int :=
  let (neg, s) := Yuarel.sign (s.dropWhile isSpace)
  let n := ofDecimal (s.takeWhile isDigit)
  if neg then (if n ≤ 2 ^ 63 then -(n : Int) else -(2 ^ 63)) else (if n < 2 ^ 63 then (n : Int) else 2 ^ 63 - 1)

/-- The status line, u_websocket.c:917–924. -/
def statusLine (l : Bytes) : Option Int :=
  match splitString 0x20 l with
  | p :: s :: _ => if p == b!"HTTP/1.1" then some (strtol s) else none
  | _ => none

/-- What the header loop gathers: the bits of `websocket_response`, `protocol`, `extensions` and the response headers. -/
structure Seen where
  upgrade : Bool := false
  connection : Bool := false
  accept : Bool := false
  protocol : Option Bytes := none
  extensions : Option Bytes := none
  headers : UMap := UMap.init
  /-- `tcp_sock` was closed because a line could not be read -/
  broken : Bool := false

/-- One line with a colon, u_websocket.c:930–950. `acceptOk value`: `ulfius_check_handshake_response(…, value) == U_OK`. -/
def headerLine (acceptOk : Bytes → Bool) (s : Seen) (line : Bytes) : Res Seen :=
  match Yuarel.cut 0x3a line with
  | (key, some value) => do
    let (_, hs) ← UMap.put s.headers (some key) (some value)
    let s := { s with headers := hs }
    if eqCase line b!"Upgrade: websocket" then return { s with upgrade := true }
    else if eqCase line b!"Connection: Upgrade" then return { s with connection := true }
    else if eqCase key b!"Sec-WebSocket-Protocol" then return { s with protocol := some value }
    else if eqCase key b!"Sec-WebSocket-Extensions" then return { s with extensions := some value }
    else if eqCase line b!"Sec-WebSocket-Accept" && acceptOk value then return { s with accept := true }
    else return s
  | (_, none) => .ok s

theorem nextLine_size (acc : Bytes) (evs : List Ev) (l : Bytes) (r : List Ev) (h : nextLine acc evs = (some l, r)) :
    size r < size evs := by
  fun_induction nextLine acc evs with
  | case1 acc evs c r' h1 h2 =>
    have := readData_size _ _ _ _ h1
    simp only [Prod.mk.injEq] at h
    rw [← h.2]; omega
  | case2 acc evs c r' h1 h2 h3 ih =>
    have := readData_size _ _ _ _ h1
    have := ih h
    omega
  | case3 acc evs c r' h1 h2 h3 => simp at h
  | case4 acc evs h1 => simp at h

/-- The header loop, u_websocket.c:926–960. -/
def headerLoop (acceptOk : Bytes → Bool) (s : Seen) (evs : List Ev) : Res (Seen × List Ev) :=
  match h : nextLine [] evs with
  | (some line, r) =>
    if line = [] then .ok (s, r)
    else do
      let s ← headerLine acceptOk s line
      headerLoop acceptOk s r
  | (none, r) => .ok ({ s with broken := true }, r)
termination_by size evs
decreasing_by exact nextLine_size _ _ _ _ h

/-- The part of `struct _websocket_extension` used by the client negotiation. `matcher`: `websocket_extension_client_match` on the
trimmed item at a position (`true`: it returned `U_OK`). -/
structure CliExt where
  rsv : UInt8
  client : Option Bytes := none
  server : Option Bytes := none
  enabled : Bool := false
  matcher : Option (Nat → Bytes → Bool) := none

/-- The two tests, u_websocket.c:1004–1005 and 1015. -/
def CliExt.hits (e : CliExt) (i : Nat) (item : Bytes) : Bool :=
  match e.matcher with
  | some f => f i (trimSpace item)
  | none => some (trimSpace item) == e.client

/-- The loop over `j`, u_websocket.c:1001–1028: the extensions, `rsv_expected`, `extension_enabled`. The item stored in
`extension_server` is the one shortened by `trimwhitespace`. -/
def cliItem (i : Nat) (item : Bytes) : List CliExt → UInt8 → List CliExt × UInt8 × Bool
  | [], rsv => ([], rsv, false)
  | e :: t, rsv =>
    if e.enabled then let r := cliItem i item t rsv; (e :: r.1, r.2)
    else if e.hits i item then
      if e.rsv &&& rsv = 0 then
        ({ e with enabled := true, server := some (trimRight item) } :: t, rsv ||| e.rsv, true)
      else (e :: t, rsv, false)
    else let r := cliItem i item t rsv; (e :: r.1, r.2)

/-- The loop over `i`, u_websocket.c:999–1035; `true`: `ret == U_OK`. -/
def cliItems : Nat → List Bytes → List CliExt → UInt8 → List CliExt × UInt8 × Bool
  | _, [], es, rsv => (es, rsv, true)
  | i, item :: t, es, rsv =>
    match cliItem i item es rsv with
    | (es, rsv, true) => cliItems (i + 1) t es rsv
    | (es, rsv, false) => (es, rsv, false)

/-- Extension negotiation by the client, u_websocket.c:995–1041. -/
def cliNegotiate (answer : Option Bytes) (es : List CliExt) : List CliExt × UInt8 × Bool :=
  match answer with
  | none => (es, 0, true)
  | some a => if a = [] ∨ es = [] then (es, 0, true) else cliItems 0 (splitString 0x2c a) es 0

/-- Outcome of the client handshake. -/
structure ClientResult where
  /-- `U_OK` -/
  ok : Bool
  /-- `tcp_sock` still open -/
  isOpen : Bool
  status : Int
  seen : Seen
  exts : List CliExt
  rsv : UInt8

/-- `websocket_response & check_websocket`, u_websocket.c:863, 904–908, 962 (the bit for extensions is asked for only when the
request has a header named `Sec-WebSocket-Extension`). -/
def someBit (keys : List Bytes) (s : Seen) : Bool :=
  s.upgrade || s.connection || s.accept || (s.protocol.isSome && keys.contains b!"Sec-WebSocket-Protocol") ||
    (s.extensions.isSome && keys.contains b!"Sec-WebSocket-Extension")

/-- `ulfius_websocket_connection_handshake` after the request was sent, u_websocket.c:916–1043. `keys`: names of the request
headers; `status0`: `response->status` before the call. -/
def clientHandshake (acceptOk : Bytes → Bool) (keys : List Bytes) (es : List CliExt) (status0 : Int) (evs : List Ev) :
    Res ClientResult := do
  let (line, r) := nextLine [] evs
  let http := line.bind statusLine
  let status := http.getD status0
  let (seen, _) ← if http = some 101 then headerLoop acceptOk {} r else Res.ok ({}, r)
  if http.isNone || !someBit keys seen || status != 101 then
    return { ok := false, isOpen := false, status, seen, exts := es, rsv := 0 }
  else
    let (es', rsv, ok) := cliNegotiate seen.extensions es
    return { ok, isOpen := !seen.broken, status, seen, exts := es', rsv }

/-! ## The request the client sends -/

/-- The header lines, u_websocket.c:899–903. -/
def requestHeaders (m : UMap) : List Bytes → Res Bytes
  | [] => .ok []
  | k :: t => do
    let v ← header m k
    let rest ← requestHeaders m t
    return k ++ b!": " ++ str v ++ b!"\r\n" ++ rest

/-- The bytes sent, u_websocket.c:872–914. -/
def handshakeRequest (verb protocol : Option Bytes) (mapUrl mapHeader : UMap) (u : Yuarel.Url) : Res Bytes := do
  let line := str verb ++ b!" /" ++ u.path.getD [] ++ (match u.query with | some q => b!"?" ++ q | none => []) ++
    b!" HTTP/" ++ str protocol ++ b!"\r\n"
  let host := if u.port != 0 then b!"Host: " ++ str u.host ++ b!":" ++ decimalInt u.port ++ b!"\r\n" else b!"Host: " ++ str u.host ++ b!"\r\n"
  let origin ← match ← header mapUrl b!"Origin" with
    | some o => Res.ok (b!"Origin: " ++ o ++ b!"\r\n")
    | none => Res.ok []
  let keys ← UMap.enumKeys mapHeader
  let hs ← requestHeaders mapHeader keys
  return line ++ host ++ b!"Upgrade: websocket\r\n" ++ b!"Connection: Upgrade\r\n" ++ origin ++ hs ++ b!"\r\n"

end Verif.Handshake
