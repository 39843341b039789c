import Verif.Model.Handshake
/-!
# Model of the handshake of a server websocket when memory runs out, `src/ulfius.c:665–840`

The decision is that of `Model/Handshake`, with every allocation on the way given as a choice: `true`, it succeeds.

Simplifications: orcania's `split_string` gives all pieces or none; `ulfius_duplicate_request` gives a copy or NULL (what is in the
copy: `Model/OomRequest`, C181); log calls are left out. `o_malloc` does not clear the memory it gives.
-/
namespace Verif.OomHandshake
open Verif.Strtok Verif.UMap Verif.Handshake Verif.Client Verif.Ws

/-- Which allocations succeed. -/
structure Mem where
  /-- `o_malloc(sizeof(struct _websocket))`, ulfius.c:667 -/
  websocket : Bool := true
  /-- `o_malloc(sizeof(struct _websocket_manager))`, u_websocket.c:1732 -/
  manager : Bool := true
  /-- the two lists of messages, u_websocket.c:1782, 1784 -/
  incoming : Bool := true
  outcoming : Bool := true
  /-- `split_string` of the offered extensions, ulfius.c:685 -/
  splitOffer : Bool := true
  /-- `o_strdup(extension_list[x])`, ulfius.c:709 -/
  copy : Nat → Bool := fun _ => true
  /-- the answer after item `x`, ulfius.c:695–699, 712–716 -/
  answer : Nat → Bool := fun _ => true
  /-- the two `split_string` of `ulfius_check_list_match`, u_websocket.c:1326 -/
  listSplit : Bool := true
  /-- the result after item `i`, u_websocket.c:1330, 1332 -/
  listItem : Nat → Bool := fun _ => true
  /-- the `split_string` of `ulfius_check_first_match`, u_websocket.c:1364, 1371 -/
  firstSplit : Bool := true
  /-- `o_strdup` of item `i`, u_websocket.c:1365, 1375 -/
  firstItem : Nat → Bool := fun _ => true
  /-- `ulfius_generate_handshake_answer`, u_websocket.c:1262 -/
  digest : Bool := true
  /-- `ulfius_duplicate_request`, ulfius.c:736 -/
  request : Bool := true
  /-- `MHD_create_response_for_upgrade`, ulfius.c:748 -/
  upgrade : Bool := true
  /-- `MHD_add_response_header` of Upgrade, Sec-WebSocket-Accept, -Protocol, -Extensions, ulfius.c:753–766 -/
  field : Nat → Bool := fun _ => true
  /-- `ulfius_set_response_header` and `ulfius_set_response_cookie`, ulfius.c:767 -/
  headers : Bool := true
  /-- `o_strdup(ULFIUS_HTTP_ERROR_BODY)`, ulfius.c:779, 791, 825 -/
  body : Bool := true
  /-- the response of libmicrohttpd for an error -/
  reply : Bool := true

/-- What the client gets. -/
inductive Ans where
  /-- 101 with these fields; `rsv` and `enabled`: what the server will use -/
  | upgrade (field : Bool) (accept protocol extension : Option Bytes) (rsv : UInt8) (enabled : List Bool)
  | refused (status : Nat)
  /-- `MHD_NO`: the connection is closed -/
  | closed
  deriving DecidableEq, Repr

/-- The outcome: the answer, how often the onclose callback is called, whether the websocket stays allocated without anybody to free it,
whether it is in the list of the active ones. -/
structure Out where
  answer : Ans
  onclose : Nat
  held : Bool
  active : Bool
  deriving DecidableEq, Repr

/-- `extension = mstrcatf(…)` or `o_strdup(…)`, ulfius.c:694–699, 711–716: NULL when there is no memory. -/
def addAnswer (ok : Bool) (answer client : Option Bytes) : Option Bytes :=
  if ok then Handshake.addAnswer answer client else none

/-- The loop over `y`, ulfius.c:687–722. -/
def srvItem (mem : Mem) (x : Nat) : List SrvExt → Nego → List SrvExt × Nego
  | [], n => ([], n)
  | e :: t, n =>
    if e.enabled then let r := srvItem mem x t n; (e :: r.1, r.2)
    else match e.matcher with
      | some f =>
        let item := n.items.getD x []
        let n := { n with items := n.items.set x (trimRight item) }
        match f x (trimSpace item) n.items with
        | none => let r := srvItem mem x t n; (e :: r.1, r.2)
        | some c =>
          let e := { e with client := c }
          if e.rsv &&& n.rsv = 0 then
            ({ e with enabled := true } :: t,
              { n with rsv := n.rsv ||| e.rsv, answer := addAnswer (mem.answer x) n.answer c })
          else (e :: t, n)
      | none =>
        if some (n.items.getD x []) = e.server then
          if e.rsv &&& n.rsv = 0 then
            let c := if mem.copy x then some (n.items.getD x []) else none
            ({ e with enabled := true, client := c } :: t,
              { n with rsv := n.rsv ||| e.rsv, answer := addAnswer (mem.answer x) n.answer c })
          else let r := srvItem mem x t n; (e :: r.1, r.2)
        else let r := srvItem mem x t n; (e :: r.1, r.2)

/-- The loop over `x`, ulfius.c:686–723. -/
def srvItems (mem : Mem) : List Nat → List SrvExt → Nego → List SrvExt × Nego
  | [], es, n => (es, n)
  | x :: xs, es, n => let r := srvItem mem x es n; srvItems mem xs r.1 r.2

/-- The negotiation, ulfius.c:685–727; without the pieces there is none (724–726). -/
def srvNegotiate (mem : Mem) (offer : Bytes) (es : List SrvExt) : List SrvExt × Nego :=
  if mem.splitOffer then srvItems mem (List.range (splitString 0x2c offer).length) es { items := splitString 0x2c offer }
  else (es, { items := [] })

/-- The loop of `ulfius_check_list_match`, u_websocket.c:1327–1337; a failed `msprintf` loses what was found before. -/
def listLoop (mem : Mem) (mtch : List Bytes) (sep : UInt8) : Nat → Option Bytes → List Bytes → Option Bytes
  | _, r, [] => r
  | i, r, it :: t =>
    listLoop mem mtch sep (i + 1) (if hasTrimmed mtch it then (if mem.listItem i then addItem r sep it else none) else r) t

/-- `ulfius_check_list_match`, u_websocket.c:1319–1349. -/
def listMatch (mem : Mem) (source mtch : Option Bytes) (sep : UInt8) : Bool × Option Bytes :=
  match mtch, source with
  | some m, some s =>
    let r := if mem.listSplit then listLoop mem (splitString sep m) sep 0 none (splitString sep s) else none
    (r.isSome, r)
  | _, _ => (true, none)

/-- The loop of `ulfius_check_first_match`, u_websocket.c:1372–1378: it goes on as long as there is no result. -/
def firstLoop (mem : Mem) (mtch : List Bytes) : Nat → List Bytes → Option Bytes
  | _, [] => none
  | i, it :: t =>
    if hasTrimmed mtch it && mem.firstItem i then some (trimSpace it) else firstLoop mem mtch (i + 1) t

/-- `ulfius_check_first_match`, u_websocket.c:1356–1391. -/
def firstMatch (mem : Mem) (source mtch : Option Bytes) (sep : UInt8) : Bool × Option Bytes :=
  match mtch, source with
  | none, none => (true, none)
  | none, some s => (true, if mem.firstSplit && mem.firstItem 0 then (splitString sep s).head?.map trimSpace else none)
  | some _, none => (false, none)
  | some m, some s =>
    let r := if mem.firstSplit then firstLoop mem (splitString sep m) 0 (splitString sep s) else none
    (r.isSome, r)

/-- ulfius.c:683–730. -/
def srvExtensions (mem : Mem) (m : UMap) (h : Handle) : Res (Bool × Option Bytes × UInt8 × List SrvExt) := do
  let has ← UMap.hasKey m (some b!"Sec-WebSocket-Extensions")
  let offer ← header m b!"Sec-WebSocket-Extensions"
  if has && h.exts.length != 0 then
    match offer with
    | some o => let r := srvNegotiate mem o h.exts; return (true, r.2.answer, r.2.rsv, r.1)
    | none => return (true, none, 0, h.exts)
  else
    let r := listMatch mem offer h.extensions 0x2c
    return (r.1, r.2, 0, h.exts)

/-- The answer 500, ulfius.c:778–785, 790–797, 824–831: without a body `mhd_response` stays NULL and `mhd_ret` is `MHD_NO`. -/
def error500 (mem : Mem) : Ans := if mem.body && mem.reply then .refused 500 else .closed

/-- The answer 400, ulfius.c:801–804, 810–821: a NULL text is a text of length 0. -/
def error400 (mem : Mem) : Ans := if mem.reply then .refused 400 else .closed

/-- `if (websocket_has_error)`, ulfius.c:835–840: the onclose callback is given `websocket->websocket_manager`, then the websocket is
cleared. `ws`: the websocket is not NULL. -/
def refuse (onclose ws : Bool) (a : Ans) : Res Out :=
  if onclose && !ws then .ub
  else .ok { answer := a, onclose := if onclose then 1 else 0, held := false, active := false }

/-- The first string of a header that is not empty, ulfius.c:762. -/
def nonEmpty (s : Option Bytes) : Option Bytes := if s = some [] then none else s

/-- `MHD_add_response_header` whose result nobody looks at, ulfius.c:753–766. -/
def sent (ok : Bool) (s : Option Bytes) : Option Bytes := if ok then s else none

/-- ulfius.c:736–786, the request is right: copy it, make the response. `status`: that of the application. -/
def upgrade (mem : Mem) (onclose : Bool) (status : Nat) (accept : Bytes) (proto ext : Option Bytes) (rsv : UInt8) (es : List SrvExt) :
    Res Out :=
  if mem.request then
    if mem.upgrade then
      if mem.headers then
        .ok { answer := .upgrade (mem.field 0) (sent (mem.field 1) (some accept)) (sent (mem.field 2) proto) (sent (mem.field 3) (nonEmpty ext))
                rsv (es.map (·.enabled)),
              onclose := 0, held := false, active := true }
      -- the response of the upgrade is queued with the status of the application (1033); libmicrohttpd takes only 101
      else if status = 101 then .ub else refuse onclose true .closed
    -- 749–751: no error is noted, nobody frees the websocket
    else .ok { answer := .closed, onclose := 0, held := true, active := false }
  else refuse onclose true (error500 mem)

/-- `ulfius_webservice_dispatcher`, ulfius.c:665–840. -/
def serve (mem : Mem) (onclose : Bool) (status : Nat) (accept : Bytes → Option Bytes) (m : UMap) (protocol verb : Option Bytes) (h : Handle) :
    Res Out :=
  if mem.websocket = false then refuse onclose false (error500 mem)
  else if mem.manager = false then refuse onclose true (error500 mem)
  -- u_websocket.c:1782–1798: `||` stops at the first failure, and `message_list_outcoming`, never set, is freed
  else if mem.incoming = false then .ub
  else if mem.outcoming = false then refuse onclose true (error500 mem)
  else do
    if ← validUpgrade m protocol verb then
      let (okE, ext, rsv, es) ← srvExtensions mem m h
      let offered ← header m b!"Sec-WebSocket-Protocol"
      let (okP, proto) := firstMatch mem offered h.protocol 0x2c
      if okE && okP then
        match ← header m b!"Sec-WebSocket-Key" with
        | some key =>
          match (if mem.digest then accept key else none) with
          | some a => upgrade mem onclose status a proto ext rsv es
          | none => refuse onclose true (error500 mem)
        | none => refuse onclose true (error500 mem)
      else refuse onclose true (error400 mem)
    else refuse onclose true (error400 mem)

end Verif.OomHandshake
