import Verif.Model.MemoryWs
import Verif.Model.Endpoint
import Verif.Model.Dispatch
/-!
# Model of the blocks the server allocates for a request: `src/ulfius.c:68–134, 207–1069`, `src/u_request.c:41–260`, as far as memory is concerned

Conventions of `Model/Memory`. One request is followed from `ulfius_uri_logger` to `mhd_request_completed`. Callbacks are any sequences of calls
on request and response with any result. Of libmicrohttpd the objects count that the server makes through it: the post processor, the answer
with the buffer it was handed (freed with the last reference to it), user name and password of basic authentication. Whether it makes them,
accepts header fields and queues the answer are parameters. Websockets: `Model/MemoryWs`. Matters of the program: `shared_data`, data of streams.
-/
namespace Verif.Memory
open Verif.UMap (Rc)
open Verif.Endpoint (Endpoint slashWords splitUrl formatMatch skipPrefix byte0 emptyEndpoint)
open Verif.Utf8 (utf8Ok)

/-! ## Maps -/

/-- The search of `u_map_get` and `u_map_has_key`: the length of the value. -/
def seek (h : Heap) (k : Bytes) : List Entry → Res (Option Nat)
  | [] => .ok none
  | e :: t => do
    let _ ← need h e.kp
    if e.key = k then do
      let _ ← need h e.vp
      return some e.len
    else seek h k t

/-- `u_map_empty`, u_map.c:528–535. -/
def mapEmpty (h : Heap) (m : RMap) : Res (RMap × Heap) := do
  let h ← mapClean h m
  return mapInit h m.box

/-- `u_map_copy_into`, u_map.c:489–505. -/
def mapCopyInto (h : Heap) (dest src : RMap) : Res (RMap × Heap) := do
  let _ ← need h src.box
  let _ ← need h src.keys
  let (_, dest, h) ← copyEntries h dest src.entries
  return (dest, h)

/-- `ulfius_fill_map`, `ulfius_fill_map_check_utf8`, ulfius.c:68–134: `false` is `MHD_NO`. -/
def fillMap (check : Bool) (h : Heap) (m : RMap) (k : Bytes) (v : Option Bytes) : Res (Bool × RMap × Heap) :=
  if check && !(utf8Ok k && (v.isNone || utf8Ok (v.getD []))) then .ok (true, m, h)
  else do
    let _ ← need h m.box
    let _ ← need h m.keys
    let old ← seek h k m.entries
    if 0 < old.getD 0 then do
      let (t, h) := malloc h
      let (rc, m, h) ← putBinary h m (some k) true (old.getD 0 + 1 + (v.getD []).length)
      let h ← free h t
      return (decide (rc = .ok), m, h)
    else do
      let (rc, m, h) ← put h m (some k) (some (v.getD []))
      return (decide (rc = .ok), m, h)

/-- `MHD_get_connection_values`: up to the first `MHD_NO`. -/
def collect (check : Bool) (h : Heap) (m : RMap) : List (Bytes × Option Bytes) → Res (RMap × Heap)
  | [] => .ok (m, h)
  | (k, v) :: t => do
    let (go, m, h) ← fillMap check h m k v
    if go then collect check h m t else return (m, h)

/-- `collect` on a map of the request. -/
def collectIn (check : Bool) (h : Heap) (r : Req) (i : MapId) (l : List (Bytes × Option Bytes)) : Res (Req × Heap) :=
  match r.map i with
  | none => .ok (r, h)
  | some m => do let (m, h) ← collect check h m l; return (r.setMap i (some m), h)

/-! ## Before the callbacks -/

/-- Fields of the instance. -/
structure Server where
  check : Bool
  maxBody : Nat
  maxParam : Nat
  upload : Bool
  /-- `default_headers`, blocks of the instance -/
  headers : Option RMap := none

/-- `struct connection_info_struct` and what libmicrohttpd keeps for the request. `initial` is part of the block of the struct; `request` is
NULL after an error. -/
structure Con where
  initial : RMap
  request : Option Req
  processor : P := .null
  /-- the answer that was queued -/
  queued : List P := []

/-- `ulfius_uri_logger`, ulfius.c:207–246. -/
def uriLogger (h : Heap) : Res (Con × Heap) := do
  let (con, h) := malloc h
  let (m, h) := mapInit h con
  let (box, h) := malloc h
  let (_, r, h) ← initRequest h box
  let (u, h) := malloc h
  let (p, h) := malloc h
  return (⟨m, some ((r.set .url u).set .urlPath p), .null, []⟩, h)

/-- What the first call of the dispatcher finds. -/
structure Arrival where
  /-- a client certificate; `false`: its import fails -/
  cert : Option Bool
  headers : List (Bytes × Option Bytes)
  query : List (Bytes × Option Bytes)
  cookies : List (Bytes × Option Bytes)
  /-- the content type asks for a post processor; `false`: libmicrohttpd does not make one -/
  processor : Option Bool

/-- The client certificate, ulfius.c:505–523: after a failed import the pointer stays. -/
def certificate (h : Heap) (r : Req) : Option Bool → Res (Req × Heap)
  | none => .ok (r, h)
  | some ok => do
    let (c, h) := malloc h
    let h ← (if ok then .ok h else free h c)
    return (r.set .cert c, h)

/-- The post processor, ulfius.c:547–559. -/
def postProcessor (h : Heap) (con : Con) (r : Req) : Option Bool → Res (Bool × Con × Heap)
  | none => .ok (true, { con with request := some r }, h)
  | some true => let (p, h) := malloc h; .ok (true, { con with request := some r, processor := p }, h)
  | some false => do
    let h ← cleanRequestFull h r
    return (false, { con with request := none }, h)

/-- The first call of the dispatcher, ulfius.c:503–560: `false` is `MHD_NO`. -/
def first (s : Server) (h : Heap) (con : Con) (a : Arrival) : Res (Bool × Con × Heap) :=
  match con.request with
  | none => .ub
  | some r => do
    let (r, h) ← certificate h r a.cert
    let (v, h) := malloc h
    let (m, h) := malloc h
    let (d, h) := malloc h
    let r := ((r.set .protocol v).set .verb m).set .address d
    let (r, h) ← collectIn s.check h r .header a.headers
    let (i, h) ← collect s.check h con.initial a.query
    let (r, h) ← collectIn s.check h r .cookie a.cookies
    postProcessor h { con with initial := i } r a.processor

/-- A piece of a form field as the post processor hands it over. -/
structure Item where
  key : Bytes
  filename : Option Bytes
  data : Bytes
  off : Nat

/-- The name of the file, ulfius.c:387–392. -/
def itemName (h : Heap) (m : RMap) (i : Item) : Res (P × RMap × Heap) :=
  match i.filename with
  | none => .ok (.null, m, h)
  | some f => do
    let (p, h) := malloc h
    let old ← seek h (i.key ++ b!"_filename") m.entries
    if old.isSome then return (p, m, h)
    else do
      let (_, m, h) ← put h m (some (i.key ++ b!"_filename")) (some f)
      return (p, m, h)

/-- The data, ulfius.c:393–419; `n` bytes of them. -/
def itemData (h : Heap) (m : RMap) (i : Item) (n : Nat) : Res (RMap × Heap) := do
  let old ← seek h i.key m.entries
  let len := old.getD 0
  if 0 < len then
    if i.off ≠ 0 then do
      let (_, m, h) ← putBinary h m (some i.key) true (len + n)
      return (m, h)
    else do
      let (_, m, h) ← putBinary h m (some i.key) true (len + 1)
      let (_, m, h) ← putBinary h m (some i.key) true (len + 1 + n)
      return (m, h)
  else do
    let (_, m, h) ← putBinary h m (some i.key) true n
    return (m, h)

/-- `mhd_iterate_post_data`, ulfius.c:338–424. -/
def iteratePost (s : Server) (h : Heap) (m : RMap) (i : Item) : Res (RMap × Heap) :=
  if i.filename.isSome && s.upload then .ok (m, h)
  else if s.check && (!utf8Ok i.key || !utf8Ok i.data || (i.filename.isSome && !utf8Ok (i.filename.getD []))) then .ok (m, h)
  else if decide (0 < s.maxParam) && decide (s.maxParam < i.off) then .ok (m, h)
  else do
    let n := if decide (0 < s.maxParam) && decide (s.maxParam < i.off + i.data.length) then s.maxParam - i.off else i.data.length
    let (p, m, h) ← itemName h m i
    let (m, h) ← itemData h m i n
    let h ← free h p
    return (m, h)

/-- The form fields of one upload. -/
def iterateAll (s : Server) (h : Heap) (m : RMap) : List Item → Res (RMap × Heap)
  | [] => .ok (m, h)
  | i :: t => do let (m, h) ← iteratePost s h m i; iterateAll s h m t

/-- A call with `n` bytes of the body, ulfius.c:561–589; `items`: the form fields in them. -/
def upload (s : Server) (h : Heap) (con : Con) (n : Nat) (items : List Item) : Res (Con × Heap) :=
  match con.request with
  | none => .ub
  | some r => do
    let len := if 0 < s.maxBody ∧ s.maxBody < r.bodyLen + n then s.maxBody else r.bodyLen + n
    if r.bodyLen ≤ len then do
      let (b, h) ← realloc h (r.slot .body)
      let r := { r.set .body b with bodyLen := len }
      match r.map .post with
      | none => return ({ con with request := some r }, h)
      | some m => do
        let (m, h) ← iterateAll s h m items
        return ({ con with request := some (r.setMap .post (some m)) }, h)
    else return (con, h)

/-- All of them. -/
def uploads (s : Server) (h : Heap) (con : Con) : List (Nat × List Item) → Res (Con × Heap)
  | [] => .ok (con, h)
  | (n, items) :: t => do let (con, h) ← upload s h con n items; uploads s h con t

/-! ## Endpoints -/

/-- An array of strings that ends with NULL. -/
structure Words where
  array : P
  strings : List P

/-- The loops of `ulfius_split_url`, u_request.c:50–62 and 69–85: the array grows by one for each word. -/
def addWords (h : Heap) (a : Words) : Nat → Res (Words × Heap)
  | 0 => .ok (a, h)
  | n + 1 => do
    let (p, h) ← realloc h a.array
    let (w, h) := malloc h
    addWords h ⟨p, a.strings ++ [w]⟩ n

/-- `ulfius_split_url`, u_request.c:41–95. -/
def splitMem (h : Heap) (pfx url : Option Bytes) : Res (Words × Heap) := do
  let (a, h) := malloc h
  let (p, h) := strdup h pfx
  let (w, h) ← addWords h ⟨a, []⟩ (splitUrl pfx none).length
  let h ← free h p
  let (u, h) := strdup h url
  let (w, h) ← addWords h w (splitUrl none url).length
  let h ← free h u
  return (w, h)

/-- `u_map_clean_enum`, u_map.c:98–110; `none`: NULL. -/
def cleanEnum (h : Heap) : Option Words → Res Heap
  | none => .ok h
  | some w => do
    let _ ← need h w.array
    freeAll h (w.strings ++ [w.array])

/-- The copy of an endpoint in a block `box`. -/
structure EpCopy where
  of : Endpoint
  box : P
  method : P
  pfx : P
  format : P

/-- `ulfius_copy_endpoint`, ulfius.c:1357–1372. -/
def copyEndpoint (h : Heap) (box : P) (e : Endpoint) : EpCopy × Heap :=
  let (m, h) := strdup h e.method
  let (p, h) := strdup h e.pfx
  let (f, h) := strdup h e.format
  (⟨e, box, m, p, f⟩, h)

/-- One endpoint in `ulfius_endpoint_match`, u_request.c:153–178: the array `arr`, the copies so far. -/
def matchOne (h : Heap) (method url : Bytes) (arr : P) (found : List EpCopy) (e : Endpoint) : Res (P × List EpCopy × Heap) :=
  match e.method with
  | none => .ub
  | some m =>
    if eqCase m method || byte0 m == 0x2a then do
      let (w, h) ← splitMem h e.pfx e.format
      if formatMatch (slashWords url) (splitUrl e.pfx e.format) then do
        let (arr, h) ← realloc h arr
        let (box, h) := malloc h
        let (c, h) := copyEndpoint h box e
        let h ← cleanEnum h (some w)
        let h ← cleanEnum h none
        return (arr, found ++ [c], h)
      else do
        let h ← cleanEnum h (some w)
        return (arr, found, h)
    else .ok (arr, found, h)

/-- The loop of `ulfius_endpoint_match`, u_request.c:152–180. -/
def matchMem (h : Heap) (method url : Bytes) (arr : P) (found : List EpCopy) : List Endpoint → Res (P × List EpCopy × Heap)
  | [] => .ok (arr, found, h)
  | e :: t => do
    let (arr, found, h) ← matchOne h method url arr found e
    matchMem h method url arr found t

/-- `ulfius_endpoint_match`, u_request.c:139–189; `sort`: what `qsort` does. -/
def endpointMatchMem (h : Heap) (method url : Bytes) (eps : List Endpoint) (sort : List EpCopy → List EpCopy) : Res (P × List EpCopy × Heap) := do
  let (arr, h) := malloc h
  let (w, h) ← splitMem h (some url) none
  let (arr, found, h) ← matchMem h method url arr [] eps
  let h ← cleanEnum h (some w)
  return (arr, sort found, h)

/-- The end of the dispatcher, ulfius.c:1062–1066. -/
def freeEndpoints (h : Heap) (arr : P) : List EpCopy → Res Heap
  | [] => free h arr
  | c :: t => do
    let _ ← need h c.box
    let h ← freeAll h [c.method, c.pfx, c.format, c.box]
    freeEndpoints h arr t

/-- The first loop of `ulfius_parse_url`, u_request.c:209–214: `cur` is the current word of the URL. -/
def skipMem (h : Heap) (cur : P) : (pfx url : List Bytes) → Res (P × Heap)
  | _ :: ps, _ :: us => do
    let h ← free h cur
    let (w, h) := strdup h us.head?
    skipMem h w ps us
  | _, _ => .ok (cur, h)

/-- `ulfius_url_decode` of a word, never undefined (C03). -/
def decoded (u : Bytes) : Bytes :=
  match UrlCodec.urlDecode (some u) with
  | .ok (some w) => w
  | _ => []

/-- The second loop, u_request.c:224–250: `false` is an error. -/
def paramMem (check : Bool) (h : Heap) (m : RMap) (cur : P) : (fmt url : List Bytes) → Res (Bool × P × RMap × Heap)
  | f :: fs, u :: us => do
    let _ ← need h cur
    let (ok, m, h) ←
      (if (byte0 f == 0x3a || byte0 f == 0x40) && (!check || utf8Ok (decoded u)) then do
        let old ← seek h (f.drop 1) m.entries
        if old.isSome then do
          let (c, h) := malloc h
          let (rc, m, h) ← putBinary h m (some (f.drop 1)) true (old.getD 0 + 1 + (decoded u).length)
          let h ← (if rc = .ok then free h c else .ok h)
          return (decide (rc = .ok), m, h)
        else do
          let (rc, m, h) ← put h m (some (f.drop 1)) (some (decoded u))
          return (decide (rc = .ok), m, h)
      else .ok (true, m, h))
    if ok then do
      let h ← free h cur
      let (w, h) := strdup h us.head?
      paramMem check h m w fs us
    else return (false, cur, m, h)
  | _, _ => .ok (true, cur, m, h)

/-- `ulfius_parse_url`, u_request.c:196–260: after an error the copies of URL and format and the word stay allocated (236–245). -/
def parseMem (check : Bool) (h : Heap) (m : RMap) (url : Bytes) (e : Endpoint) : Res (RMap × Heap) := do
  let (u, h) := malloc h
  let (p, h) := strdup h e.pfx
  let us := slashWords url
  let (w, h) := strdup h us.head?
  let ps := (e.pfx.map slashWords).getD []
  let (w, h) ← skipMem h w ps us
  let h ← free h p
  let (f, h) := strdup h e.format
  let (ok, w, m, h) ← paramMem check h m w ((e.format.map slashWords).getD []) (skipPrefix ps us)
  if ok then do
    let h ← freeAll h [w, u, f]
    return (m, h)
  else return (m, h)

/-! ## Callbacks and the answer -/

/-- What a callback does, and what libmicrohttpd makes of it: `created`: the answer is made; `accepted`: its header fields and cookies are
taken. -/
structure Turn where
  reqOps : List Op
  respOps : List ROp
  ret : Int
  /-- a stream was set on the response -/
  stream : Bool := false
  created : Bool := true
  accepted : Bool := true
  /-- the callback asked for a websocket -/
  upgrade : Option Handshake := none

/-- The calls on the request. -/
def steps (h : Heap) (r : Req) : List Op → Res (Req × Heap)
  | [] => .ok (r, h)
  | o :: t => do let (r, h) ← step h r o; steps h r t

/-- The calls on the response. -/
def rsteps (h : Heap) (r : Resp) : List ROp → Res (Resp × Heap)
  | [] => .ok (r, h)
  | o :: t => do let (r, h) ← rstep h r o; rsteps h r t

/-- The answer: its blocks are the object of libmicrohttpd and the buffer it was handed. `MHD_create_response_…`; if it is not made, the buffer
stays (`none`). -/
def create (h : Heap) (buffer : P) (ok : Bool) : Option (List P) × Heap :=
  if ok then let (a, h) := malloc h; (some [buffer, a], h) else (none, h)

/-- `ulfius_get_body_from_response`, ulfius.c:254–280. -/
def bodyBuffer (h : Heap) (r : Resp) : Res (P × Heap) :=
  if r.body ≠ .null ∧ 0 < r.bodyLen then do
    let _ ← need h r.body
    return malloc h
  else .ok (.null, h)

/-- `U_CALLBACK_COMPLETE`, ulfius.c:874–898. -/
def complete (h : Heap) (r : Resp) (t : Turn) : Res (Option (List P) × Resp × Heap) := do
  let (b, h) ← bodyBuffer h r
  match create h b t.created with
  | (none, h) => return (none, r, h)
  | (some a, h) => do
    let (_, h) ← setFields h r t.accepted
    return (some a, r, h)

/-- `U_CALLBACK_UNAUTHORIZED`, ulfius.c:899–937: if fields are refused the body of the response is replaced (908). -/
def unauthorized (h : Heap) (r : Resp) (t : Turn) : Res (Option (List P) × Resp × Heap) := do
  let (b, h) ← bodyBuffer h r
  let (a, h) := create h b t.created
  let (ok, h) ← (if a.isSome then setFields h r t.accepted else .ok (false, h))
  if ok then return (a, r, h)
  else do
    let (p, h) := malloc h
    return (a, { r with body := p, bodyLen := 12 }, h)

/-- `U_CALLBACK_ERROR` and other values, ulfius.c:938–952. -/
def failed (h : Heap) (r : Resp) (t : Turn) : Res (Option (List P) × Resp × Heap) :=
  let (b, h) := malloc h
  let (a, h) := create h b t.created
  .ok (a, r, h)

/-- The switch of the loop, ulfius.c:866–953. -/
def conclude (h : Heap) (r : Resp) (t : Turn) (ret : Int) : Res (Option (List P) × Resp × Heap) :=
  if ret = Dispatch.cbComplete then complete h r t
  else if ret = Dispatch.cbUnauthorized then unauthorized h r t
  else failed h r t

/-- A stream, ulfius.c:655–667. -/
def streamed (h : Heap) (r : Resp) (t : Turn) : Res (Option (List P) × Resp × Heap) :=
  match create h .null t.created with
  | (none, h) => .ok (none, r, h)
  | (some a, h) => do
    let (_, h) ← setFields h r t.accepted
    return (some a, r, h)

/-- The parameters of the URL for one callback, ulfius.c:638–643. -/
def urlParams (s : Server) (h : Heap) (q : Req) (initial : RMap) (url : Bytes) (e : Endpoint) : Res (Req × Heap) :=
  match q.map .url with
  | none => .ok (q, h)
  | some m => do
    let (m, h) ← mapEmpty h m
    let (m, h) ← mapCopyInto h m initial
    let (m, h) ← parseMem s.check h m url e
    return (q.setMap .url (some m), h)

/-- `U_CALLBACK_CONTINUE` or `U_CALLBACK_IGNORE`. -/
def goesOn (ret : Int) : Bool := decide (ret = Dispatch.cbContinue) || decide (ret = Dispatch.cbIgnore)

/-- The loop over the endpoints, ulfius.c:636–955; `turns`: what the callback does that is called at this place. `counted`: a callback did not return
`U_CALLBACK_IGNORE`. -/
def loop (s : Server) (initial : RMap) (url : Bytes) (tb : Table) (h : Heap) (q : Req) (r : Resp) (counted : Bool) :
    List EpCopy → (turns : Nat → Turn) → Res (Bool × Option (List P) × Up × Req × Resp × Heap)
  | c :: cs, turns => do
    let t := turns 0
    let _ ← need h c.box
    let (q, h) ← urlParams s h q initial url c.of
    let (q, h) ← steps h q t.reqOps
    let (r, h) ← rsteps h r t.respOps
    let counted := counted || decide (t.ret ≠ Dispatch.cbIgnore)
    if t.stream then do
      let (a, r, h) ← streamed h r t
      return (counted, a, ⟨tb, none, .null⟩, q, r, h)
    else match t.upgrade with
    | some k => do
      let (a, up, r, h) ← openWs h tb q r k t.created t.accepted
      return (counted, a, up, q, r, h)
    | none =>
      if goesOn t.ret && !cs.isEmpty then loop s initial url tb h q r counted cs (fun n => turns (n + 1))
      else do
        let (a, r, h) ← conclude h r t (if goesOn t.ret then Dispatch.cbComplete else t.ret)
        return (counted, a, ⟨tb, none, .null⟩, q, r, h)
  | [], _ => .ok (counted, none, ⟨tb, none, .null⟩, q, r, h)

/-- The default endpoint when no callback counted, ulfius.c:957–1030. -/
def fallback (h : Heap) (q : Req) (r : Resp) (a : Option (List P)) (t : Turn) : Res (Option (List P) × Req × Resp × Heap) := do
  let h ← freeAll h (a.getD [])
  let (q, h) ← steps h q t.reqOps
  let (r, h) ← rsteps h r t.respOps
  let (a, r, h) ←
    (if goesOn t.ret || decide (t.ret = Dispatch.cbComplete) then complete h r t
    else if t.ret = Dispatch.cbUnauthorized then unauthorized h r t
    else if t.ret = Dispatch.cbError then failed h r t
    else .ok (none, r, h))
  return (a, q, r, h)

/-- Queueing and destruction, ulfius.c:1032–1053: without answer the response stays. The blocks of an answer that was queued are kept. If it opens a
websocket, `cls`, `ulfius_start_websocket_cb` is called with it (u_websocket.c:1193–1240). -/
def send (h : Heap) (r : Resp) (a : Option (List P)) (cls : P) (queued : Bool) : Res (List P × Heap) :=
  match a with
  | none => .ok ([], h)
  | some a => do
    let _ ← (if queued then touch h cls else .ok ())
    let h ← (if queued then .ok h else freeAll h a)
    let h ← cleanResponseFull h r
    return (if queued then a else [], h)

/-- `response->map_header` when the instance has default headers, ulfius.c:627–630. -/
def defaultHeaders (s : Server) (h : Heap) (r : Resp) : Res (Resp × Heap) :=
  match s.headers with
  | some d =>
    if d.entries = [] then .ok (r, h)
    else do
      let h ← mapCleanFull h r.header
      let (m, h) ← mapCopy h (some d)
      return ({ r with header := m }, h)
  | none => .ok (r, h)

/-- What the last call of the dispatcher finds. -/
structure Call where
  method : Bytes
  url : Bytes
  endpoints : List Endpoint
  sort : List EpCopy → List EpCopy
  /-- what the callbacks do, in the order of the calls -/
  turns : Nat → Turn
  /-- the default endpoint, and what its callback does when the endpoints ignored the request -/
  dflt : Option (Endpoint × Turn)
  /-- credentials of basic authentication -/
  credentials : Bool
  queued : Bool
  /-- the answer "not found" is made -/
  created : Bool

/-- With endpoints, ulfius.c:615–1054. Nobody knows the websocket any more whose answer is replaced by the one of the default endpoint, or is not
queued. -/
def callEndpoints (s : Server) (tb : Table) (h : Heap) (con : Con) (q : Req) (cs : List EpCopy) (x : Call) : Res (Con × Table × Option Ws × Heap) := do
  let (box, h) := malloc h
  let (r, h) := initResponse h box
  let (r, h) ← defaultHeaders s h r
  let (q, h) := if x.credentials then
      let (u, h) := malloc h
      let (p, h) := malloc h
      ((q.set .user u).set .password p, h)
    else (q, h)
  let (counted, a, up, q, r, h) ← loop s con.initial x.url tb h q r false cs x.turns
  let (a, up, q, r, h) ←
    (match x.dflt with
    | some (_, t) =>
      if counted then .ok (a, up, q, r, h)
      else do
        let (a, q, r, h) ← fallback h q r a t
        return (a, ⟨up.table, none, .null⟩, q, r, h)
    | none => .ok (a, up, q, r, h))
  let (k, h) ← send h r a up.cls x.queued
  return ({ con with request := some q, queued := k }, up.table, (if x.queued then up.socket else none), h)

/-- Without, ulfius.c:1055–1064. -/
def notFound (h : Heap) (con : Con) (x : Call) : Res (Con × Heap) := do
  let (b, h) := malloc h
  match create h b x.created with
  | (none, h) => return (con, h)
  | (some a, h) =>
    if x.queued then return ({ con with queued := a }, h)
    else do
      let h ← freeAll h a
      return (con, h)

/-- The default endpoint if no endpoint matches, ulfius.c:594–608. -/
def orDefault (h : Heap) (arr : P) (cs : List EpCopy) (dflt : Option (Endpoint × Turn)) : Res (P × List EpCopy × Heap) :=
  match cs, dflt with
  | [], some (e, _) => do
    let (arr, h) ← realloc h arr
    let (box, h) := malloc h
    let (c, h) := copyEndpoint h box e
    return (arr, [c], h)
  | cs, _ => .ok (arr, cs, h)

/-- The last call of the dispatcher, ulfius.c:590–1068. -/
def dispatch (s : Server) (tb : Table) (h : Heap) (con : Con) (x : Call) : Res (Con × Table × Option Ws × Heap) :=
  match con.request with
  | none => .ub
  | some q => do
    let (arr, cs, h) ← endpointMatchMem h x.method x.url x.endpoints x.sort
    let (arr, cs, h) ← orDefault h arr cs x.dflt
    if cs.isEmpty then do
      let (con, h) ← notFound h con x
      let h ← freeEndpoints h arr cs
      return (con, tb, none, h)
    else do
      let (con, tb, w, h) ← callEndpoints s tb h con q cs x
      let h ← freeEndpoints h arr cs
      return (con, tb, w, h)

/-- `mhd_request_completed`, ulfius.c:310–329; the answer that was queued goes with the connection. -/
def completed (h : Heap) (con : Con) : Res Heap := do
  let h ← free h con.processor
  let h ← (match con.request with
    | some r => cleanRequestFull h r
    | none => .ok h)
  let h ← mapClean h con.initial
  let h ← free h con.initial.box
  freeAll h con.queued

/-- How far a request gets before the connection is lost. -/
inductive Reach where
  /-- the request line -/
  | line
  /-- the header -/
  | header (a : Arrival)
  /-- a part of the body, or all of it -/
  | body (a : Arrival) (parts : List (Nat × List Item))
  /-- the callbacks -/
  | whole (a : Arrival) (parts : List (Nat × List Item)) (x : Call)

/-- One request. After `MHD_NO` there are no more calls. -/
def request (s : Server) (tb : Table) (h : Heap) (x : Reach) : Res (Table × Option Ws × Heap) := do
  let (con, h) ← uriLogger h
  match x with
  | .line => do
    let h ← completed h con
    return (tb, none, h)
  | .header a => do
    let (_, con, h) ← first s h con a
    let h ← completed h con
    return (tb, none, h)
  | .body a parts => do
    let (go, con, h) ← first s h con a
    let (con, h) ← (if go then uploads s h con parts else .ok (con, h))
    let h ← completed h con
    return (tb, none, h)
  | .whole a parts x => do
    let (go, con, h) ← first s h con a
    if go then do
      let (con, h) ← uploads s h con parts
      let (con, tb, w, h) ← dispatch s tb h con x
      let h ← completed h con
      return (tb, w, h)
    else do
      let h ← completed h con
      return (tb, none, h)

/-! ## Requests and websockets -/

/-- A server at work: the websockets in the order in which they were opened, `none` for requests that opened none and for websockets that ended; the
messages callbacks took out of lists, `none` for those that were cleared. -/
structure Srv where
  heap : Heap
  table : Table := {}
  socks : List (Option Live) := []
  held : List (Option Msg) := []

/-- What happens on a server. -/
inductive Happens where
  | request (x : Reach)
  /-- something happens to websocket `i` -/
  | event (i : Nat) (e : Ev)
  /-- websocket `i` ends; `calls`: what `websocket_onclose_callback` does -/
  | ends (i : Nat) (calls : List MOp)

/-- One of them. -/
def happen (s : Server) (v : Srv) : Happens → Res Srv
  | .request x => do
    let (t, w, h) ← request s v.table v.heap x
    return ⟨h, t, v.socks ++ [w.map (fun w => ⟨w, none⟩)], v.held⟩
  | .event i e =>
    match v.socks[i]? with
    | some (some l) => do
      let (l, held, h) ← event v.heap l v.held e
      return ⟨h, v.table, v.socks.set i (some l), held⟩
    | _ => .ok v
  | .ends i calls =>
    match v.socks[i]? with
    | some (some l) => do
      let (t, held, h) ← finish v.heap v.table l v.held calls
      return ⟨h, t, v.socks.set i none, held⟩
    | _ => .ok v

/-- One after the other. -/
def happens (s : Server) (v : Srv) : List Happens → Res Srv
  | [] => .ok v
  | x :: t => do let v ← happen s v x; happens s v t

/-! ## The instance -/

/-- Blocks of `struct _u_instance` (endpoints and events are left out). -/
structure Inst where
  realm : P
  headers : RMap
  handler : P

/-- `internal_ulfius_init_instance`, ulfius.c:1697–1723. -/
def initInstance (h : Heap) (realm : Option Bytes) : Inst × Heap :=
  let (a, h) := strdup h realm
  let (b, h) := malloc h
  let (m, h) := mapInit h b
  let (w, h) := malloc h
  (⟨a, m, w⟩, h)

/-- `u_map_put` on `default_headers`, by the program. -/
def setDefaults (h : Heap) (m : RMap) : List (Option Bytes × Option Bytes) → Res (RMap × Heap)
  | [] => .ok (m, h)
  | (k, v) :: t => do let (_, m, h) ← put h m k v; setDefaults h m t

/-- `ulfius_clean_instance`, ulfius.c:1645–1670. -/
def cleanInstance (h : Heap) (i : Inst) : Res Heap := do
  let h ← mapCleanFull h (some i.headers)
  let h ← free h i.realm
  free h i.handler

/-- The life of a server: `ulfius_init_instance`, default headers, requests and websockets, `ulfius_clean_instance`. -/
def serve (s : Server) (realm : Option Bytes) (defaults : List (Option Bytes × Option Bytes)) (h : Heap) (l : List Happens) : Res Srv := do
  let (i, h) := initInstance h realm
  let (m, h) ← setDefaults h i.headers defaults
  let v ← happens { s with headers := some m } ⟨h, {}, [], []⟩ l
  let h ← cleanInstance v.heap { i with headers := m }
  return { v with heap := h }

end Verif.Memory
