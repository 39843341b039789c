import Verif.Model.Memory
/-!
# Model of the blocks responses own: `src/u_response.c`, `src/u_websocket.c:1845–1960`, `src/u_send_request.c:136–259`, as far as memory is concerned

Conventions of `Model/Memory`. `shared_data`, `stream_user_data` and the user data of websockets belong to the program and are left out. Of the
client the changes to the response are modelled, not its local blocks.
-/
namespace Verif.Memory
open Verif.UMap (Rc)

/-- `struct _u_cookie`, include/ulfius.h:215–225: the text of the key and the blocks. -/
structure Ck where
  text : Bytes
  key : P
  value : P
  expires : P
  domain : P
  path : P
  deriving DecidableEq, Repr

/-- `struct _websocket_extension`: its block and those of its texts. -/
structure Ext where
  box : P
  server : P
  client : P
  deriving DecidableEq, Repr

/-- `struct _websocket_handle` of a response; `list` and `array`: the `struct _pointer_list` and its array. -/
structure WsH where
  box : P
  protocol : P
  extensions : P
  list : P
  array : P := .null
  exts : List Ext := []
  deriving DecidableEq, Repr

/-- `struct _u_response` in the block `box` (NULL: a variable of the caller), include/ulfius.h:273–291. -/
structure Resp where
  box : P := .null
  protocol : P := .null
  realm : P := .null
  body : P := .null
  bodyLen : Nat := 0
  header : Option RMap
  array : P := .null
  cookies : List Ck := []
  ws : Option WsH
  deriving DecidableEq, Repr

/-- `ulfius_init_response`, u_response.c:374–425. -/
def initResponse (h : Heap) (box : P) : Resp × Heap :=
  let (b, h) := malloc h
  let (m, h) := mapInit h b
  let (w, h) := malloc h
  let (l, h) := malloc h
  (⟨box, .null, .null, .null, 0, some m, .null, [], some ⟨w, .null, .null, l, .null, []⟩⟩, h)

/-- The blocks of a cookie in the order of `ulfius_clean_cookie`, u_response.c:292–296. -/
def ckPtrs (c : Ck) : List P := [c.key, c.value, c.expires, c.domain, c.path]

/-- The blocks of an extension in the order of `ulfius_free_websocket_extension`, u_websocket.c:69–75. -/
def extPtrs (e : Ext) : List P := [e.server, e.client, e.box]

/-- A list of orcania that may be NULL is looked at. -/
def touch (h : Heap) (p : P) : Res Unit := if p = .null then .ok () else need h p

/-- The websocket part of `ulfius_clean_response`, u_response.c:349–357: `websocket_extension_list` is NULL once a websocket took it over. -/
def cleanHandle (h : Heap) : Option WsH → Res Heap
  | none => .ok h
  | some w => do
    let _ ← need h w.box
    let h ← freeAll h [w.protocol, w.extensions]
    let _ ← touch h w.list
    let h ← freeAll h (w.exts.flatMap extPtrs)
    freeAll h [w.array, w.list, w.box]

/-- `ulfius_clean_response`, u_response.c:333–363: the cookies are reached through the array; their number and `websocket_handle` keep
their values. -/
def cleanResponse (h : Heap) (r : Resp) : Res (Resp × Heap) := do
  let h ← free h r.protocol
  let h ← mapCleanFull h r.header
  let _ ← (if r.cookies = [] then .ok () else need h r.array)
  let h ← freeAll h (r.cookies.flatMap ckPtrs)
  let h ← freeAll h [r.realm, r.array, r.body]
  let h ← cleanHandle h r.ws
  return ({ r with protocol := .null, header := none, realm := .null, array := .null, body := .null }, h)

/-- `ulfius_clean_response_full`, u_response.c:365–372. -/
def cleanResponseFull (h : Heap) (r : Resp) : Res Heap := do
  let (r, h) ← cleanResponse h r
  free h r.box

/-- `u_map_put` on the headers. -/
def rput (h : Heap) (r : Resp) (k v : Option Bytes) : Res (Rc × Resp × Heap) :=
  match r.header with
  | none => .ok (.params, r, h)
  | some m => do let (rc, m, h) ← put h m k v; return (rc, { r with header := some m }, h)

/-- `u_map_remove_from_key`, `u_map_remove_from_key_case` on the headers. -/
def rremove (h : Heap) (r : Resp) (k : Option Bytes) (same : Bytes → Bytes → Bool) : Res (Rc × Resp × Heap) :=
  match r.header with
  | none => .ok (.params, r, h)
  | some m => do let (rc, m, h) ← remove h m k same; return (rc, { r with header := some m }, h)

/-- `o_free(response->binary_body)` and a new body (`none`: no body), u_response.c:517–568. -/
def rbody (h : Heap) (r : Resp) (v : Option Bytes) : Res (Resp × Heap) := do
  let h ← free h r.body
  let (p, h) := strdup h v
  return ({ r with body := p, bodyLen := (v.getD []).length }, h)

/-- The loop over the cookies in `ulfius_add_same_site_cookie_to_response`, u_response.c:217–245. -/
def replaceCookie (h : Heap) (key : Bytes) (expires domain path : Option Bytes) : List Ck → Res (Option (List Ck × Heap))
  | [] => .ok none
  | c :: t => do
    let _ ← need h c.key
    if c.text = key then do
      let h ← freeAll h [c.value, c.expires, c.domain, c.path]
      let (v, h) := malloc h
      let (e, h) := strdup h expires
      let (d, h) := strdup h domain
      let (p, h) := strdup h path
      return some ({ c with value := v, expires := e, domain := d, path := p } :: t, h)
    else do
      match ← replaceCookie h key expires domain path t with
      | none => return none
      | some (t, h) => return some (c :: t, h)

/-- `ulfius_add_same_site_cookie_to_response`, u_response.c:212–288, with a key and a known value for `SameSite`. -/
def addCookie (h : Heap) (r : Resp) (key : Bytes) (expires domain path : Option Bytes) : Res (Resp × Heap) := do
  let _ ← (if r.cookies = [] then .ok () else need h r.array)
  match ← replaceCookie h key expires domain path r.cookies with
  | some (cs, h) => return ({ r with cookies := cs }, h)
  | none => do
    let (a, h) ← (if r.cookies = [] then .ok (malloc h) else realloc h r.array)
    let (k, h) := malloc h
    let (v, h) := malloc h
    let (e, h) := strdup h expires
    let (d, h) := strdup h domain
    let (p, h) := strdup h path
    return ({ r with array := a, cookies := r.cookies ++ [⟨key, k, v, e, d, p⟩] }, h)

/-- A line of the answer as `write_header` sees it: no colon (the status line), or a field. -/
inductive Line where
  | status
  | field (key value : Option Bytes)
  deriving DecidableEq, Repr

/-- `u_map_has_key_case` on the headers. -/
def rhas (r : Resp) (k : Option Bytes) : Bool :=
  match r.header, k with
  | some m, some k => m.entries.any (fun e => eqCase e.key k)
  | _, _ => false

/-- `write_header`, u_send_request.c:136–171; the length of the joined value (150) is left out. -/
def writeHeader (h : Heap) (r : Resp) : Line → Res (Resp × Heap)
  | .status => do
    let h ← free h r.protocol
    let (p, h) := malloc h
    return ({ r with protocol := p }, h)
  | .field k v =>
    if rhas r k then do
      let (tmp, h) := malloc h
      let (rc, r, h) ← rremove h r k eqCase
      let (_, r, h) ← (if rc = .ok then rput h r k (some []) else .ok (rc, r, h))
      let h ← free h tmp
      return (r, h)
    else do
      let (_, r, h) ← rput h r k v
      return (r, h)

/-- All lines. -/
def writeHeaders (h : Heap) (r : Resp) : List Line → Res (Resp × Heap)
  | [] => .ok (r, h)
  | l :: t => do let (r, h) ← writeHeader h r l; writeHeaders h r t

/-- The cookies of the answer: libcurl names domain, path and expiry of each, u_send_request.c:730–785. -/
def fetchCookies (h : Heap) (r : Resp) : List Bytes → Res (Resp × Heap)
  | [] => .ok (r, h)
  | k :: t => do let (r, h) ← addCookie h r k (some []) (some []) (some []); fetchCookies h r t

/-- Calls that change a response. -/
inductive ROp where
  | put (k v : Option Bytes)
  | remove (k : Option Bytes)
  /-- `U_OPT_AUTH_REALM` -/
  | realm (v : Option Bytes)
  | cookie (key expires domain path : Option Bytes)
  | stringBody (v : Option Bytes)
  | binaryBody (v : Option Bytes)
  /-- `ulfius_set_empty_body_response`, `ulfius_set_stream_response` -/
  | emptyBody
  | jsonBody (v : Option Bytes)
  /-- `ulfius_set_websocket_response` with a callback -/
  | websocket (protocol extensions : Option Bytes)
  /-- `ulfius_add_websocket_extension_message_perform` with valid functions and bits -/
  | extension (name : Option Bytes)
  /-- `ulfius_send_http_request` or `ulfius_send_http_request_with_limit` for the answer `lines`, `cookies`, `body`; `ok`: the transfer
  succeeded -/
  | fetch (lines : List Line) (ok : Bool) (cookies : List Bytes) (body : Bytes)
  deriving DecidableEq, Repr

/-- One call. -/
def rstep (h : Heap) (r : Resp) : ROp → Res (Resp × Heap)
  | .put k v => do let (_, r, h) ← rput h r k v; return (r, h)
  | .remove k => do let (_, r, h) ← rremove h r k (fun a b => decide (a = b)); return (r, h)
  | .realm v => do
    let h ← free h r.realm
    let (p, h) := strdup h (if v = some [] then none else v)
    return ({ r with realm := p }, h)
  | .cookie key expires domain path =>
    match key with
    | none => .ok (r, h)
    | some key => addCookie h r key expires domain path
  | .stringBody v => if v.isSome then rbody h r v else .ok (r, h)
  | .binaryBody v => if v = none ∨ v = some [] then .ok (r, h) else rbody h r v
  | .emptyBody => rbody h r none
  | .jsonBody v =>
    if v.isSome then do
      let (r, h) ← rbody h r v
      let (_, r, h) ← rput h r (some b!"Content-Type") (some b!"application/json")
      return (r, h)
    else .ok (r, h)
  | .websocket protocol extensions =>
    match r.ws with
    | none => .ub
    | some w => do
      let _ ← need h w.box
      let h ← free h w.protocol
      let (p, h) := strdup h protocol
      let h ← free h w.extensions
      let (e, h) := strdup h extensions
      return ({ r with ws := some { w with protocol := p, extensions := e } }, h)
  | .extension name =>
    if name = none ∨ name = some [] then .ok (r, h)
    else match r.ws with
      | none => .ub
      | some w => do
        let (x, h) := malloc h
        let (s, h) := malloc h
        let _ ← need h w.box
        let _ ← need h w.list
        let (a, h) ← realloc h w.array
        return ({ r with ws := some { w with array := a, exts := w.exts ++ [⟨x, s, .null⟩] } }, h)
  | .fetch lines ok cookies body => do
    let (r, h) ← writeHeaders h r lines
    if ok then do
      let (r, h) ← fetchCookies h r cookies
      if body = [] then return (r, h)
      else do
        -- u_send_request.c:206 and 244: whatever `binary_body` was
        let (p, h) := malloc h
        return ({ r with body := p, bodyLen := body.length }, h)
    else return (r, h)

/-- `ulfius_copy_cookie`, u_response.c:308–331: without path, domain, expiry or value what was copied is freed, and the pointers stay. -/
def copyCookie (h : Heap) (c : Ck) : Res (Ck × Heap) := do
  let (k, h) ← copyP h c.key
  let (v, h) ← copyP h c.value
  let (e, h) ← copyP h c.expires
  let (d, h) ← copyP h c.domain
  let (p, h) ← copyP h c.path
  let n : Ck := ⟨c.text, k, v, e, d, p⟩
  if p = .null ∨ d = .null ∨ e = .null ∨ v = .null then do
    let h ← freeAll h [p, d, e, v]
    return (n, h)
  else return (n, h)

/-- The loop over the cookies, u_response.c:449–451: the result of `ulfius_copy_cookie` is not looked at. -/
def copyCookies (h : Heap) : List Ck → Res (List Ck × Heap)
  | [] => .ok ([], h)
  | c :: t => do
    let (c, h) ← copyCookie h c
    let (t, h) ← copyCookies h t
    return (c :: t, h)

/-- `u_map_copy`, u_map.c:461–488. -/
def mapCopy (h : Heap) : Option RMap → Res (Option RMap × Heap)
  | none => .ok (none, h)
  | some s => do
    let (b, h) := malloc h
    let (m, h) := mapInit h b
    let _ ← need h s.box
    let _ ← need h s.keys
    let (ok, m, h) ← copyEntries h m s.entries
    if ok then return (some m, h)
    else do
      let h ← mapCleanFull h (some m)
      return (none, h)

/-- The cookies and the body, u_response.c:441–465. -/
def copyContent (h : Heap) (dest src : Resp) : Res (Resp × Heap) := do
  let (dest, h) ← (if src.cookies = [] then .ok ({ dest with cookies := [], array := .null }, h) else do
    let (a, h) := malloc h
    let _ ← need h src.array
    let (cs, h) ← copyCookies h src.cookies
    return ({ dest with cookies := cs, array := a }, h))
  if src.body ≠ .null ∧ src.bodyLen ≠ 0 then do
    let (p, h) := malloc h
    let _ ← need h src.body
    return ({ dest with body := p, bodyLen := src.bodyLen }, h)
  else return (dest, h)

/-- The websocket part, u_response.c:477–486. -/
def copyHandle (h : Heap) (dest src : Resp) : Res (Resp × Heap) :=
  match src.ws with
  | none => .ok (dest, h)
  | some s =>
    match dest.ws with
    | none => .ub
    | some w => do
      let _ ← need h s.box
      let _ ← need h w.box
      let (p, h) ← copyP h s.protocol
      let (e, h) ← copyP h s.extensions
      return ({ dest with ws := some { w with protocol := p, extensions := e } }, h)

/-- `ulfius_copy_response`, u_response.c:427–492; `false` is an error. -/
def copyResponse (h : Heap) (dest src : Resp) : Res (Bool × Resp × Heap) := do
  let (p, h) ← copyP h src.protocol
  let (a, h) ← copyP h src.realm
  let dest := { dest with protocol := p, realm := a }
  if p = .null then return (false, dest, h)
  else do
    let h ← mapCleanFull h dest.header
    let (m, h) ← mapCopy h src.header
    let dest := { dest with header := m }
    if m = none then return (false, dest, h)
    else do
      let (dest, h) ← copyContent h dest src
      let (dest, h) ← copyHandle h dest src
      return (true, dest, h)

/-- `ulfius_duplicate_response`, u_response.c:494–515. -/
def duplicateResponse (h : Heap) (src : Resp) : Res (Option Resp × Heap) := do
  let (box, h) := malloc h
  let (r, h) := initResponse h box
  let (ok, r, h) ← copyResponse h r src
  if ok then return (some r, h)
  else do
    let h ← cleanResponseFull h r
    return (none, h)

/-! ## Programs with any number of responses -/

/-- A call of the program; responses are numbered in the order in which they were made. -/
inductive RCmd where
  /-- `ulfius_init_response`; `full`: in a block of its own, as the server does -/
  | init (full : Bool)
  | op (i : Nat) (o : ROp)
  | duplicate (i : Nat)
  /-- `ulfius_copy_response` into the first -/
  | copy (dest src : Nat)
  /-- `ulfius_clean_response`, or `ulfius_clean_response_full` for a response made by the library -/
  | clean (i : Nat)
  deriving DecidableEq, Repr

/-- The responses of a program; `none`: cleaned. -/
structure RState where
  heap : Heap
  resps : List (Option Resp)

/-- One call; nothing happens for a response that does not exist or was cleaned, and there is no copy of it. -/
def rexec (s : RState) : RCmd → Res RState
  | .init full =>
    let (box, h) := if full then malloc s.heap else (.null, s.heap)
    let (r, h) := initResponse h box
    .ok ⟨h, s.resps ++ [some r]⟩
  | .op i o =>
    match s.resps[i]? with
    | some (some r) => do
      let (r, h) ← rstep s.heap r o
      return ⟨h, s.resps.set i (some r)⟩
    | _ => .ok s
  | .duplicate i =>
    match s.resps[i]? with
    | some (some r) => do
      let (d, h) ← duplicateResponse s.heap r
      return ⟨h, s.resps ++ [d]⟩
    | _ => .ok ⟨s.heap, s.resps ++ [none]⟩
  | .copy i j =>
    match s.resps[i]?, s.resps[j]? with
    | some (some d), some (some r) => do
      let (_, d, h) ← copyResponse s.heap d r
      return ⟨h, s.resps.set i (some d)⟩
    | _, _ => .ok s
  | .clean i =>
    match s.resps[i]? with
    | some (some r) => do
      let h ← cleanResponseFull s.heap r
      return ⟨h, s.resps.set i none⟩
    | _ => .ok s

/-- A program. -/
def rrun (s : RState) : List RCmd → Res RState
  | [] => .ok s
  | c :: t => do let s ← rexec s c; rrun s t

end Verif.Memory
