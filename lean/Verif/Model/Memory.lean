import Verif.Model.UMap
/-!
# Model of the blocks requests own: `src/u_map.c`, `src/u_request.c`, `src/u_websocket.c:2407–2447`, as far as memory is concerned

Here only the blocks count, not what is in them: which pointers of a `struct _u_request` and its maps refer to which block, and which blocks
are allocated. An identifier is never used twice, so every use of a freed block shows. Contents appear where the code depends on them: keys of
maps, lengths, NULL or empty arguments. Allocations succeed (see C16 for failures inside `u_map_put`), except where a parameter says
otherwise; `o_realloc` always moves. Arguments of the setters are not strings the request itself holds (C112). A certificate is one block.
-/
namespace Verif.Memory
open Verif.UMap (Rc)

/-- A pointer: NULL, a block, or never written. -/
inductive P where
  | null
  | at (n : Nat)
  | junk
  deriving DecidableEq, Repr

/-- The allocated blocks; `next` was never used. -/
structure Heap where
  live : List Nat := []
  next : Nat := 0
  deriving DecidableEq, Repr

/-- `o_malloc`. -/
def malloc (h : Heap) : P × Heap := (.at h.next, ⟨h.next :: h.live, h.next + 1⟩)

/-- `o_free`. -/
def free (h : Heap) : P → Res Heap
  | .null => .ok h
  | .at n => if n ∈ h.live then .ok { h with live := h.live.erase n } else .ub
  | .junk => .ub

/-- `o_free` of each. -/
def freeAll (h : Heap) : List P → Res Heap
  | [] => .ok h
  | p :: t => do let h ← free h p; freeAll h t

/-- A read or write through the pointer. -/
def need (h : Heap) : P → Res Unit
  | .at n => if n ∈ h.live then .ok () else .ub
  | _ => .ub

/-- `o_realloc` (to a size that is not 0). -/
def realloc (h : Heap) (p : P) : Res (P × Heap) := do let h ← free h p; return malloc h

/-- `o_strdup` of a text of the caller. -/
def strdup (h : Heap) : Option Bytes → P × Heap
  | none => (.null, h)
  | some _ => malloc h

/-- `o_strdup` of a pointer. -/
def copyP (h : Heap) (p : P) : Res (P × Heap) :=
  match p with
  | .null => .ok (.null, h)
  | p => do let _ ← need h p; return malloc h

/-! ## `struct _u_map` -/

/-- An entry: the text of the key, the blocks of key and value, `lengths[i]`. -/
structure Entry where
  key : Bytes
  kp : P
  vp : P
  len : Nat
  deriving DecidableEq, Repr

/-- A `struct _u_map` in the block `box` with its three arrays. -/
structure RMap where
  box : P
  keys : P
  values : P
  lengths : P
  entries : List Entry := []
  deriving DecidableEq, Repr

/-- `u_map_init`, u_map.c:32–68. -/
def mapInit (h : Heap) (box : P) : RMap × Heap :=
  let (k, h) := malloc h
  let (v, h) := malloc h
  let (l, h) := malloc h
  (⟨box, k, v, l, []⟩, h)

/-- The entries in the order of `u_map_clean`, u_map.c:73–76. -/
def entryPtrs (es : List Entry) : List P := es.flatMap (fun e => [e.kp, e.vp])

/-- `u_map_clean`, u_map.c:70–87. -/
def mapClean (h : Heap) (m : RMap) : Res Heap := do
  let _ ← need h m.box
  freeAll h (entryPtrs m.entries ++ [m.keys, m.values, m.lengths])

/-- `u_map_clean_full`, u_map.c:89–96. -/
def mapCleanFull (h : Heap) : Option RMap → Res Heap
  | none => .ok h
  | some m => do let h ← mapClean h m; free h m.box

/-- The branch of `u_map_put_binary` for a key that exists, u_map.c:162–184. -/
def updEntry (h : Heap) (given : Bool) (total : Nat) (e : Entry) : Res (Entry × Heap) := do
  let (v, h) ← (if e.len < total then realloc h e.vp else .ok (e.vp, h))
  if given then do
    let _ ← need h v
    return ({ e with vp := v, len := if e.len < total then total else e.len }, h)
  else do
    let h ← free h v
    let (v, h) := malloc h
    return ({ e with vp := v, len := 0 }, h)

/-- The search of `u_map_put_binary`, u_map.c:160–185. -/
def putFound (h : Heap) (key : Bytes) (given : Bool) (total : Nat) : List Entry → Res (Option (List Entry × Heap))
  | [] => .ok none
  | e :: t => do
    let _ ← need h e.kp
    if e.key = key then do
      let (e, h) ← updEntry h given total e
      return some (e :: t, h)
    else do
      match ← putFound h key given total t with
      | none => return none
      | some (t, h) => return some (e :: t, h)

/-- `u_map_put_binary`, u_map.c:156–244; `total`: offset and length. -/
def putBinary (h : Heap) (m : RMap) (key : Option Bytes) (given : Bool) (total : Nat) : Res (Rc × RMap × Heap) :=
  match key with
  | none => .ok (.params, m, h)
  | some [] => .ok (.params, m, h)
  | some key => do
    let _ ← need h m.box
    let _ ← need h m.keys
    match ← putFound h key given total m.entries with
    | some (es, h) => return (.ok, { m with entries := es }, h)
    | none => do
      let (kp, h) := malloc h
      let (vp, h) := malloc h
      let (ks, h) ← realloc h m.keys
      let (vs, h) ← realloc h m.values
      let (ls, h) ← realloc h m.lengths
      return (.ok, { m with keys := ks, values := vs, lengths := ls, entries := m.entries ++ [⟨key, kp, vp, total⟩] }, h)

/-- `u_map_put`, u_map.c:148–154. -/
def put (h : Heap) (m : RMap) (key value : Option Bytes) : Res (Rc × RMap × Heap) :=
  putBinary h m key value.isSome (match value with | some v => v.length + 1 | none => 0)

/-- `u_map_remove_at` on one entry, u_map.c:349–371. -/
def removeAt (h : Heap) (m : RMap) (e : Entry) : Res (RMap × Heap) := do
  let h ← freeAll h [e.kp, e.vp]
  let (ks, h) ← realloc h m.keys
  let (vs, h) ← realloc h m.values
  let (ls, h) ← realloc h m.lengths
  return ({ m with keys := ks, values := vs, lengths := ls }, h)

/-- The loop of `u_map_remove_from_key`, u_map.c:252–260, and of `u_map_remove_from_key_case`, 275–283, from the last entry to the first;
`same`: the comparison with the key; `m.entries` is what is kept so far. -/
def removeLoop (h : Heap) (m : RMap) (same : Bytes → Bool) : List Entry → Res (Bool × RMap × Heap)
  | [] => .ok (false, { m with entries := [] }, h)
  | e :: t => do
    let (found, m, h) ← removeLoop h m same t
    let _ ← need h e.kp
    if same e.key then do
      let (m, h) ← removeAt h m e
      return (true, m, h)
    else return (found, { m with entries := e :: m.entries }, h)

/-- `u_map_remove_from_key`, u_map.c:246–267, with `same k k' = (k = k')`, and `u_map_remove_from_key_case`, 269–290, with `eqCase`. -/
def remove (h : Heap) (m : RMap) (key : Option Bytes) (same : Bytes → Bytes → Bool := fun a b => decide (a = b)) : Res (Rc × RMap × Heap) :=
  match key with
  | none => .ok (.params, m, h)
  | some key => do
    let _ ← need h m.box
    let _ ← need h m.keys
    let (found, m, h) ← removeLoop h m (fun k => same k key) m.entries
    return (if found then .ok else .notFound, m, h)

/-- The loop of `u_map_copy_into`, u_map.c:494–500: `u_map_get` gives NULL for an empty value (385–387). -/
def copyEntries (h : Heap) (dest : RMap) : List Entry → Res (Bool × RMap × Heap)
  | [] => .ok (true, dest, h)
  | e :: t => do
    let _ ← need h e.kp
    let _ ← (if 0 < e.len then need h e.vp else .ok ())
    let (rc, dest, h) ← putBinary h dest (some e.key) (decide (0 < e.len)) e.len
    if rc = .ok then copyEntries h dest t else return (false, dest, h)

/-! ## `struct _u_request` -/

/-- The pointers of a request to one block each, include/ulfius.h:233–266. -/
inductive Slot where
  | protocol | verb | url | urlPath | proxy | user | password | address | caPath | body | cert | certFile | keyFile | keyPassword
  deriving DecidableEq, Repr

/-- The maps of a request. -/
inductive MapId where
  | url | header | cookie | post
  deriving DecidableEq, Repr

/-- A request in the block `box` (NULL: a variable of the caller). -/
structure Req where
  box : P := .null
  slot : Slot → P
  map : MapId → Option RMap
  bodyLen : Nat := 0

/-- `request->s = p`. -/
def Req.set (r : Req) (s : Slot) (p : P) : Req := { r with slot := fun t => if t = s then p else r.slot t }

/-- `request->m = x`. -/
def Req.setMap (r : Req) (i : MapId) (x : Option RMap) : Req := { r with map := fun j => if j = i then x else r.map j }

/-- `ulfius_clean_request`, u_request.c:323–359: some pointers are set to NULL (338–348), the others keep their value. -/
def cleanRequest (h : Heap) (r : Req) : Res (Req × Heap) := do
  let h ← freeAll h [r.slot .protocol, r.slot .verb, r.slot .url, r.slot .urlPath, r.slot .proxy, r.slot .user, r.slot .password,
    r.slot .address, r.slot .caPath]
  let h ← mapCleanFull h (r.map .url)
  let h ← mapCleanFull h (r.map .header)
  let h ← mapCleanFull h (r.map .cookie)
  let h ← mapCleanFull h (r.map .post)
  let h ← freeAll h [r.slot .body, r.slot .cert, r.slot .certFile, r.slot .keyFile, r.slot .keyPassword]
  let nulls := [Slot.protocol, .verb, .url, .proxy, .address, .body]
  return ({ r with slot := fun s => if s ∈ nulls then .null else r.slot s, map := fun _ => none }, h)

/-- `ulfius_clean_request_full`, u_request.c:366–373. -/
def cleanRequestFull (h : Heap) (r : Req) : Res Heap := do
  let (r, h) ← cleanRequest h r
  free h r.box

/-- `ulfius_init_request`, u_request.c:267–314. `fails`: the fourth of the allocations 269–274 fails; the pointers behind it are not set then. The second component: `U_OK`. -/
def initRequest (h : Heap) (box : P) (fails : Bool := false) : Res (Bool × Req × Heap) :=
  let (u, h) := malloc h
  let (hd, h) := malloc h
  let (c, h) := malloc h
  if fails then do
    let raw (p : P) : Option RMap := some ⟨p, .junk, .junk, .junk, []⟩
    let (r, h) ← cleanRequest h ⟨box, fun s => if s = .user ∨ s = .password then .null else .junk,
      fun i => match i with | .url => raw u | .header => raw hd | .cookie => raw c | .post => none, 0⟩
    return (false, r, h)
  else
    let (p, h) := malloc h
    let (mu, h) := mapInit h u
    let (mh, h) := mapInit h hd
    let (mc, h) := mapInit h c
    let (mp, h) := mapInit h p
    .ok (true, ⟨box, fun _ => .null, fun i => match i with | .url => some mu | .header => some mh | .cookie => some mc | .post => some mp, 0⟩, h)

/-- `o_free(request->s); request->s = o_strnullempty(value) ? NULL : o_strdup(value);`, e.g. u_request.c:508–515. -/
def setText (h : Heap) (r : Req) (s : Slot) (v : Option Bytes) : Res (Req × Heap) := do
  let h ← free h (r.slot s)
  let (p, h) := strdup h (if v = some [] then none else v)
  return (r.set s p, h)

/-- `u_map_put` on a map of the request (NULL: `U_ERROR_PARAMS`). -/
def putIn (h : Heap) (r : Req) (i : MapId) (k v : Option Bytes) : Res (Rc × Req × Heap) :=
  match r.map i with
  | none => .ok (.params, r, h)
  | some m => do let (rc, m, h) ← put h m k v; return (rc, r.setMap i (some m), h)

/-- `u_map_remove_from_key` on a map of the request. -/
def removeIn (h : Heap) (r : Req) (i : MapId) (k : Option Bytes) : Res (Rc × Req × Heap) :=
  match r.map i with
  | none => .ok (.params, r, h)
  | some m => do let (rc, m, h) ← remove h m k; return (rc, r.setMap i (some m), h)

/-- `o_free(request->binary_body)` and a new body (`none`: no body), u_request.c:704–760. -/
def setBody (h : Heap) (r : Req) (v : Option Bytes) : Res (Req × Heap) := do
  let h ← free h (r.slot .body)
  let (p, h) := strdup h v
  return ({ r.set .body p with bodyLen := (v.getD []).length }, h)

/-- Calls that change a request. -/
inductive Op where
  /-- an option of `ulfius_set_request_properties` that sets a text -/
  | text (s : Slot) (v : Option Bytes)
  /-- `U_OPT_HTTP_URL_APPEND` -/
  | append (v : Option Bytes)
  /-- `u_map_put` on one of the maps, or the option for it -/
  | put (i : MapId) (k v : Option Bytes)
  | remove (i : MapId) (k : Option Bytes)
  | stringBody (v : Option Bytes)
  | binaryBody (v : Option Bytes)
  | emptyBody
  | jsonBody (v : Option Bytes)
  /-- `ulfius_set_websocket_request`; `key`: random bytes were encoded -/
  | websocket (url protocol extensions : Option Bytes) (key : Bool)
  /-- `ulfius_import_client_certificate_pem`; `valid`: the text is a certificate -/
  | cert (v : Option Bytes)
  deriving DecidableEq, Repr

/-- Options that set a text exist for these pointers, u_request.c:507–689. -/
def isOption : Slot → Bool
  | .verb | .url | .proxy | .user | .password | .caPath | .certFile | .keyFile | .keyPassword => true
  | _ => false

/-- One call. `U_OPT_HTTP_URL_APPEND` (u_request.c:526–529) uses `mstrcatf`, which frees its first argument. -/
def step (h : Heap) (r : Req) : Op → Res (Req × Heap)
  | .text s v => if isOption s then setText h r s v else .ok (r, h)
  | .append _ => do
    let (p, h) ← realloc h (r.slot .url)
    return (r.set .url p, h)
  | .put i k v => do let (_, r, h) ← putIn h r i k v; return (r, h)
  | .remove i k => do let (_, r, h) ← removeIn h r i k; return (r, h)
  | .stringBody v => if v.isSome then setBody h r v else .ok (r, h)
  | .binaryBody v => if v = none ∨ v = some [] then .ok (r, h) else setBody h r v
  | .emptyBody => setBody h r none
  | .jsonBody v =>
    if v.isSome then do
      let (r, h) ← setBody h r v
      let (_, r, h) ← putIn h r .header (some b!"Content-Type") (some b!"application/json")
      return (r, h)
    else .ok (r, h)
  | .websocket url protocol extensions key =>
    match url with
    | none => .ok (r, h)
    | some url => do
      let h ← freeAll h [r.slot .protocol, r.slot .verb, r.slot .url]
      let (p, h) := malloc h
      let (v, h) := malloc h
      let (u, h) := strdup h (some url)
      let r := ((r.set .protocol p).set .verb v).set .url u
      let (_, r, h) ← (if protocol.isSome then putIn h r .header (some b!"Sec-WebSocket-Protocol") protocol else .ok (.ok, r, h))
      let (_, r, h) ← (if extensions.isSome then putIn h r .header (some b!"Sec-WebSocket-Extensions") extensions else .ok (.ok, r, h))
      let (_, r, h) ← putIn h r .header (some b!"Sec-WebSocket-Version") (some b!"13")
      let (_, r, h) ← putIn h r .header (some b!"User-Agent") (some b!"Ulfius Websocket Client Framework/")
      let (_, r, h) ← (if key then putIn h r .header (some b!"Sec-WebSocket-Key") (some b!"key") else .ok (.ok, r, h))
      return (r, h)
  | .cert v =>
    -- u_request.c:1032–1054: `gnutls_x509_crt_init` writes the pointer, whatever it held
    match v with
    | none => .ok (r, h)
    | some _ => let (p, h) := malloc h; .ok (r.set .cert p, h)

/-- `dest->s = o_strdup(source->s)`. -/
def copySlot (h : Heap) (dest src : Req) (s : Slot) : Res (Req × Heap) := do
  let (p, h) ← copyP h (src.slot s)
  return (dest.set s p, h)

/-- `copySlot` for each. -/
def copySlots (h : Heap) (dest src : Req) : List Slot → Res (Req × Heap)
  | [] => .ok (dest, h)
  | s :: t => do let (dest, h) ← copySlot h dest src s; copySlots h dest src t

/-- `u_map_clean(dest->m)`, `u_map_init(dest->m)`, `u_map_copy_into(dest->m, source->m)`, u_request.c:413–421 and so on: `false` is an error. -/
def copyMap (h : Heap) (dest src : Req) (i : MapId) : Res (Bool × Req × Heap) :=
  match dest.map i with
  | none => .ok (false, dest, h)
  | some m => do
    let h ← mapClean h m
    let (m, h) := mapInit h m.box
    match src.map i with
    | none => return (false, dest.setMap i (some m), h)
    | some s => do
      let _ ← need h s.box
      let _ ← need h s.keys
      let (ok, m, h) ← copyEntries h m s.entries
      return (ok, dest.setMap i (some m), h)

/-- `copyMap` for each, up to the first error. -/
def copyMaps (h : Heap) (dest src : Req) : List MapId → Res (Bool × Req × Heap)
  | [] => .ok (true, dest, h)
  | i :: t => do
    let (ok, dest, h) ← copyMap h dest src i
    if ok then copyMaps h dest src t else return (false, dest, h)

/-- The body and the client certificate, u_request.c:457–486. The certificate is initialised twice (475 and, in the import, 1039). -/
def copyRest (h : Heap) (dest src : Req) (ok : Bool) : Res (Bool × Req × Heap) := do
  let (dest, h) ← (if ok && src.bodyLen != 0 then do
      let _ ← need h (src.slot .body)
      let (p, h) := malloc h
      return ({ dest.set .body p with bodyLen := src.bodyLen }, h)
    else .ok (dest, h))
  let (dest, h) ← copySlots h dest src [.certFile, .keyFile, .keyPassword]
  if ok && src.slot .cert != .null then do
    let (p, h) := malloc h
    let dest := dest.set .cert p
    let _ ← need h (src.slot .cert)
    let (t, h) := malloc h
    let (p, h) := malloc h
    let dest := dest.set .cert p
    let h ← free h t
    return (true, dest, h)
  else return (ok, dest, h)

/-- `ulfius_copy_request`, u_request.c:380–490. -/
def copyRequest (h : Heap) (dest src : Req) : Res (Bool × Req × Heap) := do
  let (dest, h) ← copySlots h dest src [.protocol, .verb, .url, .urlPath, .proxy, .caPath, .user, .password]
  let (dest, h) ← (if src.slot .address = .null then .ok (dest, h) else do
    let _ ← need h (src.slot .address)
    let (p, h) := malloc h
    return (dest.set .address p, h))
  let (ok, dest, h) ← copyMaps h dest src [.url, .header, .cookie, .post]
  copyRest h dest src ok

/-- `ulfius_duplicate_request`, u_request.c:767–790. -/
def duplicateRequest (h : Heap) (src : Req) : Res (Option Req × Heap) := do
  let (box, h) := malloc h
  let (_, r, h) ← initRequest h box
  let (ok, r, h) ← copyRequest h r src
  if ok then return (some r, h)
  else do
    let h ← cleanRequestFull h r
    return (none, h)

/-! ## Programs with any number of requests -/

/-- A call of the program; requests are numbered in the order in which they were made. -/
inductive Cmd where
  /-- a request of the program, `ulfius_init_request` -/
  | init
  /-- a request as the server makes it: `ulfius_uri_logger` and the first call of the dispatcher, ulfius.c:207–246, 501–545; `cert`: with
  client certificate -/
  | receive (cert : Bool)
  | op (i : Nat) (o : Op)
  | duplicate (i : Nat)
  /-- `ulfius_clean_request`, or `ulfius_clean_request_full` for a request made by the library -/
  | clean (i : Nat)
  deriving DecidableEq, Repr

/-- The requests of a program; `none`: cleaned. -/
structure State where
  heap : Heap
  reqs : List (Option Req)

/-- A request as the server makes it. -/
def receive (h : Heap) (cert : Bool) : Res (Req × Heap) := do
  let (box, h) := malloc h
  let (_, r, h) ← initRequest h box
  let (u, h) := malloc h
  let (p, h) := malloc h
  let r := (r.set .url u).set .urlPath p
  let (r, h) := if cert then let (c, h) := malloc h; (r.set .cert c, h) else (r, h)
  let (v, h) := malloc h
  let (m, h) := malloc h
  let (a, h) := malloc h
  return (((r.set .protocol v).set .verb m).set .address a, h)

/-- One call; nothing happens for a request that does not exist or was cleaned, and there is no copy of it. -/
def exec (s : State) : Cmd → Res State
  | .init => do
    let (_, r, h) ← initRequest s.heap .null
    return ⟨h, s.reqs ++ [some r]⟩
  | .receive cert => do
    let (r, h) ← receive s.heap cert
    return ⟨h, s.reqs ++ [some r]⟩
  | .op i o =>
    match s.reqs[i]? with
    | some (some r) => do
      let (r, h) ← step s.heap r o
      return ⟨h, s.reqs.set i (some r)⟩
    | _ => .ok s
  | .duplicate i =>
    match s.reqs[i]? with
    | some (some r) => do
      let (d, h) ← duplicateRequest s.heap r
      return ⟨h, s.reqs ++ [d]⟩
    | _ => .ok ⟨s.heap, s.reqs ++ [none]⟩
  | .clean i =>
    match s.reqs[i]? with
    | some (some r) => do
      let h ← cleanRequestFull s.heap r
      return ⟨h, s.reqs.set i none⟩
    | _ => .ok s

/-- A program. -/
def run (s : State) : List Cmd → Res State
  | [] => .ok s
  | c :: t => do let s ← exec s c; run s t

end Verif.Memory
