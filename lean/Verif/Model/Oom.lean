import Verif.Model.MemoryResponse
/-!
# Model of maps and responses when memory runs out: `src/u_map.c`, `src/u_response.c`, `src/ulfius.c:254–280, 1000–1010`

Every allocation of these functions has a name (`Site`) and may fail; which ones do is a parameter. Blocks as in `Model/Memory`: only the blocks
count, an identifier is never used twice. A block that `o_realloc` could not enlarge stays allocated. What `o_realloc` shrinks is left out
(`u_map_remove_*`), so are the websocket data of a response except for their two blocks. The texts `ulfius_export_response_http` builds are
local to it and left out: it only reads. libmicrohttpd frees the buffer of an answer.
-/
namespace Verif.Oom
open Verif.UMap (Rc)
open Verif.Memory (P Ck)

/-- Where `u_map_put` or `u_map_init` is called. -/
inductive Place where
  /-- by the program, or by a function that passes the result on -/
  | call
  /-- in `u_map_copy` -/
  | copy
  /-- in `ulfius_set_json_body_response` -/
  | json
  /-- in `ulfius_init_response` -/
  | init
  deriving DecidableEq, Repr

/-- An allocation in the source. -/
inductive Site where
  /-- u_map.c:37, 44, 53 -/
  | initKeys (w : Place) | initValues (w : Place) | initLengths (w : Place)
  /-- u_map.c:186, 192, 201 -/
  | key (w : Place) | value (w : Place) | empty (w : Place)
  /-- u_map.c:206, 217, 228 -/
  | keys (w : Place) | values (w : Place) | lengths (w : Place)
  /-- u_map.c:164, 178 -/
  | grow (w : Place) | renew (w : Place)
  /-- u_map.c:466 -/
  | copyBox
  /-- u_response.c:377, 400, 414 -/
  | respMap | respHandle | respList
  /-- u_response.c:521, 542, 690 -/
  | stringBody | binaryBody | jsonBody
  /-- u_response.c:625 -/
  | realm
  /-- u_response.c:250, 256 -/
  | cookieArray | cookieArrayGrow
  /-- u_response.c:262–267: the texts of a cookie that is the `first` or not; 263 for a value that is NULL -/
  | cookieText (first : Bool) | cookieEmpty (first : Bool)
  /-- u_response.c:224–227: the texts of a cookie that replaces another; 224 for a value that is NULL -/
  | replaceText | replaceEmpty
  /-- u_response.c:35–130: the texts of `ulfius_generate_cookie_header` -/
  | attribute
  /-- ulfius.c:260: the copy of the body for libmicrohttpd; 264: the text of the error -/
  | buffer | errorBody
  deriving DecidableEq, Repr

/-- Which allocations fail: the identifier of the request for memory and its place. -/
abbrev F := Nat → Site → Bool

/-- The heap, and how many allocations failed. -/
structure H where
  mem : Memory.Heap := {}
  failed : Nat := 0
  deriving DecidableEq, Repr

/-- `o_malloc`, `o_strdup` of a text, `msprintf`, `json_dumps`. -/
def malloc (f : F) (s : Site) (h : H) : P × H :=
  if f h.mem.next s then (.null, ⟨{ h.mem with next := h.mem.next + 1 }, h.failed + 1⟩)
  else ((Memory.malloc h.mem).1, ⟨(Memory.malloc h.mem).2, h.failed⟩)

/-- `o_free`. -/
def free (h : H) (p : P) : Res H := do let m ← Memory.free h.mem p; return ⟨m, h.failed⟩

/-- `o_free` of each. -/
def freeAll (h : H) (l : List P) : Res H := do let m ← Memory.freeAll h.mem l; return ⟨m, h.failed⟩

/-- A read or write through the pointer. -/
def need (h : H) (p : P) : Res Unit := Memory.need h.mem p

/-- The same for a structure that is a variable of the caller if the pointer is NULL. -/
def touch (h : H) (p : P) : Res Unit := if p = .null then .ok () else need h p

/-- `o_realloc` to a larger size: NULL and the old block stays if it fails. -/
def realloc (f : F) (s : Site) (h : H) (p : P) : Res (P × H) :=
  if f h.mem.next s then do
    let _ ← touch h p
    return (.null, ⟨{ h.mem with next := h.mem.next + 1 }, h.failed + 1⟩)
  else do
    let h ← free h p
    return malloc (fun _ _ => false) s h

/-- `o_strdup`. -/
def strdup (f : F) (s : Site) (h : H) : Option Bytes → P × H
  | none => (.null, h)
  | some _ => malloc f s h

/-! ## `struct _u_map` -/

/-- An entry: the text of the key, the blocks of key and value, `lengths[i]`. -/
structure Entry where
  key : Bytes
  kp : P
  vp : P
  len : Nat
  deriving DecidableEq, Repr

/-- A map in the block `box` (NULL: a variable of the caller), its arrays, its `nb_values` entries, and what is behind them in `keys` and
`values`. -/
structure Map where
  box : P := .null
  keys : P
  values : P
  lengths : P
  entries : List Entry := []
  tailKey : P := .null
  tailValue : P := .null
  deriving DecidableEq, Repr

/-- `u_map_init`, u_map.c:32–68. -/
def mapInit (f : F) (w : Place) (h : H) (box : P) : Res (Rc × Map × H) :=
  let (k, h) := malloc f (.initKeys w) h
  if k = .null then .ok (.memory, { box := box, keys := .null, values := .null, lengths := .null }, h)
  else
    let (v, h) := malloc f (.initValues w) h
    if v = .null then do
      let h ← free h k
      return (.memory, { box := box, keys := .null, values := .null, lengths := .null }, h)
    else
      let (l, h) := malloc f (.initLengths w) h
      if l = .null then do
        let h ← freeAll h [k, v]
        return (.memory, { box := box, keys := .null, values := .null, lengths := .null }, h)
      else .ok (.ok, { box := box, keys := k, values := v, lengths := l }, h)

/-- The entries in the order of `u_map_clean`, u_map.c:73–76. -/
def entryPtrs (es : List Entry) : List P := es.flatMap (fun e => [e.kp, e.vp])

/-- `u_map_clean`, u_map.c:70–87. -/
def mapClean (h : H) (m : Map) : Res H := do
  let _ ← touch h m.box
  let _ ← (if m.entries = [] then .ok () else need h m.keys)
  let _ ← (if m.entries = [] then .ok () else need h m.values)
  let h ← freeAll h (entryPtrs m.entries)
  freeAll h [m.keys, m.values, m.lengths]

/-- `u_map_clean_full`, u_map.c:89–96 (`u_map_clean` alone for a variable). -/
def mapCleanFull (h : H) (m : Map) : Res H := do
  let h ← mapClean h m
  free h m.box

/-- The branch of `u_map_put_binary` for a key that exists, u_map.c:162–184. -/
def updEntry (f : F) (w : Place) (h : H) (given : Bool) (total : Nat) (e : Entry) : Res (Rc × Entry × H) := do
  let (v, h) ← (if e.len < total then realloc f (.grow w) h e.vp else .ok (e.vp, h))
  if e.len < total ∧ v = .null then return (.memory, { e with vp := .null }, h)
  else if given then do
    let _ ← need h v
    return (.ok, { e with vp := v, len := if e.len < total then total else e.len }, h)
  else do
    let h ← free h v
    let (v, h) := malloc f (.renew w) h
    return (.ok, { e with vp := v, len := 0 }, h)

/-- The search of `u_map_put_binary`, u_map.c:160–185. -/
def putFound (f : F) (w : Place) (h : H) (m : Map) (key : Bytes) (given : Bool) (total : Nat) :
    List Entry → Res (Option (Rc × List Entry × H))
  | [] => .ok none
  | e :: t => do
    let _ ← need h m.keys
    let _ ← need h e.kp
    if e.key = key then do
      let _ ← need h m.lengths
      let _ ← need h m.values
      let (rc, e, h) ← updEntry f w h given total e
      return some (rc, e :: t, h)
    else do
      match ← putFound f w h m key given total t with
      | none => return none
      | some (rc, t, h) => return some (rc, e :: t, h)

/-- Appending to the three arrays, u_map.c:204–236; when an `o_realloc` fails key and value are freed but stay in the arrays written before. -/
def append (f : F) (w : Place) (h : H) (m : Map) (key : Bytes) (kp vp : P) (total : Nat) : Res (Rc × Map × H) := do
  let _ ← need h m.keys
  -- not reached otherwise: `values` is NULL then
  let _ ← (if m.tailKey = .null then .ok () else .ub)
  let (ks, h) ← realloc f (.keys w) h m.keys
  if ks = .null then do
    let h ← freeAll h [kp, vp]
    return (.memory, { m with keys := .null }, h)
  else do
    let (vs, h) ← realloc f (.values w) h m.values
    if vs = .null then do
      let h ← freeAll h [kp, vp]
      return (.memory, { m with keys := ks, tailKey := kp, values := .null }, h)
    else do
      let (ls, h) ← realloc f (.lengths w) h m.lengths
      if ls = .null then do
        let h ← freeAll h [kp, vp]
        return (.memory, { m with keys := ks, tailKey := kp, values := vs, tailValue := vp, lengths := .null }, h)
      else return (.ok, { m with keys := ks, values := vs, lengths := ls, entries := m.entries ++ [⟨key, kp, vp, total⟩] }, h)

/-- `u_map_put_binary`, u_map.c:156–244; `total`: offset and length. -/
def putBinary (f : F) (w : Place) (h : H) (m : Map) (key : Option Bytes) (given : Bool) (total : Nat) : Res (Rc × Map × H) :=
  match key with
  | none => .ok (.params, m, h)
  | some [] => .ok (.params, m, h)
  | some key => do
    let _ ← touch h m.box
    match ← putFound f w h m key given total m.entries with
    | some (rc, es, h) => return (rc, { m with entries := es }, h)
    | none => do
      let _ ← need h m.values
      if m.tailValue ≠ .null then return (.ok, m, h)
      else
        let (kp, h) := malloc f (.key w) h
        if kp = .null then return (.memory, m, h)
        else if given then
          let (vp, h) := malloc f (.value w) h
          if vp = .null then do
            let h ← free h kp
            return (.memory, m, h)
          else append f w h m key kp vp total
        else
          let (vp, h) := malloc f (.empty w) h
          append f w h m key kp vp total

/-- The bytes of a text with its NUL, u_map.c:150. -/
def valueSize : Option Bytes → Nat
  | some v => v.length + 1
  | none => 0

/-- `u_map_put`, u_map.c:148–154. -/
def put (f : F) (w : Place) (h : H) (m : Map) (key value : Option Bytes) : Res (Rc × Map × H) :=
  putBinary f w h m key value.isSome (valueSize value)

/-- The keys up to the NULL behind them are read, e.g. u_map.c:382, 475; of those with a length also the value (385–387), if it is not NULL. -/
def readEntries (h : H) (m : Map) : List Entry → Res Unit
  | [] => if m.tailKey = .null then .ok () else need h m.tailKey
  | e :: t => do
    let _ ← need h e.kp
    let _ ← need h m.lengths
    let _ ← (if 0 < e.len then need h m.values else .ok ())
    let _ ← (if 0 < e.len then touch h e.vp else .ok ())
    readEntries h m t

/-- All keys and their values are read, as `ulfius_set_response_header` does, u_response.c:163–173. -/
def readMap (h : H) (m : Map) : Res Unit := do
  let _ ← touch h m.box
  -- a loop over `keys == NULL` ends at once
  if m.keys = .null then return () else do
    let _ ← need h m.keys
    readEntries h m m.entries

/-- The loop of `u_map_copy`, u_map.c:476–483. -/
def copyEntries (f : F) (h : H) (src dest : Map) : List Entry → Res (Rc × Map × H)
  | [] => .ok (.ok, dest, h)
  | e :: t => do
    let _ ← need h e.kp
    let _ ← need h src.lengths
    let _ ← (if 0 < e.len then touch h e.vp else .ok ())
    let (rc, dest, h) ← putBinary f .copy h dest (some e.key) (decide (0 < e.len ∧ e.vp ≠ .null)) e.len
    if rc = .ok then copyEntries f h src dest t else return (rc, dest, h)

/-- `u_map_copy`, u_map.c:461–488. -/
def mapCopy (f : F) (h : H) (m : Map) : Res (Option Map × H) :=
  let (b, h) := malloc f .copyBox h
  if b = .null then .ok (none, h)
  else do
    let (rc, c, h) ← mapInit f .copy h b
    if rc ≠ .ok then do
      let h ← free h b
      return (none, h)
    else do
      let _ ← readMap h m
      let (rc, c, h) ← (if m.keys = .null then .ok (.ok, c, h) else copyEntries f h m c m.entries)
      if rc = .ok then return (some c, h)
      else do
        let h ← mapCleanFull h c
        return (none, h)

/-! ## `struct _u_response` -/

/-- `struct _u_response` in the block `box` (NULL: a variable of the caller), include/ulfius.h:273–291; of the websocket data the handle and its
list. -/
structure Resp where
  box : P := .null
  realm : P := .null
  body : P := .null
  bodyLen : Nat := 0
  header : Map
  array : P := .null
  cookies : List Ck := []
  handle : P
  list : P
  deriving DecidableEq, Repr

/-- `ulfius_init_response`, u_response.c:374–425; `none`: an error, the structure is not to be used. -/
def initResponse (f : F) (h : H) (box : P) : Res (Rc × Option Resp × H) :=
  let (b, h) := malloc f .respMap h
  if b = .null then .ok (.memory, none, h)
  else do
    let (rc, m, h) ← mapInit f .init h b
    if rc ≠ .ok then return (.params, none, h)
    else
      let (w, h) := malloc f .respHandle h
      if w = .null then return (.memory, none, h)
      else
        let (l, h) := malloc f .respList h
        if l = .null then do
          let h ← free h w
          return (.memory, none, h)
        else return (.ok, some { box := box, header := m, handle := w, list := l }, h)

/-- The blocks of a cookie in the order of `ulfius_clean_cookie`, u_response.c:292–296. -/
def ckPtrs (c : Ck) : List P := [c.key, c.value, c.expires, c.domain, c.path]

/-- `ulfius_clean_response`, u_response.c:333–363, and the block of the response. -/
def cleanResponse (h : H) (r : Resp) : Res H := do
  let h ← mapCleanFull h r.header
  let _ ← (if r.cookies = [] then .ok () else need h r.array)
  let h ← freeAll h (r.cookies.flatMap ckPtrs)
  let h ← freeAll h [r.realm, r.array, r.body]
  let _ ← need h r.handle
  freeAll h [r.list, r.handle, r.box]

/-- The values of a cookie, u_response.c:224–227, 263–267; a value that is NULL becomes an empty text. -/
def texts (f : F) (s sEmpty : Site) (h : H) (value expires domain path : Option Bytes) : (P × P × P × P) × H :=
  let (v, h) := malloc f (if value.isSome then s else sEmpty) h
  let (e, h) := strdup f s h expires
  let (d, h) := strdup f s h domain
  let (p, h) := strdup f s h path
  ((v, e, d, p), h)

/-- The test for a text that could not be copied, u_response.c:232–235, 271–273: of the value only if it was given. -/
def missing (value expires domain path : Option Bytes) (t : P × P × P × P) : Bool :=
  (value.isSome && t.1 = .null) || (expires.isSome && t.2.1 = .null) || (domain.isSome && t.2.2.1 = .null) || (path.isSome && t.2.2.2 = .null)

/-- The loop over the cookies in `ulfius_add_same_site_cookie_to_response`, u_response.c:217–245: if a text is missing `ulfius_clean_cookie`
empties the cookie, which stays in the array. A cookie without key is unlike any other (`o_strcmp`). -/
def replaceCookie (f : F) (h : H) (key : Bytes) (value expires domain path : Option Bytes) : List Ck → Res (Option (Rc × List Ck × H))
  | [] => .ok none
  | c :: t => do
    let _ ← touch h c.key
    if c.key ≠ .null ∧ c.text = key then do
      let h ← freeAll h [c.value, c.expires, c.domain, c.path]
      let (x, h) := texts f .replaceText .replaceEmpty h value expires domain path
      if missing value expires domain path x then do
        let h ← freeAll h [c.key, x.1, x.2.1, x.2.2.1, x.2.2.2]
        return some (.memory, ⟨c.text, .null, .null, .null, .null, .null⟩ :: t, h)
      else return some (.ok, { c with value := x.1, expires := x.2.1, domain := x.2.2.1, path := x.2.2.2 } :: t, h)
    else do
      match ← replaceCookie f h key value expires domain path t with
      | none => return none
      | some (rc, t, h) => return some (rc, c :: t, h)

/-- `ulfius_add_same_site_cookie_to_response`, u_response.c:212–288, with a key and a known value for `SameSite`. -/
def addCookie (f : F) (h : H) (r : Resp) (key : Bytes) (value expires domain path : Option Bytes) : Res (Rc × Resp × H) := do
  let _ ← (if r.cookies = [] then .ok () else need h r.array)
  match ← replaceCookie f h key value expires domain path r.cookies with
  | some (rc, cs, h) => return (rc, { r with cookies := cs }, h)
  | none => do
    let first := decide (r.cookies = [])
    let (a, h) ← (if first then .ok (malloc f .cookieArray h) else realloc f .cookieArrayGrow h r.array)
    if a = .null then return (.memory, { r with array := .null }, h)
    else
      let (k, h) := malloc f (.cookieText first) h
      let (x, h) := texts f (.cookieText first) (.cookieEmpty first) h value expires domain path
      if k = .null ∨ missing value expires domain path x then do
        let h ← freeAll h [k, x.1, x.2.1, x.2.2.1, x.2.2.2]
        return (.memory, { r with array := a }, h)
      else return (.ok, { r with array := a, cookies := r.cookies ++ [⟨key, k, x.1, x.2.1, x.2.2.1, x.2.2.2⟩] }, h)

/-- Reading a text that is given (`%s` in u_response.c:35, 55, 68). -/
def needOpt (h : H) : Option P → Res Unit
  | some p => need h p
  | none => .ok ()

/-- The attributes of a cookie in `ulfius_generate_cookie_header`, u_response.c:34–116: `print` says whether the text is made by `msprintf` (which
reads the pointer, if there is one) and its failure ends the function, or is the empty text; what was made before is freed. -/
def attributes (f : F) (h : H) (made : List P) : List (Option P × Bool) → Res (Option (List P) × H)
  | [] => .ok (some made, h)
  | (p, print) :: t => do
    let _ ← needOpt h p
    let (a, h) := malloc f .attribute h
    if print ∧ a = .null then do
      let h ← freeAll h made
      return (none, h)
    else attributes f h (made ++ [a]) t

/-- The arguments of `attributes` for a cookie; `flags`: `max_age`, `secure` and `http_only` are set. -/
def attributesOf (c : Ck) (flags : Bool × Bool × Bool) : List (Option P × Bool) :=
  let text (p : P) : Option P × Bool := if p = .null then (none, false) else (some p, true)
  [text c.expires, (none, flags.1), text c.domain, text c.path, (none, flags.2.1), (none, flags.2.2)]

/-- `ulfius_generate_cookie_header`, u_response.c:29–151: `false` is NULL; the caller frees the text (190). -/
def generate (f : F) (h : H) (c : Ck) (flags : Bool × Bool × Bool) : Res (Bool × H) := do
  match ← attributes f h [] (attributesOf c flags) with
  | (none, h) => return (false, h)
  | (some made, h) =>
    if .null ∈ made then do
      let h ← freeAll h made
      return (false, h)
    else do
      let _ ← need h c.key
      let _ ← need h c.value
      let (x, h) := malloc f .attribute h
      let h ← freeAll h made
      let h ← free h x
      return (decide (x ≠ .null), h)

/-- `ulfius_set_response_cookie`, u_response.c:178–205. -/
def setCookies (f : F) (h : H) (flags : Bool × Bool × Bool) : List Ck → Res (Bool × H)
  | [] => .ok (true, h)
  | c :: t => do
    let (ok, h) ← generate f h c flags
    if ok then setCookies f h flags t else return (false, h)

/-- `ulfius_get_body_from_response`, ulfius.c:254–280: the old body is not freed when the error text takes its place. -/
def getBody (f : F) (h : H) (r : Resp) : Res (Rc × P × Resp × H) :=
  if r.body ≠ .null ∧ 0 < r.bodyLen then
    let (b, h) := malloc f .buffer h
    if b = .null then
      let (e, h) := malloc f .errorBody h
      .ok (if e = .null then .memory else .ok, .null, { r with body := e, bodyLen := 5 }, h)
    else do
      let _ ← need h r.body
      return (.ok, b, r, h)
  else .ok (.ok, .null, r, h)

/-- The answer is built, ulfius.c:1000–1010: body, headers, cookies; libmicrohttpd frees the buffer. `.memory`: the client gets no answer, or
the error text. -/
def answer (f : F) (h : H) (r : Resp) (flags : Bool × Bool × Bool) : Res (Rc × Resp × H) := do
  let (rc, b, r, h) ← getBody f h r
  if rc ≠ .ok then return (rc, r, h)
  else do
    let _ ← readMap h r.header
    let _ ← (if r.cookies = [] then .ok () else need h r.array)
    let (ok, h) ← setCookies f h flags r.cookies
    let h ← free h b
    return (if ok then .ok else .memory, r, h)

/-- `ulfius_export_response_http`, u_response.c:726–764, as far as it reads the response; without cookies. -/
def exportAll (h : H) (r : Resp) : Res Unit := do
  let _ ← readMap h r.header
  if r.bodyLen = 0 then .ok () else need h r.body

/-! ## Programs -/

/-- Calls that fill or read a response. -/
inductive Op where
  /-- `ulfius_add_header_to_response` -/
  | header (k v : Option Bytes)
  | realm (v : Option Bytes)
  | cookie (key value expires domain path : Option Bytes)
  | stringBody (v : Option Bytes)
  | binaryBody (v : Option Bytes)
  | emptyBody
  | jsonBody (v : Option Bytes)
  | answer (flags : Bool × Bool × Bool)
  | exported
  deriving DecidableEq, Repr

/-- One call. -/
def step (f : F) (h : H) (r : Resp) : Op → Res (Rc × Resp × H)
  | .header k v =>
    if k = none ∨ v = none then .ok (.params, r, h)
    else do let (rc, m, h) ← put f .call h r.header k v; return (rc, { r with header := m }, h)
  | .realm v => do
    -- u_response.c:621–629
    let h ← free h r.realm
    let (p, h) := strdup f .realm h (if v = some [] then none else v)
    return (.ok, { r with realm := p }, h)
  | .cookie key value expires domain path =>
    match key with
    | none => .ok (.params, r, h)
    | some key => addCookie f h r key value expires domain path
  | .stringBody v =>
    -- u_response.c:517–533: the length is only written if the copy succeeds
    match v with
    | none => .ok (.params, r, h)
    | some v => do
      let h ← free h r.body
      let (p, h) := malloc f .stringBody h
      if p = .null then return (.memory, { r with body := .null }, h)
      else return (.ok, { r with body := p, bodyLen := v.length }, h)
  | .binaryBody v =>
    -- u_response.c:535–554
    match v with
    | none => .ok (.params, r, h)
    | some [] => .ok (.params, r, h)
    | some v => do
      let h ← free h r.body
      let (p, h) := malloc f .binaryBody h
      if p = .null then return (.memory, { r with body := .null, bodyLen := 0 }, h)
      else return (.ok, { r with body := p, bodyLen := v.length }, h)
  | .emptyBody => do
    let h ← free h r.body
    return (.ok, { r with body := .null, bodyLen := 0 }, h)
  | .jsonBody v =>
    -- u_response.c:683–701: the result of `u_map_put` is not looked at
    match v with
    | none => .ok (.params, r, h)
    | some v => do
      let h ← free h r.body
      let (p, h) := malloc f .jsonBody h
      if p = .null then return (.memory, { r with body := .null, bodyLen := 0 }, h)
      else do
        let (_, m, h) ← put f .json h r.header (some b!"Content-Type") (some b!"application/json")
        return (.ok, { r with body := p, bodyLen := v.length, header := m }, h)
  | .answer flags => answer f h r flags
  | .exported => do
    let _ ← exportAll h r
    return (.ok, r, h)

/-- A call of the program; maps and responses are numbered in the order in which they were made. -/
inductive Cmd where
  /-- `u_map_init` of a variable -/
  | map
  | put (i : Nat) (k v : Option Bytes)
  /-- the program looks at all keys and values -/
  | read (i : Nat)
  | copy (i : Nat)
  /-- `u_map_clean`, or `u_map_clean_full` for a copy -/
  | drop (i : Nat)
  /-- `ulfius_init_response` -/
  | response
  | op (i : Nat) (o : Op)
  /-- `ulfius_clean_response` -/
  | clean (i : Nat)
  deriving DecidableEq, Repr

/-- The maps and responses of a program; `none`: cleaned, or never made. -/
structure State where
  heap : H := {}
  maps : List (Option Map) := []
  resps : List (Option Resp) := []

/-- One call and what it answers (`U_OK` for `u_map_copy` if it is not NULL); nothing happens for what does not exist. -/
def exec (f : F) (s : State) : Cmd → Res (Rc × State)
  | .map => do
    let (rc, m, h) ← mapInit f .call s.heap .null
    return (rc, { s with heap := h, maps := s.maps ++ [if rc = .ok then some m else none] })
  | .put i k v =>
    match s.maps[i]? with
    | some (some m) => do
      let (rc, m, h) ← put f .call s.heap m k v
      return (rc, { s with heap := h, maps := s.maps.set i (some m) })
    | _ => .ok (.params, s)
  | .read i =>
    match s.maps[i]? with
    | some (some m) => do
      let _ ← readMap s.heap m
      return (.ok, s)
    | _ => .ok (.params, s)
  | .copy i =>
    match s.maps[i]? with
    | some (some m) => do
      let (c, h) ← mapCopy f s.heap m
      return (if c.isSome then .ok else .memory, { s with heap := h, maps := s.maps ++ [c] })
    | _ => .ok (.params, { s with maps := s.maps ++ [none] })
  | .drop i =>
    match s.maps[i]? with
    | some (some m) => do
      let h ← mapCleanFull s.heap m
      return (.ok, { s with heap := h, maps := s.maps.set i none })
    | _ => .ok (.params, s)
  | .response => do
    let (rc, r, h) ← initResponse f s.heap .null
    return (rc, { s with heap := h, resps := s.resps ++ [r] })
  | .op i o =>
    match s.resps[i]? with
    | some (some r) => do
      let (rc, r, h) ← step f s.heap r o
      return (rc, { s with heap := h, resps := s.resps.set i (some r) })
    | _ => .ok (.params, s)
  | .clean i =>
    match s.resps[i]? with
    | some (some r) => do
      let h ← cleanResponse s.heap r
      return (.ok, { s with heap := h, resps := s.resps.set i none })
    | _ => .ok (.params, s)

/-- A program: the answers of its calls, each with the number of allocations that failed in it. -/
def run (f : F) (s : State) : List Cmd → Res (List (Rc × Nat) × State)
  | [] => .ok ([], s)
  | c :: t => do
    let (rc, s') ← exec f s c
    let (out, z) ← run f s' t
    return ((rc, s'.heap.failed - s.heap.failed) :: out, z)

end Verif.Oom
