import Verif.Model.Oom
/-!
# Model of requests when memory runs out: `src/u_request.c:267–482, 494–700, 704–790, 953–970`, `src/ulfius.c:207–246, 308–329, 501–545`

As in `Model/Oom`, whose maps are used: every allocation has a name (`Spot`) and may fail. The texts of a request are a list of pointers. Values in
the maps are texts. Requests are copied into fresh ones only. Left out: the certificate of a client, `u_map_remove_*`, what the dispatcher reads into the
maps (see `Model/OomRead`) and the post processor.
-/
namespace Verif.OomRequest
open Verif.UMap (Rc)
open Verif.Memory (P)
open Verif.Oom (H Map)

/-- An allocation in the source. -/
inductive Spot where
  /-- u_request.c:269, 272–274 -/
  | mapBox
  /-- u_request.c:281–284: `u_map_init` -/
  | initMap (s : Oom.Site)
  /-- u_request.c:383–399, 466–468: `o_strdup` -/
  | copyText
  /-- u_request.c:403 -/
  | copyAddress
  /-- u_request.c:412–450: `u_map_init`, and `u_map_put` in `u_map_copy_into` -/
  | copyInit (s : Oom.Site) | copyPut (s : Oom.Site)
  /-- u_request.c:455 -/
  | copyBody
  /-- u_request.c:770 -/
  | dupBox
  /-- u_request.c:508–690: `o_strdup` -/
  | setText
  /-- `u_map_put` by the program, or u_request.c:608–623 -/
  | put (s : Oom.Site)
  /-- u_request.c:708, 733, 960 -/
  | stringBody | binaryBody | jsonBody
  /-- u_request.c:966: `u_map_put` -/
  | jsonPut (s : Oom.Site)
  /-- ulfius.c:208, 214, 215 -/
  | conBox | conMap (s : Oom.Site) | conRequest
  /-- ulfius.c:228–233 -/
  | uri
  /-- ulfius.c:526, 527, 528 -/
  | protocol | verb | address
  deriving DecidableEq, Repr

/-- Which allocations fail: the identifier of the request for memory and its place. -/
abbrev F := Nat → Spot → Bool

/-- An allocation at the spot. (The site given to `Oom.malloc` has no meaning.) -/
def alloc (f : F) (s : Spot) (h : H) : P × H := Oom.malloc (fun n _ => f n s) .realm h

/-- `o_strdup` of a text that is there or not. -/
def dupText (f : F) (s : Spot) (h : H) (p : P) : Res (P × H) :=
  if p = .null then .ok (.null, h)
  else do
    let _ ← Oom.need h p
    return alloc f s h

/-- The maps of a request. -/
inductive Which where
  | url | header | cookie | post
  deriving DecidableEq, Repr

/-- `struct _u_request` in the block `box` (NULL: a variable of the caller), include/ulfius.h:222–260. `texts`: `http_protocol`, `http_verb`,
`http_url`, `url_path`, `proxy`, `auth_basic_user`, `auth_basic_password`, `ca_path`, `client_cert_file`, `client_key_file`, `client_key_password`. -/
structure Req where
  box : P := .null
  texts : List P
  address : P := .null
  body : P := .null
  bodyLen : Nat := 0
  url : Map
  header : Map
  cookie : Map
  post : Map
  deriving DecidableEq, Repr

/-- One of the maps. -/
def Req.map (r : Req) : Which → Map
  | .url => r.url | .header => r.header | .cookie => r.cookie | .post => r.post

/-- A request with another map. -/
def Req.setMap (r : Req) (w : Which) (m : Map) : Req :=
  match w with
  | .url => { r with url := m } | .header => { r with header := m } | .cookie => { r with cookie := m } | .post => { r with post := m }

/-- `ulfius_clean_request`, u_request.c:323–364, and the block of the request (366–373); the order is another one. -/
def clean (h : H) (r : Req) : Res H := do
  let h ← Oom.freeAll h (r.texts ++ [r.address])
  let h ← Oom.mapCleanFull h r.url
  let h ← Oom.mapCleanFull h r.header
  let h ← Oom.mapCleanFull h r.cookie
  let h ← Oom.mapCleanFull h r.post
  Oom.freeAll h [r.body, r.box]

/-- `ulfius_init_request`, u_request.c:267–317, of a structure with any contents. When a map cannot be allocated the whole structure is cleaned, most
of which was not written yet. What `u_map_init` answers is not looked at. `none`: an error, the structure is not to be used. -/
def init (f : F) (h : H) (box : P) : Res (Rc × Option Req × H) := do
  let (b1, h) := alloc f .mapBox h
  let (b2, h) := alloc f .mapBox h
  let (b3, h) := alloc f .mapBox h
  let (b4, h) := alloc f .mapBox h
  if b1 = .null ∨ b2 = .null ∨ b3 = .null ∨ b4 = .null then do
    let junk (b : P) : Map := { box := b, keys := .junk, values := .junk, lengths := .junk }
    let h ← clean h { texts := List.replicate 5 .junk ++ [.null, .null] ++ List.replicate 4 .junk, address := .junk, body := .junk,
                      url := junk b1, header := junk b2, cookie := junk b3, post := junk b4 }
    return (.memory, none, h)
  else do
    let (_, m1, h) ← Oom.mapInit (fun n s => f n (.initMap s)) .call h b1
    let (_, m2, h) ← Oom.mapInit (fun n s => f n (.initMap s)) .call h b2
    let (_, m3, h) ← Oom.mapInit (fun n s => f n (.initMap s)) .call h b3
    let (_, m4, h) ← Oom.mapInit (fun n s => f n (.initMap s)) .call h b4
    return (.ok, some { box := box, texts := List.replicate 11 .null, url := m1, header := m2, cookie := m3, post := m4 }, h)

/-- The texts are copied, u_request.c:383–399, 466–468; a copy that fails goes unnoticed. -/
def copyTexts (f : F) (h : H) : List P → Res (List P × H)
  | [] => .ok ([], h)
  | p :: t => do
    let (q, h) ← dupText f .copyText h p
    let (t, h) ← copyTexts f h t
    return (q :: t, h)

/-- `u_map_copy_into`, u_map.c:489–506 (the loop of `u_map_copy`, Oom.copyEntries, is the same for texts). -/
def copyInto (f : F) (h : H) (dest src : Map) : Res (Rc × Map × H) := do
  let _ ← Oom.readMap h src
  if src.keys = .null then return (.ok, dest, h)
  else Oom.copyEntries (fun n s => f n (.copyPut s)) h src dest src.entries

/-- One map of `ulfius_copy_request`, u_request.c:412–450: the map of the fresh request is cleaned, initialised again and filled. -/
def copyMap (f : F) (h : H) (dest src : Map) : Res (Bool × Map × H) := do
  let h ← Oom.mapClean h dest
  let (rc, m, h) ← Oom.mapInit (fun n s => f n (.copyInit s)) .copy h dest.box
  if rc ≠ .ok then return (false, m, h)
  else do
    let (rc, m, h) ← copyInto f h m src
    return (decide (rc = .ok), m, h)

/-- The same if nothing failed before. -/
def copyWhich (f : F) (h : H) (ok : Bool) (dest src : Req) (w : Which) : Res (Bool × Req × H) :=
  if ok then do
    let (ok, m, h) ← copyMap f h (dest.map w) (src.map w)
    return (ok, dest.setMap w m, h)
  else .ok (false, dest, h)

/-- The body, u_request.c:452–463, if nothing failed before: the length is set first. -/
def copyBody (f : F) (h : H) (ok : Bool) (dest src : Req) : Res (Bool × Req × H) :=
  if ok && src.bodyLen != 0 then
    let (b, h) := alloc f .copyBody h
    if b = .null then .ok (false, { dest with body := .null, bodyLen := src.bodyLen }, h)
    else do
      let _ ← Oom.need h src.body
      return (true, { dest with body := b, bodyLen := src.bodyLen }, h)
  else .ok (ok, dest, h)

/-- The address of the client, u_request.c:402–410. -/
def copyAddress (f : F) (h : H) (src : Req) : Res (Bool × P × H) :=
  if src.address = .null then .ok (true, .null, h)
  else
    let (a, h) := alloc f .copyAddress h
    if a = .null then .ok (false, .null, h)
    else do
      let _ ← Oom.need h src.address
      return (true, a, h)

/-- `ulfius_copy_request`, u_request.c:380–482, into a fresh request: U_OK? -/
def copy (f : F) (h : H) (dest src : Req) : Res (Bool × Req × H) := do
  let (ts, h) ← copyTexts f h src.texts
  let (ok, a, h) ← copyAddress f h src
  let dest := { dest with texts := ts, address := a }
  let (ok, dest, h) ← copyWhich f h ok dest src .url
  let (ok, dest, h) ← copyWhich f h ok dest src .header
  let (ok, dest, h) ← copyWhich f h ok dest src .cookie
  let (ok, dest, h) ← copyWhich f h ok dest src .post
  copyBody f h ok dest src

/-- `ulfius_duplicate_request`, u_request.c:767–790: `none` is NULL. -/
def duplicate (f : F) (h : H) (src : Req) : Res (Option Req × H) := do
  let (b, h) := alloc f .dupBox h
  if b = .null then return (none, h)
  else do
    let (_, r, h) ← init f h b
    match r with
    | none => do
      let h ← Oom.free h b
      return (none, h)
    | some r => do
      let (ok, r, h) ← copy f h r src
      if ok then return (some r, h)
      else do
        let h ← clean h r
        return (none, h)

/-- Calls that fill or read a request. -/
inductive Op where
  /-- `u_map_put`, or the option of `ulfius_set_request_properties` -/
  | put (w : Which) (k v : Option Bytes)
  /-- the program looks at all keys and values -/
  | read (w : Which)
  /-- a text set by `ulfius_set_request_properties`, u_request.c:508–690 -/
  | text (i : Nat) (v : Option Bytes)
  | stringBody (v : Option Bytes)
  | binaryBody (v : Option Bytes)
  | emptyBody
  | jsonBody (v : Option Bytes)
  deriving DecidableEq, Repr

/-- One call. -/
def step (f : F) (h : H) (r : Req) : Op → Res (Rc × Req × H)
  | .put w k v => do
    let (rc, m, h) ← Oom.put (fun n s => f n (.put s)) .call h (r.map w) k v
    return (rc, r.setMap w m, h)
  | .read w => do
    let _ ← Oom.readMap h (r.map w)
    return (.ok, r, h)
  | .text i v =>
    match r.texts[i]? with
    | none => .ok (.params, r, h)
    | some p => do
      let h ← Oom.free h p
      let (p, h) := (match v with | none => (P.null, h) | some [] => (P.null, h) | some _ => alloc f .setText h)
      return (.ok, { r with texts := r.texts.set i p }, h)
  | .stringBody v =>
    -- u_request.c:704–720: the length is only written if the copy succeeds
    match v with
    | none => .ok (.params, r, h)
    | some v => do
      let h ← Oom.free h r.body
      let (p, h) := alloc f .stringBody h
      if p = .null then return (.memory, { r with body := .null }, h)
      else return (.ok, { r with body := p, bodyLen := v.length }, h)
  | .binaryBody v =>
    -- u_request.c:726–745
    match v with
    | none => .ok (.params, r, h)
    | some [] => .ok (.params, r, h)
    | some v => do
      let h ← Oom.free h r.body
      let (p, h) := alloc f .binaryBody h
      if p = .null then return (.memory, { r with body := .null, bodyLen := 0 }, h)
      else return (.ok, { r with body := p, bodyLen := v.length }, h)
  | .emptyBody => do
    let h ← Oom.free h r.body
    return (.ok, { r with body := .null, bodyLen := 0 }, h)
  | .jsonBody v =>
    -- u_request.c:953–970: the result of `u_map_put` is not looked at
    match v with
    | none => .ok (.params, r, h)
    | some v => do
      let h ← Oom.free h r.body
      let (p, h) := alloc f .jsonBody h
      if p = .null then return (.memory, { r with body := .null, bodyLen := 0 }, h)
      else do
        let (_, m, h) ← Oom.put (fun n s => f n (.jsonPut s)) .json h r.header (some b!"Content-Type") (some b!"application/json")
        return (.ok, { r with body := p, bodyLen := v.length, header := m }, h)

/-! ## Connections -/

/-- `struct connection_info_struct`, src/u_private.h: its block, `map_url_initial`, the request, `callback_first_iteration`. -/
structure Con where
  box : P
  initial : Map
  request : Req
  fresh : Bool := true
  deriving DecidableEq, Repr

/-- `ulfius_uri_logger`, ulfius.c:207–246: `none` is NULL. -/
def connect (f : F) (h : H) : Res (Option Con × H) := do
  let (c, h) := alloc f .conBox h
  if c = .null then return (none, h)
  else do
    let (_, m, h) ← Oom.mapInit (fun n s => f n (.conMap s)) .call h .null
    let (b, h) := alloc f .conRequest h
    if b = .null then do
      let h ← Oom.free h c
      return (none, h)
    else do
      let (_, r, h) ← init f h b
      match r with
      | none => .ub                    -- 222: the request is cleaned a second time
      | some r => do
        let (u, h) := alloc f .uri h
        let (p, h) := alloc f .uri h
        let r := { r with texts := (r.texts.set 2 u).set 3 p }
        if u = .null ∨ p = .null then do
          let h ← clean h r
          let h ← Oom.free h c
          return (none, h)
        else return (some { box := c, initial := m, request := r }, h)

/-- The first call of the dispatcher, ulfius.c:524–532; `.memory` is `MHD_NO`. That `http_protocol` could not be copied goes unnoticed. -/
def first (f : F) (h : H) (c : Con) : Res (Rc × Con × H) :=
  if c.fresh then
    let (p, h) := alloc f .protocol h
    let (v, h) := alloc f .verb h
    let (a, h) := alloc f .address h
    .ok (if a = .null ∨ v = .null then .memory else .ok,
      { c with fresh := false, request := { c.request with texts := (c.request.texts.set 0 p).set 1 v, address := a } }, h)
  else .ok (.params, c, h)

/-- `mhd_request_completed`, ulfius.c:308–329. -/
def complete (h : H) (c : Con) : Res H := do
  let _ ← Oom.need h c.box
  let h ← clean h c.request
  let h ← Oom.mapClean h c.initial
  Oom.free h c.box

/-! ## Programs -/

/-- A call of the program, or of libmicrohttpd; requests and connections are numbered in the order in which they were made. -/
inductive Cmd where
  | init
  | op (i : Nat) (o : Op)
  | duplicate (i : Nat)
  | clean (i : Nat)
  | connect
  | first (i : Nat)
  /-- a callback works on the request of a connection (after the first call of the dispatcher) -/
  | within (i : Nat) (o : Op)
  | complete (i : Nat)
  deriving DecidableEq, Repr

/-- The requests and connections; `none`: cleaned, or never made. -/
structure State where
  heap : H := {}
  reqs : List (Option Req) := []
  cons : List (Option Con) := []

/-- One call and what it answers; nothing happens for what does not exist. -/
def exec (f : F) (s : State) : Cmd → Res (Rc × State)
  | .init => do
    let (rc, r, h) ← init f s.heap .null
    return (rc, { s with heap := h, reqs := s.reqs ++ [r] })
  | .op i o =>
    match s.reqs[i]? with
    | some (some r) => do
      let (rc, r, h) ← step f s.heap r o
      return (rc, { s with heap := h, reqs := s.reqs.set i (some r) })
    | _ => .ok (.params, s)
  | .duplicate i =>
    match s.reqs[i]? with
    | some (some r) => do
      let (c, h) ← duplicate f s.heap r
      return (if c.isSome then .ok else .memory, { s with heap := h, reqs := s.reqs ++ [c] })
    | _ => .ok (.params, { s with reqs := s.reqs ++ [none] })
  | .clean i =>
    match s.reqs[i]? with
    | some (some r) => do
      let h ← clean s.heap r
      return (.ok, { s with heap := h, reqs := s.reqs.set i none })
    | _ => .ok (.params, s)
  | .connect => do
    let (c, h) ← connect f s.heap
    return (if c.isSome then .ok else .memory, { s with heap := h, cons := s.cons ++ [c] })
  | .first i =>
    match s.cons[i]? with
    | some (some c) => do
      let (rc, c, h) ← first f s.heap c
      return (rc, { s with heap := h, cons := s.cons.set i (some c) })
    | _ => .ok (.params, s)
  | .within i o =>
    match s.cons[i]? with
    | some (some c) =>
      if c.fresh then .ok (.params, s)
      else do
      let (rc, r, h) ← step f s.heap c.request o
      return (rc, { s with heap := h, cons := s.cons.set i (some { c with request := r }) })
    | _ => .ok (.params, s)
  | .complete i =>
    match s.cons[i]? with
    | some (some c) => do
      let h ← complete s.heap c
      return (.ok, { s with heap := h, cons := s.cons.set i none })
    | _ => .ok (.params, s)

/-- A program: the answers of its calls, each with the number of allocations that failed in it. -/
def run (f : F) (s : State) : List Cmd → Res (List (Rc × Nat) × State)
  | [] => .ok ([], s)
  | c :: t => do
    let (rc, s') ← exec f s c
    let (out, z) ← run f s' t
    return ((rc, s'.heap.failed - s.heap.failed) :: out, z)

end Verif.OomRequest
