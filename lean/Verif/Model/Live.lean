import Verif.Model.MemoryServer
/-!
# Model: endpoints added and removed while requests are served

`ulfius_add_endpoint`, `ulfius_remove_endpoint` and `ulfius_clean_endpoint_list` (ulfius.c:1401–1535) with their blocks, and requests that select
their endpoints in `ulfius_endpoint_match` (u_request.c:139–189) and call the copies (ulfius.c:592–1066), interleaved: the threads of libmicrohttpd,
and any thread of the program that adds or removes endpoints, a callback for instance.

Nothing is locked. A request reads `endpoint_list` once (ulfius.c:457) and then goes through the array element by element, one action each. A call
that changes the list begins and ends; an access to the list in between, by another thread, is a data race, that is undefined behaviour. Identifiers
of blocks are never used twice and `o_realloc` always moves (`Model/Memory`), so that an array that is no longer the one of the instance cannot be
read. Allocations succeed. Of the dispatcher only the endpoints are modelled: which copies are made, called and freed; what the callbacks
return is left to the actions (`stop`). The default endpoint is left out.
-/
namespace Verif.Live
open Verif.Memory Verif.Endpoint

/-- An element of `endpoint_list`: the endpoint and the blocks of its strings. -/
structure Slot where
  e : Endpoint
  mp : P
  pp : P
  fp : P
  deriving DecidableEq

/-- `endpoint_list`, the elements of the array, `nb_endpoints`. -/
structure Inst where
  arr : P := .null
  slots : List Slot := []
  nb : Nat := 0
  deriving DecidableEq

/-- `ulfius_copy_endpoint` into an element, ulfius.c:1357–1372. -/
def copySlot (h : Heap) (e : Endpoint) : Slot × Heap :=
  let (m, h) := strdup h e.method
  let (p, h) := strdup h e.pfx
  let (f, h) := strdup h e.format
  (⟨e, m, p, f⟩, h)

/-- An element that was not written yet. -/
def unwritten : Slot := ⟨emptyEndpoint, .junk, .junk, .junk⟩

/-- `ulfius_add_endpoint`, ulfius.c:1426–1464; the boolean: `U_OK`. -/
def addMem (h : Heap) (s : Inst) (e : Endpoint) : Res (Bool × Inst × Heap) :=
  if isValid e false then do
    let (a, h) ← (if s.arr = .null then .ok (malloc h) else realloc h s.arr)
    let nb := if s.arr = .null then 1 else s.nb + 1
    let (x, h) := copySlot h e
    let l ← aset ((s.slots ++ [unwritten, unwritten]).take (nb + 1)) (nb - 1) x
    let (z, h) := copySlot h emptyEndpoint
    let l ← aset l nb z
    return (true, ⟨a, l, nb⟩, h)
  else .ok (false, s, h)

/-- `o_strcmp` reads the string. -/
def readP (h : Heap) : P → Res Unit
  | .null => .ok ()
  | p => need h p

/-- The loop of `ulfius_remove_endpoint`, ulfius.c:1492–1520; `i` is one more than the C variable. That moving the elements down and shortening the
array takes out one element is part of C21. -/
def removeLoopMem (e : Endpoint) : Nat → Heap → Inst → Bool → Res (Bool × Inst × Heap)
  | 0, h, s, found => .ok (found, s, h)
  | i + 1, h, s, found => do
    let _ ← need h s.arr
    match s.slots[i]? with
    | none => .ub
    | some x => do
      let (p, h) ← copyP h x.pp
      let (f, h) ← copyP h x.fp
      let _ ← readP h x.mp
      if x.e.method == e.method && sameTrim x.e.pfx e.pfx && sameTrim x.e.format e.format then do
        let h ← freeAll h [x.mp, x.pp, x.fp]
        let (a, h) ← realloc h s.arr
        let h ← freeAll h [p, f]
        removeLoopMem e i h ⟨a, s.slots.eraseIdx i, s.nb - 1⟩ true
      else do
        let h ← freeAll h [p, f]
        removeLoopMem e i h s found

/-- `ulfius_remove_endpoint`, ulfius.c:1483–1535. -/
def removeMem (h : Heap) (s : Inst) (e : Endpoint) : Res (Bool × Inst × Heap) :=
  if !equals e emptyEndpoint && isValid e true then do
    let (p, h) := strdup h e.pfx
    let (f, h) := strdup h e.format
    let (found, s, h) ← removeLoopMem e s.nb h s false
    let h ← freeAll h [p, f]
    return (found, s, h)
  else .ok (false, s, h)

/-- The loop of `ulfius_clean_endpoint_list`, ulfius.c:1419–1421, with `ulfius_clean_endpoint`, 1401–1410. -/
def cleanSlots (h : Heap) : List Slot → Res Heap
  | [] => .ub
  | x :: t => if x.e.method = none then .ok h else do let h ← freeAll h [x.mp, x.pp, x.fp]; cleanSlots h t

/-- `ulfius_clean_endpoint_list`, ulfius.c:1416–1424, called by `ulfius_clean_instance`. -/
def cleanList (h : Heap) (s : Inst) : Res Heap :=
  if s.arr = .null then .ok h
  else do
    let _ ← need h s.arr
    let h ← cleanSlots h s.slots
    free h s.arr

/-! ## Requests and changes -/

/-- A call that changes the list. -/
inductive Change where
  | add (e : Endpoint)
  | remove (e : Endpoint)
  deriving DecidableEq

/-- What the call does. -/
def apply (h : Heap) (s : Inst) : Change → Res (Bool × Inst × Heap)
  | .add e => addMem h s e
  | .remove e => removeMem h s e

/-- Where a request is. -/
inductive Stage where
  /-- u_request.c:149–180: the parameter `endpoint_list`, `i`, `endpoint_returned`, `splitted_url`, the copies so far -/
  | matching (list : P) (i : Nat) (arr : P) (words : Words) (found : List EpCopy)
  /-- ulfius.c:636–955: `current_endpoint_list` with all copies, those that come next, `close_loop`, the endpoints whose callbacks were called
  and whether they ended the loop -/
  | calling (arr : P) (all left : List EpCopy) (close : Bool) (called : List (Endpoint × Bool))
  /-- ulfius.c:1066 -/
  | done (close : Bool) (called : List (Endpoint × Bool))

/-- A request. -/
structure Request where
  method : Bytes
  url : Bytes
  stage : Stage

/-- The instance, a call that changes its list and has begun, the requests so far. -/
structure Sys where
  h : Heap
  inst : Inst := {}
  writer : Option Change := none
  reqs : List Request := []

/-- What happens. -/
inductive Act where
  /-- a request is complete: ulfius.c:457, 592 -/
  | request (method url : Bytes)
  /-- request `i` looks at the next element of the array -/
  | look (i : Nat)
  /-- request `i` calls its next callback, which ends the loop or not; or the loop is over and the copies are freed -/
  | call (i : Nat) (stop : Bool)
  /-- a call of `ulfius_add_endpoint` or `ulfius_remove_endpoint` begins -/
  | change (c : Change)
  /-- and ends -/
  | changed

/-- Request `i` moves on. -/
def put (s : Sys) (i : Nat) (r : Request) (h : Heap) : Sys := { s with h := h, reqs := s.reqs.set i r }

/-- The next element, u_request.c:152–180; `sort`: what `qsort` does (187). -/
def look (sort : List EpCopy → List EpCopy) (s : Sys) (i : Nat) (r : Request) (list : P) (k : Nat) (arr : P) (words : Words) (found : List EpCopy) :
    Res Sys :=
  match s.writer with
  | some _ => .ub
  | none => do
    let _ ← need s.h list
    match s.inst.slots[k]? with
    | none => .ub
    | some x => do
      let _ ← readP s.h x.mp
      let _ ← readP s.h x.pp
      let _ ← readP s.h x.fp
      if equals x.e emptyEndpoint then do
        let h ← cleanEnum s.h (some words)
        return put s i { r with stage := .calling arr (sort found) (sort found) false [] } h
      else do
        let (arr, found, h) ← matchOne s.h r.method r.url arr found x.e
        return put s i { r with stage := .matching list (k + 1) arr words found } h

/-- One action; an action of a request that is elsewhere changes nothing. -/
def act (sort : List EpCopy → List EpCopy) (s : Sys) : Act → Res Sys
  | .request method url =>
    match s.writer with
    | some _ => .ub
    | none => do
      let (arr, h) := malloc s.h
      if s.inst.arr = .null then return { s with h := h, reqs := s.reqs ++ [⟨method, url, .calling arr [] [] false []⟩] }
      else do
        let (w, h) ← splitMem h (some url) none
        return { s with h := h, reqs := s.reqs ++ [⟨method, url, .matching s.inst.arr 0 arr w []⟩] }
  | .look i =>
    match s.reqs[i]? with
    | none => .ok s
    | some r =>
      match r.stage with
      | .matching list k arr words found => look sort s i r list k arr words found
      | _ => .ok s
  | .call i stop =>
    match s.reqs[i]? with
    | none => .ok s
    | some r =>
      match r.stage with
      | .calling arr all (c :: t) false called => do
        let _ ← need s.h c.box
        return put s i { r with stage := .calling arr all t stop (called ++ [(c.of, stop)]) } s.h
      | .calling arr all _ close called => do
        let h ← freeEndpoints s.h arr all
        return put s i { r with stage := .done close called } h
      | _ => .ok s
  | .change c =>
    match s.writer with
    | some _ => .ub
    | none => .ok { s with writer := some c }
  | .changed =>
    match s.writer with
    | none => .ok s
    | some c => do
      let (_, inst, h) ← apply s.h s.inst c
      return { s with h := h, inst := inst, writer := none }

/-- One after the other, in any order. -/
def exec (sort : List EpCopy → List EpCopy) (s : Sys) : List Act → Res Sys
  | [] => .ok s
  | a :: t => do let s ← act sort s a; exec sort s t

end Verif.Live
