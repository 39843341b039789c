import Verif.Model.Oom
import Verif.Model.Endpoint
/-!
# Model of an instance and its endpoints when memory runs out: `src/ulfius.c:1357–1372, 1400–1464, 1483–1535, 1602–1752`

As in `Model/Oom`: every allocation has a name (`Spot`) and may fail. The elements of `endpoint_list` are written down with the blocks of their texts;
an element nobody wrote is `junk`. Left out: the mutexes of the websocket handler (they can be made), and everything that is not allocated.
-/
namespace Verif.OomInstance
open Verif.UMap (Rc)
open Verif.Memory (P)
open Verif.Oom (H Map)
open Verif.Endpoint (Endpoint emptyEndpoint equals isValid sameTrim)

/-- An allocation in the source. -/
inductive Spot where
  /-- ulfius.c:1697, 1702; 1710: `u_map_init`; 1719 -/
  | realm | headers | headersMap (s : Oom.Site) | handler
  /-- ulfius.c:1433, 1441 -/
  | list | grow
  /-- ulfius.c:1359, 1360, 1361 -/
  | method | pfx | format
  /-- ulfius.c:1488, 1490, 1493, 1495 -/
  | argPrefix | argFormat | curPrefix | curFormat
  /-- ulfius.c:1511 -/
  | shrink
  /-- ulfius.c:1607 -/
  | default
  deriving DecidableEq, Repr

/-- Which allocations fail: the identifier of the request for memory and its place. -/
abbrev F := Nat → Spot → Bool

/-- An allocation at the spot. (The site given to `Oom.malloc` has no meaning.) -/
def alloc (f : F) (s : Spot) (h : H) : P × H := Oom.malloc (fun n _ => f n s) .realm h

/-- `o_realloc` at the spot. -/
def realloc (f : F) (s : Spot) (h : H) (p : P) : Res (P × H) := Oom.realloc (fun n _ => f n s) .realm h p

/-- A text with its block, or NULL. -/
abbrev Txt := Option (Bytes × P)

/-- The pointer. -/
def Txt.ptr : Txt → P
  | none => .null
  | some t => t.2

/-- What is read there. -/
def Txt.text (t : Txt) : Option Bytes := t.map (·.1)

/-- `o_strdup` of a text of the caller. -/
def dup (f : F) (s : Spot) (h : H) : Option Bytes → Txt × H
  | none => (none, h)
  | some t => let (p, h) := alloc f s h; (if p = .null then none else some (t, p), h)

/-- A stored text is read. -/
def needTxt (h : H) : Txt → Res Unit
  | none => .ok ()
  | some t => Oom.need h t.2

/-- `struct _u_endpoint` in the list. -/
structure E where
  method : Txt := none
  pfx : Txt := none
  format : Txt := none
  priority : Nat := 0
  callback : Option Nat := none
  userData : Nat := 0
  deriving DecidableEq, Repr

/-- What is read in it. -/
def E.view (e : E) : Endpoint :=
  { method := e.method.text, pfx := e.pfx.text, format := e.format.text, priority := e.priority, callback := e.callback, userData := e.userData }

/-- Its blocks. -/
def E.ptrs (e : E) : List P := [e.method.ptr, e.pfx.ptr, e.format.ptr]

/-- Its texts are read. -/
def E.need (h : H) (e : E) : Res Unit := do
  let _ ← needTxt h e.method
  let _ ← needTxt h e.pfx
  needTxt h e.format

/-- An element of `endpoint_list`. -/
inductive Slot where
  | junk
  | ep (e : E)
  deriving DecidableEq, Repr

/-- The blocks of `struct _u_instance`, include/ulfius.h:314–345; `slots` are the elements of `endpoint_list` (none if it is NULL). -/
structure Inst where
  realm : P := .null
  headers : Option Map := none
  handler : P := .null
  list : P := .null
  slots : List Slot := []
  nb : Nat := 0
  default : P := .null
  deriving DecidableEq, Repr

/-- The loop of `ulfius_clean_endpoint_list`, ulfius.c:1419–1421. -/
def cleanSlots (h : H) : List Slot → Res H
  | [] => .ub
  | .junk :: _ => .ub
  | .ep e :: t => if e.method.isNone then .ok h else do
    let h ← Oom.freeAll h e.ptrs
    cleanSlots h t

/-- `ulfius_clean_endpoint_list`, ulfius.c:1415–1424. -/
def cleanList (h : H) (i : Inst) : Res H :=
  if i.list = .null then .ok h
  else do
    let _ ← Oom.need h i.list
    let h ← cleanSlots h i.slots
    Oom.free h i.list

/-- `u_map_clean_full(default_headers)`, ulfius.c:1648. -/
def cleanHeaders (h : H) (i : Inst) : Res H :=
  match i.headers with
  | none => .ok h
  | some m => Oom.mapCleanFull h m

/-- `ulfius_clean_instance`, ulfius.c:1645–1670. -/
def clean (h : H) (i : Inst) : Res H := do
  let h ← cleanList h i
  let h ← cleanHeaders h i
  Oom.freeAll h [i.realm, i.default, i.handler]

/-- `internal_ulfius_init_instance`, ulfius.c:1672–1752, with good arguments: what `o_strdup` and `u_map_init` answer is not looked at. `none`: an error. -/
def init (f : F) (h : H) (realm : Option Bytes) : Res (Rc × Option Inst × H) := do
  let (r, h) := dup f .realm h realm
  let (b, h) := alloc f .headers h
  if b = .null then do
    let h ← clean h { realm := r.ptr }
    return (.memory, none, h)
  else do
    let (_, m, h) ← Oom.mapInit (fun n s => f n (.headersMap s)) .call h b
    let (w, h) := alloc f .handler h
    if w = .null then do
      let h ← clean h { realm := r.ptr, headers := some m }
      return (.memory, none, h)
    else return (.ok, some { realm := r.ptr, headers := some m, handler := w }, h)

/-- The texts and the rest of `ulfius_copy_endpoint`, ulfius.c:1359–1364. -/
def copyEndpoint (f : F) (h : H) (e : Endpoint) : E × H :=
  let (m, h) := dup f .method h e.method
  let (p, h) := dup f .pfx h e.pfx
  let (t, h) := dup f .format h e.format
  ({ method := m, pfx := p, format := t, priority := e.priority, callback := e.callback, userData := e.userData }, h)

/-- `endpoint_list[j] = …` -/
def setSlot (l : List Slot) (j : Nat) (s : Slot) : Res (List Slot) := if j < l.length then .ok (l.set j s) else .ub

/-- Room for one more endpoint, ulfius.c:1431–1447; the list is NULL if there is none. -/
def room (f : F) (h : H) (i : Inst) : Res (Inst × H) :=
  if i.list = .null then
    let (p, h) := alloc f .list h
    .ok (if p = .null then i else { i with list := p, slots := [.junk, .junk], nb := 1 }, h)
  else do
    let (p, h) ← realloc f .grow h i.list
    return (if p = .null then { i with list := .null, slots := [], nb := i.nb + 1 }
      else { i with list := p, slots := (i.slots ++ [Slot.junk, Slot.junk]).take (i.nb + 2), nb := i.nb + 1 }, h)

/-- `ulfius_add_endpoint`, ulfius.c:1426–1464. -/
def add (f : F) (h : H) (i : Inst) (e : Endpoint) : Res (Rc × Inst × H) :=
  if !isValid e false then .ok (.params, i, h)
  else do
    let (i, h) ← room f h i
    if i.list = .null then return (.memory, i, h)
    else do
      let (c, h) := copyEndpoint f h e
      let l ← setSlot i.slots (i.nb - 1) (.ep c)
      if !isValid c.view false then return (.memory, { i with slots := l }, h)
      else do
        let l ← setSlot l i.nb (.ep {})
        return (.ok, { i with slots := l }, h)

/-- `for (j=i; j<nb; j++) list[j] = list[j+1];` ulfius.c:1507–1509; `n` turns left. -/
def shift : (n j : Nat) → List Slot → Res (List Slot)
  | 0, _, a => .ok a
  | n + 1, j, a =>
    match a[j + 1]? with
    | some x => shift n (j + 1) (a.set j x)
    | none => .ub

/-- `o_strdup` of a stored text. -/
def dupTxt (f : F) (s : Spot) (h : H) (t : Txt) : Res (Txt × H) := do
  let _ ← needTxt h t
  return dup f s h t.text

/-- The loop of `ulfius_remove_endpoint`, ulfius.c:1492–1520; `k` is one more than the C variable. `ap` and `af` are the copies of prefix and format of
the argument; `trimcharacter` and `o_strcmp` take NULL. -/
def removeLoop (f : F) (e : Endpoint) (ap af : Txt) : Nat → H → Inst → Bool → Res (Rc × Inst × H)
  | 0, h, i, found => .ok (if found then .ok else .notFound, i, h)
  | k + 1, h, i, found => do
    let _ ← Oom.need h i.list
    match i.slots[k]? with
    | some (.ep cur) => do
      let (cp, h) ← dupTxt f .curPrefix h cur.pfx
      let (cf, h) ← dupTxt f .curFormat h cur.format
      let _ ← needTxt h cur.method
      if cur.method.text == e.method && sameTrim cp.text ap.text && sameTrim cf.text af.text then do
        let h ← Oom.freeAll h cur.ptrs
        let l ← shift (i.nb - k) k i.slots
        let (p, h) ← realloc f .shrink h i.list
        let h ← Oom.freeAll h [cp.ptr, cf.ptr]
        if p = .null then return (.memory, { i with list := .null, slots := [], nb := i.nb - 1 }, h)
        else removeLoop f e ap af k h { i with list := p, slots := l.take i.nb, nb := i.nb - 1 } true
      else do
        let h ← Oom.freeAll h [cp.ptr, cf.ptr]
        removeLoop f e ap af k h i found
    | _ => .ub

/-- `ulfius_remove_endpoint`, ulfius.c:1483–1535. -/
def remove (f : F) (h : H) (i : Inst) (e : Endpoint) : Res (Rc × Inst × H) :=
  if !equals e emptyEndpoint && isValid e true then do
    let (ap, h) := dup f .argPrefix h e.pfx
    let (af, h) := dup f .argFormat h e.format
    let (rc, i, h) ← removeLoop f e ap af i.nb h i false
    let h ← Oom.freeAll h [ap.ptr, af.ptr]
    return (rc, i, h)
  else .ok (.params, i, h)

/-- `ulfius_set_default_endpoint` with a callback, ulfius.c:1602–1625. -/
def setDefault (f : F) (h : H) (i : Inst) : Res (Rc × Inst × H) :=
  if i.default = .null then
    let (p, h) := alloc f .default h
    if p = .null then .ok (.memory, i, h) else .ok (.ok, { i with default := p }, h)
  else do
    let _ ← Oom.need h i.default
    return (.ok, i, h)

/-- The endpoints a request is compared with, u_request.c:153–180: up to the empty one. The method of each is read (156). -/
def lookLoop (h : H) : List Slot → Res (List Endpoint)
  | [] => .ub
  | .junk :: _ => .ub
  | .ep e :: t => do
    let _ ← e.need h
    if equals e.view emptyEndpoint then return []
    else match e.method with
      | none => .ub
      | some _ => do
        let r ← lookLoop h t
        return e.view :: r

/-- A request comes, u_request.c:147–180. -/
def look (h : H) (i : Inst) : Res (List Endpoint) :=
  if i.list = .null then .ok []
  else do
    let _ ← Oom.need h i.list
    lookLoop h i.slots

/-- A call of the program, or a request of a client. -/
inductive Cmd where
  | init (realm : Option Bytes)
  | add (e : Endpoint)
  | remove (e : Endpoint)
  | setDefault
  | request
  | clean
  deriving DecidableEq, Repr

/-- The heap and the instance, if it is initialised. -/
structure State where
  heap : H := {}
  inst : Option Inst := none

/-- One call: what it answers, and for a request the endpoints it was compared with. Without an instance nothing happens, nor is it initialised twice. -/
def exec (f : F) (s : State) (c : Cmd) : Res (Rc × List Endpoint × State) :=
  match s.inst, c with
  | none, .init realm => do
    let (rc, i, h) ← init f s.heap realm
    return (rc, [], ⟨h, i⟩)
  | some i, .add e => do
    let (rc, i, h) ← add f s.heap i e
    return (rc, [], ⟨h, some i⟩)
  | some i, .remove e => do
    let (rc, i, h) ← remove f s.heap i e
    return (rc, [], ⟨h, some i⟩)
  | some i, .setDefault => do
    let (rc, i, h) ← setDefault f s.heap i
    return (rc, [], ⟨h, some i⟩)
  | some i, .request => do
    let l ← look s.heap i
    return (.ok, l, s)
  | some i, .clean => do
    let h ← clean s.heap i
    return (.ok, [], ⟨h, none⟩)
  | _, _ => .ok (.params, [], s)

/-- What is noted of a call: its answer, how many allocations failed in it, the endpoints a request was compared with. -/
structure Out where
  rc : Rc
  failed : Nat
  seen : List Endpoint
  deriving DecidableEq, Repr

/-- A program. -/
def run (f : F) (s : State) : List Cmd → Res (List Out × State)
  | [] => .ok ([], s)
  | c :: t => do
    let (rc, l, s') ← exec f s c
    let (out, z) ← run f s' t
    return (⟨rc, s'.heap.failed - s.heap.failed, l⟩ :: out, z)

end Verif.OomInstance
