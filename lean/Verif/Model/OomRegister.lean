import Verif.Basic
/-!
# Model of registering a websocket and its extensions when memory runs out, `src/u_websocket.c:64–96, 1844–1959, 2449–2533`, `src/u_response.c:351–356, 400–419`

Every allocation is given as a choice: `true`, it succeeds. `o_malloc` does not clear the memory it gives.

Simplifications: the response was initialised, so it has a handle with an empty list. Callbacks are numbers, with their data; NULL is `none`. orcania's
`pointer_list_append` keeps the list as it was when it fails. `ulfius_init_websocket` succeeds or fails as a whole (what goes wrong in it: C190, C192).
Blocks that nobody can free any more are counted.
-/
namespace Verif.OomRegister

/-- `U_OK`, `U_ERROR`, `U_ERROR_MEMORY`, `U_ERROR_PARAMS`. -/
inductive Code where
  | ok | error | memory | params
  deriving DecidableEq, Repr

/-- A `char *` field: NULL, a text, or the address of a text that was freed. -/
inductive Txt where
  | null
  | text (b : Bytes)
  | freed
  deriving DecidableEq, Repr

/-- `o_free`. -/
def free : Txt → Res Unit
  | .freed => .ub
  | _ => .ok ()

/-- `o_strdup`. -/
def dup (ok : Bool) : Option Bytes → Txt
  | some b => if ok then .text b else .null
  | none => .null

/-- What the field is after `o_free(field)`: it is not cleared. -/
def afterFree : Txt → Txt
  | .null => .null
  | _ => .freed

/-- The callbacks of a websocket. -/
structure Calls where
  manager : Option Nat := none
  incoming : Option Nat := none
  onclose : Option Nat := none
  deriving DecidableEq, Repr

/-- The field `context` of an extension. -/
inductive Context where
  | null | unwritten
  deriving DecidableEq, Repr

/-- `struct _websocket_extension`: the name is `extension_server` on the server, `extension_client` on the client. -/
structure Ext where
  name : Option Bytes
  rsv : UInt8
  out : Option Nat
  inn : Option Nat
  matcher : Option Nat
  freeContext : Option Nat
  context : Context
  enabled : Bool
  deriving DecidableEq, Repr

/-- The arguments of the two functions that add an extension. -/
structure Args where
  name : Option Bytes
  rsv : UInt8
  out : Option Nat
  inn : Option Nat
  matcher : Option Nat
  freeContext : Option Nat
  deriving DecidableEq, Repr

/-- The checks of the arguments, u_websocket.c:1925–1927, 2479–2481. -/
def valid (a : Args) : Bool :=
  (a.name.getD [] != []) && (a.out.isSome || a.inn.isSome) && (a.rsv == 0x40 || a.rsv == 0x20 || a.rsv == 0x10)

/-- `struct _websocket_handle` of a response; `lost`: blocks nobody can free. -/
structure Handle where
  protocol : Txt := .null
  extensions : Txt := .null
  calls : Calls := {}
  exts : List Ext := []
  lost : Nat := 0
  deriving DecidableEq, Repr

/-- Which allocations of the functions on the server succeed. -/
structure Mem where
  /-- `o_strdup(websocket_protocol)`, u_websocket.c:1864 -/
  protocol : Bool := true
  /-- `o_strdup(websocket_extensions)`, u_websocket.c:1872 -/
  extensions : Bool := true
  /-- `o_malloc(sizeof(struct _websocket_extension))`, u_websocket.c:1928, 2490 -/
  box : Bool := true
  /-- `o_strdup` of the name, u_websocket.c:1930, 2492 -/
  name : Bool := true
  /-- `pointer_list_append`, u_websocket.c:1941, 2511 -/
  append : Bool := true
  /-- `o_malloc(sizeof(struct _websocket))`, u_websocket.c:2483 -/
  websocket : Bool := true
  /-- `ulfius_init_websocket`, u_websocket.c:2484 -/
  init : Bool := true
  /-- `o_malloc(sizeof(struct _pointer_list))`, u_websocket.c:2503 -/
  list : Bool := true
  deriving DecidableEq, Repr

/-- `ulfius_set_websocket_response`, u_websocket.c:1844–1890. -/
def setResponse (m : Mem) (h : Handle) (p e : Option Bytes) (c : Calls) : Res (Code × Handle) := do
  if c.manager.isSome || c.incoming.isSome then
    free h.protocol
    let pr := dup m.protocol p
    if pr = .null ∧ p.isSome then return (.memory, { h with protocol := pr })
    else do
      free h.extensions
      let ex := dup m.extensions e
      if ex = .null ∧ e.isSome then return (.memory, { h with protocol := afterFree pr, extensions := ex })
      else return (.ok, { h with protocol := pr, extensions := ex, calls := c })
  else return (.params, h)

/-- The new extension, u_websocket.c:1930–1940, 2492–2501. -/
def newExt (m : Mem) (context : Context) (a : Args) : Ext :=
  { name := if m.name then a.name else none, rsv := a.rsv, out := a.out, inn := a.inn, matcher := a.matcher, freeContext := a.freeContext, context,
    enabled := false }

/-- The blocks of an extension: itself and its name. -/
def blocks (x : Ext) : Nat := if x.name.isSome then 2 else 1

/-- `ulfius_add_websocket_extension_message_perform`, u_websocket.c:1892–1959. -/
def addExt (m : Mem) (h : Handle) (a : Args) : Code × Handle :=
  if valid a then
    if m.box then
      let x := newExt m .null a
      if m.append then (.ok, { h with exts := h.exts ++ [x] })
      else (.error, { h with lost := h.lost + blocks x })
    else (.memory, h)
  else (.params, h)

/-- What `ulfius_clean_response` does with the handle, u_response.c:351–356: how many blocks stay. -/
def clean (h : Handle) : Res Nat := do
  free h.protocol
  free h.extensions
  return h.lost

/-- What the handshake reads as protocol, ulfius.c:730. -/
def readProtocol (h : Handle) : Res (Option Bytes) :=
  match h.protocol with
  | .null => .ok none
  | .text b => .ok (some b)
  | .freed => .ub

/-- A call of the program on its response. -/
inductive Op where
  | set (m : Mem) (p e : Option Bytes) (c : Calls)
  | add (m : Mem) (a : Args)

/-- One call. -/
def call (h : Handle) : Op → Res (Code × Handle)
  | .set m p e c => setResponse m h p e c
  | .add m a => .ok (addExt m h a)

/-- The calls of a program, one after the other. -/
def calls (h : Handle) : List Op → Res (List Code × Handle)
  | [] => .ok ([], h)
  | o :: t => do
    let (c, h) ← call h o
    let (cs, h) ← calls h t
    return (c :: cs, h)

/-! ## Client -/

/-- `struct _websocket`: does it have a manager, and `websocket_extension_list` of it. -/
structure Sock where
  manager : Bool
  list : Option (List Ext) := none
  deriving DecidableEq, Repr

/-- `struct _websocket_client_handler`; `lost`: blocks nobody can free. -/
structure Client where
  websocket : Option Sock := none
  lost : Nat := 0
  deriving DecidableEq, Repr

/-- The part after the websocket is there, u_websocket.c:2490–2528. -/
def addSock (m : Mem) (k : Client) (w : Sock) (a : Args) : Res (Code × Client) :=
  if m.box then
    let x := newExt m .unwritten a
    if w.manager then
      match w.list, m.list with
      | none, false => .ok (.memory, { k with websocket := some w, lost := k.lost + blocks x })
      | l, _ =>
        if m.append then .ok (.ok, { k with websocket := some { w with list := some (l.getD [] ++ [x]) } })
        else .ok (.error, { k with websocket := some { w with list := some (l.getD []) }, lost := k.lost + blocks x })
    else .ub
  else .ok (.memory, { k with websocket := some w })

/-- `ulfius_add_websocket_client_extension_message_perform`, u_websocket.c:2449–2533. -/
def addClient (m : Mem) (k : Client) (a : Args) : Res (Code × Client) :=
  if valid a then
    match k.websocket with
    | some w => addSock m k w a
    | none =>
      if m.websocket then
        if m.init then addSock m k { manager := true } a
        else .ok (.error, { k with websocket := some { manager := false } })
      else .ok (.error, k)
  else .ok (.params, k)

/-- The calls of a program, one after the other. -/
def addAll (k : Client) : List (Mem × Args) → Res (List Code × Client)
  | [] => .ok ([], k)
  | (m, a) :: t => do
    let (c, k) ← addClient m k a
    let (cs, k) ← addAll k t
    return (c :: cs, k)

end Verif.OomRegister
