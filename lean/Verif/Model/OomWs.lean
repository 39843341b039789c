import Verif.Model.Oom
/-!
# Model of the messages of a websocket when memory runs out: `src/u_websocket.c:207–317, 338–566, 589–652, 672–792, 1298–1311, 1493–1585, 1640–1670, 1705–1840`

As in `Model/Oom`: every allocation has a name (`Spot`) and may fail. Messages have their blocks and their bytes. The frames that arrive are given with
what they are, masks and lengths are read without allocation. What the functions of an extension answer is given too, they allocate the data they hand out
(and do not fail for lack of memory, see C102); `exts` says whether there are extensions at all. Bits and UTF-8 of a message are right or not (`fine`). Mutexes
can be made and locked. Everything that is written is sent. Callbacks and threads do one thing after the other.
-/
namespace Verif.OomWs
open Verif.Memory (P)
open Verif.Oom (H)

/-- An allocation in the source. -/
inductive Spot where
  /-- u_websocket.c:1732, 1782, 1784 -/
  | manager | listIn | listOut
  /-- u_websocket.c:448: in the loop of the websocket, or while an answer to `close` is awaited -/
  | message (drain : Bool)
  /-- u_websocket.c:530, 540 -/
  | payload | unmasked
  /-- u_websocket.c:412 -/
  | merge
  /-- u_websocket.c:598, 625 -/
  | inCopy | inNew
  /-- u_websocket.c:1544, 1559 -/
  | outCopy | outNew
  /-- u_websocket.c:288, of a `close` or not; 291; 221 -/
  | box (close : Bool) | data | frame
  /-- u_websocket.c:1300, into an empty list or not: an incoming message, one that comes while an answer to `close` is awaited, an outgoing one -/
  | pushIn (first : Bool) | pushDrain (first : Bool) | pushOut (first : Bool)
  /-- u_websocket.c:1649 -/
  | shrink
  deriving DecidableEq, Repr

/-- Which allocations fail: the identifier of the request for memory and its place. -/
abbrev F := Nat → Spot → Bool

/-- An allocation at the spot. (The site given to `Oom.malloc` has no meaning.) -/
def alloc (f : F) (s : Spot) (h : H) : P × H := Oom.malloc (fun n _ => f n s) .realm h

/-- `o_realloc` at the spot. -/
def realloc (f : F) (s : Spot) (h : H) (p : P) : Res (P × H) := Oom.realloc (fun n _ => f n s) .realm h p

/-- Return codes used here. -/
inductive Code where
  | ok | error | memory | params
  deriving DecidableEq, Repr

/-- `struct _websocket_message`; `bytes` are `data_len` bytes. -/
structure Msg where
  box : P
  data : P
  bytes : Bytes
  deriving DecidableEq, Repr

/-- `struct _websocket_message_list`; `none`: the entry holds no pointer to a message. -/
structure MList where
  box : P
  array : P := .null
  items : List (Option Msg) := []
  deriving DecidableEq, Repr

/-- A buffer for these bytes, none for no bytes; `none`: it could not be allocated. -/
def buffer (f : F) (s : Spot) (h : H) (b : Bytes) : Option P × H :=
  if b = [] then (some .null, h) else
    let (p, h) := alloc f s h
    (if p = .null then none else some p, h)

/-- `ulfius_clear_websocket_message`, u_websocket.c:1663–1669. -/
def clearMsg (h : H) (m : Msg) : Res H := do
  let _ ← Oom.need h m.box
  Oom.freeAll h [m.data, m.box]

/-- The same for a pointer that may be NULL. -/
def clearMsgO (h : H) : Option Msg → Res H
  | none => .ok h
  | some m => clearMsg h m

/-- `ulfius_push_websocket_message`, u_websocket.c:1298–1311: if it fails the pointers to the messages are gone, `len` is what it was. -/
def push (f : F) (s : Bool → Spot) (h : H) (l : MList) (m : Msg) : Res (Bool × MList × H) := do
  let _ ← Oom.need h l.box
  let (a, h) ← realloc f (s l.items.isEmpty) h l.array
  if a = .null then return (false, { l with array := .null, items := l.items.map (fun _ => none) }, h)
  else return (true, { l with array := a, items := l.items ++ [some m] }, h)

/-- `ulfius_websocket_pop_first_message`, u_websocket.c:1640–1657. -/
def pop (f : F) (h : H) (l : MList) : Res (Option Msg × MList × H) := do
  let _ ← Oom.need h l.box
  match l.items with
  | [] => return (none, l, h)
  | x :: t => do
    let _ ← Oom.need h l.array
    match x with
    | none => .ub
    | some m =>
      if t = [] then do
        let h ← Oom.free h l.array
        return (some m, { l with array := .null, items := [] }, h)
      else do
        let (a, h) ← realloc f .shrink h l.array
        return (some m, { l with array := a, items := if a = .null then t.map (fun _ => none) else t }, h)

/-- The loop of `ulfius_clear_websocket_message_list`, u_websocket.c:1708–1711. -/
def clearItems (h : H) : List (Option Msg) → Res H
  | [] => .ok h
  | none :: _ => .ub
  | some m :: t => do let h ← clearMsg h m; clearItems h t

/-- `ulfius_clear_websocket_message_list`, u_websocket.c:1705–1715, and the `o_free` after it, 1819–1824. -/
def clearList (h : H) (l : MList) : Res H := do
  let _ ← Oom.need h l.box
  let _ ← (if l.items = [] then .ok () else Oom.need h l.array)
  let h ← clearItems h l.items
  Oom.freeAll h [l.array, l.box]

/-- The websocket: its manager, the two lists, `keep_messages`, `connected`, whether the loop goes on (`ret == U_OK`), `message_previous`. -/
structure W where
  manager : P
  incoming : MList
  outcoming : MList
  keepIn : Bool := true
  keepOut : Bool := true
  connected : Bool := true
  running : Bool := true
  prev : Option Msg := none
  deriving DecidableEq, Repr

/-- `ulfius_init_websocket` and `ulfius_init_websocket_manager`, u_websocket.c:1722–1806; then the websocket is connected. The manager is a new block: a
pointer in it is anything before it is written (`junk`). -/
def init (f : F) (h : H) : Res (Option W × H) := do
  let (m, h) := alloc f .manager h
  if m = .null then return (none, h)
  else do
    let (i, h) := alloc f .listIn h
    if i = .null then do
      let h ← Oom.freeAll h [.null, .junk, m]
      return (none, h)
    else do
      let (o, h) := alloc f .listOut h
      if o = .null then do
        let h ← Oom.freeAll h [i, .null, m]
        return (none, h)
      else return (some { manager := m, incoming := { box := i }, outcoming := { box := o } }, h)

/-- The end of `ulfius_thread_websocket`, u_websocket.c:788, and `ulfius_clear_websocket`, 1678–1697, 1811–1838, as far as the messages go. -/
def finish (h : H) (w : W) : Res H := do
  let h ← clearMsgO h w.prev
  let h ← clearList h w.incoming
  let h ← clearList h w.outcoming
  Oom.free h w.manager

/-! ## Sending -/

/-- `ulfius_build_message`, u_websocket.c:266–317. -/
def build (f : F) (h : H) (close : Bool) (b : Bytes) : Res (Option Msg × H) := do
  let (x, h) := alloc f (.box close) h
  if x = .null then return (none, h)
  else match buffer f .data h b with
  | (some d, h) => return (some ⟨x, d, b⟩, h)
  | (none, h) => do
    let h ← Oom.free h x
    return (none, h)

/-- The loop over the frames, u_websocket.c:358–378, of at most `k + 1` bytes; `n` turns at most. What was sent, and whether the loop came to its end. -/
def framesLoop (f : F) (k : Nat) : (n : Nat) → H → Bytes → Res (List Bytes × Bool × H)
  | 0, h, _ => .ok ([], true, h)
  | n + 1, h, b =>
    if b = [] then .ok ([], true, h)
    else do
      let (p, h) := alloc f .frame h
      if p = .null then return ([], false, h)
      else do
        let h ← Oom.free h p
        let (l, ok, h) ← framesLoop f k n h (b.drop (k + 1))
        return (b.take (k + 1) :: l, ok, h)

/-- The frames, u_websocket.c:357–386; `frag` is `fragment_len`. For an empty message the answer of `ulfius_build_frame` is forgotten. -/
def frames (f : F) (h : H) (frag : Nat) (b : Bytes) : Res (List Bytes × Code × H) :=
  if b = [] then do
    let (p, h) := alloc f .frame h
    let h ← Oom.free h p
    return (if p = .null then [] else [[]], .ok, h)
  else do
    let (l, ok, h) ← framesLoop f ((if frag = 0 then b.length else frag) - 1) b.length h b
    return (l, if ok then .ok else .memory, h)

/-- `ulfius_send_websocket_message_managed`, u_websocket.c:338–399: a message that cannot be pushed is forgotten. -/
def sendManaged (f : F) (h : H) (w : W) (close : Bool) (frag : Nat) (b : Bytes) : Res (Code × List Bytes × W × H) := do
  let (m, h) ← build f h close b
  match m with
  | none => return (.error, [], w, h)
  | some m => do
    let (l, rc, h) ← frames f h frag b
    if w.keepOut then do
      let (_, o, h) ← push f .pushOut h w.outcoming m
      return (rc, l, { w with outcoming := o }, h)
    else do
      let h ← clearMsg h m
      return (rc, l, w, h)

/-- The extensions on outgoing data, u_websocket.c:1551–1574: each result is an error or the new data. -/
def performOut (f : F) (h : H) (d : P) (b : Bytes) : List (Option Bytes) → Res (Code × P × Bytes × H)
  | [] => .ok (.ok, d, b, h)
  | none :: _ => .ok (.error, d, b, h)
  | some b' :: t => do
    let (o, h) := Oom.malloc (fun _ _ => false) .realm h
    let h ← Oom.free h d
    let (d, h) := alloc f .outNew h
    let h ← Oom.free h o
    if d = .null then return (.memory, .null, b, h)
    else performOut f h d b' t

/-- `ulfius_websocket_send_fragmented_message`, u_websocket.c:1541–1580, other than `close` and the second `ping`. -/
def sendData (f : F) (h : H) (w : W) (frag : Nat) (b : Bytes) (outs : List (Option Bytes)) : Res (Code × List Bytes × W × H) :=
  match buffer f .outCopy h b with
  | (none, h) => .ok (.memory, [], w, h)
  | (some d, h) => do
    let (rc, d, b, h) ← performOut f h d b outs
    let (rc, l, w, h) ← (if rc = .ok then sendManaged f h w false frag b else .ok (rc, [], w, h))
    let h ← Oom.free h d
    return (rc, l, w, h)

/-! ## Receiving -/

inductive Op where
  | first | continue | ping | pong | close | other
  deriving DecidableEq, Repr

/-- A frame that arrives: `first` is text or binary; what the extensions make of the message that ends with it, and whether its bits and UTF-8 are right. -/
structure Frame where
  op : Op
  fin : Bool
  data : Bytes
  outs : List (Option Bytes) := []
  fine : Bool := true
  deriving DecidableEq, Repr

/-- What `ulfius_read_incoming_message` finds. -/
inductive Found where
  | failed
  /-- `U_OK`, and the message is NULL -/
  | nothing
  | message (m : Msg)
  deriving DecidableEq, Repr

/-- `ulfius_read_incoming_message`, u_websocket.c:437–566, for a frame that arrives whole: its payload is copied to a block nobody looked at. -/
def read (f : F) (drain : Bool) (h : H) (b : Bytes) : Res (Found × H) := do
  let (x, h) := alloc f (.message drain) h
  if x = .null then return (.nothing, h)
  else match buffer f .payload h b with
  | (none, h) => do
    let h ← clearMsg h ⟨x, .null, []⟩
    return (.failed, h)
  | (some p, h) => do
    let (d, h) := (match buffer f .unmasked h b with | (some d, h) => (d, h) | (none, h) => (.null, h))
    let _ ← (if b = [] then .ok () else Oom.need h d)
    let h ← Oom.free h p
    return (.message ⟨x, d, b⟩, h)

/-- `ulfius_merge_fragmented_message`, u_websocket.c:401–430, if the next fragment is one. -/
def merge (f : F) (h : H) (m next : Msg) : Res (Bool × Msg × H) :=
  if next.bytes = [] then .ok (true, m, h)
  else do
    let (d, h) ← realloc f .merge h m.data
    if d = .null then return (false, { m with data := .null }, h)
    else do
      let _ ← Oom.need h next.data
      return (true, ⟨m.box, d, m.bytes ++ next.bytes⟩, h)

/-- The extensions on incoming data, u_websocket.c:605–634. -/
def performIn (f : F) (h : H) (d : P) (b : Bytes) : List (Option Bytes) → Res (Bool × P × Bytes × H)
  | [] => .ok (true, d, b, h)
  | none :: _ => .ok (false, d, b, h)
  | some b' :: t => do
    let (o, h) := Oom.malloc (fun _ _ => false) .realm h
    let h ← Oom.free h d
    match buffer f .inNew h b' with
    | (none, h) => do
      let h ← Oom.free h o
      return (false, .null, [], h)
    | (some d, h) => do
      let h ← Oom.free h o
      performIn f h d b' t

/-- `ulfius_websocket_extension_message_in_perform_apply`, u_websocket.c:589–652. -/
def performMsg (f : F) (exts : Bool) (h : H) (m : Msg) (outs : List (Option Bytes)) : Res (Bool × Msg × H) :=
  if exts then
    match buffer f .inCopy h m.bytes with
    | (none, h) => .ok (false, m, h)
    | (some d, h) => do
      let _ ← (if m.bytes = [] then .ok () else Oom.need h m.data)
      let (ok, d, b, h) ← performIn f h d m.bytes outs
      let h ← Oom.free h m.data
      return (ok, ⟨m.box, d, b⟩, h)
  else .ok (true, m, h)

/-- A complete message, u_websocket.c:722–760: what the callback is shown, and what `message` points to. -/
def deliver (f : F) (exts : Bool) (h : H) (w : W) (m : Msg) (x : Frame) : Res (Option Bytes × Option Msg × W × H) := do
  let (ok, m, h) ← performMsg f exts h m x.outs
  if ok && x.fine then do
    let _ ← (if m.bytes = [] then .ok () else Oom.need h m.data)
    if w.keepIn then do
      let (pushed, l, h) ← push f .pushIn h w.incoming m
      return (some m.bytes, if pushed then none else some m, { w with incoming := l, connected := w.connected && pushed }, h)
    else do
      let h ← clearMsg h m
      return (some m.bytes, none, w, h)
  else return (none, some m, { w with connected := false }, h)

/-- A message that was read, u_websocket.c:684–786: what was sent, what the callback is shown, what `message` points to. -/
def handle (f : F) (exts : Bool) (h : H) (w : W) (m : Msg) (x : Frame) : Res (List Bytes × Option Bytes × Option Msg × W × H) :=
  match x.op, x.fin with
  | .close, true => do
    let (_, l, w, h) ← (if x.data.length ≤ 125 then sendManaged f h w true 0 [] else .ok (.ok, [], w, h))
    return (l, none, some m, { w with connected := false }, h)
  | .ping, true =>
    if x.data.length ≤ 125 then do
      let (rc, l, w, h) ← sendData f h w 0 x.data []
      return (l, none, some m, { w with connected := w.connected && rc == .ok }, h)
    else .ok ([], none, some m, { w with connected := false }, h)
  | .pong, true => .ok ([], none, some m, w, h)
  | .first, true =>
    match w.prev with
    | none => do
      let (d, m, w, h) ← deliver f exts h w m x
      return ([], d, m, w, h)
    | some _ => .ok ([], none, some m, { w with running := false }, h)
  | .continue, true =>
    match w.prev with
    | none => .ok ([], none, some m, { w with connected := false }, h)
    | some p => do
      let (ok, p, h) ← merge f h p m
      if ok then do
        let h ← clearMsg h m
        let (d, m, w, h) ← deliver f exts h { w with prev := none } p x
        return ([], d, m, w, h)
      else return ([], none, some m, { w with prev := some p, running := false }, h)
  | .first, false =>
    match w.prev with
    | none => .ok ([], none, none, { w with prev := some m }, h)
    | some _ => .ok ([], none, some m, { w with connected := false }, h)
  | .continue, false =>
    match w.prev with
    | none => .ok ([], none, some m, { w with connected := false }, h)
    | some p => do
      let (ok, p, h) ← merge f h p m
      return ([], none, some m, { w with prev := some p, connected := w.connected && ok }, h)
  | _, _ => .ok ([], none, some m, { w with connected := false }, h)

/-- One round of `ulfius_thread_websocket`, u_websocket.c:679–787. -/
def arrive (f : F) (exts : Bool) (h : H) (w : W) (x : Frame) : Res (List Bytes × Option Bytes × W × H) := do
  let (r, h) ← read f false h x.data
  match r with
  | .nothing => .ub
  | .failed => return ([], none, { w with connected := false }, h)
  | .message m => do
    let (l, d, m, w, h) ← handle f exts h w m x
    let h ← clearMsgO h m
    return (l, d, w, h)

/-- A message read while waiting for the answer to `close`, u_websocket.c:1507–1533. -/
def drainLoop (f : F) (h : H) (w : W) : List Bytes → Res (W × H)
  | [] => .ok (w, h)
  | b :: t => do
    let (r, h) ← read f true h b
    match r with
    | .message m =>
      if w.keepIn then do
        let (_, l, h) ← push f .pushDrain h w.incoming m
        drainLoop f h { w with incoming := l } t
      else do
        let h ← clearMsg h m
        drainLoop f h w t
    | _ => return (w, h)

/-- `ulfius_websocket_send_message` of a `close`, u_websocket.c:1505–1537: the answer is `U_OK`. `reads` is what comes until the answer to it. -/
def sendClose (f : F) (h : H) (w : W) (reads : List Bytes) : Res (Code × List Bytes × W × H) := do
  let (rc, l, w, h) ← sendManaged f h w true 0 []
  let (w, h) ← (if rc = .ok then drainLoop f h w reads else .ok (w, h))
  return (.ok, l, { w with connected := false }, h)

/-! ## A connection -/

/-- What happens. -/
inductive Ev where
  | arrives (x : Frame)
  | send (b : Bytes) (frag : Nat) (outs : List (Option Bytes))
  | close (reads : List Bytes)
  /-- `ulfius_websocket_pop_first_message`, of the incoming messages or the others, and `ulfius_clear_websocket_message` -/
  | pop (incoming : Bool)
  /-- `keep_messages` -/
  | keep (incoming outcoming : Bool)
  deriving DecidableEq, Repr

/-- What is noted of it: the answer, how many allocations failed, the payloads that were sent, what the callback was shown or what was popped, whether the
websocket is connected and its loop goes on afterwards. -/
structure Out where
  rc : Code := .ok
  failed : Nat := 0
  sent : List Bytes := []
  shown : Option Bytes := none
  alive : Bool
  deriving DecidableEq, Repr

/-- One event. -/
def event (f : F) (exts : Bool) (h : H) (w : W) : Ev → Res (Code × List Bytes × Option Bytes × W × H)
  | .arrives x =>
    if w.connected && w.running then do
      let (l, d, w, h) ← arrive f exts h w x
      return (.ok, l, d, w, h)
    else .ok (.params, [], none, w, h)
  | .send b frag outs =>
    if w.connected then do
      let (rc, l, w, h) ← sendData f h w frag b outs
      return (rc, l, none, w, h)
    else .ok (.params, [], none, w, h)
  | .close reads =>
    if w.connected then do
      let (rc, l, w, h) ← sendClose f h w reads
      return (rc, l, none, w, h)
    else .ok (.params, [], none, w, h)
  | .pop true => do
    let (m, l, h) ← pop f h w.incoming
    let h ← clearMsgO h m
    return (.ok, [], m.map (·.bytes), { w with incoming := l }, h)
  | .pop false => do
    let (m, l, h) ← pop f h w.outcoming
    let h ← clearMsgO h m
    return (.ok, [], m.map (·.bytes), { w with outcoming := l }, h)
  | .keep i o => .ok (.ok, [], none, { w with keepIn := i, keepOut := o }, h)

/-- All of them. -/
def events (f : F) (exts : Bool) (h : H) (w : W) : List Ev → Res (List Out × W × H)
  | [] => .ok ([], w, h)
  | e :: t => do
    let (rc, l, d, w, h') ← event f exts h w e
    let (out, z, h'') ← events f exts h' w t
    return (⟨rc, h'.failed - h.failed, l, d, w.connected && w.running⟩ :: out, z, h'')

/-- A connection from the beginning to the end; `none`: the websocket could not be made. -/
def session (f : F) (exts : Bool) (h : H) (evs : List Ev) : Res (Option (List Out) × H) := do
  let (w, h) ← init f h
  match w with
  | none => return (none, h)
  | some w => do
    let (out, w, h) ← events f exts h w evs
    let h ← finish h w
    return (some out, h)

end Verif.OomWs
