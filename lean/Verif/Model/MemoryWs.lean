import Verif.Model.MemoryResponse
/-!
# Model of the blocks of websockets of the server: `src/ulfius.c:668–861`, `src/u_websocket.c:338–816, 1193–1233, 1284–1840`, as far as memory is concerned

Conventions of `Model/Memory`. Messages are their blocks and their length. What comes in, what extensions make of it, what the callbacks send and take out
of the lists are parameters. After a failed handshake `websocket_onclose_callback` gets a websocket that is not connected and has no messages: nothing
it can do with it matters here. A context of an extension is one block. The program calls `ulfius_clear_websocket_message` for the messages it takes
out of a list, and never for others. Blocks that a single function allocates and frees (the words of a header field, keys of hashes) are left out,
except the buffers for the data of messages. Threads are not modelled: what they do happens in some order, one call after the other (races: C59, C60).
-/
namespace Verif.Memory

/-! ## Messages -/

/-- `struct _websocket_message`. -/
structure Msg where
  box : P
  data : P
  len : Nat
  deriving DecidableEq, Repr

/-- `struct _websocket_message_list`; `none`: the entry holds no pointer to a message. -/
structure MList where
  box : P
  array : P := .null
  items : List (Option Msg) := []
  deriving DecidableEq, Repr

/-- `ulfius_clear_websocket_message`, u_websocket.c:1663–1669. -/
def clearMsg (h : Heap) (m : Msg) : Res Heap := do
  let _ ← need h m.box
  freeAll h [m.data, m.box]

/-- The same for a pointer that may be NULL. -/
def clearMsgO (h : Heap) : Option Msg → Res Heap
  | none => .ok h
  | some m => clearMsg h m

/-- A buffer for `n` bytes, none for no bytes. -/
def buffer (h : Heap) (n : Nat) : P × Heap := if n = 0 then (.null, h) else malloc h

/-- `ulfius_push_websocket_message`, u_websocket.c:1298–1311. -/
def pushMsg (h : Heap) (l : MList) (m : Msg) : Res (MList × Heap) := do
  let _ ← need h l.box
  let (a, h) ← realloc h l.array
  return ({ l with array := a, items := l.items ++ [some m] }, h)

/-- `ulfius_websocket_pop_first_message`, u_websocket.c:1640–1657. -/
def popMsg (h : Heap) (l : MList) : Res (Option Msg × MList × Heap) := do
  let _ ← need h l.box
  match l.items with
  | [] => return (none, l, h)
  | none :: _ => .ub
  | some m :: t => do
    let _ ← need h l.array
    if t = [] then do
      let h ← free h l.array
      return (some m, { l with array := .null, items := [] }, h)
    else do
      let (a, h) ← realloc h l.array
      return (some m, { l with array := a, items := t }, h)

/-- The loop of `ulfius_clear_websocket_message_list`, u_websocket.c:1708–1711. -/
def clearItems (h : Heap) : List (Option Msg) → Res Heap
  | [] => .ok h
  | none :: _ => .ub
  | some m :: t => do let h ← clearMsg h m; clearItems h t

/-- `ulfius_clear_websocket_message_list`, u_websocket.c:1705–1715: `len` keeps its value. -/
def clearList (h : Heap) (l : MList) : Res (MList × Heap) := do
  let _ ← need h l.box
  let _ ← (if l.items = [] then .ok () else need h l.array)
  let h ← clearItems h l.items
  let h ← free h l.array
  return ({ l with array := .null, items := l.items.map (fun _ => none) }, h)

/-! ## The websocket -/

/-- An extension during and after the handshake; `frees`: `websocket_extension_free_context` is set. -/
structure WExt where
  ext : Ext
  context : P := .null
  enabled : Bool := false
  frees : Bool
  deriving DecidableEq, Repr

/-- `struct _websocket` with its `struct _websocket_manager` (`manager`) and the list of extensions (`list` and `array`). -/
structure Ws where
  box : P
  manager : P
  incoming : MList
  outcoming : MList
  request : Option Req := none
  list : P := .null
  array : P := .null
  exts : List WExt := []
  keepIn : Bool := true
  keepOut : Bool := true

/-- `ulfius_init_websocket`, `ulfius_init_websocket_manager`, u_websocket.c:1722–1806, in a new block; initialising mutexes succeeds. -/
def initWs (h : Heap) : Ws × Heap :=
  let (b, h) := malloc h
  let (m, h) := malloc h
  let (i, h) := malloc h
  let (o, h) := malloc h
  ({ box := b, manager := m, incoming := ⟨i, .null, []⟩, outcoming := ⟨o, .null, []⟩ }, h)

/-- The contexts of enabled extensions, u_websocket.c:1827–1834. -/
def freeContexts (h : Heap) : List WExt → Res Heap
  | [] => .ok h
  | e :: t => do
    let _ ← touch h e.ext.box
    let h ← (if e.enabled && e.frees then free h e.context else .ok h)
    freeContexts h t

/-- `ulfius_clear_websocket_manager`, u_websocket.c:1811–1838; `protocol` and `extensions` are NULL on the server. -/
def clearManager (h : Heap) (w : Ws) : Res Heap := do
  let _ ← need h w.manager
  let (_, h) ← clearList h w.incoming
  let h ← free h w.incoming.box
  let (_, h) ← clearList h w.outcoming
  let h ← free h w.outcoming.box
  let _ ← touch h w.list
  let h ← freeContexts h w.exts
  let h ← freeAll h (w.exts.flatMap (fun e => extPtrs e.ext))
  freeAll h [w.array, w.list]

/-- The table of active websockets of the instance. -/
structure Table where
  array : P := .null
  members : List P := []
  deriving DecidableEq, Repr

/-- `ulfius_instance_add_websocket_active`, u_websocket.c:1420–1440. -/
def addActive (h : Heap) (t : Table) (w : P) : Res (Table × Heap) := do
  let (a, h) ← realloc h t.array
  return (⟨a, t.members ++ [w]⟩, h)

/-- `ulfius_instance_remove_websocket_active`, u_websocket.c:1445–1482. -/
def removeActive (h : Heap) (t : Table) (w : P) : Res (Table × Heap) :=
  if t.array = .null then .ok (t, h)
  else do
    let _ ← need h t.array
    if w ∈ t.members then
      if t.members.length ≤ 1 then do
        let h ← free h t.array
        return (⟨.null, []⟩, h)
      else do
        let (a, h) ← realloc h t.array
        return (⟨a, t.members.erase w⟩, h)
    else return (t, h)

/-- `ulfius_clear_websocket`, u_websocket.c:1678–1697; `known`: `instance` is set. -/
def clearWs (h : Heap) (t : Table) (w : Ws) (known : Bool) : Res (Table × Heap) := do
  let _ ← need h w.box
  let (t, h) ← (if known then removeActive h t w.box else .ok (t, h))
  let h ← (match w.request with
    | some r => cleanRequestFull h r
    | none => .ok h)
  let h ← clearManager h w
  let h ← freeAll h [w.manager, w.box]
  return (t, h)

/-! ## The handshake -/

/-- What the program registered: the bit of the extension (`ulfius_add_websocket_extension_message_perform` takes one of three), and whether it
has the functions `websocket_extension_server_match` and `websocket_extension_free_context`. -/
structure ExtKind where
  rsv : Fin 3
  matching : Bool
  frees : Bool
  deriving DecidableEq, Repr

/-- What `websocket_extension_server_match` does, or the comparison of the names (`accept`: equal): `reset`: refused, and the context set to NULL
(as `websocket_extension_server_match_deflate` does); `accept c`: accepted, a text for the answer allocated, with `c` a context as well. -/
inductive Match where
  | refuse
  | reset
  | accept (context : Bool)
  deriving DecidableEq, Repr

/-- A request for a websocket: everything that decides about it. -/
structure Handshake where
  /-- header fields, method and version, ulfius.c:676–687 -/
  valid : Bool
  /-- the number of extensions the client offers; `none`: the header field is missing -/
  offers : Option Nat
  kind : Nat → ExtKind
  /-- offer and extension -/
  answers : Nat → Nat → Match
  /-- `ulfius_check_list_match` if no extensions are registered or offered: `none`: error; `true`: there are common names -/
  listed : Option Bool
  /-- `ulfius_check_first_match`: `none`: no common protocol; `true`: there is one -/
  protocol : Option Bool
  /-- `ulfius_generate_handshake_answer` -/
  hashed : Bool

/-- `extension = mstrcatf(extension, …)` or `o_strdup`, ulfius.c:702–706. -/
def addText (h : Heap) (text : P) : Res (P × Heap) := realloc h text

/-- One offer `x`, ulfius.c:694–731; `y`: the number of the first extension of the list. -/
def offerOne (k : Handshake) (x : Nat) (h : Heap) (rsv : List (Fin 3)) (text : P) : Nat → List WExt → Res (List (Fin 3) × P × List WExt × Heap)
  | _, [] => .ok (rsv, text, [], h)
  | y, e :: t =>
    if e.enabled then do
      let (rsv, text, t, h) ← offerOne k x h rsv text (y + 1) t
      return (rsv, text, e :: t, h)
    else match k.answers x y with
    | .refuse => do
      let (rsv, text, t, h) ← offerOne k x h rsv text (y + 1) t
      return (rsv, text, e :: t, h)
    | .reset => do
      let (rsv, text, t, h) ← offerOne k x h rsv text (y + 1) t
      return (rsv, text, (if (k.kind y).matching then { e with context := .null } else e) :: t, h)
    | .accept c =>
      if (k.kind y).matching then do
        let (p, h) := malloc h
        let (q, h) := if c then malloc h else (e.context, h)
        if (k.kind y).rsv ∈ rsv then return (rsv, text, { e with ext := { e.ext with client := p }, context := q } :: t, h)
        else do
          let (text, h) ← addText h text
          return ((k.kind y).rsv :: rsv, text, { e with ext := { e.ext with client := p }, context := q, enabled := true } :: t, h)
      else if (k.kind y).rsv ∈ rsv then do
        let (rsv, text, t, h) ← offerOne k x h rsv text (y + 1) t
        return (rsv, text, e :: t, h)
      else do
        let (p, h) := malloc h
        let (text, h) ← addText h text
        return ((k.kind y).rsv :: rsv, text, { e with ext := { e.ext with client := p }, enabled := true } :: t, h)

/-- All offers from number `x` on, `n` of them. -/
def offerAll (k : Handshake) (h : Heap) (rsv : List (Fin 3)) (text : P) (es : List WExt) : (x n : Nat) → Res (P × List WExt × Heap)
  | _, 0 => .ok (text, es, h)
  | x, n + 1 => do
    let (rsv, text, es, h) ← offerOne k x h rsv text 0 es
    offerAll k h rsv text es (x + 1) n

/-- The extensions of a response before the handshake, from number `y` on. -/
def dress (k : Handshake) : Nat → List Ext → List WExt
  | _, [] => []
  | y, e :: t => ⟨e, .null, false, (k.kind y).frees⟩ :: dress k (y + 1) t

/-- The extensions, ulfius.c:690–739: `false` is an error. -/
def extensions (k : Handshake) (h : Heap) (es : List Ext) : Res (Bool × P × List WExt × Heap) :=
  match k.offers, es with
  | some n, _ :: _ => do
    let (text, es, h) ← offerAll k h [] .null (dress k 0 es) 0 n
    return (true, text, es, h)
  | _, _ =>
    match k.listed with
    | none => .ok (false, .null, dress k 0 es, h)
    | some b => let (text, h) := buffer h b.toNat; .ok (true, text, dress k 0 es, h)

/-- What a request for a websocket leaves: the table, the websocket (`none`: there is none, or nobody knows it), and the pointer to it in the answer
(`cls`, NULL in other answers). -/
structure Up where
  table : Table
  socket : Option Ws := none
  cls : P := .null

/-- An answer with a text, ulfius.c:792–833; its blocks. -/
def plain (h : Heap) (made : Bool) : Option (List P) × Heap :=
  let (b, h) := malloc h
  if made then let (a, h) := malloc h; (some [b, a], h) else (none, h)

/-- `ulfius_set_response_cookie`, u_response.c:178–205: one text per cookie (its parts, freed as well, are left out). -/
def renderCookies (h : Heap) : List Ck → Res Heap
  | [] => .ok h
  | c :: t => do
    let _ ← need h c.key
    let _ ← need h c.value
    let (p, h) := malloc h
    let h ← free h p
    renderCookies h t

/-- `ulfius_set_response_header`, `ulfius_set_response_cookie`, u_response.c:151–205: `false` is -1. If a field is refused the cookies after it
are not rendered; that makes no difference here. -/
def setFields (h : Heap) (r : Resp) (accepted : Bool) : Res (Bool × Heap) :=
  match r.header with
  | none => .ok (false, h)
  | some m => do
    let _ ← need h m.box
    let _ ← need h m.keys
    let _ ← (if r.cookies = [] then .ok () else need h r.array)
    let h ← renderCookies h r.cookies
    return (accepted, h)

/-- With a copy of the request, ulfius.c:745–788: the extensions go from the response to the websocket. -/
def upgrade (h : Heap) (t : Table) (w : Ws) (q : Req) (r : Resp) (g : WsH) (es : List WExt) (created accepted : Bool) : Res (Option (List P) × Up × Resp × Heap) := do
  let w := { w with request := some q, list := g.list, array := g.array, exts := es }
  let r := { r with ws := some { g with list := .null, array := .null, exts := [] } }
  if created then do
    let (a, h) := malloc h
    let (ok, h) ← setFields h r accepted
    if ok then do
      let (t, h) ← addActive h t w.box
      return (some [a], ⟨t, some w, w.box⟩, r, h)
    else do
      let (t, h) ← clearWs h t w true
      return (some [a], ⟨t, none, w.box⟩, r, h)
  else return (none, ⟨t, none, .null⟩, r, h)

/-- An error before that, ulfius.c:789–833 and 852–860: the extensions stay with the response; their contexts are forgotten. -/
def refuse (h : Heap) (t : Table) (w : Ws) (r : Resp) (g : WsH) (es : List WExt) (created : Bool) : Res (Option (List P) × Up × Resp × Heap) := do
  let (a, h) := plain h created
  let (t, h) ← clearWs h t w false
  return (a, ⟨t, none, .null⟩, { r with ws := some { g with exts := es.map (fun e => e.ext) } }, h)

/-- The answer once extensions and protocol are chosen, ulfius.c:740–812. -/
def answerWs (h : Heap) (t : Table) (w : Ws) (q : Req) (r : Resp) (g : WsH) (es : List WExt) (k : Handshake) (created accepted : Bool) :
    Res (Option (List P) × Up × Resp × Heap) :=
  if k.hashed then do
    let (d, h) ← duplicateRequest h q
    match d with
    | some d => upgrade h t w d r g es created accepted
    | none => refuse h t w r g es created
  else refuse h t w r g es created

/-- A callback asked for a websocket, ulfius.c:668–861. -/
def openWs (h : Heap) (t : Table) (q : Req) (r : Resp) (k : Handshake) (created accepted : Bool) : Res (Option (List P) × Up × Resp × Heap) :=
  match r.ws with
  | none => .ub
  | some g => do
    let _ ← need h g.box
    let (w, h) := initWs h
    if k.valid then do
      let _ ← need h g.list
      let (ok, text, es, h) ← extensions k h g.exts
      match ok, k.protocol with
      | true, some b => do
        let (p, h) := buffer h b.toNat
        let (a, up, r, h) ← answerWs h t w q r g es k created accepted
        let h ← freeAll h [p, text]
        return (a, up, r, h)
      | _, _ => do
        let (a, up, r, h) ← refuse h t w r g es created
        let h ← free h text
        return (a, up, r, h)
    else refuse h t w r g (dress k 0 g.exts) created

/-! ## Messages of a websocket -/

/-- What `ulfius_read_incoming_message` reads: the connection fails before or (`true`) after the buffer for the payload is allocated, or a message of
`n` bytes. -/
inductive Read where
  | broken (payload : Bool)
  | message (n : Nat)
  deriving DecidableEq, Repr

/-- `ulfius_read_incoming_message`, u_websocket.c:437–566. -/
def readMsg (h : Heap) : Read → Res (Option Msg × Heap)
  | .broken payload => do
    let (b, h) := malloc h
    let (p, h) := buffer h payload.toNat
    let h ← free h p
    let h ← clearMsg h ⟨b, .null, 0⟩
    return (none, h)
  | .message n => do
    let (b, h) := malloc h
    let (p, h) := buffer h n
    let (d, h) := buffer h n
    let h ← free h p
    return (some ⟨b, d, n⟩, h)

/-- The frames of a message, one buffer after the other, u_websocket.c:355–380. -/
def frames (h : Heap) : Nat → Res Heap
  | 0 => .ok h
  | n + 1 => do
    let (f, h) := malloc h
    let h ← free h f
    frames h n

/-- `ulfius_send_websocket_message_managed`, u_websocket.c:338–399, for `n` bytes in `f` frames. -/
def sendManaged (h : Heap) (w : Ws) (n f : Nat) : Res (Ws × Heap) := do
  let _ ← need h w.manager
  let (b, h) := malloc h
  let (d, h) := buffer h n
  let h ← frames h f
  if w.keepOut then do
    let (l, h) ← pushMsg h w.outcoming ⟨b, d, n⟩
    return ({ w with outcoming := l }, h)
  else do
    let h ← clearMsg h ⟨b, d, n⟩
    return (w, h)

/-- A message read while waiting for the answer to `close`, u_websocket.c:1508–1535. -/
def drain (h : Heap) (w : Ws) : List Read → Res (Ws × Heap)
  | [] => .ok (w, h)
  | x :: t => do
    let (m, h) ← readMsg h x
    match m with
    | none => drain h w t
    | some m =>
      if w.keepIn then do
        let (l, h) ← pushMsg h w.incoming m
        drain h { w with incoming := l } t
      else do
        let h ← clearMsg h m
        drain h w t

/-- The extensions on outgoing data, u_websocket.c:1551–1574: each result is an error or the length of the new data; the second component: no error. -/
def performOut (h : Heap) (d : P) (n : Nat) : List (Option Nat) → Res (P × Nat × Bool × Heap)
  | [] => .ok (d, n, true, h)
  | none :: _ => .ok (d, n, false, h)
  | some n' :: t => do
    let (o, h) := buffer h n'
    let h ← free h d
    let (d, h) := malloc h
    let h ← free h o
    performOut h d n' t

/-- A call of `ulfius_websocket_send_fragmented_message` or of `ulfius_websocket_send_message`. -/
inductive Send where
  /-- not connected, or a second ping -/
  | ignored
  /-- `close`, and what is read until the answer -/
  | close (reads : List Read)
  /-- `n` bytes; `outs`: what the extensions make of them; `f`: the number of frames -/
  | data (n : Nat) (outs : List (Option Nat)) (f : Nat)
  deriving DecidableEq, Repr

/-- `ulfius_websocket_send_fragmented_message`, u_websocket.c:1491–1585. -/
def sendMsg (h : Heap) (w : Ws) : Send → Res (Ws × Heap)
  | .ignored => .ok (w, h)
  | .close reads => do
    let (w, h) ← sendManaged h w 0 1
    drain h w reads
  | .data n outs f => do
    let (d, h) := buffer h n
    let (d, n, ok, h) ← performOut h d n outs
    let (w, h) ← (if ok then sendManaged h w n f else .ok (w, h))
    let h ← free h d
    return (w, h)

/-- What callbacks do with a websocket. -/
inductive MOp where
  | send (s : Send)
  /-- `ulfius_websocket_pop_first_message`; `true`: from the incoming messages -/
  | pop (incoming : Bool)
  /-- `ulfius_clear_websocket_message` for the message that was taken out as number `i` -/
  | drop (i : Nat)
  /-- `keep_messages` -/
  | keep (incoming outcoming : Bool)
  /-- `ulfius_clear_websocket_message_list` -/
  | clear (incoming : Bool)
  deriving DecidableEq, Repr

/-- One of them; `held`: the messages taken out so far, `none`: cleared. -/
def mop (h : Heap) (w : Ws) (held : List (Option Msg)) : MOp → Res (Ws × List (Option Msg) × Heap)
  | .send s => do let (w, h) ← sendMsg h w s; return (w, held, h)
  | .pop true => do
    let (m, l, h) ← popMsg h w.incoming
    return ({ w with incoming := l }, held ++ [m], h)
  | .pop false => do
    let (m, l, h) ← popMsg h w.outcoming
    return ({ w with outcoming := l }, held ++ [m], h)
  | .drop i =>
    match held[i]? with
    | some (some m) => do
      let h ← clearMsg h m
      return (w, held.set i none, h)
    | _ => .ok (w, held, h)
  | .keep i o => .ok ({ w with keepIn := i, keepOut := o }, held, h)
  | .clear true => do
    let (l, h) ← clearList h w.incoming
    return ({ w with incoming := l }, held, h)
  | .clear false => do
    let (l, h) ← clearList h w.outcoming
    return ({ w with outcoming := l }, held, h)

/-- All of them. -/
def mops (h : Heap) (w : Ws) (held : List (Option Msg)) : List MOp → Res (Ws × List (Option Msg) × Heap)
  | [] => .ok (w, held, h)
  | o :: t => do let (w, held, h) ← mop h w held o; mops h w held t

/-- The extensions on incoming data, u_websocket.c:603–634: as `performOut`. -/
def performIn (h : Heap) (d : P) (n : Nat) : List (Option Nat) → Res (P × Nat × Bool × Heap)
  | [] => .ok (d, n, true, h)
  | none :: _ => .ok (d, n, false, h)
  | some n' :: t => do
    let (o, h) := buffer h n'
    let h ← free h d
    let (d, h) := buffer h n'
    let h ← free h o
    performIn h d n' t

/-- `ulfius_websocket_extension_message_in_perform_apply`, u_websocket.c:589–652. -/
def performMsg (h : Heap) (w : Ws) (m : Msg) (outs : List (Option Nat)) : Res (Bool × Msg × Heap) :=
  if w.exts = [] then .ok (true, m, h)
  else do
    let (d, h) := buffer h m.len
    let (d, n, ok, h) ← performIn h d m.len outs
    let h ← free h m.data
    return (ok, ⟨m.box, d, n⟩, h)

/-- `ulfius_merge_fragmented_message`, u_websocket.c:401–430, if the next fragment is one: the fragment stays. -/
def mergeMsg (h : Heap) (m next : Msg) : Res (Msg × Heap) :=
  if next.len = 0 then .ok (m, h)
  else do
    let (d, h) ← realloc h m.data
    let _ ← need h next.data
    return (⟨m.box, d, m.len + next.len⟩, h)

/-- What a message is. -/
inductive Frame where
  /-- `close` in one frame; `answered`: at most 125 bytes -/
  | close (answered : Bool)
  /-- `ping` in one frame; `answered`: likewise -/
  | ping (answered : Bool)
  /-- `pong` in one frame, and every other message that changes nothing -/
  | other
  /-- the last frame of a text or binary message; `first`: its opcode is not `continue`; `outs`: what the extensions make of the data; `fine`: bits and
  UTF-8 are; `calls`: what `websocket_incoming_message_callback` does -/
  | final (first : Bool) (outs : List (Option Nat)) (fine : Bool) (calls : List MOp)
  /-- another frame of such a message -/
  | part (first : Bool)
  deriving DecidableEq, Repr

/-- A complete message, u_websocket.c:722–760: `none`: it was pushed or cleared. -/
def deliver (h : Heap) (w : Ws) (held : List (Option Msg)) (m : Msg) (outs : List (Option Nat)) (fine : Bool) (calls : List MOp) :
    Res (Ws × Option Msg × List (Option Msg) × Heap) := do
  let (ok, m, h) ← performMsg h w m outs
  if ok && fine then do
    let (w, held, h) ← mops h w held calls
    if w.keepIn then do
      let (l, h) ← pushMsg h w.incoming m
      return ({ w with incoming := l }, none, held, h)
    else do
      let h ← clearMsg h m
      return (w, none, held, h)
  else return (w, some m, held, h)

/-- A websocket that is open: the first fragments of a message (`message_previous`). -/
structure Live where
  ws : Ws
  prev : Option Msg := none

/-- A message that was read, u_websocket.c:683–786; the third component: what `message` points to in the end. -/
def handle (h : Heap) (v : Live) (held : List (Option Msg)) (m : Msg) : Frame → Res (Live × Option Msg × List (Option Msg) × Heap)
  | .close answered => do
    let (w, h) ← (if answered then sendManaged h v.ws 0 1 else .ok (v.ws, h))
    return ({ v with ws := w }, some m, held, h)
  | .ping answered => do
    let (w, h) ← (if answered then sendMsg h v.ws (.data m.len [] 1) else .ok (v.ws, h))
    return ({ v with ws := w }, some m, held, h)
  | .other => .ok (v, some m, held, h)
  | .final first outs fine calls =>
    match v.prev, first with
    | none, false => .ok (v, some m, held, h)
    | none, true => do
      let (w, m, held, h) ← deliver h v.ws held m outs fine calls
      return (⟨w, none⟩, m, held, h)
    | some _, true => .ok (v, some m, held, h)
    | some p, false => do
      let (p, h) ← mergeMsg h p m
      let h ← clearMsg h m
      let (w, m, held, h) ← deliver h v.ws held p outs fine calls
      return (⟨w, none⟩, m, held, h)
  | .part first =>
    match v.prev, first with
    | none, false => .ok (v, some m, held, h)
    | none, true => .ok ({ v with prev := some m }, none, held, h)
    | some _, true => .ok (v, some m, held, h)
    | some p, false => do
      let (p, h) ← mergeMsg h p m
      return ({ v with prev := some p }, some m, held, h)

/-- One round of `ulfius_thread_websocket`, u_websocket.c:679–787. -/
def receiveMsg (h : Heap) (v : Live) (held : List (Option Msg)) (x : Read) (s : Frame) : Res (Live × List (Option Msg) × Heap) := do
  let (m, h) ← readMsg h x
  match m with
  | none => return (v, held, h)
  | some m => do
    let (v, m, held, h) ← handle h v held m s
    let h ← clearMsgO h m
    return (v, held, h)

/-- What happens to a websocket. -/
inductive Ev where
  | arrives (x : Read) (s : Frame)
  /-- a call of `websocket_manager_callback` -/
  | calls (o : MOp)
  deriving DecidableEq, Repr

/-- One event. -/
def event (h : Heap) (v : Live) (held : List (Option Msg)) : Ev → Res (Live × List (Option Msg) × Heap)
  | .arrives x s => receiveMsg h v held x s
  | .calls o => do let (w, held, h) ← mop h v.ws held o; return ({ v with ws := w }, held, h)

/-- The end of `ulfius_thread_websocket`, u_websocket.c:788–812; `calls`: what `websocket_onclose_callback` does. -/
def finish (h : Heap) (t : Table) (v : Live) (held : List (Option Msg)) (calls : List MOp) : Res (Table × List (Option Msg) × Heap) := do
  let h ← clearMsgO h v.prev
  let (w, held, h) ← mops h v.ws held calls
  let (t, h) ← clearWs h t w true
  return (t, held, h)

end Verif.Memory
