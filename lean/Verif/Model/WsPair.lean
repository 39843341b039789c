import Verif.Model.Frame
/-!
# Two endpoints of the library on one websocket

A client and a server of the library, each with the loop of `ulfius_thread_websocket` (u_websocket.c:660–818) and with programs that send messages and
ask for the close, and the connection between them. The network delays data and the news of a hang-up as it likes. Simplified:
* a message is written in one step (C138: under the write lock), the socket takes it whole (C74), and it is read in one step (C69);
* messages are not fragmented (C45), extensions have no context (C102), and only the loop itself sends a close frame: on the close flag or as an answer
  (C152 has other threads doing that);
* `pthread_join` on the thread of the manager callback (u_websocket.c:795) returns.
-/
namespace Verif.WsPair
open Verif.Ws

/-- Where the loop of an endpoint is: in the loop (u_websocket.c:674–792); waiting for the answer to its close frame with `count` left
(1510–1533); out of the loop (`connected` = 0, 793–798); done, the onclose callback called and the socket closed (799–813). -/
inductive Phase where
  | loop
  | waiting (count : Nat)
  | left
  | over
  deriving DecidableEq, Repr

/-- One endpoint: bytes that arrived and are not read, `message_previous`, `close_flag`. -/
structure Party where
  inbox : Bytes := []
  prev : Option InMsg := none
  flag : Bool := false
  phase : Phase := .loop
  deriving DecidableEq, Repr

/-- What can be seen: a call of `ulfius_websocket_send_message` that returned `U_OK`, a close frame written, a message given to the callback for
incoming messages, the call of the onclose callback. The server is `true`, the client `false`. -/
inductive Event where
  | said (who : Bool) (op : UInt8) (d : Bytes)
  | closing (who : Bool)
  | got (who : Bool) (op : UInt8) (d : Bytes)
  | ended (who : Bool)
  deriving DecidableEq, Repr

structure Sys where
  party : Bool → Party := fun _ => {}
  log : List Event := []

/-- What `poll` finds: nothing yet; what there is to see, data first; or the hang-up of the peer, with data or without. -/
inductive Poll where
  | nothing
  | ready
  | hangup
  deriving DecidableEq, Repr

/-- A thread of the program sends a message, or calls `ulfius_websocket_send_close_signal` (u_websocket.c:2289–2297); the loop does one round. The mask
is the one drawn for the frame that may be sent, used by the client only (u_websocket.c:296–306). -/
inductive Act where
  | say (who : Bool) (op : UInt8) (d : Bytes) (mask : Bytes)
  | signal (who : Bool)
  | turn (who : Bool) (poll : Poll) (mask : Bytes)
  deriving DecidableEq, Repr

def upd (y : Sys) (who : Bool) (p : Party) : Sys := { y with party := fun x => if x = who then p else y.party x }

def note (y : Sys) (e : Event) : Sys := { y with log := y.log ++ [e] }

/-- Bytes written to the socket of `who` arrive at the other. -/
def post (y : Sys) (who : Bool) (b : Bytes) : Sys :=
  upd y (!who) { y.party (!who) with inbox := (y.party (!who)).inbox ++ b }

def maskOf (who : Bool) (k : Bytes) : Option Bytes := if who then none else some k

/-- The frames as bytes; a byte nobody wrote is undefined. -/
def bytesWritten (frames : List (List (Option UInt8))) : Res Bytes :=
  match frames.flatten.mapM id with
  | some b => .ok b
  | none => .ub

/-- The manager of an endpoint on which both sides agreed on the extensions. -/
def cfg (exts : List Ext) (who : Bool) : Cfg :=
  { server := who, rsvExpected := exts.foldl (fun r e => if e.enabled then r ||| e.rsv else r) 0, ext := applyIn exts }

/-- A frame of the loop itself: `ulfius_send_websocket_message_managed` with a close frame, `ulfius_websocket_send_message` with a pong. -/
def control (y : Sys) (who : Bool) (op : UInt8) (k d : Bytes) : Res Sys := do
  match ← sendManaged ⟨op, 0, maskOf who k, d⟩ 0 with
  | none => return y
  | some (frames, _) => return post y who (← bytesWritten frames)

/-- What the loop does with a message, see `Verif.Ws.handle`. -/
def perform (y : Sys) (who : Bool) (k : Bytes) : List Out → Res Sys
  | [] => .ok y
  | .deliver op _ d :: t => perform (note y (.got who op d)) who k t
  | .pong d :: t => do perform (← control y who 10 k d) who k t
  | .close :: t => do perform (note (← control y who 8 k []) (.closing who)) who k t

/-- `ulfius_websocket_status`, u_websocket.c:2304–2310: open. -/
def connected (p : Party) : Bool :=
  match p.phase with
  | .loop => true
  | .waiting _ => true
  | _ => false

/-- `poll` reports data. -/
def readable (y : Sys) (who : Bool) (p : Poll) : Bool := p == .ready && (y.party who).inbox != []

/-- `poll` reports that the peer closed its socket. -/
def hung (y : Sys) (who : Bool) (p : Poll) : Bool := p != .nothing && (y.party (!who)).phase == .over

/-- The bytes of the socket that were not read. -/
def unread : List Ev → Bytes
  | .idle :: t => unread t
  | .seg b :: t => b ++ unread t
  | _ => []

/-- One round: of the loop, u_websocket.c:674–792, of the loop that waits for the answer to a close frame, 1511–1533, or what comes after them. -/
def turn (exts : List Ext) (y : Sys) (who : Bool) (p : Poll) (k : Bytes) : Res Sys :=
  match (y.party who).phase with
  | .loop =>
    if (y.party who).flag then do
      let y ← control y who 8 k []
      return note (upd y who { y.party who with phase := .waiting 10 }) (.closing who)
    else if readable y who p then
      match readMessage who [.seg (y.party who).inbox] with
      | none => .ok (upd y who { y.party who with phase := .left })
      | some (m, evs) =>
        let h := handle (cfg exts who) (y.party who).prev m
        perform (upd y who { y.party who with
          inbox := unread evs, prev := h.2.1, phase := if h.2.2 then .loop else .left }) who k h.1
    else if hung y who p then .ok (upd y who { y.party who with phase := .left })
    else .ok y
  | .waiting count =>
    let again := match count with
      | 0 => Phase.left
      | c + 1 => .waiting c
    if readable y who p then
      match readMessage who [.seg (y.party who).inbox] with
      | none => .ok (upd y who { y.party who with phase := .left })
      | some (m, evs) =>
        .ok (upd y who { y.party who with
          inbox := unread evs, phase := if m.opcode = 8 then .left else again })
    else if hung y who p then .ok (upd y who { y.party who with phase := .left })
    else .ok (upd y who { y.party who with phase := again })
  | .left => .ok (note (upd y who { y.party who with phase := .over }) (.ended who))
  | .over => .ok y

def step (exts : List Ext) (y : Sys) : Act → Res Sys
  | .say who op d k =>
    if connected (y.party who) then do
      match ← sendFragmented exts op (maskOf who k) d 0 with
      | none => return y
      | some (frames, _) => return note (post y who (← bytesWritten frames)) (.said who op d)
    else .ok y
  | .signal who => .ok (upd y who { y.party who with flag := true })
  | .turn who p k => turn exts y who p k

def exec (exts : List Ext) (y : Sys) : List Act → Res Sys
  | [] => .ok y
  | a :: t => do exec exts (← step exts y a) t

end Verif.WsPair
