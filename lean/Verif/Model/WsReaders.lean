import Verif.Model.Frame
/-!
# Model: several threads that read from one websocket

The thread of the websocket (`ulfius_thread_websocket`, u_websocket.c:674–792) and threads of the program that close the websocket
(`ulfius_websocket_send_fragmented_message` with opcode CLOSE, 1507–1538, which waits for the answer of the peer) both call
`ulfius_read_incoming_message` (437–566), which holds `read_lock` from its beginning to its end.

One action is one `poll`, one lock operation, one byte read (a `read` of several bytes is several actions without another in
between), or the handling of a message. Allocations and lock calls succeed; the sending of frames is left out (see
`Model/WsThreads`), as is `close_flag`.
-/
namespace Verif.WsReaders
open Verif.Ws

/-- What a call of `ulfius_read_incoming_message` reads next, u_websocket.c:462, 470/478, 510, 532. -/
inductive Pc where
  | head
  | length (b0 b1 : UInt8)
  | mask (b0 b1 : UInt8) (len : Nat)
  | payload (b0 : UInt8) (len : Nat) (mask : Option Bytes)
  /-- 562: the lock is released next; `none`: any result but `U_OK` -/
  | done (r : Option InMsg)
  deriving DecidableEq, Repr

/-- How many bytes `read_data_from_socket` is asked for. -/
def Pc.need : Pc → Nat
  | .head => 2
  | .length _ b1 => if (b1 &&& 0x7f).toNat = 126 then 2 else 8
  | .mask .. => 4
  | .payload _ len _ => len
  | .done _ => 0

/-- The message, u_websocket.c:451–465, 500–504. -/
def message (b0 : UInt8) (len : Nat) (mask : Option Bytes) (d : Bytes) : InMsg :=
  let fin := decide (b0 &&& 0x80 ≠ 0)
  ⟨b0 &&& 0x0f, b0 &&& 0x70, fin, mask.isSome, d, if fin then 0 else len⟩

/-- The payload comes next, if there is one, u_websocket.c:529. -/
def toPayload (b0 : UInt8) (len : Nat) (mask : Option Bytes) : Pc :=
  if len = 0 then .done (some (message b0 0 mask [])) else .payload b0 len mask

/-- The mask comes next, if there has to be one, u_websocket.c:506–528. -/
def toMask (server : Bool) (b0 b1 : UInt8) (len : Nat) : Pc :=
  if server then
    if b1 &&& 0x80 ≠ 0 then .mask b0 b1 len else .done none
  else
    if b1 &&& 0x80 ≠ 0 then .done none else toPayload b0 len none

/-- What follows when the bytes asked for have been read. -/
def next (server : Bool) : Pc → Bytes → Pc
  | .head, l =>
    match l with
    | [b0, b1] => if (b1 &&& 0x7f).toNat ≤ 125 then toMask server b0 b1 (b1 &&& 0x7f).toNat else .length b0 b1
    | _ => .done none
  | .length b0 b1, l =>
    match readLength b1 [.seg l] with
    | some (n, _) => toMask server b0 b1 n
    | none => .done none
  | .mask b0 _ len, k => toPayload b0 len (some k)
  | .payload b0 len mask, p =>
    match readPayload len mask [.seg p] with
    | some (d, _) => .done (some (message b0 len mask d))
    | none => .done none
  | .done r, _ => .done r

/-- A call in progress: the bytes read for the present field. -/
structure Call where
  pc : Pc := .head
  acc : Bytes := []
  deriving DecidableEq, Repr

/-- One byte more. -/
def feed (server : Bool) (c : Call) (b : UInt8) : Call :=
  if (c.acc ++ [b]).length = c.pc.need then ⟨next server c.pc (c.acc ++ [b]), []⟩ else ⟨c.pc, c.acc ++ [b]⟩

/-- Where a thread is. -/
inductive At where
  /-- 680 and 1510: `poll` comes next -/
  | loop
  /-- 444: the lock comes next -/
  | locking
  | reading (c : Call)
  /-- the call has returned -/
  | got (r : Option InMsg)
  | ended
  deriving DecidableEq, Repr

/-- The thread of the websocket, or one that closes it, with `count`. -/
inductive Role where
  | socket
  | closer (count : Nat)
  deriving DecidableEq, Repr

structure Thread where
  role : Role
  at_ : At := .loop
  deriving DecidableEq, Repr

/-- The shared state, with `message_previous` and the effects of the thread of the websocket. `log`: the results of the calls of
`ulfius_read_incoming_message`, in the order in which they released the lock. -/
structure Sys where
  sock : Bytes
  lock : Option Nat := none
  connected : Bool := true
  prev : Option InMsg := none
  outs : List Out := []
  log : List (Nat × Option InMsg) := []
  th : Nat → Thread

/-- At the beginning all threads have called their function; thread 0 is that of the websocket, the others have sent their close
frame; `count` is `WEBSOCKET_MAX_CLOSE_TRY`, u_websocket.c:1495. -/
def start (sock : Bytes) : Sys := { sock := sock, th := fun i => ⟨if i = 0 then .socket else .closer 10, .loop⟩ }

def set (s : Sys) (i : Nat) (t : Thread) : Sys := { s with th := fun k => if k = i then t else s.th k }

/-- End of one pass of the loop of a closing thread, u_websocket.c:1534–1538. -/
def again (s : Sys) (i : Nat) (count : Nat) : Sys :=
  match s.connected, count with
  | true, n + 1 => set s i ⟨.closer n, .loop⟩
  | _, _ => set { s with connected := false } i ⟨.closer 0, .ended⟩

/-- One byte for the call of thread `i`, u_websocket.c:136–159. A call gives up when there are too few bytes and the connection is
closed, 156. -/
def readByte (server : Bool) (s : Sys) (i : Nat) (call : Call) (ok : Bool) : Sys :=
  match ok, s.sock with
  | true, b :: t => set { s with sock := t } i ⟨(s.th i).role, .reading (feed server call b)⟩
  | _, _ => if s.connected then s else set s i ⟨(s.th i).role, .reading ⟨.done none, []⟩⟩

/-- One action of thread `i`. `ok`: `poll` says that there are data, the `read` goes on. -/
def step (c : Cfg) (s : Sys) (i : Nat) (ok : Bool) : Sys :=
  match (s.th i).at_ with
  | .ended => s
  | .loop =>
    match (s.th i).role with
    | .socket => if s.connected then (if ok then set s i ⟨.socket, .locking⟩ else s) else set s i ⟨.socket, .ended⟩
    | .closer n => if ok then set s i ⟨.closer n, .locking⟩ else again s i n
  | .locking => if s.lock = none then set { s with lock := some i } i ⟨(s.th i).role, .reading {}⟩ else s
  | .reading call =>
    match call.pc with
    | .done r => set { s with lock := none, log := s.log ++ [(i, r)] } i ⟨(s.th i).role, .got r⟩
    | _ => readByte c.server s i call ok
  | .got r =>
    match (s.th i).role, r with
    | .socket, none => set { s with connected := false } i ⟨.socket, .ended⟩
    | .socket, some m =>
      set { s with outs := s.outs ++ (handle c s.prev m).1, prev := (handle c s.prev m).2.1,
                   connected := s.connected && (handle c s.prev m).2.2 } i ⟨.socket, .loop⟩
    | .closer n, none => again { s with connected := false } i n
    | .closer n, some m => again (if m.opcode = 8 then { s with connected := false } else s) i n

/-- An execution. -/
def exec (c : Cfg) : Sys → List (Nat × Bool) → Sys
  | s, [] => s
  | s, a :: t => exec c (step c s a.1 a.2) t

end Verif.WsReaders
