import Verif.Model.Frame
/-!
# Model of the end of a websocket: the loop, the reads it is in, and the manager callback

`ulfius_thread_websocket` (src/u_websocket.c:660–819) and `ulfius_thread_websocket_manager_run` (571–587) as two threads that interleave with the peer and
with the threads that ask for the close (`ulfius_websocket_send_close_signal` 2289–2297, `ulfius_stop_framework`). Here a read is not one step: each pass of
the loop of `read_data_from_socket` (136–159), with its `poll`, is an action of its own, because a frame may arrive in part.

Simplified: sends do not block and only their effect on `connected` is kept; the callback for incoming messages returns; allocations, locks and the creation
of threads succeed; without TLS. What is read while waiting for the answer to a close frame (1508–1535, at most eleven reads) is left out; `connected` is
0 afterwards in any case (1538).
-/
namespace Verif.WsEnd
open Verif.Ws

/-- How far `ulfius_read_incoming_message` is, 456–534. -/
inductive Phase where
  | header
  /-- the length bytes, 467–493; they are 2 or 8 -/
  | length (b0 b1 : UInt8)
  /-- the mask, 506–517 -/
  | mask (b0 b1 : UInt8) (len : Nat)
  /-- the payload, 529–531 -/
  | payload (b0 : UInt8) (len : Nat) (mask : Option Bytes)
  deriving DecidableEq, Repr

/-- A call of `read_data_from_socket`, 136–159: what it is for, `len`, and the bytes read so far. -/
structure Read where
  phase : Phase
  need : Nat
  got : Bytes := []
  deriving DecidableEq, Repr

/-- After a read that was complete: the next read, the message, or an error. -/
inductive Next where
  | read (r : Read)
  | message (m : InMsg)
  | error
  deriving DecidableEq, Repr

/-- The message, 459–461, 500–504, 541–551. -/
def message (b0 : UInt8) (len : Nat) (mask : Option Bytes) (payload : Bytes) : InMsg :=
  let fin := decide (b0 &&& 0x80 ≠ 0)
  ⟨b0 &&& 0x0f, b0 &&& 0x70, fin, mask.isSome, match mask with | some k => xorMask k payload | none => payload, if fin then 0 else len⟩

/-- 529: is there a payload? -/
def afterMask (b0 : UInt8) (len : Nat) (mask : Option Bytes) : Next :=
  if len = 0 then .message (message b0 len mask []) else .read ⟨.payload b0 len mask, len, []⟩

/-- 506–528: the mask is required from a client and refused from a server. -/
def afterLength (server : Bool) (b0 b1 : UInt8) (len : Nat) : Next :=
  if server then
    if b1 &&& 0x80 ≠ 0 then .read ⟨.mask b0 b1 len, 4, []⟩ else .error
  else
    if b1 &&& 0x80 ≠ 0 then .error else afterMask b0 len none

/-- What follows when all the bytes of a read are there. -/
def advance (server : Bool) : Phase → Bytes → Next
  | .header, [b0, b1] =>
    let l := (b1 &&& 0x7f).toNat
    if l ≤ 125 then afterLength server b0 b1 l
    else if l = 126 then .read ⟨.length b0 b1, 2, []⟩
    else .read ⟨.length b0 b1, 8, []⟩
  | .length b0 b1, [p0, p1] => afterLength server b0 b1 (p1.toNat ||| p0.toNat <<< 8)
  | .length b0 b1, [p0, p1, p2, p3, p4, p5, p6, p7] =>
    afterLength server b0 b1 (UMap.w64 (p7.toNat ||| p6.toNat <<< 8 ||| p5.toNat <<< 16 ||| p4.toNat <<< 24 ||| p3.toNat <<< 32 |||
      p2.toNat <<< 40 ||| p1.toNat <<< 48 ||| p0.toNat <<< 54))
  | .mask b0 _ len, k => afterMask b0 len (some k)
  | .payload b0 len mask, p => if p.length % 2 ^ 32 ≠ len then .error else .message (message b0 len mask p)
  | _, _ => .error

/-- The handling of one message, 684–784, with the two variables the loop tests: `connected` and `ret == U_OK`. They differ when a final frame cannot be
merged (722–724): `ret` is set, `connected` is not. -/
def handleFlags (c : Cfg) (prev : Option InMsg) (m : InMsg) : List Out × Option InMsg × Bool × Bool :=
  if m.opcode = 8 ∧ m.fin then (if m.data.length ≤ 125 then [.close] else [], prev, false, true)
  else if m.opcode = 9 ∧ m.fin then
    if m.data.length ≤ 125 then ([.pong m.data], prev, true, true) else ([], prev, false, true)
  else if m.opcode = 10 ∧ m.fin then ([], prev, true, true)
  else if m.opcode = 1 ∨ m.opcode = 2 ∨ m.opcode = 0 then
    if m.fin ∧ m.opcode = 0 ∧ prev = none then ([], prev, false, true)
    else if m.fin then
      match prev with
      | none => ((complete c m).1, none, (complete c m).2, true)
      | some p =>
        match merge p m with
        | none => ([], prev, true, false)
        | some m' => ((complete c m').1, none, (complete c m').2, true)
    else if m.opcode ≠ 0 ∨ prev ≠ none then
      match prev with
      | none => ([], some m, true, true)
      | some p =>
        match merge p m with
        | none => ([], prev, false, true)
        | some p' => ([], some p', true, true)
    else ([], prev, false, true)
  else ([], prev, false, true)

/-- Where the thread of the websocket is. -/
inductive Loop where
  /-- 674: the test of the loop comes next -/
  | test
  /-- 675: the test of `close_flag` comes next -/
  | flag
  /-- 681: the `poll` comes next -/
  | poll
  /-- in `read_data_from_socket` -/
  | reading (r : Read)
  /-- 794: the `pthread_join` comes next -/
  | join
  /-- 798–803: the onclose callback was called; `ulfius_close_websocket` comes next -/
  | closing
  /-- 804–815: the end is told, or the websocket is removed and freed -/
  | done
  deriving DecidableEq, Repr

/-- The manager callback: not set, running, returned. -/
inductive Manager where
  | absent
  | running
  | returned
  deriving DecidableEq, Repr

structure Sys where
  cfg : Cfg
  /-- bytes that arrived and were not read -/
  sock : Bytes := []
  /-- the connection was shut down by the peer or is broken: `poll` reports it from now on -/
  hup : Bool := false
  prev : Option InMsg := none
  outs : List Out := []
  connected : Bool := true
  /-- `ret == U_OK` -/
  ret : Bool := true
  closeFlag : Bool := false
  loop : Loop := .test
  manager : Manager
  /-- calls of the onclose callback -/
  closes : Nat := 0

/-- What can happen. -/
inductive Act where
  /-- the thread of the websocket goes on -/
  | thread
  /-- the manager callback calls `ulfius_websocket_status`, or `ulfius_websocket_wait_close` with a timeout that passes, and returns when it is CLOSE -/
  | look
  /-- the manager callback sends a message that is not CLOSE: the server polls its socket first, 116–134 and 169 -/
  | send
  /-- the manager callback returns of its own accord -/
  | leave
  /-- somebody asks for the close -/
  | signal
  /-- bytes arrive -/
  | bytes (b : Bytes)
  /-- the connection ends -/
  | hang
  deriving DecidableEq, Repr

/-- A failed read or a protocol error: `connected = 0`, 777–780. -/
def fail (s : Sys) : Sys := { s with connected := false, loop := .test }

/-- After a complete read. -/
def proceed (s : Sys) : Next → Sys
  | .read r => { s with loop := .reading r }
  | .error => fail s
  | .message m =>
    let r := handleFlags s.cfg s.prev m
    { s with outs := s.outs ++ r.1, prev := r.2.1, connected := s.connected && r.2.2.1, ret := r.2.2.2, loop := .test }

/-- One pass of `read_data_from_socket`, 141–156: `poll`, `read`, and the test of `connected`. -/
def pass (s : Sys) (r : Read) : Sys :=
  if s.hup then fail s
  else if r.need ≤ r.got.length + s.sock.length then
    let k := r.need - r.got.length
    proceed { s with sock := s.sock.drop k } (advance s.cfg.server r.phase (r.got ++ s.sock.take k))
  else if s.connected then { s with sock := [], loop := .reading { r with got := r.got ++ s.sock } }
  else fail { s with sock := [] }

/-- The next step of the thread of the websocket. -/
def thread (s : Sys) : Sys :=
  match s.loop with
  | .test => { s with loop := if s.connected && s.ret then .flag else .join }
  | .flag => if s.closeFlag then { s with outs := s.outs ++ [.close], connected := false, loop := .test } else { s with loop := .poll }
  | .poll =>
    if s.hup then { s with connected := false, loop := .test }
    else if s.sock = [] then { s with loop := .test }
    else { s with loop := .reading ⟨.header, 2, []⟩ }
  | .reading r => pass s r
  | .join => if s.manager = .running then s else { s with closes := s.closes + 1, loop := .closing }
  | .closing => { s with connected := false, loop := .done }
  | .done => s

/-- One action; the manager callback acts while it runs. -/
def step (s : Sys) : Act → Sys
  | .thread => thread s
  | .look => if s.manager = .running ∧ s.connected = false then { s with manager := .returned } else s
  | .send => if s.manager = .running ∧ s.hup ∧ s.cfg.server then { s with connected := false } else s
  | .leave =>
    if s.manager = .running then { s with manager := .returned, closeFlag := s.closeFlag || s.connected } else s        -- 577–584
  | .signal => { s with closeFlag := true }
  | .bytes b => { s with sock := s.sock ++ b }
  | .hang => { s with hup := true }

/-- The state after the first `n` actions. -/
def after (s : Sys) (act : Nat → Act) : Nat → Sys
  | 0 => s
  | n + 1 => step (after s act n) (act n)

/-- Any finite list of actions. -/
def exec (s : Sys) : List Act → Sys
  | [] => s
  | a :: t => exec (step s a) t

/-- A websocket that was just opened. -/
def start (c : Cfg) (manager : Bool) : Sys := { cfg := c, manager := if manager then .running else .absent }

end Verif.WsEnd
