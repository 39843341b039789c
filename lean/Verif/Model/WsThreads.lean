import Verif.Model.Frame
/-!
# Model: several threads that send on one websocket

`ulfius_websocket_send_fragmented_message` (u_websocket.c:1491–1585), `ulfius_send_websocket_message_managed` (338–399) and
`ulfius_websocket_send_frame` (164–189) as threads that interleave: the callbacks of the program, the thread of the websocket that answers pings and
closes, and every other thread that knows the manager.

One action is one lock operation, one `send`, one read or write of `connected`, or the beginning or the end of the calls of the extensions, which are
made without a lock (1551–1574). Building the frames touches nothing that is shared; it is part of the action that takes the lock. Two threads inside
an extension that has a context are a data race, that is undefined behaviour. Allocations and lock calls succeed. The thread of the websocket holds
the (recursive) write lock around its answers to pings (693–705); they are sent like all others. `ping_sent` is never set.
What is read while waiting for the answer to a close frame (1508–1535) concerns other lists and is left out.
-/
namespace Verif.WsThreads
open Verif.Ws

/-- The enabled extensions of a connection together: new context, RSV bits and data, or an error. `shared`: one of them has a context. -/
structure Coder (C : Type) where
  shared : Bool
  perform : C → UInt8 → Bytes → C × Option (UInt8 × Bytes)

/-- One call: arguments, the mask `ulfius_build_message` draws (none on the server), and what the socket does with each frame. -/
structure Job where
  op : UInt8
  data : Bytes
  fragment : Nat := 0
  mask : Option Bytes := none
  writes : List (List Wr)
  deriving DecidableEq, Repr

/-- Where a thread is. -/
inductive Pc where
  /-- not in a call -/
  | ready
  /-- 1506: `connected` was not 0 -/
  | called (j : Job)
  /-- 1551–1574: in the extensions -/
  | performing (j : Job)
  /-- 350: the lock comes next -/
  | coded (j : Job) (m : OutMsg)
  /-- 353–380: the lock is held; the frames that are left, the first one maybe in part, with what the socket will do; the message as it will be kept -/
  | writing (j : Job) (frames : List (List (Option UInt8) × List Wr)) (m : OutMsg)
  /-- 396: the unlock comes next -/
  | unlocking (j : Job)
  /-- 1538: `connected = 0` comes next -/
  | closing
  deriving DecidableEq, Repr

/-- A thread and the calls it will make. -/
structure Thread where
  todo : List Job
  pc : Pc := .ready
  deriving DecidableEq, Repr

/-- The shared state: context of the extensions, the thread inside them, the lock, the bytes on the wire, the outgoing messages that are kept. -/
structure Sys (C : Type) where
  ctx : C
  busy : Option Nat := none
  lock : Option Nat := none
  wire : List (Option UInt8) := []
  kept : List OutMsg := []
  connected : Bool := true
  th : Nat → Thread

/-- At the beginning thread `i` is about to make the calls `jobs i`. -/
def start {C : Type} (c : C) (jobs : Nat → List Job) : Sys C := { ctx := c, th := fun i => ⟨jobs i, .ready⟩ }

/-- Thread `i` moves on. -/
def go {C : Type} (s : Sys C) (i : Nat) (pc : Pc) : Sys C := { s with th := fun k => if k = i then ⟨(s.th i).todo, pc⟩ else s.th k }

/-- One action of thread `i`; if it cannot move nothing happens. -/
def step {C : Type} (E : Coder C) (s : Sys C) (i : Nat) : Res (Sys C) :=
  match (s.th i).pc with
  | .ready =>
    match (s.th i).todo with
    | [] => .ok s
    | j :: t => .ok { s with th := fun k => if k = i then ⟨t, if s.connected then .called j else .ready⟩ else s.th k }
  | .called j =>
    if j.op = 8 then .ok (go s i (.coded j ⟨8, 0, j.mask, []⟩))
    else if j.op = 1 ∨ j.op = 2 then
      if E.shared then
        match s.busy with
        | some _ => .ub
        | none => .ok (go { s with busy := some i } i (.performing j))
      else .ok (go s i (.performing j))
    else .ok (go s i (.coded j ⟨j.op, 0, j.mask, j.data⟩))
  | .performing j =>
    let r := E.perform s.ctx j.op j.data
    let s := { s with ctx := r.1, busy := if E.shared then none else s.busy }
    match r.2 with
    | none => .ok (go s i .ready)
    | some (rsv, d) => .ok (go s i (.coded j ⟨j.op, rsv, j.mask, d⟩))
  | .coded j m =>
    match s.lock with
    | some _ => .ok s
    | none => do
      match ← sendManaged m j.fragment with
      | none => return go { s with lock := some i } i (.unlocking j)
      | some (frames, m') => return go { s with lock := some i } i (.writing j (frames.zip j.writes) m')
  | .writing j ((b :: f, .sent k :: w) :: t) m =>
    .ok (go { s with wire := s.wire ++ (b :: f).take k } i (.writing j (((b :: f).drop k, w) :: t) m))
  | .writing j (_ :: t) m => .ok (go s i (.writing j t m))
  | .writing j [] m => .ok (go { s with kept := s.kept ++ [m] } i (.unlocking j))
  | .unlocking j => .ok (go { s with lock := none } i (if j.op = 8 then .closing else .ready))
  | .closing => .ok (go { s with connected := false } i .ready)

/-- What happens: a thread acts, or the connection is found lost (107–129, 679–787). -/
inductive Act where
  | run (i : Nat)
  | lose
  deriving DecidableEq, Repr

/-- One after the other, in any order. -/
def exec {C : Type} (E : Coder C) (s : Sys C) : List Act → Res (Sys C)
  | [] => .ok s
  | .run i :: t => do let s ← step E s i; exec E s t
  | .lose :: t => exec E { s with connected := false } t

end Verif.WsThreads
