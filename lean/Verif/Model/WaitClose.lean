import Verif.Basic
/-! # Model: waiting for the end of a websocket

`ulfius_websocket_wait_close` (u_websocket.c:2318–2348), the end of `ulfius_thread_websocket` (790–813) and the wrappers
of the client that clear the websocket afterwards (`ulfius_websocket_client_connection_close` 2786–2806,
`ulfius_websocket_client_connection_wait_close` 2826–2838), as two threads that interleave.

One action is one lock operation or one access to the shared fields. The value of `connected` is read without a lock, as in
the code. The joins and the callback of 794–800 are one step. Using the manager after it was freed is undefined. -/
namespace Verif.WaitClose

/-- `websocket_manager->type`, include/ulfius.h:1581–1583. -/
inductive Kind where
  | client
  | server
deriving DecidableEq

/-- Where the websocket thread is, u_websocket.c:674–813. -/
inductive Ws where
  /-- 674: in the loop -/
  | running
  /-- 793: the loop has ended, the callback and `ulfius_close_websocket` come next -/
  | ended
  /-- 806: the broadcast, or the clearing of a server websocket, comes next -/
  | closed
  /-- 808: `status_lock` is held -/
  | telling
  /-- 809: the unlock comes next -/
  | told
  /-- 815 -/
  | exited
deriving DecidableEq

/-- Where the waiter is, 2322–2343, and after the return. -/
inductive Wt where
  /-- 2323: the test of `connected` comes next -/
  | start
  /-- 2332, 2337: the lock comes next -/
  | checked
  /-- 2333, 2338: the lock is held, the wait comes next -/
  | locked
  /-- inside `pthread_cond_wait` or `pthread_cond_timedwait` -/
  | asleep
  /-- the wait is over, it takes the lock again -/
  | woken
  /-- 2334, 2339: the unlock comes next -/
  | relocked
  /-- 2335: the second test of `connected` comes next -/
  | unlocked
  /-- returned `U_WEBSOCKET_STATUS_CLOSE` -/
  | close
  /-- returned `U_WEBSOCKET_STATUS_OPEN` -/
  | open
deriving DecidableEq

inductive Owner where
  | ws
  | wt
deriving DecidableEq

/-- The shared state. `timed` is `timeout != 0`; `expired` is `ret == ETIMEDOUT`. -/
structure Sys where
  kind : Kind
  timed : Bool
  connected : Bool := true
  lock : Option Owner := none
  ws : Ws := .running
  wt : Wt := .start
  expired : Bool := false
  freed : Bool := false
deriving DecidableEq

/-- What can happen next. -/
inductive Act where
  /-- a step of the websocket thread -/
  | ws
  /-- a step of the waiter -/
  | wt
  /-- a spurious wakeup of the waiter -/
  | spurious
  /-- the deadline of the waiter passes -/
  | expire
  /-- the client clears the websocket after the status CLOSE, 2795 and 2832 -/
  | clear
deriving DecidableEq

/-- A step of the websocket thread. -/
def wsStep (s : Sys) : Option (Res Sys) :=
  match s.ws with
  | .running => some (if s.freed then .ub else .ok { s with connected := false, ws := .ended })
  | .ended => some (if s.freed then .ub else .ok { s with connected := false, ws := .closed })
  | .closed => if s.freed then some .ub else
      match s.kind with
      | .client => match s.lock with
        | none => some (.ok { s with lock := some .ws, ws := .telling })
        | some _ => none
      | .server => some (.ok { s with freed := true, ws := .exited })
  | .telling => some (if s.freed then .ub else
      .ok { s with ws := .told, wt := if s.wt = .asleep then .woken else s.wt })
  | .told => some (if s.freed then .ub else .ok { s with lock := none, ws := .exited })
  | .exited => none

/-- A step of the waiter. -/
def wtStep (s : Sys) : Option (Res Sys) :=
  match s.wt with
  | .start => some (if s.freed then .ub else .ok { s with wt := if s.connected then .checked else .close })
  | .checked => if s.freed then some .ub else
      match s.lock with
      | none => some (.ok { s with lock := some .wt, wt := .locked })
      | some _ => none
  | .locked => some (if s.freed then .ub else .ok { s with lock := none, wt := .asleep })
  | .asleep => none
  | .woken => if s.freed then some .ub else
      match s.lock with
      | none => some (.ok { s with lock := some .wt, wt := .relocked })
      | some _ => none
  | .relocked => some (if s.freed then .ub else .ok { s with lock := none, wt := .unlocked })
  | .unlocked => some (if s.freed && s.timed then .ub else
      .ok { s with wt := if s.timed && s.expired && s.connected then .open else .close })
  | .close => none
  | .open => none

/-- The effect of an action; `none` when it cannot happen. -/
def next (s : Sys) : Act → Option (Res Sys)
  | .ws => wsStep s
  | .wt => wtStep s
  | .spurious => if s.wt = .asleep then some (.ok { s with wt := .woken }) else none
  | .expire => if s.wt = .asleep ∧ s.timed = true then some (.ok { s with wt := .woken, expired := true }) else none
  | .clear => if s.wt = .close ∧ s.kind = .client ∧ s.freed = false then some (.ok { s with freed := true }) else none

/-- Run a list of actions; an action that cannot happen is skipped. -/
def exec : List Act → Sys → Res Sys
  | [], s => .ok s
  | a :: r, s => match next s a with
    | none => exec r s
    | some .ub => .ub
    | some (.ok s') => exec r s'

end Verif.WaitClose
