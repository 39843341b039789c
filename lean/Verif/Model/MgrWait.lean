import Verif.Basic
/-!
# Model of a manager callback that waits for the close of its websocket

`ulfius_websocket_wait_close` (src/u_websocket.c:2318–2348) called by the manager callback, in the thread of
`ulfius_thread_websocket_manager_run` (571–587), next to `ulfius_thread_websocket` (660–819), which joins that thread (794–797) before it
calls onclose and, for a client, wakes those who wait (806–809). The callback is any program: it tests `connected`, sends, waits and returns.
`Model/WaitClose` has one wait of another thread; here the thread that waits is the one that is joined.

Simplified: what makes the loop end (a close frame, an error, `close_flag`) is one action; the sends have a result and may end the connection
(a close frame, 1508–1538); `status_lock` is left out, it is never held for longer than these steps; threads are created.
-/
namespace Verif.MgrWait

/-- What the callback does next; `σ` is where it is in its code. -/
inductive Op (σ : Type) where
  /-- it returns -/
  | ret
  /-- `ulfius_websocket_send_message` and the like; the result tells where it goes on -/
  | send (k : Bool → σ)
  /-- it reads `websocket_manager->connected` -/
  | look (k : Bool → σ)
  /-- `ulfius_websocket_wait_close(websocket_manager, timeout)`; `true` is `U_WEBSOCKET_STATUS_OPEN` -/
  | wait (timeout : Nat) (k : Bool → σ)

/-- Where the thread of the manager is. -/
inductive Mgr (σ : Type) where
  | at (p : σ)
  /-- in `pthread_cond_timedwait` or `pthread_cond_wait`, 2333, 2338 -/
  | asleep (timeout : Nat) (k : Bool → σ)
  /-- the wait is over; `expired` is `ret == ETIMEDOUT` -/
  | woken (timeout : Nat) (expired : Bool) (k : Bool → σ)
  /-- 587 -/
  | returned

/-- Where the thread of the websocket is. -/
inductive Loop where
  /-- 674–792 -/
  | running
  /-- 796: `pthread_join` -/
  | join
  /-- 799–803 are done -/
  | closing
  /-- 804–815 -/
  | done
  deriving DecidableEq, Repr

structure Sys (σ : Type) where
  client : Bool
  mgr : Mgr σ
  connected : Bool := true
  closeFlag : Bool := false
  loop : Loop := .running
  /-- calls of onclose -/
  closes : Nat := 0

inductive Act where
  /-- the manager goes on; for a send: its result, and whether the connection ends by it -/
  | mgr (ok drop : Bool)
  /-- the deadline of the wait passes -/
  | expire
  /-- a wake-up without a reason -/
  | spurious
  /-- the loop sets `connected` to 0, 679–790 -/
  | drop
  /-- the loop is left because a final frame cannot be merged, 722–724: `connected` is still 1 -/
  | fail
  /-- the thread of the websocket goes on -/
  | loop
  deriving DecidableEq, Repr

/-- A step of the manager thread. -/
def mgrStep {σ : Type} (op : σ → Op σ) (s : Sys σ) (ok drop : Bool) : Option (Sys σ) :=
  match s.mgr with
  | .at p => match op p with
    | .ret => some { s with mgr := .returned, closeFlag := s.closeFlag || s.connected }
    | .send k => some { s with mgr := .at (k ok), connected := s.connected && !drop }
    | .look k => some { s with mgr := .at (k s.connected) }
    | .wait t k => some { s with mgr := if s.connected then .asleep t k else .at (k false) }
  | .asleep _ _ => none
  | .woken t e k => some { s with mgr := .at (k (decide (t ≠ 0) && e && s.connected)) }
  | .returned => none

/-- Whether the manager thread is over, for `pthread_join`. -/
def over {σ : Type} : Mgr σ → Bool
  | .returned => true
  | _ => false

/-- `pthread_cond_broadcast`, 808. -/
def wake {σ : Type} : Mgr σ → Mgr σ
  | .asleep t k => .woken t false k
  | m => m

/-- A step of the thread of the websocket. -/
def loopStep {σ : Type} (s : Sys σ) : Option (Sys σ) :=
  match s.loop with
  | .running => if s.connected then none else some { s with loop := .join }
  | .join => if over s.mgr then some { s with loop := .closing, closes := s.closes + 1 } else none
  | .closing => some { s with loop := .done, mgr := if s.client then wake s.mgr else s.mgr }
  | .done => none

/-- The effect of an action; `none` when it cannot happen. -/
def next {σ : Type} (op : σ → Op σ) (s : Sys σ) : Act → Option (Sys σ)
  | .mgr ok drop => mgrStep op s ok drop
  | .expire => match s.mgr with
    | .asleep t k => if t = 0 then none else some { s with mgr := .woken t true k }
    | _ => none
  | .spurious => match s.mgr with
    | .asleep t k => some { s with mgr := .woken t false k }
    | _ => none
  | .drop => if s.loop = .running ∧ s.connected = true then some { s with connected := false } else none
  | .fail => if s.loop = .running ∧ s.connected = true then some { s with loop := .join } else none
  | .loop => loopStep s

/-- A list of actions that happen one after the other. -/
def path {σ : Type} (op : σ → Op σ) : Sys σ → List Act → Option (Sys σ)
  | s, [] => some s
  | s, a :: t => match next op s a with
    | some s' => path op s' t
    | none => none

/-- `websocket_manager_callback` of the example server, example_programs/websocket_example/websocket_server.c:167–219: five times, wait for two
seconds and send when the websocket is open (the second time only to ulfius clients, 188–189). The number counts down: even to wait, odd to send. -/
def messages (ulfius : Bool) : Nat → Op Nat
  | 0 => .ret
  | 8 => if ulfius then .wait 2000 (fun o => if o then 7 else 6) else .look (fun _ => 6)
  | n + 1 => if n % 2 = 1 then .wait 2000 (fun o => if o then n else n - 1) else .send (fun _ => n)

/-- `websocket_manager_file_callback`, 221–234: `sleep(1)`, then it looks whether the websocket is open. -/
def polls : Bool → Op Bool
  | true => .look id
  | false => .ret

/-- A callback that waits for the close without a timeout and returns. -/
def waits : Bool → Op Bool
  | true => .wait 0 (fun _ => false)
  | false => .ret

end Verif.MgrWait
