import Verif.Model.Frame
import Verif.Model.Answer
/-!
# Model of the life of a server websocket, `src/ulfius.c:665–842, 1020–1035`, `src/u_websocket.c:570–587, 660–819, 1193–1233`

From the decision about the handshake to the end of the thread: which functions of the application are called, and when the websocket is
freed. The decision is that of `Model/Handshake` (here an argument), the messages are those of `Model/Frame`. Allocations succeed.
The manager callback runs in a thread of its own, next to the loop that reads messages: a life is any interleaving of the two.
-/
namespace Verif.WsServe
open Verif.Ws

/-- What libmicrohttpd and the system do. -/
structure World where
  /-- `MHD_create_response_for_upgrade` returns a response, ulfius.c:751 -/
  response : Bool := true
  /-- the headers and cookies of the response are accepted, ulfius.c:770 -/
  headers : Bool := true
  /-- the connection lives until libmicrohttpd switches protocols and calls `ulfius_start_websocket_cb` -/
  switches : Bool := true
  /-- the thread of the websocket is created, u_websocket.c:1218 -/
  thread : Bool := true
  /-- the thread of the manager callback is created, u_websocket.c:669 -/
  manager : Bool := true

/-- What the application sees of one websocket. -/
inductive Event where
  | managerStarts
  | managerReturns
  | deliver (opcode rsv : UInt8) (data : Bytes)
  | onclose
  /-- the websocket and its manager are freed -/
  | free
  deriving DecidableEq, Repr

/-- The functions of the application that are set on the handle. -/
structure Calls where
  manager : Bool
  incoming : Bool
  onclose : Bool

/-- `if (onclose != NULL) onclose(…); ulfius_clear_websocket(…)`. -/
def ending (k : Calls) : List Event := (if k.onclose then [.onclose] else []) ++ [.free]

/-- Calls of the incoming message callback by the loop, u_websocket.c:731–733. -/
def deliveries (k : Calls) (outs : List Out) : List Event :=
  if k.incoming then outs.filterMap (fun o => match o with | .deliver op rsv d => some (.deliver op rsv d) | _ => none) else []

/-- `zip` is one of the orders in which the events of two threads can happen. -/
inductive Mix {α : Type} : List α → List α → List α → Prop where
  | nil : Mix [] [] []
  | left {a b c x} : Mix a b c → Mix (x :: a) b (x :: c)
  | right {a b c x} : Mix a b c → Mix a (x :: b) (x :: c)

/-- `ulfius_thread_websocket` and `ulfius_thread_websocket_manager_run`, u_websocket.c:570–587, 660–819: without the thread of the manager
the loop does not run (670–672); the end comes after `pthread_join` (794–797). -/
inductive Thread (w : World) (k : Calls) (outs : List Out) : List Event → Prop where
  | alone : k.manager = false → Thread w k outs (deliveries k outs ++ ending k)
  | nothread : k.manager = true → w.manager = false → Thread w k outs (ending k)
  | both {t} : k.manager = true → w.manager = true → Mix [.managerStarts, .managerReturns] (deliveries k outs) t → Thread w k outs (t ++ ending k)

/-- Outcomes of a life: the events, or undefined behaviour. -/
inductive Life (w : World) (k : Calls) (status : Nat) (outs : List Out) : Answer.Hand → Res (List Event) → Prop where
  /-- refused or failed: ulfius.c:778–841 -/
  | refused (t) : Life w k status outs (.refused t) (.ok (ending k))
  | failed : Life w k status outs .failed (.ok (ending k))
  /-- no response for the upgrade, ulfius.c:752–754: the answer is `MHD_NO` and nothing else happens -/
  | noresponse (fs) : w.response = false → Life w k status outs (.accepted fs) (.ok [])
  /-- a header is refused, 770–773: the websocket is freed (835–840); the response is queued with the status of the application (1033), which
  libmicrohttpd refuses unless it is 101 -/
  | headers (fs) : w.response = true → w.headers = false → status ≠ 101 ∨ w.switches = false → Life w k status outs (.accepted fs) (.ok (ending k))
  /-- with the status 101 `ulfius_start_websocket_cb` gets the freed websocket -/
  | stale (fs) : w.response = true → w.headers = false → status = 101 → w.switches = true → Life w k status outs (.accepted fs) .ub
  /-- registered (775), but the connection is lost before -/
  | lost (fs) : w.response = true → w.headers = true → w.switches = false → Life w k status outs (.accepted fs) (.ok [])
  /-- no thread: `pthread_detach` reads an identifier that was not set, u_websocket.c:1219 -/
  | nothread (fs) : w.response = true → w.headers = true → w.switches = true → w.thread = false → Life w k status outs (.accepted fs) .ub
  | thread (fs) {t} : w.response = true → w.headers = true → w.switches = true → w.thread = true → Thread w k outs t →
      Life w k status outs (.accepted fs) (.ok t)

end Verif.WsServe
