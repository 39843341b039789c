import Verif.Model.WsPair
/-!
# An endpoint whose callback for incoming messages sends messages

The connection of Model/WsPair.lean, where one end has a `websocket_incoming_message_callback` that answers, as `websocket_echo_message_callback`
(example_programs/websocket_example/websocket_server.c:257–267) does. The thread of the websocket runs the callback (u_websocket.c:739–741), so its loop
goes on only when the callback is done, while the peer and the other threads go on all the time. Simplified: the messages the callback sends depend
on the message, and on what the callback remembers, only; logging is left out.
-/
namespace Verif.WsService
open Verif.Ws Verif.WsPair

/-- A callback for incoming messages: what it remembers, and the messages it sends with `ulfius_websocket_send_message`, one after the other. -/
structure Service (σ : Type) where
  start : σ
  reply : σ → UInt8 → Bytes → σ × List (UInt8 × Bytes)

/-- The two ends, and the messages the callback has still to send. -/
structure Serving (σ : Type) where
  sys : Sys := {}
  todo : List (UInt8 × Bytes) := []
  state : σ

/-- Something happens, or the callback sends its next message with a mask drawn for it. -/
inductive Move where
  | act (a : Act)
  | answer (mask : Bytes)
  deriving DecidableEq, Repr

/-- The call of the callback, u_websocket.c:739–741. -/
def called {σ : Type} (svc : Service σ) (me : Bool) (v : Serving σ) : List Event → Serving σ
  | [] => v
  | .got w op d :: t =>
    if w = me then
      let r := svc.reply v.state op d
      called svc me { v with todo := v.todo ++ r.2, state := r.1 } t
    else called svc me v t
  | _ :: t => called svc me v t

/-- Is it a round of the loop of `me`? -/
def ownTurn (me : Bool) : Act → Bool
  | .turn w _ _ => w == me
  | _ => false

/-- One step; the loop of `me` waits while the callback runs. -/
def move {σ : Type} (exts : List Ext) (svc : Service σ) (me : Bool) (v : Serving σ) : Move → Res (Serving σ)
  | .answer k =>
    match v.todo with
    | [] => .ok v
    | (op, d) :: t => do
      let y ← step exts v.sys (.say me op d k)
      return { v with sys := y, todo := t }
  | .act a =>
    if ownTurn me a && v.todo != [] then .ok v
    else do
      let y ← step exts v.sys a
      return called svc me { v with sys := y } (y.log.drop v.sys.log.length)

def serve {σ : Type} (exts : List Ext) (svc : Service σ) (me : Bool) (v : Serving σ) : List Move → Res (Serving σ)
  | [] => .ok v
  | m :: t => do serve exts svc me (← move exts svc me v m) t

/-- `websocket_echo_message_callback`, websocket_server.c:257–267: the message goes back with its opcode. -/
def echo : Service Unit where
  start := ()
  reply := fun _ op d => ((), [(op, d)])

end Verif.WsService
