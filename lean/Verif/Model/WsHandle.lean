import Verif.Basic
/-! # Model: the handle of a websocket client

The pointer `websocket_client_handler->websocket` through the functions of u_websocket.c:2449–2839. The handler itself
is a valid object that starts as `{NULL, NULL}`, as in example_programs/websocket_example/websocket_client.c:120.
Allocations succeed. What the network and the peer do is a parameter of the calls. The races inside one call are the subject
of `Model/WaitClose.lean`. -/
namespace Verif.WsHandle

/-- `websocket_client_handler->websocket`. -/
inductive Ptr where
  | null
  /-- allocated, never connected -/
  | idle
  /-- connected, or disconnected by the peer and not cleared yet -/
  | live
  /-- points to freed memory -/
  | dead
deriving DecidableEq

/-- How `ulfius_open_websocket_client_connection` goes. -/
inductive Opening where
  /-- a parameter, the url or the scheme is refused, 2559–2562 -/
  | refused
  /-- connection, handshake or thread creation fails, 2607–2630 -/
  | failed
  | done
deriving DecidableEq

inductive Call where
  | addExtension
  | open (o : Opening)
  | sendCloseSignal
  | status
  | close
  /-- with what `ulfius_websocket_wait_close` returns for a live websocket: CLOSE or OPEN -/
  | waitClose (closed : Bool)
deriving DecidableEq

/-- `ulfius_add_websocket_client_extension_message_perform` with valid parameters, 2480–2523. -/
def addExtension : Ptr → Res Ptr
  | .null => .ok .idle
  | .idle => .ok .idle
  | .live => .ok .live
  | .dead => .ub

/-- `ulfius_open_websocket_client_connection`, 2535–2650: a failure clears the websocket (2609, 2615, 2627) and leaves the
pointer. -/
def openConnection (o : Opening) (p : Ptr) : Res Ptr :=
  match o with
  | .refused => .ok p
  | .failed => match p with
    | .dead => .ub
    | _ => .ok .dead
  | .done => match p with
    | .dead => .ub
    | _ => .ok .live

/-- `ulfius_websocket_client_connection_send_close_signal`, 2772–2778: the pointer is followed without a test. -/
def sendCloseSignal : Ptr → Res Ptr
  | .null => .ub
  | .dead => .ub
  | p => .ok p

/-- `ulfius_websocket_client_connection_status`, 2813–2819. -/
def status : Ptr → Res Ptr
  | .null => .ub
  | .dead => .ub
  | p => .ok p

/-- `ulfius_websocket_client_connection_close`, 2785–2806: the websocket is cleared, the pointer is kept. -/
def close : Ptr → Res Ptr
  | .null => .ok .null
  | .idle => .ok .dead
  | .live => .ok .dead
  | .dead => .ub

/-- `ulfius_websocket_client_connection_wait_close`, 2827–2839. -/
def waitClose (closed : Bool) : Ptr → Res Ptr
  | .null => .ub
  | .idle => .ok .null
  | .live => .ok (if closed then .null else .live)
  | .dead => .ub

def call : Call → Ptr → Res Ptr
  | .addExtension => addExtension
  | .open o => openConnection o
  | .sendCloseSignal => sendCloseSignal
  | .status => status
  | .close => close
  | .waitClose b => waitClose b

/-- The calls of a program, one after the other. -/
def run : List Call → Ptr → Res Ptr
  | [], p => .ok p
  | c :: r, p => do
      let p' ← call c p
      run r p'

end Verif.WsHandle
