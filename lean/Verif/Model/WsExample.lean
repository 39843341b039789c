import Verif.Model.WsServe
/-!
# Model of the user data of the websocket example, `example_programs/websocket_example/websocket_server.c:143–324`

Three endpoints. Two of them make a block of user data for each request (285, 299) and give it to the callbacks of the websocket; the onclose
callback frees it. The life of each websocket is one of `Model/WsServe`; the lives of the websockets of the server are interleaved.
`ulfius_set_websocket_response` cannot fail here: the protocol and the extensions are NULL and there is a callback (u_websocket.c:1845–1890).
Not modelled: the texts of the log (line 263 gives a `size_t` where `%.*s` takes an `int`), and the messages sent (`Model/WsService`).
-/
namespace Verif.WsExample
open Verif.WsServe

inductive Endpoint where
  /-- `callback_websocket`, 284–296 -/
  | messages
  /-- `callback_websocket_echo`, 298–311 -/
  | echo
  /-- `callback_websocket_file`, 313–324 -/
  | file
  deriving DecidableEq, Repr

/-- The callbacks given to `ulfius_set_websocket_response`, 290, 305, 318. -/
def calls : Endpoint → Calls
  | .messages => ⟨true, true, true⟩
  | .echo => ⟨false, true, true⟩
  | .file => ⟨true, true, true⟩

/-- The block of one request. -/
inductive Block where
  | null
  | live
  | freed
  deriving DecidableEq, Repr

/-- `o_strdup("my_user_data")`, 285, 299; `memory`: it succeeds. The file endpoint has no user data. -/
def start (memory : Bool) : Endpoint → Block
  | .messages => if memory then .live else .null
  | .echo => if memory then .live else .null
  | .file => .null

/-- `if (user_data != NULL) y_log_message("… %s", user_data)`. -/
def read : Block → Res Block
  | .null => .ok .null
  | .live => .ok .live
  | .freed => .ub

/-- `websocket_onclose_callback`, 143–152: read and freed. -/
def close : Block → Res Block
  | .null => .ok .null
  | .live => .ok .freed
  | .freed => .ub

/-- What an event of a websocket does with its block: `websocket_manager_callback` (167–172) and `websocket_incoming_message_callback`
(240–255) read it, `websocket_echo_message_callback` (257–267) and the functions of the file endpoint (154–161, 221–234, 269–279) do not. -/
def step : Endpoint → Block → Event → Res Block
  | .messages, b, .managerStarts => read b
  | .messages, b, .deliver _ _ _ => read b
  | .messages, b, .onclose => close b
  | .echo, b, .onclose => close b
  | _, b, _ => .ok b

/-- The server: websockets are numbered, each event is one of them. -/
def run (ep : Nat → Endpoint) : (Nat → Block) → List (Nat × Event) → Res (Nat → Block)
  | s, [] => .ok s
  | s, (i, e) :: t => do
    let b ← step (ep i) (s i) e
    run ep (fun j => if j = i then b else s j) t

/-- The events of one websocket. -/
def of (i : Nat) (t : List (Nat × Event)) : List Event := (t.filter (fun p => p.1 = i)).map (·.2)

end Verif.WsExample
