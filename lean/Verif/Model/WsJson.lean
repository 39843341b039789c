import Verif.Model.Frame
/-! # JSON messages over a websocket: `ulfius_websocket_send_json_message` and `ulfius_websocket_parse_json_message` -/
namespace Verif.Ws

/-- The functions of jansson that are used: `json_dumps(j, JSON_COMPACT)` (`none`: NULL) and `json_loadb` with `JSON_DECODE_ANY`
(`none`: NULL). `container`: the value is an object or an array. The library is not modelled; what is assumed of it stands in the
theorems. -/
structure Jansson (J : Type) where
  container : J → Bool
  dumps : J → Option Bytes
  loads : Bytes → Option J

/-- What a call that sends returns: `U_OK`, `U_ERROR_PARAMS` or another error. -/
inductive SendCode where
  | ok
  | params
  | error
  deriving DecidableEq, Repr

/-- `ulfius_websocket_send_message` for an opcode other than CLOSE, u_websocket.c:1593–1598 and 1507, 1581–1584: the code and the
frames. -/
def sendMessage (connected : Bool) (exts : List Ext) (op : UInt8) (mask : Option Bytes) (d : Bytes) :
    Res (SendCode × List (List (Option UInt8))) :=
  if connected then do
    match ← sendFragmented exts op mask d 0 with
    | none => return (.error, [])
    | some (frames, _) => return (.ok, frames)
  else .ok (.params, [])

/-- `ulfius_websocket_send_json_message`, u_websocket.c:1605–1620. The text is not checked: without one (`json_dumps` gave NULL)
`o_strlen` is 0 and a message without payload is sent. A manager that is NULL is not modelled. -/
def sendJson {J : Type} (L : Jansson J) (connected : Bool) (exts : List Ext) (mask : Option Bytes) (j : Option J) :
    Res (SendCode × List (List (Option UInt8))) :=
  match j with
  | some j => sendMessage connected exts 1 mask ((L.dumps j).getD [])
  | none => .ok (.params, [])

/-- `ulfius_websocket_parse_json_message`, u_websocket.c:1625–1631, for a message (opcode and payload) or NULL. -/
def parseJson {J : Type} (L : Jansson J) (m : Option (UInt8 × Bytes)) : Option J :=
  match m with
  | some (op, d) => if (op = 1 ∨ op = 2) ∧ d.length ≠ 0 then L.loads d else none
  | none => none

/-- Calls of `ulfius_websocket_send_json_message` one after the other on an open connection, each with the mask drawn for it: the
codes and all bytes given to the socket. -/
def sendJsons {J : Type} (L : Jansson J) (exts : List Ext) : List (Option Bytes × J) → Res (List SendCode × List (Option UInt8))
  | [] => .ok ([], [])
  | (mask, j) :: t => do
    let (c, fs) ← sendJson L true exts mask (some j)
    let (cs, bs) ← sendJsons L exts t
    return (c :: cs, fs.flatten ++ bs)

end Verif.Ws
