import Verif.Model.Handshake
/-!
# Model of a client that waits for the answer to its handshake

`ulfius_get_next_line_from_http_response` (src/u_websocket.c:824–853) and the part of `ulfius_websocket_connection_handshake` that reads the answer
(916–960), one `poll` at a time. `Handshake.nextLine` takes the events as they come and stops with the last one; here a pass that brings nothing is a
step of its own, so that it can be said whether the waiting ends. No time limit is looked at: `request->timeout` is not used by this function, the
limit of `poll` (50 ms) only starts the next pass.

A failed `read` (-1) leaves `connected` alone, and the loop of 831–845 does not tell it from silence. With TLS, `gnutls_record_recv` may give 0 without
the connection being closed (the server said `close_notify`): that is silence too.
-/
namespace Verif.WsAwait
open Verif.Ws Verif.Handshake

/-- One pass of `read_data_from_socket` (136–159) for one byte: `is_websocket_data_available` (96–114), then `read`. -/
inductive Poll where
  /-- nothing within 50 ms -/
  | quiet
  /-- a byte -/
  | byte (c : UInt8)
  /-- `poll` reports data and `read` fails -/
  | again
  /-- `poll` fails or reports that the connection ended, whatever was not read yet -/
  | lost
  deriving DecidableEq, Repr

/-- How far the reading is. -/
inductive Where where
  /-- in the status line; the buffer -/
  | first (buf : Bytes)
  /-- 848: the connection was lost in the status line, one more `poll` comes -/
  | lostFirst
  /-- in a header line -/
  | head (seen : Seen) (buf : Bytes)
  /-- 848, in a header line -/
  | lostHead (seen : Seen)
  /-- 962: the answer was read, or given up; `none`: no status line -/
  | over (http : Option Int) (seen : Seen)

/-- The string in the buffer at the end of a line, 836–840; `none`: `U_ERROR`. -/
def lineIn (buf : Bytes) : Option Bytes :=
  if Utf8.utf8Ok buf.dropLast then some (cstr buf.dropLast) else none

/-- After the status line, 917–926. -/
def afterFirst (line : Option Bytes) : Where :=
  let http := line.bind statusLine
  if http = some 101 then .head {} [] else .over http {}

/-- After a header line, 928–959. -/
def afterHead (acceptOk : Bytes → Bool) (s : Seen) : Option Bytes → Res Where
  | none => .ok (.over (some 101) { s with broken := true })
  | some l => if l = [] then .ok (.over (some 101) s) else do
    let s ← headerLine acceptOk s l
    return .head s []

/-- One pass. -/
def step (acceptOk : Bytes → Bool) : Where → Poll → Res Where
  | .first buf, .byte c =>
    if buf.getLast? == some 0x0d && c == 0x0a then .ok (afterFirst (lineIn buf))
    else if buf.length + 1 < bufferLen then .ok (.first (buf ++ [c])) else .ok (afterFirst none)
  | .first buf, .lost => .ok (if buf.length + 1 < bufferLen then .lostFirst else afterFirst none)
  | .first buf, _ => .ok (.first buf)
  | .head s buf, .byte c =>
    if buf.getLast? == some 0x0d && c == 0x0a then afterHead acceptOk s (lineIn buf)
    else if buf.length + 1 < bufferLen then .ok (.head s (buf ++ [c])) else afterHead acceptOk s none
  | .head s buf, .lost => if buf.length + 1 < bufferLen then .ok (.lostHead s) else afterHead acceptOk s none
  | .head s buf, _ => .ok (.head s buf)
  | .lostFirst, _ => .ok (afterFirst none)
  | .lostHead s, _ => afterHead acceptOk s none
  | .over h s, _ => .ok (.over h s)

/-- Any number of passes. -/
def exec (acceptOk : Bytes → Bool) : Where → List Poll → Res Where
  | w, [] => .ok w
  | w, p :: t => do
    let w ← step acceptOk w p
    exec acceptOk w t

/-- The rest of `ulfius_websocket_connection_handshake`, 962–1043. -/
def conclude (keys : List Bytes) (es : List CliExt) (status0 : Int) (http : Option Int) (seen : Seen) : ClientResult :=
  if http.isNone || !someBit keys seen || http.getD status0 != 101 then
    { ok := false, isOpen := false, status := http.getD status0, seen, exts := es, rsv := 0 }
  else
    let n := cliNegotiate seen.extensions es
    { ok := n.2.2, isOpen := !seen.broken, status := http.getD status0, seen, exts := n.1, rsv := n.2.1 }

end Verif.WsAwait
