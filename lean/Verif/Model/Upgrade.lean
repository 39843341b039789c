import Verif.Model.Handshake
/-!
# The answer that switches to the websocket

`ulfius_webservice_dispatcher`, src/ulfius.c:735–775. libmicrohttpd writes each field as `name: value`, adds `Connection: Upgrade`
and others of its own, and takes no field whose value is NULL or empty.
-/
namespace Verif.Handshake

/-- A field as it is sent. -/
def fieldLine (f : Bytes × Bytes) : Bytes := f.1 ++ b!": " ++ f.2

/-- `MHD_add_response_header (mhd_response, name, value)` for an optional value. -/
def addField (name : Bytes) : Option Bytes → List (Bytes × Bytes)
  | none => []
  | some v => if v = [] then [] else [(name, v)]

/-- The fields of the upgrade response, src/ulfius.c:753–769. -/
def upgradeFields (accept : Bytes) (protocol extension : Option Bytes) : List (Bytes × Bytes) :=
  [(b!"Upgrade", b!"websocket")] ++ addField b!"Sec-WebSocket-Accept" (some accept) ++
    addField b!"Sec-WebSocket-Protocol" protocol ++ addField b!"Sec-WebSocket-Extensions" extension

/-- `websocket_manager->protocol` and `->extensions` of the server, src/ulfius.c:738–748: they keep the values of
`ulfius_init_websocket_manager`, src/u_websocket.c:1767–1768. -/
def serverTexts : Answer → Option Bytes × Option Bytes := fun _ => (none, none)

end Verif.Handshake
