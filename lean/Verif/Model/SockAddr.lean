import Verif.Model.Token
/-!
# Model: the address of the client

The address that libmicrohttpd reports is copied into the request (src/ulfius.c:530–535); `get_ip_source` of the iddawc callback
(example_callbacks/iddawc_jwt_profile/iddawc_resource.c:42–55) shows where a request came from.
-/
namespace Verif.SockAddr
open Verif.Message

/-- src/ulfius.c:526, 530–535: a block of `sizeof(struct sockaddr)` bytes, filled from the address of the connection. -/
def clientAddress (so : Bytes) : Res (Option Bytes) := copyAddress (some so)

/-- `inet_ntoa(in_source->sin_addr)`: the bytes 4 to 7 of the block, whatever its family. `ntoa` is `inet_ntoa`. -/
def shownAddress (ntoa : UInt8 → UInt8 → UInt8 → UInt8 → Bytes) : Bytes → Res Bytes
  | _ :: _ :: _ :: _ :: a :: b :: c :: d :: _ => .ok (ntoa a b c d)
  | _ => .ub

/-- `get_ip_source`, iddawc_resource.c:42–55. -/
def ipSource (ntoa : UInt8 → UInt8 → UInt8 → UInt8 → Bytes) (r : Request) : Res Bytes := do
  match ← Token.caseText r.mapHeader b!"X-Forwarded-For" with
  | some ip => .ok ip
  | none =>
    match r.clientAddress with
    | some a => shownAddress ntoa a
    | none => .ok b!"NOT_FOUND"

end Verif.SockAddr
