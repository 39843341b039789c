import Verif.Spec.Handshake
import Verif.Spec.UrlParts
/-! # Specification: what a websocket client does with the URL it is given (RFC 6455, sections 3 and 4.1) -/
namespace Verif.Spec.WsOpen
open Verif.Spec.Client Verif.Spec.UrlParts

/-- The scheme of a connection without TLS (`http` is taken for `ws`). -/
def PlainScheme (scheme : Bytes) : Prop := sameName scheme b!"ws" ∨ sameName scheme b!"http"

/-- The scheme of a connection with TLS. -/
def SecureScheme (scheme : Bytes) : Prop := sameName scheme b!"wss" ∨ sameName scheme b!"https"

instance (s : Bytes) : Decidable (PlainScheme s) := inferInstanceAs (Decidable (_ ∨ _))

instance (s : Bytes) : Decidable (SecureScheme s) := inferInstanceAs (Decidable (_ ∨ _))

/-- The port of the URL; without one (or with 0) that of the scheme. -/
def portOf (p : Parts) : Nat :=
  let n := (p.port.map number).getD 0
  if n = 0 then (if PlainScheme p.scheme then 80 else 443) else n

/-- The target of the request. -/
def target (p : Parts) : Bytes := 0x2f :: p.path.getD [] ++ opt 0x3f p.query

/-- Two headers of the list have different names. -/
def Distinct (hs : List (Bytes × Option Bytes)) : Prop := hs.Pairwise (fun a b => ¬ sameName a.1 b.1)

instance (hs : List (Bytes × Option Bytes)) : Decidable (Distinct hs) := inferInstanceAs (Decidable (List.Pairwise _ _))

end Verif.Spec.WsOpen
