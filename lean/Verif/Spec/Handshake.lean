import Verif.Spec.Client
import Verif.Spec.Routing
import Verif.Spec.Utf8
/-! # Specification of the WebSocket opening handshake -/
namespace Verif.Spec.Handshake
open Verif.Spec.Client Verif.Spec.Segments

/-- `xs` are the items of the comma-separated list `s`, without the blanks around them. -/
def Items (s : Bytes) (xs : List Bytes) : Prop :=
  xs.length = (pieces 0x2c s).length ∧
  ∀ (i : Nat) p x, (pieces 0x2c s)[i]? = some p → xs[i]? = some x → ∃ a b, p = a ++ x ++ b ∧ Blank a ∧ Blank b ∧ Trimmed x

/-- Two lists of items have one in common. -/
def Common (s m : Bytes) : Prop := ∃ xs ms x, Items s xs ∧ Items m ms ∧ x ∈ xs ∧ x ∈ ms

/-- The header `name` is present exactly once (in any case), with value `v`. -/
def Single (hs : List (Bytes × Option Bytes)) (name v : Bytes) : Prop :=
  ∃ a p b, hs = a ++ p :: b ∧ sameName p.1 name ∧ p.2.getD [] = v ∧ ∀ q ∈ a ++ b, ¬ sameName q.1 name

/-- The first header called `name` (in any case) has value `v`. -/
def First (hs : List (Bytes × Option Bytes)) (name v : Bytes) : Prop :=
  ∃ a p b, hs = a ++ p :: b ∧ sameName p.1 name ∧ p.2.getD [] = v ∧ ∀ q ∈ a, ¬ sameName q.1 name

/-- No header is called `name`. -/
def Absent (hs : List (Bytes × Option Bytes)) (name : Bytes) : Prop := ∀ q ∈ hs, ¬ sameName q.1 name

/-- `v` contains `w` in any case. -/
def Mentions (v w : Bytes) : Prop := ∃ a m b, v = a ++ m ++ b ∧ sameName m w

/-- A request to open a websocket. -/
structure Valid (hs : List (Bytes × Option Bytes)) (protocol verb : Option Bytes) : Prop where
  upgrade : ∃ v, Single hs b!"Upgrade" v ∧ Mentions v b!"websocket"
  connection : ∃ v, Single hs b!"Connection" v ∧ Mentions v b!"Upgrade"
  key : ∃ k, Single hs b!"Sec-WebSocket-Key" k
  version : Single hs b!"Sec-WebSocket-Version" b!"13"
  http : protocol = some b!"HTTP/1.1"
  get : verb = some b!"GET"

/-- A line the client can read: valid UTF-8 without CR and NUL, at most 4094 bytes. -/
structure ReadableLine (l : Bytes) : Prop where
  cr : (0x0d : UInt8) ∉ l
  nul : NoNul l
  utf8 : Spec.Utf8.IsUtf8 l
  short : l.length ≤ 4094

/-- Lines as sent on the wire. -/
def crlf (ls : List Bytes) : Bytes := (ls.map (fun l => l ++ b!"\r\n")).flatten

/-- The line is a header called `name`. -/
def HasName (l name : Bytes) : Prop := ∃ k v, l = k ++ 0x3a :: v ∧ (0x3a : UInt8) ∉ k ∧ sameName k name

end Verif.Spec.Handshake
