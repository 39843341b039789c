import Verif.Spec.Handshake
/-! # Specification of content codings (RFC 9110, 8.4 and 12.5.3) -/
namespace Verif.Spec.Coding
open Verif.Spec.Client Verif.Spec.Handshake

/-- The values of the header lines called Content-Encoding, in order; each is taken as the name of one coding. -/
def codings (hs : List (Bytes × Option Bytes)) : List Bytes :=
  hs.filterMap (fun p => if p.1.map toLower = (b!"Content-Encoding").map toLower then p.2 else none)

/-- What a client reads: the codings are undone, the one applied last first. `undo` decodes one coding. -/
def readBody (undo : Bytes → Bytes → Option Bytes) (hs : List (Bytes × Option Bytes)) (body : Bytes) : Option Bytes :=
  (codings hs).reverse.foldlM (fun b c => undo c b) body

/-- The client lists the coding, without a weight, in the one header Accept-Encoding it sends. -/
def Accepts (qs : List (Bytes × Option Bytes)) (coding : Bytes) : Prop :=
  ∃ v xs, Single qs b!"Accept-Encoding" v ∧ Items v xs ∧ coding ∈ xs

/-- The coding to use: gzip if it is allowed and accepted, else deflate if it is allowed and accepted. -/
def Wanted (gzip deflate : Prop) (qs : List (Bytes × Option Bytes)) (coding : Bytes) : Prop :=
  coding = b!"gzip" ∧ gzip ∧ Accepts qs b!"gzip" ∨
  coding = b!"deflate" ∧ deflate ∧ Accepts qs b!"deflate" ∧ ¬ (gzip ∧ Accepts qs b!"gzip")

end Verif.Spec.Coding
