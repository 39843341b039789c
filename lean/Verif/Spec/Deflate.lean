import Verif.Spec.Handshake
import Verif.Model.Printf
/-! # Specification of the negotiation of permessage-deflate (RFC 7692, section 7.1)

Numbers are written with `Printf.decimal`. -/
namespace Verif.Spec.Deflate
open Verif.Spec.Client Verif.Spec.Segments Verif.Printf

/-- `p` is one of the parameters of the offer `item`: the text after the extension name is cut at `;`, blanks around are dropped. -/
def Offers (item p : Bytes) : Prop :=
  ∃ tail q a b, item = b!"permessage-deflate" ++ tail ∧ q ∈ pieces 0x3b tail ∧ q = a ++ p ++ b ∧ Blank a ∧ Blank b ∧ Trimmed p

/-- A parameter as the RFC writes it (or nothing). -/
inductive WellFormed : Bytes → Prop
  | nothing : WellFormed []
  | server : WellFormed b!"server_no_context_takeover"
  | client : WellFormed b!"client_no_context_takeover"
  | serverBits (n : Nat) (h : 8 ≤ n ∧ n ≤ 15) : WellFormed (b!"server_max_window_bits=" ++ decimal n)
  | clientBits (n : Nat) (h : 8 ≤ n ∧ n ≤ 15) : WellFormed (b!"client_max_window_bits=" ++ decimal n)
  | clientAny : WellFormed b!"client_max_window_bits"

/-- The text of an answer with the parameters `ps`. -/
def text (ps : List Bytes) : Bytes := b!"permessage-deflate" ++ (ps.map (fun p => b!"; " ++ p)).flatten

/-- `item` is the first offer of the extension in the list. -/
def FirstOffer (item : Bytes) (list : List Bytes) : Prop :=
  ∃ a b, list = a ++ item :: b ∧ ∀ x ∈ a, ¬ b!"permessage-deflate" <+: x

end Verif.Spec.Deflate
