import Verif.Spec.Utf8
import Verif.Model.FileUpload
/-!
# What a program finds of a form

Apart from the model of the library: the values of a form are made of the blocks the library was handed.
-/
namespace Verif.Spec.OomForm
open Verif.Upload (Call)

/-- The block counts: its texts are UTF-8 if that is checked, and it does not begin behind the limit. -/
def Counts (check : Bool) (max : Nat) (c : Call) : Prop :=
  (check = true → Spec.Utf8.IsUtf8 c.key ∧ Spec.Utf8.IsUtf8 c.data ∧ ∀ fn, c.filename = some fn → Spec.Utf8.IsUtf8 fn) ∧
  (max = 0 ∨ c.off ≤ max)

/-- What of the block lies within the limit. -/
def within (max : Nat) (c : Call) : Bytes := if max = 0 then c.data else c.data.take (max - c.off)

/-- The value made of blocks: the first block of a further value (offset 0) is set off by a comma. -/
def joined (max : Nat) : Bytes → List Call → Bytes
  | v, [] => v
  | v, c :: t => joined max (if v ≠ [] ∧ c.off = 0 then v ++ b!"," ++ within max c else v ++ within max c) t

open Classical in
/-- The value of `k` in a form handed over as these blocks. -/
noncomputable def valueOf (check : Bool) (max : Nat) (k : Bytes) (cs : List Call) : Bytes :=
  joined max [] (cs.filter (fun c => decide (c.key = k ∧ Counts check max c)))

end Verif.Spec.OomForm
