import Verif.Model.OomSend
/-!
# What is expected of the HTTP client when memory runs out

A call that answers `U_OK` has made the transfer it was asked for and filled the response with what was received; a call that does not has
made that transfer or none. A transfer whose URL cannot be one is none.
-/
namespace Verif.Spec.OomSend
open Verif.Spec.Curl (Opt)

/-- What a program sees of a call: its answer, the options of the transfer, the response, the blocks of its body. -/
structure Seen (R : Type) where
  ok : Bool
  transfer : Option (List Opt)
  response : R
  chunks : List Bytes

/-- No URL: NULL, or a text that starts with the separator of a parameter. libcurl refuses it (`CURLE_URL_MALFORMAT`). -/
def NoUrl : Option Bytes → Prop
  | none => True
  | some u => u.head? = some 0x3f ∨ u.head? = some 0x26

/-- The options of a transfer to nowhere. -/
def Nowhere (l : List Opt) : Prop := ∃ u, Opt.url u ∈ l ∧ NoUrl u

/-- What was seen (`got`), compared with the same call when memory suffices (`meant`). -/
structure Honest {R : Type} (meant got : Seen R) : Prop where
  /-- `U_OK` means that everything is as it would be with enough memory. -/
  done : got.ok = true → got = meant
  /-- Nothing else is sent. -/
  sent : ∀ l, got.transfer = some l → meant.transfer = some l ∨ Nowhere l

end Verif.Spec.OomSend

namespace Verif.OomSend
open Verif.Spec.OomSend
open Verif.Send (Curl Outcome)

/-- The allocations whose failure the code deals with, or which are not used. -/
def Covered : Place → Bool
  | .dupBlock | .dupOther | .dupUrl | .urlReplace | .urlKey | .urlValue | .urlCat | .formKey | .formValue | .formPut | .headerAppend
  | .protocol | .bodyPart | .bodyCopy => true
  | _ => false

/-- Only those fail. -/
def OnlyCovered (f : F) : Prop := ∀ p i, f p i = true → Covered p = true

/-- libcurl refuses a transfer to nowhere: nothing is received and the transfer fails. -/
def Refuses (c : Curl) : Prop := ∀ l, Nowhere l → (c.perform l).status = none ∧ (c.perform l).lines = [] ∧ (c.perform l).chunks = []

/-- What a program sees of an outcome. -/
def seen (o : Outcome) : Seen (Option Message.Response) := ⟨decide (o.code = .ok), o.performed, o.response, o.chunks⟩

end Verif.OomSend
