import Verif.Spec.Mail
/-!
# What is expected of sending mail when memory runs out

A mail is sent as it was asked for or not at all, and `U_OK` is answered only if it was sent. Independent of the model.
-/
namespace Verif.Spec.OomMail
open Verif.Spec.Mail

/-- `meant`: the answer and the options of the call with memory enough, `got`: those of the call when some allocations fail. -/
structure Honest (meant got : Bool × Option (List Opt)) : Prop where
  done : got.1 = true → got = meant
  sent : ∀ l, got.2 = some l → ∃ l', meant.2 = some l' ∧ mailOf l = mailOf l'

/-- The same mail but for its text. -/
def SameEnvelope (a b : Mail) : Prop := { a with text := none } = { b with text := none }

end Verif.Spec.OomMail
