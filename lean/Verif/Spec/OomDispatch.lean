import Verif.Spec.Routing
/-!
# Specification: who may be called for a request
-/
namespace Verif.Spec.OomDispatch
open Verif.Endpoint Verif.Spec.Routing

/-- The endpoint is for this method. -/
def Accepts (method : Bytes) (e : Endpoint) : Prop :=
  ∃ m, e.method = some m ∧ (Verif.fold m = Verif.fold method ∨ StartsWith 0x2a m)

/-- The same callback with the same user data and the same priority. -/
def SameCallback (e e' : Endpoint) : Prop := e'.callback = e.callback ∧ e'.userData = e.userData ∧ e'.priority = e.priority

/-- In the order of the priorities. -/
def InOrder (r : List Endpoint) : Prop := r.Pairwise (fun a b => a.priority ≤ b.priority)

/-- Those that are called when nothing is missing: all endpoints meant for the request, in the order of the priorities; the default endpoint if there is
none. -/
def Chosen (method url : Bytes) (l : List Endpoint) (dflt : Option Endpoint) (r : List Endpoint) : Prop :=
  (r ≠ [] ∧ InOrder r ∧ (∀ e ∈ r, Handles method url e) ∧ ∀ e, Handles method url e → r.count e = l.count e) ∨
  ((∀ e ∈ l, ¬ Handles method url e) ∧ ∃ d, dflt = some d ∧ r = [d])

end Verif.Spec.OomDispatch
