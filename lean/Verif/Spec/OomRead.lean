import Verif.Model.OomRead
/-!
# Specification: what may be missing in a request
-/
namespace Verif.Spec.OomRead
open Verif.OomRead

/-- Only the copy of the name or of the value of a pair fails, of a name that came in no pair before. -/
def OnlyCopies (f : Nat → Fail) (ps : List (Bytes × Option Bytes)) : Prop :=
  ∀ i, f i ≠ {} → (f i).join = false ∧ ((f i).put = some 0 ∨ (f i).put = some 1) ∧ ∀ p, ps[i]? = some p → ∀ q ∈ ps.take i, q.1 ≠ p.1

/-- C strings that fit in the address space even when their values are joined. -/
def Strings (ps : List (Bytes × Option Bytes)) : Prop :=
  (∀ p ∈ ps, NoNul p.1 ∧ ∀ v, p.2 = some v → NoNul v) ∧ (ps.map (fun p => (p.2.getD []).length + 1)).sum + 2 < 2 ^ 64

end Verif.Spec.OomRead
