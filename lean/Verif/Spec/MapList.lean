import Verif.Spec.OMap
/-!
# Specification: lists of a map as the header documents them

"returns an array containing all the keys", "free an enum return by functions u_map_enum_keys or
u_map_enum_values" (include/ulfius.h:1272–1292): a list belongs to the caller. It shows the map as it was when the
list was asked for, and it may be freed.
-/
namespace Verif.Spec.MapList
open Verif.Spec.OMap

/-- The keys or the values. -/
inductive Side where
  | keys | values
  deriving DecidableEq, Repr

/-- What a program does with one map: change it, ask for a list, read the list asked for `i`-th, free it. -/
inductive Act where
  | change (op : Op)
  | take (s : Side)
  | read (i : Nat)
  | free (i : Nat)

/-- The list of an ideal map (the NULL value is shown as the empty string). -/
def shown (m : OMap) : Side → List Bytes
  | .keys => m.map (·.1)
  | .values => m.map (fun p => p.2.getD [])

/-- What the program sees: the lists it reads. -/
def run (m : OMap) (taken : List (List Bytes)) : List Act → List (List Bytes)
  | [] => []
  | .change op :: t => run (step m op).2 taken t
  | .take s :: t => run m (taken ++ [shown m s]) t
  | .read i :: t => taken.getD i [] :: run m taken t
  | .free _ :: t => run m taken t

/-- A change after which a list of this side still is the list of the map: the call is refused, or the list is one of
keys and the key is known. -/
def keeps (m : OMap) (s : Side) : Op → Bool
  | .put k _ => k == [] || (s == .keys && m.any (fun p => p.1 == k))
  | .removeKey k => !m.any (fun p => p.1 == k)
  | .removeAt i => decide (m.length ≤ i)
  | .empty => false

/-- A careful program: a list is read only while the map still has it, no list is freed. `fresh` says of every list
whether it still is one of the map. -/
def Careful (m : OMap) (fresh : List (Side × Bool)) : List Act → Prop
  | [] => True
  | .change op :: t => Careful (step m op).2 (fresh.map fun f => (f.1, f.2 && keeps m f.1 op)) t
  | .take s :: t => Careful m (fresh ++ [(s, true)]) t
  | .read i :: t => (∃ s, fresh[i]? = some (s, true)) ∧ Careful m fresh t
  | .free _ :: _ => False

end Verif.Spec.MapList
