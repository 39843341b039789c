import Verif.Model.UMap
import Verif.Spec.MapList
/-!
# Model of the lists of a map, `src/u_map.c`

`u_map_enum_keys` and `u_map_enum_values` (u_map.c:112–118) give the array of the map itself, `u_map_clean_enum`
(u_map.c:98–110) frees the strings of an array and the array. A pointer to an array is the side and the number of the
block: the block changes when the array is reallocated or made anew.

Simplifications: `o_realloc` moves the block each time (it may); no allocation fails; a list is read while its strings
are looked at, the program keeps no pointer to a string of the list; `u_map_clean` comes once, at the end.
-/
namespace Verif.MapList
open Verif.UMap
open Verif.Spec.MapList (Side Act)
open Verif.Spec.OMap (Op)

/-- The map, the number of the blocks of its arrays, which array was freed behind its back, the lists asked for. -/
structure St where
  map : UMap
  block : Nat
  keysGone : Bool
  valuesGone : Bool
  taken : List (Side × Nat)
  deriving DecidableEq, Repr

/-- After `u_map_init`, u_map.c:43–73. -/
def start : St := { map := UMap.init, block := 0, keysGone := false, valuesGone := false, taken := [] }

/-- The values read by a caller of `u_map_enum_values`: each string up to its NUL, the array up to its NULL. -/
def valuesLoop : List (Ptr Buf) → Res (List Bytes)
  | [] => .ub
  | .null :: _ => .ok []
  | .dead :: _ => .ub
  | .to b :: t => do
    let s ← readStr b
    let r ← valuesLoop t
    return s :: r

/-- `u_map_enum_values`, u_map.c:116–118, as read by a caller. -/
def enumValues (m : UMap) : Res (List Bytes) := do
  let vs ← deref m.values
  valuesLoop vs

/-- The calls that change a map, u_map.c:147–263, 342–375, 528–535. -/
def call (m : UMap) : Op → Res (Rc × UMap)
  | .put k v => UMap.put m (some k) v
  | .removeKey k => UMap.removeKey m (some k)
  | .removeAt i => UMap.removeAt m i
  | .empty => UMap.empty m

/-- Does the call look at the array of the keys: the loop over `nb_values` (u_map.c:160–161, 252–253), the
`o_realloc` of a new key (u_map.c:203–204), the loops of `u_map_remove_at` (u_map.c:347–372) and of `u_map_clean`. -/
def usesKeys (m : UMap) : Op → Bool
  | .put k _ => k != []
  | .removeKey _ => m.nb != 0
  | .removeAt i => decide (i < m.nb)
  | .empty => true

/-- Does the call look at the array of the values (`rc`: what it answers): a put replaces a value or reallocates the
array (u_map.c:163–182, 215), a removal only when it finds something. -/
def usesValues (m : UMap) (rc : Rc) : Op → Bool
  | .put k _ => k != []
  | .removeKey _ => decide (rc = .ok)
  | .removeAt i => decide (i < m.nb)
  | .empty => true

/-- Are the arrays in new blocks afterwards: one more key (u_map.c:204, 215), one less (u_map.c:357–369), or
`u_map_init` again (u_map.c:528–535). -/
def moves (m m' : UMap) : Op → Bool
  | .empty => true
  | _ => m.nb != m'.nb

/-- Was the array freed. -/
def gone (s : St) : Side → Bool
  | .keys => s.keysGone
  | .values => s.valuesGone

/-- One act: what is read, the state after. -/
def act (s : St) : Act → Res (List (List Bytes) × St)
  | .change op => do
    let (rc, m') ← call s.map op
    if (s.keysGone && usesKeys s.map op) || (s.valuesGone && usesValues s.map rc op) then .ub
    else return ([], { s with map := m', block := if moves s.map m' op then s.block + 1 else s.block })
  | .take side => return ([], { s with taken := s.taken ++ [(side, s.block)] })
  | .read i =>
    match s.taken[i]? with
    | none => .ub
    | some (side, block) =>
      if block ≠ s.block ∨ gone s side = true then .ub
      else do
        let r ← (match side with | .keys => enumKeys s.map | .values => enumValues s.map)
        return ([r], s)
  | .free i =>
    match s.taken[i]? with
    | none => .ub
    | some (side, block) =>
      if block ≠ s.block ∨ gone s side = true then .ub
      else match side with
        | .keys => return ([], { s with keysGone := true })
        | .values => return ([], { s with valuesGone := true })

/-- `u_map_clean`, u_map.c:75–88: frees the strings and the two arrays. -/
def clean (s : St) : Res Unit :=
  if s.keysGone || s.valuesGone then .ub
  else do
    let _ ← UMap.empty s.map
    return ()

/-- The program, then `u_map_clean`. -/
def run (s : St) : List Act → Res (List (List Bytes))
  | [] => do
    let _ ← clean s
    return []
  | a :: t => do
    let (r, s') ← act s a
    let rest ← run s' t
    return r ++ rest

end Verif.MapList
