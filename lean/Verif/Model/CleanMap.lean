import Verif.Model.UMap
/-!
# Model of `u_map_clean` and of what may follow it, `src/u_map.c:32–96, 528–535`

`UMap.clean` is the map that is left: the arrays are NULL and `nb_values` is what it was (80–82). Here the walk over the arrays is there too
(73–76), so that cleaning a map that was cleaned has its effect. `u_map_init` succeeds.
-/
namespace Verif.CleanMap
open Verif.UMap

/-- `o_free(p)`: NULL is fine, a block that was freed is not. -/
def free {α : Type} : Ptr α → Res Unit
  | .dead => .ub
  | _ => .ok ()

/-- `for (i=0; i<nb_values; i++) { o_free(keys[i]); o_free(values[i]); }`, u_map.c:73–76; `n` is the number of turns left. -/
def walk (m : UMap) : (n i : Nat) → Res Unit
  | 0, _ => .ok ()
  | n + 1, i => do
    let ks ← deref m.keys
    let k ← aget ks i
    free k
    let vs ← deref m.values
    let v ← aget vs i
    free v
    walk m n (i + 1)

/-- `u_map_clean`, u_map.c:70–87. -/
def clean (m : UMap) : Res (Rc × UMap) := do
  walk m m.nb 0
  return (.ok, UMap.clean m)

/-- `u_map_empty`, u_map.c:528–535. -/
def empty (m : UMap) : Res (Rc × UMap) := do
  let (rc, _) ← clean m
  if rc = .ok then return (.ok, init) else return (rc, m)

end Verif.CleanMap
