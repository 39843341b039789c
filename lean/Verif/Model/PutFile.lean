import Verif.Model.ReadFile
/-!
# Model of the map of files in `example_programs/test_u_map/test_u_map.c`

`put_file_content_in_map`, test_u_map.c:56–87: a file is read into memory as in Model/ReadFile, without a NUL, and stored under its name. The
simplifications are those of Model/ReadFile. `U_ERROR` and `U_ERROR_PARAMS` are results of this function alone.
-/
namespace Verif.PutFile
open Verif.UMap (UMap)
open Verif.ReadFile (File sizeT fread)

/-- Results of `put_file_content_in_map`: those of `u_map_put_binary`, or its own. -/
inductive Result where
  | map (rc : UMap.Rc)
  | error
  | params
  deriving DecidableEq, Repr

/-- `put_file_content_in_map(map, file_path, offset)`, test_u_map.c:56–87, on a map that is not NULL; `file`: what `fopen` gives. -/
def putFile (alloc : Nat → Bool) (m : UMap) (path : Bytes) (file : Option File) (offset : Nat) : Res (Result × UMap) :=
  match file with
  | none => .ok (.params, m)
  | some f =>
    let length := f.told
    if alloc (sizeT length) then do
      let b ← fread (List.replicate (sizeT length) none) (sizeT length) f.content
      let (rc, m) ← UMap.putBinary m (some path) (some b) offset (sizeT length)
      return (.map rc, m)
    else .ok (.error, m)

end Verif.PutFile
