import Verif.Basic
/-!
# Model of the types a website compresses, `example_callbacks/static_compressed_inmemory_website/static_compressed_inmemory_website_callback.c:236–296, 378`

The fields `mime_types_compressed` and `mime_types_compressed_size` of the configuration. An array is its cells; a cell nobody has written to holds anything, and
reading it is undefined behaviour, as is reading behind the end.

Simplifications: the other fields are left out (the maps are in `Model/UMap`). `string_array_has_value` and `free_string_array` belong to orcania and are modelled from
its documentation: both go through the array up to the first NULL.
-/
namespace Verif.Types

/-- A cell of an array of strings. -/
inductive Cell where
  | unwritten
  | null
  | text (b : Bytes)
  deriving DecidableEq, Repr

/-- The fields, and the number of blocks nothing points to any more. -/
structure Config where
  array : Option (List Cell)
  size : Nat
  lost : Nat
  deriving DecidableEq, Repr

/-- `u_init_compressed_inmemory_website_config`, 246–247. -/
def init : Config := ⟨none, 0, 0⟩

/-- Which allocations succeed in a call: the `o_realloc` (283) and the `o_strdup` (284). -/
structure Mem where
  grow : Bool := true
  copy : Bool := true
  deriving DecidableEq, Repr

inductive Code where
  | ok | error | params
  deriving DecidableEq, Repr

/-- The blocks of an array: itself and its strings. -/
def blocks : Option (List Cell) → Nat
  | none => 0
  | some l => 1 + (l.filter (fun c => match c with | .text _ => true | _ => false)).length

/-- `o_realloc` of an array to `n` cells. -/
def resize (a : Option (List Cell)) (n : Nat) : List Cell :=
  let l := (a.getD []).take n
  l ++ List.replicate (n - l.length) .unwritten

/-- `u_add_mime_types_compressed`, 280–296. When the array cannot be made larger the pointer to it is overwritten with NULL. -/
def add (c : Config) (mem : Mem) (type : Option Bytes) : Code × Config :=
  match type with
  | none | some [] => (.params, c)
  | some t =>
    if mem.grow then
      let l := resize c.array (c.size + 2)
      let l := l.set c.size (if mem.copy then .text t else .null)
      let l := l.set (c.size + 1) .null
      (.ok, { c with array := some l, size := c.size + 1 })
    else (.error, { c with array := none, lost := c.lost + blocks c.array })

/-- The calls one after the other. -/
def addAll (c : Config) : List (Option Bytes × Mem) → List Code × Config
  | [] => ([], c)
  | (t, mem) :: r =>
    let a := add c mem t
    let b := addAll a.2 r
    (a.1 :: b.1, b.2)

/-- The strings up to the first NULL. -/
def strings : List Cell → Res (List Bytes)
  | [] => .ub
  | .unwritten :: _ => .ub
  | .null :: _ => .ok []
  | .text b :: t => do
    let r ← strings t
    return b :: r

/-- `string_array_has_value` up to the value: the cells are looked at one after the other until it is found. -/
def search (x : Bytes) : List Cell → Res Bool
  | [] => .ub
  | .unwritten :: _ => .ub
  | .null :: _ => .ok false
  | .text b :: t => if b = x then .ok true else search x t

/-- Whether a file of this type is compressed, 378. -/
def compresses (c : Config) (type : Bytes) : Res Bool :=
  match c.array with
  | none => .ok false
  | some l => search type l

/-- `u_clean_compressed_inmemory_website_config`, 269–278, `free_string_array` (275): the number of blocks that are never freed. -/
def clean (c : Config) : Res Nat :=
  match c.array with
  | none => .ok c.lost
  | some l => do
    let s ← strings l
    return c.lost + (blocks (some l) - (1 + s.length))

end Verif.Types
