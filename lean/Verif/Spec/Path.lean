import Verif.Spec.Segments
/-!
# Specification: paths of a file system without links
-/
namespace Verif.Spec.Path
open Verif.Spec.Segments

/-- The canonical path of a list of names. -/
def render : List Bytes → Bytes
  | [] => b!"/"
  | [n] => 0x2f :: n
  | n :: ns => 0x2f :: n ++ render ns

/-- Walk one name further: `.` stays, `..` goes up. -/
def walk (at_ : List Bytes) (n : Bytes) : List Bytes :=
  if n = b!"." then at_ else if n = b!".." then at_.dropLast else at_ ++ [n]

/-- Where a path leads. -/
def resolve (path : Bytes) : List Bytes := (segments path).foldl walk []

/-- A name in a directory. -/
def Name (n : Bytes) : Prop := n ≠ [] ∧ 0x2f ∉ n ∧ n ≠ b!"." ∧ n ≠ b!".."

/-- `r` is the canonical path of something in the directory `root`, or of the directory. -/
def Inside (root r : List Bytes) : Prop := ∃ more, r = root ++ more

end Verif.Spec.Path
