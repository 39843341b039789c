import Verif.Spec.Segments
import Verif.Spec.UrlParts
/-!
# Specification: reading a Set-Cookie header, and cookies by key
-/
namespace Verif.Spec.Cookie
open Verif.Spec.Segments Verif.Spec.UrlParts

/-- Remove one leading space. -/
def unspace : Bytes → Bytes
  | 0x20 :: t => t
  | s => s

/-- Fields of a Set-Cookie value: cut at ';', each a name or a name=value (RFC 6265, 5.2, without trimming). -/
def parse (s : Bytes) : List (Bytes × Option Bytes) := (pieces 0x3b s).map (fun f => pair (unspace f))

/-- Cookie name and value. -/
def nameValue (s : Bytes) : Option (Bytes × Option Bytes) := (parse s).head?

/-- Attribute of the given name: `none` if absent, `some none` without value. -/
def attrOf (s name : Bytes) : Option (Option Bytes) := ((parse s).tail.find? (fun p => p.1 == name)).map (·.2)

/-- Keys in order of first occurrence. -/
def firsts : List Bytes → List Bytes
  | [] => []
  | k :: t => k :: (firsts t).filter (fun x => x ≠ k)

end Verif.Spec.Cookie
