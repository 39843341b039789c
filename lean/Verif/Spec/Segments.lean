import Verif.Basic
/-!
# Specification: fields of a string
-/
namespace Verif.Spec.Segments

/-- Cut a string at every occurrence of `d` (n occurrences give n+1 pieces, possibly empty). -/
def pieces (d : UInt8) : Bytes → List Bytes
  | [] => [[]]
  | c :: t =>
    if c = d then [] :: pieces d t
    else match pieces d t with
      | p :: ps => (c :: p) :: ps
      | [] => [[c]]

/-- The non-empty pieces. -/
def fields (d : UInt8) (s : Bytes) : List Bytes := (pieces d s).filter (fun p => !p.isEmpty)

/-- The segments of a URL path. -/
def segments (s : Bytes) : List Bytes := fields 0x2f s

end Verif.Spec.Segments
