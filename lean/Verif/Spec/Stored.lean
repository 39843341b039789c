import Verif.Basic
/-!
# Specification: DEFLATE streams of stored blocks (RFC 1951, 3.2.4)

A small decoder for streams whose blocks are all uncompressed, and an encoder that puts every byte in a block of its own. They
serve as an instance of zlib on which the properties of the websocket compression can be checked.
-/
namespace Verif.Spec.Stored

/-- Output so far, bytes of an unfinished block, stream ended. -/
structure Out where
  data : Bytes
  rest : Bytes
  done : Bool
  deriving DecidableEq, Repr

/-- Decode: three header bits (BFINAL, BTYPE) and padding in one byte, LEN and its complement NLEN, LEN bytes. What follows a
final block is not looked at. `none` on a bad block. -/
def decode : Nat → Bytes → Option Out
  | 0, s => some ⟨[], s, false⟩
  | fuel + 1, h :: l0 :: l1 :: n0 :: n1 :: t =>
    if h &&& 6 ≠ 0 then none                                   -- another block type
    else
      let len := l0.toNat + 256 * l1.toNat
      let nlen := n0.toNat + 256 * n1.toNat
      if len + nlen ≠ 65535 then none
      else if t.length < len then some ⟨[], h :: l0 :: l1 :: n0 :: n1 :: t, false⟩
      else if h &&& 1 = 1 then some ⟨t.take len, [], true⟩
      else match decode fuel (t.drop len) with
        | none => none
        | some o => some { o with data := t.take len ++ o.data }
  | _ + 1, s => some ⟨[], s, false⟩

/-- One block with one byte. -/
def block (b : UInt8) : Bytes := [0x00, 0x01, 0x00, 0xfe, 0xff, b]

/-- The empty block a flush ends with. -/
def marker : Bytes := [0x00, 0x00, 0x00, 0xff, 0xff]

end Verif.Spec.Stored
