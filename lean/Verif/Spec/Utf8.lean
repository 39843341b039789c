import Verif.Basic
/-!
# Specification of UTF-8 (independent of the C code)

`Char` is Lean's type of Unicode scalar values (0..0xD7FF, 0xE000..0x10FFFF) and
`String.utf8EncodeChar` the core library's UTF-8 encoding of one of them.
-/
namespace Verif.Spec.Utf8

/-- `s` is the UTF-8 encoding of some sequence of Unicode scalar values. -/
def IsUtf8 (s : Bytes) : Prop := ∃ cs : List Char, s = cs.flatMap String.utf8EncodeChar

/-- `s` begins with the encoding of a Unicode scalar value. -/
def StartsWithChar (s : Bytes) : Prop := ∃ (c : Char) (r : Bytes), s = String.utf8EncodeChar c ++ r

end Verif.Spec.Utf8
