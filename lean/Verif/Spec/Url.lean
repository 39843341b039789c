import Verif.Basic
/-!
# Specification of percent-encoding (independent of the C code)
-/
namespace Verif.Spec.Url

/-- Value of a hexadecimal digit of either case. -/
def hexVal (c : UInt8) : Option Nat :=
  if 48 ≤ c.toNat ∧ c.toNat ≤ 57 then some (c.toNat - 48)
  else if 65 ≤ c.toNat ∧ c.toNat ≤ 70 then some (c.toNat - 55)
  else if 97 ≤ c.toNat ∧ c.toNat ≤ 102 then some (c.toNat - 87)
  else none

/-- `PctDecodes s t`: `s` is a well-formed `application/x-www-form-urlencoded` string that stands for the
bytes `t`. -/
inductive PctDecodes : Bytes → Bytes → Prop where
  | nil : PctDecodes [] []
  | plain (c : UInt8) (s t : Bytes) (h0 : c ≠ 0) (hp : c ≠ 0x25) (hs : c ≠ 0x2b) :
      PctDecodes s t → PctDecodes (c :: s) (c :: t)
  | plus (s t : Bytes) : PctDecodes s t → PctDecodes (0x2b :: s) (0x20 :: t)
  | pct (h l : UInt8) (v w : Nat) (s t : Bytes) (hv : hexVal h = some v) (hw : hexVal l = some w)
      (hz : 16 * v + w ≠ 0) :
      PctDecodes s t → PctDecodes (0x25 :: h :: l :: s) (UInt8.ofNat (16 * v + w) :: t)

/-- The characters an encoder may leave as they are. -/
def unreserved : Bytes :=
  b!"ABCDEFGHIJKLMNOPQRSTUVWXYZabcdefghijklmnopqrstuvwxyz0123456789$-_.!*'(),"

/-- The digits an encoder uses after a percent sign. -/
def upperHex : Bytes := b!"0123456789ABCDEF"

/-- Output language of an encoder: unreserved characters, `+`, and `%XX` with upper-case digits. -/
inductive WellEncoded : Bytes → Prop where
  | nil : WellEncoded []
  | lit (c : UInt8) (s : Bytes) (h : c ∈ unreserved) : WellEncoded s → WellEncoded (c :: s)
  | plus (s : Bytes) : WellEncoded s → WellEncoded (0x2b :: s)
  | pct (h l : UInt8) (s : Bytes) (hh : h ∈ upperHex) (hl : l ∈ upperHex) :
      WellEncoded s → WellEncoded (0x25 :: h :: l :: s)

end Verif.Spec.Url
