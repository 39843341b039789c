import Verif.Basic
/-!
# Specification: base64 (RFC 4648, section 4) and basic authentication (RFC 7617)

Independent of the model.
-/
namespace Verif.Spec.Base64

/-- Table 1. -/
def alphabet : Bytes := b!"ABCDEFGHIJKLMNOPQRSTUVWXYZabcdefghijklmnopqrstuvwxyz0123456789+/"

/-- The character of a value below 64. -/
def char (n : Nat) : UInt8 := alphabet.getD n 0

/-- The value of a character. -/
def value (c : UInt8) : Option Nat := alphabet.idxOf? c

/-- Three bytes are four characters; one or two bytes at the end are filled up with '='. -/
def encode : Bytes → Bytes
  | [] => []
  | [a] => [char (a.toNat / 4), char (a.toNat % 4 * 16), 0x3d, 0x3d]
  | [a, b] => [char (a.toNat / 4), char (a.toNat % 4 * 16 + b.toNat / 16), char (b.toNat % 16 * 4), 0x3d]
  | a :: b :: c :: t =>
    char (a.toNat / 4) :: char (a.toNat % 4 * 16 + b.toNat / 16) :: char (b.toNat % 16 * 4 + c.toNat / 64) :: char (c.toNat % 64) :: encode t

/-- Decoding, of the whole text. -/
def decode : Bytes → Option Bytes
  | [] => some []
  | w :: x :: y :: z :: t =>
    if y = 0x3d ∧ z = 0x3d ∧ t = [] then do
      let w ← value w
      let x ← value x
      some [UInt8.ofNat (w * 4 + x / 16)]
    else if z = 0x3d ∧ t = [] then do
      let w ← value w
      let x ← value x
      let y ← value y
      some [UInt8.ofNat (w * 4 + x / 16), UInt8.ofNat (x % 16 * 16 + y / 4)]
    else do
      let w ← value w
      let x ← value x
      let y ← value y
      let z ← value z
      let r ← decode t
      some (UInt8.ofNat (w * 4 + x / 16) :: UInt8.ofNat (x % 16 * 16 + y / 4) :: UInt8.ofNat (y % 4 * 64 + z) :: r)
  | _ => none

/-- RFC 4648, section 10. -/
example : encode b!"" = b!"" ∧ encode b!"f" = b!"Zg==" ∧ encode b!"fo" = b!"Zm8=" ∧ encode b!"foo" = b!"Zm9v" ∧
    encode b!"foob" = b!"Zm9vYg==" ∧ encode b!"fooba" = b!"Zm9vYmE=" ∧ encode b!"foobar" = b!"Zm9vYmFy" := by decide +kernel

/-- The value of an Authorization field for a user and a password (RFC 7617, section 2). -/
def basic (user password : Bytes) : Bytes := b!"Basic " ++ encode (user ++ b!":" ++ password)

/-- How a server reads the value of an Authorization field: the scheme "Basic", then base64 of the user, ':' and the password; the user
ends at the first ':'. -/
def readBasic (v : Bytes) : Option (Bytes × Bytes) :=
  if v.take 6 = b!"Basic " then
    match decode (v.drop 6) with
    | none => none
    | some s => if (0x3a : UInt8) ∈ s then some (s.takeWhile (· != 0x3a), (s.dropWhile (· != 0x3a)).drop 1) else none
  else none

/-- RFC 7617, section 2. -/
example : basic b!"Aladdin" b!"open sesame" = b!"Basic QWxhZGRpbjpvcGVuIHNlc2FtZQ==" ∧
    readBasic b!"Basic QWxhZGRpbjpvcGVuIHNlc2FtZQ==" = some (b!"Aladdin", b!"open sesame") := by decide +kernel

end Verif.Spec.Base64
