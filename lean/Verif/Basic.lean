/-!
# Shared vocabulary of the model

* `Bytes`: memory contents / C strings.
* `Res`: outcome of a piece of C code, with undefined behaviour as a distinct value.
* `b!"..."`: byte-list literal.
* ctype functions of the "C" locale.
-/
namespace Verif

/-- A block of bytes. A C string is such a block without the NUL terminator. -/
abbrev Bytes := List UInt8

/-- Result of running C code: a value, or undefined behaviour (out-of-bounds access, NULL
dereference, use after free, read of uninitialised memory). -/
inductive Res (α : Type) where
  | ok (a : α)
  | ub
  deriving DecidableEq, Repr

namespace Res
/-- Sequencing: undefined behaviour is absorbing. -/
def bind {α β : Type} (x : Res α) (f : α → Res β) : Res β :=
  match x with
  | ok a => f a
  | ub => ub

instance : Monad Res where
  pure := ok
  bind := bind

@[simp] theorem pure_eq {α : Type} (a : α) : (pure a : Res α) = ok a := rfl
@[simp] theorem ok_bind {α β : Type} (a : α) (f : α → Res β) : (ok a >>= f) = f a := rfl
@[simp] theorem ub_bind {α β : Type} (f : α → Res β) : ((ub : Res α) >>= f) = ub := rfl
@[simp] theorem ok_bind' {α β : Type} (a : α) (f : α → Res β) : (ok a).bind f = f a := rfl
@[simp] theorem ub_bind' {α β : Type} (f : α → Res β) : (ub : Res α).bind f = ub := rfl
end Res

/-- A byte string that can be the content of a C string. -/
def NoNul (s : Bytes) : Prop := (0 : UInt8) ∉ s

instance (s : Bytes) : Decidable (NoNul s) := by unfold NoNul; infer_instance

/-- What C code sees when it reads a buffer as a C string: the bytes before the first NUL. -/
def cstr (s : Bytes) : Bytes := s.takeWhile (· != 0)

/-- Byte-list literal: `b!"ab"` is `[97, 98]`. -/
macro:max "b!" s:str : term => do
  let mut ts : Array (Lean.TSyntax `term) := #[]
  for b in s.getString.toUTF8.toList do
    ts := ts.push (Lean.Syntax.mkNumLit (toString b.toNat))
  `(([$ts,*] : Verif.Bytes))

/-- `isdigit` (C locale). -/
def isDigit (c : UInt8) : Bool := 0x30 ≤ c && c ≤ 0x39
/-- `isupper` (C locale). -/
def isUpper (c : UInt8) : Bool := 0x41 ≤ c && c ≤ 0x5a
/-- `islower` (C locale). -/
def isLower (c : UInt8) : Bool := 0x61 ≤ c && c ≤ 0x7a
/-- `isalnum` (C locale); bytes ≥ 0x80 are not alphanumeric. -/
def isAlnum (c : UInt8) : Bool := isDigit c || isUpper c || isLower c
/-- `tolower` (C locale). -/
def toLower (c : UInt8) : UInt8 := if isUpper c then c + 0x20 else c

/-- `isspace` (C locale). -/
def isSpace (c : UInt8) : Bool := c == 0x20 || (0x09 ≤ c && c ≤ 0x0d)

/-- ASCII case folding of a string. -/
def fold (s : Bytes) : Bytes := s.map toLower

/-- `o_strcasecmp(a, b) == 0` on two non-NULL strings (orcania; libc `strcasecmp`, C locale). -/
def eqCase (a b : Bytes) : Bool := fold a == fold b

/-- To prove something about every byte, check the 256 bytes. -/
theorem forall_byte {P : UInt8 → Prop} (h : ∀ n : Fin 256, P (UInt8.ofNat n.val)) (b : UInt8) : P b := by
  have := h ⟨b.toNat, b.toNat_lt⟩
  simpa using this

end Verif
