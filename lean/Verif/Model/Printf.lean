import Verif.Basic
/-!
# The parts of `msprintf` / `mstrcatf` (Orcania) the code uses

`%s` prints a C string, and "(null)" for NULL (glibc). `%d`, `%ld`, `%zu` print decimal numbers. `%.*s` prints at most
the given number of bytes and stops at a NUL.
-/
namespace Verif.Printf

/-- Decimal digits, most significant first; the first argument bounds the number of steps. -/
def digits : Nat → Nat → Bytes
  | 0, n => [UInt8.ofNat (0x30 + n % 10)]
  | f + 1, n => if n < 10 then [UInt8.ofNat (0x30 + n % 10)] else digits f (n / 10) ++ [UInt8.ofNat (0x30 + n % 10)]

/-- `%zu`, `%lu`: decimal text of a number. -/
def decimal (n : Nat) : Bytes := digits n n

/-- `%d`, `%ld`. -/
def decimalInt : Int → Bytes
  | .ofNat n => decimal n
  | .negSucc n => 0x2d :: decimal (n + 1)

/-- `%s`. -/
def str : Option Bytes → Bytes
  | some s => s
  | none => b!"(null)"

/-- `%d` given an `unsigned int`: read as two's complement 32 bits. -/
def asInt (n : Nat) : Int := if n % 2 ^ 32 < 2 ^ 31 then (n % 2 ^ 32 : Nat) else (n % 2 ^ 32 : Nat) - 2 ^ 32

/-- `%.*s` with precision `n` on a buffer: `n` bytes or up to a NUL. -/
def precStr (n : Nat) (b : Bytes) : Bytes := (b.take n).takeWhile (· != 0)

/-- Reading a decimal number. -/
def ofDecimal (s : Bytes) : Nat := s.foldl (fun a c => 10 * a + (c.toNat - 0x30)) 0

theorem digits_spec : ∀ (f n : Nat), n ≤ f ∨ n < 10 →
    ofDecimal (digits f n) = n ∧ (∀ c ∈ digits f n, isDigit c = true) ∧ digits f n ≠ [] := by
  intro f
  have hb : ∀ k : Nat, k < 10 → (UInt8.ofNat (0x30 + k)).toNat - 0x30 = k ∧ isDigit (UInt8.ofNat (0x30 + k)) = true := by
    decide
  induction f with
  | zero =>
    intro n h
    have hn : n < 10 := by omega
    have hm : n % 10 = n := Nat.mod_eq_of_lt hn
    simp only [digits, ofDecimal, List.foldl_cons, List.foldl_nil, List.mem_singleton, forall_eq]
    rw [hm]
    exact ⟨by simpa using (hb n hn).1, (hb n hn).2, by simp⟩
  | succ f ih =>
    intro n h
    rw [digits]
    by_cases hn : n < 10
    · have hm : n % 10 = n := Nat.mod_eq_of_lt hn
      rw [if_pos hn]
      simp only [ofDecimal, List.foldl_cons, List.foldl_nil, List.mem_singleton, forall_eq]
      rw [hm]
      exact ⟨by simpa using (hb n hn).1, (hb n hn).2, by simp⟩
    · rw [if_neg hn]
      obtain ⟨h1, h2, _⟩ := ih (n / 10) (by omega)
      have hl := hb (n % 10) (Nat.mod_lt _ (by omega))
      refine ⟨?_, ?_, by simp⟩
      · unfold ofDecimal at h1 ⊢
        rw [List.foldl_append, h1, List.foldl_cons, List.foldl_nil, hl.1]
        omega
      · intro c hc
        rw [List.mem_append, List.mem_singleton] at hc
        rcases hc with hc | hc
        · exact h2 c hc
        · rw [hc]; exact hl.2

theorem ofDecimal_decimal (n : Nat) : ofDecimal (decimal n) = n := (digits_spec n n (.inl (Nat.le_refl _))).1
theorem decimal_digit (n : Nat) : ∀ c ∈ decimal n, isDigit c = true := (digits_spec n n (.inl (Nat.le_refl _))).2.1
theorem decimal_ne_nil (n : Nat) : decimal n ≠ [] := (digits_spec n n (.inl (Nat.le_refl _))).2.2

end Verif.Printf
