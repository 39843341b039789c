import Verif.Lemmas.Utf8
/-!
# C05–C06: UTF-8 validation
-/
namespace Verif.Props
open Verif.Utf8 Verif.Spec.Utf8

/-- **C05.** `utf8_check` returns NULL exactly on the UTF-8 encodings of sequences of Unicode scalar values. -/
theorem C05_utf8_exact (mem : Bytes) (len : Nat) (hl : len ≤ mem.length) :
    utf8Check mem len = .ok none ↔ IsUtf8 (mem.take len) := by
  rcases checkLoop_spec (len - 0) len 0 mem rfl (by omega) (by omega) with ⟨h1, h2⟩ | ⟨p, h1, h2, h3, h4⟩
  · exact ⟨fun _ => by simpa using h2, fun _ => h1⟩
  · constructor
    · intro h; rw [utf8Check, h1] at h; simp at h
    · intro h
      simp only [Nat.sub_zero, Nat.zero_add] at *
      exact absurd (startsWithChar_of_isUtf8 _ p h (by rw [List.take_take, Nat.min_eq_left (by omega)]; exact h3)
        (by simp; omega)) h4

/-- for a whole C string -/
theorem C05_utf8Ok (s : Bytes) : utf8Ok s = true ↔ IsUtf8 s := by
  have := C05_utf8_exact s s.length (Nat.le_refl _)
  simp only [List.take_length] at this
  simp [utf8Ok, this]

/-- boundary cases of both kinds: é, €, U+FFFF, U+10FFFF accepted; overlong, surrogate, U+110000 rejected -/
example : utf8Ok b!"aé€" = true ∧ utf8Ok [0xef, 0xbf, 0xbf] = true ∧ utf8Ok [0xf4, 0x8f, 0xbf, 0xbf] = true
    ∧ utf8Ok [0xc0, 0x80] = false ∧ utf8Ok [0xed, 0xa0, 0x80] = false ∧ utf8Ok [0xf4, 0x90, 0x80, 0x80] = false := by
  decide

/-- **C06.** On rejection the returned position splits the input: everything before it is valid UTF-8 and no
character starts there. The function never reads at or after `len` (the memory may be exactly `len` bytes long)
and always terminates with an answer. -/
theorem C06_utf8_position (mem : Bytes) (len : Nat) (hl : len ≤ mem.length) :
    utf8Check mem len ≠ .ub ∧
    ∀ p, utf8Check mem len = .ok (some p) →
      p < len ∧ IsUtf8 (mem.take p) ∧ ¬ StartsWithChar ((mem.take len).drop p) := by
  rcases checkLoop_spec (len - 0) len 0 mem rfl (by omega) (by omega) with ⟨h1, h2⟩ | ⟨p, h1, h2, h3, h4⟩
  · simp [utf8Check, h1]
  · refine ⟨by simp [utf8Check, h1], ?_⟩
    intro q hq
    rw [utf8Check, h1] at hq
    simp only [Res.ok.injEq, Option.some.injEq, Nat.zero_add] at hq
    subst hq
    simp only [Nat.sub_zero, Nat.zero_add] at *
    exact ⟨h2, h3, h4⟩

example : utf8Check [0x61, 0xe2, 0x82] 3 = .ok (some 1) ∧ 3 ≤ [0x61, 0xe2, (0x82 : UInt8)].length := by decide

end Verif.Props
