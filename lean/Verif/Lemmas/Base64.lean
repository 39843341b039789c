import Verif.Spec.Base64
/-! # Lemmas on base64 -/
namespace Verif.Spec.Base64

theorem char_spec : ∀ n, n < 64 → value (char n) = some n ∧ char n ≠ 0x3d ∧ isSpace (char n) = false ∧ char n ≠ 0 := by decide +kernel

private theorem byte {a : UInt8} {n : Nat} (h : n = a.toNat) : UInt8.ofNat n = a := by
  rw [h, UInt8.ofNat_toNat]

theorem decode_encode : ∀ s : Bytes, decode (encode s) = some s
  | [] => rfl
  | [a] => by
    have ha := a.toNat_lt
    simp only [encode, decode]
    rw [if_pos (by simp), (char_spec _ (by omega)).1, (char_spec _ (by omega)).1]
    simp only [Option.bind_eq_bind, Option.bind_some]
    rw [byte (a := a) (by omega)]
  | [a, b] => by
    have ha := a.toNat_lt
    have hb := b.toNat_lt
    simp only [encode, decode]
    have h3 := (char_spec (b.toNat % 16 * 4) (by omega))
    rw [if_neg (fun h => h3.2.1 h.1), if_pos (by simp), (char_spec _ (by omega)).1, (char_spec _ (by omega)).1, h3.1]
    simp only [Option.bind_eq_bind, Option.bind_some]
    rw [byte (a := a) (by omega), byte (a := b) (by omega)]
  | a :: b :: c :: t => by
    have ha := a.toNat_lt
    have hb := b.toNat_lt
    have hc := c.toNat_lt
    simp only [encode, decode]
    have h3 := (char_spec (b.toNat % 16 * 4 + c.toNat / 64) (by omega))
    have h4 := (char_spec (c.toNat % 64) (by omega))
    rw [if_neg (fun h => h3.2.1 h.1), if_neg (fun h => h4.2.1 h.1), (char_spec _ (by omega)).1, (char_spec _ (by omega)).1, h3.1, h4.1,
      decode_encode t]
    simp only [Option.bind_eq_bind, Option.bind_some]
    rw [byte (a := a) (by omega), byte (a := b) (by omega), byte (a := c) (by omega)]

/-- The characters of the text. -/
theorem encode_mem : ∀ (s : Bytes) (c : UInt8), c ∈ encode s → c = 0x3d ∨ ∃ n, n < 64 ∧ c = char n
  | [], c, h => by cases h
  | [a], c, h => by
    have ha := a.toNat_lt
    simp only [encode, List.mem_cons, List.not_mem_nil, or_false] at h
    rcases h with h | h | h | h
    · exact .inr ⟨_, by omega, h⟩
    · exact .inr ⟨_, by omega, h⟩
    · exact .inl h
    · exact .inl h
  | [a, b], c, h => by
    have ha := a.toNat_lt
    have hb := b.toNat_lt
    simp only [encode, List.mem_cons, List.not_mem_nil, or_false] at h
    rcases h with h | h | h | h
    · exact .inr ⟨_, by omega, h⟩
    · exact .inr ⟨_, by omega, h⟩
    · exact .inr ⟨_, by omega, h⟩
    · exact .inl h
  | a :: b :: d :: t, c, h => by
    have ha := a.toNat_lt
    have hb := b.toNat_lt
    have hd := d.toNat_lt
    simp only [encode, List.mem_cons] at h
    rcases h with h | h | h | h | h
    · exact .inr ⟨_, by omega, h⟩
    · exact .inr ⟨_, by omega, h⟩
    · exact .inr ⟨_, by omega, h⟩
    · exact .inr ⟨_, by omega, h⟩
    · exact encode_mem t c h

theorem encode_plain (s : Bytes) : ∀ c ∈ encode s, isSpace c = false ∧ c ≠ 0 := by
  intro c h
  rcases encode_mem s c h with rfl | ⟨n, hn, rfl⟩
  · decide
  · exact (char_spec n hn).2.2

theorem encode_length : ∀ s : Bytes, (encode s).length = (s.length + 2) / 3 * 4
  | [] => rfl
  | [_] => by simp [encode]
  | [_, _] => by simp [encode]
  | a :: b :: c :: t => by
    simp only [encode, List.length_cons, encode_length t]
    omega

/-- What a server reads of a basic field, if the name of the user has no ':'. -/
theorem read_basic {user password : Bytes} (h : (0x3a : UInt8) ∉ user) : readBasic (basic user password) = some (user, password) := by
  unfold readBasic basic
  rw [show (b!"Basic " : Bytes) = [0x42, 0x61, 0x73, 0x69, 0x63, 0x20] from rfl, if_pos (by simp)]
  rw [show List.drop 6 ([0x42, 0x61, 0x73, 0x69, 0x63, 0x20] ++ encode (user ++ b!":" ++ password)) = encode (user ++ b!":" ++ password) from rfl,
    decode_encode]
  simp only
  have ht : ∀ c ∈ user, (c != 0x3a) = true := fun c hc => by simp; exact fun e => h (e ▸ hc)
  rw [show (b!":" : Bytes) = [0x3a] from rfl, if_pos (by simp), List.append_assoc, List.takeWhile_append_of_pos ht,
    List.dropWhile_append_of_pos ht]
  simp

end Verif.Spec.Base64
