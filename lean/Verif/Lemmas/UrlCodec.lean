import Verif.Model.UrlCodec
import Verif.Spec.Url
/-! Helper lemmas for the URL codec: the C loops compute list functions. -/
namespace Verif.UrlCodec

/-- What the encode loop writes for a NUL-free string. -/
def enc : Bytes → Bytes
  | [] => []
  | c :: s =>
    if safe c then c :: enc s
    else if c = 0x20 then 0x2b :: enc s
    else 0x25 :: toHex (c >>> 4) :: toHex (c &&& 15) :: enc s

/-- What the decode loop writes for a NUL-free string. -/
def dec : Bytes → Bytes
  | [] => []
  | c :: s =>
    if c = 0x25 then
      match s with
      | [] => []
      | h1 :: s1 => match s1 with
        | [] => dec (h1 :: [])
        | h2 :: s2 => ((fromHex h1 <<< 4) ||| fromHex h2) :: dec s2
    else if c = 0x2b then 0x20 :: dec s
    else c :: dec s

theorem enc_length (s : Bytes) : (enc s).length ≤ 3 * s.length := by
  induction s with
  | nil => simp [enc]
  | cons c s ih => simp only [enc]; split <;> (try split) <;> simp <;> omega

theorem dec_length (s : Bytes) : (dec s).length ≤ s.length := by
  fun_induction dec s <;> simp_all <;> omega

theorem NoNul.cons {c : UInt8} {s : Bytes} (h : NoNul (c :: s)) : c ≠ 0 ∧ NoNul s := by
  unfold NoNul at *; simp at h; exact ⟨fun e => h.1 e.symm, h.2⟩

theorem encodeLoop_eq (cap : Nat) (s out : Bytes) (hs : NoNul s)
    (hc : out.length + (enc s).length + 1 ≤ cap) :
    encodeLoop cap (s ++ [0]) out = .ok (out ++ enc s ++ [0]) := by
  induction s generalizing out with
  | nil => simp [encodeLoop, enc, write] at *; omega
  | cons c s ih =>
    obtain ⟨h0, hs⟩ := NoNul.cons hs
    simp only [List.cons_append, encodeLoop, h0, if_false, enc]
    simp only [enc] at hc
    by_cases h1 : safe c
    · simp only [h1, if_true, List.length_cons] at hc ⊢
      rw [write, if_pos (by omega)]
      simp only [Res.ok_bind]
      rw [ih _ hs (by simp; omega)]; simp
    · by_cases h2 : c = 0x20
      · have hs' := hs
        subst h2
        simp only [h1, Bool.false_eq_true, if_false, if_true, List.length_cons] at hc ⊢
        rw [write, if_pos (by omega)]
        simp only [Res.ok_bind]
        rw [ih _ hs' (by simp; omega)]; simp
      · simp only [h1, h2, Bool.false_eq_true, if_false, List.length_cons] at hc ⊢
        rw [write, if_pos (by omega)]
        simp only [Res.ok_bind]
        rw [write, if_pos (by simp; omega)]
        simp only [Res.ok_bind]
        rw [write, if_pos (by simp; omega)]
        simp only [Res.ok_bind]
        rw [ih _ hs (by simp; omega)]; simp

theorem decodeLoop_eq (cap : Nat) (s out : Bytes) (hs : NoNul s)
    (hc : out.length + (dec s).length + 1 ≤ cap) :
    decodeLoop cap (s ++ [0]) out = .ok (out ++ dec s ++ [0]) := by
  fun_induction dec s generalizing out with
  | case1 => simp [decodeLoop, write] at *; omega
  | case2 => simp [decodeLoop, write] at *; omega
  | case3 h1 ih =>
    obtain ⟨h0, hs⟩ := NoNul.cons hs
    obtain ⟨h0', _⟩ := NoNul.cons hs
    have := ih out hs hc
    simp [decodeLoop, h0'] at this ⊢
    exact this
  | case4 h1 h2 s2 ih =>
    obtain ⟨h0, hs⟩ := NoNul.cons hs
    obtain ⟨h1', hs⟩ := NoNul.cons hs
    obtain ⟨h2', hs⟩ := NoNul.cons hs
    simp only [List.length_cons] at hc
    simp [decodeLoop, h1', h2']
    rw [write, if_pos (by omega)]
    simp only [Res.ok_bind]
    rw [ih _ hs (by simp; omega)]; simp
  | case5 s h ih =>
    obtain ⟨h0, hs⟩ := NoNul.cons hs
    simp only [List.length_cons] at hc
    rw [List.cons_append, decodeLoop.eq_def]
    simp only [show ¬ ((43 : UInt8) = 0) by decide, h, if_false, if_true]
    rw [write, if_pos (by omega)]
    simp only [Res.ok_bind]
    rw [ih _ hs (by simp; omega)]; simp
  | case6 c s h1 h2 ih =>
    obtain ⟨h0, hs⟩ := NoNul.cons hs
    simp only [List.length_cons] at hc
    rw [List.cons_append, decodeLoop.eq_def]
    simp only [h0, h1, h2, if_false]
    rw [write, if_pos (by omega)]
    simp only [Res.ok_bind]
    rw [ih _ hs (by simp; omega)]; simp

theorem urlEncodeBuf_eq (s : Bytes) (hs : NoNul s) : urlEncodeBuf s = .ok (enc s ++ [0]) := by
  have := enc_length s
  rw [urlEncodeBuf, encodeLoop_eq _ _ _ hs (by simp; omega)]; simp

theorem urlDecodeBuf_eq (s : Bytes) (hs : NoNul s) : urlDecodeBuf s = .ok (dec s ++ [0]) := by
  have := dec_length s
  rw [urlDecodeBuf, decodeLoop_eq _ _ _ hs (by simp; omega)]; simp

theorem cstr_append_nul (s t : Bytes) (h : NoNul s) : cstr (s ++ 0 :: t) = s := by
  induction s with
  | nil => simp [cstr]
  | cons c s ih =>
    obtain ⟨h0, hs⟩ := NoNul.cons h
    have := ih hs
    simp only [cstr] at this ⊢
    rw [List.cons_append, List.takeWhile_cons, if_pos (by simpa using h0), this]

theorem cstr_noNul (s : Bytes) : NoNul (cstr s) := by
  unfold NoNul cstr
  intro h
  have := List.all_takeWhile (p := (· != (0 : UInt8))) (l := s)
  rw [List.all_eq_true] at this
  simpa using this 0 h

theorem cstr_length (s : Bytes) : (cstr s).length ≤ s.length := by
  unfold cstr
  exact (List.takeWhile_prefix _).length_le

set_option maxRecDepth 4000 in
theorem nibbles (c : UInt8) : (fromHex (toHex (c >>> 4)) <<< 4) ||| fromHex (toHex (c &&& 15)) = c := by
  revert c; apply forall_byte; decide +kernel

theorem safe_ne (c : UInt8) (h : safe c = true) : c ≠ 0x25 ∧ c ≠ 0x2b ∧ c ≠ 0 := by
  revert c; apply forall_byte; decide +kernel

theorem toHex_ne_zero (c : UInt8) : toHex c ≠ 0 := by
  revert c; apply forall_byte; decide +kernel

theorem enc_noNul (s : Bytes) (hs : NoNul s) : NoNul (enc s) := by
  induction s with
  | nil => simp [enc, NoNul]
  | cons c s ih =>
    obtain ⟨h0, hs⟩ := NoNul.cons hs
    have ih := ih hs
    have h1 := toHex_ne_zero (c >>> 4)
    have h2 := toHex_ne_zero (c &&& 15)
    unfold NoNul at *
    simp only [enc]
    split
    · simp [ih, Ne.symm h0]
    · split <;> simp [ih, h1.symm, h2.symm]

theorem dec_enc (s : Bytes) : dec (enc s) = s := by
  induction s with
  | nil => simp [enc, dec]
  | cons c s ih =>
    simp only [enc]
    split
    · next h =>
      obtain ⟨h1, h2, _⟩ := safe_ne c h
      rw [dec.eq_def]; simp [h1, h2, ih]
    · split
      · next h => subst h; rw [dec.eq_def]; simp [ih]
      · simp [dec, ih, nibbles]


open Verif.Spec.Url in
set_option maxRecDepth 4000 in
theorem hex_pair : ∀ a : Fin 256, ∀ v, hexVal (UInt8.ofNat a.val) = some v →
    v < 16 ∧ fromHex (UInt8.ofNat a.val) = UInt8.ofNat v ∧ UInt8.ofNat a.val ≠ 0 := by
  have h : ∀ a : Fin 256, (match hexVal (UInt8.ofNat a.val) with
    | some v => decide (v < 16 ∧ fromHex (UInt8.ofNat a.val) = UInt8.ofNat v ∧ UInt8.ofNat a.val ≠ 0)
    | none => true) = true := by decide +kernel
  intro a v hv
  have := h a
  rw [hv] at this
  simpa using this

open Verif.Spec.Url in
theorem fromHex_hexVal (c : UInt8) (v : Nat) (h : hexVal c = some v) :
    v < 16 ∧ fromHex c = UInt8.ofNat v ∧ c ≠ 0 := by
  have := hex_pair ⟨c.toNat, c.toNat_lt⟩ v (by simpa using h)
  simpa using this

theorem shift_or_nibbles (v w : Nat) (hv : v < 16) (hw : w < 16) :
    (UInt8.ofNat v <<< 4) ||| UInt8.ofNat w = UInt8.ofNat (16 * v + w) := by
  have h : ∀ v w : Fin 16, (UInt8.ofNat v.val <<< 4) ||| UInt8.ofNat w.val
      = UInt8.ofNat (16 * v.val + w.val) := by decide +kernel
  exact h ⟨v, hv⟩ ⟨w, hw⟩

open Verif.Spec.Url in
/-- `dec` follows the decoding relation. -/
theorem dec_of_pctDecodes {s t : Bytes} (h : PctDecodes s t) : NoNul s ∧ NoNul t ∧ dec s = t := by
  induction h with
  | nil => simp [dec, NoNul]
  | plain c s t h0 hp hs _ ih =>
    obtain ⟨i1, i2, i3⟩ := ih
    refine ⟨?_, ?_, ?_⟩
    · unfold NoNul at *; simp [i1, h0.symm]
    · unfold NoNul at *; simp [i2, h0.symm]
    · rw [dec.eq_def]; simp [hp, hs, i3]
  | plus s t _ ih =>
    obtain ⟨i1, i2, i3⟩ := ih
    refine ⟨?_, ?_, ?_⟩
    · unfold NoNul at *; simp [i1]
    · unfold NoNul at *; simp [i2]
    · rw [dec.eq_def]; simp [i3]
  | pct h l v w s t hv hw hz _ ih =>
    obtain ⟨i1, i2, i3⟩ := ih
    obtain ⟨a1, a2, a3⟩ := fromHex_hexVal h v hv
    obtain ⟨b1, b2, b3⟩ := fromHex_hexVal l w hw
    refine ⟨?_, ?_, ?_⟩
    · unfold NoNul at *; simp [i1, a3.symm, b3.symm]
    · unfold NoNul at *
      simp only [List.mem_cons, not_or]
      refine ⟨?_, i2⟩
      intro e
      have e := congrArg UInt8.toNat e
      simp at e; omega
    · simp [dec, i3, a2, b2, shift_or_nibbles v w a1 b1]

theorem toHex_mem (c : UInt8) : toHex c ∈ Verif.Spec.Url.upperHex := by
  revert c; apply forall_byte; decide +kernel

theorem safe_mem (c : UInt8) : safe c = true ↔ c ∈ Verif.Spec.Url.unreserved := by
  revert c; apply forall_byte; decide +kernel

theorem wellEncoded_enc (s : Bytes) : Verif.Spec.Url.WellEncoded (enc s) := by
  induction s with
  | nil => exact .nil
  | cons c s ih =>
    simp only [enc]
    split
    · next h => exact .lit c _ ((safe_mem c).1 h) ih
    · split
      · exact .plus _ ih
      · exact .pct _ _ _ (toHex_mem _) (toHex_mem _) ih

end Verif.UrlCodec
