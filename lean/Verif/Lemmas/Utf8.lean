import Verif.Model.Utf8
import Verif.Spec.Utf8
/-! Helper lemmas for `utf8_check`. -/
namespace Verif.Utf8
open Verif.Spec.Utf8

def cont (b : UInt8) : Prop := 128 ≤ b.toNat ∧ b.toNat < 192
instance (b : UInt8) : Decidable (cont b) := by unfold cont; infer_instance

/-- Length of the valid character at the head of `s`, 0 if there is none; conditions on numbers. -/
def headLen : Bytes → Nat
  | [] => 0
  | b0 :: t =>
    if b0.toNat < 128 then 1
    else if b0.toNat < 192 then 0
    else if b0.toNat < 224 then
      match t with
      | b1 :: _ => if cont b1 ∧ 194 ≤ b0.toNat then 2 else 0
      | _ => 0
    else if b0.toNat < 240 then
      match t with
      | b1 :: b2 :: _ =>
        if cont b1 ∧ cont b2 ∧ (b0.toNat = 224 → 160 ≤ b1.toNat) ∧ (b0.toNat = 237 → b1.toNat < 160) then 3 else 0
      | _ => 0
    else if b0.toNat < 248 then
      match t with
      | b1 :: b2 :: b3 :: _ =>
        if cont b1 ∧ cont b2 ∧ cont b3 ∧ (b0.toNat = 240 → 144 ≤ b1.toNat) ∧ (b0.toNat = 244 → b1.toNat < 144)
          ∧ b0.toNat ≤ 244 then 4 else 0
      | _ => 0
    else 0

section masks
theorem m80 (b : UInt8) : (b < 0x80) ↔ b.toNat < 128 := by
  revert b; apply forall_byte; decide +kernel
theorem mc0 (b : UInt8) : ((b &&& 0xc0) != 0x80) = true ↔ ¬ cont b := by
  revert b; apply forall_byte; decide +kernel
theorem me0 (b : UInt8) : ((b &&& 0xe0) == 0xc0) = true ↔ 192 ≤ b.toNat ∧ b.toNat < 224 := by
  revert b; apply forall_byte; decide +kernel
theorem mf0 (b : UInt8) : ((b &&& 0xf0) == 0xe0) = true ↔ 224 ≤ b.toNat ∧ b.toNat < 240 := by
  revert b; apply forall_byte; decide +kernel
theorem mf8 (b : UInt8) : ((b &&& 0xf8) == 0xf0) = true ↔ 240 ≤ b.toNat ∧ b.toNat < 248 := by
  revert b; apply forall_byte; decide +kernel
theorem mfe (b : UInt8) : ((b &&& 0xfe) == 0xc0) = true ↔ 192 ≤ b.toNat ∧ b.toNat < 194 := by
  revert b; apply forall_byte; decide +kernel
theorem me080 (b : UInt8) : ((b &&& 0xe0) == 0x80) = true ↔ 128 ≤ b.toNat ∧ b.toNat < 160 := by
  revert b; apply forall_byte; decide +kernel
theorem me0a0 (b : UInt8) : ((b &&& 0xe0) == 0xa0) = true ↔ 160 ≤ b.toNat ∧ b.toNat < 192 := by
  revert b; apply forall_byte; decide +kernel
theorem mf080 (b : UInt8) : ((b &&& 0xf0) == 0x80) = true ↔ 128 ≤ b.toNat ∧ b.toNat < 144 := by
  revert b; apply forall_byte; decide +kernel
theorem hack (b : UInt8) : ((b &&& 0xfe) == 0xbe && b != 0xbf && b != 0xbe) = false := by
  revert b; apply forall_byte; decide +kernel
theorem gt8f (b : UInt8) : b > 0x8f ↔ 144 ≤ b.toNat := by
  revert b; apply forall_byte; decide +kernel
theorem gtf4 (b : UInt8) : b > 0xf4 ↔ 245 ≤ b.toNat := by
  revert b; apply forall_byte; decide +kernel
theorem eqn (b c : UInt8) : (b == c) = true ↔ b.toNat = c.toNat := by
  simp [UInt8.toNat_inj]
end masks

theorem cond2 (s0 s1 : UInt8) (h : 192 ≤ s0.toNat) :
    ((s1 &&& 0xc0) != 0x80 || (s0 &&& 0xfe) == 0xc0) = true ↔ ¬ (cont s1 ∧ 194 ≤ s0.toNat) := by
  simp only [Bool.or_eq_true, mc0, mfe, cont]; omega

theorem cond3 (s0 s1 s2 : UInt8) (h : cont s1) :
    ((s2 &&& 0xc0) != 0x80
      || (s0 == 0xe0 && (s1 &&& 0xe0) == 0x80)
      || (s0 == 0xed && (s1 &&& 0xe0) == 0xa0)
      || (s0 == 0xef && s1 == 0xbf && (s2 &&& 0xfe) == 0xbe && s2 != 0xbf && s2 != 0xbe)) = true ↔
    ¬ (cont s1 ∧ cont s2 ∧ (s0.toNat = 224 → 160 ≤ s1.toNat) ∧ (s0.toNat = 237 → s1.toNat < 160)) := by
  have hh : (s0 == 0xef && s1 == 0xbf && (s2 &&& 0xfe) == 0xbe && s2 != 0xbf && s2 != 0xbe) = false := by
    have := hack s2
    generalize ((s2 &&& 0xfe) == 0xbe) = a at *
    generalize (s2 != 0xbf) = b at *
    generalize (s2 != 0xbe) = c at *
    generalize (s0 == 0xef) = d at *
    generalize (s1 == 0xbf) = e at *
    revert a b c d e; decide
  rw [hh, Bool.or_false]
  simp only [Bool.or_eq_true, Bool.and_eq_true, mc0, me080, me0a0]
  simp only [eqn, UInt8.reduceToNat, cont] at *
  omega

theorem cond4 (s0 s1 s2 s3 : UInt8) (h1 : cont s1) (h2 : cont s2) :
    ((s3 &&& 0xc0) != 0x80
      || (s0 == 0xf0 && (s1 &&& 0xf0) == 0x80)
      || (s0 == 0xf4 && s1 > 0x8f) || s0 > 0xf4) = true ↔
    ¬ (cont s1 ∧ cont s2 ∧ cont s3 ∧ (s0.toNat = 240 → 144 ≤ s1.toNat) ∧ (s0.toNat = 244 → s1.toNat < 144)
      ∧ s0.toNat ≤ 244) := by
  simp only [Bool.or_eq_true, Bool.and_eq_true, mc0, mf080, decide_eq_true_eq, gt8f, gtf4]
  simp only [eqn, UInt8.reduceToNat, cont] at *
  omega

/-- One turn of the loop. -/
theorem checkLoop_step (len i : Nat) (s : Bytes) (hi : i < len) (hl : len ≤ i + s.length) :
    checkLoop len i s =
      if headLen (s.take (len - i)) = 0 then .ok (some i)
      else checkLoop len (i + headLen (s.take (len - i))) (s.drop (headLen (s.take (len - i)))) := by
  match s, hl with
  | [], hl => simp at hl; omega
  | s0 :: t, hl =>
    obtain ⟨n, hn⟩ : ∃ n, len - i = n + 1 := ⟨len - i - 1, by omega⟩
    rw [hn, List.take_succ_cons]
    rw [checkLoop.eq_def]
    simp only [hi, if_true]
    simp only [List.length_cons] at hl
    by_cases h1 : s0.toNat < 128
    · simp [(m80 s0).2 h1, headLen, h1]
    · rw [if_neg (mt (m80 s0).1 h1)]
      by_cases h2 : 192 ≤ s0.toNat ∧ s0.toNat < 224
      · rw [if_pos ((me0 s0).2 h2)]
        have e1 : ¬ s0.toNat < 192 := by omega
        match n, t with
        | 0, t => simp [headLen, h1, h2]; intros; omega
        | n+1, [] => simp at hl; omega
        | n+1, s1 :: t1 =>
          rw [if_neg (by omega)]
          simp only [cond2 s0 s1 h2.1, List.take_succ_cons, headLen, h1, if_false, h2, e1, if_true]
          by_cases h3 : cont s1 ∧ 194 ≤ s0.toNat
          · rw [if_neg (fun h => h h3)]; simp [h3]
          · rw [if_pos h3]; simp [h3]
      · rw [if_neg (by rw [me0]; exact h2)]
        by_cases h3 : 224 ≤ s0.toNat ∧ s0.toNat < 240
        · rw [if_pos ((mf0 s0).2 h3)]
          have e1 : ¬ s0.toNat < 192 := by omega
          have e2 : ¬ s0.toNat < 224 := by omega
          match n, t with
          | 0, t => simp [headLen, h1, e1, e2, h3]; intros; omega
          | 1, t =>
            have : i + 2 ≥ len := by omega
            match t with
            | [] => simp [headLen, h1, e1, e2, h3, this]
            | s1 :: t1 => simp [headLen, h1, e1, e2, h3, this]
          | n+2, [] => simp at hl; omega
          | n+2, [s1] => simp at hl; omega
          | n+2, s1 :: s2 :: t2 =>
            rw [if_neg (by omega)]
            simp only [List.take_succ_cons, headLen, h1, e1, e2, h3, if_false, if_true]
            by_cases c1 : cont s1
            · rw [if_neg (by rw [mc0]; exact fun h => h c1)]
              simp only [cond3 s0 s1 s2 c1]
              by_cases c2 : cont s1 ∧ cont s2 ∧ (s0.toNat = 224 → 160 ≤ s1.toNat) ∧ (s0.toNat = 237 → s1.toNat < 160)
              · rw [if_neg (fun h => h c2), if_pos c2]; simp
              · rw [if_pos c2, if_neg c2]; simp
            · rw [if_pos (by rw [mc0]; exact c1)]
              simp [c1]
        · rw [if_neg (by rw [mf0]; exact h3)]
          by_cases h4 : 240 ≤ s0.toNat ∧ s0.toNat < 248
          · rw [if_pos ((mf8 s0).2 h4)]
            have e1 : ¬ s0.toNat < 192 := by omega
            have e2 : ¬ s0.toNat < 224 := by omega
            have e3 : ¬ s0.toNat < 240 := by omega
            match n, t with
            | 0, t => simp [headLen, h1, e1, e2, e3, h4]; intros; omega
            | 1, t =>
              have : i + 3 ≥ len := by omega
              match t with
              | [] => simp [headLen, h1, e1, e2, e3, h4, this]
              | s1 :: t1 => simp [headLen, h1, e1, e2, e3, h4, this]
            | 2, t =>
              have : i + 3 ≥ len := by omega
              match t with
              | [] => simp [headLen, h1, e1, e2, e3, h4, this]
              | [s1] => simp [headLen, h1, e1, e2, e3, h4, this]
              | s1 :: s2 :: t2 => simp [headLen, h1, e1, e2, e3, h4, this]
            | n+3, [] => simp at hl; omega
            | n+3, [s1] => simp at hl; omega
            | n+3, [s1, s2] => simp at hl; omega
            | n+3, s1 :: s2 :: s3 :: t3 =>
              rw [if_neg (by omega)]
              simp only [List.take_succ_cons, headLen, h1, e1, e2, e3, h4, if_false, if_true]
              by_cases c1 : cont s1
              · rw [if_neg (by rw [mc0]; exact fun h => h c1)]
                by_cases c2 : cont s2
                · rw [if_neg (by rw [mc0]; exact fun h => h c2)]
                  simp only [cond4 s0 s1 s2 s3 c1 c2]
                  by_cases c3 : cont s1 ∧ cont s2 ∧ cont s3 ∧ (s0.toNat = 240 → 144 ≤ s1.toNat) ∧ (s0.toNat = 244 → s1.toNat < 144)
                    ∧ s0.toNat ≤ 244
                  · rw [if_neg (fun h => h c3), if_pos c3]; simp
                  · rw [if_pos c3, if_neg c3]; simp
                · rw [if_pos (by rw [mc0]; exact c2)]
                  simp [c2]
              · rw [if_pos (by rw [mc0]; exact c1)]
                simp [c1]
          · rw [if_neg (by rw [mf8]; exact h4)]
            have : headLen (s0 :: t.take n) = 0 := by
              simp only [headLen, h1, if_false]
              by_cases e1 : s0.toNat < 192
              · simp [e1]
              · have e2 : ¬ s0.toNat < 224 := by omega
                have e3 : ¬ s0.toNat < 240 := by omega
                have e4 : ¬ s0.toNat < 248 := by omega
                simp [e1, e2, e3, e4]
            simp [this]

/-- A scalar value from its number. -/
def mkChar (v : Nat) (h : v < 0xd800 ∨ (0xdfff < v ∧ v < 0x110000)) : Char :=
  ⟨UInt32.ofNat v, by
    simp only [UInt32.isValidChar, Nat.isValidChar, UInt32.toNat_ofNat']
    omega⟩

theorem mkChar_val (v : Nat) (h) : (mkChar v h).val.toNat = v := by
  simp only [mkChar, UInt32.toNat_ofNat']; omega

theorem ofNat_eq {n : Nat} {b : UInt8} (h : n = b.toNat) : UInt8.ofNat n = b := by
  subst h; simp

/-- Where `headLen` accepts there is a scalar value. -/
theorem headLen_sound (s : Bytes) (h : headLen s ≠ 0) :
    ∃ c : Char, s.take (headLen s) = String.utf8EncodeChar c ∧ headLen s ≤ s.length := by
  match s, h with
  | [], h => simp [headLen] at h
  | b0 :: t, h =>
    have hb0 := b0.toNat_lt
    by_cases h1 : b0.toNat < 128
    · have e : headLen (b0 :: t) = 1 := by simp [headLen, h1]
      rw [e]
      refine ⟨mkChar b0.toNat (by omega), ?_, by simp⟩
      simp only [String.utf8EncodeChar, mkChar_val]
      rw [if_pos (by omega)]; simp
    · by_cases h2 : b0.toNat < 192
      · simp [headLen, h1, h2] at h
      · by_cases h3 : b0.toNat < 224
        · match t, h with
          | [], h => simp [headLen, h1, h2, h3] at h
          | b1 :: t1, h =>
            simp only [headLen, h1, h2, h3, if_true, if_false] at h ⊢
            by_cases h4 : cont b1 ∧ 194 ≤ b0.toNat
            · rw [if_pos h4]
              obtain ⟨⟨c1, c2⟩, c3⟩ := h4
              refine ⟨mkChar ((b0.toNat - 192) * 64 + (b1.toNat - 128)) (by omega), ?_, by simp⟩
              simp only [String.utf8EncodeChar, mkChar_val]
              rw [if_neg (by omega), if_pos (by omega)]
              simp only [List.take_succ_cons, List.take_zero]
              rw [ofNat_eq (b := b0) (by omega), ofNat_eq (b := b1) (by omega)]
            · simp [h4] at h
        · by_cases h4 : b0.toNat < 240
          · match t, h with
            | [], h => simp [headLen, h1, h2, h3, h4] at h
            | [b1], h => simp [headLen, h1, h2, h3, h4] at h
            | b1 :: b2 :: t1, h =>
              simp only [headLen, h1, h2, h3, h4, if_true, if_false] at h ⊢
              by_cases h5 : cont b1 ∧ cont b2 ∧ (b0.toNat = 224 → 160 ≤ b1.toNat) ∧ (b0.toNat = 237 → b1.toNat < 160)
              · rw [if_pos h5]
                obtain ⟨⟨c1, c2⟩, ⟨c3, c4⟩, c5, c6⟩ := h5
                refine ⟨mkChar ((b0.toNat - 224) * 4096 + (b1.toNat - 128) * 64 + (b2.toNat - 128)) (by omega), ?_, by simp⟩
                simp only [String.utf8EncodeChar, mkChar_val]
                rw [if_neg (by omega), if_neg (by omega), if_pos (by omega)]
                simp only [List.take_succ_cons, List.take_zero]
                rw [ofNat_eq (b := b0) (by omega), ofNat_eq (b := b1) (by omega), ofNat_eq (b := b2) (by omega)]
              · simp [h5] at h
          · by_cases h5 : b0.toNat < 248
            · match t, h with
              | [], h => simp [headLen, h1, h2, h3, h4, h5] at h
              | [b1], h => simp [headLen, h1, h2, h3, h4, h5] at h
              | [b1, b2], h => simp [headLen, h1, h2, h3, h4, h5] at h
              | b1 :: b2 :: b3 :: t1, h =>
                simp only [headLen, h1, h2, h3, h4, h5, if_true, if_false] at h ⊢
                by_cases h6 : cont b1 ∧ cont b2 ∧ cont b3 ∧ (b0.toNat = 240 → 144 ≤ b1.toNat) ∧ (b0.toNat = 244 → b1.toNat < 144)
                    ∧ b0.toNat ≤ 244
                · rw [if_pos h6]
                  obtain ⟨⟨c1, c2⟩, ⟨c3, c4⟩, ⟨c5, c6⟩, c7, c8, c9⟩ := h6
                  refine ⟨mkChar ((b0.toNat - 240) * 262144 + (b1.toNat - 128) * 4096 + (b2.toNat - 128) * 64 + (b3.toNat - 128)) (by omega), ?_, by simp⟩
                  simp only [String.utf8EncodeChar, mkChar_val]
                  rw [if_neg (by omega), if_neg (by omega), if_neg (by omega)]
                  simp only [List.take_succ_cons, List.take_zero]
                  rw [ofNat_eq (b := b0) (by omega), ofNat_eq (b := b1) (by omega), ofNat_eq (b := b2) (by omega), ofNat_eq (b := b3) (by omega)]
                · simp [h6] at h
            · simp [headLen, h1, h2, h3, h4, h5] at h

theorem valid_range (c : Char) : c.val.toNat < 0xd800 ∨ (0xdfff < c.val.toNat ∧ c.val.toNat < 0x110000) := by
  have := c.valid
  simpa [UInt32.isValidChar, Nat.isValidChar] using this

/-- `headLen` accepts every scalar value. -/
theorem headLen_complete (c : Char) (r : Bytes) :
    headLen (String.utf8EncodeChar c ++ r) = (String.utf8EncodeChar c).length := by
  have hv := valid_range c
  simp only [String.utf8EncodeChar]
  generalize c.val.toNat = v at *
  by_cases h1 : v ≤ 0x7f
  · have e : (UInt8.ofNat v).toNat = v := by simp; omega
    simp [h1, headLen, e]; omega
  · by_cases h2 : v ≤ 0x7ff
    · have e0 : (UInt8.ofNat (v / 64 % 32 + 192)).toNat = v / 64 + 192 := by simp; omega
      have e1 : (UInt8.ofNat (v % 64 + 128)).toNat = v % 64 + 128 := by simp; omega
      simp only [h1, h2, if_true, if_false, List.cons_append, List.nil_append, headLen, cont, e0, e1]
      rw [if_neg (by omega), if_neg (by omega), if_pos (by omega), if_pos (by omega)]; rfl
    · by_cases h3 : v ≤ 0xffff
      · have e0 : (UInt8.ofNat (v / 4096 % 16 + 224)).toNat = v / 4096 + 224 := by simp; omega
        have e1 : (UInt8.ofNat (v / 64 % 64 + 128)).toNat = v / 64 % 64 + 128 := by simp; omega
        have e2 : (UInt8.ofNat (v % 64 + 128)).toNat = v % 64 + 128 := by simp; omega
        simp only [h1, h2, h3, if_true, if_false, List.cons_append, List.nil_append, headLen, cont, e0, e1, e2]
        rw [if_neg (by omega), if_neg (by omega), if_neg (by omega), if_pos (by omega), if_pos (by omega)]; rfl
      · have e0 : (UInt8.ofNat (v / 262144 % 8 + 240)).toNat = v / 262144 + 240 := by simp; omega
        have e1 : (UInt8.ofNat (v / 4096 % 64 + 128)).toNat = v / 4096 % 64 + 128 := by simp; omega
        have e2 : (UInt8.ofNat (v / 64 % 64 + 128)).toNat = v / 64 % 64 + 128 := by simp; omega
        have e3 : (UInt8.ofNat (v % 64 + 128)).toNat = v % 64 + 128 := by simp; omega
        simp only [h1, h2, h3, if_true, if_false, List.cons_append, List.nil_append, headLen, cont, e0, e1, e2, e3]
        rw [if_neg (by omega), if_neg (by omega), if_neg (by omega), if_neg (by omega), if_pos (by omega), if_pos (by omega)]; rfl

/-- What the loop answers, from any point on. -/
theorem checkLoop_spec (n : Nat) : ∀ (len i : Nat) (s : Bytes), len - i = n → i ≤ len → len ≤ i + s.length →
    (checkLoop len i s = .ok none ∧ IsUtf8 (s.take (len - i))) ∨
    (∃ p, checkLoop len i s = .ok (some (i + p)) ∧ i + p < len ∧ IsUtf8 (s.take p) ∧
      ¬ StartsWithChar ((s.take (len - i)).drop p)) := by
  induction n using Nat.strongRecOn with
  | _ n ih =>
    intro len i s hn hi hl
    by_cases h : i < len
    · rw [checkLoop_step len i s h hl]
      by_cases h0 : headLen (s.take (len - i)) = 0
      · right
        refine ⟨0, by simp [h0], by omega, ⟨[], by simp⟩, ?_⟩
        rintro ⟨c, r, e⟩
        simp only [List.drop_zero] at e
        rw [e, headLen_complete] at h0
        exact String.utf8EncodeChar_ne_nil (List.length_eq_zero_iff.1 h0)
      · rw [if_neg h0]
        obtain ⟨c, hc, hlen⟩ := headLen_sound _ h0
        generalize hk : headLen (s.take (len - i)) = k at *
        rw [List.length_take] at hlen
        rw [List.take_take, Nat.min_eq_left (by omega)] at hc
        have key : ∀ m, k ≤ m → s.take m = String.utf8EncodeChar c ++ (s.drop k).take (m - k) := by
          intro m hm
          rw [← hc]
          conv => lhs; rw [← Nat.add_sub_cancel' hm]
          rw [List.take_add]
        rcases ih (len - (i + k)) (by omega) len (i + k) (s.drop k) rfl (by omega) (by simp; omega) with ⟨h1, h2⟩ | ⟨p, h1, h2, h3, h4⟩
        · left
          refine ⟨h1, ?_⟩
          obtain ⟨cs, hcs⟩ := h2
          refine ⟨c :: cs, ?_⟩
          rw [key _ (by omega), List.flatMap_cons, ← hcs]
          congr 2; omega
        · right
          refine ⟨k + p, by rw [h1]; congr 2; omega, by omega, ?_, ?_⟩
          · obtain ⟨cs, hcs⟩ := h3
            refine ⟨c :: cs, ?_⟩
            rw [key _ (by omega), List.flatMap_cons, ← hcs, Nat.add_sub_cancel_left]
          · intro h5
            apply h4
            have : (s.take (len - i)).drop (k + p) = ((s.drop k).take (len - (i + k))).drop p := by
              rw [← List.drop_drop, List.drop_take]
              congr 2; omega
            rwa [this] at h5
    · left
      have : len - i = 0 := by omega
      refine ⟨?_, ⟨[], by simp [this]⟩⟩
      cases s with
      | nil => simp [checkLoop, h]
      | cons a t => rw [checkLoop.eq_def]; simp [h]

/-- A UTF-8 string is split uniquely: if it is UTF-8 and has a UTF-8 prefix, the rest is empty or starts with
a character. -/
theorem startsWithChar_of_isUtf8 (s : Bytes) (p : Nat) (hs : IsUtf8 s) (hp : IsUtf8 (s.take p)) (hl : p < s.length) :
    StartsWithChar (s.drop p) := by
  obtain ⟨cs, hcs⟩ := hs
  obtain ⟨ds, hds⟩ := hp
  induction ds generalizing cs s p with
  | nil =>
    have hp0 : p = 0 := by
      have := congrArg List.length hds
      simp only [List.length_take, List.flatMap_nil, List.length_nil] at this; omega
    subst hp0
    cases cs with
    | nil => subst hcs; simp at hl
    | cons c cs => exact ⟨c, cs.flatMap String.utf8EncodeChar, by simpa using hcs⟩
  | cons d ds ih =>
    rw [List.flatMap_cons] at hds
    have hs' : s = String.utf8EncodeChar d ++ (ds.flatMap String.utf8EncodeChar ++ s.drop p) := by
      rw [← List.append_assoc, ← hds, List.take_append_drop]
    cases cs with
    | nil => subst hcs; simp at hl
    | cons c cs =>
      rw [List.flatMap_cons] at hcs
      have h1 := headLen_complete c (cs.flatMap String.utf8EncodeChar)
      have h2 := headLen_complete d (ds.flatMap String.utf8EncodeChar ++ s.drop p)
      rw [← hcs] at h1
      rw [← hs'] at h2
      have hlen : (String.utf8EncodeChar c).length = (String.utf8EncodeChar d).length := by rw [← h1, h2]
      have hcd := List.append_inj (hcs.symm.trans hs') hlen
      have hpl : (String.utf8EncodeChar d).length ≤ p := by
        have := congrArg List.length hds
        simp only [List.length_take, List.length_append] at this; omega
      have := ih (ds.flatMap String.utf8EncodeChar ++ s.drop p) (p - (String.utf8EncodeChar d).length) ?_ cs hcd.2.symm ?_
      · have e : (ds.flatMap String.utf8EncodeChar ++ s.drop p) = s.drop (String.utf8EncodeChar d).length := by
          conv => rhs; rw [hs']
          simp
        rw [e, List.drop_drop] at this
        rwa [Nat.add_sub_cancel' hpl] at this
      · have := congrArg List.length hs'
        simp only [List.length_append] at this
        simp only [List.length_append]; omega
      · have e : (ds.flatMap String.utf8EncodeChar ++ s.drop p) = s.drop (String.utf8EncodeChar d).length := by
          conv => rhs; rw [hs']
          simp
        rw [e, ← List.drop_take, hds]; simp

end Verif.Utf8
