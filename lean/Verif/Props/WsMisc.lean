import Verif.Model.WsMisc
/-! # Properties of the random key and of the deadline -/
namespace Verif.Props
open Verif.WsMisc

/-! ## C56 -/

/-- Number of byte values for which a property holds. -/
def bytesWith (p : UInt8 → Bool) : Nat := ((List.range 256).filter (fun n => p (UInt8.ofNat n))).length

/-- The result of one draw with the byte `x`. -/
private def bin (max : Nat) (x : UInt8) : Option Nat :=
  if (max + 1) * (255 / (max + 1)) ≤ x.toNat then none else some (x.toNat / (255 / (max + 1)))

private theorem count_range (a k : Nat) : ∀ n, ((List.range n).filter (fun i => decide (a ≤ i ∧ i < a + k))).length = min n (a + k) - min n a := by
  intro n
  induction n with
  | zero => simp
  | succ n ih =>
    rw [List.range_succ, List.filter_append, List.length_append, ih]
    by_cases h : a ≤ n ∧ n < a + k
    · simp [h]; omega
    · simp [h]; omega

/-- C56, first part. For every bound up to 254 the loop returns for the first byte below the multiple of `max + 1` it keeps, and the
value returned is at most `max`; every value of 0..`max` is given by the same number of bytes, at least one, and the bytes not counted
are drawn again. (The bound 255 divides by zero; it is not used.) -/
theorem C56_uniform (max : Nat) (hmax : max ≤ 254) :
    ∃ f : UInt8 → Option Nat, (∀ v, v ≤ max → bytesWith (fun x => f x == some v) = 255 / (max + 1)) ∧ 0 < 255 / (max + 1) ∧
      (∀ x v, f x = some v → v ≤ max) ∧
      (∀ x rest, randomAtMost max (some x :: rest) = match f x with
        | some v => .ok (.value v rest)
        | none => randomAtMost max rest) ∧
      (∀ rest, randomAtMost max (none :: rest) = .ok (.failed rest)) := by
  have hb : 0 < 255 / (max + 1) := Nat.div_pos (by omega) (by omega)
  have hmod : (max + 1) % 256 = max + 1 := Nat.mod_eq_of_lt (by omega)
  have hdm := Nat.div_add_mod 255 (max + 1)
  refine ⟨bin max, ?_, hb, ?_, ?_, ?_⟩
  · intro v hv
    unfold bytesWith
    generalize hk : 255 / (max + 1) = k at *
    have hvk : v * k + k ≤ (max + 1) * k := by
      rw [← Nat.succ_mul]; exact Nat.mul_le_mul_right k (by omega)
    have hp : ∀ n ∈ List.range 256, (bin max (UInt8.ofNat n) == some v) = decide (v * k ≤ n ∧ n < v * k + k) := by
      intro n hn
      have hn' := List.mem_range.1 hn
      have e : (UInt8.ofNat n).toNat = n := by simp; omega
      unfold bin
      rw [e, hk, Bool.eq_iff_iff]
      simp only [beq_iff_eq, decide_eq_true_eq]
      split
      · rename_i h
        constructor
        · intro h'; cases h'
        · rintro ⟨h1, h2⟩; omega
      · rename_i h
        simp only [Option.some.injEq]
        rw [Nat.div_eq_iff (by omega)]
        rw [Nat.mul_comm v k] at *
        omega
    rw [List.filter_congr hp, count_range]
    have : (max + 1) * k ≤ 255 := by omega
    omega
  · intro x v h
    unfold bin at h
    split at h
    · cases h
    · rename_i hx
      injection h with h
      subst h
      have := (Nat.div_lt_iff_lt_mul hb).2 (Nat.lt_of_not_le hx)
      omega
  · intro x rest
    have e : 0xff - 0xff % (max + 1) = (max + 1) * (255 / (max + 1)) := by omega
    unfold randomAtMost bin
    simp only [hmod]
    rw [if_neg (by omega), drawLoop, e]
    split
    · rw [if_neg (by omega)]
    · rfl
  · intro rest
    unfold randomAtMost
    simp only [hmod]
    rw [if_neg (by omega)]
    rfl

/-- The character the byte `x` gives, if it is used. -/
def keyChar (x : UInt8) : Option UInt8 := if x.toNat < 248 then charset[x.toNat / 4]? else none

private theorem draw62 (src : List (Option UInt8)) : randomAtMost (charset.length + 1 - 2) src = .ok (drawLoop 4 7 src) := rfl

private theorem draw_cases (bs : List UInt8) : drawLoop 4 7 (bs.map some) = match bs.filter (fun x => decide (x.toNat < 248)) with
    | [] => .pending
    | x :: _ => .value (x.toNat / 4) ((bs.dropWhile (fun x => ! decide (x.toNat < 248))).tail.map some) := by
  induction bs with
  | nil => rfl
  | cons b bs ih =>
    rw [List.map_cons, drawLoop]
    by_cases hb : b.toNat < 248
    · rw [if_neg (by omega), List.filter_cons, if_pos (by simpa using hb), List.dropWhile_cons, if_neg (by simpa using hb)]
      rfl
    · rw [if_pos (by omega), ih, List.filter_cons, if_neg (by simpa using hb), List.dropWhile_cons, if_pos (by simpa using hb)]

private theorem filter_tail (bs : List UInt8) (x : UInt8) (t : List UInt8) (h : bs.filter (fun x => decide (x.toNat < 248)) = x :: t) :
    ((bs.dropWhile (fun x => ! decide (x.toNat < 248))).tail).filter (fun x => decide (x.toNat < 248)) = t := by
  induction bs with
  | nil => cases h
  | cons b bs ih =>
    by_cases hb : b.toNat < 248
    · rw [List.filter_cons, if_pos (by simpa using hb)] at h
      rw [List.dropWhile_cons, if_neg (by simpa using hb)]
      injection h
    · rw [List.filter_cons, if_neg (by simpa using hb)] at h
      rw [List.dropWhile_cons, if_pos (by simpa using hb)]
      exact ih h

private theorem keyChar_some (x : UInt8) (h : x.toNat < 248) : ∃ c, keyChar x = some c ∧ (charset ++ [0])[x.toNat / 4]? = some c := by
  have hl : x.toNat / 4 < charset.length := by
    have : charset.length = 62 := by decide
    omega
  unfold keyChar
  rw [if_pos h, List.getElem?_append_left hl, List.getElem?_eq_getElem hl]
  exact ⟨_, rfl, rfl⟩

/-- C56, second part. Over any sequence of random bytes, the key consists of the characters of the bytes below 248, in order: it is
complete when there are enough of them and not returned before. -/
theorem C56_key (n : Nat) (bs : List UInt8) :
    (n ≤ (bs.filterMap keyChar).length → ∃ rest, randString n (bs.map some) = .ok (.value ((bs.filterMap keyChar).take n) rest)) ∧
    ((bs.filterMap keyChar).length < n → randString n (bs.map some) = .ok .pending) := by
  have hfm : ∀ bs : List UInt8, bs.filterMap keyChar = (bs.filter (fun x => decide (x.toNat < 248))).filterMap keyChar := by
    intro bs
    induction bs with
    | nil => rfl
    | cons b bs ih =>
      by_cases hb : b.toNat < 248
      · rw [List.filter_cons, if_pos (by simpa using hb), List.filterMap_cons, List.filterMap_cons, ih]
      · rw [List.filter_cons, if_neg (by simpa using hb), List.filterMap_cons]
        have : keyChar b = none := by unfold keyChar; rw [if_neg hb]
        rw [this]; exact ih
  induction n generalizing bs with
  | zero => exact ⟨fun _ => ⟨_, rfl⟩, fun h => absurd h (Nat.not_lt_zero _)⟩
  | succ n ih =>
    rw [randString, draw62, draw_cases]
    cases hf : bs.filter (fun x => decide (x.toNat < 248)) with
    | nil =>
      rw [hfm bs, hf]
      refine ⟨fun h => ?_, fun _ => rfl⟩
      simp at h
    | cons x t =>
      have hx : x.toNat < 248 := by
        have : x ∈ bs.filter (fun x => decide (x.toNat < 248)) := by rw [hf]; simp
        simpa using (List.mem_filter.1 this).2
      obtain ⟨c, h1, h2⟩ := keyChar_some x hx
      have ht := filter_tail bs x t hf
      have e : bs.filterMap keyChar = c :: ((bs.dropWhile (fun x => ! decide (x.toNat < 248))).tail).filterMap keyChar := by
        rw [hfm bs, hf, List.filterMap_cons, h1, hfm (List.tail _), ht]
      rw [e]
      obtain ⟨i1, i2⟩ := ih (bs.dropWhile (fun x : UInt8 => ! decide (x.toNat < 248))).tail
      simp only [Res.ok_bind, h2, Res.pure_eq]
      constructor
      · intro hn
        obtain ⟨r, hr⟩ := i1 (by simpa using hn)
        exact ⟨r, by rw [hr]; rfl⟩
      · intro hn
        rw [i2 (by simpa using hn)]; rfl

/-- C56, third part. A key that is returned has the length asked for and consists of letters and digits, whatever the source does; if
the source fails, no key is returned. -/
theorem C56_alphabet (n : Nat) (src : List (Option UInt8)) :
    ∃ d, randString n src = .ok d ∧ (∀ s rest, d = .value s rest → s.length = n ∧ ∀ c ∈ s, isAlnum c = true) ∧
      (∀ rest, d = .failed rest → none ∈ src) := by
  induction n generalizing src with
  | zero => exact ⟨_, rfl, by rintro s rest ⟨rfl, rfl⟩; simp, by rintro rest ⟨⟩⟩
  | succ n ih =>
    rw [randString, draw62]
    have hd : ∀ src, (drawLoop 4 7 src = .pending) ∨ (∃ rest, drawLoop 4 7 src = .failed rest ∧ none ∈ src) ∨
        (∃ k rest, drawLoop 4 7 src = .value k rest ∧ k < 62 ∧ ∀ x ∈ rest, x ∈ src) := by
      intro src
      induction src with
      | nil => exact .inl rfl
      | cons o src ih =>
        cases o with
        | none => exact .inr (.inl ⟨_, rfl, by simp⟩)
        | some x =>
          rw [drawLoop]
          by_cases hx : 0xff - 7 ≤ x.toNat
          · rw [if_pos hx]
            rcases ih with h | ⟨r, h1, h2⟩ | ⟨k, r, h1, h2, h3⟩
            · exact .inl h
            · exact .inr (.inl ⟨r, h1, by simp [h2]⟩)
            · exact .inr (.inr ⟨k, r, h1, h2, fun y hy => List.mem_cons_of_mem _ (h3 y hy)⟩)
          · rw [if_neg hx]
            exact .inr (.inr ⟨_, _, rfl, by omega, fun y hy => List.mem_cons_of_mem _ hy⟩)
    rcases hd src with h | ⟨r, h, h2⟩ | ⟨k, r, h, hk, hr⟩
    · rw [h]; exact ⟨_, rfl, by rintro s rest ⟨⟩, by rintro rest ⟨⟩⟩
    · rw [h]; exact ⟨_, rfl, by rintro s rest ⟨⟩, by rintro rest ⟨⟩; exact h2⟩
    · rw [h]
      have hl : k < charset.length := by
        have : charset.length = 62 := by decide
        omega
      have hc : (charset ++ [0])[k]? = some charset[k] := by
        rw [List.getElem?_append_left hl, List.getElem?_eq_getElem hl]
      have ha : isAlnum charset[k] = true := by
        have : ∀ c ∈ charset, isAlnum c = true := by decide +kernel
        exact this _ (List.getElem_mem hl)
      obtain ⟨d, h1, h2, h3⟩ := ih r
      simp only [Res.ok_bind, hc, h1, Res.pure_eq]
      cases d with
      | value s rest =>
        refine ⟨_, rfl, ?_, by rintro rest ⟨⟩⟩
        rintro s' rest' ⟨rfl, rfl⟩
        obtain ⟨g1, g2⟩ := h2 s rest rfl
        refine ⟨by simp [g1], ?_⟩
        intro c hc'
        rcases List.mem_cons.1 hc' with rfl | hc'
        · exact ha
        · exact g2 c hc'
      | failed rest => exact ⟨_, rfl, by rintro s rest ⟨⟩, by rintro rest' ⟨⟩; exact hr _ (h3 rest rfl)⟩
      | pending => exact ⟨_, rfl, by rintro s rest ⟨⟩, by rintro rest ⟨⟩⟩

/-- Each letter or digit is given by exactly four bytes. -/
theorem C56_alphabet_uniform (c : UInt8) : bytesWith (fun x => keyChar x == some c) = if isAlnum c then 4 else 0 := by
  have h1 : ((List.range 256).filterMap (fun n => keyChar (UInt8.ofNat n))) = charset.flatMap (List.replicate 4) := by decide +kernel
  have h2 : charset.count c = if isAlnum c then 1 else 0 := by
    have hn : charset.Nodup := by decide +kernel
    have ha : ∀ c ∈ charset, isAlnum c = true := by decide +kernel
    have hm : ∀ c : UInt8, isAlnum c = true → c ∈ charset := by
      intro c; revert c; exact forall_byte (by decide +kernel)
    split
    · rename_i h; rw [hn.count, if_pos (hm c h)]
    · rename_i h; rw [List.count_eq_zero]; exact fun hc => h (ha c hc)
  have h3 : ∀ l : Bytes, (l.flatMap (List.replicate 4)).count c = 4 * l.count c := by
    intro l
    induction l with
    | nil => rfl
    | cons x l ih =>
      rw [List.flatMap_cons, List.count_append, ih, List.count_replicate, List.count_cons]
      split <;> omega
  have h4 : ∀ l : List Nat, (l.filter (fun n => keyChar (UInt8.ofNat n) == some c)).length = (l.filterMap (fun n => keyChar (UInt8.ofNat n))).count c := by
    intro l
    induction l with
    | nil => rfl
    | cons x l ih =>
      rw [List.filter_cons, List.filterMap_cons]
      cases hk : keyChar (UInt8.ofNat x) with
      | none => simpa using ih
      | some d =>
        simp only [List.count_cons, ← ih]
        by_cases hd : d = c
        · simp [hd]
        · simp [hd]
  unfold bytesWith
  rw [h4, h1, h3, h2]
  split <;> rfl

example : randString 3 [some 0, some 255, some 107, some 247] = .ok (.value b!"aA9" []) := by decide +kernel

/-- The bound that would divide by zero. -/
example : randomAtMost 255 [some 3] = .ub := rfl

/-! ## C57 -/

private theorem deadline_lo (now : Time) (timeout : Nat) (hc : ¬ 999999999 < now.nsec + timeout % 1000 * 1000000) :
    deadline now timeout = ⟨now.sec + timeout / 1000, now.nsec + timeout % 1000 * 1000000⟩ := by
  unfold deadline; rw [if_neg hc]

private theorem deadline_hi (now : Time) (timeout : Nat) (hc : 999999999 < now.nsec + timeout % 1000 * 1000000) :
    deadline now timeout = ⟨now.sec + timeout / 1000 + 1, (now.nsec + timeout % 1000 * 1000000) % 1000000000⟩ := by
  unfold deadline; rw [if_pos hc]

private theorem sum_lo (s a q r t : Nat) (hd : 1000 * q + r = t) :
    (s + q) * 1000000000 + (a + r * 1000000) = s * 1000000000 + a + t * 1000000 := by omega

private theorem mod_hi (x : Nat) (h1 : 999999999 < x) (h2 : x < 2000000000) : x % 1000000000 = x - 1000000000 := by
  rw [Nat.mod_eq_sub_mod (by omega), Nat.mod_eq_of_lt (by omega)]

private theorem sum_hi (s a q r t : Nat) (hd : 1000 * q + r = t) (hc : 999999999 < a + r * 1000000) :
    (s + q + 1) * 1000000000 + (a + r * 1000000 - 1000000000) = s * 1000000000 + a + t * 1000000 := by omega

/-- C57. The deadline is the present time plus the number of milliseconds, as a valid time. -/
theorem C57_deadline (now : Time) (timeout : Nat) (h : now.nsec < 1000000000) :
    (deadline now timeout).nsec < 1000000000 ∧
    (deadline now timeout).sec * 1000000000 + (deadline now timeout).nsec = now.sec * 1000000000 + now.nsec + timeout * 1000000 := by
  have hd := Nat.div_add_mod timeout 1000
  have hm := Nat.mod_lt timeout (show 1000 > 0 by decide)
  by_cases hc : 999999999 < now.nsec + timeout % 1000 * 1000000
  · rw [deadline_hi now timeout hc, mod_hi _ hc (by omega)]
    exact ⟨by simp only; omega, sum_hi _ _ _ _ _ hd hc⟩
  · rw [deadline_lo now timeout hc]
    exact ⟨by simp only; omega, sum_lo _ _ _ _ _ hd⟩

example : deadline ⟨10, 999000000⟩ 1001 = ⟨12, 0⟩ := by decide

end Verif.Props
