import Verif.Model.Upload
import Verif.Props.Utf8
/-! # Lemmas on body reception -/
namespace Verif.Upload
open Verif.Utf8 Verif.Spec.Utf8

/-- cut to a limit, 0 meaning none -/
def cut (max : Nat) (s : Bytes) : Bytes := if max = 0 then s else s.take max

theorem cut_length (max : Nat) (s : Bytes) : (cut max s).length ≤ s.length := by
  unfold cut; split
  · exact Nat.le_refl _
  · simp; omega

theorem bodyChunk_eq (max : Nat) (done c : Bytes) (h : done.length + c.length < 2 ^ 64) (hm : max < 2 ^ 64) :
    bodyChunk max (cut max done) c = .ok (cut max (done ++ c)) := by
  have hcl := cut_length max done
  have hw : wrap ((cut max done).length + c.length) = (cut max done).length + c.length := by
    unfold wrap; exact Nat.mod_eq_of_lt (by omega)
  unfold bodyChunk
  simp only [hw]
  by_cases h0 : max = 0
  · subst h0
    simp only [cut, if_true, Nat.lt_irrefl, decide_false, Bool.false_and, Bool.false_eq_true, if_false]
    rw [if_pos (by omega), if_pos (by omega), List.take_length]
  · have hpos : 0 < max := by omega
    have hle : (cut max done).length ≤ max := by simp only [cut, h0, if_false]; simp; omega
    by_cases ho : max < (cut max done).length + c.length
    · have hwr : wrap (max + 2 ^ 64 - (cut max done).length) = max - (cut max done).length := by
        unfold wrap
        have : max + 2 ^ 64 - (cut max done).length = (max - (cut max done).length) + 2 ^ 64 := by omega
        rw [this, Nat.add_mod_right]
        exact Nat.mod_eq_of_lt (by omega)
      simp only [hpos, ho, decide_true, Bool.and_self, if_true, hwr]
      rw [if_pos hle, if_pos (by omega)]
      congr 1
      simp only [cut, h0, if_false] at *
      rw [List.take_append, List.length_take]
      congr 2
      rcases Nat.lt_or_ge done.length max with hlt | hlt
      · rw [Nat.min_eq_right (by omega)]
      · omega
    · have ho' : decide (max < (cut max done).length + c.length) = false := by simpa using ho
      simp only [ho', Bool.and_false, Bool.false_eq_true, if_false]
      rw [if_pos (by omega), if_pos (by omega), List.take_length]
      congr 1
      simp only [cut, h0, if_false] at *
      rw [List.length_take] at ho
      rw [List.take_append]
      rcases Nat.lt_or_ge max done.length with hlt | hge
      · have : c.length = 0 := by omega
        have hc : c = [] := List.length_eq_zero_iff.1 this
        simp [hc]
      · rw [List.take_of_length_le hge, List.take_of_length_le (l := c) (by omega)]

theorem receive_eq (max : Nat) (hm : max < 2 ^ 64) (cs : List Bytes) (done : Bytes)
    (h : done.length + cs.flatten.length < 2 ^ 64) :
    receive max (cut max done) cs = .ok (cut max (done ++ cs.flatten)) := by
  induction cs generalizing done with
  | nil => simp [receive]
  | cons c t ih =>
    rw [List.flatten_cons, List.length_append] at h
    rw [receive, bodyChunk_eq max done c (by omega) hm, Res.ok_bind, ih _ (by rw [List.length_append]; omega)]
    simp

/-! form fields -/

theorem find_append_self (m : PostMap) (k d : Bytes) : find (append m k d) k = some ((find m k).getD [] ++ d) := by
  unfold find append
  by_cases h : m.any (fun p => p.1 == k) = true
  · rw [if_pos h]
    induction m with
    | nil => simp at h
    | cons p t ih =>
      by_cases hp : (p.1 == k) = true
      · rw [List.map_cons, if_pos hp, List.find?_cons, List.find?_cons]
        simp [hp]
      · simp only [List.any_cons, hp, Bool.false_or] at h
        rw [List.map_cons, if_neg hp, List.find?_cons, List.find?_cons]
        simp only [hp]; exact ih h
  · rw [if_neg h, List.find?_append]
    have : m.find? (fun p => p.1 == k) = none := by
      rw [List.find?_eq_none]; intro x hx hxk; exact h (List.any_eq_true.2 ⟨x, hx, hxk⟩)
    simp [this]

theorem find_append_other (m : PostMap) (k k' d : Bytes) (hk : k ≠ k') : find (append m k d) k' = find m k' := by
  unfold find append
  by_cases h : m.any (fun p => p.1 == k) = true
  · rw [if_pos h]
    clear h
    induction m with
    | nil => rfl
    | cons p t ih =>
      by_cases hp : (p.1 == k) = true
      · have hpk : p.1 = k := by simpa using hp
        have h1 : (p.1 == k') = false := by simpa [hpk] using hk
        have h2 : (k == k') = false := by simpa using hk
        rw [List.map_cons, if_pos hp, List.find?_cons, List.find?_cons]
        simp only [h1, h2]; exact ih
      · rw [List.map_cons, if_neg hp, List.find?_cons, List.find?_cons]
        by_cases hp' : (p.1 == k') = true
        · simp [hp']
        · simp only [hp']; exact ih
  · rw [if_neg h, List.find?_append]
    simp [hk]

/-- the chunk passes the checks -/
def Good (cfg : Cfg) (key : Bytes) (fn : Option Bytes) (c : Bytes) : Prop :=
  cfg.checkUtf8 = true → IsUtf8 key ∧ IsUtf8 c ∧ ∀ f, fn = some f → IsUtf8 f

theorem good_cond (cfg : Cfg) (key : Bytes) (fn : Option Bytes) (c : Bytes) (h : Good cfg key fn c) :
    (cfg.checkUtf8 && (!utf8Ok key || !utf8Ok c || (fn.isSome && !utf8Ok (fn.getD [])))) = false := by
  unfold Good at h
  cases hc : cfg.checkUtf8 with
  | false => rfl
  | true =>
    obtain ⟨h1, h2, h3⟩ := h hc
    rw [← Props.C05_utf8Ok] at h1 h2
    simp only [h1, h2, Bool.not_true, Bool.or_self, Bool.false_or, Bool.true_and]
    cases fn with
    | none => rfl
    | some f =>
      have := h3 f rfl
      rw [← Props.C05_utf8Ok] at this
      simp [this]

/-- effect of one chunk on the value of its key -/
theorem iterate_self (cfg : Cfg) (m : PostMap) (key : Bytes) (fn : Option Bytes) (c : Bytes) (off : Nat)
    (hk : key ≠ []) (hcb : fn.isSome = true → cfg.uploadCb = false) (hg : Good cfg key fn c)
    (hoff : cfg.maxParam = 0 ∨ off ≤ cfg.maxParam) :
    find (iterate cfg m key fn c off).2 key =
      some ((find m key).getD [] ++ (if off = 0 ∧ (find m key).getD [] ≠ [] then b!"," else []) ++
        (if cfg.maxParam = 0 then c else c.take (cfg.maxParam - off))) := by
  have h1 : (fn.isSome && cfg.uploadCb) = false := by
    cases h : fn.isSome with
    | false => rfl
    | true => simp [hcb h]
  have h2 := good_cond cfg key fn c hg
  have h3 : (decide (0 < cfg.maxParam) && decide (cfg.maxParam < off)) = false := by
    simp only [Bool.and_eq_false_iff, decide_eq_false_iff_not]; omega
  have h4 : key.isEmpty = false := by cases key <;> simp_all
  have hdata : (if (decide (0 < cfg.maxParam) && decide (cfg.maxParam < off + c.length)) = true
      then c.take (cfg.maxParam - off) else c) = (if cfg.maxParam = 0 then c else c.take (cfg.maxParam - off)) := by
    by_cases h0 : cfg.maxParam = 0
    · simp [h0]
    · rw [if_neg h0]
      split
      · rfl
      · rename_i h
        rw [List.take_of_length_le]
        simp only [Bool.and_eq_true, decide_eq_true_eq, not_and] at h
        have := h (by omega)
        omega
  have hkf : key ++ b!"_filename" ≠ key := by
    intro h
    have := congrArg List.length h
    simp at this
  have hm : find (withName m key fn) key = find m key := by
    unfold withName
    cases fn with
    | none => rfl
    | some f =>
      simp only
      split
      · rfl
      · exact find_append_other _ _ _ _ hkf
  unfold iterate
  simp only [h1, h2, h3, h4, Bool.false_eq_true, if_false, hdata]
  generalize withName m key fn = m1 at hm
  have hmm := hm
  rw [hmm]
  generalize hd : (if cfg.maxParam = 0 then c else c.take (cfg.maxParam - off)) = d
  by_cases hcur : (find m key).getD [] = []
  · simp only [hcur, List.isEmpty_nil, Bool.not_true, Bool.false_eq_true, if_false]
    rw [find_append_self, hmm, hcur]; simp
  · have : ((find m key).getD []).isEmpty = false := by
      cases h : (find m key).getD [] <;> simp_all
    simp only [this, Bool.not_false, if_true]
    by_cases ho : off = 0
    · subst ho
      simp [find_append_self, hmm, hcur]
    · have : (off != 0) = true := by simpa using ho
      simp [find_append_self, hmm, ho]

theorem iterate_late (cfg : Cfg) (m : PostMap) (key : Bytes) (fn : Option Bytes) (c : Bytes) (off : Nat)
    (h : cfg.maxParam ≠ 0 ∧ cfg.maxParam < off) : (iterate cfg m key fn c off).2 = m := by
  unfold iterate
  split
  · rfl
  · split
    · rfl
    · rw [if_pos (by simp only [Bool.and_eq_true, decide_eq_true_eq]; omega)]

/-- chunks after the first -/
theorem deliver_rest (cfg : Cfg) (key : Bytes) (fn : Option Bytes) (hk : key ≠ [])
    (hcb : fn.isSome = true → cfg.uploadCb = false) (cs : List Bytes) (hg : ∀ c ∈ cs, Good cfg key fn c)
    (off : Nat) (hoff : 0 < off) (m : PostMap) (v : Bytes) (hv : find m key = some v) :
    find (deliver cfg key fn off cs m) key =
      some (v ++ (if cfg.maxParam = 0 then cs.flatten else cs.flatten.take (cfg.maxParam - off))) := by
  induction cs generalizing off m v with
  | nil => simp [deliver, hv]
  | cons c t ih =>
    rw [deliver]
    have hgt : ∀ c ∈ t, Good cfg key fn c := fun c h => hg c (by simp [h])
    by_cases hl : cfg.maxParam ≠ 0 ∧ cfg.maxParam < off
    · rw [iterate_late _ _ _ _ _ _ hl, ih hgt _ (by omega) _ _ hv]
      have e1 : cfg.maxParam - (off + c.length) = 0 := by omega
      have e2 : cfg.maxParam - off = 0 := by omega
      simp [hl.1, e1, e2]
    · have hoff' : cfg.maxParam = 0 ∨ off ≤ cfg.maxParam := by omega
      have hi := iterate_self cfg m key fn c off hk hcb (hg c (by simp)) hoff'
      rw [if_neg (by omega), hv] at hi
      rw [ih hgt _ (by omega) _ _ hi]
      congr 1
      by_cases h0 : cfg.maxParam = 0
      · simp [h0]
      · simp only [h0, if_false, Option.getD_some, List.append_nil, List.flatten_cons, List.take_append,
          List.append_assoc]
        congr 3
        omega

theorem deliver_eq (cfg : Cfg) (key : Bytes) (fn : Option Bytes) (hk : key ≠ [])
    (hcb : fn.isSome = true → cfg.uploadCb = false) (c : Bytes) (t : List Bytes)
    (hg : ∀ x ∈ c :: t, Good cfg key fn x) (hne : t = [] ∨ c ≠ []) (m : PostMap) :
    find (deliver cfg key fn 0 (c :: t) m) key =
      some ((find m key).getD [] ++ (if (find m key).getD [] ≠ [] then b!"," else []) ++
        cut cfg.maxParam (c :: t).flatten) := by
  rw [deliver]
  have hi := iterate_self cfg m key fn c 0 hk hcb (hg c (by simp)) (by omega)
  simp only [true_and, Nat.sub_zero] at hi
  rcases hne with rfl | hc
  · simp only [deliver]
    rw [hi]
    simp [cut]
  · have hpos : 0 < c.length := List.length_pos_iff.2 hc
    rw [deliver_rest cfg key fn hk hcb t (fun x h => hg x (by simp [h])) _ (by omega) _ _ hi]
    unfold cut
    by_cases h0 : cfg.maxParam = 0
    · simp [h0]
    · simp only [h0, if_false, List.flatten_cons, List.take_append, List.append_assoc, Nat.zero_add]

/-- other keys are left alone -/
theorem iterate_other (cfg : Cfg) (m : PostMap) (key : Bytes) (fn : Option Bytes) (c : Bytes) (off : Nat) (k : Bytes)
    (h1 : k ≠ key) (h2 : k ≠ key ++ b!"_filename") : find (iterate cfg m key fn c off).2 k = find m k := by
  unfold iterate
  have hm : find (withName m key fn) k = find m k := by
    unfold withName
    cases fn with
    | none => rfl
    | some f =>
      simp only
      split
      · rfl
      · exact find_append_other _ _ _ _ h2.symm
  split
  · rfl
  · split
    · rfl
    · split
      · rfl
      · dsimp only
        split
        · exact hm
        · split
          · split
            · rw [find_append_other _ _ _ _ h1.symm]; exact hm
            · rw [find_append_other _ _ _ _ h1.symm, find_append_other _ _ _ _ h1.symm]; exact hm
          · rw [find_append_other _ _ _ _ h1.symm]; exact hm

theorem deliver_other (cfg : Cfg) (key : Bytes) (fn : Option Bytes) (cs : List Bytes) (off : Nat) (m : PostMap) (k : Bytes)
    (h1 : k ≠ key) (h2 : k ≠ key ++ b!"_filename") : find (deliver cfg key fn off cs m) k = find m k := by
  induction cs generalizing off m with
  | nil => rfl
  | cons c t ih => rw [deliver, ih, iterate_other _ _ _ _ _ _ _ h1 h2]

theorem ascii_utf8 (s : Bytes) (h : ∀ c ∈ s, c < 0x80) : IsUtf8 s := by
  induction s with
  | nil => exact ⟨[], rfl⟩
  | cons c t ih =>
    obtain ⟨cs, hcs⟩ := ih (fun x hx => h x (by simp [hx]))
    have hc := h c (by simp)
    refine ⟨Char.ofNat c.toNat :: cs, ?_⟩
    rw [List.flatMap_cons, ← hcs]
    have : ∀ b : UInt8, b < 0x80 → String.utf8EncodeChar (Char.ofNat b.toNat) = [b] := by
      apply forall_byte
      decide +kernel
    rw [this c hc]; rfl

end Verif.Upload
