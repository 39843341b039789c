import Verif.Model.Strtok
import Verif.Spec.Segments
/-! # `strtok_r` returns the non-empty fields -/
namespace Verif.Strtok
open Verif.Spec.Segments

theorem pieces_ne_nil (d : UInt8) (s : Bytes) : pieces d s ≠ [] := by
  cases s with
  | nil => simp [pieces]
  | cons c t =>
    rw [pieces]; split
    · simp
    · split <;> simp

theorem pieces_append (d : UInt8) (a b : Bytes) : pieces d (a ++ d :: b) = pieces d a ++ pieces d b := by
  induction a with
  | nil => simp [pieces]
  | cons c t ih =>
    rw [List.cons_append, pieces, pieces]
    split
    · rw [ih]; rfl
    · rw [ih]
      cases hp : pieces d t with
      | nil => exact absurd hp (pieces_ne_nil d t)
      | cons p ps => simp

theorem fields_append (d : UInt8) (a b : Bytes) : fields d (a ++ d :: b) = fields d a ++ fields d b := by
  rw [fields, pieces_append, List.filter_append]; rfl

theorem fields_nil (d : UInt8) : fields d [] = [] := by simp [fields, pieces]

theorem fields_cons_sep (d : UInt8) (b : Bytes) : fields d (d :: b) = fields d b := by
  have := fields_append d [] b
  simpa [fields_nil] using this

theorem fields_snoc_sep (d : UInt8) (a : Bytes) : fields d (a ++ [d]) = fields d a := by
  have := fields_append d a []
  simpa [fields_nil] using this

theorem pieces_none (d : UInt8) (a : Bytes) (h : d ∉ a) : pieces d a = [a] := by
  induction a with
  | nil => rfl
  | cons c t ih =>
    rw [List.mem_cons, not_or] at h
    rw [pieces, if_neg (fun e => h.1 e.symm), ih h.2]

theorem fields_none (d : UInt8) (a : Bytes) (h : d ∉ a) (hne : a ≠ []) : fields d a = [a] := by
  rw [fields, pieces_none d a h]
  cases a with
  | nil => exact absurd rfl hne
  | cons => rfl

theorem fields_dropWhile (d : UInt8) (s : Bytes) : fields d (s.dropWhile (· == d)) = fields d s := by
  induction s with
  | nil => rfl
  | cons c t ih =>
    rw [List.dropWhile_cons]
    split
    · rename_i h
      rw [ih, (by simpa using h : c = d), fields_cons_sep]
    · rfl

/-- `strtok_r` with one delimiter returns the non-empty fields. -/
theorem words_eq_fields (d : UInt8) (s : Bytes) : words (· == d) s = fields d s := by
  induction hn : s.length using Nat.strongRecOn generalizing s with
  | _ n ih =>
    rw [words]
    split
    · rename_i h
      unfold strtok at h
      split at h
      · rename_i hs
        rw [← fields_dropWhile, hs, fields_nil]
      · cases h
    · rename_i w r h
      have hlt := strtok_lt h
      rw [ih r.length (by omega) r rfl]
      unfold strtok at h
      split at h
      · cases h
      · rename_i c t hs
        simp only [Option.some.injEq, Prod.mk.injEq] at h
        obtain ⟨hw, hr⟩ := h
        rw [← fields_dropWhile d s, hs]
        have hc : ¬ (c == d) = true := by
          have := List.head?_dropWhile_not (· == d) s
          rw [hs] at this; simpa using this
        have hwd : d ∉ w := by
          rw [← hw]
          intro hm
          have := List.all_takeWhile (p := fun c => !(c == d)) (l := c :: t)
          rw [List.all_eq_true] at this
          simpa using this d hm
        have hwne : w ≠ [] := by
          rw [← hw, List.takeWhile_cons, if_pos (by simpa using hc)]; simp
        have hsplit : c :: t = w ++ (c :: t).dropWhile (fun c => !(c == d)) := by
          rw [← hw]; exact (List.takeWhile_append_dropWhile).symm
        cases hrest : (c :: t).dropWhile (fun c => !(c == d)) with
        | nil =>
          rw [hrest] at hr hsplit
          simp only [List.drop_nil] at hr
          rw [hsplit, ← hr, fields_nil, List.append_nil, fields_none d w hwd hwne]
        | cons x r' =>
          have hx : x = d := by
            have := List.head?_dropWhile_not (fun c => !(c == d)) (c :: t)
            rw [hrest] at this; simpa using this
          rw [hrest] at hr hsplit
          simp only [List.drop_succ_cons, List.drop_zero] at hr
          rw [hsplit, ← hr, hx, fields_append, fields_none d w hwd hwne]
          rfl

theorem fields_mem (d : UInt8) (s w : Bytes) (h : w ∈ fields d s) : w ≠ [] ∧ d ∉ w ∧ ∀ c ∈ w, c ∈ s := by
  have hp : ∀ (s : Bytes), ∀ w ∈ pieces d s, d ∉ w ∧ ∀ c ∈ w, c ∈ s := by
    intro s
    induction s with
    | nil => intro w hw; simp [pieces] at hw; subst hw; simp
    | cons c t ih =>
      intro w hw
      rw [pieces] at hw
      split at hw
      · rw [List.mem_cons] at hw
        rcases hw with rfl | hw
        · simp
        · exact ⟨(ih w hw).1, fun x hx => List.mem_cons_of_mem _ ((ih w hw).2 x hx)⟩
      · rename_i hc
        cases hpt : pieces d t with
        | nil => exact absurd hpt (pieces_ne_nil d t)
        | cons p ps =>
          rw [hpt] at hw ih
          simp only [List.mem_cons] at hw
          rcases hw with rfl | hw
          · have := ih p (by simp)
            refine ⟨by simp only [List.mem_cons, not_or]; exact ⟨fun e => hc e.symm, this.1⟩, ?_⟩
            intro x hx
            rw [List.mem_cons] at hx ⊢
            rcases hx with rfl | hx
            · exact Or.inl rfl
            · exact Or.inr (this.2 x hx)
          · have := ih w (by simp [hw])
            exact ⟨this.1, fun x hx => List.mem_cons_of_mem _ (this.2 x hx)⟩
  rw [fields, List.mem_filter] at h
  refine ⟨?_, hp s w h.1⟩
  rintro rfl
  simp at h

end Verif.Strtok
