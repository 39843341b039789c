import Verif.Spec.Http
import Verif.Lemmas.UMap
/-! # Lemmas on reading HTTP messages -/
namespace Verif.Spec.Http

theorem line_crlf (a r : Bytes) (h : (0x0d : UInt8) ∉ a) : line (a ++ 0x0d :: 0x0a :: r) = some (a, r) := by
  induction a with
  | nil => rfl
  | cons c t ih =>
    simp only [List.mem_cons, not_or] at h
    rw [List.cons_append, line]
    · rw [ih h.2]; rfl
    · intro _ hc; exact absurd hc.symm (by simpa using h.1)

theorem strip_id (s : Bytes) (h1 : ∀ c, s.head? = some c → blank c = false) (h2 : ∀ c, s.getLast? = some c → blank c = false) :
    strip s = s := by
  unfold strip
  have e1 : s.dropWhile blank = s := by
    cases s with
    | nil => rfl
    | cons c t => rw [List.dropWhile_cons, if_neg (by simp [h1 c rfl])]
  rw [e1]
  have e2 : s.reverse.dropWhile blank = s.reverse := by
    cases e : s.reverse with
    | nil => rfl
    | cons c t =>
      rw [List.dropWhile_cons, if_neg]
      have := h2 c (by rw [List.getLast?_eq_head?_reverse, e]; rfl)
      simp [this]
  rw [e2, List.reverse_reverse]

theorem strip_space (s : Bytes) (h : Value s) : strip (0x20 :: s) = s := by
  have e : strip (0x20 :: s) = strip s := by
    unfold strip
    rw [List.dropWhile_cons, if_pos (by decide)]
  rw [e, strip_id s h.2.2.1 h.2.2.2]

theorem field_line (k v : Bytes) (hk : (0x3a : UInt8) ∉ k) : field (k ++ 0x3a :: v) = some (k, strip v) := by
  unfold field
  have h : ∀ c ∈ k, (c != 0x3a) = true := by
    intro c hc
    simp only [bne_iff_ne, ne_eq]
    intro e; exact hk (e ▸ hc)
  rw [List.dropWhile_append_of_pos h, List.takeWhile_append_of_pos h]
  simp

/-- `k: v` CR LF in front of readable fields. -/
theorem fields_line (k v r : Bytes) (hk : Name k) (hv : (0x0d : UInt8) ∉ v) (fs : List (Bytes × Bytes)) (b : Bytes)
    (h : fields r = some (fs, b)) : fields (k ++ 0x3a :: (v ++ 0x0d :: 0x0a :: r)) = some ((k, strip v) :: fs, b) := by
  have e : line (k ++ 0x3a :: (v ++ 0x0d :: 0x0a :: r)) = some (k ++ 0x3a :: v, r) := by
    rw [← line_crlf (k ++ 0x3a :: v) r (by simp [hk.2.2.1, hv])]
    simp
  rw [fields]
  split
  · rename_i h'; rw [e] at h'; cases h'
  · rename_i r' h'; rw [e] at h'
    simp at h'
  · rename_i l r' hne h'
    rw [e] at h'
    simp only [Option.some.injEq, Prod.mk.injEq] at h'
    obtain ⟨rfl, rfl⟩ := h'
    rw [field_line k v hk.2.1, h]

theorem fields_end (r : Bytes) : fields (0x0d :: 0x0a :: r) = some ([], r) := by
  rw [fields]
  have e : line (0x0d :: 0x0a :: r) = some ([], r) := rfl
  split
  · rename_i h'; rw [e] at h'; cases h'
  · rename_i r' h'; rw [e] at h'; cases h'; rfl
  · rename_i l r' hne h'; rw [e] at h'; cases h'; exact absurd rfl (hne)

theorem message_line (a r : Bytes) (h : (0x0d : UInt8) ∉ a) (fs : List (Bytes × Bytes)) (b : Bytes) (hf : fields r = some (fs, b)) :
    message (a ++ 0x0d :: 0x0a :: r) = some (a, fs, b) := by
  unfold message
  rw [line_crlf a r h]
  simp [hf]

/-- The text `x` in front of other fields adds the fields `f`. -/
def Adds (x : Bytes) (f : List (Bytes × Bytes)) : Prop := ∀ r, fields (x ++ r) = (fields r).map (fun p => (f ++ p.1, p.2))

theorem Adds.nil : Adds [] [] := by
  intro r
  rw [List.nil_append]
  cases fields r <;> rfl

theorem Adds.append {x y : Bytes} {f g : List (Bytes × Bytes)} (hx : Adds x f) (hy : Adds y g) : Adds (x ++ y) (f ++ g) := by
  intro r
  rw [List.append_assoc, hx, hy, Option.map_map]
  congr 1
  funext p
  simp

theorem adds_line (k v : Bytes) (hk : Name k) (hv : (0x0d : UInt8) ∉ v) : Adds (k ++ 0x3a :: (v ++ b!"\r\n")) [(k, strip v)] := by
  intro r
  have e0 : k ++ 0x3a :: (v ++ b!"\r\n") ++ r = k ++ 0x3a :: (v ++ 0x0d :: 0x0a :: r) := by simp
  rw [e0]
  have e : line (k ++ 0x3a :: (v ++ 0x0d :: 0x0a :: r)) = some (k ++ 0x3a :: v, r) := by
    rw [← line_crlf (k ++ 0x3a :: v) r (by simp [hk.2.2.1, hv])]
    simp
  rw [fields]
  split
  · rename_i h'; rw [e] at h'; cases h'
  · rename_i r' h'; rw [e] at h'
    simp at h'
  · rename_i l r' hne h'
    rw [e] at h'
    simp only [Option.some.injEq, Prod.mk.injEq] at h'
    obtain ⟨rfl, rfl⟩ := h'
    rw [field_line k v hk.2.1]
    cases fields r <;> rfl

theorem adds_one (k v : Bytes) (hk : Name k) (hv : Value v) : Adds (k ++ b!": " ++ v ++ b!"\r\n") [(k, v)] := by
  have := adds_line k (0x20 :: v) hk (by simp [hv.1])
  rw [strip_space v hv] at this
  simpa using this

theorem adds_if (c : Bool) {x : Bytes} {f : List (Bytes × Bytes)} (h : Adds x f) :
    Adds (if c then x else []) (if c then f else []) := by
  cases c
  · exact Adds.nil
  · exact h

theorem Adds.fields {x : Bytes} {f : List (Bytes × Bytes)} (h : Adds x f) (r : Bytes) :
    fields (x ++ 0x0d :: 0x0a :: r) = some (f, r) := by
  rw [h, fields_end]; simp

theorem fields_nil : Http.fields [] = none := by
  rw [Http.fields]
  split
  · rfl
  · rename_i h; cases h
  · rename_i h; cases h

end Verif.Spec.Http
