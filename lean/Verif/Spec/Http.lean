import Verif.Basic
/-!
# Specification: reading an HTTP/1.1 message (RFC 9112, sections 2 to 5)

A start line, field lines `name: value`, an empty line, the rest. Lines end with CR LF. Blanks around a value do not belong to
it.
-/
namespace Verif.Spec.Http

/-- The first line, without its CR LF, and what follows. -/
def line : Bytes → Option (Bytes × Bytes)
  | [] => none
  | c :: t =>
    match c, t with
    | 0x0d, 0x0a :: r => some ([], r)
    | _, _ => (line t).map (fun p => (c :: p.1, p.2))

/-- Space or tab. -/
def blank (c : UInt8) : Bool := c == 0x20 || c == 0x09

/-- Without blanks at both ends. -/
def strip (s : Bytes) : Bytes := ((s.dropWhile blank).reverse.dropWhile blank).reverse

/-- `name: value` -/
def field (l : Bytes) : Option (Bytes × Bytes) :=
  match l.dropWhile (· != 0x3a) with
  | _ :: v => some (l.takeWhile (· != 0x3a), strip v)
  | [] => none

theorem line_lt {s a r : Bytes} (h : line s = some (a, r)) : r.length < s.length := by
  induction s generalizing a r with
  | nil => simp [line] at h
  | cons c t ih =>
    unfold line at h
    split at h
    · cases h; simp; omega
    · cases e : line t with
      | none => rw [e] at h; simp at h
      | some p =>
        rw [e] at h
        simp at h
        have := ih (a := p.1) (r := p.2) (by rw [e])
        rw [← h.2]; simp; omega

/-- Field lines up to the empty line, and what follows it. -/
def fields (s : Bytes) : Option (List (Bytes × Bytes) × Bytes) :=
  match h : line s with
  | none => none
  | some ([], r) => some ([], r)
  | some (l, r) =>
    match field l, fields r with
    | some f, some (fs, b) => some (f :: fs, b)
    | _, _ => none
termination_by s.length
decreasing_by exact line_lt h

/-- A message: start line, fields, and what follows the empty line. -/
def message (s : Bytes) : Option (Bytes × List (Bytes × Bytes) × Bytes) :=
  match line s with
  | none => none
  | some (l, r) => (fields r).map (fun p => (l, p.1, p.2))

/-- A field name: not empty, without ':', CR and LF. -/
def Name (s : Bytes) : Prop := s ≠ [] ∧ (0x3a : UInt8) ∉ s ∧ (0x0d : UInt8) ∉ s ∧ (0x0a : UInt8) ∉ s

/-- A field value: without CR and LF, without blanks at its ends. -/
def Value (s : Bytes) : Prop :=
  (0x0d : UInt8) ∉ s ∧ (0x0a : UInt8) ∉ s ∧ (∀ c, s.head? = some c → blank c = false) ∧ ∀ c, s.getLast? = some c → blank c = false

instance (s : Bytes) : Decidable (Name s) := inferInstanceAs (Decidable (_ ∧ _))

instance (o : Option UInt8) : Decidable (∀ c, o = some c → blank c = false) :=
  decidable_of_iff (o.all (fun c => !blank c) = true) (by cases o <;> simp)

instance (s : Bytes) : Decidable (Value s) := inferInstanceAs (Decidable (_ ∧ _))

end Verif.Spec.Http
