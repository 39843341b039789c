import Verif.Basic
/-!
# Specification: insertion-ordered map from C strings to optional C strings

Independent of the code. `none` as a value is the NULL value.
-/
namespace Verif.Spec.OMap

/-- Keys in insertion order with their value. -/
abbrev OMap := List (Bytes × Option Bytes)

/-- Value of a key. -/
def lookup (m : OMap) (k : Bytes) : Option (Option Bytes) := (m.find? (fun p => p.1 == k)).map (·.2)

/-- Put: a known key keeps its place, a new one goes last. -/
def put (m : OMap) (k : Bytes) (v : Option Bytes) : OMap :=
  if m.any (fun p => p.1 == k) then m.map (fun p => if p.1 == k then (k, v) else p) else m ++ [(k, v)]

/-- Remove a key. -/
def remove (m : OMap) (k : Bytes) : OMap := m.filter (fun p => !(p.1 == k))

/-- What a caller of the C library does. -/
inductive Op where
  | put (k : Bytes) (v : Option Bytes)
  | removeKey (k : Bytes)
  | removeAt (i : Nat)
  | empty

/-- Outcome of a call as documented in the header. -/
inductive Code where
  | done | badParams | notFound
  deriving DecidableEq, Repr

/-- The call on the ideal map. -/
def step (m : OMap) : Op → Code × OMap
  | .put k v => if k = [] then (.badParams, m) else (.done, put m k v)
  | .removeKey k => (if (lookup m k).isSome then .done else .notFound, remove m k)
  | .removeAt i => if i < m.length then (.done, m.eraseIdx i) else (.notFound, m)
  | .empty => (.done, [])

/-- A history on the ideal map. -/
def run (m : OMap) : List Op → List Code × OMap
  | [] => ([], m)
  | op :: t => ((step m op).1 :: (run (step m op).2 t).1, (run (step m op).2 t).2)

/-! Sanity of the specification: the two map laws. -/

theorem lookup_put_self (m : OMap) (k : Bytes) (v : Option Bytes) : lookup (put m k v) k = some v := by
  unfold lookup put
  by_cases h : m.any (fun p => p.1 == k) = true
  · rw [if_pos h]
    induction m with
    | nil => simp at h
    | cons p t ih =>
      by_cases hp : (p.1 == k) = true
      · rw [List.map_cons, if_pos hp, List.find?_cons]
        simp
      · simp only [List.any_cons, hp, Bool.false_or] at h
        rw [List.map_cons, if_neg hp, List.find?_cons]
        simp only [hp]; exact ih h
  · rw [if_neg h, List.find?_append]
    have : m.find? (fun p => p.1 == k) = none := by
      rw [List.find?_eq_none]; intro x hx hxk; exact h (List.any_eq_true.2 ⟨x, hx, hxk⟩)
    simp [this]

theorem lookup_put_other (m : OMap) (k k' : Bytes) (v : Option Bytes) (hk : k ≠ k') :
    lookup (put m k v) k' = lookup m k' := by
  unfold lookup put
  by_cases h : m.any (fun p => p.1 == k) = true
  · rw [if_pos h]
    clear h
    induction m with
    | nil => rfl
    | cons p t ih =>
      by_cases hp : (p.1 == k) = true
      · have hpk : p.1 = k := by simpa using hp
        have h1 : (p.1 == k') = false := by simpa [hpk] using hk
        have h2 : (k == k') = false := by simpa using hk
        rw [List.map_cons, if_pos hp, List.find?_cons, List.find?_cons]
        simp only [h1, h2]; exact ih
      · rw [List.map_cons, if_neg hp, List.find?_cons, List.find?_cons]
        by_cases hp' : (p.1 == k') = true
        · simp [hp']
        · simp only [hp']; exact ih
  · rw [if_neg h, List.find?_append]
    simp [hk]

theorem lookup_remove_self (m : OMap) (k : Bytes) : lookup (remove m k) k = none := by
  simp [lookup, remove]

end Verif.Spec.OMap
