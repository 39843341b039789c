import Verif.Basic
/-!
# libc `strtok_r` and orcania `trimcharacter`

`strtok_r` is used by `ulfius_split_url`, `ulfius_parse_url` (src/u_request.c:49–86, 203–249) and the client
code (src/u_send_request.c). Its behaviour is that of the C library (POSIX): skip delimiters, return the
characters up to the next delimiter, continue after it.
-/
namespace Verif.Strtok

/-- One call of `strtok_r`: the word and what is left for the next call, or NULL. -/
def strtok (d : UInt8 → Bool) (s : Bytes) : Option (Bytes × Bytes) :=
  match s.dropWhile d with
  | [] => none
  | c :: t => some ((c :: t).takeWhile (fun c => !d c), ((c :: t).dropWhile (fun c => !d c)).drop 1)

theorem length_dropWhile_le {α : Type} (p : α → Bool) (l : List α) : (l.dropWhile p).length ≤ l.length := by
  induction l with
  | nil => simp
  | cons a t ih => rw [List.dropWhile_cons]; split <;> simp; omega

theorem strtok_lt {d : UInt8 → Bool} {s w r : Bytes} (h : strtok d s = some (w, r)) : r.length < s.length := by
  unfold strtok at h
  have h1 := length_dropWhile_le d s
  split at h
  · cases h
  · rename_i c t hs
    simp only [Option.some.injEq, Prod.mk.injEq] at h
    obtain ⟨_, rfl⟩ := h
    rw [hs, List.length_cons] at h1
    have h2 : ¬ d c = true := by
      have := List.head?_dropWhile_not d s
      rw [hs] at this; simpa using this
    have h3 := length_dropWhile_le (fun c => !d c) t
    rw [List.dropWhile_cons, if_pos (by simpa using h2)]
    simp; omega

/-- The words successive calls of `strtok_r` return, up to NULL. -/
def words (d : UInt8 → Bool) (s : Bytes) : List Bytes :=
  match h : strtok d s with
  | none => []
  | some (w, r) => w :: words d r
termination_by s.length
decreasing_by exact strtok_lt h

/-- orcania `trimcharacter(s, c)`: the string without leading and trailing `c`. -/
def trimChar (c : UInt8) (s : Bytes) : Bytes :=
  ((s.dropWhile (· == c)).reverse.dropWhile (· == c)).reverse

/-- orcania `trimwhitespace(s)`. -/
def trimSpace (s : Bytes) : Bytes :=
  ((s.dropWhile isSpace).reverse.dropWhile isSpace).reverse

end Verif.Strtok
