import Verif.Basic
/-!
# Specification: content readers of libmicrohttpd

`MHD_create_response_from_callback` (microhttpd.h, `MHD_ContentReaderCallback`): the reader is asked for the bytes at a position,
at most so many as fit the buffer and as are missing; it gives some bytes, nothing yet (0), or the end
(`MHD_CONTENT_READER_END_OF_STREAM`). When the size was given the body ends with the last byte of it, else where the reader says.
-/
namespace Verif.Spec.Stream

/-- What a reader returns. -/
inductive Piece where
  | data (b : Bytes) | notYet | theEnd
  deriving DecidableEq, Repr

/-- A reader: state, position, size of the buffer. -/
abbrev Reader (σ : Type) := σ → Nat → Nat → Piece × σ

/-- The buffer offered: not empty, at most the block size, at most what is missing. -/
def Room (size : Option Nat) (block : Nat) (sent : Bytes) (max : Nat) : Prop :=
  0 < max ∧ max ≤ block ∧ ∀ s, size = some s → sent.length + max ≤ s

/-- From the state `st`, after the bytes `sent`, the body is brought to its end, and it is `out`. -/
inductive Completes {σ : Type} (rd : Reader σ) (size : Option Nat) (block : Nat) : σ → Bytes → Bytes → Prop
  | full {st sent} : size = some sent.length → Completes rd size block st sent sent
  | more {st st' sent out d max} : Room size block sent max → rd st sent.length max = (.data d, st') → d ≠ [] →
      d.length ≤ max → Completes rd size block st' (sent ++ d) out → Completes rd size block st sent out
  | wait {st st' sent out max} : Room size block sent max → rd st sent.length max = (.notYet, st') →
      Completes rd size block st' sent out → Completes rd size block st sent out
  | theEnd {st st' sent max} : size = none → Room size block sent max → rd st sent.length max = (.theEnd, st') →
      Completes rd size block st sent sent

/-- The same, when all buffers have sizes `ok`. -/
inductive CompletesIn {σ : Type} (ok : Nat → Prop) (rd : Reader σ) (size : Option Nat) (block : Nat) : σ → Bytes → Bytes → Prop
  | full {st sent} : size = some sent.length → CompletesIn ok rd size block st sent sent
  | more {st st' sent out d max} : Room size block sent max → ok max → rd st sent.length max = (.data d, st') → d ≠ [] →
      d.length ≤ max → CompletesIn ok rd size block st' (sent ++ d) out → CompletesIn ok rd size block st sent out
  | wait {st st' sent out max} : Room size block sent max → ok max → rd st sent.length max = (.notYet, st') →
      CompletesIn ok rd size block st' sent out → CompletesIn ok rd size block st sent out
  | theEnd {st st' sent max} : size = none → Room size block sent max → ok max → rd st sent.length max = (.theEnd, st') →
      CompletesIn ok rd size block st sent sent

/-- Sanity: with any sizes it is the first relation. -/
theorem completesIn_any {σ : Type} (rd : Reader σ) (size : Option Nat) (block : Nat) (st : σ) (sent out : Bytes) :
    CompletesIn (fun _ => True) rd size block st sent out ↔ Completes rd size block st sent out := by
  constructor
  · intro h
    induction h with
    | full h => exact .full h
    | more h1 _ h2 h3 h4 _ ih => exact .more h1 h2 h3 h4 ih
    | wait h1 _ h2 _ ih => exact .wait h1 h2 ih
    | theEnd h1 h2 _ h3 => exact .theEnd h1 h2 h3
  · intro h
    induction h with
    | full h => exact .full h
    | more h1 h2 h3 h4 _ ih => exact .more h1 trivial h2 h3 h4 ih
    | wait h1 h2 _ ih => exact .wait h1 trivial h2 ih
    | theEnd h1 h2 h3 => exact .theEnd h1 h2 trivial h3

end Verif.Spec.Stream
