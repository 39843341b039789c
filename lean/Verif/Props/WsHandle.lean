import Verif.Model.WsHandle
/-! # C85: the handle of a websocket client -/
namespace Verif.Props
open Verif.WsHandle

/-- Calls on a connection that stays open. -/
def isUse : Call → Bool
  | .status | .sendCloseSignal | .waitClose false => true
  | _ => false

/-- A program that uses the handle as the code needs it: extensions first, then an opening; status, signal and waiting only
between a successful opening and the end; after `close` or a failed opening the handle is not used again; after
`waitClose` returned CLOSE it may be opened again. -/
inductive Careful : List Call → Prop where
  | nil : Careful []
  | ext {l : List Call} : Careful l → Careful (.addExtension :: l)
  | refused {l : List Call} : Careful l → Careful (.open .refused :: l)
  | failed : Careful [.open .failed]
  | opened (us : List Call) : (∀ c ∈ us, isUse c = true) → Careful (.open .done :: us)
  | closed (us : List Call) : (∀ c ∈ us, isUse c = true) → Careful (.open .done :: (us ++ [.close]))
  | again (us : List Call) {l : List Call} : (∀ c ∈ us, isUse c = true) → Careful l →
      Careful (.open .done :: (us ++ .waitClose true :: l))

private theorem run_append (l r : List Call) : ∀ p, run (l ++ r) p = run l p >>= run r := by
  induction l with
  | nil => intro p; rfl
  | cons c l ih =>
    intro p
    simp only [List.cons_append, run]
    cases call c p with
    | ub => rfl
    | ok q => simp [ih]

private theorem run_uses {us : List Call} (h : ∀ c ∈ us, isUse c = true) : run us .live = .ok .live := by
  induction us with
  | nil => rfl
  | cons c r ih =>
    have hc := h c (by simp)
    have hr := ih (fun c hc => h c (by simp [hc]))
    cases c <;> simp [isUse] at hc <;> simp [run, call, status, sendCloseSignal, waitClose, hr]
    rename_i b
    cases b <;> simp_all

/-- **C85** (partial: only for careful programs). No undefined behaviour. -/
theorem C85_careful_partial {l : List Call} (h : Careful l) :
    (∃ p, run l .null = .ok p) ∧ ∃ p, run l .idle = .ok p := by
  induction h with
  | nil => exact ⟨⟨_, rfl⟩, _, rfl⟩
  | ext _ ih => exact ⟨ih.2, ih.2⟩
  | refused _ ih => exact ih
  | failed => exact ⟨⟨_, rfl⟩, _, rfl⟩
  | opened us h => exact ⟨⟨.live, run_uses h⟩, .live, run_uses h⟩
  | closed us h =>
    have : run (us ++ [.close]) .live = .ok .dead := by rw [run_append, run_uses h]; rfl
    exact ⟨⟨_, this⟩, _, this⟩
  | @again us l h _ ih =>
    have : run (us ++ .waitClose true :: l) .live = run l .null := by rw [run_append, run_uses h]; rfl
    obtain ⟨⟨p, hp⟩, _⟩ := ih
    exact ⟨⟨p, by rw [← hp]; exact this⟩, p, by rw [← hp]; exact this⟩

example : Careful [.addExtension, .open .done, .status, .waitClose false, .waitClose true, .open .refused, .open .done,
    .sendCloseSignal, .close] :=
  .ext (.again [.status, .waitClose false] (by decide) (.refused (.closed [.sendCloseSignal] (by decide))))

/-- **C85**. After `waitClose` has returned CLOSE the handle is as new. -/
theorem C85_reusable (us : List Call) (h : ∀ c ∈ us, isUse c = true) (l : List Call) :
    run (.open .done :: (us ++ .waitClose true :: l)) .null = run l .null := by
  show run (us ++ .waitClose true :: l) .live = _
  rw [run_append, run_uses h]; rfl

/-- **C85** is false: after `ulfius_websocket_client_connection_close` the handle points to freed memory, and every call that gets as far as the
websocket uses it. -/
theorem C85_close_false : ∀ c : Call, c ≠ .open .refused → run [.open .done, .close, c] .null = .ub := by
  intro c hc
  cases c with
  | «open» o => cases o <;> first | rfl | exact absurd rfl hc
  | _ => rfl

/-- **C85** is false: so it does after an opening that failed, and the next attempt uses it. -/
theorem C85_retry_false : ∀ c : Call, c ≠ .open .refused → run [.open .failed, c] .null = .ub := by
  intro c hc
  cases c with
  | «open» o => cases o <;> first | rfl | exact absurd rfl hc
  | _ => rfl

/-- **C85** is false: asking for the status of a handle that was never opened, telling it to close, or waiting for its end follows a null pointer;
so it does after the end of the connection was waited for. -/
theorem C85_null_false : ∀ c : Call, c = .status ∨ c = .sendCloseSignal ∨ c = .waitClose true ∨ c = .waitClose false →
    run [c] .null = .ub ∧ run [.open .done, .waitClose true, c] .null = .ub := by
  rintro c (rfl | rfl | rfl | rfl) <;> exact ⟨rfl, rfl⟩

end Verif.Props
