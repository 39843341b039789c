import Verif.Model.WaitClose
/-! # C60, C84: waiting for the end of a websocket -/
namespace Verif.Props
open Verif.WaitClose

/-- The states an execution from `s` can come to when it uses only actions in `ok`. -/
inductive WaitLater (ok : Act → Prop) (s : Sys) : Sys → Prop where
  | refl : WaitLater ok s s
  | step {t t' : Sys} {a : Act} : WaitLater ok s t → ok a → next t a = some (.ok t') → WaitLater ok s t'

/-- Everything but clearing the websocket. -/
def Kept (a : Act) : Prop := a ≠ .clear

/-- No spurious wakeup and no timeout. -/
def Exact (a : Act) : Prop := a ≠ .spurious ∧ a ≠ .expire

/-- The waiter's wakeup is still to come, or it has been woken up. -/
private def Fine (s : Sys) : Prop :=
  s.kind = .client ∧ s.freed = false ∧
    ((s.wt = .asleep ∧ (s.ws = .running ∨ s.ws = .ended ∨ s.ws = .closed ∨ s.ws = .telling)) ∨
      s.wt = .woken ∨ s.wt = .relocked ∨ s.wt = .unlocked ∨ s.wt = .close ∨ s.wt = .open) ∧
    (s.lock = some .ws → s.ws = .telling ∨ s.ws = .told) ∧ (s.lock = some .wt → s.wt = .relocked)

private theorem fine_next {s s' : Sys} {a : Act} (h : Fine s) (ha : Kept a) (hn : next s a = some (.ok s')) : Fine s' := by
  obtain ⟨kind, timed, conn, lock, ws, wt, ex, fr⟩ := s
  obtain ⟨hk, hf, h, h1, h2⟩ := h
  simp only at hk hf h h1 h2
  subst hk hf
  cases a <;> simp only [next, wsStep, wtStep] at hn
  · cases ws <;> cases wt <;> rcases lock with _ | ⟨_ | _⟩ <;> simp at hn h h1 h2 <;> subst hn <;> simp [Fine]
  · cases wt <;> cases ws <;> rcases lock with _ | ⟨_ | _⟩ <;> cases timed <;> cases ex <;> cases conn <;>
      simp at hn h h1 h2 <;> subst hn <;> simp [Fine]
  · split at hn <;> cases hn; simp_all [Fine]
  · split at hn <;> cases hn; simp_all [Fine]
  · exact absurd rfl ha

private theorem later_fine {s s' : Sys} (h : WaitLater Kept s s') (hs : Fine s) : Fine s' := by
  induction h with
  | refl => exact hs
  | step _ ha hn ih => exact fine_next ih ha hn

/-- **C60** (partial: the waiter must be asleep before the websocket ends). A waiter that is asleep while the websocket of a
client is open returns once the websocket thread has ended. -/
theorem C60_asleep_partial {s s' : Sys} (hk : s.kind = .client) (hw : s.wt = .asleep) (ho : s.ws = .running)
    (hl : s.lock = none) (hf : s.freed = false) (h : WaitLater Kept s s') (he : s'.ws = .exited) :
    ∃ n t, exec (List.replicate n .wt) s' = .ok t ∧ (t.wt = .close ∨ t.wt = .open) := by
  obtain ⟨_, hf', h1, h2, h3⟩ := later_fine h ⟨hk, hf, Or.inl ⟨hw, Or.inl ho⟩, by simp [hl], by simp [hl]⟩
  obtain ⟨kind, timed, conn, lock, ws, wt, ex, fr⟩ := s'
  simp only at hf' h1 h2 h3 he
  subst hf' he
  rcases lock with _ | ⟨_ | _⟩
  · simp at h1
    rcases h1 with rfl | rfl | rfl | rfl | rfl
    · refine ⟨3, _, rfl, ?_⟩; cases timed <;> cases ex <;> cases conn <;> simp
    · refine ⟨2, _, rfl, ?_⟩; cases timed <;> cases ex <;> cases conn <;> simp
    · refine ⟨1, _, rfl, ?_⟩; cases timed <;> cases ex <;> cases conn <;> simp
    · exact ⟨0, _, rfl, by simp⟩
    · exact ⟨0, _, rfl, by simp⟩
  · simp at h2
  · have := h3 rfl
    subst this
    refine ⟨2, _, rfl, ?_⟩; cases timed <;> cases ex <;> cases conn <;> simp

/-- A client waits, the websocket ends. -/
example : ∃ s s', exec [.wt, .wt, .wt] { kind := .client, timed := false } = .ok s ∧ s.wt = .asleep ∧ s.ws = .running ∧
    s.lock = none ∧ WaitLater Kept s s' ∧ s'.ws = .exited := by
  refine ⟨{ kind := .client, timed := false, wt := .asleep },
    { kind := .client, timed := false, connected := false, ws := .exited, wt := .woken }, rfl, rfl, rfl, rfl, ?_, rfl⟩
  exact .step (a := .ws) (.step (a := .ws) (.step (a := .ws) (.step (a := .ws) (.step (a := .ws) .refl
      (by unfold Kept; decide) rfl) (by unfold Kept; decide) rfl) (by unfold Kept; decide) rfl)
      (by unfold Kept; decide) rfl) (by unfold Kept; decide) rfl

/-- **C60**. Called on a websocket that is already closed, the function returns CLOSE at once. -/
theorem C60_closed {s : Sys} (hs : s.wt = .start) (hf : s.freed = false) (hc : s.connected = false) :
    next s .wt = some (.ok { s with wt := .close }) := by
  simp [next, wtStep, hs, hf, hc]

/-- **C60**. OPEN is returned only with a timeout, after the deadline, and if the websocket is open at that moment. -/
theorem C60_open {s s' : Sys} {a : Act} (hn : next s a = some (.ok s')) (h : s.wt ≠ .open) (h' : s'.wt = .open) :
    s.timed = true ∧ s.expired = true ∧ s.connected = true ∧ s'.connected = true := by
  obtain ⟨kind, timed, conn, lock, ws, wt, ex, fr⟩ := s
  cases a <;> simp only [next, wsStep, wtStep] at hn
  · cases ws <;> cases wt <;> cases fr <;> cases kind <;> rcases lock with _ | ⟨_ | _⟩ <;> simp at hn h <;> subst hn <;>
      simp at h'
  · cases wt <;> cases fr <;> rcases lock with _ | ⟨_ | _⟩ <;> cases timed <;> cases ex <;> cases conn <;>
      simp at hn h <;> subst hn <;> simp at h' ⊢
  · split at hn <;> cases hn; simp at h'
  · split at hn <;> cases hn; simp at h'
  · split at hn <;> cases hn; exact absurd h' h

example : ∃ s s', exec [.wt, .wt, .wt, .expire, .wt, .wt] { kind := .client, timed := true } = .ok s ∧
    next s .wt = some (.ok s') ∧ s'.wt = .open := ⟨_, _, rfl, rfl, rfl⟩

/-- The field `connected` says whether the thread of the websocket is in its loop. -/
private theorem connected_next {s s' : Sys} {a : Act} (h : s.connected = true ↔ s.ws = .running)
    (hn : next s a = some (.ok s')) : s'.connected = true ↔ s'.ws = .running := by
  cases a
  · simp only [next, wsStep] at hn
    split at hn <;> (repeat' split at hn) <;> simp at hn <;> subst hn <;> simp_all
  · simp only [next, wtStep] at hn
    split at hn <;> (repeat' split at hn) <;> simp at hn <;> subst hn <;> simp_all
  all_goals
    simp only [next] at hn
    split at hn <;> simp at hn
    subst hn
    simp_all

/-- **C60**. In every execution from the start of the call, OPEN is returned only when the websocket is still running. -/
theorem C60_running {k : Kind} {timed : Bool} {s s' : Sys} {a : Act}
    (hs : WaitLater (fun _ => True) { kind := k, timed := timed } s)
    (hn : next s a = some (.ok s')) (h : s.wt ≠ .open) (h' : s'.wt = .open) : s'.ws = .running := by
  have inv : s.connected = true ↔ s.ws = .running := by
    clear hn h h'
    induction hs with
    | refl => exact ⟨fun _ => rfl, fun _ => rfl⟩
    | step _ _ hn ih => exact connected_next ih hn
  exact (connected_next inv hn).1 (C60_open hn h h').2.2.2

example : ∃ s s', WaitLater (fun _ => True) { kind := .client, timed := true } s ∧
    next s .wt = some (.ok s') ∧ s.wt ≠ .open ∧ s'.wt = .open :=
  ⟨_, _, .step (a := .wt) (.step (a := .wt) (.step (a := .expire) (.step (a := .wt) (.step (a := .wt) (.step (a := .wt) .refl
    trivial rfl) trivial rfl) trivial rfl) trivial rfl) trivial rfl) trivial rfl, rfl, by decide, rfl⟩

/-- **C60** is false: `connected` is tested before the lock is taken. When the websocket ends in between, its only broadcast
comes too early, and the waiter sleeps for ever: nothing but a spurious wakeup can happen any more. -/
theorem C60_missed_false : ∃ s, exec [.wt, .ws, .ws, .ws, .ws, .ws, .wt, .wt] { kind := .client, timed := false } = .ok s ∧
    s.wt = .asleep ∧ s.ws = .exited ∧ ∀ a, a ≠ .spurious → next s a = none := by
  refine ⟨_, rfl, rfl, rfl, fun a ha => ?_⟩
  cases a <;> first | rfl | exact absurd rfl ha

/-- **C60** is false: a spurious wakeup makes the function return CLOSE for an open websocket. -/
theorem C60_spurious_false : ∃ s, exec [.wt, .wt, .wt, .spurious, .wt, .wt, .wt] { kind := .client, timed := false } = .ok s ∧
    s.wt = .close ∧ s.connected = true ∧ s.ws = .running := ⟨_, rfl, rfl, rfl, rfl⟩

/-- **C60** is false: the thread of a server websocket does not broadcast, it frees the manager while the waiter sleeps on its
condition variable. -/
theorem C60_server_false : ∃ s, exec [.wt, .wt, .wt, .ws, .ws, .ws] { kind := .server, timed := false } = .ok s ∧
    s.wt = .asleep ∧ s.freed = true ∧ ∀ a, a ≠ .spurious → next s a = none := by
  refine ⟨_, rfl, rfl, rfl, fun a ha => ?_⟩
  cases a <;> first | rfl | exact absurd rfl ha

/-! ## C84 -/

private def Safe (s : Sys) : Prop :=
  s.kind = .client ∧ (s.freed = true → s.wt = .close) ∧
    ((s.wt = .asleep ∧ (s.ws = .running ∨ s.ws = .ended ∨ s.ws = .closed ∨ s.ws = .telling)) ∨
      (s.wt = .woken ∧ (s.ws = .told ∨ s.ws = .exited)) ∨
      ((s.wt = .relocked ∨ s.wt = .unlocked ∨ s.wt = .close ∨ s.wt = .open) ∧ s.ws = .exited)) ∧
    (s.ws = .telling ∨ s.ws = .told → s.lock = some .ws)

private theorem safe_next {s : Sys} {a : Act} {r : Res Sys} (h : Safe s) (ha : Exact a) (hn : next s a = some r) :
    ∃ s', r = .ok s' ∧ Safe s' := by
  obtain ⟨kind, timed, conn, lock, ws, wt, ex, fr⟩ := s
  obtain ⟨hk, hf, h, h1⟩ := h
  simp only at hk hf h h1
  subst hk
  cases a <;> simp only [next, wsStep, wtStep] at hn
  · cases ws <;> cases wt <;> cases fr <;> rcases lock with _ | ⟨_ | _⟩ <;> simp at hn hf h h1 <;> subst hn <;>
      exact ⟨_, rfl, by simp [Safe]⟩
  · cases wt <;> cases ws <;> cases fr <;> rcases lock with _ | ⟨_ | _⟩ <;> cases timed <;> cases ex <;> cases conn <;>
      simp at hn hf h h1 <;> subst hn <;> exact ⟨_, rfl, by simp [Safe]⟩
  · exact absurd rfl ha.1
  · exact absurd rfl ha.2
  · split at hn
    · case isTrue e => cases hn; refine ⟨_, rfl, ?_⟩; simp_all [Safe]
    · cases hn

/-- **C84** (partial: the waiter is asleep before the end, and is woken by the broadcast only). Clearing the websocket after
CLOSE never takes it away from its thread. -/
theorem C84_clear_partial {s s' : Sys} (hk : s.kind = .client) (hw : s.wt = .asleep) (ho : s.ws = .running)
    (hf : s.freed = false) (h : WaitLater Exact s s') {a : Act} (ha : Exact a) : next s' a ≠ some .ub := by
  have : Safe s' := by
    induction h with
    | refl => exact ⟨hk, by simp [hf], Or.inl ⟨hw, Or.inl ho⟩, by simp [ho]⟩
    | step _ hb hn ih =>
      obtain ⟨t, e, h⟩ := safe_next ih hb hn
      cases e
      exact h
  intro e
  obtain ⟨_, e', _⟩ := safe_next this ha e
  cases e'

example : ∃ s s', exec [.wt, .wt, .wt] { kind := .client, timed := false } = .ok s ∧ s.wt = .asleep ∧ s.ws = .running ∧
    s.freed = false ∧ exec [.ws, .ws, .ws, .ws, .ws, .wt, .wt, .wt, .clear] s = .ok s' ∧ s'.freed = true :=
  ⟨_, _, rfl, rfl, rfl, rfl, rfl, rfl⟩

/-- **C84** is false: `connected` is 0 as soon as the loop of the thread ends. A client that asks at that moment gets CLOSE and
frees the websocket, which the thread still uses. -/
theorem C84_early_false : exec [.ws, .wt, .clear, .ws] { kind := .client, timed := false } = .ub := rfl

end Verif.Props
