import Verif.Model.MgrWait
namespace Verif.Props
open Verif.MgrWait

/-- The callback heeds the close: there is a measure of the work before it that goes down with every send, with every look or wait that says
the websocket is closed, and no wait is without a timeout. (Loops that go on while the websocket is open are allowed.) -/
def Heeds {σ : Type} (op : σ → Op σ) (μ : σ → Nat) : Prop :=
  ∀ p, match op p with
    | .ret => True
    | .send k => ∀ b, μ (k b) < μ p
    | .look k => μ (k false) < μ p
    | .wait t k => t ≠ 0 ∧ μ (k false) < μ p

/-- The start: the manager is at the beginning of its code, the websocket is open. -/
def mgrStart {σ : Type} (client : Bool) (p : σ) : Sys σ := { client, mgr := .at p }

namespace MgrWaitHelp

def left {σ : Type} (μ : σ → Nat) : Mgr σ → Nat
  | .at p => 3 * μ p + 3
  | .asleep _ k => 3 * μ (k false) + 5
  | .woken _ _ k => 3 * μ (k false) + 4
  | .returned => 0

def ahead : Loop → Nat
  | .running => 3
  | .join => 2
  | .closing => 1
  | .done => 0

def timed {σ : Type} : Mgr σ → Prop
  | .asleep t _ => t ≠ 0
  | _ => True

structure Inv {σ : Type} (s : Sys σ) : Prop where
  timed : timed s.mgr
  late : s.loop = .closing ∨ s.loop = .done → s.mgr = .returned ∧ s.closes = 1
  early : s.loop = .running ∨ s.loop = .join → s.closes = 0

theorem inv_start {σ : Type} (client : Bool) (p : σ) : Inv (mgrStart client p) :=
  ⟨trivial, fun h => by cases h <;> contradiction, fun _ => rfl⟩

/-- Every step of the manager leaves the thread of the websocket alone. -/
theorem mgr_keeps {σ : Type} {op : σ → Op σ} {s s' : Sys σ} {ok drop : Bool} (h : mgrStep op s ok drop = some s') :
    s'.loop = s.loop ∧ s'.closes = s.closes ∧ s.mgr ≠ .returned ∧ (s.connected = false → s'.connected = false) := by
  unfold mgrStep at h
  split at h
  · rename_i p hp
    split at h <;> simp only [Option.some.injEq] at h <;> subst h <;> simp_all
  · cases h
  · rename_i hp
    simp only [Option.some.injEq] at h; subst h; simp_all
  · cases h

theorem inv_next {σ : Type} {op : σ → Op σ} {μ : σ → Nat} (hh : Heeds op μ) {s s' : Sys σ} {a : Act} (hi : Inv s)
    (h : next op s a = some s') : Inv s' := by
  cases a with
  | mgr ok drop =>
    obtain ⟨h1, h2, h3, _⟩ := mgr_keeps h
    refine ⟨?_, fun hl => ?_, fun hl => by rw [h2]; exact hi.early (by rwa [h1] at hl)⟩
    · simp only [next, mgrStep] at h
      split at h
      · rename_i p hp
        have := hh p
        cases ho : op p with
        | ret => rw [ho] at h; cases h; trivial
        | send k => rw [ho] at h; cases h; trivial
        | look k => rw [ho] at h; cases h; trivial
        | wait t k =>
          rw [ho] at h this
          cases h
          show timed (if s.connected then .asleep t k else .at (k false))
          split
          · exact this.1
          · trivial
      · cases h
      · simp only [Option.some.injEq] at h; subst h; trivial
      · cases h
    · rw [h1] at hl
      exact absurd (hi.late hl).1 h3
  | expire =>
    simp only [next] at h
    split at h
    · rename_i hm
      split at h
      · cases h
      · simp only [Option.some.injEq] at h; subst h
        exact ⟨trivial, fun hl => by (have := (hi.late hl).1; rw [hm] at this; cases this), hi.early⟩
    · cases h
  | spurious =>
    simp only [next] at h
    split at h
    · rename_i hm
      simp only [Option.some.injEq] at h; subst h
      exact ⟨trivial, fun hl => by (have := (hi.late hl).1; rw [hm] at this; cases this), hi.early⟩
    · cases h
  | drop =>
    simp only [next] at h
    split at h
    · simp only [Option.some.injEq] at h; subst h; exact ⟨hi.timed, hi.late, hi.early⟩
    · cases h
  | fail =>
    simp only [next] at h
    split at h
    · rename_i hl
      simp only [Option.some.injEq] at h; subst h
      exact ⟨hi.timed, fun hl => by cases hl <;> contradiction, fun _ => hi.early (.inl hl.1)⟩
    · cases h
  | loop =>
    simp only [next, loopStep] at h
    split at h
    · rename_i hl
      split at h
      · cases h
      · simp only [Option.some.injEq] at h; subst h
        exact ⟨hi.timed, fun hl => by cases hl <;> contradiction, fun _ => hi.early (.inl hl)⟩
    · rename_i hl
      split at h
      · rename_i ho
        simp only [Option.some.injEq] at h; subst h
        have hm : s.mgr = .returned := by
          revert ho; cases s.mgr <;> simp [over]
        exact ⟨hi.timed, fun _ => ⟨hm, by simp [hi.early (.inr hl)]⟩, fun hl => by cases hl <;> contradiction⟩
      · cases h
    · rename_i hl
      simp only [Option.some.injEq] at h; subst h
      obtain ⟨hm, hc⟩ := hi.late (.inl hl)
      refine ⟨?_, fun _ => ⟨?_, hc⟩, fun hl => by cases hl <;> contradiction⟩ <;> cases s.client <;> simp [hm, wake, timed]
    · cases h

theorem inv_path {σ : Type} {op : σ → Op σ} {μ : σ → Nat} (hh : Heeds op μ) (as : List Act) :
    ∀ {s s' : Sys σ}, Inv s → path op s as = some s' → Inv s' := by
  induction as with
  | nil => intro s s' hi h; simp only [path, Option.some.injEq] at h; exact h ▸ hi
  | cons a as ih =>
    intro s s' hi h
    simp only [path] at h
    split at h
    · rename_i s1 h1; exact ih (inv_next hh hi h1) h
    · cases h

/-- When the websocket is closed, it stays so, and every action leaves less to do. -/
theorem less {σ : Type} {op : σ → Op σ} {μ : σ → Nat} (hh : Heeds op μ) {s s' : Sys σ} {a : Act} (hi : Inv s) (hc : s.connected = false)
    (h : next op s a = some s') : s'.connected = false ∧ left μ s'.mgr + ahead s'.loop < left μ s.mgr + ahead s.loop := by
  cases a with
  | mgr ok drop =>
    obtain ⟨h1, _, _, h4⟩ := mgr_keeps h
    refine ⟨h4 hc, ?_⟩
    rw [h1]
    simp only [next, mgrStep, hc] at h
    split at h
    · rename_i p hp
      have := hh p
      rw [hp]
      cases ho : op p with
      | ret => rw [ho] at h; cases h; simp only [left]; omega
      | send k => rw [ho] at h this; cases h; have := this ok; simp only [left]; omega
      | look k => rw [ho] at h this; cases h; simp only [left]; simp only at this; omega
      | wait t k => rw [ho] at h this; cases h; have := this.2; simp only [Bool.false_eq_true, if_false, left]; omega
    · cases h
    · rename_i hp
      simp only [Option.some.injEq] at h; subst h
      rw [hp]; simp only [left, Bool.and_false]; omega
    · cases h
  | expire =>
    simp only [next] at h
    split at h
    · rename_i hm
      split at h
      · cases h
      · simp only [Option.some.injEq] at h; subst h
        refine ⟨hc, ?_⟩; rw [hm]; simp only [left]; omega
    · cases h
  | spurious =>
    simp only [next] at h
    split at h
    · rename_i hm
      simp only [Option.some.injEq] at h; subst h
      refine ⟨hc, ?_⟩; rw [hm]; simp only [left]; omega
    · cases h
  | drop => simp [next, hc] at h
  | fail => simp [next, hc] at h
  | loop =>
    simp only [next, loopStep] at h
    split at h
    · rename_i hl
      rw [if_neg (by simp [hc])] at h
      simp only [Option.some.injEq] at h; subst h
      refine ⟨hc, ?_⟩; rw [hl]; simp only [ahead]; omega
    · rename_i hl
      split at h
      · simp only [Option.some.injEq] at h; subst h
        refine ⟨hc, ?_⟩; rw [hl]; simp only [ahead]; omega
      · cases h
    · rename_i hl
      simp only [Option.some.injEq] at h; subst h
      refine ⟨hc, ?_⟩
      have hm := (hi.late (.inl hl)).1
      rw [hl, hm]; cases s.client <;> simp [wake, left, ahead]
    · cases h

theorem short {σ : Type} {op : σ → Op σ} {μ : σ → Nat} (hh : Heeds op μ) (as : List Act) :
    ∀ {s s' : Sys σ}, Inv s → s.connected = false → path op s as = some s' → as.length ≤ left μ s.mgr + ahead s.loop := by
  induction as with
  | nil => intros; simp
  | cons a as ih =>
    intro s s' hi hc h
    simp only [path] at h
    split at h
    · rename_i s1 h1
      have := less hh hi hc h1
      have := ih (inv_next hh hi h1) this.1 h
      simp only [List.length_cons]
      omega
    · cases h

theorem closed_path {σ : Type} {op : σ → Op σ} {μ : σ → Nat} (hh : Heeds op μ) (as : List Act) :
    ∀ {s s' : Sys σ}, Inv s → s.connected = false → path op s as = some s' → s'.connected = false := by
  induction as with
  | nil => intro s s' _ hc h; simp only [path, Option.some.injEq] at h; exact h ▸ hc
  | cons a as ih =>
    intro s s' hi hc h
    simp only [path] at h
    split at h
    · rename_i s1 h1; exact ih (inv_next hh hi h1) (less hh hi hc h1).1 h
    · cases h

theorem path_append {σ : Type} {op : σ → Op σ} (xs ys : List Act) : ∀ s : Sys σ, path op s (xs ++ ys) = (path op s xs).bind (path op · ys) := by
  induction xs with
  | nil => intro s; rfl
  | cons a xs ih =>
    intro s
    simp only [List.cons_append, path]
    cases next op s a with
    | none => rfl
    | some s' => exact ih s'

end MgrWaitHelp
open MgrWaitHelp

/-- **C203, partial.** A manager callback that waits with timeouts and heeds the close does not hold up its websocket: from any moment at which
the websocket is closed only a bounded number of things can happen, whatever the order, and when nothing can happen any more (wake-ups
without a reason apart) the manager has returned, onclose was called once and the thread of the websocket has ended. Missing: a wait without
a timeout (`C203_forever_false`), and a loop that was left with `connected` still set (`C203_unmerged_false`). -/
theorem C203_ends_partial {σ : Type} (op : σ → Op σ) (μ : σ → Nat) (hh : Heeds op μ) (client : Bool) (p : σ) (as : List Act) (s : Sys σ)
    (hs : path op (mgrStart client p) as = some s) (hc : s.connected = false) :
    ∃ n, ∀ bs s', path op s bs = some s' → bs.length ≤ n ∧
      ((∀ a, a ≠ .spurious → next op s' a = none) → s'.mgr = .returned ∧ s'.loop = .done ∧ s'.closes = 1) := by
  have hi := inv_path hh as (inv_start client p) hs
  refine ⟨_, fun bs s' hb => ⟨short hh bs hi hc hb, fun hn => ?_⟩⟩
  have hi' := inv_path hh bs hi hb
  have hc' := closed_path hh bs hi hc hb
  have hm : s'.mgr = .returned := by
    cases hm : s'.mgr with
    | «at» p =>
      have := hn (.mgr true true) (by simp)
      simp only [next, mgrStep, hm] at this
      split at this <;> cases this
    | asleep t k =>
      have ht := hi'.timed
      rw [hm] at ht
      have := hn .expire (by simp)
      simp only [next, hm] at this
      rw [if_neg ht] at this
      cases this
    | woken t e k =>
      have := hn (.mgr true true) (by simp)
      simp [next, mgrStep, hm] at this
    | returned => rfl
  have hl := hn .loop (by simp)
  simp only [next, loopStep, hc', hm, over] at hl
  cases hl' : s'.loop with
  | running => simp [hl'] at hl
  | join => simp [hl'] at hl
  | closing => simp [hl'] at hl
  | done => exact ⟨hm, rfl, (hi'.late (.inr hl')).2⟩

/-- **C203**: onclose is never called while the manager callback runs, and never twice. -/
theorem C203_onclose {σ : Type} (op : σ → Op σ) (μ : σ → Nat) (hh : Heeds op μ) (client : Bool) (p : σ) (as : List Act) (s : Sys σ)
    (hs : path op (mgrStart client p) as = some s) : s.closes ≤ 1 ∧ (s.closes = 1 → s.mgr = .returned) := by
  have hi := inv_path hh as (inv_start client p) hs
  cases hl : s.loop with
  | running => have := hi.early (.inl hl); omega
  | join => have := hi.early (.inr hl); omega
  | closing => have := hi.late (.inl hl); exact ⟨by omega, fun _ => this.1⟩
  | done => have := hi.late (.inr hl); exact ⟨by omega, fun _ => this.1⟩

/-- **C203 is false** for a wait without a timeout, in any callback, of a server or a client: once the manager sleeps in it, then whatever
happens — the peer closes, the close is asked for, the loop ends — it sleeps for ever unless the system wakes it without a reason; onclose is
never called and the websocket is never freed. -/
theorem C203_forever_false {σ : Type} (op : σ → Op σ) (k : Bool → σ) (as : List Act) (ha : .spurious ∉ as) :
    ∀ (s s' : Sys σ), s.mgr = .asleep 0 k → s.loop = .running ∨ s.loop = .join → s.closes = 0 → path op s as = some s' →
      s'.mgr = .asleep 0 k ∧ (s'.loop = .running ∨ s'.loop = .join) ∧ s'.closes = 0 := by
  induction as with
  | nil => intro s s' hm hl hc h; simp only [path, Option.some.injEq] at h; exact h ▸ ⟨hm, hl, hc⟩
  | cons a as ih =>
    intro s s' hm hl hc h
    simp only [path] at h
    split at h
    · rename_i s1 h1
      have key : s1.mgr = .asleep 0 k ∧ (s1.loop = .running ∨ s1.loop = .join) ∧ s1.closes = 0 := by
        cases a with
        | mgr ok drop => simp [next, mgrStep, hm] at h1
        | expire => simp [next, hm] at h1
        | spurious => exact absurd (by simp) ha
        | drop =>
          simp only [next] at h1
          split at h1
          · simp only [Option.some.injEq] at h1; subst h1; exact ⟨hm, hl, hc⟩
          · cases h1
        | fail =>
          simp only [next] at h1
          split at h1
          · simp only [Option.some.injEq] at h1; subst h1; exact ⟨hm, .inr rfl, hc⟩
          · cases h1
        | loop =>
          obtain hl | hl := hl
          · simp only [next, loopStep, hl] at h1
            split at h1
            · cases h1
            · simp only [Option.some.injEq] at h1; subst h1; exact ⟨hm, .inr rfl, hc⟩
          · simp [next, loopStep, hl, hm, over] at h1
      exact ih (fun c => ha (by simp [c])) s1 s' key.1 key.2.1 key.2.2 h
    · cases h

/-- The callback that only waits gets there, the peer closes, the thread of the websocket waits for it. -/
theorem C203_waits_false (client : Bool) : ∃ s k, path waits (mgrStart client true) [.mgr true false, .drop, .loop] = some s ∧
    s.mgr = .asleep 0 k ∧ s.connected = false ∧ s.loop = .join ∧ s.closes = 0 :=
  ⟨_, _, rfl, rfl, rfl, rfl, rfl⟩

/-- **C203 is false** when a final frame cannot be merged: the loop is left, the websocket still counts as connected, and the callback of the
file endpoint, which looks once a second, goes on for any number of seconds. -/
theorem C203_unmerged_false (n : Nat) : ∃ s, path polls (mgrStart false true) (.fail :: List.replicate n (.mgr true false)) = some s ∧
    s.mgr = .at true ∧ s.loop = .join ∧ s.closes = 0 := by
  have : ∀ n, path polls { client := false, mgr := .at true, loop := .join } (List.replicate n (.mgr true false)) =
      some { client := false, mgr := .at true, loop := .join } := by
    intro n
    induction n with
    | zero => rfl
    | succ n ih => rw [List.replicate_succ]; exact ih
  exact ⟨_, this n, rfl, rfl, rfl⟩

/-- The callback of the example that sends messages heeds the close. -/
private theorem messages_heeds (ulfius : Bool) : Heeds (messages ulfius) id := by
  intro p
  match p with
  | 0 => trivial
  | 8 => cases ulfius <;> simp [messages]
  | n + 1 =>
    by_cases h8 : n = 7
    · subst h8; cases ulfius <;> simp [messages]
    · have : messages ulfius (n + 1) = if n % 2 = 1 then .wait 2000 (fun o => if o then n else n - 1) else .send (fun _ => n) := by
        unfold messages; split <;> simp_all
      rw [this]
      by_cases hn : n % 2 = 1
      · simp only [hn, if_true]
        exact ⟨by omega, by simp; omega⟩
      · simp only [hn, if_false]
        intro b; simp

/-- The callback that polls heeds the close. -/
private theorem polls_heeds : Heeds polls (fun b => if b then 1 else 0) := by
  intro p; cases p <;> simp [polls]

/-- **C203, partial**: so the two manager callbacks of the example server return and their websockets end, once they are closed. Missing:
`C203_unmerged_false`. -/
theorem C203_example_partial (ulfius : Bool) :
    (∀ as s, path (messages ulfius) (mgrStart false 10) as = some s → s.connected = false →
      ∃ n, ∀ bs s', path (messages ulfius) s bs = some s' → bs.length ≤ n ∧
        ((∀ a, a ≠ .spurious → next (messages ulfius) s' a = none) → s'.mgr = .returned ∧ s'.loop = .done ∧ s'.closes = 1)) ∧
    (∀ as s, path polls (mgrStart false true) as = some s → s.connected = false →
      ∃ n, ∀ bs s', path polls s bs = some s' → bs.length ≤ n ∧
        ((∀ a, a ≠ .spurious → next polls s' a = none) → s'.mgr = .returned ∧ s'.loop = .done ∧ s'.closes = 1)) :=
  ⟨fun as s => C203_ends_partial _ _ (messages_heeds ulfius) false 10 as s, fun as s => C203_ends_partial _ _ polls_heeds false true as s⟩

/-- A whole run: the messages, with a close by the peer while the manager waits. -/
example : ∃ s, path (messages true) (mgrStart false 10)
    [.mgr true false, .expire, .mgr true false, .mgr true false, .mgr true false, .drop, .loop, .expire, .mgr true false, .mgr true false,
      .mgr true false, .mgr true false, .mgr true false, .loop, .loop] = some s ∧ s.closes = 1 ∧ s.loop = .done :=
  ⟨_, rfl, rfl, rfl⟩

end Verif.Props
