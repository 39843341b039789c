import Verif.Lemmas.ActiveRun
/-! # C58, C59, C81, C82, C83: the table of active websockets and the end of the server -/
namespace Verif.Props
open Verif.Active

private theorem notCleaned {a : Act} (h : NotCleaned a) : noClean a := by
  intro e; subst e; exact h

private theorem usual {a : Act} (h : Usual a) : noClean a := by
  intro e; subst e; exact h

/-! ## C59 -/

/-- **C59** (partial: registrations must be kept apart). If no thread is inside `ulfius_instance_add_websocket_active` while
another one is inside it or holds the lock, no action of any thread is undefined. -/
theorem C59_safe_partial {s : Sys} (h : Reach NotCleaned Apart s) {a : Act} (ha : NotCleaned a) :
    next s a ≠ some .ub := by
  intro e
  obtain ⟨L, sp, ov, hi⟩ := reach_inv (fun _ => notCleaned) h
  obtain ⟨s', _, _, _, e', _⟩ := next_inv (reach_locks h) (reach_P h) hi (notCleaned ha) e
  cases e'

/-- **C59** (partial, same restriction). When no thread is at work on the table, it lists exactly the websockets that were
registered and not removed, each once. -/
theorem C59_complete_partial {s : Sys} (h : Reach NotCleaned Apart s)
    (hq : ∀ i, (s.pc i).early = false ∧ (s.pc i).holdsA = false) :
    ∃ L : List Nat, L.Nodup ∧ (∀ i, i ∈ L ↔ (s.pc i).active = true) ∧ s.nb = L.length ∧
      (L = [] ∧ s.table = none ∨ entries s = .ok (L.map some)) := by
  obtain ⟨L, sp, ov, hi⟩ := reach_inv (fun _ => notCleaned) h
  have h1 : sp = false := by
    cases hv : sp with
    | false => rfl
    | true => obtain ⟨j, hj⟩ := hi.spare_iff.1 hv; rw [not_spare (hq j).1 (hq j).2] at hj; cases hj
  have h2 : ov = false := by
    cases hv : ov with
    | false => rfl
    | true => obtain ⟨j, hj⟩ := hi.over_iff.1 hv; exact absurd hj (not_cut (hq j).2)
  subst h1 h2
  refine ⟨L, hi.nodup, hi.mem, by simpa using hi.nb, ?_⟩
  have hb := hi.blk
  simp only [Bool.false_eq_true, if_false, List.append_nil] at hb
  by_cases e : L = []
  · subst e
    rcases hb with ⟨_, h⟩ | ⟨h, _⟩
    · exact Or.inl ⟨rfl, h⟩
    · simp at h
  · obtain ⟨_, _, _, he⟩ := block_entries hb (by simpa using e)
    exact Or.inr he

/-- **C59** is false: two connections upgraded at the same time write outside the table. Both enlarge it for one entry
before the first one has counted its own. -/
theorem C59_overflow_false :
    exec [.ws 0, .ws 0, .ws 1, .ws 1, .ws 0, .ws 0, .ws 0, .ws 1, .ws 1] {} = .ub := rfl

/-- Another way: the table is enlarged twice from the same pointer. -/
theorem C59_doubleFree_false :
    exec [.ws 0, .ws 0, .ws 0, .ws 0, .ws 0, .ws 1, .ws 2, .ws 1, .ws 2] {} = .ub := rfl

/-- Another way: a websocket ends while another one is registered. -/
theorem C59_remove_false :
    exec [.ws 0, .ws 0, .ws 0, .ws 0, .ws 0, .ws 0, .ws 0, .ws 0, .ws 1, .ws 0, .ws 0, .ws 1] {} = .ub := rfl

/-- Three websockets, one after the other: registered, one of them removed, while the server stops. -/
def sampleRun : List Act :=
  [.ws 0, .ws 0, .ws 0, .ws 0, .ws 0, .ws 0, .ws 1, .ws 1, .ws 1, .ws 1, .ws 1, .ws 1, .stop, .stop, .stop, .stop, .stop,
    .stop, .ws 2, .ws 2, .ws 2, .ws 2, .ws 2, .ws 0, .ws 0, .ws 0, .ws 0, .ws 0, .ws 0]

private theorem sample_some : (checked 3 sampleRun {}).isSome = true := by decide +kernel

example : ∃ s, Reach NotCleaned Apart s ∧ s.nb = 2 ∧ entries s = .ok [some 1, some 2] ∧ s.stop = .asleep ∧
    s.pc 0 = .telling := by
  refine ⟨(checked 3 sampleRun {}).get sample_some, checked_init 3 (l := sampleRun) ?_ (by simp), ?_⟩
  · decide
  · exact ⟨rfl, rfl, rfl, rfl⟩

/-! ## C58 -/

/-- **C58** (partial: registrations kept apart). When the loop of `ulfius_stop_framework` ends, no websocket is registered. -/
theorem C58_empty_partial {s s' : Sys} (h : Reach NotCleaned Apart s) (ht : s.stop = .test)
    (hn : next s .stop = some (.ok s')) (he : s'.stop = .exit) : ∀ i, (s'.pc i).active = false := by
  obtain ⟨L, sp, ov, hi⟩ := reach_inv (fun _ => notCleaned) h
  have h0 : s.nb = 0 := by
    simp only [next, stopStep, ht] at hn
    cases hn
    by_cases h0 : s.nb > 0
    · simp [h0] at he
    · omega
  have hL : L = [] := by
    have := hi.nb
    exact List.eq_nil_of_length_eq_zero (by omega)
  intro i
  rw [(stopStep_frame hn).1]
  cases hv : (s.pc i).active with
  | false => rfl
  | true => have := (hi.mem i).2 hv; rw [hL] at this; cases this

/-- **C58**. In every execution, even with concurrent registrations and spurious wakeups: while `ulfius_stop_framework`
sleeps a websocket is still counted, or a thread that has lowered the count is about to wake it up. -/
theorem C58_wakeup {s : Sys} (h : Reach (fun _ => True) Any s) (hs : s.stop = .asleep) :
    s.nb > 0 ∨ ∃ i, s.pc i = .lowered ∨ s.pc i = .telling :=
  reach_waker h (Or.inr hs)

/-- **C58** (partial: registrations kept apart, no connection lost before its upgrade). Until `ulfius_stop_framework` has
returned, it or a connection that is being served can take a step: there is no deadlock, and it is not left asleep. -/
theorem C58_progress_partial {s : Sys} (h : Reach Usual Apart s) (hr : s.stop ≠ .returned) :
    ∃ a s', Ongoing s a ∧ next s a = some (.ok s') ∧ Apart s' :=
  progress h hr

/-- **C58**. Every continuation without new connections is finite, up to spurious wakeups: together with
`C58_progress_partial`, `ulfius_stop_framework` returns when the threads of the websockets keep running. -/
theorem C58_bounded {s : Sys} (h : Reach (fun _ => True) Any s) :
    ∃ b, ∀ k m s', Cont k m s s' → k ≤ b + 3 * m := by
  obtain ⟨n, hn⟩ := reach_finite h
  refine ⟨measure n s, fun k m s' hc => ?_⟩
  have := (cont_bound hc hn).1
  omega

/-- **C58** (partial, same restrictions). From every state there is a way to the return of `ulfius_stop_framework`. -/
theorem C58_returns_partial {s : Sys} (h : Reach Usual Apart s) : ∃ l s', steps l s = some s' ∧ s'.stop = .returned := by
  obtain ⟨n, hn⟩ := reach_finite h
  obtain ⟨l, s', h1, h2, _⟩ := complete (n := n) _ h hn (Nat.le_refl _)
  exact ⟨l, s', h1, h2⟩

/-- **C58 is false of the code**: the server goes on taking connections until `MHD_stop_daemon` (ulfius.c:1342), after the wait. A
websocket that is opened after the last test of the count, one registration at a time and with nothing lost, is active and runs when the
wait is over, and it has not been told to close. -/
theorem C58_late_false : ∃ s, Reach Usual Apart s ∧ s.stop = .returned ∧ s.pc 0 = .running ∧ (s.pc 0).active = true ∧ s.closeFlag 0 = false := by
  let l : List Act := [.stop, .stop, .stop, .stop, .stop, .stop, .ws 0, .ws 0, .ws 0, .ws 0, .ws 0, .ws 0]
  have hs : (checked 1 l {}).isSome = true := by decide +kernel
  exact ⟨(checked 1 l {}).get hs, checked_init 1 (l := l) (by decide) (by simp), rfl, rfl, rfl, rfl⟩

example : ∃ s, Reach Usual Apart s ∧ s.stop = .asleep ∧ s.pc 1 = .running := by
  refine ⟨(checked 3 sampleRun {}).get sample_some, checked_init 3 (l := sampleRun) ?_ (by simp), rfl, rfl⟩
  decide

/-- A websocket that was registered and has ended, and a stop that comes to its end. -/
example : ∃ s s', Reach NotCleaned Apart s ∧ s.stop = .test ∧ next s .stop = some (.ok s') ∧ s'.stop = .exit ∧
    s.pc 0 = .lowered := by
  let l : List Act := [.ws 0, .ws 0, .ws 0, .ws 0, .ws 0, .ws 0, .ws 0, .ws 0, .stop, .stop, .stop, .ws 0, .ws 0, .ws 0,
    .stop]
  have hs : (checked 1 l {}).isSome = true := by decide +kernel
  refine ⟨(checked 1 l {}).get hs, _, checked_init 1 (l := l) ?_ (by simp), rfl, rfl, rfl, rfl⟩
  decide

/-! ## C81: the stop asks every active websocket to close -/

/-- **C81** (partial: only for websockets that are already open). When `ulfius_stop_framework` goes through the table, every
websocket whose thread runs gets its `close_flag`. -/
theorem C81_flag_partial {s s' : Sys} (h : Reach NotCleaned Apart s) (hs : s.stop = .flag)
    (hn : next s .stop = some (.ok s')) {i : Nat} (hi : s.pc i = .running) : s'.closeFlag i = true := by
  obtain ⟨L, sp, ov, hv⟩ := reach_inv (fun _ => notCleaned) h
  obtain ⟨h1, h2⟩ := stop_holds (reach_locks h) (reach_P h) hv (by rw [hs]; rfl)
  subst h1 h2
  have hnb := hv.nb
  simp at hnb
  have hL : i ∈ L := (hv.mem i).2 (by rw [hi]; rfl)
  have hb := hv.blk
  simp only [Bool.false_eq_true, if_false, List.append_nil] at hb
  obtain ⟨_, _, _, he⟩ := block_entries hb (by intro e; simp at e; subst e; cases hL)
  obtain ⟨f, hf, hfi⟩ := setFlags_map s.closeFlag L []
  rw [List.append_nil] at hf
  have h0 : L.length ≠ 0 := by intro e; have := List.eq_nil_of_length_eq_zero e; subst this; cases hL
  simp only [next, stopStep, hs, hnb] at hn
  rw [if_neg h0] at hn
  simp [he, hf] at hn
  subst hn
  simp [hfi, hL]

/-- **C81** (partial). The flag of a websocket that runs stays set as long as it runs. -/
theorem C81_keep_partial {s s' : Sys} {a : Act} {i : Nat} (hn : next s a = some (.ok s')) (hi : s.pc i = .running)
    (hf : s.closeFlag i = true) : s'.closeFlag i = true := by
  cases a with
  | ws j =>
    simp only [next, wsStep] at hn
    cases hp : s.pc j <;> rw [hp] at hn <;> simp only at hn
    case listed =>
      cases hn
      have : i ≠ j := by rintro rfl; rw [hi] at hp; cases hp
      simp only [go]
      rw [upd_ne _ _ this]; exact hf
    case growing p n =>
      split at hn
      · cases hn
      · cases hr : resize s p (n + 1) with
        | ub => simp [hr] at hn
        | ok t => simp [hr] at hn; subst hn; simp only [go, resize_frame hr]; exact hf
    case adding =>
      split at hn
      · cases hn
      · cases hr : entries s with
        | ub => simp [hr] at hn
        | ok c =>
          simp only [hr, Res.ok_bind, Res.pure_eq] at hn
          split at hn <;> cases hn
          exact hf
    case finding =>
      split at hn
      · cases hn
      · split at hn
        · cases hn; exact hf
        · cases hr : entries s with
          | ub => simp [hr] at hn
          | ok c =>
            simp only [hr, Res.ok_bind, Res.pure_eq] at hn
            cases hk : search j s.nb c with
            | ub => simp [hk] at hn
            | ok r =>
              simp only [hk, Res.ok_bind] at hn
              cases r with
              | none => cases hn; exact hf
              | some k =>
                simp only at hn
                cases ht : takeOut s c k with
                | ub => simp [ht] at hn
                | ok t => simp [ht] at hn; subst hn; simp only [go, takeOut_frame ht]; exact hf
    case closing =>
      split at hn
      · cases hn
      · split at hn <;> cases hn <;> exact hf
    case gone => cases hn
    case lost => cases hn
    case running => cases hn; exact hf
    all_goals
      split at hn
      · cases hn
      · first
        | (cases hn; exact hf)
        | (split at hn <;> cases hn; exact hf)
  | stop =>
    simp only [next, stopStep] at hn
    cases hp : s.stop <;> rw [hp] at hn <;> simp only at hn
    case flag =>
      split at hn
      · cases hn; exact hf
      · cases hr : entries s with
        | ub => simp [hr] at hn
        | ok c =>
          cases hk : setFlags s.closeFlag s.nb c with
          | ub => simp [hr, hk] at hn
          | ok f => simp [hr, hk] at hn; subst hn; exact setFlags_mono s.closeFlag i hf s.nb c hk
    case asleep => cases hn
    case returned => cases hn
    case start => split at hn <;> cases hn; exact hf
    case lockClose => split at hn <;> cases hn; exact hf
    all_goals cases hn; exact hf
  | spurious => simp only [next] at hn; split at hn <;> cases hn; exact hf
  | drop j => simp only [next] at hn; split at hn <;> cases hn; exact hf
  | clean => simp only [next] at hn; split at hn <;> cases hn; exact hf

example : ∃ s s', Reach NotCleaned Apart s ∧ s.stop = .flag ∧ next s .stop = some (.ok s') ∧ s.pc 0 = .running ∧
    s.pc 1 = .running ∧ s'.closeFlag 1 = true := by
  let l : List Act := [.ws 0, .ws 0, .ws 0, .ws 0, .ws 0, .ws 0, .ws 1, .ws 1, .ws 1, .ws 1, .ws 1, .ws 1, .stop]
  have hs : (checked 2 l {}).isSome = true := by decide +kernel
  exact ⟨(checked 2 l {}).get hs, _, checked_init 2 (l := l) (by decide) (by simp), rfl, rfl, rfl, rfl, rfl⟩

/-- **C81** is false: a connection whose upgrade is under way is registered already, but `ulfius_start_websocket_cb` clears the
flag that the stop has set. The websocket runs on, and `ulfius_stop_framework` sleeps. -/
theorem C81_upgrade_false : ∃ s, Reach NotCleaned Apart s ∧ s.stop = .asleep ∧ s.pc 0 = .running ∧
    s.closeFlag 0 = false := by
  let l : List Act := [.ws 0, .ws 0, .ws 0, .ws 0, .ws 0, .stop, .stop, .stop, .ws 0, .stop, .stop, .stop]
  have hs : (checked 1 l {}).isSome = true := by decide +kernel
  exact ⟨(checked 1 l {}).get hs, checked_init 1 (l := l) (by decide) (by simp), rfl, rfl, rfl⟩

/-- **C81** is false: a websocket that is registered after the loop over the table is never asked. -/
theorem C81_late_false : ∃ s, Reach NotCleaned Apart s ∧ s.stop = .asleep ∧ s.pc 0 = .running ∧
    s.closeFlag 0 = false := by
  let l : List Act := [.stop, .stop, .stop, .ws 0, .ws 0, .ws 0, .ws 0, .ws 0, .ws 0, .stop, .stop, .stop]
  have hs : (checked 1 l {}).isSome = true := by decide +kernel
  exact ⟨(checked 1 l {}).get hs, checked_init 1 (l := l) (by decide) (by simp), rfl, rfl, rfl⟩

/-! ## C82: the instance can be cleaned after the stop -/

/-- **C82** is false: the count is lowered before the last use of the locks, so the stop can return, and the application free
the handler, before the thread of the last websocket has taken `websocket_close_lock`. -/
theorem C82_clean_false :
    exec ([.ws 0, .ws 0, .ws 0, .ws 0, .ws 0, .ws 0, .ws 0, .ws 0, .stop, .stop, .stop, .ws 0, .ws 0, .ws 0] ++
      [.stop, .stop, .stop] ++ [.clean, .ws 0]) {} = .ub := rfl

/-- **C82** (partial). What can go wrong is only this: when the loop of the stop ends, a connection that still uses the
handler is either about to register, or has lowered the count and not left `ulfius_instance_remove_websocket_active`. -/
theorem C82_window_partial {s s' : Sys} (h : Reach NotCleaned Apart s) (ht : s.stop = .test)
    (hn : next s .stop = some (.ok s')) (he : s'.stop = .exit) (i : Nat) :
    s'.pc i = .idle ∨ (s'.pc i).early = true ∨ s'.pc i = .adding ∨ s'.pc i = .lowered ∨ s'.pc i = .leaving ∨
      s'.pc i = .gone := by
  have ha := C58_empty_partial h ht hn he i
  obtain ⟨L, sp, ov, hi⟩ := reach_inv (fun _ => notCleaned) h
  have hpc := (stopStep_frame hn).1
  rw [hpc] at ha ⊢
  have h0 : s.nb = 0 := by
    simp only [next, stopStep, ht] at hn
    cases hn
    by_cases h0 : s.nb > 0
    · simp [h0] at he
    · omega
  have hl := reach_locks h
  have hc : s.lockC = some .stop := hl.cs.1 (by rw [ht]; rfl)
  have hcw := hl.cw i
  rw [hc] at hcw
  have hcut : s.pc i ≠ .cut := by
    intro e
    have := hi.over_iff.2 ⟨i, e⟩
    have hnb := hi.nb
    rw [this] at hnb
    simp at hnb
    omega
  cases hp : s.pc i <;> rw [hp] at ha hcw hcut <;> simp_all [Pc.active, Pc.early, Pc.holdsC]

/-- No websocket thread is left: the instance can be cleaned. -/
theorem C82_quiet_partial {s s' : Sys} (hq : ∀ i, s.pc i = .idle ∨ s.pc i = .gone) (hn : next s .clean = some (.ok s'))
    {a : Act} (ha : Ongoing s' a) : next s' a = none := by
  simp only [next] at hn
  split at hn
  · case isTrue h =>
    cases hn
    cases a with
    | ws i =>
      rcases hq i with e | e
      · exact absurd e ha
      · simp [next, wsStep, e]
    | stop => simp [next, stopStep, h.1]
    | spurious => exact ha.elim
    | drop i => exact ha.elim
    | clean => exact ha.elim
  · cases hn

example : ∃ s, exec [.ws 0, .ws 0, .ws 0, .ws 0, .ws 0, .ws 0, .ws 0, .ws 0, .ws 0, .ws 0, .ws 0, .ws 0, .ws 0, .ws 0,
    .ws 0, .stop, .stop, .stop, .stop, .stop, .stop] {} = .ok s ∧ s.stop = .returned ∧
    (∀ i, s.pc i = .idle ∨ s.pc i = .gone) ∧ ∃ s', next s .clean = some (.ok s') := by
  refine ⟨_, rfl, rfl, fun i => ?_, _, rfl⟩
  by_cases h : i = 0
  · subst h; exact Or.inr rfl
  · left; simp [upd, h, go]

/-! ## C83: a connection that is lost before its upgrade -/

private theorem lost_stays {s s' : Sys} {a : Act} {i : Nat} (hn : next s a = some (.ok s')) (hi : s.pc i = .lost) :
    s'.pc i = .lost := by
  rcases next_pc hn with e | ⟨j, q, ha, e⟩
  · rw [e]; exact hi
  · rw [e, upd_ne _ _ ?_]
    · exact hi
    · rintro rfl
      rcases ha with rfl | rfl
      · simp [next, wsStep, hi] at hn
      · simp [next, hi] at hn

private theorem lost_counted {s : Sys} (h : Reach NotCleaned Apart s) {i : Nat} (hi : s.pc i = .lost) : s.nb > 0 := by
  obtain ⟨L, sp, ov, hv⟩ := reach_inv (fun _ => notCleaned) h
  have hL : i ∈ L := (hv.mem i).2 (by rw [hi]; rfl)
  have := hv.nb
  have : 0 < L.length := List.length_pos_of_mem hL
  omega

private theorem not_exit {s s' : Sys} {a : Act} (h : Reach NotCleaned Apart s) {i : Nat} (hi : s.pc i = .lost)
    (hs : s.stop ≠ .exit ∧ s.stop ≠ .returned) (hn : next s a = some (.ok s')) :
    s'.stop ≠ .exit ∧ s'.stop ≠ .returned := by
  have h0 := lost_counted h hi
  cases a with
  | ws j =>
    obtain ⟨q, _, _, hm⟩ := wsStep_ok hn
    revert hm
    cases s.pc j <;> cases q <;> simp only <;> intro hm <;> first | exact hm.elim | skip
    all_goals
      first
      | (rw [hm.2.2.1]; exact hs)
      | (rw [hm.2.2.2.1]; exact hs)
      | (rw [hm.2.2.2]; split <;> first | exact hs | simp)
  | stop =>
    have hn' := hn
    simp only [next, stopStep] at hn
    cases hp : s.stop <;> rw [hp] at hn hs <;> simp only at hn
    case test => cases hn; simp [h0]
    case exit => simp at hs
    case returned => cases hn
    case asleep => cases hn
    case start => split at hn <;> cases hn; simp
    case lockClose => split at hn <;> cases hn; simp
    case flag =>
      split at hn
      · cases hn; simp
      · cases hr : entries s with
        | ub => simp [hr] at hn
        | ok c =>
          cases hk : setFlags s.closeFlag s.nb c with
          | ub => simp [hr, hk] at hn
          | ok f => simp [hr, hk] at hn; subst hn; simp
    all_goals cases hn; simp
  | spurious => simp only [next] at hn; split at hn <;> cases hn; simp
  | drop j => simp only [next] at hn; split at hn <;> cases hn; exact hs
  | clean => simp only [next] at hn; split at hn <;> cases hn; exact hs

/-- **C83** is false. A connection that breaks between the answer and the upgrade stays in the table. From then on
`ulfius_stop_framework` does not return, whatever the other threads do. -/
theorem C83_lost_false : ∃ s, Reach NotCleaned Apart s ∧ s.pc 0 = .lost ∧ s.stop = .start ∧
    ∀ s', Later NotCleaned Apart s s' → s'.stop ≠ .returned := by
  let l : List Act := [.ws 0, .ws 0, .ws 0, .ws 0, .ws 0, .drop 0]
  have hs : (checked 1 l {}).isSome = true := by decide +kernel
  have hr : Reach NotCleaned Apart ((checked 1 l {}).get hs) := checked_init 1 (l := l) (by decide) (by simp)
  refine ⟨(checked 1 l {}).get hs, hr, rfl, rfl, fun s' h => ?_⟩
  have : Reach NotCleaned Apart s' ∧ s'.pc 0 = .lost ∧ s'.stop ≠ .exit ∧ s'.stop ≠ .returned := by
    induction h with
    | refl => exact ⟨hr, rfl, (by intro e; cases e), (by intro e; cases e)⟩
    | step _ ha hn hp ih =>
      obtain ⟨i1, i2, i3⟩ := ih
      exact ⟨Reach.step i1 ha hn hp, lost_stays hn i2, not_exit i1 i2 i3 hn⟩
  exact this.2.2.2

/-- **C83** (partial: no connection is lost before its upgrade). Whatever state the websockets are in, the stop can still
return. -/
theorem C83_returns_partial {s : Sys} (h : Reach Usual Apart s) : ∃ l s', steps l s = some s' ∧ s'.stop = .returned :=
  C58_returns_partial h

end Verif.Props
