import Verif.Lemmas.ActiveTable
/-! # Executions of the threads around the table of active websockets: examples, wakeups, progress -/
namespace Verif.Active

/-- `Apart`, for states in which only the connections below `n` are being served. -/
def apartB (n : Nat) (s : Sys) : Bool :=
  (List.range n).all fun i => !(s.pc i).early ||
    ((List.range n).all (fun j => j == i || (!(s.pc j).early && !(s.pc j).holdsA)) && !s.stop.holdsA)

theorem apartB_apart {n : Nat} {s : Sys} (hn : ∀ i, n ≤ i → s.pc i = .idle) (h : apartB n s = true) : Apart s := by
  intro i hi
  have hlt : ∀ j, n ≤ j → (s.pc j).early = false ∧ (s.pc j).holdsA = false := by
    intro j hj; rw [hn j hj]; exact ⟨rfl, rfl⟩
  have hin : i < n := by
    rcases Nat.lt_or_ge i n with h | h
    · exact h
    · rw [(hlt i h).1] at hi; cases hi
  unfold apartB at h
  rw [List.all_eq_true] at h
  have h' := h i (List.mem_range.2 hin)
  rw [hi] at h'
  simp only [Bool.not_true, Bool.false_or, Bool.and_eq_true, List.all_eq_true, Bool.not_eq_true'] at h'
  refine ⟨fun j hj => ?_, h'.2⟩
  rcases Nat.lt_or_ge j n with hjn | hjn
  · have := h'.1 j (List.mem_range.2 hjn)
    simp [hj] at this
    exact this
  · exact hlt j hjn

/-- The connection an action serves is below `n`. -/
def below (n : Nat) : Act → Bool
  | .ws i | .drop i => i < n
  | _ => true

theorem next_pc {s s' : Sys} {a : Act} (h : next s a = some (.ok s')) :
    s'.pc = s.pc ∨ ∃ i q, (a = .ws i ∨ a = .drop i) ∧ s'.pc = upd s.pc i q := by
  cases a with
  | ws i => obtain ⟨q, hq, _⟩ := wsStep_ok h; exact Or.inr ⟨i, q, Or.inl rfl, hq⟩
  | stop => exact Or.inl (stopStep_frame h).1
  | spurious => simp only [next] at h; split at h <;> cases h; exact Or.inl rfl
  | drop i => simp only [next] at h; split at h <;> cases h; exact Or.inr ⟨i, _, Or.inr rfl, rfl⟩
  | clean => simp only [next] at h; split at h <;> cases h; exact Or.inl rfl

theorem next_idle {n : Nat} {s s' : Sys} {a : Act} (h : next s a = some (.ok s')) (hb : below n a = true)
    (hn : ∀ i, n ≤ i → s.pc i = .idle) : ∀ i, n ≤ i → s'.pc i = .idle := by
  intro j hj
  rcases next_pc h with e | ⟨i, q, ha, e⟩
  · rw [e]; exact hn j hj
  · have hi : i < n := by rcases ha with rfl | rfl <;> simpa [below] using hb
    rw [e, upd_ne _ _ (by omega)]; exact hn j hj

/-- Run a list of actions, all of which are possible, defined and lead to states where registrations are apart. -/
def checked (n : Nat) : List Act → Sys → Option Sys
  | [], s => some s
  | a :: r, s => match next s a with
    | some (.ok s') => if below n a && apartB n s' then checked n r s' else none
    | _ => none

theorem checked_reach {ok : Act → Prop} {n : Nat} {l : List Act} : ∀ {s s' : Sys}, Reach ok Apart s →
    (∀ i, n ≤ i → s.pc i = .idle) → (∀ a ∈ l, ok a) → checked n l s = some s' → Reach ok Apart s' := by
  induction l with
  | nil => intro s s' h _ _ e; cases e; exact h
  | cons a r ih =>
    intro s s' h hn hok e
    unfold checked at e
    split at e
    · case h_1 t ht =>
      split at e
      · case isTrue hb =>
        simp only [Bool.and_eq_true] at hb
        have hn' := next_idle ht hb.1 hn
        exact ih (Reach.step h (hok a (by simp)) ht (apartB_apart hn' hb.2)) hn' (fun b hb => hok b (by simp [hb])) e
      · cases e
    · cases e

theorem apart_init : Apart {} := by intro i h; cases h

theorem checked_init {ok : Act → Prop} (n : Nat) {l : List Act} {s : Sys} (hok : ∀ a ∈ l, ok a)
    (e : checked n l {} = some s) : Reach ok Apart s :=
  checked_reach (Reach.init apart_init) (fun _ _ => rfl) hok e

/-! ## The sleeping `ulfius_stop_framework` -/

/-- Somebody will still wake `ulfius_stop_framework` up. -/
def Waker (s : Sys) : Prop := s.nb > 0 ∨ ∃ i, s.pc i = .lowered ∨ s.pc i = .telling

theorem waker_next {s s' : Sys} {a : Act} (hl : Locks s) (h : next s a = some (.ok s'))
    (hw : s.stop = .tested ∨ s.stop = .asleep → Waker s) : s'.stop = .tested ∨ s'.stop = .asleep → Waker s' := by
  intro hs
  have keep : ∀ {i : Nat} {q : Pc}, s'.pc = upd s.pc i q → s'.nb = s.nb → (q = .lowered ∨ q = .telling ∨
      (s.pc i ≠ .lowered ∧ s.pc i ≠ .telling)) → Waker s → Waker s' := by
    intro i q hp hn hq hW
    rcases hW with h0 | ⟨j, hj⟩
    · exact Or.inl (by rw [hn]; exact h0)
    · rcases hq with rfl | rfl | hq
      · exact Or.inr ⟨i, by rw [hp]; simp⟩
      · exact Or.inr ⟨i, by rw [hp]; simp⟩
      · refine Or.inr ⟨j, ?_⟩
        have : j ≠ i := by rintro rfl; rcases hj with h | h <;> simp [h] at hq
        rw [hp, upd_ne _ _ this]; exact hj
  cases a with
  | ws i =>
    obtain ⟨q, hp, _, hm⟩ := wsStep_ok h
    cases hpi : s.pc i <;> rw [hpi] at hm <;> cases q <;> simp only at hm
    case telling.told =>
      obtain ⟨_, _, hn, hst⟩ := hm
      by_cases e : s.stop = .asleep
      · rw [hst, if_pos e] at hs; rcases hs with h | h <;> cases h
      · rw [hst, if_neg e] at hs
        -- `tested` is impossible: both would own the lock
        rcases hs with h | h
        · have h1 := hl.cs.1 (by rw [h]; rfl)
          have h2 := (hl.cw i).1 (by rw [hpi]; rfl)
          rw [h1] at h2; cases h2
        · exact absurd h e
    case adding.added => exact Or.inl (by rw [hm.2.2.2]; omega)
    case cut.lowered => exact Or.inr ⟨i, by rw [hp]; simp⟩
    case lowered.telling => exact keep hp hm.2.2.2.2 (by simp) (hw (by rw [← hm.2.2.2.1]; exact hs))
    case grown.adding => exact keep hp hm.2.2.2.2 (by simp [hpi]) (hw (by rw [← hm.2.2.2.1]; exact hs))
    case removing.finding => exact keep hp hm.2.2.2.2 (by simp [hpi]) (hw (by rw [← hm.2.2.2.1]; exact hs))
    all_goals
      first
      | exact hm.elim
      | exact keep hp hm.2.2.2 (by simp [hpi]) (hw (by rw [← hm.2.2.1]; exact hs))
  | stop =>
    have hf := stopStep_frame h
    have conv : Waker s → Waker s' := by
      intro hW; unfold Waker at *; rw [hf.1, hf.2.1]; exact hW
    simp only [next, Active.stopStep] at h
    cases hp : s.stop <;> rw [hp] at h <;> simp only at h
    case test =>
      cases h
      by_cases h0 : s.nb > 0
      · exact Or.inl h0
      · simp [h0] at hs
    case tested => exact conv (hw (Or.inl hp))
    case asleep => cases h
    case returned => cases h
    case exit => cases h; simp at hs
    case start => split at h <;> cases h; simp at hs
    case flagged => cases h; simp at hs
    case lockClose => split at h <;> cases h; simp at hs
    case flag =>
      split at h
      · cases h; simp at hs
      · cases hr : entries s with
        | ub => simp [hr] at h
        | ok c =>
          cases hk : setFlags s.closeFlag s.nb c with
          | ub => simp [hr, hk] at h
          | ok f => simp [hr, hk] at h; subst h; simp at hs
  | spurious =>
    simp only [next] at h
    split at h <;> cases h
    simp at hs
  | drop i =>
    simp only [next] at h
    split at h
    · case isTrue e => cases h; exact keep (i := i) rfl rfl (by simp [e]) (hw hs)
    · cases h
  | clean =>
    simp only [next] at h
    split at h <;> cases h
    exact hw hs

theorem reach_waker {ok : Act → Prop} {P : Sys → Prop} {s : Sys} (h : Reach ok P s) :
    s.stop = .tested ∨ s.stop = .asleep → Waker s := by
  induction h with
  | init _ => intro h; simp at h
  | step hr _ hn _ ih => exact waker_next (reach_locks hr) hn ih

/-! ## Progress and termination -/

/-- Number of steps a connection's thread still has, at most. -/
def rank : Pc → Nat
  | .idle => 15 | .growing _ _ => 14 | .grown => 13 | .adding => 12 | .added => 11 | .listed => 10 | .running => 9
  | .closing => 8 | .removing => 7 | .finding => 6 | .cut => 5 | .lowered => 4 | .telling => 3 | .told => 2
  | .leaving => 1 | .gone => 0 | .lost => 0

def stopRank : StopPc → Nat
  | .start => 8 | .flag => 7 | .flagged => 6 | .lockClose => 5 | .test => 4 | .tested => 3 | .asleep => 2 | .exit => 1
  | .returned => 0

/-- Sum of the ranks of the first `n` connections. -/
def total (f : Nat → Pc) : Nat → Nat
  | 0 => 0
  | n + 1 => total f n + rank (f n)

def measure (n : Nat) (s : Sys) : Nat := 5 * total s.pc n + stopRank s.stop

theorem total_other {f : Nat → Pc} {i : Nat} {q : Pc} : ∀ {n : Nat}, n ≤ i → total (upd f i q) n = total f n
  | 0, _ => rfl
  | n + 1, h => by
    unfold total
    rw [total_other (by omega), upd_ne _ _ (by omega)]

theorem total_upd {f : Nat → Pc} {i : Nat} {q : Pc} : ∀ {n : Nat}, i < n →
    total (upd f i q) n + rank (f i) = total f n + rank q
  | 0, h => by omega
  | n + 1, h => by
    unfold total
    by_cases e : i = n
    · subst e; rw [total_other (Nat.le_refl _), upd_same]; omega
    · have := total_upd (f := f) (q := q) (n := n) (i := i) (by omega)
      rw [upd_ne _ _ (by omega)]; omega

theorem measure_ws {n : Nat} {s s' : Sys} {i : Nat} (hi : i < n) (h : wsStep s i = some (.ok s')) :
    measure n s' < measure n s := by
  obtain ⟨q, hp, _, hm⟩ := wsStep_ok h
  have ht := total_upd (f := s.pc) (q := q) hi
  have hst : stopRank s'.stop ≤ stopRank s.stop + 3 := by
    revert hm
    cases s.pc i <;> cases q <;> simp <;> intros <;> simp [*]
    split
    · simp [*, stopRank]
    · omega
  have hr : rank q < rank (s.pc i) := by
    revert hm
    cases s.pc i <;> cases q <;> simp [rank]
  unfold measure
  rw [hp]
  omega

theorem measure_stop {n : Nat} {s s' : Sys} (h : stopStep s = some (.ok s')) : measure n s' < measure n s := by
  have hf := stopStep_frame h
  have : stopRank s'.stop < stopRank s.stop := by
    unfold Active.stopStep at h
    cases hp : s.stop <;> rw [hp] at h <;> simp only at h
    case start => split at h <;> cases h; simp [stopRank]
    case flag =>
      split at h
      · cases h; simp [stopRank]
      · cases hr : entries s with
        | ub => simp [hr] at h
        | ok c =>
          cases hk : setFlags s.closeFlag s.nb c with
          | ub => simp [hr, hk] at h
          | ok f => simp [hr, hk] at h; subst h; simp [stopRank]
    case flagged => cases h; simp [stopRank]
    case lockClose => split at h <;> cases h; simp [stopRank]
    case test => cases h; simp only; split <;> simp [stopRank]
    case tested => cases h; simp [stopRank]
    case asleep => cases h
    case exit => cases h; simp [stopRank]
    case returned => cases h
  unfold measure
  rw [hf.1]
  omega

/-- Whoever holds the lock on the table, or the other one, can go on. -/
theorem holder_moves {s : Sys} (hl : Locks s) {i : Nat} (h : (s.pc i).holdsA = true) :
    ∃ a, Ongoing s a ∧ (next s a).isSome = true := by
  cases hp : s.pc i <;> rw [hp] at h <;> simp only [Pc.holdsA] at h <;> try cases h
  case lowered =>
    cases hc : s.lockC with
    | none =>
      refine ⟨.ws i, by simp [Ongoing, hp], ?_⟩
      simp only [next, wsStep, hp, hc]
      split <;> rfl
    | some w =>
      cases w with
      | ws j =>
        have h1 := (hl.cw j).2 hc
        refine ⟨.ws j, ?_, ?_⟩
        · intro e; rw [e] at h1; cases h1
        · cases hq : s.pc j <;> rw [hq] at h1 <;> simp only [Pc.holdsC] at h1 <;> try cases h1
          · simp [next, wsStep, hq]
          · simp [next, wsStep, hq]
      | stop =>
        have h1 := hl.cs.2 hc
        refine ⟨.stop, trivial, ?_⟩
        cases hq : s.stop <;> rw [hq] at h1 <;> simp only [StopPc.holdsC] at h1 <;> try cases h1
        all_goals simp [next, Active.stopStep, hq]
  all_goals exact ⟨.ws i, by simp [Ongoing, hp], by simp [next, wsStep, hp]⟩

theorem reach_noLost {P : Sys → Prop} {s : Sys} (h : Reach Usual P s) : ∀ i, s.pc i ≠ .lost := by
  induction h with
  | init _ => intro i; simp
  | @step s s' a _ ha hn _ ih =>
    cases a with
    | ws i =>
      obtain ⟨q, hp, _, hm⟩ := wsStep_ok hn
      intro j
      rw [hp]
      by_cases e : j = i
      · subst e; rw [upd_same]
        intro hq
        subst hq
        revert hm
        cases s.pc j <;> simp
      · rw [upd_ne _ _ e]; exact ih j
    | stop => rw [(stopStep_frame hn).1]; exact ih
    | spurious => simp only [next] at hn; split at hn <;> cases hn; exact ih
    | drop i => exact ha.elim
    | clean => exact ha.elim

/-- Something can go on until `ulfius_stop_framework` has returned. -/
theorem some_moves {s : Sys} {L : List Nat} {sp ov : Bool} (hl : Locks s) (hi : Inv s L sp ov)
    (hw : s.stop = .tested ∨ s.stop = .asleep → Waker s) (hx : ∀ i, s.pc i ≠ .lost) (hr : s.stop ≠ .returned) :
    ∃ a, Ongoing s a ∧ (next s a).isSome = true := by
  by_cases hh : ∃ i, (s.pc i).holdsA = true
  · obtain ⟨i, hi⟩ := hh; exact holder_moves hl hi
  have hno : ∀ i, (s.pc i).holdsA = false := by
    intro i
    cases h : (s.pc i).holdsA with
    | false => rfl
    | true => exact absurd ⟨i, h⟩ hh
  have hA : s.lockA = none ∨ s.lockA = some .stop := by
    cases h : s.lockA with
    | none => exact Or.inl rfl
    | some w =>
      cases w with
      | ws j => have := (hl.aw j).2 h; rw [hno j] at this; cases this
      | stop => exact Or.inr rfl
  cases hs : s.stop
  case start =>
    rcases hA with hA | hA
    · exact ⟨.stop, trivial, by simp [next, Active.stopStep, hs, hA]⟩
    · have := hl.as.2 hA; rw [hs] at this; cases this
  case lockClose =>
    refine ⟨.stop, trivial, ?_⟩
    cases hc : s.lockC with
    | none => simp [next, Active.stopStep, hs, hc]
    | some w =>
      cases w with
      | ws j =>
        have := (hl.cw j).2 hc
        have h2 : (s.pc j).holdsA = true := by
          cases hq : s.pc j <;> rw [hq] at this <;> simp_all [Pc.holdsC, Pc.holdsA]
        rw [hno j] at h2; cases h2
      | stop => have := hl.cs.2 hc; rw [hs] at this; cases this
  case asleep =>
    have hA : s.lockA = none := by
      rcases hA with hA | hA
      · exact hA
      · have := hl.as.2 hA; rw [hs] at this; cases this
    rcases hw (Or.inr hs) with h0 | ⟨j, hj⟩
    · have hov : ov = false := by
        cases hv : ov with
        | false => rfl
        | true => obtain ⟨j, hj⟩ := hi.over_iff.1 hv; exact absurd hj (not_cut (hno j))
      subst hov
      have hnb := hi.nb
      simp at hnb
      cases L with
      | nil => simp at hnb; omega
      | cons j r =>
        have hj := (hi.mem j).1 (by simp)
        have hj2 := hno j
        refine ⟨.ws j, ?_, ?_⟩
        · intro e; rw [e] at hj; cases hj
        · have := hx j
          cases hq : s.pc j <;> rw [hq] at hj hj2 this <;> simp_all [Pc.active, Pc.holdsA, next, wsStep]
          split <;> rfl
    · have := hno j
      rcases hj with e | e <;> rw [e] at this <;> cases this
  case returned => exact absurd hs hr
  all_goals exact ⟨.stop, trivial, by simp [next, Active.stopStep, hs]⟩

theorem noEarly_apart {s : Sys} (h : ∀ i, (s.pc i).early = false) : Apart s := by
  intro i hi; rw [h i] at hi; cases hi

theorem ongoing_noEarly {s s' : Sys} {a : Act} (h : ∀ i, (s.pc i).early = false) (ha : Ongoing s a)
    (hn : next s a = some (.ok s')) : ∀ i, (s'.pc i).early = false := by
  cases a with
  | ws i =>
    obtain ⟨q, hp, _, hm⟩ := wsStep_ok hn
    intro j
    rw [hp]
    by_cases e : j = i
    · subst e; rw [upd_same]
      have h1 := h j
      have h2 : s.pc j ≠ .idle := ha
      revert hm h1 h2
      cases s.pc j <;> cases q <;> simp [Pc.early]
    · rw [upd_ne _ _ e]; exact h j
  | stop => rw [(stopStep_frame hn).1]; exact h
  | spurious => exact ha.elim
  | drop i => exact ha.elim
  | clean => exact ha.elim

/-- From a state reached with registrations apart, something that is under way can go on, and keeps them apart. -/
theorem progress {s : Sys} (h : Reach Usual Apart s) (hr : s.stop ≠ .returned) :
    ∃ a s', Ongoing s a ∧ next s a = some (.ok s') ∧ Apart s' := by
  have hl := reach_locks h
  have hap := reach_P h
  have hus : ∀ a, Usual a → noClean a := by intro a ha e; subst e; exact ha
  obtain ⟨L, sp, ov, hi⟩ := reach_inv hus h
  by_cases he : ∃ i, (s.pc i).early = true
  · obtain ⟨i, hie⟩ := he
    obtain ⟨h1, h2⟩ := hap i hie
    have hA : s.lockA = none := by
      cases hA : s.lockA with
      | none => rfl
      | some w =>
        cases w with
        | ws j =>
          have := (hl.aw j).2 hA
          by_cases e : j = i
          · subst e; cases hq : s.pc j <;> rw [hq] at this hie <;> simp [Pc.holdsA, Pc.early] at this hie
          · rw [(h1 j e).2] at this; cases this
        | stop => have := hl.as.2 hA; rw [h2] at this; cases this
    have hsome : (next s (.ws i)).isSome = true := by
      cases hq : s.pc i <;> rw [hq] at hie <;> simp_all [Pc.early, next, wsStep]
      split <;> rfl
    obtain ⟨r, hr'⟩ := Option.isSome_iff_exists.1 hsome
    obtain ⟨s', _, _, _, e, _⟩ := next_inv hl hap hi (by intro e; cases e) hr'
    subst e
    refine ⟨.ws i, s', ?_, hr', ?_⟩
    · intro e; rw [e] at hie; cases hie
    · obtain ⟨q, hp, _, hm⟩ := wsStep_ok hr'
      intro j hj
      have hji : j = i := by
        rcases Decidable.em (j = i) with e | e
        · exact e
        · rw [hp, upd_ne _ _ e, (h1 j e).1] at hj; cases hj
      subst hji
      refine ⟨fun k hk => ?_, ?_⟩
      · rw [hp, upd_ne _ _ hk]; exact h1 k hk
      · have : s'.stop = s.stop := by
          revert hm hie
          cases s.pc j <;> cases q <;> simp [Pc.early] <;> intros <;> assumption
        rw [this]; exact h2
  · have hne : ∀ i, (s.pc i).early = false := by
      intro i
      cases h : (s.pc i).early with
      | false => rfl
      | true => exact absurd ⟨i, h⟩ he
    obtain ⟨a, ha, hs⟩ := some_moves hl hi (reach_waker h) (reach_noLost h) hr
    obtain ⟨r, hr'⟩ := Option.isSome_iff_exists.1 hs
    have hnc : noClean a := by intro e; subst e; exact ha
    obtain ⟨s', _, _, _, e, _⟩ := next_inv hl hap hi hnc hr'
    subst e
    exact ⟨a, s', ha, hr', noEarly_apart (ongoing_noEarly hne ha hr')⟩

theorem reach_finite {ok : Act → Prop} {P : Sys → Prop} {s : Sys} (h : Reach ok P s) :
    ∃ n, ∀ i, n ≤ i → s.pc i = .idle := by
  induction h with
  | init _ => exact ⟨0, fun _ _ => rfl⟩
  | step _ _ hn _ ih =>
    obtain ⟨n, hn'⟩ := ih
    rcases next_pc hn with e | ⟨i, q, _, e⟩
    · exact ⟨n, by rw [e]; exact hn'⟩
    · refine ⟨n + i + 1, fun j hj => ?_⟩
      rw [e, upd_ne _ _ (by omega)]; exact hn' j (by omega)

theorem ongoing_measure {n : Nat} {s s' : Sys} {a : Act} (hn : ∀ i, n ≤ i → s.pc i = .idle) (ha : Ongoing s a)
    (h : next s a = some (.ok s')) : measure n s' < measure n s ∧ ∀ i, n ≤ i → s'.pc i = .idle := by
  cases a with
  | ws i =>
    have hi : i < n := by
      rcases Nat.lt_or_ge i n with h | h
      · exact h
      · exact absurd (hn i h) ha
    exact ⟨measure_ws hi h, next_idle h (by simpa [below] using hi) hn⟩
  | stop => exact ⟨measure_stop h, next_idle h rfl hn⟩
  | spurious => exact ha.elim
  | drop i => exact ha.elim
  | clean => exact ha.elim

theorem complete {n : Nat} : ∀ (m : Nat) {s : Sys}, Reach Usual Apart s → (∀ i, n ≤ i → s.pc i = .idle) →
    measure n s ≤ m → ∃ l s', steps l s = some s' ∧ s'.stop = .returned ∧ l.length ≤ m
  | m, s, h, hn, hm => by
    by_cases hr : s.stop = .returned
    · exact ⟨[], s, rfl, hr, Nat.zero_le _⟩
    · obtain ⟨a, t, ha, ht, hap⟩ := progress h hr
      obtain ⟨hlt, hn'⟩ := ongoing_measure hn ha ht
      have hu : Usual a := by cases a <;> simp_all [Usual, Ongoing]
      cases m with
      | zero => omega
      | succ m =>
        obtain ⟨l, s', h1, h2, h3⟩ := complete m (Reach.step h hu ht hap) hn' (by omega)
        exact ⟨a :: l, s', by simp [steps, ht, h1], h2, by simp; omega⟩

theorem cont_bound {n : Nat} {k m : Nat} {s s' : Sys} (h : Cont k m s s') (hn : ∀ i, n ≤ i → s.pc i = .idle) :
    k + measure n s' ≤ measure n s + 3 * m ∧ ∀ i, n ≤ i → s'.pc i = .idle := by
  induction h with
  | refl => exact ⟨by omega, hn⟩
  | step _ ha ht ih =>
    obtain ⟨h1, h2⟩ := ih hn
    obtain ⟨h3, h4⟩ := ongoing_measure h2 ha ht
    exact ⟨by omega, h4⟩
  | wake _ ht ih =>
    obtain ⟨h1, h2⟩ := ih hn
    simp only [next] at ht
    split at ht
    · case isTrue e =>
      cases ht
      refine ⟨?_, h2⟩
      unfold measure at *
      rw [e] at h1
      simp only [stopRank] at *
      omega
    · cases ht

end Verif.Active
