import Verif.Spec.Active
/-! # Lemmas about the table of active websockets -/
namespace Verif.Active

@[simp] theorem upd_same {α : Type} (f : Nat → α) (i : Nat) (a : α) : upd f i a i = a := by simp [upd]
theorem upd_ne {α : Type} (f : Nat → α) {i j : Nat} (a : α) (h : j ≠ i) : upd f i a j = f j := by simp [upd, h]

/-- Mutual exclusion: the owner of a mutex is who is in the region it protects. -/
structure Locks (s : Sys) : Prop where
  aw : ∀ i, (s.pc i).holdsA = true ↔ s.lockA = some (.ws i)
  as : s.stop.holdsA = true ↔ s.lockA = some .stop
  cw : ∀ i, (s.pc i).holdsC = true ↔ s.lockC = some (.ws i)
  cs : s.stop.holdsC = true ↔ s.lockC = some .stop

/-- One update of a lock by its owner. -/
theorem owner_upd {l l' : Option Who} {f : Nat → Bool} {i : Nat} {q : Bool}
    (h : ∀ j, f j = true ↔ l = some (.ws j))
    (hl : l' = if q then some (.ws i) else if f i then none else l)
    (hn : q = true → f i = false → l = none) :
    ∀ j, (if j = i then q else f j) = true ↔ l' = some (.ws j) := by
  intro j
  by_cases hj : j = i
  · subst hj
    simp only [↓reduceIte, hl]
    cases q <;> simp
    cases hf : f j with
    | true => simp
    | false => simp; intro h'; have := (h j).2 h'; simp [hf] at this
  · simp only [hj, ↓reduceIte, hl]
    cases q with
    | true =>
      simp only [↓reduceIte, Option.some.injEq, Who.ws.injEq]
      constructor
      · intro hf
        have h1 := (h j).1 hf
        cases hfi : f i with
        | true => have := (h i).1 hfi; rw [h1] at this; cases this; exact absurd rfl hj
        | false => rw [hn rfl hfi] at h1; cases h1
      · intro e; exact absurd e.symm hj
    | false =>
      cases hfi : f i with
      | true =>
        simp
        have h1 := (h i).1 hfi
        cases hf : f j with
        | false => rfl
        | true => have h2 := (h j).1 hf; rw [h1] at h2; cases h2; exact absurd rfl hj
      | false => simp [h j]

theorem stop_upd {l l' : Option Who} {f : Nat → Bool} {i : Nat} {q b : Bool}
    (h : ∀ j, f j = true ↔ l = some (.ws j)) (hb : b = true ↔ l = some .stop)
    (hl : l' = if q then some (.ws i) else if f i then none else l)
    (hn : q = true → f i = false → l = none) : b = true ↔ l' = some .stop := by
  subst hl
  cases q with
  | true =>
    simp
    cases hfi : f i with
    | true => have := (h i).1 hfi; cases b <;> simp_all
    | false => have := hn rfl hfi; cases b <;> simp_all
  | false =>
    cases hfi : f i with
    | true => have := (h i).1 hfi; cases b <;> simp_all
    | false => simpa using hb

theorem Locks.move {s s' : Sys} {i : Nat} {q : Pc} (h : Locks s) (hp : s'.pc = upd s.pc i q)
    (hsa : s'.stop.holdsA = s.stop.holdsA) (hsc : s'.stop.holdsC = s.stop.holdsC)
    (ha : s'.lockA = if q.holdsA then some (.ws i) else if (s.pc i).holdsA then none else s.lockA)
    (hna : q.holdsA = true → (s.pc i).holdsA = false → s.lockA = none)
    (hc : s'.lockC = if q.holdsC then some (.ws i) else if (s.pc i).holdsC then none else s.lockC)
    (hnc : q.holdsC = true → (s.pc i).holdsC = false → s.lockC = none) : Locks s' := by
  refine ⟨fun j => ?_, ?_, fun j => ?_, ?_⟩
  · have := owner_upd (f := fun j => (s.pc j).holdsA) (i := i) (q := q.holdsA) h.aw ha hna j
    rw [← this, hp]
    unfold upd
    split <;> rfl
  · rw [hsa]; exact stop_upd (f := fun j => (s.pc j).holdsA) (i := i) (q := q.holdsA) h.aw h.as ha hna
  · have := owner_upd (f := fun j => (s.pc j).holdsC) (i := i) (q := q.holdsC) h.cw hc hnc j
    rw [← this, hp]
    unfold upd
    split <;> rfl
  · rw [hsc]; exact stop_upd (f := fun j => (s.pc j).holdsC) (i := i) (q := q.holdsC) h.cw h.cs hc hnc

theorem Locks.init : Locks {} := by
  constructor <;> simp [Pc.holdsA, Pc.holdsC, StopPc.holdsA, StopPc.holdsC]

/-- What `resize` leaves alone. -/
theorem resize_frame {s s' : Sys} {p : Option Nat} {n : Nat} (h : resize s p n = .ok s') :
    s'.pc = s.pc ∧ s'.stop = s.stop ∧ s'.lockA = s.lockA ∧ s'.lockC = s.lockC ∧ s'.nb = s.nb ∧ s'.freed = s.freed ∧
      s'.closeFlag = s.closeFlag := by
  unfold resize at h
  split at h
  · cases h; simp
  · split at h
    · cases h
    · cases h; simp

theorem takeOut_frame {s s' : Sys} {c : List (Option Nat)} {k : Nat} (h : takeOut s c k = .ok s') :
    s'.pc = s.pc ∧ s'.stop = s.stop ∧ s'.lockA = s.lockA ∧ s'.lockC = s.lockC ∧ s'.nb = s.nb ∧ s'.freed = s.freed ∧
      s'.closeFlag = s.closeFlag := by
  unfold takeOut at h
  split at h
  · split at h
    · cases h
    · have := resize_frame h; simpa using this
  · cases h; simp

/-- A step of a connection's thread, without the contents of the table. -/
theorem wsStep_ok {s s' : Sys} {i : Nat} (h : wsStep s i = some (.ok s')) :
    ∃ q, s'.pc = upd s.pc i q ∧ s'.freed = s.freed ∧
      (match s.pc i, q with
        | .idle, .growing _ _ | .growing _ _, .grown | .listed, .running | .running, .closing
        | .closing, .removing | .closing, .gone | .finding, .leaving | .finding, .cut =>
          s'.lockA = s.lockA ∧ s'.lockC = s.lockC ∧ s'.stop = s.stop ∧ s'.nb = s.nb
        | .grown, .adding | .removing, .finding =>
          s.lockA = none ∧ s'.lockA = some (.ws i) ∧ s'.lockC = s.lockC ∧ s'.stop = s.stop ∧ s'.nb = s.nb
        | .adding, .added => s'.lockA = s.lockA ∧ s'.lockC = s.lockC ∧ s'.stop = s.stop ∧ s'.nb = s.nb + 1
        | .cut, .lowered => s'.lockA = s.lockA ∧ s'.lockC = s.lockC ∧ s'.stop = s.stop ∧ s'.nb = s.nb - 1
        | .lowered, .telling =>
          s.lockC = none ∧ s'.lockC = some (.ws i) ∧ s'.lockA = s.lockA ∧ s'.stop = s.stop ∧ s'.nb = s.nb
        | .telling, .told => s'.lockA = s.lockA ∧ s'.lockC = s.lockC ∧ s'.nb = s.nb ∧
            s'.stop = if s.stop = .asleep then .lockClose else s.stop
        | .told, .leaving => s'.lockA = s.lockA ∧ s'.lockC = none ∧ s'.stop = s.stop ∧ s'.nb = s.nb
        | .added, .listed | .leaving, .gone =>
          s'.lockA = none ∧ s'.lockC = s.lockC ∧ s'.stop = s.stop ∧ s'.nb = s.nb
        | _, _ => False) := by
  unfold wsStep at h
  cases hp : s.pc i <;> rw [hp] at h <;> simp only at h
  case idle => split at h <;> cases h; exact ⟨_, rfl, rfl, by simp [go]⟩
  case growing p n =>
    split at h
    · cases h
    · cases hr : resize s p (n + 1) with
      | ub => simp [hr] at h
      | ok t =>
        simp [hr] at h
        subst h
        have hf := resize_frame hr
        refine ⟨.grown, ?_, ?_, ?_⟩ <;> simp [go, hf]
  case grown =>
    split at h
    · cases h
    · split at h
      · case h_1 e => cases h; exact ⟨.adding, rfl, rfl, by simp [go, e]⟩
      · cases h
  case adding =>
    split at h
    · cases h
    · cases hr : entries s with
      | ub => simp [hr] at h
      | ok c =>
        simp only [hr, Res.ok_bind, Res.pure_eq] at h
        split at h
        · cases h; exact ⟨.added, rfl, rfl, by simp [go]⟩
        · cases h
  case added => split at h <;> cases h; exact ⟨.listed, rfl, rfl, by simp [go]⟩
  case listed => cases h; exact ⟨.running, rfl, rfl, by simp [go]⟩
  case running => cases h; exact ⟨.closing, rfl, rfl, by simp [go]⟩
  case closing =>
    split at h
    · cases h
    · split at h
      · cases h; exact ⟨.gone, rfl, rfl, by simp [go]⟩
      · cases h; exact ⟨.removing, rfl, rfl, by simp [go]⟩
  case removing =>
    split at h
    · cases h
    · split at h
      · case h_1 e => cases h; exact ⟨.finding, rfl, rfl, by simp [go, e]⟩
      · cases h
  case finding =>
    split at h
    · cases h
    · split at h
      · cases h; exact ⟨.leaving, rfl, rfl, by simp [go]⟩
      · cases hr : entries s with
        | ub => simp [hr] at h
        | ok c =>
          simp only [hr, Res.ok_bind, Res.pure_eq] at h
          cases hk : search i s.nb c with
          | ub => simp [hk] at h
          | ok r =>
            simp only [hk, Res.ok_bind] at h
            cases r with
            | none => cases h; exact ⟨.leaving, rfl, rfl, by simp [go]⟩
            | some k =>
              simp only at h
              cases ht : takeOut s c k with
              | ub => simp [ht] at h
              | ok t =>
                simp [ht] at h
                subst h
                have hf := takeOut_frame ht
                refine ⟨.cut, ?_, ?_, ?_⟩ <;> simp [go, hf]
  case cut => split at h <;> cases h; exact ⟨.lowered, rfl, rfl, by simp [go]⟩
  case lowered =>
    split at h
    · cases h
    · split at h
      · case h_1 e => cases h; exact ⟨.telling, rfl, rfl, by simp [go, e]⟩
      · cases h
  case telling => split at h <;> cases h; exact ⟨.told, rfl, rfl, by simp [go]⟩
  case told => split at h <;> cases h; exact ⟨.leaving, rfl, rfl, by simp [go]⟩
  case leaving => split at h <;> cases h; exact ⟨.gone, rfl, rfl, by simp [go]⟩
  case gone => cases h
  case lost => cases h

theorem Locks.wsStep {s s' : Sys} {i : Nat} (hl : Locks s) (h : wsStep s i = some (.ok s')) : Locks s' := by
  obtain ⟨q, hp, _, hm⟩ := wsStep_ok h
  have hA := hl.aw i
  have hC := hl.cw i
  have hcs := hl.cs
  have e1 : s'.stop.holdsA = s.stop.holdsA := by
    revert hm
    cases s.pc i <;> cases q <;> simp <;> intros <;> simp [*]
    cases s.stop <;> simp [StopPc.holdsA]
  have e2 : s'.stop.holdsC = s.stop.holdsC := by
    revert hm
    cases s.pc i <;> cases q <;> simp <;> intros <;> simp [*]
    cases s.stop <;> simp [StopPc.holdsC]
  refine hl.move hp e1 e2 ?_ ?_ ?_ ?_
  all_goals
    revert hm hA hC
    cases hpi : s.pc i <;> cases q <;> simp [Pc.holdsA, Pc.holdsC] <;> intros <;> simp [*]

theorem Locks.stopStep {s s' : Sys} (hl : Locks s) (h : stopStep s = some (.ok s')) : Locks s' := by
  obtain ⟨haw, has, hcw, hcs⟩ := hl
  unfold Active.stopStep at h
  cases hp : s.stop <;> rw [hp] at h has hcs <;> simp only at h
  case start =>
    split at h
    · case h_1 e => cases h; constructor <;> simp_all [StopPc.holdsA, StopPc.holdsC]
    · cases h
  case flag =>
    split at h
    · cases h; constructor <;> simp_all [StopPc.holdsA, StopPc.holdsC]
    · cases hr : entries s with
      | ub => simp [hr] at h
      | ok c =>
        cases hk : setFlags s.closeFlag s.nb c with
        | ub => simp [hr, hk] at h
        | ok f =>
          simp [hr, hk] at h
          subst h
          constructor <;> simp_all [StopPc.holdsA, StopPc.holdsC]
  case flagged => cases h; constructor <;> simp_all [StopPc.holdsA, StopPc.holdsC]
  case lockClose =>
    split at h
    · case h_1 e => cases h; constructor <;> simp_all [StopPc.holdsA, StopPc.holdsC]
    · cases h
  case test =>
    by_cases hn : s.nb > 0 <;> simp only [hn, ↓reduceIte] at h <;> cases h <;>
      constructor <;> simp_all [StopPc.holdsA, StopPc.holdsC]
  case tested => cases h; constructor <;> simp_all [StopPc.holdsA, StopPc.holdsC]
  case asleep => cases h
  case exit => cases h; constructor <;> simp_all [StopPc.holdsA, StopPc.holdsC]
  case returned => cases h

/-- What a step of `ulfius_stop_framework` leaves alone. -/
theorem stopStep_frame {s s' : Sys} (h : stopStep s = some (.ok s')) :
    s'.pc = s.pc ∧ s'.nb = s.nb ∧ s'.table = s.table ∧ s'.heap = s.heap ∧ s'.fresh = s.fresh ∧ s'.freed = s.freed := by
  unfold Active.stopStep at h
  cases hp : s.stop <;> rw [hp] at h <;> simp only at h
  case start => split at h <;> cases h; simp
  case flag =>
    split at h
    · cases h; simp
    · cases hr : entries s with
      | ub => simp [hr] at h
      | ok c =>
        cases hk : setFlags s.closeFlag s.nb c with
        | ub => simp [hr, hk] at h
        | ok f => simp [hr, hk] at h; subst h; simp
  case flagged => cases h; simp
  case lockClose => split at h <;> cases h; simp
  case test => cases h; simp
  case tested => cases h; simp
  case asleep => cases h
  case exit => cases h; simp
  case returned => cases h

theorem Locks.next {s s' : Sys} {a : Act} (hl : Locks s) (h : next s a = some (.ok s')) : Locks s' := by
  cases a with
  | ws i => exact hl.wsStep h
  | stop => exact hl.stopStep h
  | spurious =>
    simp only [Active.next] at h
    split at h
    · case isTrue e =>
      cases h
      obtain ⟨haw, has, hcw, hcs⟩ := hl
      rw [e] at has hcs
      constructor <;> simp_all [StopPc.holdsA, StopPc.holdsC]
    · cases h
  | drop i =>
    simp only [Active.next] at h
    split at h
    · case isTrue e =>
      cases h
      refine hl.move (i := i) (q := .lost) rfl rfl rfl ?_ ?_ ?_ ?_ <;> simp [e, Pc.holdsA, Pc.holdsC, go]
    · cases h
  | clean =>
    simp only [Active.next] at h
    split at h
    · cases h; exact ⟨hl.aw, hl.as, hl.cw, hl.cs⟩
    · cases h

theorem reach_locks {ok : Act → Prop} {P : Sys → Prop} {s : Sys} (h : Reach ok P s) : Locks s := by
  induction h with
  | init _ => exact Locks.init
  | step _ _ hn _ ih => exact ih.next hn

theorem reach_P {ok : Act → Prop} {P : Sys → Prop} {s : Sys} (h : Reach ok P s) : P s := by
  cases h <;> assumption

end Verif.Active
