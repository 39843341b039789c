import Verif.Model.Answer
/-! # Lemmas on the answers of the dispatcher -/
namespace Verif.Answer
open Verif.UMap Verif.Message
open Verif.Dispatch (Who)

/-- lines added one by one until one is refused -/
def sendAll (accept : List Field → Bytes → Bytes → Bool) : List Field → List Field → Bool × List Field
  | [], fs => (true, fs)
  | f :: t, fs => if accept fs f.1 f.2 then sendAll accept t (fs ++ [f]) else (false, fs)

theorem sendAll_append (accept : List Field → Bytes → Bytes → Bool) (a b fs : List Field) :
    sendAll accept (a ++ b) fs =
      if (sendAll accept a fs).1 then sendAll accept b (sendAll accept a fs).2 else sendAll accept a fs := by
  induction a generalizing fs with
  | nil => simp [sendAll]
  | cons f t ih =>
    simp only [List.cons_append, sendAll]
    by_cases h : accept fs f.1 f.2 = true
    · simp only [h, if_true]; exact ih _
    · simp [h]

theorem sendAll_spec (accept : List Field → Bytes → Bytes → Bool) (l fs : List Field) :
    ∃ sent rest, l = sent ++ rest ∧ sendAll accept l fs = (rest.isEmpty, fs ++ sent) ∧
      (∀ a f b, sent = a ++ f :: b → accept (fs ++ a) f.1 f.2 = true) ∧
      ∀ f t, rest = f :: t → accept (fs ++ sent) f.1 f.2 = false := by
  induction l generalizing fs with
  | nil => exact ⟨[], [], rfl, by simp [sendAll], by simp, by simp⟩
  | cons f t ih =>
    by_cases h : accept fs f.1 f.2 = true
    · obtain ⟨sent, rest, h1, h2, h3, h4⟩ := ih (fs ++ [f])
      refine ⟨f :: sent, rest, by simp [h1], by simp [sendAll, h, h2], ?_, ?_⟩
      · intro a g b hab
        cases a with
        | nil => simp only [List.nil_append, List.cons.injEq] at hab; rw [← hab.1]; simpa using h
        | cons x a =>
          simp only [List.cons_append, List.cons.injEq] at hab
          have := h3 a g b hab.2
          rw [← hab.1]
          simpa using this
      · intro g u hr
        have := h4 g u hr
        simpa using this
    · refine ⟨[], f :: t, rfl, by simp [sendAll, h], by simp, ?_⟩
      intro g u hr
      simp only [List.cons.injEq] at hr
      rw [← hr.1]
      simpa using h

/-- the chain goes on after this call -/
def Passes {σ : Type} (e : Ev σ) : Prop := (e.ret = 0 ∨ e.ret = 1) ∧ e.after.resp.stream = none ∧ e.after.ws = false

variable {σ : Type}

/-- calls counted by callback_position -/
def counted (t : List (Ev σ)) : Nat := t.countP (fun e => e.ret != 1)

/-- big-step relation: callbacks in order until one does not pass -/
inductive Runs : List (Who × Callback σ) → Nat → World σ → List (Ev σ) → Prop
  | done (pos w) : Runs [] pos w []
  | stop (rest pos w e who cb) : e.who = who → e.pos = pos → e.before = w → (e.ret, e.after) = cb pos w →
      ¬ Passes e → Runs ((who, cb) :: rest) pos w [e]
  | go (rest pos w e t who cb) : e.who = who → e.pos = pos → e.before = w → (e.ret, e.after) = cb pos w →
      Passes e → Runs rest (pos + if e.ret != 1 then 1 else 0) e.after t → Runs ((who, cb) :: rest) pos w (e :: t)

/-- end of the loop on the last call -/
def finish (cfg : Cfg σ) (e : Ev σ) (s : St σ) : Res (St σ) :=
  match e.after.resp.stream with
  | some c => stream cfg c s
  | none =>
    if e.after.ws then websocket cfg s
    else if e.ret = 0 ∨ e.ret = 1 ∨ e.ret = 2 then complete cfg s
    else if e.ret = 3 then unauthorized cfg s
    else .ok (error500 s)

theorem loop_runs (cfg : Cfg σ) (l : List (Who × Callback σ)) (hl : l ≠ []) (s : St σ) :
    ∃ t e, Runs l s.pos s.w (t ++ [e]) ∧
      loop cfg l s = finish cfg e
        { s with w := e.after, pos := s.pos + counted (t ++ [e]), trace := s.trace ++ (t ++ [e]) } := by
  induction l generalizing s with
  | nil => exact absurd rfl hl
  | cons x rest ih =>
    obtain ⟨who, cb⟩ := x
    rcases hcb : cb s.pos s.w with ⟨ret, w⟩
    let e : Ev σ := ⟨who, s.pos, s.w, ret, w⟩
    have hcall : call who cb s = (ret, { s with w := w, pos := s.pos + counted [e], trace := s.trace ++ [e] }) := by
      simp only [call, hcb, counted, e, Dispatch.cbIgnore]
      by_cases h : ret = 1
      · subst h; simp
      · have : (ret != 1) = true := by simpa using h
        simp [this]
    rw [loop, hcall]
    simp only
    by_cases hp : Passes e
    · by_cases hr : rest = []
      · subst hr
        refine ⟨[], e, ?_, ?_⟩
        · exact .go _ _ _ _ _ _ _ rfl rfl rfl hcb.symm hp (.done _ _)
        · obtain ⟨h1, h2, h3⟩ := hp
          simp only [e] at h1 h2 h3
          simp only [finish, e, h2, h3, List.nil_append]
          rcases h1 with rfl | rfl <;> simp [Dispatch.cbContinue, Dispatch.cbIgnore, Dispatch.cbComplete]
      · obtain ⟨t, e', hr', hl'⟩ := ih hr { s with w := w, pos := s.pos + counted [e], trace := s.trace ++ [e] }
        refine ⟨e :: t, e', ?_, ?_⟩
        · refine .go _ _ _ _ _ _ _ rfl rfl rfl hcb.symm hp ?_
          have : counted [e] = if e.ret != 1 then 1 else 0 := by
            simp [counted, List.countP_cons]
          rw [← this]; exact hr'
        · obtain ⟨h1, h2, h3⟩ := hp
          simp only [e] at h1 h2 h3
          have hre : rest.isEmpty = false := by cases rest <;> simp_all
          have hcc : (ret == Dispatch.cbContinue || ret == Dispatch.cbIgnore) = true := by
            rcases h1 with rfl | rfl <;> decide
          simp only [h2, h3, hre, Bool.and_false, Bool.false_eq_true, if_false, hcc, if_true]
          rw [hl']
          have hcnt : counted (e :: t ++ [e']) = counted [e] + counted (t ++ [e']) :=
            List.countP_append (l₁ := [e]) (l₂ := t ++ [e'])
          simp only [hcnt, Nat.add_assoc]
          simp
    · refine ⟨[], e, .stop _ _ _ _ _ _ rfl rfl rfl hcb.symm hp, ?_⟩
      simp only [Passes, e] at hp
      simp only [finish, e, List.nil_append]
      cases hs : w.resp.stream with
      | some c => simp
      | none =>
        by_cases hw : w.ws = true
        · simp [hw]
        · have h01 : ¬ (ret = 0 ∨ ret = 1) := fun h => hp ⟨h, hs, by simpa using hw⟩
          rw [not_or] at h01
          simp only [hw, h01.1, h01.2, false_or, Bool.false_eq_true, if_false, Dispatch.cbContinue, Dispatch.cbIgnore,
            Dispatch.cbComplete, Dispatch.cbUnauthorized]
          have e0 : (ret == 0) = false := by simpa using h01.1
          have e1 : (ret == 1) = false := by simpa using h01.2
          simp only [e0, e1, Bool.or_self, Bool.false_and, Bool.false_eq_true, if_false, beq_iff_eq]

/-- an invariant of the worlds that the callbacks preserve holds in every call -/
theorem runs_inv (P : World σ → Prop) {l : List (Who × Callback σ)} {pos : Nat} {w : World σ} {t : List (Ev σ)}
    (h : Runs l pos w t) (hw : P w) (hl : ∀ x ∈ l, ∀ p v, P v → P (x.2 p v).2) : ∀ e ∈ t, P e.before ∧ P e.after := by
  induction h with
  | done => simp
  | stop rest pos w e who cb h1 h2 h3 h4 h5 =>
    intro x hx
    simp only [List.mem_singleton] at hx
    subst hx
    have this : P (cb pos w).2 := hl (who, cb) (by simp) pos w hw
    rw [← h4] at this
    exact ⟨h3 ▸ hw, this⟩
  | go rest pos w e t who cb h1 h2 h3 h4 h5 _ ih =>
    have ha : P (cb pos w).2 := hl (who, cb) (by simp) pos w hw
    rw [← h4] at ha
    intro x hx
    rcases List.mem_cons.1 hx with rfl | hx
    · exact ⟨h3 ▸ hw, ha⟩
    · exact ih ha (fun y hy => hl y (by simp [hy])) x hx

theorem runs_length {l : List (Who × Callback σ)} {pos : Nat} {w : World σ} {t : List (Ev σ)}
    (h : Runs l pos w t) : t.length ≤ l.length := by
  induction h with
  | done => simp
  | stop => simp
  | go _ _ _ _ _ _ _ _ _ _ _ _ _ ih => simp; omega

theorem runs_who {l : List (Who × Callback σ)} {pos : Nat} {w : World σ} {t : List (Ev σ)}
    (h : Runs l pos w t) : ∀ e ∈ t, ∃ x ∈ l, e.who = x.1 := by
  induction h with
  | done => simp
  | stop rest pos w e who cb h1 =>
    intro x hx
    simp only [List.mem_singleton] at hx
    subst hx
    exact ⟨(who, cb), by simp, h1⟩
  | go rest pos w e t who cb h1 _ _ _ _ _ ih =>
    intro x hx
    rcases List.mem_cons.1 hx with rfl | hx
    · exact ⟨(who, cb), by simp, h1⟩
    · obtain ⟨y, hy, h⟩ := ih x hx
      exact ⟨y, by simp [hy], h⟩

theorem number_ep (i : Nat) (l : List (Callback σ)) : ∀ x ∈ number i l, ∃ j, x.1 = .ep j ∧ x.2 ∈ l := by
  induction l generalizing i with
  | nil => simp [number]
  | cons c t ih =>
    intro x hx
    simp only [number, List.mem_cons] at hx
    rcases hx with rfl | hx
    · exact ⟨i, rfl, by simp⟩
    · obtain ⟨j, h, h'⟩ := ih _ x hx
      exact ⟨j, h, by simp [h']⟩

end Verif.Answer
