import Verif.Model.Dispatch
/-! # Lemmas on the callback chain -/
namespace Verif.Dispatch
variable {σ : Type}

/-- the chain goes on after this call -/
def Passes (e : Ev σ) : Prop := (e.ret = 0 ∨ e.ret = 1) ∧ e.after.stream = false ∧ e.after.ws = false

/-- calls counted by callback_position -/
def counted (t : List (Ev σ)) : Nat := t.countP (fun e => e.ret != 1)

/-- big-step relation: callbacks in order until one does not pass -/
inductive Runs : List (Who × Callback σ) → Nat → World σ → List (Ev σ) → Prop
  | done (pos w) : Runs [] pos w []
  | stop (rest pos w e who cb) : e.who = who → e.pos = pos → e.before = w → (e.ret, e.after) = cb pos w →
      ¬ Passes e → Runs ((who, cb) :: rest) pos w [e]
  | go (rest pos w e t who cb) : e.who = who → e.pos = pos → e.before = w → (e.ret, e.after) = cb pos w →
      Passes e → Runs rest (pos + if e.ret != 1 then 1 else 0) e.after t → Runs ((who, cb) :: rest) pos w (e :: t)

/-- end of the loop on the last call -/
def finish (cfg : Cfg σ) (e : Ev σ) (s : St σ) : St σ :=
  if e.after.stream then stream cfg s
  else if e.after.ws then websocket cfg s
  else if e.ret = 0 ∨ e.ret = 1 ∨ e.ret = 2 then complete s
  else if e.ret = 3 then unauthorized cfg s
  else error500 s

theorem loop_runs (cfg : Cfg σ) (l : List (Who × Callback σ)) (hl : l ≠ []) (s : St σ) :
    ∃ t e, Runs l s.pos s.w (t ++ [e]) ∧
      loop cfg l s = finish cfg e
        { s with w := e.after, pos := s.pos + counted (t ++ [e]), trace := s.trace ++ (t ++ [e]) } := by
  induction l generalizing s with
  | nil => exact absurd rfl hl
  | cons x rest ih =>
    obtain ⟨who, cb⟩ := x
    rcases hcb : cb s.pos s.w with ⟨ret, w⟩
    let e : Ev σ := ⟨who, s.pos, s.w, ret, w⟩
    have hcall : call who cb s = (ret, { s with w := w, pos := s.pos + counted [e], trace := s.trace ++ [e] }) := by
      simp only [call, hcb, counted, e, cbIgnore]
      by_cases h : ret = 1
      · subst h; simp
      · have : (ret != 1) = true := by simpa using h
        simp [this]
    rw [loop, hcall]
    simp only
    by_cases hp : Passes e
    · by_cases hr : rest = []
      · subst hr
        refine ⟨[], e, ?_, ?_⟩
        · exact .go _ _ _ _ _ _ _ rfl rfl rfl hcb.symm hp (.done _ _)
        · obtain ⟨h1, h2, h3⟩ := hp
          simp only [e] at h1 h2 h3
          simp only [finish, e, h2, h3, List.nil_append]
          rcases h1 with rfl | rfl <;> simp [cbContinue, cbIgnore, cbComplete]
      · obtain ⟨t, e', hr', hl'⟩ := ih hr { s with w := w, pos := s.pos + counted [e], trace := s.trace ++ [e] }
        refine ⟨e :: t, e', ?_, ?_⟩
        · refine .go _ _ _ _ _ _ _ rfl rfl rfl hcb.symm hp ?_
          have : counted [e] = if e.ret != 1 then 1 else 0 := by
            simp [counted, List.countP_cons]
          rw [← this]; exact hr'
        · obtain ⟨h1, h2, h3⟩ := hp
          simp only [e] at h1 h2 h3
          have hre : rest.isEmpty = false := by cases rest <;> simp_all
          have hcc : (ret == cbContinue || ret == cbIgnore) = true := by
            rcases h1 with rfl | rfl <;> decide
          simp only [h2, h3, hre, Bool.and_false, Bool.false_eq_true, if_false, hcc, if_true]
          rw [hl']
          have hcnt : counted (e :: t ++ [e']) = counted [e] + counted (t ++ [e']) :=
            List.countP_append (l₁ := [e]) (l₂ := t ++ [e'])
          simp only [hcnt, Nat.add_assoc]
          simp
    · refine ⟨[], e, .stop _ _ _ _ _ _ rfl rfl rfl hcb.symm hp, ?_⟩
      simp only [Passes, e] at hp
      simp only [finish, e, List.nil_append]
      by_cases hs : w.stream = true
      · simp [hs]
      · by_cases hw : w.ws = true
        · simp [hs, hw]
        · have h01 : ¬ (ret = 0 ∨ ret = 1) := fun h => hp ⟨h, by simpa using hs, by simpa using hw⟩
          rw [not_or] at h01
          simp only [hs, hw, h01.1, h01.2, false_or, Bool.false_eq_true, if_false, cbContinue, cbIgnore, cbComplete,
            cbUnauthorized]
          have e0 : (ret == 0) = false := by simpa using h01.1
          have e1 : (ret == 1) = false := by simpa using h01.2
          simp only [e0, e1, Bool.or_self, Bool.false_and, Bool.false_eq_true, if_false, beq_iff_eq]

theorem runs_nonempty {l : List (Who × Callback σ)} {pos w} {t : List (Ev σ)} (h : Runs l pos w t) (hl : l ≠ []) :
    t ≠ [] := by
  cases h <;> simp_all

theorem runs_facts {l : List (Who × Callback σ)} {pos : Nat} {w : World σ} {t : List (Ev σ)} (h : Runs l pos w t) :
    t.length ≤ l.length ∧
    (∀ j (h1 : j < t.length) (h2 : j < l.length), t[j].who = l[j].1 ∧ (t[j].ret, t[j].after) = l[j].2 t[j].pos t[j].before) ∧
    (∀ j (h1 : j < t.length), t[j].pos = pos + counted (t.take j)) ∧
    (∀ h0 : 0 < t.length, t[0].before = w) ∧
    (∀ j (h1 : j + 1 < t.length), t[j + 1].before = t[j].after ∧ Passes t[j]) ∧
    (t.length = l.length ∨ ∃ e, t.getLast? = some e ∧ ¬ Passes e) := by
  induction h with
  | done => simp
  | stop rest pos w e who cb h1 h2 h3 h4 h5 =>
    refine ⟨by simp, ?_, ?_, ?_, ?_, Or.inr ⟨e, rfl, h5⟩⟩
    · intro j hj hj2
      have : j = 0 := by simp at hj; omega
      subst this
      simp [h1, h2, h3, h4]
    · intro j hj
      have : j = 0 := by simp at hj; omega
      subst this
      simp [h2, counted]
    · intro _; simpa using h3
    · intro j hj; simp at hj
  | go rest pos w e t who cb h1 h2 h3 h4 h5 _ ih =>
    obtain ⟨i1, i2, i3, i4, i5, i6⟩ := ih
    refine ⟨by simp; omega, ?_, ?_, ?_, ?_, ?_⟩
    · intro j hj hj2
      cases j with
      | zero => simp [h1, h2, h3, h4]
      | succ j => simpa using i2 j (by simpa using hj) (by simpa using hj2)
    · intro j hj
      cases j with
      | zero => simp [h2, counted]
      | succ j =>
        have := i3 j (by simpa using hj)
        simp only [List.getElem_cons_succ, List.take_succ_cons]
        rw [this]
        simp only [counted, List.countP_cons]
        omega
    · intro _; simpa using h3
    · intro j hj
      cases j with
      | zero =>
        simp only [List.getElem_cons_zero, List.getElem_cons_succ]
        exact ⟨i4 (by simpa using hj), h5⟩
      | succ j => simpa using i5 j (by simpa using hj)
    · rcases i6 with h | ⟨e', h, h'⟩
      · left; simp [h]
      · right
        refine ⟨e', ?_, h'⟩
        cases t with
        | nil => simp at h
        | cons x t => rw [List.getLast?_cons_cons]; exact h

theorem number_length (i : Nat) (l : List (Callback σ)) : (number i l).length = l.length := by
  induction l generalizing i with
  | nil => rfl
  | cons c t ih => simp [number, ih]

theorem number_get (i : Nat) (l : List (Callback σ)) (j : Nat) (h : j < (number i l).length) :
    (number i l)[j] = (.ep (i + j), l[j]'(by rw [number_length] at h; exact h)) := by
  induction l generalizing i j with
  | nil => simp [number] at h
  | cons c t ih =>
    cases j with
    | zero => simp [number]
    | succ j =>
      simp only [number, List.getElem_cons_succ]
      rw [ih]
      congr 2
      omega

end Verif.Dispatch
