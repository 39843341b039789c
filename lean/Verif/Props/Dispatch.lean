import Verif.Lemmas.Dispatch
/-!
# C24–C27: the callback chain
-/
namespace Verif.Props
open Verif.Dispatch
variable {σ : Type}

/-- A call that leaves the chain open: it returned CONTINUE or IGNORE and installed neither a stream nor a websocket on
the response. -/
def LetsContinue (e : Ev σ) : Prop := (e.ret = 0 ∨ e.ret = 1) ∧ e.after.stream = false ∧ e.after.ws = false

/-- the trace of `dispatch` when an endpoint matched -/
theorem dispatch_trace (cfg : Cfg σ) (eps : List (Callback σ)) (heps : eps ≠ []) (dflt : Option (Callback σ))
    (w : World σ) :
    ∃ t e, Runs (number 0 eps) 0 w (t ++ [e]) ∧
      let s := finish cfg e ⟨e.after, counted (t ++ [e]), t ++ [e], false, false, none, false⟩
      dispatch cfg eps dflt w = (answer (fallback cfg dflt s), (fallback cfg dflt s).trace) := by
  have hne : number 0 eps ≠ [] := by
    intro h
    have := congrArg List.length h
    rw [number_length] at this
    cases eps <;> simp_all
  obtain ⟨t, e, h1, h2⟩ := loop_runs cfg (number 0 eps) hne ⟨w, 0, [], false, false, none, false⟩
  refine ⟨t, e, h1, ?_⟩
  have : dispatch cfg eps dflt w =
      (answer (fallback cfg dflt (loop cfg (number 0 eps) ⟨w, 0, [], false, false, none, false⟩)),
        (fallback cfg dflt (loop cfg (number 0 eps) ⟨w, 0, [], false, false, none, false⟩)).trace) := by
    unfold dispatch
    cases eps with
    | nil => exact absurd rfl heps
    | cons c t => simp [number]
  simp only
  rw [this, h2]
  simp

theorem dispatch_trace_default (cfg : Cfg σ) (d : Callback σ) (w : World σ) :
    ∃ e, Runs [(.dflt, d)] 0 w [e] ∧
      let s := finish cfg e ⟨e.after, counted [e], [e], false, false, none, false⟩
      dispatch cfg [] (some d) w = (answer (fallback cfg (some d) s), (fallback cfg (some d) s).trace) := by
  obtain ⟨t, e, h1, h2⟩ := loop_runs cfg [(Who.dflt, d)] (by simp) ⟨w, 0, [], false, false, none, false⟩
  have ht : t = [] := by
    have := (runs_facts h1).1
    simp at this; exact this
  subst ht
  refine ⟨e, h1, ?_⟩
  simp only [dispatch, List.isEmpty_cons]
  rw [h2]
  simp

theorem finish_fields (cfg : Cfg σ) (e : Ev σ) (s : St σ) :
    (finish cfg e s).trace = s.trace ∧ (finish cfg e s).pos = s.pos := by
  unfold finish complete stream websocket unauthorized error500
  split
  · simp
  · split
    · split <;> simp
    · split
      · simp
      · split
        · dsimp only
          split <;> split <;> try split
          all_goals simp
        · simp

/-- what the fallback adds to the trace -/
theorem fallback_trace (cfg : Cfg σ) (dflt : Option (Callback σ)) (s : St σ) :
    (fallback cfg dflt s).trace = match dflt with
      | none => s.trace
      | some d => if s.pos = 0 then s.trace ++ [⟨.dflt, s.pos, s.w, (d s.pos s.w).1, (d s.pos s.w).2⟩] else s.trace := by
  have hun : ∀ s : St σ, (unauthorized cfg s).trace = s.trace := by
    intro s
    unfold unauthorized; dsimp only
    split <;> split <;> try split
    all_goals simp
  unfold fallback
  cases dflt with
  | none => rfl
  | some d =>
    simp only [beq_iff_eq]
    split
    · split
      · exact hun _
      · split
        · rfl
        · split <;> rfl
    · rfl

/-- **C24.** Whatever the callbacks do: the calls made are those of the selected endpoints in order, each at most once,
each seeing the world its predecessor left, up to and including the first that does not let the chain continue;
the only other call is one of the default endpoint at the end, when every call returned IGNORE. -/
theorem C24_chain (cfg : Cfg σ) (eps : List (Callback σ)) (heps : eps ≠ []) (dflt : Option (Callback σ)) (w : World σ) :
    ∃ t extra, (dispatch cfg eps dflt w).2 = t ++ extra ∧
      0 < t.length ∧ t.length ≤ eps.length ∧
      (∀ j (h1 : j < t.length) (h2 : j < eps.length), t[j].who = .ep j ∧
        (t[j].ret, t[j].after) = eps[j] t[j].pos t[j].before) ∧
      (∀ h0 : 0 < t.length, t[0].before = w) ∧
      (∀ j (h1 : j + 1 < t.length), t[j + 1].before = t[j].after ∧ LetsContinue t[j]) ∧
      (t.length = eps.length ∨ ∃ e, t.getLast? = some e ∧ ¬ LetsContinue e) ∧
      (extra = [] ∨ ∃ e, extra = [e] ∧ e.who = .dflt ∧ ∀ x ∈ t, x.ret = 1) := by
  obtain ⟨t, e, h1, h2⟩ := dispatch_trace cfg eps heps dflt w
  obtain ⟨f1, f2, f3, f4, f5, f6⟩ := runs_facts h1
  rw [number_length] at f1 f6
  obtain ⟨htr, hpos⟩ := finish_fields cfg e ⟨e.after, counted (t ++ [e]), t ++ [e], false, false, none, false⟩
  have hfb := fallback_trace cfg dflt (finish cfg e ⟨e.after, counted (t ++ [e]), t ++ [e], false, false, none, false⟩)
  have hd : ∃ extra, (dispatch cfg eps dflt w).2 = (t ++ [e]) ++ extra ∧
      (extra = [] ∨ ∃ x, extra = [x] ∧ x.who = .dflt ∧ ∀ x ∈ t ++ [e], x.ret = 1) := by
    rw [h2]
    simp only
    rw [hfb, htr]
    cases dflt with
    | none => exact ⟨[], by simp, .inl rfl⟩
    | some d =>
      simp only
      split
      · rename_i h0
        rw [hpos] at h0
        refine ⟨_, rfl, .inr ⟨_, rfl, rfl, ?_⟩⟩
        intro x hx
        have := List.countP_eq_zero.1 (show List.countP _ _ = 0 from h0) x hx
        simpa using this
      · exact ⟨[], by simp, .inl rfl⟩
  obtain ⟨extra, hd1, hd2⟩ := hd
  refine ⟨t ++ [e], extra, hd1, by simp, f1, ?_, f4, f5, f6, hd2⟩
  intro j hj1 hj2
  have := f2 j hj1 (by rw [number_length]; exact hj2)
  rw [number_get] at this
  simpa using this

/-- **C25.** Every callback (the default endpoint included) sees `callback_position` equal to the number of earlier calls
that did not return U_CALLBACK_IGNORE. -/
theorem C25_position (cfg : Cfg σ) (eps : List (Callback σ)) (dflt : Option (Callback σ)) (w : World σ) :
    ∀ j (h : j < (dispatch cfg eps dflt w).2.length),
      (dispatch cfg eps dflt w).2[j].pos = (((dispatch cfg eps dflt w).2.take j).filter (fun e => e.ret != 1)).length := by
  -- common part
  have key : ∀ (l : List (Who × Callback σ)) (t : List (Ev σ)) (e : Ev σ) (r : List (Ev σ)), Runs l 0 w (t ++ [e]) →
      r = (fallback cfg dflt
        (finish cfg e ⟨e.after, counted (t ++ [e]), t ++ [e], false, false, none, false⟩)).trace →
      ∀ j (h : j < r.length), r[j].pos = ((r.take j).filter (fun e => e.ret != 1)).length := by
    intro l t e r hr hre j hj
    obtain ⟨_, _, f3, _⟩ := runs_facts hr
    have ff := finish_fields cfg e ⟨e.after, counted (t ++ [e]), t ++ [e], false, false, none, false⟩
    have hfb := fallback_trace cfg dflt (finish cfg e ⟨e.after, counted (t ++ [e]), t ++ [e], false, false, none, false⟩)
    rw [← hre] at hfb
    rw [ff.1, ff.2] at hfb
    simp only at hfb
    have base : ∀ (j : Nat) (h : j < (t ++ [e]).length),
        (t ++ [e])[j].pos = (((t ++ [e]).take j).filter (fun e => e.ret != 1)).length := by
      intro j h
      rw [f3 j h, counted, List.countP_eq_length_filter]; simp
    have hcase : r = t ++ [e] ∨ ∃ x, r = (t ++ [e]) ++ [x] ∧ x.pos = 0 ∧ counted (t ++ [e]) = 0 := by
      cases dflt with
      | none => left; exact hfb
      | some d =>
        simp only at hfb
        split at hfb
        · rename_i h0
          right; exact ⟨_, hfb, h0, h0⟩
        · left; exact hfb
    rcases hcase with rfl | ⟨x, rfl, hx, h0⟩
    · exact base j hj
    · rcases Nat.lt_or_ge j (t ++ [e]).length with hlt | hge
      · rw [List.getElem_append_left hlt, List.take_append_of_le_length (Nat.le_of_lt hlt)]
        exact base j hlt
      · have : j = (t ++ [e]).length := by simp at hj hge ⊢; omega
        subst this
        rw [List.getElem_append_right (Nat.le_refl _), List.take_left]
        simp only [Nat.sub_self, List.getElem_cons_zero]
        rw [hx, ← List.countP_eq_length_filter]
        exact h0.symm
  by_cases heps : eps = []
  · subst heps
    cases dflt with
    | none => intro j h; simp [dispatch, number] at h
    | some d =>
      obtain ⟨e, h1, h2⟩ := dispatch_trace_default cfg d w
      exact key _ [] e _ h1 (by rw [h2]; rfl)
  · obtain ⟨t, e, h1, h2⟩ := dispatch_trace cfg eps heps dflt w
    exact key _ t e _ h1 (by rw [h2])

/-! concrete callbacks for the examples -/

private def w0 : World Nat := ⟨200, false, false, none, 0⟩
private def cfg0 : Cfg Nat := ⟨fun _ => .upgraded, fun _ => true, none, fun _ => true⟩
/-- a callback that returns `r` and sets the status -/
private def ret (r : Int) (st : Nat) : Callback Nat := fun _ w => (r, { w with status := st, user := w.user + 1 })

example : ((dispatch cfg0 [ret 1 200, ret 0 201, ret 2 202, ret 0 203] (some (ret 2 404)) w0).2.map (fun e => (e.who, e.pos, e.ret)))
    = [(.ep 0, 0, 1), (.ep 1, 0, 0), (.ep 2, 1, 2)] := by decide
example : ((dispatch cfg0 [ret 1 200, ret 1 201] (some (ret 2 404)) w0).2.map (fun e => (e.who, e.pos, e.ret)))
    = [(.ep 0, 0, 1), (.ep 1, 0, 1), (.dflt, 0, 2)] := by decide

/-- **C26 (partial).** When nothing was matched and there is no default endpoint the answer is 404. Otherwise, if no
call installed a stream or websocket and the headers of the response are acceptable, the last call decides:
UNAUTHORIZED gives 401, ERROR or an unknown code 500, the other codes the status in the response. Missing for the
full property: an unknown code from the default endpoint called as fallback, and streams, see
`C26_status_false`. -/
theorem C26_status_partial (cfg : Cfg σ) (eps : List (Callback σ)) (dflt : Option (Callback σ)) (w : World σ) :
    (eps = [] → dflt = none → dispatch cfg eps dflt w = (some 404, [])) ∧
    (¬ (eps = [] ∧ dflt = none) → ∃ e, (dispatch cfg eps dflt w).2.getLast? = some e ∧
      ((∀ x ∈ (dispatch cfg eps dflt w).2, x.after.stream = false ∧ x.after.ws = false) →
        cfg.headersOk e.after = true →
        (e.who = .dflt → (0 ≤ e.ret ∧ e.ret ≤ 4) ∨ (dispatch cfg eps dflt w).2.length = 1) →
        (dispatch cfg eps dflt w).1 =
          if e.ret = 3 then some 401
          else if e.ret = 0 ∨ e.ret = 1 ∨ e.ret = 2 then some e.after.status
          else some 500)) := by
  constructor
  · rintro rfl rfl; rfl
  · intro hne
    have hfin : ∀ (e : Ev σ) (s : St σ), e.after.stream = false → e.after.ws = false → cfg.headersOk e.after = true →
        s.w = e.after → s.unauth = false → s.realm = none → s.upgrade = false →
        answer (finish cfg e s) = (if e.ret = 3 then some 401
          else if e.ret = 0 ∨ e.ret = 1 ∨ e.ret = 2 then some e.after.status
          else some 500) := by
      intro e s h1 h2 h3 h4 h5 h6 h7
      unfold finish
      simp only [h1, h2, Bool.false_eq_true, if_false]
      by_cases c : e.ret = 0 ∨ e.ret = 1 ∨ e.ret = 2
      · rw [if_pos c, if_neg (by omega), if_pos c]
        simp [answer, complete, h5, h7, h4]
      · rw [if_neg c]
        by_cases c3 : e.ret = 3
        · rw [if_pos c3, if_pos c3]
          simp only [unauthorized, h4, h3, if_true]
          split
          · simp [answer]
          · split <;> simp [answer]
        · rw [if_neg c3, if_neg c3, if_neg c]
          simp [answer, error500, h5, h7]
    -- common part
    have key : ∀ (l : List (Who × Callback σ)) (t : List (Ev σ)) (e : Ev σ), Runs l 0 w (t ++ [e]) →
        dispatch cfg eps dflt w = (answer (fallback cfg dflt
          (finish cfg e ⟨e.after, counted (t ++ [e]), t ++ [e], false, false, none, false⟩)), (fallback cfg dflt
          (finish cfg e ⟨e.after, counted (t ++ [e]), t ++ [e], false, false, none, false⟩)).trace) →
        ∃ e, (dispatch cfg eps dflt w).2.getLast? = some e ∧
          ((∀ x ∈ (dispatch cfg eps dflt w).2, x.after.stream = false ∧ x.after.ws = false) →
            cfg.headersOk e.after = true →
            (e.who = .dflt → (0 ≤ e.ret ∧ e.ret ≤ 4) ∨ (dispatch cfg eps dflt w).2.length = 1) →
            (dispatch cfg eps dflt w).1 =
              if e.ret = 3 then some 401
              else if e.ret = 0 ∨ e.ret = 1 ∨ e.ret = 2 then some e.after.status
              else some 500) := by
      intro l t e hr hd
      rw [hd]
      have ff := finish_fields cfg e ⟨e.after, counted (t ++ [e]), t ++ [e], false, false, none, false⟩
      by_cases hcase : dflt = none ∨ counted (t ++ [e]) ≠ 0
      · -- no fallback call
        have hfeq : fallback cfg dflt
            (finish cfg e ⟨e.after, counted (t ++ [e]), t ++ [e], false, false, none, false⟩) =
            finish cfg e ⟨e.after, counted (t ++ [e]), t ++ [e], false, false, none, false⟩ := by
          unfold fallback
          cases dflt with
          | none => rfl
          | some d =>
            simp only
            rw [if_neg]
            rw [ff.2]; simpa using hcase
        rw [hfeq]
        simp only
        rw [ff.1]
        simp only
        refine ⟨e, by simp, ?_⟩
        intro hall hh _
        have := hall e (by simp)
        exact hfin e _ this.1 this.2 hh rfl rfl rfl rfl
      · rw [not_or, Decidable.not_not] at hcase
        obtain ⟨hd1, hc0⟩ := hcase
        have hfb := fallback_trace cfg dflt
          (finish cfg e ⟨e.after, counted (t ++ [e]), t ++ [e], false, false, none, false⟩)
        rw [ff.1, ff.2] at hfb
        simp only at hfb ⊢
        rw [hfb]
        cases dflt with
        | none => exact absurd rfl hd1
        | some d =>
          -- every call returned IGNORE, so the last one did not pass for another reason or the list ended
          have hign : e.ret = 1 := by
            unfold counted at hc0
            rw [List.countP_eq_zero] at hc0
            have := hc0 e (by simp)
            simpa using this
          simp only [hc0, if_true]
          refine ⟨_, List.getLast?_concat .., ?_⟩
          intro hall hh hk
          have he := hall e (by simp)
          have hfin' : finish cfg e ⟨e.after, 0, t ++ [e], false, false, none, false⟩ =
              ⟨e.after, 0, t ++ [e], true, false, none, false⟩ := by
            simp [finish, he.1, he.2, hign, complete]
          rw [hfin'] at hall hh hk ⊢
          simp only at hall hh hk ⊢
          have hk' : 0 ≤ (d 0 e.after).1 ∧ (d 0 e.after).1 ≤ 4 := by
            rcases hk trivial with h | h
            · exact h
            · simp at h
          simp only [fallback, beq_self_eq_true, if_true, cbUnauthorized, cbError, cbContinue, cbIgnore, cbComplete]
          by_cases c3 : (d 0 e.after).1 = 3
          · simp only [c3, beq_self_eq_true, if_true]
            simp only [unauthorized, hh, if_true]
            split
            · simp [answer]
            · split <;> simp [answer]
          · have b3 : ((d 0 e.after).1 == 3) = false := by simpa using c3
            simp only [b3, c3, Bool.false_eq_true, if_false]
            by_cases c4 : (d 0 e.after).1 = 4
            · simp [c4, answer, error500]
            · have c : (d 0 e.after).1 = 0 ∨ (d 0 e.after).1 = 1 ∨ (d 0 e.after).1 = 2 := by omega
              have b4 : ((d 0 e.after).1 == 4) = false := by simpa using c4
              have bc : ((d 0 e.after).1 == 0 || (d 0 e.after).1 == 1 || (d 0 e.after).1 == 2) = true := by
                simp only [Bool.or_eq_true, beq_iff_eq]; omega
              simp only [b4, bc, c, Bool.false_eq_true, if_false, if_true]
              simp [answer, complete]
    by_cases heps : eps = []
    · subst heps
      cases dflt with
      | none => exact absurd ⟨rfl, rfl⟩ hne
      | some d =>
        obtain ⟨e, h1, h2⟩ := dispatch_trace_default cfg d w
        exact key _ [] e h1 h2
    · obtain ⟨t, e, h1, h2⟩ := dispatch_trace cfg eps heps dflt w
      exact key _ t e h1 h2

example : (dispatch cfg0 [ret 0 201, ret 3 200] none w0).1 = some 401 ∧
    (dispatch cfg0 [ret 0 201, ret 77 200, ret 2 200] none w0).1 = some 500 ∧
    (dispatch cfg0 [ret 0 201, ret 0 202] none w0).1 = some 202 ∧
    (dispatch cfg0 [] (some (ret 2 405)) w0).1 = some 405 := by decide

/-- **C26 is false of the code** in two corners. (1) Every matching callback ignored the request and the default endpoint
returns an unknown code: nothing is answered at all. (2) A callback that installed a stream and returns
UNAUTHORIZED: the stream is sent with status 200. -/
theorem C26_status_false :
    (dispatch cfg0 [ret 1 200] (some (ret 77 200)) w0).1 = none ∧
    (dispatch cfg0 [fun _ w => (3, { w with stream := true })] none w0).1 = some 200 := by decide

/-- Calls of the default endpoint in a trace. -/
def defaultCalls (t : List (Ev σ)) : Nat := (t.filter (fun e => e.who == .dflt)).length

/-- **C27 (partial).** If an endpoint matched, the default endpoint is called once if every call made returned IGNORE
and never otherwise. If none matched, it is called, and called exactly once unless it returns IGNORE itself. Missing
for the full property: in that last case it is called twice, see `C27_default_false`. -/
theorem C27_default_partial (cfg : Cfg σ) (eps : List (Callback σ)) (d : Callback σ) (w : World σ) :
    (eps ≠ [] → defaultCalls (dispatch cfg eps (some d) w).2 =
      if ((dispatch cfg eps (some d) w).2.filter (fun e => e.who != .dflt)).all (fun e => e.ret == 1) then 1 else 0) ∧
    (eps = [] → (d 0 w).1 ≠ 1 → defaultCalls (dispatch cfg eps (some d) w).2 = 1) := by
  constructor
  · intro heps
    obtain ⟨t, e, h1, h2⟩ := dispatch_trace cfg eps heps (some d) w
    have ff := finish_fields cfg e ⟨e.after, counted (t ++ [e]), t ++ [e], false, false, none, false⟩
    have hfb := fallback_trace cfg (some d) (finish cfg e ⟨e.after, counted (t ++ [e]), t ++ [e], false, false, none, false⟩)
    rw [ff.1, ff.2] at hfb
    simp only at hfb h2
    have hwho : ∀ x ∈ t ++ [e], x.who ≠ .dflt := by
      intro x hx
      obtain ⟨j, hj, rfl⟩ := List.getElem_of_mem hx
      obtain ⟨f1, f2, _⟩ := runs_facts h1
      have := (f2 j hj (by omega)).1
      rw [number_get] at this
      rw [this]; simp
    generalize t ++ [e] = tr at *
    rw [h2, hfb]
    simp only
    have e1 : tr.filter (fun e => e.who == .dflt) = [] := by
      rw [List.filter_eq_nil_iff]; intro x hx; simpa using hwho x hx
    have e2 : tr.filter (fun e => e.who != .dflt) = tr := by
      rw [List.filter_eq_self]; intro x hx; simpa using hwho x hx
    by_cases hc : counted tr = 0
    · rw [if_pos hc, if_pos]
      · rw [defaultCalls, List.filter_append, e1]; simp
      · rw [List.filter_append, e2]
        simp only [List.filter_cons, List.filter_nil]
        rw [if_neg (by simp), List.append_nil, List.all_eq_true]
        intro x hx
        unfold counted at hc
        rw [List.countP_eq_zero] at hc
        have := hc x hx
        simpa using this
    · rw [if_neg hc, if_neg]
      · rw [defaultCalls, e1]; rfl
      · rw [e2, List.all_eq_true]
        intro hall
        apply hc
        unfold counted
        rw [List.countP_eq_zero]
        intro x hx
        have := hall x hx
        simp only [beq_iff_eq] at this
        simp [this]
  · rintro rfl hd
    obtain ⟨e, h1, h2⟩ := dispatch_trace_default cfg d w
    have ff := finish_fields cfg e ⟨e.after, counted [e], [e], false, false, none, false⟩
    have hfb := fallback_trace cfg (some d) (finish cfg e ⟨e.after, counted [e], [e], false, false, none, false⟩)
    rw [ff.1, ff.2] at hfb
    simp only at hfb h2
    have hev : e.who = .dflt ∧ e.ret = (d 0 w).1 := by
      obtain ⟨f1, f2, f3, f4, _⟩ := runs_facts h1
      have a := f2 0 (by simp) (by simp)
      have b := f3 0 (by simp)
      have c := f4 (by simp)
      simp only [List.getElem_cons_zero] at a b c
      rw [c, b] at a
      simp only [counted, List.take_zero, List.countP_nil] at a
      exact ⟨a.1, by rw [← a.2]⟩
    have hc : counted [e] ≠ 0 := by
      have : (e.ret != 1) = true := by rw [hev.2]; simpa using hd
      simp [counted, this]
    rw [h2, hfb, if_neg hc]
    simp [defaultCalls, hev.1]

example : defaultCalls (dispatch cfg0 [ret 1 200, ret 1 200] (some (ret 2 404)) w0).2 = 1 ∧
    defaultCalls (dispatch cfg0 [ret 1 200, ret 0 200] (some (ret 2 404)) w0).2 = 0 := by decide

/-- **C27 is false of the code**: no endpoint matches and the default endpoint returns IGNORE: it is called twice. -/
theorem C27_default_false : defaultCalls (dispatch cfg0 [] (some (ret 1 404)) w0).2 = 2 := by decide

end Verif.Props
