import Verif.Model.Shared
/-!
# C165: data shared between callbacks

Full statement: data handed to the response with a function that frees it are given to that function exactly once, when other data take
their place or after the request; callbacks read the data set last, before they are freed. The option of
`ulfius_set_response_properties` takes the place of the data without freeing them and leaves the function to the new ones
(`C165_option_false`); data set again are freed and kept (`C165_again_false`); without an answer nothing is freed (`C165_unknown_false`).
-/
namespace Verif.Props
open Verif.Message Verif.Answer Verif.Shared

/-- What was handed over with a function. -/
def handed : List Act → List (Nat × Nat)
  | [] => []
  | .gave d (some f) :: t => (f, d) :: handed t
  | _ :: t => handed t

/-- What was given to a function. -/
def released : List Act → List (Nat × Nat)
  | [] => []
  | .freed f d :: t => (f, d) :: released t
  | _ :: t => released t

/-- What was set, with a function or without. -/
def gives : List Act → List Nat
  | [] => []
  | .gave d _ :: t => d :: gives t
  | _ :: t => gives t

/-- A program that only uses `ulfius_set_response_shared_data`. -/
inductive NoOption : Prog → Prop
  | done (r : Int) : NoOption (.done r)
  | set (d f : Option Nat) {n : Prog} : NoOption n → NoOption (.set d f n)
  | look {n : Option Nat → Prog} : (∀ x, NoOption (n x)) → NoOption (.look n)
  | other (g : Response → Response) {n : Response → Prog} : (∀ x, NoOption (n x)) → NoOption (.other g n)

private theorem handed_append (a b : List Act) : handed (a ++ b) = handed a ++ handed b := by
  induction a with
  | nil => rfl
  | cons x t ih =>
    cases x with
    | gave d f => cases f <;> simp [handed, ih]
    | read d => simp [handed, ih]
    | freed f d => simp [handed, ih]

private theorem released_append (a b : List Act) : released (a ++ b) = released a ++ released b := by
  induction a with
  | nil => rfl
  | cons x t ih => cases x <;> simp [released, ih]

private theorem gives_append (a b : List Act) : gives (a ++ b) = gives a ++ gives b := by
  induction a with
  | nil => rfl
  | cons x t ih => cases x <;> simp [gives, ih]

private theorem handed_gives (a : List Act) : ∀ p ∈ handed a, p.2 ∈ gives a := by
  induction a with
  | nil => intro p hp; cases hp
  | cons x t ih =>
    intro p hp
    cases x with
    | gave d f =>
      cases f with
      | none => exact List.mem_cons_of_mem _ (ih p hp)
      | some f =>
        rcases List.mem_cons.1 hp with rfl | hp
        · exact List.mem_cons_self
        · exact List.mem_cons_of_mem _ (ih p hp)
    | read d => exact ih p hp
    | freed f d => exact ih p hp

/-- What is still to be freed. -/
private def owed (r : Response) : List (Nat × Nat) :=
  match r.freeShared, r.shared with
  | some f, some d => [(f, d)]
  | _, _ => []

private theorem released_release (r : Response) : released (release r) = owed r := by
  unfold release owed
  cases r.freeShared <;> cases r.shared <;> rfl

private theorem handed_release (r : Response) : handed (release r) = [] := by
  unfold release
  split <;> rfl

private theorem gives_release (r : Response) : gives (release r) = [] := by
  unfold release
  split <;> rfl

/-- What is read was set last, and what was freed before was set before it. -/
private def Current (a : List Act) (x : Option Nat) : Prop :=
  x = (gives a).getLast? ∧ ∀ d, x = some d → ∃ g, gives a = g ++ [d] ∧ ∀ p ∈ released a, p.2 ∈ g

private def ReadsWell (log : List Act) : Prop :=
  ∀ a x b, log = a ++ .read x :: b → Current a x

private structure Good (w : World (List Act)) : Prop where
  kept : handed w.user = released w.user ++ owed w.resp
  now : Current w.user w.resp.shared
  reads : ReadsWell w.user

private theorem reads_other {log : List Act} {x : Act} (h : ReadsWell log) (hx : ∀ d, x ≠ .read d) : ReadsWell (log ++ [x]) := by
  intro a y b e
  rcases List.eq_nil_or_concat b with rfl | ⟨b', z, rfl⟩
  · have := (List.append_inj' e rfl).2
    exact absurd (List.cons.inj this).1 (hx y)
  · have e' : log ++ [x] = (a ++ .read y :: b') ++ [z] := by rw [e]; simp
    obtain ⟨e1, -⟩ := List.append_inj' e' rfl
    exact h a y b' e1

private theorem reads_release {log : List Act} (h : ReadsWell log) (r : Response) : ReadsWell (log ++ release r) := by
  unfold release
  split
  · exact reads_other h (fun d => by simp)
  · rw [List.append_nil]; exact h

private theorem good_set {w : World (List Act)} (h : Good w) (d f : Option Nat) : Good (setData w d f) := by
  unfold setData
  cases d with
  | none => exact h
  | some x =>
    refine ⟨?_, ?_, ?_⟩
    · simp only [handed_append, released_append, handed_release, released_release, h.kept, List.append_nil, setShared, owed]
      cases f <;> simp [handed, released]
    · refine ⟨?_, fun d hd => ⟨gives w.user, ?_, fun p hp => ?_⟩⟩
      · simp [gives_append, gives_release, gives, setShared]
      · injection hd with hd
        simp [gives_append, gives_release, gives, hd]
      · have hp : p ∈ handed w.user := by
          rw [h.kept, ← released_release, ← released_append]
          simpa [released_append, released] using hp
        exact handed_gives _ p hp
    · exact reads_other (reads_release h.reads _) (fun d => by simp)

private theorem good_read {w : World (List Act)} (h : Good w) : Good { w with user := w.user ++ [.read w.resp.shared] } := by
  refine ⟨?_, ?_, ?_⟩
  · simp only [handed_append, released_append, handed, released, List.append_nil, h.kept]
  · obtain ⟨h1, h2⟩ := h.now
    refine ⟨by simpa [gives_append, gives] using h1, fun d hd => ?_⟩
    obtain ⟨g, e1, e2⟩ := h2 d hd
    exact ⟨g, by simpa [gives_append, gives] using e1, by simpa [released_append, released] using e2⟩
  · intro a y b e
    rcases List.eq_nil_or_concat b with rfl | ⟨b', z, rfl⟩
    · obtain ⟨e1, e2⟩ := List.append_inj' e rfl
      subst e1
      have e2 := (List.cons.inj e2).1
      injection e2 with e2
      subst e2
      exact h.now
    · have e' : w.user ++ [Act.read w.resp.shared] = (a ++ .read y :: b') ++ [z] := e.trans (by simp)
      obtain ⟨e1, -⟩ := List.append_inj' e' rfl
      exact h.reads a y b' e1

private theorem good_same {w v : World (List Act)} (h : Good w) (h1 : v.user = w.user) (h2 : v.resp.shared = w.resp.shared)
    (h3 : v.resp.freeShared = w.resp.freeShared) : Good v :=
  ⟨by rw [h1, h.kept]; unfold owed; rw [h2, h3], by rw [h1, h2]; exact h.now, by rw [h1]; exact h.reads⟩

private theorem good_run {p : Prog} (hp : NoOption p) : ∀ {w : World (List Act)}, Good w → Good (run p w).2 := by
  induction hp with
  | done r => intro w h; exact h
  | set d f _ ih => intro w h; exact ih (good_set h d f)
  | look _ ih => intro w h; exact ih _ (good_read h)
  | other g _ ih => intro w h; exact ih _ (good_same h rfl rfl rfl)

/-- The state of the dispatcher: the data are in order, and the last call left them as they are. -/
private def Fits (s : St (List Act)) : Prop :=
  Good s.w ∧ (s.trace = [] → s.w.user = []) ∧
    ∀ e, s.trace.getLast? = some e → e.after.user = s.w.user ∧ e.after.resp.shared = s.w.resp.shared ∧
      e.after.resp.freeShared = s.w.resp.freeShared

private theorem fits_same {s t : St (List Act)} (h : Fits s) (h0 : t.trace = s.trace) (h1 : t.w.user = s.w.user)
    (h2 : t.w.resp.shared = s.w.resp.shared) (h3 : t.w.resp.freeShared = s.w.resp.freeShared) : Fits t :=
  ⟨good_same h.1 h1 h2 h3, by rw [h0, h1]; exact h.2.1, by rw [h0, h1, h2, h3]; exact h.2.2⟩

private theorem fits_call {p : Nat → World (List Act) → Prog} (hp : ∀ pos w, NoOption (p pos w)) {s t : St (List Act)} (h : Fits s)
    {who : Dispatch.Who} (hw : t.w = (callback p s.pos s.w).2)
    (ht : ∃ ret, t.trace = s.trace ++ [⟨who, s.pos, s.w, ret, t.w⟩]) : Fits t := by
  obtain ⟨ret, ht⟩ := ht
  refine ⟨by rw [hw]; exact good_run (hp _ _) h.1, fun e => by rw [ht] at e; simp at e, fun e he => ?_⟩
  rw [ht, List.getLast?_append] at he
  simp at he
  rw [← he]
  exact ⟨rfl, rfl, rfl⟩

private theorem fits_stream {cfg : Cfg (List Act)} {c : Nat × Nat × Nat} {s s' : St (List Act)} (h : Fits s)
    (e : stream cfg c s = .ok s') : Fits s' := by
  unfold stream at e
  split at e
  · injection e with e; subst e; exact fits_same h rfl rfl rfl rfl
  cases hf : fill cfg.accept s.w.resp ⟨[], .stream c⟩ with
  | ub => rw [hf] at e; cases e
  | ok x => rw [hf] at e; injection e with e; subst e; exact fits_same h rfl rfl rfl rfl

private theorem fits_complete {cfg : Cfg (List Act)} {s s' : St (List Act)} (h : Fits s) (e : complete cfg s = .ok s') : Fits s' := by
  unfold complete at e
  cases hb : getBody s.w.resp with
  | ub => rw [hb] at e; cases e
  | ok b =>
    rw [hb, Res.ok_bind] at e
    cases hf : fill cfg.accept s.w.resp ⟨[], .buffer b⟩ with
    | ub => rw [hf] at e; cases e
    | ok x => rw [hf] at e; injection e with e; subst e; exact fits_same h rfl rfl rfl rfl

private theorem fits_unauthorized {cfg : Cfg (List Act)} {s s' : St (List Act)} (h : Fits s) (e : unauthorized cfg s = .ok s') : Fits s' := by
  unfold unauthorized at e
  cases hb : getBody s.w.resp with
  | ub => rw [hb] at e; cases e
  | ok b =>
    rw [hb, Res.ok_bind] at e
    cases hf : fill cfg.accept s.w.resp ⟨[], .buffer b⟩ with
    | ub => rw [hf] at e; cases e
    | ok x =>
      rw [hf, Res.ok_bind] at e
      obtain ⟨ok, m⟩ := x
      simp only [Res.pure_eq, Res.ok.injEq] at e
      subst e
      cases ok with
      | true =>
        simp only [if_true]
        split
        · exact fits_same h rfl rfl rfl rfl
        · split <;> exact fits_same h rfl rfl rfl rfl
      | false =>
        simp only [Bool.false_eq_true, if_false]
        split
        · exact fits_same h rfl rfl rfl rfl
        · split <;> exact fits_same h rfl rfl rfl rfl

private theorem fits_websocket {cfg : Cfg (List Act)} {s s' : St (List Act)} (h : Fits s) (e : websocket cfg s = .ok s') : Fits s' := by
  unfold websocket at e
  split at e
  · rename_i fs _
    cases hf : fill cfg.accept s.w.resp ⟨fs, .upgrade⟩ with
    | ub => rw [hf] at e; cases e
    | ok x =>
      rw [hf] at e
      injection e with e
      subst e
      split <;> exact fits_same h rfl rfl rfl rfl
  · injection e with e; subst e; exact fits_same h rfl rfl rfl rfl
  · injection e with e; subst e; exact fits_same h rfl rfl rfl rfl

private theorem fits_loop {cfg : Cfg (List Act)} : ∀ (ps : List (Dispatch.Who × (Nat → World (List Act) → Prog))) {s s' : St (List Act)},
    (∀ p ∈ ps, ∀ pos w, NoOption (p.2 pos w)) → Fits s → loop cfg (ps.map fun p => (p.1, callback p.2)) s = .ok s' → Fits s'
  | [], s, s', _, h, e => by injection e with e; subst e; exact h
  | (who, p) :: rest, s, s', hp, h, e => by
    simp only [List.map_cons, loop] at e
    have h1 : Fits (call who (callback p) s).2 := fits_call (hp _ List.mem_cons_self) h (who := who) rfl ⟨_, rfl⟩
    have hrest : ∀ p ∈ rest, ∀ pos w, NoOption (p.2 pos w) := fun q hq => hp q (List.mem_cons_of_mem _ hq)
    split at e
    · exact fits_stream h1 e
    · split at e
      · exact fits_websocket h1 e
      · generalize (if (((call who (callback p) s).1 == Dispatch.cbContinue || (call who (callback p) s).1 == Dispatch.cbIgnore) &&
          (List.map (fun p => (p.1, callback p.2)) rest).isEmpty) = true then Dispatch.cbComplete else (call who (callback p) s).1) = rt at e
        split at e
        · exact fits_loop rest hrest h1 e
        · split at e
          · exact fits_complete h1 e
          · split at e
            · exact fits_unauthorized h1 e
            · injection e with e; subst e; exact fits_same h1 rfl rfl rfl rfl

private theorem fits_fallback {cfg : Cfg (List Act)} {dflt : Option (Nat → World (List Act) → Prog)}
    (hd : ∀ p, dflt = some p → ∀ pos w, NoOption (p pos w)) {s s' : St (List Act)} (h : Fits s)
    (e : fallback cfg (dflt.map callback) s = .ok s') : Fits s' := by
  cases dflt with
  | none => injection e with e; subst e; exact h
  | some p =>
    simp only [Option.map_some, fallback] at e
    split at e
    · have h1 : Fits ⟨(callback p s.pos s.w).2, s.pos,
          s.trace ++ [⟨.dflt, s.pos, s.w, (callback p s.pos s.w).1, (callback p s.pos s.w).2⟩], none, s.unauth, s.realm, s.upgrade⟩ :=
        fits_call (hd p rfl) h (who := .dflt) rfl ⟨_, rfl⟩
      split at e
      · exact fits_unauthorized h1 e
      · split at e
        · injection e with e; subst e; exact fits_same h1 rfl rfl rfl rfl
        · split at e
          · exact fits_complete h1 e
          · injection e with e; subst e; exact h1
    · injection e with e; subst e; exact h

private theorem number_map (eps : List (Nat → World (List Act) → Prog)) (i : Nat) : ∃ ps : List (Dispatch.Who × (Nat → World (List Act) → Prog)),
    number i (eps.map callback) = ps.map (fun p => (p.1, callback p.2)) ∧ ∀ p ∈ ps, p.2 ∈ eps := by
  induction eps generalizing i with
  | nil => exact ⟨[], rfl, fun _ h => (by cases h)⟩
  | cons q t ih =>
    obtain ⟨ps, h1, h2⟩ := ih (i + 1)
    refine ⟨(.ep i, q) :: ps, by simp [number, h1], fun p hp => ?_⟩
    rcases List.mem_cons.1 hp with rfl | hp
    · exact List.mem_cons_self
    · exact List.mem_cons_of_mem _ (h2 p hp)

private theorem serve_fits {cfg : Cfg (List Act)} {eps : List (Nat → World (List Act) → Prog)} {dflt : Option (Nat → World (List Act) → Prog)}
    (he : ∀ p ∈ eps, ∀ pos w, NoOption (p pos w)) (hd : ∀ p, dflt = some p → ∀ pos w, NoOption (p pos w)) {ans : Option Ans} {log : List Act}
    (h : serve cfg eps dflt = .ok (ans, log)) :
    log = [] ∨ ∃ w : World (List Act), Good w ∧ log = w.user ++ (if ans.isSome then release w.resp else []) := by
  unfold serve at h
  obtain ⟨ps, hl, hps⟩ : ∃ ps : List (Dispatch.Who × (Nat → World (List Act) → Prog)),
      dispatch cfg (eps.map callback) (dflt.map callback) [] =
        (if (ps.map (fun p => (p.1, callback p.2))).isEmpty = true then
          (pure (some ⟨404, none, [], .buffer notFoundBody⟩, []) : Res (Option Ans × List (Ev (List Act))))
        else do
          let h ← initHeaders cfg.defaults
          let s ← loop cfg (ps.map (fun p => (p.1, callback p.2))) ⟨⟨{ header := h }, false, []⟩, 0, [], none, false, none, false⟩
          let s ← fallback cfg (dflt.map callback) s
          return (answer s, s.trace)) ∧ ∀ p ∈ ps, ∀ pos w, NoOption (p.2 pos w) := by
    cases eps with
    | nil =>
      cases dflt with
      | none => exact ⟨[], rfl, fun _ h => (by cases h)⟩
      | some p => exact ⟨[(.dflt, p)], rfl, fun q hq => by rw [List.mem_singleton.1 hq]; exact hd p rfl⟩
    | cons q t =>
      obtain ⟨ps, h1, h2⟩ := number_map (q :: t) 0
      refine ⟨ps, ?_, fun p hp => he p.2 (h2 p hp)⟩
      rw [← h1]
      cases dflt <;> rfl
  rw [hl] at h
  by_cases hemp : (ps.map (fun p => (p.1, callback p.2))).isEmpty = true
  · rw [if_pos hemp] at h
    injection h with h
    injection h with h1 h2
    exact .inl h2.symm
  · rw [if_neg hemp] at h
    cases hi : initHeaders cfg.defaults with
    | ub => rw [hi] at h; cases h
    | ok H =>
      rw [hi] at h
      simp only [Res.ok_bind] at h
      have h0 : Fits ⟨⟨{ header := H }, false, []⟩, 0, [], none, false, none, false⟩ :=
        ⟨⟨rfl, ⟨rfl, fun d hd => by cases hd⟩, fun a x b e => by cases a <;> cases e⟩, fun _ => rfl, fun e he => by cases he⟩
      cases hlo : loop cfg (ps.map (fun p => (p.1, callback p.2))) ⟨⟨{ header := H }, false, []⟩, 0, [], none, false, none, false⟩ with
      | ub => rw [hlo] at h; cases h
      | ok s1 =>
        rw [hlo] at h
        simp only [Res.ok_bind] at h
        have h1 := fits_loop ps hps h0 hlo
        cases hfb : fallback cfg (dflt.map callback) s1 with
        | ub => rw [hfb] at h; cases h
        | ok s2 =>
          rw [hfb] at h
          have h2 := fits_fallback hd h1 hfb
          injection h with h
          injection h with e1 e2
          subst e1
          subst e2
          unfold ended
          cases hlast : s2.trace.getLast? with
          | none => exact .inl rfl
          | some e =>
            obtain ⟨u1, u2, u3⟩ := h2.2.2 e hlast
            exact .inr ⟨e.after, good_same h2.1 u1 u2 u3, rfl⟩

/-- **C165, partial.** Whatever callbacks a request runs through, when it is answered, the functions have been called with the data they
were handed over with, each exactly as often and in the same order. -/
theorem C165_freed_partial (cfg : Cfg (List Act)) (eps : List (Nat → World (List Act) → Prog))
    (dflt : Option (Nat → World (List Act) → Prog)) (he : ∀ p ∈ eps, ∀ pos w, NoOption (p pos w))
    (hd : ∀ p, dflt = some p → ∀ pos w, NoOption (p pos w)) (ans : Ans) (log : List Act) (h : serve cfg eps dflt = .ok (some ans, log)) :
    released log = handed log := by
  rcases serve_fits he hd h with rfl | ⟨w, hg, rfl⟩
  · rfl
  · simp only [Option.isSome_some, if_true, released_append, handed_append, handed_release, released_release, hg.kept, List.append_nil]

/-- **C165, partial.** At every moment a function was called only with data handed over before, in that order; all but the last of them are
freed. -/
theorem C165_never_early_partial (cfg : Cfg (List Act)) (eps : List (Nat → World (List Act) → Prog))
    (dflt : Option (Nat → World (List Act) → Prog)) (he : ∀ p ∈ eps, ∀ pos w, NoOption (p pos w))
    (hd : ∀ p, dflt = some p → ∀ pos w, NoOption (p pos w)) (ans : Option Ans) (log : List Act) (h : serve cfg eps dflt = .ok (ans, log)) :
    ∃ own, handed log = released log ++ own ∧ own.length ≤ 1 := by
  rcases serve_fits he hd h with rfl | ⟨w, hg, rfl⟩
  · exact ⟨[], rfl, by simp⟩
  · by_cases ha : ans.isSome = true
    · refine ⟨[], ?_, by simp⟩
      simp only [ha, if_true, released_append, handed_append, handed_release, released_release, hg.kept, List.append_nil]
    · refine ⟨owed w.resp, ?_, by unfold owed; split <;> simp⟩
      rw [if_neg ha, List.append_nil, hg.kept]

/-- **C165, partial.** A callback that reads the shared data gets those set last; when no data are set twice, they have not been freed. -/
theorem C165_read_partial (cfg : Cfg (List Act)) (eps : List (Nat → World (List Act) → Prog))
    (dflt : Option (Nat → World (List Act) → Prog)) (he : ∀ p ∈ eps, ∀ pos w, NoOption (p pos w))
    (hd : ∀ p, dflt = some p → ∀ pos w, NoOption (p pos w)) (ans : Option Ans) (log : List Act) (h : serve cfg eps dflt = .ok (ans, log))
    (a b : List Act) (x : Option Nat) (hl : log = a ++ .read x :: b) :
    x = (gives a).getLast? ∧ ∀ d, x = some d → (gives a).Nodup → ∀ f, (f, d) ∉ released a := by
  have hr : ReadsWell log := by
    rcases serve_fits he hd h with rfl | ⟨w, hg, rfl⟩
    · intro a x b e; cases a <;> cases e
    · split
      · exact reads_release hg.reads _
      · rw [List.append_nil]; exact hg.reads
  obtain ⟨h1, h2⟩ := hr a x b hl
  refine ⟨h1, fun d hx hn f hf => ?_⟩
  obtain ⟨g, e1, e2⟩ := h2 d hx
  rw [e1, List.nodup_append] at hn
  exact hn.2.2 d (e2 _ hf) d (by simp) rfl

/-- An instance of no particular settings. -/
def sharedCfg : Cfg (List Act) := { accept := fun _ _ _ => true, hand := fun _ => .failed, realm := none, defaults := none }

/-- A callback that loads a session, one that reads it and replaces it, one that reads it. -/
def sessionCbs : List (Nat → World (List Act) → Prog) :=
  [fun _ _ => .set (some 1) (some 7) (.done 0), fun _ _ => .look (fun _ => .set (some 2) (some 8) (.done 0)),
    fun _ _ => .look (fun _ => .other (fun r => (setStringBody r 200 (some b!"ok")).2) (fun _ => .done 2))]

private def logOf : Res (Option Ans × List Act) → Option (Bool × List Act)
  | .ok (a, l) => some (a.isSome, l)
  | .ub => none

example : logOf (serve sharedCfg sessionCbs none) = some (true,
    [.gave 1 (some 7), .read (some 1), .freed 7 1, .gave 2 (some 8), .read (some 2), .freed 8 2]) := by decide +kernel

example : ∀ p ∈ sessionCbs, ∀ pos w, NoOption (p pos w) := by
  intro p hp pos w
  simp only [sessionCbs, List.mem_cons, List.not_mem_nil, or_false] at hp
  rcases hp with rfl | rfl | rfl
  · exact .set _ _ (.done _)
  · exact .look fun _ => .set _ _ (.done _)
  · exact .look fun _ => .other _ fun _ => .done _

/-- **C165 is false of the code** for `U_OPT_SHARED_DATA`: the data take the place of others that are never freed, and are themselves given to
the function the others were handed over with. -/
theorem C165_option_false :
    logOf (serve sharedCfg [fun _ _ => .set (some 1) (some 7) (.option 2 (.done 2))] none) =
      some (true, [.gave 1 (some 7), .gave 2 none, .freed 7 2]) := by decide +kernel

/-- **C165 is false of the code** for data that are set again: a callback that changes the session it read and sets it gives it to its function
first; the next callback reads freed data, and they are freed once more at the end. -/
theorem C165_again_false :
    logOf (serve sharedCfg [fun _ _ => .set (some 1) (some 7) (.done 0), fun _ _ => .look (fun x => .set x (some 7) (.done 0)),
      fun _ _ => .look (fun _ => .done 2)] none) =
      some (true, [.gave 1 (some 7), .read (some 1), .freed 7 1, .gave 1 (some 7), .read (some 1), .freed 7 1]) := by decide +kernel

/-- **C165 is false of the code** when the default endpoint returns a code that is none of the documented ones: no answer is queued and the
data are never freed. -/
theorem C165_unknown_false :
    logOf (serve sharedCfg [fun _ _ => .done 1] (some fun _ _ => .set (some 1) (some 7) (.done 9))) = some (false, [.gave 1 (some 7)]) := by
  decide +kernel

end Verif.Props
