import Verif.Lemmas.Answer
/-!
# The model of the answers refines the model of the callback chain

`Verif.Model.Answer` forgets to `Verif.Model.Dispatch`: same calls, same status.
-/
namespace Verif.Answer
open Verif.UMap Verif.Message
open Verif.Dispatch (Who)

variable {σ : Type}

/-- what the small model sees of a world -/
def fwd (w : World σ) : Dispatch.World (World σ) := ⟨w.resp.status, w.resp.stream.isSome, w.ws, w.resp.realm, w⟩

/-- the world behind what the small model sees -/
def back (v : Dispatch.World (World σ)) : World σ := { v.user with resp := { v.user.resp with status := v.status } }

/-- a callback as the small model sees it -/
def proj (cb : Callback σ) : Dispatch.Callback (World σ) := fun pos v => ((cb pos (back v)).1, fwd (cb pos (back v)).2)

/-- a call as the small model sees it -/
def projEv (e : Dispatch.Ev (World σ)) : Ev σ := ⟨e.who, e.pos, back e.before, e.ret, back e.after⟩

/-- the first component of a result -/
def okOf {β : Type} : Res (Bool × β) → Bool
  | .ok (b, _) => b
  | .ub => false

/-- the configuration of the small model -/
def projCfg (cfg : Cfg σ) : Dispatch.Cfg (World σ) where
  wsEnd v := match cfg.hand (back v) with
    | .accepted fs => if okOf (fill cfg.accept (back v).resp ⟨fs, .upgrade⟩) then .upgraded else .headersRefused
    | .refused _ => .refused
    | .failed => .failed
  headersOk v := okOf (fill cfg.accept (back v).resp ⟨[], .buffer []⟩)
  realm := cfg.realm
  streamOk v := match (back v).resp.stream with
    | some c => decide (c.2.1 ≠ 0)
    | none => true

theorem back_fwd (w : World σ) : back (fwd w) = w := rfl

theorem fill_content (accept : List Field → Bytes → Bytes → Bool) (r : Response) (fs : List Field) (c c' : Content) :
    okOf (fill accept r ⟨fs, c⟩) = okOf (fill accept r ⟨fs, c'⟩) := by
  unfold fill
  simp only
  cases h1 : setHeaders accept r.header fs with
  | ub => rfl
  | ok x =>
    obtain ⟨b, fs'⟩ := x
    simp only [Res.ok_bind]
    cases b with
    | false => rfl
    | true =>
      simp only [if_true]
      cases h2 : setCookies accept r.cookies fs' with
      | ub => rfl
      | ok y => rfl

/-- the two states agree -/
structure Rel (s : St σ) (d : Dispatch.St (World σ)) : Prop where
  status : d.w.status = s.w.resp.status
  world : s.pos = 0 → back d.w = s.w
  pos : d.pos = s.pos
  trace : d.trace.map projEv = s.trace
  resp : d.resp = s.resp.isSome
  unauth : d.unauth = s.unauth
  realm : d.realm = s.realm
  upgrade : d.upgrade = s.upgrade

theorem complete_rel (cfg : Cfg σ) (s s' : St σ) (d : Dispatch.St (World σ)) (hr : Rel s d)
    (h : complete cfg s = .ok s') : Rel s' (Dispatch.complete d) := by
  unfold complete at h
  cases h1 : getBody s.w.resp with
  | ub => rw [h1] at h; cases h
  | ok b =>
    rw [h1] at h
    simp only [Res.ok_bind] at h
    cases h2 : fill cfg.accept s.w.resp ⟨[], .buffer b⟩ with
    | ub => rw [h2] at h; cases h
    | ok x =>
      rw [h2] at h
      injection h with h
      subst h
      exact ⟨hr.status, hr.world, hr.pos, hr.trace, rfl, hr.unauth, hr.realm, hr.upgrade⟩

theorem stream_rel (cfg : Cfg σ) (c) (s s' : St σ) (d : Dispatch.St (World σ)) (hr : Rel s d)
    (hb : d.w = fwd s.w) (hc : s.w.resp.stream = some c) (h : stream cfg c s = .ok s') : Rel s' (Dispatch.stream (projCfg cfg) d) := by
  have hok : (projCfg cfg).streamOk d.w = decide (c.2.1 ≠ 0) := by
    rw [hb]
    simp only [projCfg, back_fwd, hc]
  unfold stream at h
  unfold Dispatch.stream
  rw [hok]
  by_cases h0 : c.2.1 = 0
  · rw [if_pos h0] at h
    injection h with h
    subst h
    exact ⟨hr.status, hr.world, hr.pos, hr.trace, by simp [h0], hr.unauth, hr.realm, hr.upgrade⟩
  rw [if_neg h0] at h
  cases h2 : fill cfg.accept s.w.resp ⟨[], .stream c⟩ with
  | ub => rw [h2] at h; cases h
  | ok x =>
    rw [h2] at h
    injection h with h
    subst h
    exact ⟨hr.status, hr.world, hr.pos, hr.trace, by simp [h0], hr.unauth, hr.realm, hr.upgrade⟩

theorem unauthorized_rel (cfg : Cfg σ) (s s' : St σ) (d : Dispatch.St (World σ)) (hr : Rel s d) (hb : d.w = fwd s.w)
    (h : unauthorized cfg s = .ok s') :
    Rel { s' with pos := 1 } { Dispatch.unauthorized (projCfg cfg) d with pos := 1 } ∧ s'.pos = s.pos ∧
      (Dispatch.unauthorized (projCfg cfg) d).pos = d.pos := by
  unfold unauthorized at h
  cases h1 : getBody s.w.resp with
  | ub => rw [h1] at h; cases h
  | ok b =>
    rw [h1] at h
    simp only [Res.ok_bind] at h
    cases h2 : fill cfg.accept s.w.resp ⟨[], .buffer b⟩ with
    | ub => rw [h2] at h; cases h
    | ok x =>
      obtain ⟨ok, m⟩ := x
      rw [h2] at h
      injection h with h
      have hok : (projCfg cfg).headersOk d.w = ok := by
        show okOf (fill cfg.accept (back d.w).resp ⟨[], .buffer []⟩) = ok
        rw [hb, back_fwd, fill_content cfg.accept s.w.resp [] (.buffer []) (.buffer b), h2]
        rfl
      obtain ⟨dw, dpos, dtrace, dresp, dunauth, drealm, dupgrade⟩ := d
      obtain ⟨sw, spos, strace, sresp, sunauth, srealm, supgrade⟩ := s
      obtain ⟨r1, r2, r3, r4, r5, r6, r7, r8⟩ := hr
      simp only at hb r1 r2 r3 r4 r5 r6 r7 r8 h hok
      subst hb r3 r4 r6 r7 r8
      subst h
      unfold Dispatch.unauthorized
      simp only [hok]
      cases hrl : sw.resp.realm <;> cases hcr : cfg.realm <;> cases ok <;>
        simp only [if_true, Bool.false_eq_true, if_false, fwd, projCfg, hrl, hcr] <;>
        exact ⟨⟨rfl, fun h => absurd h (by simp), rfl, rfl, rfl, rfl, rfl, rfl⟩, trivial, trivial⟩

theorem error_rel (s : St σ) (d : Dispatch.St (World σ)) (hr : Rel s d) : Rel (error500 s) (Dispatch.error500 d) := by
  refine ⟨rfl, ?_, hr.pos, hr.trace, rfl, hr.unauth, hr.realm, hr.upgrade⟩
  intro h
  have := hr.world h
  show back { d.w with status := 500 } = (s.setStatus 500).w
  unfold St.setStatus
  rw [← this]
  rfl

theorem websocket_rel (cfg : Cfg σ) (s s' : St σ) (d : Dispatch.St (World σ)) (hr : Rel s d) (hb : d.w = fwd s.w)
    (h : websocket cfg s = .ok s') : Rel s' (Dispatch.websocket (projCfg cfg) d) := by
  unfold websocket at h
  unfold Dispatch.websocket
  have hend : (projCfg cfg).wsEnd d.w = match cfg.hand s.w with
    | .accepted fs => if okOf (fill cfg.accept s.w.resp ⟨fs, .upgrade⟩) then .upgraded else .headersRefused
    | .refused _ => .refused
    | .failed => .failed := by
    rw [hb]; rfl
  rw [hend]
  cases hh : cfg.hand s.w with
  | accepted fs =>
    rw [hh] at h
    simp only at h ⊢
    cases h2 : fill cfg.accept s.w.resp ⟨fs, .upgrade⟩ with
    | ub => rw [h2] at h; cases h
    | ok x =>
      obtain ⟨ok, m⟩ := x
      rw [h2] at h
      injection h with h
      subst h
      cases ok
      · exact ⟨hr.status, hr.world, hr.pos, hr.trace, rfl, hr.unauth, hr.realm, hr.upgrade⟩
      · exact ⟨hr.status, hr.world, hr.pos, hr.trace, rfl, hr.unauth, hr.realm, rfl⟩
  | refused t =>
    rw [hh] at h
    injection h with h
    subst h
    exact ⟨rfl, fun _ => by show back { d.w with status := 400 } = (s.setStatus 400).w; rw [hb]; rfl, hr.pos, hr.trace, rfl,
      hr.unauth, hr.realm, hr.upgrade⟩
  | failed =>
    rw [hh] at h
    injection h with h
    subst h
    exact ⟨rfl, fun _ => by show back { d.w with status := 500 } = (s.setStatus 500).w; rw [hb]; rfl, hr.pos, hr.trace, rfl,
      hr.unauth, hr.realm, hr.upgrade⟩

theorem call_rel (who : Who) (cb : Callback σ) (s : St σ) (d : Dispatch.St (World σ)) (hr : Rel s d) (hb : back d.w = s.w) :
    (Dispatch.call who (proj cb) d).1 = (call who cb s).1 ∧ Rel (call who cb s).2 (Dispatch.call who (proj cb) d).2 ∧
      (Dispatch.call who (proj cb) d).2.w = fwd (call who cb s).2.w ∧
      ((call who cb s).1 ≠ 1 → (call who cb s).2.pos ≠ 0) := by
  have e1 : Dispatch.call who (proj cb) d = ((cb s.pos s.w).1, { d with
      w := fwd (cb s.pos s.w).2, pos := if (cb s.pos s.w).1 != 1 then s.pos + 1 else s.pos,
      trace := d.trace ++ [⟨who, s.pos, d.w, (cb s.pos s.w).1, fwd (cb s.pos s.w).2⟩] }) := by
    simp only [Dispatch.call, proj, hb, hr.pos, Dispatch.cbIgnore]
  have e2 : call who cb s = ((cb s.pos s.w).1, { s with
      w := (cb s.pos s.w).2, pos := if (cb s.pos s.w).1 != 1 then s.pos + 1 else s.pos,
      trace := s.trace ++ [⟨who, s.pos, s.w, (cb s.pos s.w).1, (cb s.pos s.w).2⟩] }) := by
    rfl
  rw [e1, e2]
  refine ⟨rfl, ⟨rfl, fun _ => rfl, rfl, ?_, hr.resp, hr.unauth, hr.realm, hr.upgrade⟩, rfl, ?_⟩
  · simp only [List.map_append, hr.trace, List.map_cons, List.map_nil, projEv, hb, back_fwd]
  · intro h
    have : ((cb s.pos s.w).1 != 1) = true := by simpa using h
    simp [this]

theorem loop_rel (cfg : Cfg σ) (l : List (Who × Callback σ)) (s s' : St σ) (d : Dispatch.St (World σ)) (hr : Rel s d)
    (hb : back d.w = s.w) (h : loop cfg l s = .ok s') :
    Rel s' (Dispatch.loop (projCfg cfg) (l.map (fun x => (x.1, proj x.2))) d) := by
  induction l generalizing s d with
  | nil => simp only [loop] at h; injection h with h; subst h; exact hr
  | cons x rest ih =>
    obtain ⟨who, cb⟩ := x
    obtain ⟨c1, c2, c3, c4⟩ := call_rel who cb s d hr hb
    simp only [List.map_cons, loop, Dispatch.loop] at h ⊢
    revert c1 c2 c3 c4 h
    rcases hc : call who cb s with ⟨ret, s1⟩
    rcases hc' : Dispatch.call who (proj cb) d with ⟨ret', d1⟩
    simp only
    rintro rfl c2 c3 c4 h
    have hst : d1.w.stream = s1.w.resp.stream.isSome := by rw [c3]; rfl
    have hws : d1.w.ws = s1.w.ws := by rw [c3]; rfl
    cases hs : s1.w.resp.stream with
    | some c =>
      rw [hs] at h hst
      simp only [hst, Option.isSome_some, if_true]
      exact stream_rel cfg c s1 s' d1 c2 c3 hs h
    | none =>
      rw [hs] at h hst
      simp only at h
      simp only [hst, hws, Option.isSome_none, Bool.false_eq_true, if_false]
      by_cases hw : s1.w.ws = true
      · simp only [hw, if_true] at h ⊢
        exact websocket_rel cfg s1 s' d1 c2 c3 h
      · simp only [hw, if_false, Bool.false_eq_true, List.isEmpty_map] at h ⊢
        generalize hret : (if ((ret' == Dispatch.cbContinue || ret' == Dispatch.cbIgnore) && rest.isEmpty) = true then
          Dispatch.cbComplete else ret') = r at h ⊢
        split at h
        · rename_i hcc
          rw [if_pos hcc]
          exact ih s1 d1 c2 (by rw [c3]; rfl) h
        · rename_i hcc
          rw [if_neg hcc]
          split at h
          · rename_i h2
            rw [if_pos h2]
            exact complete_rel cfg s1 s' d1 c2 h
          · rename_i h2
            rw [if_neg h2]
            split at h
            · rename_i h3
              rw [if_pos h3]
              have hp : s1.pos ≠ 0 := by
                apply c4
                intro h1
                subst h1
                subst hret
                revert h3 hcc h2
                cases rest.isEmpty <;> decide
              obtain ⟨u1, u2, u3⟩ := unauthorized_rel cfg s1 s' d1 c2 c3 h
              exact ⟨u1.status, fun h => absurd (u2 ▸ h) hp, by rw [u3, u2, c2.pos], u1.trace, u1.resp, u1.unauth, u1.realm, u1.upgrade⟩
            · rename_i h3
              rw [if_neg h3]
              injection h with h
              subst h
              exact error_rel s1 d1 c2

theorem answer_rel (s : St σ) (d : Dispatch.St (World σ)) (hr : Rel s d) : Dispatch.answer d = (answer s).map (·.status) := by
  unfold Dispatch.answer answer
  rw [hr.resp, hr.unauth, hr.realm, hr.upgrade, hr.status]
  cases s.resp with
  | none => rfl
  | some m =>
    simp only [Option.isSome_some, if_true]
    cases s.realm <;> cases s.unauth <;> cases s.upgrade <;> rfl

theorem fallback_rel (cfg : Cfg σ) (dflt : Option (Callback σ)) (s s' : St σ) (d : Dispatch.St (World σ)) (hr : Rel s d)
    (h : fallback cfg dflt s = .ok s') :
    Dispatch.answer (Dispatch.fallback (projCfg cfg) (dflt.map proj) d) = (answer s').map (·.status) ∧
    (Dispatch.fallback (projCfg cfg) (dflt.map proj) d).trace.map projEv = s'.trace := by
  unfold fallback at h
  unfold Dispatch.fallback
  cases dflt with
  | none =>
    injection h with h
    subst h
    exact ⟨answer_rel s d hr, hr.trace⟩
  | some cb =>
    simp only [Option.map_some] at h ⊢
    by_cases hp : s.pos = 0
    · have hw := hr.world hp
      have hdp : d.pos = 0 := by rw [hr.pos, hp]
      simp only [hp, hdp, beq_self_eq_true, if_true, proj, hw] at h ⊢
      have c2 : Rel { s with pos := 0, w := (cb 0 s.w).2, resp := none, trace := s.trace ++ [⟨.dflt, 0, s.w, (cb 0 s.w).1, (cb 0 s.w).2⟩] }
          { d with pos := 0, w := fwd (cb 0 s.w).2, resp := false, trace := d.trace ++ [⟨.dflt, 0, d.w, (cb 0 s.w).1, fwd (cb 0 s.w).2⟩] } := by
        refine ⟨rfl, fun _ => rfl, rfl, ?_, rfl, hr.unauth, hr.realm, hr.upgrade⟩
        simp only [List.map_append, hr.trace, List.map_cons, List.map_nil, projEv, hw, back_fwd]
      split at h
      · rename_i h3
        rw [if_pos h3]
        obtain ⟨u1, -, -⟩ := unauthorized_rel cfg _ s' _ c2 rfl h
        have hans := answer_rel _ _ u1
        exact ⟨hans, u1.trace⟩
      · rename_i h3
        rw [if_neg h3]
        split at h
        · rename_i h4
          rw [if_pos h4]
          injection h with h
          subst h
          have := error_rel _ _ c2
          exact ⟨answer_rel _ _ this, this.trace⟩
        · rename_i h4
          rw [if_neg h4]
          split at h
          · rename_i h5
            rw [if_pos h5]
            have := complete_rel cfg _ s' _ c2 h
            exact ⟨answer_rel _ _ this, this.trace⟩
          · rename_i h5
            rw [if_neg h5]
            injection h with h
            subst h
            exact ⟨answer_rel _ _ c2, c2.trace⟩
    · have e1 : (s.pos == 0) = false := by simpa using hp
      have e2 : (d.pos == 0) = false := by rw [hr.pos]; exact e1
      simp only [e1, e2, Bool.false_eq_true, if_false] at h ⊢
      injection h with h
      subst h
      exact ⟨answer_rel s d hr, hr.trace⟩

theorem number_proj (i : Nat) (l : List (Callback σ)) :
    Dispatch.number i (l.map proj) = (number i l).map (fun x => (x.1, proj x.2)) := by
  induction l generalizing i with
  | nil => rfl
  | cons c t ih => simp [number, Dispatch.number, ih]

/-- The two models of the dispatcher make the same calls and send the same status. -/
theorem dispatch_refines (cfg : Cfg σ) (eps : List (Callback σ)) (dflt : Option (Callback σ)) (user : σ)
    (H : UMap) (hH : initHeaders cfg.defaults = .ok H) (a : Option Ans) (tr : List (Ev σ))
    (h : dispatch cfg eps dflt user = .ok (a, tr)) :
    (Dispatch.dispatch (projCfg cfg) (eps.map proj) (dflt.map proj) (fwd ⟨{ header := H }, false, user⟩)).1 = a.map (·.status) ∧
    (Dispatch.dispatch (projCfg cfg) (eps.map proj) (dflt.map proj) (fwd ⟨{ header := H }, false, user⟩)).2.map projEv = tr := by
  have key : ∀ list : List (Who × Callback σ), list ≠ [] →
      (do let s ← loop cfg list ⟨⟨{ header := H }, false, user⟩, 0, [], none, false, none, false⟩
          let s ← fallback cfg dflt s
          return (answer s, s.trace)) = Res.ok (a, tr) →
      let s := Dispatch.loop (projCfg cfg) (list.map (fun x => (x.1, proj x.2))) ⟨fwd ⟨{ header := H }, false, user⟩, 0, [], false, false, none, false⟩
      let s := Dispatch.fallback (projCfg cfg) (dflt.map proj) s
      Dispatch.answer s = a.map (·.status) ∧ s.trace.map projEv = tr := by
    intro list _ h
    cases hl : loop cfg list ⟨⟨{ header := H }, false, user⟩, 0, [], none, false, none, false⟩ with
    | ub => rw [hl] at h; cases h
    | ok s =>
      rw [hl] at h
      simp only [Res.ok_bind] at h
      cases hf : fallback cfg dflt s with
      | ub => rw [hf] at h; cases h
      | ok s' =>
        rw [hf] at h
        injection h with h
        injection h with h1 h2
        subst h1 h2
        exact fallback_rel cfg dflt s s' _ (loop_rel cfg list _ s _ ⟨rfl, fun _ => rfl, rfl, rfl, rfl, rfl, rfl, rfl⟩ rfl hl) hf
  cases eps with
  | nil =>
    cases dflt with
    | none =>
      injection h with h
      injection h with h1 h2
      subst h1 h2
      exact ⟨rfl, rfl⟩
    | some d =>
      refine key [(.dflt, d)] (by simp) ?_
      unfold dispatch at h
      rw [hH] at h
      exact h
  | cons c t =>
    have hk := key (number 0 (c :: t)) (by simp [number]) (by
      unfold dispatch at h
      rw [hH] at h
      cases dflt <;> exact h)
    rw [← number_proj] at hk
    cases dflt <;> exact hk

end Verif.Answer
