import Verif.Model.StreamData
/-!
# C188: data of a stream are freed exactly once

Full statement: data handed to a response with `ulfius_set_stream_response` are given to the function handed over with them exactly once, when
the answer is sent or the request ends otherwise. Data that others take the place of are never freed (`C188_replaced_false`), nor are those of
the default endpoint when it is called because all endpoints ignored the request (`C188_fallback_false`, `C188_ignored_false`), nor those of a
stream with blocks of size 0 (`C188_block_false`).
-/
namespace Verif.Props
open Verif.Message Verif.Answer Verif.StreamData

namespace StreamData

/-- The program sets no stream. -/
inductive Never : Prog → Prop
  | done (r : Int) : Never (.done r)
  | other (g : World (List Nat) → World (List Nat)) {n : World (List Nat) → Prog} : (∀ w, Never (n w)) → Never (.other g n)

/-- The program sets at most one stream, with blocks that are not empty. -/
inductive Once : Prog → Prop
  | done (r : Int) : Once (.done r)
  | give (status size block d : Nat) {n : Prog} : 0 < block → Never n → Once (.give status size block d n)
  | other (g : World (List Nat) → World (List Nat)) {n : World (List Nat) → Prog} : (∀ w, Once (n w)) → Once (.other g n)

end StreamData
open StreamData

private theorem run_never {p : Prog} (h : Never p) : ∀ w, (run p w).2.user = w.user ∧ (run p w).2.resp.stream = w.resp.stream := by
  induction h with
  | done r => exact fun w => ⟨rfl, rfl⟩
  | other g _ ih => exact fun w => ih w _

private theorem run_once {p : Prog} (h : Once p) : ∀ w : World (List Nat), w.user = [] → w.resp.stream = none →
    ((run p w).2.user = [] ∧ (run p w).2.resp.stream = none) ∨
      ∃ c : Nat × Nat × Nat, 0 < c.2.1 ∧ (run p w).2.user = [c.2.2] ∧ (run p w).2.resp.stream = some c := by
  induction h with
  | done r => exact fun w h1 h2 => .inl ⟨h1, h2⟩
  | give st size block d hb hn =>
    intro w h1 h2
    obtain ⟨e1, e2⟩ := run_never hn { w with resp := setStream w.resp st (size, block, d), user := w.user ++ [d] }
    exact .inr ⟨(size, block, d), hb, by rw [run, e1, h1]; rfl, by rw [run, e2]; rfl⟩
  | other g _ ih => exact fun w h1 h2 => ih w _ h1 h2

/-- The data of the stream of a response were handed over. -/
private def Known (w : World (List Nat)) : Prop := ∀ c, w.resp.stream = some c → c.2.2 ∈ w.user

private theorem run_known (p : Prog) : ∀ w : World (List Nat), Known w → Known (run p w).2 ∧ ∀ d ∈ w.user, d ∈ (run p w).2.user := by
  induction p with
  | done r => exact fun w h => ⟨h, fun _ hd => hd⟩
  | give st size block d n ih =>
    intro w _
    obtain ⟨h1, h2⟩ := ih { w with resp := setStream w.resp st (size, block, d), user := w.user ++ [d] }
      (fun c hc => by injection hc with hc; rw [← hc]; simp)
    exact ⟨h1, fun x hx => h2 x (by simp [hx])⟩
  | other g n ih => exact fun w h => ih w _ h

/-- What a branch leaves: the world as far as streams are concerned, and no stream. -/
private def Plain (s s' : St (List Nat)) : Prop :=
  s'.w.user = s.w.user ∧ s'.w.resp.stream = s.w.resp.stream ∧ s'.pos = s.pos ∧ destroyed s'.resp = []

private theorem complete_plain {cfg : Cfg (List Nat)} {s s' : St (List Nat)} (e : complete cfg s = .ok s') : Plain s s' := by
  unfold complete at e
  cases hb : getBody s.w.resp with
  | ub => rw [hb] at e; cases e
  | ok b =>
    rw [hb, Res.ok_bind] at e
    cases hf : fill cfg.accept s.w.resp ⟨[], .buffer b⟩ with
    | ub => rw [hf] at e; cases e
    | ok x =>
      rw [hf] at e; injection e with e; subst e
      exact ⟨rfl, rfl, rfl, fill_plain hf⟩
where
  fill_plain {accept : List Field → Bytes → Bytes → Bool} {r : Response} {m : Msg} {x : Bool × Msg} (h : fill accept r m = .ok x) :
      destroyed (some x.2) = destroyed (some m) := by
    unfold fill at h
    cases h1 : setHeaders accept r.header m.fields with
    | ub => rw [h1] at h; cases h
    | ok y =>
      obtain ⟨ok, fs⟩ := y
      rw [h1] at h
      simp only [Res.ok_bind] at h
      cases ok with
      | false => injection h with h; subst h; obtain ⟨f, c⟩ := m; cases c <;> rfl
      | true =>
        simp only [if_true] at h
        cases h2 : setCookies accept r.cookies fs with
        | ub => rw [h2] at h; cases h
        | ok z => rw [h2] at h; injection h with h; subst h; obtain ⟨f, c⟩ := m; cases c <;> rfl

private theorem unauthorized_plain {cfg : Cfg (List Nat)} {s s' : St (List Nat)} (e : unauthorized cfg s = .ok s') : Plain s s' := by
  unfold unauthorized at e
  cases hb : getBody s.w.resp with
  | ub => rw [hb] at e; cases e
  | ok b =>
    rw [hb, Res.ok_bind] at e
    cases hf : fill cfg.accept s.w.resp ⟨[], .buffer b⟩ with
    | ub => rw [hf] at e; cases e
    | ok x =>
      have hp := complete_plain.fill_plain hf
      rw [hf, Res.ok_bind] at e
      obtain ⟨ok, m⟩ := x
      simp only [Res.pure_eq, Res.ok.injEq] at e
      subst e
      cases ok with
      | true =>
        simp only [if_true]
        split
        · exact ⟨rfl, rfl, rfl, hp⟩
        · split <;> exact ⟨rfl, rfl, rfl, hp⟩
      | false =>
        simp only [Bool.false_eq_true, if_false]
        split
        · exact ⟨rfl, rfl, rfl, hp⟩
        · split <;> exact ⟨rfl, rfl, rfl, hp⟩

private theorem websocket_plain {cfg : Cfg (List Nat)} {s s' : St (List Nat)} (e : websocket cfg s = .ok s') : Plain s s' := by
  unfold websocket at e
  split at e
  · rename_i fs _
    cases hf : fill cfg.accept s.w.resp ⟨fs, .upgrade⟩ with
    | ub => rw [hf] at e; cases e
    | ok x =>
      have hp := complete_plain.fill_plain hf
      rw [hf] at e
      injection e with e
      subst e
      split <;> exact ⟨rfl, rfl, rfl, hp⟩
  · injection e with e; subst e; exact ⟨rfl, rfl, rfl, rfl⟩
  · injection e with e; subst e; exact ⟨rfl, rfl, rfl, rfl⟩

private theorem stream_taken {cfg : Cfg (List Nat)} {c : Nat × Nat × Nat} {s s' : St (List Nat)} (e : stream cfg c s = .ok s') :
    s'.w = s.w ∧ s'.pos = s.pos ∧ destroyed s'.resp = if c.2.1 = 0 then [] else [c.2.2] := by
  unfold stream at e
  by_cases h0 : c.2.1 = 0
  · rw [if_pos h0] at e
    injection e with e
    subst e
    exact ⟨rfl, rfl, by rw [if_pos h0]; rfl⟩
  · rw [if_neg h0] at e ⊢
    cases hf : fill cfg.accept s.w.resp ⟨[], .stream c⟩ with
    | ub => rw [hf] at e; cases e
    | ok x =>
      have hp := complete_plain.fill_plain hf
      rw [hf] at e
      injection e with e
      subst e
      exact ⟨rfl, rfl, hp⟩

/-- After the loop: the MHD response has exactly the data handed over. -/
private theorem loop_held {cfg : Cfg (List Nat)} : ∀ (ps : List (Dispatch.Who × (Nat → World (List Nat) → Prog))) {s s' : St (List Nat)},
    (∀ p ∈ ps, ∀ pos w, Once (p.2 pos w)) → s.w.user = [] → s.w.resp.stream = none → s.resp = none →
    loop cfg (ps.map fun p => (p.1, callback p.2)) s = .ok s' → s'.w.user = destroyed s'.resp
  | [], s, s', _, h1, _, h3, e => by injection e with e; subst e; rw [h1, h3]; rfl
  | (who, p) :: rest, s, s', hp, h1, h2, h3, e => by
    simp only [List.map_cons, loop] at e
    have hrest : ∀ p ∈ rest, ∀ pos w, Once (p.2 pos w) := fun q hq => hp q (List.mem_cons_of_mem _ hq)
    have hr := run_once (hp _ List.mem_cons_self s.pos s.w) s.w h1 h2
    have hw : (call who (callback p) s).2.w = (run (p s.pos s.w) s.w).2 := rfl
    have hn : (call who (callback p) s).2.resp = none := h3
    rw [← hw] at hr
    generalize (call who (callback p) s).1 = ret at e
    generalize (call who (callback p) s).2 = t at e hr hn
    rcases hr with ⟨r1, r2⟩ | ⟨c, r0, r1, r2⟩
    · simp only [r2] at e
      split at e
      · obtain ⟨a, -, -, d⟩ := websocket_plain e; rw [a, r1, d]
      · generalize (if ((ret == Dispatch.cbContinue || ret == Dispatch.cbIgnore) &&
          (List.map (fun p => (p.1, callback p.2)) rest).isEmpty) = true then Dispatch.cbComplete else ret) = rt at e
        split at e
        · exact loop_held rest hrest r1 r2 hn e
        · split at e
          · obtain ⟨a, -, -, d⟩ := complete_plain e; rw [a, r1, d]
          · split at e
            · obtain ⟨a, -, -, d⟩ := unauthorized_plain e; rw [a, r1, d]
            · injection e with e; subst e; exact r1
    · simp only [r2] at e
      obtain ⟨a, -, d⟩ := stream_taken e
      rw [a, d, r1, if_neg (by omega)]

/-- After the loop: the MHD response has data that were handed over, or none. -/
private theorem loop_known {cfg : Cfg (List Nat)} : ∀ (ps : List (Dispatch.Who × (Nat → World (List Nat) → Prog))) {s s' : St (List Nat)},
    Known s.w → s.resp = none → loop cfg (ps.map fun p => (p.1, callback p.2)) s = .ok s' →
    Known s'.w ∧ (destroyed s'.resp = [] ∨ ∃ d ∈ s'.w.user, destroyed s'.resp = [d])
  | [], s, s', h, h3, e => by injection e with e; subst e; exact ⟨h, .inl (by rw [h3]; rfl)⟩
  | (who, p) :: rest, s, s', h, h3, e => by
    simp only [List.map_cons, loop] at e
    have hr := (run_known (p s.pos s.w) s.w h).1
    have hw : (call who (callback p) s).2.w = (run (p s.pos s.w) s.w).2 := rfl
    have hn : (call who (callback p) s).2.resp = none := h3
    rw [← hw] at hr
    generalize (call who (callback p) s).1 = ret at e
    generalize (call who (callback p) s).2 = t at e hr hn
    have plain : ∀ {s'}, Plain t s' → Known s'.w ∧ (destroyed s'.resp = [] ∨ ∃ d ∈ s'.w.user, destroyed s'.resp = [d]) := by
      rintro s' ⟨a, b, -, d⟩
      exact ⟨fun c hc => by rw [a]; exact hr c (by rw [← b]; exact hc), .inl d⟩
    cases hs : t.w.resp.stream with
    | some c =>
      rw [hs] at e
      obtain ⟨a, -, d⟩ := stream_taken e
      rw [a]
      refine ⟨hr, ?_⟩
      rw [d]
      split
      · exact .inl rfl
      · exact .inr ⟨_, hr c hs, rfl⟩
    | none =>
      rw [hs] at e
      simp only at e
      split at e
      · exact plain (websocket_plain e)
      · generalize (if ((ret == Dispatch.cbContinue || ret == Dispatch.cbIgnore) &&
          (List.map (fun p => (p.1, callback p.2)) rest).isEmpty) = true then Dispatch.cbComplete else ret) = rt at e
        split at e
        · exact loop_known rest hr hn e
        · split at e
          · exact plain (complete_plain e)
          · split at e
            · exact plain (unauthorized_plain e)
            · injection e with e; subst e; exact plain ⟨rfl, rfl, rfl, rfl⟩

/-- The fallback: nothing happens, or the default endpoint is called and what is answered is no stream. -/
private theorem fallback_cases {cfg : Cfg (List Nat)} {dflt : Option (Nat → World (List Nat) → Prog)} {s s' : St (List Nat)}
    (e : fallback cfg (dflt.map callback) s = .ok s') :
    ((dflt.isSome && s.pos == 0) = false ∧ s' = s) ∨
    ((dflt.isSome && s.pos == 0) = true ∧ ∃ p, dflt = some p ∧ s'.w.user = (run (p 0 s.w) s.w).2.user ∧ destroyed s'.resp = []) := by
  cases dflt with
  | none => injection e with e; exact .inl ⟨rfl, e.symm⟩
  | some p =>
    simp only [Option.map_some, fallback] at e
    by_cases h0 : s.pos = 0
    · simp only [h0, beq_self_eq_true, if_true] at e
      refine .inr ⟨by simp [h0], p, rfl, ?_⟩
      split at e
      · obtain ⟨a, -, -, d⟩ := unauthorized_plain e; exact ⟨a, d⟩
      · split at e
        · injection e with e; subst e; exact ⟨rfl, rfl⟩
        · split at e
          · obtain ⟨a, -, -, d⟩ := complete_plain e; exact ⟨a, d⟩
          · injection e with e; subst e; exact ⟨rfl, rfl⟩
    · have hb : (s.pos == 0) = false := by simpa using h0
      simp only [hb, Bool.false_eq_true, if_false] at e
      injection e with e
      exact .inl ⟨by simp [hb], e.symm⟩

private theorem number_map (eps : List (Nat → World (List Nat) → Prog)) (i : Nat) : ∃ ps : List (Dispatch.Who × (Nat → World (List Nat) → Prog)),
    number i (eps.map callback) = ps.map (fun p => (p.1, callback p.2)) ∧ ∀ p ∈ ps, p.2 ∈ eps := by
  induction eps generalizing i with
  | nil => exact ⟨[], rfl, fun _ h => (by cases h)⟩
  | cons q t ih =>
    obtain ⟨ps, h1, h2⟩ := ih (i + 1)
    refine ⟨(.ep i, q) :: ps, by simp [number, h1], fun p hp => ?_⟩
    rcases List.mem_cons.1 hp with rfl | hp
    · exact List.mem_cons_self
    · exact List.mem_cons_of_mem _ (h2 p hp)

/-- A request taken apart. -/
private theorem serve_parts {cfg : Cfg (List Nat)} {eps : List (Nat → World (List Nat) → Prog)} {dflt : Option (Nat → World (List Nat) → Prog)}
    {ans : Option Ans} {given freed : List Nat} (h : serve cfg eps dflt = .ok (ans, given, freed)) :
    (given = [] ∧ freed = []) ∨ ∃ H ps s s', (∀ p ∈ ps, p.2 ∈ eps ∨ (eps = [] ∧ dflt = some p.2)) ∧
      (eps = [] → ∃ p, dflt = some p ∧ ps = [(.dflt, p)]) ∧
      loop cfg (ps.map (fun p => (p.1, callback p.2))) ⟨⟨{ header := H }, false, []⟩, 0, [], none, false, none, false⟩ = .ok s ∧
      fallback cfg (dflt.map callback) s = .ok s' ∧ given = s'.w.user ∧
      freed = (if dflt.isSome && s.pos == 0 then destroyed s.resp else []) ++ destroyed s'.resp := by
  obtain ⟨ps, hl, hps, hd⟩ : ∃ ps : List (Dispatch.Who × (Nat → World (List Nat) → Prog)),
      serve cfg eps dflt =
        (if (ps.map (fun p => (p.1, callback p.2))).isEmpty = true then
          (pure (some ⟨404, none, [], .buffer notFoundBody⟩, [], []) : Res (Option Ans × List Nat × List Nat))
        else do
          let h ← initHeaders cfg.defaults
          let s ← loop cfg (ps.map (fun p => (p.1, callback p.2))) ⟨⟨{ header := h }, false, []⟩, 0, [], none, false, none, false⟩
          let s' ← fallback cfg (dflt.map callback) s
          return (answer s', s'.w.user, (if dflt.isSome && s.pos == 0 then destroyed s.resp else []) ++ destroyed s'.resp)) ∧
      (∀ p ∈ ps, p.2 ∈ eps ∨ (eps = [] ∧ dflt = some p.2)) ∧ (eps = [] → ps ≠ [] → ∃ p, dflt = some p ∧ ps = [(.dflt, p)]) := by
    cases eps with
    | nil =>
      cases dflt with
      | none => exact ⟨[], rfl, fun _ h => (by cases h), fun _ h => absurd rfl h⟩
      | some p => exact ⟨[(.dflt, p)], rfl, fun q hq => by rw [List.mem_singleton.1 hq]; exact .inr ⟨rfl, rfl⟩, fun _ _ => ⟨p, rfl, rfl⟩⟩
    | cons q t =>
      obtain ⟨ps, h1, h2⟩ := number_map (q :: t) 0
      refine ⟨ps, ?_, fun p hp => .inl (h2 p hp), fun h => by cases h⟩
      rw [← h1]
      cases dflt <;> rfl
  rw [hl] at h
  by_cases hemp : (ps.map (fun p => (p.1, callback p.2))).isEmpty = true
  · rw [if_pos hemp] at h
    injection h with h
    injection h with _ h
    injection h with h1 h2
    exact .inl ⟨h1.symm, h2.symm⟩
  · rw [if_neg hemp] at h
    have hne : ps ≠ [] := by rintro rfl; exact hemp rfl
    cases hi : initHeaders cfg.defaults with
    | ub => rw [hi] at h; cases h
    | ok H =>
      rw [hi] at h
      simp only [Res.ok_bind] at h
      cases hlo : loop cfg (ps.map (fun p => (p.1, callback p.2))) ⟨⟨{ header := H }, false, []⟩, 0, [], none, false, none, false⟩ with
      | ub => rw [hlo] at h; cases h
      | ok s =>
        rw [hlo] at h
        simp only [Res.ok_bind] at h
        cases hfb : fallback cfg (dflt.map callback) s with
        | ub => rw [hfb] at h; cases h
        | ok s' =>
          rw [hfb] at h
          injection h with h
          injection h with _ h
          injection h with h1 h2
          exact .inr ⟨H, ps, s, s', hps, fun he => hd he hne, hlo, hfb, h1.symm, h2.symm⟩

/-- A request, once the callbacks to call are known. -/
private abbrev Core (cfg : Cfg (List Nat)) (dflt : Option (Nat → World (List Nat) → Prog)) (l : List (Dispatch.Who × Callback (List Nat))) :
    Res (Option Ans × List Nat × List Nat) :=
  if l.isEmpty = true then pure (some ⟨404, none, [], .buffer notFoundBody⟩, [], [])
  else do
    let h ← initHeaders cfg.defaults
    let s ← loop cfg l ⟨⟨{ header := h }, false, []⟩, 0, [], none, false, none, false⟩
    let s' ← fallback cfg (dflt.map callback) s
    return (answer s', s'.w.user, (if dflt.isSome && s.pos == 0 then destroyed s.resp else []) ++ destroyed s'.resp)

private theorem core_parts {cfg : Cfg (List Nat)} {dflt : Option (Nat → World (List Nat) → Prog)} {l : List (Dispatch.Who × Callback (List Nat))}
    {ans : Option Ans} {given freed : List Nat} (h : Core cfg dflt l = .ok (ans, given, freed)) :
    (l.isEmpty = true ∧ ans = some ⟨404, none, [], .buffer notFoundBody⟩) ∨
    (¬ l.isEmpty = true ∧ ∃ H s s', initHeaders cfg.defaults = .ok H ∧
      loop cfg l ⟨⟨{ header := H }, false, []⟩, 0, [], none, false, none, false⟩ = .ok s ∧
      fallback cfg (dflt.map callback) s = .ok s' ∧ ans = answer s' ∧
      freed = (if dflt.isSome && s.pos == 0 then destroyed s.resp else []) ++ destroyed s'.resp) := by
  by_cases he : l.isEmpty = true
  · rw [Core, if_pos he] at h
    injection h with h
    injection h with h
    exact .inl ⟨he, h.symm⟩
  · rw [Core, if_neg he] at h
    refine .inr ⟨he, ?_⟩
    cases hi : initHeaders cfg.defaults with
    | ub => rw [hi] at h; cases h
    | ok H =>
      rw [hi] at h
      simp only [Res.ok_bind] at h
      cases hl : loop cfg l ⟨⟨{ header := H }, false, []⟩, 0, [], none, false, none, false⟩ with
      | ub => rw [hl] at h; cases h
      | ok s =>
        rw [hl] at h
        simp only [Res.ok_bind] at h
        cases hf : fallback cfg (dflt.map callback) s with
        | ub => rw [hf] at h; cases h
        | ok s' =>
          rw [hf] at h
          injection h with h
          injection h with a b
          injection b with _ b
          exact ⟨H, s, s', rfl, hl, hf, a.symm, b.symm⟩

/-- The observations added to the dispatcher change nothing: the answer is that of `Verif.Answer.dispatch`. -/
theorem streamServe_answer (cfg : Cfg (List Nat)) (eps : List (Nat → World (List Nat) → Prog)) (dflt : Option (Nat → World (List Nat) → Prog))
    (ans : Option Ans) (given freed : List Nat) (h : serve cfg eps dflt = .ok (ans, given, freed)) :
    ∃ tr, dispatch cfg (eps.map callback) (dflt.map callback) [] = .ok (ans, tr) := by
  obtain ⟨l, h1, h2⟩ : ∃ l : List (Dispatch.Who × Callback (List Nat)),
      dispatch cfg (eps.map callback) (dflt.map callback) [] =
        (if l.isEmpty = true then (pure (some ⟨404, none, [], .buffer notFoundBody⟩, []) : Res (Option Ans × List (Ev (List Nat))))
        else do
          let h ← initHeaders cfg.defaults
          let s ← loop cfg l ⟨⟨{ header := h }, false, []⟩, 0, [], none, false, none, false⟩
          let s' ← fallback cfg (dflt.map callback) s
          return (answer s', s'.trace)) ∧
      serve cfg eps dflt = Core cfg dflt l := by
    cases eps with
    | nil =>
      cases dflt with
      | none => exact ⟨[], rfl, rfl⟩
      | some p => exact ⟨[(.dflt, callback p)], rfl, rfl⟩
    | cons q t => exact ⟨number 0 ((q :: t).map callback), by cases dflt <;> rfl, by cases dflt <;> rfl⟩
  rw [h2] at h
  rw [h1]
  rcases core_parts h with ⟨he, rfl⟩ | ⟨he, H, s, s', a, b, c, rfl, -⟩
  · rw [if_pos he]; exact ⟨_, rfl⟩
  · rw [if_neg he, a]
    simp only [Res.ok_bind, b, c]
    exact ⟨_, rfl⟩

/-- **C188, partial.** Whatever the callbacks of the endpoints are, as long as each sets at most one stream, with blocks that are not empty, and the
default endpoint sets none: every data handed over are freed exactly once, whatever the callbacks return, whether the client gets the stream or the
default endpoint takes the request over. -/
theorem C188_freed_partial (cfg : Cfg (List Nat)) (eps : List (Nat → World (List Nat) → Prog)) (dflt : Option (Nat → World (List Nat) → Prog))
    (he : ∀ p ∈ eps, ∀ pos w, Once (p pos w)) (hd : ∀ p, dflt = some p → ∀ pos w, Never (p pos w)) (ans : Option Ans) (given freed : List Nat)
    (h : serve cfg eps dflt = .ok (ans, given, freed)) : freed = given := by
  have never_once : ∀ {p : Prog}, Never p → Once p := by
    intro p hp
    induction hp with
    | done r => exact .done r
    | other g _ ih => exact .other g ih
  rcases serve_parts h with ⟨rfl, rfl⟩ | ⟨H, ps, s, s', h1, -, h2, h3, rfl, rfl⟩
  · rfl
  · have hh := loop_held ps (fun p hp => by
      rcases h1 p hp with h | ⟨-, h⟩
      · exact he _ h
      · exact fun pos w => never_once (hd _ h pos w)) rfl rfl rfl h2
    rcases fallback_cases h3 with ⟨a, rfl⟩ | ⟨a, p, hp, b, c⟩
    · simp [a, hh]
    · rw [if_pos a, c, List.append_nil, b, (run_never (hd p hp 0 s.w) s.w).1, hh]

/-- **C188, partial.** No endpoint matched, and the callback of the default endpoint never returns IGNORE: the data it handed over are freed exactly
once. -/
theorem C188_default_partial (cfg : Cfg (List Nat)) (p : Nat → World (List Nat) → Prog) (hp : ∀ pos w, Once (p pos w))
    (hr : ∀ pos w, (run (p pos w) w).1 ≠ 1) (ans : Option Ans) (given freed : List Nat)
    (h : serve cfg [] (some p) = .ok (ans, given, freed)) : freed = given := by
  rcases serve_parts h with ⟨rfl, rfl⟩ | ⟨H, ps, s, s', -, h1, h2, h3, rfl, rfl⟩
  · rfl
  · obtain ⟨q, hq, rfl⟩ := h1 rfl
    injection hq with hq
    subst hq
    have hh := loop_held _ (fun x hx => by rw [List.mem_singleton.1 hx]; exact hp) rfl rfl rfl h2
    have hpos : s.pos = 1 := by
      simp only [List.map_cons, List.map_nil, loop] at h2
      have hc : (call Dispatch.Who.dflt (callback p) ⟨⟨{ header := H }, false, []⟩, 0, [], none, false, none, false⟩).2.pos = 1 := by
        have := hr 0 ⟨{ header := H }, false, []⟩
        simp [call, callback, Dispatch.cbIgnore, this]
      generalize (call Dispatch.Who.dflt (callback p) ⟨⟨{ header := H }, false, []⟩, 0, [], none, false, none, false⟩).1 = ret at h2
      generalize (call Dispatch.Who.dflt (callback p) ⟨⟨{ header := H }, false, []⟩, 0, [], none, false, none, false⟩).2 = t at h2 hc
      split at h2
      · obtain ⟨-, a, -⟩ := stream_taken h2; rw [a, hc]
      · split at h2
        · obtain ⟨-, -, a, -⟩ := websocket_plain h2; rw [a, hc]
        · generalize (if ((ret == Dispatch.cbContinue || ret == Dispatch.cbIgnore) &&
            (List.isEmpty ([] : List (Dispatch.Who × Callback (List Nat))))) = true then Dispatch.cbComplete else ret) = rt at h2
          split at h2
          · injection h2 with h2; rw [← h2, hc]
          · split at h2
            · obtain ⟨-, -, a, -⟩ := complete_plain h2; rw [a, hc]
            · split at h2
              · obtain ⟨-, -, a, -⟩ := unauthorized_plain h2; rw [a, hc]
              · injection h2 with h2; rw [← h2]; exact hc
    rcases fallback_cases h3 with ⟨a, rfl⟩ | ⟨a, -⟩
    · simp [hpos, hh]
    · simp [hpos] at a

/-- **C188, never twice.** Whatever the callbacks do, at most one data are freed in a request, once, and they were handed over. -/
theorem C188_never_twice (cfg : Cfg (List Nat)) (eps : List (Nat → World (List Nat) → Prog)) (dflt : Option (Nat → World (List Nat) → Prog))
    (ans : Option Ans) (given freed : List Nat) (h : serve cfg eps dflt = .ok (ans, given, freed)) :
    freed = [] ∨ ∃ d ∈ given, freed = [d] := by
  rcases serve_parts h with ⟨rfl, rfl⟩ | ⟨H, ps, s, s', -, -, h2, h3, rfl, rfl⟩
  · exact .inl rfl
  · obtain ⟨hk, hh⟩ := loop_known ps (by intro c hc; cases hc) rfl h2
    rcases fallback_cases h3 with ⟨a, rfl⟩ | ⟨a, p, hp, b, c⟩
    · simpa [a] using hh
    · rw [if_pos a, c, List.append_nil, b]
      rcases hh with hh | ⟨d, hd, hh⟩
      · exact .inl hh
      · exact .inr ⟨d, (run_known _ s.w hk).2 d hd, hh⟩

/-- **C188, the stream that is sent.** When the client is answered with a stream, its data are freed, and nothing else is. -/
theorem C188_sent (cfg : Cfg (List Nat)) (eps : List (Nat → World (List Nat) → Prog)) (dflt : Option (Nat → World (List Nat) → Prog))
    (ans : Ans) (given freed : List Nat) (h : serve cfg eps dflt = .ok (some ans, given, freed)) (c : Nat × Nat × Nat)
    (hc : ans.content = .stream c) : freed = [c.2.2] := by
  obtain ⟨s, s', h1, h2, h3⟩ : ∃ s s', answer s' = some ans ∧ fallback cfg (dflt.map callback) s = .ok s' ∧
      freed = (if dflt.isSome && s.pos == 0 then destroyed s.resp else []) ++ destroyed s'.resp := by
    obtain ⟨l, hl⟩ : ∃ l, serve cfg eps dflt = Core cfg dflt l := by
      cases eps with
      | nil =>
        cases dflt with
        | none => exact ⟨[], rfl⟩
        | some p => exact ⟨[(.dflt, callback p)], rfl⟩
      | cons q t => exact ⟨number 0 ((q :: t).map callback), by cases dflt <;> rfl⟩
    rw [hl] at h
    rcases core_parts h with ⟨he, a⟩ | ⟨-, H, s, s', -, -, a, b, d⟩
    · injection a with a
      rw [a] at hc
      cases hc
    · exact ⟨s, s', b.symm, a, d⟩
  have hd : destroyed s'.resp = [c.2.2] := by
    unfold answer at h1
    cases hr : s'.resp with
    | none => rw [hr] at h1; cases h1
    | some m =>
      obtain ⟨f, ct⟩ := m
      rw [hr] at h1
      have : ct = .stream c := by
        simp only at h1
        repeat' (first | split at h1 | (injection h1 with h1; rw [← h1] at hc; exact hc))
      rw [this]
      rfl
  rcases fallback_cases h2 with ⟨a, rfl⟩ | ⟨a, p, hp, b, c'⟩
  · rw [h3, hd, a]; rfl
  · rw [c'] at hd; cases hd

/-- An instance of no particular settings. -/
def streamDataCfg : Cfg (List Nat) := { accept := fun _ _ _ => true, hand := fun _ => .failed, realm := none, defaults := none }

/-- What is seen of a request: the content of the answer, the data handed over and freed. -/
def seenOf : Res (Option Ans × List Nat × List Nat) → Option (Option Content × List Nat × List Nat)
  | .ok (a, g, f) => some (a.map (·.content), g, f)
  | .ub => none

/-- A callback that lets the request pass, one that streams, one that is not called any more. -/
def streamDataCbs (ret : Int) : List (Nat → World (List Nat) → Prog) :=
  [fun _ _ => .other (fun w => { w with resp := (setStringBody w.resp 200 (some b!"ok")).2 }) (fun _ => .done 0),
    fun _ _ => .give 200 5 64 7 (.done ret), fun _ _ => .give 200 5 64 8 (.done 2)]

example : seenOf (serve streamDataCfg (streamDataCbs 3) none) = some (some (.stream (5, 64, 7)), [7], [7]) := by decide +kernel

example : seenOf (serve streamDataCfg [fun _ _ => .give 200 5 64 7 (.done 1)] (some fun _ _ => .done 2)) =
    some (some (.buffer []), [7], [7]) := by decide +kernel

example : seenOf (serve streamDataCfg [] (some fun _ _ => .give 200 5 64 7 (.done 0))) = some (some (.stream (5, 64, 7)), [7], [7]) := by
  decide +kernel

example (ret : Int) : ∀ p ∈ streamDataCbs ret, ∀ pos w, Once (p pos w) := by
  intro p hp pos w
  simp only [streamDataCbs, List.mem_cons, List.not_mem_nil, or_false] at hp
  rcases hp with rfl | rfl | rfl
  · exact .other _ fun _ => .done _
  · exact .give _ _ _ _ (by decide) (.done _)
  · exact .give _ _ _ _ (by decide) (.done _)

/-- **C188 is false of the code** for a callback that sets a second stream: the data of the first are never freed. -/
theorem C188_replaced_false : seenOf (serve streamDataCfg [fun _ _ => .give 200 5 64 7 (.give 200 6 64 8 (.done 2))] none) =
    some (some (.stream (6, 64, 8)), [7, 8], [8]) := by decide +kernel

/-- **C188 is false of the code** for a default endpoint that streams after all endpoints ignored the request: the client gets an empty body and the
data (the open file of the static file callback, for example) are never freed. -/
theorem C188_fallback_false : seenOf (serve streamDataCfg [fun _ _ => .done 1] (some fun _ _ => .give 200 5 64 7 (.done 0))) =
    some (some (.buffer []), [7], []) := by decide +kernel

/-- **C188 is false of the code** for a default endpoint that streams and returns IGNORE: it is called twice, the first stream is dropped, the data
of the second are never freed. -/
theorem C188_ignored_false :
    seenOf (serve streamDataCfg [] (some fun _ w => .give 200 5 64 (7 + w.user.length) (.done 1))) = some (some (.buffer []), [7, 8], [7]) := by
  decide +kernel

/-- **C188 is false of the code** for a stream with blocks of size 0, which libmicrohttpd refuses: nothing is answered and the data are never freed. -/
theorem C188_block_false : seenOf (serve streamDataCfg [fun _ _ => .give 200 5 0 7 (.done 2)] none) = some (none, [7], []) := by decide +kernel

end Verif.Props
