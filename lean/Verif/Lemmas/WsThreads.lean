import Verif.Model.WsThreads
/-! # Lemmas: the invariant of the threads that send on one websocket -/
namespace Verif.WsThreads
open Verif.Ws

variable {C : Type}

/-- The bytes on the wire when nobody else sends. -/
def sentBytes (j : Job) (m : OutMsg) : List (Option UInt8) :=
  match sendOn m j.fragment j.writes with
  | .ok (_, b) => b
  | .ub => []

/-- The message as it is kept. -/
def keptMsg (j : Job) (m : OutMsg) : Option OutMsg :=
  match sendManaged m j.fragment with
  | .ok (some (_, m')) => some m'
  | _ => none

/-- What the call `j` turns into, given a context `c`. -/
def codes (E : Coder C) (c : C) (j : Job) (m : OutMsg) : Prop :=
  if j.op = 8 then m = ⟨8, 0, j.mask, []⟩
  else if j.op = 1 ∨ j.op = 2 then ∃ rsv d, (E.perform c j.op j.data).2 = some (rsv, d) ∧ m = ⟨j.op, rsv, j.mask, d⟩
  else m = ⟨j.op, 0, j.mask, j.data⟩

/-- The call that has begun and does not have the lock yet. -/
def waiting : Pc → List Job
  | .called j => [j]
  | .performing j => [j]
  | .coded j _ => [j]
  | _ => []

/-- The lock is held. -/
def holds : Pc → Bool
  | .writing _ _ _ => true
  | .unlocking _ => true
  | _ => false

abbrev Log := List (Nat × Job × OutMsg)

def logOf (l : Log) (i : Nat) : List Job := (l.filter (fun x => x.1 == i)).map (fun x => x.2.1)

def wireOf (l : Log) : List (Option UInt8) := (l.map (fun x => sentBytes x.2.1 x.2.2)).flatten

def keptOf (l : Log) : List OutMsg := l.filterMap (fun x => keptMsg x.2.1 x.2.2)

/-- What the holder of the lock has still to do. -/
inductive Holder (s : Sys C) (l0 : Log) (x : Nat × Job × OutMsg) : Pc → Prop
  | writing (fr : List (List (Option UInt8) × List Wr)) (m' : OutMsg) (k : keptMsg x.2.1 x.2.2 = some m')
      (w : s.wire ++ (fr.map (fun y => sendFrame y.2 y.1)).flatten = wireOf (l0 ++ [x])) (h : s.kept = keptOf l0) : Holder s l0 x (.writing x.2.1 fr m')
  | unlocking (w : s.wire = wireOf (l0 ++ [x])) (h : s.kept = keptOf (l0 ++ [x])) : Holder s l0 x (.unlocking x.2.1)

/-- The order of the messages up to now. `good`: no call fails. -/
structure Inv (E : Coder C) (P : C → Prop) (good : Prop) (jobs : Nat → List Job) (s : Sys C) (l : Log) : Prop where
  ctx : P s.ctx
  threads : ∀ i, ∃ taken, jobs i = taken ++ (s.th i).todo ∧ (logOf l i ++ waiting (s.th i).pc).Sublist taken ∧
    (good → s.connected = true → logOf l i ++ waiting (s.th i).pc = taken)
  made : ∀ x ∈ l, (∃ c, P c ∧ codes E c x.2.1 x.2.2) ∧ ∃ r, sendManaged x.2.2 x.2.1.fragment = .ok r
  coded : ∀ i j m, (s.th i).pc = .coded j m → ∃ c, P c ∧ codes E c j m
  perf : ∀ i j, (s.th i).pc = .performing j → j.op = 1 ∨ j.op = 2
  free : s.lock = none → s.wire = wireOf l ∧ s.kept = keptOf l ∧ ∀ i, holds (s.th i).pc = false
  held : ∀ i, s.lock = some i → (∃ l0 x, l = l0 ++ [x] ∧ x.1 = i ∧ Holder s l0 x (s.th i).pc) ∧ ∀ k, k ≠ i → holds (s.th k).pc = false

theorem sendOn_bytes {m : OutMsg} {j : Job} {frames : List (List (Option UInt8))} {m' : OutMsg}
    (h : sendManaged m j.fragment = .ok (some (frames, m'))) :
    sentBytes j m = ((frames.zip j.writes).map (fun y => sendFrame y.2 y.1)).flatten := by
  unfold sentBytes sendOn
  rw [h]
  simp only [Res.ok_bind, Res.pure_eq]
  congr 1
  clear h
  generalize j.writes = ws
  induction frames generalizing ws with
  | nil => cases ws <;> rfl
  | cons f t ih =>
    cases ws with
    | nil => rfl
    | cons w ws => simp only [List.zipWith_cons_cons, List.zip_cons_cons, List.map_cons, ih]

theorem logOf_append (l : Log) (x : Nat × Job × OutMsg) (i : Nat) :
    logOf (l ++ [x]) i = logOf l i ++ (if x.1 = i then [x.2.1] else []) := by
  unfold logOf
  by_cases h : x.1 = i
  · simp [List.filter_append, h]
  · simp [List.filter_append, h]

theorem wireOf_append (l : Log) (x : Nat × Job × OutMsg) : wireOf (l ++ [x]) = wireOf l ++ sentBytes x.2.1 x.2.2 := by
  simp [wireOf]

theorem keptOf_append (l : Log) (x : Nat × Job × OutMsg) : keptOf (l ++ [x]) = keptOf l ++ (keptMsg x.2.1 x.2.2).toList := by
  unfold keptOf
  cases h : keptMsg x.2.1 x.2.2 <;> simp [h]

theorem go_th (s : Sys C) (i : Nat) (pc : Pc) (k : Nat) : (go s i pc).th k = if k = i then ⟨(s.th i).todo, pc⟩ else s.th k := rfl

theorem go_self (s : Sys C) (i : Nat) (pc : Pc) : (go s i pc).th i = ⟨(s.th i).todo, pc⟩ := by rw [go_th, if_pos rfl]

theorem go_other {s : Sys C} {i : Nat} {pc : Pc} {k : Nat} (h : k ≠ i) : (go s i pc).th k = s.th k := by rw [go_th, if_neg h]

variable {E : Coder C} {P : C → Prop} {good : Prop} {jobs : Nat → List Job} {s s' : Sys C} {l : Log}

theorem Holder.same {l0 : Log} {x : Nat × Job × OutMsg} {pc : Pc} (h : Holder s l0 x pc) (hw : s'.wire = s.wire) (hk : s'.kept = s.kept) :
    Holder s' l0 x pc := by
  cases h with
  | writing fr m' k w h => exact .writing fr m' k (by rw [hw]; exact w) (by rw [hk]; exact h)
  | unlocking w h => exact .unlocking (by rw [hw]; exact w) (by rw [hk]; exact h)

theorem Holder.holds {l0 : Log} {x : Nat × Job × OutMsg} {pc : Pc} (h : Holder s l0 x pc) : holds pc = true := by
  cases h <;> rfl

/-- Thread `i` moves, without the lock. -/
theorem Inv.move (v : Inv E P good jobs s l) (i : Nat) (hw : s'.wire = s.wire) (hk : s'.kept = s.kept) (hl : s'.lock = s.lock)
    (hc : s'.connected = true → s.connected = true) (hth : ∀ k, k ≠ i → s'.th k = s.th k) (hctx : P s'.ctx)
    (hi : ∃ taken, jobs i = taken ++ (s'.th i).todo ∧ (logOf l i ++ waiting (s'.th i).pc).Sublist taken ∧
      (good → s'.connected = true → logOf l i ++ waiting (s'.th i).pc = taken))
    (hcoded : ∀ j m, (s'.th i).pc = .coded j m → ∃ c, P c ∧ codes E c j m)
    (hperf : ∀ j, (s'.th i).pc = .performing j → j.op = 1 ∨ j.op = 2)
    (h0 : holds (s.th i).pc = false) (h1 : holds (s'.th i).pc = false) : Inv E P good jobs s' l where
  ctx := hctx
  threads k := by
    by_cases e : k = i
    · subst e; exact hi
    · obtain ⟨t, a, b, c⟩ := v.threads k
      rw [hth k e]
      exact ⟨t, a, b, fun g h => c g (hc h)⟩
  made := v.made
  coded k j m h := by
    by_cases e : k = i
    · subst e; exact hcoded j m h
    · rw [hth k e] at h; exact v.coded k j m h
  perf k j h := by
    by_cases e : k = i
    · subst e; exact hperf j h
    · rw [hth k e] at h; exact v.perf k j h
  free h := by
    obtain ⟨a, b, c⟩ := v.free (hl ▸ h)
    refine ⟨hw.trans a, hk.trans b, fun k => ?_⟩
    by_cases e : k = i
    · subst e; exact h1
    · rw [hth k e]; exact c k
  held k h := by
    obtain ⟨⟨l0, x, a, b, c⟩, d⟩ := v.held k (hl ▸ h)
    have e : k ≠ i := by
      intro e; subst e
      rw [c.holds] at h0; cases h0
    refine ⟨⟨l0, x, a, b, by rw [hth k e]; exact c.same hw hk⟩, fun k' hk' => ?_⟩
    by_cases e : k' = i
    · subst e; exact h1
    · rw [hth k' e]; exact d k' hk'

/-- The holder of the lock moves and keeps it. -/
theorem Inv.work (v : Inv E P good jobs s l) (i : Nat) (h0 : holds (s.th i).pc = true) (hl : s'.lock = s.lock)
    (hc : s'.connected = s.connected) (hx : s'.ctx = s.ctx) (hth : ∀ k, k ≠ i → s'.th k = s.th k) (ht : (s'.th i).todo = (s.th i).todo)
    (hH : ∀ l0 x, Holder s l0 x (s.th i).pc → Holder s' l0 x (s'.th i).pc) (h1 : holds (s'.th i).pc = true) : Inv E P good jobs s' l := by
  have w0 : ∀ {p : Pc}, holds p = true → waiting p = [] := by intro p h; cases p <;> simp [holds, waiting] at *
  have hlock : s.lock = some i := by
    cases e : s.lock with
    | none => have := (v.free e).2.2 i; rw [this] at h0; cases h0
    | some k =>
      by_cases e' : i = k
      · rw [e']
      · have := (v.held k e).2 i e'; rw [this] at h0; cases h0
  exact {
    ctx := by rw [hx]; exact v.ctx
    threads := fun k => by
      by_cases e : k = i
      · subst e
        obtain ⟨t, a, b, c⟩ := v.threads k
        rw [w0 h0] at b c
        rw [ht, w0 h1, hc]
        exact ⟨t, a, b, c⟩
      · rw [hth k e, hc]; exact v.threads k
    made := v.made
    coded := fun k j m h => by
      by_cases e : k = i
      · subst e; rw [h] at h1; cases h1
      · rw [hth k e] at h; exact v.coded k j m h
    perf := fun k j h => by
      by_cases e : k = i
      · subst e; rw [h] at h1; cases h1
      · rw [hth k e] at h; exact v.perf k j h
    free := fun h => by rw [hl, hlock] at h; cases h
    held := fun k h => by
      rw [hl, hlock] at h
      cases h
      obtain ⟨⟨l0, x, a, b, c⟩, d⟩ := v.held i hlock
      exact ⟨⟨l0, x, a, b, hH l0 x c⟩, fun k' hk' => by rw [hth k' hk']; exact d k' hk'⟩ }

/-- What an action needs to know about the calls. -/
structure Good (E : Coder C) (P : C → Prop) (good : Prop) (jobs : Nat → List Job) : Prop where
  keeps : ∀ c op d, P c → P (E.perform c op d).1
  fine : good → ∀ c i j, P c → j ∈ jobs i → (j.op = 1 ∨ j.op = 2) → (E.perform c j.op j.data).2 ≠ none

theorem Inv.step (g : Good E P good jobs) (v : Inv E P good jobs s l) (i : Nat) (h : step E s i = .ok s') :
    ∃ l', l <+: l' ∧ Inv E P good jobs s' l' := by
  have oth : ∀ (p : Pc) (s0 : Sys C), s0.th = s.th → ∀ k, k ≠ i → (go s0 i p).th k = s.th k := by
    intro p s0 h0 k hk; rw [go_th, if_neg hk, h0]
  obtain ⟨taken, ta, tb, tc⟩ := v.threads i
  unfold Verif.WsThreads.step at h
  split at h
  case h_1 pc =>
    rw [pc] at tb tc
    simp only [waiting, List.append_nil] at tb tc
    split at h
    · cases h; exact ⟨l, List.prefix_refl _, v⟩
    · rename_i j t td
      cases h
      refine ⟨l, List.prefix_refl _, v.move i rfl rfl rfl (fun h => h) (fun k hk => if_neg hk) v.ctx ?_ ?_ ?_ (by rw [pc]; rfl) ?_⟩
      · simp only [if_pos]
        refine ⟨taken ++ [j], by rw [ta, td]; simp, ?_, ?_⟩
        · by_cases c : s.connected = true
          · rw [if_pos c]; exact List.Sublist.append tb (List.Sublist.refl _)
          · rw [if_neg c]; simp only [waiting, List.append_nil]
            exact tb.trans (List.sublist_append_left _ _)
        · intro hg c
          rw [if_pos c, tc hg c]; rfl
      · intro j' m' e; simp only [if_pos] at e; split at e <;> cases e
      · intro j' e; simp only [if_pos] at e; split at e <;> cases e
      · simp only [if_pos]; split <;> rfl
  case h_2 j pc =>
    rw [pc] at tb tc
    simp only [waiting] at tb tc
    have T : ∀ p, waiting p = [j] → ∀ s0 : Sys C, s0.th = s.th → s0.connected = s.connected →
        ∃ taken, jobs i = taken ++ ((go s0 i p).th i).todo ∧ (logOf l i ++ waiting ((go s0 i p).th i).pc).Sublist taken ∧
          (good → (go s0 i p).connected = true → logOf l i ++ waiting ((go s0 i p).th i).pc = taken) := by
      intro p hp s0 h0 h1
      rw [go_self, h0]
      simp only [hp]
      exact ⟨taken, ta, tb, fun hg c => tc hg (by rw [← h1]; exact c)⟩
    split at h
    · rename_i hop
      cases h
      refine ⟨l, List.prefix_refl _, v.move i rfl rfl rfl (fun h => h) (oth _ _ rfl) v.ctx (T _ rfl _ rfl rfl) ?_ ?_ (by rw [pc]; rfl) (by rw [go_self]; rfl)⟩
      · intro j' m' e; rw [go_self] at e; cases e
        exact ⟨s.ctx, v.ctx, by unfold codes; rw [if_pos hop]⟩
      · intro j' e; rw [go_self] at e; cases e
    · rename_i hop
      split at h
      · rename_i ho
        split at h
        · split at h
          · cases h
          · cases h
            refine ⟨l, List.prefix_refl _, v.move i rfl rfl rfl (fun h => h) (oth _ _ rfl) v.ctx (T _ rfl _ rfl rfl) ?_ ?_ (by rw [pc]; rfl) (by rw [go_self]; rfl)⟩
            · intro j' m' e; rw [go_self] at e; cases e
            · intro j' e; rw [go_self] at e; cases e; exact ho
        · cases h
          refine ⟨l, List.prefix_refl _, v.move i rfl rfl rfl (fun h => h) (oth _ _ rfl) v.ctx (T _ rfl _ rfl rfl) ?_ ?_ (by rw [pc]; rfl) (by rw [go_self]; rfl)⟩
          · intro j' m' e; rw [go_self] at e; cases e
          · intro j' e; rw [go_self] at e; cases e; exact ho
      · rename_i ho
        cases h
        refine ⟨l, List.prefix_refl _, v.move i rfl rfl rfl (fun h => h) (oth _ _ rfl) v.ctx (T _ rfl _ rfl rfl) ?_ ?_ (by rw [pc]; rfl) (by rw [go_self]; rfl)⟩
        · intro j' m' e; rw [go_self] at e; cases e
          exact ⟨s.ctx, v.ctx, by unfold codes; rw [if_neg hop, if_neg ho]⟩
        · intro j' e; rw [go_self] at e; cases e
  case h_3 j pc =>
    rw [pc] at tb tc
    simp only [waiting] at tb tc
    have ho := v.perf i j pc
    have hop : j.op ≠ 8 := by rcases ho with e | e <;> rw [e] <;> decide
    simp only at h
    split at h
    · rename_i hr
      cases h
      refine ⟨l, List.prefix_refl _, v.move i rfl rfl rfl (fun h => h) (oth _ _ rfl) (g.keeps _ _ _ v.ctx) ?_ ?_ ?_ (by rw [pc]; rfl) (by rw [go_self]; rfl)⟩
      · rw [go_self]
        simp only [waiting, List.append_nil]
        refine ⟨taken, ta, (List.sublist_append_left _ _).trans tb, fun hg c => ?_⟩
        have : j ∈ jobs i := by rw [ta, ← tc hg c]; simp
        exact absurd hr (g.fine hg _ i j v.ctx this ho)
      · intro j' m' e; rw [go_self] at e; cases e
      · intro j' e; rw [go_self] at e; cases e
    · rename_i rsv d hr
      cases h
      refine ⟨l, List.prefix_refl _, v.move i rfl rfl rfl (fun h => h) (oth _ _ rfl) (g.keeps _ _ _ v.ctx) ?_ ?_ ?_ (by rw [pc]; rfl) (by rw [go_self]; rfl)⟩
      · rw [go_self]
        simp only [waiting]
        exact ⟨taken, ta, tb, tc⟩
      · intro j' m' e; rw [go_self] at e; cases e
        exact ⟨s.ctx, v.ctx, by unfold codes; rw [if_neg hop, if_pos ho]; exact ⟨rsv, d, hr, rfl⟩⟩
      · intro j' e; rw [go_self] at e; cases e
  case h_4 j m pc =>
    rw [pc] at tb tc
    simp only [waiting] at tb tc
    split at h
    · cases h; exact ⟨l, List.prefix_refl _, v⟩
    · rename_i hl
      obtain ⟨fw, fk, fh⟩ := v.free hl
      have main : ∀ p, (∃ r, sendManaged m j.fragment = .ok r) → waiting p = [] → (∀ s0 : Sys C, s0.wire = s.wire → s0.kept = s.kept → Holder s0 l (i, j, m) p) →
          Inv E P good jobs (go { s with lock := some i } i p) (l ++ [(i, j, m)]) := by
        intro p hs hp H
        have hh : holds p = true := (H s rfl rfl).holds
        exact {
          ctx := v.ctx
          threads := fun k => by
            rw [logOf_append]
            by_cases e : k = i
            · subst e
              rw [go_self]
              simp only [hp, if_pos, List.append_nil]
              exact ⟨taken, ta, tb, tc⟩
            · rw [go_other e]
              simp only [if_neg (Ne.symm e), List.append_nil]
              exact v.threads k
          made := fun x hx => by
            rcases List.mem_append.1 hx with hx | hx
            · exact v.made x hx
            · simp only [List.mem_singleton] at hx
              subst hx
              exact ⟨v.coded i j m pc, hs⟩
          coded := fun k j' m' e => by
            by_cases ek : k = i
            · subst ek; rw [go_self] at e; simp only at e; rw [e] at hh; cases hh
            · rw [go_other ek] at e; exact v.coded k j' m' e
          perf := fun k j' e => by
            by_cases ek : k = i
            · subst ek; rw [go_self] at e; simp only at e; rw [e] at hh; cases hh
            · rw [go_other ek] at e; exact v.perf k j' e
          free := fun e => by cases e
          held := fun k e => by
            cases e
            refine ⟨⟨l, (i, j, m), rfl, rfl, by rw [go_self]; exact H _ rfl rfl⟩, fun k hk => ?_⟩
            rw [go_other hk]; exact fh k }
      cases hs : sendManaged m j.fragment with
      | ub => rw [hs] at h; cases h
      | ok r =>
        rw [hs] at h
        cases r with
        | none =>
          cases h
          refine ⟨_, List.prefix_append _ _, main _ ⟨_, hs⟩ rfl (fun s0 h1 h2 => .unlocking ?_ ?_)⟩
          · rw [wireOf_append, h1, fw]
            simp only [sentBytes, sendOn, hs, Res.ok_bind, Res.pure_eq, List.append_nil]
          · rw [keptOf_append, h2, fk]
            simp only [keptMsg, hs, Option.toList, List.append_nil]
        | some r =>
          obtain ⟨frames, m'⟩ := r
          cases h
          refine ⟨_, List.prefix_append _ _, main _ ⟨_, hs⟩ rfl (fun s0 h1 h2 => .writing _ _ ?_ ?_ (by rw [h2, fk]))⟩
          · simp only [keptMsg, hs]
          · rw [wireOf_append, h1, fw, sendOn_bytes hs]
  case h_5 j b f k w t m pc =>
    cases h
    refine ⟨l, List.prefix_refl _, v.work i (by rw [pc]; rfl) rfl rfl rfl (oth _ _ rfl) (by rw [go_self]) ?_ (by rw [go_self]; rfl)⟩
    intro l0 x H
    rw [pc] at H
    rw [go_self]
    cases H with
    | writing fr m' a b' c =>
      refine .writing _ _ a ?_ c
      rw [← b']
      simp [sendFrame, go]
  case h_6 j x t m hno pc =>
    cases h
    refine ⟨l, List.prefix_refl _, v.work i (by rw [pc]; rfl) rfl rfl rfl (oth _ _ rfl) (by rw [go_self]) ?_ (by rw [go_self]; rfl)⟩
    intro l0 x' H
    rw [pc] at H
    rw [go_self]
    cases H with
    | writing fr m' a b' c =>
      refine .writing _ _ a ?_ c
      rw [← b']
      obtain ⟨f, w⟩ := x
      have : sendFrame w f = [] := by
        cases f with
        | nil => cases w <;> rfl
        | cons b f =>
          cases w with
          | nil => rfl
          | cons o w =>
            cases o with
            | sent k => exact absurd rfl (hno b f k w)
            | notReady => rfl
            | fail => rfl
      simp [this, go]
  case h_7 j m pc =>
    cases h
    refine ⟨l, List.prefix_refl _, v.work i (by rw [pc]; rfl) rfl rfl rfl (oth _ _ rfl) (by rw [go_self]) ?_ (by rw [go_self]; rfl)⟩
    intro l0 x H
    rw [pc] at H
    rw [go_self]
    cases H with
    | writing fr m' a b' c =>
      refine .unlocking ?_ ?_
      · rw [← b']; simp [go]
      · rw [keptOf_append, a]; simp [go, c]
  case h_8 j pc =>
    cases h
    rw [pc] at tb tc
    simp only [waiting, List.append_nil] at tb tc
    have hlock : s.lock = some i := by
      cases e : s.lock with
      | none => have := (v.free e).2.2 i; rw [pc] at this; cases this
      | some k =>
        by_cases e' : i = k
        · rw [e']
        · have := (v.held k e).2 i e'; rw [pc] at this; cases this
    obtain ⟨⟨l0, x, a, b, H⟩, d⟩ := v.held i hlock
    rw [pc] at H
    have nh : ∀ op : UInt8, holds (if op = 8 then Pc.closing else .ready) = false := by intro op; split <;> rfl
    have nw : ∀ op : UInt8, waiting (if op = 8 then Pc.closing else .ready) = [] := by intro op; split <;> rfl
    refine ⟨l, List.prefix_refl _, {
      ctx := v.ctx
      threads := fun k => by
        by_cases e : k = i
        · subst e
          rw [go_self]
          simp only [nw, List.append_nil]
          exact ⟨taken, ta, tb, tc⟩
        · rw [go_other e]; exact v.threads k
      made := v.made
      coded := fun k j' m' e => by
        by_cases ek : k = i
        · subst ek; rw [go_self] at e; simp only at e; split at e <;> cases e
        · rw [go_other ek] at e; exact v.coded k j' m' e
      perf := fun k j' e => by
        by_cases ek : k = i
        · subst ek; rw [go_self] at e; simp only at e; split at e <;> cases e
        · rw [go_other ek] at e; exact v.perf k j' e
      free := fun _ => by
        cases H with
        | unlocking w h =>
          refine ⟨by rw [a]; exact w, by rw [a]; exact h, fun k => ?_⟩
          by_cases e : k = i
          · subst e; rw [go_self]; exact nh _
          · rw [go_other e]; exact d k e
      held := fun k e => by cases e }⟩
  case h_9 pc =>
    cases h
    rw [pc] at tb tc
    simp only [waiting, List.append_nil] at tb tc
    refine ⟨l, List.prefix_refl _, v.move i rfl rfl rfl (fun h => by cases h) (oth _ _ rfl) v.ctx ?_ ?_ ?_ (by rw [pc]; rfl) (by rw [go_self]; rfl)⟩
    · rw [go_self]
      simp only [waiting, List.append_nil]
      exact ⟨taken, ta, tb, fun _ c => by cases c⟩
    · intro j' m' e; rw [go_self] at e; cases e
    · intro j' e; rw [go_self] at e; cases e

theorem Inv.lose (v : Inv E P good jobs s l) : Inv E P good jobs { s with connected := false } l :=
  { ctx := v.ctx
    threads := fun i => by
      obtain ⟨t, a, b, _⟩ := v.threads i
      exact ⟨t, a, b, fun _ c => by cases c⟩
    made := v.made
    coded := v.coded
    perf := v.perf
    free := v.free
    held := fun k h => by
      obtain ⟨⟨l0, x, a, b, c⟩, d⟩ := v.held k h
      exact ⟨⟨l0, x, a, b, c.same rfl rfl⟩, d⟩ }

theorem Inv.exec (g : Good E P good jobs) : ∀ (acts : List Act) {s : Sys C} {l : Log}, Inv E P good jobs s l → exec E s acts = .ok s' →
    ∃ l', Inv E P good jobs s' l' := by
  intro acts
  induction acts with
  | nil => intro s l v h; cases h; exact ⟨l, v⟩
  | cons a t ih =>
    intro s l v h
    cases a with
    | run i =>
      simp only [Verif.WsThreads.exec] at h
      cases hs : Verif.WsThreads.step E s i with
      | ub => rw [hs] at h; cases h
      | ok s1 =>
        rw [hs] at h
        obtain ⟨l1, -, v1⟩ := v.step g i hs
        exact ih v1 h
    | lose => exact ih v.lose h

/-- Frames of messages shorter than 4 GiB are built without undefined behaviour. -/
theorem buildFrame_defined (m : OutMsg) (off len : Nat) (hm : ∀ k, m.mask = some k → k.length = 4) (hn : m.data.length < 2 ^ 32) (ho : off ≤ m.data.length)
    (hl : len ≤ m.data.length - off) : ∃ f, buildFrame m off len = .ok f := by
  unfold buildFrame
  simp only
  have hw : UMap.w64 (off + len) = off + len := Nat.mod_eq_of_lt (by omega)
  rw [hw]
  have hp : ∀ d : Bytes, (maskAndPayload m.mask d).length = (if m.mask.isSome then 4 else 0) + d.length := by
    intro d
    unfold maskAndPayload
    cases e : m.mask with
    | none => simp
    | some k => simp [xorMask, hm k e]
  have hfdl : (if off + len ≥ m.data.length then m.data.length - off else len) ≤ m.data.length - off := by split <;> omega
  generalize (if off + len ≥ m.data.length then m.data.length - off else len) = fdl at hfdl
  rw [if_neg (by omega), if_neg (by omega), if_neg]
  · exact ⟨_, rfl⟩
  · simp only [List.length_append, List.length_cons, hp, List.length_take, List.length_drop, headerRoom, lengthBytes]
    have : min fdl (m.data.length - off) = fdl := by omega
    rw [this]
    split
    · simp only [List.length_cons, List.length_nil]; omega
    · split
      · have : m.data.length > 125 := by omega
        rw [if_pos this]; simp only [List.length_cons, List.length_nil]; omega
      · simp only [List.length_cons, List.length_nil]; split <;> omega

theorem curLen_le (n off f : Nat) : curLen n off f ≤ n - off := by
  unfold curLen; split <;> split <;> omega

theorem sendLoop_defined (f : Nat) : ∀ (k : Nat) (m : OutMsg) (off : Nat), m.data.length - off = k → (∀ k, m.mask = some k → k.length = 4) →
    m.data.length < 2 ^ 32 → ∃ r, sendLoop m f off = .ok r := by
  intro k
  induction k using Nat.strongRecOn with
  | _ k ih =>
    intro m off hk hm hn
    unfold sendLoop
    split
    · rename_i h
      obtain ⟨fr, e⟩ := buildFrame_defined m off _ hm hn (by omega) (curLen_le m.data.length off f)
      have := curLen_pos m.data.length off f h
      obtain ⟨r, e'⟩ := ih (m.data.length - (off + curLen m.data.length off f)) (by omega) { m with opcode := 0 } (off + curLen m.data.length off f) rfl hm hn
      rw [e, Res.ok_bind, e']
      exact ⟨_, rfl⟩
    · exact ⟨_, rfl⟩

theorem sendManaged_defined (m : OutMsg) (f : Nat) (hm : ∀ k, m.mask = some k → k.length = 4) (hn : m.data.length < 2 ^ 32) :
    ∃ r, sendManaged m f = .ok r := by
  unfold sendManaged
  split
  · split
    · obtain ⟨r, e⟩ := sendLoop_defined f _ m 0 rfl hm hn
      rw [e]; exact ⟨_, rfl⟩
    · obtain ⟨r, e⟩ := buildFrame_defined m 0 0 hm hn (by omega) (by omega)
      rw [e]; exact ⟨_, rfl⟩
  · exact ⟨_, rfl⟩

theorem inv_start {c : C} (hp : P c) : Inv E P good jobs (start c jobs) [] where
  ctx := hp
  threads i := ⟨[], rfl, List.Sublist.refl _, fun _ _ => rfl⟩
  made x hx := by cases hx
  coded i j m h := by cases h
  perf i j h := by cases h
  free _ := ⟨rfl, rfl, fun _ => rfl⟩
  held i h := by cases h

/-- What keeps everything defined: no context, and no data of 4 GiB. -/
structure Safe (E : Coder C) (P : C → Prop) (jobs : Nat → List Job) : Prop where
  alone : E.shared = false
  mask : ∀ i, ∀ j ∈ jobs i, ∀ k, j.mask = some k → k.length = 4
  short : ∀ i, ∀ j ∈ jobs i, j.data.length < 2 ^ 32
  coded : ∀ c, P c → ∀ i, ∀ j ∈ jobs i, ∀ rsv d, (E.perform c j.op j.data).2 = some (rsv, d) → d.length < 2 ^ 32

theorem Inv.defined (f : Safe E P jobs) (v : Inv E P good jobs s l) (i : Nat) : ∃ s', Verif.WsThreads.step E s i = .ok s' := by
  unfold Verif.WsThreads.step
  split
  · split <;> exact ⟨_, rfl⟩
  · rw [f.alone]
    split
    · exact ⟨_, rfl⟩
    · split
      · exact ⟨_, rfl⟩
      · exact ⟨_, rfl⟩
  · simp only
    split <;> exact ⟨_, rfl⟩
  · rename_i j m pc
    split
    · exact ⟨_, rfl⟩
    · obtain ⟨c, hc, hj⟩ := v.coded i j m pc
      obtain ⟨taken, ta, tb, -⟩ := v.threads i
      rw [pc] at tb
      have hmem : j ∈ jobs i := by
        rw [ta]
        exact List.mem_append_left _ (tb.subset (by simp [waiting]))
      have : (∀ k, m.mask = some k → k.length = 4) ∧ m.data.length < 2 ^ 32 := by
        unfold codes at hj
        split at hj
        · subst hj; exact ⟨f.mask i j hmem, by simp⟩
        · split at hj
          · obtain ⟨rsv, d, e, rfl⟩ := hj
            exact ⟨f.mask i j hmem, f.coded c hc i j hmem rsv d e⟩
          · subst hj; exact ⟨f.mask i j hmem, f.short i j hmem⟩
      obtain ⟨r, e⟩ := sendManaged_defined m j.fragment this.1 this.2
      rw [e]
      cases r with
      | none => exact ⟨_, rfl⟩
      | some r => exact ⟨_, rfl⟩
  all_goals exact ⟨_, rfl⟩

theorem Inv.exec_defined (f : Safe E P jobs) (g : Good E P good jobs) : ∀ (acts : List Act) {s : Sys C} {l : Log}, Inv E P good jobs s l →
    ∃ s', Verif.WsThreads.exec E s acts = .ok s' := by
  intro acts
  induction acts with
  | nil => intro s l _; exact ⟨s, rfl⟩
  | cons a t ih =>
    intro s l v
    cases a with
    | run i =>
      obtain ⟨s1, e⟩ := v.defined f i
      obtain ⟨l1, -, v1⟩ := v.step g i e
      obtain ⟨s', e'⟩ := ih v1
      exact ⟨s', by simp only [Verif.WsThreads.exec, e, Res.ok_bind]; exact e'⟩
    | lose => exact ih v.lose

/-! ## Progress -/

/-- Actions that frames need at most. -/
def frameWeight (l : List (List Wr)) : Nat := (l.map (fun w => w.length + 1)).sum

def jobWeight (j : Job) : Nat := frameWeight j.writes + 8

def pcWeight : Pc → Nat
  | .ready => 0
  | .called j => frameWeight j.writes + 7
  | .performing j => frameWeight j.writes + 6
  | .coded j _ => frameWeight j.writes + 5
  | .writing _ fr _ => frameWeight (fr.map Prod.snd) + 4
  | .unlocking _ => 3
  | .closing => 2

def weight (t : Thread) : Nat := (t.todo.map jobWeight).sum + pcWeight t.pc

theorem frameWeight_zip (frames : List (List (Option UInt8))) (ws : List (List Wr)) : frameWeight ((frames.zip ws).map Prod.snd) ≤ frameWeight ws := by
  induction frames generalizing ws with
  | nil => simp [frameWeight]
  | cons f t ih =>
    cases ws with
    | nil => simp [frameWeight]
    | cons w ws =>
      have := ih ws
      simp only [frameWeight, List.zip_cons_cons, List.map_cons, List.sum_cons] at *
      omega

/-- A thread that is not waiting for the lock moves on. -/
theorem step_weight (i : Nat) (h : Verif.WsThreads.step E s i = .ok s') (hd : (s.th i).pc ≠ .ready ∨ (s.th i).todo ≠ [])
    (hl : s.lock = none ∨ holds (s.th i).pc = true) : weight (s'.th i) < weight (s.th i) ∧ ∀ k, k ≠ i → s'.th k = s.th k := by
  unfold Verif.WsThreads.step at h
  split at h
  case h_1 pc =>
    split at h
    · rename_i td
      rcases hd with h' | h'
      · exact absurd pc h'
      · exact absurd td h'
    · rename_i j t td
      cases h
      refine ⟨?_, fun k hk => if_neg hk⟩
      simp only [if_pos, weight, td, pc, List.map_cons, List.sum_cons, jobWeight]
      split <;> simp only [pcWeight] <;> omega
  case h_2 j pc =>
    have key : ∀ (s0 : Sys C) p, s0.th = s.th → pcWeight p < frameWeight j.writes + 7 →
        weight ((go s0 i p).th i) < weight (s.th i) ∧ ∀ k, k ≠ i → (go s0 i p).th k = s.th k := by
      intro s0 p h0 hp
      refine ⟨?_, fun k hk => by rw [go_other hk, h0]⟩
      rw [go_self]
      have e : pcWeight (.called j) = frameWeight j.writes + 7 := rfl
      simp only [weight, pc, h0]
      omega
    split at h
    · cases h; exact key _ _ rfl (by simp only [pcWeight]; omega)
    · split at h
      · split at h
        · split at h
          · cases h
          · cases h; exact key _ _ rfl (by simp only [pcWeight]; omega)
        · cases h; exact key _ _ rfl (by simp only [pcWeight]; omega)
      · cases h; exact key _ _ rfl (by simp only [pcWeight]; omega)
  case h_3 j pc =>
    simp only at h
    split at h
    · cases h
      refine ⟨?_, fun k hk => by rw [go_other hk]⟩
      rw [go_self]
      simp only [weight, pc, pcWeight]
      omega
    · cases h
      refine ⟨?_, fun k hk => by rw [go_other hk]⟩
      rw [go_self]
      simp only [weight, pc, pcWeight]
      omega
  case h_4 j m pc =>
    split at h
    · rename_i e
      rcases hl with h' | h'
      · rw [e] at h'; cases h'
      · rw [pc] at h'; cases h'
    · cases hs : sendManaged m j.fragment with
      | ub => rw [hs] at h; cases h
      | ok r =>
        rw [hs] at h
        cases r with
        | none =>
          cases h
          refine ⟨?_, fun k hk => by rw [go_other hk]⟩
          rw [go_self]
          simp only [weight, pc, pcWeight]
          omega
        | some r =>
          cases h
          refine ⟨?_, fun k hk => by rw [go_other hk]⟩
          rw [go_self]
          have := frameWeight_zip r.1 j.writes
          simp only [weight, pc, pcWeight]
          omega
  case h_5 j b f k w t m pc =>
    cases h
    refine ⟨?_, fun k hk => by rw [go_other hk]⟩
    rw [go_self]
    simp only [weight, pc, pcWeight, frameWeight, List.map_cons, List.sum_cons, List.length_cons]
    omega
  case h_6 j x t m hno pc =>
    cases h
    refine ⟨?_, fun k hk => by rw [go_other hk]⟩
    rw [go_self]
    simp only [weight, pc, pcWeight, frameWeight, List.map_cons, List.sum_cons]
    omega
  case h_7 j m pc =>
    cases h
    refine ⟨?_, fun k hk => by rw [go_other hk]⟩
    rw [go_self]
    simp only [weight, pc, pcWeight, frameWeight, List.map_nil, List.sum_nil]
    omega
  case h_8 j pc =>
    cases h
    refine ⟨?_, fun k hk => by rw [go_other hk]⟩
    rw [go_self]
    simp only [weight, pc]
    split <;> simp only [pcWeight] <;> omega
  case h_9 pc =>
    cases h
    refine ⟨?_, fun k hk => by rw [go_other hk]⟩
    rw [go_self]
    simp only [weight, pc, pcWeight]
    omega

def total (s : Sys C) (n : Nat) : Nat := ((List.range n).map (fun i => weight (s.th i))).sum

theorem total_lt {n i : Nat} (hi : i < n) (h : weight (s'.th i) < weight (s.th i)) (ho : ∀ k, k ≠ i → s'.th k = s.th k) : total s' n < total s n := by
  unfold total
  induction n with
  | zero => omega
  | succ n ih =>
    simp only [List.range_succ, List.map_append, List.sum_append, List.map_cons, List.map_nil, List.sum_cons, List.sum_nil]
    by_cases e : i = n
    · subst e
      have : (List.range i).map (fun k => weight (s'.th k)) = (List.range i).map (fun k => weight (s.th k)) := by
        apply List.map_congr_left
        intro k hk
        rw [List.mem_range] at hk
        rw [ho k (by omega)]
      rw [this]; omega
    · have := ih (by omega)
      rw [ho n (Ne.symm e)]
      omega

/-- Nobody is stuck: some order of actions brings all calls to their end. -/
theorem Inv.finish (f : Safe E P jobs) (g : Good E P good jobs) (n : Nat) (hn : ∀ i, n ≤ i → jobs i = []) : ∀ (t : Nat) {s : Sys C} {l : Log},
    Inv E P good jobs s l → (∀ i, n ≤ i → s.th i = ⟨[], .ready⟩) → total s n = t →
    ∃ acts s', Verif.WsThreads.exec E s acts = .ok s' ∧ ∀ i, s'.th i = ⟨[], .ready⟩ := by
  intro t
  induction t using Nat.strongRecOn with
  | _ t ih =>
    intro s l v hr ht
    by_cases hall : ∀ i, s.th i = ⟨[], .ready⟩
    · exact ⟨[], s, rfl, hall⟩
    · have hex : ∃ i, s.th i ≠ ⟨[], .ready⟩ ∧ (s.lock = none ∨ holds (s.th i).pc = true) := by
        cases e : s.lock with
        | none =>
          obtain ⟨i, hi⟩ := Classical.not_forall.1 hall
          exact ⟨i, hi, .inl rfl⟩
        | some i =>
          obtain ⟨⟨l0, x, a, b, H⟩, -⟩ := v.held i e
          exact ⟨i, (by intro h; have := H.holds; rw [h] at this; cases this), .inr H.holds⟩
      obtain ⟨i, hi, hl⟩ := hex
      have hin : i < n := by
        by_cases h : i < n
        · exact h
        · exact absurd (hr i (by omega)) hi
      obtain ⟨s1, e⟩ := v.defined f i
      obtain ⟨l1, -, v1⟩ := v.step g i e
      have hd : (s.th i).pc ≠ .ready ∨ (s.th i).todo ≠ [] := by
        cases h : s.th i with
        | mk todo pc =>
          by_cases h1 : pc = .ready
          · right; intro h2; subst h1; rw [show todo = [] from h2] at h; exact hi h
          · exact .inl h1
      obtain ⟨hw, ho⟩ := step_weight i e hd hl
      have hlt := total_lt (s := s) (s' := s1) hin hw ho
      obtain ⟨acts, s', e', done⟩ := ih (total s1 n) (by omega) v1 (fun k hk => by rw [ho k (by omega)]; exact hr k hk) rfl
      exact ⟨.run i :: acts, s', by simp only [Verif.WsThreads.exec, e, Res.ok_bind]; exact e', done⟩

end Verif.WsThreads
