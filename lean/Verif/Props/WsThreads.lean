import Verif.Lemmas.WsThreads
import Verif.Props.FrameMore
/-!
# C138: messages sent from several threads at the same time

Claim: callbacks, the thread that answers pings and other threads of the program may send on a websocket at the same time. Every message arrives
whole, as it was given, and what is on the wire is what one thread would have sent, calling one after the other, in an order in which the calls of
every thread keep theirs. Every call returns, and nothing is sent behind a close frame.
-/
namespace Verif.Props
open Verif Verif.Ws Verif.WsThreads
open Verif.Spec.Ws hiding Act

/-- Specification: the bytes the message `m` makes on the wire when nobody else sends. -/
def soloBytes (j : Job) (m : OutMsg) : List (Option UInt8) :=
  match sendOn m j.fragment j.writes with
  | .ok (_, b) => b
  | .ub => []

/-- Specification: the message `m` stands for the call `j`: the data of control frames is sent as it is, none with a close frame; for other data
the extensions answered so, in some state of theirs. -/
def StandsFor {C : Type} (E : Coder C) (j : Job) (m : OutMsg) : Prop :=
  m.opcode = j.op ∧ m.mask = j.mask ∧
    (j.op = 8 → m.data = [] ∧ m.rsv = 0) ∧
    (j.op ≠ 1 → j.op ≠ 2 → j.op ≠ 8 → m.data = j.data ∧ m.rsv = 0) ∧
    (j.op = 1 ∨ j.op = 2 → ∃ c, (E.perform c j.op j.data).2 = some (m.rsv, m.data))

/-- Specification: no thread is in a call. -/
def AtRest {C : Type} (s : Sys C) : Prop := ∀ i, (s.th i).pc = .ready

/-- Specification: all calls have been made. -/
def AllDone {C : Type} (s : Sys C) : Prop := ∀ i, s.th i = ⟨[], .ready⟩

/-- Specification: the calls of thread `i` in an order of calls. -/
def callsBy {α : Type} (l : List (Nat × α)) (i : Nat) : List α := (l.filter (fun x => x.1 == i)).map (fun x => x.2)

private theorem stands {C : Type} {E : Coder C} {c : C} {j : Job} {m : OutMsg} (h : codes E c j m) : StandsFor E j m := by
  unfold codes at h
  split at h
  · rename_i e
    subst h
    exact ⟨e.symm, rfl, fun _ => ⟨rfl, rfl⟩, fun _ _ n => absurd e n, fun o => by rcases o with o | o <;> rw [o] at e <;> cases e⟩
  · rename_i e
    split at h
    · rename_i o
      obtain ⟨rsv, d, hp, rfl⟩ := h
      exact ⟨rfl, rfl, fun n => absurd n e, fun n1 n2 _ => absurd o (fun o => o.elim n1 n2), fun _ => ⟨c, hp⟩⟩
    · rename_i o
      subst h
      exact ⟨rfl, rfl, fun n => absurd n e, fun _ _ _ => ⟨rfl, rfl⟩, fun n => absurd n o⟩

private theorem rest_free {C : Type} {E : Coder C} {P : C → Prop} {good : Prop} {jobs : Nat → List Job} {s : Sys C} {l : Log}
    (v : Inv E P good jobs s l) (h : AtRest s) : s.lock = none := by
  cases e : s.lock with
  | none => rfl
  | some i =>
    obtain ⟨⟨l0, x, -, -, H⟩, -⟩ := v.held i e
    have := H.holds
    rw [h i] at this
    cases this

private theorem wire_prefix {C : Type} {E : Coder C} {P : C → Prop} {good : Prop} {jobs : Nat → List Job} {s : Sys C} {l : Log}
    (v : Inv E P good jobs s l) : s.wire <+: wireOf l := by
  cases e : s.lock with
  | none => rw [(v.free e).1]; exact List.prefix_refl _
  | some i =>
    obtain ⟨⟨l0, x, a, -, H⟩, -⟩ := v.held i e
    rw [a]
    cases h : (s.th i).pc with
    | writing j fr m =>
      rw [h] at H
      cases H with
      | writing fr m' k w hk => rw [← w]; exact List.prefix_append _ _
    | unlocking j =>
      rw [h] at H
      cases H with
      | unlocking w hk => rw [← w]; exact List.prefix_refl _
    | _ => rw [h] at H; cases H

/-- **C138**, messages are whole: whatever the threads, the extensions, the socket and the order of actions, what is on the wire is a sequence of
whole messages, the last one maybe not finished, in an order in which the calls of each thread keep theirs; at rest all are finished and the
messages kept are these, in this order. -/
theorem C138_whole {C : Type} (E : Coder C) (c : C) (jobs : Nat → List Job) (acts : List Act) (s : Sys C)
    (h : exec E (start c jobs) acts = .ok s) :
    ∃ l : List (Nat × Job × OutMsg), (∀ i, ((callsBy l i).map Prod.fst).Sublist (jobs i)) ∧ (∀ x ∈ l, StandsFor E x.2.1 x.2.2) ∧
      s.wire <+: (l.map (fun x => soloBytes x.2.1 x.2.2)).flatten ∧
      (AtRest s → s.wire = (l.map (fun x => soloBytes x.2.1 x.2.2)).flatten ∧
        s.kept.map OutMsg.data = (l.filter (fun x => sendable x.2.2.opcode)).map (fun x => x.2.2.data)) := by
  obtain ⟨l, v⟩ := Inv.exec (P := fun _ => True) (good := False) ⟨fun _ _ _ _ => trivial, fun g => g.elim⟩ acts (inv_start trivial) h
  refine ⟨l, fun i => ?_, fun x hx => ?_, wire_prefix v, fun hr => ?_⟩
  · obtain ⟨t, a, b, -⟩ := v.threads i
    have : (callsBy l i).map Prod.fst = logOf l i := by simp [callsBy, logOf]
    rw [this, a]
    exact ((List.sublist_append_left _ _).trans b).trans (List.sublist_append_left _ _)
  · obtain ⟨⟨c, -, hc⟩, -⟩ := v.made x hx
    exact stands hc
  · obtain ⟨a, b, -⟩ := v.free (rest_free v hr)
    refine ⟨a, ?_⟩
    rw [b]
    have hm := v.made
    clear a b v
    induction l with
    | nil => rfl
    | cons x t ih =>
      have ih := ih (fun y hy => hm y (List.mem_cons_of_mem _ hy))
      obtain ⟨-, r, e⟩ := hm x List.mem_cons_self
      unfold keptOf at ih ⊢
      by_cases hs : sendable x.2.2.opcode = true
      · rw [List.filter_cons_of_pos (by exact hs)]
        cases r with
        | none => exact absurd ((C44_opcodes _ _).1 e) (fun h => h (by simpa [sendable, or_assoc] using hs))
        | some r =>
          have hk : keptMsg x.2.1 x.2.2 = some r.2 := by simp only [keptMsg, e]
          rw [List.filterMap_cons, hk]; simp only [List.map_cons]; rw [ih, (C73_outgoing_partial _ _ _ _ e).1]
      · rw [List.filter_cons_of_neg (by exact hs)]
        have hk : keptMsg x.2.1 x.2.2 = none := by simp only [keptMsg, sendManaged, if_neg hs]
        rw [List.filterMap_cons, hk]; exact ih

/-- Specification: extensions without context. -/
def contextFree (exts : List Ws.Ext) : Coder Unit := ⟨false, fun c op d => (c, applyOut op exts 0 d)⟩

/-- Specification: what the call `j` puts on the wire and what it keeps, when nobody else sends. -/
def soloCall (exts : List Ws.Ext) (j : Job) : List (Option UInt8) × Option OutMsg :=
  match sendFragmented exts j.op j.mask j.data j.fragment with
  | .ok (some (frames, m)) => ((List.zipWith sendFrame j.writes frames).flatten, some m)
  | _ => ([], none)

/-- Specification: calls for other messages than close, that the extensions take. -/
def Ordinary (exts : List Ws.Ext) (j : Job) : Prop := j.op ≠ 8 ∧ (j.op = 1 ∨ j.op = 2 → applyOut j.op exts 0 j.data ≠ none)

private theorem solo {exts : List Ws.Ext} {j : Job} {m : OutMsg} {c : Unit} (ho : Ordinary exts j) (h : codes (contextFree exts) c j m)
    (hd : ∃ r, sendManaged m j.fragment = .ok r) : soloCall exts j = (sentBytes j m, keptMsg j m) := by
  obtain ⟨r, hr⟩ := hd
  have e : sendFragmented exts j.op j.mask j.data j.fragment = sendManaged m j.fragment := by
    unfold codes at h
    rw [if_neg ho.1] at h
    unfold sendFragmented
    by_cases o : j.op = 1 ∨ j.op = 2
    · rw [if_pos o] at h
      obtain ⟨rsv, d, hp, rfl⟩ := h
      simp only [contextFree] at hp
      rw [if_pos o.symm, hp]
    · rw [if_neg o] at h
      subst h
      rw [if_neg (fun h => o h.symm)]
  unfold soloCall sentBytes keptMsg sendOn
  rw [e, hr]
  cases r with
  | none => rfl
  | some r => rfl

private theorem safe_good (exts : List Ws.Ext) (jobs : Nat → List Job) (ho : ∀ i, ∀ j ∈ jobs i, Ordinary exts j) :
    Good (contextFree exts) (fun _ => True) True jobs :=
  ⟨fun _ _ _ _ => trivial, fun _ _ i j _ hj o => (ho i j hj).2 o⟩

/-- **C138**, as if by one thread (partial): extensions without context, no close frames. When all calls are made and the connection holds, there is
an order of all calls, keeping the order of each thread, such that the wire and the kept messages are those of one call after the other. Missing:
extensions with context and close frames, for which it is false. -/
theorem C138_serial_partial (exts : List Ws.Ext) (jobs : Nat → List Job) (ho : ∀ i, ∀ j ∈ jobs i, Ordinary exts j) (acts : List Act) (s : Sys Unit)
    (h : exec (contextFree exts) (start () jobs) acts = .ok s) (hd : AllDone s) (hc : s.connected = true) :
    ∃ l : List (Nat × Job), (∀ i, callsBy l i = jobs i) ∧ s.wire = (l.map (fun x => (soloCall exts x.2).1)).flatten ∧
      s.kept = l.filterMap (fun x => (soloCall exts x.2).2) := by
  obtain ⟨l, v⟩ := Inv.exec (safe_good exts jobs ho) acts (inv_start trivial) h
  have hj : ∀ i, logOf l i = jobs i := by
    intro i
    obtain ⟨t, a, -, c⟩ := v.threads i
    have c := c trivial hc
    rw [hd i] at a c
    simp only [waiting, List.append_nil] at a c
    rw [a, c]
  have hs : ∀ x ∈ l, soloCall exts x.2.1 = (sentBytes x.2.1 x.2.2, keptMsg x.2.1 x.2.2) := by
    intro x hx
    obtain ⟨⟨c, -, hc⟩, hr⟩ := v.made x hx
    refine solo (ho x.1 x.2.1 ?_) hc hr
    rw [← hj]
    simp only [logOf, List.mem_map, List.mem_filter, beq_iff_eq]
    exact ⟨x, ⟨hx, rfl⟩, rfl⟩
  obtain ⟨a, b, -⟩ := v.free (rest_free v (fun i => by rw [hd i]))
  refine ⟨l.map (fun x => (x.1, x.2.1)), fun i => ?_, ?_, ?_⟩
  · rw [← hj]
    simp only [callsBy, logOf, List.filter_map, List.map_map]
    rfl
  · rw [a, wireOf, List.map_map]
    congr 1
    apply List.map_congr_left
    intro x hx
    simp only [Function.comp, hs x hx]
  · rw [b, keptOf, List.filterMap_map]
    clear a b hj v h hd hc
    induction l with
    | nil => rfl
    | cons x t ih =>
      have ih := ih (fun y hy => hs y (List.mem_cons_of_mem _ hy))
      simp only [List.filterMap_cons, Function.comp, hs x List.mem_cons_self]
      rw [ih]

/-- Specification: masks have four bytes and data less than 4 GiB. -/
def Modest (j : Job) : Prop := (∀ k, j.mask = some k → k.length = 4) ∧ j.data.length < 2 ^ 32

/-- Specification: these extensions make less than 4 GiB of data. -/
def Small (exts : List Ws.Ext) (j : Job) : Prop := ∀ rsv d, applyOut j.op exts 0 j.data = some (rsv, d) → d.length < 2 ^ 32

private theorem step_other {C : Type} {E : Coder C} {s s' : Sys C} {i k : Nat} (hk : k ≠ i) (h : step E s i = .ok s') : s'.th k = s.th k := by
  unfold step at h
  split at h
  · split at h
    · cases h; rfl
    · cases h; exact if_neg hk
  · split at h
    · cases h; exact go_other hk
    · split at h
      · split at h
        · split at h
          · cases h
          · cases h; exact go_other hk
        · cases h; exact go_other hk
      · cases h; exact go_other hk
  · simp only at h
    split at h
    · cases h; exact go_other hk
    · cases h; exact go_other hk
  · rename_i j m _
    split at h
    · cases h; rfl
    · cases e : sendManaged m j.fragment with
      | ub => rw [e] at h; cases h
      | ok r =>
        rw [e] at h
        cases r with
        | none => cases h; exact go_other hk
        | some r => cases h; exact go_other hk
  all_goals (cases h; exact go_other hk)

private theorem step_idle {C : Type} {E : Coder C} {s s' : Sys C} {i k : Nat} (h : step E s i = .ok s') (hk : s.th k = ⟨[], .ready⟩) :
    s'.th k = ⟨[], .ready⟩ := by
  by_cases e : k = i
  · subst e
    have : step E s k = .ok s := by unfold step; rw [hk]
    rw [this] at h
    cases h
    exact hk
  · rw [step_other e h, hk]

private theorem exec_idle {C : Type} {E : Coder C} {k : Nat} : ∀ (acts : List Act) {s s' : Sys C}, exec E s acts = .ok s' → s.th k = ⟨[], .ready⟩ →
    s'.th k = ⟨[], .ready⟩
  | [], s, s', h, hk => by cases h; exact hk
  | .run i :: t, s, s', h, hk => by
    unfold exec at h
    cases e : step E s i with
    | ub => rw [e] at h; cases h
    | ok s1 => rw [e] at h; exact exec_idle t h (step_idle e hk)
  | .lose :: t, s, s', h, hk => exec_idle t (s := { s with connected := false }) h hk

private theorem safe_free (exts : List Ws.Ext) (jobs : Nat → List Job) (hm : ∀ i, ∀ j ∈ jobs i, Modest j ∧ Small exts j) :
    Safe (contextFree exts) (fun _ => True) jobs :=
  ⟨rfl, fun i j hj => (hm i j hj).1.1, fun i j hj => (hm i j hj).1.2, fun _ _ i j hj => (hm i j hj).2⟩

/-- **C138**, every call returns (partial): with extensions without context nothing is undefined, and from every state some order of actions brings
all calls to an end: nobody holds the lock for ever, nobody waits for ever. Missing: extensions with context, for which it is undefined. -/
theorem C138_returns_partial (exts : List Ws.Ext) (jobs : Nat → List Job) (n : Nat) (hn : ∀ i, n ≤ i → jobs i = [])
    (hm : ∀ i, ∀ j ∈ jobs i, Modest j ∧ Small exts j) (acts : List Act) :
    ∃ s, exec (contextFree exts) (start () jobs) acts = .ok s ∧
      ∃ more s', exec (contextFree exts) s more = .ok s' ∧ AllDone s' := by
  have g : Good (contextFree exts) (fun _ => True) False jobs := ⟨fun _ _ _ _ => trivial, fun g => g.elim⟩
  have f := safe_free exts jobs hm
  obtain ⟨s, e⟩ := Inv.exec_defined f g acts (inv_start (c := ()) trivial)
  obtain ⟨l, v⟩ := Inv.exec g acts (inv_start trivial) e
  refine ⟨s, e, ?_⟩
  refine Inv.finish f g n hn _ v (fun i hi => exec_idle acts e ?_) rfl
  simp only [start, hn i hi]

private def look {C : Type} : Res (Sys C) → Option (Bool × Thread × Thread × List (Option UInt8))
  | .ok s => some (s.connected, s.th 0, s.th 1, s.wire)
  | .ub => none

private theorem looked {C : Type} {r : Res (Sys C)} {v : Bool × Thread × Thread × List (Option UInt8)} (h : look r = some v) :
    ∃ s, r = .ok s ∧ s.connected = v.1 ∧ s.th 0 = v.2.1 ∧ s.th 1 = v.2.2.1 ∧ s.wire = v.2.2.2 := by
  cases r with
  | ub => cases h
  | ok s => cases h; exact ⟨s, rfl, rfl, rfl, rfl, rfl⟩

/-- Two threads, the first with two calls. -/
private def pairJobs : Nat → List Job := fun i =>
  if i = 0 then [⟨1, b!"ab", 0, none, [[.sent 1, .sent 9]]⟩, ⟨9, b!"p", 0, none, [[.sent 9]]⟩] else if i = 1 then [⟨2, b!"xyz", 0, none, [[.sent 2, .sent 9]]⟩] else []

/-- The second thread waits for the lock until the first message is whole; a ping goes out in the end. -/
private def pairActs : List Act :=
  [.run 0, .run 1, .run 1, .run 1, .run 0, .run 0, .run 1, .run 1, .run 0, .run 1, .run 1, .run 0, .run 1, .run 1, .run 0, .run 0, .run 0, .run 0, .run 0, .run 0, .run 0] ++
    List.replicate 6 (.run 0)

example : look (exec (contextFree []) (start () pairJobs) pairActs) =
    some (true, ⟨[], .ready⟩, ⟨[], .ready⟩, ([0x82, 3, 0x78, 0x79, 0x7a, 0x81, 2, 0x61, 0x62, 0x89, 1, 0x70] : Bytes).map some) := by
  decide +kernel

example : ∀ i, ∀ j ∈ pairJobs i, Ordinary [] j ∧ Modest j ∧ Small [] j := by
  have key : ∀ j : Job, j.op ≠ 8 → j.mask = none → j.data.length < 9 → Ordinary [] j ∧ Modest j ∧ Small [] j := by
    intro j h1 h2 h3
    refine ⟨⟨h1, fun _ h => by cases h⟩, ⟨fun k h => by (rw [h2] at h; cases h), by omega⟩, fun rsv d h => ?_⟩
    simp only [applyOut, Option.some.injEq, Prod.mk.injEq] at h
    rw [← h.2]
    omega
  intro i j hj
  have h : j.op ≠ 8 ∧ j.mask = none ∧ j.data.length < 9 := by
    unfold pairJobs at hj
    split at hj
    · rcases List.mem_cons.1 hj with rfl | hj
      · decide
      · rw [List.mem_singleton.1 hj]; decide
    · split at hj
      · rw [List.mem_singleton.1 hj]; decide
      · cases hj
  exact key j h.1 h.2.1 h.2.2

/-- Specification: a text or binary message of less than 4 GiB, in one frame, masked if the receiver is a server, that the socket takes in the
end. -/
def SentWhole (c : Cfg) (j : Job) : Prop :=
  (j.op = 1 ∨ j.op = 2) ∧ (j.op = 1 → Spec.Utf8.IsUtf8 j.data) ∧ Modest j ∧ (j.fragment = 0 ∨ j.data.length ≤ j.fragment) ∧ c.server = j.mask.isSome ∧
    ∃ ks : List Nat, j.writes = [ks.map .sent] ∧ j.data.length + 14 ≤ ks.sum

private theorem be_length : ∀ k n, (Spec.Ws.be k n).length = k
  | 0, _ => rfl
  | k + 1, n => by simp only [Spec.Ws.be, List.length_cons, be_length k n]

private theorem wire_length (m : OutMsg) (h : ∀ k, m.mask = some k → k.length = 4) : (wire (wholeFrame m)).length ≤ m.data.length + 14 := by
  have h1 : (lengthField m.mask.isSome m.data.length).length ≤ 9 := by
    unfold lengthField
    simp only
    split
    · exact Nat.le_of_ble_eq_true rfl
    · split
      · simp only [List.length_cons, be_length]; omega
      · simp only [List.length_cons, be_length]; omega
  have h2 : (body m.mask m.data).length ≤ m.data.length + 4 := by
    cases e : m.mask with
    | none => simp [body]
    | some k => simp only [body, List.length_append, masked_length k m.data (h k e), h k e]; omega
  simp only [wire, wholeFrame, List.length_cons, List.length_append]
  omega

private theorem sent_solo {c : Cfg} {j : Job} (h : SentWhole c j) :
    ∃ b : Bytes, (soloCall [] j).1 = b.map some ∧ (Plain c → ∀ evs rest, bytesOf evs = b ++ rest →
      run c none none evs = .deliver j.op 0 j.data :: run c none none [.seg rest]) := by
  obtain ⟨ho, hu, ⟨hm, hn⟩, hf, hs, ks, hw, hk⟩ := h
  let m : OutMsg := ⟨j.op, 0, j.mask, j.data⟩
  have hsend : Sendable m := ⟨by rcases ho with e | e <;> simp [m, e], show (0 : UInt8) &&& 0x8f = 0 by decide, hm⟩
  obtain ⟨m1, e1⟩ := C44_rfc_partial m hsend (Nat.lt_trans hn (by decide)) (fun _ => hn) j.fragment hf
  have e : sendFragmented [] j.op j.mask j.data j.fragment = sendManaged m j.fragment := by
    unfold sendFragmented
    rw [if_pos ho.symm]
    rfl
  refine ⟨wire (wholeFrame m), ?_, fun hp => ?_⟩
  · unfold soloCall
    rw [e, e1]
    simp only [hw, List.zipWith_cons_cons, List.zipWith_nil_left, List.flatten_cons, List.flatten_nil, List.append_nil]
    apply C74_progress_partial
    have := wire_length m hm
    rw [List.length_map]
    exact Nat.le_trans this hk
  · obtain ⟨b, m2, e2, r⟩ := C45_one_frame_partial m hsend ho rfl hu hn j.fragment hf c hp hs
    rw [e1] at e2
    have hb : (wire (wholeFrame m)).map some = b.map some := by
      injection e2 with e2; injection e2 with e2; injection e2 with e2 _; injection e2
    have hb : wire (wholeFrame m) = b := (List.map_inj_right (fun _ _ h => Option.some.inj h)).1 hb
    rw [hb]
    exact r

/-- **C138**, what the peer gets (partial): no extensions, text and binary messages in one frame each, all bytes taken by the socket. However the
threads interleave and however the bytes are cut on their way, the peer delivers exactly the messages of all calls, each as it was given, in an
order in which the calls of each thread keep theirs. Missing: fragmented messages, which the receiver cannot put together if control frames come
between them (C45), extensions and close frames. -/
theorem C138_delivered_partial (c : Cfg) (hc : Plain c) (jobs : Nat → List Job) (hj : ∀ i, ∀ j ∈ jobs i, SentWhole c j) (acts : List Act) (s : Sys Unit)
    (h : exec (contextFree []) (start () jobs) acts = .ok s) (hd : AllDone s) (hcon : s.connected = true) (evs : List Ev)
    (hev : (bytesOf evs).map some = s.wire) :
    ∃ l : List (Nat × Job), (∀ i, callsBy l i = jobs i) ∧ run c none none evs = l.map (fun x => .deliver x.2.op 0 x.2.data) := by
  obtain ⟨l, hl, hw, -⟩ := C138_serial_partial [] jobs
    (fun i j hm => ⟨by rcases (hj i j hm).1 with e | e <;> rw [e] <;> decide, fun _ h => by cases h⟩) acts s h hd hcon
  refine ⟨l, hl, ?_⟩
  have hall : ∀ x ∈ l, SentWhole c x.2 := by
    intro x hx
    refine hj x.1 x.2 ?_
    rw [← hl]
    simp only [callsBy, List.mem_map, List.mem_filter, beq_iff_eq]
    exact ⟨x, ⟨hx, rfl⟩, rfl⟩
  rw [hw] at hev
  clear hw hl h hd hcon hj
  induction l generalizing evs with
  | nil =>
    have hb : bytesOf evs = [] := by simpa using hev
    rw [run_eq, hb]
    simp [run]
  | cons x t ih =>
    obtain ⟨b, e, r⟩ := sent_solo (hall x List.mem_cons_self)
    simp only [List.map_cons, List.flatten_cons, e] at hev
    obtain ⟨b1, b2, hb, h1, h2⟩ := List.map_eq_append_iff.1 hev
    have h1 : b1 = b := (List.map_inj_right (fun _ _ h => Option.some.inj h)).1 h1
    subst h1
    rw [r hc evs b2 hb, ih [.seg b2] (by simpa [bytesOf] using h2) (fun y hy => hall y (List.mem_cons_of_mem _ hy))]
    rfl

example : SentWhole {} ⟨1, b!"ab", 0, some [1, 2, 3, 4], [[.sent 1, .sent 40]]⟩ ∧ Plain {} :=
  ⟨⟨.inl rfl, fun _ => ⟨['a', 'b'], by decide +kernel⟩, ⟨fun k h => by (cases h; rfl), by decide⟩, .inl rfl, rfl, [1, 40], rfl, by decide⟩, ⟨fun _ => rfl, rfl⟩⟩

/-- **C138**, two messages in the extensions at once: with an extension that has a context the calls of two threads are a data race. -/
theorem C138_race_false : exec (⟨true, fun c _ d => (c, some (0x40, d))⟩ : Coder UInt8)
    (start 0 (fun i => if i < 2 then [⟨1, b!"a", 0, none, [[.sent 9]]⟩] else [])) [.run 0, .run 0, .run 1, .run 1] = .ub := rfl

/-- Specification: the wire when one thread makes the calls one after the other, with extensions in the context `c`. -/
def oneAfterOther {C : Type} (E : Coder C) : C → List Job → List (Option UInt8)
  | _, [] => []
  | c, j :: t =>
    match E.perform c j.op j.data with
    | (c', some (rsv, d)) => soloBytes j ⟨j.op, rsv, j.mask, d⟩ ++ oneAfterOther E c' t
    | (c', none) => oneAfterOther E c' t

/-- An extension that numbers the messages, for instance to find lost ones. -/
private def numbering : Coder UInt8 := ⟨true, fun c _ d => (c + 1, some (0x40, c :: d))⟩

private def numbered : Nat → List Job := fun i => if i < 2 then [⟨1, b!"a", 0, none, [[.sent 9]]⟩] else []

/-- **C138**, the order of messages with an extension that has a context: even if its calls do not overlap, the messages can go out in another order
than they came out of the extension, as no single thread would have sent them. -/
theorem C138_order_false : ∃ acts s, exec numbering (start 0 numbered) acts = .ok s ∧ (∀ i, i < 2 → s.th i = ⟨[], .ready⟩) ∧ s.connected = true ∧
    ∀ l : List (Nat × Job), (∀ i, callsBy l i = numbered i) → s.wire ≠ oneAfterOther numbering 0 (l.map Prod.snd) := by
  obtain ⟨s, e, h1, h2, h3, h4⟩ := looked (C := UInt8) (r := exec numbering (start 0 numbered)
      [.run 0, .run 0, .run 0, .run 1, .run 1, .run 1, .run 1, .run 1, .run 1, .run 1, .run 1, .run 0, .run 0, .run 0, .run 0, .run 0])
    (v := (true, ⟨[], .ready⟩, ⟨[], .ready⟩, ([0xc1, 2, 1, 0x61, 0xc1, 2, 0, 0x61] : Bytes).map some)) (by decide +kernel)
  refine ⟨_, s, e, ?_, h1, ?_⟩
  · intro i hi
    match i, hi with
    | 0, _ => exact h2
    | 1, _ => exact h3
  · intro l hl he
    rw [h4] at he
    cases l with
    | nil => revert he; decide
    | cons x t =>
      have hx : x.2 = ⟨1, b!"a", 0, none, [[.sent 9]]⟩ := by
        have : x.2 ∈ numbered x.1 := by
          rw [← hl]
          simp only [callsBy, List.mem_map, List.mem_filter, beq_iff_eq]
          exact ⟨x, ⟨List.mem_cons_self, rfl⟩, rfl⟩
        unfold numbered at this
        split at this
        · exact List.mem_singleton.1 this
        · cases this
      have h2 := congrArg (fun w => w[2]?) he
      simp only [List.map_cons, hx, oneAfterOther, numbering] at h2
      revert h2
      rw [List.getElem?_append_left (by decide +kernel)]
      decide +kernel

/-- **C138**, behind a close frame: a thread that found the websocket connected sends its data behind the close frame of another thread. -/
theorem C138_close_false : ∃ jobs acts s, jobs 0 = [⟨8, [], 0, none, [[.sent 9]]⟩] ∧ jobs 1 = [⟨1, b!"a", 0, none, [[.sent 9]]⟩] ∧
    (∀ i, 1 < i → jobs i = []) ∧ exec (contextFree []) (start () jobs) acts = .ok s ∧ s.connected = false ∧
    s.wire = ([0x88, 0, 0x81, 1, 0x61] : Bytes).map some := by
  let jobs : Nat → List Job := fun i =>
    if i = 0 then [⟨8, [], 0, none, [[.sent 9]]⟩] else if i = 1 then [⟨1, b!"a", 0, none, [[.sent 9]]⟩] else []
  obtain ⟨s, e, h1, h2, h3, h4⟩ := looked (C := Unit) (r := exec (contextFree []) (start () jobs)
      [.run 1, .run 0, .run 0, .run 0, .run 0, .run 0, .run 0, .run 0, .run 0, .run 1, .run 1, .run 1, .run 1, .run 1, .run 1, .run 1, .run 1])
    (v := (false, ⟨[], .ready⟩, ⟨[], .ready⟩, ([0x88, 0, 0x81, 1, 0x61] : Bytes).map some)) (by decide +kernel)
  exact ⟨jobs, _, s, rfl, rfl, fun i hi => by
    match i, hi with
    | _ + 2, _ => rfl, e, h1, h4⟩

end Verif.Props
