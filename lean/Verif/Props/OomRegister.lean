import Verif.Model.OomRegister
/-!
# C198: registering a websocket and its extensions when memory runs out

Full statement: whatever allocations fail in the calls of a program that makes its response a websocket and adds extensions to it, or to the handler of
a client, no call does anything undefined, what is registered is what the calls asked for that returned `U_OK`, and cleaning the response is defined and
frees everything.

False of the code in several ways. Without memory for the extensions `ulfius_set_websocket_response` frees the protocol and keeps its address
(`C198_twice_false`). Without memory for the protocol the callbacks of an earlier call stay, without their protocol (`C198_forgets_false`). An extension
whose name could not be copied is registered with `U_OK` (`C198_name_false`). An extension that cannot be appended to the list stays allocated
(`C198_leak_false`). A websocket of a client that could not be initialised stays in the handler, and the next call follows a NULL pointer
(`C198_client_false`). The context of an extension of a client is not initialised (`C198_context_false`).
-/
namespace Verif.Props
open Verif.OomRegister

/-- Specification: what a program has registered. -/
structure RegisteredWs where
  protocol : Option Bytes := none
  extensions : Option Bytes := none
  callbacks : Calls := {}
  exts : List Args := []

/-- Specification: the arguments of an extension are acceptable: a name, something to do, one of the three reserved bits. -/
def AcceptableExt (a : Args) : Prop :=
  (∃ n, a.name = some n ∧ n ≠ []) ∧ (a.out ≠ none ∨ a.inn ≠ none) ∧ (a.rsv = 0x40 ∨ a.rsv = 0x20 ∨ a.rsv = 0x10)

/-- Specification: one call, the code it returns, and what is registered after it. Without memory nothing changes. -/
inductive Does : RegisteredWs → Op → Code → RegisteredWs → Prop
  | set (r m p e c) (hc : c.manager ≠ none ∨ c.incoming ≠ none) (hp : m.protocol = true ∨ p = none) (he : m.extensions = true ∨ e = none) :
      Does r (.set m p e c) .ok { r with protocol := p, extensions := e, callbacks := c }
  | setProtocol (r m p e c) (hc : c.manager ≠ none ∨ c.incoming ≠ none) (hp : m.protocol = false) (h : p ≠ none) (hr : r.protocol = none) :
      Does r (.set m p e c) .memory r
  | setParams (r m p e c) (hc : c.manager = none ∧ c.incoming = none) : Does r (.set m p e c) .params r
  | add (r m a) (ha : AcceptableExt a) (hb : m.box = true) (hn : m.name = true) (hl : m.append = true) :
      Does r (.add m a) .ok { r with exts := r.exts ++ [a] }
  | addMemory (r m a) (ha : AcceptableExt a) (hb : m.box = false) : Does r (.add m a) .memory r
  | addParams (r m a) (ha : ¬ AcceptableExt a) : Does r (.add m a) .params r

/-- Specification: the calls of a program. -/
inductive DoesAll : RegisteredWs → List Op → List Code → RegisteredWs → Prop
  | nil (r) : DoesAll r [] [] r
  | cons {r o c r1 t cs r2} (h : Does r o c r1) (ht : DoesAll r1 t cs r2) : DoesAll r (o :: t) (c :: cs) r2

/-- Specification: an extension as asked for, not in use yet, with that context. -/
def asAsked (context : Context) (a : Args) : Ext :=
  { name := a.name, rsv := a.rsv, out := a.out, inn := a.inn, matcher := a.matcher, freeContext := a.freeContext, context, enabled := false }

/-- Specification: the response holds what is registered. -/
def HoldsWs (r : RegisteredWs) (h : Handle) : Prop :=
  (h.protocol = match r.protocol with | some b => .text b | none => .null) ∧
  (h.extensions = match r.extensions with | some b => .text b | none => .null) ∧
  h.calls = r.callbacks ∧ h.exts = r.exts.map (asAsked .null)

namespace OomRegisterHelp

theorem valid_iff (a : Args) : valid a = true ↔ AcceptableExt a := by
  unfold valid AcceptableExt
  obtain ⟨n, v, o, i, _, _⟩ := a
  simp only [Bool.and_eq_true, Bool.or_eq_true, beq_iff_eq, bne_iff_ne, ne_eq, Option.isSome_iff_ne_none]
  constructor
  · rintro ⟨⟨h1, h2⟩, h3⟩
    refine ⟨?_, h2, by rcases h3 with (h | h) | h <;> simp [h]⟩
    cases n with
    | none => exact absurd rfl h1
    | some n => exact ⟨n, rfl, h1⟩
  · rintro ⟨⟨n, rfl, h1⟩, h2, h3⟩
    exact ⟨⟨h1, h2⟩, by rcases h3 with h | h | h <;> simp [h]⟩

theorem free_text (p : Option Bytes) : free (match p with | some b => .text b | none => .null) = .ok () := by
  cases p <;> rfl

theorem dup_text {ok : Bool} {p : Option Bytes} (h : ok = true ∨ p = none) :
    dup ok p = dup true p ∧ ¬ (dup ok p = .null ∧ p.isSome = true) := by
  cases p with
  | none => exact ⟨rfl, by simp⟩
  | some b =>
    rcases h with rfl | h
    · exact ⟨rfl, by simp [dup]⟩
    · cases h

theorem calls_guard {c : Calls} (h : c.manager ≠ none ∨ c.incoming ≠ none) : (c.manager.isSome || c.incoming.isSome) = true := by
  simpa [Option.isSome_iff_ne_none] using h

theorem call_holds {r r1 : RegisteredWs} {o : Op} {c : Code} {h : Handle} (hd : Does r o c r1) (hh : HoldsWs r h) :
    ∃ h1, call h o = .ok (c, h1) ∧ HoldsWs r1 h1 ∧ h1.lost = h.lost := by
  obtain ⟨h1, h2, h3, h4⟩ := hh
  cases hd with
  | set m p e c hc hp he =>
    simp only [call, setResponse]
    rw [if_pos (calls_guard hc), h1, free_text, Res.ok_bind, if_neg (dup_text hp).2, h2, free_text, Res.ok_bind, if_neg (dup_text he).2]
    refine ⟨_, rfl, ⟨?_, ?_, rfl, h4⟩, rfl⟩
    · dsimp only
      rw [(dup_text hp).1]; cases p <;> rfl
    · dsimp only
      rw [(dup_text he).1]; cases e <;> rfl
  | setProtocol m p e c hc hp hn hr =>
    simp only [call, setResponse]
    rw [if_pos (calls_guard hc), h1, free_text, Res.ok_bind]
    cases p with
    | none => exact absurd rfl hn
    | some b =>
      rw [hp, if_pos ⟨rfl, rfl⟩]
      refine ⟨_, rfl, ⟨?_, h2, h3, h4⟩, rfl⟩
      rw [hr]
      rfl
  | setParams m p e c hc =>
    simp only [call, setResponse]
    rw [if_neg (by simp [hc.1, hc.2])]
    exact ⟨_, rfl, ⟨h1, h2, h3, h4⟩, rfl⟩
  | add m a ha hb hn hl =>
    simp only [call, addExt, newExt, hb, hn, hl, (valid_iff a).2 ha, if_true]
    refine ⟨_, rfl, ⟨h1, h2, h3, ?_⟩, rfl⟩
    simp only [h4, List.map_append, List.map_cons, List.map_nil, asAsked]
  | addMemory m a ha hb =>
    simp only [call, addExt, hb, (valid_iff a).2 ha, if_true]
    exact ⟨_, rfl, ⟨h1, h2, h3, h4⟩, rfl⟩
  | addParams m a ha =>
    have : valid a = false := by
      rw [← Bool.not_eq_true, valid_iff]; exact ha
    simp only [call, addExt, this]
    exact ⟨_, rfl, ⟨h1, h2, h3, h4⟩, rfl⟩

theorem calls_holds {r r1 : RegisteredWs} {l : List Op} {cs : List Code} (hd : DoesAll r l cs r1) : ∀ {h : Handle}, HoldsWs r h →
    ∃ h1, calls h l = .ok (cs, h1) ∧ HoldsWs r1 h1 ∧ h1.lost = h.lost := by
  induction hd with
  | nil r => intro h hh; exact ⟨h, rfl, hh, rfl⟩
  | cons hd ht ih =>
    intro h hh
    obtain ⟨h1, e1, hh1, l1⟩ := call_holds hd hh
    obtain ⟨h2, e2, hh2, l2⟩ := ih hh1
    refine ⟨h2, ?_, hh2, l2.trans l1⟩
    rw [calls, e1, Res.ok_bind]
    dsimp only
    rw [e2]
    rfl

end OomRegisterHelp

open OomRegisterHelp

/-- **C198** (partial), server: any sequence of calls in which fail only the block of a new extension, and the protocol while there is none. Missing:
failures of the other allocations, for which it is false (below). -/
theorem C198_server_partial (l : List Op) (cs : List Code) (r : RegisteredWs) (h : DoesAll {} l cs r) :
    ∃ k, calls {} l = .ok (cs, k) ∧ HoldsWs r k ∧ readProtocol k = .ok r.protocol ∧ clean k = .ok 0 := by
  obtain ⟨k, e, hk, hl⟩ := calls_holds h (h := {}) ⟨rfl, rfl, rfl, rfl⟩
  refine ⟨k, e, hk, ?_, ?_⟩
  · unfold readProtocol
    rw [hk.1]
    cases r.protocol <;> rfl
  · unfold clean
    rw [hk.1, free_text, Res.ok_bind, hk.2.1, free_text, Res.ok_bind, hl]
    rfl

/-- Specification: one call on the handler of a client; what is registered before and after, `none` while there is no websocket. -/
inductive Adds : Option (List Args) → OomRegister.Mem × Args → Code → Option (List Args) → Prop
  | add (r m a) (ha : AcceptableExt a) (hw : r ≠ none ∨ m.websocket = true ∧ m.init = true) (hb : m.box = true) (hn : m.name = true)
      (hs : m.list = true) (hl : m.append = true) : Adds r (m, a) .ok (some (r.getD [] ++ [a]))
  | memory (r m a) (ha : AcceptableExt a) (hw : r ≠ none ∨ m.websocket = true ∧ m.init = true) (hb : m.box = false) :
      Adds r (m, a) .memory (some (r.getD []))
  | websocket (m a) (ha : AcceptableExt a) (hw : m.websocket = false) : Adds none (m, a) .error none
  | params (r m a) (ha : ¬ AcceptableExt a) : Adds r (m, a) .params r

/-- Specification: the calls of a program. -/
inductive AddsAll : Option (List Args) → List (OomRegister.Mem × Args) → List Code → Option (List Args) → Prop
  | nil (r) : AddsAll r [] [] r
  | cons {r o c r1 t cs r2} (h : Adds r o c r1) (ht : AddsAll r1 t cs r2) : AddsAll r (o :: t) (c :: cs) r2

/-- Specification: the handler is usable, holds these extensions, and nothing is lost. -/
def HoldsAll (r : Option (List Args)) (k : Client) : Prop :=
  match r, k.websocket with
  | none, none => k.lost = 0
  | some l, some w => w.manager = true ∧ w.list.getD [] = l.map (asAsked .unwritten) ∧ k.lost = 0
  | _, _ => False

namespace OomRegisterHelp

theorem addSock_ok {r : List Args} {k : Client} {w : Sock} {m : OomRegister.Mem} {a : Args} (hm : w.manager = true)
    (hl : w.list.getD [] = r.map (asAsked .unwritten)) (h0 : k.lost = 0) (hb : m.box = true) (hn : m.name = true) (hs : m.list = true)
    (ha : m.append = true) : ∃ k1, addSock m k w a = .ok (.ok, k1) ∧ HoldsAll (some (r ++ [a])) k1 := by
  have : HoldsAll (some (r ++ [a])) { k with websocket := some { w with list := some (w.list.getD [] ++ [newExt m .unwritten a]) } } := by
    refine ⟨hm, ?_, h0⟩
    simp [hl, newExt, hn, asAsked]
  refine ⟨_, ?_, this⟩
  unfold addSock
  simp only [hb, hm, ha, hs, if_true]
  cases w.list <;> rfl

theorem addSock_memory {r : List Args} {k : Client} {w : Sock} {m : OomRegister.Mem} {a : Args} (hm : w.manager = true)
    (hl : w.list.getD [] = r.map (asAsked .unwritten)) (h0 : k.lost = 0) (hb : m.box = false) :
    ∃ k1, addSock m k w a = .ok (.memory, k1) ∧ HoldsAll (some r) k1 :=
  ⟨{ k with websocket := some w }, by unfold addSock; simp [hb], hm, hl, h0⟩

theorem add_holds {r r1 : Option (List Args)} {x : OomRegister.Mem × Args} {c : Code} {k : Client} (hd : Adds r x c r1) (hk : HoldsAll r k) :
    ∃ k1, addClient x.1 k x.2 = .ok (c, k1) ∧ HoldsAll r1 k1 := by
  unfold addClient
  cases hd with
  | add r m a ha hw hb hn hs hl =>
    simp only [(valid_iff a).2 ha, if_true]
    unfold HoldsAll at hk
    split at hk
    · rename_i e
      rw [e]
      rcases hw with hw | ⟨hw, hi⟩
      · exact absurd rfl hw
      · simp only [hw, hi, if_true]
        exact addSock_ok (r := []) rfl rfl hk hb hn hs hl
    · rename_i e
      rw [e]
      exact addSock_ok hk.1 hk.2.1 hk.2.2 hb hn hs hl
    · exact hk.elim
  | memory r m a ha hw hb =>
    simp only [(valid_iff a).2 ha, if_true]
    unfold HoldsAll at hk
    split at hk
    · rename_i e
      rw [e]
      rcases hw with hw | ⟨hw, hi⟩
      · exact absurd rfl hw
      · simp only [hw, hi, if_true]
        exact addSock_memory (r := []) rfl rfl hk hb
    · rename_i e
      rw [e]
      exact addSock_memory hk.1 hk.2.1 hk.2.2 hb
    · exact hk.elim
  | websocket m a ha hw =>
    simp only [(valid_iff a).2 ha, if_true]
    have hk' := hk
    unfold HoldsAll at hk
    split at hk
    · rename_i e
      rw [e]
      simp only [hw]
      exact ⟨k, rfl, hk'⟩
    · rename_i e _ ; cases e
    · exact hk.elim
  | params r m a ha =>
    have : valid a = false := by
      rw [← Bool.not_eq_true, valid_iff]; exact ha
    simp only [this]
    exact ⟨k, rfl, hk⟩

theorem addAll_holds {r r1 : Option (List Args)} {l : List (OomRegister.Mem × Args)} {cs : List Code} (hd : AddsAll r l cs r1) :
    ∀ {k : Client}, HoldsAll r k → ∃ k1, addAll k l = .ok (cs, k1) ∧ HoldsAll r1 k1 := by
  induction hd with
  | nil r => intro k hk; exact ⟨k, rfl, hk⟩
  | @cons r o c r1 t cs r2 hd ht ih =>
    intro k hk
    obtain ⟨k1, e1, hk1⟩ := add_holds hd hk
    obtain ⟨k2, e2, hk2⟩ := ih hk1
    refine ⟨k2, ?_, hk2⟩
    obtain ⟨m, a⟩ := o
    rw [addAll, e1, Res.ok_bind]
    dsimp only
    rw [e2]
    rfl

end OomRegisterHelp

/-- **C198** (partial), client: any sequence of calls in which fail only the block of the websocket and of a new extension. Missing: failures of the
other allocations, for which it is false, and the context, which is unwritten (below). -/
theorem C198_client_partial (l : List (OomRegister.Mem × Args)) (cs : List Code) (r : Option (List Args)) (h : AddsAll none l cs r) :
    ∃ k, addAll {} l = .ok (cs, k) ∧ HoldsAll r k :=
  addAll_holds h (k := {}) rfl

private def chatCalls : Calls := { incoming := some 1 }
private def deflateArgs : Args := { name := some b!"permessage-deflate", rsv := 0x40, out := some 2, inn := some 3, matcher := none, freeContext := some 4 }

private theorem deflate_acceptable : AcceptableExt deflateArgs := ⟨⟨_, rfl, by decide⟩, .inl (by decide), .inl rfl⟩

/-- It fails when the extensions cannot be copied: the response then holds a protocol that was freed, and cleaning it, or registering again, frees it
a second time. -/
theorem C198_twice_false : ∃ h, setResponse { extensions := false } {} (some b!"chat") (some b!"x") chatCalls = .ok (.memory, h) ∧
    clean h = .ub ∧ setResponse {} h (some b!"chat") (some b!"x") chatCalls = .ub := by
  exact ⟨{ protocol := .freed }, by decide, by decide, by decide⟩

/-- It fails when the protocol cannot be copied and there was one: the response is the websocket of the earlier call, without a protocol. When the
extensions cannot be copied the handshake reads a protocol that was freed. -/
theorem C198_forgets_false :
    calls {} [.set {} (some b!"chat") none chatCalls, .set { protocol := false } (some b!"talk") none { incoming := some 9 }] =
      .ok ([.ok, .memory], { calls := chatCalls }) ∧
    (∃ h, calls {} [.set {} (some b!"chat") none chatCalls, .set { extensions := false } (some b!"talk") (some b!"x") { incoming := some 9 }] =
      .ok ([.ok, .memory], h) ∧ h.calls = chatCalls ∧ readProtocol h = .ub) := by
  exact ⟨by decide, { protocol := .freed, calls := chatCalls }, by decide, by decide, by decide⟩

/-- It fails when the name of an extension cannot be copied: the call returns `U_OK`, and the extension has no name. -/
theorem C198_name_false : addExt { name := false } {} deflateArgs = (.ok, { exts := [{ asAsked .null deflateArgs with name := none }] }) := by
  decide

/-- It fails when the extension cannot be appended: two blocks stay. -/
theorem C198_leak_false : ∃ h, addExt { append := false } {} deflateArgs = (.error, h) ∧ clean h = .ok 2 := by
  exact ⟨{ lost := 2 }, by decide, by decide⟩

/-- It fails when the websocket of a client cannot be initialised: the next call follows a NULL pointer. -/
theorem C198_client_false : (∃ k, addClient { init := false } {} deflateArgs = .ok (.error, k) ∧ addClient {} k deflateArgs = .ub) ∧
    addAll {} [({ init := false }, deflateArgs), ({}, deflateArgs)] = .ub := by
  exact ⟨⟨{ websocket := some { manager := false } }, by decide, by decide⟩, by decide⟩

/-- It fails without any failure: the context of an extension of a client has no value, the one of a server is NULL. Callbacks of an extension without a
match function get it. -/
theorem C198_context_false : ∃ k w x h y, addClient {} {} deflateArgs = .ok (.ok, k) ∧ k.websocket = some w ∧ w.list = some [x] ∧
    x.context = .unwritten ∧ x.matcher = none ∧ addExt {} {} deflateArgs = (.ok, h) ∧ h.exts = [y] ∧ y.context = .null := by
  exact ⟨{ websocket := some { manager := true, list := some [asAsked .unwritten deflateArgs] } }, _, _,
    { exts := [asAsked .null deflateArgs] }, _, by decide, rfl, rfl, rfl, rfl, by decide, rfl, rfl⟩

/-! ## Cases that meet the hypotheses -/

example : DoesAll {} [.set { protocol := false } (some b!"chat") none chatCalls, .add { box := false } deflateArgs, .set {} (some b!"chat") none chatCalls,
    .add {} deflateArgs] [.memory, .memory, .ok, .ok]
    { protocol := some b!"chat", callbacks := chatCalls, exts := [deflateArgs] } :=
  .cons (.setProtocol _ _ _ _ _ (.inr (by decide)) rfl (by decide) rfl) <| .cons (.addMemory _ _ _ deflate_acceptable rfl) <|
    .cons (.set _ _ _ _ _ (.inr (by decide)) (.inl rfl) (.inl rfl)) <| .cons (.add _ _ _ deflate_acceptable rfl rfl rfl) (.nil _)

example : AddsAll none [({ websocket := false }, deflateArgs), ({ box := false }, deflateArgs), ({ init := false }, deflateArgs)] [.error, .memory, .ok]
    (some [deflateArgs]) :=
  .cons (.websocket _ _ deflate_acceptable rfl) <| .cons (.memory _ _ _ deflate_acceptable (.inr ⟨rfl, rfl⟩) rfl) <|
    .cons (.add _ _ _ deflate_acceptable (.inl (by decide)) rfl rfl rfl rfl) (.nil _)

end Verif.Props
