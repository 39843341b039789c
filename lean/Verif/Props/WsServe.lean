import Verif.Model.WsServe
/-! # C127: the end of a server websocket is announced once -/
namespace Verif.Props
open Verif.Ws Verif.WsServe

private theorem mix_mem {α : Type} {a b c : List α} (h : Mix a b c) (x : α) (hx : x ∈ c) : x ∈ a ∨ x ∈ b := by
  induction h with
  | nil => cases hx
  | left _ ih =>
    rcases List.mem_cons.1 hx with rfl | hx
    · exact .inl (by simp)
    · rcases ih hx with h | h
      · exact .inl (by simp [h])
      · exact .inr h
  | right _ ih =>
    rcases List.mem_cons.1 hx with rfl | hx
    · exact .inr (by simp)
    · rcases ih hx with h | h
      · exact .inl h
      · exact .inr (by simp [h])

private theorem mix_keep {α : Type} {a b c : List α} (h : Mix a b c) (x : α) (hx : x ∈ a ∨ x ∈ b) : x ∈ c := by
  induction h with
  | nil => simpa using hx
  | left _ ih =>
    rcases hx with hx | hx
    · rcases List.mem_cons.1 hx with rfl | hx
      · simp
      · exact List.mem_cons_of_mem _ (ih (.inl hx))
    · exact List.mem_cons_of_mem _ (ih (.inr hx))
  | right _ ih =>
    rcases hx with hx | hx
    · exact List.mem_cons_of_mem _ (ih (.inl hx))
    · rcases List.mem_cons.1 hx with rfl | hx
      · simp
      · exact List.mem_cons_of_mem _ (ih (.inr hx))

private theorem delivered_only (k : Calls) (outs : List Out) (e : Event) (h : e ∈ deliveries k outs) : ∃ op rsv d, e = .deliver op rsv d := by
  unfold deliveries at h
  split at h
  · rw [List.mem_filterMap] at h
    obtain ⟨o, -, ho⟩ := h
    split at ho
    · cases ho; exact ⟨_, _, _, rfl⟩
    · cases ho
  · cases h

/-- **C127, partial.** For every request with a websocket callback, whatever the decision, the messages and the order in which the threads
run: the onclose callback (when there is one) is called once, after everything else — the manager callback has returned, no message follows —
and the websocket is freed once, behind it. Missing: when libmicrohttpd gives no response for the upgrade or loses the connection before it
(`C127_response_false`, `C127_lost_false`), and undefined behaviour when no thread can be created (`C127_thread_false`) or a refused header
meets the status 101 (`C127_status_false`). -/
theorem C127_onclose_partial (w : World) (k : Calls) (status : Nat) (outs : List Out) (h : Answer.Hand) (r : Res (List Event))
    (hw : w.response = true ∧ w.switches = true ∧ w.thread = true) (hst : status ≠ 101) (hl : Life w k status outs h r) :
    ∃ before, r = .ok (before ++ (if k.onclose then [.onclose] else []) ++ [.free]) ∧
      .onclose ∉ before ∧ .free ∉ before ∧ (.managerStarts ∈ before → .managerReturns ∈ before) := by
  have fin : r = .ok (ending k) → ∃ before, r = .ok (before ++ (if k.onclose then [.onclose] else []) ++ [.free]) ∧
      .onclose ∉ before ∧ .free ∉ before ∧ (.managerStarts ∈ before → .managerReturns ∈ before) := by
    rintro rfl
    exact ⟨[], rfl, by simp, by simp, by simp⟩
  have dl : ∀ e, (∀ op rsv d, e ≠ Event.deliver op rsv d) → e ∉ deliveries k outs := by
    intro e he hm
    obtain ⟨op, rsv, d, h⟩ := delivered_only k outs e hm
    exact he _ _ _ h
  obtain ⟨w1, w2, w3⟩ := hw
  cases hl with
  | refused t => exact fin rfl
  | failed => exact fin rfl
  | noresponse fs h => rw [w1] at h; cases h
  | headers fs => exact fin rfl
  | stale fs _ _ h => exact absurd h hst
  | lost fs _ _ h => rw [w2] at h; cases h
  | nothread fs _ _ _ h => rw [w3] at h; cases h
  | @thread fs t _ _ _ _ ht =>
    cases ht with
    | alone hm =>
      refine ⟨deliveries k outs, by simp [ending], dl _ (by simp), dl _ (by simp), fun h => absurd h (dl _ (by simp))⟩
    | nothread => exact fin rfl
    | @both t hm _ hx =>
      refine ⟨t, by simp [ending], ?_, ?_, ?_⟩
      · intro h
        rcases mix_mem hx _ h with h | h
        · simp at h
        · exact dl _ (by simp) h
      · intro h
        rcases mix_mem hx _ h with h | h
        · simp at h
        · exact dl _ (by simp) h
      · intro _
        exact mix_keep hx _ (.inl (by simp))

/-- The messages among the events, in order. -/
def messagesOf : List Event → List (UInt8 × UInt8 × Bytes)
  | [] => []
  | .deliver op rsv d :: t => (op, rsv, d) :: messagesOf t
  | _ :: t => messagesOf t

/-- The messages the loop hands over, in order. -/
def handedOver : List Out → List (UInt8 × UInt8 × Bytes)
  | [] => []
  | .deliver op rsv d :: t => (op, rsv, d) :: handedOver t
  | _ :: t => handedOver t

/-- The calls of the manager callback among the events. -/
def managerPart : List Event → List Event
  | [] => []
  | .managerStarts :: t => .managerStarts :: managerPart t
  | .managerReturns :: t => .managerReturns :: managerPart t
  | _ :: t => managerPart t

private theorem messagesOf_append (a b : List Event) : messagesOf (a ++ b) = messagesOf a ++ messagesOf b := by
  induction a with
  | nil => rfl
  | cons x t ih => cases x <;> simp [messagesOf, ih]

private theorem managerPart_append (a b : List Event) : managerPart (a ++ b) = managerPart a ++ managerPart b := by
  induction a with
  | nil => rfl
  | cons x t ih => cases x <;> simp [managerPart, ih]

private theorem ending_parts (k : Calls) : messagesOf (ending k) = [] ∧ managerPart (ending k) = [] := by
  unfold ending
  cases k.onclose <;> simp [messagesOf, managerPart]

private theorem deliveries_parts (k : Calls) (outs : List Out) :
    messagesOf (deliveries k outs) = (if k.incoming then handedOver outs else []) ∧ managerPart (deliveries k outs) = [] := by
  unfold deliveries
  cases k.incoming with
  | false => simp [messagesOf, managerPart]
  | true =>
    simp only [if_true]
    induction outs with
    | nil => simp [messagesOf, handedOver, managerPart]
    | cons o t ih => cases o <;> simp_all [messagesOf, handedOver, managerPart]

private theorem mix_parts {a b c : List Event} (h : Mix a b c) (ha : messagesOf a = []) (hb : managerPart b = []) :
    messagesOf c = messagesOf b ∧ managerPart c = managerPart a := by
  induction h with
  | nil => simp [managerPart, messagesOf]
  | @left a b c x _ ih =>
    have h := ih (by cases x <;> simp_all [messagesOf]) hb
    cases x <;> simp_all [messagesOf, managerPart]
  | @right a b c x _ ih =>
    have h := ih ha (by cases x <;> simp_all [managerPart])
    cases x <;> simp_all [messagesOf, managerPart]

/-- **C127**: once libmicrohttpd has switched the protocols and the threads are created, the incoming callback (when there is one) gets every
message the loop hands over, in order and once, and the manager callback (when there is one) is called once and returns. -/
theorem C127_messages (w : World) (k : Calls) (status : Nat) (outs : List Out) (fs : List (Bytes × Bytes)) (r : Res (List Event))
    (hw : w.response = true ∧ w.headers = true ∧ w.switches = true ∧ w.thread = true ∧ w.manager = true)
    (hl : Life w k status outs (.accepted fs) r) :
    ∃ es, r = .ok es ∧ messagesOf es = (if k.incoming then handedOver outs else []) ∧
      managerPart es = (if k.manager then [.managerStarts, .managerReturns] else []) := by
  obtain ⟨w1, w2, w3, w4, w5⟩ := hw
  cases hl with
  | noresponse _ h => rw [w1] at h; cases h
  | headers _ _ h => rw [w2] at h; cases h
  | stale _ _ h => rw [w2] at h; cases h
  | lost _ _ _ h => rw [w3] at h; cases h
  | nothread _ _ _ _ h => rw [w4] at h; cases h
  | @thread _ t _ _ _ _ ht =>
    refine ⟨_, rfl, ?_⟩
    obtain ⟨e1, e2⟩ := ending_parts k
    obtain ⟨d1, d2⟩ := deliveries_parts k outs
    cases ht with
    | alone hm => simp [messagesOf_append, managerPart_append, e1, e2, d1, d2, hm]
    | nothread _ h => rw [w5] at h; cases h
    | @both t hm _ hx =>
      obtain ⟨m1, m2⟩ := mix_parts hx rfl d2
      rw [messagesOf_append, managerPart_append, e1, e2, m1, m2, d1, hm]
      simp [managerPart]

/-- **C127 is false** whenever there is no response for the upgrade: nobody is told, and the websocket is never freed. -/
theorem C127_response_false (w : World) (k : Calls) (status : Nat) (outs : List Out) (fs : List (Bytes × Bytes)) (hw : w.response = false) :
    Life w k status outs (.accepted fs) (.ok []) ∧ ∀ r, Life w k status outs (.accepted fs) r → r = .ok [] := by
  refine ⟨.noresponse _ hw, ?_⟩
  intro r h
  cases h with
  | noresponse _ => rfl
  | lost _ _ _ _ => rfl
  | headers _ h => rw [hw] at h; cases h
  | stale _ h => rw [hw] at h; cases h
  | nothread _ h => rw [hw] at h; cases h
  | thread _ h => rw [hw] at h; cases h

/-- **C127 is false** whenever the connection is lost before the protocols are switched. -/
theorem C127_lost_false (w : World) (k : Calls) (status : Nat) (outs : List Out) (fs : List (Bytes × Bytes))
    (hw : w.response = true ∧ w.headers = true ∧ w.switches = false) :
    Life w k status outs (.accepted fs) (.ok []) ∧ ∀ r, Life w k status outs (.accepted fs) r → r = .ok [] := by
  refine ⟨.lost _ hw.1 hw.2.1 hw.2.2, ?_⟩
  intro r h
  cases h with
  | noresponse _ => rfl
  | lost _ _ _ _ => rfl
  | headers _ _ h => rw [hw.2.1] at h; cases h
  | stale _ _ h => rw [hw.2.1] at h; cases h
  | nothread _ _ _ h => rw [hw.2.2] at h; cases h
  | thread _ _ _ h => rw [hw.2.2] at h; cases h

/-- Undefined behaviour whenever no thread can be created. -/
theorem C127_thread_false (w : World) (k : Calls) (status : Nat) (outs : List Out) (fs : List (Bytes × Bytes))
    (hw : w.response = true ∧ w.headers = true ∧ w.switches = true ∧ w.thread = false) :
    Life w k status outs (.accepted fs) .ub ∧ ∀ r, Life w k status outs (.accepted fs) r → r = .ub := by
  refine ⟨.nothread _ hw.1 hw.2.1 hw.2.2.1 hw.2.2.2, ?_⟩
  intro r h
  cases h with
  | noresponse _ h => rw [hw.1] at h; cases h
  | lost _ _ _ h => rw [hw.2.2.1] at h; cases h
  | headers _ _ h => rw [hw.2.1] at h; cases h
  | stale _ _ h => rfl
  | nothread _ _ _ h => rfl
  | thread _ _ _ _ h => rw [hw.2.2.2] at h; cases h

/-- Undefined behaviour whenever the callback set the status 101 and one of its headers is refused. -/
theorem C127_status_false (w : World) (k : Calls) (outs : List Out) (fs : List (Bytes × Bytes))
    (hw : w.response = true ∧ w.headers = false ∧ w.switches = true) :
    Life w k 101 outs (.accepted fs) .ub ∧ ∀ r, Life w k 101 outs (.accepted fs) r → r = .ub := by
  refine ⟨.stale _ hw.1 hw.2.1 rfl hw.2.2, ?_⟩
  intro r h
  cases h with
  | noresponse _ h => rw [hw.1] at h; cases h
  | lost _ _ h => rw [hw.2.1] at h; cases h
  | headers _ _ _ h => rcases h with h | h
                       · exact absurd rfl h
                       · rw [hw.2.2] at h; cases h
  | stale _ _ h => rfl
  | nothread _ _ _ h => rfl
  | thread _ _ h => rw [hw.2.1] at h; cases h

/-- Worlds in which these happen. -/
example : ({ response := false } : World).response = false ∧ ({ switches := false } : World).headers = true ∧
    ({ thread := false } : World).switches = true ∧ ({ headers := false } : World).switches = true := by decide

/-- A message delivered while the manager runs. -/
example : Life {} ⟨true, true, true⟩ 200 [.deliver 1 0 b!"x"] (.accepted [])
    (.ok [.managerStarts, .deliver 1 0 b!"x", .managerReturns, .onclose, .free]) :=
  .thread (t := [.managerStarts, .deliver 1 0 b!"x", .managerReturns] ++ ending ⟨true, true, true⟩) _ rfl rfl rfl rfl
    (.both rfl rfl (.left (.right (.left .nil))))

end Verif.Props
