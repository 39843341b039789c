import Verif.Model.WsExample
import Verif.Props.WsServe
namespace Verif.Props
open Verif.WsServe Verif.WsExample

/-- One request of the example server: where it goes, whether there was memory for the user data, and the circumstances of its life. -/
structure WsCaller where
  ep : Endpoint
  memory : Bool
  world : World
  status : Nat
  outs : List Ws.Out
  hand : Answer.Hand

/-- The events are the beginning of a life of this request. -/
def WsCaller.Underway (v : WsCaller) (es : List Event) : Prop := ∃ rest, Life v.world (calls v.ep) v.status v.outs v.hand (.ok (es ++ rest))

/-- The events are a whole life of this request. -/
def WsCaller.Over (v : WsCaller) (es : List Event) : Prop := Life v.world (calls v.ep) v.status v.outs v.hand (.ok es)

namespace WsExampleHelp

/-- The events of one websocket, one after the other. -/
def one (ep : Endpoint) : Block → List Event → Res Block
  | b, [] => .ok b
  | b, e :: t => do one ep (← step ep b e) t

theorem one_append (ep : Endpoint) (xs ys : List Event) : ∀ b, one ep b (xs ++ ys) = (do one ep (← one ep b xs) ys) := by
  induction xs with
  | nil => intro b; rfl
  | cons x xs ih =>
    intro b
    simp only [List.cons_append, one]
    cases h : step ep b x with
    | ub => rfl
    | ok b' => simpa [Res.ok_bind] using ih b'

theorem run_one (ep : Nat → Endpoint) (t : List (Nat × Event)) : ∀ s f, (∀ i, one (ep i) (s i) (of i t) = .ok (f i)) → run ep s t = .ok f := by
  induction t with
  | nil =>
    intro s f h
    have : s = f := funext fun i => by simpa [one, of] using h i
    simp [run, this]
  | cons x t ih =>
    intro s f h
    obtain ⟨i, e⟩ := x
    have hi := h i
    have hof : of i ((i, e) :: t) = e :: of i t := by simp [of]
    rw [hof] at hi
    simp only [one] at hi
    simp only [run]
    cases hs : step (ep i) (s i) e with
    | ub => rw [hs] at hi; cases hi
    | ok b =>
      rw [hs] at hi
      simp only [Res.ok_bind]
      refine ih _ _ fun j => ?_
      by_cases hj : j = i
      · subst hj; simpa using hi
      · have hj' := h j
        have : of j ((i, e) :: t) = of j t := by simp [of, Ne.symm hj]
        rw [this] at hj'
        simpa [hj] using hj'

/-- Without onclose nothing is freed. -/
theorem one_before (ep : Endpoint) (es : List Event) (h : .onclose ∉ es) : ∀ b, b ≠ .freed → one ep b es = .ok b := by
  induction es with
  | nil => intro b _; rfl
  | cons e es ih =>
    intro b hb
    have he : e ≠ .onclose := fun c => h (by simp [c])
    have hs : step ep b e = .ok b := by
      cases ep <;> cases e <;> cases b <;> first | rfl | exact absurd rfl hb | exact absurd rfl he
    simp only [one, hs, Res.ok_bind]
    exact ih (fun c => h (by simp [c])) b hb

theorem start_ne (m : Bool) (ep : Endpoint) : start m ep ≠ .freed := by cases ep <;> cases m <;> decide

theorem mix_no {a b c : List Event} (h : Mix a b c) (x : Event) (ha : x ∉ a) (hb : x ∉ b) : x ∉ c := by
  induction h with
  | nil => simp
  | left _ ih => simp only [List.mem_cons, not_or] at ha ⊢; exact ⟨ha.1, ih ha.2 hb⟩
  | right _ ih => simp only [List.mem_cons, not_or] at hb ⊢; exact ⟨hb.1, ih ha hb.2⟩

theorem deliveries_no (k : Calls) (outs : List Ws.Out) : .onclose ∉ deliveries k outs := by
  unfold deliveries
  split
  · intro h
    obtain ⟨o, _, ho⟩ := List.mem_filterMap.1 h
    cases o <;> simp at ho
  · simp

/-- Every life is nothing, or something without onclose and then onclose and the end. -/
theorem shape {w : World} {ep : Endpoint} {status : Nat} {outs : List Ws.Out} {h : Answer.Hand} {es : List Event}
    (hl : Life w (calls ep) status outs h (.ok es)) : es = [] ∨ ∃ before, es = before ++ [.onclose, .free] ∧ .onclose ∉ before := by
  have he : ending (calls ep) = [.onclose, .free] := by cases ep <;> rfl
  generalize hr : Res.ok es = r at hl
  cases hl with
  | refused | failed | headers => cases hr; exact .inr ⟨[], by simp [he], by simp⟩
  | noresponse | lost => cases hr; exact .inl rfl
  | stale | nothread => cases hr
  | thread _ _ _ _ _ ht =>
    cases hr
    cases ht with
    | alone _ => exact .inr ⟨_, by rw [he], deliveries_no _ _⟩
    | nothread => exact .inr ⟨[], by simp [he], by simp⟩
    | both _ _ hm => exact .inr ⟨_, by rw [he], mix_no hm _ (by simp) (deliveries_no _ _)⟩

theorem tail (ep : Endpoint) (m : Bool) : one ep (start m ep) [.onclose, .free] = .ok (if start m ep = .live then .freed else start m ep) := by
  cases ep <;> cases m <;> rfl

theorem whole {v : WsCaller} {es : List Event} (hl : v.Over es) (hne : es ≠ []) :
    one v.ep (start v.memory v.ep) es = .ok (if start v.memory v.ep = .live then .freed else start v.memory v.ep) := by
  obtain h | ⟨before, rfl, hb⟩ := shape hl
  · exact absurd h hne
  · rw [one_append, one_before _ _ hb _ (start_ne _ _)]
    exact tail _ _

theorem part {v : WsCaller} {es : List Event} (hl : v.Underway es) : ∃ b, one v.ep (start v.memory v.ep) es = .ok b := by
  obtain ⟨rest, hl⟩ := hl
  have hw : ∃ b, one v.ep (start v.memory v.ep) (es ++ rest) = .ok b := by
    by_cases hn : es ++ rest = []
    · exact ⟨_, by rw [hn]; rfl⟩
    · exact ⟨_, whole (v := v) hl hn⟩
  obtain ⟨b, hb⟩ := hw
  rw [one_append] at hb
  cases h : one v.ep (start v.memory v.ep) es with
  | ok b => exact ⟨b, rfl⟩
  | ub => rw [h] at hb; cases hb

end WsExampleHelp
open WsExampleHelp

/-- **C202, safety.** However the websockets of the example server are interleaved, at any moment: no callback has read user data that was
freed, and none was freed twice. -/
theorem C202_safe (v : Nat → WsCaller) (t : List (Nat × Event)) (h : ∀ i, (v i).Underway (of i t)) :
    ∃ s, run (fun i => (v i).ep) (fun i => start (v i).memory (v i).ep) t = .ok s := by
  refine ⟨fun i => (part (h i)).choose, run_one _ _ _ _ fun i => ?_⟩
  exact (part (h i)).choose_spec

/-- **C202, partial.** When the websockets are over, the user data of each request that had some is freed, and that of the others is NULL.
Missing: when libmicrohttpd gives no response for the upgrade or loses the connection before the protocols are switched
(`C202_leak_false`); C127 has undefined behaviour when no thread can be created. -/
theorem C202_freed_partial (v : Nat → WsCaller) (t : List (Nat × Event)) (n : Nat)
    (h : ∀ i, i < n → (v i).Over (of i t)) (hn : ∀ i, ¬ i < n → of i t = [])
    (hw : ∀ i, i < n → (v i).world.response = true ∧ (v i).world.switches = true) :
    ∃ s, run (fun i => (v i).ep) (fun i => start (v i).memory (v i).ep) t = .ok s ∧
      ∀ i, i < n → s i = (if (v i).memory = true ∧ (v i).ep ≠ .file then .freed else .null) := by
  refine ⟨fun i => if i < n then (if start (v i).memory (v i).ep = .live then .freed else start (v i).memory (v i).ep)
      else start (v i).memory (v i).ep, run_one _ _ _ _ fun i => ?_, fun i hi => ?_⟩
  · by_cases hi : i < n
    · simp only [hi, if_true]
      refine whole (h i hi) fun he => ?_
      have hl := h i hi
      rw [he] at hl
      obtain ⟨hr, hs⟩ := hw i hi
      unfold WsCaller.Over at hl
      have hend : ending (calls (v i).ep) ≠ [] := by cases (v i).ep <;> decide
      generalize hq : Res.ok ([] : List Event) = r at hl
      generalize hh : (v i).hand = hd at hl
      cases hl with
      | refused | failed | headers => exact hend (Res.ok.inj hq).symm
      | noresponse _ hf => rw [hr] at hf; cases hf
      | lost _ _ _ hf => rw [hs] at hf; cases hf
      | stale | nothread => cases hq
      | thread _ _ _ _ _ ht =>
        have hq := Res.ok.inj hq
        subst hq
        generalize hz : ([] : List Event) = z at ht
        cases ht with
        | alone _ => exact hend (List.append_eq_nil_iff.1 hz.symm).2
        | nothread => exact hend hz.symm
        | both _ _ _ => exact hend (List.append_eq_nil_iff.1 hz.symm).2
    · simp only [hi, if_false, hn i hi]; rfl
  · simp only [hi, if_true]
    cases (v i).ep <;> cases (v i).memory <;> decide

/-- **C202 is false** whenever libmicrohttpd gives no response or loses the connection before the protocols are switched: the websockets are
over, nothing happens any more, and every one of any number of requests keeps its block. -/
theorem C202_leak_false (v : Nat → WsCaller) (n : Nat)
    (hv : ∀ i, (v i).memory = true ∧ (v i).ep ≠ .file ∧ (∃ fs, (v i).hand = .accepted fs) ∧
      ((v i).world.response = false ∨ (v i).world.response = true ∧ (v i).world.headers = true ∧ (v i).world.switches = false)) :
    (∀ i, (v i).Over (of i []) ∧ ∀ es, (v i).Over es → es = []) ∧
    ∃ s, run (fun i => (v i).ep) (fun i => start (v i).memory (v i).ep) [] = .ok s ∧
      ((List.range n).filter (fun i => s i = .live)).length = n := by
  refine ⟨fun i => ?_, _, rfl, ?_⟩
  · obtain ⟨_, _, ⟨fs, hf⟩, hw⟩ := hv i
    unfold WsCaller.Over
    rw [hf]
    obtain hw | hw := hw
    · have := C127_response_false (v i).world (calls (v i).ep) (v i).status (v i).outs fs hw
      exact ⟨this.1, fun es he => Res.ok.inj (this.2 _ he)⟩
    · have := C127_lost_false (v i).world (calls (v i).ep) (v i).status (v i).outs fs hw
      exact ⟨this.1, fun es he => Res.ok.inj (this.2 _ he)⟩
  · rw [List.filter_eq_self.2 fun i _ => ?_, List.length_range]
    obtain ⟨hm, he, _, _⟩ := hv i
    rw [hm]
    cases h : (v i).ep
    · decide
    · decide
    · exact absurd h he

/-- Two websockets, one of the first endpoint and one that echoes, interleaved. -/
def visitPair (i : Nat) : WsCaller :=
  if i = 0 then ⟨.messages, true, {}, 200, [.deliver 1 0 b!"x"], .accepted []⟩ else ⟨.echo, true, {}, 200, [.deliver 2 0 b!"y"], .accepted []⟩

/-- Their events. -/
def visitTrace : List (Nat × Event) :=
  [(0, .managerStarts), (1, .deliver 2 0 b!"y"), (0, .deliver 1 0 b!"x"), (1, .onclose), (0, .managerReturns), (0, .onclose), (1, .free), (0, .free)]

/-- The hypotheses of `C202_freed_partial` are met. -/
example : (∀ i, i < 2 → (visitPair i).Over (of i visitTrace)) ∧ (∀ i, ¬ i < 2 → of i visitTrace = []) ∧
    ∀ i, (visitPair i).world.response = true ∧ (visitPair i).world.switches = true := by
  refine ⟨fun i hi => ?_, fun i hi => ?_, fun i => ?_⟩
  · match i, hi with
    | 0, _ =>
      show Life {} ⟨true, true, true⟩ 200 [.deliver 1 0 b!"x"] (.accepted [])
        (.ok ([.managerStarts, .deliver 1 0 b!"x", .managerReturns] ++ ending ⟨true, true, true⟩))
      exact .thread _ rfl rfl rfl rfl (.both rfl rfl (.left (.right (.left .nil))))
    | 1, _ =>
      show Life {} ⟨false, true, true⟩ 200 [.deliver 2 0 b!"y"] (.accepted [])
        (.ok (deliveries ⟨false, true, true⟩ [.deliver 2 0 b!"y"] ++ ending ⟨false, true, true⟩))
      exact .thread _ rfl rfl rfl rfl (.alone rfl)
  · have h : ∀ k, k < 2 → decide (k = i) = false := fun k hk => by simp; omega
    simp [of, visitTrace, h 0 (by omega), h 1 (by omega)]
  · unfold visitPair; split <;> exact ⟨rfl, rfl⟩

/-- They end with both blocks freed. -/
example : ∃ s, run (fun i => (visitPair i).ep) (fun i => start (visitPair i).memory (visitPair i).ep) visitTrace = .ok s ∧ s 0 = .freed ∧ s 1 = .freed :=
  ⟨_, rfl, rfl, rfl⟩

/-- The hypotheses of `C202_leak_false` are met by requests whose connections are lost. -/
example : let v : WsCaller := ⟨.echo, true, { switches := false }, 200, [], .accepted []⟩
    v.memory = true ∧ v.ep ≠ .file ∧ (∃ fs, v.hand = .accepted fs) ∧
      (v.world.response = false ∨ v.world.response = true ∧ v.world.headers = true ∧ v.world.switches = false) :=
  ⟨rfl, by decide, ⟨[], rfl⟩, .inr ⟨rfl, rfl, rfl⟩⟩

end Verif.Props
