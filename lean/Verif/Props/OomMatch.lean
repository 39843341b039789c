import Verif.Model.OomMatch
import Verif.Props.Deflate
/-!
# C197: negotiating compression when memory runs out

Full statement: whatever is offered and whatever fails, the callbacks of permessage-deflate do nothing undefined, and either take the extension with the
parameters of the offer, on the server also saying so in the answer, or refuse it and leave nothing allocated.

False of the code in three ways: `server_max_window_bits` without one value loses the pieces of the parameter, without any failure (`C197_leak_false`);
without memory for zlib its streams are ended although they have no state (`C197_zlib_false`); without memory for the answer the server uses an extension
the client is not told about (`C197_answer_false`).
-/
namespace Verif.Props
open Verif.Strtok Verif.Handshake Verif.Printf Verif.OomMatch
open Verif.Deflate (Ctx St extName isFirst)
open Verif.Client (trimSpace_eq)
open Verif.Spec.Client Verif.Spec.Segments Verif.Spec.Deflate

namespace OomMatchHelp

theorem param_ok (server : Bool) (s : St) (p : Bytes) (h : (Deflate.param server s p).ok = true) : s.ok = true := by
  unfold Deflate.param at h
  split at h
  · exact h
  split at h
  · exact h
  split at h
  · split at h
    · split at h
      · exact h
      · cases h
    · cases h
  split at h
  · dsimp only at h
    split at h
    · exact h
    · cases h
  split at h
  · exact h
  · cases h

theorem step_ok (server : Bool) (m : Mem) (i : Nat) (s : St × Nat) (p : Bytes) (h : (param server m i s p).1.ok = true) :
    s.1.ok = true ∧ (param server m i s p).1 = Deflate.param server s.1 p := by
  unfold param at h ⊢
  split at h
  · rename_i h1
    split at h
    · rename_i h2
      rw [if_pos h1, if_pos h2]
      exact ⟨param_ok _ _ _ h, rfl⟩
    · cases h
  · rename_i h1
    rw [if_neg h1]
    split at h
    · rename_i h2
      rw [if_pos h2]
      split at h
      · rename_i h3
        rw [if_pos h3]
        exact ⟨param_ok _ _ _ h, rfl⟩
      · cases h
    · rename_i h2
      rw [if_neg h2]
      exact ⟨param_ok _ _ _ h, rfl⟩

theorem loop_ok (server : Bool) (m : Mem) (l : List Bytes) : ∀ (i : Nat) (s : St × Nat), (loop server m i s l).1.ok = true →
    s.1.ok = true ∧ (loop server m i s l).1 = l.foldl (fun st p => Deflate.param server st (trimSpace p)) s.1 := by
  induction l with
  | nil => intro i s h; exact ⟨h, rfl⟩
  | cons p t ih =>
    intro i s h
    rw [loop] at h ⊢
    obtain ⟨h1, h2⟩ := ih _ _ h
    obtain ⟨h3, h4⟩ := step_ok _ _ _ _ _ h1
    refine ⟨h3, ?_⟩
    rw [h2, h4]
    rfl

theorem loop_all (server : Bool) (m : Mem) (hv : ∀ i, m.value i = true) (l : List Bytes) : ∀ (i : Nat) (s : St × Nat),
    (loop server m i s l).1 = l.foldl (fun st p => Deflate.param server st (trimSpace p)) s.1 := by
  induction l with
  | nil => intro i s; rfl
  | cons p t ih =>
    intro i s
    rw [loop, ih]
    have : (param server m i s (trimSpace p)).1 = Deflate.param server s.1 (trimSpace p) := by
      unfold param
      simp only [hv, if_true]
      split
      · rfl
      · split <;> rfl
    rw [this]
    rfl

theorem loop_lost (server : Bool) (m : Mem) (l : List Bytes)
    (hl : ∀ q ∈ l, b!"server_max_window_bits" <+: trimSpace q → (pieces 0x3d (trimSpace q)).length = 2) : ∀ (i : Nat) (s : St × Nat),
    (loop server m i s l).2 = s.2 := by
  induction l with
  | nil => intro i s; rfl
  | cons p t ih =>
    intro i s
    rw [loop, ih (fun q hq => hl q (List.mem_cons_of_mem _ hq))]
    unfold param
    split
    · rename_i h
      split
      · dsimp only
        rw [Handshake.splitString_eq, if_pos (hl p List.mem_cons_self h)]
      · rfl
    · split
      · split <;> rfl
      · rfl

theorem params_ok (server : Bool) (m : Mem) (t : Bytes) (h : (params server m t).1.ok = true) :
    (params server m t).1 = Deflate.params server t := by
  unfold params at h ⊢
  unfold Deflate.params
  split
  · rfl
  · rename_i h0
    rw [if_neg h0] at h
    split
    · rename_i h1
      rw [if_pos h1] at h
      exact (loop_ok _ _ _ _ _ h).2
    · rename_i h1
      rw [if_neg h1] at h
      cases h

theorem params_all (server : Bool) (m : Mem) (hs : m.split = true) (hv : ∀ i, m.value i = true) (t : Bytes) :
    (params server m t).1 = Deflate.params server t := by
  unfold params Deflate.params
  split
  · rfl
  · exact loop_all _ _ hv _ _ _

theorem params_lost (server : Bool) (m : Mem) (item : Bytes) (hi : extName.isPrefixOf item = true)
    (hp : ∀ p, Offers item p → b!"server_max_window_bits" <+: p → (pieces 0x3d p).length = 2) :
    (params server m (item.drop extName.length)).2 = 0 := by
  unfold params
  split
  · rfl
  · split
    · refine loop_lost _ _ _ ?_ _ _
      intro q hq h
      refine hp _ ?_ h
      obtain ⟨tail, rfl⟩ := List.isPrefixOf_iff_prefix.1 hi
      rw [List.drop_left, Handshake.splitString_eq] at hq
      obtain ⟨a, b, h2, h3, h4, h5⟩ := trimSpace_parts q
      exact ⟨tail, q, a, b, rfl, hq, h2, h3, h4, h5⟩
    · rfl

/-- the text so far is whole, or does not begin with the name -/
def Whole (pre : Bytes) (a : Option Bytes) : Prop := a = some pre ∨ ∀ x, a = some x → x.head? = some 0x3b

theorem whole_cat {pre : Bytes} {a : Option Bytes} (ok : Bool) (b : Bytes) (hb : b.head? = some 0x3b) (h : Whole pre a) :
    Whole (pre ++ b) (cat ok a b) := by
  unfold cat
  cases ok with
  | false => exact .inr (fun x hx => by cases hx)
  | true =>
    rcases h with h | h
    · subst h; exact .inl rfl
    · refine .inr ?_
      intro x hx
      simp only [if_true, Option.some.injEq] at hx
      subst hx
      cases a with
      | none => simpa using hb
      | some y =>
        have := h y rfl
        cases y with
        | nil => cases this
        | cons c y => simpa using this

theorem whole_if {pre : Bytes} {a : Option Bytes} (c ok : Bool) (b : Bytes) (hb : b.head? = some 0x3b) (h : Whole pre a) :
    Whole (pre ++ (if c then b else [])) (if c then cat ok a b else a) := by
  cases c with
  | false => simpa using h
  | true => simpa using whole_cat ok b hb h

theorem answer_whole (m : Mem) (s : St) : Whole (Deflate.answer s) (answer m s) := by
  unfold Deflate.answer answer
  refine whole_if _ _ _ rfl (whole_if _ _ _ rfl (whole_if _ _ _ rfl (whole_if _ _ _ rfl ?_)))
  cases m.name
  · exact .inr (fun x hx => by cases hx)
  · exact .inl rfl

theorem answer_all (m : Mem) (s : St) (hn : m.name = true) (hp : ∀ i, m.part i = true) : answer m s = some (Deflate.answer s) := by
  unfold Deflate.answer answer cat
  simp only [hn, hp, if_true]
  cases s.ctx.serverNoTakeover <;> cases s.ctx.clientNoTakeover <;> cases s.serverChanged <;> cases s.clientChanged <;>
    simp [List.append_assoc]

theorem no_name {x : Bytes} (h : x.head? = some 0x3b) : ¬ extName <+: x := by
  rintro ⟨t, rfl⟩
  cases h

theorem streams_eq (d i : Init) (hd : d ≠ .first) (hi : i ≠ .first) :
    streams d i = .ok (if d = .done ∧ i = .done then some () else none) := by
  cases d <;> cases i <;> first | rfl | exact absurd rfl hd | exact absurd rfl hi

end OomMatchHelp

open OomMatchHelp

/-- Specification: nothing fails. -/
structure AllSucceeds (m : OomMatch.Mem) : Prop where
  context : m.context = true
  split : m.split = true
  value : ∀ i, m.value i = true
  deflate : ∀ w, m.deflate w = .done
  inflate : ∀ w, m.inflate w = .done
  name : m.name = true
  part : ∀ i, m.part i = true

/-- Specification: refused, with nothing left behind. -/
def Refused (o : OomMatch.Out) : Prop :=
  o.ok = false ∧ o.context = none ∧ o.deflating = false ∧ o.inflating = false ∧ o.answer = none ∧ o.lost = 0

/-- Specification: taken with the parameters `ctx`; what is left is one context with two streams, and freeing the context frees all. -/
def Taken (ctx : Ctx) (o : OomMatch.Out) : Prop :=
  o.ok = true ∧ o.context = some ctx ∧ o.deflating = true ∧ o.inflating = true ∧ o.lost = 0 ∧
    ∃ o', freeContext o = .ok o' ∧ o'.context = none ∧ o'.deflating = false ∧ o'.inflating = false

/-- **C197** (partial), server: an offer in which each `server_max_window_bits` has one value, zlib having memory for its first blocks. Whatever else fails,
the offer is refused and nothing is left, or it is taken with the parameters it would be taken with if nothing failed. The answer is the same too, or
one no client takes for the extension. When nothing fails nothing changes. -/
theorem C197_server_partial (m : OomMatch.Mem) (item : Bytes) (list : List Bytes)
    (hz : ∀ w, m.deflate w ≠ .first ∧ m.inflate w ≠ .first)
    (hp : ∀ p, Offers item p → b!"server_max_window_bits" <+: p → (pieces 0x3d p).length = 2) :
    ∃ o, OomMatch.serverMatch m item list = .ok o ∧
      (Refused o ∨ ∃ ctx ans, Deflate.serverMatch (fun _ _ => true) item list = some (ctx, ans) ∧ Taken ctx o ∧
        (o.answer = some ans ∨ ∀ a, o.answer = some a → ¬ b!"permessage-deflate" <+: a)) ∧
      (AllSucceeds m → ∀ ctx ans, Deflate.serverMatch (fun _ _ => true) item list = some (ctx, ans) → Taken ctx o ∧ o.answer = some ans) := by
  unfold OomMatch.serverMatch Deflate.serverMatch
  by_cases h0 : (extName.isPrefixOf item && isFirst item list) = true
  case neg =>
    rw [if_neg h0, if_neg h0]
    exact ⟨_, rfl, .inl ⟨rfl, rfl, rfl, rfl, rfl, rfl⟩, fun _ _ _ h => by cases h⟩
  rw [if_pos h0, if_pos h0]
  have hi : extName.isPrefixOf item = true := by
    rw [Bool.and_eq_true] at h0; exact h0.1
  cases hc : m.context with
  | false =>
    refine ⟨_, rfl, .inl ⟨rfl, rfl, rfl, rfl, rfl, rfl⟩, ?_⟩
    intro ha
    rw [ha.context] at hc
    cases hc
  | true =>
    have hl := params_lost true m item hi hp
    have hk := params_ok true m (item.drop extName.length)
    have hall : AllSucceeds m → _ := fun ha => params_all true m ha.split ha.value (item.drop extName.length)
    generalize params true m (item.drop extName.length) = r at hl hk hall
    obtain ⟨s, lost⟩ := r
    dsimp only at hl hk hall
    subst hl
    generalize Deflate.params true (item.drop extName.length) = s' at hk hall
    cases hs : s.ok with
    | false =>
      simp only [if_true, hs]
      refine ⟨_, rfl, .inl ⟨rfl, rfl, rfl, rfl, rfl, rfl⟩, ?_⟩
      intro ha ctx ans h
      rw [← hall ha, hs] at h
      simp at h
    | true =>
      have := hk hs
      subst this
      simp only [if_true, hs]
      rw [streams_eq _ _ (hz _).1 (hz _).2, Res.ok_bind]
      by_cases hd : m.deflate s.ctx.serverBits = .done ∧ m.inflate s.ctx.clientBits = .done
      · rw [if_pos hd]
        have ht : ∀ a, Taken s.ctx { ok := true, context := some s.ctx, deflating := true, inflating := true, answer := a, lost := 0 } :=
          fun a => ⟨rfl, rfl, rfl, rfl, rfl, _, rfl, rfl, rfl, rfl⟩
        refine ⟨_, rfl, .inr ⟨s.ctx, Deflate.answer s, rfl, ht _, ?_⟩, ?_⟩
        · rcases answer_whole m s with h | h
          · exact .inl h
          · exact .inr (fun a ha => no_name (h a ha))
        · intro ha ctx ans h
          simp only [Bool.and_self, if_true, Option.some.injEq, Prod.mk.injEq] at h
          obtain ⟨rfl, rfl⟩ := h
          exact ⟨ht _, answer_all m s ha.name ha.part⟩
      · rw [if_neg hd]
        refine ⟨_, rfl, .inl ⟨rfl, rfl, rfl, rfl, rfl, rfl⟩, ?_⟩
        intro ha
        exact absurd ⟨ha.deflate _, ha.inflate _⟩ hd

/-- **C197** (partial), client: the same for the answer of a server. -/
theorem C197_client_partial (m : OomMatch.Mem) (item : Bytes)
    (hz : ∀ w, m.deflate w ≠ .first ∧ m.inflate w ≠ .first)
    (hp : ∀ p, Offers item p → b!"server_max_window_bits" <+: p → (pieces 0x3d p).length = 2) :
    ∃ o, OomMatch.clientMatch m item = .ok o ∧
      (Refused o ∨ ∃ ctx, Deflate.clientMatch (fun _ _ => true) item = some ctx ∧ Taken ctx o) ∧
      (AllSucceeds m → ∀ ctx, Deflate.clientMatch (fun _ _ => true) item = some ctx → Taken ctx o) := by
  unfold OomMatch.clientMatch Deflate.clientMatch
  by_cases hi : extName.isPrefixOf item = true
  case neg =>
    rw [if_neg hi, if_neg hi]
    exact ⟨_, rfl, .inl ⟨rfl, rfl, rfl, rfl, rfl, rfl⟩, fun _ _ h => by cases h⟩
  rw [if_pos hi, if_pos hi]
  cases hc : m.context with
  | false =>
    refine ⟨_, rfl, .inl ⟨rfl, rfl, rfl, rfl, rfl, rfl⟩, ?_⟩
    intro ha
    rw [ha.context] at hc
    cases hc
  | true =>
    have hl := params_lost false m item hi hp
    have hk := params_ok false m (item.drop extName.length)
    have hall : AllSucceeds m → _ := fun ha => params_all false m ha.split ha.value (item.drop extName.length)
    generalize params false m (item.drop extName.length) = r at hl hk hall
    obtain ⟨s, lost⟩ := r
    dsimp only at hl hk hall
    subst hl
    generalize Deflate.params false (item.drop extName.length) = s' at hk hall
    cases hs : s.ok with
    | false =>
      simp only [if_true, hs]
      refine ⟨_, rfl, .inl ⟨rfl, rfl, rfl, rfl, rfl, rfl⟩, ?_⟩
      intro ha ctx h
      rw [← hall ha, hs] at h
      simp at h
    | true =>
      have := hk hs
      subst this
      simp only [if_true, hs]
      rw [streams_eq _ _ (hz _).1 (hz _).2, Res.ok_bind]
      by_cases hd : m.deflate s.ctx.clientBits = .done ∧ m.inflate s.ctx.serverBits = .done
      · rw [if_pos hd]
        have ht : Taken s.ctx { ok := true, context := some s.ctx, deflating := true, inflating := true, lost := 0 } :=
          ⟨rfl, rfl, rfl, rfl, rfl, _, rfl, rfl, rfl, rfl⟩
        refine ⟨_, rfl, .inr ⟨s.ctx, rfl, ht⟩, ?_⟩
        intro ha ctx h
        simp only [Bool.and_self, if_true, Option.some.injEq] at h
        subst h
        exact ht
      · rw [if_neg hd]
        refine ⟨_, rfl, .inl ⟨rfl, rfl, rfl, rfl, rfl, rfl⟩, ?_⟩
        intro ha
        exact absurd ⟨ha.deflate _, ha.inflate _⟩ hd

/-- The full statement fails without any failure: the pieces of `server_max_window_bits` without a value stay allocated, on the server for an offer any
client can make, on the client for an answer any server can give. -/
theorem C197_leak_false : AllSucceeds {} ∧
    (OomMatch.serverMatch {} b!"permessage-deflate; server_max_window_bits" [b!"permessage-deflate; server_max_window_bits"]) =
      .ok { ok := false, lost := 1 } ∧
    OomMatch.clientMatch {} b!"permessage-deflate; server_max_window_bits" = .ok { ok := false, lost := 1 } := by
  refine ⟨⟨rfl, rfl, fun _ => rfl, fun _ => rfl, fun _ => rfl, rfl, fun _ => rfl⟩, ?_, ?_⟩
  · simp only [OomMatch.serverMatch, params, Handshake.splitString_eq]
    decide +kernel
  · simp only [OomMatch.clientMatch, params, Handshake.splitString_eq]
    decide +kernel

/-- It fails when zlib gets no memory: `deflateEnd` or `inflateEnd` reads the state of a stream that has none. -/
theorem C197_zlib_false :
    OomMatch.serverMatch { deflate := fun _ => .first } b!"permessage-deflate" [b!"permessage-deflate"] = .ub ∧
    OomMatch.serverMatch { inflate := fun _ => .first } b!"permessage-deflate" [b!"permessage-deflate"] = .ub ∧
    OomMatch.clientMatch { deflate := fun _ => .first } b!"permessage-deflate" = .ub ∧
    OomMatch.clientMatch { inflate := fun _ => .first } b!"permessage-deflate" = .ub := by
  decide +kernel

/-- It fails when there is no memory for the answer: the server uses the extension, with the first reserved bit, and the answer does not mention it. -/
theorem C197_answer_false :
    ((Handshake.srvNegotiate b!"permessage-deflate" [OomMatch.srvExt { name := false }]).1.map (·.enabled) = [true] ∧
      (Handshake.srvNegotiate b!"permessage-deflate" [OomMatch.srvExt { name := false }]).2.rsv = 0x40 ∧
      (Handshake.srvNegotiate b!"permessage-deflate" [OomMatch.srvExt { name := false }]).2.answer = none) ∧
    (Handshake.srvNegotiate b!"permessage-deflate" [OomMatch.srvExt {}]).2.answer = some b!"permessage-deflate" := by
  simp only [Handshake.srvNegotiate, Handshake.splitString_eq]
  decide +kernel

/-! ## Cases that meet the hypotheses -/

/-- Specification: how a call ended. -/
def endOf : Res OomMatch.Out → Option (Bool × Option (Nat × Nat) × Option Bytes)
  | .ok o => some (o.ok, o.context.map (fun c => (c.serverBits, c.clientBits)), o.answer)
  | .ub => none

private def offer197 : Bytes := b!"permessage-deflate; server_no_context_takeover; client_max_window_bits"

example : endOf (OomMatch.serverMatch {} offer197 [offer197]) =
    some (true, some (15, 15), some b!"permessage-deflate; server_no_context_takeover; client_max_window_bits=15") := by
  simp only [OomMatch.serverMatch, params, Handshake.splitString_eq]
  decide +kernel

example : endOf (OomMatch.serverMatch { part := fun i => i != 0 } offer197 [offer197]) =
    some (true, some (15, 15), some b!"; client_max_window_bits=15") := by
  simp only [OomMatch.serverMatch, params, Handshake.splitString_eq]
  decide +kernel

example : endOf (OomMatch.serverMatch { value := fun i => i != 2 } offer197 [offer197]) = some (false, none, none) := by
  simp only [OomMatch.serverMatch, params, Handshake.splitString_eq]
  decide +kernel

example : endOf (OomMatch.serverMatch { deflate := fun _ => .later } offer197 [offer197]) = some (false, none, none) := by
  simp only [OomMatch.serverMatch, params, Handshake.splitString_eq]
  decide +kernel

end Verif.Props
