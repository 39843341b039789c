import Verif.Model.Injection
import Verif.Props.Routing
import Verif.Props.Answer
import Verif.Lemmas.Holds
/-!
# C175: endpoints can be injected into an instance that runs and removed again
-/
namespace Verif.Props
open Verif.UMap Verif.Message Verif.Answer Verif.Endpoint Verif.Spec.Routing Verif.Spec.Segments
open Verif.Injection (Selects Answers)
open Verif.Strtok (fields_snoc_sep fields_cons_sep)

namespace Inject

theorem segs_trim (a : Bytes) (i j : Nat) : segments (List.replicate i 0x2f ++ a ++ List.replicate j 0x2f) = segments a := by
  have h1 : ∀ (n : Nat) (b : Bytes), segments (b ++ List.replicate n 0x2f) = segments b := by
    intro n
    induction n with
    | zero => intro b; simp
    | succ n ih =>
      intro b
      rw [List.replicate_succ', ← List.append_assoc, segments, fields_snoc_sep]
      exact ih b
  have h2 : ∀ (n : Nat) (b : Bytes), segments (List.replicate n 0x2f ++ b) = segments b := by
    intro n b
    induction n with
    | zero => rfl
    | succ n ih =>
      rw [List.replicate_succ, List.cons_append, segments, fields_cons_sep]
      exact ih
  rw [h1, h2]

theorem segs_same {a b : Option Bytes} (h : SameOpt a b) : segments (a.getD []) = segments (b.getD []) := by
  match a, b, h with
  | none, none, _ => rfl
  | some a, some b, h =>
    obtain ⟨core, i, j, k, l, -, -, rfl, rfl⟩ := h
    simp only [Option.getD_some]
    rw [segs_trim, segs_trim]

/-- Endpoints designated by an endpoint are meant for the same requests. -/
theorem handles_same {e x : Endpoint} (h : Designates e x) (method url : Bytes) : Handles method url x ↔ Handles method url e := by
  unfold Handles formatSegments
  rw [h.1, segs_same h.2.1, segs_same h.2.2]

/-- What is selected depends only on the endpoints meant for the request. -/
theorem selects_eq {s : Inst} {l : List Endpoint} (hs : Holds s l) (hl : ∀ e ∈ l, e.method.isSome) (method url : Bytes) (r : List Endpoint) :
    Selects s method url r ↔ Sorted (l.filter (sel method url)) r := by
  rcases hs with ⟨rfl, rfl⟩ | ⟨z, hz, rfl⟩
  · show r = [] ↔ _
    constructor
    · rintro rfl; exact ⟨.refl _, .nil⟩
    · rintro ⟨h, -⟩; exact h.symm.eq_nil
  · show EndpointMatch method url (l ++ [z]) r ↔ _
    have := matchLoop_eq method url l [] z hz hl
    constructor
    · rintro ⟨l', h1, h2⟩
      rw [this] at h1
      injection h1 with h1
      exact h1 ▸ h2
    · exact fun h => ⟨_, this, h⟩

theorem answers_eq {σ : Type} (cfg : Cfg σ) (cb : Endpoint → Callback σ) (dflt : Option (Callback σ)) (user : σ) {s s' : Inst} {l l' : List Endpoint}
    (hs : Holds s l) (hl : ∀ e ∈ l, e.method.isSome) (hs' : Holds s' l') (hl' : ∀ e ∈ l', e.method.isSome) {method url : Bytes}
    (h : l.filter (sel method url) = l'.filter (sel method url)) (a) :
    Answers cfg cb dflt user s method url a ↔ Answers cfg cb dflt user s' method url a := by
  unfold Answers
  simp only [selects_eq hs hl, selects_eq hs' hl', h]

end Inject
open Inject

variable {σ : Type}

/-- **C175, an endpoint is added.** Whatever endpoints the instance has and whatever callbacks do: requests the new endpoint is not meant for are answered as
before, in all the ways they could be answered before. -/
theorem C175_add (s : Inst) (l : List Endpoint) (hs : Holds s l) (hl : ∀ x ∈ l, x.method.isSome) (e : Endpoint) (he : Acceptable e) :
    ∃ s', addEndpoint s e = .ok (.ok, s') ∧ ∀ (cfg : Cfg σ) cb dflt user method url, ¬ Handles method url e →
      ∀ a, Answers cfg cb dflt user s' method url a ↔ Answers cfg cb dflt user s method url a := by
  have hn : ¬ Null e := by rintro ⟨h, _⟩; have := he.1; rw [h] at this; cases this
  obtain ⟨s', h1, h2⟩ := (C20_add s l e hs hn).1 he
  have hl' : ∀ x ∈ l ++ [e], x.method.isSome := by
    intro x hx
    rw [List.mem_append, List.mem_singleton] at hx
    rcases hx with hx | rfl
    · exact hl x hx
    · exact he.1
  refine ⟨s', h1, fun cfg cb dflt user method url hh a => answers_eq cfg cb dflt user h2 hl' hs hl ?_ a⟩
  have : sel method url e = false := by
    cases h : sel method url e
    · rfl
    · exact absurd ((sel_iff method url e he.1).1 h) hh
  simp [List.filter_append, this]

/-- **C175, an endpoint is removed.** Requests the removed endpoint is not meant for are answered as before. -/
theorem C175_remove (s : Inst) (l : List Endpoint) (hs : Holds s l) (hl : ∀ x ∈ l, x.method.isSome) (e : Endpoint) (hm : e.method.isSome)
    (hf : e.pfx.isSome ∨ e.format.isSome) :
    ∃ rc s', removeEndpoint s e = .ok (rc, s') ∧ ∀ (cfg : Cfg σ) cb dflt user method url, ¬ Handles method url e →
      ∀ a, Answers cfg cb dflt user s' method url a ↔ Answers cfg cb dflt user s method url a := by
  obtain ⟨rc, s', keep, hk, hr, hs', -⟩ := C21_remove s l e hs hm hf
  refine ⟨rc, s', hr, fun cfg cb dflt user method url hh a =>
    answers_eq cfg cb dflt user hs' (fun x hx => hl x (List.mem_filter.1 hx).1) hs hl ?_ a⟩
  rw [List.filter_filter]
  refine List.filter_congr fun x hx => ?_
  cases hkx : keep x
  · have hd : Designates e x := Classical.not_not.1 fun h => by rw [(hk x).2 h] at hkx; cases hkx
    have : sel method url x = false := by
      cases h : sel method url x
      · rfl
      · exact absurd ((handles_same hd method url).1 ((sel_iff method url x (hl x hx)).1 h)) hh
    rw [this]
    rfl
  · simp

/-- What a history does to an instance that holds `l`, and to one that holds `l` and endpoints designated by `e`. -/
private theorem two_runs (e : Endpoint) (keep : Endpoint → Bool) (hk : ∀ x, keep x = true ↔ ¬ Designates e x) : ∀ (h : List EpOp) (s s' : Inst)
    (l l' : List Endpoint), Holds s l → Holds s' l' → (∀ x ∈ l, x.method.isSome) → (∀ x ∈ l', x.method.isSome) → l'.filter keep = l →
    (∀ x, EpOp.add x ∈ h → ¬ Null x ∧ ¬ Designates e x) →
    ∃ t t' m m', runEp s h = .ok t ∧ runEp s' h = .ok t' ∧ Holds t m ∧ Holds t' m' ∧ (∀ x ∈ m, x.method.isSome) ∧ (∀ x ∈ m', x.method.isSome) ∧
      m'.filter keep = m := by
  intro h
  induction h with
  | nil => exact fun s s' l l' a b c d f _ => ⟨s, s', l, l', rfl, rfl, a, b, c, d, f⟩
  | cons op t ih =>
    intro s s' l l' hs hs' hl hl' hf hn
    have hn' : ∀ x, EpOp.add x ∈ t → ¬ Null x ∧ ¬ Designates e x := fun x hx => hn x (by simp [hx])
    cases op with
    | add x =>
      obtain ⟨hx1, hx2⟩ := hn x (by simp)
      by_cases ha : Acceptable x
      · obtain ⟨u, hu, hhu⟩ := (C20_add s l x hs hx1).1 ha
        obtain ⟨u', hu', hhu'⟩ := (C20_add s' l' x hs' hx1).1 ha
        have hsome : ∀ l : List Endpoint, (∀ x ∈ l, x.method.isSome) → ∀ y ∈ l ++ [x], y.method.isSome := by
          intro l hl y hy
          rw [List.mem_append, List.mem_singleton] at hy
          rcases hy with hy | rfl
          · exact hl y hy
          · exact ha.1
        simp only [runEp, hu, hu', Res.ok_bind]
        exact ih u u' _ _ hhu hhu' (hsome l hl) (hsome l' hl') (by rw [List.filter_append, hf]; simp [(hk x).2 hx2]) hn'
      · simp only [runEp, (C20_add s l x hs hx1).2 ha, (C20_add s' l' x hs' hx1).2 ha, Res.ok_bind]
        exact ih s s' l l' hs hs' hl hl' hf hn'
    | remove x =>
      by_cases hm : x.method = none ∨ (x.pfx = none ∧ x.format = none)
      · simp only [runEp, C21_remove_params s x hm, C21_remove_params s' x hm, Res.ok_bind]
        exact ih s s' l l' hs hs' hl hl' hf hn'
      · rw [not_or, Classical.not_and_iff_not_or_not, ← ne_eq, ← ne_eq, ← ne_eq, Option.ne_none_iff_isSome, Option.ne_none_iff_isSome,
          Option.ne_none_iff_isSome] at hm
        obtain ⟨rc, u, k1, hk1, hu, hhu, -⟩ := C21_remove s l x hs hm.1 hm.2
        obtain ⟨rc', u', k2, hk2, hu', hhu', -⟩ := C21_remove s' l' x hs' hm.1 hm.2
        have hkk : k1 = k2 := funext fun y => Bool.eq_iff_iff.2 ((hk1 y).trans (hk2 y).symm)
        subst hkk
        simp only [runEp, hu, hu', Res.ok_bind]
        refine ih u u' _ _ hhu hhu' (fun y hy => hl y (List.mem_filter.1 hy).1) (fun y hy => hl' y (List.mem_filter.1 hy).1) ?_ hn'
        rw [← hf, List.filter_filter, List.filter_filter]
        exact List.filter_congr fun y _ => Bool.and_comm ..

/-- **C175, the endpoint comes and goes.** An endpoint is added to an instance that has none with its method, prefix and format, then other endpoints are added
and removed, then it is removed: every request is answered as if it had never been there. -/
theorem C175_back (s : Inst) (l : List Endpoint) (hs : Holds s l) (hl : ∀ x ∈ l, x.method.isSome) (e : Endpoint) (he : Acceptable e)
    (h : List EpOp) (hnew : ∀ x ∈ l, ¬ Designates e x) (hh : ∀ x, EpOp.add x ∈ h → ¬ Null x ∧ ¬ Designates e x) :
    ∃ t t', runEp s h = .ok t ∧ runEp s (.add e :: h ++ [.remove e]) = .ok t' ∧ ∀ (cfg : Cfg σ) cb dflt user method url,
      ∀ a, Answers cfg cb dflt user t' method url a ↔ Answers cfg cb dflt user t method url a := by
  have hn : ¬ Null e := by rintro ⟨h, _⟩; have := he.1; rw [h] at this; cases this
  obtain ⟨s1, h1, h2⟩ := (C20_add s l e hs hn).1 he
  obtain ⟨-, -, keep, hk, -⟩ := C21_remove s l e hs he.1 he.2.2
  have hfl : l.filter keep = l := List.filter_eq_self.2 fun x hx => (hk x).2 (hnew x hx)
  have hself : Designates e e := by
    have hsame : ∀ o : Option Bytes, SameOpt o o := by
      intro o
      have : sameTrim o o = true := by unfold sameTrim; exact beq_self_eq_true _
      exact (sameTrim_iff o o).1 this
    exact ⟨rfl, hsame _, hsame _⟩
  obtain ⟨t, t1, m, m1, r1, r2, k1, k2, k3, k4, k5⟩ := two_runs e keep hk h s s1 l (l ++ [e]) hs h2 hl (by
    intro x hx
    rw [List.mem_append, List.mem_singleton] at hx
    rcases hx with hx | rfl
    · exact hl x hx
    · exact he.1) (by
      rw [List.filter_append, hfl]
      have : keep e = false := by
        cases hke : keep e
        · rfl
        · exact absurd hself ((hk e).1 hke)
      simp [this]) hh
  obtain ⟨rc, t2, keep2, hk2, hr2, hs2, -⟩ := C21_remove t1 m1 e k2 he.1 he.2.2
  have hkk : keep2 = keep := funext fun y => Bool.eq_iff_iff.2 ((hk2 y).trans (hk y).symm)
  rw [hkk, k5] at hs2
  have hrun : ∀ (a b : List EpOp) (s s' : Inst), runEp s a = .ok s' → runEp s (a ++ b) = runEp s' b := by
    intro a b
    induction a with
    | nil => intro s s' h; rw [runEp, Res.ok.injEq] at h; subst h; rfl
    | cons op t ih =>
      intro s s' h
      cases op <;> rw [List.cons_append, runEp] <;> rw [runEp] at h
      · rename_i e
        cases ha : addEndpoint s e with
        | ub => rw [ha] at h; simp at h
        | ok x => rw [ha] at h; exact ih _ _ h
      · rename_i e
        cases ha : removeEndpoint s e with
        | ub => rw [ha] at h; simp at h
        | ok x => rw [ha] at h; exact ih _ _ h
  refine ⟨t, t2, r1, ?_, fun cfg cb dflt user method url a => answers_eq cfg cb dflt user hs2 k3 k1 k3 rfl a⟩
  rw [List.cons_append, runEp, h1, Res.ok_bind]
  simp only
  rw [hrun h _ _ _ r2, runEp, hr2]
  rfl

/-- **C175 is false without the condition of `C175_back`**: when the instance already has an endpoint with this method, prefix and format, removing the injected
one removes that one too: a request that was answered gets 404. -/
theorem C175_twin_false : ∃ (e e' : Endpoint) (s t : Inst), Acceptable e ∧ Acceptable e' ∧ runEp Inst.init [.add e] = .ok s ∧
    runEp s [.add e', .remove e'] = .ok t ∧ Handles b!"GET" b!"/a" e ∧ (∀ r, Selects s b!"GET" b!"/a" r ↔ r = [e]) ∧ ∀ r, Selects t b!"GET" b!"/a" r ↔ r = [] := by
  let e : Endpoint := ⟨some b!"GET", some b!"/a", none, 1, some 1, 0⟩
  let e' : Endpoint := ⟨some b!"GET", some b!"/a/", none, 0, some 2, 0⟩
  have he : Acceptable e := ⟨rfl, rfl, .inl rfl⟩
  have hh : Handles b!"GET" b!"/a" e := (sel_iff _ _ e rfl).1 (by decide +kernel)
  refine ⟨e, e', ⟨some [e, emptyEndpoint], 1⟩, ⟨some [emptyEndpoint], 0⟩, he, ⟨rfl, rfl, .inl rfl⟩, by rfl, by decide +kernel, hh, ?_, ?_⟩
  · intro r
    have hs : Holds ⟨some [e, emptyEndpoint], 1⟩ [e] := .inr ⟨emptyEndpoint, ⟨rfl, rfl, rfl⟩, rfl⟩
    rw [selects_eq hs (by simp [e]), show [e].filter (sel b!"GET" b!"/a") = [e] by decide +kernel]
    constructor
    · rintro ⟨h, -⟩; exact h.symm.eq_singleton
    · rintro rfl; exact ⟨.refl _, List.pairwise_singleton _ _⟩
  · intro r
    have hs : Holds ⟨some [emptyEndpoint], 0⟩ [] := .inr ⟨emptyEndpoint, ⟨rfl, rfl, rfl⟩, rfl⟩
    rw [selects_eq hs (by simp)]
    constructor
    · rintro ⟨h, -⟩; exact h.symm.eq_nil
    · rintro rfl; exact ⟨.refl _, .nil⟩

/-! ## The example -/

/-- What is there after `<enter>` was pressed `k` times. -/
def injected : Nat → List Bytes
  | 0 => [b!"first", b!"second", b!"third"]
  | 1 => [b!"first", b!"second", b!"third", b!"fourth"]
  | 2 => [b!"first", b!"second", b!"third", b!"fourth", b!"fifth"]
  | _ => [b!"first", b!"second", b!"third", b!"fifth"]

namespace Inject

def place (n : Bytes) (i : Nat) : Endpoint := ⟨some b!"GET", some b!"/inject", some (0x2f :: n), 1, some i, 0⟩

def numbers : Nat → List (Bytes × Nat)
  | 0 => [(b!"first", 1), (b!"second", 2), (b!"third", 3)]
  | 1 => [(b!"first", 1), (b!"second", 2), (b!"third", 3), (b!"fourth", 4)]
  | 2 => [(b!"first", 1), (b!"second", 2), (b!"third", 3), (b!"fourth", 4), (b!"fifth", 5)]
  | _ => [(b!"first", 1), (b!"second", 2), (b!"third", 3), (b!"fifth", 5)]

theorem stage_holds (k : Nat) (hk : k ≤ 3) : ∃ s, Injection.stage k = .ok s ∧ Holds s ((numbers k).map fun p => place p.1 p.2) := by
  match k, hk with
  | 0, _ => exact ⟨⟨some (((numbers 0).map fun p => place p.1 p.2) ++ [emptyEndpoint]), 3⟩, by decide +kernel, .inr ⟨_, ⟨rfl, rfl, rfl⟩, rfl⟩⟩
  | 1, _ => exact ⟨⟨some (((numbers 1).map fun p => place p.1 p.2) ++ [emptyEndpoint]), 4⟩, by decide +kernel, .inr ⟨_, ⟨rfl, rfl, rfl⟩, rfl⟩⟩
  | 2, _ => exact ⟨⟨some (((numbers 2).map fun p => place p.1 p.2) ++ [emptyEndpoint]), 5⟩, by decide +kernel, .inr ⟨_, ⟨rfl, rfl, rfl⟩, rfl⟩⟩
  | 3, _ => exact ⟨⟨some (((numbers 3).map fun p => place p.1 p.2) ++ [emptyEndpoint]), 4⟩, by decide +kernel, .inr ⟨_, ⟨rfl, rfl, rfl⟩, rfl⟩⟩

theorem numbers_names (k : Nat) (hk : k ≤ 3) : (numbers k).map (·.1) = injected k := by
  match k, hk with
  | 0, _ => rfl
  | 1, _ => rfl
  | 2, _ => rfl
  | 3, _ => rfl

theorem mem_numbers (k : Nat) (p : Bytes × Nat) (h : p ∈ numbers k) :
    p ∈ [(b!"first", 1), (b!"second", 2), (b!"third", 3), (b!"fourth", 4), (b!"fifth", 5)] := by
  match k with
  | 0 => revert p; decide
  | 1 => revert p; decide
  | 2 => exact h
  | n + 3 => revert p; show ∀ p ∈ [(b!"first", 1), (b!"second", 2), (b!"third", 3), (b!"fifth", 5)], _; decide

/-- Formats without parameters match themselves. -/
theorem matches_plain : ∀ (f u : List Bytes), (∀ x ∈ f, x.head? ≠ some 0x3a ∧ x.head? ≠ some 0x40 ∧ x.head? ≠ some 0x2a) → (Matches f u ↔ u = f) := by
  intro f
  have hst : ∀ (c : UInt8) (x : Bytes), x.head? ≠ some c → ¬ StartsWith c x := by
    rintro c x h ⟨t, rfl⟩
    exact h rfl
  induction f with
  | nil =>
    intro u _
    constructor
    · intro h; cases h; rfl
    · rintro rfl; exact .nil
  | cons x t ih =>
    intro u hf
    obtain ⟨h1, h2, h3⟩ := hf x (by simp)
    constructor
    · intro h
      cases h with
      | star h => exact absurd h (hst _ _ h3)
      | cons ha hr =>
        rcases ha with rfl | ha | ha
        · rw [(ih _ fun y hy => hf y (by simp [hy])).1 hr]
        · exact absurd ha (hst _ _ h1)
        · exact absurd ha (hst _ _ h2)
    · rintro rfl
      exact .cons (.inl rfl) ((ih _ fun y hy => hf y (by simp [hy])).2 rfl)

theorem sel_place (method url : Bytes) (k : Nat) (p : Bytes × Nat) (h : p ∈ numbers k) :
    sel method url (place p.1 p.2) = (decide (fold method = fold b!"GET") && decide (segments url = [b!"inject", p.1])) := by
  have hseg : ∀ p ∈ [(b!"first", 1), (b!"second", 2), (b!"third", 3), (b!"fourth", 4), (b!"fifth", 5)],
      formatSegments (some b!"/inject") (some (0x2f :: p.1)) = [b!"inject", p.1] ∧
      ∀ x ∈ [b!"inject", p.1], x.head? ≠ some 0x3a ∧ x.head? ≠ some 0x40 ∧ x.head? ≠ some 0x2a := by decide +kernel
  obtain ⟨h1, h2⟩ := hseg p (mem_numbers k p h)
  rw [Bool.eq_iff_iff, sel_iff _ _ _ rfl, Bool.and_eq_true, decide_eq_true_iff, decide_eq_true_iff]
  unfold Handles
  show (∃ m, some b!"GET" = some m ∧ _) ∧ Matches (formatSegments (some b!"/inject") (some (0x2f :: p.1))) _ ↔ _
  rw [h1, matches_plain _ _ h2]
  refine and_congr ⟨?_, fun h => ⟨_, rfl, .inl h.symm⟩⟩ Iff.rfl
  rintro ⟨m, hm, h⟩
  injection hm with hm
  subst hm
  rcases h with h | ⟨t, h⟩
  · exact h.symm
  · cases h

theorem filter_place (method url : Bytes) (k : Nat) :
    ((numbers k).map fun p => place p.1 p.2).filter (sel method url) =
      ((numbers k).filter fun p => decide (fold method = fold b!"GET") && decide (segments url = [b!"inject", p.1])).map fun p => place p.1 p.2 := by
  rw [List.filter_map]
  congr 1
  exact List.filter_congr fun p hp => sel_place method url k p hp

def textOf (i : Nat) : Bytes := match i with
  | 1 => b!"Hello World from callback_first!"
  | 2 => b!"Hello World from callback_second!"
  | 3 => b!"Hello World from callback_third!"
  | 4 => b!"Hello World from callback_fourth!"
  | _ => b!"Hello World from callback_fifth!"

theorem callback_text (n : Bytes) (i : Nat) : Injection.callbackOf (place n i) = Injection.greet (textOf i) := by
  unfold Injection.callbackOf place textOf
  match i with
  | 0 => rfl
  | 1 => rfl
  | 2 => rfl
  | 3 => rfl
  | 4 => rfl
  | _ + 5 => rfl

theorem chosen (k : Nat) (hk : k ≤ 3) (n : Bytes) (hn : n ∈ injected k) :
    ∃ i < 6, (numbers k).filter (fun p => decide ([b!"inject", n] = [b!"inject", p.1])) = [(n, i)] ∧
      textOf i = b!"Hello World from callback_" ++ n ++ b!"!" := by
  match k, hk with
  | 0, _ => revert n; decide +kernel
  | 1, _ => revert n; decide +kernel
  | 2, _ => revert n; decide +kernel
  | 3, _ => revert n; decide +kernel

theorem sorted_one {l : List Endpoint} (h1 : l.length ≤ 1) (r : List Endpoint) : Sorted l r ↔ r = l := by
  constructor
  · rintro ⟨h2, -⟩
    match l, h1 with
    | [], _ => exact h2.symm.eq_nil
    | [x], _ => exact h2.symm.eq_singleton
  · rintro rfl
    refine ⟨.refl _, ?_⟩
    match r, h1 with
    | [], _ => exact .nil
    | [x], _ => exact List.pairwise_singleton _ _

theorem serves_one (accept : List Field → Bytes → Bytes → Bool) (k : Nat) (hk : k ≤ 3) {method url : Bytes} {l : List Endpoint} (h1 : l.length ≤ 1)
    (hl : ((numbers k).map fun p => place p.1 p.2).filter (sel method url) = l) {ans : Option Ans} {tr}
    (hd : dispatch { accept := accept, hand := fun _ => .failed, realm := none, defaults := some UMap.init } (l.map Injection.callbackOf) none () = .ok (ans, tr))
    (a : Res (Option Ans)) : Injection.Serves accept k method url a ↔ a = .ok ans := by
  obtain ⟨s, hs, hh⟩ := stage_holds k hk
  have hsome : ∀ e ∈ (numbers k).map fun p => place p.1 p.2, e.method.isSome := by
    intro e he
    obtain ⟨p, -, rfl⟩ := List.mem_map.1 he
    rfl
  constructor
  · rintro ⟨s', r, h2, ⟨r', h3, h4⟩, rfl⟩
    rw [hs] at h2
    injection h2 with h2
    subst h2
    rw [selects_eq hh hsome, hl, sorted_one h1] at h3
    subst h3
    rw [h4, hd]
    rfl
  · rintro rfl
    refine ⟨s, _, hs, ⟨l, ?_, rfl⟩, ?_⟩
    · rw [selects_eq hh hsome, hl, sorted_one h1]
    · rw [hd]
      rfl

theorem takes_none (accept : List Field → Bytes → Bytes → Bool) : Takes accept [] (linesOf [] []) := by
  intro a f b h
  cases a <;> cases h

end Inject

/-- **C175, the example.** After `<enter>` was pressed `k` times: a GET request for one of the paths that are there gets the greeting of its callback. -/
theorem C175_example (accept : List Field → Bytes → Bytes → Bool) (k : Nat) (hk : k ≤ 3) {method url n : Bytes} (hm : fold method = fold b!"GET")
    (hu : segments url = [b!"inject", n]) (hn : n ∈ injected k) (a : Res (Option Ans)) :
    Injection.Serves accept k method url a ↔ a = .ok (some ⟨200, none, [], .buffer (b!"Hello World from callback_" ++ n ++ b!"!")⟩) := by
  obtain ⟨i, -, h1, h2⟩ := chosen k hk n hn
  have hf : ((numbers k).map fun p => place p.1 p.2).filter (sel method url) = [place n i] := by
    rw [filter_place]
    simp only [hm, hu, decide_true, Bool.true_and]
    rw [h1]
    rfl
  have hH : initHeaders (some UMap.init) = .ok UMap.init := by decide +kernel
  have hr : HoldsResp (setStringBody { header := UMap.init } 200 (some (textOf i))).2 [] [] (textOf i) :=
    ⟨holds_init, rfl, by simp [setStringBody, bodyOf], by intro b hb; simp only [setStringBody, Option.some.injEq] at hb ⊢; subst hb; simp⟩
  have hd := dispatch_single (σ := Unit) { accept := accept, hand := fun _ => .failed, realm := none, defaults := some UMap.init } (Injection.greet (textOf i)) none ()
    hH (ret := 0) (w := ⟨(setStringBody { header := UMap.init } 200 (some (textOf i))).2, false, ()⟩) rfl (.inl rfl) rfl rfl hr (takes_none accept)
  rw [← callback_text n i] at hd
  rw [← h2]
  exact serves_one accept k hk (l := [place n i]) (Nat.le_refl 1) hf hd a

/-- **C175, the example.** Every other request gets 404. -/
theorem C175_example_else (accept : List Field → Bytes → Bytes → Bool) (k : Nat) (hk : k ≤ 3) {method url : Bytes}
    (hn : fold method ≠ fold b!"GET" ∨ ∀ n ∈ injected k, segments url ≠ [b!"inject", n]) (a : Res (Option Ans)) :
    Injection.Serves accept k method url a ↔ a = .ok (some ⟨404, none, [], .buffer b!"Resource not found"⟩) := by
  have hf : ((numbers k).map fun p => place p.1 p.2).filter (sel method url) = [] := by
    rw [filter_place, List.map_eq_nil_iff, List.filter_eq_nil_iff]
    intro p hp h
    rw [Bool.and_eq_true, decide_eq_true_iff, decide_eq_true_iff] at h
    rcases hn with hn | hn
    · exact hn h.1
    · exact hn p.1 (by rw [← numbers_names k hk]; exact List.mem_map.2 ⟨p, hp, rfl⟩) h.2
  exact serves_one accept k hk (by decide : ([] : List Endpoint).length ≤ 1) hf rfl a

/-- An instance and an endpoint as in `C175_back`, with changes in between. -/
example : ∃ (l : List Endpoint) (e : Endpoint) (h : List EpOp), l ≠ [] ∧ h ≠ [] ∧ (∀ x ∈ l, x.method.isSome) ∧ Acceptable e ∧ (∀ x ∈ l, ¬ Designates e x) ∧
    ∀ x, EpOp.add x ∈ h → ¬ Null x ∧ ¬ Designates e x := by
  refine ⟨[place b!"first" 1], place b!"fourth" 4, [.add (place b!"fifth" 5), .remove (place b!"first" 1)], by simp, by simp, by simp [place],
    ⟨rfl, rfl, .inl rfl⟩, ?_, ?_⟩
  · intro x hx
    rw [List.mem_singleton] at hx
    subst hx
    rw [← hit_iff]
    decide +kernel
  · intro x hx
    simp only [List.mem_cons, EpOp.add.injEq, List.not_mem_nil, or_false, reduceCtorEq] at hx
    subst hx
    refine ⟨by simp [Null, place], ?_⟩
    rw [← hit_iff]
    decide +kernel

/-- A path written with more slashes, and the method in small letters, after the third time. -/
example (accept : List Field → Bytes → Bytes → Bool) (a : Res (Option Ans)) :
    (Injection.Serves accept 3 b!"get" b!"//inject/fifth/" a ↔ a = .ok (some ⟨200, none, [], .buffer b!"Hello World from callback_fifth!"⟩)) ∧
    (Injection.Serves accept 3 b!"GET" b!"/inject/fourth" a ↔ a = .ok (some ⟨404, none, [], .buffer b!"Resource not found"⟩)) :=
  ⟨C175_example accept 3 (by decide) (n := b!"fifth") (by decide) (by decide +kernel) (by decide) a,
    C175_example_else accept 3 (by decide) (.inr (by decide +kernel)) a⟩

end Verif.Props
