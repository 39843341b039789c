import Verif.Lemmas.Handshake
/-! # Lemmas about the negotiation of websocket extensions -/
namespace Verif.Handshake
open Verif.Strtok Verif.UMap Verif.Ws Verif.Client Verif.Printf
open Verif.Spec.Client Verif.Spec.Handshake Verif.Spec.Segments

/-- What negotiation leaves alone. -/
def SrvExt.base (e : SrvExt) : UInt8 × Option Bytes × Option (Nat → Bytes → List Bytes → Option (Option Bytes)) :=
  (e.rsv, e.server, e.matcher)

/-- What negotiation by the client leaves alone. -/
def CliExt.base (e : CliExt) : UInt8 × Option Bytes × Option (Nat → Bytes → Bool) := (e.rsv, e.client, e.matcher)

/-- The item at position `x` made the server enable `e`. -/
def SrvHit (x : Nat) (item : Bytes) (e : SrvExt) : Prop :=
  match e.matcher with
  | none => ∃ name b, e.server = some name ∧ e.client = some name ∧ item = name ++ b ∧ Blank b
  | some f => ∃ a w b its, item = a ++ w ++ b ∧ Blank a ∧ Blank b ∧ Trimmed w ∧ f x w its = some e.client

/-- The item at position `i` made the client enable `e`. -/
def CliHit (i : Nat) (item : Bytes) (e : CliExt) : Prop :=
  (∃ s b, e.server = some s ∧ item = s ++ b ∧ Blank b) ∧
  ∃ a w b, item = a ++ w ++ b ∧ Blank a ∧ Blank b ∧ Trimmed w ∧
    match e.matcher with
    | none => e.client = some w
    | some f => f i w = true

theorem blank_append {a b : Bytes} (ha : Blank a) (hb : Blank b) : Blank (a ++ b) := by
  intro c hc
  rcases List.mem_append.1 hc with h | h
  · exact ha c h
  · exact hb c h

theorem trimRight_parts (s : Bytes) : ∃ b, s = trimRight s ++ b ∧ Blank b := by
  unfold trimRight
  split
  · exact ⟨[], (List.append_nil s).symm, fun _ h => by cases h⟩
  · refine ⟨(s.reverse.takeWhile isSpace).reverse, ?_, fun c hc => of_mem_takeWhile (List.mem_reverse.1 hc)⟩
    rw [← List.reverse_append, List.takeWhile_append_dropWhile, List.reverse_reverse]

/-- What one item does. -/
structure Step (x : Nat) (item : Bytes) (es : List SrvExt) (n : Nego) (es' : List SrvExt) (n' : Nego) : Prop where
  base : es'.map SrvExt.base = es.map SrvExt.base
  others : ∀ y, y ≠ x → n'.items.getD y [] = n.items.getD y []
  length : n'.items.length = n.items.length
  effect : (es'.filter (·.enabled) = es.filter (·.enabled) ∧ n'.answer = n.answer) ∨
    ∃ a e b, es'.filter (·.enabled) = a ++ e :: b ∧ es.filter (·.enabled) = a ++ b ∧ SrvHit x item e ∧
      n'.answer = addAnswer n.answer e.client

theorem Step.skip {x : Nat} {item : Bytes} {e : SrvExt} {es es' : List SrvExt} {n n' : Nego} (h : Step x item es n es' n') :
    Step x item (e :: es) n (e :: es') n' := by
  refine ⟨by simp [h.base], h.others, h.length, ?_⟩
  rcases h.effect with ⟨h1, h2⟩ | ⟨a, g, b, h1, h2, h3, h4⟩
  · exact Or.inl ⟨by rw [List.filter_cons, List.filter_cons, h1], h2⟩
  · refine Or.inr ?_
    cases he : e.enabled
    · exact ⟨a, g, b, by rw [List.filter_cons, he]; exact h1, by rw [List.filter_cons, he]; exact h2, h3, h4⟩
    · exact ⟨e :: a, g, b, by simp [he, h1], by simp [he, h2], h3, h4⟩

theorem Step.trim {x : Nat} {item : Bytes} {es es' : List SrvExt} {n n' : Nego} {t : Bytes}
    (h : Step x item es { n with items := n.items.set x t } es' n') : Step x item es n es' n' := by
  refine ⟨h.base, ?_, by rw [h.length]; simp, h.effect⟩
  intro y hy
  rw [h.others y hy]
  simp [List.getD_eq_getElem?_getD, List.getElem?_set, Ne.symm hy]

theorem srvItem_step (x : Nat) (item : Bytes) (es : List SrvExt) (n : Nego) (hx : x < n.items.length) (b : Bytes)
    (hb : Blank b) (hi : item = n.items.getD x [] ++ b) : Step x item es n (srvItem x es n).1 (srvItem x es n).2 := by
  induction es generalizing n b with
  | nil => exact ⟨rfl, fun _ _ => rfl, rfl, Or.inl ⟨rfl, rfl⟩⟩
  | cons e t ih =>
    rw [srvItem]
    by_cases he : e.enabled = true
    · rw [if_pos he]
      exact (ih n hx b hb hi).skip
    · rw [if_neg he]
      have he' : e.enabled = false := by simpa using he
      cases hm : e.matcher with
      | none =>
        simp only
        by_cases h1 : some (n.items.getD x []) = e.server
        · rw [if_pos h1]
          by_cases h2 : e.rsv &&& n.rsv = 0
          · rw [if_pos h2]
            refine ⟨by simp [SrvExt.base, hm], fun _ _ => rfl, rfl, Or.inr ⟨[], _, t.filter (·.enabled), rfl, by simp [he'], ?_, rfl⟩⟩
            unfold SrvHit
            simp only
            exact ⟨_, b, h1.symm, rfl, hi, hb⟩
          · rw [if_neg h2]
            exact (ih n hx b hb hi).skip
        · rw [if_neg h1]
          exact (ih n hx b hb hi).skip
      | some f =>
        simp only
        obtain ⟨b1, hb1, hb1'⟩ := trimRight_parts (n.items.getD x [])
        obtain ⟨a2, b2, h2, ha2, hb2, ht2⟩ := trimSpace_parts (n.items.getD x [])
        cases hf : f x (trimSpace (n.items.getD x [])) (n.items.set x (trimRight (n.items.getD x []))) with
        | none =>
          simp only
          refine Step.trim (t := trimRight (n.items.getD x [])) (Step.skip (ih _ (by simpa using hx) (b1 ++ b) (blank_append hb1' hb) ?_))
          rw [hi]
          simp only [List.getD_eq_getElem?_getD, List.getElem?_set, if_true, hx]
          rw [← List.append_assoc, Option.getD_some]
          rw [List.getD_eq_getElem?_getD] at hb1
          rw [← hb1]
        | some c =>
          simp only
          by_cases h3 : e.rsv &&& n.rsv = 0
          · rw [if_pos h3]
            refine ⟨by simp [SrvExt.base, hm], ?_, by simp, Or.inr ⟨[], _, t.filter (·.enabled), rfl, by simp [he'], ?_, rfl⟩⟩
            · intro y hy
              simp [List.getD_eq_getElem?_getD, List.getElem?_set, Ne.symm hy]
            · unfold SrvHit
              simp only
              refine ⟨a2, _, b2 ++ b, _, ?_, ha2, blank_append hb2 hb, ht2, hf⟩
              rw [← List.append_assoc, ← h2]
              exact hi
          · rw [if_neg h3]
            refine ⟨by simp [SrvExt.base, hm], ?_, by simp, Or.inl ⟨by simp [he'], rfl⟩⟩
            intro y hy
            simp [List.getD_eq_getElem?_getD, List.getElem?_set, Ne.symm hy]

/-- The text of the answer after some extensions were enabled. -/
def joined : List (Option Bytes) → Option Bytes
  | [] => none
  | cs => some (commaJoin (cs.map str))

theorem str_some (s : Bytes) : str (some s) = s := rfl

theorem addAnswer_joined (cs : List (Option Bytes)) (c : Option Bytes) (hc : c.isSome) :
    addAnswer (joined cs) c = joined (cs ++ [c]) := by
  obtain ⟨s, rfl⟩ := Option.isSome_iff_exists.1 hc
  cases cs with
  | nil => rfl
  | cons d t =>
    show some (commaJoin ((d :: t).map str) ++ b!", " ++ str (some s)) = some (commaJoin ((d :: t ++ [some s]).map str))
    rw [List.map_append, show List.map str [some s] = [s] from rfl, commaJoin_snoc _ _ (by simp)]; rfl

/-- The whole loop. -/
theorem srvItems_log (orig : List Bytes) (k m : Nat) (es0 es : List SrvExt) (n : Nego)
    (log : List (Nat × SrvExt)) (hk : k + m = orig.length) (hl : n.items.length = orig.length)
    (hun : ∀ y, k ≤ y → n.items.getD y [] = orig.getD y [])
    (hb : es.map SrvExt.base = es0.map SrvExt.base)
    (hcb : ∀ e ∈ es0, ∀ f, e.matcher = some f → ∀ x w its c, f x w its = some c → c.isSome)
    (hord : (log.map (·.1)).Pairwise (· < ·)) (hlt : ∀ p ∈ log, p.1 < k)
    (hperm : (log.map (·.2)).Perm (es.filter (·.enabled)))
    (hhit : ∀ p ∈ log, SrvHit p.1 (orig.getD p.1 []) p.2) (ha : n.answer = joined (log.map (·.2.client))) :
    ∃ log' : List (Nat × SrvExt), let r := srvItems (List.range' k m) es n
      r.1.map SrvExt.base = es0.map SrvExt.base ∧ (log'.map (·.1)).Pairwise (· < ·) ∧ (∀ p ∈ log', p.1 < orig.length) ∧
      (log'.map (·.2)).Perm (r.1.filter (·.enabled)) ∧ (∀ p ∈ log', SrvHit p.1 (orig.getD p.1 []) p.2) ∧
      r.2.answer = joined (log'.map (·.2.client)) := by
  induction m generalizing k es n log with
  | zero => exact ⟨log, hb, hord, fun p hp => by have := hlt p hp; omega, hperm, hhit, ha⟩
  | succ m ih =>
    have st := srvItem_step k (orig.getD k []) es n (by omega) [] (fun _ h => by cases h) (by rw [List.append_nil, hun k (Nat.le_refl k)])
    rw [List.range'_succ]
    simp only [srvItems]
    have hun' : ∀ y, k + 1 ≤ y → (srvItem k es n).2.items.getD y [] = orig.getD y [] := fun y hy => by
      rw [st.others y (by omega), hun y (by omega)]
    rcases st.effect with ⟨h1, h2⟩ | ⟨a, e, b, h1, h2, h3, h4⟩
    · exact ih (k + 1) _ _ log (by omega) (by rw [st.length, hl]) hun' (st.base.trans hb) hord
        (fun p hp => Nat.lt_succ_of_lt (hlt p hp)) (by rw [h1]; exact hperm) hhit (by rw [h2]; exact ha)
    · have hc : e.client.isSome := by
        unfold SrvHit at h3
        cases hm : e.matcher with
        | none =>
          rw [hm] at h3
          obtain ⟨name, _, _, h, _⟩ := h3
          rw [h]; rfl
        | some f =>
          rw [hm] at h3
          obtain ⟨_, w, _, its, _, _, _, _, h⟩ := h3
          have hmem : e ∈ (srvItem k es n).1 := by
            have : e ∈ (srvItem k es n).1.filter (·.enabled) := by rw [h1]; simp
            exact (List.mem_filter.1 this).1
          have : e.base ∈ es0.map SrvExt.base := by
            rw [← hb, ← st.base]
            exact List.mem_map_of_mem hmem
          obtain ⟨e0, h0, h0'⟩ := List.mem_map.1 this
          have hm0 : e0.matcher = some f := by
            have : e0.matcher = e.matcher := congrArg (fun p => p.2.2) h0'
            rw [this, hm]
          exact hcb e0 h0 f hm0 _ _ _ _ h
      refine ih (k + 1) _ _ (log ++ [(k, e)]) (by omega) (by rw [st.length, hl]) hun' (st.base.trans hb) ?_ ?_ ?_ ?_ ?_
      · rw [List.map_append, List.pairwise_append]
        refine ⟨hord, by simp, ?_⟩
        intro x hx y hy
        obtain ⟨p, hp, rfl⟩ := List.mem_map.1 hx
        simp at hy
        rw [hy]
        exact hlt p hp
      · intro p hp
        rcases List.mem_append.1 hp with h | h
        · exact Nat.lt_succ_of_lt (hlt p h)
        · simp at h; rw [h]; exact Nat.lt_succ_self k
      · rw [h1, List.map_append]
        have : (log.map (·.2) ++ [e]).Perm ((a ++ b) ++ [e]) := (h2 ▸ hperm).append_right [e]
        refine this.trans ?_
        rw [List.append_assoc]
        exact List.Perm.append_left a (List.perm_append_comm)
      · intro p hp
        rcases List.mem_append.1 hp with h | h
        · exact hhit p h
        · simp at h; rw [h]; exact h3
      · rw [h4, ha, List.map_append]
        exact addAnswer_joined _ _ hc

/-! ## Extensions without match callback -/

/-- What an item does to one extension. -/
def switchOn (item : Bytes) (e : SrvExt) : SrvExt :=
  if e.enabled = false ∧ e.server = some item then { e with enabled := true, client := some item } else e

theorem switchOn_rest (item : Bytes) (t : List SrvExt) (h : some item ∉ t.map (·.server)) : t.map (switchOn item) = t := by
  induction t with
  | nil => rfl
  | cons e t ih =>
    simp only [List.map_cons, List.mem_cons, not_or] at h
    rw [List.map_cons, ih h.2, switchOn, if_neg (fun h' => h.1 h'.2.symm)]

theorem srvItem_names (x : Nat) (es : List SrvExt) (n : Nego) (hm : ∀ e ∈ es, e.matcher = none)
    (hd : (es.map (·.rsv)).Pairwise (fun a b => a &&& b = 0)) (hs : (es.map (·.server)).Nodup)
    (hq : ∀ e ∈ es, e.enabled = false → e.rsv &&& n.rsv = 0) :
    (srvItem x es n).1 = es.map (switchOn (n.items.getD x [])) ∧ (srvItem x es n).2.items = n.items ∧
    ((srvItem x es n).2.rsv = n.rsv ∨ ∃ g ∈ es, (srvItem x es n).2.rsv = n.rsv ||| g.rsv) ∧
    ∀ e ∈ (srvItem x es n).1, e.enabled = false → e.rsv &&& (srvItem x es n).2.rsv = 0 := by
  induction es with
  | nil => exact ⟨rfl, rfl, Or.inl rfl, fun e h => by cases h⟩
  | cons e t ih =>
    rw [List.map_cons, List.pairwise_cons] at hd
    rw [List.map_cons, List.nodup_cons] at hs
    obtain ⟨h1, h2, h3, h4⟩ := ih (fun g hg => hm g (List.mem_cons_of_mem _ hg)) hd.2 hs.2 (fun g hg => hq g (List.mem_cons_of_mem _ hg))
    have skip : switchOn (n.items.getD x []) e = e →
        e :: (srvItem x t n).1 = (e :: t).map (switchOn (n.items.getD x [])) ∧ (srvItem x t n).2.items = n.items ∧
        ((srvItem x t n).2.rsv = n.rsv ∨ ∃ g ∈ e :: t, (srvItem x t n).2.rsv = n.rsv ||| g.rsv) ∧
        ∀ g ∈ e :: (srvItem x t n).1, g.enabled = false → g.rsv &&& (srvItem x t n).2.rsv = 0 := by
      intro he
      refine ⟨by rw [h1, List.map_cons, he], h2, ?_, ?_⟩
      · rcases h3 with h3 | ⟨g, hg, h3⟩
        · exact Or.inl h3
        · exact Or.inr ⟨g, List.mem_cons_of_mem _ hg, h3⟩
      · intro g hg hen
        rcases List.mem_cons.1 hg with rfl | hg
        · rcases h3 with h3 | ⟨k, hk, h3⟩
          · rw [h3]; exact hq g List.mem_cons_self hen
          · rw [h3, and_or_zero]
            exact ⟨hq g List.mem_cons_self hen, hd.1 _ (List.mem_map_of_mem hk)⟩
        · exact h4 g hg hen
    rw [srvItem]
    by_cases he : e.enabled = true
    · rw [if_pos he]
      exact skip (by rw [switchOn, if_neg (by rw [he]; simp)])
    · have he' : e.enabled = false := by simpa using he
      rw [if_neg he, hm e List.mem_cons_self]
      simp only
      by_cases hn : some (n.items.getD x []) = e.server
      · rw [if_pos hn, if_pos (hq e List.mem_cons_self he')]
        refine ⟨?_, rfl, Or.inr ⟨e, List.mem_cons_self, rfl⟩, ?_⟩
        · rw [List.map_cons, switchOn_rest _ t (by rw [hn]; exact hs.1), switchOn, if_pos ⟨he', hn.symm⟩, hm e List.mem_cons_self]
        · intro g hg hen
          rcases List.mem_cons.1 hg with rfl | hg
          · cases hen
          · show g.rsv &&& (n.rsv ||| e.rsv) = 0
            rw [and_or_zero]
            refine ⟨hq g (List.mem_cons_of_mem _ hg) hen, ?_⟩
            rw [UInt8.and_comm]
            exact hd.1 _ (List.mem_map_of_mem hg)
      · rw [if_neg hn]
        exact skip (by rw [switchOn, if_neg (fun h => hn h.2.symm)])

theorem srvItems_names (orig : List Bytes) (xs : List Nat) (es : List SrvExt) (n : Nego) (ho : n.items = orig)
    (hm : ∀ e ∈ es, e.matcher = none) (hd : (es.map (·.rsv)).Pairwise (fun a b => a &&& b = 0)) (hs : (es.map (·.server)).Nodup)
    (hq : ∀ e ∈ es, e.enabled = false → e.rsv &&& n.rsv = 0) (i : Nat) (e e' : SrvExt) (he : es[i]? = some e)
    (he' : (srvItems xs es n).1[i]? = some e') :
    e'.enabled = true ↔ e.enabled = true ∨ ∃ x ∈ xs, e.server = some (orig.getD x []) := by
  induction xs generalizing es n e with
  | nil =>
    rw [srvItems] at he'
    rw [he] at he'
    simp only [Option.some.injEq] at he'
    simp [he']
  | cons x xs ih =>
    obtain ⟨h1, h2, -, h4⟩ := srvItem_names x es n hm hd hs hq
    rw [srvItems] at he'
    have hb : ∀ g : SrvExt, (switchOn (n.items.getD x []) g).rsv = g.rsv ∧ (switchOn (n.items.getD x []) g).server = g.server ∧
        (switchOn (n.items.getD x []) g).matcher = g.matcher := by
      intro g; unfold switchOn; split <;> exact ⟨rfl, rfl, rfl⟩
    have := ih (srvItem x es n).1 (srvItem x es n).2 (h2.trans ho) ?_ ?_ ?_ h4 (switchOn (n.items.getD x []) e) ?_ he'
    · rw [this, (hb e).2.1, ho]
      have : (switchOn (orig.getD x []) e).enabled = true ↔ e.enabled = true ∨ e.server = some (orig.getD x []) := by
        unfold switchOn
        split
        · rename_i h; simp [h]
        · rename_i h
          cases hen : e.enabled
          · simp [hen] at h; simp [h]
          · simp
      rw [this]
      simp [or_assoc]
    · intro g hg
      rw [h1] at hg
      obtain ⟨k, hk, rfl⟩ := List.mem_map.1 hg
      rw [(hb k).2.2]; exact hm k hk
    · rw [h1, List.map_map, show (fun e : SrvExt => e.rsv) ∘ switchOn (n.items.getD x []) = (·.rsv) from funext fun g => (hb g).1]
      exact hd
    · rw [h1, List.map_map, show (fun e : SrvExt => e.server) ∘ switchOn (n.items.getD x []) = (·.server) from funext fun g => (hb g).2.1]
      exact hs
    · rw [h1, List.getElem?_map, he]; rfl

/-! ## The client -/

theorem cliItem_step (i : Nat) (item : Bytes) (es : List CliExt) (rsv : UInt8) :
    (cliItem i item es rsv).1.map CliExt.base = es.map CliExt.base ∧
    if (cliItem i item es rsv).2.2 = true then
      ∃ a e b, (cliItem i item es rsv).1.filter (·.enabled) = a ++ e :: b ∧ es.filter (·.enabled) = a ++ b ∧ CliHit i item e
    else (cliItem i item es rsv).1 = es := by
  induction es with
  | nil => exact ⟨rfl, by simp [cliItem]⟩
  | cons e t ih =>
    have skip : (e :: (cliItem i item t rsv).1).map CliExt.base = (e :: t).map CliExt.base ∧
        if (cliItem i item t rsv).2.2 = true then
          ∃ a g b, (e :: (cliItem i item t rsv).1).filter (·.enabled) = a ++ g :: b ∧ (e :: t).filter (·.enabled) = a ++ b ∧ CliHit i item g
        else e :: (cliItem i item t rsv).1 = e :: t := by
      refine ⟨by simp [ih.1], ?_⟩
      have h := ih.2
      split
      · rename_i h0
        rw [if_pos h0] at h
        obtain ⟨a, g, b, h1, h2, h3⟩ := h
        cases he : e.enabled
        · exact ⟨a, g, b, by rw [List.filter_cons, he]; exact h1, by rw [List.filter_cons, he]; exact h2, h3⟩
        · exact ⟨e :: a, g, b, by simp [he, h1], by simp [he, h2], h3⟩
      · rename_i h0
        rw [if_neg h0] at h
        rw [h]
    rw [cliItem]
    by_cases he : e.enabled = true
    · rw [if_pos he]; exact skip
    · rw [if_neg he]
      have he' : e.enabled = false := by simpa using he
      by_cases hh : e.hits i item = true
      · rw [if_pos hh]
        by_cases h3 : e.rsv &&& rsv = 0
        · rw [if_pos h3]
          refine ⟨rfl, ?_⟩
          rw [if_pos rfl]
          refine ⟨[], _, t.filter (·.enabled), rfl, by simp [he'], ?_, ?_⟩
          · obtain ⟨b, h1, h2⟩ := trimRight_parts item
            exact ⟨_, b, rfl, h1, h2⟩
          · obtain ⟨a, b, h1, h2, h4, h5⟩ := trimSpace_parts item
            refine ⟨a, _, b, h1, h2, h4, h5, ?_⟩
            unfold CliExt.hits at hh
            simp only
            cases hm : e.matcher with
            | none => rw [hm] at hh; exact (eq_of_beq hh).symm
            | some f => rw [hm] at hh; exact hh
        · rw [if_neg h3]
          exact ⟨rfl, by simp⟩
      · rw [if_neg hh]; exact skip

theorem cliItems_log (orig : List Bytes) (k : Nat) (rest : List Bytes) (es0 es : List CliExt) (rsv : UInt8) (log : List CliExt)
    (hk : orig.drop k = rest) (hlen : log.length = k) (hkl : k ≤ orig.length) (hb : es.map CliExt.base = es0.map CliExt.base)
    (hperm : log.Perm (es.filter (·.enabled))) (hhit : ∀ i e, log[i]? = some e → CliHit i (orig.getD i []) e) :
    (cliItems k rest es rsv).1.map CliExt.base = es0.map CliExt.base ∧
    ((cliItems k rest es rsv).2.2 = true → ∃ log' : List CliExt, log'.length = orig.length ∧
      log'.Perm ((cliItems k rest es rsv).1.filter (·.enabled)) ∧
      ∀ i e, log'[i]? = some e → CliHit i (orig.getD i []) e) := by
  induction rest generalizing k es rsv log with
  | nil =>
    have : orig.length ≤ k := List.drop_eq_nil_iff.1 hk
    exact ⟨hb, fun _ => ⟨log, by omega, hperm, hhit⟩⟩
  | cons item t ih =>
    have st := cliItem_step k item es rsv
    rw [cliItems]
    have hitem : orig.getD k [] = item ∧ orig.drop (k + 1) = t ∧ k < orig.length := by
      have hlt : k < orig.length := by
        rcases Nat.lt_or_ge k orig.length with h | h
        · exact h
        · rw [List.drop_eq_nil_of_le h] at hk; cases hk
      have := List.drop_eq_getElem_cons hlt
      rw [hk] at this
      simp only [List.cons.injEq] at this
      exact ⟨by rw [List.getD_eq_getElem?_getD, List.getElem?_eq_getElem hlt]; exact this.1.symm, this.2.symm, hlt⟩
    generalize hr : cliItem k item es rsv = r at st
    obtain ⟨es1, rsv1, ok⟩ := r
    cases ok with
    | false => exact ⟨st.1.trans hb, fun h => by cases h⟩
    | true =>
      have h := st.2
      rw [if_pos rfl] at h
      obtain ⟨a, e, b, h1, h2, h3⟩ := h
      refine ih (k + 1) es1 rsv1 (log ++ [e]) hitem.2.1 (by simp [hlen]) (by omega) (st.1.trans hb) ?_ ?_
      · rw [h1]
        have : (log ++ [e]).Perm ((a ++ b) ++ [e]) := (h2 ▸ hperm).append_right [e]
        refine this.trans ?_
        rw [List.append_assoc]
        exact List.Perm.append_left a (List.perm_append_comm)
      · intro i g hg
        rcases Nat.lt_or_ge i k with h | h
        · rw [List.getElem?_append_left (by omega)] at hg
          exact hhit i g hg
        · rw [List.getElem?_append_right (by omega)] at hg
          have : i = k := by
            have : i - log.length < [e].length := (List.getElem?_eq_some_iff.1 hg).1
            simp at this; omega
          subst this
          rw [show i - log.length = 0 by omega] at hg
          simp at hg
          rw [← hg, hitem.1]
          exact h3

end Verif.Handshake
