import Verif.Model.Upgrade
import Verif.Props.Extensions
import Verif.Props.WsOpen
/-!
# C149: a websocket client and a websocket server of the library open a connection with each other
-/
namespace Verif.Props
open Verif.Strtok Verif.UMap Verif.Ws Verif.Handshake Verif.WsOpen
open Verif.Message (Request)
open Verif.Spec.Client Verif.Spec.Handshake Verif.Spec.Segments
open Verif.Client (trimSpace_eq trimRight)

/-! ## Specification -/

/-- A name that can stand in a list: not empty, without commas and outer blanks. -/
structure ListName (w : Bytes) : Prop where
  ne : w ≠ []
  comma : (0x2c : UInt8) ∉ w
  trimmed : Trimmed w

/-- The lines the client reads are those the server answered, in any order, with others between them that are not about sub-protocol
and extensions. -/
structure Received (fields : List (Bytes × Bytes)) (ls : List Bytes) : Prop where
  all : ∀ f ∈ fields, fieldLine f ∈ ls
  readable : ∀ l ∈ ls, ReadableLine l ∧ l ≠ []
  own : ∀ l ∈ ls, HasName l b!"Sec-WebSocket-Protocol" ∨ HasName l b!"Sec-WebSocket-Extensions" → ∃ f ∈ fields, l = fieldLine f

/-- A text of the server as the client has it: nothing when it is empty, otherwise with a blank in front. -/
def asRead (v : Option Bytes) : Option Bytes := match v with
  | none => none
  | some v => if v = [] then none else some (0x20 :: v)

/-- Extensions known by name only, as a client registers them: different names, no bit in common, none enabled. -/
structure ClientNames (cs : List CliExt) : Prop where
  off : ∀ c ∈ cs, c.enabled = false
  plain : ∀ c ∈ cs, c.matcher = none
  bits : (cs.map (·.rsv)).Pairwise (fun a b => a &&& b = 0)
  names : (cs.map (·.client)).Nodup
  fine : ∀ c ∈ cs, ∃ w, c.client = some w ∧ ListName w

/-- The same for a server. -/
structure ServerNames (ss : List SrvExt) : Prop where
  off : ∀ s ∈ ss, s.enabled = false
  plain : ∀ s ∈ ss, s.matcher = none
  bits : (ss.map (·.rsv)).Pairwise (fun a b => a &&& b = 0)
  names : (ss.map (·.server)).Nodup
  fine : ∀ s ∈ ss, ∃ w, s.server = some w

/-! ## What the client reads -/

private theorem cut_field (k v : Bytes) (h : (0x3a : UInt8) ∉ k) : Yuarel.cut 0x3a (fieldLine (k, v)) = (k, some (0x20 :: v)) := by
  have hs := Yuarel.cut_spec 0x3a (fieldLine (k, v))
  rcases hc : Yuarel.cut 0x3a (fieldLine (k, v)) with ⟨k', ov⟩
  rw [hc] at hs
  have e0 : fieldLine (k, v) = k ++ 0x3a :: 0x20 :: v := by simp [fieldLine]
  cases ov with
  | none =>
    have := hs.2.2 rfl
    simp only at this
    rw [← this, e0] at hs
    exact absurd (by simp) hs.1
  | some v' =>
    have e := hs.2.1 v' rfl
    simp only at e
    rw [e0] at e
    have := split_unique _ _ _ _ e h hs.1
    subst this
    have := List.append_cancel_left e
    injection this with _ h2
    rw [h2]

private theorem mark_protocol (f : Bytes → Bool) (s : Seen) (v : Bytes) :
    markLine f s (fieldLine (b!"Sec-WebSocket-Protocol", v)) = { s with protocol := some (0x20 :: v) } := by
  have hn : named b!"Sec-WebSocket-Protocol" (fieldLine (b!"Sec-WebSocket-Protocol", v)) = true := by
    unfold named
    rw [cut_field _ _ (by decide)]
    exact (by decide : eqCase b!"Sec-WebSocket-Protocol" b!"Sec-WebSocket-Protocol" = true)
  unfold markLine
  rw [cut_field _ _ (by decide)]
  simp only
  rw [if_neg (Bool.not_eq_true _ ▸ named_not _ _ b!"Upgrade" b!" websocket" (by decide) (by decide) hn),
    if_neg (Bool.not_eq_true _ ▸ named_not _ _ b!"Connection" b!" Upgrade" (by decide) (by decide) hn), if_pos (by decide)]

private theorem mark_extensions (f : Bytes → Bool) (s : Seen) (v : Bytes) :
    markLine f s (fieldLine (b!"Sec-WebSocket-Extensions", v)) = { s with extensions := some (0x20 :: v) } := by
  have hn : named b!"Sec-WebSocket-Extensions" (fieldLine (b!"Sec-WebSocket-Extensions", v)) = true := by
    unfold named
    rw [cut_field _ _ (by decide)]
    exact (by decide : eqCase b!"Sec-WebSocket-Extensions" b!"Sec-WebSocket-Extensions" = true)
  unfold markLine
  rw [cut_field _ _ (by decide)]
  simp only
  rw [if_neg (Bool.not_eq_true _ ▸ named_not _ _ b!"Upgrade" b!" websocket" (by decide) (by decide) hn),
    if_neg (Bool.not_eq_true _ ▸ named_not _ _ b!"Connection" b!" Upgrade" (by decide) (by decide) hn), if_neg (by decide), if_pos (by decide)]

private theorem mark_other (f : Bytes → Bool) (s : Seen) (l : Bytes) :
    (named b!"Sec-WebSocket-Protocol" l = false → (markLine f s l).protocol = s.protocol) ∧
    (named b!"Sec-WebSocket-Extensions" l = false → (markLine f s l).extensions = s.extensions) := by
  unfold markLine named
  rcases Yuarel.cut 0x3a l with ⟨key, ov⟩
  cases ov with
  | none => exact ⟨fun _ => rfl, fun _ => rfl⟩
  | some value =>
    simp only
    refine ⟨fun h => ?_, fun h => ?_⟩
    · rw [h]
      simp only [Bool.false_eq_true, if_false]
      repeat' split
      all_goals rfl
    · rw [h]
      simp only [Bool.false_eq_true, if_false]
      repeat' split
      all_goals rfl

private theorem fold_none (f : Bytes → Bool) : ∀ (ls : List Bytes) (s : Seen),
    ((∀ l ∈ ls, named b!"Sec-WebSocket-Protocol" l = false) → (ls.foldl (markLine f) s).protocol = s.protocol) ∧
    ((∀ l ∈ ls, named b!"Sec-WebSocket-Extensions" l = false) → (ls.foldl (markLine f) s).extensions = s.extensions)
  | [], _ => ⟨fun _ => rfl, fun _ => rfl⟩
  | l :: t, s => by
    obtain ⟨h1, h2⟩ := fold_none f t (markLine f s l)
    obtain ⟨g1, g2⟩ := mark_other f s l
    refine ⟨fun h => ?_, fun h => ?_⟩
    · rw [List.foldl_cons, h1 (fun x hx => h x (List.mem_cons_of_mem _ hx)), g1 (h l (List.mem_cons_self ..))]
    · rw [List.foldl_cons, h2 (fun x hx => h x (List.mem_cons_of_mem _ hx)), g2 (h l (List.mem_cons_self ..))]

private theorem fold_protocol (f : Bytes → Bool) (v : Bytes) : ∀ (ls : List Bytes) (s : Seen),
    (∀ l ∈ ls, named b!"Sec-WebSocket-Protocol" l = true → l = fieldLine (b!"Sec-WebSocket-Protocol", v)) →
    (s.protocol = some (0x20 :: v) ∨ fieldLine (b!"Sec-WebSocket-Protocol", v) ∈ ls) →
    (ls.foldl (markLine f) s).protocol = some (0x20 :: v)
  | [], s, _, h => by
    rcases h with h | h
    · exact h
    · cases h
  | l :: t, s, hl, h => by
    rw [List.foldl_cons]
    refine fold_protocol f v t _ (fun x hx => hl x (List.mem_cons_of_mem _ hx)) ?_
    cases hn : named b!"Sec-WebSocket-Protocol" l with
    | true =>
      left
      rw [hl l (List.mem_cons_self ..) hn, mark_protocol]
    | false =>
      rcases h with h | h
      · left
        rw [(mark_other f s l).1 hn]
        exact h
      · right
        rcases List.mem_cons.1 h with e | h
        · rw [← e] at hn
          unfold named at hn
          rw [cut_field _ _ (by decide)] at hn
          simp only at hn
          exact absurd hn (by decide)
        · exact h

private theorem fold_extensions (f : Bytes → Bool) (v : Bytes) : ∀ (ls : List Bytes) (s : Seen),
    (∀ l ∈ ls, named b!"Sec-WebSocket-Extensions" l = true → l = fieldLine (b!"Sec-WebSocket-Extensions", v)) →
    (s.extensions = some (0x20 :: v) ∨ fieldLine (b!"Sec-WebSocket-Extensions", v) ∈ ls) →
    (ls.foldl (markLine f) s).extensions = some (0x20 :: v)
  | [], s, _, h => by
    rcases h with h | h
    · exact h
    · cases h
  | l :: t, s, hl, h => by
    rw [List.foldl_cons]
    refine fold_extensions f v t _ (fun x hx => hl x (List.mem_cons_of_mem _ hx)) ?_
    cases hn : named b!"Sec-WebSocket-Extensions" l with
    | true =>
      left
      rw [hl l (List.mem_cons_self ..) hn, mark_extensions]
    | false =>
      rcases h with h | h
      · left
        rw [(mark_other f s l).2 hn]
        exact h
      · right
        rcases List.mem_cons.1 h with e | h
        · rw [← e] at hn
          unfold named at hn
          rw [cut_field _ _ (by decide)] at hn
          simp only at hn
          exact absurd hn (by decide)
        · exact h


private theorem field_mem (a : Bytes) (p x : Option Bytes) (f : Bytes × Bytes) :
    f ∈ upgradeFields a p x ↔ f = (b!"Upgrade", b!"websocket") ∨ (a ≠ [] ∧ f = (b!"Sec-WebSocket-Accept", a)) ∨
      (∃ v, p = some v ∧ v ≠ [] ∧ f = (b!"Sec-WebSocket-Protocol", v)) ∨
      (∃ v, x = some v ∧ v ≠ [] ∧ f = (b!"Sec-WebSocket-Extensions", v)) := by
  have add : ∀ n v, f ∈ addField n v ↔ ∃ w, v = some w ∧ w ≠ [] ∧ f = (n, w) := by
    intro n v
    cases v with
    | none => simp [addField]
    | some w =>
      by_cases e : w = []
      · simp [addField, e]
      · simp [addField, e]
  unfold upgradeFields
  simp only [List.mem_append, List.mem_singleton, add, or_assoc]
  simp

private theorem read_texts (f : Bytes → Bool) (a : Bytes) (p x : Option Bytes) (ls : List Bytes) (h : Received (upgradeFields a p x) ls) :
    (ls.foldl (markLine f) (strip {})).protocol = asRead p ∧ (ls.foldl (markLine f) (strip {})).extensions = asRead x := by
  have nm : ∀ n k v, (0x3a : UInt8) ∉ k → (named n (fieldLine (k, v)) = eqCase k n) := by
    intro n k v hk
    unfold named
    rw [cut_field _ _ hk]
  have own : ∀ l ∈ ls, named b!"Sec-WebSocket-Protocol" l = true → ∃ v, p = some v ∧ v ≠ [] ∧ l = fieldLine (b!"Sec-WebSocket-Protocol", v) := by
    intro l hl hn
    obtain ⟨g, hg, rfl⟩ := h.own l hl (.inl ((named_iff _ _).1 hn))
    rcases (field_mem a p x g).1 hg with rfl | ⟨-, rfl⟩ | ⟨v, h1, h2, rfl⟩ | ⟨v, h1, h2, rfl⟩
    · rw [nm _ _ _ (by decide)] at hn; exact absurd hn (by decide)
    · rw [nm _ _ _ (by decide)] at hn; exact absurd hn (by decide)
    · exact ⟨v, h1, h2, rfl⟩
    · rw [nm _ _ _ (by decide)] at hn; exact absurd hn (by decide)
  have own' : ∀ l ∈ ls, named b!"Sec-WebSocket-Extensions" l = true → ∃ v, x = some v ∧ v ≠ [] ∧ l = fieldLine (b!"Sec-WebSocket-Extensions", v) := by
    intro l hl hn
    obtain ⟨g, hg, rfl⟩ := h.own l hl (.inr ((named_iff _ _).1 hn))
    rcases (field_mem a p x g).1 hg with rfl | ⟨-, rfl⟩ | ⟨v, h1, h2, rfl⟩ | ⟨v, h1, h2, rfl⟩
    · rw [nm _ _ _ (by decide)] at hn; exact absurd hn (by decide)
    · rw [nm _ _ _ (by decide)] at hn; exact absurd hn (by decide)
    · rw [nm _ _ _ (by decide)] at hn; exact absurd hn (by decide)
    · exact ⟨v, h1, h2, rfl⟩
  constructor
  · by_cases e : ∃ v, p = some v ∧ v ≠ []
    · obtain ⟨v, rfl, hv⟩ := e
      rw [fold_protocol f v ls _ (fun l hl hn => by
        obtain ⟨w, h1, -, h3⟩ := own l hl hn
        injection h1 with h1
        rw [h1]; exact h3) (.inr (h.all _ ((field_mem _ _ _ _).2 (.inr (.inr (.inl ⟨v, rfl, hv, rfl⟩))))))]
      simp [asRead, hv]
    · rw [(fold_none f ls _).1 (fun l hl => by
        rw [← Bool.not_eq_true]
        intro hn
        obtain ⟨w, h1, h2, -⟩ := own l hl hn
        exact e ⟨w, h1, h2⟩)]
      unfold asRead
      split
      · rfl
      · rename_i v
        rw [if_pos (Classical.byContradiction (fun hv => e ⟨v, rfl, hv⟩))]
        rfl
  · by_cases e : ∃ v, x = some v ∧ v ≠ []
    · obtain ⟨v, rfl, hv⟩ := e
      rw [fold_extensions f v ls _ (fun l hl hn => by
        obtain ⟨w, h1, -, h3⟩ := own' l hl hn
        injection h1 with h1
        rw [h1]; exact h3) (.inr (h.all _ ((field_mem _ _ _ _).2 (.inr (.inr (.inr ⟨v, rfl, hv, rfl⟩))))))]
      simp [asRead, hv]
    · rw [(fold_none f ls _).2 (fun l hl => by
        rw [← Bool.not_eq_true]
        intro hn
        obtain ⟨w, h1, h2, -⟩ := own' l hl hn
        exact e ⟨w, h1, h2⟩)]
      unfold asRead
      split
      · rfl
      · rename_i v
        rw [if_pos (Classical.byContradiction (fun hv => e ⟨v, rfl, hv⟩))]
        rfl

private theorem marked_upgrade (keys : List Bytes) (a : Bytes) (p x : Option Bytes) (ls : List Bytes)
    (h : Received (upgradeFields a p x) ls) : Marked keys ls :=
  ⟨_, h.all _ ((field_mem _ _ _ _).2 (.inl rfl)), .inl (by decide)⟩

/-! ## Extensions by name -/

private theorem bits_of (cs : List CliExt) (h : (cs.map (·.rsv)).Pairwise (fun a b => a &&& b = 0)) :
    ∀ a ∈ cs, ∀ b ∈ cs, a.client ≠ b.client → a.rsv &&& b.rsv = 0 := by
  induction cs with
  | nil => intro a ha; cases ha
  | cons c t ih =>
    rw [List.map_cons, List.pairwise_cons] at h
    intro a ha b hb hne
    rcases List.mem_cons.1 ha with ea | ha'
    · rcases List.mem_cons.1 hb with eb | hb'
      · exact absurd (by rw [ea, eb]) hne
      · rw [ea]
        exact h.1 _ (List.mem_map.2 ⟨b, hb', rfl⟩)
    · rcases List.mem_cons.1 hb with eb | hb'
      · rw [UInt8.and_comm, eb]
        exact h.1 _ (List.mem_map.2 ⟨a, ha', rfl⟩)
      · exact ih h.2 a ha' b hb' hne

private def enable (w item : Bytes) (e : CliExt) : CliExt :=
  if e.client = some w then { e with enabled := true, server := some (trimRight item) } else e

private theorem enable_none (w item : Bytes) : ∀ t : List CliExt, some w ∉ t.map (·.client) → t.map (enable w item) = t
  | [], _ => rfl
  | e :: t, h => by
    rw [List.map_cons, enable_none w item t (fun hc => h (List.mem_cons_of_mem _ hc)), enable, if_neg (fun hc => h (by simp [hc]))]

private theorem cliItem_hit (i : Nat) (item w : Bytes) (hw : trimSpace item = w) : ∀ (es : List CliExt) (rsv : UInt8),
    (∀ e ∈ es, e.matcher = none) → (es.map (·.client)).Nodup →
    (∃ e ∈ es, e.client = some w ∧ e.enabled = false ∧ e.rsv &&& rsv = 0) →
    ∃ e ∈ es, e.client = some w ∧ cliItem i item es rsv = (es.map (enable w item), rsv ||| e.rsv, true)
  | [], _, _, _, h => by obtain ⟨e, he, -⟩ := h; cases he
  | e :: t, rsv, hm, hn, h => by
    obtain ⟨g, hg, g1, g2, g3⟩ := h
    rw [List.map_cons, List.nodup_cons] at hn
    have hits : e.hits i item = (some w == e.client) := by
      unfold CliExt.hits
      rw [hm e (List.mem_cons_self ..), hw]
    by_cases ec : e.client = some w
    · have : g = e := by
        rcases List.mem_cons.1 hg with rfl | hg
        · rfl
        · exact absurd (List.mem_map.2 ⟨g, hg, g1.trans ec.symm⟩) hn.1
      subst this
      refine ⟨g, List.mem_cons_self .., ec, ?_⟩
      rw [cliItem, if_neg (by simp [g2]), if_pos (by rw [hits, ec]; simp), if_pos g3, List.map_cons, enable_none w item t (ec ▸ hn.1), enable,
        if_pos ec]
    · have hg' : g ∈ t := by
        rcases List.mem_cons.1 hg with rfl | hg
        · exact absurd g1 ec
        · exact hg
      obtain ⟨q, hq, q1, q2⟩ := cliItem_hit i item w hw t rsv (fun x hx => hm x (List.mem_cons_of_mem _ hx)) hn.2 ⟨g, hg', g1, g2, g3⟩
      refine ⟨q, List.mem_cons_of_mem _ hq, q1, ?_⟩
      rw [cliItem]
      by_cases en : e.enabled = true
      · rw [if_pos en, q2, List.map_cons, enable, if_neg ec]
      · rw [if_neg en, if_neg (by rw [hits]; intro h; exact ec (beq_iff_eq.1 h).symm), q2, List.map_cons, enable, if_neg ec]

private theorem cliItems_all : ∀ (ps : List (Bytes × Bytes)) (i : Nat) (es : List CliExt) (rsv : UInt8),
    (∀ p ∈ ps, trimSpace p.1 = p.2) → (ps.map (·.2)).Nodup →
    (∀ e ∈ es, e.matcher = none) → (es.map (·.client)).Nodup → (∀ a ∈ es, ∀ b ∈ es, a.client ≠ b.client → a.rsv &&& b.rsv = 0) →
    (∀ e ∈ es, e.enabled = false → e.rsv &&& rsv = 0) →
    (∀ p ∈ ps, ∃ e ∈ es, e.client = some p.2 ∧ e.enabled = false) →
    (cliItems i (ps.map (·.1)) es rsv).2.2 = true ∧
    (cliItems i (ps.map (·.1)) es rsv).1.map (fun e => (e.client, e.enabled)) =
      es.map (fun e => (e.client, e.enabled || (ps.map (fun p => some p.2)).contains e.client))
  | [], _, es, _, _, _, _, _, _, _, _ => ⟨rfl, by simp [cliItems]⟩
  | (item, w) :: ps, i, es, rsv, ht, hd, hm, hn, hb, hf, hx => by
    obtain ⟨g, hg, g1, g2⟩ := hx _ (List.mem_cons_self ..)
    obtain ⟨q, hq, q1, q2⟩ := cliItem_hit i item w (ht _ (List.mem_cons_self ..)) es rsv hm hn ⟨g, hg, g1, g2, hf g hg g2⟩
    rw [List.map_cons, List.nodup_cons] at hd
    have cl : ∀ e, (enable w item e).client = e.client ∧ (enable w item e).rsv = e.rsv ∧ (enable w item e).matcher = e.matcher ∧
        (enable w item e).enabled = (e.enabled || e.client == some w) := by
      intro e
      unfold enable
      by_cases ec : e.client = some w
      · rw [if_pos ec]; simp [ec]
      · rw [if_neg ec]; simp [ec]
    have hc : (es.map (enable w item)).map (·.client) = es.map (·.client) := by
      rw [List.map_map]
      exact List.map_congr_left (fun e _ => (cl e).1)
    obtain ⟨r1, r2⟩ := cliItems_all ps (i + 1) (es.map (enable w item)) (rsv ||| q.rsv)
      (fun p hp => ht p (List.mem_cons_of_mem _ hp)) hd.2
      (by
        intro e he
        obtain ⟨e0, h0, rfl⟩ := List.mem_map.1 he
        rw [(cl e0).2.2.1]; exact hm e0 h0)
      (by rw [hc]; exact hn)
      (by
        intro a ha b hb' hne
        obtain ⟨a0, ha0, rfl⟩ := List.mem_map.1 ha
        obtain ⟨b0, hb0, rfl⟩ := List.mem_map.1 hb'
        rw [(cl a0).1, (cl b0).1] at hne
        rw [(cl a0).2.1, (cl b0).2.1]
        exact hb a0 ha0 b0 hb0 hne)
      (by
        intro e he hoff
        obtain ⟨e0, h0, rfl⟩ := List.mem_map.1 he
        rw [(cl e0).2.2.2] at hoff
        rw [(cl e0).2.1]
        simp only [Bool.or_eq_false_iff, beq_eq_false_iff_ne] at hoff
        have h1 := hf e0 h0 hoff.1
        have h2 := hb e0 h0 q hq (fun h => hoff.2 (h.trans q1))
        rw [← UInt8.toBitVec_inj] at h1 h2 ⊢
        simp only [UInt8.toBitVec_and, UInt8.toBitVec_or] at h1 h2 ⊢
        ext k hk
        have e1 := congrArg (fun v => v.getLsbD k) h1
        have e2 := congrArg (fun v => v.getLsbD k) h2
        simp at e1 e2 ⊢
        by_cases e0k : e0.rsv.toBitVec[k] = true <;> simp_all)
      (by
        intro p hp
        obtain ⟨e, he, e1, e2⟩ := hx p (List.mem_cons_of_mem _ hp)
        refine ⟨enable w item e, List.mem_map.2 ⟨e, he, rfl⟩, (cl e).1.trans e1, ?_⟩
        rw [(cl e).2.2.2, e2, e1]
        have : p.2 ≠ w := fun h => hd.1 (List.mem_map.2 ⟨p, hp, h⟩)
        simp [this])
    have e0 : cliItems i (((item, w) :: ps).map (·.1)) es rsv = cliItems (i + 1) (ps.map (·.1)) (es.map (enable w item)) (rsv ||| q.rsv) := by
      rw [List.map_cons, cliItems, q2]
    rw [e0]
    refine ⟨r1, r2.trans ?_⟩
    rw [List.map_map]
    refine List.map_congr_left (fun e _ => ?_)
    simp only [Function.comp, (cl e).1, (cl e).2.2.2, List.map_cons, List.contains_cons]
    rw [Bool.or_assoc]

private theorem blank_space : Blank b!" " := by
  intro c hc
  rw [List.mem_singleton] at hc
  rw [hc]
  decide

private theorem pieces_join : ∀ (a : Bytes) (ws : List Bytes), ws ≠ [] → Blank a → (∀ w ∈ ws, ListName w) →
    ∃ ps : List (Bytes × Bytes), pieces 0x2c (a ++ commaJoin ws) = ps.map (·.1) ∧ ps.map (·.2) = ws ∧ ∀ p ∈ ps, trimSpace p.1 = p.2
  | a, [], h, _, _ => absurd rfl h
  | a, [w], _, ha, hw => by
    have h1 := hw w (List.mem_cons_self ..)
    refine ⟨[(a ++ w, w)], ?_, rfl, ?_⟩
    · exact pieces_none _ _ (fun hc => by
        rcases List.mem_append.1 hc with hc | hc
        · exact absurd (ha _ hc) (by decide)
        · exact h1.comma hc)
    · intro p hp
      rw [List.mem_singleton] at hp
      subst hp
      have := trimSpace_eq a w [] ha (fun c hc => by cases hc) h1.trimmed
      simpa using this
  | a, w :: w' :: t, _, ha, hw => by
    have h1 := hw w (List.mem_cons_self ..)
    obtain ⟨ps, p1, p2, p3⟩ := pieces_join b!" " (w' :: t) (by simp) blank_space (fun x hx => hw x (List.mem_cons_of_mem _ hx))
    refine ⟨(a ++ w, w) :: ps, ?_, ?_, ?_⟩
    · have e : a ++ commaJoin (w :: w' :: t) = (a ++ w) ++ 0x2c :: (b!" " ++ commaJoin (w' :: t)) := by simp [commaJoin]
      rw [e, pieces_append, p1, pieces_none _ _ (fun hc => by
        rcases List.mem_append.1 hc with hc | hc
        · exact absurd (ha _ hc) (by decide)
        · exact h1.comma hc)]
      rfl
    · rw [List.map_cons, p2]
    · intro p hp
      rcases List.mem_cons.1 hp with rfl | hp
      · have := trimSpace_eq a w [] ha (fun c hc => by cases hc) h1.trimmed
        simpa using this
      · exact p3 p hp

private theorem commaJoin_ne {ws : List Bytes} (h : ws ≠ []) (hw : ∀ w ∈ ws, w ≠ []) : commaJoin ws ≠ [] := by
  cases ws with
  | nil => exact absurd rfl h
  | cons w t =>
    have := hw w (List.mem_cons_self ..)
    cases t with
    | nil => exact this
    | cons _ _ => simp [commaJoin]

private theorem client_takes (cs : List CliExt) (hc : ClientNames cs) (ws : List Bytes) (hd : ws.Nodup)
    (hw : ∀ w ∈ ws, ∃ c ∈ cs, c.client = some w) :
    (cliNegotiate (asRead (if ws = [] then none else some (commaJoin ws))) cs).2.2 = true ∧
    (cliNegotiate (asRead (if ws = [] then none else some (commaJoin ws))) cs).1.map (fun e => (e.client, e.enabled)) =
      cs.map (fun e => (e.client, (ws.map some).contains e.client)) := by
  have off : cs.map (fun e => (e.client, e.enabled)) = cs.map (fun e => (e.client, (([] : List Bytes).map some).contains e.client)) :=
    List.map_congr_left (fun e he => by rw [hc.off e he]; simp)
  by_cases e : ws = []
  · subst e
    rw [if_pos rfl]
    exact ⟨rfl, off⟩
  · have names : ∀ w ∈ ws, ListName w := by
      intro w h
      obtain ⟨c, hcc, h1⟩ := hw w h
      obtain ⟨w', h2, h3⟩ := hc.fine c hcc
      rw [h1] at h2
      injection h2 with h2
      exact h2 ▸ h3
    have hne : cs ≠ [] := by
      obtain ⟨w, hw'⟩ := List.exists_mem_of_ne_nil ws e
      obtain ⟨c, h, -⟩ := hw w hw'
      exact List.ne_nil_of_mem h
    obtain ⟨ps, p1, p2, p3⟩ := pieces_join b!" " ws e blank_space names
    rw [if_neg e, asRead, if_neg (commaJoin_ne e (fun w h => (names w h).ne)), cliNegotiate, if_neg (by simp [hne]), splitString_eq]
    have p1' : pieces 0x2c (0x20 :: commaJoin ws) = ps.map (·.1) := p1
    rw [p1']
    obtain ⟨r1, r2⟩ := cliItems_all ps 0 cs 0 p3 (p2 ▸ hd) hc.plain hc.names (bits_of cs hc.bits) (fun e _ _ => by simp)
      (fun p hp => by
        obtain ⟨c, h1, h2⟩ := hw p.2 (p2 ▸ List.mem_map.2 ⟨p, hp, rfl⟩)
        exact ⟨c, h1, h2, hc.off c h1⟩)
    refine ⟨r1, r2.trans (List.map_congr_left (fun e he => ?_))⟩
    rw [hc.off e he, Bool.false_or, ← p2, List.map_map]
    rfl

private theorem server_names (offer : Bytes) (ss : List SrvExt) (hs : ServerNames ss) :
    ∃ ws : List Bytes, (srvNegotiate offer ss).2.answer = (if ws = [] then none else some (commaJoin ws)) ∧ ws.Nodup ∧
      (∀ w, w ∈ ws ↔ w ∈ pieces 0x2c offer ∧ ∃ s ∈ ss, s.server = some w) ∧
      (srvNegotiate offer ss).1.map (fun e => (e.server, e.enabled)) = ss.map (fun s => (s.server, (ws.map some).contains s.server)) := by
  obtain ⟨log, l1, l2, l3, l4, l5⟩ := C95_answer offer ss hs.off (fun e he f hf => by rw [hs.plain e he] at hf; cases hf)
  have nm := C95_names_partial offer ss hs.off hs.plain hs.bits hs.names
  generalize (srvNegotiate offer ss).1 = fin at l2 l5 nm
  have hlen : fin.length = ss.length := by simpa using congrArg List.length l5
  have at_ : ∀ (i : Nat) (h : i < ss.length), fin[i].server = ss[i].server ∧ fin[i].matcher = none ∧
      (fin[i].enabled = true ↔ ∃ item ∈ pieces 0x2c offer, ss[i].server = some item) := by
    intro i h
    have h' : i < fin.length := by omega
    have e := congrArg (fun l => l[i]?) l5
    simp only [List.getElem?_map, List.getElem?_eq_getElem h, List.getElem?_eq_getElem h', Option.map_some, Option.some.injEq,
      Prod.mk.injEq] at e
    refine ⟨e.2.1, ?_, nm i _ _ (List.getElem?_eq_getElem h) (List.getElem?_eq_getElem h')⟩
    rw [e.2.2]
    exact hs.plain _ (List.getElem_mem h)
  have hit : ∀ p ∈ log, ∃ w, p.2.client = some w ∧ p.2.server = some w := by
    intro p hp
    obtain ⟨item, -, hh⟩ := l3 p hp
    have hmem := (List.mem_filter.1 ((l2.mem_iff).1 (List.mem_map_of_mem (f := (·.2)) hp))).1
    obtain ⟨i, hi, hi'⟩ := List.mem_iff_getElem.1 hmem
    have hm : p.2.matcher = none := by
      rw [← hi']
      exact (at_ i (by omega)).2.1
    unfold SrvHit at hh
    rw [hm] at hh
    obtain ⟨name, b, h1, h2, -, -⟩ := hh
    exact ⟨name, h2, h1⟩
  have mem : ∀ w, w ∈ log.map (fun p => p.2.client.getD []) ↔ w ∈ pieces 0x2c offer ∧ ∃ s ∈ ss, s.server = some w := by
    intro w
    constructor
    · intro h
      obtain ⟨p, hp, rfl⟩ := List.mem_map.1 h
      obtain ⟨w, h1, h2⟩ := hit p hp
      obtain ⟨hmem, hen⟩ := List.mem_filter.1 ((l2.mem_iff).1 (List.mem_map_of_mem (f := (·.2)) hp))
      obtain ⟨i, hi, hi'⟩ := List.mem_iff_getElem.1 hmem
      have hi2 : i < ss.length := by omega
      obtain ⟨a1, -, a2⟩ := at_ i hi2
      rw [hi'] at a1 a2
      obtain ⟨item, h3, h4⟩ := a2.1 hen
      have h5 : w = item := by
        have := h2.symm.trans (a1.trans h4)
        injection this
      rw [h1, Option.getD_some, h5]
      exact ⟨h3, ss[i], List.getElem_mem hi2, h4⟩
    · rintro ⟨h1, s, hs', h2⟩
      obtain ⟨i, hi, rfl⟩ := List.mem_iff_getElem.1 hs'
      have hi2 : i < fin.length := by omega
      obtain ⟨a1, -, a2⟩ := at_ i hi
      have hm : fin[i] ∈ log.map (·.2) := (l2.mem_iff).2 (List.mem_filter.2 ⟨List.getElem_mem hi2, a2.2 ⟨w, h1, h2⟩⟩)
      obtain ⟨p, hp, hp'⟩ := List.mem_map.1 hm
      refine List.mem_map.2 ⟨p, hp, ?_⟩
      obtain ⟨w', g1, g2⟩ := hit p hp
      rw [g1, Option.getD_some]
      rw [hp', a1, h2] at g2
      injection g2 with g2
      exact g2.symm
  refine ⟨log.map (fun p => p.2.client.getD []), ?_, ?_, mem, ?_⟩
  · rw [l4]
    simp
  · have e : (log.map (fun p => p.2.client.getD [])).map some = (log.map (·.2)).map (·.server) := by
      rw [List.map_map, List.map_map]
      refine List.map_congr_left (fun p hp => ?_)
      obtain ⟨w, h1, h2⟩ := hit p hp
      simp only [Function.comp, h1, h2, Option.getD_some]
    have nd : (fin.map (·.server)).Nodup := by
      have := congrArg (List.map (fun (q : UInt8 × Option Bytes × Option (Nat → Bytes → List Bytes → Option (Option Bytes))) => q.2.1)) l5
      rw [List.map_map, List.map_map] at this
      have : fin.map (·.server) = ss.map (·.server) := this
      rw [this]
      exact hs.names
    have nd2 : ((log.map (fun p => p.2.client.getD [])).map some).Nodup := by
      rw [e, (l2.map _).nodup_iff]
      exact nd.sublist (List.filter_sublist.map _)
    exact List.Pairwise.of_map some (fun a b h e => h (congrArg some e)) nd2
  · apply List.ext_getElem
    · simp [hlen]
    · intro i h1 h2
      simp only [List.length_map] at h1 h2
      obtain ⟨a1, -, a2⟩ := at_ i h2
      simp only [List.getElem_map, a1, Prod.mk.injEq, true_and]
      rw [Bool.eq_iff_iff, a2, List.contains_iff_mem, List.mem_map]
      constructor
      · rintro ⟨item, h3, h4⟩
        exact ⟨item, (mem item).2 ⟨h3, ss[i], List.getElem_mem h2, h4⟩, h4.symm⟩
      · rintro ⟨w, h3, h4⟩
        exact ⟨w, ((mem w).1 h3).1, h4.symm⟩

/-! ## The property -/

private theorem single_first' {ps : List (Bytes × Option Bytes)} {k v : Bytes} (h : Single ps k v) : First ps k v := by
  obtain ⟨a, p, b, e1, e2, e3, e4⟩ := h
  exact ⟨a, p, b, e1, e2, e3, fun q hq => e4 q (by simp [hq])⟩

private theorem single_value {ps : List (Bytes × Option Bytes)} {k v w : Bytes} (h : Single ps k v) (h' : Single ps k w) : v = w := by
  have a := (handshake_first ps k v).1 (single_first' h)
  rw [(handshake_first ps k w).1 (single_first' h')] at a
  injection a with a
  exact a.symm

private theorem client_side (f : Bytes → Bool) (keys : List Bytes) (cs : List CliExt) (status0 : Int) (evs : List Ev) (reason : Bytes)
    (a : Bytes) (p x : Option Bytes) (ls : List Bytes) (tail : Bytes) (hst : ReadableLine (statusText 101 reason))
    (hls : Received (upgradeFields a p x) ls)
    (hev : bytesOf evs = crlf (statusText 101 reason :: ls) ++ (b!"\r\n" ++ tail)) :
    ∃ r, clientHandshake f keys cs status0 evs = .ok r ∧ r.ok = (cliNegotiate (asRead x) cs).2.2 ∧ r.isOpen = true ∧ r.status = 101 ∧
      r.seen.protocol = asRead p ∧ r.seen.extensions = asRead x ∧ r.exts = (cliNegotiate (asRead x) cs).1 := by
  obtain ⟨s', h1, h2⟩ := client_open f keys cs status0 evs reason ls tail hst hls.readable (marked_upgrade keys a p x ls hls) hev
  obtain ⟨t1, t2⟩ := read_texts f a p x ls hls
  rw [← h1] at t1 t2
  have t1' : s'.protocol = asRead p := t1
  have t2' : s'.extensions = asRead x := t2
  refine ⟨_, h2, ?_, rfl, rfl, t1', t2', ?_⟩
  · rw [t2']
  · rw [t2']

private theorem server_ext {accept : Bytes → Option Bytes} {m : UMap} {hs : List (Bytes × Option Bytes)} (hm : HoldsParams m hs)
    {protocol verb : Option Bytes} {h : Handle} {a : Bytes} {p x : Option Bytes} {rsv : UInt8} {es : List SrvExt}
    (e : serverHandshake accept m protocol verb h = .ok (.upgrade a p x rsv es)) {offer : Bytes}
    (h1 : Single hs b!"Sec-WebSocket-Extensions" offer) (h2 : ∃ v, (b!"Sec-WebSocket-Extensions", v) ∈ hs) (h3 : h.exts ≠ []) :
    x = (srvNegotiate offer h.exts).2.answer ∧ es = (srvNegotiate offer h.exts).1 := by
  have se : srvExtensions m h = .ok (true, (srvNegotiate offer h.exts).2.answer, (srvNegotiate offer h.exts).2.rsv, (srvNegotiate offer h.exts).1) := by
    obtain ⟨g1, g2⟩ := handshake_header hm b!"Sec-WebSocket-Extensions"
    rw [(handshake_first _ _ _).1 (single_first' h1)] at g1
    obtain ⟨v, hv⟩ := h2
    have : hs.any (fun p => p.1 == b!"Sec-WebSocket-Extensions") = true := List.any_eq_true.2 ⟨_, hv, by simp⟩
    rw [this] at g2
    unfold srvExtensions
    rw [g1, g2]
    simp only [Res.ok_bind, Res.pure_eq]
    rw [if_pos (by simp [h3])]
  unfold serverHandshake at e
  cases hv : validUpgrade m protocol verb with
  | ub => rw [hv] at e; cases e
  | ok b =>
    rw [hv] at e
    cases b with
    | false => simp only [Res.ok_bind] at e; cases e
    | true =>
      simp only [Res.ok_bind, if_true, se, (handshake_header hm b!"Sec-WebSocket-Protocol").1,
        (handshake_header hm b!"Sec-WebSocket-Key").1, Bool.true_and] at e
      split at e
      · split at e
        · split at e
          · simp only [Res.pure_eq, Res.ok.injEq, Answer.upgrade.injEq] at e
            exact ⟨e.2.2.1.symm, e.2.2.2.2.symm⟩
          · simp at e
        · simp at e
      · simp at e

/-- **C149, opening (partial).** For every request prepared with `ulfius_set_websocket_request` (any other headers, any sub-protocols
and extensions) and every server that reads its fields, can compute the accept value and has a sub-protocol (and an extension, if it
asks for one) in common with it: the server upgrades with the accept value of the key and the first common sub-protocol; and a client
without registered extensions that reads this answer, in any segments, among other lines and in any order, opens the connection with
status 101. The client then holds the sub-protocol and extensions of the server, but with a blank in front.
Missing: the blank, and the texts of the server itself, see `C149_blank_false`. -/
theorem C149_opens_partial (base64 : Bytes → Option Bytes) (random agent key url : Bytes) (r : Request) (hs : List (Bytes × Option Bytes))
    (protocol extensions : Option Bytes) (hh : HoldsParams r.mapHeader hs) (hk : base64 random = some key)
    (ht : ∀ x, x = key ∨ x = agent ∨ protocol = some x ∨ extensions = some x → NoNul x ∧ x.length + 64 < 2 ^ 64)
    (hsp : ∀ name ∈ websocketNames, Spelled hs name) (hup : Absent hs b!"Upgrade") (hco : Absent hs b!"Connection") :
    ∃ m hs', setWebsocketRequest base64 (some random) agent (some r) (.text url) protocol extensions =
        .ok (.ok, some { r with protocol := some b!"1.1", verb := some b!"GET", url := some url, mapHeader := m }) ∧ HoldsParams m hs' ∧
      ∀ parts origin M (h : Handle) (accept : Bytes → Option Bytes), HoldsParams M ((openingFields parts origin hs').map asParam) →
        (accept key).isSome →
        (h.protocol = none ∨ ∃ off sup, protocol = some off ∧ h.protocol = some sup ∧ Common off sup) →
        (h.extensions = none ∨ ∃ off, extensions = some off ∧ (h.exts ≠ [] ∨ ∃ sup, h.extensions = some sup ∧ Common off sup)) →
        ∃ a p x rsv es, serverHandshake accept M (some b!"HTTP/1.1") (some b!"GET") h = .ok (.upgrade a p x rsv es) ∧ accept key = some a ∧
          (∀ off sup xs ms, protocol = some off → h.protocol = some sup → Items off xs → Items sup ms → p = xs.find? (fun x => decide (x ∈ ms))) ∧
          ∀ f keys status0 evs reason ls tail, ReadableLine (statusText 101 reason) → Received (upgradeFields a p x) ls →
            bytesOf evs = crlf (statusText 101 reason :: ls) ++ (b!"\r\n" ++ tail) →
            ∃ c, clientHandshake f keys [] status0 evs = .ok c ∧ c.ok = true ∧ c.isOpen = true ∧ c.status = 101 ∧
              c.seen.protocol = asRead p ∧ c.seen.extensions = asRead x := by
  obtain ⟨m, hs', e1, e2, e3, -, -, -, e4⟩ := C121_prepared_partial base64 random agent key url r hs protocol extensions hh hk ht hsp hup hco
  refine ⟨m, hs', e1, e2, ?_⟩
  intro parts origin M h accept hM hacc hp hx
  obtain ⟨fs, rfl, v, k, sp, sx⟩ := e3 parts origin
  obtain ⟨ans, a1, a2, a3, -⟩ := C53_upgrade accept M _ hM (some b!"HTTP/1.1") (some b!"GET") h
  obtain ⟨a, p, x, rsv, es, rfl⟩ := a2.2 ⟨v, by
      rcases hp with hp | ⟨off, sup, h1, h2, h3⟩
      · exact .inl hp
      · exact .inr ⟨sup, off, h2, single_first' (sp off h1), h3⟩,
    by
      rcases hx with hx | ⟨off, h1, h2⟩
      · exact .inr (.inl hx)
      · rcases h2 with h2 | ⟨sup, h2, h3⟩
        · exact .inl ⟨h2, _, List.mem_map.2 ⟨_, List.mem_append_right _ (List.mem_map.2 ⟨_, e4 off h1, rfl⟩), rfl⟩, rfl⟩
        · exact .inr (.inr (.inr ⟨sup, off, h2, single_first' (sx off h1), h3⟩)),
    key, k, hacc⟩
  obtain ⟨⟨k', b1, b2⟩, b3⟩ := a3 a p x rsv es rfl
  refine ⟨a, p, x, rsv, es, a1, by rw [single_value k b1]; exact b2, ?_, ?_⟩
  · intro off sup xs ms h1 h2 h3 h4
    exact b3 off sup xs ms (single_first' (sp off h1)) h2 h3 h4
  · intro f keys status0 evs reason ls tail hst hls hev
    obtain ⟨c, c1, c2, c3, c4, c5, c6, -⟩ := client_side f keys [] status0 evs reason a p x ls tail hst hls hev
    refine ⟨c, c1, ?_, c3, c4, c5, c6⟩
    rw [c2]
    unfold cliNegotiate
    split
    · rfl
    · simp

/-- **C149, extensions.** With extensions known by name on both sides, the client offering the names it registered: the client opens
the connection, and on both sides exactly the extensions whose name the other side registered are enabled. -/
theorem C149_extensions (base64 : Bytes → Option Bytes) (random agent key url : Bytes) (r : Request) (hs : List (Bytes × Option Bytes))
    (protocol : Option Bytes) (offer : Bytes) (cs : List CliExt) (hh : HoldsParams r.mapHeader hs) (hk : base64 random = some key)
    (ht : ∀ x, x = key ∨ x = agent ∨ protocol = some x ∨ some offer = some x → NoNul x ∧ x.length + 64 < 2 ^ 64)
    (hsp : ∀ name ∈ websocketNames, Spelled hs name) (hup : Absent hs b!"Upgrade") (hco : Absent hs b!"Connection")
    (hcs : ClientNames cs) (hof : (pieces 0x2c offer).map some = cs.map (·.client)) :
    ∃ m hs', setWebsocketRequest base64 (some random) agent (some r) (.text url) protocol (some offer) =
        .ok (.ok, some { r with protocol := some b!"1.1", verb := some b!"GET", url := some url, mapHeader := m }) ∧ HoldsParams m hs' ∧
      ∀ parts origin M (h : Handle) (accept : Bytes → Option Bytes), HoldsParams M ((openingFields parts origin hs').map asParam) →
        (accept key).isSome →
        (h.protocol = none ∨ ∃ off sup, protocol = some off ∧ h.protocol = some sup ∧ Common off sup) →
        h.exts ≠ [] → ServerNames h.exts →
        ∃ a p x rsv es, serverHandshake accept M (some b!"HTTP/1.1") (some b!"GET") h = .ok (.upgrade a p x rsv es) ∧
          es.map (fun e => (e.server, e.enabled)) = h.exts.map (fun e => (e.server, (cs.map (·.client)).contains e.server)) ∧
          ∀ f keys status0 evs reason ls tail, ReadableLine (statusText 101 reason) → Received (upgradeFields a p x) ls →
            bytesOf evs = crlf (statusText 101 reason :: ls) ++ (b!"\r\n" ++ tail) →
            ∃ c, clientHandshake f keys cs status0 evs = .ok c ∧ c.ok = true ∧ c.isOpen = true ∧ c.status = 101 ∧
              c.exts.map (fun e => (e.client, e.enabled)) = cs.map (fun e => (e.client, (h.exts.map (·.server)).contains e.client)) := by
  obtain ⟨m, hs', e1, e2, e3, -, -, -, e4⟩ := C121_prepared_partial base64 random agent key url r hs protocol (some offer) hh hk ht hsp hup hco
  refine ⟨m, hs', e1, e2, ?_⟩
  intro parts origin M h accept hM hacc hp hne hss
  obtain ⟨fs, rfl, v, k, sp, sx⟩ := e3 parts origin
  obtain ⟨ans, a1, a2, -, -⟩ := C53_upgrade accept M _ hM (some b!"HTTP/1.1") (some b!"GET") h
  have hex : ∃ v, (b!"Sec-WebSocket-Extensions", v) ∈ (openingFields parts origin hs').map asParam :=
    ⟨_, List.mem_map.2 ⟨_, List.mem_append_right _ (List.mem_map.2 ⟨_, e4 offer rfl, rfl⟩), rfl⟩⟩
  obtain ⟨a, p, x, rsv, es, rfl⟩ := a2.2 ⟨v, by
      rcases hp with hp | ⟨off, sup, h1, h2, h3⟩
      · exact .inl hp
      · exact .inr ⟨sup, off, h2, single_first' (sp off h1), h3⟩,
    .inl ⟨hne, _, hex.choose_spec, rfl⟩, key, k, hacc⟩
  obtain ⟨rfl, rfl⟩ := server_ext hM a1 (sx offer rfl) hex hne
  obtain ⟨ws, w1, w2, w3, w4⟩ := server_names offer h.exts hss
  have mem : ∀ c ∈ cs, ∀ w, c.client = some w → w ∈ pieces 0x2c offer := by
    intro c hc w hw
    have : some w ∈ (pieces 0x2c offer).map some := by
      rw [hof, ← hw]
      exact List.mem_map.2 ⟨c, hc, rfl⟩
    simpa using this
  refine ⟨a, p, _, rsv, _, a1, ?_, ?_⟩
  · rw [w4]
    refine List.map_congr_left (fun s hs => ?_)
    congr 1
    rw [Bool.eq_iff_iff, List.contains_iff_mem, List.contains_iff_mem, ← hof]
    obtain ⟨w, hw⟩ := hss.fine s hs
    rw [hw]
    simp only [List.mem_map, Option.some.injEq, exists_eq_right]
    rw [w3]
    exact ⟨fun h => h.1, fun h => ⟨h, s, hs, hw⟩⟩
  · intro f keys status0 evs reason ls tail hst hls hev
    obtain ⟨c, c1, c2, c3, c4, -, -, c7⟩ := client_side f keys cs status0 evs reason a p _ ls tail hst hls hev
    obtain ⟨t1, t2⟩ := client_takes cs hcs ws w2 (fun w hw => by
      have h1 : some w ∈ (pieces 0x2c offer).map some := List.mem_map.2 ⟨w, ((w3 w).1 hw).1, rfl⟩
      rw [hof] at h1
      obtain ⟨c, hc, hc'⟩ := List.mem_map.1 h1
      exact ⟨c, hc, hc'⟩)
    rw [← w1] at t1 t2
    refine ⟨c, c1, c2.trans t1, c3, c4, ?_⟩
    rw [c7, t2]
    refine List.map_congr_left (fun c hc => ?_)
    congr 1
    obtain ⟨w, hw, -⟩ := hcs.fine c hc
    rw [Bool.eq_iff_iff, List.contains_iff_mem, List.contains_iff_mem, hw]
    simp only [List.mem_map, Option.some.injEq, exists_eq_right]
    rw [w3]
    exact ⟨fun h => h.2, fun h => ⟨mem c hc w hw, h⟩⟩

private def twoClient : List CliExt := [{ rsv := 0x40, client := some b!"a" }, { rsv := 0x20, client := some b!"b" }]

private def twoServer : List SrvExt := [{ rsv := 0x20, server := some b!"b" }, { rsv := 0x10, server := some b!"c" }]

example : ClientNames twoClient ∧ ServerNames twoServer ∧ (pieces 0x2c b!"a,b").map some = twoClient.map (·.client) ∧
    (srvNegotiate b!"a,b" twoServer).2.answer = some b!"b" ∧ (cliNegotiate (asRead (some b!"b")) twoClient).1.map (·.enabled) = [false, true] ∧
    HoldsParams ({ url := none } : Request).mapHeader [] ∧ (∀ name ∈ websocketNames, Spelled [] name) ∧ Common b!"chat, x" b!"y,chat" := by
  have two : ∀ {α : Type} {P : α → Prop} {a b : α}, P a → P b → ∀ x ∈ [a, b], P x := by
    intro α P a b ha hb x hx
    simp only [List.mem_cons, List.not_mem_nil, or_false] at hx
    rcases hx with rfl | rfl
    · exact ha
    · exact hb
  have nm : ∀ c : UInt8, c ≠ 0x2c → isSpace c = false → ListName [c] := by
    intro c h1 h2
    refine ⟨by simp, by simpa using fun h => h1 h.symm, ?_, ?_⟩ <;>
    · intro d hd
      simp at hd
      rw [← hd]; exact h2
  have it : Items b!"chat, x" [b!"chat", b!"x"] := by
    refine ⟨by decide, ?_⟩
    intro i p x hp hx
    match i with
    | 0 => cases hp; cases hx; exact ⟨[], [], rfl, nofun, nofun, by decide, by decide⟩
    | 1 => cases hp; cases hx; exact ⟨b!" ", [], rfl, blank_space, nofun, by decide, by decide⟩
    | _ + 2 => cases hx
  have it' : Items b!"y,chat" [b!"y", b!"chat"] := by
    refine ⟨by decide, ?_⟩
    intro i p x hp hx
    match i with
    | 0 => cases hp; cases hx; exact ⟨[], [], rfl, nofun, nofun, by decide, by decide⟩
    | 1 => cases hp; cases hx; exact ⟨[], [], rfl, nofun, nofun, by decide, by decide⟩
    | _ + 2 => cases hx
  exact ⟨⟨two rfl rfl, two rfl rfl, by decide, by decide, two ⟨_, rfl, nm _ (by decide) (by decide)⟩ ⟨_, rfl, nm _ (by decide) (by decide)⟩⟩,
    ⟨two rfl rfl, two rfl rfl, by decide, by decide, two ⟨_, rfl⟩ ⟨_, rfl⟩⟩, by decide, by decide +kernel, by decide +kernel, holds_init,
    fun _ _ => (fun _ h => by cases h), _, _, b!"chat", it, it', by decide, by decide⟩

/-- What the client holds is not what the server answered, and the server holds nothing: for every check of the accept value, the
client that reads the answer of a server that took `chat` has the sub-protocol ` chat`, and the server, whatever it answered, has
neither sub-protocol nor extensions in its `websocket_manager`. -/
theorem C149_blank_false (f : Bytes → Bool) :
    (∃ c, clientHandshake f [] [] 0
      [.seg (crlf (statusText 101 b!"x" :: (upgradeFields b!"k" (some b!"chat") none).map fieldLine) ++ b!"\r\n")] = .ok c ∧
      c.ok = true ∧ c.isOpen = true ∧ c.seen.protocol = some b!" chat") ∧ ∀ ans, serverTexts ans = (none, none) := by
  refine ⟨?_, fun _ => rfl⟩
  have rd : ∀ l : Bytes, (0x0d : UInt8) ∉ l → NoNul l → Utf8.utf8Ok l = true → l.length ≤ 4094 → ReadableLine l :=
    fun l h1 h2 h3 h4 => ⟨h1, h2, (C05_utf8Ok l).1 h3, h4⟩
  obtain ⟨c, c1, c2, c3, -, c5, -⟩ := client_side f [] [] 0
    [.seg (crlf (statusText 101 b!"x" :: (upgradeFields b!"k" (some b!"chat") none).map fieldLine) ++ b!"\r\n")] b!"x" b!"k" (some b!"chat") none
    ((upgradeFields b!"k" (some b!"chat") none).map fieldLine) []
    (rd _ (by decide +kernel) (by decide +kernel) (by decide +kernel) (by decide +kernel))
    ⟨fun f hf => List.mem_map.2 ⟨f, hf, rfl⟩, fun l hl => by
        have : l = b!"Upgrade: websocket" ∨ l = b!"Sec-WebSocket-Accept: k" ∨ l = b!"Sec-WebSocket-Protocol: chat" := by
          simpa [upgradeFields, addField, fieldLine] using hl
        rcases this with rfl | rfl | rfl
        · exact ⟨rd _ (by decide) (by decide) (by decide) (by decide), by decide⟩
        · exact ⟨rd _ (by decide) (by decide) (by decide) (by decide), by decide⟩
        · exact ⟨rd _ (by decide) (by decide) (by decide) (by decide), by decide⟩,
      fun l hl _ => by
        obtain ⟨g, hg, rfl⟩ := List.mem_map.1 hl
        exact ⟨g, hg, rfl⟩⟩ (by decide +kernel)
  exact ⟨c, c1, c2, c3, c5⟩

end Verif.Props
