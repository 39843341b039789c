import Verif.Lemmas.Handshake
import Verif.Props.Client
import Verif.Props.Utf8
/-! # Properties of the WebSocket opening handshake -/
namespace Verif.Props
open Verif.UMap Verif.Handshake Verif.Spec.Client Verif.Spec.Handshake
open Verif.Spec.Segments (pieces)

/-! ## C55 -/

/-- Every list has items. -/
theorem items_exist (s : Bytes) : ∃ xs, Items s xs := ⟨_, (items_iff s _).2 rfl⟩

/-- C55. With `xs` the protocols the client offered and `ms` those the server supports, the protocol chosen is the first of `xs`
that is in `ms`, and the negotiation fails exactly when there is none; without a server list the first offered one is taken; with a
server list and no offer it fails. For the extension lists the result is every common item, in the order of the client. -/
theorem C55_subprotocol (s m : Bytes) (xs ms : List Bytes) (hs : Items s xs) (hm : Items m ms) :
    firstMatch (some s) (some m) 0x2c = ((xs.find? (fun x => decide (x ∈ ms))).isSome, xs.find? (fun x => decide (x ∈ ms))) ∧
    ((firstMatch (some s) (some m) 0x2c).1 = false ↔ ∀ x ∈ xs, x ∉ ms) ∧
    firstMatch (some s) none 0x2c = (true, xs.head?) ∧ firstMatch none (some m) 0x2c = (false, none) ∧
    listMatch (some s) (some m) 0x2c =
      (let c := xs.filter (fun x => decide (x ∈ ms))
       if c = [] then (false, none) else (true, some (Spec.Routing.joinComma c))) := by
  refine ⟨firstMatch_items s m xs ms hs hm, ?_, ?_, rfl, listMatch_items s m xs ms hs hm⟩
  · rw [firstMatch_items s m xs ms hs hm]
    simp
  · rw [(items_iff s xs).1 hs]
    simp [firstMatch, splitString_eq]

example : Items b!"chat , superchat" [b!"chat", b!"superchat"] ∧ Items b!"mqtt,superchat" [b!"mqtt", b!"superchat"] ∧
    firstMatch (some b!"chat , superchat") (some b!"mqtt,superchat") 0x2c = (true, some b!"superchat") := by
  have h1 : Items b!"chat , superchat" [b!"chat", b!"superchat"] := (items_iff _ _).2 (by decide)
  have h2 : Items b!"mqtt,superchat" [b!"mqtt", b!"superchat"] := (items_iff _ _).2 (by decide)
  exact ⟨h1, h2, (C55_subprotocol _ _ _ _ h1 h2).1.trans (by decide)⟩

/-! ## C52 -/

/-- The enabled extensions of the server, as bit sets. -/
def srvBits (es : List SrvExt) : List UInt8 := (es.filter (·.enabled)).map (·.rsv)
/-- The enabled extensions of the client, as bit sets. -/
def cliBits (es : List CliExt) : List UInt8 := (es.filter (·.enabled)).map (·.rsv)

/-- C52. From extensions none of which is enabled, whatever the offer and whatever the match callbacks answer, the extensions
enabled have pairwise disjoint RSV bits and `rsv_expected` is the union of them; on both sides. -/
theorem C52_disjoint (offer : Bytes) (es : List SrvExt) (hs : ∀ e ∈ es, e.enabled = false) (answer : Option Bytes)
    (cs : List CliExt) (hc : ∀ e ∈ cs, e.enabled = false) :
    ((srvBits (srvNegotiate offer es).1).Pairwise (fun a b => a &&& b = 0) ∧
      (srvNegotiate offer es).2.rsv = (srvBits (srvNegotiate offer es).1).foldr (· ||| ·) 0) ∧
    (cliBits (cliNegotiate answer cs).1).Pairwise (fun a b => a &&& b = 0) ∧
      (cliNegotiate answer cs).2.1 = (cliBits (cliNegotiate answer cs).1).foldr (· ||| ·) 0 := by
  have h1 : srvOn es = [] := by
    simp only [srvOn, List.map_eq_nil_iff, List.filter_eq_nil_iff]
    intro e he; simp [hs e he]
  have h2 : cliOn cs = [] := by
    simp only [cliOn, List.map_eq_nil_iff, List.filter_eq_nil_iff]
    intro e he; simp [hc e he]
  have p0 : Parts [] 0 := ⟨List.Pairwise.nil, rfl⟩
  refine ⟨srvItems_parts _ _ _ (by rw [h1]; exact p0), ?_⟩
  unfold cliNegotiate
  split
  · have : Parts (cliOn cs) 0 := by rw [h2]; exact p0
    exact this
  · split
    · have : Parts (cliOn cs) 0 := by rw [h2]; exact p0
      exact this
    · exact cliItems_parts 0 _ cs 0 (by rw [h2]; exact p0)

/-- Three extensions are offered; the third has the bit of the first and stays off. -/
example : ∃ es : List SrvExt, (∀ e ∈ es, e.enabled = false) ∧
    (srvNegotiate b!"a,b,c" es).1.map (·.enabled) = [true, true, false] ∧ (srvNegotiate b!"a,b,c" es).2.rsv = 0x60 := by
  refine ⟨[{ rsv := 0x40, server := some b!"a" }, { rsv := 0x20, server := some b!"b" }, { rsv := 0x40, server := some b!"c" }],
    by simp, ?_, ?_⟩ <;> simp only [srvNegotiate, splitString_eq] <;> decide

/-! ## C53 -/

private theorem find_key (es : List Ent) (hn : (es.map (·.key)).Nodup) (e : Ent) (he : e ∈ es) :
    es.find? (fun x => x.key == e.key) = some e := by
  induction es with
  | nil => cases he
  | cons x t ih =>
    rw [List.map_cons, List.nodup_cons] at hn
    rw [List.find?_cons]
    rcases List.mem_cons.1 he with rfl | he
    · simp
    · have : (x.key == e.key) = false := by
        rw [beq_eq_false_iff_ne]
        intro hc
        exact hn.1 (hc ▸ List.mem_map.2 ⟨e, he, rfl⟩)
      rw [this]; exact ih hn.2 he

/-- entry and pair show the same -/
private def Reads (e : Ent) (p : Bytes × Option Bytes) : Prop := e.key = p.1 ∧ readStr e.buf = .ok (p.2.getD [])

private theorem holds_reads {m : UMap} {hs : List (Bytes × Option Bytes)} (h : HoldsParams m hs) :
    ∃ es, m = rep es ∧ es.length = hs.length ∧ ∀ (i : Nat) e p, es[i]? = some e → hs[i]? = some p → Reads e p := by
  obtain ⟨h0, h1, h2⟩ := h
  obtain ⟨es, rfl, hg⟩ := reach_wf h0
  rw [enumKeys_rep] at h1
  injection h1 with h1
  refine ⟨es, rfl, by simpa using congrArg List.length h1, ?_⟩
  intro i e p he hp
  have hk : e.key = p.1 := by
    have := congrArg (·[i]?) h1
    simp only [List.getElem?_map, he, hp, Option.map_some, Option.some.injEq] at this
    exact this
  refine ⟨hk, ?_⟩
  have hmem := List.mem_of_getElem? he
  have hget := (h2 p (List.mem_of_getElem? hp)).1
  rw [← hk] at hget
  simp only [getStr, get_rep, find_key es hg.1 e hmem, Option.bind_some, Res.ok_bind] at hget
  by_cases hl : e.len > 0
  · simp only [hl, if_true] at hget
    cases hr : readStr e.buf with
    | ub => rw [hr] at hget; cases hget
    | ok s =>
      rw [hr] at hget
      simp only [Res.ok_bind, Res.ok.injEq] at hget
      rw [← hget]; rfl
  · simp only [hl, if_false, Res.ok.injEq] at hget
    rw [← hget]
    have hz : e.len = 0 := by omega
    have hb := (hg.2 e hmem).2.2.1
    rw [hz] at hb
    cases hbuf : e.buf with
    | nil => rw [hbuf] at hb; cases hb
    | cons x t =>
      rw [hbuf] at hb
      simp only [List.getElem?_cons_zero, Option.some.injEq] at hb
      subst hb
      simp [readStr]

private theorem reads_cons {e : Ent} {p : Bytes × Option Bytes} {es : List Ent} {hs : List (Bytes × Option Bytes)}
    (h : ∀ (i : Nat) e' p', (e :: es)[i]? = some e' → (p :: hs)[i]? = some p' → Reads e' p') :
    Reads e p ∧ ∀ (i : Nat) e' p', es[i]? = some e' → hs[i]? = some p' → Reads e' p' :=
  ⟨h 0 e p rfl rfl, fun i e' p' h1 h2 => h (i + 1) e' p' (by simpa using h1) (by simpa using h2)⟩

private theorem header_holds {m : UMap} {hs : List (Bytes × Option Bytes)} (h : HoldsParams m hs) (name : Bytes) :
    header m name = .ok ((hs.find? (fun p => eqCase p.1 name)).map (fun p => p.2.getD [])) ∧
    UMap.countKeysCase m (some name) = .ok (hs.countP (fun p => eqCase p.1 name)) ∧
    UMap.hasKey m (some name) = .ok (hs.any (fun p => p.1 == name)) := by
  obtain ⟨es, rfl, hl, hr⟩ := holds_reads h
  have key : es.find? (fun e => eqCase e.key name) = none ∧ hs.find? (fun p => eqCase p.1 name) = none ∨
      ∃ e p, es.find? (fun e => eqCase e.key name) = some e ∧ hs.find? (fun p => eqCase p.1 name) = some p ∧ Reads e p := by
    clear h
    induction es generalizing hs with
    | nil => cases hs with
      | nil => exact Or.inl ⟨rfl, rfl⟩
      | cons p t => simp at hl
    | cons e es ih =>
      cases hs with
      | nil => simp at hl
      | cons p hs =>
        obtain ⟨h0, h1⟩ := reads_cons hr
        simp only [List.find?_cons, h0.1]
        cases he : eqCase p.1 name with
        | true => exact Or.inr ⟨e, p, rfl, rfl, h0⟩
        | false => exact ih (by simpa using hl) h1
  refine ⟨?_, ?_, ?_⟩
  · unfold header
    rw [getCase_rep]
    rcases key with ⟨k1, k2⟩ | ⟨e, p, k1, k2, k3⟩
    · rw [k1, k2]; rfl
    · rw [k1, k2]
      simp only [Option.map_some, Res.ok_bind, k3.2, Res.pure_eq]
  · rw [countKeysCase_rep]
    congr 1
    clear h key
    induction es generalizing hs with
    | nil => cases hs with
      | nil => rfl
      | cons p t => simp at hl
    | cons e es ih =>
      cases hs with
      | nil => simp at hl
      | cons p hs =>
        obtain ⟨h0, h1⟩ := reads_cons hr
        rw [List.countP_cons, List.countP_cons, h0.1, ih (by simpa using hl) h1]
  · rw [hasKey_rep]
    congr 1
    clear h key
    induction es generalizing hs with
    | nil => cases hs with
      | nil => rfl
      | cons p t => simp at hl
    | cons e es ih =>
      cases hs with
      | nil => simp at hl
      | cons p hs =>
        obtain ⟨h0, h1⟩ := reads_cons hr
        rw [List.any_cons, List.any_cons, h0.1, ih (by simpa using hl) h1]

private theorem same_iff (a b : Bytes) : eqCase a b = true ↔ sameName a b := by simp [eqCase, fold, sameName]

private theorem first_iff (hs : List (Bytes × Option Bytes)) (name v : Bytes) :
    First hs name v ↔ (hs.find? (fun p => eqCase p.1 name)).map (fun p => p.2.getD []) = some v := by
  rw [Option.map_eq_some_iff]
  constructor
  · rintro ⟨a, p, b, rfl, h1, h2, h3⟩
    refine ⟨p, ?_, h2⟩
    rw [List.find?_eq_some_iff_append]
    refine ⟨(same_iff _ _).2 h1, a, b, rfl, ?_⟩
    intro q hq
    simp only [Bool.not_eq_true']
    rw [← Bool.not_eq_true, same_iff]; exact h3 q hq
  · rintro ⟨p, h1, h2⟩
    rw [List.find?_eq_some_iff_append] at h1
    obtain ⟨h0, a, b, rfl, h3⟩ := h1
    refine ⟨a, p, b, rfl, (same_iff _ _).1 h0, h2, ?_⟩
    intro q hq
    have := h3 q hq
    rw [← same_iff]; simpa using this

private theorem single_iff (hs : List (Bytes × Option Bytes)) (name v : Bytes) :
    Single hs name v ↔ (hs.find? (fun p => eqCase p.1 name)).map (fun p => p.2.getD []) = some v ∧
      hs.countP (fun p => eqCase p.1 name) = 1 := by
  rw [← first_iff]
  have hz : ∀ l : List (Bytes × Option Bytes), (∀ q ∈ l, ¬ sameName q.1 name) ↔ l.countP (fun p => eqCase p.1 name) = 0 := by
    intro l
    rw [List.countP_eq_zero]
    exact ⟨fun h q hq => by rw [same_iff]; exact h q hq, fun h q hq => by rw [← same_iff]; exact h q hq⟩
  constructor
  · rintro ⟨a, p, b, rfl, h1, h2, h3⟩
    refine ⟨⟨a, p, b, rfl, h1, h2, fun q hq => h3 q (by simp [hq])⟩, ?_⟩
    rw [List.countP_append, List.countP_cons, (hz a).1 (fun q hq => h3 q (by simp [hq])),
      (hz b).1 (fun q hq => h3 q (by simp [hq])), if_pos ((same_iff _ _).2 h1)]
  · rintro ⟨⟨a, p, b, rfl, h1, h2, h3⟩, hc⟩
    refine ⟨a, p, b, rfl, h1, h2, ?_⟩
    rw [List.countP_append, List.countP_cons, (hz a).1 h3, if_pos ((same_iff _ _).2 h1)] at hc
    have hb := (hz b).2 (by omega)
    intro q hq
    rcases List.mem_append.1 hq with hq | hq
    · exact h3 q hq
    · exact hb q hq

private theorem contains_iff (n s : Bytes) : Message.contains n s = true ↔ ∃ a b, s = a ++ n ++ b := by
  induction s with
  | nil =>
    rw [Message.contains, List.isEmpty_iff]
    constructor
    · rintro rfl; exact ⟨[], [], rfl⟩
    · rintro ⟨a, b, h⟩
      have := congrArg List.length h
      simp at this
      exact List.length_eq_zero_iff.1 (by omega)
  | cons c t ih =>
    rw [Message.contains, Bool.or_eq_true, List.isPrefixOf_iff_prefix, ih]
    constructor
    · rintro (⟨r, h⟩ | ⟨a, b, h⟩)
      · exact ⟨[], r, by simpa using h.symm⟩
      · exact ⟨c :: a, b, by simp [h]⟩
    · rintro ⟨a, b, h⟩
      cases a with
      | nil => exact Or.inl ⟨b, by simpa using h.symm⟩
      | cons x a =>
        simp only [List.cons_append, List.cons.injEq] at h
        exact Or.inr ⟨a, b, by simpa using h.2⟩

private theorem mentions_iff (v w : Bytes) : containsCase w v = true ↔ Mentions v w := by
  unfold containsCase Mentions sameName
  rw [contains_iff]
  constructor
  · rintro ⟨a, b, h⟩
    unfold fold at h
    rw [List.map_eq_append_iff] at h
    obtain ⟨l1, l2, rfl, h1, -⟩ := h
    rw [List.map_eq_append_iff] at h1
    obtain ⟨l3, l4, rfl, -, h2⟩ := h1
    exact ⟨l3, l4, l2, rfl, h2⟩
  · rintro ⟨a, m, b, rfl, h⟩
    refine ⟨fold a, fold b, ?_⟩
    unfold fold
    rw [List.map_append, List.map_append, h]

private theorem valid_iff {m : UMap} {hs : List (Bytes × Option Bytes)} (h : HoldsParams m hs) (protocol verb : Option Bytes) :
    ∃ b, validUpgrade m protocol verb = .ok b ∧ (b = true ↔ Valid hs protocol verb) := by
  have r1 := header_holds h b!"upgrade"
  have r2 := header_holds h b!"Sec-WebSocket-Key"
  have r3 := header_holds h b!"Connection"
  have r4 := header_holds h b!"Sec-WebSocket-Version"
  have hup : ∀ v, Single hs b!"Upgrade" v ↔ Single hs b!"upgrade" v := by
    intro v
    have : ∀ x, sameName x b!"Upgrade" ↔ sameName x b!"upgrade" := by
      intro x; unfold sameName; rw [show List.map toLower b!"Upgrade" = List.map toLower b!"upgrade" by decide]
    unfold Single; simp only [this]
  refine ⟨conditions ((hs.find? (fun p => eqCase p.1 b!"upgrade")).map (fun p => p.2.getD [])) (hs.countP (fun p => eqCase p.1 b!"upgrade"))
    ((hs.find? (fun p => eqCase p.1 b!"Sec-WebSocket-Key")).map (fun p => p.2.getD [])) (hs.countP (fun p => eqCase p.1 b!"Sec-WebSocket-Key"))
    ((hs.find? (fun p => eqCase p.1 b!"Connection")).map (fun p => p.2.getD [])) (hs.countP (fun p => eqCase p.1 b!"Connection"))
    ((hs.find? (fun p => eqCase p.1 b!"Sec-WebSocket-Version")).map (fun p => p.2.getD [])) (hs.countP (fun p => eqCase p.1 b!"Sec-WebSocket-Version"))
    protocol verb, ?_, ?_⟩
  · unfold validUpgrade
    rw [r1.1, r1.2.1, r2.1, r2.2.1, r3.1, r3.2.1, r4.1, r4.2.1]
    rfl
  unfold conditions
  constructor
  · intro hb
    simp only [Bool.and_eq_true, beq_iff_eq] at hb
    obtain ⟨⟨⟨⟨⟨⟨⟨⟨⟨u1, u2⟩, k1⟩, k2⟩, c1⟩, c2⟩, hp⟩, v1⟩, v2⟩, hg⟩ := hb
    refine ⟨?_, ?_, ?_, ?_, hp, hg⟩
    · cases hf : (hs.find? (fun p => eqCase p.1 b!"upgrade")).map (fun p => p.2.getD []) with
      | none => rw [hf] at u1; cases u1
      | some v =>
        rw [hf] at u1
        exact ⟨v, (hup v).2 ((single_iff _ _ _).2 ⟨hf, u2⟩), (mentions_iff _ _).1 u1⟩
    · cases hf : (hs.find? (fun p => eqCase p.1 b!"Connection")).map (fun p => p.2.getD []) with
      | none => rw [hf] at c1; cases c1
      | some v =>
        rw [hf] at c1
        exact ⟨v, (single_iff _ _ _).2 ⟨hf, c2⟩, (mentions_iff _ _).1 c1⟩
    · cases hf : (hs.find? (fun p => eqCase p.1 b!"Sec-WebSocket-Key")).map (fun p => p.2.getD []) with
      | none => rw [hf] at k1; cases k1
      | some v => exact ⟨v, (single_iff _ _ _).2 ⟨hf, k2⟩⟩
    · exact (single_iff _ _ _).2 ⟨v1, v2⟩
  · rintro ⟨⟨u, hu, hum⟩, ⟨c, hc, hcm⟩, ⟨k, hk⟩, hv, rfl, rfl⟩
    rw [hup, single_iff] at hu
    rw [single_iff] at hc hk hv
    rw [hu.1, hu.2, hc.1, hc.2, hk.1, hk.2, hv.1, hv.2]
    simp [(mentions_iff _ _).2 hum, (mentions_iff _ _).2 hcm]

/-- The sub-protocol is acceptable: the endpoint accepts any, or the client offered one of its list. -/
def ProtocolOk (hs : List (Bytes × Option Bytes)) (supported : Option Bytes) : Prop :=
  supported = none ∨ ∃ sup off, supported = some sup ∧ First hs b!"Sec-WebSocket-Protocol" off ∧ Common off sup

/-- The extensions are acceptable: they are negotiated by the registered extensions, or the endpoint has no list, or the client
asks for none, or the two lists have an item in common. -/
def ExtensionsOk (hs : List (Bytes × Option Bytes)) (registered : List SrvExt) (supported : Option Bytes) : Prop :=
  (registered ≠ [] ∧ ∃ p ∈ hs, p.1 = b!"Sec-WebSocket-Extensions") ∨ supported = none ∨ Absent hs b!"Sec-WebSocket-Extensions" ∨
    ∃ sup off, supported = some sup ∧ First hs b!"Sec-WebSocket-Extensions" off ∧ Common off sup

private theorem common_first (s m : Bytes) : (firstMatch (some s) (some m) 0x2c).1 = true ↔ Common s m := by
  obtain ⟨xs, hx⟩ := items_exist s
  obtain ⟨ms, hm⟩ := items_exist m
  rw [firstMatch_items s m xs ms hx hm, List.find?_isSome]
  constructor
  · rintro ⟨x, h1, h2⟩; exact ⟨xs, ms, x, hx, hm, h1, by simpa using h2⟩
  · rintro ⟨xs', ms', x, h1, h2, h3, h4⟩
    rw [items_iff] at hx hm h1 h2
    subst hx hm h1 h2
    exact ⟨x, h3, by simpa using h4⟩

private theorem common_list (s m : Bytes) : (listMatch (some s) (some m) 0x2c).1 = true ↔ Common s m := by
  obtain ⟨xs, hx⟩ := items_exist s
  obtain ⟨ms, hm⟩ := items_exist m
  rw [← common_first, firstMatch_items s m xs ms hx hm, listMatch_items s m xs ms hx hm, List.find?_isSome]
  simp only
  split
  · rename_i h
    rw [List.filter_eq_nil_iff] at h
    constructor
    · intro hc; cases hc
    · rintro ⟨x, h1, h2⟩; exact absurd h2 (h x h1)
  · rename_i h
    simp only [true_iff]
    obtain ⟨x, hx⟩ := List.exists_mem_of_ne_nil _ h
    rw [List.mem_filter] at hx
    exact ⟨x, hx.1, hx.2⟩

private theorem first_some {hs : List (Bytes × Option Bytes)} {name v w : Bytes} (h1 : First hs name v) (h2 : First hs name w) : v = w := by
  rw [first_iff] at h1 h2
  rw [h1] at h2; injection h2

private theorem proto_ok {m : UMap} {hs : List (Bytes × Option Bytes)} (h : HoldsParams m hs) (sup : Option Bytes) :
    ∃ off, header m b!"Sec-WebSocket-Protocol" = .ok off ∧ ((firstMatch off sup 0x2c).1 = true ↔ ProtocolOk hs sup) ∧
      ∀ v, First hs b!"Sec-WebSocket-Protocol" v ↔ off = some v := by
  refine ⟨_, (header_holds h _).1, ?_, fun v => first_iff _ _ _⟩
  unfold ProtocolOk
  cases sup with
  | none =>
    simp only [true_or, iff_true]
    unfold firstMatch
    cases (List.find? (fun p => eqCase p.1 b!"Sec-WebSocket-Protocol") hs).map (fun p => p.2.getD []) <;> rfl
  | some sup =>
    simp only [reduceCtorEq, Option.some.injEq, false_or, first_iff]
    cases hf : (List.find? (fun p => eqCase p.1 b!"Sec-WebSocket-Protocol") hs).map (fun p => p.2.getD []) with
    | none =>
      constructor
      · intro hc; cases hc
      · rintro ⟨_, off, _, h2, _⟩; cases h2
    | some off =>
      rw [common_first]
      constructor
      · intro hc; exact ⟨sup, off, rfl, rfl, hc⟩
      · rintro ⟨sup', off', rfl, h2, h3⟩
        injection h2 with h2
        rw [h2]; exact h3

private theorem ext_ok {m : UMap} {hs : List (Bytes × Option Bytes)} (h : HoldsParams m hs) (hd : Handle) :
    ∃ r, srvExtensions m hd = .ok r ∧ (r.1 = true ↔ ExtensionsOk hs hd.exts hd.extensions) := by
  have hh := header_holds h b!"Sec-WebSocket-Extensions"
  unfold srvExtensions ExtensionsOk
  rw [hh.1, hh.2.2]
  simp only [Res.ok_bind, Res.pure_eq]
  by_cases hc : (hs.any (fun p => p.1 == b!"Sec-WebSocket-Extensions") && hd.exts.length != 0) = true
  · rw [if_pos hc]
    simp only [Bool.and_eq_true, List.any_eq_true, beq_iff_eq, bne_iff_ne, ne_eq, List.length_eq_zero_iff] at hc
    obtain ⟨⟨p, hp1, hp2⟩, hne⟩ := hc
    cases (List.find? (fun p => eqCase p.1 b!"Sec-WebSocket-Extensions") hs).map (fun p => p.2.getD []) with
    | none => exact ⟨_, rfl, by simp only [true_iff]; exact Or.inl ⟨hne, p, hp1, hp2⟩⟩
    | some o => exact ⟨_, rfl, by simp only [true_iff]; exact Or.inl ⟨hne, p, hp1, hp2⟩⟩
  · rw [if_neg hc]
    refine ⟨_, rfl, ?_⟩
    have hn : ¬ (hd.exts ≠ [] ∧ ∃ p ∈ hs, p.1 = b!"Sec-WebSocket-Extensions") := by
      rintro ⟨h1, p, h2, h3⟩
      apply hc
      simp only [Bool.and_eq_true, List.any_eq_true, beq_iff_eq, bne_iff_ne, ne_eq, List.length_eq_zero_iff]
      exact ⟨⟨p, h2, h3⟩, h1⟩
    simp only [hn, false_or]
    cases hd.extensions with
    | none =>
      simp only [true_or, iff_true]
      cases (List.find? (fun p => eqCase p.1 b!"Sec-WebSocket-Extensions") hs).map (fun p => p.2.getD []) <;> rfl
    | some sup =>
      simp only [reduceCtorEq, Option.some.injEq, false_or, first_iff]
      cases hf : List.find? (fun p => eqCase p.1 b!"Sec-WebSocket-Extensions") hs with
      | none =>
        have : Absent hs b!"Sec-WebSocket-Extensions" := by
          intro q hq
          rw [← same_iff]
          exact (List.find?_eq_none.1 hf) q hq
        simp [this, listMatch]
      | some p =>
        have : ¬ Absent hs b!"Sec-WebSocket-Extensions" := by
          intro ha
          exact ha p (List.mem_of_find?_eq_some hf) ((same_iff _ _).1 (by simpa using List.find?_some hf))
        simp only [this, false_or, Option.map_some]
        rw [common_list]
        constructor
        · intro hc; exact ⟨sup, _, rfl, rfl, hc⟩
        · rintro ⟨sup', off', rfl, h2, h3⟩
          injection h2 with h2
          rw [h2]; exact h3

/-- C53. For every request whose endpoint asked for a websocket: the connection is upgraded exactly when the request is a valid
opening request, sub-protocol and extensions are acceptable and the accept value can be computed; then the accept value is the one of
the (single) key and the sub-protocol is the first offered one the endpoint lists; a request that does not qualify is answered 400. -/
theorem C53_upgrade (accept : Bytes → Option Bytes) (m : UMap) (hs : List (Bytes × Option Bytes)) (hm : HoldsParams m hs)
    (protocol verb : Option Bytes) (h : Handle) :
    ∃ ans, serverHandshake accept m protocol verb h = .ok ans ∧
      ((∃ a p x r es, ans = .upgrade a p x r es) ↔
        Valid hs protocol verb ∧ ProtocolOk hs h.protocol ∧ ExtensionsOk hs h.exts h.extensions ∧
          ∃ k, Single hs b!"Sec-WebSocket-Key" k ∧ (accept k).isSome) ∧
      (∀ a p x r es, ans = .upgrade a p x r es →
        (∃ k, Single hs b!"Sec-WebSocket-Key" k ∧ accept k = some a) ∧
        ∀ off sup xs ms, First hs b!"Sec-WebSocket-Protocol" off → h.protocol = some sup → Items off xs → Items sup ms →
          p = xs.find? (fun x => decide (x ∈ ms))) ∧
      (¬ (Valid hs protocol verb ∧ ProtocolOk hs h.protocol ∧ ExtensionsOk hs h.exts h.extensions) → ans = .refused 400) := by
  obtain ⟨b, hb, hv⟩ := valid_iff hm protocol verb
  obtain ⟨off, ho, hp, hf⟩ := proto_ok hm h.protocol
  obtain ⟨⟨okE, ext, rsv, es⟩, he1, he2⟩ := ext_ok hm h
  have hk := header_holds hm b!"Sec-WebSocket-Key"
  unfold serverHandshake
  rw [hb]
  simp only [Res.ok_bind]
  cases b with
  | false =>
    have hnv : ¬ Valid hs protocol verb := fun hc => by simpa using hv.2 hc
    refine ⟨.refused 400, by simp, ?_, ?_, fun _ => rfl⟩
    · constructor
      · rintro ⟨a, p, x, r, es, hc⟩; cases hc
      · rintro ⟨hc, _⟩; exact absurd hc hnv
    · intro a p x r es hc; cases hc
  | true =>
    have hvv := hv.1 rfl
    obtain ⟨k, hk1⟩ := hvv.key
    have hk2 := ((single_iff _ _ _).1 hk1).1
    rw [if_pos rfl, he1, ho, hk.1, hk2]
    simp only [Res.ok_bind]
    rcases hfm : firstMatch off h.protocol 0x2c with ⟨okP, proto⟩
    rw [hfm] at hp
    simp only
    by_cases hok : (okE && okP) = true
    · rw [if_pos hok]
      rw [Bool.and_eq_true] at hok
      have hE := he2.1 hok.1
      have hP := hp.1 hok.2
      have huniq : ∀ k', Single hs b!"Sec-WebSocket-Key" k' → k' = k := by
        intro k' hk'
        have := ((single_iff _ _ _).1 hk').1
        rw [hk2] at this; injection this with this; exact this.symm
      cases ha : accept k with
      | none =>
        refine ⟨.refused 500, by simp, ?_, ?_, ?_⟩
        · constructor
          · rintro ⟨a, p, x, r, es, hc⟩; cases hc
          · rintro ⟨_, _, _, k', hk', hc⟩
            rw [huniq k' hk', ha] at hc; cases hc
        · intro a p x r es hc; cases hc
        · intro hc; exact absurd ⟨hvv, hP, hE⟩ hc
      | some a =>
        refine ⟨.upgrade a proto ext rsv es, by simp, ?_, ?_, ?_⟩
        · constructor
          · intro _; exact ⟨hvv, hP, hE, k, hk1, by rw [ha]; rfl⟩
          · intro _; exact ⟨_, _, _, _, _, rfl⟩
        · intro a' p x r es' hc
          injection hc with h1 h2
          subst h1 h2
          refine ⟨⟨k, hk1, ha⟩, ?_⟩
          intro off' sup xs ms q1 q2 q3 q4
          rw [(hf off').1 q1, q2, firstMatch_items off' sup xs ms q3 q4] at hfm
          injection hfm with _ hfm
          exact hfm.symm
        · intro hc; exact absurd ⟨hvv, hP, hE⟩ hc
    · rw [if_neg hok]
      have hno : ¬ (ProtocolOk hs h.protocol ∧ ExtensionsOk hs h.exts h.extensions) := by
        rintro ⟨h1, h2⟩
        apply hok
        rw [Bool.and_eq_true]
        exact ⟨he2.2 h2, hp.2 h1⟩
      refine ⟨.refused 400, rfl, ?_, ?_, fun _ => rfl⟩
      · constructor
        · rintro ⟨a, p, x, r, es, hc⟩; cases hc
        · rintro ⟨_, h1, h2, _⟩; exact absurd ⟨h1, h2⟩ hno
      · intro a p x r es hc; cases hc

theorem handshake_header {m : UMap} {hs : List (Bytes × Option Bytes)} (h : HoldsParams m hs) (name : Bytes) :
    header m name = .ok ((hs.find? (fun p => eqCase p.1 name)).map (fun p => p.2.getD [])) ∧
    UMap.hasKey m (some name) = .ok (hs.any (fun p => p.1 == name)) :=
  ⟨(header_holds h name).1, (header_holds h name).2.2⟩

theorem handshake_first (hs : List (Bytes × Option Bytes)) (name v : Bytes) :
    First hs name v ↔ (hs.find? (fun p => eqCase p.1 name)).map (fun p => p.2.getD []) = some v := first_iff hs name v

/-- A map filled by `u_map_put`. -/
def putAll (m : UMap) : List (Bytes × Bytes) → Res UMap
  | [] => .ok m
  | (k, v) :: t => do
    let (_, m') ← UMap.put m (some k) (some v)
    putAll m' t

theorem reach_putAll (l : List (Bytes × Bytes)) : ∀ (m m' : UMap), Reach m → (∀ p ∈ l, p.2.length + 2 < 2 ^ 64) →
    putAll m l = .ok m' → Reach m' := by
  induction l with
  | nil => intro m m' hr _ h; simp only [putAll, Res.ok.injEq] at h; exact h ▸ hr
  | cons p t ih =>
    obtain ⟨k, v⟩ := p
    intro m m' hr hl h
    rw [putAll] at h
    cases hp : UMap.put m (some k) (some v) with
    | ub => rw [hp] at h; cases h
    | ok r =>
      obtain ⟨rc, m1⟩ := r
      rw [hp] at h
      exact ih m1 m' (.put hr (validArgs_str (some v) (by have := hl (k, v) List.mem_cons_self; simpa [lenOf] using this)) hp) (fun q hq => hl q (List.mem_cons_of_mem _ hq)) h

/-- Headers of an opening request. -/
def openingHeaders : List (Bytes × Bytes) :=
  [(b!"host", b!"h"), (b!"upgrade", b!"WebSocket"), (b!"Connection", b!"keep-alive, upgrade"), (b!"Sec-WebSocket-Key", b!"dGhl"),
   (b!"Sec-WebSocket-Version", b!"13"), (b!"Sec-WebSocket-Protocol", b!"chat , mqtt")]

example : ∃ m, HoldsParams m (openingHeaders.map (fun p => (p.1, some p.2))) ∧
    Valid (openingHeaders.map (fun p => (p.1, some p.2))) (some b!"HTTP/1.1") (some b!"GET") ∧
    ProtocolOk (openingHeaders.map (fun p => (p.1, some p.2))) (some b!"mqtt,stomp") ∧
    ∃ a p x r es, serverHandshake (fun k => some (k ++ b!"+")) m (some b!"HTTP/1.1") (some b!"GET") { protocol := some b!"mqtt,stomp" } =
      .ok (.upgrade a p x r es) ∧ a = b!"dGhl+" ∧ p = some b!"mqtt" := by
  cases hm : putAll UMap.init openingHeaders with
  | ub => exact absurd hm (by decide +kernel)
  | ok m =>
    have hm' : m = (match putAll UMap.init openingHeaders with | .ok m => m | .ub => UMap.init) := by rw [hm]
    have hr : Reach m := reach_putAll _ _ _ .init (by decide) hm
    have hh : HoldsParams m (openingHeaders.map (fun p => (p.1, some p.2))) := by
      refine ⟨hr, ?_, ?_⟩
      · rw [hm']; decide +kernel
      · have h1 : ∀ p ∈ openingHeaders, getStr m p.1 = .ok (some p.2) := by rw [hm']; decide +kernel
        have h2 : ∀ p ∈ openingHeaders, NoNul p.1 ∧ NoNul p.2 := by decide +kernel
        intro q hq
        obtain ⟨p, hp, rfl⟩ := List.mem_map.1 hq
        refine ⟨h1 p hp, (h2 p hp).1, ?_⟩
        intro v hv
        injection hv with hv
        exact hv ▸ (h2 p hp).2
    have hv : Valid (openingHeaders.map (fun p => (p.1, some p.2))) (some b!"HTTP/1.1") (some b!"GET") := by
      obtain ⟨b, hb, hv⟩ := valid_iff hh (some b!"HTTP/1.1") (some b!"GET")
      apply hv.1
      have : validUpgrade m (some b!"HTTP/1.1") (some b!"GET") = .ok true := by rw [hm']; decide +kernel
      rw [hb] at this; injection this
    have hf : First (openingHeaders.map (fun p => (p.1, some p.2))) b!"Sec-WebSocket-Protocol" b!"chat , mqtt" :=
      (first_iff _ _ _).2 (by decide +kernel)
    have i1 : Items b!"chat , mqtt" [b!"chat", b!"mqtt"] := (items_iff _ _).2 (by decide)
    have i2 : Items b!"mqtt,stomp" [b!"mqtt", b!"stomp"] := (items_iff _ _).2 (by decide)
    have hp : ProtocolOk (openingHeaders.map (fun p => (p.1, some p.2))) (some b!"mqtt,stomp") :=
      Or.inr ⟨_, _, rfl, hf, _, _, b!"mqtt", i1, i2, by decide, by decide⟩
    refine ⟨m, hh, hv, hp, ?_⟩
    obtain ⟨ans, h1, h2, h3, -⟩ := C53_upgrade (fun k => some (k ++ b!"+")) m _ hh (some b!"HTTP/1.1") (some b!"GET")
      { protocol := some b!"mqtt,stomp" }
    have hk : Single (openingHeaders.map (fun p => (p.1, some p.2))) b!"Sec-WebSocket-Key" b!"dGhl" :=
      (single_iff _ _ _).2 (by decide +kernel)
    obtain ⟨a, p, x, r, es, rfl⟩ := h2.2 ⟨hv, hp, Or.inr (Or.inl rfl), _, hk, rfl⟩
    obtain ⟨⟨k, hk1, hk2⟩, h5⟩ := h3 a p x r es rfl
    refine ⟨a, p, x, r, es, h1, ?_, ?_⟩
    · have e1 := ((single_iff _ _ _).1 hk).1
      rw [((single_iff _ _ _).1 hk1).1] at e1
      injection e1 with e1
      injection hk2 with hk2
      rw [← hk2, e1]; decide
    · exact (h5 _ _ _ _ hf rfl i1 i2).trans (by decide)

end Verif.Props
