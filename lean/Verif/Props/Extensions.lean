import Verif.Lemmas.Extensions
import Verif.Props.HandshakeClient
/-! # C95, C96: which extensions a websocket ends up with -/
namespace Verif.Props
open Verif.Strtok Verif.UMap Verif.Ws Verif.Client Verif.Printf Verif.Handshake
open Verif.Spec.Client Verif.Spec.Handshake Verif.Spec.Segments

/-- C95. From registered extensions none of which is enabled, with callbacks that give a text when they accept: there is a list of
(position in the offer, extension), positions strictly increasing, holding exactly the extensions enabled at the end; each was asked
for at its position (`SrvHit`: its name, or the callback accepted the item), and the answer to the client lists their texts in this
order. What was registered (bits, name, callback) is unchanged. -/
theorem C95_answer (offer : Bytes) (es : List SrvExt) (hoff : ∀ e ∈ es, e.enabled = false)
    (hcb : ∀ e ∈ es, ∀ f, e.matcher = some f → ∀ x w its c, f x w its = some c → c.isSome) :
    ∃ log : List (Nat × SrvExt),
      (log.map (·.1)).Pairwise (· < ·) ∧
      (log.map (·.2)).Perm ((srvNegotiate offer es).1.filter (·.enabled)) ∧
      (∀ p ∈ log, ∃ item, (pieces 0x2c offer)[p.1]? = some item ∧ SrvHit p.1 item p.2) ∧
      (srvNegotiate offer es).2.answer =
        (if log = [] then none else some (commaJoin (log.map (fun p => p.2.client.getD [])))) ∧
      (srvNegotiate offer es).1.map (fun e => (e.rsv, e.server, e.matcher)) = es.map (fun e => (e.rsv, e.server, e.matcher)) := by
  have h := srvItems_log (splitString 0x2c offer) 0 (splitString 0x2c offer).length es es { items := splitString 0x2c offer } []
    (by simp) rfl (fun _ _ => rfl) rfl hcb List.Pairwise.nil (fun p hp => by cases hp)
    (by rw [List.filter_eq_nil_iff.2 (fun e he => by simp [hoff e he])]; exact List.Perm.refl _) (fun p hp => by cases hp) rfl
  rw [← List.range_eq_range'] at h
  obtain ⟨log, h1, h2, h3, h4, h5, h6⟩ := h
  have hsome : ∀ p ∈ log, p.2.client.isSome := by
    intro p hp
    have hh := h5 p hp
    unfold SrvHit at hh
    cases hm : p.2.matcher with
    | none => rw [hm] at hh; obtain ⟨_, _, _, h, _⟩ := hh; rw [h]; rfl
    | some f =>
      rw [hm] at hh
      obtain ⟨_, w, _, its, _, _, _, _, h⟩ := hh
      have hmem := (List.mem_filter.1 ((h4.mem_iff).1 (List.mem_map_of_mem hp))).1
      obtain ⟨e0, h0, h0'⟩ := List.mem_map.1 (h1 ▸ List.mem_map_of_mem (f := SrvExt.base) hmem)
      exact hcb e0 h0 f ((congrArg (fun q => q.2.2) h0').trans hm) _ _ _ _ h
  refine ⟨log, h2, h4, ?_, ?_, h1⟩
  · intro p hp
    refine ⟨_, ?_, h5 p hp⟩
    rw [← splitString_eq, List.getD_eq_getElem?_getD, List.getElem?_eq_getElem (h3 p hp)]
    rfl
  · refine h6.trans ?_
    cases hl : log with
    | nil => rfl
    | cons p t =>
      rw [← hl, if_neg (by rw [hl]; simp)]
      have : (log.map (·.2.client)).map str = log.map (fun p => p.2.client.getD []) := by
        rw [List.map_map]
        refine List.map_congr_left (fun p hp => ?_)
        obtain ⟨s, hs⟩ := Option.isSome_iff_exists.1 (hsome p hp)
        simp [hs, str]
      rw [← this, hl]
      rfl

/-- A callback accepting one name, and an extension known by name. -/
def sampleExts : List SrvExt :=
  [{ rsv := 0x40, matcher := some (fun _ w _ => if w = b!"z" then some (some b!"z; q=1") else none) }, { rsv := 0x20, server := some b!"b" }]

example : (∀ e ∈ sampleExts, e.enabled = false) ∧
    (∀ e ∈ sampleExts, ∀ f, e.matcher = some f → ∀ x w its c, f x w its = some c → c.isSome) ∧
    (srvNegotiate b!"y,b, z " sampleExts).2.answer = some b!"b, z; q=1" := by
  refine ⟨by decide, ?_, by decide +kernel⟩
  intro e he f hf x w its c hc
  simp only [sampleExts, List.mem_cons, List.not_mem_nil, or_false] at he
  rcases he with rfl | rfl
  · simp only [Option.some.injEq] at hf
    subst hf
    simp only at hc
    split at hc
    · injection hc with hc; rw [← hc]; rfl
    · cases hc
  · cases hf

/-- C95, extensions known by name only, with different names and no bit in common: an extension is enabled exactly when its name is
one of the items of the offer. -/
theorem C95_names_partial (offer : Bytes) (es : List SrvExt) (hoff : ∀ e ∈ es, e.enabled = false) (hm : ∀ e ∈ es, e.matcher = none)
    (hd : (es.map (·.rsv)).Pairwise (fun a b => a &&& b = 0)) (hs : (es.map (·.server)).Nodup)
    (i : Nat) (e e' : SrvExt) (he : es[i]? = some e) (he' : (srvNegotiate offer es).1[i]? = some e') :
    e'.enabled = true ↔ ∃ item ∈ pieces 0x2c offer, e.server = some item := by
  have := srvItems_names (splitString 0x2c offer) (List.range (splitString 0x2c offer).length) es _ rfl hm hd hs
    (fun g _ _ => by show g.rsv &&& 0 = 0; exact UInt8.and_zero) i e e' he he'
  rw [this, hoff e (List.mem_of_getElem? he)]
  simp only [Bool.false_eq_true, false_or, splitString_eq]
  constructor
  · rintro ⟨x, hx, h⟩
    rw [List.mem_range] at hx
    refine ⟨_, List.getElem_mem hx, ?_⟩
    rw [h, List.getD_eq_getElem?_getD, List.getElem?_eq_getElem hx]
    rfl
  · rintro ⟨item, hi, h⟩
    obtain ⟨x, hx, rfl⟩ := List.getElem_of_mem hi
    refine ⟨x, List.mem_range.2 hx, ?_⟩
    rw [h, List.getD_eq_getElem?_getD, List.getElem?_eq_getElem hx]
    rfl

example : let es : List SrvExt := [{ rsv := 0x40, server := some b!"a" }, { rsv := 0x20, server := some b!"b" }]
    (∀ e ∈ es, e.enabled = false) ∧ (∀ e ∈ es, e.matcher.isNone) ∧ (es.map (·.rsv)).Pairwise (fun a b => a &&& b = 0) ∧
    (es.map (·.server)).Nodup ∧ (srvNegotiate b!"x,b" es).1.map (·.enabled) = [false, true] := by decide +kernel

/-- C95, negation for an offer written the usual way: the blank behind the comma is part of the item, so an extension without
callback is enabled only if it comes first. -/
theorem C95_blank_false : (srvNegotiate b!"a, b" [{ rsv := 0x40, server := some b!"b" }]).1.map (·.enabled) = [false] ∧
    (srvNegotiate b!"b, a" [{ rsv := 0x40, server := some b!"b" }]).1.map (·.enabled) = [true] := by decide +kernel

/-- C96. From registered extensions none of which is enabled (and at least one registered): if the client goes on, every item of the
server's answer enabled an extension of its own: there are as many enabled extensions as items, and the one at each position was
asked for by the item there (`CliHit`: its text, or the callback accepted the item). -/
theorem C96_every_item_partial (answer : Bytes) (es : List CliExt) (hne : es ≠ []) (ha : answer ≠ [])
    (hoff : ∀ e ∈ es, e.enabled = false) (hok : (cliNegotiate (some answer) es).2.2 = true) :
    ∃ log : List CliExt, log.length = (pieces 0x2c answer).length ∧ log.Perm ((cliNegotiate (some answer) es).1.filter (·.enabled)) ∧
      (∀ i e, log[i]? = some e → ∃ item, (pieces 0x2c answer)[i]? = some item ∧ CliHit i item e) ∧
      (cliNegotiate (some answer) es).1.map (fun e => (e.rsv, e.client, e.matcher)) = es.map (fun e => (e.rsv, e.client, e.matcher)) := by
  have hdef : cliNegotiate (some answer) es = cliItems 0 (splitString 0x2c answer) es 0 := by
    show (if answer = [] ∨ es = [] then (es, 0, true) else cliItems 0 (splitString 0x2c answer) es 0) = _
    rw [if_neg (by simp [ha, hne])]
  rw [hdef] at hok ⊢
  obtain ⟨h1, h2⟩ := cliItems_log (splitString 0x2c answer) 0 (splitString 0x2c answer) es es 0 [] rfl rfl (Nat.zero_le _) rfl
    (by rw [List.filter_eq_nil_iff.2 (fun e he => by simp [hoff e he])]) (fun i e h => by simp at h)
  obtain ⟨log, h3, h4, h5⟩ := h2 hok
  refine ⟨log, by rw [h3, splitString_eq], h4, ?_, h1⟩
  intro i e he
  have hi : i < (splitString 0x2c answer).length := by
    have := (List.getElem?_eq_some_iff.1 he).1
    omega
  refine ⟨_, ?_, h5 i e he⟩
  rw [← splitString_eq, List.getD_eq_getElem?_getD, List.getElem?_eq_getElem hi]
  rfl

example : let es : List CliExt := [{ rsv := 0x40, client := some b!"a" }, { rsv := 0x20, client := some b!"b" }]
    (∀ e ∈ es, e.enabled = false) ∧ (cliNegotiate (some b!" b , a") es).2.2 = true ∧ (cliNegotiate (some b!"b,c") es).2.2 = false ∧
    (cliNegotiate (some b!"b,b") es).2.2 = false := by decide +kernel

/-- C96, negation: a client that registered no extension takes an answer announcing one, and the connection stays open (RFC 6455
section 4.1 asks the client to fail the connection). -/
theorem C96_unasked_false : ∀ f : Bytes → Bool, ∃ r, clientHandshake f [] [] 0
    [.seg (crlf [statusText 101 b!"x", b!"Upgrade: websocket", b!"Sec-WebSocket-Extensions: e"] ++ b!"\r\n")] = .ok r ∧
    r.ok = true ∧ r.isOpen = true := by
  intro f
  have rd : ∀ l : Bytes, (0x0d : UInt8) ∉ l → NoNul l → Utf8.utf8Ok l = true → l.length ≤ 4094 → ReadableLine l :=
    fun l h1 h2 h3 h4 => ⟨h1, h2, (C05_utf8Ok l).1 h3, h4⟩
  obtain ⟨r, h1, -, -, h2, h3⟩ := C54_opens_partial f [] [] 0
    [.seg (crlf [statusText 101 b!"x", b!"Upgrade: websocket", b!"Sec-WebSocket-Extensions: e"] ++ b!"\r\n")]
    101 b!"x" [b!"Upgrade: websocket", b!"Sec-WebSocket-Extensions: e"] b!"\r\n" false (by decide)
    (rd _ (by decide +kernel) (by decide +kernel) (by decide +kernel) (by decide +kernel))
    (by
      intro l hl
      simp only [List.mem_cons, List.not_mem_nil, or_false] at hl
      rcases hl with rfl | rfl
      · exact ⟨rd _ (by decide) (by decide) (by decide) (by decide), by decide⟩
      · exact ⟨rd _ (by decide) (by decide) (by decide) (by decide), by decide⟩)
    (.inl ⟨[], rfl, rfl⟩) (by simp [bytesOf])
  have hok := h2 rfl rfl ⟨_, List.mem_cons_self, .inl (by decide)⟩
  exact ⟨r, h1, hok, (h3 hok).2 rfl⟩

end Verif.Props
