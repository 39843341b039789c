import Verif.Model.WsJson
import Verif.Props.FrameMore
/-!
# JSON messages over a websocket, property C141
-/
namespace Verif.Props
open Verif.Ws Verif.Spec.Ws

/-- What jansson documents of its functions for the value `j`: objects and arrays are written as a text in UTF-8 that is not empty
and is read back as the same value; without the flag JSON_ENCODE_ANY other values are not written. -/
def Documented {J : Type} (L : Jansson J) (j : J) : Prop :=
  (L.container j = true → ∃ t, L.dumps j = some t ∧ t ≠ [] ∧ Spec.Utf8.IsUtf8 t ∧ L.loads t = some j) ∧
  (L.container j = false → L.dumps j = none)

/-- The extensions negotiated: the bits of the enabled ones are RSV bits of their own, each in function undoes the out function and
has the same user data. -/
structure GoodExtensions (exts : List Ext) : Prop where
  own : Disjoint exts
  bits : ∀ e ∈ exts, e.enabled = true → e.rsv &&& 0x8f = 0
  inverse : ∀ e ∈ exts, Inverse e ∧ (e.outPerform ≠ none → e.inData = e.outData)

/-- The peer: it undoes the same extensions and expects the bits of the enabled ones. -/
structure Peer (c : Cfg) (exts : List Ext) : Prop where
  ext : c.ext = applyIn exts
  expects : ∀ e ∈ exts, e.enabled = true → e.rsv &&& ~~~ c.rsvExpected = 0

/-- What the callback of the peer gets when it parses what it is given. -/
def parsedBy {J : Type} (L : Jansson J) : Out → Option J
  | .deliver op _ d => parseJson L (some (op, d))
  | _ => none

private theorem expected_bits {a r : UInt8} (h : r &&& ~~~ a = 0) (h0 : r ≠ 0) : a &&& r ≠ 0 := by
  intro h1
  apply h0
  apply UInt8.toBitVec_inj.mp
  have e1 := congrArg UInt8.toBitVec h
  have e2 := congrArg UInt8.toBitVec h1
  simp only [UInt8.toBitVec_and, UInt8.toBitVec_not] at e1 e2
  apply BitVec.eq_of_getElem_eq
  intro i hi
  have f1 := congrArg (fun v : BitVec 8 => v[i]) e1
  have f2 := congrArg (fun v : BitVec 8 => v[i]) e2
  simp at f1 f2 ⊢
  cases hr : r.toBitVec[i] with
  | false => rfl
  | true => rw [hr] at f1 f2; simp_all

/-- **C141, partial.** Objects and arrays sent with `ulfius_websocket_send_json_message` one after the other, through any extensions
that can be undone, masked or not, each taking less than 4 GiB on the wire: when all calls returned U_OK, the peer, however the bytes
arrive, delivers as many messages, and `ulfius_websocket_parse_json_message` makes of them the values sent, in order. Without extensions all
calls do return U_OK. Missing: strings, numbers, true, false and null (`C141_scalar_false`). -/
theorem C141_round_trip_partial {J : Type} (L : Jansson J) (exts : List Ext) (he : GoodExtensions exts) (c : Cfg) (hc : Peer c exts)
    (msgs : List (Option Bytes × J)) (hj : ∀ p ∈ msgs, Documented L p.2 ∧ L.container p.2 = true)
    (hm : ∀ p ∈ msgs, p.1.isSome = c.server ∧ ∀ k, p.1 = some k → k.length = 4)
    (hl : ∀ p ∈ msgs, ∀ t r d, L.dumps p.2 = some t → applyOut 1 exts 0 t = some (r, d) → d.length < 2 ^ 32) :
    ∃ codes sent, sendJsons L exts msgs = .ok (codes, sent) ∧ codes.length = msgs.length ∧
      (exts = [] → ∀ x ∈ codes, x = .ok) ∧
      ((∀ x ∈ codes, x = .ok) → ∃ bytes, sent = bytes.map some ∧ ∀ evs, bytesOf evs = bytes →
        (run c none none evs).map (parsedBy L) = msgs.map (fun p => some p.2)) := by
  suffices h : ∃ codes sent, sendJsons L exts msgs = .ok (codes, sent) ∧ codes.length = msgs.length ∧
      (exts = [] → ∀ x ∈ codes, x = .ok) ∧
      ((∀ x ∈ codes, x = .ok) → ∃ bytes, sent = bytes.map some ∧
        (run c none none [.seg bytes]).map (parsedBy L) = msgs.map (fun p => some p.2)) by
    obtain ⟨codes, sent, h1, h2, h3, h4⟩ := h
    refine ⟨codes, sent, h1, h2, h3, fun hx => ?_⟩
    obtain ⟨bytes, h5, h6⟩ := h4 hx
    refine ⟨bytes, h5, fun evs hb => ?_⟩
    rw [run_eq, hb]
    exact h6
  induction msgs with
  | nil =>
    refine ⟨[], [], rfl, rfl, fun _ x hx => (by cases hx), fun _ => ⟨[], rfl, ?_⟩⟩
    rw [run_empty _ _ _ (by decide)]
    rfl
  | cons p t ih =>
    obtain ⟨mask, j⟩ := p
    obtain ⟨codes, sent, h1, h2, h3, h4⟩ := ih (fun q hq => hj q (List.mem_cons_of_mem _ hq)) (fun q hq => hm q (List.mem_cons_of_mem _ hq))
      (fun q hq => hl q (List.mem_cons_of_mem _ hq))
    obtain ⟨⟨hd, -⟩, hcon⟩ := hj _ (List.mem_cons_self ..)
    obtain ⟨x, hx, hne, hu, hback⟩ := hd hcon
    obtain ⟨hms, hk⟩ := hm _ (List.mem_cons_self ..)
    simp only [sendJsons, sendJson, hx, Option.getD_some, sendMessage, if_true, sendFragmented, or_true]
    cases ho : applyOut 1 exts 0 x with
    | none =>
      simp only [Res.ok_bind, Res.pure_eq, h1]
      refine ⟨_, _, rfl, by simp [h2], fun e => ?_, fun hall => ?_⟩
      · subst e; cases ho
      · exact absurd (hall .error (List.mem_cons_self ..)) (by decide)
    | some q =>
      obtain ⟨r, d⟩ := q
      have hlen : d.length < 2 ^ 32 := hl _ (List.mem_cons_self ..) x r d hx ho
      have hr8 : r &&& 0x8f = 0 := applyOut_rsv 1 exts 0 x r d ho 0x8f (by decide) he.bits
      have hexp : r &&& ~~~ c.rsvExpected = 0 := applyOut_rsv 1 exts 0 x r d ho _ (by simp) hc.expects
      have hsend : Sendable ⟨1, r, mask, d⟩ := ⟨Or.inl rfl, hr8, hk⟩
      obtain ⟨m', e⟩ := C44_rfc_partial ⟨1, r, mask, d⟩ hsend (by show d.length < _; omega) (fun _ => hlen) 0 (Or.inl rfl)
      simp only [e, Res.ok_bind, Res.pure_eq, h1]
      refine ⟨_, _, rfl, by simp [h2], fun e0 y hy => ?_, fun hall => ?_⟩
      · rcases List.mem_cons.1 hy with rfl | hy
        · rfl
        · exact h3 e0 y hy
      · obtain ⟨bytes, h5, h6⟩ := h4 (fun y hy => hall y (List.mem_cons_of_mem _ hy))
        refine ⟨wire (wholeFrame ⟨1, r, mask, d⟩) ++ bytes, by rw [h5]; simp, ?_⟩
        have hrec : Received c.server (wholeFrame ⟨1, r, mask, d⟩) := ⟨⟨hr8, (by decide : (1 : UInt8) &&& 0xf0 = 0), hk⟩, hms⟩
        have hdel : complete c (toIn (wholeFrame ⟨1, r, mask, d⟩)) = ([.deliver 1 r x], true) := by
          unfold complete
          rw [hc.ext, C75_inverse_partial 1 exts he.own he.inverse x r d ho _ ⟨rfl, rfl, rfl⟩]
          simp only
          rw [if_pos, if_pos (Or.inr (Or.inr ((C05_utf8Ok _).mpr hu)))]
          · rfl
          · by_cases h0 : r = 0
            · exact Or.inl h0
            · exact Or.inr (expected_bits hexp h0)
        have hh := handle_single c (f := wholeFrame ⟨1, r, mask, d⟩) (Or.inl rfl) rfl
        rw [hdel] at hh
        rw [run_one none ⟨hrec, hlen⟩ bytes hh]
        simp only [List.cons_append, List.nil_append, List.map_cons, h6, parsedBy, parseJson, hback]
        rw [if_pos ⟨Or.inl trivial, by simpa using hne⟩]

/-- A small stand-in for jansson: arrays of one byte, or a byte. -/
private def bytesLib : Jansson (Bool × UInt8) where
  container j := j.1
  dumps j := if j.1 = true then some [0x5b, j.2, 0x5d] else none
  loads
    | [0x5b, x, 0x5d] => some (true, x)
    | [x] => some (false, x)
    | _ => none

/-- an array from a client to a server, without extensions -/
example : Documented bytesLib (true, 0x31) ∧ GoodExtensions [] ∧ Peer { ext := applyIn [] } [] ∧
    sendJsons bytesLib [] [(some [1, 2, 3, 4], (true, 0x31))] =
      .ok ([.ok], [0x81, 0x83, 1, 2, 3, 4, 0x5a, 0x33, 0x5e].map some) ∧
    (run { ext := applyIn [] } none none [.seg [0x81, 0x83, 1, 2, 3, 4, 0x5a, 0x33, 0x5e]]).map (parsedBy bytesLib) = [some (true, 0x31)] := by
  refine ⟨⟨fun _ => ⟨_, rfl, by decide, (C05_utf8Ok _).1 (by decide), rfl⟩, fun h => by cases h⟩, ⟨trivial, ?_, ?_⟩, ⟨rfl, ?_⟩,
    by decide +kernel, by decide +kernel⟩
  all_goals intro e he; cases he

/-- **C141** is false of strings, numbers, true, false and null: whatever the connection, the call returns U_OK and sends a text message
without payload, of which the peer makes nothing, although it would read such a value. -/
theorem C141_scalar_false {J : Type} (L : Jansson J) (j : J) (hj : Documented L j) (hs : L.container j = false) (mask : Option Bytes)
    (hk : ∀ k, mask = some k → k.length = 4) (c : Cfg) (hc : Peer c []) (hm : mask.isSome = c.server) :
    ∃ bytes, sendJsons L [] [(mask, j)] = .ok ([.ok], bytes.map some) ∧
      run c none none [.seg bytes] = [.deliver 1 0 []] ∧ parsedBy L (.deliver 1 0 []) = none ∧
      ∀ t, t ≠ [] → L.loads t = some j → parsedBy L (.deliver 1 0 t) = some j := by
  obtain ⟨m', e⟩ := C44_rfc_partial ⟨1, 0, mask, []⟩ ⟨Or.inl rfl, (by decide : (0 : UInt8) &&& 0x8f = 0), hk⟩
    (by show 0 < _; omega) (fun _ => (by show 0 < _; omega)) 0 (Or.inl rfl)
  refine ⟨wire (wholeFrame ⟨1, 0, mask, []⟩), ?_, ?_, rfl, fun t ht hb => ?_⟩
  · simp only [sendJsons, sendJson, hj.2 hs, Option.getD_none, sendMessage, if_true, sendFragmented, or_true, applyOut, e, Res.ok_bind,
      Res.pure_eq, List.flatten_cons, List.flatten_nil, List.append_nil]
  · have hrec : Received c.server (wholeFrame ⟨1, 0, mask, []⟩) :=
      ⟨⟨(by decide : (0 : UInt8) &&& 0x8f = 0), (by decide : (1 : UInt8) &&& 0xf0 = 0), hk⟩, hm⟩
    have hdel : complete c (toIn (wholeFrame ⟨1, 0, mask, []⟩)) = ([.deliver 1 0 []], true) := by
      unfold complete
      rw [hc.ext]
      rfl
    have hh := handle_single c (f := wholeFrame ⟨1, 0, mask, []⟩) (Or.inl rfl) rfl
    rw [hdel] at hh
    have := run_one none ⟨hrec, (by show 0 < _; omega)⟩ [] hh
    rw [List.append_nil, run_empty _ _ _ (by decide)] at this
    exact this
  · show parseJson L (some (1, t)) = some j
    unfold parseJson
    simp only
    rw [if_pos ⟨Or.inl trivial, by simpa using ht⟩, hb]

/-- a number sent by a server -/
example : Documented bytesLib (false, 0x31) ∧ bytesLib.container (false, 0x31) = false ∧
    sendJsons bytesLib [] [(none, (false, 0x31))] = .ok ([.ok], [0x81, 0].map some) :=
  ⟨⟨(fun h => by cases h), fun _ => rfl⟩, rfl, by decide +kernel⟩

/-- C141, what is refused: nothing is sent for a NULL value and on a connection that has ended, and only messages of text or bytes
that are not empty are parsed, whole. -/
theorem C141_refused {J : Type} (L : Jansson J) (exts : List Ext) (mask : Option Bytes) :
    (∀ connected, sendJson L connected exts mask none = .ok (.params, [])) ∧
    (∀ j, sendJson L false exts mask j = .ok (.params, [])) ∧
    ∀ m, parseJson L m = match m with
      | some (1, b :: d) | some (2, b :: d) => L.loads (b :: d)
      | _ => none := by
  refine ⟨fun _ => rfl, fun j => by cases j <;> rfl, ?_⟩
  intro m
  unfold parseJson
  match m with
  | none => rfl
  | some (op, []) => simp
  | some (op, b :: d) =>
    by_cases h1 : op = 1
    · subst h1; simp
    · by_cases h2 : op = 2
      · subst h2; simp
      · simp [h1, h2]

end Verif.Props
