import Verif.Lemmas.Frame
/-!
# WebSocket frames and the receive loop, properties C43–C51
-/
namespace Verif.Props
open Verif.Ws Verif.Spec.Ws

/-! ## C43, C44: unfragmented messages -/

/-- A message an endpoint may send: an opcode of the API, three RSV bits, a mask of four bytes. -/
structure Sendable (m : OutMsg) : Prop where
  opcode : m.opcode = 1 ∨ m.opcode = 2 ∨ m.opcode = 8 ∨ m.opcode = 9 ∨ m.opcode = 10
  rsv : m.rsv &&& 0x8f = 0
  mask : ∀ k, m.mask = some k → k.length = 4

/-- The RFC 6455 frame that carries the whole message. -/
def wholeFrame (m : OutMsg) : Frame := { fin := true, rsv := m.rsv, opcode := m.opcode, mask := m.mask, payload := m.data }

private theorem Sendable.wf {m : OutMsg} (h : Sendable m) : (wholeFrame m).Wf := by
  refine ⟨h.rsv, ?_, h.mask⟩
  show m.opcode &&& 0xf0 = 0
  rcases h.opcode with e | e | e | e | e <;> rw [e] <;> decide

private theorem Sendable.ok {m : OutMsg} (h : Sendable m) : sendable m.opcode = true := by
  rcases h.opcode with e | e | e | e | e <;> rw [e] <;> decide

private theorem curLen_whole (n f : Nat) (hf : f = 0 ∨ n ≤ f) : curLen n 0 f = n := by
  unfold curLen; split <;> split <;> omega

private theorem send_whole (m : OutMsg) (h : Sendable m) (hn : m.data.length < 2 ^ 54)
    (hm : m.mask.isSome → m.data.length < 2 ^ 32) (f : Nat) (hf : f = 0 ∨ m.data.length ≤ f) :
    ∃ m', sendManaged m f = .ok (some ([(wire (wholeFrame m)).map some], m')) := by
  unfold sendManaged
  rw [if_pos h.ok]
  by_cases h0 : m.data.length = 0
  · rw [if_neg (by omega)]
    refine ⟨m, ?_⟩
    rw [buildFrame_whole m h.wf hn hm 0 h0.symm]; rfl
  · rw [if_pos h0, sendLoop.eq_def, dif_pos (by omega)]
    simp only [curLen_whole m.data.length f hf]
    rw [buildFrame_whole m h.wf hn hm _ rfl, sendLoop.eq_def, dif_neg (by simp)]
    exact ⟨_, rfl⟩

/-- C43: an unfragmented message (`fragment_len` 0 or at least the length) is sent as one frame, and the other endpoint reads from
the wire the same opcode, RSV bits and payload, however the bytes arrive and whatever follows. -/
theorem C43_round_trip (m : OutMsg) (h : Sendable m) (hn : m.data.length < 2 ^ 32) (f : Nat) (hf : f = 0 ∨ m.data.length ≤ f) :
    ∃ bytes m', sendManaged m f = .ok (some ([bytes.map some], m')) ∧
      ∀ evs rest, bytesOf evs = bytes ++ rest →
        ∃ x r, readMessage m.mask.isSome evs = some (x, r) ∧ bytesOf r = rest ∧
          x.opcode = m.opcode ∧ x.rsv = m.rsv ∧ x.fin = true ∧ x.data = m.data := by
  obtain ⟨m', e⟩ := send_whole m h (by omega) (fun _ => hn) f hf
  refine ⟨wire (wholeFrame m), m', e, ?_⟩
  intro evs rest hb
  obtain ⟨r, h1, h2⟩ := readMessage_wire m.mask.isSome (wholeFrame m) ⟨h.wf, rfl⟩ hn evs rest hb
  exact ⟨_, r, h1, h2, rfl, rfl, rfl, rfl⟩

/-- a masked ping of three bytes from a client -/
example : Sendable ⟨9, 0, some [1, 2, 3, 4], b!"abc"⟩ ∧
    sendManaged ⟨9, 0, some [1, 2, 3, 4], b!"abc"⟩ 0 =
      .ok (some ([[0x89, 0x83, 1, 2, 3, 4, 0x60, 0x60, 0x60].map some], ⟨0, 0, some [1, 2, 3, 4], b!"abc"⟩)) :=
  ⟨⟨by decide, by decide, by intro k hk; cases hk; rfl⟩, by decide +kernel⟩

/-- C44, for payloads shorter than 2^54 bytes (2^32 if masked): the bytes are the RFC 6455 frame. Missing: longer payloads, for
which the claim is false, see below. -/
theorem C44_rfc_partial (m : OutMsg) (h : Sendable m) (hn : m.data.length < 2 ^ 54)
    (hm : m.mask.isSome → m.data.length < 2 ^ 32) (f : Nat) (hf : f = 0 ∨ m.data.length ≤ f) :
    ∃ m', sendManaged m f = .ok (some ([(wire (wholeFrame m)).map some], m')) := send_whole m h hn hm f hf

/-- the 16-bit form at its boundary -/
example : (lengthField false 125, lengthField false 126, lengthField true 126) =
    ([125], [126, 0, 126], [254, 0, 126]) := by decide

/-- C44: the opcodes that can be sent are text, binary, close, ping and pong; every other one, continuation included, is refused
and nothing is sent. -/
theorem C44_opcodes (m : OutMsg) (f : Nat) : sendManaged m f = .ok none ↔ m.opcode ∉ [1, 2, 8, 9, 10] := by
  have hs : sendable m.opcode = true ↔ m.opcode ∈ ([1, 2, 8, 9, 10] : List UInt8) := by
    unfold sendable
    simp [or_assoc]
  unfold sendManaged
  by_cases h : sendable m.opcode = true
  · rw [if_pos h]
    refine ⟨fun h0 => ?_, fun h0 => absurd (hs.1 h) h0⟩
    split at h0
    · cases hl : sendLoop m f 0 with
      | ok r => rw [hl] at h0; cases h0
      | ub => rw [hl] at h0; cases h0
    · cases hb : buildFrame m 0 0 with
      | ok r => rw [hb] at h0; cases h0
      | ub => rw [hb] at h0; cases h0
  · rw [if_neg h]
    exact ⟨fun _ h0 => h (hs.2 h0), fun _ => rfl⟩

example : sendManaged ⟨0, 0, none, b!"x"⟩ 0 = .ok none := (C44_opcodes _ _).2 (by decide)

/-- C44 is false: from 2^54 bytes on (up to 2^56) the first length byte is wrong (`>> 54`). -/
theorem C44_rfc_false (m : OutMsg) (hm : m.mask = none) (h1 : 2 ^ 54 ≤ m.data.length) (h2 : m.data.length < 2 ^ 56) :
    ∃ frame, buildFrame m 0 m.data.length = .ok frame ∧ frame ≠ (wire (wholeFrame m)).map some := by
  have hb : ∃ frame, buildFrame m 0 m.data.length = .ok frame ∧ frame[2]? = some (some (byte (m.data.length >>> 54))) := by
    unfold buildFrame
    have hfin : UMap.w64 (0 + m.data.length) ≥ m.data.length := by unfold UMap.w64; omega
    simp only [hfin, if_true, Nat.sub_zero, List.drop_zero, List.take_length, hm, Option.isSome_none]
    rw [if_neg (by omega), if_neg (by simp)]
    unfold lengthBytes headerRoom maskAndPayload
    simp only
    rw [if_pos (show m.data.length ≥ 65536 by omega), if_pos (show m.data.length ≥ 65536 by omega)]
    rw [if_neg (by simp; omega)]
    exact ⟨_, rfl, rfl⟩
  obtain ⟨frame, hf, e1⟩ := hb
  refine ⟨frame, hf, ?_⟩
  intro he
  subst he
  have e2 : (wire (wholeFrame m))[2]? = some (UInt8.ofNat (m.data.length / 256 ^ 7)) := by
    unfold wire
    have hl : (wholeFrame m).payload.length = m.data.length := rfl
    rw [lengthField_eq, hl]
    unfold moreLength
    rw [if_neg (show ¬ m.data.length ≤ 125 by omega), if_neg (show ¬ m.data.length < 65536 by omega), be8]
    rfl
  rw [List.getElem?_map, e2] at e1
  simp only [Option.map_some, Option.some.injEq] at e1
  have e4 := congrArg UInt8.toNat e1
  unfold byte at e4
  rw [toNat_byte, toNat_byte, Nat.shiftRight_eq_div_pow, Nat.div_eq_of_lt (show m.data.length < 256 ^ 7 by omega)] at e4
  omega

/-- such a message exists -/
example : ∃ m : OutMsg, m.mask = none ∧ 2 ^ 54 ≤ m.data.length ∧ m.data.length < 2 ^ 56 :=
  ⟨⟨2, 0, none, List.replicate (2 ^ 54) 0⟩, rfl, by rw [List.length_replicate]; exact Nat.le_refl _,
    by rw [List.length_replicate]; exact Nat.pow_lt_pow_right (by decide) (by decide)⟩

/-- C44 is also false of masked payloads of 2^32 bytes and more: the counter of the masking loop wraps and the loop never ends. -/
theorem C44_masked_false (m : OutMsg) (hm : m.mask.isSome = true) (h1 : 2 ^ 32 ≤ m.data.length) (h2 : m.data.length < 2 ^ 64) :
    buildFrame m 0 m.data.length = .ub := by
  unfold buildFrame
  have hfin : UMap.w64 (0 + m.data.length) ≥ m.data.length := by unfold UMap.w64; omega
  simp only [hfin, if_true, Nat.sub_zero, hm]
  rw [if_neg (by omega), if_pos ⟨trivial, h1⟩]

example : ∃ m : OutMsg, m.mask.isSome = true ∧ 2 ^ 32 ≤ m.data.length ∧ m.data.length < 2 ^ 64 :=
  ⟨⟨2, 0, some [0, 0, 0, 0], List.replicate (2 ^ 32) 0⟩, rfl, by rw [List.length_replicate]; exact Nat.le_refl _,
    by rw [List.length_replicate]; exact Nat.pow_lt_pow_right (by decide) (by decide)⟩

/-! ## C45: fragmented messages -/

/-- C45, when one frame is enough: a receiver without extensions delivers the message once, with the same opcode and payload (a
text must be UTF-8), then goes on. Missing: messages really cut into several frames, for which the claim is false. -/
theorem C45_one_frame_partial (m : OutMsg) (h : Sendable m) (hop : m.opcode = 1 ∨ m.opcode = 2) (hr : m.rsv = 0)
    (hu : m.opcode = 1 → Spec.Utf8.IsUtf8 m.data) (hn : m.data.length < 2 ^ 32) (f : Nat) (hf : f = 0 ∨ m.data.length ≤ f)
    (c : Cfg) (hc : Plain c) (hs : c.server = m.mask.isSome) :
    ∃ bytes m', sendManaged m f = .ok (some ([bytes.map some], m')) ∧ ∀ evs rest, bytesOf evs = bytes ++ rest →
      run c none none evs = .deliver m.opcode 0 m.data :: run c none none [.seg rest] := by
  obtain ⟨m', e⟩ := send_whole m h (by omega) (fun _ => hn) f hf
  refine ⟨wire (wholeFrame m), m', e, ?_⟩
  intro evs rest hb
  rw [run_eq, hb]
  have hm : Message [wholeFrame m] m.opcode m.rsv m.data [] := .single (f := wholeFrame m) hop rfl
  have hok : Ok c [wholeFrame m] := by
    intro g hg
    rw [List.mem_singleton] at hg; subst hg
    exact ⟨⟨h.wf, hs.symm⟩, hn⟩
  have := run_message hc hm hok rest ⟨hr, hu⟩
  rw [show wires [wholeFrame m] = wire (wholeFrame m) by simp [wires]] at this
  exact this

/-- C45 is false: a message sent with a smaller fragment length leaves with opcode 0 in its first frame, and the receiving
endpoint — whatever the mask, the extensions and the bytes that follow — delivers nothing and closes. -/
theorem C45_fragmented_false (m : OutMsg) (h : Sendable m) (f : Nat) (hf : 0 < f) (hn : f < m.data.length) (hw : m.data.length < 2 ^ 64)
    (frames : List (List (Option UInt8))) (m' : OutMsg) (hs : sendManaged m f = .ok (some (frames, m'))) :
    ∃ b0 fr rest, frames = (some b0 :: fr) :: rest ∧
      ∀ c evs tail, bytesOf evs = b0 :: tail → run c none none evs = [] := by
  unfold sendManaged at hs
  rw [if_pos h.ok, if_pos (by omega), sendLoop.eq_def, dif_pos (by omega)] at hs
  have hc : curLen m.data.length 0 f = f := by unfold curLen; rw [if_neg (by omega), if_pos (by omega)]
  rw [hc] at hs
  cases hb : buildFrame m 0 f with
  | ub => rw [hb] at hs; simp at hs
  | ok fr =>
    rw [hb] at hs
    have hfr : ∃ l, fr = some m.rsv :: l := by
      unfold buildFrame at hb
      have hfin : ¬ UMap.w64 (0 + f) ≥ m.data.length := by unfold UMap.w64; omega
      simp only [hfin, if_false] at hb
      split at hb
      · cases hb
      · split at hb
        · cases hb
        · split at hb
          · cases hb
          · cases hb; exact ⟨_, rfl⟩
    obtain ⟨l, hl⟩ := hfr
    cases hl2 : sendLoop { m with opcode := 0 } f (0 + f) with
    | ub => rw [hl2] at hs; simp at hs
    | ok q =>
      rw [hl2] at hs
      obtain ⟨q1, q2⟩ := q
      simp only [Res.ok_bind, Res.pure_eq, Res.ok.injEq, Option.some.injEq, Prod.mk.injEq] at hs
      refine ⟨m.rsv, l, q1, ?_, ?_⟩
      · rw [← hs.1, hl]
      · intro c evs tail he
        have hb0 : m.rsv &&& 0x0f = 0 ∧ m.rsv &&& 0x80 = 0 := by
          obtain ⟨i, hi⟩ := rsv_cases _ h.rsv
          rw [hi]; clear hi; revert i; decide +kernel
        cases hr : readMessage c.server evs with
        | none => exact run_stop c none none (by decide) evs hr
        | some p =>
          obtain ⟨x, r⟩ := p
          rw [run_read c none none (by decide) evs x r hr]
          have hx : x.opcode = 0 ∧ x.fin = false := by
            unfold readMessage at hr
            cases hd : readData 2 evs with
            | none => rw [hd] at hr; cases hr
            | some p =>
              obtain ⟨u, v⟩ := p
              have hlen := flat_readData 2 evs
              rw [hd, flat_some, he] at hlen
              split at hlen
              · simp only [Option.some.injEq, Prod.mk.injEq] at hlen
                cases tail with
                | nil => simp at *
                | cons b1 tail =>
                  rw [hd, hlen.1] at hr
                  simp only [List.take_succ_cons, List.take_zero] at hr
                  split at hr
                  · cases hr
                  · split at hr
                    · cases hr
                    · split at hr
                      · cases hr
                      · simp only [Option.some.injEq, Prod.mk.injEq] at hr
                        rw [← hr.1]
                        exact ⟨hb0.1, by simp [hb0.2]⟩
              · cases hlen
          unfold after handle
          rw [hx.1, hx.2]
          simp

/-- a text of five bytes in fragments of two: the frames, none of which has opcode 1 -/
example : Sendable ⟨1, 0, none, b!"hello"⟩ ∧ sendManaged ⟨1, 0, none, b!"hello"⟩ 2 =
    .ok (some ([[0, 2, 104, 101].map some, [0, 2, 108, 108].map some, [0x80, 1, 111].map some], ⟨0, 0, none, b!"hello"⟩)) :=
  ⟨⟨by decide, by decide, by intro k hk; cases hk⟩, by decide +kernel⟩

/-! ## C46: reassembly -/

/-- The state of the connection after the frames `b`: between two messages, or within one. -/
def Within : List Frame → Option (UInt8 × UInt8 × Bytes) → List Act → Prop
  | b, none, a => b = [] ∧ a = []
  | b, some (op, r, d), a => Begun b op r d a

/-- How the stream ends: it just stops, or a frame ends the connection (a close frame is answered); what follows is ignored. -/
def Tail (cur : Option (UInt8 × UInt8 × Bytes)) : List Frame → List Out → Prop
  | [], o => o = []
  | f :: _, o => Ends cur f ∧ o = if f.opcode = 8 ∧ f.fin = true ∧ f.payload.length ≤ 125 then [.close] else []

private theorem run_within {c : Cfg} {b : List Frame} {cur : Option (UInt8 × UInt8 × Bytes)} {a : List Act} (h : Within b cur a)
    (hb : Ok c b) : ∃ prev, CurIs prev cur ∧ ∀ rest, run c none none [.seg (wires b ++ rest)] = a.map outOf ++ run c none prev [.seg rest] := by
  match cur, h with
  | none, ⟨h1, h2⟩ => subst h1; subst h2; exact ⟨none, trivial, fun rest => rfl⟩
  | some (op, r, d), h =>
    obtain ⟨q, hq, e⟩ := run_begun h hb
    exact ⟨some q, hq, e⟩

/-- C46: whenever the frames received are a legal stream, then possibly the beginning of a message, then possibly a frame that
ends the connection, the receive loop (no extensions) delivers exactly the messages of the stream, each with its fragments
concatenated, and answers the pings in order — however the bytes arrive. -/
theorem C46_reassembly (c : Cfg) (hc : Plain c) (s b t : List Frame) (a a' : List Act) (cur : Option (UInt8 × UInt8 × Bytes))
    (o : List Out) (hs : Stream s a) (hb : Within b cur a') (ht : Tail cur t o) (hok : Ok c (s ++ b ++ t))
    (evs : List Ev) (he : bytesOf evs = wires (s ++ b ++ t)) :
    run c none none evs = a.map outOf ++ a'.map outOf ++ o := by
  rw [run_eq, he, wires_append, wires_append, List.append_assoc, run_stream hc hs hok.left.left]
  obtain ⟨prev, hp, e⟩ := run_within hb hok.left.right
  rw [e, List.append_assoc]
  congr 2
  cases t with
  | nil =>
    rw [show wires ([] : List Frame) = [] from rfl, run_empty _ _ _ (by decide)]
    exact ht.symm
  | cons f t =>
    obtain ⟨h1, h2⟩ := ht
    obtain ⟨q, hq⟩ := handle_ends hc hp h1
    rw [wires_cons, run_last prev hok.right.head _ hq, h2]; rfl

private theorem snoc_frames {P : List Frame → Prop} (h0 : P []) (h1 : ∀ l f, P l → P (l ++ [f])) (l : List Frame) : P l := by
  have h : ∀ l : List Frame, P l.reverse := by
    intro l
    induction l with
    | nil => exact h0
    | cons f l ih => rw [List.reverse_cons]; exact h1 _ f ih
  have := h l.reverse
  rwa [List.reverse_reverse] at this

private theorem begun_first {l : List Frame} {op r : UInt8} {d : Bytes} {a : List Act} (h : Begun l op r d a) : op = 1 ∨ op = 2 := by
  induction h with
  | first h _ => exact h
  | more _ _ _ ih => exact ih
  | ping _ _ ih => exact ih
  | pong _ _ ih => exact ih

/-- Every list of frames has this form, so the theorem above says what happens to every stream of frames. -/
theorem C46_every_stream (fs : List Frame) : ∃ s b t a a' cur o, fs = s ++ b ++ t ∧ Stream s a ∧ Within b cur a' ∧ Tail cur t o := by
  induction fs using snoc_frames with
  | h0 => exact ⟨[], [], [], [], [], none, [], rfl, .nil, ⟨rfl, rfl⟩, rfl⟩
  | h1 fs g ih =>
    obtain ⟨s, b, t, a, a', cur, o, e, hs, hb, ht⟩ := ih
    cases t with
    | cons f t => exact ⟨s, b, f :: (t ++ [g]), a, a', cur, o, by rw [e]; simp, hs, hb, ht⟩
    | nil =>
      rw [List.append_nil] at e
      by_cases hE : Ends cur g
      · exact ⟨s, b, [g], a, a', cur, _, by rw [e], hs, hb, hE, rfl⟩
      · simp only [Ends, not_or, not_and] at hE
        obtain ⟨h8, h9, h10, hr, hcur⟩ := hE
        have hop : g.opcode = 0 ∨ g.opcode = 1 ∨ g.opcode = 2 ∨ g.opcode = 9 ∨ g.opcode = 10 := by
          by_cases x0 : g.opcode = 0
          · exact Or.inl x0
          by_cases x1 : g.opcode = 1
          · exact Or.inr (Or.inl x1)
          by_cases x2 : g.opcode = 2
          · exact Or.inr (Or.inr (Or.inl x2))
          by_cases x9 : g.opcode = 9
          · exact Or.inr (Or.inr (Or.inr (Or.inl x9)))
          · exact Or.inr (Or.inr (Or.inr (Or.inr (Decidable.of_not_not (hr x0 x1 x2 x9)))))
        have hping : g.opcode = 9 → g.IsPing := by
          intro x; have := h9 x
          exact ⟨by cases hf : g.fin <;> simp_all, x, by omega⟩
        have hpong : g.opcode = 10 → g.IsPong := by
          intro x; have := h10 x
          exact ⟨by cases hf : g.fin <;> simp_all, x⟩
        match cur, hb, hcur with
        | none, ⟨hb, ha⟩, hcur =>
          subst hb; subst ha
          simp only [not_or, not_and] at hcur
          obtain ⟨c0, c1⟩ := hcur
          rw [List.append_nil] at e
          rcases hop with x | x | x | x | x
          · exact absurd x c0
          · cases hf : g.fin with
            | true =>
              have hacc := Classical.not_not.mp (c1 (Or.inl x) hf)
              exact ⟨s ++ [g], [], [], _, [], none, [], by rw [e]; simp,
                stream_append hs (.message (.single (Or.inl x) hf) hacc .nil), ⟨rfl, rfl⟩, rfl⟩
            | false => exact ⟨s, [g], [], a, [], some (g.opcode, g.rsv, g.payload), [], by rw [e]; simp, hs,
                Begun.first (Or.inl x) hf, rfl⟩
          · cases hf : g.fin with
            | true =>
              have hacc := Classical.not_not.mp (c1 (Or.inr x) hf)
              exact ⟨s ++ [g], [], [], _, [], none, [], by rw [e]; simp,
                stream_append hs (.message (.single (Or.inr x) hf) hacc .nil), ⟨rfl, rfl⟩, rfl⟩
            | false => exact ⟨s, [g], [], a, [], some (g.opcode, g.rsv, g.payload), [], by rw [e]; simp, hs,
                Begun.first (Or.inr x) hf, rfl⟩
          · exact ⟨s ++ [g], [], [], _, [], none, [], by rw [e]; simp, stream_append hs (.ping (hping x) .nil), ⟨rfl, rfl⟩, rfl⟩
          · exact ⟨s ++ [g], [], [], _, [], none, [], by rw [e]; simp, stream_append hs (.pong (hpong x) .nil), ⟨rfl, rfl⟩, rfl⟩
        | some (op, r, d), hb, hcur =>
          simp only [not_or, not_and] at hcur
          obtain ⟨c0, c1⟩ := hcur
          rcases hop with x | x | x | x | x
          · cases hf : g.fin with
            | true =>
              have hacc := Classical.not_not.mp (c1 x hf)
              exact ⟨s ++ (b ++ [g]), [], [], _, [], none, [], by rw [e]; simp,
                stream_append hs (by
                  have := Stream.message (begun_rest hb (.last x hf)) hacc .nil
                  rwa [List.append_nil] at this), ⟨rfl, rfl⟩, rfl⟩
            | false => exact ⟨s, b ++ [g], [], a, a', some (op, r, d ++ g.payload), [], by rw [e]; simp, hs,
                Begun.more hb x hf, rfl⟩
          · exact absurd (Or.inl x) c0
          · exact absurd (Or.inr x) c0
          · exact ⟨s, b ++ [g], [], a, _, some (op, r, d), [], by rw [e]; simp, hs, Begun.ping hb (hping x), rfl⟩
          · exact ⟨s, b ++ [g], [], a, _, some (op, r, d), [], by rw [e]; simp, hs, Begun.pong hb (hpong x), rfl⟩

/-- a text in two fragments with a ping in between, received by a client in two segments -/
example : Stream [⟨false, 0, 1, none, b!"he"⟩, ⟨true, 0, 9, none, b!"p"⟩, ⟨true, 0, 0, none, b!"y"⟩]
      [.pong b!"p", .message 1 b!"hey"] ∧
    run { server := false } none none [.seg ([1, 2] ++ b!"h"), .idle, .seg (b!"e" ++ [0x89, 1] ++ b!"p" ++ [0x80, 1] ++ b!"y")] =
      [.pong b!"p", .deliver 1 0 b!"hey"] := by
  refine ⟨?_, by decide +kernel⟩
  have := Stream.message (l := []) (a := [])
    (Message.fragmented (f := ⟨false, 0, 1, none, b!"he"⟩) (Or.inl rfl) rfl
      (Rest.ping (f := ⟨true, 0, 9, none, b!"p"⟩) ⟨rfl, rfl, by decide⟩ (Rest.last (f := ⟨true, 0, 0, none, b!"y"⟩) rfl rfl)))
    ⟨rfl, fun _ => (C05_utf8Ok _).mp (by decide)⟩ .nil
  exact this

/-! ## C47 -/

/-- C47: whatever the peer sends, and whatever the extensions do, every TEXT message delivered is UTF-8. -/
theorem C47_text_is_utf8 (c : Cfg) (p : Option Nat) (evs : List Ev) (r : UInt8) (d : Bytes)
    (h : .deliver 1 r d ∈ run c p none evs) : Spec.Utf8.IsUtf8 d := by
  rcases mem_run c p none evs _ h with h | ⟨prev, m, h⟩
  · cases h
  · obtain ⟨q, h, _⟩ := deliver_handle h
    obtain ⟨_, _, _, _, h⟩ := deliver_complete h
    rcases h with h | h | h
    · exact absurd rfl h
    · rw [List.length_eq_zero_iff] at h; rw [h]; exact (C05_utf8Ok _).mp (by decide)
    · exact (C05_utf8Ok _).mp h

/-- a text is delivered, and the same bytes cut inside a character are not -/
example : run { server := false } none none [.seg ([0x81, 2] ++ b!"é")] = [.deliver 1 0 b!"é"] ∧
    run { server := false } none none [.seg ([0x81, 1, 0xc3, 0x81, 1, 0xa9])] = [] := by decide +kernel

/-! ## C48 -/

/-- C48: after a frame that ends the connection — a close frame, a forbidden control frame, a reserved opcode, a continuation of
nothing, a message within a message, an unacceptable message — whatever bytes follow, the loop has done what the legal part asked
for, answered the close frame, and nothing else. -/
theorem C48_after_frame (c : Cfg) (hc : Plain c) (s b : List Frame) (f : Frame) (a a' : List Act)
    (cur : Option (UInt8 × UInt8 × Bytes)) (hs : Stream s a) (hb : Within b cur a') (hf : Ends cur f) (hok : Ok c (s ++ b ++ [f]))
    (evs : List Ev) (junk : Bytes) (he : bytesOf evs = wires (s ++ b ++ [f]) ++ junk) :
    run c none none evs = a.map outOf ++ a'.map outOf ++
      (if f.opcode = 8 ∧ f.fin = true ∧ f.payload.length ≤ 125 then [.close] else []) := by
  rw [run_eq, he, wires_append, wires_append, List.append_assoc, List.append_assoc, run_stream hc hs hok.left.left]
  obtain ⟨prev, hp, e⟩ := run_within hb hok.left.right
  rw [e, List.append_assoc]
  congr 2
  obtain ⟨q, hq⟩ := handle_ends hc hp hf
  rw [show wires [f] = wire f by simp [wires], run_last prev hok.right.head _ hq]; rfl

/-- A frame that ends the connection whatever came before. -/
def EndsAlways (f : Frame) : Prop :=
  f.opcode = 8 ∨ (f.opcode = 9 ∧ (f.fin = false ∨ f.payload.length > 125)) ∨ (f.opcode = 10 ∧ f.fin = false) ∨
    (f.opcode ≠ 0 ∧ f.opcode ≠ 1 ∧ f.opcode ≠ 2 ∧ f.opcode ≠ 9 ∧ f.opcode ≠ 10)

/-- C48, with extensions and with the application closing the connection at any moment: what follows such a frame changes nothing. -/
theorem C48_after_control (c : Cfg) (p : Option Nat) (fs : List Frame) (f : Frame) (hf : EndsAlways f) (hok : Ok c (fs ++ [f]))
    (evs : List Ev) (junk : Bytes) (he : bytesOf evs = wires (fs ++ [f]) ++ junk) :
    run c p none evs = run c p none [.seg (wires (fs ++ [f]))] := by
  rw [run_eq, he, wires_append, show wires [f] = wire f by simp [wires], List.append_assoc]
  rcases run_prefix c p none fs hok.left with ⟨o, ho⟩ | ⟨o, p', prev, ho⟩
  · rw [ho, ho]
  · rw [ho, ho]
    congr 1
    by_cases hp : p' = some 0
    · subst hp; rw [run_zero, run_zero]
    · have hs : (handle c prev (toIn f)).2.2 = false := by
        have e0 : (toIn f).opcode = f.opcode := rfl
        have e1 : (toIn f).fin = f.fin := rfl
        have e2 : (toIn f).data = f.payload := rfl
        rcases hf with h | ⟨h, h'⟩ | ⟨h, h'⟩ | ⟨h0, h1, h2, h9, h10⟩
        · cases hf : f.fin <;> simp [handle, e0, e1, h, hf]
        · rcases h' with h' | h'
          · simp [handle, e0, e1, h, h']
          · cases hf : f.fin
            · simp [handle, e0, e1, h, hf]
            · have : ¬ f.payload.length ≤ 125 := by omega
              simp [handle, e0, e1, e2, h, hf, this]
        · simp [handle, e0, e1, h, h']
        · by_cases h8 : f.opcode = 8
          · cases hf : f.fin <;> simp [handle, e0, e1, h8, hf]
          · simp [handle, e0, h0, h1, h2, h9, h10, h8]
      have hk := hok.right.head
      rw [run_wire c p' prev hp f hk.1 hk.2, show wire f = wire f ++ [] by simp, run_wire c p' prev hp f hk.1 hk.2]
      unfold after
      rw [hs]; rfl

/-- C48: once the peer has hung up or the socket has failed nothing more is read. -/
theorem C48_after_disconnection (c : Cfg) (p : Option Nat) (evs t : List Ev) (u : Bytes) :
    run c p none (evs ++ .hup u :: t) = run c p none evs ∧ run c p none (evs ++ .fail :: t) = run c p none evs :=
  ⟨run_congr c p none (bytesOf_append_hup evs u t), run_congr c p none (bytesOf_append_fail evs t)⟩

/-- a message, a close frame, and a message that is not delivered -/
example : run { server := false } none none [.seg ([0x81, 1] ++ b!"a" ++ [0x88, 0] ++ [0x81, 1] ++ b!"b")] =
    [.deliver 1 0 b!"a", .close] := by decide +kernel

/-! ## C49 -/

/-- C49: after any frames, a frame whose mask bit is wrong for the receiver — missing when it is the server, present when it is the
client — makes the loop end: the result is that of the frames before it, whatever it contains and whatever follows. -/
theorem C49_masking (c : Cfg) (p : Option Nat) (fs : List Frame) (hok : Ok c fs) (b0 b1 : UInt8) (x : Bytes)
    (hm : (b1 &&& 0x80 ≠ 0) ↔ c.server = false) (evs : List Ev) (he : bytesOf evs = wires fs ++ b0 :: b1 :: x) :
    run c p none evs = run c p none [.seg (wires fs)] := by
  rw [run_eq, he]
  rw [show [Ev.seg (wires fs)] = [.seg (wires fs ++ [])] by simp]
  rcases run_prefix c p none fs hok with ⟨o, ho⟩ | ⟨o, p', prev, ho⟩
  · rw [ho, ho]
  · rw [ho, ho]
    congr 1
    by_cases hp : p' = some 0
    · subst hp; rw [run_zero, run_zero]
    · rw [run_empty c p' prev hp]
      exact run_stop c p' prev hp _ (readMessage_wrong_mask c.server _ b0 b1 x (by simp [bytesOf]) hm)

/-- the same text masked is delivered by a server, unmasked it is not; the reverse for a client -/
example : run {} none none [.seg ([0x81, 0x81, 0, 0, 0, 0] ++ b!"a")] = [.deliver 1 0 b!"a"] ∧
    run {} none none [.seg ([0x81, 1] ++ b!"a")] = [] ∧
    run { server := false } none none [.seg ([0x81, 0x81, 0, 0, 0, 0] ++ b!"a")] = [] ∧
    run { server := false } none none [.seg ([0x81, 1] ++ b!"a")] = [.deliver 1 0 b!"a"] := by decide +kernel

/-! ## C50 -/

/-- C50, the part that holds: a message delivered has no RSV bit, or at least one that was negotiated. Missing: bits that were not
negotiated next to one that was, and the RSV bits of control and continuation frames. -/
theorem C50_rsv_partial (c : Cfg) (p : Option Nat) (evs : List Ev) (op r : UInt8) (d : Bytes)
    (h : .deliver op r d ∈ run c p none evs) : r = 0 ∨ c.rsvExpected &&& r ≠ 0 := by
  rcases mem_run c p none evs _ h with h | ⟨prev, m, h⟩
  · cases h
  · obtain ⟨q, h, _⟩ := deliver_handle h
    exact (deliver_complete h).2.2.2.1

/-- C50 is false: with RSV1 negotiated, a message with RSV1 and RSV2 is delivered. -/
theorem C50_overlap_false : ∃ (c : Cfg) (evs : List Ev) (op r : UInt8) (d : Bytes),
    .deliver op r d ∈ run c none none evs ∧ r &&& (0xff - c.rsvExpected) ≠ 0 :=
  ⟨{ server := false, rsvExpected := 0x40 }, [.seg ([0xe1, 1] ++ b!"a")], 1, 0x60, b!"a", by decide +kernel, by decide⟩

/-- C50 is false of control and continuation frames: nothing negotiated, a ping with all RSV bits is answered, and a fragment with
all RSV bits is delivered with its message. -/
theorem C50_control_false :
    run { server := false, rsvExpected := 0 } none none [.seg [0xf9, 0]] = [.pong []] ∧
    run { server := false, rsvExpected := 0 } none none [.seg ([0x01, 1] ++ b!"a" ++ [0xf0, 1] ++ b!"b")] = [.deliver 1 0 b!"ab"] := by
  decide +kernel

/-! ## C51 -/

/-- Operations on a message list. -/
inductive ListOp (α : Type) where
  | push (m : α)
  | pop

/-- A history on the model: what the pops returned, and the list. -/
def history {α : Type} : List (ListOp α) → MsgList α → Res (List (Option α) × MsgList α)
  | [], l => .ok ([], l)
  | .push m :: ops, l => history ops (l.push m)
  | .pop :: ops, l => do
    let (m, l') ← l.pop
    let (ms, l'') ← history ops l'
    return (m :: ms, l'')

/-- The reference: a queue. -/
def queue {α : Type} : List (ListOp α) → List α → List (Option α) × List α
  | [], q => ([], q)
  | .push m :: ops, q => queue ops (q ++ [m])
  | .pop :: ops, q => (q.head? :: (queue ops q.tail).1, (queue ops q.tail).2)

/-- The list holds the queue. -/
private def Is {α : Type} (l : MsgList α) (q : List α) : Prop :=
  l.len = q.length ∧ (l.list.getD [] = q.map some) ∧ (q ≠ [] → l.list.isSome)

private theorem is_push {α : Type} {l : MsgList α} {q : List α} (h : Is l q) (m : α) : Is (l.push m) (q ++ [m]) := by
  obtain ⟨h1, h2, h3⟩ := h
  refine ⟨by simp [MsgList.push, h1], ?_, fun _ => rfl⟩
  simp only [MsgList.push, Option.getD_some, resize, h2, h1]
  rw [List.take_of_length_le (by simp), List.length_map, show q.length + 1 - q.length = 1 by omega]
  rw [List.set_append_right _ _ (by simp)]
  simp

private theorem is_pop {α : Type} {l : MsgList α} {q : List α} (h : Is l q) : ∃ l', l.pop = .ok (q.head?, l') ∧ Is l' q.tail := by
  obtain ⟨h1, h2, h3⟩ := h
  unfold MsgList.pop
  cases q with
  | nil => rw [if_neg (by simp [h1])]; exact ⟨l, rfl, h1, h2, by simp⟩
  | cons m q =>
    rw [if_pos (by simp [h1])]
    obtain ⟨n, ls⟩ := l
    simp only at h1 h2 h3
    cases ls with
    | none => exact absurd (h3 (by simp)) (by simp)
    | some ls =>
      simp only [Option.getD_some, List.map_cons] at h2
      subst h2
      subst h1
      simp only [List.length_map, List.length_cons, Nat.lt_irrefl, if_false]
      refine ⟨_, rfl, ?_⟩
      cases q with
      | nil => exact ⟨rfl, by simp, by simp⟩
      | cons m2 q =>
        rw [if_pos (by simp)]
        refine ⟨by simp, ?_, fun _ => rfl⟩
        simp only [resize, Option.getD_some, List.tail_cons, List.length_cons, Nat.add_sub_cancel]
        rw [List.take_of_length_le (by simp), List.take_of_length_le (by simp)]
        simp

private theorem history_is {α : Type} (ops : List (ListOp α)) (l : MsgList α) (q : List α) (h : Is l q) :
    ∃ l', history ops l = .ok ((queue ops q).1, l') ∧ Is l' (queue ops q).2 := by
  induction ops generalizing l q with
  | nil => exact ⟨l, rfl, h⟩
  | cons o ops ih =>
    cases o with
    | push m => exact ih _ _ (is_push h m)
    | pop =>
      obtain ⟨l1, e1, h1⟩ := is_pop h
      obtain ⟨l2, e2, h2⟩ := ih _ _ h1
      refine ⟨l2, ?_, h2⟩
      simp only [history, e1, Res.ok_bind, e2]
      rfl

/-- C51: for every history of pushes and pops of a fresh list, no undefined behaviour, the pops return what a queue returns, and
the length is that of the queue. -/
theorem C51_fifo {α : Type} (ops : List (ListOp α)) :
    ∃ l, history ops MsgList.init = .ok ((queue ops []).1, l) ∧ l.len = (queue ops []).2.length := by
  obtain ⟨l, h1, h2⟩ := history_is ops MsgList.init [] ⟨rfl, rfl, by simp⟩
  exact ⟨l, h1, h2.1⟩

example : (queue [.push 1, .push 2, .pop, .push 3, .pop, .pop, .pop] ([] : List Nat)) = ([some 1, some 2, some 3, none], []) := rfl

end Verif.Props
