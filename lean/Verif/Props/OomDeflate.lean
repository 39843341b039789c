import Verif.Model.OomDeflate
import Verif.Props.DeflateData
/-!
# C193: a compressed message that cannot be sent for want of memory is lost alone
-/
namespace Verif.Props
open Verif.DeflateData Verif.OomDeflate
open Verif.Deflate (Flush)

variable {C D : Type}

/-- What zlib promises for `Z_FULL_FLUSH`: what comes behind it can be read without what came before it. -/
def Resets (Z : Zlib C D) (Sync : C → D → Prop) : Prop :=
  ∀ c d x c' o, Sync c d → Z.deflate c .full x = some (c', o) → Sync c' d

/-- There was memory for all of it: the copy of the message and the buffers of its compression, which an empty message does not need, the copy of what was
compressed, the message and its frame. -/
def hadMemory (m : Bytes × OomDeflate.Mem) : Bool :=
  (m.1 == [] || (m.2.copyIn && m.2.buffer == none)) && m.2.copyOut && m.2.message && m.2.frame

/-- **C193, partial.** For every zlib that keeps its promises, every sequence of messages and every choice of allocations that fail before the message is
given to zlib, or, when the stream is flushed completely after each message, behind it: the call returns `U_OK` for just the messages
there was memory for, and these are, in this order, what the other side reads. Missing: the failures for which it is false, below, and messages of 4 GiB and more (C102). -/
theorem C193_lost_alone_partial (Z : ZlibCut C D) (Sync : C → D → Prop) (bound : Nat) (hb : bound ≤ 2 ^ 32) (hz : Lossless Z.toZlib Sync bound)
    (hf : Resets Z.toZlib Sync) (mask : Flush) : ∀ (msgs : List (Bytes × OomDeflate.Mem)) (c : C) (d : D), Sync c d →
    (∀ m ∈ msgs, m.1.length < bound ∧ (m.1 = [] → m.2.frame = true) ∧
      (m.1 ≠ [] → (m.2.buffer = none ∨ m.2.buffer = some 0) ∧
        (mask = .full ∨ (m.2.copyOut = true ∧ m.2.message = true ∧ m.2.frame = true)))) →
    ∃ wire d', OomDeflate.sendAll Z mask c msgs = .ok (msgs.map hadMemory, wire) ∧
      receiveAll Z.toZlib d wire = .ok (some (d', (msgs.filter hadMemory).map (·.1))) := by
  intro msgs
  induction msgs with
  | nil => intro c d _ _; exact ⟨[], d, rfl, rfl⟩
  | cons m t ih =>
    obtain ⟨x, mem⟩ := m
    intro c d hs hm
    obtain ⟨h1, h2, h3⟩ := hm (x, mem) (by simp)
    change x.length < bound at h1
    change x = [] → mem.frame = true at h2
    change x ≠ [] → (mem.buffer = none ∨ mem.buffer = some 0) ∧
      (mask = .full ∨ (mem.copyOut = true ∧ mem.message = true ∧ mem.frame = true)) at h3
    have ht : ∀ m ∈ t, _ := fun m hmem => hm m (by simp [hmem])
    -- the step loses the message
    have lose : ∀ c', hadMemory (x, mem) = false → OomDeflate.send Z mask c mem x = .ok (false, none, c') → Sync c' d →
        ∃ wire d', OomDeflate.sendAll Z mask c ((x, mem) :: t) = .ok (((x, mem) :: t).map hadMemory, wire) ∧
          receiveAll Z.toZlib d wire = .ok (some (d', (((x, mem) :: t).filter hadMemory).map (·.1))) := by
      intro c' hm' he hs'
      obtain ⟨wire, d', e1, e3⟩ := ih c' d hs' ht
      refine ⟨wire, d', ?_, ?_⟩
      · simp only [OomDeflate.sendAll, he, Res.ok_bind, e1, List.map_cons, hm']
        rfl
      · simpa [hm'] using e3
    -- the step sends the message
    have sent : ∀ c' p d1, hadMemory (x, mem) = true → OomDeflate.send Z mask c mem x = .ok (true, some p, c') →
        messageIn Z.toZlib d p = .ok (some (d1, x)) → Sync c' d1 →
        ∃ wire d', OomDeflate.sendAll Z mask c ((x, mem) :: t) = .ok (((x, mem) :: t).map hadMemory, wire) ∧
          receiveAll Z.toZlib d wire = .ok (some (d', (((x, mem) :: t).filter hadMemory).map (·.1))) := by
      intro c' p d1 hm' he hi hs'
      obtain ⟨wire, d', e1, e3⟩ := ih c' d1 hs' ht
      refine ⟨p :: wire, d', ?_, ?_⟩
      · simp only [OomDeflate.sendAll, he, Res.ok_bind, e1, List.map_cons, hm']
        rfl
      · simp only [receiveAll, hi, Res.ok_bind, e3, List.filter_cons, hm', if_true, List.map_cons]
        rfl
    by_cases hx : x = []
    · subst hx
      have hfr := h2 rfl
      cases hco : mem.copyOut with
      | false => exact lose c (by simp [hadMemory, hco]) (by simp [OomDeflate.send, hco]) hs
      | true =>
        cases hmsg : mem.message with
        | true =>
          exact sent c [] d (by simp [hadMemory, hco, hmsg, hfr]) (by simp [OomDeflate.send, sendFrame, hco, hmsg, hfr]) (by simp [messageIn]) hs
        | false => exact lose c (by simp [hadMemory, hmsg]) (by simp [OomDeflate.send, sendFrame, hco, hmsg]) hs
    · obtain ⟨hbuf, hrest⟩ := h3 hx
      cases hci : mem.copyIn with
      | false => exact lose c (by simp [hadMemory, hx, hci]) (by simp [OomDeflate.send, hx, hci]) hs
      | true =>
        rcases hbuf.symm with hbuf | hbuf
        · exact lose c (by simp [hadMemory, hx, hbuf]) (by simp [OomDeflate.send, hx, hci, hbuf]) hs
        · obtain ⟨c', o, d', z1, z2, z3, z4, z5⟩ := hz c d mask x hs hx h1
          have hlen : x.length < 2 ^ 32 := Nat.lt_of_lt_of_le h1 hb
          have htake : x.take (x.length % 2 ^ 32) = x := by rw [Nat.mod_eq_of_lt hlen, List.take_length]
          have hafter : OomDeflate.send Z mask c mem x = OomDeflate.send.after mem c' (o ++ [0x00, 0x00, 0xff, 0xff]) := by
            simp only [OomDeflate.send, hx, if_false, hci, if_true, hbuf, htake, z1]
            rfl
          have hout : strip (collect (o ++ [0x00, 0x00, 0xff, 0xff]) []) = .ok o := by
            rw [deflated_collect]; exact strip_marker o
          have hreset : mask = .full → Sync c' d := fun hfull => hf c d x c' _ hs (by rw [← hfull]; exact z1)
          cases hco : mem.copyOut with
          | false =>
            have hfull : mask = .full := by simpa [hco] using hrest
            exact lose c' (by simp [hadMemory, hco]) (by rw [hafter]; simp only [OomDeflate.send.after, hout, Res.ok_bind, hco]; rfl) (hreset hfull)
          | true =>
            cases hmsg : mem.message with
            | false =>
              have hfull : mask = .full := by simpa [hmsg] using hrest
              exact lose c' (by simp [hadMemory, hmsg])
                (by rw [hafter]; simp only [OomDeflate.send.after, hout, Res.ok_bind, hco, sendFrame, hmsg]; rfl) (hreset hfull)
            | true =>
              cases hfr : mem.frame with
              | false =>
                have hfull : mask = .full := by simpa [hfr] using hrest
                exact lose c' (by simp [hadMemory, hfr]) (by
                  rw [hafter]; simp only [OomDeflate.send.after, hout, Res.ok_bind, hco, sendFrame, hmsg, hfr, z2, decide_false]; rfl) (hreset hfull)
              | true =>
                exact sent c' o d' (by simp [hadMemory, hci, hbuf, hco, hmsg, hfr])
                  (by rw [hafter]; simp only [OomDeflate.send.after, hout, Res.ok_bind, hco, sendFrame, hmsg, hfr]; rfl)
                  (messageIn_eq Z.toZlib d d' x o z2 z3 z4) z5

/-- A small zlib: a byte is written as `02 b`, and a message that is the same as the one before it as `01 00`. A full flush forgets the message before. What was
not taken of the output is kept (`pend`) and comes first the next time. -/
structure EchoOut where
  last : Option Bytes
  pend : Bytes

/-- Read it; `last` is the message before. -/
def unecho (last : Option Bytes) : Bytes → Option Bytes
  | a :: b :: t =>
    if a = 2 then (unecho last t).map (b :: ·)
    else if a = 1 then
      match last, unecho last t with
      | some x, some r => some (x ++ r)
      | _, _ => none
    else unecho last t
  | _ => some []

/-- What is written for a message. -/
def echoOf (c : EchoOut) (x : Bytes) : Bytes := if c.last = some x then [1, 0] else x.flatMap (fun b => [2, b])

/-- That zlib. -/
def echoZlib : ZlibCut EchoOut (Option Bytes) where
  deflate c mask x := some (⟨if mask = .full then none else some x, []⟩, c.pend ++ echoOf c x ++ [0x00, 0x00, 0xff, 0xff])
  inflate d s := (unecho d s).map fun x => (some x, x)
  cut c mask x k := ⟨if mask = .full then none else some x, (c.pend ++ echoOf c x ++ [0x00, 0x00, 0xff, 0xff]).drop (room * k)⟩

private theorem unecho_bytes (d : Option Bytes) (x : Bytes) : unecho d (x.flatMap (fun b => [2, b]) ++ [0x00, 0x00, 0xff, 0xff]) = some x := by
  induction x with
  | nil => cases d <;> rfl
  | cons b t ih =>
    simp only [List.flatMap_cons, List.cons_append, List.nil_append, unecho, if_true, ih]
    rfl

theorem echoZlib_lossless : Lossless echoZlib.toZlib (fun c d => c.pend = [] ∧ (c.last = none ∨ c.last = d)) (2 ^ 30) := by
  intro c d mask x hs hx hl
  refine ⟨⟨if mask = .full then none else some x, []⟩, echoOf c x, some x, by simp [echoZlib, hs.1], ?_, ?_, ?_, rfl, ?_⟩
  · unfold echoOf; split
    · simp
    · cases x with
      | nil => exact absurd rfl hx
      | cons b t => simp
  · have : (x.flatMap (fun b => [2, b])).length = 2 * x.length := by
      clear hx hl
      induction x with
      | nil => rfl
      | cons b t ih => simp only [List.flatMap_cons, List.length_append, ih, List.length_cons, List.length_nil]; omega
    unfold echoOf; split
    · simp
    · omega
  · by_cases h : c.last = some x
    · have hd : d = some x := by
        rcases hs.2 with h' | h'
        · rw [h'] at h; cases h
        · rw [← h', h]
      simp only [echoZlib, echoOf, h, if_true, hd]
      show ((match some x, some [] with
        | some x, some r => some (x ++ r)
        | _, _ => none : Option Bytes)).map _ = _
      simp
    · simp only [echoZlib, echoOf, h, if_false, unecho_bytes]
      rfl
  · by_cases hm : mask = .full
    · left; simp [hm]
    · right; simp [hm]

theorem echoZlib_resets : Resets echoZlib.toZlib (fun c d => c.pend = [] ∧ (c.last = none ∨ c.last = d)) := by
  intro c d x c' o _ h
  simp only [echoZlib, if_true] at h
  cases h
  exact ⟨rfl, Or.inl rfl⟩

example : ∃ wire d', OomDeflate.sendAll echoZlib .full ⟨none, []⟩
      [(b!"a", {}), (b!"b", { copyOut := false }), (b!"b", {}), ([], {}), (b!"b", { buffer := some 0 }), (b!"c", { frame := false }), (b!"c", {})] =
        .ok ([true, false, true, true, false, false, true], wire) ∧
      receiveAll echoZlib.toZlib none wire = .ok (some (d', [b!"a", b!"b", [], b!"c"])) :=
  C193_lost_alone_partial echoZlib _ (2 ^ 30) (by omega) echoZlib_lossless echoZlib_resets .full _ ⟨none, []⟩ none ⟨rfl, Or.inl rfl⟩
    (by simp)

/-- **C193 is false** when the stream is not flushed completely and memory runs out behind zlib: the two sides no longer have the same history, and a message sent
later with `U_OK` is read as another one. -/
theorem C193_history_false : ∃ wire d', OomDeflate.sendAll echoZlib .sync ⟨none, []⟩ [(b!"a", {}), (b!"b", { copyOut := false }), (b!"b", {})] =
      .ok ([true, false, true], wire) ∧ receiveAll echoZlib.toZlib none wire = .ok (some (d', [b!"a", b!"a"])) := by
  refine ⟨[[2, 97], [1, 0]], some b!"a", ?_, ?_⟩
  · simp only [OomDeflate.sendAll, OomDeflate.send, OomDeflate.send.after, deflated_collect]
    decide +kernel
  · simp only [receiveAll, messageIn, deflated_collect]
    decide +kernel

/-- **C193 is false** for a buffer that cannot be made larger: what was not taken stays in the stream, also when it is flushed completely each time, and is read
in front of the next message. -/
theorem C193_pending_false : ∃ wire d', OomDeflate.sendAll echoZlib .full ⟨none, []⟩ [(List.replicate 130 65, { buffer := some 1 }), (b!"b", {})] =
      .ok ([false, true], wire) ∧ receiveAll echoZlib.toZlib none wire = .ok (some (d', [b!"AAb"])) := by
  refine ⟨[[2, 65, 2, 65, 0x00, 0x00, 0xff, 0xff, 2, 98]], some b!"AAb", ?_, ?_⟩
  · simp only [OomDeflate.sendAll, OomDeflate.send, OomDeflate.send.after, deflated_collect]
    decide +kernel
  · simp only [receiveAll, messageIn, deflated_collect]
    decide +kernel

/-- **C193 is false** for an empty message: when there is no memory for its frame nothing is sent, and the call returns `U_OK`. -/
theorem C193_empty_false (Z : ZlibCut C D) (mask : Flush) (c : C) : OomDeflate.sendAll Z mask c [([], { frame := false })] = .ok ([true], []) := rfl

end Verif.Props
