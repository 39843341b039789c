import Verif.Model.DeflateData
import Verif.Spec.Stored
/-!
# Compressed messages (C102–C104)
-/
namespace Verif.Props
open Verif.DeflateData Verif.Spec.Stored
open Verif.Deflate (Flush)

variable {C D : Type}

/-- What zlib promises for a pair of streams that saw the same data (`Sync`): the output for a message of less than `bound`
bytes, flushed, ends with the marker `00 00 FF FF`, is shorter than 4 GiB, and the other side reads the message from it. -/
def Lossless (Z : Zlib C D) (Sync : C → D → Prop) (bound : Nat) : Prop :=
  ∀ c d mask x, Sync c d → x ≠ [] → x.length < bound →
    ∃ c' o d', Z.deflate c mask x = some (c', o ++ [0x00, 0x00, 0xff, 0xff]) ∧ o ≠ [] ∧ o.length + 4 < 2 ^ 32 ∧
      Z.inflate d (o ++ [0x00, 0x00, 0xff, 0xff]) = some (d', x) ∧ Sync c' d'

theorem deflated_collect (pending out : Bytes) : collect pending out = out ++ pending := by
  induction hn : pending.length using Nat.strongRecOn generalizing pending out with
  | _ n ih =>
    unfold collect
    simp only
    split
    · rename_i h
      have hl : room ≤ pending.length := by
        simp only [room, List.length_take] at h ⊢
        omega
      rw [ih (pending.drop room).length (by simp only [List.length_drop, room] at *; omega) _ _ rfl, List.append_assoc,
        List.take_append_drop]
    · rename_i h
      have hl : pending.length ≤ room := by
        simp only [room, List.length_take] at h ⊢
        omega
      rw [List.take_of_length_le hl]

private theorem fromEnd_append (a b : Bytes) (k : Nat) (h : 0 < k) (hk : k ≤ b.length) :
    fromEnd (a ++ b) k = fromEnd b k := by
  unfold fromEnd
  rw [dif_pos ⟨h, by simp; omega⟩, dif_pos ⟨h, hk⟩]
  congr 1
  rw [List.getElem_append_right (by simp; omega)]
  congr 1
  simp
  omega

theorem strip_marker (o : Bytes) : strip (o ++ [0x00, 0x00, 0xff, 0xff]) = .ok o := by
  unfold strip
  rw [fromEnd_append _ _ 1 (by omega) (by simp), fromEnd_append _ _ 2 (by omega) (by simp), fromEnd_append _ _ 3 (by omega) (by simp),
    fromEnd_append _ _ 4 (by omega) (by simp)]
  show Res.ok ((o ++ [0x00, 0x00, 0xff, 0xff]).take _) = _
  simp

theorem messageOut_eq (Z : Zlib C D) (c c' : C) (mask : Flush) (x o : Bytes) (hx : x ≠ []) (hl : x.length < 2 ^ 32)
    (h : Z.deflate c mask x = some (c', o ++ [0x00, 0x00, 0xff, 0xff])) : messageOut Z c mask x = .ok (some (c', o)) := by
  unfold messageOut
  have : x.length ≠ 0 := by simpa using hx
  rw [if_pos this, Nat.mod_eq_of_lt hl, List.take_length, h]
  simp only [deflated_collect, List.nil_append, strip_marker]
  rfl

theorem messageIn_eq (Z : Zlib C D) (d d' : D) (x o : Bytes) (ho : o ≠ []) (hl : o.length + 4 < 2 ^ 32)
    (h : Z.inflate d (o ++ [0x00, 0x00, 0xff, 0xff]) = some (d', x)) : messageIn Z d o = .ok (some (d', x)) := by
  unfold messageIn
  have h0 : o.length ≠ 0 := by simpa using ho
  rw [if_pos ⟨h0, by omega⟩, Nat.mod_eq_of_lt (by omega : o.length < 2 ^ 32), Nat.mod_eq_of_lt hl,
    List.take_of_length_le (by simp), h]
  simp only [deflated_collect, List.nil_append]

/-- **C102, partial.** For every lossless zlib and every sequence of messages (empty ones included) below its size limit, at
most 4 GiB each: compressing and sending them one after the other and decompressing what arrives gives the same messages.
Missing: messages of 4 GiB and more, see `C102_huge_false`. -/
theorem C102_round_trip_partial (Z : Zlib C D) (Sync : C → D → Prop) (bound : Nat) (hb : bound ≤ 2 ^ 32)
    (hz : Lossless Z Sync bound) (mask : Flush) (c : C) (d : D) (hs : Sync c d) (msgs : List Bytes)
    (hm : ∀ x ∈ msgs, x.length < bound) :
    ∃ c' d' ps, sendAll Z mask c msgs = .ok (some (c', ps)) ∧ receiveAll Z d ps = .ok (some (d', msgs)) := by
  induction msgs generalizing c d with
  | nil => exact ⟨c, d, [], rfl, rfl⟩
  | cons x t ih =>
    have hm' : ∀ y ∈ t, y.length < bound := fun y hy => hm y (by simp [hy])
    by_cases hx : x = []
    · subst hx
      obtain ⟨c', d', ps, h1, h2⟩ := ih c d hs hm'
      refine ⟨c', d', [] :: ps, ?_, ?_⟩
      · simp only [sendAll, messageOut, List.length_nil, ne_eq, not_true_eq_false, if_false, Res.ok_bind, h1]
        rfl
      · simp only [receiveAll, messageIn, List.length_nil, ne_eq, not_true_eq_false, false_and, if_false, Res.ok_bind, h2]
        rfl
    · have hlx := hm x (by simp)
      obtain ⟨c1, o, d1, e1, e2, e3, e4, e5⟩ := hz c d mask x hs hx hlx
      obtain ⟨c', d', ps, h1, h2⟩ := ih c1 d1 e5 hm'
      refine ⟨c', d', o :: ps, ?_, ?_⟩
      · simp only [sendAll, messageOut_eq Z c c1 mask x o hx (by omega) e1, Res.ok_bind, h1]
        rfl
      · simp only [receiveAll, messageIn_eq Z d d1 x o e2 e3 e4, Res.ok_bind, h2]
        rfl

/-- An instance of zlib: every byte in a stored block of its own, each message ended by an empty stored block; flushing twice in
a row without new data gives nothing. The decoder keeps an unfinished block, and reads nothing after a final one. -/
def storedZlib : Zlib Bool Out where
  deflate flushed _ x := some (true, if x = [] ∧ flushed then [] else x.flatMap block ++ marker)
  inflate d s := if d.done then some (d, []) else
    match decode (d.rest.length + s.length + 1) (d.rest ++ s) with
    | none => none
    | some o => some ({ o with data := [] }, o.data)

private theorem decode_blocks (x : Bytes) (fuel : Nat) (tail : Bytes) (o : Out) (h : decode fuel tail = some o) :
    decode (fuel + x.length) (x.flatMap block ++ tail) = some { o with data := x ++ o.data } := by
  induction x with
  | nil => simpa using h
  | cons b t ih =>
    have : fuel + (b :: t).length = (fuel + t.length) + 1 := by simp; omega
    rw [this, List.flatMap_cons]
    show decode ((fuel + t.length) + 1) (0x00 :: 0x01 :: 0x00 :: 0xfe :: 0xff :: b :: ([] ++ t.flatMap block ++ tail)) = _
    have e : ([] ++ t.flatMap block ++ tail) = t.flatMap block ++ tail := rfl
    rw [e]
    unfold decode
    rw [if_neg (by decide), if_neg (by decide), if_neg (by simp), if_neg (by decide)]
    show (match decode (fuel + t.length) (t.flatMap block ++ tail) with
      | none => none
      | some o => some { o with data := (b :: (t.flatMap block ++ tail)).take 1 ++ o.data }) = _
    rw [ih]
    simp

private theorem decode_marker : ∀ fuel, decode (fuel + 2) marker = some ⟨[], [], false⟩
  | 0 => by decide
  | n + 1 => by
    show decode (n + 2 + 1) (0x00 :: 0x00 :: 0x00 :: 0xff :: 0xff :: []) = _
    unfold decode
    rw [if_neg (by decide), if_neg (by decide), if_neg (by simp), if_neg (by decide)]
    show (match decode (n + 2) [] with
      | none => none
      | some o => some { o with data := [].take 0 ++ o.data }) = _
    unfold decode
    rfl

/-- The instance is lossless: the hypotheses of the theorems can be met. -/
theorem storedZlib_lossless : Lossless storedZlib (fun _ d => d.rest = [] ∧ d.done = false ∧ d.data = []) (2 ^ 29) := by
  intro c d mask x hs hx hl
  have hlen : (x.flatMap block).length = 6 * x.length := by
    clear hx hl
    induction x with
    | nil => rfl
    | cons b t ih => simp only [List.flatMap_cons, List.length_append, ih, List.length_cons, block, List.length_nil]; omega
  refine ⟨true, x.flatMap block ++ [0x00], ⟨[], [], false⟩, ?_, by simp, by simp [hlen]; omega, ?_, rfl, rfl, rfl⟩
  · simp [storedZlib, hx, marker]
  · obtain ⟨dd, dr, dn⟩ := d
    obtain ⟨h1, h2, h3⟩ := hs
    simp only at h1 h2 h3
    subst h1 h2 h3
    have e : x.flatMap block ++ [0x00] ++ [0x00, 0x00, 0xff, 0xff] = x.flatMap block ++ marker := by simp [marker]
    rw [e]
    have hf : (([] : Bytes).length + (x.flatMap block ++ marker).length + 1) = (5 * x.length + 4) + 2 + x.length := by
      simp [hlen, marker]; omega
    simp only [storedZlib, Bool.false_eq_true, if_false, List.nil_append]
    rw [hf, decode_blocks x _ marker _ (decode_marker _)]
    simp

/-- The initial state of the two sides of `storedZlib`. -/
def storedStart : Out := ⟨[], [], false⟩

example : ∃ c' d' ps, sendAll storedZlib .sync false [b!"Hello", [], b!"Hello"] = .ok (some (c', ps)) ∧
    receiveAll storedZlib storedStart ps = .ok (some (d', [b!"Hello", [], b!"Hello"])) :=
  C102_round_trip_partial storedZlib _ (2 ^ 29) (by omega) storedZlib_lossless .sync false storedStart ⟨rfl, rfl, rfl⟩ _
    (by simp)

/-- **C102, what is false.** Messages of 4 GiB and more are not restored: `avail_in` is 32 bits wide, so what is sent for `x ++ y`
with 4 GiB of `y` is what is sent for `x` alone, whatever `y` is; and a message of exactly 4 GiB, sent after another one with a
zlib that has nothing left to flush, reads in front of the output buffer. -/
theorem C102_huge_false :
    (∀ (C D : Type) (Z : Zlib C D) (c : C) (mask : Flush) (x y : Bytes), x ≠ [] → x.length < 2 ^ 32 → y.length = 2 ^ 32 →
      messageOut Z c mask (x ++ y) = messageOut Z c mask x) ∧
    ∃ m : Bytes, m.length = 2 ^ 32 ∧ sendAll storedZlib .sync false [b!"A", m] = .ub := by
  constructor
  · intro C D Z c mask x y hx hl hy
    have h0 : x.length ≠ 0 := by simpa using hx
    unfold messageOut
    rw [if_pos (by rw [List.length_append]; omega), if_pos h0, List.length_append, hy, Nat.add_mod_right,
      Nat.mod_eq_of_lt hl, List.take_length, List.take_left]
  · obtain ⟨m, hm⟩ : ∃ m : Bytes, m.length = 2 ^ 32 := ⟨List.replicate (2 ^ 32) 0, List.length_replicate⟩
    refine ⟨m, hm, ?_⟩
    have h1 : messageOut storedZlib false .sync b!"A" = .ok (some (true, b!"A".flatMap block ++ [0x00])) :=
      messageOut_eq storedZlib false true .sync b!"A" _ (by decide) (by decide) (by rfl)
    have h2 : messageOut storedZlib true .sync m = .ub := by
      unfold messageOut
      rw [if_pos (by rw [hm]; omega), hm, Nat.mod_self, List.take_zero]
      show (strip (collect (if ([] : Bytes) = [] ∧ true = true then [] else _) []) >>= _) = _
      rw [if_pos ⟨rfl, rfl⟩, deflated_collect]
      rfl
    simp only [sendAll, h1, h2, Res.ok_bind]
    rfl

/-- What a receiver following RFC 7692, 7.2.2 does: append `00 00 FF FF` to the payload of every compressed message and inflate.
`none` when a payload is not a DEFLATE stream. -/
def rfcReceive (Z : Zlib C D) : D → List Bytes → Option (D × List Bytes)
  | d, [] => some (d, [])
  | d, p :: t =>
    match Z.inflate d (p ++ [0x00, 0x00, 0xff, 0xff]) with
    | none => none
    | some (d, x) =>
      match rfcReceive Z d t with
      | none => none
      | some (d, xs) => some (d, x :: xs)

/-- **C103, partial.** Every sequence of non-empty messages sent compressed is read back by a receiver that follows RFC 7692.
Missing: empty messages, see `C103_empty_false`; messages of 4 GiB and more, see `C102_huge_false`. -/
theorem C103_readable_partial (Z : Zlib C D) (Sync : C → D → Prop) (bound : Nat) (hb : bound ≤ 2 ^ 32)
    (hz : Lossless Z Sync bound) (mask : Flush) (c : C) (d : D) (hs : Sync c d) (msgs : List Bytes)
    (hm : ∀ x ∈ msgs, x ≠ [] ∧ x.length < bound) :
    ∃ c' d' ps, sendAll Z mask c msgs = .ok (some (c', ps)) ∧ rfcReceive Z d ps = some (d', msgs) := by
  induction msgs generalizing c d with
  | nil => exact ⟨c, d, [], rfl, rfl⟩
  | cons x t ih =>
    obtain ⟨hx, hlx⟩ := hm x (by simp)
    obtain ⟨c1, o, d1, e1, e2, e3, e4, e5⟩ := hz c d mask x hs hx hlx
    obtain ⟨c', d', ps, h1, h2⟩ := ih c1 d1 e5 (fun y hy => hm y (by simp [hy]))
    refine ⟨c', d', o :: ps, ?_, ?_⟩
    · simp only [sendAll, messageOut_eq Z c c1 mask x o hx (by omega) e1, Res.ok_bind, h1]
      rfl
    · simp only [rfcReceive, e4, h2]

example : ∃ c' d' ps, sendAll storedZlib .full false [b!"Hello", b!"Hello"] = .ok (some (c', ps)) ∧
    rfcReceive storedZlib storedStart ps = some (d', [b!"Hello", b!"Hello"]) :=
  C103_readable_partial storedZlib _ (2 ^ 29) (by omega) storedZlib_lossless .full false storedStart ⟨rfl, rfl, rfl⟩ _
    (by simp)

/-- **C103, what is false.** An empty message is sent as an empty payload (RFC 7692, 7.2.3.6 asks for one byte `00`), so the
receiver sees the beginning of a stored block and takes the next message for the rest of it. -/
theorem C103_empty_false :
    sendAll storedZlib .sync false [[], b!"A"] = .ok (some (true, [[], [0, 1, 0, 0xfe, 0xff, 0x41, 0]])) ∧
    (rfcReceive storedZlib storedStart [[], [0, 1, 0, 0xfe, 0xff, 0x41, 0]]).map (·.2) = some [[], []] ∧
    (rfcReceive storedZlib storedStart [[0], [0, 1, 0, 0xfe, 0xff, 0x41, 0]]).map (·.2) = some [[], b!"A"] := by
  refine ⟨?_, by decide +kernel, by decide +kernel⟩
  have h1 : messageOut storedZlib false .sync b!"A" = .ok (some (true, b!"A".flatMap block ++ [0x00])) :=
    messageOut_eq storedZlib false true .sync b!"A" _ (by decide) (by decide) (by rfl)
  have h0 : messageOut storedZlib false .sync [] = .ok (some (false, [])) := rfl
  simp only [sendAll, h0, h1, Res.ok_bind]
  rfl

/-- **C104, partial.** Whatever zlib does, a sequence of payloads as RFC 7692 senders produce them (none is empty), each below
4 GiB, is delivered as an RFC 7692 receiver on top of the same zlib would deliver it, and refused when that receiver refuses it.
Missing: payloads of 4 GiB and more; and zlib itself stops at a final block, see `C104_final_false`. -/
theorem C104_receive_partial (Z : Zlib C D) (d : D) (ps : List Bytes) (hp : ∀ p ∈ ps, p ≠ [] ∧ p.length + 4 < 2 ^ 32) :
    receiveAll Z d ps = .ok (rfcReceive Z d ps) := by
  induction ps generalizing d with
  | nil => rfl
  | cons p t ih =>
    obtain ⟨h0, hl⟩ := hp p (by simp)
    have ih := fun d => ih d (fun q hq => hp q (by simp [hq]))
    cases hi : Z.inflate d (p ++ [0x00, 0x00, 0xff, 0xff]) with
    | none =>
      have : messageIn Z d p = .ok none := by
        unfold messageIn
        have h0 : p.length ≠ 0 := by simpa using h0
        rw [if_pos ⟨h0, by omega⟩, Nat.mod_eq_of_lt (by omega : p.length < 2 ^ 32), Nat.mod_eq_of_lt hl,
          List.take_of_length_le (by simp), hi]
      simp only [receiveAll, rfcReceive, this, hi, Res.ok_bind]
      rfl
    | some r =>
      obtain ⟨d', x⟩ := r
      simp only [receiveAll, rfcReceive, messageIn_eq Z d d' x p h0 hl hi, hi, Res.ok_bind, ih]
      cases rfcReceive Z d' t with
      | none => rfl
      | some r => rfl

example : receiveAll storedZlib storedStart [[0, 1, 0, 0xfe, 0xff, 0x41, 0], [0]] = .ok (some (storedStart, [b!"A", []])) := by
  rw [C104_receive_partial _ _ _ (by simp)]
  decide +kernel

/-- **C104, what is false.** A sender may end a message with a final block (RFC 7692, 7.2.3.4: `BFINAL` 1, then a zero byte). The
message is delivered, and every later message is delivered empty, without an error. -/
theorem C104_final_false (later : List Bytes) (hp : ∀ p ∈ later, p ≠ [] ∧ p.length + 4 < 2 ^ 32) :
    ∃ d', receiveAll storedZlib storedStart ([1, 1, 0, 0xfe, 0xff, 0x41, 0] :: later) =
      .ok (some (d', b!"A" :: later.map fun _ => [])) := by
  rw [C104_receive_partial]
  · have hd : ∀ (d : Out) (l : List Bytes), d.done = true → rfcReceive storedZlib d l = some (d, l.map fun _ => []) := by
      intro d l hdone
      induction l with
      | nil => rfl
      | cons p t ih =>
        have : storedZlib.inflate d (p ++ [0x00, 0x00, 0xff, 0xff]) = some (d, []) := by
          simp [storedZlib, hdone]
        simp only [rfcReceive, this, ih, List.map_cons]
    have h1 : storedZlib.inflate storedStart ([1, 1, 0, 0xfe, 0xff, 0x41, 0] ++ [0x00, 0x00, 0xff, 0xff]) =
        some (⟨[], [], true⟩, b!"A") := by decide +kernel
    refine ⟨⟨[], [], true⟩, ?_⟩
    simp only [rfcReceive, h1, hd ⟨[], [], true⟩ later rfl]
  · intro p hpm
    rcases List.mem_cons.1 hpm with rfl | h
    · simp
    · exact hp p h

example : ∃ d', receiveAll storedZlib storedStart [[1, 1, 0, 0xfe, 0xff, 0x41, 0], [0, 1, 0, 0xfe, 0xff, 0x42, 0]] =
    .ok (some (d', [b!"A", []])) :=
  C104_final_false [[0, 1, 0, 0xfe, 0xff, 0x42, 0]] (by simp)

end Verif.Props
