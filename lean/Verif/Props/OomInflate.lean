import Verif.Model.OomInflate
import Verif.Props.OomDeflate
/-!
# C194: a compressed message that cannot be received for want of memory ends the websocket
-/
namespace Verif.Props
open Verif.DeflateData
open Verif.OomInflate (run)
open Verif.Deflate (Flush)

variable {C D : Type}

/-- There is memory to read this message: for an empty one, one block; else the copy of the payload, the payload with its end, the buffers of 256 bytes, of which one
is asked for when the one before is full, and the copy of the message. -/
def canRead (m : Bytes × OomInflate.Mem) : Bool :=
  if m.1 = [] then m.2.empty
  else m.2.copy && m.2.suffix && m.2.out && (match m.2.buffer with | none => true | some k => decide (m.1.length < 256 * k))

private theorem apply_some (Z : Zlib C D) (d d' : D) (x o : Bytes) (mem : OomInflate.Mem) (hx : x ≠ []) (ho : o ≠ []) (hl : o.length + 4 < 2 ^ 32)
    (hi : Z.inflate d (o ++ [0x00, 0x00, 0xff, 0xff]) = some (d', x)) :
    (canRead (x, mem) = true → OomInflate.apply Z d mem o = ⟨some x, d', 0⟩) ∧
    (canRead (x, mem) = false → ∃ e n, OomInflate.apply Z d mem o = ⟨none, e, n⟩) := by
  have hlen : o.length ≠ 0 ∧ o.length ≤ 2 ^ 63 - 1 - 4 := ⟨by simpa using ho, by omega⟩
  have htake : (o ++ [0x00, 0x00, 0xff, 0xff]).take ((o.length % 2 ^ 32 + 4) % 2 ^ 32) = o ++ [0x00, 0x00, 0xff, 0xff] := by
    apply List.take_of_length_le
    rw [Nat.mod_eq_of_lt (by omega : o.length < 2 ^ 32), Nat.mod_eq_of_lt hl]
    simp
  unfold OomInflate.apply OomInflate.inflateIn
  rw [if_pos hlen, htake, hi]
  simp only [ho, false_or, deflated_collect, List.nil_append, canRead, hx, if_false, Bool.and_eq_true]
  cases hc : mem.copy <;> simp only [Bool.false_eq_true, if_false, if_true, false_and, true_and, Bool.false_and, Bool.true_and, reduceCtorEq,
    false_implies, true_implies, and_true]
  · exact ⟨_, _, rfl⟩
  cases hs : mem.suffix <;> simp only [Bool.false_eq_true, if_false, if_true, false_and, true_and, Bool.false_and, Bool.true_and, reduceCtorEq,
    false_implies, true_implies, and_true]
  · exact ⟨_, _, rfl⟩
  cases hb : mem.buffer with
  | none =>
    cases mem.out <;> simp [hx]
  | some k =>
    by_cases h0 : k = 0
    · subst h0; simp
    · have h0' : ¬ some k = some 0 := by simpa using h0
      simp only [h0', if_false]
      have ht : (k < OomDeflate.turns x) ↔ ¬ x.length < 256 * k := by
        simp only [OomDeflate.turns, room]
        omega
      by_cases hk : x.length < 256 * k
      · have : ¬ k < OomDeflate.turns x := by simp [ht, hk]
        simp only [this, if_false, hk, decide_true]
        cases mem.out <;> simp [hx]
      · have : k < OomDeflate.turns x := ht.2 hk
        simp only [this, if_true, hk, decide_false, Bool.and_false]
        simp

/-- **C194, the messages.** For every zlib that keeps its promises, every sequence of messages below `bound` and all ways in which memory runs out while the messages of
the other side are received: the callback is shown the messages before the first one there is no memory for, unchanged and in order; that one
ends the connection, and nothing is shown any more. -/
theorem C194_until (Z : Zlib C D) (Sync : C → D → Prop) (bound : Nat) (hb : bound ≤ 2 ^ 32) (hz : Lossless Z Sync bound) (mask : Flush) :
    ∀ (msgs : List (Bytes × OomInflate.Mem)) (c : C) (d : D), Sync c d → (∀ m ∈ msgs, m.1.length < bound) →
    ∃ c' wire, sendAll Z mask c (msgs.map (·.1)) = .ok (some (c', wire)) ∧
      (run Z d (wire.zip (msgs.map (·.2)))).shown = (msgs.takeWhile canRead).map (·.1) ∧
      (run Z d (wire.zip (msgs.map (·.2)))).connected = msgs.all canRead := by
  intro msgs
  induction msgs with
  | nil => intro c d _ _; exact ⟨c, [], rfl, rfl, rfl⟩
  | cons m t ih =>
    obtain ⟨x, mem⟩ := m
    intro c d hs hm
    have h1 : x.length < bound := hm (x, mem) (by simp)
    have ht : ∀ m ∈ t, m.1.length < bound := fun m hmem => hm m (by simp [hmem])
    have step : ∃ c1 o d1, messageOut Z c mask x = .ok (some (c1, o)) ∧ Sync c1 d1 ∧
        (canRead (x, mem) = true → OomInflate.apply Z d mem o = ⟨some x, d1, 0⟩) ∧
        (canRead (x, mem) = false → ∃ e n, OomInflate.apply Z d mem o = ⟨none, e, n⟩) := by
      by_cases hx : x = []
      · subst hx
        refine ⟨c, [], d, by simp [messageOut], hs, ?_, ?_⟩
        · intro h
          have h' : mem.empty = true := by simpa [canRead] using h
          simp [OomInflate.apply, OomInflate.inflateIn, h']
        · intro h
          have h' : mem.empty = false := by simpa [canRead] using h
          simp [OomInflate.apply, OomInflate.inflateIn, h']
      · obtain ⟨c1, o, d1, z1, z2, z3, z4, z5⟩ := hz c d mask x hs hx h1
        obtain ⟨a1, a2⟩ := apply_some Z d d1 x o mem hx z2 z3 z4
        exact ⟨c1, o, d1, messageOut_eq Z c c1 mask x o hx (Nat.lt_of_lt_of_le h1 hb) z1, z5, a1, a2⟩
    obtain ⟨c1, o, d1, s1, s2, s3, s4⟩ := step
    obtain ⟨c', wire, e1, e2, e3⟩ := ih c1 d1 s2 ht
    refine ⟨c', o :: wire, ?_, ?_, ?_⟩
    · simp only [List.map_cons, sendAll, s1, Res.ok_bind, e1]
      rfl
    · cases hc : canRead (x, mem) with
      | true => simp only [List.map_cons, List.zip_cons_cons, run, s3 hc, e2, List.takeWhile_cons, hc, if_true]
      | false =>
        obtain ⟨e, n, he⟩ := s4 hc
        simp [run, he, hc]
    · cases hc : canRead (x, mem) with
      | true => simp only [List.map_cons, List.zip_cons_cons, run, s3 hc, e3, List.all_cons, hc, Bool.true_and]
      | false =>
        obtain ⟨e, n, he⟩ := s4 hc
        simp [run, he, hc]

example : ∃ c' wire, sendAll storedZlib .sync false [b!"Hello", [], b!"Hello", b!"more"] = .ok (some (c', wire)) ∧
    (run storedZlib storedStart (wire.zip [{}, {}, { out := false }, {}])).shown = [b!"Hello", []] ∧
    (run storedZlib storedStart (wire.zip [{}, {}, { out := false }, {}])).connected = false :=
  C194_until storedZlib _ (2 ^ 29) (by omega) storedZlib_lossless .sync
    [(b!"Hello", {}), ([], {}), (b!"Hello", { out := false }), (b!"more", {})] false storedStart ⟨rfl, rfl, rfl⟩ (by simp)

/-- **C194, the memory, partial.** For every zlib and whatever arrives: as long as no buffer fails to grow, nothing is lost. Missing: `C194_leak_false`. -/
theorem C194_freed_partial (Z : Zlib C D) : ∀ (l : List (Bytes × OomInflate.Mem)) (d : D), (∀ m ∈ l, m.2.buffer = none ∨ m.2.buffer = some 0) →
    (run Z d l).lost = 0 := by
  intro l
  induction l with
  | nil => intro d _; rfl
  | cons m t ih =>
    obtain ⟨p, mem⟩ := m
    intro d hm
    have h1 : mem.buffer = none ∨ mem.buffer = some 0 := hm (p, mem) (by simp)
    have ht : ∀ m ∈ t, m.2.buffer = none ∨ m.2.buffer = some 0 := fun m hmem => hm m (by simp [hmem])
    have hi : (OomInflate.inflateIn Z d mem p).lost = 0 := by
      unfold OomInflate.inflateIn
      split
      · split
        · rcases h1 with h1 | h1
          · rw [h1]
            simp only [reduceCtorEq, if_false]
            split <;> rfl
          · simp [h1]
        · rfl
      · split <;> rfl
    have ha : (OomInflate.apply Z d mem p).lost = 0 := by
      unfold OomInflate.apply
      split
      · revert hi
        cases OomInflate.inflateIn Z d mem p with
        | mk data stream lost =>
          intro hi
          cases data with
          | none => exact hi
          | some x => simp only; split <;> exact hi
      · rfl
    revert ha
    simp only [run]
    cases OomInflate.apply Z d mem p with
    | mk data stream lost =>
      intro ha
      simp only at ha
      cases data with
      | none => exact ha
      | some x => simp only [ih stream ht, ha]

/-- **C194 is false** for the memory: when the buffer of a message cannot be made larger, the buffer there was is not freed. -/
theorem C194_leak_false : run echoZlib.toZlib none [((List.replicate 300 65).flatMap (fun b => [2, b]), { buffer := some 1 })] =
    { shown := [], connected := false, lost := 1 } := by
  decide +kernel

end Verif.Props
