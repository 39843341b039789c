import Verif.Model.Frame
import Verif.Spec.Ws
import Verif.Props.Utf8
/-!
# Lemmas about frames and the receive loop
-/
namespace Verif.Ws

/-- The bytes that can be read before the peer hangs up or the socket fails. -/
def bytesOf : List Ev → Bytes
  | [] => []
  | .idle :: t => bytesOf t
  | .seg b :: t => b ++ bytesOf t
  | .hup _ :: _ => []
  | .fail :: _ => []

theorem readData_some (n : Nat) (evs : List Ev) (h : n ≤ (bytesOf evs).length) :
    ∃ r, readData n evs = some ((bytesOf evs).take n, r) ∧ bytesOf r = (bytesOf evs).drop n := by
  induction evs generalizing n with
  | nil =>
    have : n = 0 := by simpa [bytesOf] using h
    subst this; exact ⟨[], rfl, rfl⟩
  | cons e t ih =>
    cases n with
    | zero => exact ⟨e :: t, by simp [readData], by simp⟩
    | succ n =>
      cases e with
      | idle => simpa only [readData, bytesOf] using ih (n + 1) h
      | hup u => simp [bytesOf] at h
      | fail => simp [bytesOf] at h
      | seg s =>
        simp only [bytesOf, List.length_append] at h
        by_cases hs : n + 1 ≤ s.length
        · refine ⟨.seg (s.drop (n + 1)) :: t, ?_, ?_⟩
          · simp only [readData, hs, if_true, bytesOf]
            rw [List.take_append_of_le_length hs]
          · simp only [bytesOf]
            rw [List.drop_append_of_le_length hs]
        · obtain ⟨r, h1, h2⟩ := ih (n + 1 - s.length) (by omega)
          refine ⟨r, ?_, ?_⟩
          · simp only [readData, hs, if_false, h1, Option.map_some, bytesOf]
            rw [List.take_append, List.take_of_length_le (by omega : s.length ≤ n + 1)]
          · simp only [bytesOf]
            rw [List.drop_append, List.drop_eq_nil_of_le (by omega : s.length ≤ n + 1), h2]; rfl

theorem readData_none (n : Nat) (evs : List Ev) (h : (bytesOf evs).length < n) : readData n evs = none := by
  induction evs generalizing n with
  | nil => cases n with
    | zero => omega
    | succ n => rfl
  | cons e t ih =>
    cases n with
    | zero => omega
    | succ n =>
      cases e with
      | idle => exact ih (n + 1) h
      | hup u => rfl
      | fail => rfl
      | seg s =>
        simp only [bytesOf, List.length_append] at h
        have hs : ¬ n + 1 ≤ s.length := by omega
        simp only [readData, hs, if_false, ih _ (show (bytesOf t).length < n + 1 - s.length by omega), Option.map_none]

/-- Result of a reader with the rest as bytes. -/
def flat {α : Type} (x : Option (α × List Ev)) : Option (α × Bytes) := x.map (fun p => (p.1, bytesOf p.2))

theorem flat_none {α : Type} : flat (none : Option (α × List Ev)) = none := rfl
theorem flat_some {α : Type} (a : α) (e : List Ev) : flat (some (a, e)) = some (a, bytesOf e) := rfl

theorem flat_readData (n : Nat) (evs : List Ev) : flat (readData n evs) =
    if n ≤ (bytesOf evs).length then some ((bytesOf evs).take n, (bytesOf evs).drop n) else none := by
  split
  · obtain ⟨r, h1, h2⟩ := readData_some n evs ‹_›
    rw [h1, flat_some, h2]
  · rw [readData_none n evs (by omega)]; rfl

theorem flat_eq_none {α : Type} {x : Option (α × List Ev)} (h : flat x = none) : x = none := by
  cases x with
  | none => rfl
  | some p => cases h

theorem flat_eq_some {α : Type} {x : Option (α × List Ev)} {a : α} {b : Bytes} (h : flat x = some (a, b)) :
    ∃ e, x = some (a, e) ∧ bytesOf e = b := by
  cases x with
  | none => cases h
  | some p =>
    obtain ⟨u, v⟩ := p
    rw [flat_some] at h
    cases h
    exact ⟨v, rfl, rfl⟩

theorem flat_cases {α : Type} {x y : Option (α × List Ev)} (h : flat x = flat y) :
    (x = none ∧ y = none) ∨ ∃ a e e', x = some (a, e) ∧ y = some (a, e') ∧ bytesOf e = bytesOf e' := by
  cases x with
  | none => exact Or.inl ⟨rfl, flat_eq_none h.symm⟩
  | some p =>
    obtain ⟨u, v⟩ := p
    obtain ⟨e, h1, h2⟩ := flat_eq_some (h.symm.trans (flat_some u v))
    exact Or.inr ⟨u, v, e, rfl, h1, h2.symm⟩

theorem readData_congr (n : Nat) {e e' : List Ev} (h : bytesOf e = bytesOf e') : flat (readData n e) = flat (readData n e') := by
  rw [flat_readData, flat_readData, h]

theorem readLength_congr (b1 : UInt8) {e e' : List Ev} (h : bytesOf e = bytesOf e') :
    flat (readLength b1 e) = flat (readLength b1 e') := by
  unfold readLength
  simp only
  split
  · rw [flat_some, flat_some, h]
  · split
    · rcases flat_cases (readData_congr 2 h) with ⟨h1, h2⟩ | ⟨a, r, r', h1, h2, h3⟩
      · rw [h1, h2]
      · rw [h1, h2]
        match a with
        | [] | [_] | _ :: _ :: _ :: _ => rfl
        | [p0, p1] => simp only [flat_some, h3]
    · rcases flat_cases (readData_congr 8 h) with ⟨h1, h2⟩ | ⟨a, r, r', h1, h2, h3⟩
      · rw [h1, h2]
      · rw [h1, h2]
        match a with
        | [] | [_] | [_, _] | [_, _, _] | [_, _, _, _] | [_, _, _, _, _] | [_, _, _, _, _, _] | [_, _, _, _, _, _, _]
        | _ :: _ :: _ :: _ :: _ :: _ :: _ :: _ :: _ :: _ => rfl
        | [p0, p1, p2, p3, p4, p5, p6, p7] => simp only [flat_some, h3]

theorem readMask_congr (sv : Bool) (b1 : UInt8) {e e' : List Ev} (h : bytesOf e = bytesOf e') :
    flat (readMask sv b1 e) = flat (readMask sv b1 e') := by
  unfold readMask
  split
  · split
    · rcases flat_cases (readData_congr 4 h) with ⟨h1, h2⟩ | ⟨a, r, r', h1, h2, h3⟩
      · rw [h1, h2]
      · rw [h1, h2]; simp only [Option.map_some, flat_some, h3]
    · rfl
  · split
    · rfl
    · rw [flat_some, flat_some, h]

theorem readPayload_congr (n : Nat) (k : Option Bytes) {e e' : List Ev} (h : bytesOf e = bytesOf e') :
    flat (readPayload n k e) = flat (readPayload n k e') := by
  unfold readPayload
  split
  · rw [flat_some, flat_some, h]
  · rcases flat_cases (readData_congr n h) with ⟨h1, h2⟩ | ⟨a, r, r', h1, h2, h3⟩
    · rw [h1, h2]
    · rw [h1, h2]
      simp only
      split
      · rfl
      · rw [flat_some, flat_some, h3]

theorem readMessage_congr (sv : Bool) {e e' : List Ev} (h : bytesOf e = bytesOf e') :
    flat (readMessage sv e) = flat (readMessage sv e') := by
  unfold readMessage
  rcases flat_cases (readData_congr 2 h) with ⟨h1, h2⟩ | ⟨a, r, r', h1, h2, h3⟩
  · rw [h1, h2]
  · rw [h1, h2]
    match a with
    | [] | [_] | _ :: _ :: _ :: _ => rfl
    | [b0, b1] =>
      simp only
      rcases flat_cases (readLength_congr b1 h3) with ⟨h1, h2⟩ | ⟨n, q, q', h1, h2, h4⟩
      · rw [h1, h2]
      · rw [h1, h2]; simp only
        rcases flat_cases (readMask_congr sv b1 h4) with ⟨h1, h2⟩ | ⟨k, u, u', h1, h2, h5⟩
        · rw [h1, h2]
        · rw [h1, h2]; simp only
          rcases flat_cases (readPayload_congr n k h5) with ⟨h1, h2⟩ | ⟨d, v, v', h1, h2, h6⟩
          · rw [h1, h2]
          · rw [h1, h2]; simp only [flat_some, h6]

theorem size_bytesOf (evs : List Ev) : (bytesOf evs).length ≤ size evs := by
  induction evs with
  | nil => exact Nat.le_refl _
  | cons e t ih =>
    cases e <;> simp only [bytesOf, size, List.length_append, List.length_nil] <;> omega

theorem size_bytesOf_cons (e : Ev) (t : List Ev) : size [.seg (bytesOf (e :: t))] ≤ size (e :: t) := by
  have := size_bytesOf t
  cases e <;> simp only [bytesOf, size, List.length_append, List.length_nil] <;> omega

theorem run_zero (c : Cfg) (prev : Option InMsg) (evs : List Ev) : run c (some 0) prev evs = [.close] := by
  rw [run.eq_def]; simp

theorem run_nil (c : Cfg) (p : Option Nat) (prev : Option InMsg) (hp : p ≠ some 0) : run c p prev [] = [] := by
  rw [run.eq_def]; simp [hp]

theorem run_empty (c : Cfg) (p : Option Nat) (prev : Option InMsg) (hp : p ≠ some 0) : run c p prev [.seg []] = [] := by
  rw [run.eq_def]; simp only [hp, if_false]; exact run_nil c p prev hp

/-- The continuation after a message was read. -/
def after (c : Cfg) (p : Option Nat) (prev : Option InMsg) (m : InMsg) (evs : List Ev) : List Out :=
  (handle c prev m).1 ++ (if (handle c prev m).2.2 then run c (p.map (· - 1)) (handle c prev m).2.1 evs else [])

theorem run_cons (c : Cfg) (p : Option Nat) (prev : Option InMsg) (hp : p ≠ some 0) (b : UInt8) (s : Bytes) (t : List Ev) :
    run c p prev (.seg (b :: s) :: t) = match readMessage c.server (.seg (b :: s) :: t) with
      | none => []
      | some (m, evs') => after c p prev m evs' := by
  rw [run.eq_def]
  simp only [hp, if_false]
  split
  · rename_i h; rw [h]
  · rename_i h; rw [h]; rfl

theorem run_eq (c : Cfg) (p : Option Nat) (prev : Option InMsg) (evs : List Ev) :
    run c p prev evs = run c p prev [.seg (bytesOf evs)] := by
  generalize hn : size evs = n
  induction n using Nat.strongRecOn generalizing p prev evs with
  | _ n ih =>
    subst hn
    by_cases hp : p = some 0
    · subst hp; rw [run_zero, run_zero]
    · cases evs with
      | nil => rw [run_nil c p prev hp, bytesOf, run_empty c p prev hp]
      | cons e t =>
        cases e with
        | idle =>
          rw [run.eq_def]; simp only [hp, if_false, bytesOf]
          exact ih (size t) (by simp only [size]; omega) p prev t rfl
        | hup u => rw [run.eq_def]; simp only [hp, if_false, bytesOf]; rw [run_empty c p prev hp]
        | fail => rw [run.eq_def]; simp only [hp, if_false, bytesOf]; rw [run_empty c p prev hp]
        | seg s =>
          cases s with
          | nil =>
            rw [run.eq_def]; simp only [hp, if_false, bytesOf, List.nil_append]
            exact ih (size t) (by simp only [size]; omega) p prev t rfl
          | cons b s =>
            have hb : bytesOf (.seg (b :: s) :: t) = b :: (s ++ bytesOf t) := rfl
            have hsz := size_bytesOf_cons (.seg (b :: s)) t
            rw [hb] at hsz ⊢
            rw [run_cons c p prev hp, run_cons c p prev hp]
            have hc : bytesOf (.seg (b :: s) :: t) = bytesOf [.seg (b :: (s ++ bytesOf t))] := by simp [bytesOf]
            rcases flat_cases (readMessage_congr c.server hc) with ⟨h1, h2⟩ | ⟨m, r, r', h1, h2, h3⟩
            · rw [h1, h2]
            · rw [h1, h2]
              have s1 := readMessage_size _ _ _ _ h1
              have s2 := readMessage_size _ _ _ _ h2
              simp only [after]
              split
              · rw [ih (size r) s1 _ _ r rfl, ih (size r') (by omega) _ _ r' rfl, h3]
              · rfl

theorem run_congr (c : Cfg) (p : Option Nat) (prev : Option InMsg) {e e' : List Ev} (h : bytesOf e = bytesOf e') :
    run c p prev e = run c p prev e' := by
  rw [run_eq c p prev e, run_eq c p prev e', h]

theorem readMessage_none_of_nil (sv : Bool) (e : List Ev) (h : bytesOf e = []) : readMessage sv e = none := by
  unfold readMessage
  rw [readData_none 2 e (by rw [h]; decide)]

theorem run_read (c : Cfg) (p : Option Nat) (prev : Option InMsg) (hp : p ≠ some 0) (evs : List Ev) (m : InMsg) (r : List Ev)
    (h : readMessage c.server evs = some (m, r)) : run c p prev evs = after c p prev m r := by
  cases hb : bytesOf evs with
  | nil => rw [readMessage_none_of_nil _ _ hb] at h; cases h
  | cons b s =>
    have hc : bytesOf evs = bytesOf [.seg (b :: s)] := by simp [bytesOf, hb]
    rw [run_congr c p prev hc, run_cons c p prev hp]
    rcases flat_cases (readMessage_congr c.server hc) with ⟨h1, h2⟩ | ⟨m', q, q', h1, h2, h3⟩
    · rw [h1] at h; cases h
    · rw [h1] at h; cases h
      rw [h2]
      simp only [after]
      rw [run_congr c _ _ h3]

theorem run_stop (c : Cfg) (p : Option Nat) (prev : Option InMsg) (hp : p ≠ some 0) (evs : List Ev)
    (h : readMessage c.server evs = none) : run c p prev evs = [] := by
  cases hb : bytesOf evs with
  | nil => rw [run_eq, hb, run_empty c p prev hp]
  | cons b s =>
    have hc : bytesOf evs = bytesOf [.seg (b :: s)] := by simp [bytesOf, hb]
    rw [run_congr c p prev hc, run_cons c p prev hp]
    rcases flat_cases (readMessage_congr c.server hc) with ⟨h1, h2⟩ | ⟨m', q, q', h1, h2, h3⟩
    · rw [h2]
    · rw [h1] at h; cases h

/-! ## Reading a frame -/

open Verif.Spec.Ws (Frame body be masked wire wires lengthField)

theorem rsv_cases (r : UInt8) (h : r &&& 0x8f = 0) : ∃ i : Fin 8, r = UInt8.ofNat (16 * i.val) := by
  revert h; revert r
  exact forall_byte (by decide +kernel)

theorem op_cases (o : UInt8) (h : o &&& 0xf0 = 0) : ∃ i : Fin 16, o = UInt8.ofNat i.val := by
  revert h; revert o
  exact forall_byte (by decide +kernel)

theorem first_byte : ∀ (i : Fin 8) (j : Fin 16) (fin : Bool),
    let b : UInt8 := (if fin then 0x80 else 0) + UInt8.ofNat (16 * i.val) + UInt8.ofNat j.val
    b &&& 0x0f = UInt8.ofNat j.val ∧ b &&& 0x70 = UInt8.ofNat (16 * i.val) ∧ decide (b &&& 0x80 ≠ 0) = fin ∧
      b = UInt8.ofNat j.val ||| UInt8.ofNat (16 * i.val) ||| (if fin then 0x80 else 0) := by decide +kernel

theorem first_wf {f : Frame} (h : f.Wf) :
    let b : UInt8 := (if f.fin then 0x80 else 0) + f.rsv + f.opcode
    b &&& 0x0f = f.opcode ∧ b &&& 0x70 = f.rsv ∧ decide (b &&& 0x80 ≠ 0) = f.fin ∧
      b = f.opcode ||| f.rsv ||| (if f.fin then 0x80 else 0) := by
  obtain ⟨i, hi⟩ := rsv_cases _ h.rsv
  obtain ⟨j, hj⟩ := op_cases _ h.opcode
  rw [hi, hj]
  exact first_byte i j f.fin

theorem small_length : ∀ (n : Fin 126) (m : Bool),
    let b : UInt8 := UInt8.ofNat n.val + (if m then 0x80 else 0)
    (b &&& 0x7f).toNat = n.val ∧ (b &&& 0x80 ≠ 0 ↔ m = true) ∧ UInt8.ofNat n.val ||| (if m then 0x80 else 0) = b := by
  decide +kernel

theorem or_shift (a b i : Nat) (h : b < 2 ^ i) : b ||| a <<< i = a * 2 ^ i + b := by
  rw [Nat.or_comm, ← Nat.shiftLeft_add_eq_or_of_lt h, Nat.shiftLeft_eq]

theorem toNat_byte (n : Nat) : (UInt8.ofNat n).toNat = n % 256 := by simp

theorem be2 (n : Nat) : be 2 n = [UInt8.ofNat (n / 256), UInt8.ofNat n] := by simp [be]

theorem be8 (n : Nat) : be 8 n = [UInt8.ofNat (n / 256 ^ 7), UInt8.ofNat (n / 256 ^ 6), UInt8.ofNat (n / 256 ^ 5),
    UInt8.ofNat (n / 256 ^ 4), UInt8.ofNat (n / 256 ^ 3), UInt8.ofNat (n / 256 ^ 2), UInt8.ofNat (n / 256), UInt8.ofNat n] := by
  simp [be]

theorem two_bytes (n : Nat) (h : n < 65536) :
    (UInt8.ofNat n).toNat ||| (UInt8.ofNat (n / 256)).toNat <<< 8 = n := by
  rw [toNat_byte, toNat_byte, or_shift _ _ _ (by omega)]; omega

theorem eight_bytes (n : Nat) (h : n < 2 ^ 32) :
    UMap.w64 ((UInt8.ofNat n).toNat ||| (UInt8.ofNat (n / 256)).toNat <<< 8 ||| (UInt8.ofNat (n / 256 ^ 2)).toNat <<< 16 |||
      (UInt8.ofNat (n / 256 ^ 3)).toNat <<< 24 ||| (UInt8.ofNat (n / 256 ^ 4)).toNat <<< 32 |||
      (UInt8.ofNat (n / 256 ^ 5)).toNat <<< 40 ||| (UInt8.ofNat (n / 256 ^ 6)).toNat <<< 48 |||
      (UInt8.ofNat (n / 256 ^ 7)).toNat <<< 54) = n := by
  have h4 : n / 256 ^ 4 = 0 := by omega
  have h5 : n / 256 ^ 5 = 0 := by omega
  have h6 : n / 256 ^ 6 = 0 := by omega
  have h7 : n / 256 ^ 7 = 0 := by omega
  rw [h4, h5, h6, h7]
  have z : (UInt8.ofNat 0).toNat = 0 := rfl
  simp only [z, Nat.zero_shiftLeft, Nat.or_zero]
  simp only [toNat_byte]
  rw [or_shift _ _ 8 (by omega), or_shift _ _ 16 (by omega), or_shift _ _ 24 (by omega)]
  unfold UMap.w64
  omega

theorem readData_append (n : Nat) (evs : List Ev) (a rest : Bytes) (hb : bytesOf evs = a ++ rest) (hn : a.length = n) :
    ∃ r, readData n evs = some (a, r) ∧ bytesOf r = rest := by
  obtain ⟨r, h1, h2⟩ := readData_some n evs (by rw [hb, List.length_append]; omega)
  refine ⟨r, ?_, ?_⟩
  · rw [h1, hb, List.take_append_of_le_length (by omega), List.take_of_length_le (by omega)]
  · rw [h2, hb, List.drop_append_of_le_length (by omega), List.drop_eq_nil_of_le (by omega)]; rfl

/-- The second byte of a frame. -/
def secondByte (m : Bool) (n : Nat) : UInt8 :=
  (if n ≤ 125 then UInt8.ofNat n else if n < 65536 then 126 else 127) + (if m then 0x80 else 0)

/-- The length bytes after the second one. -/
def moreLength (n : Nat) : Bytes := if n ≤ 125 then [] else if n < 65536 then be 2 n else be 8 n

theorem lengthField_eq (m : Bool) (n : Nat) : lengthField m n = secondByte m n :: moreLength n := by
  unfold lengthField secondByte moreLength
  simp only
  split
  · rfl
  · split <;> rfl

theorem secondByte_mask (m : Bool) (n : Nat) : secondByte m n &&& 0x80 ≠ 0 ↔ m = true := by
  unfold secondByte
  split
  · exact (small_length ⟨n, by omega⟩ m).2.1
  · split
    · cases m <;> decide
    · cases m <;> decide

theorem readLength_wire (m : Bool) (n : Nat) (h : n < 2 ^ 32) (evs : List Ev) (rest : Bytes)
    (hb : bytesOf evs = moreLength n ++ rest) :
    ∃ r, readLength (secondByte m n) evs = some (n, r) ∧ bytesOf r = rest := by
  unfold moreLength at hb
  by_cases h1 : n ≤ 125
  · rw [if_pos h1] at hb
    refine ⟨evs, ?_, hb⟩
    have := (small_length ⟨n, by omega⟩ m).1
    unfold readLength secondByte
    simp only [h1, if_true, this]
  · rw [if_neg h1] at hb
    by_cases h2 : n < 65536
    · rw [if_pos h2] at hb
      obtain ⟨r, hr, hr'⟩ := readData_append 2 evs (be 2 n) rest hb rfl
      refine ⟨r, ?_, hr'⟩
      have e : (secondByte m n &&& 0x7f).toNat = 126 := by
        unfold secondByte; rw [if_neg h1, if_pos h2]; cases m <;> decide
      unfold readLength
      simp only [e, hr, be2]
      rw [two_bytes n h2]; rfl
    · rw [if_neg h2] at hb
      obtain ⟨r, hr, hr'⟩ := readData_append 8 evs (be 8 n) rest hb rfl
      refine ⟨r, ?_, hr'⟩
      have e : (secondByte m n &&& 0x7f).toNat = 127 := by
        unfold secondByte; rw [if_neg h1, if_neg h2]; cases m <;> decide
      unfold readLength
      simp only [e, hr, be8]
      rw [eight_bytes n h]; rfl

/-- The message the reader makes of a frame. -/
def toIn (f : Frame) : InMsg :=
  ⟨f.opcode, f.rsv, f.fin, f.mask.isSome, f.payload, if f.fin then 0 else f.payload.length⟩

theorem masked_eq (k0 k1 k2 k3 : UInt8) (d : Bytes) : masked [k0, k1, k2, k3] d = xorMask [k0, k1, k2, k3] d := by
  induction d generalizing k0 k1 k2 k3 with
  | nil => rfl
  | cons c d ih =>
    rw [masked, show [k1, k2, k3] ++ [k0] = [k1, k2, k3, k0] from rfl, ih]
    unfold xorMask
    rw [List.mapIdx_cons]
    refine congrArg (List.cons _) (List.ext_getElem (by simp) ?_)
    intro i h1 h2
    simp only [List.getElem_mapIdx]
    congr 1
    have : i % 4 = 0 ∨ i % 4 = 1 ∨ i % 4 = 2 ∨ i % 4 = 3 := by omega
    rcases this with h | h | h | h
    · rw [h, show (i + 1) % 4 = 1 by omega]; rfl
    · rw [h, show (i + 1) % 4 = 2 by omega]; rfl
    · rw [h, show (i + 1) % 4 = 3 by omega]; rfl
    · rw [h, show (i + 1) % 4 = 0 by omega]; rfl

theorem masked_eq' (k d : Bytes) (h : k.length = 4) : masked k d = xorMask k d := by
  match k, h with
  | [a, b, c, e], _ => exact masked_eq a b c e d

theorem xorMask_length (k d : Bytes) : (xorMask k d).length = d.length := by simp [xorMask]

theorem xor_xor (a b : UInt8) : a ^^^ b ^^^ b = a := by
  rw [UInt8.xor_assoc, UInt8.xor_self, UInt8.xor_zero]

theorem xorMask_twice (k d : Bytes) : xorMask k (xorMask k d) = d := by
  unfold xorMask
  refine List.ext_getElem (by simp) ?_
  intro i h1 h2
  simp only [List.getElem_mapIdx, xor_xor]

theorem masked_length (k d : Bytes) (h : k.length = 4) : (masked k d).length = d.length := by
  rw [masked_eq' k d h, xorMask_length]

theorem readPayload_plain (n : Nat) (hn : n < 2 ^ 32) (mask : Option Bytes) (p rest : Bytes) (hp : p.length = n) (evs : List Ev)
    (hb : bytesOf evs = p ++ rest) : ∃ r, readPayload n mask evs = some (match mask with
        | some k => xorMask k p
        | none => p, r) ∧ bytesOf r = rest := by
  unfold readPayload
  by_cases h0 : n = 0
  · rw [if_pos h0]
    have : p = [] := List.length_eq_zero_iff.mp (by omega)
    subst this
    refine ⟨evs, ?_, hb⟩
    cases mask <;> rfl
  · rw [if_neg h0]
    obtain ⟨r, hr, hr'⟩ := readData_append n evs p rest hb hp
    refine ⟨r, ?_, hr'⟩
    rw [hr]
    simp only
    rw [if_neg (by rw [hp, Nat.mod_eq_of_lt hn]; exact fun h => h rfl)]
    cases mask <;> rfl

theorem readMessage_wire (sv : Bool) (f : Frame) (hf : Spec.Ws.Received sv f) (hn : f.payload.length < 2 ^ 32) (evs : List Ev)
    (rest : Bytes) (hb : bytesOf evs = wire f ++ rest) :
    ∃ r, readMessage sv evs = some (toIn f, r) ∧ bytesOf r = rest := by
  obtain ⟨hw, hm⟩ := hf
  obtain ⟨w1, w2, w3, w4⟩ := first_wf hw
  generalize hF : (if f.fin then (0x80 : UInt8) else 0) + f.rsv + f.opcode = F at *
  have hb' : bytesOf evs = [F, secondByte f.mask.isSome f.payload.length] ++ (moreLength f.payload.length ++ (body f.mask f.payload ++ rest)) := by
    rw [hb]; unfold wire; rw [lengthField_eq, hF]; simp
  obtain ⟨r1, e1, b1⟩ := readData_append 2 evs _ _ hb' rfl
  obtain ⟨r2, e2, b2⟩ := readLength_wire f.mask.isSome f.payload.length hn r1 _ b1
  have hk : ∃ r3, readMask sv (secondByte f.mask.isSome f.payload.length) r2 = some (f.mask, r3) ∧
      bytesOf r3 = (match f.mask with
        | some k => masked k f.payload
        | none => f.payload) ++ rest := by
    unfold readMask
    have hs := secondByte_mask f.mask.isSome f.payload.length
    generalize secondByte f.mask.isSome f.payload.length = sb at hs ⊢
    cases hmk : f.mask with
    | none =>
      rw [hmk] at hm hs b2
      simp only [Option.isSome_none] at hm hs
      subst hm
      simp only [Bool.false_eq_true, if_false]
      rw [if_neg (fun h => Bool.noConfusion (hs.mp h))]
      exact ⟨r2, rfl, by rw [b2]; rfl⟩
    | some k =>
      rw [hmk] at hm hs b2
      simp only [Option.isSome_some] at hm hs
      subst hm
      simp only [if_true]
      rw [if_pos (hs.mpr trivial)]
      have hk4 := hw.mask k hmk
      obtain ⟨r3, e3, b3⟩ := readData_append 4 r2 k (masked k f.payload ++ rest)
        (by rw [b2]; simp [body]) hk4
      exact ⟨r3, by rw [e3]; rfl, b3⟩
  obtain ⟨r3, e3, b3⟩ := hk
  have hp : ∃ r4, readPayload f.payload.length f.mask r3 = some (f.payload, r4) ∧ bytesOf r4 = rest := by
    cases hmk : f.mask with
    | none =>
      rw [hmk] at b3
      exact readPayload_plain _ hn none f.payload rest rfl r3 b3
    | some k =>
      rw [hmk] at b3
      have hk4 := hw.mask k hmk
      obtain ⟨r4, e4, b4⟩ := readPayload_plain _ hn (some k) (masked k f.payload) rest (masked_length _ _ hk4) r3 b3
      refine ⟨r4, ?_, b4⟩
      rw [e4]; simp only
      rw [masked_eq' _ _ hk4, xorMask_twice]
  obtain ⟨r4, e4, b4⟩ := hp
  refine ⟨r4, ?_, b4⟩
  unfold readMessage
  rw [e1]; simp only
  rw [e2]; simp only
  rw [e3]; simp only
  rw [e4]; simp only
  rw [w1, w2, w3]
  rfl

/-- One frame of a stream. -/
theorem run_wire (c : Cfg) (p : Option Nat) (prev : Option InMsg) (hp : p ≠ some 0) (f : Frame)
    (hf : Spec.Ws.Received c.server f) (hn : f.payload.length < 2 ^ 32) (rest : Bytes) :
    run c p prev [.seg (wire f ++ rest)] = after c p prev (toIn f) [.seg rest] := by
  obtain ⟨r, h1, h2⟩ := readMessage_wire c.server f hf hn [.seg (wire f ++ rest)] rest (by simp [bytesOf])
  rw [run_read c p prev hp _ _ _ h1]
  unfold after
  rw [run_congr c _ _ (show bytesOf r = bytesOf [.seg rest] by simp [bytesOf, h2])]

/-! ## Streams of frames -/

open Verif.Spec.Ws (Act Rest Message Stream Begun Ends Acceptable Received)

/-- The effect that carries out an action. -/
def outOf : Act → Out
  | .message op d => .deliver op 0 d
  | .pong d => .pong d

/-- A receiver without extensions. -/
structure Plain (c : Cfg) : Prop where
  ext : ∀ m, c.ext m = some m.data
  rsv : c.rsvExpected = 0

/-- Frames this receiver can be sent. -/
def Ok (c : Cfg) (fs : List Frame) : Prop := ∀ f ∈ fs, Received c.server f ∧ f.payload.length < 2 ^ 32

theorem wires_cons (f : Frame) (l : List Frame) : wires (f :: l) = wire f ++ wires l := by simp [wires]
theorem wires_append (l l' : List Frame) : wires (l ++ l') = wires l ++ wires l' := by simp [wires]

theorem Ok.head {c : Cfg} {f : Frame} {l : List Frame} (h : Ok c (f :: l)) : Received c.server f ∧ f.payload.length < 2 ^ 32 :=
  h f (List.mem_cons_self ..)
theorem Ok.tail {c : Cfg} {f : Frame} {l : List Frame} (h : Ok c (f :: l)) : Ok c l := fun g hg => h g (List.mem_cons_of_mem _ hg)
theorem Ok.left {c : Cfg} {l l' : List Frame} (h : Ok c (l ++ l')) : Ok c l := fun g hg => h g (List.mem_append_left _ hg)
theorem Ok.right {c : Cfg} {l l' : List Frame} (h : Ok c (l ++ l')) : Ok c l' := fun g hg => h g (List.mem_append_right _ hg)

theorem run_one {c : Cfg} (prev : Option InMsg) {f : Frame} (h : Received c.server f ∧ f.payload.length < 2 ^ 32) (rest : Bytes)
    {o : List Out} {q : Option InMsg} (e : handle c prev (toIn f) = (o, q, true)) :
    run c none prev [.seg (wire f ++ rest)] = o ++ run c none q [.seg rest] := by
  rw [run_wire c none prev (by decide) f h.1 h.2]
  simp only [after, e, if_true, Option.map_none]

theorem run_last {c : Cfg} (prev : Option InMsg) {f : Frame} (h : Received c.server f ∧ f.payload.length < 2 ^ 32) (rest : Bytes)
    {o : List Out} {q : Option InMsg} (e : handle c prev (toIn f) = (o, q, false)) :
    run c none prev [.seg (wire f ++ rest)] = o := by
  rw [run_wire c none prev (by decide) f h.1 h.2]
  simp only [after, e, Bool.false_eq_true, if_false, List.append_nil]

theorem handle_ping (c : Cfg) (prev : Option InMsg) {f : Frame} (h : f.IsPing) :
    handle c prev (toIn f) = ([.pong f.payload], prev, true) := by
  obtain ⟨h1, h2, h3⟩ := h
  simp [handle, toIn, h1, h2, h3]

theorem handle_pong (c : Cfg) (prev : Option InMsg) {f : Frame} (h : f.IsPong) : handle c prev (toIn f) = ([], prev, true) := by
  obtain ⟨h1, h2⟩ := h
  simp [handle, toIn, h1, h2]

/-- The message under construction. -/
structure IsCur (p : InMsg) (op r : UInt8) (d : Bytes) : Prop where
  fin : p.fin = false
  opcode : p.opcode = op
  rsv : p.rsv = r
  data : p.data = d
  first : op = 1 ∨ op = 2

theorem merge_next {p : InMsg} {op r : UInt8} {d : Bytes} (hp : IsCur p op r d) {f : Frame} (h : f.IsNext) :
    ∃ q, merge p (toIn f) = some q ∧ q.fin = f.fin ∧ q.opcode = op ∧ q.rsv = r ∧ q.data = d ++ f.payload := by
  have h' : f.opcode = 0 := h
  refine ⟨{ p with fragmentLen := if p.fragmentLen = 0 then p.data.length else p.fragmentLen, fin := p.fin || f.fin,
                   data := p.data ++ f.payload }, ?_, ?_⟩
  · unfold merge
    rw [if_pos]
    · rfl
    · rw [hp.fin, hp.opcode]
      rcases hp.first with e | e <;> rw [e] <;> simp [toIn, h']
  · exact ⟨by simp [hp.fin], hp.opcode, hp.rsv, by simp [hp.data]⟩

theorem handle_more (c : Cfg) {p : InMsg} {op r : UInt8} {d : Bytes} (hp : IsCur p op r d) {f : Frame} (h : f.IsNext)
    (hf : f.fin = false) : ∃ q, IsCur q op r (d ++ f.payload) ∧ handle c (some p) (toIn f) = ([], some q, true) := by
  obtain ⟨q, h1, h2, h3, h4, h5⟩ := merge_next hp h
  have h' : f.opcode = 0 := h
  refine ⟨q, ⟨by rw [h2, hf], h3, h4, h5, hp.first⟩, ?_⟩
  unfold handle
  have e1 : (toIn f).opcode = 0 := h'
  have e2 : (toIn f).fin = false := hf
  simp [e1, e2, h1]

theorem handle_final (c : Cfg) {p : InMsg} {op r : UInt8} {d : Bytes} (hp : IsCur p op r d) {f : Frame} (h : f.IsNext)
    (hf : f.fin = true) : ∃ q : InMsg, (q.opcode = op ∧ q.rsv = r ∧ q.data = d ++ f.payload) ∧
      handle c (some p) (toIn f) = ((complete c q).1, none, (complete c q).2) := by
  obtain ⟨q, h1, h2, h3, h4, h5⟩ := merge_next hp h
  have h' : f.opcode = 0 := h
  refine ⟨q, ⟨h3, h4, h5⟩, ?_⟩
  unfold handle
  have e1 : (toIn f).opcode = 0 := h'
  have e2 : (toIn f).fin = true := hf
  simp [e1, e2, h1]

theorem handle_single (c : Cfg) {f : Frame} (h : f.IsFirst) (hf : f.fin = true) :
    handle c none (toIn f) = ((complete c (toIn f)).1, none, (complete c (toIn f)).2) := by
  unfold handle
  have e2 : (toIn f).fin = true := hf
  rcases h with h' | h'
  · have e1 : (toIn f).opcode = 1 := h'
    simp [e1, e2]
  · have e1 : (toIn f).opcode = 2 := h'
    simp [e1, e2]

theorem handle_start (c : Cfg) {f : Frame} (h : f.IsFirst) (hf : f.fin = false) :
    handle c none (toIn f) = ([], some (toIn f), true) ∧ IsCur (toIn f) f.opcode f.rsv f.payload := by
  refine ⟨?_, ⟨hf, rfl, rfl, rfl, h⟩⟩
  unfold handle
  have e2 : (toIn f).fin = false := hf
  rcases h with h' | h'
  · have e1 : (toIn f).opcode = 1 := h'
    simp [e1, e2]
  · have e1 : (toIn f).opcode = 2 := h'
    simp [e1, e2]

theorem complete_ok {c : Cfg} (hc : Plain c) {m : InMsg} {op r : UInt8} {d : Bytes} (hm : m.opcode = op ∧ m.rsv = r ∧ m.data = d)
    (h : Acceptable op r d) : complete c m = ([.deliver op 0 d], true) := by
  obtain ⟨rfl, rfl, rfl⟩ := hm
  obtain ⟨h1, h2⟩ := h
  unfold complete
  rw [hc.ext m]
  simp only
  rw [if_pos (Or.inl h1), if_pos, h1]
  by_cases ho : m.opcode = 1
  · exact Or.inr (Or.inr ((Props.C05_utf8Ok _).mpr (h2 ho)))
  · exact Or.inl ho

theorem complete_no {c : Cfg} (hc : Plain c) {m : InMsg} {op r : UInt8} {d : Bytes} (hm : m.opcode = op ∧ m.rsv = r ∧ m.data = d)
    (h : ¬ Acceptable op r d) : complete c m = ([], false) := by
  obtain ⟨rfl, rfl, rfl⟩ := hm
  unfold complete
  rw [hc.ext m]
  simp only
  by_cases h1 : m.rsv = 0
  · rw [if_pos (Or.inl h1), if_neg]
    intro hh
    refine h ⟨h1, fun ho => ?_⟩
    rcases hh with hh | hh | hh
    · exact absurd ho hh
    · rw [List.length_eq_zero_iff] at hh
      rw [hh]; exact (Props.C05_utf8Ok _).mp (by decide)
    · exact (Props.C05_utf8Ok _).mp hh
  · rw [if_neg]
    rintro (hh | hh)
    · exact h1 hh
    · rw [hc.rsv] at hh; simp at hh

theorem run_begun {c : Cfg} {l : List Frame} {op r : UInt8} {d : Bytes} {a : List Act} (h : Begun l op r d a) (hl : Ok c l) :
    ∃ q, IsCur q op r d ∧ ∀ rest, run c none none [.seg (wires l ++ rest)] = a.map outOf ++ run c none (some q) [.seg rest] := by
  induction h with
  | @first f h1 h2 =>
    obtain ⟨e1, e2⟩ := handle_start c h1 h2
    refine ⟨_, e2, fun rest => ?_⟩
    rw [show wires [f] = wire f by simp [wires], run_one none hl.head rest e1]; rfl
  | @more l f op r d a _ h1 h2 ih =>
    obtain ⟨q, hq, ih⟩ := ih hl.left
    obtain ⟨q', hq', e⟩ := handle_more c hq h1 h2
    refine ⟨q', hq', fun rest => ?_⟩
    rw [wires_append, show wires [f] = wire f by simp [wires], List.append_assoc, ih, run_one (some q) hl.right.head rest e]; rfl
  | @ping l f op r d a _ h1 ih =>
    obtain ⟨q, hq, ih⟩ := ih hl.left
    refine ⟨q, hq, fun rest => ?_⟩
    rw [wires_append, show wires [f] = wire f by simp [wires], List.append_assoc, ih,
      run_one (some q) hl.right.head rest (handle_ping c _ h1)]
    simp [outOf]
  | @pong l f op r d a _ h1 ih =>
    obtain ⟨q, hq, ih⟩ := ih hl.left
    refine ⟨q, hq, fun rest => ?_⟩
    rw [wires_append, show wires [f] = wire f by simp [wires], List.append_assoc, ih,
      run_one (some q) hl.right.head rest (handle_pong c _ h1)]
    rfl

theorem run_rest {c : Cfg} (hc : Plain c) {l : List Frame} {d' : Bytes} {a : List Act} (h : Rest l d' a) (hl : Ok c l)
    {p : InMsg} {op r : UInt8} {d : Bytes} (hp : IsCur p op r d) (rest : Bytes) (hd : Acceptable op r (d ++ d')) :
    run c none (some p) [.seg (wires l ++ rest)] = a.map outOf ++ .deliver op 0 (d ++ d') :: run c none none [.seg rest] := by
  induction h generalizing p d with
  | @last f h1 h2 =>
    obtain ⟨q, hq, e⟩ := handle_final c hp h1 h2
    rw [complete_ok hc hq hd] at e
    rw [show wires [f] = wire f by simp [wires], run_one (some p) hl.head rest e]; rfl
  | @more f l d2 a h1 h2 _ ih =>
    obtain ⟨q, hq, e⟩ := handle_more c hp h1 h2
    rw [wires_cons, List.append_assoc, run_one (some p) hl.head _ e, ih hl.tail hq (by rw [List.append_assoc]; exact hd),
      List.append_assoc]
    rfl
  | @ping f l d2 a h1 _ ih =>
    rw [wires_cons, List.append_assoc, run_one (some p) hl.head _ (handle_ping c _ h1), ih hl.tail hp hd]
    rfl
  | @pong f l d2 a h1 _ ih =>
    rw [wires_cons, List.append_assoc, run_one (some p) hl.head _ (handle_pong c _ h1), ih hl.tail hp hd]
    rfl

theorem run_message {c : Cfg} (hc : Plain c) {l : List Frame} {op r : UInt8} {d : Bytes} {a : List Act}
    (h : Message l op r d a) (hl : Ok c l) (rest : Bytes) (hd : Acceptable op r d) :
    run c none none [.seg (wires l ++ rest)] = a.map outOf ++ .deliver op 0 d :: run c none none [.seg rest] := by
  cases h with
  | @single f h1 h2 =>
    have e := handle_single c h1 h2
    rw [complete_ok hc ⟨rfl, rfl, rfl⟩ hd] at e
    rw [show wires [f] = wire f by simp [wires], run_one none hl.head rest e]; rfl
  | @fragmented f l d a h1 h2 h3 =>
    obtain ⟨e, hp⟩ := handle_start c h1 h2
    rw [wires_cons, List.append_assoc, run_one none hl.head _ e, run_rest hc h3 hl.tail hp rest hd]; rfl

theorem run_stream {c : Cfg} (hc : Plain c) {l : List Frame} {a : List Act} (h : Stream l a) (hl : Ok c l) (rest : Bytes) :
    run c none none [.seg (wires l ++ rest)] = a.map outOf ++ run c none none [.seg rest] := by
  induction h with
  | nil => rfl
  | @ping f l a h1 _ ih =>
    rw [wires_cons, List.append_assoc, run_one none hl.head _ (handle_ping c _ h1), ih hl.tail]; rfl
  | @pong f l a h1 _ ih =>
    rw [wires_cons, List.append_assoc, run_one none hl.head _ (handle_pong c _ h1), ih hl.tail]; rfl
  | @message m l op r d b a h1 h2 _ ih =>
    rw [wires_append, List.append_assoc, run_message hc h1 hl.left _ h2, ih hl.right]
    simp [outOf]

/-- What a frame that ends the connection makes the receiver do: a close frame is answered. -/
def lastOuts (f : Frame) : List Out := if f.opcode = 8 ∧ f.fin = true ∧ f.payload.length ≤ 125 then [.close] else []

/-- `message_previous` holds the message under way. -/
def CurIs : Option InMsg → Option (UInt8 × UInt8 × Bytes) → Prop
  | none, none => True
  | some p, some (op, r, d) => IsCur p op r d
  | _, _ => False

theorem handle_ends {c : Cfg} (hc : Plain c) {f : Frame} {prev : Option InMsg} {cur : Option (UInt8 × UInt8 × Bytes)}
    (hcur : CurIs prev cur) (h : Ends cur f) : ∃ q, handle c prev (toIn f) = (lastOuts f, q, false) := by
  have e0 : (toIn f).opcode = f.opcode := rfl
  have e1 : (toIn f).fin = f.fin := rfl
  have e2 : (toIn f).data = f.payload := rfl
  rcases h with h | ⟨h, h'⟩ | ⟨h, h'⟩ | ⟨h0, h1, h2, h9, h10⟩ | h
  · cases hf : f.fin with
    | true => exact ⟨prev, by simp [handle, lastOuts, e0, e1, e2, h, hf]⟩
    | false => exact ⟨prev, by simp [handle, lastOuts, e0, e1, h, hf]⟩
  · rcases h' with h' | h'
    · exact ⟨prev, by simp [handle, lastOuts, e0, e1, h, h']⟩
    · cases hf : f.fin with
      | true => exact ⟨prev, by simp [handle, lastOuts, e0, e1, e2, h, hf]; omega⟩
      | false => exact ⟨prev, by simp [handle, lastOuts, e0, e1, h, hf]⟩
  · exact ⟨prev, by simp [handle, lastOuts, e0, e1, h, h']⟩
  · by_cases h8 : f.opcode = 8
    · cases hf : f.fin with
      | true => exact ⟨prev, by simp [handle, lastOuts, e0, e1, e2, h8, hf]⟩
      | false => exact ⟨prev, by simp [handle, lastOuts, e0, e1, h8, hf]⟩
    · exact ⟨prev, by simp [handle, lastOuts, e0, h0, h1, h2, h9, h10, h8]⟩
  · match prev, cur, hcur with
    | none, none, _ =>
      simp only at h
      rcases h with h | ⟨h, hf, ha⟩
      · refine ⟨none, ?_⟩
        cases hf : f.fin <;> simp [handle, lastOuts, e0, e1, h, hf]
      · refine ⟨none, ?_⟩
        rw [handle_single c h hf, complete_no hc ⟨rfl, rfl, rfl⟩ ha]
        rcases h with h | h <;> simp [lastOuts, h]
    | some p, some (op, r, d), hp =>
      simp only [CurIs] at h hp
      rcases h with h | ⟨h, hf, ha⟩
      · refine ⟨some p, ?_⟩
        have hm : merge p (toIn f) = none := by
          unfold merge
          rw [if_neg]
          rw [e0]
          rcases h with h | h <;> simp [h]
        unfold handle
        rcases h with h | h <;> cases hf : f.fin <;> simp [lastOuts, e0, e1, h, hf, hm]
      · obtain ⟨q, hq, e⟩ := handle_final c hp h hf
        rw [complete_no hc hq ha] at e
        exact ⟨none, by rw [e]; simp [lastOuts, h]⟩

theorem stream_append {l l' : List Frame} {a a' : List Act} (h : Stream l a) (h' : Stream l' a') : Stream (l ++ l') (a ++ a') := by
  induction h with
  | nil => exact h'
  | ping h1 _ ih => exact .ping h1 ih
  | pong h1 _ ih => exact .pong h1 ih
  | message h1 h2 _ ih => rw [List.append_assoc, List.append_assoc]; exact .message h1 h2 ih

theorem begun_rest {l l' : List Frame} {op r : UInt8} {d d' : Bytes} {a a' : List Act} (h : Begun l op r d a) (h' : Rest l' d' a') :
    Message (l ++ l') op r (d ++ d') (a ++ a') := by
  induction h generalizing l' d' a' with
  | first h1 h2 => exact .fragmented h1 h2 h'
  | @more l f op r d a _ h1 h2 ih =>
    have := ih (.more h1 h2 h')
    simpa using this
  | @ping l f op r d a _ h1 ih =>
    have := ih (.ping h1 h')
    simpa using this
  | @pong l f op r d a _ h1 ih =>
    have := ih (.pong h1 h')
    simpa using this

/-! ## Building frames -/

theorem byte_shift (n k : Nat) : byte (n >>> (8 * k)) = UInt8.ofNat (n / 256 ^ k) := by
  unfold byte
  rw [Nat.shiftRight_eq_div_pow, Nat.pow_mul]

theorem or_mask (m : Bool) : ((126 : UInt8) ||| (if m then 0x80 else 0) = 126 + (if m then 0x80 else 0)) ∧
    ((127 : UInt8) ||| (if m then 0x80 else 0) = 127 + (if m then 0x80 else 0)) := by cases m <;> decide

theorem lengthBytes_whole (n : Nat) (m : Bool) (h : n < 2 ^ 54) : lengthBytes n n n m = lengthField m n := by
  unfold lengthBytes lengthField
  simp only
  by_cases h1 : n ≥ 65536
  · rw [if_pos h1, if_neg (show ¬ n ≤ 125 by omega), if_neg (show ¬ n < 65536 by omega), be8, (or_mask m).2]
    have h7 : byte (n >>> 54) = UInt8.ofNat (n / 256 ^ 7) := by
      unfold byte
      rw [Nat.shiftRight_eq_div_pow, Nat.div_eq_of_lt h, Nat.div_eq_of_lt (by omega)]
    have e := byte_shift n
    rw [h7, show n >>> 48 = n >>> (8 * 6) from rfl, e 6, show n >>> 40 = n >>> (8 * 5) from rfl, e 5,
      show n >>> 32 = n >>> (8 * 4) from rfl, e 4, show n >>> 24 = n >>> (8 * 3) from rfl, e 3,
      show n >>> 16 = n >>> (8 * 2) from rfl, e 2, show n >>> 8 = n >>> (8 * 1) from rfl, e 1]
    rfl
  · rw [if_neg h1]
    by_cases h2 : n > 125
    · rw [if_pos h2, if_neg (show ¬ n ≤ 125 by omega), if_pos (show n < 65536 by omega), be2, (or_mask m).1, show n >>> 8 = n >>> (8 * 1) from rfl, byte_shift n 1]
      rfl
    · rw [if_neg h2, if_pos (show n ≤ 125 by omega)]
      exact congrArg (fun x => [x]) (small_length ⟨n, by omega⟩ m).2.2

theorem lengthField_length (m : Bool) (n : Nat) : (lengthField m n).length + 1 + (if m then 4 else 0) = headerRoom n m := by
  rw [lengthField_eq]
  unfold moreLength headerRoom
  rw [List.length_cons]
  by_cases h1 : n ≤ 125
  · rw [if_pos h1, if_neg (show ¬ n ≥ 65536 by omega), if_neg (show ¬ n > 125 by omega)]; cases m <;> rfl
  · rw [if_neg h1]
    by_cases h2 : n < 65536
    · rw [if_pos h2, if_neg (show ¬ n ≥ 65536 by omega), if_pos (show n > 125 by omega)]; cases m <;> rfl
    · rw [if_neg h2, if_pos (show n ≥ 65536 by omega)]; cases m <;> rfl

theorem body_length (k : Option Bytes) (d : Bytes) (h : ∀ x, k = some x → x.length = 4) :
    (body k d).length = (if k.isSome then 4 else 0) + d.length := by
  cases k with
  | none => simp [body]
  | some x => simp [body, masked_length _ _ (h x rfl), h x rfl]

/-- The frame of a whole message. -/
def whole (m : OutMsg) : Frame := ⟨true, m.rsv, m.opcode, m.mask, m.data⟩

theorem model_body (k : Option Bytes) (d : Bytes) (h : ∀ x, k = some x → x.length = 4) : maskAndPayload k d = body k d := by
  cases k with
  | none => rfl
  | some x => simp only [body, maskAndPayload]; rw [masked_eq' _ _ (h x rfl)]

theorem buildFrame_whole (m : OutMsg) (hw : (whole m).Wf) (h : m.data.length < 2 ^ 54)
    (hm : m.mask.isSome → m.data.length < 2 ^ 32) (len : Nat) (hl : len = m.data.length) :
    buildFrame m 0 len = .ok ((wire (whole m)).map some) := by
  subst hl
  unfold buildFrame
  have hf : UMap.w64 (0 + m.data.length) ≥ m.data.length := by unfold UMap.w64; omega
  simp only [hf, if_true, Nat.sub_zero, List.drop_zero, List.take_length]
  rw [model_body m.mask m.data hw.mask, lengthBytes_whole _ _ h]
  have hfirst := (first_wf hw).2.2.2
  have hb : m.opcode ||| m.rsv ||| 0x80 = (if (whole m).fin then 0x80 else 0) + (whole m).rsv + (whole m).opcode := hfirst.symm
  rw [hb]
  have hwire : ((if (whole m).fin then (0x80 : UInt8) else 0) + (whole m).rsv + (whole m).opcode) ::
      lengthField m.mask.isSome m.data.length ++ body m.mask m.data = wire (whole m) := rfl
  rw [hwire]
  have hlen : (wire (whole m)).length = headerRoom m.data.length m.mask.isSome + m.data.length := by
    rw [← hwire, List.length_append, List.length_cons, body_length m.mask m.data hw.mask]
    have := lengthField_length m.mask.isSome m.data.length
    omega
  rw [if_neg (by omega), if_neg, if_neg (by omega)]
  · rw [hlen]; simp
  · rintro ⟨a, b⟩
    have := hm a
    omega

/-! ## Effects of the loop -/

/-- An effect comes from the handling of some message, or is the close frame sent on request. -/
theorem mem_run (c : Cfg) (p : Option Nat) (prev : Option InMsg) (evs : List Ev) (o : Out) (h : o ∈ run c p prev evs) :
    o = .close ∨ ∃ prev' m, o ∈ (handle c prev' m).1 := by
  generalize hn : size evs = n
  induction n using Nat.strongRecOn generalizing p prev evs with
  | _ n ih =>
    subst hn
    by_cases hp : p = some 0
    · subst hp; rw [run_zero] at h; exact Or.inl (by simpa using h)
    · cases hr : readMessage c.server evs with
      | none => rw [run_stop c p prev hp evs hr] at h; cases h
      | some q =>
        obtain ⟨m, r⟩ := q
        rw [run_read c p prev hp evs m r hr, after, List.mem_append] at h
        rcases h with h | h
        · exact Or.inr ⟨prev, m, h⟩
        · split at h
          · exact ih _ (readMessage_size _ _ _ _ hr) _ _ r h rfl
          · cases h

theorem merge_opcode {p m q : InMsg} (h : merge p m = some q) : q.opcode = 1 ∨ q.opcode = 2 := by
  unfold merge at h
  split at h
  · rename_i hc
    cases h
    simp only [Bool.and_eq_true, Bool.or_eq_true, beq_iff_eq] at hc
    exact hc.1.2
  · cases h

theorem deliver_handle {c : Cfg} {prev : Option InMsg} {m : InMsg} {op r : UInt8} {d : Bytes}
    (h : .deliver op r d ∈ (handle c prev m).1) : ∃ q, .deliver op r d ∈ (complete c q).1 ∧ (q.opcode = 1 ∨ q.opcode = 2) := by
  unfold handle at h
  split at h
  · simp only at h; split at h <;> simp at h
  split at h
  · split at h <;> simp at h
  split at h
  · simp at h
  split at h
  · rename_i hop
    split at h
    · simp at h
    rename_i h0
    split at h
    · rename_i hf
      split at h
      · refine ⟨_, h, ?_⟩
        rcases hop with e | e | e
        · exact Or.inl e
        · exact Or.inr e
        · exact absurd ⟨hf, e, rfl⟩ h0
      · split at h
        · simp at h
        · rename_i hm
          exact ⟨_, h, merge_opcode hm⟩
    split at h
    · split at h
      · simp at h
      · split at h <;> simp at h
    · simp at h
  · simp at h

theorem deliver_complete {c : Cfg} {q : InMsg} {op r : UInt8} {d : Bytes} (h : .deliver op r d ∈ (complete c q).1) :
    q.opcode = op ∧ q.rsv = r ∧ c.ext q = some d ∧ (r = 0 ∨ c.rsvExpected &&& r ≠ 0) ∧
      (op ≠ 1 ∨ d.length = 0 ∨ Utf8.utf8Ok d = true) := by
  unfold complete at h
  cases he : c.ext q with
  | none => rw [he] at h; simp at h
  | some d' =>
    rw [he] at h
    simp only at h
    split at h
    · split at h
      · simp only [List.mem_singleton, Out.deliver.injEq] at h
        obtain ⟨rfl, rfl, rfl⟩ := h
        exact ⟨rfl, rfl, rfl, by assumption, by assumption⟩
      · simp at h
    · simp at h

/-- After some frames, the loop has either stopped for good or depends on the rest through its own state only. -/
theorem run_prefix (c : Cfg) (p : Option Nat) (prev : Option InMsg) (fs : List Frame) (hfs : Ok c fs) :
    (∃ o, ∀ x, run c p prev [.seg (wires fs ++ x)] = o) ∨
    (∃ o p' prev', ∀ x, run c p prev [.seg (wires fs ++ x)] = o ++ run c p' prev' [.seg x]) := by
  induction fs generalizing p prev with
  | nil => exact Or.inr ⟨[], p, prev, fun x => rfl⟩
  | cons f fs ih =>
    by_cases hp : p = some 0
    · subst hp; exact Or.inl ⟨_, fun x => run_zero ..⟩
    · have hstep : ∀ x, run c p prev [.seg (wires (f :: fs) ++ x)] = after c p prev (toIn f) [.seg (wires fs ++ x)] := by
        intro x
        rw [wires_cons, List.append_assoc, run_wire c p prev hp f hfs.head.1 hfs.head.2]
      cases hc : (handle c prev (toIn f)).2.2 with
      | false => exact Or.inl ⟨(handle c prev (toIn f)).1, fun x => by rw [hstep, after, hc]; simp⟩
      | true =>
        rcases ih (p.map (· - 1)) (handle c prev (toIn f)).2.1 hfs.tail with ⟨o, ho⟩ | ⟨o, p', prev', ho⟩
        · exact Or.inl ⟨(handle c prev (toIn f)).1 ++ o, fun x => by rw [hstep, after, hc, if_pos rfl, ho]⟩
        · exact Or.inr ⟨(handle c prev (toIn f)).1 ++ o, p', prev', fun x => by
            rw [hstep, after, hc, if_pos rfl, ho, List.append_assoc]⟩

theorem readMask_wrong (sv : Bool) (b1 : UInt8) (evs : List Ev) (h : (b1 &&& 0x80 ≠ 0) ↔ sv = false) :
    readMask sv b1 evs = none := by
  unfold readMask
  cases sv with
  | true =>
    rw [if_pos rfl, if_neg]
    intro hh; exact Bool.noConfusion (h.mp hh)
  | false =>
    rw [if_neg (by decide), if_pos (h.mpr rfl)]

theorem readMessage_wrong_mask (sv : Bool) (evs : List Ev) (b0 b1 : UInt8) (x : Bytes) (hb : bytesOf evs = b0 :: b1 :: x)
    (h : (b1 &&& 0x80 ≠ 0) ↔ sv = false) : readMessage sv evs = none := by
  obtain ⟨r, h1, h2⟩ := readData_append 2 evs [b0, b1] x hb rfl
  unfold readMessage
  rw [h1]
  simp only
  split
  · rfl
  · rw [readMask_wrong sv b1 _ h]

theorem bytesOf_append_hup (evs : List Ev) (u : Bytes) (t : List Ev) : bytesOf (evs ++ .hup u :: t) = bytesOf evs := by
  induction evs with
  | nil => rfl
  | cons e l ih => cases e <;> simp [bytesOf, ih]

theorem bytesOf_append_fail (evs : List Ev) (t : List Ev) : bytesOf (evs ++ .fail :: t) = bytesOf evs := by
  induction evs with
  | nil => rfl
  | cons e l ih => cases e <;> simp [bytesOf, ih]

end Verif.Ws
