import Verif.Model.WsAwait
import Verif.Lemmas.WsOpen
import Verif.Props.HandshakeClient
/-!
# C174: opening a websocket comes to an end and tells what the server answered
-/
namespace Verif.Props
open Verif.Ws Verif.Handshake Verif.WsAwait Verif.Spec.Handshake
open Verif.WsOpen (headerLoop_total)
open Verif.UMap (good_nil)

namespace Await

/-- The passes in which events are met: `fail` is a `poll` that fails. -/
def polls : List Ev → List Poll
  | [] => []
  | .idle :: t => .quiet :: polls t
  | .seg b :: t => b.map .byte ++ polls t
  | .hup _ :: t => .lost :: polls t
  | .fail :: t => .lost :: polls t

/-- The bytes of passes. -/
def bytes : List Poll → Bytes
  | [] => []
  | .byte c :: t => c :: bytes t
  | .quiet :: t => bytes t
  | .again :: t => bytes t
  | .lost :: t => bytes t

/-- Still reading, with the connection. -/
def Reads : Where → Prop
  | .first _ => True
  | .head _ _ => True
  | _ => False

theorem exec_append (f : Bytes → Bool) (a b : List Poll) : ∀ w, exec f w (a ++ b) = (exec f w a >>= fun w => exec f w b) := by
  induction a with
  | nil => intro w; rfl
  | cons p t ih =>
    intro w
    simp only [List.cons_append, exec]
    cases step f w p with
    | ub => rfl
    | ok w => simp only [Res.ok_bind]; exact ih w

theorem exec_over (f : Bytes → Bool) (h : Option Int) (s : Seen) (a : List Poll) : exec f (.over h s) a = .ok (.over h s) := by
  induction a with
  | nil => rfl
  | cons p t ih => simp only [exec, step, Res.ok_bind]; exact ih

theorem exec_quiet (f : Bytes → Bool) (w : Where) (hw : Reads w) (k : Nat) (t : List Poll) :
    exec f w (List.replicate k .quiet ++ t) = exec f w t := by
  induction k with
  | zero => rfl
  | succ k ih =>
    rw [List.replicate_succ, List.cons_append, exec]
    cases w <;> first | exact hw.elim | (simp only [step, Res.ok_bind]; exact ih)

theorem polls_read (evs : List Ev) (c : UInt8) (r : List Ev) (h : readData 1 evs = some ([c], r)) :
    ∃ k, polls evs = List.replicate k .quiet ++ .byte c :: polls r := by
  induction evs with
  | nil => simp [readData] at h
  | cons e t ih =>
    cases e with
    | idle =>
      obtain ⟨k, hk⟩ := ih h
      exact ⟨k + 1, by rw [polls, hk]; rfl⟩
    | hup u => simp [readData] at h
    | fail => simp [readData] at h
    | seg b =>
      cases b with
      | nil =>
        have h' : readData 1 t = some ([c], r) := by
          simp only [readData, List.length_nil] at h
          rw [if_neg (by omega)] at h
          cases hr : readData 1 t with
          | none => simp [hr] at h
          | some q => simp only [Nat.zero_add, Nat.sub_zero, hr, Option.map_some, List.nil_append] at h; exact h
        obtain ⟨k, hk⟩ := ih h'
        exact ⟨k, by rw [polls, hk]; rfl⟩
      | cons x b =>
        simp only [readData, List.length_cons] at h
        rw [if_pos (by omega)] at h
        simp only [Nat.zero_add, Option.some.injEq, Prod.mk.injEq, List.take_succ_cons, List.take_zero, List.cons.injEq, and_true, List.drop_succ_cons,
          List.drop_zero] at h
        obtain ⟨rfl, rfl⟩ := h
        exact ⟨0, rfl⟩

theorem polls_none (evs : List Ev) (h : readData 1 evs = none) :
    ∃ k, polls evs = List.replicate k .quiet ∨ ∃ t, polls evs = List.replicate k .quiet ++ .lost :: t := by
  induction evs with
  | nil => exact ⟨0, .inl rfl⟩
  | cons e t ih =>
    cases e with
    | idle =>
      obtain ⟨k, hk | ⟨u, hk⟩⟩ := ih h
      · exact ⟨k + 1, .inl (by rw [polls, hk]; rfl)⟩
      · exact ⟨k + 1, .inr ⟨u, by rw [polls, hk]; rfl⟩⟩
    | hup u => exact ⟨0, .inr ⟨polls t, rfl⟩⟩
    | fail => exact ⟨0, .inr ⟨polls t, rfl⟩⟩
    | seg b =>
      cases b with
      | nil =>
        have h' : readData 1 t = none := by
          simp only [readData, List.length_nil] at h
          rw [if_neg (by omega)] at h
          cases hr : readData 1 t with
          | none => rfl
          | some q => simp [hr] at h
        obtain ⟨k, hk | ⟨u, hk⟩⟩ := ih h'
        · exact ⟨k, .inl (by rw [polls, hk]; rfl)⟩
        · exact ⟨k, .inr ⟨u, by rw [polls, hk]; rfl⟩⟩
      | cons x b =>
        simp only [readData, List.length_cons] at h
        rw [if_pos (by omega)] at h
        cases h

/-- the end of the connection in the status line -/
theorem exec_lost_first (f : Bytes → Bool) (buf : Bytes) (t : List Poll) (p : Poll) :
    exec f (.first buf) (.lost :: (t ++ [p])) = .ok (.over none {}) := by
  have e : afterFirst none = .over none {} := rfl
  rw [exec]
  simp only [step, Res.ok_bind]
  split
  · cases t with
    | nil => rfl
    | cons q t => simp only [List.cons_append, exec, step, Res.ok_bind, e]; exact exec_over ..
  · rw [e]; exact exec_over ..

theorem exec_lost_head (f : Bytes → Bool) (s : Seen) (buf : Bytes) (t : List Poll) (p : Poll) :
    exec f (.head s buf) (.lost :: (t ++ [p])) = .ok (.over (some 101) { s with broken := true }) := by
  rw [exec]
  simp only [step]
  split
  · cases t with
    | nil => rfl
    | cons q t => simp only [Res.ok_bind, List.cons_append, exec, step, afterHead]; exact exec_over ..
  · simp only [afterHead, Res.ok_bind]; exact exec_over ..

theorem readData_one (evs : List Ev) : readData 1 evs = none ∨ ∃ c r, readData 1 evs = some ([c], r) := by
  cases hb : bytesOf evs with
  | nil => exact .inl (readData_none 1 evs (by rw [hb]; simp))
  | cons c t =>
    obtain ⟨r, h, _⟩ := readData_cons evs c t hb
    exact .inr ⟨c, r, h⟩

theorem nextLine_none (acc : Bytes) (evs : List Ev) (h : readData 1 evs = none) : nextLine acc evs = (none, []) := by
  rw [nextLine.eq_def]
  split
  · rename_i h'; rw [h] at h'; cases h'
  · rfl

/-- a line of the events, when there is one -/
theorem exec_some (f : Bytes → Bool) (T : List Poll) (at' : Bytes → Where) (to : Option Bytes → Res Where)
    (hr : ∀ b, Reads (at' b))
    (hs : ∀ b c, step f (at' b) (.byte c) = if b.getLast? == some 0x0d && c == 0x0a then to (lineIn b)
      else if b.length + 1 < bufferLen then .ok (at' (b ++ [c])) else to none) :
    ∀ (n : Nat) (evs : List Ev) (acc : Bytes) (l : Bytes) (r : List Ev), size evs ≤ n →
    nextLine acc evs = (some l, r) → exec f (at' acc) (polls evs ++ T) = (to (some l) >>= fun w => exec f w (polls r ++ T)) := by
  intro n
  induction n with
  | zero =>
    intro evs acc l r hn h
    rcases readData_one evs with h1 | ⟨c, r1, h1⟩
    · rw [nextLine_none acc evs h1] at h; cases h
    · have := readData_size _ _ _ _ h1; omega
  | succ n ih =>
    intro evs acc l r hn h
    rcases readData_one evs with h1 | ⟨c, r1, h1⟩
    · rw [nextLine_none acc evs h1] at h; cases h
    · obtain ⟨k, hk⟩ := polls_read evs c r1 h1
      rw [nextLine_read acc evs c r1 h1] at h
      rw [hk, List.append_assoc, List.cons_append, exec_quiet f _ (hr acc), exec, hs]
      split
      · rename_i h1
        rw [if_pos h1] at h
        injection h with h2 h3
        rw [lineIn, h2, h3]
      · rename_i h1'
        rw [if_neg h1'] at h
        split
        · rename_i h2
          rw [if_pos h2] at h
          simp only [Res.ok_bind]
          exact ih r1 _ l r (by have := readData_size _ _ _ _ h1; omega) h
        · rename_i h2
          rw [if_neg h2] at h
          cases h

/-- and when there is none -/
theorem exec_none (f : Bytes → Bool) (at' : Bytes → Where) (to : Option Bytes → Res Where) (h : Option Int) (s : Seen)
    (ht : to none = .ok (.over h s)) (hr : ∀ b, Reads (at' b))
    (hl : ∀ b t p, exec f (at' b) (.lost :: (t ++ [p])) = .ok (.over h s))
    (hs : ∀ b c, step f (at' b) (.byte c) = if b.getLast? == some 0x0d && c == 0x0a then to (lineIn b)
      else if b.length + 1 < bufferLen then .ok (at' (b ++ [c])) else to none) :
    ∀ (n : Nat) (evs : List Ev) (acc : Bytes) (r : List Ev), size evs ≤ n →
    nextLine acc evs = (none, r) → exec f (at' acc) (polls evs ++ [.lost, .lost]) = .ok (.over h s) := by
  have gone : ∀ acc evs, readData 1 evs = none → exec f (at' acc) (polls evs ++ [.lost, .lost]) = .ok (.over h s) := by
    intro acc evs h1
    obtain ⟨k, hk | ⟨u, hk⟩⟩ := polls_none evs h1
    · rw [hk, exec_quiet f _ (hr acc)]; exact hl acc [] .lost
    · rw [hk, List.append_assoc, exec_quiet f _ (hr acc), List.cons_append]
      have := hl acc (u ++ [.lost]) .lost
      rwa [List.append_assoc] at this
  intro n
  induction n with
  | zero =>
    intro evs acc r hn _
    rcases readData_one evs with h1 | ⟨c, r1, h1⟩
    · exact gone acc evs h1
    · have := readData_size _ _ _ _ h1; omega
  | succ n ih =>
    intro evs acc r hn hx
    rcases readData_one evs with h1 | ⟨c, r1, h1⟩
    · exact gone acc evs h1
    · obtain ⟨k, hk⟩ := polls_read evs c r1 h1
      rw [nextLine_read acc evs c r1 h1] at hx
      rw [hk, List.append_assoc, List.cons_append, exec_quiet f _ (hr acc), exec, hs]
      split
      · rename_i h1
        rw [if_pos h1] at hx
        injection hx with h2 h3
        rw [lineIn, h2, ht, Res.ok_bind, exec_over]
      · rename_i h1'
        rw [if_neg h1'] at hx
        split
        · rename_i h2
          rw [if_pos h2] at hx
          simp only [Res.ok_bind]
          exact ih r1 _ r (by have := readData_size _ _ _ _ h1; omega) hx
        · rw [ht, Res.ok_bind, exec_over]

theorem first_some (f : Bytes → Bool) (T : List Poll) (evs : List Ev) (l : Bytes) (r : List Ev) (h : nextLine [] evs = (some l, r)) :
    exec f (.first []) (polls evs ++ T) = exec f (afterFirst (some l)) (polls r ++ T) := by
  have := exec_some f T .first (fun o => .ok (afterFirst o)) (fun _ => trivial) (fun b c => by simp only [step]) _ evs [] l r (Nat.le_refl _) h
  rw [this, Res.ok_bind]

theorem first_none (f : Bytes → Bool) (evs : List Ev) (r : List Ev) (h : nextLine [] evs = (none, r)) :
    exec f (.first []) (polls evs ++ [.lost, .lost]) = .ok (.over none {}) :=
  exec_none f .first (fun o => .ok (afterFirst o)) none {} rfl (fun _ => trivial) (fun b t p => exec_lost_first f b t p)
    (fun b c => by simp only [step]) _ evs [] r (Nat.le_refl _) h

theorem head_some (f : Bytes → Bool) (T : List Poll) (s : Seen) (evs : List Ev) (l : Bytes) (r : List Ev) (h : nextLine [] evs = (some l, r)) :
    exec f (.head s []) (polls evs ++ T) = (afterHead f s (some l) >>= fun w => exec f w (polls r ++ T)) :=
  exec_some f T (.head s) (afterHead f s) (fun _ => trivial) (fun b c => by simp only [step]) _ evs [] l r (Nat.le_refl _) h

theorem head_none (f : Bytes → Bool) (s : Seen) (evs : List Ev) (r : List Ev) (h : nextLine [] evs = (none, r)) :
    exec f (.head s []) (polls evs ++ [.lost, .lost]) = .ok (.over (some 101) { s with broken := true }) :=
  exec_none f (.head s) (afterHead f s) (some 101) _ rfl (fun _ => trivial) (fun b t p => exec_lost_head f s b t p)
    (fun b c => by simp only [step]) _ evs [] r (Nat.le_refl _) h

/-- the header lines -/
theorem head_loop (f : Bytes → Bool) : ∀ (n : Nat) (s : Seen) (evs : List Ev) (s' : Seen) (r : List Ev), size evs ≤ n →
    headerLoop f s evs = .ok (s', r) → exec f (.head s []) (polls evs ++ [.lost, .lost]) = .ok (.over (some 101) s') := by
  intro n
  induction n with
  | zero =>
    intro s evs s' r hn h
    rcases hl : nextLine [] evs with ⟨_ | l, r1⟩
    · rw [headerLoop_end f s evs r1 hl] at h
      cases h
      exact head_none f s evs _ hl
    · have := nextLine_size _ _ _ _ hl; omega
  | succ n ih =>
    intro s evs s' r hn h
    rcases hl : nextLine [] evs with ⟨_ | l, r1⟩
    · rw [headerLoop_end f s evs r1 hl] at h
      cases h
      exact head_none f s evs _ hl
    · rw [headerLoop_line f s evs r1 l hl] at h
      rw [head_some f _ s evs l r1 hl, afterHead]
      split
      · rename_i h1
        rw [if_pos h1] at h
        cases h
        rw [Res.ok_bind, exec_over]
      · rename_i h1
        rw [if_neg h1] at h
        cases hh : headerLine f s l with
        | ub => rw [hh] at h; cases h
        | ok s1 =>
          rw [hh] at h
          simp only [Res.ok_bind, Res.pure_eq] at h ⊢
          exact ih s1 r1 s' r (by have := nextLine_size _ _ _ _ hl; omega) h

/-- the header lines up to the empty one, whatever comes later -/
theorem head_whole (f : Bytes → Bool) (T : List Poll) : ∀ (n : Nat) (s : Seen) (evs : List Ev) (s' : Seen) (r : List Ev), size evs ≤ n →
    headerLoop f s evs = .ok (s', r) → s'.broken = false → exec f (.head s []) (polls evs ++ T) = .ok (.over (some 101) s') := by
  intro n
  induction n with
  | zero =>
    intro s evs s' r hn h hb
    rcases hl : nextLine [] evs with ⟨_ | l, r1⟩
    · rw [headerLoop_end f s evs r1 hl] at h
      cases h; cases hb
    · have := nextLine_size _ _ _ _ hl; omega
  | succ n ih =>
    intro s evs s' r hn h hb
    rcases hl : nextLine [] evs with ⟨_ | l, r1⟩
    · rw [headerLoop_end f s evs r1 hl] at h
      cases h; cases hb
    · rw [headerLoop_line f s evs r1 l hl] at h
      rw [head_some f _ s evs l r1 hl, afterHead]
      split
      · rename_i h1
        rw [if_pos h1] at h
        cases h
        rw [Res.ok_bind, exec_over]
      · rename_i h1
        rw [if_neg h1] at h
        cases hh : headerLine f s l with
        | ub => rw [hh] at h; cases h
        | ok s1 =>
          rw [hh] at h
          simp only [Res.ok_bind, Res.pure_eq] at h ⊢
          exact ih s1 r1 s' r (by have := nextLine_size _ _ _ _ hl; omega) h hb

/-- silence and failed reads do not matter while the connection lasts -/
theorem exec_noise (f : Bytes → Bool) (ps : List Poll) (hl : Poll.lost ∉ ps) : ∀ w, (w ≠ .lostFirst ∧ ∀ s, w ≠ .lostHead s) →
    exec f w ps = exec f w ((bytes ps).map .byte) := by
  induction ps with
  | nil => intro w _; rfl
  | cons p t ih =>
    intro w hw
    have ih := ih (fun h => hl (List.mem_cons_of_mem _ h))
    have stay : step f w .quiet = .ok w ∧ step f w .again = .ok w := by
      cases w with
      | lostFirst => exact absurd rfl hw.1
      | lostHead s => exact absurd rfl (hw.2 s)
      | _ => exact ⟨rfl, rfl⟩
    cases p with
    | lost => exact absurd List.mem_cons_self hl
    | quiet => rw [exec, stay.1, Res.ok_bind, bytes]; exact ih w hw
    | again => rw [exec, stay.2, Res.ok_bind, bytes]; exact ih w hw
    | byte c =>
      rw [bytes, List.map_cons, exec, exec]
      cases hs : step f w (.byte c) with
      | ub => rfl
      | ok w' =>
        simp only [Res.ok_bind]
        refine ih w' ?_
        cases w with
        | lostFirst => exact absurd rfl hw.1
        | lostHead s => exact absurd rfl (hw.2 s)
        | over h s => simp only [step] at hs; cases hs; exact ⟨by simp, by simp⟩
        | first b =>
          simp only [step, afterFirst] at hs
          repeat' split at hs
          all_goals (cases hs; exact ⟨by simp, by simp⟩)
        | head s b =>
          simp only [step, afterHead] at hs
          repeat' split at hs
          all_goals first
            | (cases hs; exact ⟨by simp, by simp⟩)
            | (cases hh : headerLine f s _ with
               | ub => rw [hh] at hs; cases hs
               | ok s1 => rw [hh] at hs; cases hs; exact ⟨by simp, by simp⟩)

theorem polls_seg (b : Bytes) : polls [.seg b] = b.map .byte := by simp [polls]

theorem bytesOf_seg (b : Bytes) : bytesOf [.seg b] = b := by simp [bytesOf]

theorem first_101 (f : Bytes → Bool) : exec f (.first []) ((b!"HTTP/1.1 101 x\r\n").map .byte) = .ok (.head {} []) := by
  have h1 : exec f (.first []) ((b!"HTTP/1.1 101 x\r\n").map .byte) = .ok (afterFirst (lineIn b!"HTTP/1.1 101 x\r")) := rfl
  have h2 : (lineIn b!"HTTP/1.1 101 x\r").bind statusLine = some 101 := by decide +kernel
  rw [h1, afterFirst]
  simp only [h2, if_true]

theorem exec_total (f : Bytes → Bool) (evs : List Ev) : ∃ h s, exec f (.first []) (polls evs ++ [.lost, .lost]) = .ok (.over h s) ∧
    ∀ keys es st, clientHandshake f keys es st evs = .ok (conclude keys es st h s) := by
  rcases hl : nextLine [] evs with ⟨_ | l, r⟩
  · refine ⟨none, {}, first_none f evs r hl, fun keys es st => ?_⟩
    unfold clientHandshake
    simp [hl, conclude]
  · rw [first_some f _ evs l r hl, afterFirst, Option.bind_some]
    by_cases h101 : statusLine l = some 101
    · obtain ⟨s', r', hh⟩ := headerLoop_total f _ {} [] r (Nat.le_refl _) rfl good_nil
      refine ⟨some 101, s', ?_, fun keys es st => ?_⟩
      · simp only [h101, if_true]
        exact head_loop f _ {} r s' r' (Nat.le_refl _) hh
      · unfold clientHandshake
        simp only [hl, Option.bind_some, h101, if_true, hh, Res.ok_bind, Res.pure_eq, conclude]
        split <;> rfl
    · refine ⟨statusLine l, {}, ?_, fun keys es st => ?_⟩
      · simp only [h101, if_false]
        exact exec_over ..
      · unfold clientHandshake
        simp only [hl, Option.bind_some, h101, if_false, Res.ok_bind, Res.pure_eq, conclude]
        split <;> rfl

end Await
open Await

/-- **C174, part: as long as the connection lasts, what counts is the bytes.** Silence and failed reads between the bytes change nothing, and whatever the
bytes are, no undefined behaviour comes of them; once the connection is lost the answer is over with the next pass, and what the call reports then is what
`Handshake.clientHandshake` (C54, C96, C120 to C125, C149) says of those bytes.
Missing: that the connection is lost, or the answer complete, at some time (`C174_silent_false`, `C174_errors_false`, `C174_endless_false`). -/
theorem C174_lost_partial (f : Bytes → Bool) (keys : List Bytes) (es : List CliExt) (status0 : Int) (ps : List Poll) (hps : Poll.lost ∉ ps)
    (p : Poll) (later : List Poll) : ∃ http seen, exec f (.first []) (ps ++ .lost :: p :: later) = .ok (.over http seen) ∧
      clientHandshake f keys es status0 [.seg (bytes ps)] = .ok (conclude keys es status0 http seen) := by
  obtain ⟨h, s, h1, h2⟩ := exec_total f [.seg (bytes ps)]
  refine ⟨h, s, ?_, h2 keys es status0⟩
  rw [polls_seg, exec_append] at h1
  rw [exec_append, exec_noise f ps hps _ ⟨by simp, by simp⟩]
  cases hx : exec f (.first []) ((bytes ps).map .byte) with
  | ub => rw [hx] at h1; cases h1
  | ok w =>
    rw [hx] at h1
    simp only [Res.ok_bind] at h1 ⊢
    have e : .lost :: p :: later = [.lost, p] ++ later := rfl
    have same : exec f w [.lost, p] = exec f w [.lost, .lost] := by
      cases w with
      | first buf => exact (exec_lost_first f buf [] p).trans (exec_lost_first f buf [] .lost).symm
      | head s buf => exact (exec_lost_head f s buf [] p).trans (exec_lost_head f s buf [] .lost).symm
      | lostFirst => rfl
      | lostHead s => rfl
      | over h s => rfl
    rw [e, exec_append, same, h1, Res.ok_bind, exec_over]

/-- C174, part: a whole answer is enough, whether or not the connection stays. Passes without a loss, whose bytes are a status line other than 101, or the
status line 101, header lines and the empty line: the reading is over then, with the status of the answer, however many passes brought nothing or failed,
and whatever comes later. What the call reports is what `Handshake.clientHandshake` says of those bytes. -/
theorem C174_answer_partial (f : Bytes → Bool) (ps : List Poll) (hps : Poll.lost ∉ ps) (code : Nat) (reason : Bytes) (ls : List Bytes) (rest : Bytes)
    (hcode : code < 2 ^ 63) (hst : ReadableLine (statusText code reason)) (hls : ∀ l ∈ ls, ReadableLine l ∧ l ≠ [])
    (hb : (code ≠ 101 ∧ bytes ps = crlf [statusText code reason] ++ rest) ∨
      (code = 101 ∧ bytes ps = crlf (statusText code reason :: ls) ++ b!"\r\n" ++ rest)) :
    ∃ seen, (∀ later, exec f (.first []) (ps ++ later) = .ok (.over (some code) seen)) ∧ seen.broken = false ∧
      ∀ keys es status0, clientHandshake f keys es status0 [.seg (bytes ps)] = .ok (conclude keys es status0 (some code) seen) ∧
        (conclude keys es status0 (some code) seen).status = code := by
  have hu : ∀ l, ReadableLine l → Utf8.utf8Ok l = true := fun l h => (C05_utf8Ok l).2 h.utf8
  have hsl := statusLine_text code reason hcode
  obtain ⟨rest1, hb1⟩ : ∃ rest1, bytes ps = statusText code reason ++ b!"\r\n" ++ rest1 := by
    rcases hb with ⟨-, h⟩ | ⟨-, h⟩
    · exact ⟨rest, by rw [h]; simp [crlf]⟩
    · exact ⟨crlf ls ++ b!"\r\n" ++ rest, by rw [h]; simp [crlf]⟩
  obtain ⟨r1, e1, e2⟩ := nextLine_readable (statusText code reason) rest1 [.seg (bytes ps)] (hu _ hst) hst (by rw [bytesOf_seg, hb1]; simp)
  have hstatus : ∀ keys es status0 seen, (conclude keys es status0 (some (code : Int)) seen).status = code := by
    intro keys es status0 seen
    unfold conclude
    split <;> rfl
  suffices hmain : ∃ seen, exec f (.first []) ((bytes ps).map .byte) = .ok (.over (some code) seen) ∧ seen.broken = false ∧
      ∀ keys es status0, clientHandshake f keys es status0 [.seg (bytes ps)] = .ok (conclude keys es status0 (some code) seen) by
    obtain ⟨seen, h1, h2, h3⟩ := hmain
    refine ⟨seen, fun later => ?_, h2, fun keys es status0 => ⟨h3 keys es status0, hstatus ..⟩⟩
    rw [exec_append, exec_noise f ps hps _ ⟨by simp, by simp⟩, h1, Res.ok_bind, exec_over]
  have h0 := first_some f [] [.seg (bytes ps)] _ r1 e1
  rw [List.append_nil, List.append_nil, polls_seg, afterFirst, Option.bind_some, hsl] at h0
  by_cases h101 : code = 101
  · subst h101
    rcases hb with ⟨h, -⟩ | ⟨-, hb⟩
    · exact absurd rfl h
    have hr : bytesOf r1 = crlf ls ++ (b!"\r\n" ++ rest) := by
      rw [e2]
      have := hb1.symm.trans hb
      simpa [crlf] using this
    obtain ⟨s', r', e3, e4⟩ := headerLoop_lines f ls _ false (.blank rest) {} [] r1 rfl good_nil rfl
      (fun l hl => ⟨(hls l hl).1, (hls l hl).2, hu l (hls l hl).1⟩) hr
    have hbr : s'.broken = false := congrArg Seen.broken e4
    refine ⟨s', ?_, hbr, fun keys es status0 => ?_⟩
    · rw [h0, if_pos (show some ((101 : Nat) : Int) = some 101 from rfl)]
      have := head_whole f [] _ {} r1 s' r' (Nat.le_refl _) e3 hbr
      rwa [List.append_nil] at this
    · unfold clientHandshake
      simp only [e1, Option.bind_some, hsl]
      rw [if_pos (show some ((101 : Nat) : Int) = some 101 from rfl), e3]
      simp only [Res.ok_bind, Res.pure_eq, conclude]
      split <;> rfl
  · have hne : ¬ (some (code : Int) = some 101) := by
      intro h
      injection h with h
      omega
    refine ⟨{}, ?_, rfl, fun keys es status0 => ?_⟩
    · rw [h0, if_neg hne, exec_over]
    · unfold clientHandshake
      simp only [e1, Option.bind_some, hsl]
      rw [if_neg hne]
      simp only [Res.ok_bind, Res.pure_eq, conclude]
      split <;> rfl

/-- C174, negation: a server that accepts the connection and says nothing is waited for without end: there is no bound on the waiting. -/
theorem C174_silent_false (f : Bytes → Bool) (n : Nat) : exec f (.first []) (List.replicate n .quiet) = .ok (.first []) := by
  have := exec_quiet f (.first []) trivial n []
  rwa [List.append_nil] at this

/-- C174, negation: a connection on which `poll` reports data and every `read` fails, as a TLS layer that found a fault does, is read from again and again,
without a pause: the result of a failed read is not told from that of silence. -/
theorem C174_errors_false (f : Bytes → Bool) (n : Nat) : exec f (.first []) (List.replicate n .again) = .ok (.first []) := by
  rw [exec_noise f _ (by intro h; cases (List.eq_of_mem_replicate h)) _ ⟨by simp, by simp⟩]
  have : bytes (List.replicate n .again) = [] := by
    induction n with
    | zero => rfl
    | succ n ih => rw [List.replicate_succ]; exact ih
  rw [this]
  rfl

/-- C174, negation: a server that sends lines that are no header for ever, after the status 101, keeps the client reading, and no limit on their number
stops it: after any number of them the reading stands where it stood before them. -/
theorem C174_endless_false (f : Bytes → Bool) (n : Nat) : exec f (.first [])
    ((b!"HTTP/1.1 101 x\r\n").map .byte ++ (List.replicate n ((b!"x\r\n").map Poll.byte)).flatten) = .ok (.head {} []) := by
  rw [exec_append, first_101, Res.ok_bind]
  induction n with
  | zero => rfl
  | succ n ih =>
    rw [List.replicate_succ, List.flatten_cons, exec_append]
    have h2 : exec f (.head {} []) ((b!"x\r\n").map .byte) = (afterHead f {} (lineIn b!"x\r") >>= fun w => .ok w) := rfl
    have h3 : lineIn b!"x\r" = some b!"x" := by decide +kernel
    have h4 : headerLine f {} b!"x" = .ok {} := rfl
    have h5 : afterHead f {} (some b!"x") = .ok (.head {} []) := by
      rw [afterHead, h4]
      rfl
    rw [h2, h3, h5, Res.ok_bind, Res.ok_bind, ih]

/-- C174, negation: a server that refuses with `403` and closes at once. If the end of the connection is there before the client has read the answer, not
one byte of it is read, the status reported is the one before the call, and the error is that of an answer that could not be read. -/
theorem C174_refusal_false : ∀ f : Bytes → Bool, ∃ r, clientHandshake f [] [] 0 [.hup b!"HTTP/1.1 403 Forbidden\r\n\r\n"] = .ok r ∧
    r.ok = false ∧ r.status = 0 := by
  intro f
  refine ⟨{ ok := false, isOpen := false, status := 0, seen := {}, exts := [], rsv := 0 }, ?_, rfl, rfl⟩
  unfold clientHandshake
  rw [nextLine_none [] _ rfl]
  rfl

private theorem line_ok (l : Bytes) (h1 : (0x0d : UInt8) ∉ l) (h2 : NoNul l) (h3 : Utf8.utf8Ok l = true) (h4 : l.length ≤ 4094) : ReadableLine l :=
  ⟨h1, h2, (C05_utf8Ok l).1 h3, h4⟩

/-- A refusal read in small pieces, with silence and a failed read between them; then the connection is lost. -/
example (f : Bytes → Bool) : ∃ seen, exec f (.first []) ([.quiet] ++ (b!"HTTP/1.1 40").map .byte ++ [.again, .quiet] ++ (b!"3 No\r\n").map .byte ++ [.lost, .lost]) =
    .ok (.over (some 403) seen) := by
  obtain ⟨seen, h, -⟩ := C174_answer_partial f ([.quiet] ++ (b!"HTTP/1.1 40").map .byte ++ [.again, .quiet] ++ (b!"3 No\r\n").map .byte)
    (by decide +kernel) 403 b!"No" [] [] (by decide) (line_ok _ (by decide +kernel) (by decide +kernel) (by decide +kernel) (by decide +kernel))
    (by simp) (.inl ⟨by decide, by decide +kernel⟩)
  exact ⟨seen, h _⟩

/-- The connection is lost in the middle of the status line. -/
example (f : Bytes → Bool) : exec f (.first []) ((b!"HTTP/1.1 1").map .byte ++ [.lost, .quiet]) = .ok (.over none {}) := by rfl

/-- … and in the middle of a header line. -/
example (f : Bytes → Bool) : exec f (.first []) ((b!"HTTP/1.1 101 x\r\n").map .byte ++ (.byte 0x55 :: [.lost, .quiet])) =
    .ok (.over (some 101) { broken := true }) := by
  rw [exec_append, first_101]
  rfl

end Verif.Props
