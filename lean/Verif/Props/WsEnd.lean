import Verif.Model.WsEnd
/-!
# C173: a websocket that is asked to close comes to its end

Full statement: when the close of a websocket was asked for (`ulfius_websocket_send_close_signal`, `ulfius_stop_framework`) or its connection is lost, and the
manager callback, if there is one, returns when the status is CLOSE, then the onclose callback is called once and the thread of the websocket ends,
whatever the peer sends or does not send. False: a peer that sends a part of a frame and then nothing (`C173_silent_false`), and a peer that sends a final frame
inside a fragmented message while a manager callback waits for the end (`C173_fragment_false`). `C173_signal_partial` shows that there is nothing else.
-/
namespace Verif.Props
open Verif.Ws Verif.WsEnd

/-! ## Specification -/

/-- The thread of the websocket and the manager callback go on again and again; the callback asks for the status each time. -/
def BothGoOn (act : Nat → Act) : Prop := (∀ n, ∃ m ≥ n, act m = .thread) ∧ (∀ n, ∃ m ≥ n, act m = .look)

/-! ## The model of the reads is that of `Model/Frame` -/

/-- Sanity: the two variables of the loop together are the result of `Ws.handle`. -/
theorem handleFlags_handle (c : Cfg) (prev : Option InMsg) (m : InMsg) :
    handle c prev m = ((handleFlags c prev m).1, (handleFlags c prev m).2.1, (handleFlags c prev m).2.2.1 && (handleFlags c prev m).2.2.2) := by
  unfold handle handleFlags
  repeat' split
  all_goals (try rfl)
  all_goals simp_all

private def times : Nat → Sys → Sys
  | 0, s => s
  | n + 1, s => times n (thread s)

private theorem readData_one (n : Nat) (hn : 0 < n) (b : Bytes) :
    readData n [.seg b] = if n ≤ b.length then some (b.take n, [.seg (b.drop n)]) else none := by
  obtain ⟨n, rfl⟩ : ∃ k, n = k + 1 := ⟨n - 1, by omega⟩
  simp only [readData]
  split
  · rfl
  · obtain ⟨k, hk⟩ : ∃ k, n + 1 - b.length = k + 1 := ⟨n - b.length, by omega⟩
    rw [hk]
    rfl

private theorem pass_full (s : Sys) (hh : s.hup = false) (ph : Phase) (n : Nat) (b : Bytes) (hb : n ≤ b.length) :
    thread { s with sock := b, loop := .reading ⟨ph, n, []⟩ } =
      proceed { s with sock := b.drop n, loop := .reading ⟨ph, n, []⟩ } (advance s.cfg.server ph (b.take n)) := by
  simp only [thread, pass, hh, Bool.false_eq_true, if_false, List.length_nil, Nat.zero_add, if_pos hb, Nat.sub_zero, List.nil_append]

private theorem proceed_read (s : Sys) (b : Bytes) (l : Loop) (r : Read) :
    proceed { s with sock := b, loop := l } (.read r) = { s with sock := b, loop := .reading r } := rfl

private theorem proceed_message (s : Sys) (b : Bytes) (l l' : Loop) (m : InMsg) :
    proceed { s with sock := b, loop := l } (.message m) = proceed { s with sock := b, loop := l' } (.message m) := rfl

/-- Sanity: when a whole frame is there, the reads taken one by one give the message `Ws.readMessage` gives, and leave the same bytes. -/
theorem reads_readMessage (s : Sys) (hh : s.hup = false) (b : Bytes) (m : InMsg) (evs : List Ev)
    (hr : readMessage s.cfg.server [.seg b] = some (m, evs)) :
    ∃ rest k, evs = [.seg rest] ∧ times k { s with sock := b, loop := .reading ⟨.header, 2, []⟩ } = proceed { s with sock := rest } (.message m) := by
  unfold readMessage at hr
  split at hr
  · rename_i b0 b1 e1 h1
    rw [readData_one 2 (by decide)] at h1
    split at h1
    · rename_i hb
      injection h1 with h1
      injection h1 with h1 h1'
      subst h1'
      -- the end of the frame, from its length on
      have tail : ∀ (len : Nat) (c : Bytes), (match readMask s.cfg.server b1 [.seg c] with
            | none => none
            | some (mask, evs) =>
              match readPayload len mask evs with
              | none => none
              | some (d, evs) =>
                let fin := decide (b0 &&& 0x80 ≠ 0)
                some ((⟨b0 &&& 0x0f, b0 &&& 0x70, fin, mask.isSome, d, if fin then 0 else len⟩ : InMsg), evs)) = some (m, evs) →
          ∃ rest k, evs = [.seg rest] ∧ ∀ l, times k (proceed { s with sock := c, loop := l } (afterLength s.cfg.server b0 b1 len)) =
            proceed { s with sock := rest } (.message m) := by
        intro len c h
        have pay : ∀ (mask : Option Bytes) (c : Bytes), (match readPayload len mask [.seg c] with
              | none => none
              | some (d, evs) =>
                let fin := decide (b0 &&& 0x80 ≠ 0)
                some ((⟨b0 &&& 0x0f, b0 &&& 0x70, fin, mask.isSome, d, if fin then 0 else len⟩ : InMsg), evs)) = some (m, evs) →
            ∃ rest k, evs = [.seg rest] ∧ ∀ l, times k (proceed { s with sock := c, loop := l } (afterMask b0 len mask)) =
              proceed { s with sock := rest } (.message m) := by
          intro mask c h
          unfold readPayload at h
          by_cases hl : len = 0
          · rw [if_pos hl] at h
            injection h with h
            injection h with h h'
            refine ⟨c, 0, h'.symm, fun l => ?_⟩
            unfold afterMask
            rw [if_pos hl]
            have : message b0 len mask [] = m := by
              rw [← h]
              unfold message
              cases mask with
              | none => rfl
              | some k => rfl
            rw [this]
            rfl
          · rw [if_neg hl, readData_one len (by omega)] at h
            by_cases hc : len ≤ c.length
            · rw [if_pos hc] at h
              simp only at h
              have hlen : (c.take len).length = len := by rw [List.length_take]; omega
              rw [hlen] at h
              by_cases h32 : len % 2 ^ 32 ≠ len
              · rw [if_pos h32] at h
                cases h
              · rw [if_neg h32] at h
                injection h with h
                injection h with h h'
                refine ⟨c.drop len, 1, h'.symm, fun l => ?_⟩
                unfold afterMask
                rw [if_neg hl, proceed_read]
                simp only [times]
                rw [pass_full s hh _ _ _ hc]
                simp only [advance]
                rw [hlen, if_neg h32]
                have : message b0 len mask (c.take len) = m := h
                rw [this]
                rfl
            · rw [if_neg hc] at h
              cases h
        unfold readMask at h
        unfold afterLength
        cases hs : s.cfg.server with
        | true =>
          rw [hs] at h
          simp only [if_true] at h ⊢
          by_cases hb1 : b1 &&& 0x80 ≠ 0
          · rw [if_pos hb1] at h ⊢
            rw [readData_one 4 (by decide)] at h
            by_cases hc : 4 ≤ c.length
            · rw [if_pos hc] at h
              obtain ⟨rest, k, e1, e2⟩ := pay _ _ h
              refine ⟨rest, k + 1, e1, fun l => ?_⟩
              show times k (thread (proceed _ (.read ⟨.mask b0 b1 len, 4, []⟩))) = _
              rw [proceed_read, pass_full s hh _ _ _ hc]
              exact e2 _
            · rw [if_neg hc] at h
              cases h
          · rw [if_neg hb1] at h
            cases h
        | false =>
          rw [hs] at h
          simp only [Bool.false_eq_true, if_false] at h ⊢
          by_cases hb1 : b1 &&& 0x80 ≠ 0
          · rw [if_pos hb1] at h
            cases h
          · rw [if_neg hb1] at h ⊢
            exact pay none c h
      have head : ∀ X, advance s.cfg.server .header (b.take 2) = X →
          thread { s with sock := b, loop := .reading ⟨.header, 2, []⟩ } =
            proceed { s with sock := b.drop 2, loop := .reading ⟨.header, 2, []⟩ } X := by
        intro X hX
        rw [pass_full s hh _ _ _ hb, hX]
      rw [h1] at head
      simp only [advance] at head
      unfold readLength at hr
      simp only at hr
      by_cases h125 : (b1 &&& 0x7f).toNat ≤ 125
      · rw [if_pos h125] at hr head
        obtain ⟨rest, k, e1, e2⟩ := tail _ _ hr
        refine ⟨rest, k + 1, e1, ?_⟩
        show times k (thread _) = _
        rw [head _ rfl]
        exact e2 _
      · rw [if_neg h125] at hr head
        by_cases h126 : (b1 &&& 0x7f).toNat = 126
        · rw [if_pos h126] at hr head
          rw [readData_one 2 (by decide)] at hr
          by_cases hb2 : 2 ≤ (b.drop 2).length
          · rw [if_pos hb2] at hr
            generalize hp : (b.drop 2).take 2 = p at hr
            match p with
            | [p0, p1] =>
              obtain ⟨rest, k, e1, e2⟩ := tail _ _ hr
              refine ⟨rest, k + 2, e1, ?_⟩
              show times k (thread (thread _)) = _
              rw [head _ rfl, proceed_read, pass_full s hh _ _ _ hb2, hp]
              exact e2 _
            | [] => cases hr
            | [_] => cases hr
            | _ :: _ :: _ :: _ => cases hr
          · rw [if_neg hb2] at hr
            cases hr
        · rw [if_neg h126] at hr head
          rw [readData_one 8 (by decide)] at hr
          by_cases hb2 : 8 ≤ (b.drop 2).length
          · rw [if_pos hb2] at hr
            generalize hp : (b.drop 2).take 8 = p at hr
            match p with
            | [p0, p1, p2, p3, p4, p5, p6, p7] =>
              obtain ⟨rest, k, e1, e2⟩ := tail _ _ hr
              refine ⟨rest, k + 2, e1, ?_⟩
              show times k (thread (thread _)) = _
              rw [head _ rfl, proceed_read, pass_full s hh _ _ _ hb2, hp]
              exact e2 _
            | [] => cases hr
            | [_] => cases hr
            | [_, _] => cases hr
            | [_, _, _] => cases hr
            | [_, _, _, _] => cases hr
            | [_, _, _, _, _] => cases hr
            | [_, _, _, _, _, _] => cases hr
            | [_, _, _, _, _, _, _] => cases hr
            | _ :: _ :: _ :: _ :: _ :: _ :: _ :: _ :: _ :: _ => cases hr
          · rw [if_neg hb2] at hr
            cases hr
    · cases h1
  · cases hr

/-! ## Progress -/

private def readWeight (r : Read) : Nat :=
  (match r.phase with
    | .header => 2 ^ 64 + 30
    | .length _ _ => 2 ^ 64 + 10
    | .mask _ _ len => len + 2
    | .payload _ _ _ => 0) + (r.need - r.got.length)

/-- After a signal: how many steps of the thread are left, at most. -/
private def rank (s : Sys) : Nat :=
  match s.loop with
  | .done => 0
  | .closing => 1
  | .join => 2
  | .test => if s.connected && s.ret then 6 else 3
  | .flag => if s.closeFlag || s.hup then 5 else 2 ^ 64 + 60
  | .reading r => 7 + readWeight r
  | .poll => if s.hup then 4 else 2 ^ 64 + 50

private theorem rank_test (s : Sys) (h : s.loop = .test) : rank s ≤ 6 ∧ (s.connected = false → rank s = 3) := by
  unfold rank
  rw [h]
  simp only
  refine ⟨by split <;> omega, fun h' => ?_⟩
  rw [h']
  rfl

private theorem afterMask_weight (b0 : UInt8) (len : Nat) (mask : Option Bytes) (r : Read) (h : afterMask b0 len mask = .read r) : readWeight r ≤ len := by
  unfold afterMask at h
  split at h
  · cases h
  · injection h with h
    subst h
    simp [readWeight]

private theorem afterLength_weight (sv : Bool) (b0 b1 : UInt8) (len : Nat) (r : Read) (h : afterLength sv b0 b1 len = .read r) : readWeight r ≤ len + 6 := by
  unfold afterLength at h
  split at h
  · split at h
    · injection h with h
      subst h
      simp [readWeight]
    · cases h
  · split at h
    · cases h
    · have := afterMask_weight _ _ _ _ h
      omega

private theorem advance_weight (sv : Bool) (p : Phase) (b : Bytes) (r r' : Read) (hp : r.phase = p) (h : advance sv p b = .read r') :
    readWeight r' + (r.need - r.got.length) < readWeight r := by
  have hl : ∀ l, l < 2 ^ 64 → ∀ b0 b1, afterLength sv b0 b1 l = .read r' → readWeight r' < 2 ^ 64 + 6 :=
    fun l hl b0 b1 h => by have := afterLength_weight _ _ _ _ _ h; omega
  unfold advance at h
  split at h
  · rename_i b0 b1
    simp only at h
    have h7 : (b1 &&& 0x7f).toNat < 2 ^ 64 := Nat.lt_of_lt_of_le (UInt8.toNat_lt _) (by decide)
    have e : readWeight r = 2 ^ 64 + 30 + (r.need - r.got.length) := by unfold readWeight; rw [hp]
    split at h
    · have := hl _ h7 _ _ h
      omega
    · split at h
      · injection h with h; subst h; rw [e]; simp [readWeight]
      · injection h with h; subst h; rw [e]; simp [readWeight]
  · rename_i b0 b1 p0 p1
    have e : readWeight r = 2 ^ 64 + 10 + (r.need - r.got.length) := by unfold readWeight; rw [hp]
    have := hl _ (by
      refine Nat.lt_of_lt_of_le (Nat.or_lt_two_pow (n := 16) ?_ ?_) (by decide)
      · exact Nat.lt_of_lt_of_le (UInt8.toNat_lt _) (by decide)
      · rw [Nat.shiftLeft_eq]; have := UInt8.toNat_lt p0; omega) _ _ h
    omega
  · rename_i b0 b1 p0 p1 p2 p3 p4 p5 p6 p7
    have e : readWeight r = 2 ^ 64 + 10 + (r.need - r.got.length) := by unfold readWeight; rw [hp]
    have := hl _ (Nat.mod_lt _ (by decide)) _ _ h
    omega
  · rename_i b0 b1 len
    have e : readWeight r = len + 2 + (r.need - r.got.length) := by unfold readWeight; rw [hp]
    have := afterMask_weight _ _ _ _ h
    omega
  · split at h <;> cases h
  · cases h

private theorem proceed_rank (s : Sys) (nx : Next) (hc : ∀ r', nx ≠ .read r') : rank (proceed s nx) ≤ 6 := by
  cases nx with
  | read r' => exact absurd rfl (hc r')
  | error => exact (rank_test _ rfl).1
  | message m => exact (rank_test _ rfl).1

private theorem thread_rank (s : Sys) (hf : s.closeFlag = true ∨ s.hup = true ∨ s.connected = false) :
    rank (thread s) < rank s ∨ rank (thread s) = rank s ∧ (thread s).loop = s.loop ∧ (s.loop = .done ∨ s.loop = .join ∧ s.manager = .running ∨
      ∃ r, s.loop = .reading r ∧ s.hup = false ∧ s.sock = []) := by
  unfold thread
  cases h : s.loop with
  | test =>
    left
    simp only [rank, h]
    cases hc : s.connected && s.ret
    · simp
    · have hc' : s.connected = true := by
        cases h' : s.connected
        · rw [h'] at hc; cases hc
        · rfl
      rw [hc'] at hf
      rcases hf with hf | hf | hf
      · simp [hf]
      · simp [hf]
      · cases hf
  | flag =>
    left
    simp only
    split
    · rename_i hn
      have e : rank s = 5 := by unfold rank; rw [h]; simp [hn]
      rw [e, (rank_test _ rfl).2 rfl]
      decide
    · rename_i hn
      cases hh : s.hup with
      | true =>
        have e : rank s = 5 := by unfold rank; rw [h]; simp [hh]
        rw [e]
        simp [rank, hh]
      | false =>
        have e : rank s = 2 ^ 64 + 60 := by unfold rank; rw [h]; simp [hh, hn]
        rw [e]
        simp [rank, hh]
  | poll =>
    left
    simp only
    split
    · rename_i hh
      have e : rank s = 4 := by unfold rank; rw [h, hh]; rfl
      rw [e, (rank_test _ rfl).2 rfl]
      decide
    · rename_i hh
      have e : rank s = 2 ^ 64 + 50 := by unfold rank; rw [h]; simp [hh]
      rw [e]
      split
      · exact Nat.lt_of_le_of_lt (rank_test _ rfl).1 (by decide)
      · simp [rank, readWeight]
  | reading r =>
    have e : rank s = 7 + readWeight r := by unfold rank; rw [h]
    simp only
    unfold pass
    split
    · left
      have := (rank_test (fail s) rfl).1
      omega
    · rename_i hh
      split
      · left
        simp only
        generalize hn : advance s.cfg.server r.phase (r.got ++ s.sock.take (r.need - r.got.length)) = nx
        cases nx with
        | read r' =>
          have := advance_weight _ _ _ r r' rfl hn
          have e' : ∀ x : Sys, rank (proceed x (.read r')) = 7 + readWeight r' := fun _ => rfl
          rw [e', e]
          omega
        | error =>
          have := proceed_rank { s with sock := s.sock.drop (r.need - r.got.length) } .error (by intro r' h; cases h)
          omega
        | message m =>
          have := proceed_rank { s with sock := s.sock.drop (r.need - r.got.length) } (.message m) (by intro r' h; cases h)
          omega
      · rename_i hlt
        split
        · have e' : ∀ b : Bytes, rank { s with sock := [], loop := .reading { r with got := b } } = 7 + readWeight { r with got := b } := fun _ => rfl
          have ew : readWeight { r with got := r.got ++ s.sock } + s.sock.length = readWeight r := by
            unfold readWeight
            simp only [List.length_append]
            omega
          rw [e', e]
          cases hs : s.sock with
          | nil =>
            right
            rw [List.append_nil]
            exact ⟨rfl, rfl, .inr (.inr ⟨r, rfl, by simpa using hh, rfl⟩)⟩
          | cons x t =>
            left
            rw [hs] at ew
            simp only [List.length_cons] at ew
            omega
        · left
          have := (rank_test (fail { s with sock := [] }) rfl).1
          omega
  | join =>
    simp only
    split
    · rename_i hm
      exact .inr ⟨rfl, h, .inr (.inl ⟨trivial, hm⟩)⟩
    · left
      simp [rank, h]
  | closing =>
    left
    simp [rank, h]
  | done => exact .inr ⟨rfl, h, .inl rfl⟩

/-- Everybody else leaves the rank alone or lowers it. -/
private theorem other_rank (s : Sys) (a : Act) (ha : a ≠ .thread) : rank (step s a) ≤ rank s ∧ (step s a).loop = s.loop := by
  have key : ∀ s' : Sys, s'.loop = s.loop → s'.ret = s.ret → (s'.connected = s.connected ∨ s'.connected = false) →
      (s'.hup = s.hup ∨ s'.hup = true) → (s.closeFlag = true → s'.closeFlag = true) → rank s' ≤ rank s ∧ s'.loop = s.loop := by
    intro s' h1 h2 h3 h4 h5
    refine ⟨?_, h1⟩
    unfold rank
    rw [h1, h2]
    cases s.loop <;> simp only [Nat.le_refl]
    case flag =>
      have h4' : s.hup = true → s'.hup = true := fun h => h4.elim (fun h4 => h4.trans h) id
      split
      · split <;> omega
      · rename_i hn
        rw [if_neg]
        · exact Nat.le_refl _
        · intro h
          refine hn ?_
          rw [Bool.or_eq_true] at h ⊢
          exact h.imp h5 h4'
    case poll =>
      rcases h4 with h4 | h4
      · rw [h4]
        exact Nat.le_refl _
      · rw [h4]
        simp only [if_true]
        split <;> omega
    rcases h3 with h3 | h3
    · rw [h3]
      exact Nat.le_refl _
    · rw [h3]
      simp only [Bool.false_and, Bool.false_eq_true, if_false]
      split <;> omega
  cases a with
  | thread => exact absurd rfl ha
  | look => simp only [step]; split <;> exact key _ rfl rfl (.inl rfl) (.inl rfl) id
  | send =>
    simp only [step]
    split
    · exact key _ rfl rfl (.inr rfl) (.inl rfl) id
    · exact key _ rfl rfl (.inl rfl) (.inl rfl) id
  | leave => simp only [step]; split <;> exact key _ rfl rfl (.inl rfl) (.inl rfl) (fun h => by simp [h])
  | signal => exact key _ rfl rfl (.inl rfl) (.inl rfl) (fun _ => rfl)
  | bytes b => exact key _ rfl rfl (.inl rfl) (.inl rfl) id
  | hang => exact key _ rfl rfl (.inl rfl) (.inr rfl) id

/-- What the thread of the websocket does not change. -/
private theorem thread_frame (s : Sys) :
    (thread s).closeFlag = s.closeFlag ∧ (thread s).hup = s.hup ∧ (thread s).cfg = s.cfg ∧ (thread s).manager = s.manager ∧
      (s.connected = false → (thread s).connected = false) := by
  unfold thread
  cases h : s.loop with
  | test => exact ⟨rfl, rfl, rfl, rfl, id⟩
  | flag =>
    simp only
    split
    · exact ⟨rfl, rfl, rfl, rfl, fun _ => rfl⟩
    · exact ⟨rfl, rfl, rfl, rfl, id⟩
  | poll =>
    simp only
    split
    · exact ⟨rfl, rfl, rfl, rfl, fun _ => rfl⟩
    · split
      · exact ⟨rfl, rfl, rfl, rfl, id⟩
      · exact ⟨rfl, rfl, rfl, rfl, id⟩
  | reading r =>
    simp only
    unfold pass
    split
    · exact ⟨rfl, rfl, rfl, rfl, fun _ => rfl⟩
    · split
      · simp only
        generalize advance s.cfg.server r.phase _ = nx
        cases nx with
        | read r' => exact ⟨rfl, rfl, rfl, rfl, id⟩
        | error => exact ⟨rfl, rfl, rfl, rfl, fun _ => rfl⟩
        | message m => exact ⟨rfl, rfl, rfl, rfl, fun h => by simp [proceed, h]⟩
      · split
        · exact ⟨rfl, rfl, rfl, rfl, id⟩
        · exact ⟨rfl, rfl, rfl, rfl, fun _ => rfl⟩
  | join =>
    simp only
    split
    · exact ⟨rfl, rfl, rfl, rfl, id⟩
    · exact ⟨rfl, rfl, rfl, rfl, id⟩
  | closing => exact ⟨rfl, rfl, rfl, rfl, fun _ => rfl⟩
  | done => exact ⟨rfl, rfl, rfl, rfl, id⟩

private theorem step_frame (s : Sys) (a : Act) :
    (s.closeFlag = true → (step s a).closeFlag = true) ∧ (s.hup = true → (step s a).hup = true) ∧ (step s a).cfg = s.cfg ∧
      (s.manager ≠ .running → (step s a).manager ≠ .running) ∧ (s.connected = false → (step s a).connected = false) := by
  cases a with
  | thread =>
    obtain ⟨h1, h2, h3, h4, h5⟩ := thread_frame s
    exact ⟨fun h => h1.trans h, fun h => h2.trans h, h3, fun h => by rw [show (step s .thread).manager = s.manager from h4]; exact h, h5⟩
  | look =>
    simp only [step]
    split
    · exact ⟨id, id, rfl, fun _ => by simp, id⟩
    · exact ⟨id, id, rfl, id, id⟩
  | send =>
    simp only [step]
    split
    · exact ⟨id, id, rfl, id, fun _ => rfl⟩
    · exact ⟨id, id, rfl, id, id⟩
  | leave =>
    simp only [step]
    split
    · exact ⟨fun h => by simp [h], id, rfl, fun _ => by simp, id⟩
    · exact ⟨id, id, rfl, id, id⟩
  | signal => exact ⟨fun _ => rfl, id, rfl, id, id⟩
  | bytes b => exact ⟨id, id, rfl, id, id⟩
  | hang => exact ⟨id, fun _ => rfl, rfl, id, id⟩

/-- Something that no action takes back. -/
private theorem persists {P : Sys → Prop} (hp : ∀ s a, P s → P (step s a)) (s : Sys) (act : Nat → Act) {n : Nat} (h : P (after s act n)) :
    ∀ m, n ≤ m → P (after s act m) := by
  intro m hm
  induction m with
  | zero =>
    have : n = 0 := by omega
    subst this
    exact h
  | succ m ih =>
    rcases Nat.lt_or_eq_of_le hm with hm | rfl
    · exact hp _ _ (ih (by omega))
    · exact h

/-- Numbers that do not grow come to rest. -/
private theorem rests (f : Nat → Nat) (n : Nat) (h : ∀ m, n ≤ m → f (m + 1) ≤ f m) : ∃ N, n ≤ N ∧ ∀ m, N ≤ m → f m = f N := by
  have mono : ∀ a b, n ≤ a → a ≤ b → f b ≤ f a := by
    intro a b ha hb
    induction b with
    | zero => have : a = 0 := by omega
              subst this; exact Nat.le_refl _
    | succ b ih =>
      rcases Nat.lt_or_eq_of_le hb with hb | rfl
      · exact Nat.le_trans (h b (by omega)) (ih (by omega))
      · exact Nat.le_refl _
  have key : ∀ k N, n ≤ N → f N ≤ k → ∃ N', n ≤ N' ∧ ∀ m, N' ≤ m → f m = f N' := by
    intro k
    induction k with
    | zero =>
      intro N hN hk
      exact ⟨N, hN, fun m hm => by have := mono N m hN hm; omega⟩
    | succ k ih =>
      intro N hN hk
      by_cases hc : ∀ m, N ≤ m → f m = f N
      · exact ⟨N, hN, hc⟩
      · have : ∃ m, N ≤ m ∧ f m ≠ f N := by
          rcases Classical.em (∃ m, N ≤ m ∧ f m ≠ f N) with h | h
          · exact h
          · exact absurd (fun m hm => Classical.byContradiction fun hne => h ⟨m, hm, hne⟩) hc
        obtain ⟨m, hm, hne⟩ := this
        have := mono N m hN hm
        exact ih m (by omega) (by omega)
  exact key (f n) n (Nat.le_refl _) (Nat.le_refl _)

/-- At the `pthread_join` one of the two variables has ended the loop. -/
private theorem join_reason (s : Sys) (a : Act) (h : s.loop = .join → s.connected = false ∨ s.ret = false) :
    (step s a).loop = .join → (step s a).connected = false ∨ (step s a).ret = false := by
  by_cases ha : a = .thread
  · subst ha
    simp only [step]
    unfold thread
    cases hl : s.loop with
    | test =>
      simp only
      intro hj
      cases hc : s.connected
      · exact .inl rfl
      · cases hr : s.ret
        · exact .inr rfl
        · rw [hc, hr] at hj
          cases hj
    | flag => simp only; split <;> (intro hj; cases hj)
    | poll =>
      simp only
      split
      · intro hj; cases hj
      · split <;> (intro hj; cases hj)
    | reading r =>
      simp only
      unfold pass
      split
      · intro hj; cases hj
      · split
        · simp only
          generalize advance s.cfg.server r.phase _ = nx
          cases nx <;> (intro hj; cases hj)
        · split <;> (intro hj; cases hj)
    | join =>
      simp only
      split
      · exact fun _ => h hl
      · intro hj; cases hj
    | closing => intro hj; cases hj
    | done => simp only; rw [hl]; intro hj; cases hj
  · intro hj
    rw [(other_rank s a ha).2] at hj
    have hr : (step s a).ret = s.ret := by
      cases a with
      | thread => exact absurd rfl ha
      | look => simp only [step]; split <;> rfl
      | send => simp only [step]; split <;> rfl
      | leave => simp only [step]; split <;> rfl
      | signal => rfl
      | bytes b => rfl
      | hang => rfl
    rcases h hj with h | h
    · exact .inl ((step_frame s a).2.2.2.2 h)
    · exact .inr (hr.trans h)

/-! ## The theorems -/

private theorem ends (c : Cfg) (mgr : Bool) (act : Nat → Act) (hgo : BothGoOn act) (n0 : Nat)
    (hsig : (after (start c mgr) act n0).closeFlag = true ∨ (after (start c mgr) act n0).hup = true ∨ (after (start c mgr) act n0).connected = false) :
    (∃ n, (after (start c mgr) act n).loop = .done) ∨
    (∃ N r, ∀ n, N ≤ n → (after (start c mgr) act n).loop = .reading r ∧ (after (start c mgr) act n).hup = false ∧
      ∀ b, act n = .bytes b → b = []) ∨
    (∃ N, ∀ n, N ≤ n → (after (start c mgr) act n).loop = .join ∧ (after (start c mgr) act n).ret = false ∧
      (after (start c mgr) act n).connected = true ∧ (after (start c mgr) act n).manager = .running) := by
  generalize hS : after (start c mgr) act = S
  have hstep : ∀ n, S (n + 1) = step (S n) (act n) := by intro n; rw [← hS]; rfl
  have hflag : ∀ m, n0 ≤ m → (S m).closeFlag = true ∨ (S m).hup = true ∨ (S m).connected = false := by
    intro m hm
    rw [← hS]
    exact persists (P := fun s => s.closeFlag = true ∨ s.hup = true ∨ s.connected = false)
      (fun s a h => h.imp (step_frame s a).1 (Or.imp (step_frame s a).2.1 (step_frame s a).2.2.2.2)) _ _ (n := n0) hsig m hm
  obtain ⟨N, hN, hrest⟩ := rests (fun n => rank (S n)) n0 (by
    intro m hm
    show rank (S (m + 1)) ≤ rank (S m)
    rw [hstep]
    by_cases ha : act m = .thread
    · rw [ha]
      rcases thread_rank (S m) (hflag m hm) with h | ⟨h, _⟩
      · exact Nat.le_of_lt h
      · exact Nat.le_of_eq h
    · exact (other_rank _ _ ha).1)
  have hthread : ∀ m, N ≤ m → act m = .thread → (S (m + 1)).loop = (S m).loop ∧ ((S m).loop = .done ∨ (S m).loop = .join ∧ (S m).manager = .running ∨
      ∃ r, (S m).loop = .reading r ∧ (S m).hup = false ∧ (S m).sock = []) := by
    intro m hm ha
    have h1 : rank (S m) = rank (S N) := hrest m hm
    have h2 : rank (S (m + 1)) = rank (S N) := hrest (m + 1) (by omega)
    rw [hstep, ha] at h2 ⊢
    rcases thread_rank (S m) (hflag m (by omega)) with h | ⟨_, h, h'⟩
    · exact absurd (h1.trans h2.symm) (by simp only [step]; omega)
    · exact ⟨h, h'⟩
  have hloop : ∀ m, N ≤ m → (S m).loop = (S N).loop := by
    intro m hm
    induction m with
    | zero => rw [show N = 0 by omega]
    | succ m ih =>
      rcases Nat.lt_or_eq_of_le hm with hm | rfl
      · by_cases ha : act m = .thread
        · exact (hthread m (by omega) ha).1.trans (ih (by omega))
        · rw [hstep, (other_rank _ _ ha).2]
          exact ih (by omega)
      · rfl
  obtain ⟨m0, hm0, ht0⟩ := hgo.1 N
  rcases (hthread m0 hm0 ht0).2 with hd | ⟨hj, _⟩ | ⟨r, hr, _⟩
  · exact .inl ⟨m0, hd⟩
  · right; right
    refine ⟨N, ?_⟩
    intro n hn
    have hjn : (S n).loop = .join := (hloop n hn).trans ((hloop m0 hm0).symm.trans hj)
    have hrun : (S n).manager = .running := by
      refine Classical.byContradiction fun hne => ?_
      obtain ⟨m, hm, ht⟩ := hgo.1 n
      have hne' : (S m).manager ≠ .running := by
        rw [← hS] at hne ⊢
        exact persists (P := fun s => s.manager ≠ .running) (fun s a => (step_frame s a).2.2.2.1) _ _ hne m hm
      have hjm : (S m).loop = .join := (hloop m (by omega)).trans ((hloop n hn).symm.trans hjn)
      rcases (hthread m (by omega) ht).2 with h | ⟨_, h⟩ | ⟨r, h, _⟩
      · rw [hjm] at h; cases h
      · exact hne' h
      · rw [hjm] at h; cases h
    have hconn : (S n).connected = true := by
      cases hc : (S n).connected with
      | true => rfl
      | false =>
        exfalso
        obtain ⟨m, hm, hl⟩ := hgo.2 n
        have hcm : (S m).connected = false := by
          rw [← hS] at hc ⊢
          exact persists (P := fun s => s.connected = false) (fun s a => (step_frame s a).2.2.2.2) _ _ hc m hm
        have hne : (S (m + 1)).manager ≠ .running := by
          rw [hstep, hl]
          simp only [step, hcm, and_true]
          split
          · simp
          · assumption
        obtain ⟨m', hm', ht⟩ := hgo.1 (m + 1)
        have hne' : (S m').manager ≠ .running := by
          rw [← hS] at hne ⊢
          exact persists (P := fun s => s.manager ≠ .running) (fun s a => (step_frame s a).2.2.2.1) _ _ hne m' hm'
        have hjm : (S m').loop = .join := (hloop m' (by omega)).trans ((hloop n hn).symm.trans hjn)
        rcases (hthread m' (by omega) ht).2 with h | ⟨_, h⟩ | ⟨r, h, _⟩
        · rw [hjm] at h; cases h
        · exact hne' h
        · rw [hjm] at h; cases h
    have hreason : (S n).connected = false ∨ (S n).ret = false := by
      have : (S n).loop = .join → (S n).connected = false ∨ (S n).ret = false := by
        rw [← hS]
        refine persists (P := fun s => s.loop = .join → s.connected = false ∨ s.ret = false) join_reason _ _ (n := 0) ?_ n (by omega)
        intro h
        cases h
      exact this hjn
    rw [hconn] at hreason
    exact ⟨hjn, hreason.resolve_left (by decide), hconn, hrun⟩
  · right; left
    refine ⟨N, r, ?_⟩
    intro n hn
    have hrn : ∀ m, N ≤ m → (S m).loop = .reading r := fun m hm => (hloop m hm).trans ((hloop m0 hm0).symm.trans hr)
    have hquiet : ∀ m, N ≤ m → act m = .thread → (S m).hup = false ∧ (S m).sock = [] := by
      intro m hm ht
      rcases (hthread m hm ht).2 with h | ⟨h, _⟩ | ⟨r', _, h⟩
      · rw [hrn m hm] at h; cases h
      · rw [hrn m hm] at h; cases h
      · exact h
    refine ⟨hrn n hn, ?_, ?_⟩
    · cases hh : (S n).hup with
      | false => rfl
      | true =>
        exfalso
        obtain ⟨m, hm, ht⟩ := hgo.1 n
        have : (S m).hup = true := by
          rw [← hS] at hh ⊢
          exact persists (P := fun s => s.hup = true) (fun s a => (step_frame s a).2.1) _ _ hh m hm
        rw [(hquiet m (by omega) ht).1] at this
        cases this
    · intro b hb
      -- what arrived stays until the thread goes on
      have hstay : ∀ k m, n + 1 ≤ m → m ≤ n + 1 + k → (∀ i, n + 1 ≤ i → i < m → act i ≠ .thread) → b.length ≤ (S m).sock.length := by
        intro k
        induction k with
        | zero =>
          intro m h1 h2 _
          have : m = n + 1 := by omega
          subst this
          rw [hstep, hb]
          simp [step]
        | succ k ih =>
          intro m h1 h2 h3
          rcases Nat.lt_or_eq_of_le h2 with h2 | rfl
          · exact ih m h1 (by omega) h3
          · have := ih (n + 1 + k) (by omega) (by omega) (fun i hi hi' => h3 i hi (by omega))
            show b.length ≤ (S (n + 1 + k + 1)).sock.length
            rw [hstep]
            have hne := h3 (n + 1 + k) (by omega) (by omega)
            generalize act (n + 1 + k) = a at hne
            cases a with
            | thread => exact absurd rfl hne
            | look => simp only [step]; split <;> exact this
            | send => simp only [step]; split <;> exact this
            | leave => simp only [step]; split <;> exact this
            | signal => exact this
            | bytes b' => simp only [step, List.length_append]; omega
            | hang => exact this
      obtain ⟨m1, hm1, ht1⟩ := hgo.1 (n + 1)
      -- the first thread step from n + 1 on
      have hfirst : ∀ k m, m ≤ n + 1 + k → n + 1 ≤ m → act m = .thread → ∃ m', n + 1 ≤ m' ∧ act m' = .thread ∧ ∀ i, n + 1 ≤ i → i < m' → act i ≠ .thread := by
        intro k
        induction k with
        | zero =>
          intro m h1 h2 h3
          exact ⟨m, h2, h3, fun i h h' => by omega⟩
        | succ k ih =>
          intro m h1 h2 h3
          rcases Classical.em (∃ i, n + 1 ≤ i ∧ i < m ∧ act i = .thread) with ⟨i, hi1, hi2, hi3⟩ | hno
          · exact ih i (by omega) hi1 hi3
          · exact ⟨m, h2, h3, fun i h h' e => hno ⟨i, h, h', e⟩⟩
      obtain ⟨m', h1, h2, h3⟩ := hfirst m1 m1 (by omega) hm1 ht1
      have := hstay m' m' h1 (by omega) h3
      rw [(hquiet m' (by omega) h2).2] at this
      exact List.eq_nil_of_length_eq_zero (by simpa using this)

/-- **C173, asked to close.** Whatever the peer and the programs do after somebody asked for the close or the connection was lost: the websocket comes to its end, or the peer has sent a part of
a frame, keeps the connection open and sends nothing more, or the peer has sent a final frame that does not belong into the fragmented message it began,
and the manager callback waits for a status that never comes. Missing: these two, which are possible, see `C173_silent_false` and
`C173_fragment_false`. -/
theorem C173_signal_partial (c : Cfg) (mgr : Bool) (act : Nat → Act) (hgo : BothGoOn act) (n0 : Nat) (hsig : act n0 = .signal ∨ act n0 = .hang) :
    (∃ n, (after (start c mgr) act n).loop = .done) ∨
    (∃ N r, ∀ n, N ≤ n → (after (start c mgr) act n).loop = .reading r ∧ (after (start c mgr) act n).hup = false ∧
      ∀ b, act n = .bytes b → b = []) ∨
    (∃ N, ∀ n, N ≤ n → (after (start c mgr) act n).loop = .join ∧ (after (start c mgr) act n).ret = false ∧
      (after (start c mgr) act n).connected = true ∧ (after (start c mgr) act n).manager = .running) := by
  refine ends c mgr act hgo (n0 + 1) ?_
  show (step _ (act n0)).closeFlag = true ∨ (step _ (act n0)).hup = true ∨ _
  rcases hsig with h | h <;> rw [h]
  · exact .inl rfl
  · exact .inr (.inl rfl)

/-- What a manager callback that returned leaves behind. -/
private theorem returned_flag (s : Sys) (a : Act) (h : s.manager = .returned → s.closeFlag = true ∨ s.connected = false) :
    (step s a).manager = .returned → (step s a).closeFlag = true ∨ (step s a).connected = false := by
  intro hr
  by_cases hm : s.manager = .returned
  · exact (h hm).imp (step_frame s a).1 (step_frame s a).2.2.2.2
  · cases a with
    | thread => exact absurd ((thread_frame s).2.2.2.1.symm.trans hr) hm
    | look =>
      simp only [step] at hr ⊢
      split
      · rename_i hc; exact .inr hc.2
      · rename_i hc; rw [if_neg hc] at hr; exact absurd hr hm
    | send =>
      simp only [step] at hr
      split at hr <;> exact absurd hr hm
    | leave =>
      simp only [step] at hr ⊢
      split
      · cases hc : s.connected
        · exact .inr rfl
        · exact .inl (by simp)
      · rename_i hc; rw [if_neg hc] at hr; exact absurd hr hm
    | signal => exact absurd hr hm
    | bytes b => exact absurd hr hm
    | hang => exact absurd hr hm

/-- **C173, the end of the manager callback.** When the manager callback has returned, whether it was told to or not, the websocket comes to its end, or the
peer has sent a part of a frame, keeps the connection open and sends nothing more. Missing: that, see `C173_silent_false`. -/
theorem C173_returned_partial (c : Cfg) (mgr : Bool) (act : Nat → Act) (hgo : BothGoOn act) (n0 : Nat)
    (hr : (after (start c mgr) act n0).manager = .returned) :
    (∃ n, (after (start c mgr) act n).loop = .done) ∨
    (∃ N r, ∀ n, N ≤ n → (after (start c mgr) act n).loop = .reading r ∧ (after (start c mgr) act n).hup = false ∧
      ∀ b, act n = .bytes b → b = []) := by
  have hP : (after (start c mgr) act n0).closeFlag = true ∨ (after (start c mgr) act n0).connected = false :=
    persists (P := fun s => s.manager = .returned → s.closeFlag = true ∨ s.connected = false) returned_flag _ _ (n := 0)
      (by intro h; cases mgr <;> cases h) n0 (by omega) hr
  rcases ends c mgr act hgo n0 (hP.imp id .inr) with h | h | ⟨N, h⟩
  · exact .inl h
  · exact .inr h
  · exfalso
    have hne : (after (start c mgr) act (n0 + N)).manager ≠ .running :=
      persists (P := fun s => s.manager ≠ .running) (fun s a => (step_frame s a).2.2.2.1) _ _ (n := n0) (by rw [hr]; simp) _ (by omega)
    exact hne (h _ (by omega)).2.2.2

/-- **C173, a lost connection.** When the connection is lost the websocket comes to its end, if it has no manager callback, or if it is the websocket of a server and
its manager callback sends messages again and again. Missing: a manager callback that only waits, see `C173_fragment_false`. -/
theorem C173_lost_partial (c : Cfg) (mgr : Bool) (act : Nat → Act) (hgo : BothGoOn act) (n0 : Nat) (hh : act n0 = .hang)
    (hm : mgr = false ∨ c.server = true ∧ ∀ n, ∃ m ≥ n, act m = .send) : ∃ n, (after (start c mgr) act n).loop = .done := by
  have hup : ∀ m, n0 + 1 ≤ m → (after (start c mgr) act m).hup = true := by
    intro m hm
    refine persists (P := fun s => s.hup = true) (fun s a => (step_frame s a).2.1) _ _ (n := n0 + 1) ?_ m hm
    show (step _ (act n0)).hup = true
    rw [hh]
    rfl
  rcases C173_signal_partial c mgr act hgo n0 (.inr hh) with h | ⟨N, r, h⟩ | ⟨N, h⟩
  · exact h
  · have := hup (N + n0 + 1) (by omega)
    rw [(h (N + n0 + 1) (by omega)).2.1] at this
    cases this
  · exfalso
    rcases hm with rfl | ⟨hs, hsend⟩
    · have : (after (start c false) act N).manager ≠ .running :=
        persists (P := fun s => s.manager ≠ .running) (fun s a => (step_frame s a).2.2.2.1) _ _ (n := 0) (by show (start c false).manager ≠ _; simp [start]) N (by omega)
      exact this (h N (by omega)).2.2.2
    · obtain ⟨m, hm, e⟩ := hsend (N + n0 + 1)
      have h1 := (h m (by omega))
      have h2 := (h (m + 1) (by omega)).2.2.1
      have hcfg : (after (start c mgr) act m).cfg = c :=
        persists (P := fun s => s.cfg = c) (fun s a h => (step_frame s a).2.2.1.trans h) _ _ (n := 0) rfl m (by omega)
      have : (step (after (start c mgr) act m) (act m)).connected = false := by
        rw [e]
        simp only [step]
        rw [if_pos ⟨h1.2.2.2, hup m (by omega), by rw [hcfg]; exact hs⟩]
      rw [show step (after (start c mgr) act m) (act m) = after (start c mgr) act (m + 1) from rfl, h2] at this
      cases this

/-- **C173, a peer that goes on.** Without a manager callback: when the close was asked for and the peer never falls silent for good, or hangs up, the websocket comes
to its end. Missing: manager callbacks, see `C173_fragment_false`, and silent peers, see `C173_silent_false`. -/
theorem C173_talking_partial (c : Cfg) (act : Nat → Act) (hgo : BothGoOn act) (n0 : Nat) (hsig : act n0 = .signal)
    (hp : ∀ n, ∃ m ≥ n, ∃ b, act m = .bytes b ∧ b ≠ []) : ∃ n, (after (start c false) act n).loop = .done := by
  rcases C173_signal_partial c false act hgo n0 (.inl hsig) with h | ⟨N, r, h⟩ | ⟨N, h⟩
  · exact h
  · obtain ⟨m, hm, b, e, hne⟩ := hp N
    exact absurd ((h m hm).2.2 b e) hne
  · have : (after (start c false) act N).manager ≠ .running :=
      persists (P := fun s => s.manager ≠ .running) (fun s a => (step_frame s a).2.2.2.1) _ _ (n := 0) (by show (start c false).manager ≠ _; simp [start]) N (by omega)
    exact absurd (h N (by omega)).2.2.2 this

private def Tally : Loop → Nat → Prop
  | .closing, k => k = 1
  | .done, k => k = 1
  | _, k => k = 0

private theorem thread_tally (s : Sys) (h : Tally s.loop s.closes) (hm : s.closes = 1 → s.manager ≠ .running) :
    Tally (thread s).loop (thread s).closes ∧ ((thread s).closes = 1 → s.manager ≠ .running) := by
  unfold thread
  cases hl : s.loop with
  | test =>
    rw [hl] at h
    refine ⟨?_, hm⟩
    simp only
    cases s.connected && s.ret <;> exact h
  | flag =>
    rw [hl] at h
    simp only
    split <;> exact ⟨h, hm⟩
  | poll =>
    rw [hl] at h
    simp only
    split
    · exact ⟨h, hm⟩
    · split <;> exact ⟨h, hm⟩
  | reading r =>
    rw [hl] at h
    simp only
    unfold pass
    split
    · exact ⟨h, hm⟩
    · split
      · simp only
        generalize advance s.cfg.server r.phase _ = nx
        cases nx <;> exact ⟨h, hm⟩
      · split <;> exact ⟨h, hm⟩
  | join =>
    rw [hl] at h
    have h0 : s.closes = 0 := h
    simp only
    split
    · rw [hl]
      exact ⟨h, hm⟩
    · rename_i hm'
      exact ⟨by rw [h0]; rfl, fun _ => hm'⟩
  | closing =>
    rw [hl] at h
    exact ⟨h, hm⟩
  | done =>
    rw [hl] at h
    simp only
    rw [hl]
    exact ⟨h, hm⟩

/-- **C173, the onclose callback.** At any time it was called once if the thread is behind this point, and not yet otherwise; and then the manager callback does not run. -/
theorem C173_once (c : Cfg) (mgr : Bool) (as : List Act) :
    (exec (start c mgr) as).closes = (if (exec (start c mgr) as).loop = .closing ∨ (exec (start c mgr) as).loop = .done then 1 else 0) ∧
    ((exec (start c mgr) as).closes = 1 → (exec (start c mgr) as).manager ≠ .running) := by
  have key : ∀ (as : List Act) (s : Sys), Tally s.loop s.closes → (s.closes = 1 → s.manager ≠ .running) →
      Tally (exec s as).loop (exec s as).closes ∧ ((exec s as).closes = 1 → (exec s as).manager ≠ .running) := by
    intro as
    induction as with
    | nil => exact fun s h h' => ⟨h, h'⟩
    | cons a t ih =>
      intro s h h'
      by_cases ha : a = .thread
      · subst ha
        have ht := thread_tally s h h'
        have hm : (step s .thread).manager = s.manager := (thread_frame s).2.2.2.1
        exact ih _ ht.1 (fun e => by rw [hm]; exact ht.2 e)
      · have hl := (other_rank s a ha).2
        have hc : (step s a).closes = s.closes := by
          cases a with
          | thread => exact absurd rfl ha
          | look => simp only [step]; split <;> rfl
          | send => simp only [step]; split <;> rfl
          | leave => simp only [step]; split <;> rfl
          | signal => rfl
          | bytes b => rfl
          | hang => rfl
        exact ih _ (by rw [hl, hc]; exact h) (fun e => (step_frame s a).2.2.2.1 (h' (hc ▸ e)))
  obtain ⟨h, h'⟩ := key as (start c mgr) rfl (fun e => by cases e)
  refine ⟨?_, h'⟩
  generalize exec (start c mgr) as = s at h
  generalize s.closes = k at h
  generalize s.loop = l at h
  cases l <;> simpa [Tally] using h

/-! ## The two ways not to end -/

/-- **C173 is false of the code**: the peer sends the first byte of a frame. Until it sends more or hangs up the thread does not look at `close_flag`: whatever happens
otherwise, the websocket does not end, the onclose callback is not called. -/
theorem C173_silent_false : ∃ h : List Act, ∀ as : List Act, (∀ a ∈ as, a ≠ .hang ∧ ∀ b, a ≠ .bytes b) →
    (exec (start {} false) (h ++ .signal :: as)).loop ≠ .done ∧ (exec (start {} false) (h ++ .signal :: as)).closes = 0 := by
  refine ⟨[.bytes [0x81], .thread, .thread, .thread, .thread], ?_⟩
  have key : ∀ (as : List Act) (s : Sys), (∀ a ∈ as, a ≠ .hang ∧ ∀ b, a ≠ .bytes b) →
      (s.loop = .reading ⟨.header, 2, [0x81]⟩ ∧ s.sock = [] ∧ s.hup = false ∧ s.connected = true ∧ s.manager = .absent ∧ s.closes = 0) →
      (exec s as).loop ≠ .done ∧ (exec s as).closes = 0 := by
    intro as
    induction as with
    | nil =>
      rintro s - ⟨h, -, -, -, -, h'⟩
      exact ⟨by rw [exec, h]; simp, h'⟩
    | cons a t ih =>
      rintro s ha ⟨h1, h2, h3, h4, h5, h6⟩
      refine ih _ (fun a' h => ha a' (by simp [h])) ?_
      have h0 := ha a (by simp)
      cases a with
      | thread => simp [step, thread, h1, pass, h2, h3, h4, h5, h6]
      | look => simp [step, h1, h2, h3, h4, h5, h6]
      | send => simp [step, h1, h2, h3, h4, h5, h6]
      | leave => simp [step, h1, h2, h3, h4, h5, h6]
      | signal => exact ⟨h1, h2, h3, h4, h5, h6⟩
      | bytes b => exact absurd rfl (h0.2 b)
      | hang => exact absurd rfl h0.1
  intro as has
  have hexec : ∀ (l : List Act) (s : Sys) (t : List Act), exec s (l ++ t) = exec (exec s l) t := by
    intro l
    induction l with
    | nil => exact fun s t => rfl
    | cons a l ih => exact fun s t => ih _ t
  rw [hexec]
  exact key _ (step (exec (start {} false) [.bytes [0x81], .thread, .thread, .thread, .thread]) .signal) has ⟨rfl, rfl, rfl, rfl, rfl, rfl⟩

/-- **C173 is false of the code**: the peer begins a fragmented message and then sends a whole one. The loop ends, but `connected` stays 1: a manager callback that waits
for the status CLOSE is not told, the thread waits for it, and neither a close signal nor the end of the connection changes that. -/
theorem C173_fragment_false : ∃ h : List Act, ∀ as : List Act, (∀ a ∈ as, a ≠ .leave ∧ a ≠ .send) →
    (exec (start {} true) (h ++ as)).manager = .running ∧ (exec (start {} true) (h ++ as)).connected = true ∧
    (exec (start {} true) (h ++ as)).closes = 0 ∧ (exec (start {} true) (h ++ as)).loop = .join := by
  refine ⟨.bytes [0x01, 0x81, 0, 0, 0, 0, 0x61, 0x81, 0x81, 0, 0, 0, 0, 0x62] :: List.replicate 20 .thread, ?_⟩
  have key : ∀ (as : List Act) (s : Sys), (∀ a ∈ as, a ≠ .leave ∧ a ≠ .send) →
      (s.manager = .running ∧ s.connected = true ∧ s.closes = 0 ∧ s.loop = .join) →
      ((exec s as).manager = .running ∧ (exec s as).connected = true ∧ (exec s as).closes = 0 ∧ (exec s as).loop = .join) := by
    intro as
    induction as with
    | nil => exact fun s _ h => h
    | cons a t ih =>
      rintro s ha ⟨h1, h2, h3, h4⟩
      refine ih _ (fun a' h => ha a' (by simp [h])) ?_
      have h0 := ha a (by simp)
      cases a with
      | thread => simp [step, thread, h1, h2, h3, h4]
      | look => simp [step, h1, h2, h3, h4]
      | send => exact absurd rfl h0.2
      | leave => exact absurd rfl h0.1
      | signal => exact ⟨h1, h2, h3, h4⟩
      | bytes b => exact ⟨h1, h2, h3, h4⟩
      | hang => exact ⟨h1, h2, h3, h4⟩
  intro as has
  have hexec : ∀ (l : List Act) (s : Sys) (t : List Act), exec s (l ++ t) = exec (exec s l) t := by
    intro l
    induction l with
    | nil => exact fun s t => rfl
    | cons a l ih => exact fun s t => ih _ t
  rw [hexec]
  exact key _ _ has (by decide +kernel)

/-! ## Instances -/

/-- Each of the two in turn, after a signal. -/
private def inTurn (n : Nat) : Act := if n = 0 then .signal else if n % 2 = 0 then .thread else .look

example : BothGoOn inTurn ∧ inTurn 0 = .signal := by
  refine ⟨⟨fun n => ⟨2 * n + 2, by omega, ?_⟩, fun n => ⟨2 * n + 1, by omega, ?_⟩⟩, rfl⟩
  · unfold inTurn
    rw [if_neg (by omega), if_pos (by omega)]
  · unfold inTurn
    rw [if_neg (by omega), if_neg (by omega)]

/-- The first case of the theorem: the signal ends a websocket with a manager callback. -/
example : (exec (start {} true) (.signal :: .thread :: .thread :: .look :: List.replicate 4 .thread)).loop = .done := by decide +kernel

/-- A manager callback that returns at once, by itself, ends the websocket. -/
example : (exec (start {} true) [.leave]).manager = .returned ∧ (exec (start {} true) (.leave :: List.replicate 6 .thread)).loop = .done := by decide +kernel

end Verif.Props
