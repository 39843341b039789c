import Verif.Props.Handshake
/-! # Properties of the opening handshake: the client -/
namespace Verif.Props
open Verif.UMap Verif.Handshake Verif.Ws Verif.Spec.Client Verif.Spec.Handshake
open Verif.Spec.Segments (pieces)

/-! ## C54

Full statement: the client reports the connection open only if the answer is `101`, names the websocket upgrade in `Upgrade` and
`Connection`, and carries the `Sec-WebSocket-Accept` derived from the key sent. The code never looks at the accept value, and one of
the marks is enough; `C54_opens_partial` says exactly which answers are taken. -/

private theorem headerLine_any (f g : Bytes → Bool) : headerLine f = headerLine g := by
  funext s l
  unfold headerLine
  rcases hc : Yuarel.cut 0x3a l with ⟨key, ov⟩
  cases ov with
  | none => rfl
  | some value => simp only [accept_never l key value hc, Bool.false_and]

private theorem headerLoop_any (f g : Bytes → Bool) (s : Seen) (evs : List Ev) : headerLoop f s evs = headerLoop g s evs := by
  induction hn : size evs using Nat.strongRecOn generalizing s evs with
  | ind n ih =>
    rcases hl : nextLine [] evs with ⟨ol, r⟩
    cases ol with
    | none => rw [headerLoop_end f s evs r hl, headerLoop_end g s evs r hl]
    | some l =>
      rw [headerLoop_line f s evs r l hl, headerLoop_line g s evs r l hl, headerLine_any f g]
      have := nextLine_size _ _ _ _ hl
      congr 2
      funext s'
      exact ih (size r) (by omega) s' r rfl

/-- C54, negation: the outcome of the client handshake does not depend on which accept values are right; a server sending a wrong
accept, or none, is treated as one that sends the right one. -/
theorem C54_accept_ignored_false (f g : Bytes → Bool) (keys : List Bytes) (es : List CliExt) (status0 : Int) (evs : List Ev) :
    clientHandshake f keys es status0 evs = clientHandshake g keys es status0 evs := by
  unfold clientHandshake
  simp only [headerLoop_any f g]

/-- A status line. -/
def statusText (code : Nat) (reason : Bytes) : Bytes := b!"HTTP/1.1 " ++ Printf.decimal code ++ 0x20 :: reason

/-- The marks one of which the client asks for. -/
def Marked (keys ls : List Bytes) : Prop :=
  ∃ l ∈ ls, sameName l b!"Upgrade: websocket" ∨ sameName l b!"Connection: Upgrade" ∨
    (HasName l b!"Sec-WebSocket-Protocol" ∧ b!"Sec-WebSocket-Protocol" ∈ keys) ∨
    (HasName l b!"Sec-WebSocket-Extensions" ∧ b!"Sec-WebSocket-Extension" ∈ keys)

private theorem not_digit {d : UInt8} (s : Bytes) (h : ∀ c ∈ s, isDigit c = true) (hd : isDigit d = false) : d ∉ s := by
  intro hm; rw [h d hm] at hd; cases hd

theorem statusLine_text (code : Nat) (reason : Bytes) (h : code < 2 ^ 63) : statusLine (statusText code reason) = some (code : Int) := by
  have e : splitString 0x20 (statusText code reason) = b!"HTTP/1.1" :: Printf.decimal code :: pieces 0x20 reason := by
    rw [splitString_eq]
    have : statusText code reason = b!"HTTP/1.1" ++ 0x20 :: (Printf.decimal code ++ 0x20 :: reason) := by
      unfold statusText; rw [List.append_assoc]; rfl
    rw [this, Strtok.pieces_append, Strtok.pieces_append, Strtok.pieces_none _ _ (by decide),
      Strtok.pieces_none _ _ (not_digit _ (Printf.decimal_digit code) (by decide))]
    rfl
  unfold statusLine
  rw [e]
  simp only [beq_self_eq_true, if_true, Option.some.injEq]
  have hd := Printf.decimal_digit code
  have hn := Printf.decimal_ne_nil code
  have hv := Printf.ofDecimal_decimal code
  cases hc : Printf.decimal code with
  | nil => exact absurd hc hn
  | cons c t =>
    rw [hc] at hd hv
    have hc0 := hd c List.mem_cons_self
    have hsp : isSpace c = false ∧ c ≠ 0x2d ∧ c ≠ 0x2b := by
      clear hc hd hv
      revert hc0; revert c; exact forall_byte (by decide +kernel)
    have htw : (c :: t).takeWhile isDigit = c :: t := by
      clear hc hv hc0
      generalize c :: t = s at hd
      induction s with
      | nil => rfl
      | cons x s ih =>
        rw [List.takeWhile_cons, if_pos (hd x List.mem_cons_self), ih (fun y hy => hd y (List.mem_cons_of_mem _ hy))]
    have hsg : Yuarel.sign (c :: t) = (false, c :: t) := by
      unfold Yuarel.sign
      split
      · rename_i h'; injection h' with h1 _; exact absurd h1 hsp.2.1
      · rename_i h'; injection h' with h1 _; exact absurd h1 hsp.2.2
      · rfl
    unfold strtol
    rw [List.dropWhile_cons, hsp.1]
    simp only [Bool.false_eq_true, if_false, hsg, htw, hv]
    rw [if_pos h]

private theorem any_same (ls : List Bytes) (w : Bytes) : ls.any (fun l => eqCase l w) = true ↔ ∃ l ∈ ls, sameName l w := by
  rw [List.any_eq_true]
  constructor
  all_goals
    rintro ⟨l, h1, h2⟩
    refine ⟨l, h1, ?_⟩
    simpa [eqCase, fold, sameName] using h2

private theorem any_named (ls : List Bytes) (w : Bytes) : ls.any (named w) = true ↔ ∃ l ∈ ls, HasName l w := by
  rw [List.any_eq_true]
  constructor
  all_goals
    rintro ⟨l, h1, h2⟩
    exact ⟨l, h1, by simpa [named_iff] using h2⟩

private theorem someBit_iff (f : Bytes → Bool) (keys ls : List Bytes) (broken : Bool) (s : Seen)
    (h : strip s = { ls.foldl (markLine f) (strip {}) with broken := broken }) : someBit keys s = true ↔ Marked keys ls := by
  obtain ⟨h1, h2, h3, h4, h5⟩ := foldl_fields f ls (strip {})
  have g1 : s.upgrade = ls.any isUp := by
    have := congrArg Seen.upgrade h; exact this.trans (h1.trans (Bool.false_or _))
  have g2 : s.connection = ls.any isConn := by
    have := congrArg Seen.connection h; exact this.trans (h2.trans (Bool.false_or _))
  have g3 : s.accept = false := by
    have := congrArg Seen.accept h; exact this.trans h3
  have g4 : s.protocol.isSome = ls.any (named b!"Sec-WebSocket-Protocol") := by
    have := congrArg (fun x => x.protocol.isSome) h; exact this.trans (h4.trans (Bool.false_or _))
  have g5 : s.extensions.isSome = ls.any (named b!"Sec-WebSocket-Extensions") := by
    have := congrArg (fun x => x.extensions.isSome) h; exact this.trans (h5.trans (Bool.false_or _))
  unfold someBit
  rw [g1, g2, g3, g4, g5]
  have e1 : ls.any isUp = true ↔ ∃ l ∈ ls, sameName l b!"Upgrade: websocket" := any_same ls _
  have e2 : ls.any isConn = true ↔ ∃ l ∈ ls, sameName l b!"Connection: Upgrade" := any_same ls _
  simp only [Bool.or_eq_true, Bool.and_eq_true, e1, e2, any_named, Bool.false_eq_true, or_false, List.contains_iff_mem]
  unfold Marked
  constructor
  · rintro (((⟨l, a, b⟩ | ⟨l, a, b⟩) | ⟨⟨l, a, b⟩, c⟩) | ⟨⟨l, a, b⟩, c⟩)
    · exact ⟨l, a, Or.inl b⟩
    · exact ⟨l, a, Or.inr (Or.inl b)⟩
    · exact ⟨l, a, Or.inr (Or.inr (Or.inl ⟨b, c⟩))⟩
    · exact ⟨l, a, Or.inr (Or.inr (Or.inr ⟨b, c⟩))⟩
  · rintro ⟨l, a, (b | b | ⟨b, c⟩ | ⟨b, c⟩)⟩
    · exact .inl (.inl (.inl ⟨l, a, b⟩))
    · exact .inl (.inl (.inr ⟨l, a, b⟩))
    · exact .inl (.inr ⟨⟨l, a, b⟩, c⟩)
    · exact .inr ⟨⟨l, a, b⟩, c⟩

/-- C54, what holds. The answer being a status line with code `code` and header lines `ls`, then the empty line, the handshake never
misbehaves, gives the code of the answer, and succeeds only if the code is 101 and one of the lines bears one of the marks; with no
extension registered it succeeds in every such case. The connection is then open. When the connection ends before the empty line the
result is the same, but the connection is closed.
Missing from C54: the accept value (never looked at, `C54_accept_ignored_false`) and both upgrade lines rather than one mark
(`C54_one_mark_false`). -/
theorem C54_opens_partial (f : Bytes → Bool) (keys : List Bytes) (es : List CliExt) (status0 : Int) (evs : List Ev) (code : Nat)
    (reason : Bytes) (ls : List Bytes) (tail : Bytes) (ended : Bool) (hcode : code < 2 ^ 63) (hst : ReadableLine (statusText code reason))
    (hls : ∀ l ∈ ls, ReadableLine l ∧ l ≠ []) (htail : (∃ rest, tail = b!"\r\n" ++ rest ∧ ended = false) ∨ (tail = [] ∧ ended = true))
    (hev : bytesOf evs = crlf (statusText code reason :: ls) ++ tail) :
    ∃ r, clientHandshake f keys es status0 evs = .ok r ∧ r.status = code ∧
      (r.ok = true → code = 101 ∧ Marked keys ls) ∧
      (es = [] → code = 101 → Marked keys ls → r.ok = true) ∧
      (r.ok = true → (r.isOpen = true ↔ ended = false)) := by
  have hu : ∀ l, ReadableLine l → Utf8.utf8Ok l = true := fun l h => (C05_utf8Ok l).2 h.utf8
  have hafter : After tail ended := by
    rcases htail with ⟨rest, rfl, rfl⟩ | ⟨rfl, rfl⟩
    · exact .blank rest
    · exact .cut
  obtain ⟨r1, e1, e2⟩ := nextLine_readable (statusText code reason) (crlf ls ++ tail) evs (hu _ hst) hst (by rw [hev]; simp [crlf])
  have hsl := statusLine_text code reason hcode
  unfold clientHandshake
  simp only [e1, Option.bind_some, hsl, Option.getD_some, Option.isNone_some, Bool.false_or]
  by_cases h101 : code = 101
  · subst h101
    obtain ⟨s', r', e3, e4⟩ := headerLoop_lines f ls tail ended hafter {} [] r1 rfl good_nil rfl
      (fun l hl => ⟨(hls l hl).1, (hls l hl).2, hu l (hls l hl).1⟩) e2
    have hbit := someBit_iff f keys ls ended s' e4
    have hbr : s'.broken = ended := congrArg Seen.broken e4
    rw [if_pos (show some ((101 : Nat) : Int) = some 101 from rfl), e3]
    simp only [Res.ok_bind, Res.pure_eq]
    cases hb : someBit keys s' with
    | false =>
      refine ⟨_, rfl, rfl, ?_, ?_, ?_⟩
      · intro h; cases h
      · intro _ _ hm; rw [hbit.2 hm] at hb; cases hb
      · intro h; cases h
    | true =>
      rcases hn : cliNegotiate s'.extensions es with ⟨es', rsv, ok⟩
      refine ⟨_, rfl, rfl, ?_, ?_, ?_⟩
      · intro _; exact ⟨trivial, hbit.1 hb⟩
      · rintro rfl _ _
        show ok = true
        unfold cliNegotiate at hn
        split at hn
        · injection hn with _ h; injection h with _ h; exact h.symm
        · rw [if_pos (.inr rfl)] at hn
          injection hn with _ h; injection h with _ h; exact h.symm
      · intro _
        show (!s'.broken) = true ↔ _
        rw [hbr]; cases ended <;> simp
  · have hne : ((code : Int) != 101) = true := by simp; omega
    rw [if_neg (by intro h; injection h with h; exact h101 (by omega))]
    simp only [Res.ok_bind, Res.pure_eq, hne, Bool.or_true, if_true]
    refine ⟨_, rfl, rfl, ?_, ?_, ?_⟩
    · intro h; cases h
    · intro _ h; exact absurd h h101
    · intro h; cases h

/-- An answer that is taken, with what was read. -/
theorem client_open (f : Bytes → Bool) (keys : List Bytes) (es : List CliExt) (status0 : Int) (evs : List Ev)
    (reason : Bytes) (ls : List Bytes) (rest : Bytes) (hst : ReadableLine (statusText 101 reason))
    (hls : ∀ l ∈ ls, ReadableLine l ∧ l ≠ []) (hm : Marked keys ls)
    (hev : bytesOf evs = crlf (statusText 101 reason :: ls) ++ (b!"\r\n" ++ rest)) :
    ∃ s', strip s' = ls.foldl (markLine f) (strip {}) ∧ clientHandshake f keys es status0 evs = .ok
      { ok := (cliNegotiate s'.extensions es).2.2, isOpen := true, status := 101, seen := s',
        exts := (cliNegotiate s'.extensions es).1, rsv := (cliNegotiate s'.extensions es).2.1 } := by
  have hu : ∀ l, ReadableLine l → Utf8.utf8Ok l = true := fun l h => (C05_utf8Ok l).2 h.utf8
  obtain ⟨r1, e1, e2⟩ := nextLine_readable (statusText 101 reason) (crlf ls ++ (b!"\r\n" ++ rest)) evs (hu _ hst) hst
    (by rw [hev]; simp [crlf])
  have hsl := statusLine_text 101 reason (by decide)
  obtain ⟨s', r', e3, e4⟩ := headerLoop_lines f ls (b!"\r\n" ++ rest) false (.blank rest) {} [] r1 rfl good_nil rfl
      (fun l hl => ⟨(hls l hl).1, (hls l hl).2, hu l (hls l hl).1⟩) e2
  have hb := (someBit_iff f keys ls false s' e4).2 hm
  have hbr : s'.broken = false := congrArg Seen.broken e4
  have hfold : (ls.foldl (markLine f) (strip {})).broken = false := by
    have : ∀ (ls : List Bytes) (s : Seen), (ls.foldl (markLine f) s).broken = s.broken := by
      intro ls
      induction ls with
      | nil => intro _; rfl
      | cons l ls ih =>
        intro s
        rw [List.foldl_cons, ih]
        unfold markLine
        split
        · repeat' split
          all_goals rfl
        · rfl
    exact this ls _
  refine ⟨s', ?_, ?_⟩
  · rw [e4]
    generalize ls.foldl (markLine f) (strip {}) = x at hfold
    cases x
    simp only at hfold
    rw [hfold]
  · unfold clientHandshake
    simp only [e1, Option.bind_some, hsl, Option.getD_some, Option.isNone_some, Bool.false_or]
    rw [if_pos (show some ((101 : Nat) : Int) = some 101 from rfl), e3]
    simp only [Res.ok_bind, Res.pure_eq, hb, hbr]
    rfl

private theorem readable (l : Bytes) (h1 : (0x0d : UInt8) ∉ l) (h2 : NoNul l) (h3 : Utf8.utf8Ok l = true) (h4 : l.length ≤ 4094) : ReadableLine l :=
  ⟨h1, h2, (C05_utf8Ok l).1 h3, h4⟩

example : ReadableLine (statusText 101 b!"Switching Protocols") ∧ ReadableLine b!"connection: upgrade" ∧
    Marked [b!"Host"] [b!"Date: today", b!"connection: upgrade"] :=
  ⟨readable _ (by decide +kernel) (by decide +kernel) (by decide +kernel) (by decide +kernel),
    readable _ (by decide) (by decide) (by decide) (by decide),
    _, List.mem_cons_of_mem _ List.mem_cons_self, .inr (.inl (by decide))⟩

/-- C54, negation: an answer with the single header `Upgrade: websocket` — no `Connection`, no accept value — is taken, whatever the
right accept value is, and the connection is left open. -/
theorem C54_one_mark_false : ∀ f : Bytes → Bool, ∃ r, clientHandshake f [] [] 0
    [.seg (crlf [statusText 101 b!"x", b!"Upgrade: websocket"] ++ b!"\r\n")] = .ok r ∧ r.ok = true ∧ r.isOpen = true := by
  intro f
  obtain ⟨r, h1, -, -, h2, h3⟩ := C54_opens_partial f [] [] 0 [.seg (crlf [statusText 101 b!"x", b!"Upgrade: websocket"] ++ b!"\r\n")]
    101 b!"x" [b!"Upgrade: websocket"] b!"\r\n" false (by decide)
    (readable _ (by decide +kernel) (by decide +kernel) (by decide +kernel) (by decide +kernel))
    (by
      intro l hl
      rw [List.mem_singleton] at hl
      subst hl
      exact ⟨readable _ (by decide) (by decide) (by decide) (by decide), by decide⟩)
    (.inl ⟨[], rfl, rfl⟩) (by simp [bytesOf])
  have hok := h2 rfl rfl ⟨_, List.mem_cons_self, .inl (by decide)⟩
  exact ⟨r, h1, hok, (h3 hok).2 rfl⟩

/-- C54, negation: the connection ending before the header is complete is still reported as a success, with the socket closed. -/
theorem C54_truncated_false : ∀ f : Bytes → Bool, ∃ r, clientHandshake f [] [] 0
    [.seg (crlf [statusText 101 b!"x", b!"Upgrade: websocket"])] = .ok r ∧ r.ok = true ∧ r.isOpen = false := by
  intro f
  obtain ⟨r, h1, -, -, h2, h3⟩ := C54_opens_partial f [] [] 0 [.seg (crlf [statusText 101 b!"x", b!"Upgrade: websocket"])]
    101 b!"x" [b!"Upgrade: websocket"] [] true (by decide)
    (readable _ (by decide +kernel) (by decide +kernel) (by decide +kernel) (by decide +kernel))
    (by
      intro l hl
      rw [List.mem_singleton] at hl
      subst hl
      exact ⟨readable _ (by decide) (by decide) (by decide) (by decide), by decide⟩)
    (.inr ⟨rfl, rfl⟩) (by simp [bytesOf])
  have hok := h2 rfl rfl ⟨_, List.mem_cons_self, .inl (by decide)⟩
  refine ⟨r, h1, hok, ?_⟩
  have := h3 hok
  cases hr : r.isOpen with
  | false => rfl
  | true => exact absurd (this.1 hr) (by decide)

/-- C54: an answer whose first line does not begin with `HTTP/1.1` and a blank is never taken, whatever follows. -/
theorem C54_first_line (f : Bytes → Bool) (keys : List Bytes) (es : List CliExt) (status0 : Int) (evs : List Ev) (l rest : Bytes)
    (hl : ReadableLine l) (hev : bytesOf evs = l ++ b!"\r\n" ++ rest) (hn : ¬ ∃ t, l = b!"HTTP/1.1 " ++ t) :
    ∃ r, clientHandshake f keys es status0 evs = .ok r ∧ r.ok = false ∧ r.isOpen = false := by
  obtain ⟨r1, e1, -⟩ := nextLine_readable l rest evs ((C05_utf8Ok l).2 hl.utf8) hl (by rw [hev]; simp)
  have hsl : statusLine l = none := by
    unfold statusLine
    rw [splitString_eq]
    split
    · rename_i p s t hp
      rw [if_neg]
      intro h
      have h := eq_of_beq h
      subst h
      refine hn ?_
      by_cases hd : (0x20 : UInt8) ∈ l
      · obtain ⟨a, b, rfl, ha⟩ := Verif.Client.mem_split 0x20 l hd
        rw [Strtok.pieces_append, Strtok.pieces_none _ a ha] at hp
        simp only [List.singleton_append, List.cons.injEq] at hp
        exact ⟨b, by rw [hp.1]; rfl⟩
      · rw [Strtok.pieces_none _ l hd] at hp
        cases hp
    · rfl
  unfold clientHandshake
  simp only [e1, Option.bind_some, hsl]
  exact ⟨_, rfl, rfl, rfl⟩

/-- Another protocol version, with every mark a server can give. -/
example : ReadableLine b!"HTTP/1.0 101 x" ∧ ¬ ∃ t, b!"HTTP/1.0 101 x" = b!"HTTP/1.1 " ++ t :=
  ⟨readable _ (by decide) (by decide) (by decide) (by decide), by
    rintro ⟨t, h⟩
    exact absurd (congrArg (List.take 8) h) (by rw [List.take_append_of_le_length (by decide)]; decide)⟩

/-- A text that reads as the number 101: white space, a plus sign, leading zeroes, and no further digit behind it. -/
def Says101 (w : Bytes) : Prop :=
  ∃ sp plus zs t, w = sp ++ plus ++ zs ++ b!"101" ++ t ∧ (∀ c ∈ sp, isSpace c = true) ∧ (plus = [] ∨ plus = b!"+") ∧ (∀ c ∈ zs, c = 0x30) ∧
    ∀ c, t.head? = some c → isDigit c = false

private theorem ofDecimal_snoc (s : Bytes) (c : UInt8) : Printf.ofDecimal (s ++ [c]) = 10 * Printf.ofDecimal s + (c.toNat - 0x30) := by
  unfold Printf.ofDecimal
  rw [List.foldl_append]
  rfl

private theorem ofDecimal_zero (s : Bytes) (hd : ∀ c ∈ s, isDigit c = true) (h : Printf.ofDecimal s = 0) : ∀ c ∈ s, c = 0x30 := by
  induction hn : s.length generalizing s with
  | zero =>
    intro c hc
    rw [List.length_eq_zero_iff.1 hn] at hc
    cases hc
  | succ n ih =>
    have hne : s ≠ [] := fun e => by rw [e] at hn; cases hn
    obtain ⟨a, b, rfl⟩ : ∃ a b, s = a ++ [b] := ⟨s.dropLast, s.getLast hne, (List.dropLast_concat_getLast hne).symm⟩
    rw [ofDecimal_snoc] at h
    have hb := hd b (by simp)
    intro c hc
    rcases List.mem_append.1 hc with hc | hc
    · exact ih a (fun x hx => hd x (by simp [hx])) (by omega) (by simpa using hn) c hc
    · rw [List.mem_singleton.1 hc]
      simp only [isDigit, Bool.and_eq_true, decide_eq_true_eq, UInt8.le_iff_toNat_le] at hb
      have h3 : (0x30 : UInt8).toNat = 48 := rfl
      apply UInt8.toNat_inj.1
      omega

private theorem last_digit (s : Bytes) (hd : ∀ c ∈ s, isDigit c = true) (n d : Nat) (hn : 0 < 10 * n + d) (h9 : d ≤ 9) (h : Printf.ofDecimal s = 10 * n + d) :
    ∃ a, s = a ++ [UInt8.ofNat (0x30 + d)] ∧ Printf.ofDecimal a = n := by
  have hne : s ≠ [] := by rintro rfl; exact absurd h (by show (0 : Nat) ≠ _; omega)
  obtain ⟨a, b, rfl⟩ : ∃ a b, s = a ++ [b] := ⟨s.dropLast, s.getLast hne, (List.dropLast_concat_getLast hne).symm⟩
  rw [ofDecimal_snoc] at h
  have hb := hd b (by simp)
  simp only [isDigit, Bool.and_eq_true, decide_eq_true_eq, UInt8.le_iff_toNat_le] at hb
  have h3 : (0x30 : UInt8).toNat = 48 := rfl
  have h4 : (0x39 : UInt8).toNat = 57 := rfl
  refine ⟨a, ?_, by omega⟩
  congr 2
  apply UInt8.toNat_inj.1
  rw [UInt8.toNat_ofNat']
  omega

private theorem says101 (w : Bytes) (h : strtol w = 101) : Says101 w := by
  unfold strtol at h
  have key : ∀ s : Bytes, Printf.ofDecimal (s.takeWhile isDigit) = 101 → ∃ zs t, s = zs ++ b!"101" ++ t ∧ (∀ c ∈ zs, c = 0x30) ∧
      ∀ c, t.head? = some c → isDigit c = false := by
    intro s hs
    have hd : ∀ c ∈ s.takeWhile isDigit, isDigit c = true := fun c hc => by
      have := List.all_takeWhile (p := isDigit) (l := s)
      rw [List.all_eq_true] at this
      exact this c hc
    obtain ⟨a, e1, h1⟩ := last_digit _ hd 10 1 (by omega) (by omega) hs
    have hda : ∀ c ∈ a, isDigit c = true := fun c hc => hd c (by rw [e1]; simp [hc])
    obtain ⟨b, e2, h2⟩ := last_digit a hda 1 0 (by omega) (by omega) h1
    have hdb : ∀ c ∈ b, isDigit c = true := fun c hc => hda c (by rw [e2]; simp [hc])
    obtain ⟨z, e3, h3⟩ := last_digit b hdb 0 1 (by omega) (by omega) h2
    refine ⟨z, s.dropWhile isDigit, ?_, ofDecimal_zero z (fun c hc => hdb c (by rw [e3]; simp [hc])) h3, fun c hc => ?_⟩
    · conv => lhs; rw [← List.takeWhile_append_dropWhile (p := isDigit) (l := s)]
      rw [e1, e2, e3]
      simp
    · have := List.head?_dropWhile_not isDigit s
      rw [hc] at this
      simpa using this
  have hsp : ∀ c ∈ w.takeWhile isSpace, isSpace c = true := fun c hc => by
    have := List.all_takeWhile (p := isSpace) (l := w)
    rw [List.all_eq_true] at this
    exact this c hc
  have hw := List.takeWhile_append_dropWhile (p := isSpace) (l := w)
  cases hs : w.dropWhile isSpace with
  | nil => rw [hs] at h; exact absurd h (by decide)
  | cons c t =>
    rw [hs] at h hw
    rcases hg : Yuarel.sign (c :: t) with ⟨neg, q⟩
    rw [hg] at h
    unfold Yuarel.sign at hg
    cases neg with
    | true =>
      simp only [if_true] at h
      split at h <;> omega
    | false =>
      simp only [Bool.false_eq_true, if_false] at h
      have hq : Printf.ofDecimal (q.takeWhile isDigit) = 101 := by
        split at h <;> omega
      obtain ⟨zs, r, e3, e4, e5⟩ := key q hq
      split at hg
      · cases hg
      · rename_i t' heq
        injection hg with _ e6
        subst e6
        exact ⟨_, b!"+", zs, r, hw.symm.trans (by rw [heq, e3]; simp), hsp, .inr rfl, e4, e5⟩
      · injection hg with _ e6
        exact ⟨_, [], zs, r, hw.symm.trans (by rw [e6, e3]; simp), hsp, .inl rfl, e4, e5⟩

/-- C54: whatever the first line says, the answer is taken only if its second word reads as the number 101. -/
theorem C54_status (f : Bytes → Bool) (keys : List Bytes) (es : List CliExt) (status0 : Int) (evs : List Ev) (l rest : Bytes)
    (hl : ReadableLine l) (hev : bytesOf evs = l ++ b!"\r\n" ++ rest) (r : ClientResult) (h : clientHandshake f keys es status0 evs = .ok r)
    (hr : r.ok = true) : ∃ w t, l = b!"HTTP/1.1 " ++ w ++ t ∧ (0x20 : UInt8) ∉ w ∧ (t = [] ∨ ∃ u, t = b!" " ++ u) ∧ Says101 w := by
  obtain ⟨r1, e1, -⟩ := nextLine_readable l rest evs ((C05_utf8Ok l).2 hl.utf8) hl (by rw [hev]; simp)
  have h101 : statusLine l = some 101 := by
    unfold clientHandshake at h
    simp only [e1, Option.bind_some] at h
    by_cases h0 : statusLine l = some 101
    · exact h0
    · rw [if_neg h0] at h
      cases hs : statusLine l with
      | none =>
        rw [hs] at h
        simp only [Res.ok_bind, Option.isNone_none, Bool.true_or, if_true, Res.pure_eq, Res.ok.injEq] at h
        rw [← h] at hr; cases hr
      | some n =>
        rw [hs] at h h0
        have hn : (n != 101) = true := by
          rw [bne_iff_ne]; exact fun e => h0 (by rw [e])
        simp only [Res.ok_bind, Option.getD_some, hn, Bool.or_true, if_true, Res.pure_eq, Res.ok.injEq] at h
        rw [← h] at hr; cases hr
  unfold statusLine at h101
  rw [splitString_eq] at h101
  split at h101
  · rename_i p s t hp
    split at h101
    · rename_i hv
      have hv := eq_of_beq hv
      subst hv
      have h5 := Option.some.inj h101
      by_cases hd : (0x20 : UInt8) ∈ l
      · obtain ⟨a, b, rfl, ha⟩ := Verif.Client.mem_split 0x20 l hd
        rw [Strtok.pieces_append, Strtok.pieces_none _ a ha] at hp
        simp only [List.singleton_append, List.cons.injEq] at hp
        obtain ⟨rfl, hp⟩ := hp
        by_cases hd2 : (0x20 : UInt8) ∈ b
        · obtain ⟨a2, b2, rfl, ha2⟩ := Verif.Client.mem_split 0x20 b hd2
          rw [Strtok.pieces_append, Strtok.pieces_none _ a2 ha2] at hp
          simp only [List.singleton_append, List.cons.injEq] at hp
          obtain ⟨rfl, hp⟩ := hp
          exact ⟨a2, 0x20 :: b2, by simp, ha2, .inr ⟨b2, rfl⟩, says101 a2 h5⟩
        · rw [Strtok.pieces_none _ b hd2] at hp
          simp only [List.cons.injEq] at hp
          obtain ⟨rfl, hp⟩ := hp
          exact ⟨b, [], by simp, hd2, .inl rfl, says101 b h5⟩
      · rw [Strtok.pieces_none _ l hd] at hp
        cases hp
    · cases h101
  · cases h101

example : Says101 b!"101" ∧ Says101 b!"+00101x" ∧ ¬ Says101 b!"-101" := by
  refine ⟨⟨[], [], [], [], rfl, fun _ h => (by cases h), .inl rfl, fun _ h => (by cases h), fun _ h => (by cases h)⟩,
    ⟨[], b!"+", b!"00", b!"x", rfl, fun _ h => (by cases h), .inr rfl, (by decide), (by decide)⟩, ?_⟩
  rintro ⟨sp, plus, zs, t, h, h1, h2, h3, -⟩
  cases sp with
  | cons c s =>
    have := (List.cons.inj h).1
    exact absurd (h1 c List.mem_cons_self) (by rw [← this]; decide)
  | nil =>
    rcases h2 with rfl | rfl
    · cases zs with
      | nil => exact absurd (List.cons.inj h).1 (by decide)
      | cons c s =>
        have := (List.cons.inj h).1
        exact absurd (h3 c List.mem_cons_self) (by rw [← this]; decide)
    · exact absurd (List.cons.inj h).1 (by decide)

end Verif.Props
