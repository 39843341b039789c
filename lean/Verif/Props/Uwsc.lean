import Verif.Model.Uwsc
/-!
# The program uwsc, properties C142 and C143
-/
namespace Verif.Props
open Verif.Uwsc

/-! ## C142: what is typed is sent -/

/-- A line as `uwsc` can take it: at most 254 bytes, no NUL, not the quit command. -/
structure TypedLine (l : Bytes) : Prop where
  short : l.length ≤ 254
  line : (0x0a : UInt8) ∉ l
  nul : NoNul l
  quit : ¬ b!"!q" <+: l

/-- The message a file given on the command line makes. -/
inductive FileMessage (c : Config) : List Call → Prop where
  | none : c.textFile = none → c.binaryFile = none → FileMessage c []
  | text {d : Bytes} : c.textFile = some (some d) → d ≠ [] → FileMessage c [⟨1, d, 0⟩]
  | binary {d : Bytes} : c.textFile = none → c.binaryFile = some (some d) → d ≠ [] → FileMessage c [⟨2, d, 0⟩]

/-- The text messages for the lines. -/
def textMessages (ls : List Bytes) : List Call := ls.map (fun l => ⟨1, l, 0⟩)

private theorem takeLine_fine (n : Nat) (l r : Bytes) (h : l.length < n) (hl : (0x0a : UInt8) ∉ l) :
    takeLine n (l ++ 0x0a :: r) = (l ++ [0x0a], r) := by
  induction l generalizing n with
  | nil =>
    obtain ⟨m, rfl⟩ : ∃ m, n = m + 1 := ⟨n - 1, by simp only [List.length_nil] at h; omega⟩
    simp [takeLine]
  | cons c l ih =>
    simp only [List.length_cons] at h
    obtain ⟨m, rfl⟩ : ∃ m, n = m + 1 := ⟨n - 1, by omega⟩
    have hc : c ≠ 0x0a := fun e => hl (by simp [e])
    simp only [List.cons_append, takeLine]
    rw [if_neg hc, ih m (by omega) (fun hx => hl (by simp [hx]))]

private theorem cstr_line (l : Bytes) (h : NoNul l) : cstr l = l := by
  unfold cstr
  induction l with
  | nil => rfl
  | cons c l ih =>
    have hc : c ≠ 0 := fun e => h (by simp [e])
    rw [List.takeWhile_cons, if_pos (by simpa using hc), ih (fun hx => h (by simp [hx]))]

private theorem nul_line {l : Bytes} (h : NoNul l) : NoNul (l ++ [0x0a]) := by
  intro hx
  rcases List.mem_append.1 hx with hx | hx
  · exact h hx
  · revert hx; decide

private theorem isQuit_line {l : Bytes} (h : ¬ b!"!q" <+: l) : isQuit (l ++ [0x0a]) = false := by
  unfold isQuit
  rw [← Bool.not_eq_true, List.isPrefixOf_iff_prefix]
  intro hx
  match l, h, hx with
  | [], _, hx => exact absurd hx (by decide)
  | [a], _, hx =>
    have := (List.cons_prefix_cons.1 hx).2
    exact absurd (List.cons_prefix_cons.1 this).1 (by decide)
  | a :: b :: l, h, hx =>
    apply h
    obtain ⟨h1, h2⟩ := List.cons_prefix_cons.1 hx
    obtain ⟨h3, -⟩ := List.cons_prefix_cons.1 h2
    subst h1; subst h3
    exact ⟨l, rfl⟩

/-- One pass for a typed line. -/
private theorem pass_line (status : Nat → Bool) (m : Bytes) (l r : Bytes) (h : TypedLine l) (cs : List Call) (k : Nat) :
    pass status ⟨m, l ++ 0x0a :: r, cs, k, false⟩ = ⟨l ++ [0x0a], r, cs ++ [⟨1, l, 0⟩], k + 1, !status k⟩ := by
  have e : fgets (l ++ 0x0a :: r) = some (l ++ [0x0a], r) := by
    unfold fgets
    rw [if_neg (by simp), takeLine_fine 255 l r (by have := h.short; omega) h.line]
  unfold pass
  simp only [Bool.false_eq_true, if_false, e, cstr_line _ (nul_line h.nul), isQuit_line h.quit, Bool.false_or]
  congr 2
  unfold lineCalls
  rw [if_pos (by simp), isQuit_line h.quit]
  simp

private theorem pass_over (status : Nat → Bool) (st : St) (h : st.over = true) (n : Nat) : (pass status)^[n] st = st := by
  induction n with
  | zero => rfl
  | succ n ih =>
    rw [Function.iterate_succ_apply]
    have : pass status st = st := by unfold pass; rw [if_pos h]
    rw [this, ih]

private theorem files_eq {c : Config} {f : List Call} (hf : FileMessage c f) : files c = f := by
  unfold files
  cases hf with
  | none h1 h2 => rw [h1]; simp only; rw [h2]
  | text h1 h2 => rw [h1]; simp only [fileCalls]; rw [if_pos (List.length_pos_iff.2 h2)]
  | binary h1 h2 h3 => rw [h1]; simp only; rw [h2]; simp only [fileCalls]; rw [if_pos (List.length_pos_iff.2 h3)]

private theorem run_lines (status : Nat → Bool) (ls : List Bytes) (hl : ∀ l ∈ ls, TypedLine l) (r : Bytes) :
    ∀ (m : Bytes) (cs : List Call) (k : Nat), (∀ j, j < ls.length → status (k + j) = true) →
      ∃ m', (pass status)^[ls.length] ⟨m, ls.flatMap (· ++ [0x0a]) ++ r, cs, k, false⟩ =
        ⟨m', r, cs ++ textMessages ls, k + ls.length, false⟩ := by
  induction ls with
  | nil => intro m cs k _; exact ⟨m, by simp [textMessages]⟩
  | cons l t ih =>
    intro m cs k hs
    have h1 := hl l (by simp)
    rw [List.length_cons, Function.iterate_succ_apply, List.flatMap_cons, List.append_assoc, List.append_assoc, List.singleton_append,
      pass_line status m l _ h1 cs k, show status k = true from hs 0 (by simp)]
    obtain ⟨m', h⟩ := ih (fun x hx => hl x (by simp [hx])) (l ++ [0x0a]) (cs ++ [⟨1, l, 0⟩]) (k + 1)
      (fun j hj => by rw [show k + 1 + j = k + (j + 1) by omega]; exact hs (j + 1) (by simp; omega))
    have e : k + 1 + t.length = k + (t.length + 1) := by omega
    refine ⟨m', ?_⟩
    rw [Bool.not_true, h, e]
    simp [textMessages]

/-- **C142, partial.** With a prompt, for lines of at most 254 bytes without NUL that do not begin with "!q": uwsc sends the file of
the command line (not empty) as one message and then the lines, each as one text message, in order; after the line "!q" it closes
the connection and is done, whatever follows; and once the connection has ended it sends nothing after the line just read and is
done. Missing: longer lines, lines with a NUL, lines that begin with "!q", a last line without line end, the end of the input, and frames of the
length asked for, for which the statement is false (`C142_long_false`, `C142_nul_false`, `C142_quit_false`, `C142_last_false`,
`C142_end_false`, `C142_fragment_false`). -/
theorem C142_typed_partial (c : Config) (hc : c.nonInteractive = false) (f : List Call) (hf : FileMessage c f) (ls : List Bytes)
    (hl : ∀ l ∈ ls, TypedLine l) (status : Nat → Bool) :
    ((∀ k, k < ls.length → status k = true) → ∀ more, ∃ n, ∀ j,
      (manager c status (ls.flatMap (· ++ b!"\n") ++ b!"!q\n" ++ more) (n + j)).calls = f ++ textMessages ls ++ [⟨8, [], 0⟩] ∧
      (manager c status (ls.flatMap (· ++ b!"\n") ++ b!"!q\n" ++ more) (n + j)).over = true) ∧
    ((∀ k, k < ls.length → status k = true) →
      ∃ n, (manager c status (ls.flatMap (· ++ b!"\n")) n).calls = f ++ textMessages ls ∧
        (manager c status (ls.flatMap (· ++ b!"\n")) n).stdin = []) ∧
    (∀ k, k < ls.length → (∀ j, j < k → status j = true) → status k = false → ∀ more, ∃ n, ∀ j,
      (manager c status (ls.flatMap (· ++ b!"\n") ++ more) (n + j)).calls = f ++ textMessages (ls.take (k + 1)) ∧
      (manager c status (ls.flatMap (· ++ b!"\n") ++ more) (n + j)).over = true) := by
  have hman : ∀ s n, manager c status s n = (pass status)^[n] { stdin := s, calls := f } := by
    intro s n
    unfold manager
    simp only [hc, Bool.false_eq_true, if_false]
    rw [files_eq hf]
  have hb : b!"\n" = [0x0a] := rfl
  refine ⟨?_, ?_, ?_⟩
  · intro hs more
    obtain ⟨m', h⟩ := run_lines status ls hl (b!"!q\n" ++ more) [] f 0 (fun j hj => by rw [Nat.zero_add]; exact hs j hj)
    have h' : (pass status)^[ls.length] ⟨[], ls.flatMap (· ++ [0x0a]) ++ (b!"!q\n" ++ more), f, 0, false⟩ =
        ⟨m', b!"!q\n" ++ more, f ++ textMessages ls, 0 + ls.length, false⟩ := by
      exact h
    have hq : pass status ⟨m', b!"!q\n" ++ more, f ++ textMessages ls, 0 + ls.length, false⟩ =
        ⟨b!"!q\n", more, f ++ textMessages ls ++ [⟨8, [], 0⟩], 0 + ls.length + 1, true⟩ := by
      have e : fgets (b!"!q\n" ++ more) = some (b!"!q\n", more) := by
        unfold fgets
        rw [if_neg (by simp)]
        rfl
      unfold pass
      simp only [Bool.false_eq_true, if_false, e]
      rfl
    refine ⟨ls.length + 1, fun j => ?_⟩
    have key : manager c status (ls.flatMap (· ++ b!"\n") ++ b!"!q\n" ++ more) (ls.length + 1 + j) =
        ⟨b!"!q\n", more, f ++ textMessages ls ++ [⟨8, [], 0⟩], 0 + ls.length + 1, true⟩ := by
      rw [hman, hb, List.append_assoc, Nat.add_comm _ j, Function.iterate_add_apply, Nat.add_comm ls.length 1,
        Function.iterate_add_apply, h', Function.iterate_one, hq, pass_over _ _ rfl]
    rw [key]
    exact ⟨rfl, rfl⟩
  · intro hs
    obtain ⟨m', h⟩ := run_lines status ls hl [] [] f 0 (fun j hj => by rw [Nat.zero_add]; exact hs j hj)
    refine ⟨ls.length, ?_⟩
    rw [hman, hb]
    rw [List.append_nil] at h
    rw [h]
    exact ⟨rfl, rfl⟩
  · intro k hk hs hstop more
    obtain ⟨pre, l, post, rfl, rfl⟩ : ∃ pre l post, ls = pre ++ l :: post ∧ pre.length = k :=
      ⟨ls.take k, ls[k], ls.drop (k + 1), by simp, by rw [List.length_take]; omega⟩
    have hsplit : (pre ++ l :: post).flatMap (· ++ [0x0a]) ++ more =
        pre.flatMap (· ++ [0x0a]) ++ (l ++ 0x0a :: (post.flatMap (· ++ [0x0a]) ++ more)) := by
      simp
    have htake : (pre ++ l :: post).take (pre.length + 1) = pre ++ [l] := by
      rw [List.take_length_add_append]; rfl
    obtain ⟨m', h⟩ := run_lines status pre (fun x hx => hl x (by simp [hx]))
      (l ++ 0x0a :: (post.flatMap (· ++ [0x0a]) ++ more)) [] f 0
      (fun j hj => by rw [Nat.zero_add]; exact hs j hj)
    refine ⟨1 + pre.length, fun j => ?_⟩
    have key : manager c status ((pre ++ l :: post).flatMap (· ++ b!"\n") ++ more) (1 + pre.length + j) =
        ⟨l ++ [0x0a], post.flatMap (· ++ [0x0a]) ++ more, f ++ textMessages pre ++ [⟨1, l, 0⟩], 0 + pre.length + 1, true⟩ := by
      rw [hman, hb, hsplit, Nat.add_comm _ j, Function.iterate_add_apply, Function.iterate_add_apply, h,
        Function.iterate_one, pass_line _ _ _ _ (hl l (by simp)), Nat.zero_add, hstop, pass_over _ _ rfl]
      rfl
    rw [key, htake]
    exact ⟨by simp [textMessages], rfl⟩

/-- a file, two lines and the command, followed by a line that is not read -/
example : FileMessage { binaryFile := some (some b!"x") } [⟨2, b!"x", 0⟩] ∧ (∀ l ∈ [b!"hello", []], TypedLine l) ∧
    (manager { binaryFile := some (some b!"x") } (fun _ => true) b!"hello\n\n!q\nmore\n" 7).calls =
      [⟨2, b!"x", 0⟩, ⟨1, b!"hello", 0⟩, ⟨1, [], 0⟩, ⟨8, [], 0⟩] :=
  ⟨.binary rfl rfl (by decide), by
    intro l hl
    simp only [List.mem_cons, List.not_mem_nil, or_false] at hl
    rcases hl with rfl | rfl <;> exact ⟨by decide, by decide, by decide, by decide⟩, by decide +kernel⟩

private theorem takeLine_long (n : Nat) (l r : Bytes) (h : l.length = n) (hl : (0x0a : UInt8) ∉ l) : takeLine n (l ++ r) = (l, r) := by
  induction l generalizing n with
  | nil => subst h; simp [takeLine]
  | cons c l ih =>
    subst h
    have hc : c ≠ 0x0a := fun e => hl (by simp [e])
    simp only [List.length_cons, List.cons_append, takeLine]
    rw [if_neg hc, ih l.length rfl (fun hx => hl (by simp [hx]))]

/-- **C142** is false of lines of more than 254 bytes, whatever they are: the first message holds the first 254 bytes only, the
next byte is in no message, and what follows it is read as another line. (The prompt promises 256 characters.) -/
theorem C142_long_false (l r : Bytes) (h : l.length = 255) (hl : (0x0a : UInt8) ∉ l) (hn : NoNul l) (hq : ¬ b!"!q" <+: l)
    (status : Nat → Bool) :
    (manager {} status (l ++ r) 1).calls = [⟨1, l.take 254, 0⟩] ∧ (manager {} status (l ++ r) 1).stdin = r := by
  have hq' : isQuit l = false := by
    unfold isQuit
    rw [← Bool.not_eq_true, List.isPrefixOf_iff_prefix]; exact hq
  have e : fgets (l ++ r) = some (l, r) := by
    unfold fgets
    rw [if_neg, takeLine_long 255 l r h hl]
    intro e
    rw [(List.append_eq_nil_iff.1 e).1] at h
    cases h
  have hc : lineCalls l = [⟨1, l.take 254, 0⟩] := by
    unfold lineCalls
    rw [if_pos (by omega), if_neg (by rw [hq']; decide), h]
  unfold manager
  simp only [Bool.false_eq_true, if_false, Function.iterate_one, pass, e, cstr_line l hn, hc]
  exact ⟨rfl, trivial⟩

example : ∃ l : Bytes, l.length = 255 ∧ (0x0a : UInt8) ∉ l ∧ NoNul l ∧ ¬ b!"!q" <+: l :=
  ⟨List.replicate 255 0x61, List.length_replicate, fun h => absurd (List.eq_of_mem_replicate h) (by decide),
    fun h => absurd (List.eq_of_mem_replicate h) (by decide), fun h => absurd (List.cons_prefix_cons.1 h).1 (by decide)⟩

/-- **C142** is false of a last line without line end: its last byte is not sent. -/
theorem C142_last_false : (manager {} (fun _ => true) b!"yes" 1).calls = [⟨1, b!"ye", 0⟩] ∧
    (manager {} (fun _ => true) b!"yes" 1).stdin = [] := by decide +kernel

/-- **C142** is false of lines that begin with the command: they are not sent, the connection is closed. -/
theorem C142_quit_false : (manager {} (fun _ => true) b!"!quote\nmore\n" 1).calls = [⟨8, [], 0⟩] ∧
    (manager {} (fun _ => true) b!"!quote\nmore\n" 1).over = true := by decide +kernel

/-- **C142** is false of a NUL: the byte in front of it and all that follows in the line are lost. -/
theorem C142_nul_false : (manager {} (fun _ => true) [0x61, 0x62, 0, 0x63, 0x0a] 1).calls = [⟨1, b!"a", 0⟩] ∧
    (manager {} (fun _ => true) [0x61, 0x62, 0, 0x63, 0x0a] 1).stdin = [] := by decide +kernel

/-- **C142** is false of the end of the input: the loop goes on for as long as the connection is open, doing nothing. -/
theorem C142_end_false (n : Nat) : (manager {} (fun _ => true) [] n).over = false ∧ (manager {} (fun _ => true) [] n).calls = [] := by
  have h : ∀ n k, (pass (fun _ => true))^[n] ⟨[], [], [], k, false⟩ = ⟨[], [], [], k + n, false⟩ := by
    intro n
    induction n with
    | zero => intro k; rfl
    | succ n ih =>
      intro k
      rw [Function.iterate_succ_apply, show pass (fun _ => true) ⟨[], [], [], k, false⟩ = ⟨[], [], [], k + 1, false⟩ from rfl, ih,
        show k + 1 + n = k + (n + 1) by omega]
  have : manager {} (fun _ => true) [] n = ⟨[], [], [], 0 + n, false⟩ := h n 0
  rw [this]
  exact ⟨rfl, rfl⟩

/-- **C142** is false of the option for fragments: nothing depends on it, every message is sent in one frame. -/
theorem C142_fragment_false (c : Config) (f : Nat) (status : Nat → Bool) (s : Bytes) (n : Nat) :
    manager { c with fragmentation := f } status s n = manager c status s n := rfl

/-! ## C143: what arrives is shown -/

/-- What is shown of a text message: the text, after two backspaces, in the way of the mode. -/
def shownText (c : Config) (d : Bytes) : Bytes :=
  if c.quiet = false ∧ c.nonInteractive = false then b!"\x08\x08Server message: '" ++ d ++ b!"'\n> " else b!"\x08\x08" ++ d ++ b!"\n"

/-- **C143, partial.** A text message without NUL, shorter than 2 GiB, is shown whole; of a binary message the length is shown; with
the option `-l` nothing is. Missing: longer messages (`C143_huge_false`) and messages with a NUL (`C143_nul_false`). -/
theorem C143_shown_partial (c : Config) (d : Bytes) :
    (c.nonListening = true → ∀ op, incoming c op d = .ok []) ∧
    (c.nonListening = false → NoNul d → d.length < 2 ^ 31 → incoming c 1 d = .ok (shownText c d)) ∧
    (c.nonListening = false → ∃ x t y, incoming c 2 d = .ok (x ++ t ++ y) ∧ Printf.ofDecimal t = d.length ∧
      ∀ ch ∈ t, isDigit ch = true) := by
  refine ⟨fun h op => by unfold incoming; rw [if_pos h], fun h hn hl => ?_, fun h => ?_⟩
  · have ha : Printf.asInt d.length = (d.length : Int) := by
      unfold Printf.asInt
      rw [Nat.mod_eq_of_lt (by omega), if_pos hl]
    have e : precData d = .ok d := by
      unfold precData
      rw [ha, if_neg (by omega), Int.toNat_natCast]
      unfold Printf.precStr
      rw [List.take_length]
      exact congrArg Res.ok (cstr_line d hn)
    unfold incoming shownText
    simp only [h, Bool.false_eq_true, if_false, if_true, e, Res.ok_bind]
    cases c.quiet <;> cases c.nonInteractive <;> rfl
  · obtain ⟨h1, h2, -⟩ := Printf.digits_spec d.length d.length (Or.inl (Nat.le_refl _))
    refine ⟨b!"\x08\x08Server sent binary message, length ", Printf.decimal d.length,
      if c.quiet = false ∧ c.nonInteractive = false then b!"\n> " else b!"\n", ?_, h1, h2⟩
    unfold incoming
    simp only [h, Bool.false_eq_true, if_false]
    cases c.quiet <;> cases c.nonInteractive <;> rfl

example : NoNul b!"hi" ∧ incoming {} 1 b!"hi" = .ok b!"\x08\x08Server message: 'hi'\n> " ∧
    incoming { quiet := true } 2 b!"hi" = .ok b!"\x08\x08Server sent binary message, length 2\n" := by decide +kernel

/-- **C143** is false of text messages of 2 GiB to 4 GiB without NUL: the length is taken as a negative number, and the program reads
behind the message. -/
theorem C143_huge_false (c : Config) (hc : c.nonListening = false) (d : Bytes) (hn : NoNul d) (h1 : 2 ^ 31 ≤ d.length)
    (h2 : d.length < 2 ^ 32) : incoming c 1 d = .ub := by
  have ha : Printf.asInt d.length < 0 := by
    unfold Printf.asInt
    rw [Nat.mod_eq_of_lt h2, if_neg (by omega)]
    omega
  unfold incoming precData
  rw [if_neg (by rw [hc]; decide), if_pos rfl, if_pos ha, if_neg hn]
  rfl

example : ∃ d : Bytes, NoNul d ∧ 2 ^ 31 ≤ d.length ∧ d.length < 2 ^ 32 :=
  ⟨List.replicate (2 ^ 31) 1, fun h => absurd (List.eq_of_mem_replicate h) (by decide), by rw [List.length_replicate]; omega,
    by rw [List.length_replicate]; omega⟩

/-- **C143** is false of a NUL in a text message (which is valid UTF-8): what follows it is not shown. -/
theorem C143_nul_false : incoming { quiet := true } 1 [0x61, 0, 0x62] = .ok b!"\x08\x08a\n" := by decide +kernel

end Verif.Props
