import Verif.Lemmas.Deflate
/-! # Properties of the negotiation of permessage-deflate -/
namespace Verif.Props
open Verif.Deflate Verif.Handshake Verif.Strtok Verif.Printf
open Verif.Client (snoc_ind trimSpace_eq trimRight)
open Verif.Spec.Client Verif.Spec.Segments Verif.Spec.Deflate

private theorem offers_iff (tail p : Bytes) : Offers (b!"permessage-deflate" ++ tail) p ↔ p ∈ (pieces 0x3b tail).map trimSpace := by
  rw [List.mem_map]
  constructor
  · rintro ⟨t, q, a, b, h1, h2, h3, h4, h5, h6⟩
    rw [List.append_cancel_left_eq] at h1
    subst h1
    exact ⟨q, h2, by rw [h3]; exact trimSpace_eq a p b h4 h5 h6⟩
  · rintro ⟨q, h1, rfl⟩
    obtain ⟨a, b, h2, h3, h4, h5⟩ := trimSpace_parts q
    exact ⟨tail, q, a, b, rfl, h1, h2, h3, h4, h5⟩

private theorem isFirst_iff (item : Bytes) (list : List Bytes) (hp : extName <+: item) : isFirst item list = true ↔ FirstOffer item list := by
  unfold isFirst FirstOffer
  induction list with
  | nil => simp
  | cons x t ih =>
    rw [List.find?_cons]
    by_cases hx : extName <+: x
    · rw [List.isPrefixOf_iff_prefix.2 hx]
      simp only [beq_iff_eq]
      constructor
      · rintro rfl; exact ⟨[], t, rfl, by simp⟩
      · rintro ⟨a, b, h1, h2⟩
        cases a with
        | nil => injection h1
        | cons y a => injection h1 with h1 h3; subst h1; exact absurd hx (h2 x List.mem_cons_self)
    · have : extName.isPrefixOf x = false := by
        rw [← Bool.not_eq_true, List.isPrefixOf_iff_prefix]; exact hx
      rw [this]
      simp only
      rw [ih]
      constructor
      · rintro ⟨a, b, rfl, h2⟩
        refine ⟨x :: a, b, rfl, ?_⟩
        intro y hy
        rcases List.mem_cons.1 hy with rfl | hy
        · exact hx
        · exact h2 y hy
      · rintro ⟨a, b, h1, h2⟩
        cases a with
        | nil => injection h1 with h1 h3; subst h1; exact absurd hp hx
        | cons y a =>
          injection h1 with h1 h3
          exact ⟨a, b, h3, fun z hz => h2 z (List.mem_cons_of_mem _ hz)⟩

/-! ## C61

Full statement: when the server callback accepts an offer the windows are in 8..15 and the answer holds only parameters the client
may expect, i.e. the parameters offered, a window no larger than the one offered. The last part fails for 8
(`C61_window8_false`), and misspelt parameters are accepted (`C61_misspelt_false`). -/

/-- C61, what holds. An offer is accepted only if it is the first of its kind; the windows used are in 9..15 and zlib took them. The
answer is the extension name and parameters, each at most once: `server_no_context_takeover` and `client_no_context_takeover` exactly
when offered, the window sizes used exactly when a parameter with that name was offered. A window offered once as `…=n` is used as
`max 9 n`; one not offered is 15. The flush modes follow the no-context-takeover parameters. -/
theorem C61_match_partial (init : Nat → Nat → Bool) (item : Bytes) (list : List Bytes) (ctx : Ctx) (ans : Bytes)
    (h : serverMatch init item list = some (ctx, ans)) :
    FirstOffer item list ∧ b!"permessage-deflate" <+: item ∧
    (9 ≤ ctx.serverBits ∧ ctx.serverBits ≤ 15) ∧ (9 ≤ ctx.clientBits ∧ ctx.clientBits ≤ 15) ∧ init ctx.serverBits ctx.clientBits = true ∧
    (∃ ps, ans = text ps ∧ ps.Nodup ∧ ∀ q, q ∈ ps ↔
      (q = b!"server_no_context_takeover" ∧ Offers item q) ∨ (q = b!"client_no_context_takeover" ∧ Offers item q) ∨
      (q = b!"server_max_window_bits=" ++ decimal ctx.serverBits ∧ ∃ p, Offers item p ∧ b!"server_max_window_bits" <+: p) ∨
      (q = b!"client_max_window_bits=" ++ decimal ctx.clientBits ∧ ∃ p, Offers item p ∧ b!"client_max_window_bits" <+: p)) ∧
    (∀ n, n < 2 ^ 63 → Offers item (b!"server_max_window_bits=" ++ decimal n) →
      (∀ p, Offers item p → b!"server_max_window_bits" <+: p → p = b!"server_max_window_bits=" ++ decimal n) → ctx.serverBits = max 9 n) ∧
    (∀ n, n < 2 ^ 63 → Offers item (b!"client_max_window_bits=" ++ decimal n) →
      (∀ p, Offers item p → b!"client_max_window_bits" <+: p → p = b!"client_max_window_bits=" ++ decimal n) → ctx.clientBits = max 9 n) ∧
    ((∀ p, Offers item p → ¬ b!"server_max_window_bits" <+: p) → ctx.serverBits = 15) ∧
    ((∀ p, Offers item p → ¬ b!"client_max_window_bits" <+: p) → ctx.clientBits = 15) ∧
    (ctx.serverNoTakeover = true ↔ Offers item b!"server_no_context_takeover") ∧
    (ctx.clientNoTakeover = true ↔ Offers item b!"client_no_context_takeover") ∧
    (ctx.deflateMask = .full ↔ ctx.serverNoTakeover = true) ∧ (ctx.inflateMask = .full ↔ ctx.clientNoTakeover = true) := by
  unfold serverMatch at h
  split at h
  case isFalse => cases h
  rename_i hp
  rw [Bool.and_eq_true, List.isPrefixOf_iff_prefix] at hp
  have hf := (isFirst_iff item list hp.1).1 hp.2
  obtain ⟨tail, rfl⟩ := hp.1
  simp only [List.drop_left] at h
  split at h
  case isFalse => cases h
  rename_i hok
  rw [Bool.and_eq_true] at hok
  injection h with h
  injection h with hc ha
  rw [params_eq] at hok hc ha
  have off : ∀ p, Offers (extName ++ tail) p ↔ p ∈ (pieces 0x3b tail).map trimSpace := offers_iff tail
  have hr := run_spec true ((pieces 0x3b tail).map trimSpace)
  have hm := masks_spec true ((pieces 0x3b tail).map trimSpace)
  generalize (pieces 0x3b tail).map trimSpace = ps at *
  generalize List.foldl (param true) {} ps = s at *
  subst hc ha
  simp only [off]
  have esb : s.serverChanged = true ↔ ∃ p, p ∈ ps ∧ b!"server_max_window_bits" <+: p := by
    rcases hr.sb with ⟨b1, b2, b3⟩ | ⟨b1, b2, a, q, b, b3, b4, b5, b6⟩
    · rw [b1]; simp only [Bool.false_eq_true, false_iff]; rintro ⟨p, h1, h2⟩; exact b3 hok.1 p h1 h2
    · rw [b1]; simp only [true_iff]; exact ⟨q, by rw [b3]; simp, b4⟩
  have ecb : s.clientChanged = true ↔ ∃ p, p ∈ ps ∧ b!"client_max_window_bits" <+: p := by
    rcases hr.cb with ⟨b1, b2, b3⟩ | ⟨b1, b2, a, q, b, b3, b4, b5, b6⟩
    · rw [b1]; simp only [Bool.false_eq_true, false_iff]; rintro ⟨p, h1, h2⟩; exact b3 hok.1 p h1 h2
    · rw [b1]; simp only [true_iff]; exact ⟨q, by rw [b3]; simp, b4⟩
  refine ⟨hf, hp.1, ?_, ?_, hok.2, ?_, ?_, ?_, ?_, ?_, hr.snt, hr.cnt, ?_, ?_⟩
  · rcases hr.sb with ⟨b1, b2, b3⟩ | ⟨b1, b2, _⟩
    · rw [b2]; decide
    · exact b2
  · rcases hr.cb with ⟨b1, b2, b3⟩ | ⟨b1, b2, _⟩
    · rw [b2]; decide
    · exact b2
  · refine ⟨(if s.ctx.serverNoTakeover then [b!"server_no_context_takeover"] else []) ++
      (if s.ctx.clientNoTakeover then [b!"client_no_context_takeover"] else []) ++
      (if s.serverChanged then [b!"server_max_window_bits=" ++ decimal s.ctx.serverBits] else []) ++
      (if s.clientChanged then [b!"client_max_window_bits=" ++ decimal s.ctx.clientBits] else []), ?_, ?_, ?_⟩
    · unfold answer text
      cases s.ctx.serverNoTakeover <;> cases s.ctx.clientNoTakeover <;> cases s.serverChanged <;> cases s.clientChanged <;>
        simp [extName]
    · cases s.ctx.serverNoTakeover <;> cases s.ctx.clientNoTakeover <;> cases s.serverChanged <;> cases s.clientChanged <;>
        simp
    · intro q
      simp only [List.mem_append]
      rw [← esb, ← ecb]
      constructor
      · rintro (((h | h) | h) | h)
        · split at h
          · rename_i hh; rw [List.mem_singleton] at h; subst h; exact .inl ⟨rfl, hr.snt.1 hh⟩
          · cases h
        · split at h
          · rename_i hh; rw [List.mem_singleton] at h; subst h; exact .inr (.inl ⟨rfl, hr.cnt.1 hh⟩)
          · cases h
        · split at h
          · rename_i hh; rw [List.mem_singleton] at h; subst h; exact .inr (.inr (.inl ⟨rfl, hh⟩))
          · cases h
        · split at h
          · rename_i hh; rw [List.mem_singleton] at h; subst h; exact .inr (.inr (.inr ⟨rfl, hh⟩))
          · cases h
      · rintro (⟨rfl, h⟩ | ⟨rfl, h⟩ | ⟨rfl, h⟩ | ⟨rfl, h⟩)
        · rw [if_pos (hr.snt.2 h)]; exact .inl (.inl (.inl List.mem_cons_self))
        · rw [if_pos (hr.cnt.2 h)]; exact .inl (.inl (.inr List.mem_cons_self))
        · rw [if_pos h]; exact .inl (.inr List.mem_cons_self)
        · rw [if_pos h]; exact .inr List.mem_cons_self
  · intro n hn h1 h2
    rcases hr.sb with ⟨b1, b2, b3⟩ | ⟨b1, b2, a, q, b, b3, b4, b5, b6⟩
    · exact absurd (List.prefix_append b!"server_max_window_bits" (0x3d :: decimal n)) (b3 hok.1 _ h1)
    · exact b6 n hn (h2 q (by rw [b3]; simp) b4)
  · intro n hn h1 h2
    rcases hr.cb with ⟨b1, b2, b3⟩ | ⟨b1, b2, a, q, b, b3, b4, b5, b6⟩
    · exact absurd (List.prefix_append b!"client_max_window_bits" (0x3d :: decimal n)) (b3 hok.1 _ h1)
    · exact b6 n hn (h2 q (by rw [b3]; simp) b4)
  · intro h1
    rcases hr.sb with ⟨b1, b2, b3⟩ | ⟨b1, b2, a, q, b, b3, b4, b5, b6⟩
    · exact b2
    · exact absurd b4 (h1 q (by rw [b3]; simp))
  · intro h1
    rcases hr.cb with ⟨b1, b2, b3⟩ | ⟨b1, b2, a, q, b, b3, b4, b5, b6⟩
    · exact b2
    · exact absurd b4 (h1 q (by rw [b3]; simp))
  · exact hm.1
  · exact hm.2

/-- C61, what is accepted: the first offer of the list, every parameter as the RFC writes it, whenever zlib takes the windows. -/
theorem C61_accepts (init : Nat → Nat → Bool) (item : Bytes) (list : List Bytes) (hf : FirstOffer item list)
    (hp : b!"permessage-deflate" <+: item) (hw : ∀ p, Offers item p → WellFormed p)
    (hi : ∀ a b, 9 ≤ a → a ≤ 15 → 9 ≤ b → b ≤ 15 → init a b = true) : (serverMatch init item list).isSome = true := by
  obtain ⟨tail, rfl⟩ := hp
  unfold serverMatch
  have h1 : extName.isPrefixOf (b!"permessage-deflate" ++ tail) = true := List.isPrefixOf_iff_prefix.2 ⟨tail, rfl⟩
  have h2 : isFirst (b!"permessage-deflate" ++ tail) list = true := (isFirst_iff _ list ⟨tail, rfl⟩).2 hf
  rw [h1, h2]
  have hd : List.drop extName.length (b!"permessage-deflate" ++ tail) = tail := List.drop_left
  simp only [Bool.and_self, if_true, hd]
  rw [params_eq]
  have hr := run_spec true ((pieces 0x3b tail).map trimSpace)
  have hok := ok_wellFormed true ((pieces 0x3b tail).map trimSpace) {} (fun p hq => hw p ((offers_iff tail p).2 hq))
  generalize List.foldl (param true) {} ((pieces 0x3b tail).map trimSpace) = s at *
  have e1 : 9 ≤ s.ctx.serverBits ∧ s.ctx.serverBits ≤ 15 := by
    rcases hr.sb with ⟨_, b2, _⟩ | ⟨_, b2, _⟩
    · rw [b2]; decide
    · exact b2
  have e2 : 9 ≤ s.ctx.clientBits ∧ s.ctx.clientBits ≤ 15 := by
    rcases hr.cb with ⟨_, b2, _⟩ | ⟨_, b2, _⟩
    · rw [b2]; decide
    · exact b2
  rw [hok, hi _ _ e1.1 e1.2 e2.1 e2.2]
  rfl

private theorem serverMatch_eq (init : Nat → Nat → Bool) (item : Bytes) (list : List Bytes) : serverMatch init item list =
    if extName.isPrefixOf item && isFirst item list then
      let s := ((pieces 0x3b (item.drop extName.length)).map trimSpace).foldl (param true) {}
      if s.ok && init s.ctx.serverBits s.ctx.clientBits then some (s.ctx, answer s) else none
    else none := by
  unfold serverMatch
  rw [params_eq]

private theorem serverMatch_of (init : Nat → Nat → Bool) (item : Bytes) (list ps : List Bytes) (s : St) (h1 : extName.isPrefixOf item = true)
    (h2 : isFirst item list = true) (h3 : (pieces 0x3b (item.drop extName.length)).map trimSpace = ps) (h4 : ps.foldl (param true) {} = s)
    (h5 : s.ok = true) (h6 : init s.ctx.serverBits s.ctx.clientBits = true) : serverMatch init item list = some (s.ctx, answer s) := by
  rw [serverMatch_eq, h1, h2]
  simp only [Bool.and_self, if_true]
  subst h3 h4
  rw [h5, h6]
  rfl

/-- the loop on one parameter of a window, without `split_string` -/
private theorem param_server (s : St) (name v : Bytes) (h1 : b!"server_max_window_bits" <+: name) (h2 : (0x3d : UInt8) ∉ name)
    (h3 : (0x3d : UInt8) ∉ v) (n : Nat) (hb : bits (strtol v) = some n) :
    param true s (name ++ 0x3d :: v) = { s with ctx := { s.ctx with serverBits := n }, serverChanged := true } := by
  have hs : splitString 0x3d (name ++ 0x3d :: v) = [name, v] := by
    rw [splitString_eq, pieces_append, pieces_none _ _ h2, pieces_none _ _ h3]; rfl
  obtain ⟨t, rfl⟩ := h1
  unfold param
  rw [if_neg (by intro h; have := congrArg (fun l => List.drop 7 l) h; simp at this),
    if_neg (by intro h; have := congrArg List.head? h; simp at this),
    if_pos (by rw [List.append_assoc]; exact List.prefix_append _ _), hs]
  simp only [hb]

/-- C61, negation: a client that limits the window to 8 bits is answered, and sent data compressed, with 9. -/
theorem C61_window8_false : ∃ ctx ans, serverMatch (fun _ _ => true) b!"permessage-deflate; server_max_window_bits=8"
    [b!"permessage-deflate; server_max_window_bits=8"] = some (ctx, ans) ∧
    Offers b!"permessage-deflate; server_max_window_bits=8" b!"server_max_window_bits=8" ∧
    ans = b!"permessage-deflate; server_max_window_bits=9" ∧ ctx.serverBits = 9 := by
  refine ⟨{ serverBits := 9 }, b!"permessage-deflate; server_max_window_bits=9", ?_, ?_, rfl, rfl⟩
  · exact serverMatch_of _ _ _ [[], b!"server_max_window_bits" ++ 0x3d :: b!"8"] { ctx := { serverBits := 9 }, serverChanged := true }
      (by decide +kernel) (by decide +kernel) (by decide +kernel)
      (param_server {} b!"server_max_window_bits" b!"8" (by decide) (by decide) (by decide) 9 (by decide)) rfl rfl
  · exact (offers_iff b!"; server_max_window_bits=8" _).2 (by decide +kernel)

/-- C61, negation: names glued to the extension name, and parameters that only begin like known ones, are accepted. -/
theorem C61_misspelt_false : ∃ ctx ans, serverMatch (fun _ _ => true) b!"permessage-deflateserver_max_window_bits_x=10y"
    [b!"permessage-deflateserver_max_window_bits_x=10y"] = some (ctx, ans) ∧ ctx.serverBits = 10 ∧
    ¬ WellFormed b!"server_max_window_bits_x=10y" := by
  refine ⟨{ serverBits := 10 }, b!"permessage-deflate; server_max_window_bits=10", ?_, rfl, ?_⟩
  · exact serverMatch_of _ _ _ [b!"server_max_window_bits_x" ++ 0x3d :: b!"10y"] { ctx := { serverBits := 10 }, serverChanged := true }
      (by decide +kernel) (by decide +kernel) (by decide +kernel)
      (param_server {} b!"server_max_window_bits_x" b!"10y" (by decide) (by decide) (by decide) 10 (by decide)) rfl rfl
  · intro h
    generalize hx : b!"server_max_window_bits_x=10y" = x at h
    cases h with
    | nothing => cases hx
    | server => revert hx; decide
    | client => revert hx; decide
    | serverBits n hn => have := congrArg (fun l => List.drop 22 l) hx; simp at this
    | clientBits n hn => have := congrArg List.head? hx; simp at this
    | clientAny => revert hx; decide

/-! ## C79 -/

/-- the state the client reaches when it reads an answer -/
private theorem client_reads (s : St) (hsb : s.serverChanged = false → s.ctx.serverBits = 15) (hcb : s.clientChanged = false → s.ctx.clientBits = 15)
    (h1 : 9 ≤ s.ctx.serverBits ∧ s.ctx.serverBits ≤ 15) (h2 : 9 ≤ s.ctx.clientBits ∧ s.ctx.clientBits ≤ 15)
    (hd : s.ctx.deflateMask = .full ↔ s.ctx.serverNoTakeover = true) (hi : s.ctx.inflateMask = .full ↔ s.ctx.clientNoTakeover = true) :
    ∃ tail, answer s = extName ++ tail ∧ (params false tail).ok = true ∧
      (params false tail).ctx = { s.ctx with deflateMask := s.ctx.inflateMask, inflateMask := s.ctx.deflateMask } := by
  obtain ⟨⟨snt, cnt, sb, cb, dm, im⟩, sc, cc, ok⟩ := s
  simp only at hsb hcb h1 h2 hd hi
  have hdm : dm = if snt then .full else .sync := by
    cases snt <;> cases dm <;> simp_all
  have him : im = if cnt then .full else .sync := by
    cases cnt <;> cases im <;> simp_all
  subst hdm him
  let part (c : Bool) (name : Bytes) (n : Nat) : List Bytes := if c then [name ++ 0x3d :: decimal n] else []
  let ps : List Bytes := (if snt then [b!"server_no_context_takeover"] else []) ++ (if cnt then [b!"client_no_context_takeover"] else []) ++
    part sc b!"server_max_window_bits" sb ++ part cc b!"client_max_window_bits" cb
  refine ⟨(ps.map (fun p => b!"; " ++ p)).flatten, ?_, ?_⟩
  · unfold answer
    cases snt <;> cases cnt <;> cases sc <;> cases cc <;> simp [ps, part, extName]
  have hfree : ∀ p ∈ ps, (0x3b : UInt8) ∉ p ∧ trimSpace (0x20 :: p) = p := by
    have hb : ∀ name n, (0x3b : UInt8) ∉ name → (name.head?.map isSpace = some false) → (0x3b : UInt8) ∉ name ++ 0x3d :: decimal n ∧
        trimSpace (0x20 :: (name ++ 0x3d :: decimal n)) = name ++ 0x3d :: decimal n := by
      intro name n hn hh
      constructor
      · simp only [List.mem_append, List.mem_cons, not_or]
        exact ⟨hn, by decide, not_mem_decimal n _ (by decide)⟩
      · have := trimSpace_eq b!" " (name ++ 0x3d :: decimal n) [] (by unfold Blank; decide) (by unfold Blank; decide) ⟨?_, ?_⟩
        · rwa [List.append_nil] at this
        · intro c hc
          cases name with
          | nil => cases hh
          | cons x t => simp only [List.cons_append, List.head?_cons, Option.some.injEq] at hc; subst hc; simpa using hh
        · intro c hc
          have hs : ∀ c : UInt8, isDigit c = true → isSpace c = false := by
            intro c; revert c; exact forall_byte (by decide +kernel)
          rw [List.getLast?_append, List.getLast?_cons, Option.some_or] at hc
          injection hc with hc
          cases hl : (decimal n).getLast? with
          | none => exact absurd (List.getLast?_eq_none_iff.1 hl) (decimal_ne_nil n)
          | some d =>
            rw [hl] at hc
            simp only [Option.getD_some] at hc
            subst hc
            exact hs _ (decimal_digit n _ (List.mem_of_getLast? hl))
    intro p hp
    simp only [ps, part, List.mem_append] at hp
    rcases hp with ((hp | hp) | hp) | hp
    · split at hp
      · rw [List.mem_singleton] at hp; subst hp; decide
      · cases hp
    · split at hp
      · rw [List.mem_singleton] at hp; subst hp; decide
      · cases hp
    · split at hp
      · rw [List.mem_singleton] at hp; subst hp; exact hb _ _ (by decide) (by decide)
      · cases hp
    · split at hp
      · rw [List.mem_singleton] at hp; subst hp; exact hb _ _ (by decide) (by decide)
      · cases hp
  have hpieces : ∀ qs : List Bytes, (∀ p ∈ qs, (0x3b : UInt8) ∉ p ∧ trimSpace (0x20 :: p) = p) →
      (pieces 0x3b (qs.map (fun p => b!"; " ++ p)).flatten).map trimSpace = [] :: qs := by
    intro qs
    induction qs using snoc_ind with
    | nil => intro _; rfl
    | snoc qs q ih =>
      intro hq
      have hl := hq q (by simp)
      have : ((qs ++ [q]).map (fun p => b!"; " ++ p)).flatten = (qs.map (fun p => b!"; " ++ p)).flatten ++ 0x3b :: (0x20 :: q) := by simp
      rw [this, pieces_append, pieces_none _ (0x20 :: q) (by simp only [List.mem_cons, not_or]; exact ⟨by decide, hl.1⟩), List.map_append,
        ih (fun p hp => hq p (by simp [hp]))]
      simp [hl.2]
  rw [params_eq, hpieces ps hfree]
  have hS : ∀ (st : St), param false st (b!"server_max_window_bits" ++ 0x3d :: decimal sb) =
      { st with ctx := { st.ctx with serverBits := sb }, serverChanged := true } := by
    intro st
    unfold param
    rw [if_neg (by intro h; have := congrArg (fun l => List.drop 7 l) h; simp at this),
      if_neg (by intro h; have := congrArg List.head? h; simp at this),
      if_pos (List.prefix_append _ _), split_bits _ (by decide)]
    simp only
    rw [strtol_decimal sb (by omega), bits_nat sb (by omega)]
    simp only [Nat.max_eq_right h1.1]
  have hC : ∀ (st : St), param false st (b!"client_max_window_bits" ++ 0x3d :: decimal cb) =
      { st with ctx := { st.ctx with clientBits := cb }, clientChanged := true } := by
    intro st
    unfold param
    rw [if_neg (by intro h; have := congrArg List.head? h; simp at this),
      if_neg (by intro h; have := congrArg (fun l => List.drop 7 l) h; simp at this),
      if_neg (by rintro ⟨t, h⟩; have := congrArg List.head? h; simp at this),
      if_pos (List.prefix_append _ _), split_bits _ (by decide)]
    simp only [List.getD_cons_succ, List.getD_cons_zero, trim_decimal]
    rw [if_neg (decimal_ne_nil cb), strtol_decimal cb (by omega), bits_nat cb (by omega)]
    simp only [Nat.max_eq_right h2.1]
  have e0 : ∀ st : St, param false st [] = st := fun st => rfl
  have e1 : ∀ st : St, param false st b!"server_no_context_takeover" = { st with ctx := { st.ctx with serverNoTakeover := true, inflateMask := .full } } :=
    fun st => rfl
  have e2 : ∀ st : St, param false st b!"client_no_context_takeover" = { st with ctx := { st.ctx with clientNoTakeover := true, deflateMask := .full } } :=
    fun st => rfl
  clear hpieces hfree hd hi h1 h2
  simp only [ps, part]
  clear ps part
  generalize (b!"server_max_window_bits" ++ 0x3d :: decimal sb) = bs at hS ⊢
  generalize (b!"client_max_window_bits" ++ 0x3d :: decimal cb) = bc at hC ⊢
  cases sc with
  | false =>
    have := hsb rfl; subst this
    cases cc with
    | false =>
      have := hcb rfl; subst this
      cases snt <;> cases cnt <;> simp [e0, e1, e2, defaultBits]
    | true => cases snt <;> cases cnt <;> simp [e0, e1, e2, hC, defaultBits]
  | true =>
    cases cc with
    | false =>
      have := hcb rfl; subst this
      cases snt <;> cases cnt <;> simp [e0, e1, e2, hS, defaultBits]
    | true => cases snt <;> cases cnt <;> simp [e0, e1, e2, hS, hC]

/-- C79. The library's client, reading the answer the library's server gives to any offer, accepts it (when its zlib takes the
windows) and works with the same parameters: the window it compresses with is the one the server decompresses with and the other
way round, and the flush modes correspond. -/
theorem C79_agree (init init' : Nat → Nat → Bool) (item : Bytes) (list : List Bytes) (ctx : Ctx) (ans : Bytes)
    (h : serverMatch init item list = some (ctx, ans)) (hi : init' ctx.clientBits ctx.serverBits = true) :
    ∃ c, clientMatch init' ans = some c ∧ c.serverBits = ctx.serverBits ∧ c.clientBits = ctx.clientBits ∧
      c.serverNoTakeover = ctx.serverNoTakeover ∧ c.clientNoTakeover = ctx.clientNoTakeover ∧
      c.deflateMask = ctx.inflateMask ∧ c.inflateMask = ctx.deflateMask := by
  obtain ⟨-, -, hb1, hb2, -, -, -, -, -, -, -, -, hm1, hm2⟩ := C61_match_partial init item list ctx ans h
  rw [serverMatch_eq] at h
  split at h
  case isFalse => cases h
  simp only at h
  split at h
  case isFalse => cases h
  injection h with h
  injection h with hc ha
  have hr := run_spec true ((pieces 0x3b (item.drop extName.length)).map trimSpace)
  generalize List.foldl (param true) {} ((pieces 0x3b (item.drop extName.length)).map trimSpace) = s at *
  subst hc ha
  obtain ⟨tail, h1, h2, h3⟩ := client_reads s
    (by intro h; rcases hr.sb with ⟨_, b, _⟩ | ⟨a, _⟩
        · exact b
        · rw [h] at a; cases a)
    (by intro h; rcases hr.cb with ⟨_, b, _⟩ | ⟨a, _⟩
        · exact b
        · rw [h] at a; cases a) hb1 hb2 hm1 hm2
  refine ⟨{ s.ctx with deflateMask := s.ctx.inflateMask, inflateMask := s.ctx.deflateMask }, ?_, rfl, rfl, rfl, rfl, rfl, rfl⟩
  unfold clientMatch
  rw [h1, if_pos (List.isPrefixOf_iff_prefix.2 ⟨tail, rfl⟩)]
  simp only [List.drop_left]
  rw [h2, h3]
  simp only [Bool.true_and, hi, if_true]

private def sampleOffer : Bytes := b!"permessage-deflate ; client_no_context_takeover;server_max_window_bits=12"

private theorem sampleOffer_match : serverMatch (fun _ _ => true) sampleOffer [b!"x-other", sampleOffer] =
    some ({ clientNoTakeover := true, serverBits := 12, inflateMask := .full },
      b!"permessage-deflate; client_no_context_takeover; server_max_window_bits=12") :=
  serverMatch_of _ _ _ [[], b!"client_no_context_takeover", b!"server_max_window_bits" ++ 0x3d :: b!"12"]
    { ctx := { clientNoTakeover := true, serverBits := 12, inflateMask := .full }, serverChanged := true }
    (by decide +kernel) (by decide +kernel) (by decide +kernel)
    (param_server { ctx := { clientNoTakeover := true, inflateMask := .full } } b!"server_max_window_bits" b!"12"
      (by decide) (by decide) (by decide) 12 (by decide)) rfl rfl

example : ∃ ctx ans, serverMatch (fun _ _ => true) sampleOffer [b!"x-other", sampleOffer] = some (ctx, ans) ∧
    ctx.serverBits = 12 ∧ ctx.clientBits = 15 ∧ ctx.inflateMask = .full :=
  ⟨_, _, sampleOffer_match, rfl, rfl, rfl⟩

example : FirstOffer sampleOffer [b!"x-other", sampleOffer] ∧ b!"permessage-deflate" <+: sampleOffer ∧
    ∀ p, Offers sampleOffer p → WellFormed p := by
  refine ⟨⟨[b!"x-other"], [], rfl, by decide⟩, by decide, ?_⟩
  intro p hp
  have := (offers_iff b!" ; client_no_context_takeover;server_max_window_bits=12" p).1 hp
  have e : (pieces 0x3b b!" ; client_no_context_takeover;server_max_window_bits=12").map trimSpace =
      [[], b!"client_no_context_takeover", b!"server_max_window_bits=12"] := by decide +kernel
  rw [e] at this
  simp only [List.mem_cons, List.not_mem_nil, or_false] at this
  rcases this with rfl | rfl | rfl
  · exact .nothing
  · exact .client
  · exact .serverBits 12 (by decide)

/-! ## C80

Full statement: with the deflate extension registered, a connection uses it exactly when the client's header offers it with
acceptable parameters, at any place of the list. The comparison with the other items is done on untrimmed text, so an offer after
`", "` is not found (`C80_later_false`). -/

private theorem prefix_trimRight (s : Bytes) : trimRight s <+: s := by
  unfold trimRight
  split
  · exact List.prefix_rfl
  · have h2 := List.takeWhile_append_dropWhile (p := isSpace) (l := s.reverse)
    refine ⟨(s.reverse.takeWhile isSpace).reverse, ?_⟩
    rw [← List.reverse_append, h2, List.reverse_reverse]

private theorem find_none (items : List Bytes) (h : ∀ p ∈ items, ¬ extName <+: p) (item : Bytes) : isFirst item items = false := by
  unfold isFirst
  rw [List.find?_eq_none.2 (fun x hx => by rw [List.isPrefixOf_iff_prefix]; exact h x hx)]

private theorem not_found (init : Nat → Nat → Bool) (xs : List Nat) (n : Nego) (h : ∀ p ∈ n.items, ¬ extName <+: p) (ha : n.answer = none)
    (hr : n.rsv = 0) :
    (srvItems xs [srvExt init] n).1 = [srvExt init] ∧ (srvItems xs [srvExt init] n).2.answer = none ∧ (srvItems xs [srvExt init] n).2.rsv = 0 := by
  induction xs generalizing n with
  | nil => exact ⟨rfl, ha, hr⟩
  | cons x xs ih =>
    have hset : ∀ p ∈ n.items.set x (trimRight (n.items.getD x [])), ¬ extName <+: p := by
      intro p hp hpre
      rcases List.mem_or_eq_of_mem_set hp with hp | rfl
      · exact h p hp hpre
      · by_cases hx : x < n.items.length
        · have hm : n.items.getD x [] ∈ n.items := by
            rw [List.getD_eq_getElem?_getD, List.getElem?_eq_getElem hx]; exact List.getElem_mem hx
          exact h _ hm (hpre.trans (prefix_trimRight _))
        · have e : n.items.getD x [] = [] := by
            rw [List.getD_eq_getElem?_getD, List.getElem?_eq_none (by omega)]; rfl
          rw [e] at hpre
          exact absurd hpre (by decide)
    have e : srvItem x [srvExt init] n = ([srvExt init], { n with items := n.items.set x (trimRight (n.items.getD x [])) }) := by
      have hm : ∀ item, serverMatch init item (n.items.set x (trimRight (n.items.getD x []))) = none := by
        intro item
        unfold serverMatch
        rw [find_none _ hset, Bool.and_false]; rfl
      simp only [srvItem, srvExt, hm, Option.map_none, Bool.false_eq_true, if_false]
    rw [srvItems, e]
    exact ih _ hset ha hr

/-- C80, what holds: an offer in which no item begins with the extension name (blanks before it count) leaves the extension off. -/
theorem C80_absent (init : Nat → Nat → Bool) (offer : Bytes) (h : ∀ p ∈ pieces 0x2c offer, ¬ b!"permessage-deflate" <+: p) :
    (∀ e ∈ (srvNegotiate offer [srvExt init]).1, e.enabled = false) ∧ (srvNegotiate offer [srvExt init]).2.answer = none ∧
    (srvNegotiate offer [srvExt init]).2.rsv = 0 := by
  unfold srvNegotiate
  rw [splitString_eq]
  obtain ⟨h1, h2, h3⟩ := not_found init (List.range (pieces 0x2c offer).length) { items := pieces 0x2c offer } h rfl rfl
  refine ⟨?_, h2, h3⟩
  rw [h1]
  intro e he
  rw [List.mem_singleton] at he
  subst he
  rfl

example : ∀ p ∈ pieces 0x2c b!"x-webkit-deflate-frame, foo", ¬ b!"permessage-deflate" <+: p := by decide

/-- C80, negation: the extension offered as the second item, after `", "`, is not used, whatever zlib answers. -/
theorem C80_later_false : ∀ init, Offers b!"permessage-deflate" [] ∧
    Spec.Handshake.Items b!"x-foo, permessage-deflate" [b!"x-foo", b!"permessage-deflate"] ∧
    ∀ e ∈ (srvNegotiate b!"x-foo, permessage-deflate" [srvExt init]).1, e.enabled = false := by
  intro init
  refine ⟨(offers_iff [] []).2 (by decide), (items_iff _ _).2 (by decide), (C80_absent init _ ?_).1⟩
  decide

private theorem srv_on (init : Nat → Nat → Bool) (xs : List Nat) (e : SrvExt) (he : e.enabled = true) (n : Nego) :
    srvItems xs [e] n = ([e], n) := by
  induction xs generalizing n with
  | nil => rfl
  | cons x xs ih =>
    rw [srvItems]
    have : srvItem x [e] n = ([e], n) := by simp [srvItem, he]
    rw [this]; exact ih n

private theorem trimRight_blanks (item blanks : Bytes) (hb : Blank blanks) (ht : Trimmed item) (hne : item ≠ []) :
    trimRight (item ++ blanks) = item := by
  unfold trimRight
  have hl : ∃ c t, item.reverse = c :: t ∧ isSpace c = false := by
    cases hr : item.reverse with
    | nil => exact absurd (List.reverse_eq_nil_iff.1 hr) hne
    | cons c t =>
      refine ⟨c, t, rfl, ht.2 c ?_⟩
      rw [← List.reverse_reverse item, hr, List.getLast?_reverse]; rfl
  obtain ⟨c, t, hr, hc⟩ := hl
  have hcm : c ∈ item := by rw [← List.mem_reverse, hr]; simp
  rw [if_neg (by rw [List.all_eq_true]; intro hall; have := hall c (by simp [hcm]); rw [hc] at this; cases this)]
  rw [List.reverse_append]
  have : (blanks.reverse ++ item.reverse).dropWhile isSpace = item.reverse := by
    rw [hr]
    have hb' : ∀ x ∈ blanks.reverse, isSpace x = true := fun x hx => hb x (List.mem_reverse.1 hx)
    generalize blanks.reverse = bs at hb'
    induction bs with
    | nil => rw [List.nil_append, List.dropWhile_cons, hc]; rfl
    | cons y bs ih =>
      rw [List.cons_append, List.dropWhile_cons, if_pos (hb' y List.mem_cons_self)]
      exact ih (fun x hx => hb' x (List.mem_cons_of_mem _ hx))
  rw [this, List.reverse_reverse]

private theorem isFirst_at (item x : Bytes) (pre more : List Bytes) (hp : ∀ p ∈ pre, ¬ extName <+: p) (hx : extName <+: x) :
    isFirst item (pre ++ x :: more) = (x == item) := by
  unfold isFirst
  rw [List.find?_append, List.find?_eq_none.2 (fun y hy => by rw [List.isPrefixOf_iff_prefix]; exact hp y hy), Option.none_or,
    List.find?_cons, List.isPrefixOf_iff_prefix.2 hx]

/-- The negotiation with the one extension, seen from an item before the offer. -/
private theorem found_later (init : Nat → Nat → Bool) (item blanks : Bytes) (more : List Bytes) (ctx : Ctx) (ans : Bytes)
    (hb : Blank blanks) (ht : Trimmed item) (h : serverMatch init item [item] = some (ctx, ans)) (pre : List Bytes) :
    ∀ (done : List Bytes), (∀ p ∈ done ++ pre, ¬ extName <+: p) →
      ∃ n : Nego, srvItems (List.range' done.length (pre.length + 1 + more.length)) [srvExt init]
          { items := done ++ pre ++ (item ++ blanks) :: more } =
        ([{ srvExt init with client := some ans, enabled := true }], n) ∧ n.answer = some ans ∧ n.rsv = 0x40 := by
  have hpre : extName <+: item := (C61_match_partial init item [item] ctx ans h).2.1
  have hne : item ≠ [] := by rintro rfl; exact absurd hpre (by decide)
  have h1 : trimSpace (item ++ blanks) = item := trimSpace_eq [] item blanks (by intro c hc; cases hc) hb ht
  have h2 : trimRight (item ++ blanks) = item := trimRight_blanks item blanks hb ht hne
  have hself : ∀ (l : List Bytes), isFirst item l = true → serverMatch init item l = some (ctx, ans) := by
    intro l hl
    have hf : isFirst item [item] = true := by rw [← List.nil_append [item], isFirst_at item item [] [] (by simp) hpre]; simp
    rw [serverMatch_eq] at h ⊢
    rw [hf] at h
    rw [hl]; exact h
  induction pre with
  | nil =>
    intro done hd
    rw [List.append_nil] at hd ⊢
    rw [show List.length ([] : List Bytes) + 1 + more.length = more.length + 1 by simp; omega, List.range'_succ, srvItems]
    have hm : serverMatch init item (done ++ item :: more) = some (ctx, ans) :=
      hself _ (by rw [isFirst_at _ _ _ _ hd hpre]; simp)
    have e : srvItem done.length [srvExt init] { items := done ++ (item ++ blanks) :: more } =
        ([{ srvExt init with client := some ans, enabled := true }], { items := done ++ item :: more, rsv := 0x40, answer := some ans }) := by
      have e1 : (done ++ (item ++ blanks) :: more).getD done.length [] = item ++ blanks := by simp
      have e2 : (done ++ (item ++ blanks) :: more).set done.length item = done ++ item :: more := by simp
      simp only [srvItem, srvExt, Bool.false_eq_true, if_false, e1, h1, h2, e2, hm, Option.map_some]
      rfl
    rw [e, srv_on init _ _ rfl]
    exact ⟨_, rfl, rfl, rfl⟩
  | cons p pre ih =>
    intro done hd
    rw [show (p :: pre).length + 1 + more.length = (pre.length + 1 + more.length) + 1 by simp; omega, List.range'_succ, srvItems]
    have e1 : (done ++ p :: pre ++ (item ++ blanks) :: more).getD done.length [] = p := by simp
    have e2 : (done ++ p :: pre ++ (item ++ blanks) :: more).set done.length (trimRight p) =
        done ++ [trimRight p] ++ pre ++ (item ++ blanks) :: more := by simp
    have hd' : ∀ q ∈ done ++ [trimRight p] ++ pre, ¬ extName <+: q := by
      intro q hq
      simp only [List.mem_append, List.mem_singleton] at hq
      rcases hq with (hq | rfl) | hq
      · exact hd q (by simp [hq])
      · exact fun hx => hd p (by simp) (hx.trans (prefix_trimRight p))
      · exact hd q (by simp [hq])
    have hfirst := isFirst_at (trimSpace p) (item ++ blanks) (done ++ [trimRight p] ++ pre) more hd' (hpre.trans (List.prefix_append _ _))
    by_cases heq : item ++ blanks = trimSpace p
    · have hi : trimSpace p = item := by
        have h3 : trimSpace (trimSpace p) = trimSpace p := by
          obtain ⟨-, -, -, -, -, h4⟩ := trimSpace_parts p
          simpa using trimSpace_eq [] (trimSpace p) [] (by intro c hc; cases hc) (by intro c hc; cases hc) h4
        rw [← heq, h1] at h3
        rw [← heq, ← h3]
      rw [hi] at hfirst
      have hm := hself _ (by rw [hfirst, heq, hi]; simp)
      have e : srvItem done.length [srvExt init] { items := done ++ p :: pre ++ (item ++ blanks) :: more } =
          ([{ srvExt init with client := some ans, enabled := true }],
            { items := done ++ [trimRight p] ++ pre ++ (item ++ blanks) :: more, rsv := 0x40, answer := some ans }) := by
        simp only [srvItem, srvExt, Bool.false_eq_true, if_false, e1, e2, hi, hm, Option.map_some]
        rfl
      rw [e, srv_on init _ _ rfl]
      exact ⟨_, rfl, rfl, rfl⟩
    · have hm : serverMatch init (trimSpace p) (done ++ [trimRight p] ++ pre ++ (item ++ blanks) :: more) = none := by
        unfold serverMatch
        rw [hfirst, beq_eq_false_iff_ne.2 heq, Bool.and_false]; rfl
      have e : srvItem done.length [srvExt init] { items := done ++ p :: pre ++ (item ++ blanks) :: more } =
          ([srvExt init], { items := done ++ [trimRight p] ++ pre ++ (item ++ blanks) :: more }) := by
        simp only [srvItem, srvExt, Bool.false_eq_true, if_false, e1, e2, hm, Option.map_none]
      rw [e]
      have := ih (done ++ [trimRight p]) hd'
      simpa using this

/-- C80, what holds: when one item of the header is an offer the callback accepts that follows the comma at once (or comes first), and
no item before it begins with the name of the extension, the extension is switched on, the answer is the one of the callback and RSV1
is expected, whatever else stands in the list. Missing: offers with a blank behind the comma (`C80_later_false`). -/
theorem C80_anywhere_partial (init : Nat → Nat → Bool) (item blanks : Bytes) (pre more : List Bytes) (offer : Bytes) (ctx : Ctx)
    (ans : Bytes) (ho : pieces 0x2c offer = pre ++ (item ++ blanks) :: more) (hp : ∀ p ∈ pre, ¬ b!"permessage-deflate" <+: p)
    (hb : Blank blanks) (ht : Trimmed item) (h : serverMatch init item [item] = some (ctx, ans)) :
    (∃ e, (srvNegotiate offer [srvExt init]).1 = [e] ∧ e.enabled = true ∧ e.client = some ans) ∧
    (srvNegotiate offer [srvExt init]).2.answer = some ans ∧ (srvNegotiate offer [srvExt init]).2.rsv = 0x40 := by
  unfold srvNegotiate
  rw [splitString_eq, ho]
  obtain ⟨n, e, h1, h2⟩ := found_later init item blanks more ctx ans hb ht h pre [] hp
  simp only [List.nil_append, List.length_nil] at e
  simp only [List.length_append, List.length_cons, List.range_eq_range',
    show pre.length + (more.length + 1) = pre.length + 1 + more.length by omega, e]
  exact ⟨⟨_, rfl, rfl, rfl⟩, h1, h2⟩

example : ∃ ctx ans, pieces 0x2c b!"x-foo ,permessage-deflate , y" = [b!"x-foo "] ++ (b!"permessage-deflate" ++ b!" ") :: [b!" y"] ∧
    serverMatch (fun _ _ => true) b!"permessage-deflate" [b!"permessage-deflate"] = some (ctx, ans) :=
  ⟨_, _, by decide, serverMatch_of _ _ _ [[]] {} (by decide +kernel) (by decide +kernel) (by decide +kernel) rfl rfl rfl⟩

/-- the answer of the server has no comma and neither starts nor ends with a blank -/
private theorem answer_shape (s : St) : (0x2c : UInt8) ∉ answer s ∧ Trimmed (answer s) := by
  have hd : ∀ c : UInt8, isDigit c = true → isSpace c = false := by intro c; revert c; exact forall_byte (by decide +kernel)
  have hn := fun n => not_mem_decimal n 0x2c (by decide)
  have last : ∀ (x : Bytes) (n : Nat) (c : UInt8), (x ++ decimal n).getLast? = some c → isSpace c = false := by
    intro x n c h
    rw [List.getLast?_append] at h
    cases hg : (decimal n).getLast? with
    | none => exact absurd (List.getLast?_eq_none_iff.1 hg) (decimal_ne_nil n)
    | some d =>
      rw [hg] at h
      injection h with h; subst h
      exact hd d (decimal_digit n d (List.mem_of_getLast? hg))
  unfold answer
  generalize s.ctx.serverNoTakeover = a
  generalize s.ctx.clientNoTakeover = b
  generalize s.serverChanged = x
  generalize s.clientChanged = y
  generalize s.ctx.serverBits = n
  generalize s.ctx.clientBits = m
  refine ⟨?_, ?_, ?_⟩
  · have h1 := hn n
    have h2 := hn m
    cases a <;> cases b <;> cases x <;> cases y <;>
      simp only [if_true, Bool.false_eq_true, if_false, List.mem_append, not_or, List.append_nil] <;>
      simp [h1, h2, extName]
  · intro c h
    have : c = 0x70 := by
      revert h
      simp [extName]
      intro h; exact h.symm
    subst this; decide
  · intro c h
    cases y with
    | true => simp only [if_true, ← List.append_assoc] at h; exact last _ _ _ h
    | false =>
      cases x with
      | true => simp only [if_true, Bool.false_eq_true, if_false, List.append_nil, ← List.append_assoc] at h; exact last _ _ _ h
      | false =>
        revert h
        revert c
        cases a <;> cases b <;> simp only [if_true, Bool.false_eq_true, if_false, List.append_nil] <;> decide +kernel

/-- C79, on the connection: when an offer of the client makes the server switch the extension on, and the client reads the answer (with
the blank in front with which it reads header values, or without it), the client switches it on too, and both sides expect compressed
messages under the same reserved bit, RSV1, the one RFC 7692 gives to this extension. -/
theorem C79_same_bit (init init' : Nat → Nat → Bool) (item blanks : Bytes) (pre more : List Bytes) (offer : Bytes) (ctx : Ctx)
    (ans lead : Bytes) (ho : pieces 0x2c offer = pre ++ (item ++ blanks) :: more) (hp : ∀ p ∈ pre, ¬ b!"permessage-deflate" <+: p)
    (hb : Blank blanks) (ht : Trimmed item) (h : serverMatch init item [item] = some (ctx, ans))
    (hi : init' ctx.clientBits ctx.serverBits = true) (hl : lead = [] ∨ lead = b!" ") :
    (srvNegotiate offer [srvExt init]).2.answer = some ans ∧
    (∃ e, (srvNegotiate offer [srvExt init]).1 = [e] ∧ e.enabled = true ∧ e.rsv = 0x40) ∧ (srvNegotiate offer [srvExt init]).2.rsv = 0x40 ∧
    (∃ e, (cliNegotiate (some (lead ++ ans)) [cliExt init']).1 = [e] ∧ e.enabled = true ∧ e.rsv = 0x40) ∧
    (cliNegotiate (some (lead ++ ans)) [cliExt init']).2 = (0x40, true) := by
  obtain ⟨⟨e, he, hen, -⟩, ha, hr⟩ := C80_anywhere_partial init item blanks pre more offer ctx ans ho hp hb ht h
  have hrsv : ∀ (es : List SrvExt), (srvNegotiate offer es).1.map (·.rsv) = es.map (·.rsv) := by
    have one : ∀ (x : Nat) (es : List SrvExt) (n : Nego), (srvItem x es n).1.map (·.rsv) = es.map (·.rsv) := by
      intro x es
      induction es with
      | nil => intro n; rfl
      | cons e t ih =>
        intro n
        unfold srvItem
        repeat' (first | split | simp only)
        all_goals simp [ih]
    have all : ∀ (xs : List Nat) (es : List SrvExt) (n : Nego), (srvItems xs es n).1.map (·.rsv) = es.map (·.rsv) := by
      intro xs
      induction xs with
      | nil => intro es n; rfl
      | cons x xs ih => intro es n; unfold srvItems; simp only; rw [ih, one]
    intro es; exact all _ _ _
  have her : e.rsv = 0x40 := by
    have := hrsv [srvExt init]
    rw [he] at this
    simpa [srvExt] using this
  obtain ⟨c, hc, -⟩ := C79_agree init init' item [item] ctx ans h hi
  have hsh : (0x2c : UInt8) ∉ ans ∧ Trimmed ans ∧ ans ≠ [] := by
    unfold serverMatch at h
    split at h
    · simp only at h
      split at h
      · injection h with h; injection h with _ h; subst h
        refine ⟨(answer_shape _).1, (answer_shape _).2, ?_⟩
        unfold answer extName; simp
      · cases h
    · cases h
  have hsplit : splitString 0x2c (lead ++ ans) = [lead ++ ans] := by
    rw [splitString_eq, pieces_none]
    rcases hl with rfl | rfl
    · exact hsh.1
    · simp [hsh.1]
  have htrim : trimSpace (lead ++ ans) = ans := by
    have := trimSpace_eq lead ans [] (by rcases hl with rfl | rfl <;> intro c hc <;> simp at hc; subst hc; decide) (fun c hc => by cases hc) hsh.2.1
    simpa using this
  have hhit : (cliExt init').hits 0 (lead ++ ans) = true := by
    unfold CliExt.hits cliExt
    simp only [htrim, hc, Option.isSome_some]
  have hcn : cliNegotiate (some (lead ++ ans)) [cliExt init'] =
      ([{ cliExt init' with enabled := true, server := some (trimRight (lead ++ ans)) }], 0x40, true) := by
    unfold cliNegotiate
    simp only
    rw [if_neg (by simp [hsh.2.2]), hsplit]
    unfold cliItems cliItem
    rw [if_neg (by simp [cliExt]), if_pos hhit, if_pos (by simp)]
    simp only [cliItems, Prod.mk.injEq, and_true, true_and]
    show (0 : UInt8) ||| 0x40 = 0x40
    decide
  rw [hcn]
  exact ⟨ha, ⟨e, he, hen, her⟩, hr, ⟨_, rfl, rfl, rfl⟩, rfl⟩

/-- an offer met by the theorem, and what the client makes of the answer -/
example : ∃ ctx ans, pieces 0x2c b!"x-foo ,permessage-deflate , y" = [b!"x-foo "] ++ (b!"permessage-deflate" ++ b!" ") :: [b!" y"] ∧
    serverMatch (fun _ _ => true) b!"permessage-deflate" [b!"permessage-deflate"] = some (ctx, ans) ∧
    (cliNegotiate (some (b!" " ++ ans)) [cliExt (fun _ _ => true)]).2 = (0x40, true) := by
  have h := serverMatch_of (fun _ _ => true) b!"permessage-deflate" [b!"permessage-deflate"] [[]] {} (by decide +kernel)
    (by decide +kernel) (by decide +kernel) rfl rfl rfl
  exact ⟨_, _, by decide, h, (C79_same_bit _ _ b!"permessage-deflate" [] [] [] b!"permessage-deflate" _ _ b!" " (by decide)
    (fun p hp => by cases hp) (fun c hc => by cases hc)
    ⟨fun c hc => (by injection hc with hc; subst hc; decide), fun c hc => (by injection hc with hc; subst hc; decide)⟩ h rfl (.inr rfl)).2.2.2.2⟩

end Verif.Props
