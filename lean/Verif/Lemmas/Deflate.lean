import Verif.Model.Deflate
import Verif.Spec.Deflate
import Verif.Lemmas.Handshake
/-! # Lemmas about the negotiation of permessage-deflate -/
namespace Verif.Deflate
open Verif.Strtok Verif.Handshake Verif.Printf Verif.Client
open Verif.Spec.Client Verif.Spec.Segments Verif.Spec.Deflate

/-- what `param` may do -/
theorem bits_range (n : Int) (m : Nat) (h : bits n = some m) : 9 ≤ m ∧ m ≤ 15 := by
  unfold bits at h
  split at h
  · injection h with h
    subst h
    split <;> omega
  · cases h

theorem bits_nat (n : Nat) (h : 8 ≤ n ∧ n ≤ 15) : bits n = some (max 9 n) := by
  unfold bits
  rw [if_pos (by omega)]
  congr 1
  split <;> omega

theorem strtol_decimal (n : Nat) (h : n < 2 ^ 63) : strtol (decimal n) = n := by
  have hd := decimal_digit n
  have hn := decimal_ne_nil n
  have hv := ofDecimal_decimal n
  cases hc : decimal n with
  | nil => exact absurd hc hn
  | cons c t =>
    rw [hc] at hd hv
    have hc0 := hd c List.mem_cons_self
    have hsp : isSpace c = false ∧ c ≠ 0x2d ∧ c ≠ 0x2b := by
      clear hc hd hv
      revert hc0; revert c; exact forall_byte (by decide +kernel)
    have htw : (c :: t).takeWhile isDigit = c :: t := by
      clear hc hv hc0
      generalize c :: t = s at hd
      induction s with
      | nil => rfl
      | cons x s ih =>
        rw [List.takeWhile_cons, if_pos (hd x List.mem_cons_self), ih (fun y hy => hd y (List.mem_cons_of_mem _ hy))]
    have hsg : Yuarel.sign (c :: t) = (false, c :: t) := by
      unfold Yuarel.sign
      split
      · rename_i h'; injection h' with h1 _; exact absurd h1 hsp.2.1
      · rename_i h'; injection h' with h1 _; exact absurd h1 hsp.2.2
      · rfl
    unfold strtol
    rw [List.dropWhile_cons, hsp.1]
    simp only [Bool.false_eq_true, if_false, hsg, htw, hv]
    rw [if_pos h]

theorem not_mem_decimal (n : Nat) (d : UInt8) (h : isDigit d = false) : d ∉ decimal n := by
  intro hm; rw [decimal_digit n d hm] at h; cases h

/-- facts about the state after one parameter -/
structure Step (server : Bool) (s s' : St) (p : Bytes) : Prop where
  snt : s'.ctx.serverNoTakeover = (s.ctx.serverNoTakeover || decide (p = b!"server_no_context_takeover"))
  cnt : s'.ctx.clientNoTakeover = (s.ctx.clientNoTakeover || decide (p = b!"client_no_context_takeover"))
  ok : s'.ok = true → s.ok = true
  sb : (s'.serverChanged = s.serverChanged ∧ s'.ctx.serverBits = s.ctx.serverBits ∧ (s'.ok = true → ¬ b!"server_max_window_bits" <+: p)) ∨
    (s'.serverChanged = true ∧ b!"server_max_window_bits" <+: p ∧ (9 ≤ s'.ctx.serverBits ∧ s'.ctx.serverBits ≤ 15) ∧
      ∀ n, n < 2 ^ 63 → p = b!"server_max_window_bits=" ++ decimal n → s'.ctx.serverBits = max 9 n)
  cb : (s'.clientChanged = s.clientChanged ∧ s'.ctx.clientBits = s.ctx.clientBits ∧ (s'.ok = true → ¬ b!"client_max_window_bits" <+: p)) ∨
    (s'.clientChanged = true ∧ b!"client_max_window_bits" <+: p ∧ (9 ≤ s'.ctx.clientBits ∧ s'.ctx.clientBits ≤ 15) ∧
      ∀ n, n < 2 ^ 63 → p = b!"client_max_window_bits=" ++ decimal n → s'.ctx.clientBits = max 9 n)
  masks : (s'.ctx.deflateMask, s'.ctx.inflateMask) =
    if (server && p = b!"server_no_context_takeover") || (!server && p = b!"client_no_context_takeover") then (.full, s.ctx.inflateMask)
    else if (!server && p = b!"server_no_context_takeover") || (server && p = b!"client_no_context_takeover") then (s.ctx.deflateMask, .full)
    else (s.ctx.deflateMask, s.ctx.inflateMask)

theorem split_bits (name : Bytes) (hn : (0x3d : UInt8) ∉ name) (n : Nat) : splitString 0x3d (name ++ 0x3d :: decimal n) = [name, decimal n] := by
  rw [splitString_eq, pieces_append, pieces_none _ _ hn, pieces_none _ _ (not_mem_decimal n _ (by decide))]
  rfl

theorem trim_decimal (n : Nat) : trimSpace (decimal n) = decimal n := by
  have hd := decimal_digit n
  have hs : ∀ c : UInt8, isDigit c = true → isSpace c = false := by
    intro c; revert c; exact forall_byte (by decide +kernel)
  have key : ∀ s : Bytes, (∀ c ∈ s, isDigit c = true) → s.dropWhile isSpace = s := by
    intro s h
    cases s with
    | nil => rfl
    | cons c t => rw [List.dropWhile_cons, hs c (h c List.mem_cons_self)]; rfl
  unfold trimSpace
  rw [key _ hd, key _ (by intro c hc; exact hd c (List.mem_reverse.1 hc)), List.reverse_reverse]

theorem bits_le (n : Nat) (m : Nat) (h : bits n = some m) : m = max 9 n := by
  unfold bits at h
  split at h
  · injection h with h; subst h; split <;> omega
  · cases h

theorem param_step (server : Bool) (s : St) (p : Bytes) : Step server s (param server s p) p := by
  unfold param
  by_cases h1 : p = b!"server_no_context_takeover"
  · subst h1
    rw [if_pos rfl]
    cases server <;>
      exact ⟨by simp, by simp, fun h => h, .inl ⟨rfl, rfl, fun _ => by decide⟩, .inl ⟨rfl, rfl, fun _ => by decide⟩, by simp⟩
  by_cases h2 : p = b!"client_no_context_takeover"
  · subst h2
    rw [if_neg (by decide), if_pos rfl]
    cases server <;>
      exact ⟨by simp, by simp, fun h => h, .inl ⟨rfl, rfl, fun _ => by decide⟩, .inl ⟨rfl, rfl, fun _ => by decide⟩, by simp⟩
  rw [if_neg h1, if_neg h2]
  have m : ∀ s' : St, s'.ctx.deflateMask = s.ctx.deflateMask → s'.ctx.inflateMask = s.ctx.inflateMask →
      (s'.ctx.deflateMask, s'.ctx.inflateMask) =
      if (server && p = b!"server_no_context_takeover") || (!server && p = b!"client_no_context_takeover") then (.full, s.ctx.inflateMask)
      else if (!server && p = b!"server_no_context_takeover") || (server && p = b!"client_no_context_takeover") then (s.ctx.deflateMask, .full)
      else (s.ctx.deflateMask, s.ctx.inflateMask) := by
    intro s' a b; rw [a, b]; simp [h1, h2]
  by_cases h3 : b!"server_max_window_bits" <+: p
  · have hnc : ¬ b!"client_max_window_bits" <+: p := by
      intro h; obtain ⟨t, rfl⟩ := h; obtain ⟨t', h'⟩ := h3; revert h'; simp
    have err : Step server s { s with ok := false } p :=
      ⟨by simp [h1], by simp [h2], fun h => (by cases h), .inl ⟨rfl, rfl, fun h => (by cases h)⟩, .inl ⟨rfl, rfl, fun h => (by cases h)⟩, m _ rfl rfl⟩
    rw [if_pos h3]
    split
    · rename_i a v hv
      split
      · rename_i n hb
        have hr := bits_range _ _ hb
        refine ⟨by simp [h1], by simp [h2], fun h => h, .inr ⟨rfl, h3, hr, ?_⟩, .inl ⟨rfl, rfl, fun _ => hnc⟩, m _ rfl rfl⟩
        rintro k hk rfl
        have : splitString 0x3d (b!"server_max_window_bits=" ++ decimal k) = [b!"server_max_window_bits", decimal k] :=
          split_bits b!"server_max_window_bits" (by decide) k
        rw [this] at hv
        injection hv with _ hv
        injection hv with hv _
        rw [← hv, strtol_decimal k hk] at hb
        exact bits_le k n hb
      · exact err
    · exact err
  rw [if_neg h3]
  by_cases h4 : b!"client_max_window_bits" <+: p
  · rw [if_pos h4]
    have err : Step server s { s with ok := false } p :=
      ⟨by simp [h1], by simp [h2], fun h => (by cases h), .inl ⟨rfl, rfl, fun h => (by cases h)⟩, .inl ⟨rfl, rfl, fun h => (by cases h)⟩, m _ rfl rfl⟩
    simp only
    split
    · rename_i n hb
      have hr := bits_range _ _ hb
      refine ⟨by simp [h1], by simp [h2], fun h => h, .inl ⟨rfl, rfl, fun _ => h3⟩, .inr ⟨rfl, h4, hr, ?_⟩, m _ rfl rfl⟩
      rintro k hk rfl
      have : splitString 0x3d (b!"client_max_window_bits=" ++ decimal k) = [b!"client_max_window_bits", decimal k] :=
        split_bits b!"client_max_window_bits" (by decide) k
      rw [this] at hb
      simp only [List.getD_cons_succ, List.getD_cons_zero, trim_decimal] at hb
      rw [if_neg (decimal_ne_nil k), strtol_decimal k hk] at hb
      exact bits_le k n hb
    · exact err
  rw [if_neg h4]
  split
  · exact ⟨by simp [h1], by simp [h2], fun h => h, .inl ⟨rfl, rfl, fun _ => h3⟩, .inl ⟨rfl, rfl, fun _ => h4⟩, m _ rfl rfl⟩
  · exact ⟨by simp [h1], by simp [h2], fun h => (by cases h), .inl ⟨rfl, rfl, fun _ => h3⟩, .inl ⟨rfl, rfl, fun _ => h4⟩, m _ rfl rfl⟩

theorem param_wellFormed (server : Bool) (s : St) (p : Bytes) (h : WellFormed p) : (param server s p).ok = s.ok := by
  cases h with
  | nothing => rfl
  | server => cases server <;> rfl
  | client => cases server <;> rfl
  | serverBits n hn =>
    unfold param
    rw [if_neg (by intro h; have := congrArg (fun l => List.drop 7 l) h; simp at this),
      if_neg (by intro h; have := congrArg List.head? h; simp at this),
      if_pos (show b!"server_max_window_bits" <+: b!"server_max_window_bits=" ++ decimal n from List.prefix_append b!"server_max_window_bits" (0x3d :: decimal n))]
    have : splitString 0x3d (b!"server_max_window_bits=" ++ decimal n) = [b!"server_max_window_bits", decimal n] :=
      split_bits b!"server_max_window_bits" (by decide) n
    rw [this]
    simp only
    rw [strtol_decimal n (by omega), bits_nat n hn]
  | clientBits n hn =>
    unfold param
    rw [if_neg (by intro h; have := congrArg List.head? h; simp at this),
      if_neg (by intro h; have := congrArg (fun l => List.drop 7 l) h; simp at this),
      if_neg (by rintro ⟨t, h⟩; have := congrArg List.head? h; simp at this),
      if_pos (show b!"client_max_window_bits" <+: b!"client_max_window_bits=" ++ decimal n from List.prefix_append b!"client_max_window_bits" (0x3d :: decimal n))]
    have : splitString 0x3d (b!"client_max_window_bits=" ++ decimal n) = [b!"client_max_window_bits", decimal n] :=
      split_bits b!"client_max_window_bits" (by decide) n
    rw [this]
    simp only [List.getD_cons_succ, List.getD_cons_zero, trim_decimal]
    rw [if_neg (decimal_ne_nil n), strtol_decimal n (by omega), bits_nat n hn]
  | clientAny =>
    unfold param
    rw [if_neg (by decide), if_neg (by decide), if_neg (by decide), if_pos (by decide), splitString_eq]
    rfl

/-- facts about the state after all parameters -/
structure Run (s' : St) (ps : List Bytes) : Prop where
  snt : s'.ctx.serverNoTakeover = true ↔ b!"server_no_context_takeover" ∈ ps
  cnt : s'.ctx.clientNoTakeover = true ↔ b!"client_no_context_takeover" ∈ ps
  sb : (s'.serverChanged = false ∧ s'.ctx.serverBits = 15 ∧ (s'.ok = true → ∀ p ∈ ps, ¬ b!"server_max_window_bits" <+: p)) ∨
    (s'.serverChanged = true ∧ (9 ≤ s'.ctx.serverBits ∧ s'.ctx.serverBits ≤ 15) ∧
      ∃ a p b, ps = a ++ p :: b ∧ b!"server_max_window_bits" <+: p ∧ (s'.ok = true → ∀ q ∈ b, ¬ b!"server_max_window_bits" <+: q) ∧
      ∀ n, n < 2 ^ 63 → p = b!"server_max_window_bits=" ++ decimal n → s'.ctx.serverBits = max 9 n)
  cb : (s'.clientChanged = false ∧ s'.ctx.clientBits = 15 ∧ (s'.ok = true → ∀ p ∈ ps, ¬ b!"client_max_window_bits" <+: p)) ∨
    (s'.clientChanged = true ∧ (9 ≤ s'.ctx.clientBits ∧ s'.ctx.clientBits ≤ 15) ∧
      ∃ a p b, ps = a ++ p :: b ∧ b!"client_max_window_bits" <+: p ∧ (s'.ok = true → ∀ q ∈ b, ¬ b!"client_max_window_bits" <+: q) ∧
      ∀ n, n < 2 ^ 63 → p = b!"client_max_window_bits=" ++ decimal n → s'.ctx.clientBits = max 9 n)

theorem run_spec (server : Bool) (ps : List Bytes) : Run (ps.foldl (param server) {}) ps := by
  induction ps using snoc_ind with
  | nil => exact ⟨by simp, by simp, .inl ⟨rfl, rfl, by simp⟩, .inl ⟨rfl, rfl, by simp⟩⟩
  | snoc ps p ih =>
    rw [List.foldl_append, List.foldl_cons, List.foldl_nil]
    generalize ps.foldl (param server) {} = s at ih
    have st := param_step server s p
    generalize param server s p = s' at st
    refine ⟨?_, ?_, ?_, ?_⟩
    · rw [st.snt, Bool.or_eq_true, decide_eq_true_iff, ih.snt, List.mem_append, List.mem_singleton]; exact or_congr Iff.rfl eq_comm
    · rw [st.cnt, Bool.or_eq_true, decide_eq_true_iff, ih.cnt, List.mem_append, List.mem_singleton]; exact or_congr Iff.rfl eq_comm
    · rcases st.sb with ⟨a1, a2, a3⟩ | ⟨a1, a2, a3, a4⟩
      · rcases ih.sb with ⟨b1, b2, b3⟩ | ⟨b1, b2, a, q, b, b3, b4, b5, b6⟩
        · refine .inl ⟨a1.trans b1, a2.trans b2, fun hok x hx => ?_⟩
          rcases List.mem_append.1 hx with hx | hx
          · exact b3 (st.ok hok) x hx
          · rw [List.mem_singleton] at hx; subst hx; exact a3 hok
        · refine .inr ⟨a1.trans b1, by rw [a2]; exact b2, a, q, b ++ [p], by rw [b3]; simp, b4, fun hok x hx => ?_, ?_⟩
          · rcases List.mem_append.1 hx with hx | hx
            · exact b5 (st.ok hok) x hx
            · rw [List.mem_singleton] at hx; subst hx; exact a3 hok
          · rw [a2]; exact b6
      · exact .inr ⟨a1, a3, ps, p, [], rfl, a2, fun _ x hx => (List.not_mem_nil hx).elim, a4⟩
    · rcases st.cb with ⟨a1, a2, a3⟩ | ⟨a1, a2, a3, a4⟩
      · rcases ih.cb with ⟨b1, b2, b3⟩ | ⟨b1, b2, a, q, b, b3, b4, b5, b6⟩
        · refine .inl ⟨a1.trans b1, a2.trans b2, fun hok x hx => ?_⟩
          rcases List.mem_append.1 hx with hx | hx
          · exact b3 (st.ok hok) x hx
          · rw [List.mem_singleton] at hx; subst hx; exact a3 hok
        · refine .inr ⟨a1.trans b1, by rw [a2]; exact b2, a, q, b ++ [p], by rw [b3]; simp, b4, fun hok x hx => ?_, ?_⟩
          · rcases List.mem_append.1 hx with hx | hx
            · exact b5 (st.ok hok) x hx
            · rw [List.mem_singleton] at hx; subst hx; exact a3 hok
          · rw [a2]; exact b6
      · exact .inr ⟨a1, a3, ps, p, [], rfl, a2, fun _ x hx => (List.not_mem_nil hx).elim, a4⟩

theorem masks_spec (server : Bool) (ps : List Bytes) :
    let c := (ps.foldl (param server) {}).ctx
    (c.deflateMask = .full ↔ (if server then c.serverNoTakeover else c.clientNoTakeover) = true) ∧
    (c.inflateMask = .full ↔ (if server then c.clientNoTakeover else c.serverNoTakeover) = true) := by
  induction ps using snoc_ind with
  | nil => cases server <;> decide
  | snoc ps p ih =>
    rw [List.foldl_append, List.foldl_cons, List.foldl_nil]
    generalize ps.foldl (param server) {} = s at ih
    have st := param_step server s p
    generalize param server s p = s' at st
    have hm := st.masks
    have h1 := st.snt
    have h2 := st.cnt
    simp only at ih ⊢
    rw [Prod.ext_iff] at hm
    have d : s'.ctx.deflateMask = _ := hm.1
    have i : s'.ctx.inflateMask = _ := hm.2
    rw [h1, h2, d, i]
    clear hm d i h1 h2
    by_cases e1 : p = b!"server_no_context_takeover"
    · subst e1; cases server <;> simp_all
    · by_cases e2 : p = b!"client_no_context_takeover"
      · subst e2; cases server <;> simp_all
      · cases server <;> simp_all

theorem ok_wellFormed (server : Bool) (ps : List Bytes) (s : St) (h : ∀ p ∈ ps, WellFormed p) : (ps.foldl (param server) s).ok = s.ok := by
  induction ps generalizing s with
  | nil => rfl
  | cons p ps ih =>
    rw [List.foldl_cons, ih _ (fun q hq => h q (List.mem_cons_of_mem _ hq)), param_wellFormed _ _ _ (h p List.mem_cons_self)]

theorem params_eq (server : Bool) (s : Bytes) : params server s = ((pieces 0x3b s).map trimSpace).foldl (param server) {} := by
  unfold params
  split
  · rename_i h; subst h; cases server <;> rfl
  · rw [splitString_eq, List.foldl_map]

end Verif.Deflate
