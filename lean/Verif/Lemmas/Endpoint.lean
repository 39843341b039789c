import Verif.Model.Endpoint
import Verif.Spec.Routing
import Verif.Lemmas.Segments
import Verif.Lemmas.UrlCodec
import Verif.Props.Utf8
import Verif.Props.UrlCodec
import Mathlib.Tactic.Tauto
/-! # Lemmas on endpoints and URL parameters -/
namespace Verif.Endpoint
open Verif.Strtok Verif.UrlCodec Verif.Utf8
open Verif.Spec.Segments Verif.Spec.Routing
open Verif.Spec.OMap (OMap lookup put lookup_put_self lookup_put_other)

theorem slashWords_eq (s : Bytes) : slashWords s = segments s := words_eq_fields 0x2f s

theorem byte0_eq {c : UInt8} (hc : c ≠ 0) (s : Bytes) : byte0 s = c ↔ StartsWith c s := by
  cases s with
  | nil => simp [byte0, StartsWith]; exact fun h => hc h.symm
  | cons x t => simp [byte0, StartsWith]

theorem splitUrl_eq (p f : Option Bytes) : splitUrl p f = formatSegments p f := by
  unfold splitUrl formatSegments
  congr 1
  · cases p with
    | none => simp [segments, fields_nil]
    | some p => simp [slashWords_eq]
  cases f with
  | none => simp [segments, fields_nil]
  | some f =>
    simp only [Option.getD_some, slashWords_eq]
    apply List.filter_congr
    intro w hw
    have := (fields_mem _ _ _ hw).1
    cases w with
    | nil => exact absurd rfl this
    | cons c t => simp

theorem formatMatch_iff (url fmt : List Bytes) : formatMatch url fmt = true ↔ Matches fmt url := by
  induction fmt generalizing url with
  | nil =>
    rw [formatMatch]
    constructor
    · intro h
      rw [List.isEmpty_iff] at h; subst h; exact .nil
    · intro h; cases h; rfl
  | cons f fs ih =>
    rw [formatMatch.eq_def]
    simp only
    by_cases hs : (byte0 f == 0x2a && fs.isEmpty) = true
    · rw [if_pos hs]
      rw [Bool.and_eq_true, beq_iff_eq, List.isEmpty_iff, byte0_eq (by decide)] at hs
      obtain ⟨h1, rfl⟩ := hs
      exact ⟨fun _ => .star h1, fun _ => rfl⟩
    · rw [if_neg hs]
      rw [Bool.and_eq_true, beq_iff_eq, List.isEmpty_iff, byte0_eq (by decide)] at hs
      cases url with
      | nil =>
        simp only [Bool.false_eq_true, false_iff]
        intro h
        cases h with
        | star h => exact hs ⟨h, rfl⟩
      | cons u us =>
        have hseg : (byte0 f != 0x40 && byte0 f != 0x3a && !(f == u)) = true ↔ ¬ SegAccepts f u := by
          unfold SegAccepts
          rw [← byte0_eq (by decide), ← byte0_eq (by decide)]
          simp; tauto
        simp only
        split
        · rename_i h
          rw [hseg] at h
          simp only [Bool.false_eq_true, false_iff]
          intro hm
          cases hm with
          | star h => exact hs ⟨h, rfl⟩
          | cons h1 _ => exact h h1
        · rename_i h
          rw [hseg, not_not] at h
          rw [ih]
          constructor
          · exact fun hm => .cons h hm
          · intro hm
            cases hm with
            | star h => exact absurd ⟨h, rfl⟩ hs
            | cons _ h2 => exact h2

/-! slashes -/

theorem segments_step {u v : Bytes} (h : SlashStep u v) : segments u = segments v := by
  cases h with
  | lead => exact (fields_cons_sep _ _).symm
  | trail => exact (fields_snoc_sep _ _).symm
  | double a b => simp only [segments, fields_append, fields_cons_sep]

theorem segments_equiv {u v : Bytes} (h : SlashEquiv u v) : segments u = segments v := by
  induction h with
  | rel _ _ h => exact segments_step h
  | refl => rfl
  | symm _ _ _ ih => exact ih.symm
  | trans _ _ _ _ _ ih1 ih2 => exact ih1.trans ih2

/-! matching loop -/

theorem equals_empty (e : Endpoint) : equals e emptyEndpoint = true ↔ Null e := by
  unfold equals Null emptyEndpoint
  simp only [Bool.and_eq_true, beq_iff_eq]
  constructor
  · rintro ⟨⟨a, b⟩, c⟩; exact ⟨a.symm, b.symm, c.symm⟩
  · rintro ⟨a, b, c⟩; exact ⟨⟨a.symm, b.symm⟩, c.symm⟩

/-- the test of the loop -/
def sel (method url : Bytes) (e : Endpoint) : Bool :=
  (eqCase (e.method.getD []) method || byte0 (e.method.getD []) == 0x2a) &&
    formatMatch (slashWords url) (splitUrl e.pfx e.format)

theorem sel_iff (method url : Bytes) (e : Endpoint) (h : e.method.isSome) :
    sel method url e = true ↔ Handles method url e := by
  obtain ⟨m, hm⟩ := Option.isSome_iff_exists.1 h
  unfold sel Handles
  rw [Bool.and_eq_true, Bool.or_eq_true, formatMatch_iff, splitUrl_eq, slashWords_eq, beq_iff_eq,
    byte0_eq (by decide), hm]
  simp [eqCase]

theorem matchLoop_eq (method url : Bytes) (l rest : List Endpoint) (z : Endpoint) (hz : Null z)
    (hl : ∀ e ∈ l, e.method.isSome) :
    matchLoop method (slashWords url) (l ++ z :: rest) = .ok (l.filter (sel method url)) := by
  induction l with
  | nil => rw [List.nil_append, matchLoop, if_pos ((equals_empty z).2 hz)]; rfl
  | cons e t ih =>
    have he := hl e (by simp)
    obtain ⟨m, hm⟩ := Option.isSome_iff_exists.1 he
    have hne : ¬ equals e emptyEndpoint = true := by
      rw [equals_empty]; intro h; rw [h.1] at hm; cases hm
    rw [List.cons_append, matchLoop, if_neg hne]
    simp only [hm]
    rw [ih (fun e h => hl e (by simp [h])), Res.ok_bind, List.filter_cons]
    have : ((eqCase m method || byte0 m == 0x2a) && formatMatch (slashWords url) (splitUrl e.pfx e.format))
        = sel method url e := by simp [sel, hm]
    rw [this]
    split <;> rfl

theorem exists_sorted (l : List Endpoint) : ∃ r, Sorted l r := by
  refine ⟨l.mergeSort (fun a b => decide (a.priority ≤ b.priority)), (List.mergeSort_perm _ _).symm, ?_⟩
  have := List.pairwise_mergeSort (le := fun (a b : Endpoint) => decide (a.priority ≤ b.priority))
    (by intro a b c; simp; omega) (by intro a b; simp; omega) l
  simpa using this

/-! trimming slashes -/

theorem trimChar_form (c : UInt8) (s : Bytes) :
    ∃ i j, s = List.replicate i c ++ trimChar c s ++ List.replicate j c ∧
      (trimChar c s).head? ≠ some c ∧ (trimChar c s).getLast? ≠ some c := by
  have key : ∀ l : Bytes, ∃ i, l = List.replicate i c ++ l.dropWhile (· == c) := by
    intro l
    induction l with
    | nil => exact ⟨0, rfl⟩
    | cons x t ih =>
      rw [List.dropWhile_cons]
      split
      · rename_i h
        obtain ⟨i, hi⟩ := ih
        refine ⟨i + 1, ?_⟩
        rw [List.replicate_succ, List.cons_append, ← hi, (by simpa using h : x = c)]
      · exact ⟨0, rfl⟩
  have hnot : ∀ l : Bytes, (l.dropWhile (· == c)).head? ≠ some c := by
    intro l h
    have := List.head?_dropWhile_not (· == c) l
    rw [h] at this; simp at this
  obtain ⟨i, hi⟩ := key s
  obtain ⟨j, hj⟩ := key (s.dropWhile (· == c)).reverse
  have hj' : s.dropWhile (· == c) = trimChar c s ++ List.replicate j c := by
    rw [← List.reverse_reverse (s.dropWhile (· == c)), hj, List.reverse_append, List.reverse_replicate]
    rfl
  refine ⟨i, j, ?_, ?_, ?_⟩
  · rw [List.append_assoc, ← hj', ← hi]
  · intro h
    cases ht : trimChar c s with
    | nil => rw [ht] at h; simp at h
    | cons x t =>
      rw [ht] at h hj'
      apply hnot s
      rw [hj']; simpa using h
  · unfold trimChar
    rw [List.getLast?_reverse]
    exact hnot _

theorem trimChar_of_form (c : UInt8) (core : Bytes) (i j : Nat) (h1 : core.head? ≠ some c)
    (h2 : core.getLast? ≠ some c) :
    trimChar c (List.replicate i c ++ core ++ List.replicate j c) = core := by
  have drop : ∀ (i : Nat) (l : Bytes), (List.replicate i c ++ l).dropWhile (· == c) = l.dropWhile (· == c) := by
    intro i l
    induction i with
    | zero => rfl
    | succ i ih => rw [List.replicate_succ, List.cons_append, List.dropWhile_cons, if_pos (by simp), ih]
  have keep : ∀ l : Bytes, l.head? ≠ some c → l.dropWhile (· == c) = l := by
    intro l h
    cases l with
    | nil => rfl
    | cons x t => rw [List.dropWhile_cons, if_neg (by simpa using h)]
  unfold trimChar
  rw [List.append_assoc, drop]
  cases hc : core with
  | nil =>
    have := drop j []
    simp only [List.append_nil, List.dropWhile_nil] at this
    simp [this]
  | cons x t =>
    rw [hc] at h1 h2
    rw [keep (x :: t ++ List.replicate j c) (by simpa using h1), List.reverse_append, List.reverse_replicate,
      drop, keep _ (by rw [List.head?_reverse]; exact h2), List.reverse_reverse]

theorem sameTrim_iff (a b : Option Bytes) : sameTrim a b = true ↔ SameOpt a b := by
  unfold sameTrim
  cases a <;> cases b <;> simp only [SameOpt, Option.map, beq_iff_eq, Option.some.injEq, reduceCtorEq]
  rename_i a b
  constructor
  · intro h
    obtain ⟨i, j, ha, h1, h2⟩ := trimChar_form 0x2f a
    obtain ⟨k, l, hb, _, _⟩ := trimChar_form 0x2f b
    rw [← h] at hb
    exact ⟨_, i, j, k, l, h1, h2, ha, hb⟩
  · rintro ⟨core, i, j, k, l, h1, h2, rfl, rfl⟩
    rw [trimChar_of_form _ _ _ _ h1 h2, trimChar_of_form _ _ _ _ h1 h2]

/-- the test of the removal loop -/
def hit (e x : Endpoint) : Bool := x.method == e.method && sameTrim x.pfx e.pfx && sameTrim x.format e.format

theorem hit_iff (e x : Endpoint) : hit e x = true ↔ Designates e x := by
  unfold hit Designates
  rw [Bool.and_eq_true, Bool.and_eq_true, sameTrim_iff, sameTrim_iff, beq_iff_eq, and_assoc]

theorem shift_eq (pre post : List Endpoint) (x : Endpoint) (hp : post ≠ []) :
    ∃ y, shift post.length pre.length (pre ++ x :: post) = .ok (pre ++ post ++ [y]) := by
  induction post generalizing pre x with
  | nil => exact absurd rfl hp
  | cons z t ih =>
    rw [List.length_cons, shift]
    have h1 : (pre ++ x :: z :: t)[pre.length + 1]? = some z := by
      rw [List.getElem?_append_right (by omega)]; simp
    have h2 : (pre ++ x :: z :: t).set pre.length z = (pre ++ [z]) ++ z :: t := by
      rw [List.set_append_right _ _ (by omega)]; simp
    rw [h1]
    simp only [h2]
    cases t with
    | nil => exact ⟨z, by simp [shift]⟩
    | cons w t =>
      obtain ⟨y, hy⟩ := ih (pre ++ [z]) z (by simp)
      refine ⟨y, ?_⟩
      rw [List.length_append] at hy
      simpa using hy

theorem removeLoop_eq (e : Endpoint) (i : Nat) (l : List Endpoint) (z : Endpoint) (found : Bool) (hi : i ≤ l.length) :
    removeLoop e i { list := some (l ++ [z]), nb := l.length } found =
      .ok (if found || (l.take i).any (hit e) then .ok else .notFound,
        { list := some ((l.take i).filter (fun x => !hit e x) ++ l.drop i ++ [z]),
          nb := ((l.take i).filter (fun x => !hit e x) ++ l.drop i).length }) := by
  induction i generalizing l found with
  | zero => simp [removeLoop]
  | succ i ih =>
    rw [removeLoop]
    have hlt : i < l.length := by omega
    have hg : (l ++ [z])[i]? = some l[i] := by
      rw [List.getElem?_append_left hlt, List.getElem?_eq_getElem hlt]
    simp only [hg]
    have htake : l.take (i + 1) = l.take i ++ [l[i]] := by
      rw [List.take_add_one, List.getElem?_eq_getElem hlt]; rfl
    have hdrop : l.drop i = l[i] :: l.drop (i + 1) := List.drop_eq_getElem_cons hlt
    have hh : (l[i].method == e.method && sameTrim l[i].pfx e.pfx && sameTrim l[i].format e.format) = hit e l[i] := rfl
    rw [hh, htake, List.any_append, List.filter_append]
    by_cases hc : hit e l[i] = true
    · rw [if_pos hc]
      have hsp : l ++ [z] = l.take i ++ l[i] :: (l.drop (i + 1) ++ [z]) := by
        have h := List.take_append_drop i l
        rw [hdrop] at h
        conv => lhs; rw [← h]
        simp only [List.append_assoc, List.cons_append]
      obtain ⟨y, hy⟩ := shift_eq (l.take i) (l.drop (i + 1) ++ [z]) l[i] (by simp)
      have hlen : (l.take i).length = i := by simp; omega
      have hlen2 : (l.drop (i + 1) ++ [z]).length = l.length - i := by simp; omega
      rw [hlen, hlen2, ← hsp] at hy
      rw [hy, Res.ok_bind]
      have ht : (l.take i ++ (l.drop (i + 1) ++ [z]) ++ [y]).take l.length = (l.take i ++ l.drop (i + 1)) ++ [z] := by
        rw [← List.append_assoc, List.take_append_of_le_length (by simp; omega), List.take_of_length_le (by simp; omega)]
      rw [ht]
      have hn : l.length - 1 = (l.take i ++ l.drop (i + 1)).length := by simp; omega
      rw [hn, ih (l.take i ++ l.drop (i + 1)) true (by simp; omega)]
      have h1 : (l.take i ++ l.drop (i + 1)).take i = l.take i := by
        rw [List.take_append_of_le_length (by omega), List.take_of_length_le (by omega)]
      have h2 : (l.take i ++ l.drop (i + 1)).drop i = l.drop (i + 1) := by
        rw [List.drop_append, hlen]; simp [List.drop_of_length_le (l := l.take i) (i := i) (by omega)]
      rw [h1, h2]
      simp [hc]
    · rw [if_neg hc, ih l found (by omega), hdrop]
      simp [hc]

/-- shape of the instance after any history -/
def Shape (s : Inst) (l : List Endpoint) : Prop :=
  (l = [] ∧ s = { list := none, nb := 0 }) ∨ ∃ z, Null z ∧ s = { list := some (l ++ [z]), nb := l.length }

theorem isValid_iff (e : Endpoint) (he : ¬ Null e) : isValid e false = true ↔ Acceptable e := by
  unfold isValid Acceptable
  rw [if_neg (by rw [equals_empty]; exact he)]
  cases e.method <;> cases e.callback <;> cases e.pfx <;> cases e.format <;> simp

theorem add_shape (s : Inst) (l : List Endpoint) (e : Endpoint) (junk : Endpoint) (hs : Shape s l)
    (hv : isValid e false = true) :
    ∃ s', addEndpoint s e junk = .ok (.ok, s') ∧ Shape s' (l ++ [e]) := by
  unfold addEndpoint
  rw [if_pos hv]
  rcases hs with ⟨rfl, rfl⟩ | ⟨z, hz, rfl⟩
  · exact ⟨_, rfl, Or.inr ⟨emptyEndpoint, ⟨rfl, rfl, rfl⟩, rfl⟩⟩
  · refine ⟨{ list := some (l ++ [e] ++ [emptyEndpoint]), nb := l.length + 1 }, ?_,
      Or.inr ⟨emptyEndpoint, ⟨rfl, rfl, rfl⟩, ?_⟩⟩
    · have h1 : (l ++ [z] ++ [junk, junk]).take (l.length + 2) = l ++ [z, junk] := by
        have : l ++ [z] ++ [junk, junk] = (l ++ [z, junk]) ++ [junk] := by simp
        rw [this, List.take_append_of_le_length (by simp), List.take_of_length_le (by simp)]
      simp only [h1, aset]
      rw [if_pos (by simp), Res.ok_bind, if_pos (by simp), Res.ok_bind]
      simp [List.set_append]
    · simp

theorem remove_shape (s : Inst) (l : List Endpoint) (e : Endpoint) (hs : Shape s l) (hv : isValid e true = true)
    (hn : ¬ Null e) :
    ∃ s', removeEndpoint s e = .ok (if l.any (hit e) then .ok else .notFound, s') ∧
      Shape s' (l.filter (fun x => !hit e x)) := by
  unfold removeEndpoint
  have : ¬ equals e emptyEndpoint = true := by rw [equals_empty]; exact hn
  rw [if_pos (by simp [hv, this])]
  rcases hs with ⟨rfl, rfl⟩ | ⟨z, hz, rfl⟩
  · exact ⟨_, rfl, Or.inl ⟨rfl, rfl⟩⟩
  · have := removeLoop_eq e l.length l z false (Nat.le_refl _)
    simp only [List.take_length, List.drop_length, List.append_nil, Bool.false_or] at this
    exact ⟨_, this, Or.inr ⟨z, hz, rfl⟩⟩

end Verif.Endpoint
