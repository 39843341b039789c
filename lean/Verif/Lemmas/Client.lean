import Verif.Model.Client
import Verif.Spec.Client
import Verif.Lemmas.UMapStr
import Verif.Props.UrlCodec
import Verif.Lemmas.Yuarel
import Verif.Lemmas.Message
import Verif.Lemmas.Segments
/-! # Lemmas on the client -/
namespace Verif.Client
open Verif.UMap Verif.Printf Verif.Message Verif.Strtok Verif.Spec.Client
open Verif.Spec.OMap (OMap)

/-! ## body -/

theorem writeBody_eq (b : Body) (chunk : Bytes) (h : b.data.length + chunk.length + 1 < 2 ^ 64)
    (hl : b.limit ≠ 0 → b.data.length ≤ b.limit) :
    writeBody b chunk = { b with data := if b.limit = 0 then b.data ++ chunk else (b.data ++ chunk).take b.limit } := by
  have hw : w64 (b.data.length + chunk.length + 1) = b.data.length + chunk.length + 1 := Nat.mod_eq_of_lt h
  have hn : ∀ n, b.data ++ chunk.take n = (if b.limit = 0 then b.data ++ chunk else (b.data ++ chunk).take b.limit) →
      (if n ≠ 0 then ({ b with data := b.data ++ chunk.take n } : Body) else b) =
        { b with data := if b.limit = 0 then b.data ++ chunk else (b.data ++ chunk).take b.limit } := by
    intro n hn
    rw [← hn]
    by_cases h0 : n = 0
    · subst h0; simp
    · simp [h0]
  unfold writeBody
  refine hn _ ?_
  unfold curSize
  rw [hw]
  by_cases h0 : b.limit = 0
  · simp [h0]
  · have hl := hl h0
    rw [if_pos h0, if_neg h0]
    by_cases h1 : b.data.length < b.limit
    · rw [if_pos h1, List.take_append, List.take_of_length_le (l := b.data) hl]
      by_cases h2 : b.limit < b.data.length + chunk.length + 1
      · rw [if_pos h2]
      · rw [if_neg h2, List.take_of_length_le (by omega), List.take_of_length_le (by omega)]
    · have : b.limit = b.data.length := by omega
      rw [if_neg h1, this]
      simp

theorem foldl_writeBody (chunks : List Bytes) (b : Body) (h : b.data.length + chunks.flatten.length + 1 < 2 ^ 64)
    (hl : b.limit ≠ 0 → b.data.length ≤ b.limit) :
    chunks.foldl writeBody b =
      { b with data := if b.limit = 0 then b.data ++ chunks.flatten else (b.data ++ chunks.flatten).take b.limit } := by
  induction chunks generalizing b with
  | nil =>
    obtain ⟨d, l⟩ := b
    by_cases h0 : l = 0
    · simp [h0]
    · simp [h0, List.take_of_length_le (hl h0)]
  | cons c t ih =>
    rw [List.flatten_cons, List.length_append] at h
    rw [List.foldl_cons, writeBody_eq b c (by omega) hl]
    by_cases h0 : b.limit = 0
    · simp only [h0, if_true]
      rw [ih _ (by rw [List.length_append]; omega) (by simp)]
      simp
    · simp only [h0, if_false]
      rw [ih _ (by rw [List.length_take, List.length_append]; omega) (by intro _; rw [List.length_take]; exact Nat.min_le_left _ _)]
      simp only [h0, if_false, List.flatten_cons]
      congr 1
      by_cases hx : b.limit ≤ (b.data ++ c).length
      · rw [← List.append_assoc, List.take_append_of_le_length hx,
          List.take_append_of_le_length (by rw [List.length_take]; omega), List.take_take]
        simp
      · rw [List.take_of_length_le (l := b.data ++ c) (by omega), List.append_assoc]

/-! ## headers -/

theorem trimSpace_eq (a s b : Bytes) (ha : Blank a) (hb : Blank b) (hs : Trimmed s) : trimSpace (a ++ s ++ b) = s := by
  have dropBlank : ∀ (a t : Bytes), Blank a → (a ++ t).dropWhile isSpace = t.dropWhile isSpace := by
    intro a t ha
    induction a with
    | nil => rfl
    | cons c a ih =>
      rw [List.cons_append, List.dropWhile_cons, if_pos (ha c List.mem_cons_self)]
      exact ih (fun x hx => ha x (List.mem_cons_of_mem _ hx))
  have dropNone : ∀ t : Bytes, (∀ c, t.head? = some c → isSpace c = false) → t.dropWhile isSpace = t := by
    intro t ht
    cases t with
    | nil => rfl
    | cons c t =>
      rw [List.dropWhile_cons, if_neg]
      rw [ht c rfl]; simp
  have allBlank : ∀ a : Bytes, Blank a → a.dropWhile isSpace = [] := by
    intro a ha
    have := dropBlank a [] ha
    simpa using this
  unfold trimSpace
  rw [List.append_assoc, dropBlank a _ ha]
  cases s with
  | nil =>
    simp [allBlank b hb]
  | cons c t =>
    have h1 : ((c :: t) ++ b).dropWhile isSpace = (c :: t) ++ b := by
      apply dropNone
      intro x hx
      exact hs.1 x (by simpa using hx)
    rw [h1, List.reverse_append, dropBlank b.reverse _ (fun x hx => hb x (by simpa using hx)), dropNone, List.reverse_reverse]
    intro x hx
    rw [List.head?_reverse] at hx
    exact hs.2 x hx

theorem strtok_colon (a b : Bytes) (ha : (0x3a : UInt8) ∉ a) (hne : a ≠ []) :
    strtok (· == 0x3a) (a ++ 0x3a :: b) = some (a, b) := by
  have hnc : ∀ c ∈ a, (c == 0x3a) = false := by
    intro c hc
    have : c ≠ 0x3a := fun e => ha (e ▸ hc)
    simpa using this
  have htw : ∀ a : Bytes, (∀ c ∈ a, (c == 0x3a) = false) → (a ++ 0x3a :: b).takeWhile (fun c => !(c == 0x3a)) = a ∧
      (a ++ 0x3a :: b).dropWhile (fun c => !(c == 0x3a)) = 0x3a :: b := by
    intro a
    induction a with
    | nil => intro _; simp
    | cons c t ih =>
      intro h
      have hc := h c List.mem_cons_self
      obtain ⟨i1, i2⟩ := ih (fun x hx => h x (List.mem_cons_of_mem _ hx))
      simp only [List.cons_append, List.takeWhile_cons, List.dropWhile_cons, hc, Bool.not_false, if_true, i1, i2, and_self]
  cases a with
  | nil => exact absurd rfl hne
  | cons c t =>
    unfold strtok
    have hc := hnc c List.mem_cons_self
    have : ((c :: t) ++ 0x3a :: b).dropWhile (· == 0x3a) = (c :: t) ++ 0x3a :: b := by
      rw [List.cons_append, List.dropWhile_cons, hc]; simp
    rw [this]
    obtain ⟨i1, i2⟩ := htw (c :: t) hnc
    rw [List.cons_append] at i1 i2 ⊢
    simp only [i1, i2]
    rfl

theorem splitHeader_eq (h : Hdr) (hw : h.Wf) : splitHeader h.text = (some h.name, some h.value) := by
  unfold splitHeader Hdr.text
  have hsp : isSpace 0x3a = false := by decide
  have hb : ∀ b, Blank b → (0x3a : UInt8) ∉ b := by
    intro b hb hm
    have := hb _ hm
    rw [hsp] at this; cases this
  rw [strtok_colon]
  · simp only
    rw [if_neg hw.rest, trimSpace_eq _ _ _ hw.b1 hw.b2 hw.name.1, trimSpace_eq _ _ _ hw.b3 hw.b4 hw.value.1]
  · simp [hb _ hw.b1, hb _ hw.b2, hw.name.2.2.1]
  · simp [hw.name.2.1]

/-- the ideal header table -/
def istep (a : OMap) (p : Bytes × Bytes) : OMap :=
  match a.find? (fun q => eqCase q.1 p.1) with
  | none => a ++ [(p.1, some p.2)]
  | some q => a.filter (fun q => !eqCase q.1 p.1) ++ [(p.1, some (str q.2 ++ b!", " ++ p.2))]

theorem eqCase_self (a : Bytes) : eqCase a a = true := by simp [eqCase]

theorem put_new (a : OMap) (k : Bytes) (v : Option Bytes) (h : ∀ q ∈ a, eqCase q.1 k = false) :
    Spec.OMap.put a k v = a ++ [(k, v)] := by
  unfold Spec.OMap.put
  rw [if_neg]
  rw [List.any_eq_true]
  rintro ⟨q, hq, hk⟩
  have : q.1 = k := by simpa using hk
  have h1 := h q hq
  rw [this, eqCase_self] at h1
  cases h1

/-- values are C strings shorter than `n` -/
def Vals (n : Nat) (a : OMap) : Prop := ∀ p ∈ a, ∃ s, p.2 = some s ∧ NoNul s ∧ s.length ≤ n

theorem storeHeader_sim (es : List Ent) (a : OMap) (hg : Good es) (hs : Sim es a) (k v : Bytes) (hk : k ≠ []) (hv : NoNul v)
    (n : Nat) (ha : Vals n a) (hn : n + v.length + 4 < 2 ^ 64) :
    ∃ es', storeHeader (rep es) (some k) (some v) = .ok (rep es') ∧ Good es' ∧ Sim es' (istep a (k, v)) ∧
      Vals (n + v.length + 2) (istep a (k, v)) := by
  unfold storeHeader istep
  rw [hasKeyCase_rep, Res.ok_bind]
  rcases sim_find hs (fun x => eqCase x k) with ⟨f1, f2⟩ | ⟨e, p, f1, f2, f3⟩
  · have hany : es.any (fun e => eqCase e.key k) = false := by
      rw [List.any_eq_false]; rw [List.find?_eq_none] at f1; exact f1
    rw [hany]
    simp only [f2]
    have hva : ValidArgs (valOf (some v)) 0 (lenOf (some v)) := validArgs_str _ (by simp [lenOf]; omega)
    rw [put_eq, putBinary_rep es k _ _ _ hk hg hva, Res.ok_bind]
    refine ⟨_, rfl, eput_good _ _ _ _ _ hk hg hva, ?_, ?_⟩
    · have := sim_eput hs k (some v)
      rw [put_new] at this
      · exact this
      · intro q hq
        rw [List.find?_eq_none] at f2
        simpa using f2 q hq
    · intro p hp
      rw [List.mem_append, List.mem_singleton] at hp
      rcases hp with hp | rfl
      · obtain ⟨s, h1, h2, h3⟩ := ha p hp
        exact ⟨s, h1, h2, by omega⟩
      · exact ⟨v, rfl, hv, by omega⟩
  · have hany : es.any (fun e => eqCase e.key k) = true := by
      rw [List.any_eq_true]
      exact ⟨e, List.mem_of_find?_eq_some f1, List.find?_some (p := fun e : Ent => eqCase e.key k) f1⟩
    rw [hany]
    simp only [f2]
    obtain ⟨s, s1, s2, s3⟩ := ha p (List.mem_of_find?_eq_some f2)
    obtain ⟨g1, g2⟩ := f3
    rw [s1] at g2
    obtain ⟨g2, t, g3⟩ := g2
    have hj : joined (rep es) k (some v) = .ok (str p.2 ++ b!", " ++ v) := by
      unfold joined
      rw [getCase_rep, f1]
      simp only [Option.map_some, Res.ok_bind]
      rw [g3, readStr_strBuf s t s2]
      simp only [Res.ok_bind, s1]
      rfl
    rw [hj, Res.ok_bind, removeKeyCase_rep, hany]
    simp only [Res.ok_bind, if_true]
    have hg' : Good (es.filter (fun e => !eqCase e.key k)) := good_sublist List.filter_sublist hg
    have hs' := sim_filter hs (fun x => !eqCase x k)
    have hlen : (str p.2 ++ b!", " ++ v).length = s.length + v.length + 2 := by
      rw [s1]; simp [str]; omega
    have hva : ValidArgs (valOf (some (str p.2 ++ b!", " ++ v))) 0 (lenOf (some (str p.2 ++ b!", " ++ v))) :=
      validArgs_str _ (by simp only [lenOf, hlen]; omega)
    rw [put_eq, putBinary_rep _ k _ _ _ hk hg' hva, Res.ok_bind]
    refine ⟨_, rfl, eput_good _ _ _ _ _ hk hg' hva, ?_, ?_⟩
    · have := sim_eput hs' k (some (str p.2 ++ b!", " ++ v))
      rw [put_new] at this
      · exact this
      · intro q hq
        have := (List.mem_filter.1 hq).2
        simpa using this
    · intro q hq
      rw [List.mem_append, List.mem_singleton] at hq
      rcases hq with hq | rfl
      · obtain ⟨s, h1, h2, h3⟩ := ha q (List.mem_filter.1 hq).1
        exact ⟨s, h1, h2, by omega⟩
      · refine ⟨_, rfl, ?_, by rw [hlen]; omega⟩
        rw [s1]
        simp only [str, NoNul, List.mem_append, not_or]
        exact ⟨⟨s2, by decide⟩, hv⟩

/-- value found for a name -/
def lk (a : OMap) (k : Bytes) : Option (Option Bytes) := (a.find? (fun q => eqCase q.1 k)).map (·.2)

theorem eqCase_comm (a b : Bytes) : eqCase a b = eqCase b a := by
  unfold eqCase
  by_cases h : fold a = fold b
  · simp [h]
  · have h' : ¬ fold b = fold a := fun e => h e.symm
    rw [beq_eq_false_iff_ne.2 h, beq_eq_false_iff_ne.2 h']

theorem eqCase_trans (a b c : Bytes) (h : eqCase a b = true) : eqCase a c = eqCase b c := by
  have : fold a = fold b := by simpa [eqCase] using h
  unfold eqCase; rw [this]

theorem lk_istep (a : OMap) (k v k' : Bytes) :
    lk (istep a (k, v)) k' = if eqCase k k' then some (some (match lk a k' with
      | none => v | some o => str o ++ b!", " ++ v)) else lk a k' := by
  have hfilter : eqCase k k' = false → (a.filter (fun q => !eqCase q.1 k)).find? (fun q => eqCase q.1 k') =
      a.find? (fun q => eqCase q.1 k') := by
    intro hne
    clear v
    induction a with
    | nil => rfl
    | cons q t ih =>
      rw [List.filter_cons]
      by_cases hq : eqCase q.1 k = true
      · have : eqCase q.1 k' = false := by rw [eqCase_trans _ _ _ hq]; exact hne
        simp only [hq, Bool.not_true, Bool.false_eq_true, if_false, List.find?_cons, this]
        exact ih
      · simp only [hq, Bool.not_false, if_true, List.find?_cons]
        rw [ih]
  have hfnone : eqCase k k' = true → (a.filter (fun q => !eqCase q.1 k)).find? (fun q => eqCase q.1 k') = none := by
    intro he
    rw [List.find?_eq_none]
    intro q hq
    have := (List.mem_filter.1 hq).2
    rw [eqCase_comm, ← eqCase_trans _ _ _ he, eqCase_comm]
    simpa using this
  unfold lk istep
  by_cases he : eqCase k k' = true
  · have hc : (fun q : Bytes × Option Bytes => eqCase q.1 k') = fun q => eqCase q.1 k := by
      funext q; rw [eqCase_comm, ← eqCase_trans _ _ _ he, eqCase_comm]
    rw [if_pos he]
    cases hf : a.find? (fun q => eqCase q.1 k) with
    | none =>
      simp only
      rw [List.find?_append, hc, hf]
      simp [eqCase_self]
    | some q =>
      simp only
      rw [List.find?_append, hfnone he, hc, hf]
      simp [eqCase_self]
  · have he' : eqCase k k' = false := by simpa using he
    rw [if_neg he]
    cases hf : a.find? (fun q => eqCase q.1 k) with
    | none =>
      simp only
      rw [List.find?_append]
      simp [he']
    | some q =>
      simp only
      rw [List.find?_append, hfilter he']
      simp [he']

theorem commaJoin_cons (x y : Bytes) (t : List Bytes) : commaJoin (x :: y :: t) = x ++ b!", " ++ commaJoin (y :: t) := rfl

theorem commaJoin_snoc (l : List Bytes) (v : Bytes) (h : l ≠ []) : commaJoin (l ++ [v]) = commaJoin l ++ b!", " ++ v := by
  induction l with
  | nil => exact absurd rfl h
  | cons x t ih =>
    cases t with
    | nil => rfl
    | cons y t =>
      rw [commaJoin_cons, List.cons_append, List.cons_append, commaJoin_cons, ← List.cons_append, ih (by simp)]
      simp only [List.append_assoc]

/-- Induction from the right. -/
theorem snoc_ind {α : Type} {P : List α → Prop} (nil : P []) (snoc : ∀ l x, P l → P (l ++ [x])) (l : List α) : P l := by
  have : ∀ l : List α, P l.reverse := by
    intro l
    induction l with
    | nil => exact nil
    | cons x t ih => rw [List.reverse_cons]; exact snoc _ _ ih
  simpa using this l.reverse

theorem lk_foldl (l : List (Bytes × Bytes)) (k : Bytes) :
    lk (l.foldl istep []) k = match valuesFor k l with
      | [] => none
      | vs => some (some (commaJoin vs)) := by
  induction l using snoc_ind with
  | nil => rfl
  | snoc l p ih =>
    obtain ⟨n, v⟩ := p
    rw [List.foldl_append, List.foldl_cons, List.foldl_nil, lk_istep, ih]
    have hv : valuesFor k (l ++ [(n, v)]) = valuesFor k l ++ (if eqCase n k then [v] else []) := by
      unfold valuesFor
      rw [List.filter_append, List.map_append]
      congr 1
      by_cases h : eqCase n k = true
      · have h' : fold n = fold k := by simpa [eqCase] using h
        have : sameName n k := h'
        simp [h, this]
      · have h' : ¬ fold n = fold k := by simpa [eqCase] using h
        have : ¬ sameName n k := h'
        simp [h, this]
    rw [hv]
    by_cases h : eqCase n k = true
    · simp only [h, if_true]
      cases hvk : valuesFor k l with
      | nil => rfl
      | cons x t =>
        rw [← hvk]
        have hne : valuesFor k l ≠ [] := by rw [hvk]; simp
        have := commaJoin_snoc _ v hne
        have e2 : ∀ o : List Bytes, o ≠ [] → (match o with | [] => (none : Option (Option Bytes)) | vs => some (some (commaJoin vs))) = some (some (commaJoin o)) := by
          intro o ho; cases o with | nil => exact absurd rfl ho | cons _ _ => rfl
        rw [e2 _ hne, e2 _ (by simp), this]
        rfl
    · simp only [h, Bool.false_eq_true, if_false, List.append_nil]

theorem istep_unique (a : OMap) (p : Bytes × Bytes) (h : ∀ k, a.countP (fun q => eqCase q.1 k) ≤ 1) :
    ∀ k, (istep a p).countP (fun q => eqCase q.1 k) ≤ 1 := by
  intro k
  unfold istep
  cases hf : a.find? (fun q => eqCase q.1 p.1) with
  | none =>
    simp only
    rw [List.countP_append]
    by_cases he : eqCase p.1 k = true
    · have : a.countP (fun q => eqCase q.1 k) = 0 := by
        rw [List.countP_eq_zero]
        intro q hq
        rw [List.find?_eq_none] at hf
        rw [eqCase_comm, ← eqCase_trans _ _ _ he, eqCase_comm]
        exact hf q hq
      rw [this]; simp [he]
    · simp only [List.countP_singleton, he]; simpa using h k
  | some q =>
    simp only
    rw [List.countP_append]
    by_cases he : eqCase p.1 k = true
    · have : (a.filter (fun q => !eqCase q.1 p.1)).countP (fun q => eqCase q.1 k) = 0 := by
        rw [List.countP_eq_zero]
        intro q hq
        have := (List.mem_filter.1 hq).2
        rw [eqCase_comm, ← eqCase_trans _ _ _ he, eqCase_comm]
        simpa using this
      rw [this]; simp [he]
    · have h1 := (List.filter_sublist (l := a) (p := fun q => !eqCase q.1 p.1)).countP_le (p := fun q => eqCase q.1 k)
      have h2 := h k
      simp only [List.countP_singleton, he]
      simp only [Bool.false_eq_true, if_false]
      omega

theorem foldl_unique (l : List (Bytes × Bytes)) : ∀ k, (l.foldl istep []).countP (fun q => eqCase q.1 k) ≤ 1 := by
  induction l using snoc_ind with
  | nil => intro k; simp
  | snoc l p ih =>
    rw [List.foldl_append]
    exact istep_unique _ p ih

theorem sim_countP {es : List Ent} {a : OMap} (h : Sim es a) (q : Bytes → Bool) :
    es.countP (fun e => q e.key) = a.countP (fun p => q p.1) := by
  rw [List.countP_eq_length_filter, List.countP_eq_length_filter]
  exact (sim_filter h q).1

theorem blank_iff (s : Bytes) : trimSpace s = [] ↔ s.all isSpace = true := by
  unfold trimSpace
  constructor
  · intro h
    have h1 : ∀ t : Bytes, t.dropWhile isSpace = [] → t.all isSpace = true := by
      intro t
      induction t with
      | nil => intro _; rfl
      | cons c t ih =>
        rw [List.dropWhile_cons]
        split
        · rename_i hc; intro h; rw [List.all_cons, hc, ih h]; rfl
        · intro h; cases h
    have h2 := h1 _ (List.reverse_eq_nil_iff.1 h)
    rw [List.all_reverse] at h2
    -- the rest after dropping leading blanks is blank, so all is blank
    have h3 : ∀ t : Bytes, (t.dropWhile isSpace).all isSpace = true → t.all isSpace = true := by
      intro t
      induction t with
      | nil => intro _; rfl
      | cons c t ih =>
        rw [List.dropWhile_cons]
        split
        · rename_i hc; intro h; rw [List.all_cons, hc, ih h]; rfl
        · intro h; exact h
    exact h3 s h2
  · intro h
    have : s.dropWhile isSpace = [] := by
      induction s with
      | nil => rfl
      | cons c t ih =>
        rw [List.all_cons, Bool.and_eq_true] at h
        rw [List.dropWhile_cons, if_pos h.1]; exact ih h.2
    rw [this]; rfl

/-- what is kept of the header lines when `c` are already stored -/
def keptFrom (max c : Nat) (l : List (Bytes × Bytes)) : List (Bytes × Bytes) := if max = 0 then l else l.take (max - c)

/-- protocol after the lines -/
def protoFrom (p : Option Bytes) (l : List Line) : Option Bytes := (protocolOf l).or p

theorem protoFrom_header (p : Option Bytes) (h : Hdr) (l : List Line) : protoFrom p (.header h :: l) = protoFrom p l := rfl

theorem protoFrom_other (p : Option Bytes) (s : Bytes) (l : List Line) :
    protoFrom p (.other s :: l) = protoFrom (if s.all isSpace then p else some (s.reverse.dropWhile isSpace).reverse) l := by
  unfold protoFrom protocolOf
  simp only [List.filterMap_cons, List.filter_cons]
  by_cases hs : s.all isSpace = true
  · simp only [hs, Bool.not_true, Bool.false_eq_true, if_false, if_true]
  · have hs' : s.all isSpace = false := by simpa using hs
    simp only [hs', Bool.not_false, if_true, Bool.false_eq_true, if_false]
    rw [List.getLast?_cons]
    cases h : List.getLast? (List.filter (fun s : Bytes => !s.all isSpace)
        (List.filterMap (fun | .header _ => none | .other s => some s) l)) with
    | none => simp
    | some x => simp

theorem writeHeaders_sim (max : Nat) (ls : List Line) (hw : ∀ l ∈ ls, l.Wf) (es : List Ent) (a : OMap) (hg : Good es)
    (hs : Sim es a) (n c : Nat) (p : Option Bytes) (ha : Vals n a)
    (hn : n + (ls.map (fun l => l.text.length)).sum + 4 < 2 ^ 64) :
    ∃ es', writeHeaders max ⟨rep es, p, c⟩ (ls.map Line.text) =
        .ok ⟨rep es', protoFrom p ls, c + (keptFrom max c (headersOf ls)).length⟩ ∧ Good es' ∧
      Sim es' ((keptFrom max c (headersOf ls)).foldl istep a) := by
  induction ls generalizing es a n c p with
  | nil => exact ⟨es, by simp [writeHeaders, protoFrom, protocolOf, keptFrom, headersOf], hg, by simpa [keptFrom, headersOf] using hs⟩
  | cons l t ih =>
    have hwt : ∀ l ∈ t, l.Wf := fun x hx => hw x (List.mem_cons_of_mem _ hx)
    have hwl := hw l List.mem_cons_self
    rw [List.map_cons, List.sum_cons] at hn
    cases l with
    | other s =>
      have hh : headersOf (.other s :: t) = headersOf t := rfl
      have hstep : writeHeader max ⟨rep es, p, c⟩ s =
          .ok ⟨rep es, if s.all isSpace then p else some (s.reverse.dropWhile isSpace).reverse, c⟩ := by
        unfold writeHeader
        rw [if_neg hwl]
        by_cases hb : s.all isSpace = true
        · rw [if_neg (by rw [ne_eq, blank_iff]; simpa using hb), if_pos hb]
        · rw [if_pos (by rw [ne_eq, blank_iff]; exact hb), if_neg hb]
          unfold trimRight
          rw [if_neg hb]
      rw [List.map_cons, writeHeaders, show Line.text (.other s) = s from rfl, hstep, Res.ok_bind, hh, protoFrom_other]
      exact ih hwt es a hg hs n c _ ha (by omega)
    | header h =>
      have hh : headersOf (.header h :: t) = (h.name, h.value) :: headersOf t := rfl
      have hwl : h.Wf := hwl
      have htl : h.text.length ≥ h.value.length + 2 := by
        have : h.name.length ≠ 0 := by simpa using hwl.name.2.1
        simp [Hdr.text]; omega
      have hcol : (0x3a : UInt8) ∈ h.text := by simp [Hdr.text]
      rw [List.map_cons, writeHeaders, protoFrom_header, hh]
      have htext : Line.text (.header h) = h.text := rfl
      rw [htext] at hn ⊢
      unfold writeHeader
      rw [if_pos hcol]
      by_cases hm : max = 0 ∨ c < max
      · rw [if_pos hm, splitHeader_eq h hwl]
        obtain ⟨es', e1, e2, e3, e4⟩ := storeHeader_sim es a hg hs h.name h.value hwl.name.2.1 hwl.value.2 n ha (by omega)
        simp only [e1, Res.ok_bind]
        obtain ⟨es'', f1, f2, f3⟩ := ih hwt es' _ e2 e3 _ (c + 1) p e4 (by omega)
        have hk : keptFrom max c ((h.name, h.value) :: headersOf t) = (h.name, h.value) :: keptFrom max (c + 1) (headersOf t) := by
          unfold keptFrom
          by_cases h0 : max = 0
          · simp [h0]
          · have : max - c = (max - (c + 1)) + 1 := by omega
            simp only [h0, if_false]
            rw [this, List.take_succ_cons]
        refine ⟨es'', ?_, f2, ?_⟩
        · refine f1.trans ?_
          rw [hk, List.length_cons]
          congr 2; omega
        · rw [hk, List.foldl_cons]; exact f3
      · rw [if_neg hm, Res.ok_bind]
        have hk : keptFrom max c ((h.name, h.value) :: headersOf t) = keptFrom max c (headersOf t) := by
          unfold keptFrom
          have h0 : ¬ max = 0 := fun e => hm (Or.inl e)
          have h1 : max - c = 0 := by
            have : ¬ c < max := fun e => hm (Or.inr e)
            omega
          simp [h0, h1]
        rw [hk]
        exact ih hwt es a hg hs n c p ha (by omega)

/-! ## parameters -/

theorem curlEscape_cons (c : UInt8) (s : Bytes) : curlEscape (c :: s) =
    (if isAlnum c || c == 0x2d || c == 0x2e || c == 0x5f || c == 0x7e then [c]
    else [0x25, UrlCodec.toHex (c >>> 4), UrlCodec.toHex (c &&& 15)]) ++ curlEscape s := rfl

theorem keep_ne (c : UInt8) (h : (isAlnum c || c == 0x2d || c == 0x2e || c == 0x5f || c == 0x7e) = true) :
    c ≠ 0 ∧ c ≠ 0x25 ∧ c ≠ 0x2b ∧ c ≠ 0x26 ∧ c ≠ 0x3d ∧ c ≠ 0x23 ∧ c ≠ 0x3f := by
  revert c; exact forall_byte (by decide +kernel)

theorem toHex_ne (c : UInt8) : UrlCodec.toHex c ≠ 0x26 ∧ UrlCodec.toHex c ≠ 0x3d ∧ UrlCodec.toHex c ≠ 0x23 ∧
    UrlCodec.toHex c ≠ 0x3f := by
  revert c; exact forall_byte (by decide +kernel)

theorem hexVal_toHex (c : UInt8) : Spec.Url.hexVal (UrlCodec.toHex (c >>> 4)) = some (c.toNat / 16) ∧
    Spec.Url.hexVal (UrlCodec.toHex (c &&& 15)) = some (c.toNat % 16) := by
  revert c; exact forall_byte (by decide +kernel)

theorem curlEscape_free (s : Bytes) : (0x26 : UInt8) ∉ curlEscape s ∧ (0x3d : UInt8) ∉ curlEscape s ∧
    (0x23 : UInt8) ∉ curlEscape s ∧ (0x3f : UInt8) ∉ curlEscape s := by
  induction s with
  | nil => simp [curlEscape]
  | cons c t ih =>
    rw [curlEscape_cons]
    split
    · rename_i h
      obtain ⟨-, -, -, h1, h2, h3, h4⟩ := keep_ne c h
      simp only [List.mem_append, List.mem_singleton, not_or]
      exact ⟨⟨h1.symm, ih.1⟩, ⟨h2.symm, ih.2.1⟩, ⟨h3.symm, ih.2.2.1⟩, ⟨h4.symm, ih.2.2.2⟩⟩
    · obtain ⟨a1, a2, a3, a4⟩ := toHex_ne (c >>> 4)
      obtain ⟨b1, b2, b3, b4⟩ := toHex_ne (c &&& 15)
      simp only [List.mem_append, List.mem_cons, List.not_mem_nil, or_false, not_or]
      exact ⟨⟨⟨by decide, a1.symm, b1.symm⟩, ih.1⟩, ⟨⟨by decide, a2.symm, b2.symm⟩, ih.2.1⟩,
        ⟨⟨by decide, a3.symm, b3.symm⟩, ih.2.2.1⟩, ⟨⟨by decide, a4.symm, b4.symm⟩, ih.2.2.2⟩⟩

theorem curlEscape_decodes (s : Bytes) (h : NoNul s) : Spec.Url.PctDecodes (curlEscape s) s := by
  induction s with
  | nil => exact .nil
  | cons c t ih =>
    obtain ⟨h0, ht⟩ := UrlCodec.NoNul.cons h
    rw [curlEscape_cons]
    split
    · rename_i hk
      obtain ⟨-, h1, h2, -⟩ := keep_ne c hk
      exact .plain c _ _ h0 h1 h2 (ih ht)
    · obtain ⟨v, w⟩ := hexVal_toHex c
      have e : 16 * (c.toNat / 16) + c.toNat % 16 = c.toNat := by omega
      have := Spec.Url.PctDecodes.pct _ _ _ _ _ _ v w (by
        rw [e]; intro hz; exact h0 (UInt8.toNat_inj.1 hz)) (ih ht)
      rw [e, UInt8.ofNat_toNat] at this
      exact this

theorem param_free (k : Bytes) (v : Option Bytes) : (0x26 : UInt8) ∉ param k v ∧ (0x23 : UInt8) ∉ param k v ∧
    (0x3f : UInt8) ∉ param k v := by
  obtain ⟨h1, -, h3, h4⟩ := curlEscape_free k
  cases v with
  | none => exact ⟨h1, h3, h4⟩
  | some v =>
    obtain ⟨g1, -, g3, g4⟩ := curlEscape_free v
    unfold param
    simp only [List.mem_append, not_or]
    exact ⟨⟨⟨h1, by decide⟩, g1⟩, ⟨⟨h3, by decide⟩, g3⟩, ⟨⟨h4, by decide⟩, g4⟩⟩

theorem param_text (k : Bytes) (v : Option Bytes) (hk : NoNul k) (hv : ∀ w, v = some w → NoNul w) : ParamText (param k v) (k, v) := by
  have hf := (curlEscape_free k).2.1
  unfold ParamText param
  cases v with
  | none =>
    simp only
    rw [pair_bare _ hf]
    exact ⟨curlEscape_decodes k hk, trivial⟩
  | some w =>
    simp only
    have e : curlEscape k ++ b!"=" ++ curlEscape w = curlEscape k ++ 0x3d :: curlEscape w := by simp
    rw [e, pair_eq _ _ hf]
    exact ⟨curlEscape_decodes k hk, curlEscape_decodes w (hv w rfl)⟩

theorem pieces_snoc (d : UInt8) (s t : Bytes) : Spec.Segments.pieces d (s ++ d :: t) = Spec.Segments.pieces d s ++ Spec.Segments.pieces d t := by
  induction s with
  | nil => simp [Spec.Segments.pieces]
  | cons c s ih =>
    rw [List.cons_append, Spec.Segments.pieces, Spec.Segments.pieces]
    split
    · rw [ih]; rfl
    · rw [ih]
      cases h : Spec.Segments.pieces d s with
      | nil => exact absurd h (Yuarel.pieces_ne_nil d s)
      | cons p ps => rfl

theorem pieces_free (d : UInt8) (s : Bytes) (h : d ∉ s) : Spec.Segments.pieces d s = [s] := by
  have := pieces_fields d s [] h (by simp)
  simpa using this

/-- the parameters as appended texts -/
def amps (ts : List Bytes) : Bytes := (ts.map (fun t => 0x26 :: t)).flatten

theorem pieces_amps (q : Bytes) (ts : List Bytes) (h : ∀ t ∈ ts, (0x26 : UInt8) ∉ t) :
    Spec.Segments.pieces 0x26 (q ++ amps ts) = Spec.Segments.pieces 0x26 q ++ ts := by
  induction ts generalizing q with
  | nil => simp [amps]
  | cons t ts ih =>
    have e : q ++ amps (t :: ts) = (q ++ 0x26 :: t) ++ amps ts := by simp [amps]
    rw [e, ih _ (fun x hx => h x (List.mem_cons_of_mem _ hx)), pieces_snoc, pieces_free _ _ (h t List.mem_cons_self)]
    simp

theorem addParams_true (m : UMap) (ps : List (Bytes × Option Bytes)) (url : Bytes)
    (hp : ∀ p ∈ ps, getText m p.1 = .ok p.2) :
    addParams m (ps.map (·.1)) true url = .ok (url ++ amps (ps.map (fun p => param p.1 p.2))) := by
  induction ps generalizing url with
  | nil => simp [addParams, amps]
  | cons p t ih =>
    rw [List.map_cons, addParams, hp p List.mem_cons_self, Res.ok_bind, ih _ (fun x hx => hp x (List.mem_cons_of_mem _ hx))]
    simp [amps]

theorem addForm_false (m : UMap) (ps : List (Bytes × Option Bytes)) (body : Bytes)
    (hp : ∀ p ∈ ps, getText m p.1 = .ok p.2) :
    addForm m (ps.map (·.1)) false body = .ok (body ++ amps (ps.map (fun p => param p.1 p.2))) := by
  induction ps generalizing body with
  | nil => simp [addForm, amps]
  | cons p t ih =>
    rw [List.map_cons, addForm, hp p List.mem_cons_self, Res.ok_bind, ih _ (fun x hx => hp x (List.mem_cons_of_mem _ hx))]
    simp [amps]

theorem replaceSpaces_eq (u : Bytes) : replaceSpaces u = spaces u := by
  unfold replaceSpaces spaces
  rw [List.flatMap_def]
  congr 2
  funext c
  by_cases h : c = 0x20
  · subst h; rfl
  · simp [h]

theorem paramTexts (ps : List (Bytes × Option Bytes)) (h : ∀ p ∈ ps, NoNul p.1 ∧ ∀ w, p.2 = some w → NoNul w) :
    ParamTexts (ps.map (fun p => param p.1 p.2)) ps := by
  induction ps with
  | nil => trivial
  | cons p t ih =>
    exact ⟨param_text _ _ (h p List.mem_cons_self).1 (h p List.mem_cons_self).2, ih (fun x hx => h x (List.mem_cons_of_mem _ hx))⟩

theorem takeWhile_free (d : UInt8) (a b : Bytes) (h : d ∉ a) :
    (a ++ d :: b).takeWhile (· ≠ d) = a ∧ (a ++ d :: b).dropWhile (· ≠ d) = d :: b := by
  induction a with
  | nil => simp
  | cons c a ih =>
    rw [List.mem_cons, not_or] at h
    obtain ⟨i1, i2⟩ := ih h.2
    have : c ≠ d := fun e => h.1 e.symm
    constructor
    · rw [List.cons_append, List.takeWhile_cons, if_pos (by simpa using this), i1]
    · rw [List.cons_append, List.dropWhile_cons, if_pos (by simpa using this), i2]

theorem takeWhile_all (d : UInt8) (a : Bytes) (h : d ∉ a) :
    a.takeWhile (· ≠ d) = a ∧ a.dropWhile (· ≠ d) = [] := by
  induction a with
  | nil => simp
  | cons c a ih =>
    rw [List.mem_cons, not_or] at h
    obtain ⟨i1, i2⟩ := ih h.2
    have : c ≠ d := fun e => h.1 e.symm
    constructor
    · rw [List.takeWhile_cons, if_pos (by simpa using this), i1]
    · rw [List.dropWhile_cons, if_pos (by simpa using this), i2]

theorem mem_split (d : UInt8) (s : Bytes) (h : d ∈ s) : ∃ a b, s = a ++ d :: b ∧ d ∉ a := by
  induction s with
  | nil => cases h
  | cons c s ih =>
    by_cases e : c = d
    · exact ⟨[], s, by simp [e], by simp⟩
    · have h' : d ∈ s := by
        rcases List.mem_cons.1 h with h | h
        · exact absurd h.symm e
        · exact h
      obtain ⟨a, b, rfl, hb⟩ := ih h'
      refine ⟨c :: a, b, rfl, ?_⟩
      rw [List.mem_cons, not_or]
      exact ⟨fun x => e x.symm, hb⟩

theorem noFragment_eq (s : Bytes) (h : (0x23 : UInt8) ∉ s) : noFragment s = s := (takeWhile_all _ _ h).1

theorem query_some (a q : Bytes) (h1 : (0x3f : UInt8) ∉ a) (h2 : (0x23 : UInt8) ∉ a ++ 0x3f :: q) :
    queryOf (a ++ 0x3f :: q) = some q ∧ beforeQuery (a ++ 0x3f :: q) = a := by
  unfold queryOf beforeQuery
  rw [noFragment_eq _ h2, (takeWhile_free _ a q h1).2, (takeWhile_free _ a q h1).1]
  exact ⟨rfl, rfl⟩

theorem query_none (a : Bytes) (h1 : (0x3f : UInt8) ∉ a) (h2 : (0x23 : UInt8) ∉ a) :
    queryOf a = none ∧ beforeQuery a = a := by
  unfold queryOf beforeQuery
  rw [noFragment_eq _ h2, (takeWhile_all _ a h1).2, (takeWhile_all _ a h1).1]
  exact ⟨rfl, rfl⟩

theorem amps_free (d : UInt8) (ts : List Bytes) (hd : d ≠ 0x26) (h : ∀ t ∈ ts, d ∉ t) : d ∉ amps ts := by
  induction ts with
  | nil => simp [amps]
  | cons t ts ih =>
    have := ih (fun x hx => h x (List.mem_cons_of_mem _ hx))
    have h0 := h t List.mem_cons_self
    have e : amps (t :: ts) = 0x26 :: t ++ amps ts := by simp [amps]
    rw [e]
    simp [this, h0, hd]

theorem spaces_free (u : Bytes) (h : (0x23 : UInt8) ∉ u) : (0x23 : UInt8) ∉ spaces u := by
  unfold spaces
  simp only [List.mem_flatten, List.mem_map, not_exists, not_and]
  rintro _ ⟨c, hc, rfl⟩
  by_cases e : c = 0x20
  · rw [if_pos e]; decide
  · rw [if_neg e, List.mem_singleton]
    intro e2; exact h (e2 ▸ hc)

end Verif.Client
