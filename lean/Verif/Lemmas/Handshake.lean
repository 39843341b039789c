import Verif.Model.Handshake
import Verif.Spec.Handshake
import Verif.Lemmas.Client
import Verif.Lemmas.Frame
import Verif.Lemmas.Segments
import Verif.Lemmas.Yuarel
import Verif.Lemmas.Utf8
/-! # Lemmas about the handshake -/
namespace Verif.Handshake
open Verif.Strtok Verif.UMap Verif.Ws Verif.Client Verif.Printf
open Verif.Spec.Client Verif.Spec.Handshake Verif.Spec.Segments

theorem splitString_eq (d : UInt8) (s : Bytes) : splitString d s = pieces d s := by
  have hp : (fun x : UInt8 => x != d) = (fun x => decide (x ≠ d)) := by
    funext x; rw [Bool.eq_iff_iff]; simp
  induction hn : s.length using Nat.strongRecOn generalizing s with
  | ind n ih =>
    rw [splitString]
    by_cases h : d ∈ s
    · obtain ⟨a, b, rfl, hd⟩ := mem_split d s h
      have e := takeWhile_free d a b hd
      rw [← hp] at e
      rw [e.1]
      split
      · rename_i h0; rw [e.2] at h0; cases h0
      · rename_i x t h0
        rw [e.2] at h0
        simp only [List.cons.injEq] at h0
        rw [← h0.2, ih b.length (by rw [← hn]; simp; omega) b rfl, pieces_append, pieces_none d a hd]
        rfl
    · have e := takeWhile_all d s h
      rw [← hp] at e
      rw [e.1]
      split
      · rw [pieces_none d s h]
      · rename_i x t h0; rw [e.2] at h0; cases h0

theorem of_mem_takeWhile {p : UInt8 → Bool} {l : Bytes} {c : UInt8} (h : c ∈ l.takeWhile p) : p c = true := by
  induction l with
  | nil => cases h
  | cons x t ih =>
    rw [List.takeWhile_cons] at h
    split at h
    · rcases List.mem_cons.1 h with rfl | h
      · assumption
      · exact ih h
    · cases h

theorem trimSpace_parts (s : Bytes) : ∃ a b, s = a ++ trimSpace s ++ b ∧ Blank a ∧ Blank b ∧ Trimmed (trimSpace s) := by
  refine ⟨s.takeWhile isSpace, ((s.dropWhile isSpace).reverse.takeWhile isSpace).reverse, ?_, ?_, ?_, ?_⟩
  · have h1 := List.takeWhile_append_dropWhile (p := isSpace) (l := s)
    have h2 := List.takeWhile_append_dropWhile (p := isSpace) (l := (s.dropWhile isSpace).reverse)
    have h3 : s.dropWhile isSpace = ((s.dropWhile isSpace).reverse.dropWhile isSpace).reverse ++
        ((s.dropWhile isSpace).reverse.takeWhile isSpace).reverse := by
      rw [← List.reverse_append, h2, List.reverse_reverse]
    conv => lhs; rw [← h1, h3]
    unfold trimSpace
    rw [List.append_assoc]
  · intro c hc; exact (of_mem_takeWhile hc)
  · intro c hc; exact (of_mem_takeWhile (List.mem_reverse.1 hc))
  · constructor
    · intro c hc
      unfold trimSpace at hc
      have h1 := List.head?_dropWhile_not isSpace s
      cases hd : s.dropWhile isSpace with
      | nil => rw [hd] at hc; simp at hc
      | cons x t =>
        rw [hd] at hc h1
        simp only [List.head?_cons] at h1
        have hx : isSpace x = false := by simpa using h1
        -- the last block dropped cannot contain x
        have : ((x :: t).reverse.dropWhile isSpace).reverse.head? = some x := by
          rw [List.head?_reverse, List.reverse_cons]
          rw [List.dropWhile_append]
          split
          · simp [List.dropWhile, hx]
          · simp
        rw [this] at hc
        injection hc with hc
        rw [← hc]; exact hx
    · intro c hc
      unfold trimSpace at hc
      rw [List.getLast?_reverse] at hc
      have h1 := List.head?_dropWhile_not isSpace (s.dropWhile isSpace).reverse
      rw [hc] at h1
      simpa using h1

theorem items_iff (s : Bytes) (xs : List Bytes) : Items s xs ↔ xs = (pieces 0x2c s).map trimSpace := by
  constructor
  · rintro ⟨h1, h2⟩
    apply List.ext_getElem?
    intro i
    rw [List.getElem?_map]
    cases hp : (pieces 0x2c s)[i]? with
    | none =>
      rw [List.getElem?_eq_none_iff] at hp
      rw [Option.map_none, List.getElem?_eq_none_iff, h1]; exact hp
    | some p =>
      cases hx : xs[i]? with
      | none =>
        rw [List.getElem?_eq_none_iff, h1, ← List.getElem?_eq_none_iff, hp] at hx; cases hx
      | some x =>
        obtain ⟨a, b, e, ha, hb, ht⟩ := h2 i p x hp hx
        rw [e, Option.map_some, trimSpace_eq a x b ha hb ht]
  · rintro rfl
    refine ⟨by simp, ?_⟩
    intro i p x hp hx
    rw [List.getElem?_map, hp] at hx
    simp only [Option.map_some, Option.some.injEq] at hx
    subst hx
    exact trimSpace_parts p

theorem hasTrimmed_iff (m x : Bytes) (ms : List Bytes) (hm : Items m ms) :
    hasTrimmed (splitString 0x2c m) x = true ↔ trimSpace x ∈ ms := by
  rw [splitString_eq, (items_iff m ms).1 hm]
  unfold hasTrimmed
  simp only [List.any_eq_true, beq_iff_eq, List.mem_map]

theorem firstMatch_items (s m : Bytes) (xs ms : List Bytes) (hs : Items s xs) (hm : Items m ms) :
    firstMatch (some s) (some m) 0x2c = ((xs.find? (fun x => decide (x ∈ ms))).isSome, xs.find? (fun x => decide (x ∈ ms))) := by
  unfold firstMatch
  simp only
  have h : ((splitString 0x2c s).find? (hasTrimmed (splitString 0x2c m))).map trimSpace = xs.find? (fun x => decide (x ∈ ms)) := by
    rw [(items_iff s xs).1 hs, splitString_eq _ s, List.find?_map]
    congr 1
    congr 1
    funext x
    rw [Bool.eq_iff_iff, hasTrimmed_iff m x ms hm]
    simp
  rw [h]

theorem foldl_addItem (p : Bytes → Bool) (l : List Bytes) (r : Bytes) :
    l.foldl (fun r i => if p i then addItem r 0x2c i else r) (some r) =
      some (Spec.Routing.joinComma (r :: (l.filter p).map trimSpace)) := by
  induction l generalizing r with
  | nil => rfl
  | cons i t ih =>
    rw [List.foldl_cons, List.filter_cons]
    by_cases h : p i = true
    · rw [if_pos h, if_pos h]
      show List.foldl _ (some _) t = _
      rw [ih, List.map_cons]
      cases hm : (List.map trimSpace (List.filter p t)) with
      | nil => simp [Spec.Routing.joinComma]
      | cons y z => simp [Spec.Routing.joinComma]
    · rw [if_neg h, if_neg h]; exact ih r

theorem listMatch_items (s m : Bytes) (xs ms : List Bytes) (hs : Items s xs) (hm : Items m ms) :
    listMatch (some s) (some m) 0x2c =
      let c := xs.filter (fun x => decide (x ∈ ms))
      if c = [] then (false, none) else (true, some (Spec.Routing.joinComma c)) := by
  have hfold : ∀ (p : Bytes → Bool) (l : List Bytes),
      l.foldl (fun r i => if p i then addItem r 0x2c i else r) none =
        if (l.filter p).map trimSpace = [] then none else some (Spec.Routing.joinComma ((l.filter p).map trimSpace)) := by
    intro p l
    induction l with
    | nil => rfl
    | cons i t ih =>
      rw [List.foldl_cons, List.filter_cons]
      by_cases h : p i = true
      · rw [if_pos h, if_pos h]
        show List.foldl _ (some _) t = _
        rw [foldl_addItem]
        simp
      · rw [if_neg h, if_neg h]; exact ih
  have e : ((splitString 0x2c s).filter (hasTrimmed (splitString 0x2c m))).map trimSpace = xs.filter (fun x => decide (x ∈ ms)) := by
    rw [(items_iff s xs).1 hs, splitString_eq _ s, List.filter_map]
    congr 1
    congr 1
    funext x
    rw [Bool.eq_iff_iff, hasTrimmed_iff m x ms hm]
    simp
  unfold listMatch
  simp only [hfold, e]
  split <;> simp

/-! ### Extensions -/

/-- union of bit sets -/
def union (l : List UInt8) : UInt8 := l.foldr (· ||| ·) 0

theorem and_or_zero (r a b : UInt8) : r &&& (a ||| b) = 0 ↔ r &&& a = 0 ∧ r &&& b = 0 := by
  rw [← UInt8.or_eq_zero_iff]
  have : r &&& (a ||| b) = r &&& a ||| r &&& b := by
    apply UInt8.toBitVec_inj.1
    exact BitVec.and_or_distrib_left
  rw [this]

theorem union_append (a b : List UInt8) : union (a ++ b) = union a ||| union b := by
  induction a with
  | nil => simp [union]
  | cons x t ih =>
    show x ||| union (t ++ b) = x ||| union t ||| union b
    rw [ih, UInt8.or_assoc]

theorem and_union_zero (r : UInt8) (l : List UInt8) : r &&& union l = 0 ↔ ∀ x ∈ l, r &&& x = 0 := by
  induction l with
  | nil => simp [union]
  | cons x t ih =>
    show r &&& (x ||| union t) = 0 ↔ _
    rw [and_or_zero, ih]; simp

/-- pairwise disjoint bit sets, `u` their union -/
def Parts (l : List UInt8) (u : UInt8) : Prop := l.Pairwise (fun a b => a &&& b = 0) ∧ u = union l

theorem parts_insert (a b : List UInt8) (u r : UInt8) (h : Parts (a ++ b) u) (hr : r &&& u = 0) :
    Parts (a ++ r :: b) (u ||| r) := by
  obtain ⟨h1, rfl⟩ := h
  rw [and_union_zero] at hr
  constructor
  · rw [List.pairwise_append] at h1 ⊢
    refine ⟨h1.1, ?_, ?_⟩
    · rw [List.pairwise_cons]; exact ⟨fun x hx => hr x (by simp [hx]), h1.2.1⟩
    · intro x hx y hy
      rcases List.mem_cons.1 hy with rfl | hy
      · rw [UInt8.and_comm]; exact hr x (by simp [hx])
      · exact h1.2.2 x hx y hy
  · rw [union_append, union_append]
    show union a ||| union b ||| r = union a ||| (r ||| union b)
    rw [UInt8.or_assoc, UInt8.or_comm r]

/-- the RSV bits of the enabled extensions -/
def srvOn (es : List SrvExt) : List UInt8 := (es.filter (·.enabled)).map (·.rsv)

theorem srvItem_cases (x : Nat) (es : List SrvExt) (n : Nego) :
    (srvOn (srvItem x es n).1 = srvOn es ∧ (srvItem x es n).2.rsv = n.rsv) ∨
    ∃ a b r, srvOn es = a ++ b ∧ srvOn (srvItem x es n).1 = a ++ r :: b ∧ r &&& n.rsv = 0 ∧ (srvItem x es n).2.rsv = n.rsv ||| r := by
  induction es generalizing n with
  | nil => exact Or.inl ⟨rfl, rfl⟩
  | cons e t ih =>
    have skip : ∀ n', n'.rsv = n.rsv → ∀ (on : Bool), e.enabled = on →
        (srvOn (e :: (srvItem x t n').1) = srvOn (e :: t) ∧ (srvItem x t n').2.rsv = n.rsv) ∨
        ∃ a b r, srvOn (e :: t) = a ++ b ∧ srvOn (e :: (srvItem x t n').1) = a ++ r :: b ∧ r &&& n.rsv = 0 ∧
          (srvItem x t n').2.rsv = n.rsv ||| r := by
      intro n' hn on hon
      rw [← hn]
      rcases ih n' with ⟨h1, h2⟩ | ⟨a, b, r, h1, h2, h3, h4⟩
      · left
        refine ⟨?_, h2⟩
        unfold srvOn at h1 ⊢
        rw [List.filter_cons, List.filter_cons]
        split <;> simp [h1]
      · right
        unfold srvOn at h1 h2 ⊢
        rw [List.filter_cons, List.filter_cons, hon]
        cases on with
        | true => exact ⟨e.rsv :: a, b, r, by simp [h1], by simp [h2], h3, h4⟩
        | false => exact ⟨a, b, r, by simp [h1], by simp [h2], h3, h4⟩
    rw [srvItem]
    by_cases hen : e.enabled = true
    · rw [if_pos hen]; exact skip n rfl true hen
    · rw [if_neg hen]
      have hen' : e.enabled = false := by simpa using hen
      cases hm : e.matcher with
      | some f =>
        simp only
        cases hf : f x (trimSpace (n.items.getD x [])) (n.items.set x (trimRight (n.items.getD x []))) with
        | none => exact skip _ rfl false hen'
        | some c =>
          simp only
          split
          · rename_i hd
            right
            refine ⟨[], srvOn t, e.rsv, ?_, ?_, hd, rfl⟩
            · simp [srvOn, hen']
            · simp [srvOn]
          · left; exact ⟨by simp [srvOn, hen'], rfl⟩
      | none =>
        simp only
        split
        · split
          · rename_i hd
            right
            refine ⟨[], srvOn t, e.rsv, ?_, ?_, hd, rfl⟩
            · simp [srvOn, hen']
            · simp [srvOn]
          · exact skip n rfl false hen'
        · exact skip n rfl false hen'

theorem srvItem_parts (x : Nat) (es : List SrvExt) (n : Nego) (h : Parts (srvOn es) n.rsv) :
    Parts (srvOn (srvItem x es n).1) (srvItem x es n).2.rsv := by
  rcases srvItem_cases x es n with ⟨h1, h2⟩ | ⟨a, b, r, h1, h2, h3, h4⟩
  · rw [h1, h2]; exact h
  · rw [h2, h4]; rw [h1] at h; exact parts_insert a b _ r h h3

theorem srvItems_parts (xs : List Nat) (es : List SrvExt) (n : Nego) (h : Parts (srvOn es) n.rsv) :
    Parts (srvOn (srvItems xs es n).1) (srvItems xs es n).2.rsv := by
  induction xs generalizing es n with
  | nil => exact h
  | cons x t ih => rw [srvItems]; exact ih _ _ (srvItem_parts x es n h)

/-- the RSV bits of the enabled extensions -/
def cliOn (es : List CliExt) : List UInt8 := (es.filter (·.enabled)).map (·.rsv)

theorem cliItem_parts (i : Nat) (item : Bytes) (es : List CliExt) (rsv : UInt8) (pre : List UInt8)
    (h : Parts (pre ++ cliOn es) rsv) :
    Parts (pre ++ cliOn (cliItem i item es rsv).1) (cliItem i item es rsv).2.1 := by
  induction es generalizing pre with
  | nil => exact h
  | cons e t ih =>
    have skip : Parts (pre ++ cliOn (e :: (cliItem i item t rsv).1)) (cliItem i item t rsv).2.1 := by
      cases hon : e.enabled with
      | true =>
        have e1 : ∀ l, cliOn (e :: l) = e.rsv :: cliOn l := by intro l; simp [cliOn, hon]
        rw [e1] at h ⊢
        have := ih (pre ++ [e.rsv]) (by simpa using h)
        simpa using this
      | false =>
        have e1 : ∀ l, cliOn (e :: l) = cliOn l := by intro l; simp [cliOn, hon]
        rw [e1] at h ⊢
        exact ih pre h
    rw [cliItem]
    split
    · exact skip
    · rename_i hen
      have hen' : e.enabled = false := by simpa using hen
      split
      · split
        · rename_i hd
          have e1 : cliOn (e :: t) = cliOn t := by simp [cliOn, hen']
          rw [e1] at h
          have := parts_insert pre (cliOn t) rsv e.rsv h hd
          simpa [cliOn] using this
        · exact h
      · exact skip

theorem cliItems_parts (i : Nat) (items : List Bytes) (es : List CliExt) (rsv : UInt8) (h : Parts (cliOn es) rsv) :
    Parts (cliOn (cliItems i items es rsv).1) (cliItems i items es rsv).2.1 := by
  induction items generalizing i es rsv with
  | nil => exact h
  | cons x t ih =>
    have h1 := cliItem_parts i x es rsv [] h
    rw [cliItems]
    rcases hc : cliItem i x es rsv with ⟨es', rsv', on⟩
    rw [hc] at h1
    cases on with
    | true => exact ih _ _ _ h1
    | false => exact h1

/-! ### Reading lines -/

theorem nextLine_read (acc : Bytes) (evs : List Ev) (c : UInt8) (r : List Ev) (h : readData 1 evs = some ([c], r)) :
    nextLine acc evs = if acc.getLast? == some 0x0d && c == 0x0a then
      (if Utf8.utf8Ok acc.dropLast then some (cstr acc.dropLast) else none, r)
    else if acc.length + 1 < bufferLen then nextLine (acc ++ [c]) r else (none, r) := by
  rw [nextLine.eq_def]
  split
  · rename_i c' r' h'
    rw [h] at h'
    simp only [Option.some.injEq, Prod.mk.injEq, List.cons.injEq, and_true] at h'
    obtain ⟨rfl, rfl⟩ := h'
    rfl
  · rename_i h'
    exact absurd h (h' c r)

theorem readData_cons (evs : List Ev) (c : UInt8) (t : Bytes) (h : bytesOf evs = c :: t) :
    ∃ r, readData 1 evs = some ([c], r) ∧ bytesOf r = t := by
  obtain ⟨r, h1, h2⟩ := readData_some 1 evs (by rw [h]; simp)
  rw [h] at h1 h2
  exact ⟨r, h1, h2⟩

theorem nextLine_text (l rest : Bytes) : ∀ (acc : Bytes) (evs : List Ev), bytesOf evs = l ++ 0x0d :: 0x0a :: rest →
    (0x0d : UInt8) ∉ acc ++ l → (acc ++ l).length + 2 ≤ bufferLen →
    ∃ r, nextLine acc evs = (if Utf8.utf8Ok (acc ++ l) then some (cstr (acc ++ l)) else none, r) ∧ bytesOf r = rest := by
  have nolast : ∀ (acc : Bytes) (c : UInt8), (0x0d : UInt8) ∉ acc → (acc.getLast? == some 0x0d && c == 0x0a) = false := by
    intro acc c h
    cases hl : acc.getLast? with
    | none => rfl
    | some x =>
      have hx : x ≠ 0x0d := by
        rintro rfl
        exact h (List.mem_of_getLast? hl)
      simp [hx]
  induction l with
  | nil =>
    intro acc evs hb hn hl
    rw [List.append_nil] at hn hl ⊢
    obtain ⟨r1, e1, e2⟩ := readData_cons evs _ _ hb
    obtain ⟨r2, e3, e4⟩ := readData_cons r1 _ _ e2
    refine ⟨r2, ?_, e4⟩
    rw [nextLine_read acc evs _ _ e1, nolast acc _ hn]
    simp only [Bool.false_eq_true, if_false]
    rw [if_pos (by omega), nextLine_read _ _ _ _ e3]
    simp
  | cons c l ih =>
    intro acc evs hb hn hl
    obtain ⟨r1, e1, e2⟩ := readData_cons evs _ _ hb
    have hn' : (0x0d : UInt8) ∉ acc := fun h => hn (by simp [h])
    have ee : acc ++ c :: l = (acc ++ [c]) ++ l := by simp
    rw [ee] at hn hl ⊢
    obtain ⟨r2, e3, e4⟩ := ih (acc ++ [c]) r1 e2 hn hl
    refine ⟨r2, ?_, e4⟩
    rw [nextLine_read acc evs _ _ e1, nolast acc _ hn']
    simp only [Bool.false_eq_true, if_false]
    rw [if_pos (by simp at hl; omega)]
    exact e3

theorem nextLine_end (acc : Bytes) (evs : List Ev) (h : bytesOf evs = []) : nextLine acc evs = (none, []) := by
  have := readData_none 1 evs (by rw [h]; simp)
  rw [nextLine.eq_def]
  split
  · rename_i h'; rw [this] at h'; cases h'
  · rfl

/-! ### Header lines -/

/-- a state without its map -/
def strip (s : Seen) : Seen := { s with headers := UMap.init }

/-- effect of a line on the rest of the state -/
def markLine (f : Bytes → Bool) (s : Seen) (l : Bytes) : Seen :=
  match Yuarel.cut 0x3a l with
  | (key, some value) =>
    if eqCase l b!"Upgrade: websocket" then { s with upgrade := true }
    else if eqCase l b!"Connection: Upgrade" then { s with connection := true }
    else if eqCase key b!"Sec-WebSocket-Protocol" then { s with protocol := some value }
    else if eqCase key b!"Sec-WebSocket-Extensions" then { s with extensions := some value }
    else if eqCase l b!"Sec-WebSocket-Accept" && f value then { s with accept := true }
    else s
  | (_, none) => s

theorem put_good (es : List Ent) (hg : Good es) (key value : Bytes) (hl : value.length + 2 < 2 ^ 64) :
    ∃ rc es', UMap.put (rep es) (some key) (some value) = .ok (rc, rep es') ∧ Good es' := by
  by_cases hk : key = []
  · subst hk; exact ⟨_, es, rfl, hg⟩
  · have hv : ValidArgs (valOf (some value)) 0 (lenOf (some value)) := validArgs_str _ (by simpa [lenOf] using hl)
    refine ⟨.ok, _, ?_, eput_good _ _ _ _ _ hk hg hv⟩
    rw [put_eq]; exact putBinary_rep es key _ 0 _ hk hg hv

theorem headerLine_mark (f : Bytes → Bool) (s : Seen) (l : Bytes) (es : List Ent) (hs : s.headers = rep es) (hg : Good es)
    (hl : l.length + 2 < 2 ^ 64) :
    ∃ s' es', headerLine f s l = .ok s' ∧ s'.headers = rep es' ∧ Good es' ∧ strip s' = markLine f (strip s) l := by
  unfold headerLine markLine
  rcases hc : Yuarel.cut 0x3a l with ⟨key, ov⟩
  cases ov with
  | none => exact ⟨s, es, rfl, hs, hg, rfl⟩
  | some value =>
    have := Yuarel.cut_length 0x3a l value (by rw [hc])
    obtain ⟨rc, es', hp, hg'⟩ := put_good es hg key value (by omega)
    simp only [hs, hp, Res.ok_bind, Res.pure_eq]
    split
    · exact ⟨_, es', rfl, rfl, hg', rfl⟩
    · split
      · exact ⟨_, es', rfl, rfl, hg', rfl⟩
      · split
        · exact ⟨_, es', rfl, rfl, hg', rfl⟩
        · split
          · exact ⟨_, es', rfl, rfl, hg', rfl⟩
          · split
            · exact ⟨_, es', rfl, rfl, hg', rfl⟩
            · exact ⟨_, es', rfl, rfl, hg', rfl⟩

theorem headerLoop_line (f : Bytes → Bool) (s : Seen) (evs r : List Ev) (l : Bytes) (h : nextLine [] evs = (some l, r)) :
    headerLoop f s evs = if l = [] then .ok (s, r) else (headerLine f s l >>= fun s => headerLoop f s r) := by
  rw [headerLoop.eq_def]
  split
  · rename_i l' r' h'
    rw [h] at h'
    injection h' with h1 h2
    injection h1 with h1
    subst h1 h2
    rfl
  · rename_i r' h'
    rw [h] at h'; cases h'

theorem headerLoop_end (f : Bytes → Bool) (s : Seen) (evs r : List Ev) (h : nextLine [] evs = (none, r)) :
    headerLoop f s evs = .ok ({ s with broken := true }, r) := by
  rw [headerLoop.eq_def]
  split
  · rename_i l' r' h'; rw [h] at h'; cases h'
  · rename_i r' h'
    rw [h] at h'
    injection h' with h1 h2
    rw [h2]

/-- what follows the header lines: the empty line, or the end of the connection -/
inductive After : Bytes → Bool → Prop
  | blank (rest : Bytes) : After (0x0d :: 0x0a :: rest) false
  | cut : After [] true

theorem cstr_noNul (l : Bytes) (h : NoNul l) : cstr l = l := by
  unfold cstr
  induction l with
  | nil => rfl
  | cons c t ih =>
    have hc : c ≠ 0 := fun e => h (by simp [e])
    rw [List.takeWhile_cons, if_pos (by simpa using hc), ih (fun hm => h (List.mem_cons_of_mem _ hm))]

theorem nextLine_readable (l rest : Bytes) (evs : List Ev) (hu : Utf8.utf8Ok l = true) (hr : ReadableLine l)
    (hb : bytesOf evs = l ++ 0x0d :: 0x0a :: rest) : ∃ r, nextLine [] evs = (some l, r) ∧ bytesOf r = rest := by
  obtain ⟨r, h1, h2⟩ := nextLine_text l rest [] evs hb (by simpa using hr.cr) (by have := hr.short; simp [bufferLen]; omega)
  rw [List.nil_append, if_pos hu, cstr_noNul l hr.nul] at h1
  exact ⟨r, h1, h2⟩

theorem headerLoop_lines (f : Bytes → Bool) (ls : List Bytes) (tail : Bytes) (broken : Bool) (ht : After tail broken) :
    ∀ (s : Seen) (es : List Ent) (evs : List Ev), s.headers = rep es → Good es → s.broken = false →
    (∀ l ∈ ls, ReadableLine l ∧ l ≠ [] ∧ Utf8.utf8Ok l = true) → bytesOf evs = crlf ls ++ tail →
    ∃ s' r, headerLoop f s evs = .ok (s', r) ∧ strip s' = { ls.foldl (markLine f) (strip s) with broken := broken } := by
  induction ls with
  | nil =>
    intro s es evs hs hg hbr hl hb
    cases ht with
    | blank rest =>
      obtain ⟨r, h1, h2⟩ := nextLine_text [] rest [] evs (by simpa [crlf] using hb) (by simp) (by simp [bufferLen])
      have h1' : nextLine [] evs = (some [], r) := by rw [h1]; rfl
      refine ⟨s, r, ?_, ?_⟩
      · rw [headerLoop_line f s evs r [] h1', if_pos rfl]
      · simp only [List.foldl_nil, strip, ← hbr]
    | cut =>
      have h1 := nextLine_end [] evs (by simpa [crlf] using hb)
      exact ⟨_, _, headerLoop_end f s evs _ h1, rfl⟩
  | cons l ls ih =>
    intro s es evs hs hg hbr hl hb
    obtain ⟨h1, h2, h3⟩ := hl l List.mem_cons_self
    obtain ⟨r, e1, e2⟩ := nextLine_readable l (crlf ls ++ tail) evs h3 h1 (by rw [hb]; simp [crlf])
    obtain ⟨s1, es1, e3, e4, e5, e6⟩ := headerLine_mark f s l es hs hg (by have := h1.short; omega)
    have hbr1 : s1.broken = false := by
      have : (strip s1).broken = s.broken := by
        rw [e6]; unfold markLine
        split
        · split
          · rfl
          · split
            · rfl
            · split
              · rfl
              · split
                · rfl
                · split <;> rfl
        · rfl
      rw [← hbr, ← this]; rfl
    obtain ⟨s', r', e7, e8⟩ := ih s1 es1 r e4 e5 hbr1 (fun x hx => hl x (List.mem_cons_of_mem _ hx)) e2
    refine ⟨s', r', ?_, ?_⟩
    · rw [headerLoop_line f s evs r l e1, if_neg h2, e3]; exact e7
    · rw [e8, e6, List.foldl_cons]

theorem fold_append (a b : Bytes) : fold (a ++ b) = fold a ++ fold b := by simp [fold]

theorem colon_fold (l : Bytes) : (0x3a : UInt8) ∈ fold l ↔ (0x3a : UInt8) ∈ l := by
  unfold fold
  rw [List.mem_map]
  have : ∀ c : UInt8, toLower c = 0x3a ↔ c = 0x3a := by
    intro c; revert c; exact forall_byte (by decide +kernel)
  constructor
  · rintro ⟨c, h1, h2⟩; rw [this] at h2; exact h2 ▸ h1
  · intro h; exact ⟨0x3a, h, by decide⟩

theorem split_unique (a b a' b' : Bytes) (h : a ++ 0x3a :: b = a' ++ 0x3a :: b') (h1 : (0x3a : UInt8) ∉ a) (h2 : (0x3a : UInt8) ∉ a') :
    a = a' := by
  have e1 := (takeWhile_free 0x3a a b h1).1
  have e2 := (takeWhile_free 0x3a a' b' h2).1
  rw [h, e2] at e1; exact e1.symm

/-- the accept line is never recognised -/
theorem accept_never (l key value : Bytes) (h : Yuarel.cut 0x3a l = (key, some value)) : eqCase l b!"Sec-WebSocket-Accept" = false := by
  have e := (Yuarel.cut_spec 0x3a l).2.1 value (by rw [h])
  rw [h] at e
  rw [← Bool.not_eq_true]
  intro hc
  simp only [eqCase, beq_iff_eq] at hc
  have : (0x3a : UInt8) ∈ fold l := (colon_fold l).2 (by rw [e]; simp)
  rw [hc] at this
  exact absurd this (by decide)

/-- tests on a line -/
def isUp (l : Bytes) : Bool := eqCase l b!"Upgrade: websocket"
def isConn (l : Bytes) : Bool := eqCase l b!"Connection: Upgrade"
def named (name l : Bytes) : Bool := match Yuarel.cut 0x3a l with
  | (key, some _) => eqCase key name
  | (_, none) => false

theorem named_iff (name l : Bytes) : named name l = true ↔ HasName l name := by
  unfold named HasName
  have hs := Yuarel.cut_spec 0x3a l
  rcases hc : Yuarel.cut 0x3a l with ⟨k, ov⟩
  rw [hc] at hs
  cases ov with
  | none =>
    simp only [Bool.false_eq_true, false_iff]
    rintro ⟨k', v', h1, h2, h3⟩
    have := hs.2.2 rfl
    simp only at this
    rw [← this] at hs
    exact hs.1 (by rw [h1]; simp)
  | some v =>
    have e := hs.2.1 v rfl
    simp only at e ⊢
    constructor
    · intro h
      exact ⟨k, v, e, hs.1, by simpa [eqCase, fold, sameName] using h⟩
    · rintro ⟨k', v', h1, h2, h3⟩
      have := split_unique k v k' v' (e.symm.trans h1) hs.1 h2
      subst this
      simpa [eqCase, fold, sameName] using h3

theorem named_not (name l : Bytes) (kk vv : Bytes) (hk : (0x3a : UInt8) ∉ fold kk) (hne : fold kk ≠ fold name)
    (h : named name l = true) : eqCase l (kk ++ 0x3a :: vv) = false := by
  rw [named_iff] at h
  obtain ⟨k, v, rfl, h1, h2⟩ := h
  rw [← Bool.not_eq_true]
  intro hc
  simp only [eqCase, beq_iff_eq, fold_append] at hc
  have hc' : fold k ++ 0x3a :: fold v = fold kk ++ 0x3a :: fold vv := hc
  have := split_unique _ _ _ _ hc' (by rw [colon_fold]; exact h1) hk
  exact hne (this.symm.trans h2)

theorem markLine_fields (f : Bytes → Bool) (s : Seen) (l : Bytes) :
    (markLine f s l).upgrade = (s.upgrade || isUp l) ∧ (markLine f s l).connection = (s.connection || isConn l) ∧
    (markLine f s l).accept = s.accept ∧
    (markLine f s l).protocol.isSome = (s.protocol.isSome || named b!"Sec-WebSocket-Protocol" l) ∧
    (markLine f s l).extensions.isSome = (s.extensions.isSome || named b!"Sec-WebSocket-Extensions" l) := by
  have n1 : ∀ name, name = b!"Sec-WebSocket-Protocol" ∨ name = b!"Sec-WebSocket-Extensions" → named name l = true →
      isUp l = false ∧ isConn l = false := by
    rintro name (rfl | rfl) h
    · exact ⟨named_not _ l b!"Upgrade" b!" websocket" (by decide) (by decide) h, named_not _ l b!"Connection" b!" Upgrade" (by decide) (by decide) h⟩
    · exact ⟨named_not _ l b!"Upgrade" b!" websocket" (by decide) (by decide) h, named_not _ l b!"Connection" b!" Upgrade" (by decide) (by decide) h⟩
  have n2 := n1 _ (Or.inl rfl)
  have n3 := n1 _ (Or.inr rfl)
  have hup : isUp l = true → isConn l = false := by
    intro h
    rw [← Bool.not_eq_true]; intro h'
    simp only [isUp, isConn, eqCase, beq_iff_eq] at h h'
    rw [h] at h'; exact absurd h' (by decide)
  have hcol : (0x3a : UInt8) ∉ l → isUp l = false ∧ isConn l = false := by
    intro h
    constructor
    all_goals
      rw [← Bool.not_eq_true]; intro h'
      simp only [isUp, isConn, eqCase, beq_iff_eq] at h'
      rw [← colon_fold, h'] at h
      exact h (by decide)
  unfold markLine
  rcases hc : Yuarel.cut 0x3a l with ⟨key, ov⟩
  cases ov with
  | none =>
    have hs := Yuarel.cut_spec 0x3a l
    rw [hc] at hs
    have e := hs.2.2 rfl
    simp only at e
    rw [← e] at hs
    obtain ⟨h1, h2⟩ := hcol hs.1
    have e1 : ∀ name, named name l = false := by intro name; unfold named; rw [hc]
    simp [h1, h2, e1]
  | some value =>
    have ha := accept_never l key value hc
    have e1 : ∀ name, named name l = eqCase key name := by intro name; unfold named; rw [hc]
    rw [e1] at n2 n3
    rw [e1, e1]
    simp only [ha, Bool.false_and, Bool.false_eq_true, if_false]
    unfold isUp at *
    unfold isConn at *
    have hpe : eqCase key b!"Sec-WebSocket-Protocol" = true → eqCase key b!"Sec-WebSocket-Extensions" = false := by
      intro h
      rw [← Bool.not_eq_true]; intro h'
      simp only [eqCase, beq_iff_eq] at h h'
      rw [h] at h'; exact absurd h' (by decide)
    cases h1 : eqCase l b!"Upgrade: websocket" with
    | true =>
      have h3 : eqCase key b!"Sec-WebSocket-Protocol" = false := by
        cases h : eqCase key b!"Sec-WebSocket-Protocol" with
        | false => rfl
        | true => have := (n2 h).1; rw [h1] at this; cases this
      have h4 : eqCase key b!"Sec-WebSocket-Extensions" = false := by
        cases h : eqCase key b!"Sec-WebSocket-Extensions" with
        | false => rfl
        | true => have := (n3 h).1; rw [h1] at this; cases this
      simp [h3, h4, hup h1]
    | false =>
      cases h2 : eqCase l b!"Connection: Upgrade" with
      | true =>
        have h3 : eqCase key b!"Sec-WebSocket-Protocol" = false := by
          cases h : eqCase key b!"Sec-WebSocket-Protocol" with
          | false => rfl
          | true => have := (n2 h).2; rw [h2] at this; cases this
        have h4 : eqCase key b!"Sec-WebSocket-Extensions" = false := by
          cases h : eqCase key b!"Sec-WebSocket-Extensions" with
          | false => rfl
          | true => have := (n3 h).2; rw [h2] at this; cases this
        simp [h3, h4]
      | false =>
        cases h3 : eqCase key b!"Sec-WebSocket-Protocol" with
        | true => simp [hpe h3]
        | false =>
          cases h4 : eqCase key b!"Sec-WebSocket-Extensions" with
          | true => simp
          | false => simp

theorem foldl_fields (f : Bytes → Bool) (ls : List Bytes) (s : Seen) :
    (ls.foldl (markLine f) s).upgrade = (s.upgrade || ls.any isUp) ∧
    (ls.foldl (markLine f) s).connection = (s.connection || ls.any isConn) ∧
    (ls.foldl (markLine f) s).accept = s.accept ∧
    (ls.foldl (markLine f) s).protocol.isSome = (s.protocol.isSome || ls.any (named b!"Sec-WebSocket-Protocol")) ∧
    (ls.foldl (markLine f) s).extensions.isSome = (s.extensions.isSome || ls.any (named b!"Sec-WebSocket-Extensions")) := by
  induction ls generalizing s with
  | nil => simp
  | cons l ls ih =>
    obtain ⟨h1, h2, h3, h4, h5⟩ := ih (markLine f s l)
    obtain ⟨g1, g2, g3, g4, g5⟩ := markLine_fields f s l
    rw [List.foldl_cons, h1, h2, h3, h4, h5, g1, g2, g3, g4, g5]
    simp [Bool.or_assoc]

end Verif.Handshake
