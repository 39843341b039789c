import Verif.Model.Yuarel
import Verif.Spec.UrlParts
import Verif.Spec.Segments
import Verif.Lemmas.Segments
/-! # Lemmas on yuarel -/
namespace Verif.Yuarel
open Verif.Printf Verif.Spec.UrlParts Verif.Spec.Segments

theorem cut_found (c : UInt8) (a b : Bytes) (h : c ∉ a) : cut c (a ++ c :: b) = (a, some b) := by
  induction a with
  | nil => simp [cut]
  | cons x t ih =>
    rw [List.mem_cons, not_or] at h
    have hx : (x == c) = false := by simpa using fun e => h.1 e.symm
    rw [List.cons_append, cut]
    simp only [hx, Bool.false_eq_true, if_false, ih h.2]

theorem cut_none (c : UInt8) (a : Bytes) (h : c ∉ a) : cut c a = (a, none) := by
  induction a with
  | nil => simp [cut]
  | cons x t ih =>
    rw [List.mem_cons, not_or] at h
    have hx : (x == c) = false := by simpa using fun e => h.1 e.symm
    rw [cut]
    simp only [hx, Bool.false_eq_true, if_false, ih h.2]

theorem cut_opt (c : UInt8) (a : Bytes) (o : Option Bytes) (h : c ∉ a) : cut c (a ++ opt c o) = (a, o) := by
  cases o with
  | none => rw [opt, List.append_nil]; exact cut_none c a h
  | some b => exact cut_found c a b h

/-- what `cut` returns -/
theorem cut_spec (c : UInt8) (s : Bytes) :
    (c ∉ (cut c s).1) ∧ (∀ r, (cut c s).2 = some r → s = (cut c s).1 ++ c :: r) ∧
    ((cut c s).2 = none → s = (cut c s).1) := by
  induction s with
  | nil => simp [cut]
  | cons x t ih =>
    rw [cut]
    by_cases hx : (x == c) = true
    · have : x = c := by simpa using hx
      simp [this]
    · have hx' : (x == c) = false := by simpa using hx
      have hne : ¬ c = x := by rintro rfl; simp at hx
      simp only [hx', Bool.false_eq_true, if_false]
      refine ⟨?_, ?_, ?_⟩
      · rw [List.mem_cons, not_or]; exact ⟨hne, ih.1⟩
      · intro r hr
        rw [List.cons_append, ← ih.2.1 r hr]
      · intro hr
        rw [← ih.2.2 hr]

theorem natoi_digits (s : Bytes) (h : ∀ c ∈ s, 0x30 ≤ c ∧ c ≤ 0x39) (hn : number s < 2 ^ 31) : natoi s = (number s : Int) := by
  have key : ∀ (s : Bytes), (∀ c ∈ s, 0x30 ≤ c ∧ c ≤ 0x39) → ∀ a : Nat,
      s.foldl (fun r c => (10 * r + ((if c.toNat < 128 then c.toNat else c.toNat + 2 ^ 32 - 256) + 2 ^ 32 - 0x30)) % 2 ^ 32)
        (a % 2 ^ 32) = (s.foldl (fun a c => 10 * a + (c.toNat - 0x30)) a) % 2 ^ 32 := by
    intro s
    induction s with
    | nil => intro _ a; rfl
    | cons c t ih =>
      intro h a
      have hc := h c (by simp)
      have h1 : 48 ≤ c.toNat := by have := hc.1; rw [UInt8.le_iff_toNat_le] at this; simpa using this
      have h2 : c.toNat ≤ 57 := by have := hc.2; rw [UInt8.le_iff_toNat_le] at this; simpa using this
      have e : (10 * (a % 2 ^ 32) + (c.toNat + 2 ^ 32 - 0x30)) % 2 ^ 32 = (10 * a + (c.toNat - 0x30)) % 2 ^ 32 := by omega
      rw [List.foldl_cons, List.foldl_cons, if_pos (by omega), e, ih (fun x hx => h x (by simp [hx]))]
  unfold natoi
  have := key s h 0
  rw [Nat.zero_mod] at this
  rw [this]
  have hx : s.foldl (fun a c => 10 * a + (c.toNat - 0x30)) 0 = number s := rfl
  rw [hx]
  unfold asInt
  have h32 : number s % 2 ^ 32 = number s := Nat.mod_eq_of_lt (by omega)
  rw [h32, h32, if_pos hn]

theorem atoi_digits (s : Bytes) (h : ∀ c ∈ s, 0x30 ≤ c ∧ c ≤ 0x39) (hn : number s < 2 ^ 31) :
    atoi s = .ok (number s : Int) := by
  have hd : ∀ c ∈ s, isDigit c = true := by
    intro c hc; simp [isDigit, h c hc]
  have hsp : ∀ c : UInt8, isDigit c = true → isSpace c = false ∧ c ≠ 0x2d ∧ c ≠ 0x2b := by
    apply forall_byte; decide +kernel
  have h1 : s.dropWhile isSpace = s := by
    cases s with
    | nil => rfl
    | cons c t => rw [List.dropWhile_cons_of_neg]; rw [(hsp c (hd c (by simp))).1]; decide
  have h2 : s.takeWhile isDigit = s := by
    clear h1 hn h
    induction s with
    | nil => rfl
    | cons c t ih =>
      rw [List.takeWhile_cons_of_pos (hd c (by simp)), ih (fun x hx => hd x (by simp [hx]))]
  unfold atoi
  simp only [h1]
  have h3 : sign s = (false, s) := by
    clear h1 h2 hn h
    unfold sign
    split
    · exact absurd rfl (hsp _ (hd _ List.mem_cons_self)).2.1
    · exact absurd rfl (hsp _ (hd _ List.mem_cons_self)).2.2
    · rfl
  rw [h3]
  simp only [h2, Bool.false_eq_true, if_false]
  exact if_pos hn

theorem hostPart_eq (url : Url) (host : Bytes) (port : Option Bytes) (h1 : (0x3a : UInt8) ∉ host) (h2 : host ≠ [])
    (h3 : ∀ t, port = some t → t ≠ [] ∧ (∀ c ∈ t, 0x30 ≤ c ∧ c ≤ 0x39) ∧ number t < 2 ^ 31) (h4 : url.port = 0) :
    hostPart url (host ++ opt 0x3a port) =
      .ok (some { url with host := some host, port := ((port.map number).getD 0 : Nat) }) := by
  unfold hostPart
  rw [if_neg (by simp [h2]), cut_opt _ _ _ h1]
  cases port with
  | none => simp [← h4]
  | some t =>
    obtain ⟨a, b, c⟩ := h3 t rfl
    simp only [if_neg a, if_neg h2]
    cases url.path.isSome with
    | false => simp [atoi_digits t b c, Res.ok_bind]
    | true => simp [natoi_digits t b c, Res.ok_bind]

theorem parse_absolute (s : Bytes) (h : s.head? ≠ some 0x2f) (scheme rest : Bytes) (f q : Option Bytes)
    (s1 s2 : Bytes) (h1 : cut 0x23 s = (s1, f)) (h2 : cut 0x3f s1 = (s2, q)) (hs2 : s2.head? ≠ some 0x2f)
    (h3 : cut 0x3a s2 = (scheme, some (0x2f :: 0x2f :: rest))) (h4 : scheme ≠ []) (h5 : rest ≠ []) (auth : Bytes)
    (path : Option Bytes) (h6 : cut 0x2f rest = (auth, path)) :
    parse s = (match cut 0x40 auth with
        | (cred, some host) =>
          if cred = [] then .ok (none, scheme)
          else match cut 0x3a cred with
            | (user, some pass) => do
              let r ← hostPart { query := q, fragment := f, scheme := some scheme, path := path, username := some user, password := some pass } host
              return (r, scheme)
            | (_, none) => .ok (none, scheme)
        | (host, none) => do
          let r ← hostPart { query := q, fragment := f, scheme := some scheme, path := path } host
          return (r, scheme)) := by
  unfold parse
  simp only [h1, h2]
  split
  · simp at hs2
  · rw [h3]
    simp only [if_neg h4, if_neg h5, h6]
    rfl

theorem opt_free (d x : UInt8) (o : Option Bytes) (hx : d ≠ x) (h : ∀ t, o = some t → d ∉ t) : d ∉ opt x o := by
  cases o with
  | none => simp [opt]
  | some t => simp [opt, hx, h t rfl]

theorem cut_pair (s : Bytes) : cut 0x3d s = pair s := by
  induction s with
  | nil => rfl
  | cons x t ih =>
    rw [cut]
    by_cases hx : (x == 0x3d) = true
    · have : x = 0x3d := by simpa using hx
      subst this
      simp [pair]
    · have hx' : (x == 0x3d) = false := by simpa using hx
      have hne : (decide (x ≠ 0x3d)) = true := by simpa using hx
      simp only [hx', Bool.false_eq_true, if_false, ih, pair]
      simp only [List.takeWhile_cons, List.dropWhile_cons, hne, if_true]

theorem pieces_ne_nil (d : UInt8) (s : Bytes) : pieces d s ≠ [] := by
  cases s with
  | nil => simp [pieces]
  | cons c t =>
    rw [pieces]; split
    · simp
    · split <;> simp

theorem pieces_cut (d : UInt8) (s : Bytes) :
    pieces d s = (cut d s).1 :: (match (cut d s).2 with | none => [] | some r => pieces d r) := by
  induction s with
  | nil => rfl
  | cons x t ih =>
    rw [pieces, cut]
    by_cases hx : x = d
    · subst hx; simp
    · have hx' : (x == d) = false := by simpa using hx
      simp only [hx', Bool.false_eq_true, if_false, hx]
      rw [ih]

theorem cut_length (d : UInt8) (s r : Bytes) (h : (cut d s).2 = some r) : r.length < s.length := by
  have := (cut_spec d s).2.1 r h
  rw [this]; simp; omega

theorem fields_drop (d : UInt8) (s : Bytes) : fields d (s.dropWhile (· == d)) = fields d s := by
  induction s with
  | nil => rfl
  | cons c t ih =>
    by_cases hc : (c == d) = true
    · rw [List.dropWhile_cons, if_pos hc, ih]
      have : c = d := by simpa using hc
      simp [fields, pieces, this]
    · rw [List.dropWhile_cons, if_neg hc]

theorem fields_cut (d : UInt8) (s : Bytes) (h : s ≠ []) (hd : s.head? ≠ some d) :
    fields d s = (cut d s).1 :: (match (cut d s).2 with | none => [] | some r => fields d r) := by
  have hne : ((cut d s).1).isEmpty = false := by
    cases s with
    | nil => exact absurd rfl h
    | cons x t =>
      have hx : (x == d) = false := by simpa using hd
      rw [cut]; simp [hx]
  unfold fields
  rw [pieces_cut, List.filter_cons]
  simp only [hne, Bool.not_false, if_true]
  cases (cut d s).2 <;> rfl

theorem splitLoop_eq (max : Nat) (f : Nat) (path : Bytes) (acc : List Bytes) (hf : path.length < f) (ha : acc.length < max) :
    splitLoop max max f path acc = .ok (acc ++ (fields 0x2f path).take (max - acc.length)) := by
  induction f generalizing path acc with
  | zero => omega
  | succ f ih =>
    rw [splitLoop]
    have hlen : (path.dropWhile (· == 0x2f)).length ≤ path.length := (List.dropWhile_sublist _).length_le
    rw [← fields_drop 0x2f path]
    have hhead : (path.dropWhile (· == 0x2f)).head? ≠ some 0x2f := by
      intro h
      have := List.head?_dropWhile_not (fun x : UInt8 => x == 0x2f) path
      rw [h] at this
      simp at this
    generalize path.dropWhile (· == 0x2f) = q at *
    by_cases hq : q = []
    · subst hq; simp [fields, pieces]
    · simp only [if_neg hq]
      rw [if_neg (by omega), fields_cut _ _ hq hhead]
      rcases hc : cut 0x2f q with ⟨p, _ | r⟩
      · simp only
        rw [List.take_cons (by omega)]; simp
      · simp only
        have hr := cut_length 0x2f q r (by rw [hc])
        have e1 : (acc ++ [p]).length = acc.length + 1 := by simp
        by_cases hm : acc.length + 1 < max
        · rw [if_pos (by rw [e1]; omega), ih r (acc ++ [p]) (by omega) (by rw [e1]; exact hm), e1,
            List.take_cons (by omega)]
          rw [show max - (acc.length + 1) = max - acc.length - 1 by omega]
          simp
        · rw [if_neg (by rw [e1]; omega), List.take_cons (by omega), show max - acc.length - 1 = 0 by omega]
          simp

theorem queryLoop_eq (d : UInt8) (max : Nat) (f : Nat) (cur : Bytes) (acc : List (Bytes × Option Bytes))
    (hf : cur.length < f) (ha : acc.length < max) :
    ∃ l, queryLoop d max f cur acc = acc ++ l ∧ l.length = min (pieces d cur).length (max - acc.length) ∧
      (∀ i, i + 1 < max - acc.length → l[i]? = ((pieces d cur).map pair)[i]?) ∧
      ((pieces d cur).length ≤ max - acc.length → l = (pieces d cur).map pair) := by
  induction f generalizing cur acc with
  | zero => omega
  | succ f ih =>
    rw [queryLoop]
    by_cases hm : acc.length + 1 < max
    · rw [if_pos (by omega), pieces_cut]
      rcases hc : cut d cur with ⟨p, _ | r⟩
      · have := (cut_spec d cur).2.2 (by rw [hc])
        rw [hc] at this
        simp only at this
        subst this
        refine ⟨[cut 0x3d cur], rfl, ?_, ?_, ?_⟩
        · simp only [List.length_singleton]; omega
        · intro i _; rw [cut_pair]; rfl
        · intro _; rw [cut_pair]; rfl
      · have hr := cut_length d cur r (by rw [hc])
        obtain ⟨l, l1, l2, l3, l4⟩ := ih r (acc ++ [cut 0x3d p]) (by omega) (by simp; omega)
        refine ⟨cut 0x3d p :: l, by simp only [l1]; simp, ?_, ?_, ?_⟩
        · simp only [List.length_cons, List.length_append, List.length_nil, Nat.zero_add] at l2 ⊢
          omega
        · intro i hi
          cases i with
          | zero => simp [cut_pair]
          | succ i =>
            simp only [List.getElem?_cons_succ, List.map_cons]
            apply l3
            simp; omega
        · intro h
          simp only [List.length_cons, List.map_cons] at h ⊢
          rw [l4 (by simp; omega), cut_pair]
    · rw [if_neg (by omega)]
      refine ⟨[cut 0x3d cur], rfl, ?_, ?_, ?_⟩
      · have : 0 < (pieces d cur).length := List.length_pos_iff.2 (pieces_ne_nil d cur)
        simp only [List.length_singleton]; omega
      · intro i hi; omega
      · intro h
        rw [pieces_cut] at h ⊢
        rcases hc : cut d cur with ⟨p, _ | r⟩
        · have := (cut_spec d cur).2.2 (by rw [hc])
          rw [hc] at this
          simp only at this
          subst this
          rw [cut_pair]; rfl
        · rw [hc] at h
          have := List.length_pos_iff.2 (pieces_ne_nil d r)
          simp only [List.length_cons] at h
          omega

end Verif.Yuarel
