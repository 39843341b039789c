import Verif.Model.Message
import Verif.Spec.Cookie
import Verif.Lemmas.Yuarel
import Verif.Props.UMap
/-! # Lemmas on requests and responses -/
namespace Verif.Message
open Verif.UMap Verif.Printf Verif.Spec.Cookie Verif.Spec.Segments Verif.Spec.UrlParts Verif.Yuarel

/-! ## cookies by key -/

/-- association list of accepted arguments -/
def upsert (a : CookieArgs) (k : Bytes) : List (Bytes × CookieArgs) → List (Bytes × CookieArgs)
  | [] => [(k, a)]
  | (k', a') :: t => if k' = k then (k', a) :: t else (k', a') :: upsert a k t

theorem putCookie_map (a : CookieArgs) (k : Bytes) (l : List (Bytes × CookieArgs)) :
    putCookie a k (l.map (fun p => p.2.cookie p.1)) = .ok ((upsert a k l).map (fun p => p.2.cookie p.1)) := by
  induction l with
  | nil => rfl
  | cons p t ih =>
    obtain ⟨k', a'⟩ := p
    simp only [List.map_cons, putCookie]
    have : read (a'.cookie k').key = .ok (some k') := rfl
    rw [this, Res.ok_bind]
    by_cases h : k' = k
    · subst h
      simp only [if_true, upsert, List.map_cons]
      rfl
    · have h' : ¬ (some k' : Option Bytes) = some k := by simpa using h
      rw [if_neg h', ih, Res.ok_bind, upsert, if_neg h, List.map_cons]
      rfl

/-- accepted calls of a history -/
def accepted (h : List CookieArgs) : List (Bytes × CookieArgs) :=
  h.filterMap (fun a => if a.sameSite ≤ 3 then a.key.map (fun k => (k, a)) else none)

/-- history of calls -/
def runCookies : Response → List CookieArgs → Res Response
  | r, [] => .ok r
  | r, a :: t => do
    let (_, r') ← addCookie r a
    runCookies r' t

theorem runCookies_eq (h : List CookieArgs) (r : Response) (l : List (Bytes × CookieArgs))
    (hr : r.cookies = l.map (fun p => p.2.cookie p.1)) :
    runCookies r h = .ok { r with cookies :=
      ((accepted h).foldl (fun l p => upsert p.2 p.1 l) l).map (fun p => p.2.cookie p.1) } := by
  induction h generalizing r l with
  | nil => simp [runCookies, accepted, ← hr]
  | cons a t ih =>
    rw [runCookies]
    unfold addCookie
    cases hk : a.key with
    | none =>
      simp only [Res.ok_bind]
      rw [ih r l hr]
      have : accepted (a :: t) = accepted t := by simp [accepted, hk]
      rw [this]
    | some k =>
      by_cases hs : a.sameSite ≤ 3
      · simp only [if_pos hs]
        rw [hr, putCookie_map]
        simp only [Res.ok_bind]
        have : accepted (a :: t) = (k, a) :: accepted t := by simp [accepted, hk, hs]
        rw [this, List.foldl_cons]
        exact ih { r with cookies := (upsert a k l).map (fun p => p.2.cookie p.1) } (upsert a k l) rfl
      · simp only [if_neg hs, Res.ok_bind]
        rw [ih r l hr]
        have : accepted (a :: t) = accepted t := by simp [accepted, hk, hs]
        rw [this]

theorem upsert_keys (a : CookieArgs) (k : Bytes) (l : List (Bytes × CookieArgs)) :
    (upsert a k l).map (·.1) = if k ∈ l.map (·.1) then l.map (·.1) else l.map (·.1) ++ [k] := by
  induction l with
  | nil => simp [upsert]
  | cons p t ih =>
    obtain ⟨k', a'⟩ := p
    rw [upsert]
    by_cases h : k' = k
    · simp [h]
    · rw [if_neg h, List.map_cons, ih]
      have h' : ¬ k = k' := fun e => h e.symm
      simp only [List.map_cons, List.mem_cons, h', false_or]
      split <;> rfl

theorem firsts_mem (l : List Bytes) (x : Bytes) : x ∈ firsts l ↔ x ∈ l := by
  induction l with
  | nil => simp [firsts]
  | cons k t ih =>
    simp only [firsts, List.mem_cons, List.mem_filter, ih, decide_eq_true_eq]
    by_cases h : x = k <;> simp [h]

theorem firsts_snoc (l : List Bytes) (k : Bytes) :
    firsts (l ++ [k]) = if k ∈ l then firsts l else firsts l ++ [k] := by
  induction l with
  | nil => rfl
  | cons x t ih =>
    simp only [List.cons_append, firsts, ih, List.mem_cons]
    by_cases h : k = x
    · subst h
      simp only [true_or, if_true]
      congr 1
      by_cases hk : k ∈ t
      · rw [if_pos hk]
      · rw [if_neg hk, List.filter_append]; simp
    · simp only [h, false_or]
      split
      · rfl
      · rw [List.filter_append]; simp [h]

theorem firsts_nodup (l : List Bytes) : (firsts l).Nodup := by
  induction l with
  | nil => simp [firsts]
  | cons k t ih =>
    rw [firsts, List.nodup_cons]
    exact ⟨by simp [List.mem_filter], ih.filter _⟩

theorem upsert_lookup (a : CookieArgs) (k k' : Bytes) (l : List (Bytes × CookieArgs)) :
    (upsert a k l).find? (fun p => p.1 == k') = if k = k' then some (k, a) else l.find? (fun p => p.1 == k') := by
  induction l with
  | nil =>
    by_cases h : k = k'
    · simp [upsert, h]
    · simp [upsert, h]
  | cons p t ih =>
    obtain ⟨x, y⟩ := p
    rw [upsert]
    by_cases hx : x = k
    · subst hx
      simp only [if_true, List.find?_cons]
      by_cases h : x = k'
      · simp [h]
      · have : (x == k') = false := by simpa using h
        simp [this, h]
    · rw [if_neg hx, List.find?_cons, List.find?_cons, ih]
      by_cases hk : k = k'
      · subst hk
        have : (x == k) = false := by simpa using hx
        simp [this]
      · rw [if_neg hk, if_neg hk]

/-- the list after a history: keys and last values -/
theorem foldl_upsert (ps : List (Bytes × CookieArgs)) :
    let l := ps.foldl (fun l p => upsert p.2 p.1 l) []
    l.map (·.1) = firsts (ps.map (·.1)) ∧
    ∀ k, l.find? (fun p => p.1 == k) = ps.reverse.find? (fun p => p.1 == k) := by
  have : ∀ qs : List (Bytes × CookieArgs), (qs.reverse.foldl (fun l p => upsert p.2 p.1 l) []).map (·.1) = firsts (qs.reverse.map (·.1)) ∧
      ∀ k, (qs.reverse.foldl (fun l p => upsert p.2 p.1 l) []).find? (fun p => p.1 == k) = qs.find? (fun p => p.1 == k) := by
    intro qs
    induction qs with
    | nil => simp [firsts]
    | cons p t ih =>
      obtain ⟨ih1, ih2⟩ := ih
      constructor
      · rw [List.reverse_cons, List.foldl_append, List.foldl_cons, List.foldl_nil, upsert_keys, ih1, List.map_append,
          List.map_cons, List.map_nil, firsts_snoc]
        simp only [firsts_mem]
      · intro k
        rw [List.reverse_cons, List.foldl_append, List.foldl_cons, List.foldl_nil, upsert_lookup, ih2, List.find?_cons]
        by_cases h : p.1 = k
        · subst h; simp
        · have : (p.1 == k) = false := by simpa using h
          simp [h, this]
  have h := this ps.reverse
  rw [List.reverse_reverse] at h
  exact h

/-! ## Set-Cookie text -/

theorem pieces_fields (d : UInt8) (a : Bytes) (fs : List Bytes) (ha : d ∉ a) (hf : ∀ f ∈ fs, d ∉ f) :
    pieces d (a ++ (fs.map (fun f => d :: f)).flatten) = a :: fs := by
  induction fs generalizing a with
  | nil =>
    rw [List.map_nil, List.flatten_nil, List.append_nil, pieces_cut, cut_none d a ha]
  | cons f t ih =>
    rw [List.map_cons, List.flatten_cons, List.cons_append, pieces_cut, cut_found d a _ ha]
    simp only
    rw [ih f (hf f (by simp)) (fun x hx => hf x (by simp [hx]))]

theorem pair_eq (a b : Bytes) (h : (0x3d : UInt8) ∉ a) : pair (a ++ 0x3d :: b) = (a, some b) := by
  rw [← cut_pair, cut_found _ _ _ h]

theorem pair_bare (a : Bytes) (h : (0x3d : UInt8) ∉ a) : pair a = (a, none) := by
  rw [← cut_pair, cut_none _ _ h]

/-- an optional " Name=value" field -/
def field (name : Bytes) (v : Option Bytes) : List Bytes := v.toList.map (fun v => 0x20 :: name ++ 0x3d :: v)

theorem attr_field (name : Bytes) (v : Option Bytes) : attr name v = ((field name v).map (fun f => 0x3b :: f)).flatten := by
  cases v <;> simp [attr, field]

/-- Max-Age text -/
def maxAgeText (n : Nat) : Option Bytes := if 0 < n then some (decimalInt (asInt n)) else none

/-- SameSite text -/
def sameSiteName (n : Nat) : Option Bytes :=
  if n = 1 then some b!"Strict" else if n = 2 then some b!"Lax" else if n = 3 then some b!"None" else none

theorem sameSite_field (n : Nat) : sameSiteText n = attr b!"SameSite" (sameSiteName n) := by
  unfold sameSiteText sameSiteName
  split
  · rfl
  · split
    · rfl
    · split <;> rfl

/-- the fields after name=value -/
def headerFields (expires : Option Bytes) (maxAge : Nat) (domain path : Option Bytes) (secure httpOnly : Bool) (ss : Nat) : List Bytes :=
  field b!"Expires" expires ++ field b!"Max-Age" (maxAgeText maxAge) ++ field b!"Domain" domain ++ field b!"Path" path ++
    (if secure then [b!" Secure"] else []) ++ (if httpOnly then [b!" HttpOnly"] else []) ++ field b!"SameSite" (sameSiteName ss)

theorem cookieHeader_eq (a : CookieArgs) (k : Bytes) :
    cookieHeader (a.cookie k) = .ok ((k ++ 0x3d :: a.value.getD []) ++
      ((headerFields a.expires a.maxAge a.domain a.path a.secure a.httpOnly a.sameSite).map (fun f => 0x3b :: f)).flatten) := by
  have hr : ∀ o, read (dup o) = .ok o := by intro o; cases o <;> rfl
  have hr2 : ∀ s, read (.to s) = .ok (some s) := fun _ => rfl
  unfold cookieHeader CookieArgs.cookie
  simp only [hr, hr2, Res.ok_bind]
  unfold headerFields
  simp only [List.map_append, List.flatten_append, ← attr_field, sameSite_field]
  simp only [str, maxAgeText]
  show Res.ok _ = _
  congr 1
  simp only [List.append_assoc, List.cons_append, List.nil_append]
  cases a.secure <;> cases a.httpOnly <;> simp

end Verif.Message
