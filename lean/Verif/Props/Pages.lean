import Verif.Model.Pages
import Verif.Props.Multiple
import Verif.Props.UrlCodec
import Verif.Lemmas.UrlParams
import Verif.Spec.Utf8
/-!
# C171: the simple example shows what it received

Full statement: each request to the simple example selects at most one endpoint; the page it gets contains the method, the URL and, one per line and in
order, every parameter of the URL, cookie, header and post parameter, or it is 404; writing the page stays inside the memory allocated for it; and the page
determines the parameters. The last part is false (`C171_forged_false`, `C171_absent_false`), and the memory is only right below 2 GiB (`C171_large_false`).
-/
namespace Verif.Props
open Verif.UMap Verif.Message Verif.Answer Verif.Pages
open Verif.Endpoint (Endpoint EndpointMatch matchLoop slashWords formatMatch splitUrl sel)
open Verif.Spec.Segments (segments)
open Verif.Spec.OMap (OMap lookup put)
open Verif.Spec.Url (PctDecodes)
open Verif.Spec.Utf8 (IsUtf8)

/-! ## Specification -/

/-- The line of an entry. -/
def entryLine (p : Bytes × Option Bytes) : Bytes := b!"key is " ++ p.1 ++ b!", value is " ++ p.2.getD b!"(null)"

/-- The text for the entries of a map. -/
def listing (ps : OMap) : Bytes := if ps = [] then b!"(null)" else joinLines (ps.map entryLine)

/-- What the requests of the example are told. -/
def fullPage (verb url : Bytes) (params cookies headers post : OMap) (user : Option Bytes) (client : Bytes) : Bytes :=
  joinLines [b!"Hello World!", [], b!"  method is " ++ verb, b!"  url is " ++ url, [], b!"  parameters from the url are ", listing params, [],
    b!"  cookies are ", listing cookies, [], b!"  headers are ", listing headers, [], b!"  post parameters are ", listing post, [],
    b!"  user data is " ++ user.getD b!"(null)", [], b!"client address is " ++ client, [], []]

/-- The method, whatever its case. -/
def isMethod (method name : Bytes) : Bool := fold method == fold name

/-- The number of the endpoint for a method and the segments of a path. -/
def place (method : Bytes) : List Bytes → Option Nat
  | [a] => if a = b!"test" then (if isMethod method b!"GET" then some 0 else if isMethod method b!"POST" then some 3 else none) else none
  | [a, b] => if a = b!"test" ∧ b = b!"empty" ∧ isMethod method b!"GET" then some 1 else none
  | [a, b, _] =>
    if a = b!"test" ∧ b = b!"param" then
      (if isMethod method b!"GET" then some 4 else if isMethod method b!"POST" then some 5 else if isMethod method b!"PUT" then some 6
        else if isMethod method b!"DELETE" then some 7 else none)
    else if a = b!"testcookie" ∧ isMethod method b!"GET" then some 8 else none
  | [a, b, _, _, _] => if a = b!"test" ∧ b = b!"multiple" ∧ isMethod method b!"GET" then some 2 else none
  | _ => none

/-- The names of the variable segments, which follow the first two. -/
def segmentNames : Nat → List Bytes
  | 2 => [b!"multiple", b!"multiple", b!"not_multiple"]
  | 4 | 5 | 6 | 7 => [b!"foo"]
  | _ => []

open Classical in
/-- A variable segment joins the parameters: after those of the same name, unless it is not UTF-8 and this is checked. -/
noncomputable def addParam (check : Bool) (m : OMap) (p : Bytes × Bytes) : OMap :=
  if check = true ∧ ¬ IsUtf8 p.2 then m
  else put m p.1 (some (match lookup m p.1 with
    | none => p.2
    | some old => old.getD b!"(null)" ++ b!"," ++ p.2))

/-- The parameters of a URL whose path has the decoded segments `xs`. -/
noncomputable def urlParams (check : Bool) (n : Nat) (xs : List Bytes) (query : OMap) : OMap :=
  ((segmentNames n).zip (xs.drop 2)).foldl (addParam check) query

/-- Segments and what they stand for. -/
inductive DecodesAll : List Bytes → List Bytes → Prop
  | nil : DecodesAll [] []
  | cons {s x ss xs} : PctDecodes s x → DecodesAll ss xs → DecodesAll (s :: ss) (x :: xs)

/-- The entries can be keys and values of a map. -/
def Entries (ps : OMap) : Prop :=
  (ps.map (·.1)).Nodup ∧ ∀ p ∈ ps, p.1 ≠ [] ∧ NoNul p.1 ∧ ∀ v, p.2 = some v → NoNul v

/-- The body of the answer of endpoint `n`. -/
def bodyFor (n : Nat) (verb url : Bytes) (params cookies headers post : OMap) (client : Bytes) : Bytes :=
  match n with
  | 0 => b!"Hello World!"
  | 1 => []
  | 3 => joinLines [b!"Hello World!", listing post]
  | 4 => fullPage verb url params cookies headers post (some b!"user data 1") client
  | 5 => fullPage verb url params cookies headers post (some b!"user data 2") client
  | 6 => fullPage verb url params cookies headers post (some b!"user data 3") client
  | 7 => fullPage verb url params cookies headers post (some b!"user data 4") client
  | _ => fullPage verb url params cookies headers post none client

/-! ## Proofs: print_map -/

private def tailOf (ps : OMap) : Bytes := ps.flatMap (fun p => 0x0a :: entryLine p)

private theorem join_cons (x : Bytes) (t : List Bytes) : joinLines (x :: t) = x ++ t.flatMap (fun y => 0x0a :: y) := by
  induction t generalizing x with
  | nil => simp [joinLines]
  | cons y t ih =>
    show x ++ 0x0a :: joinLines (y :: t) = _
    rw [ih]
    simp

private theorem join_entries (p : Bytes × Option Bytes) (ps : OMap) : joinLines ((p :: ps).map entryLine) = entryLine p ++ tailOf ps := by
  rw [List.map_cons, join_cons, tailOf, List.flatMap_map]

private theorem line_eq (p : Bytes × Option Bytes) (h : (entryLine p).length + 1 < 2 ^ 31) : line p.1 p.2 = .ok (entryLine p) := by
  have : b!"key is " ++ p.1 ++ b!", value is " ++ Printf.str p.2 = entryLine p := by
    unfold entryLine
    cases p.2 <;> rfl
  unfold line
  simp only [this]
  rw [if_pos h]

private theorem textOf_eq (m : UMap) (k : Bytes) : textOf m k = getStr m k := rfl

private theorem entry_ne (p : Bytes × Option Bytes) : entryLine p ≠ [] := by
  unfold entryLine
  intro h
  cases h

private theorem turn_some (t : Text) (l : Bytes) (hs : t.s ≠ []) (h : t.s.length + l.length + 2 < 2 ^ 31) :
    ∃ n, turn (some t) l = .ok ⟨n, t.s ++ 0x0a :: l⟩ := by
  have h0 : 0 < t.s.length := List.length_pos_iff.2 hs
  refine ⟨t.s.length + l.length + 1 + 1, ?_⟩
  unfold turn
  simp only
  rw [if_pos (by omega), if_pos h0]
  unfold Text.cat
  simp only [List.length_singleton]
  rw [if_pos (by omega)]
  simp only [Res.ok_bind, List.length_append, List.length_singleton]
  rw [if_pos (by omega)]
  simp

private theorem printLoop_some (m : UMap) (ps : OMap) (hg : ∀ p ∈ ps, getStr m p.1 = .ok p.2) (t : Text) (hs : t.s ≠ [])
    (h : t.s.length + (tailOf ps).length + 1 < 2 ^ 31) :
    ∃ t', printLoop m (ps.map (·.1)) (some t) = .ok (some t') ∧ t'.s = t.s ++ tailOf ps := by
  induction ps generalizing t with
  | nil => exact ⟨t, rfl, by simp [tailOf]⟩
  | cons p ps ih =>
    have hl : (tailOf (p :: ps)).length = (entryLine p).length + 1 + (tailOf ps).length := by
      simp [tailOf]; omega
    obtain ⟨n, hn⟩ := turn_some t (entryLine p) hs (by omega)
    obtain ⟨t', e1, e2⟩ := ih (fun q hq => hg q (List.mem_cons_of_mem _ hq)) ⟨n, t.s ++ 0x0a :: entryLine p⟩ (by simp)
      (by simp only [List.length_append, List.length_cons]; omega)
    refine ⟨t', ?_, ?_⟩
    · rw [List.map_cons, printLoop, textOf_eq, hg p List.mem_cons_self, Res.ok_bind, line_eq p (by omega), Res.ok_bind, hn, Res.ok_bind]
      exact e1
    · rw [e2]
      simp [tailOf]

/-- **C171, the list of a map.** Whatever strings a map holds, `print_map` returns one line per entry, in the order of the entries, and NULL for an empty map;
nothing is written outside the blocks it allocates. The text is shorter than 2 GiB. -/
theorem C171_list_partial {m : UMap} {ps : OMap} (h : HoldsParams m ps) (hl : (listing ps).length + 1 < 2 ^ 31) :
    printMap m = .ok (if ps = [] then none else some (listing ps)) := by
  unfold printMap
  rw [h.2.1, Res.ok_bind]
  have hg := fun p hp => (h.2.2 p hp).1
  cases ps with
  | nil => rfl
  | cons p ps =>
    have hx : listing (p :: ps) = entryLine p ++ tailOf ps := by
      unfold listing
      rw [if_neg (by simp), join_entries]
    rw [hx] at hl ⊢
    rw [List.length_append] at hl
    have ht : turn none (entryLine p) = .ok ⟨(entryLine p).length + 1, entryLine p⟩ := by
      simp [turn, Text.cat]
    obtain ⟨t', e1, e2⟩ := printLoop_some m ps (fun q hq => hg q (List.mem_cons_of_mem _ hq)) ⟨(entryLine p).length + 1, entryLine p⟩ (entry_ne p)
      (by simp only; omega)
    rw [List.map_cons, printLoop, textOf_eq, hg p List.mem_cons_self, Res.ok_bind, line_eq p (by omega), Res.ok_bind, ht, Res.ok_bind, e1, Res.ok_bind]
    simp [e2]

private theorem list_str {m : UMap} {ps : OMap} (h : HoldsParams m ps) (hl : (listing ps).length + 1 < 2 ^ 31) :
    ∃ o, printMap m = .ok o ∧ Printf.str o = listing ps := by
  refine ⟨_, C171_list_partial h hl, ?_⟩
  unfold listing
  by_cases e : ps = []
  · rw [if_pos e, if_pos e]; rfl
  · rw [if_neg e, if_neg e]; rfl

/-! ## Proofs: which endpoint -/

private abbrev e0 : Endpoint := ⟨some b!"GET", some b!"/test", none, 0, some 0, 0⟩
private abbrev e1 : Endpoint := ⟨some b!"GET", some b!"/test", some b!"/empty", 0, some 1, 0⟩
private abbrev e2 : Endpoint := ⟨some b!"GET", some b!"/test", some b!"/multiple/:multiple/:multiple/:not_multiple", 0, some 2, 0⟩
private abbrev e3 : Endpoint := ⟨some b!"POST", some b!"/test", none, 0, some 3, 0⟩
private abbrev e4 : Endpoint := ⟨some b!"GET", some b!"/test", some b!"/param/:foo", 0, some 2, 1⟩
private abbrev e5 : Endpoint := ⟨some b!"POST", some b!"/test", some b!"/param/:foo", 0, some 2, 2⟩
private abbrev e6 : Endpoint := ⟨some b!"PUT", some b!"/test", some b!"/param/:foo", 0, some 2, 3⟩
private abbrev e7 : Endpoint := ⟨some b!"DELETE", some b!"/test", some b!"/param/:foo", 0, some 2, 4⟩
private abbrev e8 : Endpoint := ⟨some b!"GET", some b!"/testcookie", some b!"/:lang/:extra", 0, some 4, 0⟩

private def one (b : Bool) (e : Endpoint) : List Endpoint := if b then [e] else []

private theorem loop_eq (method url : Bytes) {ws : List Bytes} (hw : segments url = ws) :
    matchLoop method (slashWords url) endpoints = .ok (
      one (eqCase b!"GET" method && formatMatch ws [b!"test"]) e0 ++
      (one (eqCase b!"GET" method && formatMatch ws [b!"test", b!"empty"]) e1 ++
      (one (eqCase b!"GET" method && formatMatch ws [b!"test", b!"multiple", b!":multiple", b!":multiple", b!":not_multiple"]) e2 ++
      (one (eqCase b!"POST" method && formatMatch ws [b!"test"]) e3 ++
      (one (eqCase b!"GET" method && formatMatch ws [b!"test", b!"param", b!":foo"]) e4 ++
      (one (eqCase b!"POST" method && formatMatch ws [b!"test", b!"param", b!":foo"]) e5 ++
      (one (eqCase b!"PUT" method && formatMatch ws [b!"test", b!"param", b!":foo"]) e6 ++
      (one (eqCase b!"DELETE" method && formatMatch ws [b!"test", b!"param", b!":foo"]) e7 ++
      one (eqCase b!"GET" method && formatMatch ws [b!"testcookie", b!":lang", b!":extra"]) e8)))))))) := by
  have h := Endpoint.matchLoop_eq method url [e0, e1, e2, e3, e4, e5, e6, e7, e8] [] Endpoint.emptyEndpoint ⟨rfl, rfl, rfl⟩ (by decide)
  have hcons : ∀ (e : Endpoint) (b : Bool) (t : List Endpoint), sel method url e = b → (e :: t).filter (sel method url) = one b e ++ t.filter (sel method url) := by
    intro e b t hb
    rw [List.filter_cons, hb]
    cases b <;> rfl
  have hs : ∀ (m p : Bytes) (f : Option Bytes) (n k : Nat) (fs : List Bytes), (Endpoint.byte0 m == 0x2a) = false → splitUrl (some p) f = fs →
      sel method url ⟨some m, some p, f, 0, some n, k⟩ = (eqCase m method && formatMatch ws fs) := by
    intro m p f n k fs h1 h
    unfold sel
    rw [Endpoint.slashWords_eq, hw]
    show ((eqCase m method || Endpoint.byte0 m == 0x2a) && formatMatch ws (splitUrl (some p) f)) = _
    rw [h, h1, Bool.or_false]
  refine Eq.trans h (congrArg Res.ok ?_)
  rw [hcons e0 _ _ (hs _ _ _ _ _ [b!"test"] rfl (by decide +kernel)),
    hcons e1 _ _ (hs _ _ _ _ _ [b!"test", b!"empty"] rfl (by decide +kernel)),
    hcons e2 _ _ (hs _ _ _ _ _ [b!"test", b!"multiple", b!":multiple", b!":multiple", b!":not_multiple"] rfl (by decide +kernel)),
    hcons e3 _ _ (hs _ _ _ _ _ [b!"test"] rfl (by decide +kernel)),
    hcons e4 _ _ (hs _ _ _ _ _ [b!"test", b!"param", b!":foo"] rfl (by decide +kernel)),
    hcons e5 _ _ (hs _ _ _ _ _ [b!"test", b!"param", b!":foo"] rfl (by decide +kernel)),
    hcons e6 _ _ (hs _ _ _ _ _ [b!"test", b!"param", b!":foo"] rfl (by decide +kernel)),
    hcons e7 _ _ (hs _ _ _ _ _ [b!"test", b!"param", b!":foo"] rfl (by decide +kernel)),
    hcons e8 _ _ (hs _ _ _ _ _ [b!"testcookie", b!":lang", b!":extra"] rfl (by decide +kernel))]
  simp

private theorem fm_nil {f : Bytes} {fs : List Bytes} (h : (Endpoint.byte0 f == 0x2a) = false) : formatMatch [] (f :: fs) = false := by
  simp [formatMatch, h]

private theorem fm_cons {f u : Bytes} {us fs : List Bytes} (h1 : (Endpoint.byte0 f == 0x2a) = false) (h2 : (Endpoint.byte0 f == 0x40) = false)
    (h3 : (Endpoint.byte0 f == 0x3a) = false) : formatMatch (u :: us) (f :: fs) = (decide (u = f) && formatMatch us fs) := by
  have h2' : (Endpoint.byte0 f != 0x40) = true := by simp [bne, h2]
  have h3' : (Endpoint.byte0 f != 0x3a) = true := by simp [bne, h3]
  simp only [formatMatch, h1, h2', h3', Bool.false_and, Bool.true_and, Bool.false_eq_true, if_false]
  by_cases h : u = f
  · subst h; simp
  · have : (f == u) = false := by rw [beq_eq_false_iff_ne]; exact fun e => h e.symm
    simp [this, h]

private theorem fm_var {f u : Bytes} {us fs : List Bytes} (h1 : (Endpoint.byte0 f == 0x2a) = false) (h3 : (Endpoint.byte0 f == 0x3a) = true) :
    formatMatch (u :: us) (f :: fs) = formatMatch us fs := by
  have h3' : (Endpoint.byte0 f != 0x3a) = false := by simp [bne, h3]
  simp [formatMatch, h1, h3']

private theorem fm_end (us : List Bytes) : formatMatch us [] = us.isEmpty := by cases us <;> rfl

private theorem methods {method : Bytes} (a b : Bytes) (h : isMethod method a = true) (hab : (fold a == fold b) = false) : isMethod method b = false := by
  unfold isMethod at *
  rw [beq_iff_eq] at h
  rw [h, hab]

private theorem eqCase_is (a method : Bytes) : eqCase a method = isMethod method a := by
  unfold eqCase isMethod
  rw [Bool.eq_iff_iff, beq_iff_eq, beq_iff_eq]
  exact ⟨Eq.symm, Eq.symm⟩

private theorem loop_place (method url : Bytes) :
    matchLoop method (slashWords url) endpoints = .ok ((place method (segments url)).toList.filterMap (endpoints[·]?)) := by
  rw [loop_eq method url rfl]
  simp only [eqCase_is]
  congr 1
  generalize segments url = ws
  have hG : isMethod method b!"GET" = true → isMethod method b!"POST" = false ∧ isMethod method b!"PUT" = false ∧ isMethod method b!"DELETE" = false :=
    fun h => ⟨methods _ _ h (by decide), methods _ _ h (by decide), methods _ _ h (by decide)⟩
  have hP : isMethod method b!"POST" = true → isMethod method b!"PUT" = false ∧ isMethod method b!"DELETE" = false :=
    fun h => ⟨methods _ _ h (by decide), methods _ _ h (by decide)⟩
  have hU : isMethod method b!"PUT" = true → isMethod method b!"DELETE" = false := fun h => methods _ _ h (by decide)
  unfold place
  generalize isMethod method b!"GET" = g at *
  generalize isMethod method b!"POST" = p at *
  generalize isMethod method b!"PUT" = u at *
  generalize isMethod method b!"DELETE" = d at *
  match ws with
  | [] => simp [fm_nil, one, show (Endpoint.byte0 b!"test" == 0x2a) = false from rfl, show (Endpoint.byte0 b!"testcookie" == 0x2a) = false from rfl]
  | [a] =>
    rw [fm_cons (f := b!"test") rfl rfl rfl, fm_cons (f := b!"test") rfl rfl rfl, fm_cons (f := b!"test") rfl rfl rfl, fm_cons (f := b!"test") rfl rfl rfl,
      fm_cons (f := b!"testcookie") rfl rfl rfl, fm_nil (f := b!"empty") rfl, fm_nil (f := b!"multiple") rfl, fm_nil (f := b!"param") rfl,
      fm_nil (f := b!":lang") rfl, fm_end]
    by_cases h : a = b!"test" <;> cases g <;> cases p <;> simp_all [one, endpoints]
  | [a, b] =>
    rw [fm_cons (f := b!"test") rfl rfl rfl, fm_cons (f := b!"test") rfl rfl rfl, fm_cons (f := b!"test") rfl rfl rfl, fm_cons (f := b!"test") rfl rfl rfl,
      fm_cons (f := b!"testcookie") rfl rfl rfl, fm_cons (f := b!"empty") rfl rfl rfl, fm_cons (f := b!"multiple") rfl rfl rfl,
      fm_cons (f := b!"param") rfl rfl rfl, fm_var (f := b!":lang") rfl rfl, fm_nil (f := b!":multiple") rfl, fm_nil (f := b!":foo") rfl,
      fm_nil (f := b!":extra") rfl, fm_end, fm_end]
    by_cases h : a = b!"test" <;> by_cases h' : b = b!"empty" <;> cases g <;> simp_all [one, endpoints]
  | [a, b, c] =>
    rw [fm_cons (f := b!"test") rfl rfl rfl, fm_cons (f := b!"test") rfl rfl rfl, fm_cons (f := b!"test") rfl rfl rfl, fm_cons (f := b!"test") rfl rfl rfl,
      fm_cons (f := b!"testcookie") rfl rfl rfl, fm_cons (f := b!"empty") rfl rfl rfl, fm_cons (f := b!"multiple") rfl rfl rfl,
      fm_cons (f := b!"param") rfl rfl rfl, fm_var (f := b!":lang") rfl rfl, fm_var (f := b!":multiple") rfl rfl, fm_nil (f := b!":multiple") rfl,
      fm_var (f := b!":foo") rfl rfl, fm_var (f := b!":extra") rfl rfl, fm_end, fm_end, fm_end]
    by_cases h : a = b!"test"
    · by_cases h' : b = b!"param" <;> cases g <;> cases p <;> cases u <;> cases d <;> simp_all [one, endpoints]
    · by_cases h' : a = b!"testcookie" <;> cases g <;> simp_all [one, endpoints]
  | [a, b, c, d'] =>
    rw [fm_cons (f := b!"test") rfl rfl rfl, fm_cons (f := b!"test") rfl rfl rfl, fm_cons (f := b!"test") rfl rfl rfl, fm_cons (f := b!"test") rfl rfl rfl,
      fm_cons (f := b!"testcookie") rfl rfl rfl, fm_cons (f := b!"empty") rfl rfl rfl, fm_cons (f := b!"multiple") rfl rfl rfl,
      fm_cons (f := b!"param") rfl rfl rfl, fm_var (f := b!":lang") rfl rfl, fm_var (f := b!":multiple") rfl rfl, fm_var (f := b!":multiple") rfl rfl,
      fm_nil (f := b!":not_multiple") rfl, fm_var (f := b!":foo") rfl rfl, fm_var (f := b!":extra") rfl rfl, fm_end, fm_end, fm_end]
    simp [one]
  | [a, b, c, d', e] =>
    rw [fm_cons (f := b!"test") rfl rfl rfl, fm_cons (f := b!"test") rfl rfl rfl, fm_cons (f := b!"test") rfl rfl rfl, fm_cons (f := b!"test") rfl rfl rfl,
      fm_cons (f := b!"testcookie") rfl rfl rfl, fm_cons (f := b!"empty") rfl rfl rfl, fm_cons (f := b!"multiple") rfl rfl rfl,
      fm_cons (f := b!"param") rfl rfl rfl, fm_var (f := b!":lang") rfl rfl, fm_var (f := b!":multiple") rfl rfl, fm_var (f := b!":multiple") rfl rfl,
      fm_var (f := b!":not_multiple") rfl rfl, fm_var (f := b!":foo") rfl rfl, fm_var (f := b!":extra") rfl rfl, fm_end, fm_end, fm_end, fm_end]
    by_cases h : a = b!"test" <;> by_cases h' : b = b!"multiple" <;> cases g <;> simp_all [one, endpoints]
  | a :: b :: c :: d' :: e :: f :: t =>
    rw [fm_cons (f := b!"test") rfl rfl rfl, fm_cons (f := b!"test") rfl rfl rfl, fm_cons (f := b!"test") rfl rfl rfl, fm_cons (f := b!"test") rfl rfl rfl,
      fm_cons (f := b!"testcookie") rfl rfl rfl, fm_cons (f := b!"empty") rfl rfl rfl, fm_cons (f := b!"multiple") rfl rfl rfl,
      fm_cons (f := b!"param") rfl rfl rfl, fm_var (f := b!":lang") rfl rfl, fm_var (f := b!":multiple") rfl rfl, fm_var (f := b!":multiple") rfl rfl,
      fm_var (f := b!":not_multiple") rfl rfl, fm_var (f := b!":foo") rfl rfl, fm_var (f := b!":extra") rfl rfl, fm_end, fm_end, fm_end, fm_end]
    simp [one]

/-- **C171, one endpoint.** Whatever the method and the URL, the endpoints selected are the one of the table `place`, or none: the order in which the library
sorts endpoints of equal priority plays no role. -/
theorem C171_one (method url : Bytes) (r : List Endpoint) :
    EndpointMatch method url endpoints r ↔ r = (place method (segments url)).toList.filterMap (endpoints[·]?) := by
  constructor
  · rintro ⟨l, h1, h2, -⟩
    rw [loop_place] at h1
    injection h1 with h1
    subst h1
    cases hp : place method (segments url) with
    | none => rw [hp] at h2; exact h2.symm.eq_nil
    | some n =>
      rw [hp] at h2
      simp only [Option.toList, List.filterMap_cons, List.filterMap_nil] at h2 ⊢
      cases he : endpoints[n]? with
      | none => rw [he] at h2; exact h2.symm.eq_nil
      | some e => rw [he] at h2; exact h2.symm.eq_singleton
  · rintro rfl
    refine ⟨_, loop_place method url, .refl _, ?_⟩
    cases place method (segments url) with
    | none => exact .nil
    | some n =>
      simp only [Option.toList, List.filterMap_cons, List.filterMap_nil]
      cases endpoints[n]? with
      | none => exact .nil
      | some e => exact List.pairwise_singleton _ _

/-! ## Proofs: the parameters of the URL -/

private theorem decodes_mem {ss xs : List Bytes} (h : DecodesAll ss xs) : ∀ x ∈ xs, NoNul x := by
  induction h with
  | nil => intro x hx; cases hx
  | @cons s x ss xs h1 h2 ih =>
    intro y hy
    rcases List.mem_cons.1 hy with rfl | hy
    · have hn : NoNul s := by
        clear h2 ih hy
        induction h1 with
        | nil => simp [NoNul]
        | plain c s t h0 _ _ _ ih => simp only [NoNul, List.mem_cons, not_or] at ih ⊢; exact ⟨fun e => h0 e.symm, ih⟩
        | plus s t _ ih => simp only [NoNul, List.mem_cons, not_or] at ih ⊢; exact ⟨by decide, ih⟩
        | pct a b v w s t hv hw hz _ ih =>
          simp only [NoNul, List.mem_cons, not_or] at ih ⊢
          refine ⟨by decide, ?_, ?_, ih⟩
          · rintro rfl; cases hv
          · rintro rfl; cases hw
      obtain ⟨t, h3, h4, -⟩ := C03_decode_safe s hn
      rw [C04_decode_spec s y h1] at h3
      cases h3
      exact h4
    · exact ih y hy

private theorem entries_put {m : OMap} (h : Entries m) {k v : Bytes} (hk : k ≠ []) (hkn : NoNul k) (hv : NoNul v) : Entries (put m k (some v)) := by
  unfold Spec.OMap.put
  by_cases ha : m.any (fun p => p.1 == k) = true
  · rw [if_pos ha]
    refine ⟨?_, ?_⟩
    · have : (m.map (fun p => if p.1 == k then (k, some v) else p)).map (·.1) = m.map (·.1) := by
        rw [List.map_map]
        apply List.map_congr_left
        intro p _
        by_cases hp : p.1 = k
        · simp [hp]
        · simp [hp]
      rw [this]
      exact h.1
    · intro p hp
      obtain ⟨q, hq, rfl⟩ := List.mem_map.1 hp
      by_cases hqk : (q.1 == k) = true
      · rw [if_pos hqk]
        exact ⟨hk, hkn, fun x hx => by cases hx; exact hv⟩
      · rw [if_neg hqk]
        exact h.2 q hq
  · rw [if_neg ha]
    refine ⟨?_, ?_⟩
    · rw [List.map_append, List.nodup_append]
      refine ⟨h.1, List.pairwise_singleton _ _, ?_⟩
      intro a hx b hb
      rw [List.map_singleton, List.mem_singleton] at hb
      subst hb
      obtain ⟨p, hp, rfl⟩ := List.mem_map.1 hx
      intro e
      exact ha (List.any_eq_true.2 ⟨p, hp, by simpa using e⟩)
    · intro p hp
      rcases List.mem_append.1 hp with hp | hp
      · exact h.2 p hp
      · rw [List.mem_singleton.1 hp]
        exact ⟨hk, hkn, fun x hx => by cases hx; exact hv⟩

private theorem lookup_mem {m : OMap} {k : Bytes} {o : Option Bytes} (h : lookup m k = some o) : ∃ p ∈ m, p.2 = o := by
  unfold lookup at h
  cases hf : m.find? (fun p => p.1 == k) with
  | none => rw [hf] at h; cases h
  | some p => rw [hf] at h; cases h; exact ⟨p, List.mem_of_find?_eq_some hf, rfl⟩

private theorem noNul_append {a b : Bytes} (ha : NoNul a) (hb : NoNul b) : NoNul (a ++ b) := by
  unfold NoNul at *
  rw [List.mem_append]
  rintro (h | h)
  · exact ha h
  · exact hb h

private theorem entries_add {check : Bool} {m : OMap} (h : Entries m) {p : Bytes × Bytes} (hk : p.1 ≠ []) (hkn : NoNul p.1) (hv : NoNul p.2) :
    Entries (addParam check m p) := by
  unfold addParam
  split
  · exact h
  · apply entries_put h hk hkn
    cases hl : lookup m p.1 with
    | none => exact hv
    | some o =>
      obtain ⟨q, hq, rfl⟩ := lookup_mem hl
      refine noNul_append (noNul_append ?_ (by decide)) hv
      cases h2 : q.2 with
      | none => simp only [Option.getD_none]; decide
      | some x => exact (h.2 q hq).2.2 x h2

private theorem paramStep (check : Bool) (m : OMap) (f u x : Bytes) (fs us : List Bytes) (hd : PctDecodes u x) (hf : f ≠ []) :
    Endpoint.paramLoop check ((0x3a :: f) :: fs) (u :: us) m = Endpoint.paramLoop check fs us (addParam check m (f, x)) := by
  rw [Endpoint.paramLoop, C04_decode_spec u x hd, Res.ok_bind]
  simp only [Option.getD_some]
  have h1 : (Endpoint.byte0 (0x3a :: f) == 0x3a || Endpoint.byte0 (0x3a :: f) == 0x40) = true := rfl
  rw [h1, Bool.true_and]
  have hu : (!check || Utf8.utf8Ok x) = true ↔ ¬ (check = true ∧ ¬ IsUtf8 x) := by
    rw [Bool.or_eq_true, C05_utf8Ok]
    cases check <;> simp
  have hfe : (List.drop 1 (0x3a :: f)).isEmpty = false := by
    cases f with
    | nil => exact absurd rfl hf
    | cons _ _ => rfl
  unfold addParam
  by_cases h : check = true ∧ ¬ IsUtf8 x
  · rw [if_neg (fun h' => hu.1 h' h), if_pos h]
  · rw [if_pos (hu.2 h), if_neg h, hfe]
    simp only [Bool.false_eq_true, if_false, List.drop_succ_cons, List.drop_zero]
    cases lookup m f <;> rfl

private theorem paramSkip (check : Bool) (m : OMap) (f u x : Bytes) (fs us : List Bytes) (hd : PctDecodes u x)
    (h : (Endpoint.byte0 f == 0x3a || Endpoint.byte0 f == 0x40) = false) :
    Endpoint.paramLoop check (f :: fs) (u :: us) m = Endpoint.paramLoop check fs us m := by
  rw [Endpoint.paramLoop, C04_decode_spec u x hd, Res.ok_bind, h]
  rfl

private theorem paramEnd (check : Bool) (m : OMap) (us : List Bytes) : Endpoint.paramLoop check [] us m = .ok (.ok, m) := by
  cases us <;> rfl

/-- What the callback of an endpoint finds in the map of the URL. -/
private theorem url_eq {method url : Bytes} {n : Nat} (hp : place method (segments url) = some n) (h8 : n ≠ 8) {xs : List Bytes}
    (hd : DecodesAll (segments url) xs) (check : Bool) (query : OMap) (hq : Entries query) :
    ∃ e, endpoints[n]? = some e ∧ Endpoint.callbackUrlMap url e query check = .ok (.ok, urlParams check n xs query) ∧ Entries (urlParams check n xs query) := by
  have hx := decodes_mem hd
  have hfold : query.foldl (fun m p => put m p.1 p.2) [] = query := by
    have := Endpoint.foldl_put query [] (by simpa using hq.1)
    simpa using this
  have hcb : ∀ e, Endpoint.callbackUrlMap url e query check =
      Endpoint.paramLoop check (segments (e.format.getD [])) ((segments url).drop (segments (e.pfx.getD [])).length) query := by
    intro e
    unfold Endpoint.callbackUrlMap
    rw [hfold, Endpoint.parseUrl_eq]
  have hpre : (segments b!"/test").length = 1 := by decide +kernel
  have hmul : segments b!"/multiple/:multiple/:multiple/:not_multiple" = [b!"multiple", b!":multiple", b!":multiple", b!":not_multiple"] := by decide +kernel
  have hpar : segments b!"/param/:foo" = [b!"param", b!":foo"] := by decide +kernel
  have hemp : segments b!"/empty" = [b!"empty"] := by decide +kernel
  have hnil : segments [] = [] := by decide +kernel
  have p0 : ∀ us, Endpoint.paramLoop check (segments []) us query = .ok (.ok, query) := by
    intro us
    rw [hnil, paramEnd]
  have foo : ∀ n, (n = 4 ∨ n = 5 ∨ n = 6 ∨ n = 7) → ∀ a b c, segments url = [a, b, c] →
      (∀ e, e.pfx = some b!"/test" → e.format = some b!"/param/:foo" →
        Endpoint.callbackUrlMap url e query check = .ok (.ok, urlParams check n xs query)) ∧ Entries (urlParams check n xs query) := by
    intro n hn a b c hs
    rw [hs] at hd
    obtain ⟨⟩ | @⟨_, x1, _, _, d1, d⟩ := hd
    obtain ⟨⟩ | @⟨_, x2, _, _, d2, d⟩ := d
    obtain ⟨⟩ | @⟨_, x3, _, _, d3, d⟩ := d
    obtain ⟨⟩ := d
    have hur : urlParams check n [x1, x2, x3] query = addParam check query (b!"foo", x3) := by
      rcases hn with rfl | rfl | rfl | rfl <;> rfl
    rw [hur]
    refine ⟨?_, entries_add hq (by simp only; decide) (by simp only; decide) (hx _ (by simp))⟩
    intro e h1 h2
    rw [hcb, h1, h2, hs, Option.getD_some, Option.getD_some, hpre, hpar]
    show Endpoint.paramLoop check [b!"param", b!":foo"] [b, c] query = _
    rw [paramSkip _ _ _ _ _ _ _ d2 rfl, paramStep _ _ _ _ _ _ _ d3 (by decide), paramEnd]
  unfold place at hp
  split at hp
  · split at hp
    · split at hp
      · cases hp
        exact ⟨_, rfl, (hcb _).trans (p0 _), hq⟩
      · split at hp
        · cases hp
          exact ⟨_, rfl, (hcb _).trans (p0 _), hq⟩
        · cases hp
    · cases hp
  · rename_i a b hs
    split at hp
    · cases hp
      refine ⟨_, rfl, ?_, hq⟩
      rw [hs] at hd
      obtain ⟨⟩ | @⟨_, x1, _, _, d1, d⟩ := hd
      obtain ⟨⟩ | @⟨_, x2, _, _, d2, d⟩ := d
      rw [hcb, hs]
      simp only [Option.getD_some, hpre, hemp]
      show Endpoint.paramLoop check [b!"empty"] [b] query = _
      rw [paramSkip _ _ _ _ _ _ _ d2 rfl, paramEnd]
      rfl
    · cases hp
  · rename_i a b c hs
    split at hp
    · split at hp
      · cases hp
        exact ⟨_, rfl, (foo 4 (by simp) a b c hs).1 _ rfl rfl, (foo 4 (by simp) a b c hs).2⟩
      · split at hp
        · cases hp
          exact ⟨_, rfl, (foo 5 (by simp) a b c hs).1 _ rfl rfl, (foo 5 (by simp) a b c hs).2⟩
        · split at hp
          · cases hp
            exact ⟨_, rfl, (foo 6 (by simp) a b c hs).1 _ rfl rfl, (foo 6 (by simp) a b c hs).2⟩
          · split at hp
            · cases hp
              exact ⟨_, rfl, (foo 7 (by simp) a b c hs).1 _ rfl rfl, (foo 7 (by simp) a b c hs).2⟩
            · cases hp
    · split at hp
      · cases hp
        exact absurd rfl h8
      · cases hp
  · rename_i a b c d' e' hs
    split at hp
    · cases hp
      rw [hs] at hd
      obtain ⟨⟩ | @⟨_, x1, _, _, d1, d⟩ := hd
      obtain ⟨⟩ | @⟨_, x2, _, _, d2, d⟩ := d
      obtain ⟨⟩ | @⟨_, x3, _, _, d3, d⟩ := d
      obtain ⟨⟩ | @⟨_, x4, _, _, d4, d⟩ := d
      obtain ⟨⟩ | @⟨_, x5, _, _, d5, d⟩ := d
      obtain ⟨⟩ := d
      refine ⟨_, rfl, ?_, ?_⟩
      · rw [hcb, hs]
        simp only [Option.getD_some, hpre, hmul]
        show Endpoint.paramLoop check [b!"multiple", b!":multiple", b!":multiple", b!":not_multiple"] [b, c, d', e'] query = _
        rw [paramSkip _ _ _ _ _ _ _ d2 rfl, paramStep _ _ _ _ _ _ _ d3 (by decide), paramStep _ _ _ _ _ _ _ d4 (by decide),
          paramStep _ _ _ _ _ _ _ d5 (by decide), paramEnd]
        rfl
      · exact entries_add (entries_add (entries_add hq (by simp only; decide) (by simp only; decide) (hx _ (by simp))) (by simp only; decide) (by simp only; decide) (hx _ (by simp)))
          (by simp only; decide) (by simp only; decide) (hx _ (by simp))
    · cases hp
  · cases hp

private theorem fillUrl_eq (ps ms : OMap) (m : UMap) (h : HoldsParams m ms) (hn : ((ms ++ ps).map (·.1)).Nodup)
    (hp : ∀ p ∈ ps, p.1 ≠ [] ∧ NoNul p.1 ∧ ∀ v, p.2 = some v → NoNul v ∧ v.length + 2 < 2 ^ 64) :
    ∃ m', fillUrl ps m = .ok m' ∧ HoldsParams m' (ms ++ ps) := by
  induction ps generalizing ms m with
  | nil => exact ⟨m, rfl, by simpa using h⟩
  | cons p ps ih =>
    obtain ⟨k, v⟩ := p
    have hp0 := hp (k, v) List.mem_cons_self
    obtain ⟨m1, h1, h2⟩ := holds_put h k v hp0.1 hp0.2.1 hp0.2.2
    have hput : put ms k v = ms ++ [(k, v)] := by
      unfold Spec.OMap.put
      rw [if_neg]
      intro ha
      obtain ⟨q, hq, e⟩ := List.any_eq_true.1 ha
      rw [List.map_append, List.nodup_append] at hn
      exact hn.2.2 q.1 (List.mem_map.2 ⟨q, hq, rfl⟩) k (by simp) (by simpa using e)
    rw [hput] at h2
    obtain ⟨m', h3, h4⟩ := ih _ m1 h2 (by simpa using hn) (fun q hq => hp q (List.mem_cons_of_mem _ hq))
    refine ⟨m', ?_, by simpa using h4⟩
    rw [fillUrl, h1, Res.ok_bind]
    exact h3

private theorem mem_tail {p : Bytes × Option Bytes} {ps : OMap} (h : p ∈ ps) : (entryLine p).length ≤ (tailOf ps).length := by
  induction ps with
  | nil => cases h
  | cons q t ih =>
    have hl : (tailOf (q :: t)).length = (entryLine q).length + 1 + (tailOf t).length := by
      simp [tailOf]; omega
    rcases List.mem_cons.1 h with rfl | h
    · omega
    · have := ih h; omega

private theorem mem_listing {p : Bytes × Option Bytes} {ps : OMap} (h : p ∈ ps) {v : Bytes} (hv : p.2 = some v) : v.length ≤ (listing ps).length := by
  have h1 : v.length ≤ (entryLine p).length := by
    unfold entryLine
    rw [hv]
    simp only [List.length_append, Option.getD_some]
    omega
  cases ps with
  | nil => cases h
  | cons q t =>
    have hx : listing (q :: t) = entryLine q ++ tailOf t := by
      unfold listing
      rw [if_neg (by simp), join_entries]
    rw [hx, List.length_append]
    rcases List.mem_cons.1 h with rfl | h
    · omega
    · have := mem_tail h; omega

/-! ## Proofs: the page -/

private def M : UMap := rep [⟨b!"Access-Control-Allow-Origin", strBuf b!"*" ++ [some 0], 2⟩]

private theorem defaults_eq : Pages.defaults = .ok M := by decide +kernel

private theorem init_eq : initHeaders (some M) = .ok M := by decide +kernel

private theorem M_holds : HoldsParams M [(b!"Access-Control-Allow-Origin", some b!"*")] := by
  obtain ⟨m, e1, e2⟩ := holds_put holds_init b!"Access-Control-Allow-Origin" (some b!"*") (by decide) (by decide)
    (by intro x hx; cases hx; decide)
  have : UMap.put UMap.init (some b!"Access-Control-Allow-Origin") (some b!"*") = .ok (.ok, M) := by decide +kernel
  rw [this] at e1
  injection e1 with e1
  injection e1 with _ e1
  exact e1 ▸ e2

private theorem takes {accept : List Field → Bytes → Bytes → Bool} (hacc : accept [] b!"Access-Control-Allow-Origin" b!"*" = true) :
    Takes accept [] (linesOf [(b!"Access-Control-Allow-Origin", some b!"*")] []) := by
  intro x f y e
  cases x with
  | nil =>
    injection e with e _
    subst e
    exact hacc
  | cons z t => simp [linesOf] at e

private theorem serves_one {accept : List Field → Bytes → Bytes → Bool} (hacc : accept [] b!"Access-Control-Allow-Origin" b!"*" = true) {q : Req} {n : Nat}
    {e : Endpoint} (hp : place q.verb (segments q.urlPath) = some n) (he : endpoints[n]? = some e) {r : Response} (hr : run q e { header := M } = .ok (0, r))
    (hst : r.stream = none) {body : Bytes} (hb : HoldsResp r [(b!"Access-Control-Allow-Origin", some b!"*")] [] body) (a : Res (Option Ans)) :
    Pages.Serves accept q a ↔ a = .ok (levelPage r.status none body) := by
  have hcb : callbackOf q e 0 ⟨{ header := M }, false, false⟩ = (0, ⟨r, false, false⟩) := by
    unfold callbackOf
    simp only [hr]
  have h1 := dispatch_single ⟨accept, fun _ => .failed, none, some M⟩ (callbackOf q e) (some Pages.notFound) false init_eq hcb (.inl rfl) hst rfl hb (takes hacc)
  have key : (do
      let cfg ← Pages.instanceOf accept
      let (ans, evs) ← dispatch cfg ([e].map (callbackOf q)) (some Pages.notFound) false
      if evs.any (fun e => e.after.user) then .ub else return ans : Res (Option Ans)) = .ok (levelPage r.status none body) := by
    simp only [Pages.instanceOf, defaults_eq, Res.ok_bind, Res.pure_eq, List.map_cons, List.map_nil, h1]
    rfl
  unfold Pages.Serves
  constructor
  · rintro ⟨l, h, e'⟩
    rw [C171_one, hp] at h
    simp only [Option.toList, List.filterMap_cons, List.filterMap_nil, he] at h
    subst h
    rw [e', ← key]
  · rintro rfl
    refine ⟨[e], ?_, key.symm⟩
    rw [C171_one, hp]
    simp only [Option.toList, List.filterMap_cons, List.filterMap_nil, he]

private def after (body : Bytes) : Response := { header := M, body := some (body ++ [0]), bodyLen := body.length, status := 200 }

private theorem after_holds (body : Bytes) : HoldsResp (after body) [(b!"Access-Control-Allow-Origin", some b!"*")] [] body := by
  refine ⟨M_holds, rfl, by simp [after, bodyOf], ?_⟩
  intro b hb
  injection hb with hb
  subst hb
  simp [after]

private theorem send_eq (t : Bytes) (h : t.length + 1 < 2 ^ 31) : sendText { header := M } t = .ok (0, after t) := by
  unfold sendText
  rw [if_pos h]
  rfl

set_option maxRecDepth 10000 in
private theorem page_eq (verb url client a b c d u : Bytes) :
    joinLines [b!"Hello World!", [], b!"  method is " ++ verb, b!"  url is " ++ url, [], b!"  parameters from the url are ", a, [],
      b!"  cookies are ", b, [], b!"  headers are ", c, [], b!"  post parameters are ", d, [],
      b!"  user data is " ++ u, [], b!"client address is " ++ client, [], []] =
    b!"Hello World!\n\n  method is " ++ verb ++ b!"\n  url is " ++ url ++ b!"\n\n  parameters from the url are \n" ++ a ++
    b!"\n\n  cookies are \n" ++ b ++ b!"\n\n  headers are \n" ++ c ++ b!"\n\n  post parameters are \n" ++ d ++
    b!"\n\n  user data is " ++ u ++ b!"\n\nclient address is " ++ client ++ b!"\n\n" := by
  simp only [joinLines, List.append_assoc]
  rfl

private theorem page_len (verb url : Bytes) (a b c d : OMap) (u : Option Bytes) (client : Bytes) :
    (listing a).length + (listing b).length + (listing c).length + (listing d).length + 20 < (fullPage verb url a b c d u client).length := by
  unfold fullPage
  rw [page_eq]
  simp only [List.length_append]
  have : b!"Hello World!\n\n  method is ".length = 26 := rfl
  omega

private theorem all_eq {q : Req} {mu : UMap} {up cs hs ps : OMap} (hu : HoldsParams mu up) (hc : HoldsParams q.cookies cs) (hh : HoldsParams q.headers hs)
    (hp : HoldsParams q.post ps) (u : Option Bytes) (hl : (fullPage q.verb q.httpUrl up cs hs ps u q.client).length + 1 < 2 ^ 31) :
    allTest q mu u { header := M } = .ok (0, after (fullPage q.verb q.httpUrl up cs hs ps u q.client)) := by
  have := page_len q.verb q.httpUrl up cs hs ps u q.client
  obtain ⟨o1, a1, b1⟩ := list_str hu (by omega)
  obtain ⟨o2, a2, b2⟩ := list_str hh (by omega)
  obtain ⟨o3, a3, b3⟩ := list_str hc (by omega)
  obtain ⟨o4, a4, b4⟩ := list_str hp (by omega)
  unfold allTest
  rw [a1, Res.ok_bind, a2, Res.ok_bind, a3, Res.ok_bind, a4, Res.ok_bind, b1, b2, b3, b4]
  have hus : Printf.str u = u.getD b!"(null)" := by cases u <;> rfl
  rw [hus, ← page_eq]
  exact send_eq _ hl

/-- **C171, the pages.** Whatever a request of the simple example contains, when its path has an endpoint other than that of the cookie test (C167): it has one
answer, 200 with the page of this endpoint, and nothing undefined happens. The page lists the decoded variable segments of the path after the query
parameters of the same names, the cookies, the headers and the post parameters. Missing for the full property: see `C171_forged_false`, `C171_absent_false`,
`C171_large_false`. -/
theorem C171_page_partial {accept : List Field → Bytes → Bytes → Bool} (hacc : accept [] b!"Access-Control-Allow-Origin" b!"*" = true) (q : Req)
    {n : Nat} (hn : place q.verb (segments q.urlPath) = some n) (h8 : n ≠ 8) {xs : List Bytes} (hd : DecodesAll (segments q.urlPath) xs)
    (hq : Entries q.query) {cookies headers post : OMap} (hc : HoldsParams q.cookies cookies) (hh : HoldsParams q.headers headers)
    (hp : HoldsParams q.post post)
    (hl : (fullPage q.verb q.httpUrl (urlParams q.check n xs q.query) cookies headers post (some b!"user data 1") q.client).length + 1 < 2 ^ 31)
    (a : Res (Option Ans)) :
    Pages.Serves accept q a ↔
      a = .ok (levelPage 200 none (bodyFor n q.verb q.httpUrl (urlParams q.check n xs q.query) cookies headers post q.client)) := by
  obtain ⟨e, he, hcb, hen⟩ := url_eq hn h8 hd q.check q.query hq
  have hlen := page_len q.verb q.httpUrl (urlParams q.check n xs q.query) cookies headers post (some b!"user data 1") q.client
  obtain ⟨mu, hm1, hm2⟩ := fillUrl_eq (urlParams q.check n xs q.query) [] UMap.init holds_init (by simpa using hen.1) (by
    intro p hp
    refine ⟨(hen.2 p hp).1, (hen.2 p hp).2.1, fun v hv => ⟨(hen.2 p hp).2.2 v hv, ?_⟩⟩
    have := mem_listing hp hv
    omega)
  rw [List.nil_append] at hm2
  have hmu : mapUrl q e = .ok mu := by
    unfold mapUrl
    rw [hcb, Res.ok_bind]
    exact hm1
  have hul : ∀ u : Option Bytes, (u.getD b!"(null)").length ≤ 11 →
      (fullPage q.verb q.httpUrl (urlParams q.check n xs q.query) cookies headers post u q.client).length + 1 < 2 ^ 31 := by
    intro u hu
    unfold fullPage at hl ⊢
    rw [page_eq] at hl ⊢
    simp only [List.length_append, Option.getD_some] at hl ⊢
    have : b!"user data 1".length = 11 := rfl
    omega
  have fin : ∀ body, run q e { header := M } = .ok (0, after body) →
      (Pages.Serves accept q a ↔ a = .ok (levelPage 200 none body)) := fun body h => serves_one hacc hn he h rfl (after_holds body) a
  have hall : ∀ u, e.callback = some 2 → userData e.userData = u → (u.getD b!"(null)").length ≤ 11 →
      (Pages.Serves accept q a ↔
        a = .ok (levelPage 200 none (fullPage q.verb q.httpUrl (urlParams q.check n xs q.query) cookies headers post u q.client))) := by
    intro u h1 h2 h3
    apply fin
    unfold run
    rw [hmu, Res.ok_bind, h1, h2]
    exact all_eq hm2 hc hh hp u (hul u h3)
  have hn9 : n < 10 := by
    obtain ⟨h, -⟩ := List.getElem?_eq_some_iff.1 he
    exact h
  match n, h8, hn9 with
  | 0, _, _ =>
    cases he
    apply fin
    unfold run
    rw [hmu, Res.ok_bind]
    rfl
  | 1, _, _ =>
    cases he
    refine serves_one (r := { header := M }) hacc hn rfl ?_ rfl ⟨M_holds, rfl, rfl, fun b hb => by cases hb⟩ a
    unfold run
    rw [hmu, Res.ok_bind]
    rfl
  | 2, _, _ => cases he; exact hall none rfl rfl (by decide)
  | 3, _, _ =>
    cases he
    apply fin
    unfold run
    obtain ⟨o, a1, b1⟩ := list_str hp (by omega)
    rw [hmu, Res.ok_bind]
    show postTest q { header := M } = _
    unfold postTest
    rw [a1, Res.ok_bind, b1]
    exact send_eq _ (by simp only [List.length_append]; have : b!"Hello World!\n".length = 13 := rfl; omega)
  | 4, _, _ => cases he; exact hall (some b!"user data 1") rfl rfl (by decide)
  | 5, _, _ => cases he; exact hall (some b!"user data 2") rfl rfl (by decide)
  | 6, _, _ => cases he; exact hall (some b!"user data 3") rfl rfl (by decide)
  | 7, _, _ => cases he; exact hall (some b!"user data 4") rfl rfl (by decide)
  | 8, h, _ => exact absurd rfl h
  | 9, _, _ =>
    exfalso
    clear hl hlen hul fin hall hm1 hm2 hmu hcb hen he hd hq
    generalize segments q.urlPath = ws at hn
    unfold place at hn
    split at hn <;> (repeat' split at hn) <;> cases hn

/-- **C171, everything else.** A path that has no endpoint for the method gets 404 and its text. -/
theorem C171_else {accept : List Field → Bytes → Bytes → Bool} (hacc : accept [] b!"Access-Control-Allow-Origin" b!"*" = true) (q : Req)
    (hn : place q.verb (segments q.urlPath) = none) (a : Res (Option Ans)) :
    Pages.Serves accept q a ↔ a = .ok (levelPage 404 none b!"Page not found, do what you want") := by
  have h1 := dispatch_default ⟨accept, fun _ => .failed, none, some M⟩ Pages.notFound false init_eq (ret := 0) rfl (.inl rfl) rfl rfl
    (hs := [(b!"Access-Control-Allow-Origin", some b!"*")]) (cs := []) (body := b!"Page not found, do what you want")
    ⟨M_holds, rfl, rfl, by intro b hb; injection hb with hb; subst hb; decide⟩ (takes hacc)
  have key : (do
      let cfg ← Pages.instanceOf accept
      let (ans, evs) ← dispatch cfg (([] : List Endpoint).map (callbackOf q)) (some Pages.notFound) false
      if evs.any (fun e => e.after.user) then .ub else return ans : Res (Option Ans)) =
      .ok (levelPage 404 none b!"Page not found, do what you want") := by
    simp only [Pages.instanceOf, defaults_eq, Res.ok_bind, Res.pure_eq, List.map_nil, h1]
    rfl
  unfold Pages.Serves
  constructor
  · rintro ⟨l, h, e'⟩
    rw [C171_one, hn] at h
    simp only [Option.toList, List.filterMap_nil] at h
    subst h
    rw [e', ← key]
  · rintro rfl
    refine ⟨[], ?_, key.symm⟩
    rw [C171_one, hn]
    rfl

/-! ## What is false -/

private def params (ps : OMap) : Res UMap := fillUrl ps UMap.init

/-- **C171 is false of the code**: values are written as they are, so a value with a line break makes the page of a request with another parameter. -/
theorem C171_forged_false :
    ∃ m₁ m₂, params [(b!"a", some b!"1\nkey is admin, value is yes")] = .ok m₁ ∧ params [(b!"a", some b!"1"), (b!"admin", some b!"yes")] = .ok m₂ ∧
      printMap m₁ = printMap m₂ ∧ getStr m₁ b!"admin" = .ok none ∧ getStr m₂ b!"admin" = .ok (some b!"yes") :=
  ⟨_, _, by rfl, by rfl, by decide +kernel, by decide +kernel, by decide +kernel⟩

/-- **C171 is false of the code**: a value that is missing is printed like the value `(null)`. -/
theorem C171_absent_false :
    ∃ m₁ m₂, params [(b!"a", none)] = .ok m₁ ∧ params [(b!"a", some b!"(null)")] = .ok m₂ ∧
      printMap m₁ = printMap m₂ ∧ getStr m₁ b!"a" = .ok none ∧ getStr m₂ b!"a" = .ok (some b!"(null)") :=
  ⟨_, _, by rfl, by rfl, by decide +kernel, by decide +kernel, by decide +kernel⟩

private theorem long_text (n : Nat) : ∃ v : Bytes, v.length = n ∧ NoNul v := by
  refine ⟨List.replicate n 0x61, List.length_replicate, ?_⟩
  intro h
  have := List.eq_of_mem_replicate h
  cases this

/-- **C171 is false of the code**: lengths are kept in an `int`, a map whose value has 2 GiB has no text. -/
theorem C171_large_false : ∃ m v, v.length = 2 ^ 31 ∧ NoNul v ∧ HoldsParams m [(b!"a", some v)] ∧ printMap m = .ub := by
  obtain ⟨v, hlen, hv⟩ := long_text (2 ^ 31)
  obtain ⟨m, -, h2⟩ := holds_put holds_init b!"a" (some v) (by decide) (by decide) (by intro x hx; cases hx; exact ⟨hv, by omega⟩)
  refine ⟨m, v, hlen, hv, h2, ?_⟩
  have h3 : HoldsParams m [(b!"a", some v)] := h2
  unfold printMap
  rw [h3.2.1, Res.ok_bind]
  have hg : getStr m b!"a" = .ok (some v) := (h3.2.2 _ (List.mem_singleton.2 rfl)).1
  have hline : line b!"a" (some v) = .ub := by
    unfold line
    simp only
    rw [if_neg]
    simp only [List.length_append, Printf.str]
    omega
  simp only [List.map_cons, List.map_nil, printLoop, textOf_eq, hg, Res.ok_bind, hline]
  rfl

/-! ## Instances -/

set_option maxRecDepth 10000

private def samplePage : Req where
  verb := b!"get"
  httpUrl := b!"/test//param/a%20b?foo=1&x=y"
  urlPath := b!"/test//param/a%20b"
  query := [(b!"foo", some b!"1"), (b!"x", some b!"y")]
  client := b!"127.0.0.1"

private def expectedPage : Bytes := b!"Hello World!\n\n  method is get\n  url is /test//param/a%20b?foo=1&x=y\n\n  parameters from the url are \nkey is foo, value is 1,a b\nkey is x, value is y\n\n  cookies are \n(null)\n\n  headers are \n(null)\n\n  post parameters are \n(null)\n\n  user data is user data 1\n\nclient address is 127.0.0.1\n\n"

example : place samplePage.verb (segments samplePage.urlPath) = some 4 := by decide +kernel

example : ∃ a, run samplePage e4 { header := M } = .ok (0, a) ∧ a.body = some (expectedPage ++ [0]) :=
  by
  cases h : run samplePage e4 { header := M } with
  | ub => exact absurd h (by decide +kernel)
  | ok a =>
    refine ⟨a.2, ?_, ?_⟩
    · have : (run samplePage e4 { header := M } >>= fun a => Res.ok a.1) = .ok 0 := by decide +kernel
      rw [h] at this
      obtain ⟨x, y⟩ := a
      cases this
      rfl
    · have : (run samplePage e4 { header := M } >>= fun a => Res.ok a.2.body) = .ok (some (expectedPage ++ [0])) := by decide +kernel
      rw [h] at this
      injection this

private theorem plain_decodes : ∀ s : Bytes, (∀ c ∈ s, c ≠ 0 ∧ c ≠ 0x25 ∧ c ≠ 0x2b) → PctDecodes s s
  | [], _ => .nil
  | c :: s, h => .plain c s s (h c (by simp)).1 (h c (by simp)).2.1 (h c (by simp)).2.2 (plain_decodes s (fun x hx => h x (by simp [hx])))

example : DecodesAll (segments samplePage.urlPath) [b!"test", b!"param", b!"a b"] := by
  have : segments samplePage.urlPath = [b!"test", b!"param", b!"a%20b"] := by decide +kernel
  rw [this]
  exact .cons (plain_decodes _ (by decide)) (.cons (plain_decodes _ (by decide)) (.cons (.plain 0x61 _ _ (by decide) (by decide) (by decide)
    (.pct 0x32 0x30 2 0 _ _ rfl rfl (by decide) (plain_decodes _ (by decide)))) .nil))

example : Entries samplePage.query ∧ place b!"POST" [b!"test"] = some 3 ∧ place b!"PATCH" [b!"test"] = none :=
  ⟨⟨by decide, by decide⟩, by decide, by decide⟩

end Verif.Props
