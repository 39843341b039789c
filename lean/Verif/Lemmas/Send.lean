import Verif.Lemmas.Holds
import Verif.Model.Send
/-! # Lemmas about sending a request -/
namespace Verif.Send
open Verif.UMap Verif.Message Verif.Client Verif.Props
open Verif.Spec.Curl
open Verif.Spec.Client (ParamTexts)

/-- The contents of the four maps of a request. -/
structure Lists where
  url : List (Bytes × Option Bytes) := []
  header : List (Bytes × Option Bytes) := []
  cookie : List (Bytes × Option Bytes) := []
  post : List (Bytes × Option Bytes) := []

/-- The request of the caller: its maps hold these strings, its body is as long as announced, its address is an address. -/
structure Wants (r : Request) (l : Lists) : Prop where
  url : HoldsParams r.mapUrl l.url
  header : HoldsParams r.mapHeader l.header
  cookie : HoldsParams r.mapCookie l.cookie
  post : HoldsParams r.mapPost l.post
  urlFit : Fit l.url
  headerFit : Fit l.header
  cookieFit : Fit l.cookie
  postFit : Fit l.post
  body : r.bodyLen = 0 ∨ ∃ b, r.body = some b ∧ r.bodyLen ≤ b.length
  address : ∀ a, r.clientAddress = some a → sockaddrSize ≤ a.length

theorem duplicate_full {r : Request} {l : Lists} (w : Wants r l) :
    ∃ a mu mh mc mp, duplicateRequest r = .ok (some { r with
        clientAddress := a, mapUrl := mu, mapHeader := mh, mapCookie := mc, mapPost := mp,
        body := if r.bodyLen = 0 then none else r.body.map (fun b => b.take r.bodyLen) }) ∧
      HoldsParams mu l.url ∧ HoldsParams mh l.header ∧ HoldsParams mc l.cookie ∧ HoldsParams mp l.post ∧
      ∀ x, a = some x → sockaddrSize ≤ x.length := by
  obtain ⟨mu, u1, u2⟩ := holds_copy w.url w.urlFit
  obtain ⟨mh, h1, h2⟩ := holds_copy w.header w.headerFit
  obtain ⟨mc, c1, c2⟩ := holds_copy w.cookie w.cookieFit
  obtain ⟨mp, p1, p2⟩ := holds_copy w.post w.postFit
  have ha : ∃ a, copyAddress r.clientAddress = .ok a ∧ ∀ x, a = some x → sockaddrSize ≤ x.length := by
    cases h : r.clientAddress with
    | none => exact ⟨none, rfl, by simp⟩
    | some x =>
      refine ⟨some (x.take sockaddrSize), by simp [copyAddress, w.address x h], ?_⟩
      intro y hy
      injection hy with hy
      rw [← hy, List.length_take]
      have := w.address x h
      omega
  obtain ⟨a, ha, ha'⟩ := ha
  have hb : copyBodyReq r.body r.bodyLen = .ok (if r.bodyLen = 0 then none else r.body.map (fun b => b.take r.bodyLen)) := by
    unfold copyBodyReq
    by_cases h0 : r.bodyLen = 0
    · simp [h0]
    · rcases w.body with h | ⟨b, hb, hl⟩
      · exact absurd h h0
      · simp [h0, hb, hl]
  refine ⟨a, mu, mh, mc, mp, ?_, u2, h2, c2, p2, ha'⟩
  unfold duplicateRequest copyRequest
  simp only [ha, u1, h1, c1, p1, hb, Res.ok_bind, ne_eq, not_true_eq_false, if_false]
  rfl

theorem duplicate_ok {r : Request} {l : Lists} (w : Wants r l) :
    ∃ a mu mh mc mp, duplicateRequest r = .ok (some { r with
        clientAddress := a, mapUrl := mu, mapHeader := mh, mapCookie := mc, mapPost := mp,
        body := if r.bodyLen = 0 then none else r.body.map (fun b => b.take r.bodyLen) }) ∧
      HoldsParams mu l.url ∧ HoldsParams mh l.header ∧ HoldsParams mc l.cookie ∧ HoldsParams mp l.post := by
  obtain ⟨a, mu, mh, mc, mp, h1, h2, h3, h4, h5, -⟩ := duplicate_full w
  exact ⟨a, mu, mh, mc, mp, h1, h2, h3, h4, h5⟩

theorem getText_holds {m : UMap} {ps : List (Bytes × Option Bytes)} (h : HoldsParams m ps) (p : Bytes × Option Bytes)
    (hp : p ∈ ps) : getText m p.1 = .ok p.2 := (h.2.2 p hp).1

/-- The header line of an entry. -/
def headerLine (p : Bytes × Option Bytes) : Bytes := p.1 ++ b!":" ++ p.2.getD []

theorem headerList_eq (m : UMap) : ∀ ps : List (Bytes × Option Bytes), (∀ p ∈ ps, getText m p.1 = .ok p.2) →
    headerList m (ps.map (·.1)) = .ok (ps.map headerLine)
  | [], _ => rfl
  | p :: t, h => by
    simp only [List.map_cons, headerList, h p List.mem_cons_self, Res.ok_bind,
      headerList_eq m t (fun q hq => h q (List.mem_cons_of_mem _ hq))]
    rfl

theorem headerValues_eq {m : UMap} {ps : List (Bytes × Option Bytes)} (h : HoldsParams m ps) :
    headerValues m = .ok (ps.map headerLine) := by
  unfold headerValues
  rw [holds_nb h, h.2.1]
  cases ps with
  | nil => rfl
  | cons p t =>
    simp only [List.length_cons, ne_eq, Nat.add_one_ne_zero, not_false_iff, if_true, Res.ok_bind]
    exact headerList_eq m (p :: t) (getText_holds h)

/-- The text of a cookie. -/
def cookiePiece (p : Bytes × Option Bytes) : Bytes :=
  match p.2 with
  | some v => p.1 ++ b!"=" ++ v
  | none => p.1 ++ b!":"

theorem cookieText_some (m : UMap) : ∀ (ps : List (Bytes × Option Bytes)) (a : Bytes), (∀ p ∈ ps, getText m p.1 = .ok p.2) →
    Client.cookieText m (ps.map (·.1)) (some a) = .ok (some (a ++ (ps.map (fun p => (0x3b : UInt8) :: cookiePiece p)).flatten))
  | [], a, _ => by simp [Client.cookieText]
  | p :: t, a, h => by
    have e : ∀ c : Bytes, a ++ b!";" ++ c = a ++ ((0x3b : UInt8) :: c) := by intro c; simp
    simp only [List.map_cons, Client.cookieText, h p List.mem_cons_self, Res.ok_bind, e]
    rw [cookieText_some m t _ (fun q hq => h q (List.mem_cons_of_mem _ hq))]
    simp [cookiePiece]
    cases p.2 <;> rfl

/-- The text of the cookies. -/
def cookieString : List (Bytes × Option Bytes) → Option Bytes
  | [] => none
  | p :: t => some (cookiePiece p ++ (t.map (fun p => (0x3b : UInt8) :: cookiePiece p)).flatten)

theorem cookieValue_eq {m : UMap} {ps : List (Bytes × Option Bytes)} (h : HoldsParams m ps) :
    cookieValue m = .ok (cookieString ps) := by
  unfold cookieValue
  rw [holds_nb h, h.2.1]
  cases ps with
  | nil => rfl
  | cons p t =>
    simp only [List.length_cons, ne_eq, Nat.add_one_ne_zero, not_false_iff, if_true, Res.ok_bind, List.map_cons,
      Client.cookieText, getText_holds h p List.mem_cons_self]
    rw [cookieText_some m t _ (fun q hq => getText_holds h q (List.mem_cons_of_mem _ hq))]
    simp [cookieString, cookiePiece]
    cases p.2 <;> rfl

theorem find_sim {es : List Ent} {ps : List (Bytes × Option Bytes)} (hs : Sim es ps) (q : Bytes → Bool) :
    (es.find? (fun e => q e.key) = none ∧ ps.find? (fun p => q p.1) = none) ∨
    ∃ e p, es.find? (fun e => q e.key) = some e ∧ ps.find? (fun p => q p.1) = some p ∧ e ∈ es ∧ p ∈ ps ∧ Shows e p := by
  induction es generalizing ps with
  | nil =>
    cases ps with
    | nil => exact Or.inl ⟨rfl, rfl⟩
    | cons _ _ => exact absurd hs.1 (by simp)
  | cons e t ih =>
    cases ps with
    | nil => exact absurd hs.1 (by simp)
    | cons p t' =>
      rw [sim_cons_iff] at hs
      have hk := hs.1.1
      by_cases hq : q e.key
      · exact Or.inr ⟨e, p, by simp [hq], by simp [← hk, hq], by simp, by simp, hs.1⟩
      · rcases ih hs.2 with ⟨a, b⟩ | ⟨e', p', a, b, c, d, f⟩
        · exact Or.inl ⟨by simp [hq, a], by simp [← hk, hq, b]⟩
        · exact Or.inr ⟨e', p', by simp [hq, a], by simp [← hk, hq, b], List.mem_cons_of_mem _ c, List.mem_cons_of_mem _ d, f⟩

theorem acceptValue_eq {m : UMap} {ps : List (Bytes × Option Bytes)} (h : HoldsParams m ps) :
    acceptValue m = .ok ((ps.find? (fun p => eqCase p.1 b!"Accept-Encoding")).map (fun p => some (p.2.getD []))) := by
  obtain ⟨es, rfl, hg, hs⟩ := holds_sim h
  unfold acceptValue
  rw [hasKeyCase_rep, getCase_rep]
  rcases find_sim hs (fun k => eqCase k b!"Accept-Encoding") with ⟨a, b⟩ | ⟨e, p, a, b, c, d, f⟩
  · have : es.any (fun e => eqCase e.key b!"Accept-Encoding") = false := by
      rw [List.find?_eq_none] at a
      rw [List.any_eq_false]
      exact a
    rw [b]
    simp only [this, Res.ok_bind, if_false, Bool.false_eq_true, Option.map_none]
    rfl
  · have : es.any (fun e => eqCase e.key b!"Accept-Encoding") = true := by
      rw [List.any_eq_true]
      exact ⟨e, c, by simpa using List.find?_some a⟩
    rw [b]
    simp only [this, Res.ok_bind, if_true, a, Option.map_some]
    have hr : readStr e.buf = .ok (p.2.getD []) := by
      have h2 := f.2
      cases hp2 : p.2 with
      | none =>
        rw [hp2] at h2
        simp only at h2
        obtain ⟨-, g1, g2, -⟩ := hg.2 e c
        rw [h2] at g1 g2
        cases hb : e.buf with
        | nil => rw [hb] at g1; simp at g1
        | cons x t =>
          rw [hb] at g2
          simp only [List.getElem?_cons_zero, Option.some.injEq] at g2
          rw [g2]
          rfl
      | some v =>
        rw [hp2] at h2
        obtain ⟨-, t, ht⟩ := h2
        rw [ht, readStr_strBuf v t ((h.2.2 p d).2.2 v hp2)]
        rfl
    rw [hr]
    rfl

/-! ### Options -/

theorem setAll_eq (c : Curl) : ∀ (os done r : List Opt), setAll c done os = some r → r = done ++ os
  | [], done, r, h => by simp only [setAll, Option.some.injEq] at h; simp [h]
  | o :: t, done, r, h => by
    unfold setAll at h
    split at h
    · rw [setAll_eq c t _ r h]; simp
    · cases h

theorem setAll_accepts (c : Curl) : ∀ (os done r : List Opt), setAll c done os = some r →
    ∀ (i : Nat) (o : Opt), os[i]? = some o → c.accepts (done ++ os.take i) o = true
  | [], _, _, _, i, o, ho => by simp at ho
  | x :: t, done, r, h, i, o, ho => by
    unfold setAll at h
    split at h
    · rename_i hx
      cases i with
      | zero => simp only [List.getElem?_cons_zero, Option.some.injEq] at ho; simpa [← ho] using hx
      | succ i =>
        have := setAll_accepts c t _ r h i o (by simpa using ho)
        simpa using this
    · cases h

theorem setAll_all (c : Curl) : ∀ (os done : List Opt),
    (∀ (i : Nat) (o : Opt), os[i]? = some o → c.accepts (done ++ os.take i) o = true) → setAll c done os = some (done ++ os)
  | [], done, _ => by simp [setAll]
  | x :: t, done, h => by
    unfold setAll
    have h0 := h 0 x rfl
    simp only [List.take_zero, List.append_nil] at h0
    rw [if_pos h0, setAll_all c t (done ++ [x]) (fun i o ho => by
      have := h (i + 1) o (by simpa using ho)
      simpa using this)]
    simp

/-- The header map after the form step. -/
def sentHeader (l : Lists) : List (Bytes × Option Bytes) :=
  if l.post = [] then l.header else Spec.OMap.put l.header b!"Content-Type" (some b!"application/x-www-form-urlencoded")

/-- The body after the form step. -/
def BodyIs (r : Request) (l : Lists) (blk : Option Bytes) (len : Nat) : Prop :=
  (l.post = [] → blk = (if r.bodyLen = 0 then none else r.body.map (fun b => b.take r.bodyLen)) ∧ len = r.bodyLen) ∧
  (l.post ≠ [] → ∃ t, blk = some (t ++ [0]) ∧ len = t.length ∧ ParamTexts (Spec.Segments.pieces 0x26 t) l.post)

theorem formStep_eq {copy : Request} {l : Lists} (hh : HoldsParams copy.mapHeader l.header) (hp : HoldsParams copy.mapPost l.post) :
    (l.post = [] ∧ formStep copy = .ok (some copy)) ∨
    (l.post ≠ [] ∧ ∃ m t, formStep copy = .ok (some { copy with body := some (t ++ [0]), bodyLen := t.length, mapHeader := m }) ∧
      HoldsParams m (sentHeader l) ∧ ParamTexts (Spec.Segments.pieces 0x26 t) l.post ∧ requestForm copy.mapPost = .ok t) := by
  by_cases h : l.post = []
  · left
    refine ⟨h, ?_⟩
    unfold formStep
    rw [holds_nb hp, h]
    rfl
  · right
    refine ⟨h, ?_⟩
    obtain ⟨t, t1, t2⟩ := C66_form copy.mapPost l.post hp h
    obtain ⟨m, m1, m2⟩ := holds_put hh b!"Content-Type" (some b!"application/x-www-form-urlencoded") (by decide) (by decide)
      (by intro x hx; injection hx with hx; subst hx; exact ⟨by decide, by decide⟩)
    refine ⟨m, t, ?_, ?_, t2, t1⟩
    · unfold formStep
      have : copy.mapPost.nb ≠ 0 := by
        rw [holds_nb hp]
        cases hl : l.post with
        | nil => exact absurd hl h
        | cons _ _ => simp
      rw [if_pos this, t1, m1]
      rfl
    · unfold sentHeader
      rw [if_neg h]
      exact m2

/-- All options are accepted, one after the other. -/
def AllAccepted (c : Curl) (opts : List Opt) : Prop := ∀ (i : Nat) (o : Opt), opts[i]? = some o → c.accepts (opts.take i) o = true

/-- What the URL is made of. -/
def UrlIs (r : Request) (l : Lists) (url : Option Bytes) : Prop :=
  ∃ m, HoldsParams m l.url ∧ (∀ u, r.url = some u → ∃ x, requestUrl u m = .ok x ∧ url = some x) ∧
    (r.url = none → l.url = [] → url = none)

/-- The accepted encodings. -/
def acceptOf (l : Lists) : Option (Option Bytes) :=
  (l.header.find? (fun p => eqCase p.1 b!"Accept-Encoding")).map (fun p => some (p.2.getD []))

/-- The options of a transfer for a request. -/
def Plan (r : Request) (l : Lists) (sink : Sink) (resp : Bool) (opts : List Opt) : Prop :=
  ∃ url blk len, UrlIs r l url ∧ BodyIs r l blk len ∧
    opts = firstOptions r r (acceptOf l) ++ bodyOptions { r with body := blk, bodyLen := len } ++
      (cookieString l.cookie).toList.map Opt.cookie ++ lastOptions r url ((sentHeader l).map headerLine) sink resp

theorem accepted_append (c : Curl) (a b : List Opt) :
    AllAccepted c (a ++ b) ↔ AllAccepted c a ∧ ∀ (i : Nat) (o : Opt), b[i]? = some o → c.accepts (a ++ b.take i) o = true := by
  constructor
  · intro h
    refine ⟨?_, ?_⟩
    · intro i o ho
      have hi : i < a.length := (List.getElem?_eq_some_iff.1 ho).1
      have := h i o (by rw [List.getElem?_append_left hi]; exact ho)
      rwa [List.take_append_of_le_length (by omega)] at this
    · intro i o ho
      have := h (a.length + i) o (by rw [List.getElem?_append_right (by omega)]; simpa using ho)
      rwa [List.take_append, List.take_of_length_le (by omega), Nat.add_sub_cancel_left] at this
  · rintro ⟨h1, h2⟩ i o ho
    by_cases hi : i < a.length
    · rw [List.getElem?_append_left hi] at ho
      rw [List.take_append_of_le_length (by omega)]
      exact h1 i o ho
    · rw [List.getElem?_append_right (by omega)] at ho
      rw [List.take_append, List.take_of_length_le (by omega)]
      exact h2 _ o ho

theorem setAll_none (c : Curl) (os done : List Opt) (hd : AllAccepted c done) (h : setAll c done os = none) :
    ¬ AllAccepted c (done ++ os) := by
  intro ha
  rw [accepted_append] at ha
  rw [setAll_all c os done ha.2] at h
  cases h

theorem setAll_cases (c : Curl) (os done : List Opt) (hd : AllAccepted c done) :
    (setAll c done os = none ∧ ∀ rest, ¬ AllAccepted c (done ++ os ++ rest)) ∨
    (setAll c done os = some (done ++ os) ∧ AllAccepted c (done ++ os)) := by
  cases h : setAll c done os with
  | none =>
    refine Or.inl ⟨rfl, fun rest hr => setAll_none c os done hd h ?_⟩
    rw [accepted_append] at hr
    exact hr.1
  | some r =>
    have := setAll_eq c os done r h
    subst this
    refine Or.inr ⟨rfl, ?_⟩
    rw [accepted_append]
    exact ⟨hd, setAll_accepts c os done _ h⟩

theorem accepted_nil (c : Curl) : AllAccepted c [] := by intro i o h; simp at h

theorem urlValue_eq {copy r : Request} {l : Lists} (hu : copy.url = r.url) (h : HoldsParams copy.mapUrl l.url) :
    ∃ url, urlValue copy = .ok url ∧ UrlIs r l url := by
  have hr : ∀ u, ∃ x, requestUrl u copy.mapUrl = .ok x := by
    intro u
    exact requestUrl_ok u copy.mapUrl l.url h
  unfold urlValue UrlIs
  cases e : r.url with
  | some u =>
    obtain ⟨x, hx⟩ := hr u
    rw [hu, e]
    simp only [hx, Res.ok_bind]
    exact ⟨some x, rfl, copy.mapUrl, h, fun v hv => by injection hv with hv; subst hv; exact ⟨x, hx, rfl⟩, by intro; simp_all⟩
  | none =>
    rw [hu, e]
    obtain ⟨x, hx⟩ := hr []
    simp only [hx, Res.ok_bind]
    by_cases hn : copy.mapUrl.nb ≠ 0
    · rw [if_pos hn]
      refine ⟨some x, rfl, copy.mapUrl, h, by simp, ?_⟩
      intro _ h0
      rw [holds_nb h, h0] at hn
      exact absurd rfl hn
    · rw [if_neg hn]
      exact ⟨none, rfl, copy.mapUrl, h, by simp, by simp⟩

/-- Is it `CURLOPT_COOKIE`? -/
def isCookie : Opt → Bool
  | .cookie _ => true
  | _ => false

theorem setAll_refused (c : Curl) : ∀ (os done : List Opt), setAll c done os = none →
    ∃ pre o post, os = pre ++ o :: post ∧ c.accepts (done ++ pre) o = false
  | [], _, h => by cases h
  | o :: t, done, h => by
    unfold setAll at h
    by_cases ho : c.accepts done o
    · rw [if_pos ho] at h
      obtain ⟨pre, x, post, e1, e2⟩ := setAll_refused c t _ h
      exact ⟨o :: pre, x, post, by rw [e1]; rfl, by simpa using e2⟩
    · exact ⟨[], o, t, rfl, by simpa using ho⟩

theorem first_noCookie (req copy : Request) (acc : Option (Option Bytes)) : ∀ o ∈ firstOptions req copy acc, isCookie o = false := by
  have : (firstOptions req copy acc).all (fun o => !isCookie o) = true := by
    unfold firstOptions
    simp only [List.all_append, Bool.and_eq_true]
    refine ⟨⟨⟨⟨⟨⟨⟨?_, ?_⟩, ?_⟩, ?_⟩, ?_⟩, ?_⟩, ?_⟩, ?_⟩
    · unfold acceptOptions; split <;> rfl
    · rfl
    · unfold authOptions; split <;> rfl
    · unfold certOptions
      split
      · simp only [List.all_append, Bool.and_eq_true]
        exact ⟨rfl, by split <;> rfl⟩
      · rfl
    · rfl
    · unfold proxyOptions; split <;> rfl
    · split <;> rfl
    · unfold familyOptions
      split
      · rfl
      · split <;> rfl
  intro o ho
  simpa using List.all_eq_true.1 this o ho

theorem body_noCookie (copy : Request) : ∀ o ∈ bodyOptions copy, isCookie o = false := by
  have : (bodyOptions copy).all (fun o => !isCookie o) = true := by
    unfold bodyOptions
    split
    · split <;> rfl
    · rfl
  intro o ho
  simpa using List.all_eq_true.1 this o ho

theorem verify_noCookie (a b : Nat) (p q : Bool → Opt) (hp : ∀ x, isCookie (p x) = false) (hq : ∀ x, isCookie (q x) = false) :
    (verifyOptions a b p q).all (fun o => !isCookie o) = true := by
  unfold verifyOptions
  split
  · simp [hp, hq]
  · simp only [List.all_append, Bool.and_eq_true]
    exact ⟨by split <;> simp [hp], by split <;> simp [hq]⟩

theorem last_noCookie (copy : Request) (url : Option Bytes) (lines : List Bytes) (sink : Sink) (resp : Bool) :
    ∀ o ∈ lastOptions copy url lines sink resp, isCookie o = false := by
  have : (lastOptions copy url lines sink resp).all (fun o => !isCookie o) = true := by
    unfold lastOptions
    simp only [List.all_append, Bool.and_eq_true]
    refine ⟨⟨⟨⟨⟨⟨⟨⟨?_, ?_⟩, ?_⟩, ?_⟩, ?_⟩, ?_⟩, ?_⟩, ?_⟩, ?_⟩
    · rfl
    · split <;> rfl
    · split <;> rfl
    · exact verify_noCookie _ _ _ _ (fun _ => rfl) (fun _ => rfl)
    · exact verify_noCookie _ _ _ _ (fun _ => rfl) (fun _ => rfl)
    · unfold caOptions; split <;> rfl
    · split <;> rfl
    · split <;> rfl
    · rfl
  intro o ho
  simpa using List.all_eq_true.1 this o ho

/-- What the preparation does: all options are accepted, or one is refused. -/
def Prepared (c : Curl) (opts : List Opt) (res : Res (Option (List Opt))) : Prop :=
  (AllAccepted c opts ∧ res = .ok (some opts)) ∨
  ∃ done o rest, opts = done ++ o :: rest ∧ c.accepts done o = false ∧ res = if isCookie o then .ub else .ok none

theorem prepared_step (c : Curl) (os done rest : List Opt) (hd : AllAccepted c done) (hn : ∀ o ∈ os, isCookie o = false)
    (res : Res (Option (List Opt))) (k : List Opt → Res (Option (List Opt)))
    (he : res = match setAll c done os with | none => .ok none | some d => k d)
    (hk : AllAccepted c (done ++ os) → Prepared c (done ++ os ++ rest) (k (done ++ os))) :
    Prepared c (done ++ os ++ rest) res := by
  rcases setAll_cases c os done hd with ⟨h1, -⟩ | ⟨h1, h2⟩
  · rw [h1] at he
    right
    obtain ⟨pre, o, post, e1, e2⟩ := setAll_refused c os done h1
    refine ⟨done ++ pre, o, post ++ rest, by rw [e1]; simp, e2, ?_⟩
    rw [hn o (by rw [e1]; simp)]
    exact he
  · rw [h1] at he
    rw [he]
    exact hk h2

theorem prepare_cases (c : Curl) {r copy : Request} {l : Lists} (sink : Sink) (resp : Bool)
    (hu : HoldsParams copy.mapUrl l.url) (hh : HoldsParams copy.mapHeader l.header) (hc : HoldsParams copy.mapCookie l.cookie)
    (hp : HoldsParams copy.mapPost l.post)
    (hcopy : copy = { r with clientAddress := copy.clientAddress, mapUrl := copy.mapUrl, mapHeader := copy.mapHeader,
                             mapCookie := copy.mapCookie, mapPost := copy.mapPost,
                             body := if r.bodyLen = 0 then none else r.body.map (fun b => b.take r.bodyLen) }) :
    ∃ opts, Plan r l sink resp opts ∧ Prepared c opts (prepare c r copy sink resp) := by
  have e1 : acceptValue copy.mapHeader = .ok (acceptOf l) := acceptValue_eq hh
  obtain ⟨url, e2, e3⟩ := urlValue_eq (r := r) (by rw [hcopy]) hu
  have e4 : ∃ copy' blk len, formStep copy = .ok (some copy') ∧ BodyIs r l blk len ∧ HoldsParams copy'.mapHeader (sentHeader l) ∧
      HoldsParams copy'.mapCookie l.cookie ∧ bodyOptions copy' = bodyOptions { r with body := blk, bodyLen := len } ∧
      ∀ url lines, lastOptions copy' url lines sink resp = lastOptions r url lines sink resp := by
    rcases formStep_eq hh hp with ⟨h0, h1⟩ | ⟨h0, m, t, h1, h2, h3, h4⟩
    · refine ⟨copy, _, _, h1, ⟨fun _ => ⟨rfl, rfl⟩, fun h => absurd h0 h⟩, ?_, hc, ?_, ?_⟩
      · unfold sentHeader; rw [if_pos h0]; exact hh
      · rw [hcopy]; rfl
      · intro url lines; rw [hcopy]; rfl
    · refine ⟨_, _, _, h1, ⟨fun h => absurd h h0, fun _ => ⟨t, rfl, rfl, h3⟩⟩, h2, hc, ?_, ?_⟩
      · rfl
      · intro url lines; rw [hcopy]; rfl
  obtain ⟨copy', blk, len, f1, f2, f3, f4, f5, f6⟩ := e4
  have e5 : ∀ acc, firstOptions r copy acc = firstOptions r r acc := by intro acc; rw [hcopy]; rfl
  refine ⟨_, ⟨url, blk, len, e3, f2, rfl⟩, ?_⟩
  unfold prepare
  simp only [e1, e2, f1, Res.ok_bind, e5]
  rw [List.append_assoc, List.append_assoc]
  refine prepared_step c _ [] _ (accepted_nil c) (first_noCookie r r _) _ (fun done =>
    match setAll c done (bodyOptions copy') with
    | none => .ok none
    | some done => do
      let lines ← headerValues copy'.mapHeader
      let cookies ← cookieValue copy'.mapCookie
      let done ← setCookie c done cookies
      return setAll c done (lastOptions copy' url lines sink resp)) ?_ ?_
  · rfl
  intro ha
  rw [← List.append_assoc]
  refine prepared_step c _ _ _ ha (body_noCookie _) _ (fun done => do
      let lines ← headerValues copy'.mapHeader
      let cookies ← cookieValue copy'.mapCookie
      let done ← setCookie c done cookies
      return setAll c done (lastOptions copy' url lines sink resp)) ?_ ?_
  · rw [f5]
  intro hb
  simp only [headerValues_eq f3, cookieValue_eq f4, Res.ok_bind, f6]
  have hlast : ∀ done, AllAccepted c done → Prepared c (done ++ lastOptions r url ((sentHeader l).map headerLine) sink resp)
      (.ok (setAll c done (lastOptions r url ((sentHeader l).map headerLine) sink resp))) := by
    intro done hd
    have := prepared_step c (lastOptions r url ((sentHeader l).map headerLine) sink resp) done [] hd (last_noCookie _ _ _ _ _)
      (.ok (setAll c done (lastOptions r url ((sentHeader l).map headerLine) sink resp))) (fun d => .ok (some d))
      (by cases setAll c done (lastOptions r url ((sentHeader l).map headerLine) sink resp) <;> rfl)
      (fun h => Or.inl ⟨by simpa using h, by simp⟩)
    simpa using this
  cases hcs : cookieString l.cookie with
  | none =>
    simp only [setCookie, Res.ok_bind, Option.toList_none, List.map_nil, List.nil_append]
    exact hlast _ hb
  | some t =>
    simp only [setCookie, Option.toList_some, List.map_cons, List.map_nil]
    split
    · rename_i hacc
      simp only [Res.ok_bind]
      rw [← List.append_assoc]
      apply hlast
      rw [accepted_append]
      refine ⟨hb, ?_⟩
      intro i o ho
      cases i with
      | zero =>
        simp only [List.getElem?_cons_zero, Option.some.injEq] at ho
        rw [← ho]
        simpa using hacc
      | succ i => simp at ho
    · rename_i hacc
      right
      refine ⟨_, _, _, rfl, ?_, rfl⟩
      simpa using hacc

/-- What a call does, for every request whose maps hold strings: either libcurl accepts all options and the transfer is made,
or it refuses one; then nothing is sent, and the behaviour is undefined if it was the cookie option. -/
theorem send_cases (c : Curl) (hi : c.init = true) {r : Request} {l : Lists} (w : Wants r l) (resp : Option Response) (sink : Sink)
    (max : Nat) :
    ∃ opts, Plan r l sink resp.isSome opts ∧
      ((AllAccepted c opts ∧ sendStreaming c (some r) resp sink max = perform c opts max resp) ∨
       ∃ done o rest, opts = done ++ o :: rest ∧ c.accepts done o = false ∧
         sendStreaming c (some r) resp sink max = if isCookie o then .ub else .ok ⟨.libcurl, none, resp, []⟩) := by
  obtain ⟨a, mu, mh, mc, mp, d1, d2, d3, d4, d5⟩ := duplicate_ok w
  obtain ⟨opts, h1, h2⟩ := prepare_cases c (r := r) (l := l)
    (copy := { r with
        clientAddress := a, mapUrl := mu, mapHeader := mh, mapCookie := mc, mapPost := mp,
        body := if r.bodyLen = 0 then none else r.body.map (fun b => b.take r.bodyLen) }) sink resp.isSome d2 d3 d4 d5 rfl
  refine ⟨opts, h1, ?_⟩
  unfold sendStreaming
  simp only [d1, Res.ok_bind, hi, if_true]
  rcases h2 with ⟨h2, h3⟩ | ⟨done, o, rest, h2, h3, h4⟩
  · left
    refine ⟨h2, ?_⟩
    rw [h3]
    rfl
  · right
    refine ⟨done, o, rest, h2, h3, ?_⟩
    rw [h4]
    cases isCookie o <;> rfl

end Verif.Send
