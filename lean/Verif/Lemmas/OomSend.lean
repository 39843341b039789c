import Verif.Spec.OomSend
/-! # Lemmas about sending a request when memory runs out -/
namespace Verif.OomSend
open Verif.UMap Verif.Printf Verif.Message
open Verif.Client (Body Headers Locals getText param)
open Verif.Send (Curl Sink Outcome setAll bodyOptions lastOptions firstOptions)
open Verif.Spec.Curl (Opt)
open Verif.Spec.OomSend

theorem OnlyCovered.no {f : F} (h : OnlyCovered f) (p : Place) (i : Nat) (hp : Covered p = false) : f p i = false := by
  cases hf : f p i with
  | false => rfl
  | true => rw [h p i hf] at hp; cases hp

theorem bind_ok {α β : Type} {x : Res α} {g : α → Res β} {b : β} (h : (x >>= g) = .ok b) : ∃ a, x = .ok a ∧ g a = .ok b := by
  cases x with
  | ok a => exact ⟨a, rfl, h⟩
  | ub => cases h

/-- Something fails. -/
def Fails (f : F) : Prop := ∃ p i, f p i = true

/-- The same text, or, if `B`, none that could be a URL. -/
def Near (B : Prop) (u' : Option Bytes) (u : Bytes) : Prop := u' = some u ∨ (B ∧ NoUrl u')

theorem noUrl_cat {b : Bool} {u : Option Bytes} {has : Bool} {t : Bytes} (h : NoUrl u) :
    NoUrl (cat b u ((if has then b!"&" else b!"?") ++ t)) := by
  unfold cat
  cases b with
  | true => exact trivial
  | false =>
    cases u with
    | none => cases has <;> simp [NoUrl] <;> decide
    | some u =>
      cases u with
      | nil => rcases h with h | h <;> cases h
      | cons x y => exact h

theorem near_params {f : F} {B : Prop} (hB : Fails f → B) {m : UMap} : ∀ {keys : List Bytes} {i : Nat} {has has' : Bool} {u r : Bytes} {u' : Option Bytes},
    Client.addParams m keys has u = .ok r → Near B u' u → (u' = some u → has' = has) →
    (B ∧ addParams f m keys i has' u' = .ok none) ∨ ∃ r', addParams f m keys i has' u' = .ok (some r') ∧ Near B r' r
  | [], i, has, has', u, r, u', h, hn, _ => by
    cases h
    exact .inr ⟨u', rfl, hn⟩
  | k :: t, i, has, has', u, r, u', h, hn, he => by
    rw [Client.addParams] at h
    obtain ⟨v, hv, h⟩ := bind_ok h
    rw [addParams]
    by_cases h1 : f .urlKey i = true
    · rw [if_pos h1]; exact .inl ⟨hB ⟨_, _, h1⟩, rfl⟩
    · rw [if_neg h1, hv, Res.ok_bind]
      by_cases h2 : (v.isSome && f .urlValue i) = true
      · rw [if_pos h2]; exact .inl ⟨hB ⟨_, _, (Bool.and_eq_true _ _ ▸ h2).2⟩, rfl⟩
      · rw [if_neg h2]
        refine near_params hB h ?_ (fun _ => rfl)
        rcases hn with hn | hn
        · rw [he hn, hn]
          cases hc : f .urlCat i with
          | true => exact .inr ⟨hB ⟨_, _, hc⟩, trivial⟩
          | false => left; simp [cat, List.append_assoc]
        · exact .inr ⟨hn.1, noUrl_cat hn.2⟩

theorem near_url {f : F} {B : Prop} (hB : Fails f → B) (hf : OnlyCovered f) {a b : Request} {u : Option Bytes} (h : Send.urlValue b = .ok u)
    (hm : a.mapUrl = b.mapUrl) (hu : a.url = b.url ∨ (Fails f ∧ a.url = none)) (hn : b.url = none → B) :
    (B ∧ urlStep f a = .ok none) ∨ ∃ u', urlStep f a = .ok (some u') ∧ (u' = u ∨ (B ∧ NoUrl u')) := by
  unfold urlStep
  rw [hm, hf.no .urlKeys 0 rfl]
  unfold Send.urlValue at h
  cases hb : b.url with
  | none =>
    have ha : a.url = none := by rcases hu with hu | ⟨_, hu⟩ <;> simp [hu, hb]
    have ht : text f .urlReplace (a.url.map replaceSpaces) = none := by simp [text, ha]
    rw [ht]
    rw [hb] at h
    by_cases h0 : b.mapUrl.nb ≠ 0
    · simp only [h0, if_true, ne_eq, not_false_eq_true, Bool.false_eq_true, if_false] at h ⊢
      obtain ⟨x, hx, h⟩ := bind_ok h
      cases h
      unfold Client.requestUrl at hx
      simp only [h0, ne_eq, not_false_eq_true, if_true] at hx
      obtain ⟨keys, hk, hx⟩ := bind_ok hx
      rw [hk, Res.ok_bind]
      rcases near_params hB (i := 0) (has' := ((none : Option Bytes).getD []).contains 0x3f) (u' := none) hx (.inr ⟨hn hb, trivial⟩) (by simp) with h | ⟨r', h, hn⟩
      · exact .inl h
      · exact .inr ⟨r', h, hn⟩
    · rw [if_neg h0]
      exact .inr ⟨none, rfl, .inr ⟨hn hb, trivial⟩⟩
  | some w =>
    rw [hb] at h
    obtain ⟨x, hx, h⟩ := bind_ok h
    cases h
    unfold Client.requestUrl at hx
    have hn : Near B (text f .urlReplace (a.url.map replaceSpaces)) (replaceSpaces w) := by
      unfold text
      by_cases h1 : f .urlReplace 0 = true
      · rw [if_pos h1]; exact .inr ⟨hB ⟨_, _, h1⟩, trivial⟩
      · rw [if_neg h1]
        rcases hu with hu | ⟨hff, hu⟩
        · rw [hu, hb]; exact .inl rfl
        · rw [hu]; exact .inr ⟨hB hff, trivial⟩
    generalize text f .urlReplace (a.url.map replaceSpaces) = y at hn ⊢
    by_cases h0 : b.mapUrl.nb ≠ 0
    · simp only [h0, ne_eq, not_false_eq_true, if_true, Bool.false_eq_true, if_false] at hx ⊢
      obtain ⟨keys, hk, hx⟩ := bind_ok hx
      rw [hk, Res.ok_bind]
      rcases near_params hB (i := 0) (has' := (y.getD []).contains 0x3f) hx hn (by intro e; rw [e]; rfl) with h | ⟨r', h, hn⟩
      · exact .inl h
      · exact .inr ⟨r', h, hn⟩
    · rw [if_neg h0] at hx ⊢
      cases hx
      exact .inr ⟨y, rfl, hn⟩

theorem near_form {f : F} {B : Prop} (hB : Fails f → B) (hf : OnlyCovered f) {m : UMap} : ∀ {keys : List Bytes} {i : Nat} {first : Bool} {u r : Bytes} {u' : Option Bytes},
    Client.addForm m keys first u = .ok r → u'.getD [] = u → first = decide (i = 0) →
    (B ∧ addForm f m keys i u' = .ok none) ∨ ∃ r', addForm f m keys i u' = .ok (some r') ∧ r'.getD [] = r
  | [], i, first, u, r, u', h, hn, _ => by
    cases h
    exact .inr ⟨u', rfl, hn⟩
  | k :: t, i, first, u, r, u', h, hn, he => by
    rw [Client.addForm] at h
    obtain ⟨v, hv, h⟩ := bind_ok h
    rw [addForm]
    by_cases h1 : f .formKey i = true
    · rw [if_pos h1]; exact .inl ⟨hB ⟨_, _, h1⟩, rfl⟩
    · rw [if_neg h1, hv, Res.ok_bind]
      by_cases h2 : (v.isSome && f .formValue i) = true
      · rw [if_pos h2]; exact .inl ⟨hB ⟨_, _, (Bool.and_eq_true _ _ ▸ h2).2⟩, rfl⟩
      · rw [if_neg h2, hf.no .formCat i rfl]
        refine near_form hB hf h ?_ (by simp)
        subst he
        by_cases h0 : i = 0 <;> simp [cat, hn, h0]

/-- Requests that are sent alike. -/
structure Like (a b : Request) : Prop where
  body : bodyOptions a = bodyOptions b
  header : a.mapHeader = b.mapHeader
  cookie : a.mapCookie = b.mapCookie
  last : ∀ u l s r, lastOptions a u l s r = lastOptions b u l s r

theorem body_like {a b : Request} {x : Option Bytes} {y : Bytes} (ha : a.body = x.map (· ++ [0])) (hla : a.bodyLen = (x.getD []).length)
    (hb : b.body = some (y ++ [0])) (hlb : b.bodyLen = y.length) (e : x.getD [] = y) : bodyOptions a = bodyOptions b := by
  unfold bodyOptions
  rw [ha, hla, hb, hlb, e]
  cases x with
  | none => simp at e; simp [← e]
  | some x => simp at e; simp [e]

theorem like_form {f : F} {B : Prop} (hB : Fails f → B) (hf : OnlyCovered f) {a b : Request} {o : Option Request} (h : Send.formStep b = .ok o)
    (hp : a.mapPost = b.mapPost) (hl : Like a b) :
    (B ∧ formStep f a = .ok none) ∨ (formStep f a = .ok none ∧ o = none) ∨ ∃ a' b', formStep f a = .ok (some a') ∧ o = some b' ∧ Like a' b' := by
  unfold formStep
  unfold Send.formStep at h
  rw [hp]
  by_cases h0 : b.mapPost.nb ≠ 0
  · rw [if_pos h0] at h ⊢
    rw [hf.no .formKeys 0 rfl]
    obtain ⟨x, hx, h⟩ := bind_ok h
    obtain ⟨keys, hk, hx⟩ := bind_ok hx
    rw [if_neg (by simp), hk, Res.ok_bind]
    rcases near_form hB hf (i := 0) (u' := none) hx rfl (by simp) with ⟨b0, hh⟩ | ⟨r', hh, hr⟩
    · rw [hh]; exact .inl ⟨b0, rfl⟩
    · rw [hh, Res.ok_bind, hl.header]
      obtain ⟨⟨rc, hm⟩, hput, h⟩ := bind_ok h
      simp only [hput, Res.ok_bind]
      by_cases hrc : rc = .ok
      · simp only [hrc, ne_eq, not_true_eq_false, if_false] at h
        cases h
        cases hpp : f .formPut 0 with
        | true => exact .inl ⟨hB ⟨_, _, hpp⟩, by simp⟩
        | false =>
          refine .inr (.inr ⟨_, _, by simp [hrc]; rfl, rfl, ?_⟩)
          refine ⟨body_like (x := r') rfl rfl rfl rfl hr, rfl, hl.cookie, hl.last⟩
      · simp only [hrc, ne_eq, not_false_eq_true, if_true] at h
        cases h
        exact .inr (.inl ⟨by simp [hrc], rfl⟩)
  · rw [if_neg h0] at h ⊢
    cases h
    exact .inr (.inr ⟨a, b, rfl, rfl, hl⟩)

theorem near_headers {f : F} {B : Prop} (hB : Fails f → B) (hf : OnlyCovered f) {m : UMap} : ∀ {keys : List Bytes} {i : Nat} {r : List Bytes},
    Client.headerList m keys = .ok r → (B ∧ headerList f m keys i = .ok none) ∨ headerList f m keys i = .ok (some r)
  | [], i, r, h => by cases h; exact .inr rfl
  | k :: t, i, r, h => by
    rw [Client.headerList] at h
    obtain ⟨v, hv, h⟩ := bind_ok h
    obtain ⟨x, hx, h⟩ := bind_ok h
    cases h
    rw [headerList, hv, Res.ok_bind, hf.no .headerText i rfl, if_neg (by simp)]
    by_cases h1 : f .headerAppend i = true
    · rw [if_pos h1]; exact .inl ⟨hB ⟨_, _, h1⟩, rfl⟩
    · rw [if_neg h1]
      rcases near_headers hB hf (i := i + 1) hx with ⟨b0, hh⟩ | hh <;> rw [hh, Res.ok_bind]
      · exact .inl ⟨b0, rfl⟩
      · exact .inr rfl

theorem near_headerStep {f : F} {B : Prop} (hB : Fails f → B) (hf : OnlyCovered f) {m : UMap} {r : List Bytes} (h : Send.headerValues m = .ok r) :
    (B ∧ headerStep f m = .ok none) ∨ headerStep f m = .ok (some r) := by
  unfold headerStep
  unfold Send.headerValues at h
  by_cases h0 : m.nb ≠ 0
  · rw [if_pos h0] at h ⊢
    obtain ⟨keys, hk, h⟩ := bind_ok h
    rw [hf.no .headerKeys 0 rfl, if_neg (by simp), hk, Res.ok_bind]
    exact near_headers hB hf h
  · rw [if_neg h0] at h ⊢
    cases h
    exact .inr rfl

theorem cookies_eq {f : F} (hf : OnlyCovered f) {m : UMap} : ∀ {keys : List Bytes} {i : Nat} {acc : Option Bytes},
    cookieText f m keys i acc = Client.cookieText m keys acc
  | [], _, _ => rfl
  | k :: t, i, acc => by
    rw [cookieText, Client.cookieText]
    cases getText m k with
    | ub => rfl
    | ok v =>
      rw [Res.ok_bind, Res.ok_bind]
      simp only [hf.no .cookiePair i rfl, hf.no .cookieCat i rfl, Bool.false_eq_true, if_false]
      rw [cookies_eq hf]
      cases acc <;> rfl

theorem cookieStep_eq {f : F} (hf : OnlyCovered f) {m : UMap} : cookieStep f m = Send.cookieValue m := by
  unfold cookieStep Send.cookieValue
  rw [hf.no .cookieKeys 0 rfl]
  simp only [Bool.false_eq_true, if_false, cookies_eq hf]

theorem setAll_mem {c : Curl} : ∀ {l done r : List Opt} {o : Opt}, setAll c done l = some r → o ∈ l ∨ o ∈ done → o ∈ r
  | [], done, r, o, h, hm => by
    cases h
    rcases hm with hm | hm
    · cases hm
    · exact hm
  | x :: t, done, r, o, h, hm => by
    rw [setAll] at h
    by_cases ha : c.accepts done x = true
    · rw [if_pos ha] at h
      refine setAll_mem h ?_
      rcases hm with hm | hm
      · rcases List.mem_cons.1 hm with hm | hm
        · exact .inr (by simp [hm])
        · exact .inl hm
      · exact .inr (by simp [hm])
    · rw [if_neg ha] at h; cases h

/-- `a` is what a covered failure may leave of the copy `b`. -/
structure Copy (f : F) (a b : Request) : Prop where
  first : ∀ r x, firstOptions r a x = firstOptions r b x
  mapUrl : a.mapUrl = b.mapUrl
  url : a.url = b.url ∨ (Fails f ∧ a.url = none)
  post : a.mapPost = b.mapPost
  like : Like a b

theorem prepare_near {f : F} {B : Prop} (hB : Fails f → B) (hf : OnlyCovered f) {c : Curl} {req a b : Request} {sink : Sink} {resp : Bool} {x : Option (List Opt)}
    (hc : Copy f a b) (hn0 : b.url = none → B) (h : Send.prepare c req b sink resp = .ok x) :
    prepare f c req a sink resp = .ok x ∨ (B ∧ (prepare f c req a sink resp = .ok none ∨
      ∃ l, prepare f c req a sink resp = .ok (some l) ∧ Nowhere l)) := by
  unfold Send.prepare at h
  unfold prepare
  rw [hc.like.header]
  obtain ⟨acc, hacc, h⟩ := bind_ok h
  rw [hacc, Res.ok_bind, hc.first]
  cases hs : setAll c [] (firstOptions req b acc) with
  | none => simp only [hs] at h ⊢; exact .inl h
  | some done =>
    simp only [hs] at h ⊢
    obtain ⟨u, hu, h⟩ := bind_ok h
    rcases near_url hB hf hu hc.mapUrl hc.url hn0 with ⟨b0, h1⟩ | ⟨u', h1, hn⟩
    · rw [h1]; exact .inr ⟨b0, .inl rfl⟩
    · rw [h1, Res.ok_bind]
      obtain ⟨o, ho, h⟩ := bind_ok h
      rcases like_form hB hf ho hc.post hc.like with ⟨b0, h2⟩ | ⟨h2, rfl⟩ | ⟨a', b', h2, rfl, hl⟩
      · simp only [h2]; exact .inr ⟨b0, .inl rfl⟩
      · simp only [h2]; exact .inl h
      · simp only [h2, Res.ok_bind]
        rw [hl.body, hl.header, hl.cookie]
        simp only at h
        cases hs2 : setAll c done (bodyOptions b') with
        | none => simp only [hs2] at h ⊢; exact .inl h
        | some done2 =>
          simp only [hs2] at h ⊢
          obtain ⟨lines, hlines, h⟩ := bind_ok h
          rcases near_headerStep hB hf hlines with ⟨b0, h3⟩ | h3
          · rw [h3]; exact .inr ⟨b0, .inl rfl⟩
          · rw [h3, Res.ok_bind]
            simp only
            rw [cookieStep_eq hf]
            obtain ⟨ck, hck, h⟩ := bind_ok h
            obtain ⟨done3, hd3, h⟩ := bind_ok h
            rw [hck, Res.ok_bind, hd3, Res.ok_bind, hl.last]
            rcases hn with rfl | ⟨b0, hn⟩
            · exact .inl h
            · cases hs3 : setAll c done3 (lastOptions b' u' lines sink resp) with
              | none => exact .inr ⟨b0, .inl rfl⟩
              | some l =>
                refine .inr ⟨b0, .inr ⟨l, rfl, u', setAll_mem hs3 (.inl ?_), hn⟩⟩
                simp [lastOptions]

theorem store_eq {f : F} (hf : OnlyCovered f) {i : Nat} {m : UMap} {k v : Option Bytes} : storeHeader f i m k v = Client.storeHeader m k v := by
  unfold storeHeader Client.storeHeader
  simp only [hf.no .lineText i rfl, hf.no .linePut i rfl, Bool.false_eq_true, if_false]
  rfl

theorem headers_near {f : F} {B : Prop} (hB : Fails f → B) (hf : OnlyCovered f) {max : Nat} : ∀ {lines : List Bytes} {i : Nat} {h r : Headers},
    Client.writeHeaders max h lines = .ok r → ∃ ok h', writeHeaders f max i h lines = .ok (ok, h') ∧ ((ok = true ∧ h' = r) ∨ (B ∧ ok = false))
  | [], i, h, r, hh => by cases hh; exact ⟨true, h, rfl, .inl ⟨rfl, rfl⟩⟩
  | l :: t, i, h, r, hh => by
    rw [Client.writeHeaders] at hh
    obtain ⟨x, hx, hh⟩ := bind_ok hh
    rw [writeHeaders]
    have hw : writeHeader f i max h l = .ok (true, x) ∨ (B ∧ ∃ y, writeHeader f i max h l = .ok (false, y)) := by
      unfold Client.writeHeader at hx
      unfold writeHeader
      by_cases h1 : 0x3a ∈ l
      · rw [if_pos h1] at hx ⊢
        by_cases h2 : max = 0 ∨ h.counter < max
        · rw [if_pos h2] at hx ⊢
          rw [store_eq hf]
          obtain ⟨m, hm, hx⟩ := bind_ok hx
          cases hx
          rw [hm, Res.ok_bind]
          exact .inl rfl
        · rw [if_neg h2] at hx ⊢
          cases hx
          exact .inl rfl
      · rw [if_neg h1] at hx ⊢
        by_cases h2 : Strtok.trimSpace l ≠ []
        · rw [if_pos h2] at hx ⊢
          cases hx
          by_cases h3 : f .protocol i = true
          · rw [if_pos h3]; exact .inr ⟨hB ⟨_, _, h3⟩, _, rfl⟩
          · rw [if_neg h3]; exact .inl rfl
        · rw [if_neg h2] at hx ⊢
          cases hx
          exact .inl rfl
    rcases hw with hw | ⟨b0, y, hw⟩
    · simp only [hw, Res.ok_bind, if_true]
      exact headers_near hB hf hh
    · simp only [hw, Res.ok_bind]
      exact ⟨false, y, rfl, .inr ⟨b0, rfl⟩⟩

theorem fields_eq {f : F} (hf : OnlyCovered f) {i : Nat} : ∀ {l : List Bytes} {v : Locals} {j : Nat}, setFields f i v j l = Client.setFields v j l
  | [], _, _ => rfl
  | e :: t, v, j => by
    rw [setFields, Client.setFields, hf.no .gotField _ rfl, if_neg (by simp), fields_eq hf]
    congr 1

theorem cookieList_eq {f : F} (hf : OnlyCovered f) : ∀ {lines : List Bytes} {i : Nat} {r : Response} {v : Locals},
    cookieList f i r v lines = Client.cookieList r v lines
  | [], _, _, _ => rfl
  | l :: t, i, r, v => by
    rw [cookieList, Client.cookieList, hf.no .gotLine i rfl, hf.no .gotAdd i rfl, if_neg (by simp), fields_eq hf]
    unfold useFields Client.cookieLine
    cases Client.useFields r (Client.setFields v 0 (Strtok.words (· == 0x09) l)) with
    | ub => rfl
    | ok x => exact cookieList_eq hf

/-- What the claim says, for outcomes of the model. -/
def Fair (o o' : Outcome) : Prop :=
  (o'.code = .ok → o' = o) ∧ ∀ l, o'.performed = some l → o.performed = some l ∨ Nowhere l

theorem perform_same {f : F} {B : Prop} (hB : Fails f → B) (hf : OnlyCovered f) {c : Curl} {opts : List Opt} {max : Nat} {body : List Bytes → Bool}
    (hbody : ∀ l, body l = false → B) {resp : Option Response} {o : Outcome} (h : Send.perform c opts max resp = .ok o) :
    ∃ o', perform f c opts max body resp = .ok o' ∧ (o' = o ∨ (B ∧ Fair o o')) := by
  unfold Send.perform at h
  unfold perform
  cases resp with
  | none =>
    cases h
    cases hb : body (c.perform opts).chunks with
    | true => exact ⟨_, rfl, .inl (by simp [hb])⟩
    | false => exact ⟨_, rfl, .inr ⟨hbody _ hb, by simp [hb], fun l h => .inl h⟩⟩
  | some r =>
    simp only at h ⊢
    obtain ⟨hd, hhd, h⟩ := bind_ok h
    obtain ⟨ok, h', hw, he⟩ := headers_near hB hf (i := 0) hhd
    simp only [hw, Res.ok_bind]
    have hp : o.performed = some opts := by
      cases hst : (c.perform opts).status with
      | none => simp only [hst] at h; cases h; rfl
      | some st =>
        simp only [hst] at h
        cases hck : (c.perform opts).cookies with
        | none => simp only [hck] at h; cases h; rfl
        | some lines => simp only [hck] at h; obtain ⟨_, _, h⟩ := bind_ok h; cases h; rfl
    cases hst : (c.perform opts).status with
    | none =>
      simp only [hst] at h
      rcases he with ⟨_, rfl⟩ | ⟨b0, _⟩
      · exact ⟨_, h, .inl rfl⟩
      · exact ⟨_, rfl, .inr ⟨b0, by simp, fun l h => .inl (by simp at h; rw [hp, h])⟩⟩
    | some st =>
      simp only [hst] at h
      simp only
      by_cases hb : (ok && body (c.perform opts).chunks) = true
      · rw [if_pos hb]
        have hok := (Bool.and_eq_true _ _ ▸ hb).1
        rcases he with ⟨_, rfl⟩ | ⟨b0, h0⟩
        · cases hck : (c.perform opts).cookies with
          | none =>
            simp only [hck] at h
            exact ⟨o, h, .inl rfl⟩
          | some lines =>
            simp only [hck] at h
            simp only [cookieList_eq hf]
            exact ⟨o, h, .inl rfl⟩
        · rw [h0] at hok; cases hok
      · rw [if_neg hb]
        have b0 : B := by
          rcases he with ⟨hok, _⟩ | ⟨b0, _⟩
          · refine hbody (c.perform opts).chunks ?_
            cases hbb : body (c.perform opts).chunks with
            | false => rfl
            | true => rw [hok, hbb] at hb; exact absurd rfl hb
          · exact b0
        exact ⟨_, rfl, .inr ⟨b0, by simp, fun l h => .inl (by simp at h; rw [hp, h])⟩⟩

theorem perform_nowhere {f : F} {c : Curl} (hc : Refuses c) {opts : List Opt} (hn : Nowhere opts) {max : Nat} {body : List Bytes → Bool}
    {resp : Option Response} {o : Outcome} : ∃ o', perform f c opts max body resp = .ok o' ∧ Fair o o' := by
  obtain ⟨h1, h2, _⟩ := hc opts hn
  unfold perform
  cases resp with
  | none => exact ⟨_, rfl, by simp [h1], fun l h => .inr (by simp at h; exact h ▸ hn)⟩
  | some r =>
    simp only [h1, h2, writeHeaders, Res.ok_bind]
    exact ⟨_, rfl, by simp, fun l h => .inr (by simp at h; exact h ▸ hn)⟩

theorem copy_of {f : F} (hf : OnlyCovered f) (b : Request) : Copy f { b with
        protocol := text f .dupOther b.protocol
        urlPath := text f .dupOther b.urlPath
        certFile := text f .dupOther b.certFile
        keyFile := text f .dupOther b.keyFile
        keyPassword := text f .dupOther b.keyPassword
        verb := text f .dupVerb b.verb
        url := text f .dupUrl b.url
        proxy := text f .dupProxy b.proxy
        caPath := text f .dupCa b.caPath
        user := text f .dupUser b.user
        password := text f .dupPassword b.password } b := by
  have e : ∀ p s, Covered p = false → text f p s = s := by
    intro p s hp
    simp [text, hf.no p 0 hp]
  rw [e .dupVerb _ rfl, e .dupProxy _ rfl, e .dupCa _ rfl, e .dupUser _ rfl, e .dupPassword _ rfl]
  refine ⟨fun _ _ => rfl, rfl, ?_, rfl, rfl, rfl, rfl, fun _ _ _ _ => rfl⟩
  unfold text
  by_cases h : f .dupUrl 0 = true
  · rw [if_pos h]; exact .inr ⟨⟨_, _, h⟩, rfl⟩
  · rw [if_neg h]; exact .inl rfl

theorem fair_refused {o : Outcome} {code : Send.Code} {r : Option Response} (h : code ≠ .ok) : Fair o ⟨code, none, r, []⟩ :=
  ⟨fun h' => absurd h' h, by simp⟩

theorem duplicate_url {r b : Request} (h : duplicateRequest r = .ok (some b)) : b.url = r.url := by
  unfold duplicateRequest copyRequest at h
  obtain ⟨_, _, h⟩ := bind_ok h
  obtain ⟨⟨rc1, _⟩, _, h⟩ := bind_ok h
  by_cases h1 : rc1 = .ok
  · simp only [h1, ne_eq, not_true_eq_false, if_false] at h
    obtain ⟨⟨rc2, _⟩, _, h⟩ := bind_ok h
    by_cases h2 : rc2 = .ok
    · simp only [h2, ne_eq, not_true_eq_false, if_false] at h
      obtain ⟨⟨rc3, _⟩, _, h⟩ := bind_ok h
      by_cases h3 : rc3 = .ok
      · simp only [h3, ne_eq, not_true_eq_false, if_false] at h
        obtain ⟨⟨rc4, _⟩, _, h⟩ := bind_ok h
        by_cases h4 : rc4 = .ok
        · simp only [h4, ne_eq, not_true_eq_false, if_false] at h
          obtain ⟨_, _, h⟩ := bind_ok h
          cases h
          rfl
        · simp only [h4, ne_eq, not_false_eq_true, if_true] at h; cases h
      · simp only [h3, ne_eq, not_false_eq_true, if_true] at h; cases h
    · simp only [h2, ne_eq, not_false_eq_true, if_true] at h; cases h
  · simp only [h1, ne_eq, not_false_eq_true, if_true] at h; cases h

/-- Something fails, or the request has no URL. -/
def Trouble (f : F) (req : Option Request) : Prop := Fails f ∨ ∃ r, req = some r ∧ r.url = none

theorem streaming_fair {f : F} (hf : OnlyCovered f) {c : Curl} {req : Option Request} (hc : Trouble f req → Refuses c) {resp : Option Response} {sink : Sink} {max : Nat}
    {body : List Bytes → Bool} (hbody : ∀ l, body l = false → Fails f) {o : Outcome} (h : Send.sendStreaming c req resp sink max = .ok o) :
    ∃ o', sendStreaming f c req resp sink max body = .ok o' ∧ (o' = o ∨ (Trouble f req ∧ Fair o o')) := by
  unfold Send.sendStreaming at h
  unfold sendStreaming
  cases req with
  | none => cases h; exact ⟨_, rfl, .inl rfl⟩
  | some req =>
    have hB : Fails f → Trouble f (some req) := .inl
    simp only at h ⊢
    obtain ⟨d, hd, h⟩ := bind_ok h
    unfold duplicate
    rw [hf.no .dupInit 0 rfl, if_neg (by simp)]
    by_cases hb : f .dupBlock 0 = true
    · rw [if_pos hb]; exact ⟨_, rfl, .inr ⟨hB ⟨_, _, hb⟩, fair_refused (by simp)⟩⟩
    · rw [if_neg hb, hd, Res.ok_bind]
      cases d with
      | none => exact ⟨_, h, .inl rfl⟩
      | some b =>
        simp only at h
        simp only [pure, Res.ok_bind]
        by_cases hi : c.init = true
        · rw [if_pos hi] at h ⊢
          obtain ⟨x, hx, h⟩ := bind_ok h
          have hn0 : b.url = none → Trouble f (some req) := fun e => .inr ⟨req, rfl, duplicate_url hd ▸ e⟩
          rcases prepare_near hB hf (copy_of hf b) hn0 hx with hp | ⟨b0, hp | ⟨l, hp, hn⟩⟩
          · rw [hp, Res.ok_bind]
            cases x with
            | none => exact ⟨_, h, .inl rfl⟩
            | some opts => exact perform_same hB hf (fun l e => hB (hbody l e)) h
          · rw [hp]; exact ⟨_, rfl, .inr ⟨b0, fair_refused (by simp)⟩⟩
          · rw [hp, Res.ok_bind]
            obtain ⟨o', h1, h2⟩ := perform_nowhere (f := f) (max := max) (body := body) (resp := resp) (o := o) (hc b0) hn
            exact ⟨o', h1, .inr ⟨b0, h2⟩⟩
        · rw [if_neg hi] at h ⊢; exact ⟨_, h, .inl rfl⟩

theorem takes_fails {f : F} : ∀ {l : List Bytes} {i : Nat} {b : Body}, takes f i b l = false → Fails f
  | [], _, _, h => by cases h
  | c :: t, i, b, h => by
    rw [takes] at h
    by_cases hc : (decide (Client.curSize b.data.length b.limit c.length ≠ 0) && f .bodyPart i) = true
    · exact ⟨_, _, (Bool.and_eq_true _ _ ▸ hc).2⟩
    · rw [if_neg hc] at h
      exact takes_fails h

theorem limit_fair {f : F} (hf : OnlyCovered f) {c : Curl} {req : Option Request} (hc : Trouble f req → Refuses c) {resp : Option Response} {limit max : Nat}
    {o : Outcome} (h : Send.sendLimit c req resp limit max = .ok o) :
    ∃ o', sendLimit f c req resp limit max = .ok o' ∧ (o' = o ∨ (Trouble f req ∧ Fair o o')) := by
  unfold Send.sendLimit at h
  unfold sendLimit
  obtain ⟨s, hs, h⟩ := bind_ok h
  have hp : o.performed = s.performed := by
    split at h
    · split at h <;> cases h <;> rfl
    · cases h; rfl
  obtain ⟨s', hs', he⟩ := streaming_fair (body := if resp.isSome then takes f 0 { limit := limit } else fun _ => true) hf hc
    (by intro l; cases resp with
      | none => simp
      | some r => exact takes_fails) hs
  rw [hs', Res.ok_bind]
  by_cases hok : s'.code = .ok
  · have hss : s' = s := by
      rcases he with he | ⟨_, he⟩
      · exact he
      · exact he.1 hok
    subst hss
    cases hr : s'.response with
    | none =>
      simp only [hok, hr] at h ⊢
      exact ⟨_, h, .inl rfl⟩
    | some r =>
      simp only [hok, hr] at h ⊢
      cases hb : Client.received limit s'.chunks with
      | none =>
        simp only [hb] at h ⊢
        exact ⟨_, h, .inl rfl⟩
      | some b =>
        simp only [hb] at h ⊢
        by_cases hcp : f .bodyCopy 0 = true
        · rw [if_pos hcp]
          exact ⟨_, rfl, .inr ⟨.inl ⟨_, _, hcp⟩, by simp, fun l h => .inl (by rw [hp]; exact h)⟩⟩
        · rw [if_neg hcp]
          exact ⟨_, h, .inl rfl⟩
  · have hm : s' = s ∨ (Trouble f req ∧ Fair o s') := by
      rcases he with he | ⟨b0, he⟩
      · exact .inl he
      · exact .inr ⟨b0, fun h => absurd h hok, fun l hl => hp ▸ he.2 l hl⟩
    cases hcode : s'.code with
    | ok => exact absurd hcode hok
    | memory =>
      refine ⟨s', rfl, ?_⟩
      rcases hm with rfl | hm
      · simp only [hcode] at h; cases h; exact .inl rfl
      · exact .inr hm
    | params =>
      refine ⟨s', rfl, ?_⟩
      rcases hm with rfl | hm
      · simp only [hcode] at h; cases h; exact .inl rfl
      · exact .inr hm
    | libcurl =>
      refine ⟨s', rfl, ?_⟩
      rcases hm with rfl | hm
      · simp only [hcode] at h; cases h; exact .inl rfl
      · exact .inr hm

end Verif.OomSend
