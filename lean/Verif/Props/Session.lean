import Verif.Model.Session
import Verif.Props.HeadersEndToEnd
import Verif.Props.AnswerEndToEnd
import Verif.Lemmas.Deflate
import Verif.Lemmas.Upload
/-!
# C167: cookies come back

Full statement: when a callback sets cookies and the client puts the cookies of the response into its next request, the callback of that request finds
them in `map_cookie` with the values that were set. So `callback_get_cookietest` of the simple example counts the visits of a client.
-/
namespace Verif.Props
open Verif.UMap Verif.Message Verif.Answer Verif.Client Verif.Send Verif.Session Verif.Printf
open Verif.Spec.OMap (lookup)
open Verif.Upload (ascii_utf8)
open Verif.Spec.Cookie (nameValue)
open Verif.Spec.Client (Jar Line)
open Verif.Spec.Curl (transferOf Opt)
open Verif.Spec.Utf8 (IsUtf8)
open Verif.Endpoint (collect)

/-! ## Specification -/

/-- Without the blanks at both ends. -/
def bare (s : Bytes) : Bytes := ((s.dropWhile (fun c => c == 0x20 || c == 0x09)).reverse.dropWhile (fun c => c == 0x20 || c == 0x09)).reverse

/-- What libcurl's cookie list holds after a transfer with these Set-Cookie lines, none of which it refuses: for each a line with its name and value
(RFC 6265, 5.2), in any order. -/
def Jarred (texts : List Bytes) (js : List Jar) : Prop :=
  (∀ j ∈ js, j.Wf) ∧
    (js.map (fun j => (j.name, j.value))).Perm (texts.filterMap (fun t => (nameValue t).map (fun p => (bare p.1, bare (p.2.getD [])))))

/-- A name and a value that can be a cookie: no NUL or `;`, no blanks at the ends, no `=` in the name; both are there, in UTF-8. -/
structure Carried (k v : Bytes) : Prop where
  name : k ≠ [] ∧ NoNul k ∧ (0x3b : UInt8) ∉ k ∧ (0x3d : UInt8) ∉ k ∧ bare k = k ∧ IsUtf8 k
  value : v ≠ [] ∧ NoNul v ∧ (0x3b : UInt8) ∉ v ∧ bare v = v ∧ IsUtf8 v ∧ v.length + 2 < 2 ^ 64

/-- What the client holds when it has put these cookies over those it had. -/
def held (old : Bytes → Option (Option Bytes)) (cookies : List (Bytes × Bytes)) (k : Bytes) : Option (Option Bytes) :=
  match cookies.find? (fun p => p.1 == k) with
  | some p => some (some p.2)
  | none => old k

/-! ## Proofs -/

private theorem passOn_holds : ∀ (js : List Jar) {m : UMap} {ps : List (Bytes × Option Bytes)}, HoldsParams m ps →
    (∀ p ∈ ps, ∃ v, p.2 = some v ∧ Carried p.1 v) → (∀ j ∈ js, Carried j.name j.value) → (js.map (·.name)).Nodup →
    ∃ m' ps', passOn m (js.map (fun j => (jarArgs j).cookie j.name)) = .ok m' ∧ HoldsParams m' ps' ∧ (∀ p ∈ ps', ∃ v, p.2 = some v ∧ Carried p.1 v) ∧
      ∀ k, lookup ps' k = held (lookup ps) (js.map (fun j => (j.name, j.value))) k
  | [], m, ps, h, hf, _, _ => ⟨m, ps, rfl, h, hf, fun k => rfl⟩
  | j :: t, m, ps, h, hf, hj, hn => by
    have cj := hj j List.mem_cons_self
    obtain ⟨m1, e1, h1⟩ := holds_put h j.name (some j.value) cj.name.1 cj.name.2.1
      (fun x hx => by injection hx with hx; subst hx; exact ⟨cj.value.2.1, cj.value.2.2.2.2.2⟩)
    rw [List.map_cons, List.nodup_cons] at hn
    have hf1 : ∀ p ∈ Spec.OMap.put ps j.name (some j.value), ∃ v, p.2 = some v ∧ Carried p.1 v := by
      intro p hp
      unfold Spec.OMap.put at hp
      split at hp
      · obtain ⟨q, hq, rfl⟩ := List.mem_map.1 hp
        split
        · exact ⟨_, rfl, cj⟩
        · exact hf q hq
      · rcases List.mem_append.1 hp with hp | hp
        · exact hf p hp
        · rw [List.mem_singleton] at hp
          subst hp
          exact ⟨_, rfl, cj⟩
    obtain ⟨m2, ps2, e2, h2, f2, l2⟩ := passOn_holds t h1 hf1 (fun x hx => hj x (List.mem_cons_of_mem _ hx)) hn.2
    refine ⟨m2, ps2, ?_, h2, f2, ?_⟩
    · show passOn m ((jarArgs j).cookie j.name :: _) = _
      have hk : Message.read ((jarArgs j).cookie j.name).key = .ok (some j.name) := rfl
      have hv : Message.read ((jarArgs j).cookie j.name).value = .ok (some j.value) := rfl
      simp only [passOn, hk, hv, Res.ok_bind, e1, e2]
    · intro k
      rw [l2 k]
      unfold held
      simp only [List.map_cons, List.find?_cons]
      by_cases hk : j.name = k
      · subst hk
        have hnone : (t.map (fun j => (j.name, j.value))).find? (fun p => p.1 == j.name) = none := by
          rw [List.find?_eq_none]
          intro p hp e
          obtain ⟨x, hx, rfl⟩ := List.mem_map.1 hp
          simp only [beq_iff_eq] at e
          exact hn.1 (e ▸ List.mem_map.2 ⟨x, hx, rfl⟩)
        rw [hnone]
        simp only [beq_self_eq_true, Spec.OMap.lookup_put_self]
      · have hb : (j.name == k) = false := by simpa using hk
        simp only [hb, Spec.OMap.lookup_put_other _ _ _ _ hk]

private theorem perm_find {a b : List (Bytes × Bytes)} (h : a.Perm b) (hn : (a.map (·.1)).Nodup) (k : Bytes) :
    a.find? (fun p => p.1 == k) = b.find? (fun p => p.1 == k) := by
  induction h with
  | nil => rfl
  | cons x _ ih =>
    rw [List.map_cons, List.nodup_cons] at hn
    rw [List.find?_cons, List.find?_cons, ih hn.2]
  | swap x y l =>
    simp only [List.map_cons, List.nodup_cons, List.mem_cons, not_or] at hn
    rw [List.find?_cons, List.find?_cons, List.find?_cons, List.find?_cons]
    by_cases h1 : (y.1 == k) = true
    · by_cases h2 : (x.1 == k) = true
      · simp only [beq_iff_eq] at h1 h2
        exact absurd (h1.trans h2.symm) hn.1.1
      · simp only [Bool.not_eq_true] at h2
        simp [h1, h2]
    · simp only [Bool.not_eq_true] at h1
      simp [h1]
  | trans h1 _ ih1 ih2 =>
    rw [ih1 hn, ih2 ((h1.map _).nodup_iff.1 hn)]

/-- What a callback sees under a name in `map_cookie`. -/
def cookieSeen (check : Bool) (got : List (Bytes × Option Bytes)) (k : Bytes) : Option Bytes := (lookup (collect check got []) k).join

private theorem seen_eq {c : Curl} {r : Request} {l : Lists} (w : Wants r l) {resp : Option Response} {opts : List Opt}
    (h : Performed c r resp opts) (check : Bool)
    (hn : ∀ p ∈ l.header, (0x3a : UInt8) ∉ p.1 ∧ (0x3b : UInt8) ∉ p.1 ∧ eqCase p.1 b!"Cookie" = false)
    {ps : List (Bytes × Option Bytes)} (hps : HoldsParams r.mapCookie ps) (hf : ∀ p ∈ ps, ∃ v, p.2 = some v ∧ Carried p.1 v)
    {got : List (Bytes × Option Bytes)} (hg : CookiesReported (transferOf opts).cookieText got) (k : Bytes) :
    lookup (collect check got []) k = lookup ps k := by
  have hl : ∀ p ∈ l.cookie, ∃ v, p.2 = some v ∧ Carried p.1 v := by
    intro p hp
    have h1 := (w.cookie.2.2 p hp).1
    have hk : p.1 ∈ ps.map (·.1) := by
      have e1 := w.cookie.2.1
      have e2 := hps.2.1
      rw [e1] at e2
      injection e2 with e2
      rw [← e2]
      exact List.mem_map.2 ⟨p, hp, rfl⟩
    obtain ⟨q, hq, hqk⟩ := List.mem_map.1 hk
    have h2 := (hps.2.2 q hq).1
    rw [hqk, h1] at h2
    injection h2 with h2
    obtain ⟨v, hv, hc⟩ := hf q hq
    exact ⟨v, h2.trans hv, hqk ▸ hc⟩
  obtain ⟨c1, c2⟩ := C151_cookies_partial w h check hn
    (fun p hp => by
      obtain ⟨v, hv, hc⟩ := hl p hp
      exact ⟨hc.name.2.2.2.1, hc.name.2.2.1, v, hv, hc.value.2.2.1⟩)
    (fun _ p hp => by
      obtain ⟨v, hv, hc⟩ := hl p hp
      exact ⟨hc.name.2.2.2.2.2, fun x hx => by rw [hv] at hx; injection hx with hx; subst hx; exact hc.value.2.2.2.2.1⟩) hg
  cases hlk : lookup ps k with
  | none =>
    apply c2
    intro hm
    have e1 := w.cookie.2.1
    rw [hps.2.1] at e1
    injection e1 with e1
    rw [← e1] at hm
    obtain ⟨q, hq, hqk⟩ := List.mem_map.1 hm
    unfold lookup at hlk
    rw [Option.map_eq_none_iff, List.find?_eq_none] at hlk
    exact hlk q hq (by simpa using hqk)
  | some x =>
    unfold lookup at hlk
    rw [Option.map_eq_some_iff] at hlk
    obtain ⟨q, hq, hqx⟩ := hlk
    have hqm := List.mem_of_find?_eq_some hq
    have hqk : q.1 = k := by simpa using List.find?_some hq
    have hm : k ∈ l.cookie.map (·.1) := by
      have e1 := w.cookie.2.1
      rw [hps.2.1] at e1
      injection e1 with e1
      rw [← e1]
      exact List.mem_map.2 ⟨q, hqm, hqk⟩
    obtain ⟨p, hp, hpk⟩ := List.mem_map.1 hm
    have h1 := (w.cookie.2.2 p hp).1
    have h2 := (hps.2.2 q hqm).1
    rw [hqk, ← hpk, h1] at h2
    injection h2 with h2
    rw [← hpk, c1 p hp, h2, hqx]

private theorem jarred_facts {texts : List Bytes} {js : List Jar} {ks : List (Bytes × Bytes)} (hj : Jarred texts js)
    (ht : texts.filterMap nameValue = ks.map (fun p => (p.1, some p.2))) (hc : ∀ p ∈ ks, Carried p.1 p.2) (hn : (ks.map (·.1)).Nodup) :
    (js.map (fun j => (j.name, j.value))).Perm ks ∧ (∀ j ∈ js, j.Wf ∧ j.value ≠ []) ∧ (∀ j ∈ js, Carried j.name j.value) ∧ (js.map (·.name)).Nodup := by
  have e : texts.filterMap (fun t => (nameValue t).map (fun p => (bare p.1, bare (p.2.getD [])))) = ks := by
    have : texts.filterMap (fun t => (nameValue t).map (fun p => (bare p.1, bare (p.2.getD [])))) =
        (texts.filterMap nameValue).map (fun p => (bare p.1, bare (p.2.getD []))) := by
      rw [List.map_filterMap]
    rw [this, ht, List.map_map]
    conv => rhs; rw [← List.map_id ks]
    apply List.map_congr_left
    intro p hp
    have := hc p hp
    simp only [Function.comp_apply, Option.getD_some, this.name.2.2.2.2.1, this.value.2.2.2.1, id_eq]
  have hp := hj.2
  rw [e] at hp
  have hcar : ∀ j ∈ js, Carried j.name j.value := fun j h => hc _ (hp.mem_iff.1 (List.mem_map.2 ⟨j, h, rfl⟩))
  refine ⟨hp, fun j h => ⟨hj.1 j h, (hcar j h).value.1⟩, hcar, ?_⟩
  have := (hp.map (·.1)).nodup_iff.2 hn
  rw [List.map_map] at this
  exact this

/-- The response of a transfer whose cookies libcurl listed so. -/
private theorem response_cookies {c : Curl} (hi : c.init = true) (ha : ∀ done o, c.accepts done o = true) {r : Request} {l : Lists} (w : Wants r l)
    {st : Nat} {ls : List Line} {chunks : List Bytes} (hw : ∀ x ∈ ls, x.Wf)
    (hs : (ls.map (fun x => x.text.length)).sum + 4 < 2 ^ 64 ∧ chunks.flatten.length + 1 < 2 ^ 64)
    {js : List Jar} (hj : ∀ j ∈ js, j.Wf ∧ j.value ≠ []) (hn : (js.map (·.name)).Nodup)
    (hrep : ∀ opts, c.perform opts = ⟨ls.map Line.text, chunks, some st, some (js.map Jar.text)⟩) :
    ∃ o r', sendLimit c (some r) (some {}) 0 0 = .ok o ∧ o.code = .ok ∧ o.response = some r' ∧
      r'.cookies = js.map (fun j => (jarArgs j).cookie j.name) := by
  obtain ⟨o, r', h1, h2, h3, -, -, -, -, -, rc, h4, h5⟩ := C110_response_partial c hi ha w {} ⟨rfl, rfl, rfl⟩ 0 0 ls hw hs.1 chunks hs.2 st
    (js.map Jar.text) (jars_strings js hj) hrep
  refine ⟨o, r', h1, h2, h3, ?_⟩
  have e : (js.map Jar.text).map argsOf = js.map jarArgs := by
    rw [List.map_map]
    exact List.map_congr_left (fun j h => argsOf_jar j (hj j h).1 (hj j h).2)
  rw [e, jars_run {} rfl js hn] at h4
  injection h4 with h4
  rw [h5, ← h4]

/-! ## C167 -/

/-- **C167, partial.** An answer has Set-Cookie lines that tell these cookies, and libcurl takes them (in whatever order it lists them). A client of the
library gets `U_OK`, and when it puts the cookies of the response over the ones it has, and these into a request, the callback of that request finds
under every name the value that was set, the older one for names that were not set, and nothing else.
Missing: cookies with empty values, which are undefined behaviour at the client (`C41_empty_value_false`, `C167_empty_false`); what C108 lacks. -/
theorem C167_back_partial {c : Curl} (hi : c.init = true) (ha : ∀ done o, c.accepts done o = true) {r : Request} {l : Lists} (w : Wants r l)
    {st : Nat} {ls : List Line} {chunks : List Bytes} (hw : ∀ x ∈ ls, x.Wf)
    (hs : (ls.map (fun x => x.text.length)).sum + 4 < 2 ^ 64 ∧ chunks.flatten.length + 1 < 2 ^ 64)
    {texts : List Bytes} {cookies : List (Bytes × Bytes)} (ht : texts.filterMap nameValue = cookies.map (fun p => (p.1, some p.2)))
    (hc : ∀ p ∈ cookies, Carried p.1 p.2) (hn : (cookies.map (·.1)).Nodup) {js : List Jar} (hj : Jarred texts js)
    (hrep : ∀ opts, c.perform opts = ⟨ls.map Line.text, chunks, some st, some (js.map Jar.text)⟩)
    {m : UMap} {ps : List (Bytes × Option Bytes)} (hm : HoldsParams m ps) (hf : ∀ p ∈ ps, ∃ v, p.2 = some v ∧ Carried p.1 v) :
    ∃ o r' m', sendLimit c (some r) (some {}) 0 0 = .ok o ∧ o.code = .ok ∧ o.response = some r' ∧ passOn m r'.cookies = .ok m' ∧
      ∀ (c₂ : Curl) (r₂ : Request) (l₂ : Lists) (resp : Option Response) (opts : List Opt) (check : Bool) (got : List (Bytes × Option Bytes)),
        Wants r₂ l₂ → r₂.mapCookie = m' →
        (∀ p ∈ l₂.header, (0x3a : UInt8) ∉ p.1 ∧ (0x3b : UInt8) ∉ p.1 ∧ eqCase p.1 b!"Cookie" = false) →
        Performed c₂ r₂ resp opts → CookiesReported (transferOf opts).cookieText got →
        ∀ k, lookup (collect check got []) k = held (lookup ps) cookies k := by
  obtain ⟨j1, j2, j3, j4⟩ := jarred_facts hj ht hc hn
  obtain ⟨o, r', h1, h2, h3, h4⟩ := response_cookies hi ha w hw hs j2 j4 hrep
  obtain ⟨m', ps', e1, e2, e3, e4⟩ := passOn_holds js hm hf j3 j4
  refine ⟨o, r', m', h1, h2, h3, by rw [h4]; exact e1, ?_⟩
  intro c₂ r₂ l₂ resp opts check got w₂ hm₂ hh hp hg k
  rw [seen_eq w₂ hp check hh (by rw [hm₂]; exact e2) e3 hg k, e4 k]
  unfold held
  rw [perm_find j1 (by rw [List.map_map]; exact j4) k]

/-! ## The counter of the simple example -/

/-- The values of the Set-Cookie lines. -/
def setCookies (fields : List Field) : List Bytes := fields.filterMap (fun f => if eqCase f.1 b!"Set-Cookie" then some f.2 else none)

/-- A visit: a client of the library that has these cookies makes a request; the callback of the simple example finds this counter in it; its answer is
delivered, and libcurl takes the cookies; the client has this response. -/
def Visit {σ : Type} (cfg : Cfg σ) (dflt : Option (Callback σ)) (user : σ) (check : Bool) (lang extra : Bytes) (m : UMap) (seen : Option Bytes)
    (r' : Response) : Prop :=
  ∃ (c : Curl) (r : Request) (l : Lists) (o : Outcome) (opts : List Opt) (got : List (Bytes × Option Bytes)) (ans : Ans) (tr : List (Ev σ)) (st : Nat)
      (ls : List Line) (chunks : List Bytes) (js : List Jar),
    c.init = true ∧ (∀ done o, c.accepts done o = true) ∧ Wants r l ∧ r.mapCookie = m ∧
    (∀ p ∈ l.header, (0x3a : UInt8) ∉ p.1 ∧ (0x3b : UInt8) ∉ p.1 ∧ eqCase p.1 b!"Cookie" = false) ∧
    sendLimit c (some r) (some {}) 0 0 = .ok o ∧ o.performed = some opts ∧ o.response = some r' ∧
    CookiesReported (transferOf opts).cookieText got ∧ seen = cookieSeen check got b!"counter" ∧
    Carried b!"lang" lang ∧ Carried b!"extra" extra ∧
    dispatch cfg [testCb (some lang) (some extra) seen] dflt user = .ok (some ans, tr) ∧
    Delivered ans st ls chunks ∧ Jarred (setCookies ans.fields) js ∧
    ∀ opts, c.perform opts = ⟨ls.map Line.text, chunks, some st, some (js.map Jar.text)⟩

/-- So many visits of a client that begins without cookies and puts the cookies of each response over those it has; what it has then. -/
inductive Visits {σ : Type} (cfg : Cfg σ) (dflt : Option (Callback σ)) (user : σ) (check : Bool) : Nat → UMap → Prop
  | none : Visits cfg dflt user check 0 UMap.init
  | more {n : Nat} {m m' : UMap} {lang extra : Bytes} {seen : Option Bytes} {r' : Response} : Visits cfg dflt user check n m →
      Visit cfg dflt user check lang extra m seen r' → passOn m r'.cookies = .ok m' → Visits cfg dflt user check (n + 1) m'

/-- The counter after so many visits. -/
def counted : Nat → Option Bytes
  | 0 => none
  | n + 1 => some (decimal n)

private theorem bare_id (s : Bytes) (h : ∀ c ∈ s, c ≠ 0x20 ∧ c ≠ 0x09) : bare s = s := by
  have key : ∀ l : Bytes, (∀ c ∈ l, c ≠ 0x20 ∧ c ≠ 0x09) → l.dropWhile (fun c => c == 0x20 || c == 0x09) = l := by
    intro l hl
    cases l with
    | nil => rfl
    | cons c t =>
      have := hl c List.mem_cons_self
      rw [List.dropWhile_cons, if_neg (by simp [this.1, this.2])]
  unfold bare
  rw [key s h, key s.reverse (fun c hc => h c (List.mem_reverse.1 hc)), List.reverse_reverse]

private theorem digits_length : ∀ f n, (digits f n).length ≤ f + 1
  | 0, n => by simp [digits]
  | f + 1, n => by
    unfold digits
    split
    · simp
    · have := digits_length f (n / 10)
      simp only [List.length_append, List.length_cons, List.length_nil]
      omega

private theorem decimal_carried (n : Nat) (hn : n < 2 ^ 31) : Carried b!"counter" (decimal n) := by
  have hd : ∀ c ∈ decimal n, c ≠ 0 ∧ c ≠ 0x3b ∧ c ≠ 0x20 ∧ c ≠ 0x09 ∧ c < 0x80 := by
    intro c hc
    have := decimal_digit n c hc
    clear hc
    revert this; revert c; exact forall_byte (by decide +kernel)
  have hl : (decimal n).length ≤ n + 1 := digits_length n n
  refine ⟨⟨by decide, by decide, by decide, by decide, by decide, ascii_utf8 _ (by decide)⟩, decimal_ne_nil n, ?_, ?_, ?_, ?_, by omega⟩
  · intro h0
    exact (hd 0 h0).1 rfl
  · intro h0
    exact (hd 0x3b h0).2.1 rfl
  · exact bare_id _ (fun c hc => ⟨(hd c hc).2.2.1, (hd c hc).2.2.2.1⟩)
  · exact ascii_utf8 _ (fun c hc => (hd c hc).2.2.2.2)

private theorem next_counted (n : Nat) (hn : n < 2 ^ 31) : nextCounter (counted n) = .ok (n : Int) := by
  cases n with
  | zero => rfl
  | succ k =>
    simp only [counted, nextCounter, Deflate.strtol_decimal k (by omega)]
    have : toInt (k : Int) = k := by
      unfold toInt
      have h1 : (k : Int) % 2 ^ 32 = k := Int.emod_eq_of_lt (by omega) (by omega)
      rw [h1]
      simp only
      rw [if_pos (by omega)]
    rw [this, if_neg (by omega)]
    rfl

private theorem plain_cookie (k v : Bytes) :
    cookieHeader (CookieArgs.cookie ⟨some k, some v, none, 0, none, none, false, false, 0⟩ k) = .ok (k ++ b!"=" ++ v) := by
  simp [cookieHeader, CookieArgs.cookie, Message.read, Printf.str, Message.attr, sameSiteText, dup]

private theorem test_ok (lang extra : Bytes) (seen : Option Bytes) (n : Nat) (h : nextCounter seen = .ok (n : Int)) {H : UMap}
    {ds : List (Bytes × Option Bytes)} (hH : HoldsParams H ds) :
    ∃ r, cookieTest (some lang) (some extra) seen { header := H } = .ok (0, r) ∧ r.stream = none ∧ r.status = 200 ∧
      HoldsResp r ds [b!"lang=" ++ lang, b!"extra=" ++ extra, b!"counter=" ++ decimal n] b!"Cookies set!" := by
  refine ⟨(setStringBody { header := H, cookies := [CookieArgs.cookie ⟨some b!"lang", some lang, none, 0, none, none, false, false, 0⟩ b!"lang",
    CookieArgs.cookie ⟨some b!"extra", some extra, none, 0, none, none, false, false, 0⟩ b!"extra",
    CookieArgs.cookie ⟨some b!"counter", some (decimal n), none, 0, none, none, false, false, 0⟩ b!"counter"] } 200 (some b!"Cookies set!")).2, ?_, rfl, rfl,
    hH, ?_, rfl, ?_⟩
  · simp only [cookieTest, h, Res.ok_bind]
    rfl
  · show [cookieHeader _, cookieHeader _, cookieHeader _] = _
    have e0 : ∀ (k v : Bytes), cookieHeader (CookieArgs.cookie ⟨some k, some v, none, 0, none, none, false, false, 0⟩ k) = .ok (k ++ b!"=" ++ v) := plain_cookie
    rw [e0 b!"lang" lang, e0 b!"extra" extra, e0 b!"counter" (decimal n)]
    rfl
  · intro b hb
    injection hb with hb
    subst hb
    show b!"Cookies set!".length ≤ _
    decide

private theorem get_held {m : UMap} {ps : List (Bytes × Option Bytes)} (h : HoldsParams m ps) (k : Bytes) : getStr m k = .ok (lookup ps k).join := by
  obtain ⟨es, rfl, -, hs⟩ := holds_sim h
  unfold lookup
  rcases sim_find hs (fun x => x == k) with ⟨f1, f2⟩ | ⟨e, p, f1, f2, -⟩
  · simp only [getStr, get_rep, f1, f2]
    rfl
  · have := (h.2.2 p (List.mem_of_find?_eq_some f2)).1
    have hk : p.1 = k := by simpa using List.find?_some f2
    rw [f2, ← hk, this]
    rfl

/-- What the client has after so many visits. -/
private structure After (n : Nat) (m : UMap) (ps : List (Bytes × Option Bytes)) : Prop where
  holds : HoldsParams m ps
  fine : ∀ p ∈ ps, ∃ v, p.2 = some v ∧ Carried p.1 v
  counter : (lookup ps b!"counter").join = counted n

private theorem setCookies_lines {ds : List (Bytes × Option Bytes)} (hds : ∀ p ∈ ds, eqCase p.1 b!"Set-Cookie" = false) (texts : List Bytes) :
    setCookies (linesOf ds texts) = texts := by
  unfold setCookies linesOf
  rw [List.filterMap_append]
  have h1 : (ds.filterMap (fun h => h.2.map (fun v => (h.1, v)))).filterMap (fun f => if eqCase f.1 b!"Set-Cookie" then some f.2 else none) = [] := by
    rw [List.filterMap_eq_nil_iff]
    intro f hf
    obtain ⟨p, hp, hpf⟩ := List.mem_filterMap.1 hf
    cases hv : p.2 with
    | none => rw [hv] at hpf; cases hpf
    | some v =>
      rw [hv] at hpf
      injection hpf with hpf
      rw [← hpf, hds p hp]
      rfl
  have h2 : (texts.map (fun c => (b!"Set-Cookie", c))).filterMap (fun f => if eqCase f.1 b!"Set-Cookie" then some f.2 else none) = texts := by
    clear hds h1
    induction texts with
    | nil => rfl
    | cons t l ih =>
      rw [List.map_cons, List.filterMap_cons]
      have : eqCase b!"Set-Cookie" b!"Set-Cookie" = true := by decide
      simp only [this, if_true]
      rw [ih]
  rw [h1, h2, List.nil_append]

private theorem visit_step {σ : Type} (cfg : Cfg σ) (dflt : Option (Callback σ)) (user : σ) (check : Bool) {H : UMap}
    {ds : List (Bytes × Option Bytes)} (hH : initHeaders cfg.defaults = .ok H) (hHd : HoldsParams H ds)
    (hds : ∀ p ∈ ds, eqCase p.1 b!"Set-Cookie" = false)
    (hacc : ∀ lang extra n, Carried b!"lang" lang → Carried b!"extra" extra → Takes cfg.accept []
      (linesOf ds [b!"lang=" ++ lang, b!"extra=" ++ extra, b!"counter=" ++ decimal n]))
    {n : Nat} {m : UMap} {ps : List (Bytes × Option Bytes)} (h : After n m ps) {lang extra : Bytes} {seen : Option Bytes} {r' : Response}
    (v : Visit cfg dflt user check lang extra m seen r') :
    seen = counted n ∧ (n < 2 ^ 31 → (∃ r, cookieTest (some lang) (some extra) seen { header := H } = .ok (0, r)) ∧
      ∃ m' ps', passOn m r'.cookies = .ok m' ∧ After (n + 1) m' ps') := by
  obtain ⟨c, r, l, o, opts, got, ans, tr, st, ls, chunks, js, hi, ha, w, hm, hh, hsend, hopts, hresp, hgot, hseen, hl, hx, hdisp, hdel, hjar, hrep⟩ := v
  have hseen' : seen = counted n := by
    rw [hseen, cookieSeen, seen_eq w (.inr ⟨0, 0, o, hsend, hopts⟩) check hh (by rw [hm]; exact h.holds) h.fine hgot, h.counter]
  refine ⟨hseen', fun hn => ?_⟩
  obtain ⟨r0, t1, t2, t3, t4⟩ := test_ok lang extra seen n (by rw [hseen']; exact next_counted n hn) hHd
  refine ⟨⟨r0, t1⟩, ?_⟩
  have hcb : testCb (σ := σ) (some lang) (some extra) seen 0 ⟨{ header := H }, false, user⟩ = (0, ⟨r0, false, user⟩) := by
    simp only [testCb, t1]
  have hd := dispatch_single cfg (testCb (some lang) (some extra) seen) dflt user hH hcb (.inl rfl) t2 rfl t4 (hacc lang extra n hl hx)
  rw [hd] at hdisp
  injection hdisp with hdisp
  injection hdisp with hans _
  injection hans with hans
  have hf : setCookies ans.fields = [b!"lang=" ++ lang, b!"extra=" ++ extra, b!"counter=" ++ decimal n] := by
    rw [← hans]; exact setCookies_lines hds _
  rw [hf] at hjar
  have hc := decimal_carried n hn
  have hnv : ∀ (k v : Bytes), (0x3b : UInt8) ∉ k → (0x3d : UInt8) ∉ k → k.head? ≠ some 0x20 → (0x3b : UInt8) ∉ v →
      nameValue (k ++ b!"=" ++ v) = some (k, some v) := by
    intro k v h1 h2 h3 h4
    obtain ⟨t, e1, e2, -⟩ := C32_set_cookie_partial ⟨some k, some v, none, 0, none, none, false, false, 0⟩ k
      ⟨h1, h2, h3, by
        intro o ho s hs
        simp only [List.mem_cons, List.not_mem_nil, or_false] at ho
        rcases ho with rfl | rfl | rfl | rfl <;> cases hs
        exact h4⟩ (Nat.zero_le _) (Nat.zero_lt_of_lt (by decide : 0 < 2 ^ 31))
    have : cookieHeader (CookieArgs.cookie ⟨some k, some v, none, 0, none, none, false, false, 0⟩ k) = .ok (k ++ b!"=" ++ v) := plain_cookie k v
    rw [this] at e1
    injection e1 with e1
    rw [e1]
    exact e2
  obtain ⟨j1, j2, j3, j4⟩ := jarred_facts (ks := [(b!"lang", lang), (b!"extra", extra), (b!"counter", decimal n)]) hjar (by
      have e1 := hnv b!"lang" lang (by decide) (by decide) (by decide) hl.value.2.2.1
      have e2 := hnv b!"extra" extra (by decide) (by decide) (by decide) hx.value.2.2.1
      have e3 := hnv b!"counter" (decimal n) (by decide) (by decide) (by decide) hc.value.2.2.1
      simp only [List.cons_append, List.nil_append] at e1 e2 e3 ⊢
      simp [e1, e2, e3]) (by
      intro p hp
      simp only [List.mem_cons, List.not_mem_nil, or_false] at hp
      rcases hp with rfl | rfl | rfl
      · exact hl
      · exact hx
      · exact hc) (by show [b!"lang", b!"extra", b!"counter"].Nodup; decide)
  obtain ⟨o', r'', g1, g2, g3, g4⟩ := response_cookies hi ha w hdel.wf hdel.small j2 j4 hrep
  rw [hsend] at g1
  injection g1 with g1
  subst g1
  rw [hresp] at g3
  injection g3 with g3
  subst g3
  obtain ⟨m', ps', e1, e2, e3, e4⟩ := passOn_holds js h.holds h.fine j3 j4
  refine ⟨m', ps', by rw [g4]; exact e1, e2, e3, ?_⟩
  rw [e4, held, perm_find j1 (by rw [List.map_map]; exact j4)]
  rfl

/-- **C167, the counter (partial).** A client of the library visits the page of the simple example again and again and passes the cookies on, whatever
the order in which libcurl lists them, whatever `lang` and `extra`, whatever else is in its requests: on the visit after `n` visits the callback finds
the counter `n - 1`, it writes `n`, and the client has it. Nothing undefined happens.
Missing: the visit number 2^31 + 1, or a client that makes up such a counter (`C167_overflow_false`). -/
theorem C167_counts_partial {σ : Type} (cfg : Cfg σ) (dflt : Option (Callback σ)) (user : σ) (check : Bool) {H : UMap}
    {ds : List (Bytes × Option Bytes)} (hH : initHeaders cfg.defaults = .ok H) (hHd : HoldsParams H ds)
    (hds : ∀ p ∈ ds, eqCase p.1 b!"Set-Cookie" = false)
    (hacc : ∀ lang extra n, Carried b!"lang" lang → Carried b!"extra" extra → Takes cfg.accept []
      (linesOf ds [b!"lang=" ++ lang, b!"extra=" ++ extra, b!"counter=" ++ decimal n]))
    {n : Nat} (hn : n ≤ 2 ^ 31) {m : UMap} (hv : Visits cfg dflt user check n m) :
    getStr m b!"counter" = .ok (counted n) ∧
    ∀ lang extra seen r', Visit cfg dflt user check lang extra m seen r' → seen = counted n ∧
      (n < 2 ^ 31 → (∃ r, cookieTest (some lang) (some extra) seen { header := H } = .ok (0, r)) ∧ ∃ m', passOn m r'.cookies = .ok m') := by
  have key : ∀ n m, Visits cfg dflt user check n m → n ≤ 2 ^ 31 → ∃ ps, After n m ps := by
    intro n m hv
    induction hv with
    | none => intro _; exact ⟨[], holds_init, by simp, rfl⟩
    | more hv v hp ih =>
      intro hn
      obtain ⟨ps, h⟩ := ih (by omega)
      obtain ⟨-, hs⟩ := visit_step cfg dflt user check hH hHd hds hacc h v
      obtain ⟨-, m', ps', e1, e2⟩ := hs (by omega)
      rw [hp] at e1
      injection e1 with e1
      exact ⟨ps', e1 ▸ e2⟩
  obtain ⟨ps, h⟩ := key n m hv hn
  constructor
  · rw [← h.counter]
    exact get_held h.holds b!"counter"
  · intro lang extra seen r' v
    obtain ⟨h1, h2⟩ := visit_step cfg dflt user check hH hHd hds hacc h v
    refine ⟨h1, fun hn => ?_⟩
    obtain ⟨h3, m', ps', h4, -⟩ := h2 hn
    exact ⟨h3, m', h4⟩

/-! ### A first and a second visit -/

private def plainCfg : Cfg Unit := { accept := fun _ _ _ => true, hand := fun _ => .failed, realm := none, defaults := none }

private def jarOf (k v : Bytes) : Jar := ⟨b!"h", false, b!"/", false, b!"0", k, v, false⟩

private def firstJars : List Jar := [jarOf b!"counter" b!"0", jarOf b!"lang" b!"en", jarOf b!"extra" b!"x"]

private def firstLines : List Line := [.other b!"HTTP/1.1 200 OK\r\n", .header { name := b!"Set-Cookie", value := b!"lang=en" },
  .header { name := b!"Set-Cookie", value := b!"extra=x" }, .header { name := b!"Set-Cookie", value := b!"counter=0" }, .other b!"\r\n"]

private theorem carried_ascii (k v : Bytes) (h1 : k ≠ [] ∧ NoNul k ∧ (0x3b : UInt8) ∉ k ∧ (0x3d : UInt8) ∉ k ∧ bare k = k ∧ ∀ c ∈ k, c < 0x80)
    (h2 : v ≠ [] ∧ NoNul v ∧ (0x3b : UInt8) ∉ v ∧ bare v = v ∧ (∀ c ∈ v, c < 0x80) ∧ v.length + 2 < 2 ^ 64) : Carried k v :=
  ⟨⟨h1.1, h1.2.1, h1.2.2.1, h1.2.2.2.1, h1.2.2.2.2.1, ascii_utf8 _ h1.2.2.2.2.2⟩,
    ⟨h2.1, h2.2.1, h2.2.2.1, h2.2.2.2.1, ascii_utf8 _ h2.2.2.2.2.1, h2.2.2.2.2.2⟩⟩

private def firstRequest : Request := { url := some b!"http://h/en/x" }

private theorem first_wants : Wants firstRequest {} where
  url := holds_init
  header := holds_init
  cookie := holds_init
  post := holds_init
  urlFit := by intro p hp; cases hp
  headerFit := by intro p hp; cases hp
  cookieFit := by intro p hp; cases hp
  postFit := by intro p hp; cases hp
  body := .inl rfl
  address := by intro a h; cases h

private theorem line_wf (v : Bytes) (h : Spec.Client.Trimmed v ∧ NoNul v) : Line.Wf (.header { name := b!"Set-Cookie", value := v }) := by
  refine ⟨?_, ?_, ?_, ?_, ?_, h, by simp⟩
  · intro c hc; cases hc
  · intro c hc; cases hc
  · show ∀ c ∈ [(0x20 : UInt8)], isSpace c = true
    decide +kernel
  · show ∀ c ∈ [(0x0d : UInt8), 0x0a], isSpace c = true
    decide +kernel
  · show Spec.Client.Trimmed b!"Set-Cookie" ∧ b!"Set-Cookie" ≠ [] ∧ (0x3a : UInt8) ∉ b!"Set-Cookie" ∧ NoNul b!"Set-Cookie"
    unfold Spec.Client.Trimmed
    decide +kernel

private def firstReply : Send.Reply := ⟨firstLines.map Line.text, [b!"Cookies set!"], some 200, some (firstJars.map Jar.text)⟩

private theorem first_visit : ∃ r' m', Visit plainCfg none () true b!"en" b!"x" UMap.init none r' ∧ passOn UMap.init r'.cookies = .ok m' := by
  have hl := carried_ascii b!"lang" b!"en" (by decide +kernel) (by decide +kernel)
  have hx := carried_ascii b!"extra" b!"x" (by decide +kernel) (by decide +kernel)
  have hwf : ∀ x ∈ firstLines, x.Wf := by
    intro x hx
    simp only [firstLines, List.mem_cons, List.not_mem_nil, or_false] at hx
    rcases hx with rfl | rfl | rfl | rfl | rfl
    · show (0x3a : UInt8) ∉ _
      decide +kernel
    · exact line_wf _ (by unfold Spec.Client.Trimmed; decide +kernel)
    · exact line_wf _ (by unfold Spec.Client.Trimmed; decide +kernel)
    · exact line_wf _ (by unfold Spec.Client.Trimmed; decide +kernel)
    · show (0x3a : UInt8) ∉ _
      decide +kernel
  obtain ⟨r0, t1, t2, t3, t4⟩ := test_ok b!"en" b!"x" none 0 rfl holds_init
  have hcb : testCb (σ := Unit) (some b!"en") (some b!"x") none 0 ⟨{ header := UMap.init }, false, ()⟩ = (0, ⟨r0, false, ()⟩) := by
    simp only [testCb, t1]
  have hd := dispatch_single plainCfg (testCb (some b!"en") (some b!"x") none) none () rfl hcb (.inl rfl) t2 rfl t4 (fun _ _ _ _ => rfl)
  have hjw : ∀ j ∈ firstJars, j.Wf := by
    intro j hj
    simp only [firstJars, List.mem_cons, List.not_mem_nil, or_false] at hj
    rcases hj with rfl | rfl | rfl <;> exact ⟨by decide +kernel, by decide +kernel, by decide +kernel, by decide +kernel, by decide +kernel⟩
  have hjc : ∀ j ∈ firstJars, Carried j.name j.value := by
    intro j hj
    simp only [firstJars, List.mem_cons, List.not_mem_nil, or_false] at hj
    rcases hj with rfl | rfl | rfl <;> exact carried_ascii _ _ (by decide +kernel) (by decide +kernel)
  have hjs : ∀ j ∈ firstJars, j.Wf ∧ j.value ≠ [] := fun j hj => ⟨hjw j hj, (hjc j hj).value.1⟩
  have hk : (match sendLimit (answering firstReply) (some firstRequest) (some {}) 0 0 with
      | .ok o => o.performed.isSome && (o.performed.map (fun os => (transferOf os).cookieText.isNone)).getD false
      | .ub => false) = true := by decide +kernel
  obtain ⟨o, r', h1, h2, h3, h4⟩ := response_cookies (c := answering firstReply) rfl (fun _ _ => rfl) first_wants hwf (by decide +kernel)
    (chunks := [b!"Cookies set!"]) (js := firstJars) hjs (by decide +kernel) (fun _ => rfl)
  obtain ⟨m', ps', e1, -⟩ := passOn_holds firstJars holds_init (by simp) hjc (by decide +kernel)
  rw [h1] at hk
  cases ho : o.performed with
  | none => simp [ho] at hk
  | some opts =>
    simp only [ho, Option.isSome_some, Bool.true_and, Option.map_some, Option.getD_some, Option.isNone_iff_eq_none] at hk
    refine ⟨r', m', ⟨answering firstReply, firstRequest, {}, o, opts, [], _, _, 200, firstLines, [b!"Cookies set!"], firstJars, rfl, fun _ _ => rfl,
      first_wants, rfl, by simp, h1, ho, h3, by rw [hk]; rfl, rfl, hl, hx, hd, ⟨t3.symm, hwf, ?_, rfl, by decide +kernel⟩, ⟨hjw, ?_⟩, fun _ => rfl⟩,
      by rw [h4]; exact e1⟩
    · show ∀ f ∈ linesOf [] [b!"lang=" ++ b!"en", b!"extra=" ++ b!"x", b!"counter=" ++ decimal 0], Spec.Client.valuesFor f.1 (Spec.Client.headersOf firstLines) =
        Spec.Client.valuesFor f.1 (linesOf [] [b!"lang=" ++ b!"en", b!"extra=" ++ b!"x", b!"counter=" ++ decimal 0])
      decide +kernel
    · show (firstJars.map (fun j => (j.name, j.value))).Perm ((setCookies (linesOf [] [b!"lang=" ++ b!"en", b!"extra=" ++ b!"x",
        b!"counter=" ++ decimal 0])).filterMap (fun t => (nameValue t).map (fun p => (bare p.1, bare (p.2.getD [])))))
      decide +kernel

/-- The client has made one visit, and the next finds the counter it brings. -/
example : ∃ m', Visits plainCfg none () true 1 m' ∧ getStr m' b!"counter" = .ok (some b!"0") := by
  obtain ⟨r', m', h1, h2⟩ := first_visit
  have hv := Visits.more Visits.none h1 h2
  exact ⟨m', hv, (C167_counts_partial plainCfg none () true rfl holds_init (by simp) (fun _ _ _ _ _ _ _ _ _ => rfl) (by decide) hv).1⟩

/-- **C167 is false of cookies with empty values**: a server sets `a=b` and `c=`, and the client that lists its cookies has undefined behaviour. -/
theorem C167_empty_false : ∃ js, Jarred [b!"a=b", b!"c="] js ∧ cookieList {} {} (js.map Jar.text) = .ub := by
  refine ⟨[jarOf b!"a" b!"b", jarOf b!"c" b!""], ⟨?_, by decide +kernel⟩, C41_empty_value_false⟩
  intro j hj
  simp only [List.mem_cons, List.not_mem_nil, or_false] at hj
  rcases hj with rfl | rfl <;> exact ⟨by decide +kernel, by decide +kernel, by decide +kernel, by decide +kernel, by decide +kernel⟩

/-- **C167 is false of the example**: the cookie is the client's to choose, and one number is undefined behaviour in the server. -/
theorem C167_overflow_false (lang extra : Option Bytes) (r : Response) : cookieTest lang extra (some b!"2147483647") r = .ub := rfl

end Verif.Props
