import Verif.Props.Send
import Verif.Props.WsOpen
import Verif.Props.EndToEnd
/-!
# C151: headers and cookies sent by the HTTP client are shown by the server
-/
namespace Verif.Props
open Verif.UMap Verif.Client Verif.Send
open Verif.Spec.Utf8 (IsUtf8)
open Verif.Message (Request Response)
open Verif.Spec.Curl (readHeaders readCookies Transfer Opt transferOf)
open Verif.Endpoint (collect)
open Verif.Spec.Routing (joinComma valuesOf)
open Verif.Spec.OMap (lookup)

/-! ## Specification -/

/-- The headers a request asks for: those of `map_header`, with the content type of the form if there is one. -/
def headersAsked (l : Lists) : List (Bytes × Option Bytes) :=
  if l.post = [] then l.header else Spec.OMap.put l.header b!"Content-Type" (some b!"application/x-www-form-urlencoded")

/-- What libmicrohttpd reports of header text: under each name of the text its values, in order; libcurl's own headers (Host, Accept,
Content-Length) have other names. -/
def HeadersReported (text : Bytes) (got : List (Bytes × Option Bytes)) : Prop :=
  (∀ g ∈ got, g.1 ≠ []) ∧
  ∀ h ∈ readHeaders text [], got.filter (fun g => g.1 == h.1) =
    ((readHeaders text []).filter (fun g => g.1 == h.1)).map (fun g => (g.1, some g.2))

/-- What libmicrohttpd reports of the Cookie header, or of none. -/
def CookiesReported (text : Option Bytes) (got : List (Bytes × Option Bytes)) : Prop :=
  got = match text with
    | none => []
    | some t => readCookies t

private theorem collect_one {check : Bool} {got : List (Bytes × Option Bytes)} {k v : Bytes} (hne : ∀ g ∈ got, g.1 ≠ [])
    (hf : got.filter (fun g => g.1 == k) = [(k, some v)]) (hu : check = true → IsUtf8 k ∧ IsUtf8 v) :
    lookup (collect check got []) k = some (some v) := by
  classical
  rw [C23_collect_partial check _ hne k]
  have hv : valuesOf (fun p => check = true → IsUtf8 p.1 ∧ ∀ v, p.2 = some v → IsUtf8 v) k got =
      (got.filter (fun p => p.1 == k)).map (fun p => p.2.getD []) := by
    unfold valuesOf
    congr 1
    refine List.filter_congr ?_
    intro p hp
    by_cases e : p.1 = k
    · have hm : p ∈ got.filter (fun g => g.1 == k) := List.mem_filter.2 ⟨hp, by simpa using e⟩
      rw [hf, List.mem_singleton] at hm
      subst hm
      rw [decide_eq_true ⟨rfl, fun hc => ⟨(hu hc).1, fun w hw => by injection hw with hw; exact hw ▸ (hu hc).2⟩⟩]
      simp
    · rw [decide_eq_false (fun hh => e hh.1)]
      simp [e]
  rw [hv, hf]
  rfl

theorem collect_absent {check : Bool} {got : List (Bytes × Option Bytes)} {k : Bytes} (hne : ∀ g ∈ got, g.1 ≠ [])
    (hk : k ∉ got.map (·.1)) : lookup (collect check got []) k = none := by
  classical
  rw [C23_collect_partial check _ hne k]
  have : valuesOf (fun p => check = true → IsUtf8 p.1 ∧ ∀ v, p.2 = some v → IsUtf8 v) k got = [] := by
    unfold valuesOf
    rw [List.filter_eq_nil_iff.2 (fun p hp h => hk (by
      simp only [decide_eq_true_eq] at h
      exact h.1 ▸ List.mem_map.2 ⟨p, hp, rfl⟩))]
    rfl
  rw [this]

private theorem visible_one {hs : List (Bytes × Option Bytes)} (hn : (hs.map (·.1)).Nodup) {p : Bytes × Bytes} (hp : p ∈ visible hs) :
    (visible hs).filter (fun g => g.1 == p.1) = [p] := by
  induction hs with
  | nil => cases hp
  | cons a t ih =>
    rw [List.map_cons, List.nodup_cons] at hn
    have sub : ∀ q ∈ visible t, q.1 ∈ t.map (·.1) := by
      intro q hq
      unfold visible at hq
      obtain ⟨x, hx, hx2⟩ := List.mem_filterMap.1 hq
      refine List.mem_map.2 ⟨x, hx, ?_⟩
      split at hx2
      · split at hx2
        · cases hx2
        · injection hx2 with hx2; rw [← hx2]
      · cases hx2
    have hcons : visible (a :: t) = visible t ∨ ∃ v, visible (a :: t) = (a.1, v) :: visible t := by
      unfold visible
      rw [List.filterMap_cons]
      split
      · exact .inl rfl
      · rename_i b hb
        right
        split at hb
        · split at hb
          · cases hb
          · injection hb with hb; exact ⟨_, by rw [← hb]⟩
        · cases hb
    rcases hcons with e | ⟨v, e⟩
    · rw [e] at hp ⊢
      exact ih hn.2 hp
    · rw [e] at hp ⊢
      rcases List.mem_cons.1 hp with rfl | hp
      · rw [List.filter_cons, if_pos (by simp), List.filter_eq_nil_iff.2]
        intro q hq h
        simp only [beq_iff_eq] at h
        exact hn.1 (h ▸ sub q hq)
      · rw [List.filter_cons, if_neg]
        · exact ih hn.2 hp
        · intro h
          simp only [beq_iff_eq] at h
          exact hn.1 (h ▸ sub p hp)

/-- **C151, headers (partial).** For every request whose header names contain no ':' and whose header names and values contain no CR:
the server, reading the header text the client sends, shows in `map_header` every header of the request whose value is not blank under
its name with its value; with UTF-8 checking on, if both are UTF-8.
Missing: names that differ in case only, which the server does not join (`C151_case_false`), and what C107 lacks. -/
theorem C151_headers_partial {c : Curl} {r : Request} {l : Lists} (w : Wants r l) {resp : Option Response} {opts : List Opt}
    (h : Performed c r resp opts) (check : Bool)
    (hh : ∀ p ∈ l.header, (0x3a : UInt8) ∉ p.1 ∧ (0x0d : UInt8) ∉ p.1 ∧ ∀ v, p.2 = some v → (0x0d : UInt8) ∉ v)
    {got : List (Bytes × Option Bytes)} (hg : HeadersReported (transferOf opts).headerText got) {k v : Bytes}
    (hk : (k, some v) ∈ headersAsked l) (hb : ∃ x ∈ v, isSpace x = false) (hu : check = true → IsUtf8 k ∧ IsUtf8 v) :
    lookup (collect check got []) k = some (some v) := by
  have e := C107_headers_partial w h hh
  have hn : ((headersAsked l).map (·.1)).Nodup := by
    unfold headersAsked
    split
    · exact holds_nodup w.header
    · exact nodup_put (holds_nodup w.header) _ _
  have hv : (k, v) ∈ visible (headersAsked l) := by
    refine List.mem_filterMap.2 ⟨_, hk, ?_⟩
    simp only
    rw [if_neg]
    intro ha
    obtain ⟨x, hx, h1⟩ := hb
    have h2 : Spec.Curl.blank x = true := List.all_eq_true.1 ha x hx
    exact Bool.noConfusion (h1.symm.trans h2)
  obtain ⟨g1, g2⟩ := hg
  change readHeaders _ [] = visible (headersAsked l) at e
  rw [e] at g2
  have := g2 _ hv
  rw [visible_one hn hv] at this
  exact collect_one g1 this hu

example : ∃ got, HeadersReported (transferOf sampleOptions).headerText got ∧ got.length = 2 ∧
    lookup (collect true got []) b!"X-Id" = some (some b!"7") := by
  refine ⟨[(b!"Host", some b!"h"), (b!"X-Id", some b!"7")], ?_, rfl, ?_⟩
  · have e : readHeaders (transferOf sampleOptions).headerText [] = [(b!"X-Id", b!"7")] := by decide +kernel
    refine ⟨by decide, ?_⟩
    rw [e]
    decide
  · decide

/-- **C151, cookies (partial).** When no header name is "Cookie" in any case or contains ':' or ';', every cookie has a value, no name
contains '=' or ';' and no value ';': the server shows in `map_cookie` exactly the cookies of the request, each with its value.
Missing: what C108 lacks. -/
theorem C151_cookies_partial {c : Curl} {r : Request} {l : Lists} (w : Wants r l) {resp : Option Response} {opts : List Opt}
    (h : Performed c r resp opts) (check : Bool)
    (hn : ∀ p ∈ l.header, (0x3a : UInt8) ∉ p.1 ∧ (0x3b : UInt8) ∉ p.1 ∧ eqCase p.1 b!"Cookie" = false)
    (hc : ∀ p ∈ l.cookie, (0x3d : UInt8) ∉ p.1 ∧ (0x3b : UInt8) ∉ p.1 ∧ ∃ v, p.2 = some v ∧ (0x3b : UInt8) ∉ v)
    (hu : check = true → ∀ p ∈ l.cookie, IsUtf8 p.1 ∧ ∀ v, p.2 = some v → IsUtf8 v)
    {got : List (Bytes × Option Bytes)} (hg : CookiesReported (transferOf opts).cookieText got) :
    (∀ p ∈ l.cookie, lookup (collect check got []) p.1 = some p.2) ∧
    ∀ k, k ∉ l.cookie.map (·.1) → lookup (collect check got []) k = none := by
  obtain ⟨c1, c2⟩ := C108_cookies_partial w h hn hc
  have e : got = l.cookie := by
    unfold CookiesReported at hg
    by_cases hz : l.cookie = []
    · rw [c1 hz] at hg
      rw [hz]; exact hg
    · obtain ⟨t, ht, hr⟩ := c2 hz
      rw [ht] at hg
      exact hg.trans hr
  subst e
  obtain ⟨ks, hk, hnd, he, -⟩ := C08_keys_unique _ w.cookie.1
  rw [w.cookie.2.1] at hk
  have hk := Res.ok.inj hk
  subst hk
  have hne : ∀ g ∈ l.cookie, g.1 ≠ [] := fun p hp e => he (List.mem_map.2 ⟨p, hp, e⟩)
  refine ⟨?_, fun k hk => collect_absent hne hk⟩
  intro p hp
  obtain ⟨-, -, v, hv, -⟩ := hc p hp
  have hf : l.cookie.filter (fun g => g.1 == p.1) = [(p.1, some v)] := by
    have := filter_one hnd p hp
    rw [this, ← hv]
  rw [hv]
  exact collect_one hne hf (fun hck => ⟨(hu hck p hp).1, (hu hck p hp).2 v hv⟩)

example : CookiesReported (some b!"a=1;b=x=y") [(b!"a", some b!"1"), (b!"b", some b!"x=y")] ∧
    lookup (collect true [(b!"a", some b!"1"), (b!"b", some b!"x=y")] []) b!"b" = some (some b!"x=y") :=
  ⟨by unfold CookiesReported; decide, by decide⟩

/-- Header names do not depend on case, but the server joins values only under names written alike: of two lines of one header that
differ in case, a callback that asks for the header sees the first alone. -/
theorem C151_case_false :
    collect true [(b!"X-Forwarded-For", some b!"1.1.1.1"), (b!"x-forwarded-for", some b!"2.2.2.2")] [] =
        [(b!"X-Forwarded-For", some b!"1.1.1.1"), (b!"x-forwarded-for", some b!"2.2.2.2")] ∧
      collect true [(b!"X-Forwarded-For", some b!"1.1.1.1"), (b!"X-Forwarded-For", some b!"2.2.2.2")] [] =
        [(b!"X-Forwarded-For", some b!"1.1.1.1,2.2.2.2")] := by decide

end Verif.Props
