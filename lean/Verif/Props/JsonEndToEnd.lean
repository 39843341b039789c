import Verif.Props.HeadersEndToEnd
import Verif.Props.AnswerEndToEnd
import Verif.Props.Options
import Verif.Props.Upload
/-!
# C156: JSON values from client to server and back
-/
namespace Verif.Props
open Verif.UMap Verif.Client Verif.Send Verif.Options
open Verif.Spec.Utf8 (IsUtf8)
open Verif.Message (Request Response)
open Verif.Spec.Curl (readHeaders Transfer Opt transferOf)
open Verif.Endpoint (collect)
open Verif.Spec.OMap (lookup)
open Verif.Spec.Client (sameName headerValue)

/-! ## Specification -/

/-- libcurl adds no header of its own beside a custom one of this name, in any case. -/
def OwnNames (text : Bytes) (got : List (Bytes × Option Bytes)) : Prop :=
  ∀ g ∈ got, ∀ h ∈ readHeaders text [], eqCase g.1 h.1 = true → ∃ h' ∈ readHeaders text [], h'.1 = g.1

private theorem fit_put {hs : List (Bytes × Option Bytes)} (h : Fit hs) (k v : Bytes) (hv : v.length + 2 < 2 ^ 64) :
    Fit (Spec.OMap.put hs k (some v)) := by
  intro p hp w hw
  unfold Spec.OMap.put at hp
  split at hp
  · obtain ⟨q, hq, rfl⟩ := List.mem_map.1 hp
    split at hw
    · injection hw with hw; rw [← hw]; exact hv
    · exact h q hq w hw
  · rcases List.mem_append.1 hp with hp | hp
    · exact h p hp w hw
    · rw [List.mem_singleton.1 hp] at hw
      injection hw with hw; rw [← hw]; exact hv

private theorem mem_put {hs : List (Bytes × Option Bytes)} {k : Bytes} {v : Option Bytes} : (k, v) ∈ Spec.OMap.put hs k v := by
  unfold Spec.OMap.put
  split
  · rename_i h
    obtain ⟨q, hq, e⟩ := List.any_eq_true.1 h
    exact List.mem_map.2 ⟨q, hq, by rw [if_pos e]⟩
  · exact List.mem_append_right _ (List.mem_singleton.2 rfl)

private theorem names_put {hs : List (Bytes × Option Bytes)} {k : Bytes} {v : Option Bytes} {p : Bytes × Option Bytes}
    (hp : p ∈ Spec.OMap.put hs k v) : p.1 = k ∨ ∃ q ∈ hs, q = p := by
  unfold Spec.OMap.put at hp
  split at hp
  · obtain ⟨q, hq, rfl⟩ := List.mem_map.1 hp
    split
    · exact .inl rfl
    · exact .inr ⟨q, hq, rfl⟩
  · rcases List.mem_append.1 hp with hp | hp
    · exact .inr ⟨p, hp, rfl⟩
    · exact .inl (by rw [List.mem_singleton.1 hp])

private theorem visible_mem {hs : List (Bytes × Option Bytes)} {p : Bytes × Bytes} (h : p ∈ visible hs) : (p.1, some p.2) ∈ hs := by
  unfold visible at h
  obtain ⟨x, hx, hx2⟩ := List.mem_filterMap.1 h
  obtain ⟨k, o⟩ := x
  cases o with
  | none => cases hx2
  | some v =>
    simp only at hx2
    split at hx2
    · cases hx2
    · injection hx2 with hx2
      rw [← hx2]
      exact hx

/-- **C156, from client to callback (partial).** A client sets a JSON value as the body of a request that has no content type header, or
one spelled "Content-Type", and no form parameters, and sends it. Whatever blocks the body arrives in, up to `max_post_body_size`: the
JSON parser that the callback uses through `ulfius_get_json_body_request` gets exactly the text made of the value.
Missing: values longer than the limit (`C156_limit_false`), form parameters, which replace the value (`C156_form_false`), other
spellings (`C114_spelling_false`), header names with ':' and headers with CR (C107). -/
theorem C156_request_partial {c : Curl} {r r' : Request} {l : Lists} (w : Wants r l) (hpost : l.post = []) (t : Bytes) (ht : t ≠ [])
    (hset : setJsonBodyReq r (some t) = .ok (.ok, r')) (hplain : PlainType l.header)
    (hh : ∀ p ∈ l.header, (0x3a : UInt8) ∉ p.1 ∧ (0x0d : UInt8) ∉ p.1 ∧ ∀ v, p.2 = some v → (0x0d : UInt8) ∉ v)
    {resp : Option Response} {opts : List Opt} (h : Performed c r' resp opts) (check : Bool) {max : Nat} (hm : max < 2 ^ 64)
    (hmax : max = 0 ∨ t.length ≤ max) (hl : t.length < 2 ^ 64)
    {got : List (Bytes × Option Bytes)} (hg : HeadersReported (transferOf opts).headerText got)
    (ho : OwnNames (transferOf opts).headerText got) {chunks : List Bytes} (hc : (transferOf opts).body = some chunks.flatten) :
    Upload.receive max [] chunks = .ok t ∧
      ∀ m, HoldsParams m (collect check got []) → getJson m (some t) t.length = .ok (some t) := by
  obtain ⟨m1, e1, e2⟩ := holds_put w.header b!"Content-Type" (some b!"application/json") (by decide) (by decide)
    (by intro x hx; cases hx; decide)
  have hr : r' = { r with body := some (t ++ [0]), bodyLen := t.length, mapHeader := m1 } := by
    simp only [setJsonBodyReq, e1, Res.ok_bind] at hset
    injection hset with hset
    exact (congrArg Prod.snd hset).symm
  let l' : Lists := { l with header := Spec.OMap.put l.header b!"Content-Type" (some b!"application/json") }
  have w' : Wants r' l' := by
    rw [hr]
    exact ⟨w.url, e2, w.cookie, w.post, w.urlFit, fit_put w.headerFit _ _ (by decide), w.cookieFit, w.postFit,
      .inr ⟨_, rfl, by simp⟩, w.address⟩
  have hh' : ∀ p ∈ l'.header, (0x3a : UInt8) ∉ p.1 ∧ (0x0d : UInt8) ∉ p.1 ∧ ∀ v, p.2 = some v → (0x0d : UInt8) ∉ v := by
    intro p hp
    rcases names_put hp with e | ⟨q, hq, rfl⟩
    · have : p = (b!"Content-Type", some b!"application/json") := by
        have hnd := holds_nodup e2
        have h1 := filter_one hnd p hp
        have h2 := filter_one hnd _ (mem_put (hs := l.header) (k := b!"Content-Type") (v := some b!"application/json"))
        rw [e] at h1
        have h3 := h1.symm.trans h2
        injection h3
      rw [this]
      refine ⟨by decide, by decide, ?_⟩
      intro v hv
      injection hv with hv
      rw [← hv]
      decide
    · exact hh q hq
  have hplain' : PlainType l'.header := by
    intro p hp he
    rcases names_put hp with e | ⟨q, hq, rfl⟩
    · exact e
    · exact hplain q hq he
  have hask : headersAsked l' = l'.header := by unfold headersAsked; exact if_pos hpost
  refine ⟨?_, ?_⟩
  · obtain ⟨-, -, -, hb, -⟩ := C106_request_partial w' h
    have hb := hb hpost
    rw [hc, hr] at hb
    simp only [Option.map_some] at hb
    rw [if_neg (fun e => ht (List.length_eq_zero_iff.1 e)), List.take_left] at hb
    injection hb with hb
    rw [C28_body max hm chunks (by rw [hb]; exact hl), hb]
    rcases hmax with h0 | h0
    · rw [if_pos h0]
    · split
      · rfl
      · rw [List.take_of_length_le h0]
  · intro m hm
    have hlk : lookup (collect check got []) b!"Content-Type" = some (some b!"application/json") :=
      C151_headers_partial w' h check hh' hg (by rw [hask]; exact mem_put) (by decide)
        (fun _ => ⟨(C05_utf8Ok _).1 (by decide), (C05_utf8Ok _).1 (by decide)⟩)
    have hnd := holds_nodup hm
    obtain ⟨p, hp, hp2⟩ : ∃ p, (collect check got []).find? (fun p => p.1 == b!"Content-Type") = some p ∧ p.2 = some b!"application/json" := by
      unfold lookup at hlk
      exact Option.map_eq_some_iff.1 hlk
    have hp1 : p.1 = b!"Content-Type" := by simpa using List.find?_some (p := fun p : Bytes × Option Bytes => p.1 == b!"Content-Type") hp
    have hpm := List.mem_of_find?_eq_some hp
    have hrd := C107_headers_partial w' h hh'
    change readHeaders _ [] = visible (headersAsked l') at hrd
    have hnames : ∀ q ∈ collect check got [], eqCase q.1 b!"Content-Type" = true → q.1 = b!"Content-Type" := by
      intro q hq he
      have hqg : q.1 ∈ got.map (·.1) := by
        refine Classical.byContradiction (fun hn => ?_)
        have := collect_absent (check := check) hg.1 hn
        unfold lookup at this
        rw [Option.map_eq_none_iff, List.find?_eq_none] at this
        exact this q hq (by simp)
      obtain ⟨g, hgm, hge⟩ := List.mem_map.1 hqg
      have hv : (b!"Content-Type", b!"application/json") ∈ readHeaders (transferOf opts).headerText [] := by
        rw [hrd, hask]
        exact List.mem_filterMap.2 ⟨_, mem_put, by decide⟩
      obtain ⟨h', hh1, hh2⟩ := ho g hgm _ hv (by rw [hge]; exact he)
      rw [hrd, hask] at hh1
      have := hplain' _ (visible_mem hh1) (by rw [hh2, hge]; exact he)
      rw [← hge, ← hh2]
      exact this
    have hf : (collect check got []).filter (fun p => eqCase p.1 b!"Content-Type") = [p] := by
      rw [← filter_one hnd p hpm]
      refine List.filter_congr ?_
      intro q hq
      by_cases e : q.1 = b!"Content-Type"
      · rw [e, hp1]; decide
      · rw [hp1]
        have : (q.1 == b!"Content-Type") = false := by simpa using e
        rw [this]
        cases he : eqCase q.1 b!"Content-Type" with
        | false => rfl
        | true => exact absurd (hnames q hq he) e
    rw [getJson_holds hm, if_pos ⟨by rw [List.countP_eq_length_filter, hf]; rfl, p, by rw [← List.head?_filter, hf]; rfl, by rw [hp2]; decide⟩]
    simp [loadb]

/-- **C156, from callback to client (partial).** When the answer of the callbacks arrives (C150) and has one content type,
"application/json", the JSON parser that the client uses through `ulfius_get_json_body_response` gets exactly the body of the
answer. -/
theorem C156_response_partial {ans : Answer.Ans} {status : Nat} {lines : List (Bytes × Bytes)} {t : Bytes} (ha : Arrives ans status lines t)
    (ht : t ≠ []) (hm : (b!"Content-Type", b!"application/json") ∈ lines)
    (hv : headerValue b!"Content-Type" lines = some b!"application/json")
    (c : Curl) (r : Request) (l : Lists) (st : Nat) (ls : List Spec.Client.Line) (chunks cs : List Bytes) (hi : c.init = true)
    (hacc : ∀ done o, c.accepts done o = true) (w : Wants r l) (hd : Delivered ans st ls chunks) (hcs : (cs.map strings).Pairwise (· ≤ ·))
    (hrep : ∀ opts, c.perform opts = ⟨ls.map Spec.Client.Line.text, chunks, some st, some cs⟩) :
    ∃ o r', sendLimit c (some r) (some {}) 0 0 = .ok o ∧ o.code = .ok ∧ o.response = some r' ∧ r'.status = status ∧
      getJson r'.header r'.body r'.bodyLen = .ok (some t) := by
  obtain ⟨o, r', h1, h2, h3, h4, h5, h6, h7⟩ := ha c r l st ls chunks cs hi hacc w hd hcs hrep
  refine ⟨o, r', h1, h2, h3, h4, ?_⟩
  have h8 := h7 _ hm
  rw [hv] at h8
  obtain ⟨⟨u, g1⟩, g2⟩ := h8
  unfold getJson
  rw [g2, Res.ok_bind, if_pos rfl]
  unfold namesJson
  rw [g1, Res.ok_bind]
  simp only [readStr_strBuf _ _ (show NoNul b!"application/json" by decide), Res.ok_bind]
  cases hb : r'.body with
  | none =>
    rw [hb] at h5
    simp only [bodyOf, Option.getD_none, List.take_nil] at h5
    exact absurd h5.symm ht
  | some b =>
    rw [hb, h6] at h5
    simp only [bodyOf, Option.getD_some] at h5
    have hlen : t.length ≤ b.length := by
      have := congrArg List.length h5
      rw [List.length_take] at this
      omega
    show (if Message.contains b!"application/json" b!"application/json" = true then loadb (some b) r'.bodyLen else Res.ok none) = _
    rw [if_pos (by decide), h6, loadb, if_pos hlen, h5]

/-- The request with the value `{"a":1}` and nothing else. -/
private def jsonRequest : Request :=
  { url := some b!"http://h/", body := some (b!"{\"a\":1}" ++ [0]), bodyLen := 7,
    mapHeader := rep [⟨b!"Content-Type", strBuf b!"application/json" ++ [some 0], 17⟩] }

/-- A case of the first theorem: the value, the transfer, what libmicrohttpd reports and what the callback gets. -/
example : ∃ opts, setJsonBodyReq { url := some b!"http://h/" } (some b!"{\"a\":1}") = .ok (.ok, jsonRequest) ∧ askedOf jsonRequest = some opts ∧
    (transferOf opts).body = some b!"{\"a\":1}" ∧
    readHeaders (transferOf opts).headerText [] = [(b!"Content-Type", b!"application/json")] ∧
    Upload.receive 16 [] [b!"{\"a", b!"\":1}"] = .ok b!"{\"a\":1}" ∧
    getJson (rep [⟨b!"Host", strBuf b!"h" ++ [some 0], 2⟩, ⟨b!"Content-Type", strBuf b!"application/json" ++ [some 0], 17⟩])
      (some b!"{\"a\":1}") 7 = .ok (some b!"{\"a\":1}") :=
  ⟨_, by decide +kernel, rfl, by decide +kernel, by decide +kernel, by decide +kernel, by decide +kernel⟩

/-- **C156 is false** of values longer than `max_post_body_size`: the callback gets the beginning of the text, as if it were whole. -/
theorem C156_limit_false : ∃ (t : Bytes) (max : Nat), Upload.receive max [] [t] = .ok (t.take max) ∧ t.take max ≠ t ∧
    getJson (rep [⟨b!"Content-Type", strBuf b!"application/json" ++ [some 0], 17⟩]) (some (t.take max)) (t.take max).length =
      .ok (some (t.take max)) :=
  ⟨b!"[1,2]", 4, by decide +kernel, by decide, by decide +kernel⟩

/-- **C156 is false** of a request with form parameters: they are sent instead of the value. -/
theorem C156_form_false : ∃ r r' opts, setJsonBodyReq r (some b!"[1]") = .ok (.ok, r') ∧ askedOf r' = some opts ∧
    (transferOf opts).body = some b!"a=1" ∧ readHeaders (transferOf opts).headerText [] =
      [(b!"Content-Type", b!"application/x-www-form-urlencoded")] :=
  ⟨{ url := some b!"http://h/", mapPost := rep [⟨b!"a", strBuf b!"1" ++ [some 0], 2⟩] }, _, _, rfl, rfl, by decide +kernel, by decide +kernel⟩

end Verif.Props
