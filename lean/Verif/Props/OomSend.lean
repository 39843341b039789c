import Verif.Lemmas.OomSend
/-!
# C184: a request that cannot be sent as it is for want of memory is not sent

The full claim (`Honest` whatever fails) is false: see the theorems `C184_…_false`. What is missing in the partial theorems are the places that are not `Covered`.
-/
namespace Verif.Props
open Verif.OomSend Verif.Spec.OomSend Verif.Message
open Verif.Send (Curl Sink Outcome Reply)
open Verif.Spec.Curl (Opt)

namespace OomSend

/-- Exactly one allocation fails. -/
def only (p : Place) (i : Nat) : F := fun q j => decide (q = p ∧ j = i)

/-- A map with these strings. -/
def map : List (Bytes × Bytes) → UMap.UMap
  | [] => Verif.UMap.init
  | (k, v) :: t => match Verif.UMap.put (map t) (some k) (some v) with
    | .ok (_, m) => m
    | .ub => Verif.UMap.init

/-- Deciding `NoUrl`. -/
def noUrl : Option Bytes → Bool
  | none => true
  | some u => u.head? == some 0x3f || u.head? == some 0x26

/-- Deciding `Nowhere`. -/
def nowhere (l : List Opt) : Bool := l.any (fun o => match o with
  | .url u => noUrl u
  | _ => false)

/-- A libcurl that gets this reply from every server. -/
def curl (r : Reply) : Curl := { perform := fun l => if nowhere l then { status := none } else r }

theorem curl_refuses (r : Reply) : Refuses (curl r) := by
  intro l ⟨u, hm, hu⟩
  have : nowhere l = true := by
    refine List.any_eq_true.2 ⟨.url u, hm, ?_⟩
    cases u with
    | none => rfl
    | some u => rcases hu with hu | hu <;> simp [noUrl, hu]
  simp [curl, this]

/-- A request that uses everything. -/
def request : Request :=
  { verb := some b!"DELETE", url := some b!"http://a/", proxy := some b!"http://p", caPath := some b!"/ca", user := some b!"me", password := some b!"secret",
    mapUrl := map [(b!"a", b!"1"), (b!"b", b!"2")], mapHeader := map [(b!"X", b!"1"), (b!"Y", b!"2")], mapCookie := map [(b!"c", b!"1"), (b!"d", b!"2")],
    mapPost := map [(b!"e", b!"1"), (b!"f", b!"2")] }

/-- A reply with two headers of the same name, a cookie and a body in two blocks. -/
def reply : Reply :=
  { lines := [b!"HTTP/1.1 200 OK", b!"X: 1", b!"X: 2"], chunks := [b!"ab", b!"cd"], cookies := some [b!"a\tFALSE\t/\tFALSE\t0\tk\tv"] }

/-- With memory enough. -/
def meant : Res Outcome := Send.sendLimit (curl reply) (some request) (some {}) 0 0

/-- With one allocation failing. -/
def got (p : Place) (i : Nat) : Res Outcome := sendLimit (only p i) (curl reply) (some request) (some {}) 0 0

/-- The turn of the loop in which the failure matters. -/
def turn : Place → Nat
  | .linePut => 1
  | .lineText => 2
  | _ => 0

/-- The call answers `U_OK` although something is not as it should be, or has undefined behaviour. -/
def wrong (p : Place) : Bool :=
  match meant, got p (turn p) with
  | .ok _, .ub => true
  | .ok o, .ok o' => decide (o'.code = .ok) && (decide (o'.performed ≠ o.performed) || decide (o'.response ≠ o.response))
  | _, _ => false

theorem wrong_all (p : Place) (h : Covered p = false) : wrong p = true := by
  cases p <;> first | (exact absurd h (by decide)) | decide +kernel

end OomSend
open OomSend

/-- Whatever fails among the places the code looks at, in any number and combination: the call is defined, it answers `U_OK` only if it has done exactly what it does
with memory enough, and what it sends is the request or nothing. -/
theorem C184_partial {f : F} (hf : OnlyCovered f) {c : Curl} (hc : Refuses c) {req : Option Request} {resp : Option Response} {limit max : Nat}
    {o : Outcome} (h : Send.sendLimit c req resp limit max = .ok o) :
    ∃ o', sendLimit f c req resp limit max = .ok o' ∧ Honest (seen o) (seen o') := by
  obtain ⟨o', h1, h2⟩ := limit_fair hf (fun _ => hc) h
  refine ⟨o', h1, ?_⟩
  rcases h2 with rfl | ⟨_, h2, h3⟩
  · exact ⟨fun _ => rfl, fun l h => .inl h⟩
  · exact ⟨fun e => by rw [h2 (by simpa [seen] using e)], h3⟩

/-- The same for the variants that give the body of the response to a function of the program. -/
theorem C184_streaming_partial {f : F} (hf : OnlyCovered f) {c : Curl} (hc : Refuses c) {req : Option Request} {resp : Option Response} {sink : Sink} {max : Nat}
    {o : Outcome} (h : Send.sendStreaming c req resp sink max = .ok o) :
    ∃ o', sendStreaming f c req resp sink max (fun _ => true) = .ok o' ∧ Honest (seen o) (seen o') := by
  obtain ⟨o', h1, h2⟩ := streaming_fair hf (fun _ => hc) (body := fun _ => true) (by simp) h
  refine ⟨o', h1, ?_⟩
  rcases h2 with rfl | ⟨_, h2, h3⟩
  · exact ⟨fun _ => rfl, fun l h => .inl h⟩
  · exact ⟨fun e => by rw [h2 (by simpa [seen] using e)], h3⟩

/-- With memory enough the call is the one of `Model/Send`, whatever libcurl does. -/
theorem C184_enough {c : Curl} {req : Request} (hu : req.url ≠ none) {resp : Option Response} {limit max : Nat} {o : Outcome}
    (h : Send.sendLimit c (some req) resp limit max = .ok o) : sendLimit never c (some req) resp limit max = .ok o := by
  have hn : ¬ Trouble never (some req) := by
    rintro (⟨p, i, h⟩ | ⟨r, h1, h2⟩)
    · cases h
    · cases h1; exact hu h2
  obtain ⟨o', h1, h2⟩ := limit_fair (f := never) (fun p i h => by cases h) (fun h => absurd h hn) h
  rcases h2 with rfl | ⟨h2, _⟩
  · exact h1
  · exact absurd h2 hn

/-- At each other place the claim is false: one failure is enough. -/
theorem C184_others_false (p : Place) (hp : Covered p = false) :
    ∃ (c : Curl) (req : Request) (resp : Response) (i : Nat) (o : Outcome), Refuses c ∧ Send.sendLimit c (some req) (some resp) 0 0 = .ok o ∧
      ¬ ∃ o', sendLimit (only p i) c (some req) (some resp) 0 0 = .ok o' ∧ Honest (seen o) (seen o') := by
  have hw := wrong_all p hp
  unfold wrong at hw
  cases hm : meant with
  | ub => rw [hm] at hw; simp at hw
  | ok o =>
    refine ⟨curl reply, request, {}, turn p, o, curl_refuses reply, hm, ?_⟩
    rintro ⟨o', h1, h2⟩
    have hg : got p (turn p) = .ok o' := h1
    rw [hm, hg] at hw
    simp only [Bool.and_eq_true, Bool.or_eq_true, decide_eq_true_eq] at hw
    have e := h2.done (by simp [seen, hw.1])
    simp only [seen, Seen.mk.injEq] at e
    rcases hw.2 with h | h
    · exact h e.2.1
    · exact h e.2.2.1

/-- The name or the password is lost while the request is copied: it is sent without credentials, `U_OK`. -/
theorem C184_credentials_false : ∃ o l,
    sendLimit (only .dupPassword 0) (curl {}) (some { url := some b!"http://a/", user := some b!"me", password := some b!"secret" }) (some {}) 0 0 = .ok o ∧
      o.code = .ok ∧ o.performed = some l ∧ Opt.authBasic ∉ l ∧ Opt.username b!"me" ∉ l :=
  ⟨_, _, rfl, rfl, rfl, by decide, by decide⟩

/-- The verb is lost: a DELETE is sent as a GET, `U_OK`. -/
theorem C184_verb_false : ∃ o l,
    sendLimit (only .dupVerb 0) (curl {}) (some { url := some b!"http://a/", verb := some b!"DELETE" }) (some {}) 0 0 = .ok o ∧
      o.code = .ok ∧ o.performed = some l ∧ Opt.customRequest b!"GET" ∈ l :=
  ⟨_, _, rfl, rfl, rfl, by decide⟩

/-- The first parameter of a form is lost: "&f=1" is sent instead of "e=2&f=1", `U_OK`. -/
theorem C184_form_false : ∃ o o' l l',
    Send.sendLimit (curl {}) (some { url := some b!"http://a/", mapPost := map [(b!"f", b!"1"), (b!"e", b!"2")] }) (some {}) 0 0 = .ok o ∧
    sendLimit (only .formCat 0) (curl {}) (some { url := some b!"http://a/", mapPost := map [(b!"f", b!"1"), (b!"e", b!"2")] }) (some {}) 0 0 = .ok o' ∧
      o.code = .ok ∧ o'.code = .ok ∧ o.performed = some l ∧ o'.performed = some l' ∧
      Opt.postFields b!"e=2&f=1\x00" ∈ l ∧ Opt.postFields b!"&f=1\x00" ∈ l' :=
  ⟨_, _, _, _, rfl, rfl, rfl, rfl, rfl, rfl, by decide, by decide⟩

/-- A header line that cannot be made: NULL is given to `curl_slist_append`. -/
theorem C184_header_false :
    sendLimit (only .headerText 0) (curl {}) (some { url := some b!"http://a/", mapHeader := map [(b!"X", b!"1")] }) (some {}) 0 0 = .ub := rfl

/-- A cookie that was received is not in the response, `U_OK`. -/
theorem C184_response_false :
    (match Send.sendLimit (curl reply) (some { url := some b!"http://a/" }) (some {}) 0 0,
        sendLimit (only .gotLine 0) (curl reply) (some { url := some b!"http://a/" }) (some {}) 0 0 with
      | .ok o, .ok o' => some (o.code, o'.code, o.response.map (·.cookies.length), o'.response.map (·.cookies.length))
      | _, _ => none) = some (.ok, .ok, some 1, some 0) := by decide +kernel

/-- Three failures at once in a request that uses everything: the body cannot be collected. -/
example : (match meant, sendLimit (fun p i => decide (p = .dupOther ∨ p = .bodyPart ∧ i = 1 ∨ p = .bodyCopy)) (curl reply) (some request) (some {}) 0 0 with
      | .ok o, .ok o' => some (o.code, o'.code, decide (o'.performed = o.performed), o.performed.isSome)
      | _, _ => none) = some (.ok, .libcurl, true, true) := by decide +kernel

example : OnlyCovered (fun p i => decide (p = .dupOther ∨ p = .bodyPart ∧ i = 1 ∨ p = .bodyCopy)) := by
  intro p i h
  simp only [decide_eq_true_eq] at h
  rcases h with rfl | ⟨rfl, _⟩ | rfl <;> rfl

end Verif.Props
