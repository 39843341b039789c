import Verif.Lemmas.MemoryDispatch
import Verif.Lemmas.Endpoint
import Verif.Props.Memory
/-!
# C130: what the server allocates for requests

Claim: whatever clients send, wherever their connections break off and whatever the callbacks do with request and response, the server uses no
block after it was freed, frees none twice, and once the instance is cleaned every block that was allocated is freed.
-/
namespace Verif.Props
open Verif Verif.Memory Verif.Spec.Segments
open Verif.Endpoint (Endpoint)

/-- Specification: every parameter of the format has a name. -/
def NamedParameters (e : Endpoint) : Prop := ∀ f, e.format = some f → ∀ w ∈ segments f, w ≠ b!":" ∧ w ≠ b!"@"

/-- Specification of the callbacks the code gets right: no client certificate is imported, no answer with a body is received into the response,
libmicrohttpd makes the answer, and if the callback refuses access it takes the header fields as well. -/
structure TidyCallback (t : Turn) : Prop where
  noCertificate : ∀ v, Op.cert v ∉ t.reqOps
  noProxy : ∀ ls cs b, ROp.fetch ls true cs b ∈ t.respOps → b = []
  made : t.created = true
  refused : t.ret = 3 → t.accepted = true

/-- Specification of the calls the code gets right. -/
structure TidyCall (x : Call) : Prop where
  sorted : ∀ l, (x.sort l).Perm l
  methods : ∀ e ∈ x.endpoints, e.method ≠ none
  named : ∀ e ∈ x.endpoints, NamedParameters e
  callbacks : ∀ n, TidyCallback (x.turns n)
  dflt : ∀ e t, x.dflt = some (e, t) → NamedParameters e ∧ TidyCallback t ∧ 0 ≤ t.ret ∧ t.ret ≤ 4
  made : x.created = true

/-- Specification of the requests the code gets right: a client certificate can be imported. -/
def TidyRequest : Reach → Prop
  | .line => True
  | .header a => a.cert ≠ some false
  | .body a _ => a.cert ≠ some false
  | .whole a _ x => a.cert ≠ some false ∧ TidyCall x

/-- Specification: no callback asks for a websocket. -/
def NoWebsocket : Reach → Prop
  | .whole _ _ x => ∀ n, (x.turns n).upgrade = none
  | _ => True

/-- Specification of the requests for websockets the code gets right: extensions that accept an offer have different bits; if an extension makes a
context it has a function to free it, and there is a common protocol and a key to answer with; libmicrohttpd takes the header fields of the answer and
queues it; with a default endpoint the callback does not return `U_CALLBACK_IGNORE`; there is no client certificate. -/
structure TidyHandshake (a : Arrival) (x : Call) (t : Turn) (k : Handshake) : Prop where
  bits : ∀ o e c o' e' c', k.answers o e = .accept c → k.answers o' e' = .accept c' → e ≠ e' → (k.kind e).rsv ≠ (k.kind e').rsv
  freed : ∀ o e, (k.kind e).matching = true → k.answers o e = .accept true → (k.kind e).frees = true
  agreed : ∀ o e, (k.kind e).matching = true → k.answers o e = .accept true → k.protocol ≠ none ∧ k.hashed = true
  accepted : t.accepted = true
  queued : x.queued = true
  counted : x.dflt ≠ none → t.ret ≠ 1
  anonymous : a.cert = none

/-- Specification: all requests for websockets are of this kind. -/
def TidyWebsockets : Reach → Prop
  | .whole a _ x => ∀ n k, (x.turns n).upgrade = some k → TidyHandshake a x (x.turns n) k
  | _ => True

private theorem named_ok {e : Endpoint} (h : NamedParameters e) : Named ((e.format.map Endpoint.slashWords).getD []) := by
  intro w hw hb
  cases hf : e.format with
  | none => rw [hf] at hw; simp at hw
  | some f =>
    rw [hf] at hw
    simp only [Option.map_some, Option.getD_some, Endpoint.slashWords_eq] at hw
    have := h f hf w hw
    intro h0
    cases w with
    | nil => simp [Endpoint.byte0] at hb
    | cons x xs =>
      simp only [List.drop_succ_cons, List.drop_zero] at h0
      subst h0
      simp only [Endpoint.byte0, List.headD_cons, Bool.or_eq_true, beq_iff_eq] at hb
      rcases hb with rfl | rfl
      · exact this.1 rfl
      · exact this.2 rfl

private theorem turn_ok {t : Turn} (h : TidyCallback t) : TurnOk t := ⟨h.noCertificate, h.noProxy, h.made, h.refused⟩

private theorem known_ok {r : Int} (h0 : 0 ≤ r) (h1 : r ≤ 4) : Known r := by
  have : r = 0 ∨ r = 1 ∨ r = 2 ∨ r = 3 ∨ r = 4 := by omega
  rcases this with rfl | rfl | rfl | rfl | rfl
  · exact .inl (by decide)
  · exact .inl (by decide)
  · exact .inr (.inl rfl)
  · exact .inr (.inr (.inl rfl))
  · exact .inr (.inr (.inr rfl))

theorem reach_ok {x : Reach} (h : TidyRequest x) (w : TidyWebsockets x) : ReachOk x := by
  cases x with
  | line => trivial
  | header a => exact h
  | body a p => exact h
  | whole a p x =>
    refine ⟨h.1, ⟨h.2.sorted, h.2.methods, fun e he => named_ok (h.2.named e he), fun n => turn_ok (h.2.callbacks n),
      fun e t ht => ⟨named_ok (h.2.dflt e t ht).1, turn_ok (h.2.dflt e t ht).2.1, known_ok (h.2.dflt e t ht).2.2.1 (h.2.dflt e t ht).2.2.2⟩, h.2.made, fun n k hk => ?_,
      fun ⟨n, k, hk⟩ => (w n k hk).queued⟩, fun ⟨n, k, hk⟩ => (w n k hk).anonymous⟩
    have W := w n k hk
    refine ⟨⟨W.bits, W.freed, fun o e hm ha => ?_⟩, W.accepted, fun hd => W.counted (by intro h0; rw [h0] at hd; cases hd)⟩
    have A := W.agreed o e hm ha
    exact ⟨by cases hp : k.protocol with
      | none => exact absurd hp A.1
      | some b => rfl, A.2⟩

theorem own_start {h0 : Heap} (fine : FineHeap h0) : Own h0 (fun n => h0.live.count n) := by
  intro n
  refine ⟨rfl, List.nodup_iff_count.1 fine.1 n, fun hn => List.count_eq_zero.2 (fun hm => ?_)⟩
  have := fine.2 n hm; omega

/-- **C130** (partial): for every server, every default headers and every sequence of tidy requests without websockets. Missing: the other requests, for
which it is false (the theorems below), and websockets (C137). -/
theorem C130_memory_partial (h0 : Heap) (fine : FineHeap h0) (s : Server) (realm : Option Bytes) (defaults : List (Option Bytes × Option Bytes))
    (l : List Reach) (tidy : ∀ x ∈ l, TidyRequest x ∧ NoWebsocket x) :
    ∃ v, serve s realm defaults h0 (l.map .request) = .ok v ∧ v.heap.live.Perm h0.live := by
  have quiet : ∀ x ∈ l, ¬Asks x := by
    intro x hx ha
    cases x with
    | whole a p x =>
      obtain ⟨n, k, hk⟩ := ha
      have := (tidy _ hx).2 n
      rw [hk] at this; cases this
    | _ => exact ha
  have ok : ∀ x ∈ l.map Happens.request, HappensOk x := by
    intro y hy
    obtain ⟨x, hx, rfl⟩ := List.mem_map.1 hy
    refine reach_ok (tidy x hx).1 ?_
    cases x with
    | whole a p x =>
      intro n k hk
      have := (tidy _ hx).2 n
      rw [hk] at this; cases this
    | _ => trivial
  obtain ⟨v, e, V, o, q⟩ := own_serve s realm defaults _ ok (own_start fine)
  obtain ⟨q1, q2⟩ := q ⟨l, rfl, quiet⟩
  refine ⟨v, e, List.perm_iff_count.2 (fun n => ?_)⟩
  have := (o n).1
  have := V.over q1 (by rw [q2]; intro m hm; cases hm) n
  simp only at *
  omega

private def left : Res Srv → Option (List Nat)
  | .ok v => some v.heap.live
  | .ub => none

private def sampleServer : Server := { check := true, maxBody := 0, maxParam := 0, upload := false }

private def samplePage : Endpoint := { method := some b!"GET", pfx := some b!"api", format := some b!"/page/:id/:id", priority := 0, callback := some 1, userData := 0 }

private def sampleAll : Endpoint := { method := some b!"*", pfx := none, format := some b!"*", priority := 1, callback := some 2, userData := 0 }

/-- A callback that reads and changes everything and goes on, and one that answers. -/
private def sampleTurns : Nat → Turn
  | 0 => ⟨[.put .url (some b!"more") (some b!"x"), .text .proxy (some b!"p")],
      [.put (some b!"A") (some b!"1"), .cookie (some b!"sid") none none none, .stringBody (some b!"one")], 0, false, true, true, none⟩
  | _ => ⟨[], [.jsonBody (some b!"{}")], 2, false, true, true, none⟩

private def sampleArrival (cert : Option Bool) : Arrival :=
  ⟨cert, [(b!"Accept", some b!"a"), (b!"Accept", some b!"b")], [(b!"q", some b!"1"), (b!"q", none)], [(b!"sid", some b!"s")], some true⟩

private def sampleCall (turns : Nat → Turn) (dflt : Option (Endpoint × Turn)) (queued : Bool) : Call :=
  ⟨b!"GET", b!"/api/page/1/2", [samplePage, sampleAll], id, turns, dflt, true, queued, true⟩

private def sampleReach (turns : Nat → Turn) (dflt : Option (Endpoint × Turn)) (queued : Bool) : Reach :=
  .whole (sampleArrival (some true)) [(5, [⟨b!"k", none, b!"v", 0⟩]), (3, [])] (sampleCall turns dflt queued)

private theorem sample_tidy : TidyRequest (sampleReach sampleTurns none true) ∧ NoWebsocket (sampleReach sampleTurns none true) := by
  refine ⟨?_, fun n => by cases n <;> rfl⟩
  refine ⟨by decide, ⟨fun l => List.Perm.refl _, ?_, ?_, ?_, ?_, rfl⟩⟩
  · intro e he
    simp only [sampleCall, List.mem_cons, List.not_mem_nil, or_false] at he
    rcases he with rfl | rfl <;> simp [samplePage, sampleAll]
  · intro e he f hf w hw
    simp only [sampleCall, List.mem_cons, List.not_mem_nil, or_false] at he
    rcases he with rfl | rfl
    · simp only [samplePage, Option.some.injEq] at hf
      subst hf
      have : segments b!"/page/:id/:id" = [b!"page", b!":id", b!":id"] := by decide
      rw [this] at hw
      revert w
      decide
    · simp only [sampleAll, Option.some.injEq] at hf
      subst hf
      have : segments b!"*" = [b!"*"] := by decide
      rw [this] at hw
      revert w
      decide
  · intro n
    rcases n with _ | n
    · exact ⟨by simp [sampleCall, sampleTurns], by simp [sampleCall, sampleTurns], rfl, by
        intro h; exact absurd h (by decide)⟩
    · exact ⟨by simp [sampleCall, sampleTurns], by simp [sampleCall, sampleTurns], rfl, fun _ => rfl⟩
  · intro e t h
    cases h

/-- Two requests of that kind and one that breaks off: `live` is what it was before. -/
example : left (serve sampleServer (some b!"realm") [(some b!"X-Default", some b!"d")] ⟨[7, 3], 10⟩
    ([sampleReach sampleTurns none true, .header (sampleArrival none), sampleReach sampleTurns none false].map .request)) = some [7, 3] := by decide +kernel

private def once (x : Reach) : Option Nat := (left (serve sampleServer none [] {} [.request x])).map List.length

/-- A client certificate that cannot be imported: it is freed when the request begins and again when it ends. -/
theorem C130_certificate_false : once (.header (sampleArrival (some false))) = none := by decide +kernel

/-- libmicrohttpd cannot make the answer: the response stays, with the buffer. -/
theorem C130_answer_false : once (sampleReach (fun _ => ⟨[], [], 2, false, false, true, none⟩) none true) = some 7 := by decide +kernel

/-- Access is refused with a body, and a header field is not taken: the body is replaced without being freed. -/
theorem C130_refused_false : once (sampleReach (fun _ => ⟨[], [.stringBody (some b!"no")], 3, false, true, false, none⟩) none true) = some 1 := by decide +kernel

/-- All endpoints pass the request on to the default endpoint, which returns a value that is not in the documentation: there is no answer, and the
response stays. -/
theorem C130_default_false : once (sampleReach (fun _ => ⟨[], [], 1, false, true, true, none⟩) (some (sampleAll, ⟨[], [], 5, false, true, true, none⟩)) true) = some 7 := by
  decide +kernel

/-- A parameter without name: each request leaves three blocks behind. -/
theorem C130_parameter_false :
    once (.whole (sampleArrival none) [] ⟨b!"GET", b!"/x", [{ samplePage with pfx := none, format := some b!"/:" }], id, fun _ => ⟨[], [], 2, false, true, true, none⟩, none,
      false, true, true⟩) = some 3 := by decide +kernel

end Verif.Props
