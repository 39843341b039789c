import Verif.Props.MemoryServer
/-!
# C137: what the server allocates for websockets

Claim: whatever clients offer in the handshake and send afterwards, whatever extensions make of it and whatever the callbacks send, take out of the
lists of messages and clear, in any order on any number of websockets and between any other requests, the server uses no block after it was freed,
frees none twice, and once the websockets have ended, the program has cleared the messages it took, and the instance is cleaned, every block
that was allocated is freed.
-/
namespace Verif.Props
open Verif Verif.Memory
open Verif.Endpoint (Endpoint)

/-- Specification: what the callbacks of websockets do. -/
def callsOf : Happens → List MOp
  | .request _ => []
  | .event _ (.arrives _ (.final _ _ _ calls)) => calls
  | .event _ (.arrives _ _) => []
  | .event _ (.calls x) => [x]
  | .ends _ calls => calls

/-- Specification of what the code gets right: requests are tidy, and callbacks do not clear a list of messages as a whole. -/
structure TidyHappening (x : Happens) : Prop where
  requests : ∀ r, x = .request r → TidyRequest r ∧ TidyWebsockets r
  lists : ∀ b, MOp.clear b ∉ callsOf x

private theorem happens_ok {x : Happens} (h : TidyHappening x) : HappensOk x := by
  have l := h.lists
  cases x with
  | request r => exact reach_ok (h.requests r rfl).1 (h.requests r rfl).2
  | event i e =>
    cases e with
    | arrives x s =>
      cases s with
      | final f o g calls => exact l
      | _ => trivial
    | calls x =>
      intro b hb
      exact l b (by simp [callsOf, hb])
  | ends i calls => exact l

/-- **C137** (partial): for every server and every sequence of tidy events. Missing: the others, for which it is false (the theorems below). -/
theorem C137_memory_partial (h0 : Heap) (fine : FineHeap h0) (s : Server) (realm : Option Bytes) (defaults : List (Option Bytes × Option Bytes))
    (l : List Happens) (tidy : ∀ x ∈ l, TidyHappening x) :
    ∃ v, serve s realm defaults h0 l = .ok v ∧
      ((∀ w ∈ v.socks, w = none) → (∀ m ∈ v.held, m = none) → v.heap.live.Perm h0.live) := by
  obtain ⟨v, e, V, o, -⟩ := own_serve s realm defaults l (fun x hx => happens_ok (tidy x hx)) (own_start fine)
  refine ⟨v, e, fun hs hm => List.perm_iff_count.2 (fun n => ?_)⟩
  have := (o n).1
  have := V.over hs hm n
  simp only at *
  omega

/-! ## Cases -/

/-- The blocks that are left, the websockets that are open, and the messages the program holds. -/
private def left : Res Srv → Option (List Nat × Nat × Nat)
  | .ok v => some (v.heap.live, (v.socks.filter Option.isSome).length, (v.held.filter Option.isSome).length)
  | .ub => none

private def sampleServer : Server := { check := true, maxBody := 0, maxParam := 0, upload := false }

private def sampleChat : Endpoint := { method := some b!"GET", pfx := none, format := some b!"chat", priority := 0, callback := some 1, userData := 0 }

/-- Two extensions: the first compares names, the second makes a context and frees it. -/
private def sampleKinds (y : Nat) : ExtKind := if y = 0 then ⟨1, false, false⟩ else ⟨0, true, true⟩

/-- The client offers three extensions: one nobody knows, the second and the first. -/
private def sampleAnswers (x y : Nat) : Match :=
  if x = 1 ∧ y = 1 then .accept true else if x = 2 ∧ y = 0 then .accept false else if y = 1 then .reset else .refuse

private def sampleShake : Handshake := ⟨true, some 3, sampleKinds, sampleAnswers, none, some true, true⟩

private def sampleTurn (k : Handshake) : Turn :=
  { reqOps := [], respOps := [.websocket (some b!"chat") none, .extension (some b!"x"), .extension (some b!"deflate")], ret := 0, upgrade := some k }

private def sampleOpen (t : Turn) : Call := ⟨b!"GET", b!"/chat", [sampleChat], id, fun _ => t, none, false, true, true⟩

private def sampleArrival : Arrival := ⟨none, [(b!"Upgrade", some b!"websocket")], [(b!"q", some b!"1")], [], none⟩

private def opens (k : Handshake) : Happens := .request (.whole sampleArrival [] (sampleOpen (sampleTurn k)))

/-- Two websockets with fragments, compressed data, pings, a message that is taken out, and an invalid message. -/
private def sampleLife : List Happens :=
  [opens sampleShake,
   .event 0 (.arrives (.message 5) (.part true)),
   opens sampleShake,
   .event 1 (.arrives (.message 0) (.final true [some 0, some 4] true [.send (.data 3 [some 9] 2), .pop false])),
   .event 0 (.arrives (.message 7) (.ping true)),
   .event 0 (.arrives (.message 0) (.part false)),
   .event 0 (.arrives (.message 3) (.final false [some 20] true [.send (.data 0 [none] 1), .keep false true])),
   .event 1 (.calls (.pop true)),
   .event 1 (.arrives (.message 2) (.final true [some 2] false [])),
   .event 1 (.arrives (.broken true) .other),
   .event 0 (.arrives (.message 1) (.part true)),
   .ends 0 [.send (.close [.broken false, .message 4])],
   .request .line,
   .event 1 (.calls (.drop 1)),
   .ends 1 [.drop 0]]

private theorem shake_tidy : TidyHandshake sampleArrival (sampleOpen (sampleTurn sampleShake)) (sampleTurn sampleShake) sampleShake := by
  have acc : ∀ o e c, sampleAnswers o e = .accept c → (e = 0 ∧ c = false) ∨ e = 1 := by
    intro o e c h
    unfold sampleAnswers at h
    split at h
    · rename_i h0; exact .inr h0.2
    · split at h
      · rename_i h0
        simp only [Match.accept.injEq] at h
        exact .inl ⟨h0.2, h.symm⟩
      · split at h <;> cases h
  refine ⟨?_, ?_, fun _ _ _ _ => ⟨by simp [sampleShake], rfl⟩, rfl, rfl, fun h => absurd rfl h, rfl⟩
  · intro o e c o' e' c' h h' hn
    rcases acc o e c h with ⟨rfl, -⟩ | rfl <;> rcases acc o' e' c' h' with ⟨rfl, -⟩ | rfl
    · exact absurd rfl hn
    · decide
    · decide
    · exact absurd rfl hn
  · intro o e _ h
    rcases acc o e true h with ⟨-, h0⟩ | rfl
    · cases h0
    · rfl

private theorem life_tidy : ∀ x ∈ sampleLife, TidyHappening x := by
  have op : TidyHappening (opens sampleShake) := by
    refine ⟨?_, by simp [opens, callsOf]⟩
    rintro r ⟨⟩
    refine ⟨⟨by decide, ⟨fun l => List.Perm.refl _, ?_, ?_, ?_, ?_, rfl⟩⟩, ?_⟩
    · intro e he
      simp only [sampleOpen, List.mem_singleton] at he
      subst he; simp [sampleChat]
    · intro e he f hf w hw
      simp only [sampleOpen, List.mem_singleton] at he
      subst he
      simp only [sampleChat, Option.some.injEq] at hf
      subst hf
      have : Spec.Segments.segments b!"chat" = [b!"chat"] := by decide
      rw [this] at hw
      revert w
      decide
    · intro n
      exact ⟨by simp [sampleOpen, sampleTurn], by simp [sampleOpen, sampleTurn], rfl, by intro h; exact absurd h (by simp [sampleOpen, sampleTurn])⟩
    · intro e t h
      cases h
    · intro n k hk
      have : k = sampleShake := by simpa [sampleOpen, sampleTurn] using hk.symm
      subst this
      exact shake_tidy
  intro x hx
  simp only [sampleLife, List.mem_cons, List.not_mem_nil, or_false] at hx
  rcases hx with rfl | rfl | rfl | rfl | rfl | rfl | rfl | rfl | rfl | rfl | rfl | rfl | rfl | rfl | rfl
  case inl => exact op
  case inr.inr.inl => exact op
  case inr.inr.inr.inr.inr.inr.inr.inr.inr.inr.inr.inr.inl =>
    refine ⟨?_, by simp [callsOf]⟩
    rintro r ⟨⟩
    exact ⟨trivial, trivial⟩
  all_goals exact ⟨fun r hr => by (cases hr), by simp [callsOf]⟩

/-- All blocks are freed, although before the end two websockets are open and the program holds two messages. -/
example : left (serve sampleServer none [(some b!"A", some b!"b")] ⟨[7, 3], 10⟩ sampleLife) = some ([7, 3], 0, 0) := by decide +kernel

example : (left (serve sampleServer none [] {} (sampleLife.take 9))).map (fun x => x.2) = some (2, 2) := by decide +kernel

/-- A request to `/chat`, and the end of the websocket if there is one: the number of blocks that are left. -/
private def once (a : Arrival) (t : Turn) (dflt : Option (Endpoint × Turn)) (queued : Bool) : Option (Nat × Nat) :=
  (left (serve sampleServer none [] {}
    [.request (.whole a [] ⟨b!"GET", b!"/chat", [sampleChat], id, fun _ => t, dflt, false, queued, true⟩), .ends 0 []])).map (fun x => (x.1.length, x.2.1))

example : once sampleArrival (sampleTurn sampleShake) none true = some (0, 0) := by decide +kernel

private def twins : Handshake := { sampleShake with kind := fun _ => ⟨0, true, true⟩, answers := fun x y => if x = y then .accept true else .refuse }

/-- Two extensions with the same bit accept an offer: the second is not used, and its context stays. -/
theorem C137_bits_false : once sampleArrival (sampleTurn twins) none true = some (1, 0) := by decide +kernel

/-- An extension accepts an offer, and client and server have no protocol in common: the context stays. So each request of a client that asks for a
wrong protocol leaves a block behind. -/
theorem C137_protocol_false : once sampleArrival (sampleTurn { sampleShake with protocol := none }) none true = some (1, 0) := by decide +kernel

/-- libmicrohttpd does not make the answer: the websocket stays, with the copy of the request. -/
theorem C137_answer_false : once sampleArrival { sampleTurn sampleShake with created := false } none true = some (46, 0) := by decide +kernel

/-- libmicrohttpd does not take a header field of the answer: the websocket is cleared, the answer is queued all the same, and the websocket is used. -/
theorem C137_field_false : once sampleArrival { sampleTurn sampleShake with accepted := false } none true = none := by decide +kernel

/-- libmicrohttpd does not queue the answer: the websocket stays. -/
theorem C137_queue_false : once sampleArrival (sampleTurn sampleShake) none false = some (40, 0) := by decide +kernel

/-- The callback returns `U_CALLBACK_IGNORE`, and there is a default endpoint: its answer is sent, and the websocket stays. -/
theorem C137_ignore_false :
    once sampleArrival { sampleTurn sampleShake with ret := 1 } (some (sampleChat, ⟨[], [], 2, false, true, true, none⟩)) true = some (40, 0) := by decide +kernel

/-- The client has a certificate: its copy stays (C128). -/
theorem C137_certificate_false : once { sampleArrival with cert := some true } (sampleTurn sampleShake) none true = some (1, 0) := by decide +kernel

/-- The program clears the list of incoming messages: the messages in it are read when the websocket ends (C77). -/
theorem C137_list_false :
    left (serve sampleServer none [] {} [opens sampleShake, .event 0 (.arrives (.message 3) (.final true [some 3] true [])), .event 0 (.calls (.clear true)),
      .ends 0 []]) = none := by decide +kernel

end Verif.Props
