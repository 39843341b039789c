import Verif.Lemmas.MemorySend
import Verif.Props.MemoryResponse
/-!
# C140: what sending requests allocates

Claim: a program may make, change, copy and clean requests and responses as in C128 and C129, send any of the requests any number of times, with
or without a response for the answer, and send mails, whatever libcurl and the servers answer: no block is used after it was freed, none is freed
twice, and once all requests and responses are cleaned every block is freed.
-/
namespace Verif.Props
open Verif Verif.Memory

/-- Specification: the response gets a body from this answer. -/
def answersBody (body : Option Nat) (a : Answer) : Bool :=
  body.isSome && a.ok && a.status && a.cookies.isSome && a.chunks.any (fun l => decide (l ≠ 0))

/-- Specification of the answers of libcurl the code gets right: only the first header may be refused, cookies are not refused, and no line
of the cookie list has fewer words (of seven) than one before. -/
structure GoodAnswers (a : Libcurl) : Prop where
  append : ∀ i, 0 < i → a.append i = true
  cookie : a.cookie = true
  lines : ∀ ls, a.answer.cookies = some ls → ls.Pairwise (fun x y => min 7 x.length ≤ y.length)

/-- Specification of the programs: those of C128 and C129, in which requests with a client certificate are not sent, answers with body go to
responses without one, libcurl answers as above and does not refuse a recipient but the first. -/
def TidyNet (certs : List Bool) (ns : List Noted) : List NetCmd → Prop
  | [] => True
  | .request c :: t => OneCertificate certs [c] ∧ TidyNet (certsAfter certs c) ns t
  | .response c :: t => TidyResponses ns [c] ∧ TidyNet certs (notesAfter ns c) t
  | .send i none _ a :: t => certs[i]? ≠ some true ∧ GoodAnswers a ∧ TidyNet certs ns t
  | .send i (some j) body a :: t =>
    certs[i]? ≠ some true ∧ GoodAnswers a ∧ (answersBody body a.answer = true → ns[j]?.map Noted.body ≠ some true) ∧
      TidyNet certs (ns.modify j (fun n => ⟨true, n.gap, n.body || answersBody body a.answer⟩)) t
  | .mail m :: t => (m.cc = true → m.addCc = true) ∧ (m.bcc = true → m.addBcc = true) ∧ TidyNet certs ns t

private structure Inv (s : NetState) (certs : List Bool) (ns : List Noted) (d : Nat → Nat) : Prop where
  reqs : ReqsInv ⟨s.heap, s.reqs⟩ certs (fun n => cV s.resps n + d n)
  resps : RespsInv ⟨s.heap, s.resps⟩ ns (fun n => cQ s.reqs n + d n)

private theorem brings_iff (body : Option Nat) (a : Answer) : answersBody body a = true ↔ Brings body a := by
  simp only [answersBody, Brings, Bool.and_eq_true, Option.isSome_iff_ne_none, List.any_eq_true, decide_eq_true_eq]
  constructor
  · rintro ⟨⟨⟨⟨h1, h2⟩, h3⟩, h4⟩, h5⟩; exact ⟨h1, h2, h3, h4, h5⟩
  · rintro ⟨h1, h2, h3, h4, h5⟩; exact ⟨⟨⟨⟨h1, h2⟩, h3⟩, h4⟩, h5⟩

private theorem no_cert {s : State} {certs : List Bool} {d : Nat → Nat} (I : ReqsInv s certs d) {i : Nat} {r : Req} (hi : s.reqs[i]? = some (some r))
    (hne : certs[i]? ≠ some true) : r.slot .cert = .null := by
  refine I.cert i r hi ?_
  have hlt : i < certs.length := by rw [← I.len]; exact (List.getElem?_eq_some_iff.1 hi).1
  rw [List.getElem?_eq_getElem hlt] at hne ⊢
  rcases hb : certs[i] with _ | _
  · rfl
  · rw [hb] at hne; exact absurd rfl hne

private theorem net_inv (prog : List NetCmd) {s : NetState} {certs : List Bool} {ns : List Noted} {d : Nat → Nat} (I : Inv s certs ns d)
    (tidy : TidyNet certs ns prog) : ∃ s' certs' ns', netRun s prog = .ok s' ∧ Inv s' certs' ns' d := by
  induction prog generalizing s certs ns with
  | nil => exact ⟨s, certs, ns, rfl, I⟩
  | cons c t ih =>
    have next : ∀ {s1 : NetState} {certs1 : List Bool} {ns1 : List Noted}, netExec s c = .ok s1 → Inv s1 certs1 ns1 d → TidyNet certs1 ns1 t →
        ∃ s' certs' ns', netRun s (c :: t) = .ok s' ∧ Inv s' certs' ns' d := by
      intro s1 certs1 ns1 e1 I1 t1
      obtain ⟨s', certs', ns', e2, I2⟩ := ih I1 t1
      exact ⟨s', certs', ns', by simp [netRun, e1, e2], I2⟩
    cases c with
    | request c =>
      obtain ⟨x, e1, J⟩ := exec_inv c I.reqs tidy.1
      exact next (s1 := ⟨x.heap, x.reqs, s.resps⟩) (by simp [netExec, e1]) ⟨J, I.resps.len, J.own.congr (by intro n; dsimp only; omega), I.resps.meets⟩ tidy.2
    | response c =>
      obtain ⟨x, e1, J⟩ := rexec_inv c I.resps tidy.1
      exact next (s1 := ⟨x.heap, s.reqs, x.resps⟩) (by simp [netExec, e1])
        ⟨⟨I.reqs.len, J.own.congr (by intro n; dsimp only; omega), I.reqs.body, I.reqs.cert⟩, J⟩ tidy.2
    | mail m =>
      obtain ⟨h, e1, o1⟩ := own_sendMail m tidy.1 tidy.2.1 I.reqs.own
      exact next (s1 := { s with heap := h }) (by simp only [netExec, e1, Res.ok_bind]; rfl)
        ⟨⟨I.reqs.len, o1, I.reqs.body, I.reqs.cert⟩, I.resps.len, o1.congr (by intro n; dsimp only; omega), I.resps.meets⟩ tidy.2.2
    | send i j body a =>
      cases j with
      | none =>
        obtain ⟨hc, ga, tidy⟩ := tidy
        by_cases hr : ∃ r, s.reqs[i]? = some (some r)
        · obtain ⟨r, hi⟩ := hr
          obtain ⟨ok, x, h, e1, o1, s1⟩ := own_sendRequest (resp := none) (d := fun n => cQ (s.reqs.set i none) n + (cV s.resps n + d n)) body
            (I.reqs.body i r hi) (no_cert I.reqs hi hc) ga.append ga.cookie ga.lines (by simp) (by simp) I.reqs.own
            (by intro n; rw [cQ_get hi]; simp only [cRo]; omega)
          have hx : x = none := by cases x with | none => rfl | some x => exact s1.elim
          subst hx
          have o2 : Own h (fun n => cQ s.reqs n + (cV s.resps n + d n)) := o1.congr (by intro n; rw [cQ_get hi]; simp only [cRo]; omega)
          exact next (s1 := { s with heap := h }) (by simp only [netExec, hi, e1, Res.ok_bind]; rfl)
            ⟨⟨I.reqs.len, o2, I.reqs.body, I.reqs.cert⟩, I.resps.len, o2.congr (by intro n; dsimp only; omega), I.resps.meets⟩ tidy
        · refine next (s1 := s) ?_ I tidy
          rcases hi : s.reqs[i]? with _ | _ | r
          · simp only [netExec, hi]
          · simp only [netExec, hi]
          · exact absurd ⟨r, hi⟩ hr
      | some j =>
        obtain ⟨hc, ga, hb, tidy⟩ := tidy
        by_cases hr : (∃ r, s.reqs[i]? = some (some r)) ∧ ∃ x, s.resps[j]? = some (some x)
        · obtain ⟨⟨r, hi⟩, ⟨x, hj⟩⟩ := hr
          have hlt : j < ns.length := by rw [← I.resps.len]; exact (List.getElem?_eq_some_iff.1 hj).1
          have hn : ns[j]? = some ns[j] := List.getElem?_eq_getElem hlt
          have M := I.resps.meets j x ns[j] hj hn
          obtain ⟨ok, y, h, e1, o1, s1⟩ := own_sendRequest (resp := some x) (a := a)
            (d := fun n => cQ (s.reqs.set i none) n + (cV (s.resps.set j none) n + d n)) body
            (I.reqs.body i r hi) (no_cert I.reqs hi hc) ga.append ga.cookie ga.lines (by rintro _ ⟨⟩; exact M.inv)
            (by
              rintro br _ ⟨⟩
              refine M.body ?_
              have := hb ((brings_iff body a.answer).2 br)
              rw [hn] at this
              rcases hbo : ns[j].body with _ | _
              · rfl
              · simp [hbo] at this) I.reqs.own
            (by intro n; rw [cQ_get hi, cV_get hj]; simp only [cRo]; omega)
          rcases y with _ | y
          · exact s1.elim
          · have s1 : Sent x y (Brings body a.answer) := s1
            have o2 : Own h (fun n => cRs y n + (cV (s.resps.set j none) n + (cQ s.reqs n + d n))) :=
              o1.congr (by intro n; rw [cQ_get hi]; simp only [cRo]; omega)
            have J := I.resps.set h j x y (fun n => ⟨true, n.gap, n.body || answersBody body a.answer⟩) hj o2 (by
              intro n hn'
              rw [hn] at hn'; cases hn'
              refine ⟨s1.inv, by simp, fun hg => s1.full (M.gap hg), fun hg => ?_⟩
              simp only [Bool.or_eq_false_iff] at hg
              rw [s1.body (fun br => by rw [(brings_iff body a.answer).2 br] at hg; exact absurd hg.2 (by simp))]
              exact M.body hg.1)
            exact next (s1 := ⟨h, s.reqs, s.resps.set j (some y)⟩) (by simp only [netExec, hi, hj, e1, Res.ok_bind]; rfl)
              ⟨⟨I.reqs.len, J.own.congr (by intro n; dsimp only; omega), I.reqs.body, I.reqs.cert⟩, J⟩ tidy
        · have e1 : netExec s (.send i (some j) body a) = .ok s := by
            rcases hi : s.reqs[i]? with _ | _ | r
            · simp only [netExec, hi]
            · simp only [netExec, hi]
            · rcases hj : s.resps[j]? with _ | _ | x
              · simp only [netExec, hi, hj]
              · simp only [netExec, hi, hj]
              · exact absurd ⟨⟨r, hi⟩, ⟨x, hj⟩⟩ hr
          by_cases hj : ∃ x, s.resps[j]? = some (some x)
          · obtain ⟨x, hj⟩ := hj
            have hlt : j < ns.length := by rw [← I.resps.len]; exact (List.getElem?_eq_some_iff.1 hj).1
            have hn : ns[j]? = some ns[j] := List.getElem?_eq_getElem hlt
            have M := I.resps.meets j x ns[j] hj hn
            have J := I.resps.set s.heap j x x (fun n => ⟨true, n.gap, n.body || answersBody body a.answer⟩) hj
              (I.resps.own.congr (by intro n; have := cV_get hj n; dsimp only; omega)) (by
              intro n hn'
              rw [hn] at hn'; cases hn'
              refine ⟨M.inv, by simp, M.gap, fun hg => ?_⟩
              simp only [Bool.or_eq_false_iff] at hg
              exact M.body hg.1)
            have hs : s.resps.set j (some x) = s.resps := by
              apply List.ext_getElem?
              intro k
              by_cases hk : j = k
              · subst hk; rw [hj, List.getElem?_set_self (List.getElem?_eq_some_iff.1 hj).1]
              · rw [List.getElem?_set_ne hk]
            dsimp only at J
            rw [hs] at J
            exact next e1 ⟨I.reqs, J⟩ tidy
          · exact next e1 ⟨I.reqs, I.resps.keep j _ (fun r h => hj ⟨r, h⟩)⟩ tidy

/-- **C140** (partial): for every program as specified. Missing: the others, for which it is false (the theorems below, C128, C129). -/
theorem C140_memory_partial (h0 : Heap) (fine : FineHeap h0) (prog : List NetCmd) (tidy : TidyNet [] [] prog) :
    ∃ s, netRun ⟨h0, [], []⟩ prog = .ok s ∧ ((∀ r ∈ s.reqs, r = none) → (∀ r ∈ s.resps, r = none) → s.heap.live.Perm h0.live) := by
  have o0 : Own h0 (fun n => h0.live.count n) := by
    intro n
    refine ⟨rfl, List.nodup_iff_count.1 fine.1 n, fun hn => List.count_eq_zero.2 (fun hm => ?_)⟩
    have := fine.2 n hm; omega
  obtain ⟨s, certs, ns, e, I⟩ := net_inv (d := fun n => h0.live.count n) prog (s := ⟨h0, [], []⟩) (certs := []) (ns := [])
    ⟨⟨rfl, o0.congr (by intro n; simp [cQ, cV]), by intro i r hi; simp at hi, by intro i r hi; simp at hi⟩,
      ⟨rfl, o0.congr (by intro n; simp [cQ, cV]), by intro i r n hi; simp at hi⟩⟩ tidy
  refine ⟨s, e, fun ha hb => List.perm_iff_count.2 (fun n => ?_)⟩
  rw [(I.reqs.own n).1]; simp [cQ_none ha, cV_none hb]

private def left : Res NetState → Option (List Nat × List Bool × List Bool)
  | .ok s => some (s.heap.live, s.reqs.map Option.isSome, s.resps.map Option.isSome)
  | .ub => none

/-- libcurl answers with headers, two cookies and a body in two blocks. -/
private def fullAnswer : Libcurl :=
  { answer := { lines := [.status, .field (some b!"A") (some b!"1"), .field (some b!"a") (some b!"2")], chunks := [3, 0, 4],
                cookies := some [[b!"h", b!"FALSE", b!"/", b!"FALSE", b!"0", b!"sid", b!"1"], [b!"h", b!"FALSE", b!"/", b!"FALSE", b!"0", b!"t", b!"2"]] } }

/-- A request with parameters of all kinds. -/
private def richRequest : List NetCmd :=
  [.request .init, .request (.op 0 (.text .url (some b!"http://h/"))), .request (.op 0 (.put .url (some b!"q") (some b!"1"))),
   .request (.op 0 (.put .url (some b!"r") none)), .request (.op 0 (.put .post (some b!"p") (some b!"1"))),
   .request (.op 0 (.put .header (some b!"H") (some b!"1"))), .request (.op 0 (.put .cookie (some b!"c") (some b!"1"))),
   .request (.op 0 (.put .cookie (some b!"d") none)), .request (.op 0 (.stringBody (some b!"text")))]

/-- It is sent three times: with an answer, without a response, and with libcurl refusing a parameter; then mails. -/
private def clientProgram : List NetCmd :=
  richRequest ++ [.response (.init false), .send 0 (some 0) (some 0) fullAnswer, .send 0 none none {}, .response (.init true),
    .send 0 (some 1) (some 5) { formValue := fun _ => false }, .mail { cc := true, bcc := true }, .mail { addTo := false },
    .response (.clean 0), .request (.clean 0), .response (.clean 1)]

private theorem good_default : GoodAnswers {} := ⟨fun _ _ => rfl, rfl, by intro ls h; cases h; decide⟩

example : TidyNet [] [] clientProgram := by
  refine ⟨trivial, trivial, trivial, trivial, trivial, trivial, trivial, trivial, trivial, trivial, ?_⟩
  refine ⟨by decide, ⟨fun _ _ => rfl, rfl, by intro ls h; cases h; decide⟩, by decide, ?_⟩
  refine ⟨by decide, good_default, ?_⟩
  refine ⟨trivial, ?_⟩
  refine ⟨by decide, ⟨fun _ _ => rfl, rfl, by intro ls h; cases h; decide⟩, by decide, ?_⟩
  exact ⟨by decide, by decide, by decide, by decide, trivial, trivial, trivial, trivial⟩

example : left (netRun ⟨⟨[7, 3], 10⟩, [], []⟩ clientProgram) = some ([7, 3], [false], [false, false]) := by decide +kernel

/-- libcurl refuses the second header: the variable that held the list is NULL then, and the first element is never freed. -/
theorem C140_header_false :
    (left (netRun ⟨{}, [], []⟩ [.request .init, .request (.op 0 (.put .header (some b!"A") (some b!"1"))),
      .request (.op 0 (.put .header (some b!"B") (some b!"2"))), .send 0 none none { append := fun i => decide (i = 0) }, .request (.clean 0)])).map
      (fun x => x.1.length) = some 1 := by decide +kernel

/-- libcurl refuses the cookies: the message names a cookie freed before. -/
theorem C140_cookie_false :
    left (netRun ⟨{}, [], []⟩ [.request .init, .request (.op 0 (.put .cookie (some b!"c") (some b!"1"))), .send 0 none none { cookie := false }]) =
      none := by decide +kernel

/-- A server sets a cookie with a value and one without: the value of the first is used for the second after it was freed. -/
theorem C140_value_false :
    left (netRun ⟨{}, [], []⟩ [.request .init, .response (.init false), .send 0 (some 0) (some 0)
      { answer := { cookies := some [[b!"h", b!"FALSE", b!"/", b!"FALSE", b!"0", b!"a", b!"1"], [b!"h", b!"FALSE", b!"/", b!"FALSE", b!"0", b!"b"]] } }]) =
      none := by decide +kernel

/-- Two answers with body in one response: the first body is never freed. -/
theorem C140_again_false :
    (left (netRun ⟨{}, [], []⟩ [.request .init, .response (.init false), .send 0 (some 0) (some 0) { answer := { chunks := [1] } },
      .send 0 (some 0) (some 0) { answer := { chunks := [1] } }, .request (.clean 0), .response (.clean 0)])).map
      (fun x => x.1.length) = some 1 := by decide +kernel

/-- A request the server got with a client certificate is sent on: the certificate of the copy is never freed. -/
theorem C140_certificate_false :
    (left (netRun ⟨{}, [], []⟩ [.request (.receive true), .send 0 none none {}, .request (.clean 0)])).map (fun x => x.1.length) = some 1 := by
  decide +kernel

/-- libcurl refuses a recipient of a copy of a mail: the recipients before are never freed. -/
theorem C140_mail_false :
    (left (netRun ⟨{}, [], []⟩ [.mail { cc := true, bcc := true, addBcc := false }])).map (fun x => x.1.length) = some 2 := by decide +kernel

end Verif.Props
