import Verif.Lemmas.MemoryResponse
import Verif.Props.Memory
/-!
# C129: what responses allocate

Claim: as C128, for responses: a program may make any number of responses, set headers, cookies, bodies, realm and websocket data, receive
answers of a server into them, copy them and clean them in any order; no block is used after it was freed, none is freed twice, and once all
responses are cleaned every block is freed.
-/
namespace Verif.Props
open Verif Verif.Memory

/-- Specification: what was written down about a response. `used`: something was put into it; `gap`: it got a cookie without expiry, domain
or path; `body`: it may have a body. -/
structure Noted where
  used : Bool
  gap : Bool
  body : Bool
  deriving DecidableEq

/-- Specification: a call that may set a body. -/
def setsBody : ROp → Bool
  | .stringBody _ | .binaryBody _ | .emptyBody | .jsonBody _ | .fetch .. => true
  | .put .. | .remove _ | .realm _ | .cookie .. | .websocket .. | .extension _ => false

/-- Specification: a cookie without one of its attributes. -/
def partialCookie : ROp → Bool
  | .cookie _ expires domain path => decide (expires = none ∨ domain = none ∨ path = none)
  | _ => false

/-- Specification: an answer with body. -/
def bringsBody : ROp → Bool
  | .fetch _ ok _ body => ok && decide (body ≠ [])
  | _ => false

/-- Specification of the calls the code gets right: an answer with body is not received into a response that may have one; a response with
an incomplete cookie is not copied; copies go into new responses. -/
def TidyResponses (ns : List Noted) : List RCmd → Prop
  | [] => True
  | .init _ :: t => TidyResponses (ns ++ [⟨false, false, false⟩]) t
  | .op i o :: t =>
    (bringsBody o = true → ns[i]?.map Noted.body ≠ some true) ∧
      TidyResponses (ns.modify i (fun n => ⟨true, n.gap || partialCookie o, n.body || setsBody o⟩)) t
  | .duplicate i :: t => ns[i]?.map Noted.gap ≠ some true ∧ TidyResponses (ns ++ [⟨true, false, true⟩]) t
  | .copy i j :: t => i ≠ j ∧ ns[i]?.map Noted.used ≠ some true ∧ ns[j]?.map Noted.gap ≠ some true ∧
      TidyResponses (ns.modify i (fun _ => ⟨true, false, true⟩)) t
  | .clean _ :: t => TidyResponses ns t

/-- A response is as written down. -/
structure Meets (n : Noted) (r : Resp) : Prop where
  inv : RInv r
  used : n.used = false → Unused r
  gap : n.gap = false → ∀ x ∈ r.cookies, FullCk x
  body : n.body = false → r.body = .null

/-- Invariant of programs over responses. -/
structure RespsInv (s : RState) (ns : List Noted) (d : Nat → Nat) : Prop where
  len : s.resps.length = ns.length
  own : Own s.heap (fun n => cV s.resps n + d n)
  meets : ∀ (i : Nat) (r : Resp) (n : Noted), s.resps[i]? = some (some r) → ns[i]? = some n → Meets n r

theorem RespsInv.snoc {s : RState} {ns : List Noted} {d : Nat → Nat} (I : RespsInv s ns d) (h : Heap) (x : Option Resp) (n : Noted)
    (o : Own h (fun n => cV [x] n + (cV s.resps n + d n))) (hx : ∀ r, x = some r → Meets n r) : RespsInv ⟨h, s.resps ++ [x]⟩ (ns ++ [n]) d := by
  refine ⟨by simp [I.len], o.congr (by intro n; rw [cV_append]; omega), ?_⟩
  intro i r m hi hm
  by_cases h1 : i < s.resps.length
  · rw [List.getElem?_append_left h1] at hi
    rw [List.getElem?_append_left (by rw [← I.len]; exact h1)] at hm
    exact I.meets i r m hi hm
  · rw [List.getElem?_append_right (by omega)] at hi
    rw [List.getElem?_append_right (by rw [← I.len]; omega), ← I.len] at hm
    rcases hk : i - s.resps.length with _ | k
    · rw [hk] at hi hm; simp at hi hm; subst hm; exact hx r hi
    · rw [hk] at hi; simp at hi

theorem RespsInv.set {s : RState} {ns : List Noted} {d : Nat → Nat} (I : RespsInv s ns d) (h : Heap) (i : Nat) (r r' : Resp) (f : Noted → Noted)
    (hi : s.resps[i]? = some (some r)) (o : Own h (fun n => cRs r' n + (cV (s.resps.set i none) n + d n)))
    (hm : ∀ n, ns[i]? = some n → Meets (f n) r') : RespsInv ⟨h, s.resps.set i (some r')⟩ (ns.modify i f) d := by
  have hlt : i < s.resps.length := (List.getElem?_eq_some_iff.1 hi).1
  refine ⟨by simp [I.len], o.congr (by intro n; show _ = cV (s.resps.set i (some r')) n + d n; rw [cV_set hlt]; omega), ?_⟩
  intro j x m hj hn
  by_cases h1 : i = j
  · subst h1
    simp [hlt] at hj; subst hj
    rw [List.getElem?_modify] at hn
    simp only [if_true, Option.map_eq_some_iff, Option.map_eq_map] at hn
    obtain ⟨n0, h0, rfl⟩ := hn
    exact hm n0 h0
  · rw [List.getElem?_set_ne h1] at hj
    rw [List.getElem?_modify] at hn
    simp only [h1, if_false] at hn
    exact I.meets j x m hj (by simpa using hn)

theorem RespsInv.keep {s : RState} {ns : List Noted} {d : Nat → Nat} (I : RespsInv s ns d) (i : Nat) (f : Noted → Noted)
    (hi : ∀ r, s.resps[i]? ≠ some (some r)) : RespsInv s (ns.modify i f) d := by
  refine ⟨by simp [I.len], I.own, ?_⟩
  intro j x m hj hn
  have h1 : i ≠ j := by rintro rfl; exact hi x hj
  rw [List.getElem?_modify] at hn
  simp only [h1, if_false] at hn
  exact I.meets j x m hj (by simpa using hn)

theorem RespsInv.drop {s : RState} {ns : List Noted} {d : Nat → Nat} (I : RespsInv s ns d) (h : Heap) (i : Nat)
    (o : Own h (fun n => cV (s.resps.set i none) n + d n)) : RespsInv ⟨h, s.resps.set i none⟩ ns d := by
  refine ⟨by simp [I.len], o, ?_⟩
  intro j x m hj hn
  by_cases h1 : i = j
  · subst h1; rw [List.getElem?_set] at hj; simp at hj
  · rw [List.getElem?_set_ne h1] at hj; exact I.meets j x m hj hn

private theorem note_at {s : RState} {ns : List Noted} {d : Nat → Nat} (I : RespsInv s ns d) {i : Nat} {r : Resp} (hi : s.resps[i]? = some (some r)) :
    ∃ n, ns[i]? = some n := by
  have hlt : i < ns.length := by rw [← I.len]; exact (List.getElem?_eq_some_iff.1 hi).1
  exact ⟨_, List.getElem?_eq_getElem hlt⟩

private theorem partial_gap (o : ROp) (h : partialCookie o = false) : leavesGap o = false := by
  cases o with
  | cookie k e d p => cases e <;> cases d <;> cases p <;> simp_all [partialCookie, leavesGap]
  | _ => rfl

private theorem sets_touches (o : ROp) (h : setsBody o = false) : touchesBody o = false := by
  cases o <;> simp_all [setsBody, touchesBody]

/-- What is written down after one call. -/
def notesAfter (ns : List Noted) : RCmd → List Noted
  | .init _ => ns ++ [⟨false, false, false⟩]
  | .op i o => ns.modify i (fun n => ⟨true, n.gap || partialCookie o, n.body || setsBody o⟩)
  | .duplicate _ => ns ++ [⟨true, false, true⟩]
  | .copy i _ => ns.modify i (fun _ => ⟨true, false, true⟩)
  | .clean _ => ns

theorem rexec_inv (c : RCmd) {s : RState} {ns : List Noted} {d : Nat → Nat} (I : RespsInv s ns d) (tidy : TidyResponses ns [c]) :
    ∃ s', rexec s c = .ok s' ∧ RespsInv s' (notesAfter ns c) d := by
  have next : ∀ {s1 : RState} {ns1 : List Noted}, rexec s c = .ok s1 → RespsInv s1 ns1 d → ns1 = notesAfter ns c →
      ∃ s', rexec s c = .ok s' ∧ RespsInv s' (notesAfter ns c) d := by
    rintro s1 ns1 e1 I1 rfl
    exact ⟨s1, e1, I1⟩
  cases c with
  | init full =>
    have hb : ∃ box h, (if full then malloc s.heap else (.null, s.heap)) = (box, h) ∧ Own h (fun n => cP box n + (cV s.resps n + d n)) := by
      cases full with
      | true =>
        obtain ⟨b, h, e1, o1, q1⟩ := own_malloc I.own
        exact ⟨b, h, by simp [e1], o1.congr (by intro n; rw [q1])⟩
      | false => exact ⟨.null, s.heap, rfl, I.own.congr (by intro n; simp [cP_null])⟩
    obtain ⟨box, h, e1, o1⟩ := hb
    obtain ⟨r, h2, e2, o2, I2, p2, a2, b2, c2, w2⟩ := own_initResponse box o1 (fun _ => rfl)
    refine next (by simp only [rexec, e1, e2]) (I.snoc h2 (some r) _ (o2.congr (by intro n; simp [cV])) ?_) rfl
    rintro r' hr
    cases hr
    exact ⟨I2, fun _ => ⟨I2, p2, a2, b2, c2, w2⟩, fun _ => by rw [c2]; simp, fun _ => b2⟩
  | op i o =>
    by_cases hr : ∃ r, s.resps[i]? = some (some r)
    · obtain ⟨r, hi⟩ := hr
      obtain ⟨n, hn⟩ := note_at I hi
      have M := I.meets i r n hi hn
      obtain ⟨r', h, e1, o1, I1, b1, f1⟩ := own_rstep (d := fun n => cV (s.resps.set i none) n + d n) o M.inv
        (by
          rintro ls cs b rfl hb
          refine M.body ?_
          have := tidy.1 (by simp [bringsBody, hb])
          rw [hn] at this
          rcases hbo : n.body with _ | _
          · rfl
          · simp [hbo] at this) I.own (by intro n; rw [cV_get hi]; omega)
      refine next (by simp only [rexec, hi, e1, Res.ok_bind]; rfl) (I.set h i r r' _ hi o1 ?_) rfl
      intro n' hn'
      rw [hn] at hn'; cases hn'
      refine ⟨I1, by simp, ?_, ?_⟩
      · intro hg
        simp only [Bool.or_eq_false_iff] at hg
        exact f1 (partial_gap o hg.2) (M.gap hg.1)
      · intro hg
        simp only [Bool.or_eq_false_iff] at hg
        rw [b1 (sets_touches o hg.2)]
        exact M.body hg.1
    · have hno : ∀ r, s.resps[i]? ≠ some (some r) := fun r hi => hr ⟨r, hi⟩
      refine next ?_ (I.keep i _ hno) rfl
      rcases hi : s.resps[i]? with _ | _ | r
      · simp only [rexec, hi]
      · simp only [rexec, hi]
      · exact absurd hi (hno r)
  | duplicate i =>
    have gone : (∀ r, s.resps[i]? ≠ some (some r)) → ∃ s', rexec s (.duplicate i) = .ok s' ∧ RespsInv s' (notesAfter ns (.duplicate i)) d := by
      intro hno
      refine next ?_ (I.snoc s.heap none _ (I.own.congr (by intro n; simp [cV])) (by simp)) rfl
      rcases hi : s.resps[i]? with _ | _ | r
      · simp only [rexec, hi]
      · simp only [rexec, hi]
      · exact absurd hi (hno r)
    by_cases hr : ∃ r, s.resps[i]? = some (some r)
    · obtain ⟨r, hi⟩ := hr
      obtain ⟨n, hn⟩ := note_at I hi
      have M := I.meets i r n hi hn
      have hg : n.gap = false := by
        have := tidy.1
        rw [hn] at this
        rcases hgo : n.gap with _ | _
        · rfl
        · simp [hgo] at this
      obtain ⟨x, h, e1, ho⟩ := own_duplicateResponse (d := fun n => cV (s.resps.set i none) n + d n) M.inv (M.gap hg) I.own
        (by intro n; rw [cV_get hi]; omega)
      rcases ho with ⟨rfl, o1⟩ | ⟨r', rfl, o1, I1, f1⟩
      · exact next (by simp only [rexec, hi, e1, Res.ok_bind]; rfl) (I.snoc h none _ (o1.congr (by intro n; simp [cV])) (by simp)) rfl
      · refine next (by simp only [rexec, hi, e1, Res.ok_bind]; rfl) (I.snoc h (some r') _ (o1.congr (by intro n; simp [cV])) ?_) rfl
        rintro r'' hr
        cases hr
        exact ⟨I1, by simp, fun _ => f1, by simp⟩
    · exact gone (fun r hi => hr ⟨r, hi⟩)
  | copy i j =>
    obtain ⟨hij, hu, hg, tidy⟩ := tidy
    by_cases hr : (∃ r, s.resps[i]? = some (some r)) ∧ ∃ r, s.resps[j]? = some (some r)
    · obtain ⟨⟨de, hi⟩, ⟨r, hj⟩⟩ := hr
      obtain ⟨n, hn⟩ := note_at I hi
      obtain ⟨m, hm⟩ := note_at I hj
      have M := I.meets i de n hi hn
      have N := I.meets j r m hj hm
      have hu : n.used = false := by
        rw [hn] at hu
        rcases hgo : n.used with _ | _
        · rfl
        · simp [hgo] at hu
      have hg : m.gap = false := by
        rw [hm] at hg
        rcases hgo : m.gap with _ | _
        · rfl
        · simp [hgo] at hg
      have hj2 : (s.resps.set i none)[j]? = some (some r) := by rw [List.getElem?_set_ne hij]; exact hj
      obtain ⟨ok, r', h, e1, o1, I1, f1⟩ := own_copyResponse (d := fun n => cV ((s.resps.set i none).set j none) n + d n) (M.used hu) N.inv (N.gap hg) I.own
        (by intro n; rw [cV_get hi, cV_get hj2]; omega)
      refine next (by simp only [rexec, hi, hj, e1, Res.ok_bind]; rfl)
        (I.set h i de r' _ hi (o1.congr (by intro n; rw [cV_get hj2]; omega)) ?_) rfl
      intro n' _
      exact ⟨I1, by simp, fun _ => f1, by simp⟩
    · by_cases hi : ∃ r, s.resps[i]? = some (some r)
      · obtain ⟨de, hi⟩ := hi
        have hno : ∀ r, s.resps[j]? ≠ some (some r) := fun r hj => hr ⟨⟨de, hi⟩, ⟨r, hj⟩⟩
        obtain ⟨n, hn⟩ := note_at I hi
        have M := I.meets i de n hi hn
        refine next (s1 := s) (ns1 := ns.modify i (fun _ => ⟨true, false, true⟩)) ?_ ⟨by simp [I.len], I.own, ?_⟩ rfl
        · rcases hj : s.resps[j]? with _ | _ | r
          · simp only [rexec, hi, hj]
          · simp only [rexec, hi, hj]
          · exact absurd hj (hno r)
        · intro k x m hk hnk
          rw [List.getElem?_modify] at hnk
          by_cases h1 : i = k
          · subst h1
            rw [hi] at hk; cases hk
            simp only [if_true, Option.map_eq_some_iff, Option.map_eq_map] at hnk
            obtain ⟨n0, h0, rfl⟩ := hnk
            have hu : n.used = false := by
              rw [hn] at hu
              rcases hgo : n.used with _ | _
              · rfl
              · simp [hgo] at hu
            exact ⟨M.inv, by simp, fun _ => by rw [(M.used hu).cookies]; simp, by simp⟩
          · simp only [h1, if_false] at hnk
            exact I.meets k x m hk (by simpa using hnk)
      · have hno : ∀ r, s.resps[i]? ≠ some (some r) := fun r h => hi ⟨r, h⟩
        refine next ?_ (I.keep i _ hno) rfl
        rcases hi : s.resps[i]? with _ | _ | r
        · simp only [rexec, hi]
        · simp only [rexec, hi]
        · exact absurd hi (hno r)
  | clean i =>
    rcases hi : s.resps[i]? with _ | _ | r
    · exact next (by simp only [rexec, hi]) I rfl
    · exact next (by simp only [rexec, hi]) I rfl
    · obtain ⟨n, hn⟩ := note_at I hi
      have M := I.meets i r n hi hn
      obtain ⟨h, e1, o1⟩ := own_cleanResponseFull (r := r) (d := fun n => cV (s.resps.set i none) n + d n) M.inv.arr' I.own (by intro n; rw [cV_get hi]; omega)
      exact next (by simp only [rexec, hi, e1, Res.ok_bind]; rfl) (I.drop h i o1) rfl

theorem TidyResponses.split {ns : List Noted} {c : RCmd} {t : List RCmd} (h : TidyResponses ns (c :: t)) :
    TidyResponses ns [c] ∧ TidyResponses (notesAfter ns c) t := by
  cases c with
  | init b => exact ⟨trivial, h⟩
  | op i o => exact ⟨⟨h.1, trivial⟩, h.2⟩
  | duplicate i => exact ⟨⟨h.1, trivial⟩, h.2⟩
  | copy i j => exact ⟨⟨h.1, h.2.1, h.2.2.1, trivial⟩, h.2.2.2⟩
  | clean i => exact ⟨trivial, h⟩

private theorem rrun_inv (prog : List RCmd) {s : RState} {ns : List Noted} {d : Nat → Nat} (I : RespsInv s ns d) (tidy : TidyResponses ns prog) :
    ∃ s' ns', rrun s prog = .ok s' ∧ RespsInv s' ns' d := by
  induction prog generalizing s ns with
  | nil => exact ⟨s, ns, rfl, I⟩
  | cons c t ih =>
    obtain ⟨s1, e1, I1⟩ := rexec_inv c I tidy.split.1
    obtain ⟨s', ns', e2, I2⟩ := ih I1 tidy.split.2
    exact ⟨s', ns', by simp [rrun, e1, e2], I2⟩

/-- **C129** (partial): for every program in which an answer with body is received into responses without one, responses with incomplete
cookies are not copied and copies go into new responses. Missing: the other programs, for which it is false (the theorems below). -/
theorem C129_memory_partial (h0 : Heap) (fine : FineHeap h0) (prog : List RCmd) (tidy : TidyResponses [] prog) :
    ∃ s, rrun ⟨h0, []⟩ prog = .ok s ∧ ((∀ r ∈ s.resps, r = none) → s.heap.live.Perm h0.live) := by
  have o0 : Own h0 (fun n => h0.live.count n) := by
    intro n
    refine ⟨rfl, List.nodup_iff_count.1 fine.1 n, fun hn => List.count_eq_zero.2 (fun hm => ?_)⟩
    have := fine.2 n hm; omega
  obtain ⟨s, ns, e, I⟩ := rrun_inv (d := fun n => h0.live.count n) prog (s := ⟨h0, []⟩) (ns := [])
    ⟨rfl, o0.congr (by intro n; simp [cV]), by intro i r n hi; simp at hi⟩ tidy
  refine ⟨s, e, fun hall => List.perm_iff_count.2 (fun n => ?_)⟩
  rw [(I.own n).1]; simp [cV_none hall]

private def after : Res RState → Option (List Nat × List Bool)
  | .ok s => some (s.heap.live, s.resps.map Option.isSome)
  | .ub => none

/-- A proxy: an answer with headers, a cookie and a body is received, changed, copied into the response of the server and duplicated; another
response gets cookies without attributes and websocket data. -/
private def proxyProgram : List RCmd :=
  [.init true, .init false, .op 1 (.fetch [.status, .field (some b!"A") (some b!"1"), .field (some b!"a") (some b!"2")] true [b!"sid", b!"sid"] b!"text"),
   .op 1 (.put (some b!"X") (some b!"y")), .op 1 (.remove (some b!"A")), .op 1 (.stringBody (some b!"new")), .copy 0 1, .duplicate 1,
   .op 0 (.cookie (some b!"sid") none none none), .op 0 (.realm (some b!"r")), .init true, .op 3 (.cookie (some b!"c") none (some b!"d") none),
   .op 3 (.websocket (some b!"p") (some b!"e")), .op 3 (.extension (some b!"permessage-deflate")), .op 3 (.jsonBody (some b!"{}")), .op 3 .emptyBody,
   .clean 1, .clean 0, .clean 3, .clean 2]

example : TidyResponses [] proxyProgram := by
  refine ⟨by decide, by decide, by decide, by decide, by decide, by decide, by decide, by decide, by decide, by decide, ?_⟩
  exact ⟨by decide, by decide, by decide, by decide, by decide, trivial⟩

example : after (rrun ⟨⟨[7, 3], 10⟩, []⟩ (proxyProgram.take 16)) ≠ none := by decide +kernel

example : after (rrun ⟨⟨[7, 3], 10⟩, []⟩ proxyProgram) = some ([7, 3], [false, false, false, false]) := by decide +kernel

/-- An answer that is copied after a cookie without domain, path and expiry was added: the cookie of the copy is freed twice. -/
theorem C129_cookie_false :
    after (rrun ⟨{}, []⟩ [.init false, .op 0 (.fetch [.status] true [] []), .op 0 (.cookie (some b!"c") none none none), .duplicate 0, .clean 1]) = none := by
  decide +kernel

/-- Receiving two answers with body into one response: the first body is never freed. -/
theorem C129_fetch_false :
    (after (rrun ⟨{}, []⟩ [.init false, .op 0 (.fetch [.status] true [] b!"one"), .op 0 (.fetch [.status] true [] b!"two"), .clean 0])).map
      (fun x => x.1.length) = some 1 := by
  decide +kernel

/-- Copying into a response that has a body already: the old body is never freed. -/
theorem C129_into_false :
    (after (rrun ⟨{}, []⟩ [.init false, .op 0 (.stringBody (some b!"old")), .init false, .op 1 (.fetch [.status] true [] b!"new"), .copy 0 1, .clean 0,
      .clean 1])).map (fun x => x.1.length) = some 1 := by
  decide +kernel

/-- `ulfius_clean_response` twice, on a response with nothing in it: the websocket handle is freed again, because the pointer to it is not reset. -/
theorem C129_twice_false :
    (match initResponse {} .null with
     | (r, h) => match cleanResponse h r with
       | .ok (r, h) => match cleanResponse h r with
         | .ok _ => some false
         | .ub => some true
       | .ub => none) = some true := by decide +kernel

end Verif.Props
