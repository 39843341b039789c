import Verif.Model.OomAnswer
/-!
# C191: an answer that cannot be made for want of memory is not another answer
-/
namespace Verif.Props
open Verif.OomAnswer
open Verif.Spec.AnswerMem

namespace OomAnswerAux

theorem addLines_ok (mem : Mem) (w : Bool) (hf : ∀ i, mem.field w i = true) : ∀ (l : List Field) (i : Nat), addLines mem w i l = (true, l) := by
  intro l
  induction l with
  | nil => intro i; rfl
  | cons a t ih => intro i; simp [addLines, hf, ih]

/-- The answer, no answer, or an error. -/
abbrev Fair (a : Option Ans) (want : Option Ans) : Prop := a = want ∨ a = none ∨ ∃ y, a = some y ∧ y.status = 500

theorem errorPage_fair (mem : Mem) (w : Bool) (s : St) (want : Option Ans) (hu : s.unauth = false) (hs : s.resp.status = 500) :
    Fair (finish (errorPage mem w s)).answer want := by
  simp only [errorPage]
  split
  · simp only [create]
    cases mem.reply w with
    | true => right; right; exact ⟨_, rfl, by simp [hu, hs]⟩
    | false => right; left; rfl
  · right; left; rfl

theorem complete_fair (mem : Mem) (w : Bool) (hf : ∀ i, mem.field w i = true) (s : St) (hu : s.unauth = false) (hs : List Field)
    (hh : s.resp.headers = some hs) :
    Fair (finish (complete mem w s)).answer (some ⟨s.resp.status, none, hs ++ s.resp.cookies, s.resp.body⟩) := by
  by_cases hb : s.resp.body = []
  · simp only [complete, getBody, hb, ne_eq, not_true_eq_false, if_false, if_true, create]
    cases mem.reply w with
    | true => left; simp [setLines, hh, addLines_ok mem w hf, finish, hu]
    | false => right; left; simp [setLines, finish]
  · cases hc : mem.body w with
    | true =>
      simp only [complete, getBody, hb, ne_eq, not_false_eq_true, if_true, hc, create]
      cases mem.reply w with
      | true => left; simp [setLines, hh, addLines_ok mem w hf, finish, hu]
      | false => right; left; simp [setLines, finish]
    | false =>
      cases ht : mem.text w with
      | true =>
        simp only [complete, getBody, hb, ne_eq, not_false_eq_true, if_true, hc, Bool.false_eq_true, if_false, ht, create]
        by_cases hl : s.len = 0 ∧ mem.reply w = true
        · rw [if_pos hl]; right; right
          exact ⟨_, by simp [setLines, hh, addLines_ok mem w hf, finish, hu]; rfl, rfl⟩
        · rw [if_neg hl]; right; left; simp [setLines, finish]
      | false =>
        simp only [complete, getBody, hb, ne_eq, not_false_eq_true, if_true, hc, Bool.false_eq_true, if_false, ht]
        exact errorPage_fair _ _ _ _ hu rfl

theorem unauthorized_fair (mem : Mem) (w : Bool) (realm : Option Bytes) (hf : ∀ i, mem.field w i = true) (hc : mem.body w = true) (s : St)
    (hs : List Field) (hh : s.resp.headers = some hs) :
    Fair (finish (unauthorized mem w realm s)).answer
      (some ⟨401, s.resp.realm.orElse (fun _ => realm), hs ++ s.resp.cookies, s.resp.body⟩) := by
  by_cases hb : s.resp.body = []
  · simp only [unauthorized, getBody, hb, ne_eq, not_true_eq_false, if_false, if_true, create]
    cases mem.reply w with
    | true => left; simp [setLines, hh, addLines_ok mem w hf, finish]
    | false => right; left; simp [setLines, finish]
  · simp only [unauthorized, getBody, hb, ne_eq, not_false_eq_true, if_true, hc, create]
    cases mem.reply w with
    | true => left; simp [setLines, hh, addLines_ok mem w hf, finish]
    | false => right; left; simp [setLines, finish]

theorem failed_fair (mem : Mem) (w : Bool) (s : St) (hu : s.unauth = false) (want : Option Ans) :
    Fair (finish (failed mem w s)).answer want := errorPage_fair _ _ _ _ hu rfl

/-- The loop decides as the chain does. -/
theorem loop_chain (mem : Mem) (realm : Option Bytes) : ∀ (cbs : List Cb) (s : St) (u : Bool), cbs ≠ [] →
    loop mem realm cbs s u = (decide_ mem realm (chain cbs s.resp u).1 { s with resp := (chain cbs s.resp u).2.1 }, (chain cbs s.resp u).2.2) := by
  intro cbs
  induction cbs with
  | nil => intro s u h; exact absurd rfl h
  | cons cb t ih =>
    intro s u _
    simp only [loop, chain]
    by_cases hc : (cb s.resp).1 = .next ∨ (cb s.resp).1 = .ignore
    · by_cases ht : t = []
      · subst ht
        simp [hc, chain]
      · simp only [hc, ht, ne_eq, not_false_eq_true, and_self, and_false, if_true, if_false, true_and]
        rw [ih _ _ ht]
    · simp only [hc, false_and, if_false]

/-- When all ignored the request the decision is to complete it. -/
theorem chain_ignored : ∀ (cbs : List Cb) (r : Resp) (u : Bool), (chain cbs r u).2.2 = false → (chain cbs r u).1 = .complete := by
  intro cbs
  induction cbs with
  | nil => intro r u _; rfl
  | cons cb t ih =>
    intro r u h
    simp only [chain] at h ⊢
    split at h
    · next hc => rw [if_pos hc]; exact ih _ _ h
    · next hc =>
      rw [if_neg hc]
      simp only [Bool.or_eq_false_iff, decide_eq_false_iff_not, Decidable.not_not] at h
      simp [h.2]

theorem chain_headers : ∀ (cbs : List Cb) (r : Resp) (u : Bool), (∀ cb ∈ cbs, ∀ r, r.headers.isSome = true → (cb r).2.headers.isSome = true) →
    r.headers.isSome = true → (chain cbs r u).2.1.headers.isSome = true := by
  intro cbs
  induction cbs with
  | nil => intro r u _ h; exact h
  | cons cb t ih =>
    intro r u hk h
    simp only [chain]
    split
    · exact ih _ _ (fun c hc => hk c (by simp [hc])) (hk cb (by simp) r h)
    · exact hk cb (by simp) r h

theorem chain_code : ∀ (cbs : List Cb) (r : Resp) (u : Bool),
    (chain cbs r u).1 = .complete ∨ ∃ cb ∈ cbs, ∃ r', (cb r').1 = (chain cbs r u).1 := by
  intro cbs
  induction cbs with
  | nil => intro r u; left; rfl
  | cons cb t ih =>
    intro r u
    simp only [chain]
    split
    · rcases ih (cb r).2 (u || decide ((cb r).1 ≠ .ignore)) with h | ⟨c, hc, r', h⟩
      · exact .inl h
      · exact .inr ⟨c, by simp [hc], r', h⟩
    · split
      · left; rfl
      · right; exact ⟨cb, by simp, r, rfl⟩

theorem chain_final : ∀ (cbs : List Cb) (r : Resp) (u : Bool), (chain cbs r u).1 ≠ .next ∧ (chain cbs r u).1 ≠ .ignore := by
  intro cbs
  induction cbs with
  | nil => intro r u; simp [chain]
  | cons cb t ih =>
    intro r u
    simp only [chain]
    split
    · exact ih _ _
    · split
      · simp
      · next h => exact ⟨fun e => h (.inl e), fun e => h (.inr e)⟩

theorem decide_fair (mem : Mem) (realm : Option Bytes) (hf : ∀ i, mem.field false i = true) (c : Code) (s : St) (hu : s.unauth = false)
    (hs : List Field) (hh : s.resp.headers = some hs) (hb : mem.body false = true ∨ c ≠ .unauthorized) :
    Fair (finish (decide_ mem realm c s)).answer (some (answerOf realm c s.resp)) := by
  cases c with
  | unauthorized =>
    have := unauthorized_fair mem false realm hf (hb.resolve_right (by simp)) s hs hh
    simpa [decide_, answerOf, hh] using this
  | error => exact failed_fair _ _ _ hu _
  | other => exact failed_fair _ _ _ hu _
  | next => simpa [decide_, answerOf, hh] using complete_fair mem false hf s hu hs hh
  | ignore => simpa [decide_, answerOf, hh] using complete_fair mem false hf s hu hs hh
  | complete => simpa [decide_, answerOf, hh] using complete_fair mem false hf s hu hs hh

/-- A copy that succeeds leaves the response as it is. -/
theorem complete_keeps (mem : Mem) (w : Bool) (hb : mem.body w = true) (s : St) :
    (complete mem w s).resp = s.resp ∧ (complete mem w s).unauth = s.unauth := by
  by_cases h : s.resp.body = [] <;> simp [complete, getBody, h, hb]

theorem complete_enough (w : Bool) (s : St) (hu : s.unauth = false) (hs : List Field) (hh : s.resp.headers = some hs) :
    (finish (complete {} w s)).answer = some ⟨s.resp.status, none, hs ++ s.resp.cookies, s.resp.body⟩ ∧ (complete {} w s).resp = s.resp ∧
      (complete {} w s).unauth = s.unauth ∧ (finish (complete {} w s)).freed = true ∧ (finish (complete {} w s)).lost = s.lost := by
  by_cases hb : s.resp.body = [] <;> simp [complete, getBody, hb, create, setLines, hh, addLines_ok, finish, hu]

theorem unauthorized_enough (w : Bool) (realm : Option Bytes) (s : St) (hs : List Field) (hh : s.resp.headers = some hs) :
    (finish (unauthorized {} w realm s)).answer = some ⟨401, s.resp.realm.orElse (fun _ => realm), hs ++ s.resp.cookies, s.resp.body⟩ ∧
      (finish (unauthorized {} w realm s)).freed = true ∧ (finish (unauthorized {} w realm s)).lost = s.lost := by
  by_cases hb : s.resp.body = [] <;> simp [unauthorized, getBody, hb, create, setLines, hh, addLines_ok, finish]

theorem failed_enough (w : Bool) (s : St) (hu : s.unauth = false) :
    (finish (failed {} w s)).answer = some ⟨500, none, [], errorText⟩ ∧ (finish (failed {} w s)).freed = true ∧
      (finish (failed {} w s)).lost = s.lost := by
  simp [failed, errorPage, create, finish, hu]

theorem decide_enough (realm : Option Bytes) (c : Code) (s : St) (hu : s.unauth = false) (hs : List Field) (hh : s.resp.headers = some hs) :
    (finish (decide_ {} realm c s)).answer = some (answerOf realm c s.resp) ∧ (finish (decide_ {} realm c s)).freed = true ∧
      (finish (decide_ {} realm c s)).lost = s.lost := by
  cases c with
  | unauthorized => simpa [decide_, answerOf, hh] using unauthorized_enough false realm s hs hh
  | error => simpa [decide_, answerOf] using failed_enough false s hu
  | other => simpa [decide_, answerOf] using failed_enough false s hu
  | next => have := complete_enough false s hu hs hh; simpa [decide_, answerOf, hh] using ⟨this.1, this.2.2.2⟩
  | ignore => have := complete_enough false s hu hs hh; simpa [decide_, answerOf, hh] using ⟨this.1, this.2.2.2⟩
  | complete => have := complete_enough false s hu hs hh; simpa [decide_, answerOf, hh] using ⟨this.1, this.2.2.2⟩

end OomAnswerAux
open OomAnswerAux

/-- **C191, partial.** Whichever allocations fail on the way from the callbacks to the client: the client gets the answer the callbacks asked for, or an
answer 500, or no answer. Missing: no memory for the copy of the default headers (`C191_defaults_false`) or for a line (`C191_line_false`), for the
copy of the body of a refusal (`C191_unauthorized_false`), and for a copy of the body before the default endpoint is asked
(`C191_fallback_false`). -/
theorem C191_answer_partial (mem : Mem) (defaults : List Field) (realm : Option Bytes) (cbs : List Cb) (dflt : Option Cb) (hne : cbs ≠ [])
    (hk : ∀ cb, cb ∈ cbs ∨ dflt = some cb → ∀ r, r.headers.isSome = true → (cb r).2.headers.isSome = true)
    (hd : defaults = [] ∨ mem.defaults = true) (hf : ∀ w i, mem.field w i = true)
    (hb : dflt = none ∨ mem.body false = true)
    (hu : (∀ w, mem.body w = true) ∨ ∀ cb, cb ∈ cbs ∨ dflt = some cb → ∀ r, (cb r).1 ≠ .unauthorized) :
    (serve mem defaults realm cbs dflt).answer = ideal defaults realm cbs dflt ∨ (serve mem defaults realm cbs dflt).answer = none ∨
      ∃ a, (serve mem defaults realm cbs dflt).answer = some a ∧ a.status = 500 := by
  simp only [serve]
  cases hr : (mem.response && mem.init) with
  | false => right; left; rfl
  | true =>
    rw [if_pos rfl]
    have hresp : ({ headers := if defaults = [] then some [] else if mem.defaults = true then some defaults else none } : Resp) =
        { headers := some defaults } := by
      rcases hd with h | h
      · simp [h]
      · by_cases h0 : defaults = [] <;> simp [h, h0]
    simp only [hresp, loop_chain mem realm cbs _ _ hne, ideal]
    have hh := chain_headers cbs { headers := some defaults } false (fun cb hc => hk cb (.inl hc)) rfl
    obtain ⟨hs, hhs⟩ := Option.isSome_iff_exists.1 hh
    have hcu : mem.body false = true ∨ (chain cbs { headers := some defaults } false).1 ≠ .unauthorized := by
      rcases hu with h | h
      · exact .inl (h false)
      · rcases chain_code cbs { headers := some defaults } false with e | ⟨cb, hc, r', e⟩
        · right; rw [e]; simp
        · right; rw [← e]; exact h cb (.inl hc) r'
    have hig := chain_ignored cbs { headers := some defaults } false
    have hfair := fun (s : St) (h1 : s.unauth = false) (h2 : s.resp.headers = some hs) =>
      decide_fair mem realm (hf false) (chain cbs { headers := some defaults } false).1 s h1 hs h2 hcu
    generalize hg : chain cbs { headers := some defaults } false = d at *
    obtain ⟨c, r, u⟩ := d
    cases u with
    | true =>
      have := hfair { resp := r } rfl hhs
      simpa using this
    | false =>
      cases dflt with
      | none => simpa using hfair { resp := r } rfl hhs
      | some f =>
        have hbf : mem.body false = true := by simpa using hb
        have hc : c = .complete := hig rfl
        subst hc
        obtain ⟨k1, k2⟩ := complete_keeps mem false hbf { resp := r }
        simp only [decide_, fallback]
        rw [k1]
        have hfh := hk f (.inr rfl) r (by simpa using congrArg Option.isSome hhs)
        obtain ⟨fs, hfs⟩ := Option.isSome_iff_exists.1 hfh
        cases hcode : (f r).1 with
        | other => right; left; rfl
        | error => exact failed_fair mem true { complete mem false { resp := r } with mhd := none, resp := (f r).2 } k2 _
        | unauthorized =>
          have hbt : mem.body true = true := by
            rcases hu with h | h
            · exact h true
            · exact absurd hcode (h f (.inr rfl) r)
          have := unauthorized_fair mem true realm (hf true) hbt { complete mem false { resp := r } with mhd := none, resp := (f r).2 } fs hfs
          simpa [answerOf, hfs] using this
        | next =>
          have := complete_fair mem true (hf true) { complete mem false { resp := r } with mhd := none, resp := (f r).2 } k2 fs hfs
          simpa [answerOf, hfs] using this
        | ignore =>
          have := complete_fair mem true (hf true) { complete mem false { resp := r } with mhd := none, resp := (f r).2 } k2 fs hfs
          simpa [answerOf, hfs] using this
        | complete =>
          have := complete_fair mem true (hf true) { complete mem false { resp := r } with mhd := none, resp := (f r).2 } k2 fs hfs
          simpa [answerOf, hfs] using this

/-- **C191.** With memory for all of it the client gets the answer the callbacks asked for, no body is lost, and the response is freed whenever something
is answered. -/
theorem C191_enough (defaults : List Field) (realm : Option Bytes) (cbs : List Cb) (dflt : Option Cb) (hne : cbs ≠ [])
    (hk : ∀ cb, cb ∈ cbs ∨ dflt = some cb → ∀ r, r.headers.isSome = true → (cb r).2.headers.isSome = true) :
    (serve {} defaults realm cbs dflt).answer = ideal defaults realm cbs dflt ∧ (serve {} defaults realm cbs dflt).lost = 0 ∧
      (serve {} defaults realm cbs dflt).freed = (ideal defaults realm cbs dflt).isSome := by
  have hresp : ({ headers := if defaults = [] then some [] else some defaults } : Resp) =
      { headers := some defaults } := by
    by_cases h0 : defaults = [] <;> simp [h0]
  simp only [serve, Bool.and_self, if_true, hresp, loop_chain {} realm cbs _ _ hne, ideal]
  have hh := chain_headers cbs { headers := some defaults } false (fun cb hc => hk cb (.inl hc)) rfl
  obtain ⟨hs, hhs⟩ := Option.isSome_iff_exists.1 hh
  have hig := chain_ignored cbs { headers := some defaults } false
  generalize hg : chain cbs { headers := some defaults } false = d at *
  obtain ⟨c, r, u⟩ := d
  cases u with
  | true => have := decide_enough realm c { resp := r } rfl hs hhs; exact ⟨this.1, this.2.2, this.2.1⟩
  | false =>
    cases dflt with
    | none => have := decide_enough realm c { resp := r } rfl hs hhs; exact ⟨this.1, this.2.2, this.2.1⟩
    | some f =>
      have hc : c = .complete := hig rfl
      subst hc
      obtain ⟨-, k1, k2, -, -⟩ := complete_enough false { resp := r } rfl hs hhs
      have k3 : (complete {} false { resp := r }).lost = 0 := by
        by_cases hb : r.body = [] <;> simp [complete, getBody, hb]
      simp only [decide_, fallback]
      rw [k1]
      have hfh := hk f (.inr rfl) r (by simpa using congrArg Option.isSome hhs)
      obtain ⟨fs, hfs⟩ := Option.isSome_iff_exists.1 hfh
      have hA := complete_enough true { complete {} false { resp := r } with mhd := none, resp := (f r).2 } k2 fs hfs
      have hB := unauthorized_enough true realm { complete {} false { resp := r } with mhd := none, resp := (f r).2 } fs hfs
      have hC := failed_enough true { complete {} false { resp := r } with mhd := none, resp := (f r).2 } k2
      cases hcode : (f r).1 with
      | other => exact ⟨rfl, k3, rfl⟩
      | error => exact ⟨hC.1, hC.2.2.trans k3, hC.2.1⟩
      | unauthorized => exact ⟨by simpa [answerOf, hfs] using hB.1, hB.2.2.trans k3, by simpa using hB.2.1⟩
      | next => exact ⟨by simpa [answerOf, hfs] using hA.1, hA.2.2.2.2.trans k3, by simpa using hA.2.2.2.1⟩
      | ignore => exact ⟨by simpa [answerOf, hfs] using hA.1, hA.2.2.2.2.trans k3, by simpa using hA.2.2.2.1⟩
      | complete => exact ⟨by simpa [answerOf, hfs] using hA.1, hA.2.2.2.2.trans k3, by simpa using hA.2.2.2.1⟩

/-- A page behind a cookie, as a callback makes it. -/
def pageCb : Cb := fun r => (.complete, { r with cookies := r.cookies ++ [(b!"Set-Cookie", b!"sid=1")], body := b!"page" })
/-- A refusal with a page of its own. -/
def refusalCb : Cb := fun r => (.unauthorized, { r with body := b!"log in", realm := some b!"members" })
/-- A filter that sets a body and ignores the request. -/
def filterCb : Cb := fun r => (.ignore, { r with body := b!"draft" })
/-- A default endpoint that adds to the body it finds. -/
def defaultCb : Cb := fun r => (.complete, { r with body := r.body ++ b!"!" })
/-- The default headers of the instance. -/
def policy : List Field := [(b!"X-Frame-Options", b!"DENY")]

/-- **C191, false.** Without memory for the copy of the default headers the page is answered 200 without the default headers, and without the cookies of
the callback; a refusal is a 500 with the page of the refusal. -/
theorem C191_defaults_false :
    ideal policy none [pageCb] none = some ⟨200, none, [(b!"X-Frame-Options", b!"DENY"), (b!"Set-Cookie", b!"sid=1")], b!"page"⟩ ∧
    serve { defaults := false } policy none [pageCb] none = ⟨some ⟨200, none, [], b!"page"⟩, true, 0⟩ ∧
    serve { defaults := false } policy none [refusalCb] none = ⟨some ⟨500, none, [], b!"log in"⟩, true, 1⟩ := by
  refine ⟨by decide +kernel, by decide +kernel, by decide +kernel⟩

/-- **C191, false.** Without memory for a line the page is answered 200 without it and without the lines behind it. -/
theorem C191_line_false :
    serve { field := fun _ i => i == 1 } policy none [pageCb] none = ⟨some ⟨200, none, [], b!"page"⟩, true, 0⟩ ∧
    serve { field := fun _ i => i == 0 } policy none [pageCb] none = ⟨some ⟨200, none, [(b!"X-Frame-Options", b!"DENY")], b!"page"⟩, true, 0⟩ := by
  refine ⟨by decide +kernel, by decide +kernel⟩

/-- **C191, false.** Without memory for the copy of its body a refusal is a refusal still, but with an empty page, or with the text of an error and without
the headers. -/
theorem C191_unauthorized_false :
    serve {} policy none [refusalCb] none = ⟨some ⟨401, some b!"members", policy, b!"log in"⟩, true, 0⟩ ∧
    serve { body := fun _ => false } policy none [refusalCb] none = ⟨some ⟨401, some b!"members", policy, []⟩, true, 1⟩ ∧
    serve { body := fun _ => false, text := fun _ => false } policy none [refusalCb] none =
      ⟨some ⟨401, some b!"members", [], errorText⟩, true, 1⟩ := by
  refine ⟨by decide +kernel, by decide +kernel, by decide +kernel⟩

/-- **C191, false.** A line of a refusal that is not taken makes an answer 500 of it, with the page of the refusal and no realm. -/
theorem C191_refusal_line_false :
    serve { field := fun _ _ => false } policy none [refusalCb] none = ⟨some ⟨500, none, [], b!"log in"⟩, true, 1⟩ := by
  decide +kernel

/-- **C191, false.** When all callbacks ignored the request, an answer is made of what they left before the default endpoint is asked. If its body cannot be
copied the default endpoint finds the text of the error and the status 500 in the response. -/
theorem C191_fallback_false :
    ideal [] none [filterCb] (some defaultCb) = some ⟨200, none, [], b!"draft!"⟩ ∧
    serve { body := fun w => w } [] none [filterCb] (some defaultCb) = ⟨some ⟨500, none, [], b!"Server Error!"⟩, true, 1⟩ ∧
    serve { body := fun w => w } [] none [filterCb] (some fun r => (.complete, { r with status := 200 })) =
      ⟨some ⟨200, none, [], b!"Server Error"⟩, true, 1⟩ := by
  refine ⟨by decide +kernel, by decide +kernel, by decide +kernel⟩

/-- **C191, false.** A response for which nothing can be queued is never freed, and a body that cannot be copied is lost. The last case: the length of
the copy made before the default endpoint was asked goes with no buffer. -/
theorem C191_leak_false :
    serve { reply := fun _ => false } policy none [pageCb] none = ⟨none, false, 0⟩ ∧
    serve { body := fun _ => false } [] none [pageCb] none = ⟨some ⟨500, none, [(b!"Set-Cookie", b!"sid=1")], []⟩, true, 1⟩ ∧
    serve { body := fun w => !w } [] none [filterCb] (some defaultCb) = ⟨none, false, 1⟩ := by
  refine ⟨by decide +kernel, by decide +kernel, by decide +kernel⟩

/-- The response is freed exactly when something is queued, or when there was none. -/
theorem C191_freed (mem : Mem) (defaults : List Field) (realm : Option Bytes) (cbs : List Cb) (dflt : Option Cb) :
    (serve mem defaults realm cbs dflt).freed = ((serve mem defaults realm cbs dflt).answer.isSome || !(mem.response && mem.init)) := by
  have hfin : ∀ s : St, (finish s).freed = (finish s).answer.isSome := by
    intro s; simp only [finish]; split <;> rfl
  cases hr : (mem.response && mem.init) with
  | false => simp [serve, hr]
  | true =>
    simp only [serve, hr, if_true, Bool.not_true, Bool.or_false]
    split <;> exact hfin _

/-- The hypotheses of the theorems hold for a filter in front of a page, with a copy of the body that fails. -/
example : ∀ cb, cb ∈ [filterCb, pageCb] ∨ (none : Option Cb) = some cb → ∀ r : Resp,
    (r.headers.isSome = true → (cb r).2.headers.isSome = true) ∧ (cb r).1 ≠ .unauthorized := by
  intro cb h r
  simp only [List.mem_cons, List.not_mem_nil, or_false, reduceCtorEq] at h
  rcases h with rfl | rfl
  · exact ⟨id, by simp [filterCb]⟩
  · exact ⟨id, by simp [pageCb]⟩

/-- And the answers are those of the theorem: the page, an error, none. -/
example :
    serve {} policy none [filterCb, pageCb] none = ⟨some ⟨200, none, policy ++ [(b!"Set-Cookie", b!"sid=1")], b!"page"⟩, true, 0⟩ ∧
    (serve { body := fun _ => false, text := fun _ => false } policy none [filterCb, pageCb] none).answer = some ⟨500, none, [], errorText⟩ ∧
    (serve { body := fun _ => false, text := fun _ => false, page := fun _ => false } policy none [filterCb, pageCb] none).answer = none ∧
    (serve { init := false } policy none [filterCb, pageCb] none).answer = none ∧
    (serve {} policy none [filterCb] (some fun r => (.other, r))).answer = none ∧
    (serve {} policy none [filterCb] (some fun r => (.error, r))).answer = some ⟨500, none, [], errorText⟩ := by
  refine ⟨by decide +kernel, by decide +kernel, by decide +kernel, by decide +kernel, by decide +kernel, by decide +kernel⟩

end Verif.Props
