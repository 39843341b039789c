import Verif.Props.Answer
import Verif.Props.Routing
/-!
# C169: a callback that checks a request guards the endpoints behind it

Full statement: if for every request that an endpoint is meant for there is an endpoint with a smaller priority number (or the same one) whose
callback refuses the request, then the callback of the first one is never called for that request, and the client gets the refusal.
-/
namespace Verif.Props
open Verif.Message Verif.Answer Verif.Endpoint
open Verif.Spec.Routing

variable {σ : Type}

/-- The endpoint `g` stands before `e` for this request and its callback ends it: it never lets the next one be called. -/
def Guards (method url : Bytes) (cb : Endpoint → Callback σ) (g e : Endpoint) : Prop :=
  Handles method url g ∧ g.priority < e.priority ∧ ∀ pos w, (cb g pos w).1 ≠ 0 ∧ (cb g pos w).1 ≠ 1

/-- In a list in the order of priorities, a guard stands before what it guards. -/
private theorem guard_before {r : List Endpoint} (hs : r.Pairwise (fun a b => a.priority ≤ b.priority)) {g : Endpoint} (hg : g ∈ r) {i : Nat}
    {e : Endpoint} (he : r[i]? = some e) (hlt : g.priority < e.priority) : ∃ j, ∃ h : j < r.length, j < i ∧ r[j] = g := by
  obtain ⟨j, hj, e1⟩ := List.mem_iff_getElem.1 hg
  refine ⟨j, hj, ?_, e1⟩
  obtain ⟨hi, e2⟩ := List.getElem?_eq_some_iff.1 he
  rcases Nat.lt_trichotomy j i with h | h | h
  · exact h
  · subst h
    rw [e1] at e2
    subst e2
    omega
  · have := List.pairwise_iff_getElem.1 hs i j hi hj h
    rw [e1, e2] at this
    omega

/-- **C169, partial: no call.** Endpoints are registered in any order, with any callbacks. If each protected endpoint meant for the request has a
guard, then no protected callback is called, whatever the other callbacks do and whatever order endpoints of equal priority get.
Missing: a guard of the same priority (`C169_equal_false`). -/
theorem C169_guard_partial {method url : Bytes} {l rest : List Endpoint} {z : Endpoint} (hz : Null z) (hl : ∀ e ∈ l, e.method.isSome)
    {r : List Endpoint} (hr : EndpointMatch method url (l ++ z :: rest) r) (cfg : Cfg σ) (cb : Endpoint → Callback σ) (dflt : Option (Callback σ))
    (user : σ) (P : Endpoint → Prop) (hg : ∀ e ∈ l, P e → Handles method url e → ∃ g ∈ l, Guards method url cb g e)
    {a : Option Ans} {tr : List (Ev σ)} (h : dispatch cfg (r.map cb) dflt user = .ok (a, tr)) :
    ∀ ev ∈ tr, ∀ i e, ev.who = .ep i → r[i]? = some e → ¬ P e := by
  obtain ⟨-, hsel⟩ := C19_selection method url l rest z hz hl
  obtain ⟨c1, c2, c3⟩ := hsel r hr
  intro ev hev i e hw he hP
  have her : e ∈ r := List.mem_of_getElem? he
  have hh : Handles method url e := by
    rcases Classical.em (Handles method url e) with h | h
    · exact h
    · exact absurd her (c2 e h)
  have hmem : ∀ x, Handles method url x → (x ∈ l ↔ x ∈ r) := by
    intro x hx
    rw [← List.count_pos_iff, ← List.count_pos_iff, c1 x hx]
  obtain ⟨g, hgl, g1, g2, g3⟩ := hg e ((hmem e hh).2 her) hP hh
  obtain ⟨j, hj, hji, e1⟩ := guard_before c3 ((hmem g g1).1 hgl) he g2
  have hne : r.map cb ≠ [] := by
    intro h0
    rw [List.map_eq_nil_iff] at h0
    rw [h0] at her
    cases her
  obtain ⟨t, extra, t1, t2, t3, t4, t5, -, t6⟩ := C24_chain_answer cfg (r.map cb) hne dflt user a tr h
  rw [t1, List.mem_append] at hev
  rcases hev with hev | hev
  · obtain ⟨k, hk, ek⟩ := List.mem_iff_getElem.1 hev
    have hk' : k < (r.map cb).length := by omega
    have hwk := (t4 k hk hk').1
    rw [ek, hw] at hwk
    injection hwk with hwk
    subst hwk
    have hjt : j + 1 < t.length := by omega
    have hj' : j < (r.map cb).length := by simpa using hj
    have hc := (t4 j (by omega) hj').2
    have hret := (t5 j hjt).2.1
    rw [List.getElem_map, e1] at hc
    have := g3 t[j].pos t[j].before
    rw [← hc] at this
    omega
  · rcases t6 with t6 | ⟨x, t6, t7, -⟩
    · rw [t6] at hev; cases hev
    · rw [t6, List.mem_singleton] at hev
      subst hev
      rw [t7] at hw
      cases hw

/-- A callback that does nothing to the response but to let the next one be called or to refuse the request. -/
def RefusesOrGoesOn (refuse : Response) (cb : Callback σ) : Prop :=
  ∀ pos w, ((cb pos w).1 = 0 ∨ (cb pos w).1 = 1) ∧ (cb pos w).2.resp.stream = none ∧ (cb pos w).2.ws = false ∨
    (cb pos w).1 = 3 ∧ (cb pos w).2.resp = refuse ∧ (cb pos w).2.ws = false

/-- **C169, partial: the refusal.** If moreover something protected is selected, and every other callback selected either lets the next one be called or
refuses the request with 401 and this response, then the client gets 401 with the lines and the body of this response and the realm of the response or
else of the instance; the default endpoint is not called.
Missing: callbacks that install a stream or a websocket before the refusal, and lines libmicrohttpd does not take (C98). -/
theorem C169_refusal_partial {method url : Bytes} {l rest : List Endpoint} {z : Endpoint} (hz : Null z) (hl : ∀ e ∈ l, e.method.isSome)
    {r : List Endpoint} (hr : EndpointMatch method url (l ++ z :: rest) r) (cfg : Cfg σ) (hd : ∀ d, cfg.defaults = some d → ∃ ps, HoldsParams d ps)
    (cb : Endpoint → Callback σ) (hk : ∀ e ∈ r, Keeps (cb e)) (dflt : Option (Callback σ)) (hkd : ∀ d, dflt = some d → Keeps d) (user : σ)
    (P : Endpoint → Prop) (hg : ∀ e ∈ l, P e → Handles method url e → ∃ g ∈ l, Guards method url cb g e) {e : Endpoint} (he : e ∈ l) (hP : P e)
    (hh : Handles method url e) {refuse : Response} {hs cs body} (hrf : HoldsResp refuse hs cs body) (hst : refuse.stream = none)
    (hm : ∀ x ∈ r, ¬ P x → RefusesOrGoesOn refuse (cb x)) (ht : Takes cfg.accept [] (linesOf hs cs)) :
    ∃ realm tr, dispatch cfg (r.map cb) dflt user = .ok (some ⟨401, realm, linesOf hs cs, .buffer body⟩, tr) ∧
      (∀ x, refuse.realm = some x → realm = some x) ∧ (refuse.realm = none → realm = cfg.realm) ∧ ∀ ev ∈ tr, ev.who ≠ .dflt := by
  obtain ⟨a, tr, h1, -, h2⟩ := C97_answer_partial cfg (r.map cb) dflt user hd
    (by intro c hc; obtain ⟨x, hx, rfl⟩ := List.mem_map.1 hc; exact hk x hx) hkd
  have hno := C169_guard_partial hz hl hr cfg cb dflt user P hg h1
  obtain ⟨-, hsel⟩ := C19_selection method url l rest z hz hl
  obtain ⟨c1, c2, c3⟩ := hsel r hr
  have her : e ∈ r := by
    rw [← List.count_pos_iff, c1 e hh, List.count_pos_iff]
    exact he
  have hne : r.map cb ≠ [] := by
    intro h0
    rw [List.map_eq_nil_iff] at h0
    rw [h0] at her
    cases her
  obtain ⟨t, extra, t1, t2, t3, t4, t5, t6, t7⟩ := C24_chain_answer cfg (r.map cb) hne dflt user a tr h1
  have hnot : ∀ k (hk : k < t.length) (hk' : k < r.length), ¬ P r[k] := by
    intro k hk hk'
    have hw := (t4 k hk (by simpa using hk')).1
    exact hno t[k] (by rw [t1]; exact List.mem_append.2 (.inl (List.getElem_mem hk))) k r[k] hw (List.getElem?_eq_getElem hk')
  have hcase : ∀ k (hk : k < t.length), ((t[k].ret = 0 ∨ t[k].ret = 1) ∧ t[k].after.resp.stream = none ∧ t[k].after.ws = false ∨
      t[k].ret = 3 ∧ t[k].after.resp = refuse ∧ t[k].after.ws = false) := by
    intro k hk
    have hk' : k < r.length := by rw [List.length_map] at t3; omega
    have hc := (t4 k hk (by simpa using hk')).2
    rw [List.getElem_map] at hc
    have := hm r[k] (List.getElem_mem hk') (hnot k hk hk') t[k].pos t[k].before
    rw [← hc] at this
    exact this
  -- the chain did not reach its end
  obtain ⟨i, hi, ei⟩ := List.mem_iff_getElem.1 her
  have hlen : t.length ≠ (r.map cb).length := by
    intro hl
    rw [List.length_map] at hl
    exact hnot i (by omega) hi (ei ▸ hP)
  have hlast : ∃ x, t.getLast? = some x ∧ ¬ ((x.ret = 0 ∨ x.ret = 1) ∧ x.after.resp.stream = none ∧ x.after.ws = false) := by
    rcases t6 with t6 | t6
    · exact absurd t6 hlen
    · exact t6
  obtain ⟨x, x1, x2⟩ := hlast
  have hx3 : x.ret = 3 ∧ x.after.resp = refuse ∧ x.after.ws = false := by
    rw [List.getLast?_eq_getElem?] at x1
    obtain ⟨hi, e2⟩ := List.getElem?_eq_some_iff.1 x1
    have := hcase _ hi
    rw [e2] at this
    rcases this with h | h
    · exact absurd h x2
    · exact h
  have hex : extra = [] := by
    rcases t7 with t7 | ⟨y, -, -, t7⟩
    · exact t7
    · have := t7 x (List.mem_of_getLast? x1)
      rw [hx3.1] at this
      cases this
  subst hex
  rw [List.append_nil] at t1
  subst t1
  obtain ⟨y, y1, -, y2⟩ := h2 (fun h => hne h.1)
  rw [x1] at y1
  injection y1 with y1
  subst y1
  have hwho : ∀ ev ∈ tr, ev.who ≠ .dflt := by
    intro ev hev
    obtain ⟨k, hk, rfl⟩ := List.mem_iff_getElem.1 hev
    rw [(t4 k hk (by omega)).1]
    exact fun h => by cases h
  have hall : ∀ ev ∈ tr, ev.after.resp.stream = none ∧ ev.after.ws = false := by
    intro ev hev
    obtain ⟨k, hk, rfl⟩ := List.mem_iff_getElem.1 hev
    rcases hcase k hk with h | h
    · exact h.2
    · rw [h.2.1]; exact ⟨hst, h.2.2⟩
  obtain ⟨-, y3, -⟩ := y2 hs cs body (hx3.2.1 ▸ hrf) hall (fun h => absurd h (hwho x (List.mem_of_getLast? x1)))
  obtain ⟨realm, z1, z2, z3⟩ := y3 hx3.1 ht
  rw [hx3.2.1] at z2 z3
  exact ⟨realm, tr, by rw [h1, z1], z2, z3, hwho⟩

/-! ## What is missing -/

private def gate (p : Nat) (method : Bytes) : Endpoint := ⟨some method, some b!"/auth", some b!"*", p, some 0, 0⟩
private def goods (p : Nat) : Endpoint := ⟨some b!"*", some b!"/auth", some b!"data", p, some 1, 0⟩

/-- A callback that refuses, and one that gives what is protected. -/
private def either (e : Endpoint) : Callback Unit := fun _ w =>
  if e.callback = some 0 then (3, { w with resp := (setStringBody w.resp 401 (some b!"no")).2 })
  else (2, { w with resp := (setStringBody w.resp 200 (some b!"secret")).2 })

private def openCfg : Cfg Unit := { accept := fun _ _ _ => true, hand := fun _ => .failed, realm := some b!"r", defaults := none }

/-- A guard for every method protects the data. -/
example : Guards b!"POST" b!"/auth/data" either (gate 1 b!"*") (goods 2) ∧ Handles b!"POST" b!"/auth/data" (goods 2) ∧
    EndpointMatch b!"POST" b!"/auth/data" ([goods 2, gate 1 b!"*"] ++ emptyEndpoint :: []) [gate 1 b!"*", goods 2] ∧
    (∃ tr, dispatch openCfg ([gate 1 b!"*", goods 2].map either) none () = .ok (some ⟨401, some b!"r", [], .buffer b!"no"⟩, tr)) := by
  have h : ∀ p f, Matches (formatSegments (some b!"/auth") (some f)) (Spec.Segments.segments b!"/auth/data") →
      Handles b!"POST" b!"/auth/data" ⟨some b!"*", some b!"/auth", some f, p, some 0, 0⟩ ∧
      Handles b!"POST" b!"/auth/data" ⟨some b!"*", some b!"/auth", some f, p, some 1, 0⟩ := fun p f hm =>
    ⟨⟨⟨_, rfl, .inr ⟨[], rfl⟩⟩, hm⟩, ⟨⟨_, rfl, .inr ⟨[], rfl⟩⟩, hm⟩⟩
  refine ⟨⟨(h 1 b!"*" ?_).1, by decide, fun _ _ => by simp [either, gate]⟩, (h 2 b!"data" ?_).2, ?_, _, rfl⟩
  · rw [← C17_format_match]; decide +kernel
  · rw [← C17_format_match]; decide +kernel
  · exact ⟨[goods 2, gate 1 b!"*"], by decide +kernel, List.Perm.swap _ _ _, by decide⟩

/-- **C169, false with equal priorities.** When the guard has the same priority as what it guards, `qsort` may put it last: the client
gets the data without any check. -/
theorem C169_equal_false :
    ∃ r, EndpointMatch b!"GET" b!"/auth/data" [gate 1 b!"GET", goods 1, emptyEndpoint] r ∧
      ∃ tr, dispatch openCfg (r.map either) none () = .ok (some ⟨200, none, [], .buffer b!"secret"⟩, tr) :=
  ⟨[goods 1, gate 1 b!"GET"], ⟨[gate 1 b!"GET", goods 1], by decide +kernel, List.Perm.swap _ _ _, by decide⟩, _, rfl⟩

/-- **C169, false with a stream.** A callback before the guard that installs a stream ends the chain: the guard is not called, the client gets 200. The
data behind the guard are not reached either. -/
theorem C169_stream_false :
    ∃ tr, dispatch openCfg [fun _ w => (0, { w with resp := { w.resp with stream := some (5, 64, 0) } }), either (gate 1 b!"GET")] none () =
      .ok (some ⟨200, none, [], .stream (5, 64, 0)⟩, tr) ∧ tr.length = 1 := ⟨_, rfl, rfl⟩

end Verif.Props
