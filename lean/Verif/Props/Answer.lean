import Verif.Lemmas.AnswerDispatch
import Verif.Props.Client
import Verif.Props.Dispatch
/-!
# What the client is answered (C97–C101)
-/
namespace Verif.Props
open Verif.UMap Verif.Message Verif.Answer
open Verif.Dispatch (Who)

variable {σ : Type}

/-- What an observer reads off a response: the headers in order (a header may have a NULL value), the texts of the
cookies in order (`C32_set_cookie_partial` says what such a text shows), the body. -/
def HoldsResp (r : Response) (hs : List (Bytes × Option Bytes)) (cs : List Bytes) (body : Bytes) : Prop :=
  HoldsParams r.header hs ∧ r.cookies.map cookieHeader = cs.map Res.ok ∧ bodyOf r.body r.bodyLen = body ∧
  ∀ b, r.body = some b → r.bodyLen ≤ b.length

/-- The header lines to send: one per header with a value, then one Set-Cookie line per cookie. -/
def linesOf (hs : List (Bytes × Option Bytes)) (cs : List Bytes) : List Field :=
  hs.filterMap (fun h => h.2.map (fun v => (h.1, v))) ++ cs.map (fun c => (b!"Set-Cookie", c))

/-- libmicrohttpd takes these lines, one after the other, after the lines `base`. -/
def Takes (accept : List Field → Bytes → Bytes → Bool) (base l : List Field) : Prop :=
  ∀ a f b, l = a ++ f :: b → accept (base ++ a) f.1 f.2 = true

/-- The callback leaves a response that can be read when it finds one, as all functions of the API do. -/
def Keeps (cb : Callback σ) : Prop :=
  ∀ pos w, (∃ hs cs body, HoldsResp w.resp hs cs body) → ∃ hs cs body, HoldsResp (cb pos w).2.resp hs cs body

private theorem addHeaders_eq (accept : List Field → Bytes → Bytes → Bool) (m : UMap) (hs : List (Bytes × Option Bytes))
    (h : ∀ p ∈ hs, getStr m p.1 = .ok p.2) (fs : List Field) :
    addHeaders accept m (hs.map (·.1)) fs = .ok (sendAll accept (hs.filterMap (fun h => h.2.map (fun v => (h.1, v)))) fs) := by
  induction hs generalizing fs with
  | nil => rfl
  | cons p t ih =>
    have h0 : getStr m p.1 = .ok p.2 := h p (by simp)
    have ht := fun fs => ih (fun q hq => h q (by simp [hq])) fs
    simp only [List.map_cons, addHeaders]
    unfold getStr at h0
    cases hg : UMap.get m (some p.1) with
    | ub => rw [hg] at h0; cases h0
    | ok o =>
      rw [hg] at h0
      simp only [Res.ok_bind] at h0 ⊢
      cases o with
      | none =>
        simp only [Res.ok.injEq] at h0
        simp only [List.filterMap_cons, ← h0, Option.map_none]
        exact ht fs
      | some b =>
        simp only at h0 ⊢
        cases hr : readStr b with
        | ub => rw [hr] at h0; cases h0
        | ok v =>
          rw [hr] at h0
          simp only [Res.ok_bind, Res.ok.injEq] at h0 ⊢
          simp only [List.filterMap_cons, ← h0, Option.map_some, sendAll]
          by_cases ha : accept fs p.1 v = true
          · simp only [ha, if_true]; exact ht _
          · simp [ha]

private theorem setCookies_eq (accept : List Field → Bytes → Bytes → Bool) (cks : List Cookie) (cs : List Bytes)
    (h : cks.map cookieHeader = cs.map Res.ok) (fs : List Field) :
    setCookies accept cks fs = .ok (sendAll accept (cs.map (fun c => (b!"Set-Cookie", c))) fs) := by
  induction cks generalizing cs fs with
  | nil => cases cs with
    | nil => rfl
    | cons _ _ => simp at h
  | cons c t ih =>
    cases cs with
    | nil => simp at h
    | cons x cs =>
      simp only [List.map_cons, List.cons.injEq] at h
      simp only [setCookies, h.1, Res.ok_bind, List.map_cons, sendAll]
      by_cases ha : accept fs b!"Set-Cookie" x = true
      · simp only [ha, if_true]; exact ih cs h.2 _
      · simp [ha]

private theorem fill_eq (accept : List Field → Bytes → Bytes → Bool) (r : Response) {hs cs body} (h : HoldsResp r hs cs body) (m : Msg) :
    fill accept r m = .ok ((sendAll accept (linesOf hs cs) m.fields).1,
      { m with fields := (sendAll accept (linesOf hs cs) m.fields).2 }) := by
  unfold fill setHeaders
  rw [h.1.2.1]
  simp only [Res.ok_bind]
  rw [addHeaders_eq accept r.header hs (fun p hp => (h.1.2.2 p hp).1), linesOf, sendAll_append]
  simp only [Res.ok_bind]
  rw [setCookies_eq accept _ cs h.2.1]
  cases he : (sendAll accept (hs.filterMap fun h => h.2.map fun v => (h.1, v)) m.fields).1
  · simp [pure, he]
  · simp [pure]

private theorem getBody_eq (r : Response) {hs cs body} (h : HoldsResp r hs cs body) : getBody r = .ok body := by
  obtain ⟨-, -, h3, h4⟩ := h
  unfold getBody
  unfold bodyOf at h3
  cases hb : r.body with
  | none => rw [hb] at h3; simp at h3; rw [h3]
  | some b =>
    rw [hb] at h3
    simp only [Option.getD_some] at h3
    have := h4 b hb
    simp only [this, if_true]
    by_cases h0 : 0 < r.bodyLen
    · simp [h0, h3]
    · have : r.bodyLen = 0 := by omega
      rw [this] at h3
      simp at h3
      simp [this, h3]


private abbrev sentOf (cfg : Cfg σ) (base : List Field) (hs : List (Bytes × Option Bytes)) (cs : List Bytes) : Bool × List Field :=
  sendAll cfg.accept (linesOf hs cs) base

private theorem stream_eq (cfg : Cfg σ) (c) (s : St σ) {hs cs body} (h : HoldsResp s.w.resp hs cs body)
    (hb : 0 < c.2.1) : stream cfg c s = .ok { s with resp := some ⟨(sentOf cfg [] hs cs).2, .stream c⟩ } := by
  have : c.2.1 ≠ 0 := by omega
  simp only [stream, if_neg this, fill_eq cfg.accept _ h, Res.ok_bind, pure]

private theorem complete_eq (cfg : Cfg σ) (s : St σ) {hs cs body} (h : HoldsResp s.w.resp hs cs body) :
    complete cfg s = .ok { s with resp := some ⟨(sentOf cfg [] hs cs).2, .buffer body⟩ } := by
  simp only [complete, getBody_eq _ h, fill_eq cfg.accept _ h, Res.ok_bind, pure]

/-- the realm used -/
private def realmOf (a b : Option Bytes) : Option Bytes := match a with
  | some r => some r
  | none => b

private theorem unauthorized_eq (cfg : Cfg σ) (s : St σ) (hr : s.realm = none) {hs cs body} (h : HoldsResp s.w.resp hs cs body) :
    ∃ w, w.resp.status = 500 ∧ unauthorized cfg s = .ok { s with
      w := if (sentOf cfg [] hs cs).1 then s.w else w
      resp := some ⟨(sentOf cfg [] hs cs).2, .buffer body⟩
      unauth := if (sentOf cfg [] hs cs).1 then true else s.unauth
      realm := realmOf s.w.resp.realm cfg.realm } := by
  refine ⟨{ s.w with resp :=
      { s.w.resp with status := 500, body := some (errorBody ++ [0]), bodyLen := errorBody.length } }, rfl, ?_⟩
  simp only [unauthorized, getBody_eq _ h, fill_eq cfg.accept _ h, Res.ok_bind, pure]
  obtain ⟨w, pos, trace, resp, unauth, realm, upgrade⟩ := s
  subst hr
  cases hb : (sendAll cfg.accept (linesOf hs cs) []).1 <;> cases hw : w.resp.realm <;> cases hc : cfg.realm <;>
    simp [realmOf, hw]

private theorem websocket_eq (cfg : Cfg σ) (s : St σ) {hs cs body} (h : HoldsResp s.w.resp hs cs body) :
    ∃ s', websocket cfg s = .ok s' ∧ s'.trace = s.trace ∧ s'.pos = s.pos ∧ s'.unauth = s.unauth ∧ s'.realm = s.realm ∧
      (s'.w.resp = s.w.resp ∨ ∃ n, s'.w.resp = { s.w.resp with status := n }) ∧
      ∀ fs, cfg.hand s.w = .accepted fs → s'.w = s.w ∧ s'.resp = some ⟨(sentOf cfg fs hs cs).2, .upgrade⟩ ∧
        s'.upgrade = ((sentOf cfg fs hs cs).1 || s.upgrade) := by
  unfold websocket
  cases hh : cfg.hand s.w with
  | accepted fs =>
    simp only [fill_eq cfg.accept _ h, Res.ok_bind, pure]
    cases hb : (sendAll cfg.accept (linesOf hs cs) fs).1
    · refine ⟨_, rfl, rfl, rfl, rfl, rfl, Or.inl rfl, ?_⟩
      intro fs' e; cases e
      exact ⟨rfl, rfl, by simp [sentOf, hb]⟩
    · refine ⟨_, rfl, rfl, rfl, rfl, rfl, Or.inl rfl, ?_⟩
      intro fs' e; cases e
      exact ⟨rfl, rfl, by simp [sentOf, hb]⟩
  | refused text => exact ⟨_, rfl, rfl, rfl, rfl, rfl, Or.inr ⟨400, rfl⟩, fun _ e => by cases e⟩
  | failed => exact ⟨_, rfl, rfl, rfl, rfl, rfl, Or.inr ⟨500, rfl⟩, fun _ e => by cases e⟩

/-- state at the end of the loop, before the branch on the last call -/
private abbrev stAt (e : Ev σ) (tr : List (Ev σ)) : St σ := ⟨e.after, counted tr, tr, none, false, none, false⟩

/-- the end of the fallback call -/
private def finishFb (cfg : Cfg σ) (ret : Int) (s : St σ) : Res (St σ) :=
  if ret = 3 then unauthorized cfg s
  else if ret = 4 then .ok (error500 s)
  else if ret = 0 ∨ ret = 1 ∨ ret = 2 then complete cfg s
  else .ok s

private theorem holds_status {r : Response} {hs cs body} (h : HoldsResp r hs cs body) (n : Nat) :
    HoldsResp { r with status := n } hs cs body := h

private theorem finish_ok (cfg : Cfg σ) (e : Ev σ) (tr : List (Ev σ)) {hs cs body} (h : HoldsResp e.after.resp hs cs body) :
    ∃ s, finish cfg e (stAt e tr) = .ok s ∧ s.trace = tr ∧ s.pos = counted tr ∧
      (e.ret = 1 → s.unauth = false ∧ s.realm = none ∧ s.w.resp.header = e.after.resp.header ∧
        (∃ hs cs body, HoldsResp s.w.resp hs cs body) ∧ (e.after.ws = false → s.w = e.after ∧ s.upgrade = false)) := by
  unfold finish
  cases hs' : e.after.resp.stream with
  | some c =>
    simp only
    by_cases hb : c.2.1 = 0
    · rw [stream, if_pos hb]
      exact ⟨_, rfl, rfl, rfl, fun _ => ⟨rfl, rfl, rfl, ⟨_, _, _, h⟩, fun _ => ⟨rfl, rfl⟩⟩⟩
    rw [stream_eq cfg c (stAt e tr) h (by omega)]
    exact ⟨_, rfl, rfl, rfl, fun _ => ⟨rfl, rfl, rfl, ⟨_, _, _, h⟩, fun _ => ⟨rfl, rfl⟩⟩⟩
  | none =>
    by_cases hw : e.after.ws = true
    · simp only [hw, if_true]
      obtain ⟨s', h1, h2, h3, h4, h5, h6, -⟩ := websocket_eq cfg (stAt e tr) h
      refine ⟨s', h1, h2, h3, fun _ => ⟨h4, h5, by rcases h6 with h6 | ⟨n, h6⟩ <;> rw [h6], ?_, fun h => absurd h (by simp)⟩⟩
      rcases h6 with h6 | ⟨n, h6⟩
      · exact ⟨_, _, _, h6 ▸ h⟩
      · exact ⟨_, _, _, h6 ▸ holds_status h n⟩
    · simp only [hw]
      by_cases h012 : e.ret = 0 ∨ e.ret = 1 ∨ e.ret = 2
      · simp only [h012, if_true]
        rw [complete_eq cfg (stAt e tr) h]
        exact ⟨_, rfl, rfl, rfl, fun _ => ⟨rfl, rfl, rfl, ⟨_, _, _, h⟩, fun _ => ⟨rfl, rfl⟩⟩⟩
      · simp only [h012, if_false]
        by_cases h3 : e.ret = 3
        · simp only [h3, if_true]
          obtain ⟨w, -, hu⟩ := unauthorized_eq cfg (stAt e tr) rfl h
          exact ⟨_, hu, rfl, rfl, fun h => by simp at h⟩
        · simp only [h3, if_false]
          exact ⟨_, rfl, rfl, rfl, fun h => absurd (Or.inr (Or.inl h)) h012⟩

private theorem finishFb_ok (cfg : Cfg σ) (ret : Int) (s : St σ) (hr : s.realm = none) {hs cs body} (h : HoldsResp s.w.resp hs cs body) :
    ∃ s', finishFb cfg ret s = .ok s' ∧ s'.trace = s.trace := by
  unfold finishFb
  split
  · obtain ⟨w, -, hu⟩ := unauthorized_eq cfg s hr h
    exact ⟨_, hu, rfl⟩
  · split
    · exact ⟨_, rfl, rfl⟩
    · split
      · exact ⟨_, complete_eq cfg s h, rfl⟩
      · exact ⟨_, rfl, rfl⟩

private theorem counted_zero {t : List (Ev σ)} (h : counted t = 0) : ∀ x ∈ t, x.ret = 1 := by
  intro x hx
  have := List.countP_eq_zero.1 h x hx
  simpa using this

private theorem fallback_none (cfg : Cfg σ) (s : St σ) (dflt : Option (Callback σ)) (h : dflt = none ∨ s.pos ≠ 0) :
    fallback cfg dflt s = .ok s := by
  unfold fallback
  cases dflt with
  | none => rfl
  | some d => rcases h with h | h
              · cases h
              · simp [h]

private theorem fallback_some (cfg : Cfg σ) (s : St σ) (d : Callback σ) (h : s.pos = 0) :
    fallback cfg (some d) s = finishFb cfg (d 0 s.w).1 { s with
      w := (d 0 s.w).2, resp := none,
      trace := s.trace ++ [⟨.dflt, 0, s.w, (d 0 s.w).1, (d 0 s.w).2⟩] } := by
  unfold fallback finishFb
  simp only [h, Dispatch.cbUnauthorized, Dispatch.cbError, Dispatch.cbContinue, Dispatch.cbIgnore, Dispatch.cbComplete,
    beq_self_eq_true, if_true, beq_iff_eq, Bool.or_eq_true, or_assoc]

/-- Everything about a run: the loop, then possibly the fallback. -/
private theorem dispatch_cases (cfg : Cfg σ) (eps : List (Callback σ)) (dflt : Option (Callback σ)) (user : σ)
    (hd : ∀ d, cfg.defaults = some d → ∃ ps, HoldsParams d ps)
    (hk : ∀ cb ∈ eps, Keeps cb) (hkd : ∀ d, dflt = some d → Keeps d) (hne : ¬ (eps = [] ∧ dflt = none)) :
    ∃ t e, (∀ x ∈ t ++ [e], ∃ hs cs body, HoldsResp x.after.resp hs cs body) ∧
      ((eps ≠ [] → ∀ x ∈ t ++ [e], x.who ≠ .dflt) ∧ (eps = [] → t = [])) ∧
      (∀ H, initHeaders cfg.defaults = .ok H → (∀ cb ∈ eps, ∀ p w, (cb p w).2.resp.header = w.resp.header) →
        (∀ d, dflt = some d → ∀ p w, (d p w).2.resp.header = w.resp.header) → ∀ x ∈ t ++ [e], x.after.resp.header = H) ∧
      (((dflt = none ∨ counted (t ++ [e]) ≠ 0) ∧ ∃ s, finish cfg e (stAt e (t ++ [e])) = .ok s ∧
          dispatch cfg eps dflt user = .ok (answer s, t ++ [e])) ∨
       ∃ d s s', dflt = some d ∧ (∀ x ∈ t ++ [e], x.ret = 1) ∧ finish cfg e (stAt e (t ++ [e])) = .ok s ∧
          s.w.resp.header = e.after.resp.header ∧
          s.unauth = false ∧ s.realm = none ∧ (e.after.ws = false → s.w = e.after ∧ s.upgrade = false) ∧
          (∃ hs cs body, HoldsResp (d 0 s.w).2.resp hs cs body) ∧
          finishFb cfg (d 0 s.w).1 { s with
            w := (d 0 s.w).2, resp := none,
            trace := t ++ [e] ++ [⟨.dflt, 0, s.w, (d 0 s.w).1, (d 0 s.w).2⟩] } = .ok s' ∧
          dispatch cfg eps dflt user = .ok (answer s', t ++ [e] ++ [⟨.dflt, 0, s.w, (d 0 s.w).1, (d 0 s.w).2⟩])) := by
  obtain ⟨list, hlist, hl, hwho⟩ : ∃ list : List (Who × Callback σ),
      (match eps, dflt with
        | [], some d => [(Who.dflt, d)]
        | eps, _ => number 0 eps) = list ∧ list ≠ [] ∧
      ((∀ x ∈ list, x.2 ∈ eps ∨ dflt = some x.2) ∧ (eps ≠ [] → ∀ x ∈ list, x.1 ≠ .dflt) ∧ (eps = [] → list.length = 1)) := by
    cases eps with
    | nil =>
      cases dflt with
      | none => exact absurd ⟨rfl, rfl⟩ hne
      | some d => exact ⟨_, rfl, by simp, by simp, by simp, by simp⟩
    | cons cb t =>
      refine ⟨_, rfl, by simp [number], ?_, ?_, by simp⟩
      · intro x hx
        obtain ⟨j, -, h⟩ := number_ep 0 (cb :: t) x (by cases dflt <;> exact hx)
        exact Or.inl h
      · intro _ x hx
        obtain ⟨j, h, -⟩ := number_ep 0 (cb :: t) x (by cases dflt <;> exact hx)
        rw [h]; simp
  obtain ⟨hmem, hw1, hw2⟩ := hwho
  have hkl : ∀ x ∈ list, Keeps x.2 := fun x hx => (hmem x hx).elim (hk _) (hkd _)
  obtain ⟨h0, hh0, hp0⟩ : ∃ h, initHeaders cfg.defaults = .ok h ∧ ∃ ps, HoldsParams h ps := by
    unfold initHeaders
    cases hdf : cfg.defaults with
    | none => exact ⟨_, rfl, [], .init, by decide, by simp⟩
    | some d =>
      simp only
      split
      · obtain ⟨ps, hps⟩ := hd d hdf
        rw [C13_copy_exact d hps.1]
        exact ⟨d, rfl, ps, hps⟩
      · exact ⟨_, rfl, [], .init, by decide, by simp⟩
  obtain ⟨ps, hps⟩ := hp0
  let w0 : World σ := ⟨{ header := h0 }, false, user⟩
  have hw0 : ∃ hs cs body, HoldsResp w0.resp hs cs body := ⟨ps, [], [], hps, rfl, rfl, by simp [w0]⟩
  obtain ⟨t, e, hruns, hloop⟩ := loop_runs cfg list hl ⟨w0, 0, [], none, false, none, false⟩
  have hinv := runs_inv (fun w => ∃ hs cs body, HoldsResp w.resp hs cs body) hruns hw0 (fun x hx p v hv => hkl x hx p v hv)
  have hafter : ∀ x ∈ t ++ [e], ∃ hs cs body, HoldsResp x.after.resp hs cs body := fun x hx => (hinv x hx).2
  obtain ⟨hs, cs, body, hhe⟩ := hafter e (by simp)
  obtain ⟨s, hf, htr, hpos, hret1⟩ := finish_ok cfg e (t ++ [e]) hhe
  have hloop' : loop cfg list ⟨w0, 0, [], none, false, none, false⟩ = .ok s := by
    rw [hloop]
    simp only [Nat.zero_add, List.nil_append]
    exact hf
  have hdisp : dispatch cfg eps dflt user = (fallback cfg dflt s).bind (fun s => .ok (answer s, s.trace)) := by
    have hle : list.isEmpty = false := by cases list with
      | nil => exact absurd rfl hl
      | cons _ _ => rfl
    have : dispatch cfg eps dflt user = if list.isEmpty then
        .ok (some ⟨404, none, [], .buffer notFoundBody⟩, []) else
        (do let h ← initHeaders cfg.defaults
            let s ← loop cfg list ⟨⟨{ header := h }, false, user⟩, 0, [], none, false, none, false⟩
            let s ← fallback cfg dflt s
            return (answer s, s.trace)) := by
      rw [← hlist]
      unfold dispatch
      cases eps <;> cases dflt <;> rfl
    rw [this, hle, hh0]
    simp only [Bool.false_eq_true, if_false, Res.ok_bind]
    show (do let s ← loop cfg list ⟨w0, 0, [], none, false, none, false⟩
             let s ← fallback cfg dflt s
             return (answer s, s.trace)) = _
    rw [hloop']
    rfl
  refine ⟨t, e, hafter, ⟨?_, ?_⟩, ?_, ?_⟩
  · intro hne x hx
    obtain ⟨y, hy, hxy⟩ := runs_who hruns x hx
    rw [hxy]; exact hw1 hne y hy
  · intro he
    have h1 := runs_length hruns
    have h2 := hw2 he
    simp only [List.length_append, List.length_singleton] at h1
    exact List.eq_nil_of_length_eq_zero (by omega)
  · intro H hH hc1 hc2 x hx
    rw [hh0] at hH
    injection hH with hH
    exact (runs_inv (fun w => w.resp.header = H) hruns hH (fun y hy p v hv => by
      rcases hmem y hy with h | h
      · rw [hc1 _ h, hv]
      · rw [hc2 _ h, hv]) x hx).2
  · by_cases hc : dflt = none ∨ counted (t ++ [e]) ≠ 0
    · left
      refine ⟨hc, s, hf, ?_⟩
      rw [hdisp, fallback_none cfg s dflt (by rw [hpos]; exact hc)]
      show Res.ok (answer s, s.trace) = _
      rw [htr]
    · right
      rw [not_or] at hc
      obtain ⟨hc1, hc2⟩ := hc
      have hc2 : counted (t ++ [e]) = 0 := by omega
      cases dflt with
      | none => exact absurd rfl hc1
      | some d =>
        have hall := counted_zero hc2
        obtain ⟨u1, u2, u0, u3, u4⟩ := hret1 (hall e (by simp))
        obtain ⟨hs', cs', body', hh⟩ := hkd d rfl 0 s.w u3
        obtain ⟨s', hs1, hs2⟩ := finishFb_ok cfg (d 0 s.w).1 { s with
            w := (d 0 s.w).2, resp := none,
            trace := t ++ [e] ++ [⟨.dflt, 0, s.w, (d 0 s.w).1, (d 0 s.w).2⟩] } u2 hh
        refine ⟨d, s, s', rfl, hall, hf, u0, u1, u2, u4, ⟨_, _, _, hh⟩, hs1, ?_⟩
        rw [hdisp, fallback_some cfg s d (by rw [hpos, hc2]), htr, hs1]
        show Res.ok (answer s', s'.trace) = _
        rw [hs2]


/-- what a chain without stream and websocket is answered -/
private def ansOf (cfg : Cfg σ) (e : Ev σ) (hs : List (Bytes × Option Bytes)) (cs : List Bytes) (body : Bytes) : Ans :=
  if e.ret = 0 ∨ e.ret = 1 ∨ e.ret = 2 then ⟨e.after.resp.status, none, (sentOf cfg [] hs cs).2, .buffer body⟩
  else if e.ret = 3 then
    (if (sentOf cfg [] hs cs).1 then ⟨401, realmOf e.after.resp.realm cfg.realm, (sentOf cfg [] hs cs).2, .buffer body⟩
     else ⟨500, none, (sentOf cfg [] hs cs).2, .buffer body⟩)
  else ⟨500, none, [], .buffer errorBody⟩

private theorem answer_unauth (cfg : Cfg σ) (s s' : St σ) (hu : s.unauth = false) (hr : s.realm = none) (hg : s.upgrade = false)
    {hs cs body} (h : HoldsResp s.w.resp hs cs body) (he : unauthorized cfg s = .ok s') :
    answer s' = some (if (sentOf cfg [] hs cs).1 then
        ⟨401, realmOf s.w.resp.realm cfg.realm, (sentOf cfg [] hs cs).2, .buffer body⟩
      else ⟨500, none, (sentOf cfg [] hs cs).2, .buffer body⟩) := by
  obtain ⟨w, hw, e⟩ := unauthorized_eq cfg s hr h
  rw [e] at he
  injection he with he
  subst he
  unfold answer
  simp only [hu, hg]
  cases hb : (sentOf cfg [] hs cs).1
  · simp [hw]
  · cases hrr : realmOf s.w.resp.realm cfg.realm <;> simp

private theorem dispatch_plain (cfg : Cfg σ) (eps : List (Callback σ)) (dflt : Option (Callback σ)) (user : σ)
    (hd : ∀ d, cfg.defaults = some d → ∃ ps, HoldsParams d ps)
    (hk : ∀ cb ∈ eps, Keeps cb) (hkd : ∀ d, dflt = some d → Keeps d) (hne : ¬ (eps = [] ∧ dflt = none)) :
    ∃ a tr e, dispatch cfg eps dflt user = .ok (a, tr) ∧ tr.getLast? = some e ∧
      (∃ hs cs body, HoldsResp e.after.resp hs cs body) ∧
      (∀ H, initHeaders cfg.defaults = .ok H → (∀ cb ∈ eps, ∀ p w, (cb p w).2.resp.header = w.resp.header) →
        (∀ d, dflt = some d → ∀ p w, (d p w).2.resp.header = w.resp.header) → e.after.resp.header = H) ∧
      ∀ hs cs body, HoldsResp e.after.resp hs cs body →
        (∀ x ∈ tr, x.after.resp.stream = none ∧ x.after.ws = false) →
        (e.who = .dflt → (0 ≤ e.ret ∧ e.ret ≤ 4) ∨ tr.length = 1) →
        a = some (ansOf cfg e hs cs body) := by
  obtain ⟨t, e, hall, ⟨hwho, hone⟩, hhdr, hcase⟩ := dispatch_cases cfg eps dflt user hd hk hkd hne
  rcases hcase with ⟨hc, s, hf, hdisp⟩ | ⟨d, s, s', rfl, hret, hf, hsh, hu, hr, hws, hdh, hfb, hdisp⟩
  · refine ⟨_, _, e, hdisp, by simp, hall e (by simp), fun H h1 h2 h3 => hhdr H h1 h2 h3 e (by simp), ?_⟩
    intro hs cs body hh hplain _
    obtain ⟨hst, hw⟩ := hplain e (by simp)
    unfold finish at hf
    rw [hst] at hf
    simp only [hw, Bool.false_eq_true, if_false] at hf
    unfold ansOf
    by_cases h012 : e.ret = 0 ∨ e.ret = 1 ∨ e.ret = 2
    · simp only [h012, if_true] at hf ⊢
      rw [complete_eq cfg (stAt e (t ++ [e])) hh] at hf
      injection hf with hf
      subst hf
      simp [answer]
    · simp only [h012, if_false] at hf ⊢
      by_cases h3 : e.ret = 3
      · simp only [h3, if_true] at hf ⊢
        exact answer_unauth cfg (stAt e (t ++ [e])) s rfl rfl rfl hh hf
      · simp only [h3, if_false] at hf ⊢
        injection hf with hf
        subst hf
        simp [answer, error500, bare, St.setStatus]
  · refine ⟨_, _, ⟨.dflt, 0, s.w, (d 0 s.w).1, (d 0 s.w).2⟩, hdisp, by simp, hdh,
      fun H h1 h2 h3 => by rw [← hhdr H h1 h2 h3 e (by simp), ← hsh]; exact h3 d rfl 0 s.w, ?_⟩
    intro hs cs body hh hplain hknown
    obtain ⟨-, hw⟩ := hplain e (by simp)
    obtain ⟨hsw, hup⟩ := hws hw
    have hk4 : 0 ≤ (d 0 s.w).1 ∧ (d 0 s.w).1 ≤ 4 := by
      rcases hknown rfl with h | h
      · exact h
      · simp at h
    simp only at hh
    unfold finishFb at hfb
    unfold ansOf
    by_cases h012 : (d 0 s.w).1 = 0 ∨ (d 0 s.w).1 = 1 ∨ (d 0 s.w).1 = 2
    · have h3 : (d 0 s.w).1 ≠ 3 := by omega
      have h4 : (d 0 s.w).1 ≠ 4 := by omega
      simp only [h3, h4, h012, if_false, if_true] at hfb ⊢
      rw [complete_eq cfg _ hh] at hfb
      injection hfb with hfb
      subst hfb
      simp [answer, hu, hup]
    · simp only [h012, if_false]
      by_cases h3 : (d 0 s.w).1 = 3
      · simp only [h3, if_true] at hfb ⊢
        exact answer_unauth cfg _ s' (by exact hu) (by exact hr) (by exact hup) (by exact hh) hfb
      · have h4 : (d 0 s.w).1 = 4 := by omega
        simp only [h3, h4, if_false, if_true] at hfb ⊢
        injection hfb with hfb
        subst hfb
        simp [answer, error500, bare, St.setStatus, hu, hup]

private theorem takes_all {accept : List Field → Bytes → Bytes → Bool} {base l : List Field} (h : Takes accept base l) :
    sendAll accept l base = (true, base ++ l) := by
  obtain ⟨sent, rest, h1, h2, -, h4⟩ := sendAll_spec accept l base
  cases rest with
  | nil => rw [h2]; simp [h1]
  | cons f t =>
    have := h4 f t rfl
    rw [h sent f t h1] at this
    cases this

/-- The headers of the fresh response are the default headers. -/
theorem init_holds {defaults : Option UMap} {d : UMap} {ps : List (Bytes × Option Bytes)} (hd : defaults = some d)
    (hps : HoldsParams d ps) : ∃ H, initHeaders defaults = .ok H ∧ HoldsParams H ps := by
  unfold initHeaders
  rw [hd]
  simp only
  split
  · rw [C13_copy_exact d hps.1]
    exact ⟨d, rfl, hps⟩
  · rename_i h0
    have hl := holds_nb hps
    have : ps = [] := List.eq_nil_of_length_eq_zero (by simp only [UMap.count] at h0; omega)
    subst this
    exact ⟨_, rfl, .init, by decide, by simp⟩

/-- A chain whose first callback leaves a stream and does not return IGNORE: the answer is the stream, no other callback is called. -/
theorem dispatch_stream (cfg : Cfg σ) (cb : Callback σ) (more : List (Callback σ)) (dflt : Option (Callback σ)) (user : σ) {H : UMap}
    (hH : initHeaders cfg.defaults = .ok H) {ret : Int} {w : World σ} (hcb : cb 0 ⟨{ header := H }, false, user⟩ = (ret, w))
    (hret : ret ≠ 1) {c : Nat × Nat × Nat} (hst : w.resp.stream = some c) (hblock : 0 < c.2.1) {hs cs body} (hr : HoldsResp w.resp hs cs body)
    (ht : Takes cfg.accept [] (linesOf hs cs)) :
    dispatch cfg (cb :: more) dflt user =
      .ok (some ⟨w.resp.status, none, linesOf hs cs, .stream c⟩, [⟨.ep 0, 0, ⟨{ header := H }, false, user⟩, ret, w⟩]) := by
  unfold dispatch
  simp only [number, List.isEmpty_cons, Bool.false_eq_true, if_false, hH, Res.ok_bind, loop, call, hcb, hst]
  rw [stream_eq cfg c _ hr hblock]
  simp only [Res.ok_bind]
  rw [fallback_none]
  · simp only [Res.ok_bind, answer, sentOf, takes_all ht, List.nil_append, Option.isSome_none, Bool.false_and, Bool.false_eq_true,
      if_false, Res.pure_eq]
  · right
    simp [Dispatch.cbIgnore, hret]

/-- A chain of one callback that returns CONTINUE or COMPLETE and leaves neither stream nor websocket: the answer is its response. -/
theorem dispatch_single (cfg : Cfg σ) (cb : Callback σ) (dflt : Option (Callback σ)) (user : σ) {H : UMap}
    (hH : initHeaders cfg.defaults = .ok H) {ret : Int} {w : World σ} (hcb : cb 0 ⟨{ header := H }, false, user⟩ = (ret, w))
    (hret : ret = 0 ∨ ret = 2) (hst : w.resp.stream = none) (hws : w.ws = false) {hs cs body} (hr : HoldsResp w.resp hs cs body)
    (ht : Takes cfg.accept [] (linesOf hs cs)) :
    dispatch cfg [cb] dflt user =
      .ok (some ⟨w.resp.status, none, linesOf hs cs, .buffer body⟩, [⟨.ep 0, 0, ⟨{ header := H }, false, user⟩, ret, w⟩]) := by
  unfold dispatch
  have hne : ret ≠ 1 := by omega
  have hc : (if ((ret == Dispatch.cbContinue || ret == Dispatch.cbIgnore) && (List.isEmpty ([] : List (Who × Callback σ)))) = true
      then Dispatch.cbComplete else ret) = 2 := by
    rcases hret with rfl | rfl <;> rfl
  simp only [number, List.isEmpty_cons, Bool.false_eq_true, if_false, hH, Res.ok_bind, loop, call, hcb, hst, hws]
  rw [hc, if_neg (by decide), if_pos (by decide), complete_eq cfg _ hr]
  simp only [Res.ok_bind]
  rw [fallback_none]
  · simp only [Res.ok_bind, answer, sentOf, takes_all ht, List.nil_append, Option.isSome_none, Bool.false_and, Bool.false_eq_true,
      if_false, Res.pure_eq]
  · right
    simp [Dispatch.cbIgnore, hne]

/-- A chain of one callback that returns IGNORE, without a default endpoint: its response is the answer all the same. -/
theorem dispatch_ignored (cfg : Cfg σ) (cb : Callback σ) (user : σ) {H : UMap}
    (hH : initHeaders cfg.defaults = .ok H) {w : World σ} (hcb : cb 0 ⟨{ header := H }, false, user⟩ = (1, w))
    (hst : w.resp.stream = none) (hws : w.ws = false) {hs cs body} (hr : HoldsResp w.resp hs cs body)
    (ht : Takes cfg.accept [] (linesOf hs cs)) :
    dispatch cfg [cb] none user =
      .ok (some ⟨w.resp.status, none, linesOf hs cs, .buffer body⟩, [⟨.ep 0, 0, ⟨{ header := H }, false, user⟩, 1, w⟩]) := by
  unfold dispatch
  have hc : (if (((1 : Int) == Dispatch.cbContinue || (1 : Int) == Dispatch.cbIgnore) && (List.isEmpty ([] : List (Who × Callback σ)))) = true
      then Dispatch.cbComplete else 1) = 2 := rfl
  simp only [number, List.isEmpty_cons, Bool.false_eq_true, if_false, hH, Res.ok_bind, loop, call, hcb, hst, hws]
  rw [hc, if_neg (by decide), if_pos (by decide), complete_eq cfg _ hr]
  simp only [Res.ok_bind]
  rw [fallback_none _ _ _ (.inl rfl)]
  simp only [Res.ok_bind, answer, sentOf, takes_all ht, List.nil_append, Option.isSome_none, Bool.false_and, Bool.false_eq_true,
    if_false, Res.pure_eq]

/-- A chain of one callback that returns none of the other codes: 500. -/
theorem dispatch_failed (cfg : Cfg σ) (cb : Callback σ) (dflt : Option (Callback σ)) (user : σ) {H : UMap}
    (hH : initHeaders cfg.defaults = .ok H) {ret : Int} {w : World σ} (hcb : cb 0 ⟨{ header := H }, false, user⟩ = (ret, w))
    (hret : ret ≠ 0 ∧ ret ≠ 1 ∧ ret ≠ 2 ∧ ret ≠ 3) (hst : w.resp.stream = none) (hws : w.ws = false) :
    dispatch cfg [cb] dflt user =
      .ok (some ⟨500, none, [], .buffer b!"Server Error"⟩, [⟨.ep 0, 0, ⟨{ header := H }, false, user⟩, ret, w⟩]) := by
  unfold dispatch
  have b0 : (ret == Dispatch.cbContinue) = false := by rw [beq_eq_false_iff_ne]; exact hret.1
  have b1 : (ret == Dispatch.cbIgnore) = false := by rw [beq_eq_false_iff_ne]; exact hret.2.1
  have b2 : (ret == Dispatch.cbComplete) = false := by rw [beq_eq_false_iff_ne]; exact hret.2.2.1
  have b3 : (ret == Dispatch.cbUnauthorized) = false := by rw [beq_eq_false_iff_ne]; exact hret.2.2.2
  simp only [number, List.isEmpty_cons, Bool.false_eq_true, if_false, hH, Res.ok_bind, loop, call, hcb, hst, hws, b0, b1, b2, b3, Bool.or_self,
    Bool.false_and]
  rw [fallback_none]
  · rfl
  · right
    simp [error500, St.setStatus, bne, b1]

/-- Nothing is selected: the default endpoint answers. -/
theorem dispatch_default (cfg : Cfg σ) (cb : Callback σ) (user : σ) {H : UMap}
    (hH : initHeaders cfg.defaults = .ok H) {ret : Int} {w : World σ} (hcb : cb 0 ⟨{ header := H }, false, user⟩ = (ret, w))
    (hret : ret = 0 ∨ ret = 2) (hst : w.resp.stream = none) (hws : w.ws = false) {hs cs body} (hr : HoldsResp w.resp hs cs body)
    (ht : Takes cfg.accept [] (linesOf hs cs)) :
    dispatch cfg [] (some cb) user =
      .ok (some ⟨w.resp.status, none, linesOf hs cs, .buffer body⟩, [⟨.dflt, 0, ⟨{ header := H }, false, user⟩, ret, w⟩]) := by
  unfold dispatch
  have hne : ret ≠ 1 := by omega
  have hc : (if ((ret == Dispatch.cbContinue || ret == Dispatch.cbIgnore) && (List.isEmpty ([] : List (Who × Callback σ)))) = true
      then Dispatch.cbComplete else ret) = 2 := by
    rcases hret with rfl | rfl <;> rfl
  simp only [List.isEmpty_cons, Bool.false_eq_true, if_false, hH, Res.ok_bind, loop, call, hcb, hst, hws]
  rw [hc, if_neg (by decide), if_pos (by decide), complete_eq cfg _ hr]
  simp only [Res.ok_bind]
  rw [fallback_none]
  · simp only [Res.ok_bind, answer, sentOf, takes_all ht, List.nil_append, Option.isSome_none, Bool.false_and, Bool.false_eq_true,
      if_false, Res.pure_eq]
  · right
    simp [Dispatch.cbIgnore, hne]

/-- Two callbacks: the first goes on, the second ends the chain. -/
theorem dispatch_pair (cfg : Cfg σ) (cb₁ cb₂ : Callback σ) (dflt : Option (Callback σ)) (user : σ) {H : UMap}
    (hH : initHeaders cfg.defaults = .ok H) {w₁ w₂ : World σ} {ret : Int} (h₁ : cb₁ 0 ⟨{ header := H }, false, user⟩ = (0, w₁))
    (h₂ : cb₂ 1 w₁ = (ret, w₂)) (hret : ret = 0 ∨ ret = 1 ∨ ret = 2) (hst₁ : w₁.resp.stream = none) (hws₁ : w₁.ws = false)
    (hst : w₂.resp.stream = none) (hws : w₂.ws = false) {hs cs body} (hr : HoldsResp w₂.resp hs cs body)
    (ht : Takes cfg.accept [] (linesOf hs cs)) :
    dispatch cfg [cb₁, cb₂] dflt user =
      .ok (some ⟨w₂.resp.status, none, linesOf hs cs, .buffer body⟩,
        [⟨.ep 0, 0, ⟨{ header := H }, false, user⟩, 0, w₁⟩, ⟨.ep 1, 1, w₁, ret, w₂⟩]) := by
  unfold dispatch
  have h0 : ((0 : Int) != Dispatch.cbIgnore) = true := by decide
  have hc : (if ((ret == Dispatch.cbContinue || ret == Dispatch.cbIgnore) && (List.isEmpty ([] : List (Who × Callback σ)))) = true
      then Dispatch.cbComplete else ret) = 2 := by
    rcases hret with rfl | rfl | rfl <;> rfl
  simp only [number, List.isEmpty_cons, Bool.false_eq_true, if_false, hH, Res.ok_bind, loop, call, h₁, hst₁, hws₁, Bool.and_false, h0, if_true,
    Nat.zero_add, h₂, hst, hws]
  rw [if_pos (by decide), hc, if_neg (by decide), if_pos (by decide), complete_eq cfg _ hr]
  simp only [Res.ok_bind]
  rw [fallback_none]
  · simp only [Res.ok_bind, answer, sentOf, takes_all ht, List.nil_append, Option.isSome_none, Bool.false_and, Bool.false_eq_true,
      if_false, Res.pure_eq, List.cons_append]
  · right
    by_cases h : ret = 1 <;> simp [h, Dispatch.cbIgnore]

/-- The calls of a chain: each returns CONTINUE and installs nothing until one ends the chain with `ret` (CONTINUE only as the last), leaving `w'`. -/
inductive Goes : Nat → World σ → List (Callback σ) → Int → World σ → Prop
  | stop {pos w cb rest ret w'} : cb pos w = (ret, w') → (ret = 2 ∨ ret = 3 ∨ ret = 0 ∧ rest = []) → w'.resp.stream = none → w'.ws = false →
      Goes pos w (cb :: rest) ret w'
  | next {pos w cb rest w₁ ret w'} : cb pos w = (0, w₁) → rest ≠ [] → w₁.resp.stream = none → w₁.ws = false → Goes (pos + 1) w₁ rest ret w' →
      Goes pos w (cb :: rest) ret w'

private theorem loop_goes (cfg : Cfg σ) {pos : Nat} {w : World σ} {cbs : List (Callback σ)} {ret : Int} {w' : World σ} (h : Goes pos w cbs ret w')
    (k : Nat) (tr : List (Ev σ)) : ∃ pos' tr' e, pos' ≠ 0 ∧ e.after = w' ∧
      loop cfg (number k cbs) ⟨w, pos, tr, none, false, none, false⟩ =
        if ret = 3 then unauthorized cfg ⟨w', pos', tr' ++ [e], none, false, none, false⟩
        else complete cfg ⟨w', pos', tr' ++ [e], none, false, none, false⟩ := by
  induction h generalizing k tr with
  | @stop pos w cb rest ret w' h1 h2 h3 h4 =>
    refine ⟨pos + 1, tr, ⟨.ep k, pos, w, ret, w'⟩, by omega, rfl, ?_⟩
    simp only [number, loop, call, h1, h3, h4, Bool.false_eq_true, if_false]
    rcases h2 with rfl | rfl | ⟨rfl, rfl⟩ <;> rfl
  | @next pos w cb rest w₁ ret w' h1 h2 h3 h4 h5 ih =>
    obtain ⟨pos', tr', e, p1, p2, p3⟩ := ih (k + 1) (tr ++ [⟨.ep k, pos, w, 0, w₁⟩])
    refine ⟨pos', tr', e, p1, p2, ?_⟩
    rw [← p3]
    simp only [number, loop, call, h1, h3, h4, Bool.false_eq_true, if_false]
    cases rest with
    | nil => exact absurd rfl h2
    | cons c t => rfl

/-- The answer of such a chain. -/
theorem dispatch_goes (cfg : Cfg σ) {eps : List (Callback σ)} (dflt : Option (Callback σ)) (user : σ) {H : UMap}
    (hH : initHeaders cfg.defaults = .ok H) {ret : Int} {w' : World σ} (h : Goes 0 ⟨{ header := H }, false, user⟩ eps ret w') {hs cs body}
    (hr : HoldsResp w'.resp hs cs body) (ht : Takes cfg.accept [] (linesOf hs cs)) :
    ∃ tr, dispatch cfg eps dflt user = .ok (some (if ret = 3 then ⟨401, w'.resp.realm.or cfg.realm, linesOf hs cs, .buffer body⟩
        else ⟨w'.resp.status, none, linesOf hs cs, .buffer body⟩), tr) ∧ tr.getLast?.map (·.after) = some w' := by
  obtain ⟨pos', tr', e, p1, p2, p3⟩ := loop_goes cfg h 0 []
  have hne : eps ≠ [] := by cases h <;> exact fun h => by cases h
  have hd : dispatch cfg eps dflt user =
      (do let h ← initHeaders cfg.defaults
          let s ← loop cfg (number 0 eps) ⟨⟨{ header := h }, false, user⟩, 0, [], none, false, none, false⟩
          let s ← fallback cfg dflt s
          return (answer s, s.trace)) := by
    unfold dispatch
    cases eps with
    | nil => exact absurd rfl hne
    | cons c t => cases dflt <;> rfl
  rw [hd, hH]
  simp only [Res.ok_bind, p3]
  refine ⟨tr' ++ [e], ?_, by simp [p2]⟩
  by_cases h3 : ret = 3
  · rw [if_pos h3, if_pos h3]
    obtain ⟨w2, -, hu⟩ := unauthorized_eq cfg ⟨w', pos', tr' ++ [e], none, false, none, false⟩ rfl hr
    rw [hu]
    simp only [Res.ok_bind, sentOf, takes_all ht, if_true]
    rw [fallback_none cfg _ dflt (.inr p1)]
    simp only [Res.ok_bind, Res.pure_eq, answer]
    cases hw : w'.resp.realm <;> cases hc : cfg.realm <;> simp [realmOf]
  · rw [if_neg h3, if_neg h3, complete_eq cfg _ hr]
    simp only [Res.ok_bind]
    rw [fallback_none cfg _ dflt (.inr p1)]
    simp only [Res.ok_bind, Res.pure_eq, answer, sentOf, takes_all ht, List.nil_append, Option.isSome_none, Bool.false_and, Bool.false_eq_true, if_false]

/-- **C97, partial.** For every chain of callbacks that leave a readable response: nothing goes wrong in memory, and if
no stream and no websocket was installed and libmicrohttpd takes the lines, then the answer is decided by the last call. A
completed request gets the status of the response, one line per header with a value, one Set-Cookie line per cookie, in
order, and the body; UNAUTHORIZED gets the same lines and body with 401 and the realm of the response or else of the
instance; any other code gets 500 with the fixed body and no line. Missing: an unknown code returned by the default endpoint
when it is called as fallback (`C26_status_false`), and refused lines (C98). -/
theorem C97_answer_partial (cfg : Cfg σ) (eps : List (Callback σ)) (dflt : Option (Callback σ)) (user : σ)
    (hd : ∀ d, cfg.defaults = some d → ∃ ps, HoldsParams d ps)
    (hk : ∀ cb ∈ eps, Keeps cb) (hkd : ∀ d, dflt = some d → Keeps d) :
    ∃ a tr, dispatch cfg eps dflt user = .ok (a, tr) ∧
      (eps = [] → dflt = none → tr = [] ∧ a = some ⟨404, none, [], .buffer b!"Resource not found"⟩) ∧
      (¬ (eps = [] ∧ dflt = none) → ∃ e, tr.getLast? = some e ∧ (∃ hs cs body, HoldsResp e.after.resp hs cs body) ∧
        ∀ hs cs body, HoldsResp e.after.resp hs cs body →
          (∀ x ∈ tr, x.after.resp.stream = none ∧ x.after.ws = false) →
          (e.who = .dflt → (0 ≤ e.ret ∧ e.ret ≤ 4) ∨ tr.length = 1) →
          (e.ret = 0 ∨ e.ret = 1 ∨ e.ret = 2 → Takes cfg.accept [] (linesOf hs cs) →
            a = some ⟨e.after.resp.status, none, linesOf hs cs, .buffer body⟩) ∧
          (e.ret = 3 → Takes cfg.accept [] (linesOf hs cs) →
            ∃ realm, a = some ⟨401, realm, linesOf hs cs, .buffer body⟩ ∧
              (∀ r, e.after.resp.realm = some r → realm = some r) ∧ (e.after.resp.realm = none → realm = cfg.realm)) ∧
          (¬ (0 ≤ e.ret ∧ e.ret ≤ 3) → a = some ⟨500, none, [], .buffer b!"Server Error"⟩)) := by
  by_cases hne : eps = [] ∧ dflt = none
  · obtain ⟨rfl, rfl⟩ := hne
    exact ⟨_, _, rfl, fun _ _ => ⟨rfl, rfl⟩, fun h => absurd ⟨rfl, rfl⟩ h⟩
  · obtain ⟨a, tr, e, h1, h2, h3, -, h4⟩ := dispatch_plain cfg eps dflt user hd hk hkd hne
    refine ⟨a, tr, h1, fun x y => absurd ⟨x, y⟩ hne, fun _ => ⟨e, h2, h3, ?_⟩⟩
    intro hs cs body hh hp hu
    rw [h4 hs cs body hh hp hu]
    unfold ansOf
    refine ⟨?_, ?_, ?_⟩
    · intro h012 ht
      simp only [h012, if_true, sentOf, takes_all ht, List.nil_append]
    · intro h3 ht
      refine ⟨realmOf e.after.resp.realm cfg.realm, ?_, ?_, ?_⟩
      · simp [h3, sentOf, takes_all ht]
      · intro r hr; rw [hr]; rfl
      · intro hr; rw [hr]; rfl
    · intro hx
      have a1 : ¬ (e.ret = 0 ∨ e.ret = 1 ∨ e.ret = 2) := by omega
      have a2 : e.ret ≠ 3 := by omega
      simp only [a1, a2, if_false]
      rfl

/-- A configuration: libmicrohttpd takes every line whose value is not empty and has no line break, as it does. -/
def sampleCfg : Cfg Unit :=
  { accept := fun _ _ v => !v.isEmpty && !v.contains 0x0a && !v.contains 0x0d
    hand := fun _ => .accepted [(b!"Upgrade", b!"websocket")]
    realm := some b!"r", defaults := none }

/-- A response with one header, a header without value, a cookie and a body. -/
def answerResp : Response :=
  { status := 201, header := sampleParams, body := some (b!"hi" ++ [0]), bodyLen := 2,
    cookies := [CookieArgs.cookie ⟨some b!"c", some b!"1", none, 0, none, none, true, false, 0⟩ b!"c"] }

theorem answerResp_holds : HoldsResp answerResp [(b!"a b", some b!"1&2"), (b!"k", none)] [b!"c=1; Secure"] b!"hi" :=
  ⟨sampleParams_holds, rfl, rfl, by intro b hb; injection hb with hb; subst hb; decide⟩

/-- A callback that fills in the sample response. -/
def sampleCb (ret : Int) : Callback Unit := fun _ w => (ret, { w with resp := answerResp })

theorem sampleCb_keeps (ret : Int) : Keeps (sampleCb ret) := fun _ _ _ => ⟨_, _, _, answerResp_holds⟩

example : (∀ cb ∈ [sampleCb 0, sampleCb 2], Keeps cb) ∧
    Takes sampleCfg.accept [] (linesOf [(b!"a b", some b!"1&2"), (b!"k", none)] [b!"c=1; Secure"]) := by
  constructor
  · intro cb hcb
    simp only [List.mem_cons, List.not_mem_nil, or_false] at hcb
    rcases hcb with rfl | rfl <;> exact sampleCb_keeps _
  · intro a f b h
    have : f ∈ linesOf [(b!"a b", some b!"1&2"), (b!"k", none)] [b!"c=1; Secure"] := by rw [h]; simp
    have all : ∀ g ∈ linesOf [(b!"a b", some b!"1&2"), (b!"k", none)] [b!"c=1; Secure"],
        (!g.2.isEmpty && !g.2.contains 0x0a && !g.2.contains 0x0d) = true := by decide
    exact all f this

/-- The answer alone. -/
def queued {α β : Type} : Res (Option α × β) → Option α
  | .ok (a, _) => a
  | .ub => none

example : queued (dispatch sampleCfg [sampleCb 0, sampleCb 2] none ()) =
    some ⟨201, none, [(b!"a b", b!"1&2"), (b!"Set-Cookie", b!"c=1; Secure")], .buffer b!"hi"⟩ := by decide
example : queued (dispatch sampleCfg [sampleCb 3] none ()) =
    some ⟨401, some b!"r", [(b!"a b", b!"1&2"), (b!"Set-Cookie", b!"c=1; Secure")], .buffer b!"hi"⟩ := by decide
example : queued (dispatch sampleCfg [sampleCb 0, sampleCb 77] none ()) = some ⟨500, none, [], .buffer b!"Server Error"⟩ := by
  decide

/-- **C97 is false of the code** in one corner: every callback ignored the request, and the default endpoint called instead returns a
code that is none of those known. Nothing is answered, although it left a response and any other callback with this code is answered
with 500. -/
theorem C97_fallback_false :
    (match dispatch sampleCfg [sampleCb 1] (some (sampleCb 77)) () with | .ok (a, tr) => a.isNone && tr.length == 2 | .ub => false) = true ∧
    queued (dispatch sampleCfg [sampleCb 77] none ()) = some ⟨500, none, [], .buffer b!"Server Error"⟩ := by decide

/-- `sent` are the lines of `l` up to the first that libmicrohttpd refuses. -/
def UpToRefusal (accept : List Field → Bytes → Bytes → Bool) (l sent : List Field) : Prop :=
  ∃ rest, l = sent ++ rest ∧ Takes accept [] sent ∧ ∀ f t, rest = f :: t → accept sent f.1 f.2 = false

/-- **C98, partial.** Whatever lines libmicrohttpd refuses, an answer to a completed or unauthorized request carries the
lines up to the first refused one and the body of the response; if a line was refused, UNAUTHORIZED is answered with 500.
Missing: a completed request with a refused line should not be answered as if nothing had happened, see
`C98_truncated_false`. -/
theorem C98_refused_partial (cfg : Cfg σ) (eps : List (Callback σ)) (dflt : Option (Callback σ)) (user : σ)
    (hd : ∀ d, cfg.defaults = some d → ∃ ps, HoldsParams d ps)
    (hk : ∀ cb ∈ eps, Keeps cb) (hkd : ∀ d, dflt = some d → Keeps d) (hne : ¬ (eps = [] ∧ dflt = none)) :
    ∃ a tr e, dispatch cfg eps dflt user = .ok (a, tr) ∧ tr.getLast? = some e ∧
      ∀ hs cs body, HoldsResp e.after.resp hs cs body →
        (∀ x ∈ tr, x.after.resp.stream = none ∧ x.after.ws = false) → 0 ≤ e.ret ∧ e.ret ≤ 3 →
        ∃ status realm sent, a = some ⟨status, realm, sent, .buffer body⟩ ∧ UpToRefusal cfg.accept (linesOf hs cs) sent ∧
          (e.ret = 3 → sent ≠ linesOf hs cs → status = 500 ∧ realm = none) ∧
          (e.ret ≠ 3 → status = e.after.resp.status ∧ realm = none) := by
  obtain ⟨a, tr, e, h1, h2, -, -, h4⟩ := dispatch_plain cfg eps dflt user hd hk hkd hne
  refine ⟨a, tr, e, h1, h2, ?_⟩
  intro hs cs body hh hp hr
  have ha := h4 hs cs body hh hp (fun _ => Or.inl ⟨hr.1, by omega⟩)
  obtain ⟨sent, rest, g1, g2, g3, g4⟩ := sendAll_spec cfg.accept (linesOf hs cs) []
  have hup : UpToRefusal cfg.accept (linesOf hs cs) sent := by
    refine ⟨rest, g1, g3, ?_⟩
    intro f t hf
    simpa using g4 f t hf
  rw [ha]
  unfold ansOf
  simp only [sentOf, g2, List.nil_append]
  by_cases h012 : e.ret = 0 ∨ e.ret = 1 ∨ e.ret = 2
  · simp only [h012, if_true]
    exact ⟨_, _, sent, rfl, hup, fun h => by omega, fun _ => ⟨rfl, rfl⟩⟩
  · have h3 : e.ret = 3 := by omega
    simp only [h3]
    cases rest with
    | nil =>
      simp only [List.append_nil] at g1
      exact ⟨_, _, sent, rfl, hup, fun _ h => absurd g1.symm h, fun h => absurd rfl h⟩
    | cons f t => exact ⟨_, _, sent, rfl, hup, fun _ _ => ⟨rfl, rfl⟩, fun h => absurd rfl h⟩

/-- A response whose first header has a line break in its value. -/
def brokenResp : Response := { answerResp with
  header := match UMap.put UMap.init (some b!"X-User") (some b!"a\nb") with
    | .ok (_, m) => match UMap.put m (some b!"X-Frame-Options") (some b!"DENY") with
      | .ok (_, m) => m
      | .ub => UMap.init
    | .ub => UMap.init }

/-- **C98 is false of the code**: a header value with a line break is refused by libmicrohttpd; the client gets the status
201 and the body the callback set, without any of the headers and without the cookie. -/
theorem C98_truncated_false :
    UMap.enumKeys brokenResp.header = .ok [b!"X-User", b!"X-Frame-Options"] ∧ brokenResp.cookies.length = 1 ∧
    queued (dispatch sampleCfg [fun _ w => (2, { w with resp := brokenResp })] none ()) = some ⟨201, none, [], .buffer b!"hi"⟩ := by
  decide

/-- **C99, partial.** When the last call left a stream on the response, and it was not the fallback call of the default
endpoint, the answer is the stream with the status, the headers and the cookies of the response, whatever code the callback
returned. Missing: the fallback call, see `C99_fallback_false`, and blocks of size 0, see `C99_block_false`. -/
theorem C99_stream_partial (cfg : Cfg σ) (eps : List (Callback σ)) (dflt : Option (Callback σ)) (user : σ)
    (hd : ∀ d, cfg.defaults = some d → ∃ ps, HoldsParams d ps)
    (hk : ∀ cb ∈ eps, Keeps cb) (hkd : ∀ d, dflt = some d → Keeps d) (hne : ¬ (eps = [] ∧ dflt = none)) :
    ∃ a tr e, dispatch cfg eps dflt user = .ok (a, tr) ∧ tr.getLast? = some e ∧
      ∀ hs cs body c, HoldsResp e.after.resp hs cs body → e.after.resp.stream = some c → 0 < c.2.1 → Takes cfg.accept [] (linesOf hs cs) →
        (e.who = .dflt → tr.length = 1) →
        a = some ⟨e.after.resp.status, none, linesOf hs cs, .stream c⟩ := by
  obtain ⟨t, e, hall, ⟨hwho, hone⟩, hhdr, hcase⟩ := dispatch_cases cfg eps dflt user hd hk hkd hne
  rcases hcase with ⟨hc, s, hf, hdisp⟩ | ⟨d, s, s', rfl, hret, hf, hsh, hu, hr, hws, hdh, hfb, hdisp⟩
  · refine ⟨_, _, e, hdisp, by simp, ?_⟩
    intro hs cs body c hh hst hblock ht _
    unfold finish at hf
    rw [hst] at hf
    simp only at hf
    rw [stream_eq cfg c (stAt e (t ++ [e])) hh hblock] at hf
    injection hf with hf
    subst hf
    simp [answer, sentOf, takes_all ht]
  · refine ⟨_, _, ⟨.dflt, 0, s.w, (d 0 s.w).1, (d 0 s.w).2⟩, hdisp, by simp, ?_⟩
    intro hs cs body c hh hst hblock ht hl
    have := hl rfl
    simp at this

/-- A callback that streams. -/
def streamCb (ret : Int) : Callback Unit := fun _ w => (ret, { w with resp := { answerResp with stream := some (1, 2, 3), body := none, bodyLen := 0 } })

theorem streamCb_keeps (ret : Int) : Keeps (streamCb ret) := fun _ _ _ =>
  ⟨_, _, _, sampleParams_holds, (rfl : _ = [b!"c=1; Secure"].map Res.ok), rfl, by simp [streamCb]⟩

example : queued (dispatch sampleCfg [streamCb 2] none ()) =
    some ⟨201, none, [(b!"a b", b!"1&2"), (b!"Set-Cookie", b!"c=1; Secure")], .stream (1, 2, 3)⟩ := by decide

/-- **C99 is false of the code**: every matching endpoint ignored the request and the default endpoint answers with a
stream (as the static file callback does): the client gets an empty body and the stream is never read. -/
theorem C99_fallback_false :
    queued (dispatch sampleCfg [fun _ w => (1, w)] (some (streamCb 2)) ()) =
      some ⟨201, none, [(b!"a b", b!"1&2"), (b!"Set-Cookie", b!"c=1; Secure")], .buffer []⟩ ∧
    queued (dispatch sampleCfg [] (some (streamCb 2)) ()) =
      some ⟨201, none, [(b!"a b", b!"1&2"), (b!"Set-Cookie", b!"c=1; Secure")], .stream (1, 2, 3)⟩ := by decide

/-- **C99 is false of the code** for a stream with blocks of size 0, which libmicrohttpd refuses: nothing is answered. -/
theorem C99_block_false : ∃ tr, dispatch sampleCfg [fun _ w => (2, { w with resp := { answerResp with stream := some (1, 0, 3), body := none, bodyLen := 0 } })]
    none () = .ok (none, tr) := ⟨_, rfl⟩

/-- **C100, partial.** When the last call left a websocket callback (and no stream) on the response, the handshake is
accepted and it was not the fallback call of the default endpoint, the answer is the protocol switch: status 101, the lines
of the handshake, then the headers and the cookies of the response. Missing: an endpoint that returns IGNORE and the
fallback call, see `C100_ignored_false`. -/
theorem C100_upgrade_partial (cfg : Cfg σ) (eps : List (Callback σ)) (dflt : Option (Callback σ)) (user : σ)
    (hd : ∀ d, cfg.defaults = some d → ∃ ps, HoldsParams d ps)
    (hk : ∀ cb ∈ eps, Keeps cb) (hkd : ∀ d, dflt = some d → Keeps d) (hne : ¬ (eps = [] ∧ dflt = none)) :
    ∃ a tr e, dispatch cfg eps dflt user = .ok (a, tr) ∧ tr.getLast? = some e ∧
      ∀ hs cs body fs, HoldsResp e.after.resp hs cs body → e.after.resp.stream = none → e.after.ws = true →
        cfg.hand e.after = .accepted fs → Takes cfg.accept fs (linesOf hs cs) → (e.who = .dflt → tr.length = 1) →
        a = some ⟨101, none, fs ++ linesOf hs cs, .upgrade⟩ := by
  obtain ⟨t, e, hall, ⟨hwho, hone⟩, hhdr, hcase⟩ := dispatch_cases cfg eps dflt user hd hk hkd hne
  rcases hcase with ⟨hc, s, hf, hdisp⟩ | ⟨d, s, s', rfl, hret, hf, hsh, hu, hr, hws, hdh, hfb, hdisp⟩
  · refine ⟨_, _, e, hdisp, by simp, ?_⟩
    intro hs cs body fs hh hst hw hhand ht _
    unfold finish at hf
    rw [hst] at hf
    simp only [hw, if_true] at hf
    obtain ⟨s', g1, g2, g3, g4, g5, -, g7⟩ := websocket_eq cfg (stAt e (t ++ [e])) hh
    rw [g1] at hf
    injection hf with hf
    subst hf
    obtain ⟨k1, k2, k3⟩ := g7 fs hhand
    simp only [sentOf, takes_all ht, Bool.true_or] at k2 k3
    simp [answer, k2, k3, g4, g5]
  · refine ⟨_, _, ⟨.dflt, 0, s.w, (d 0 s.w).1, (d 0 s.w).2⟩, hdisp, by simp, ?_⟩
    intro hs cs body c hh hst hw hhand ht hl
    have := hl rfl
    simp at this

/-- A callback that installs a websocket. -/
def wsCb (ret : Int) : Callback Unit := fun _ w => (ret, { w with ws := true })

theorem wsCb_keeps (ret : Int) : Keeps (wsCb ret) := fun _ _ h => h

example : queued (dispatch sampleCfg [wsCb 2] none ()) = some ⟨101, none, [(b!"Upgrade", b!"websocket")], .upgrade⟩ := by decide

/-- **C100 is false of the code**: the endpoint installs the websocket and returns IGNORE while a default endpoint exists.
The upgrade response is destroyed, the default endpoint is called, and its plain response is sent with status 101. The same
websocket installed by the default endpoint in a fallback call is not looked at: the client gets an empty 200. -/
theorem C100_ignored_false :
    queued (dispatch sampleCfg [wsCb 1] (some (sampleCb 2)) ()) =
      some ⟨101, none, [(b!"a b", b!"1&2"), (b!"Set-Cookie", b!"c=1; Secure")], .buffer b!"hi"⟩ ∧
    queued (dispatch sampleCfg [fun _ w => (1, w)] (some (wsCb 2)) ()) = some ⟨200, none, [], .buffer []⟩ := by decide

/-- **C101, partial.** When no callback touches the headers of the response, every completed or unauthorized request is
answered with the default headers of the instance, in their order, before the cookies. Missing: the answers the dispatcher
builds itself, see `C101_errors_false`. -/
theorem C101_defaults_partial (cfg : Cfg σ) (eps : List (Callback σ)) (dflt : Option (Callback σ)) (user : σ)
    (d : UMap) (ps : List (Bytes × Option Bytes)) (hd : cfg.defaults = some d) (hps : HoldsParams d ps)
    (hk : ∀ cb ∈ eps, Keeps cb) (hkd : ∀ d, dflt = some d → Keeps d) (hne : ¬ (eps = [] ∧ dflt = none))
    (hh : ∀ cb ∈ eps, ∀ p w, (cb p w).2.resp.header = w.resp.header)
    (hhd : ∀ d, dflt = some d → ∀ p w, (d p w).2.resp.header = w.resp.header) :
    ∃ a tr e, dispatch cfg eps dflt user = .ok (a, tr) ∧ tr.getLast? = some e ∧
      ∀ cs, e.after.resp.cookies.map cookieHeader = cs.map Res.ok →
        (∀ x ∈ tr, x.after.resp.stream = none ∧ x.after.ws = false) → 0 ≤ e.ret ∧ e.ret ≤ 3 →
        Takes cfg.accept [] (linesOf ps cs) →
        ∃ status realm content, a = some ⟨status, realm, linesOf ps cs, content⟩ := by
  have hinit := init_holds hd hps
  obtain ⟨H, hH, hHps⟩ := hinit
  obtain ⟨a, tr, e, h1, h2, h3, h0, h4⟩ := dispatch_plain cfg eps dflt user (fun d' h' => by
    rw [hd] at h'; injection h' with h'; exact ⟨ps, h' ▸ hps⟩) hk hkd hne
  refine ⟨a, tr, e, h1, h2, ?_⟩
  intro cs hcs hp hr ht
  obtain ⟨hs0, cs0, body, g1, g2, g3, g4⟩ := h3
  have hhold : HoldsResp e.after.resp ps cs body := by
    refine ⟨?_, hcs, g3, g4⟩
    rw [h0 H hH hh hhd]
    exact hHps
  rw [h4 ps cs body hhold hp (fun _ => Or.inl ⟨hr.1, by omega⟩)]
  unfold ansOf
  simp only [sentOf, takes_all ht, List.nil_append, if_true]
  split
  · exact ⟨_, _, _, rfl⟩
  · have h3 : e.ret = 3 := by omega
    simp only [h3, if_true]
    exact ⟨_, _, _, rfl⟩

/-- An instance with a default header. -/
def defaultsCfg : Cfg Unit := { sampleCfg with defaults := some sampleParams }

/-- A callback that returns a code and does nothing. -/
def idleCb (ret : Int) : Callback Unit := fun _ w => (ret, w)

example : queued (dispatch defaultsCfg [idleCb 0, idleCb 2] none ()) =
    some ⟨200, none, [(b!"a b", b!"1&2")], .buffer []⟩ := by decide
example (ret : Int) : Keeps (idleCb ret) ∧ ∀ p w, (idleCb ret p w).2.resp.header = w.resp.header := ⟨fun _ _ h => h, fun _ _ => rfl⟩

/-- **C101 is false of the code** for the answers the dispatcher builds itself: the 404 for an unknown resource, the 500
after U_CALLBACK_ERROR and the 400 for a refused websocket handshake carry no default header. -/
theorem C101_errors_false :
    queued (dispatch defaultsCfg [] none ()) = some ⟨404, none, [], .buffer b!"Resource not found"⟩ ∧
    queued (dispatch defaultsCfg [idleCb 4] none ()) = some ⟨500, none, [], .buffer b!"Server Error"⟩ ∧
    queued (dispatch { defaultsCfg with hand := fun _ => .refused b!"no" } [wsCb 2] none ()) =
      some ⟨400, none, [], .buffer b!"no"⟩ := by decide

/-- **C24 for the model of the answers.** The calls are those of the selected endpoints in order, each on what its
predecessor left, up to and including the first that does not return CONTINUE or IGNORE or that installs a stream or a
websocket; the only other call is one of the default endpoint at the end, when every call returned IGNORE. -/
theorem C24_chain_answer (cfg : Cfg σ) (eps : List (Callback σ)) (heps : eps ≠ []) (dflt : Option (Callback σ)) (user : σ)
    (a : Option Ans) (tr : List (Ev σ)) (h : dispatch cfg eps dflt user = .ok (a, tr)) :
    ∃ t extra, tr = t ++ extra ∧ 0 < t.length ∧ t.length ≤ eps.length ∧
      (∀ j (h1 : j < t.length) (h2 : j < eps.length), t[j].who = .ep j ∧
        (t[j].ret, t[j].after) = eps[j] t[j].pos t[j].before) ∧
      (∀ j (h1 : j + 1 < t.length), t[j + 1].before = t[j].after ∧
        (t[j].ret = 0 ∨ t[j].ret = 1) ∧ t[j].after.resp.stream = none ∧ t[j].after.ws = false) ∧
      (t.length = eps.length ∨ ∃ e, t.getLast? = some e ∧
        ¬ ((e.ret = 0 ∨ e.ret = 1) ∧ e.after.resp.stream = none ∧ e.after.ws = false)) ∧
      (extra = [] ∨ ∃ e, extra = [e] ∧ e.who = .dflt ∧ ∀ x ∈ t, x.ret = 1) := by
  have hH : ∃ H, initHeaders cfg.defaults = .ok H := by
    cases hi : initHeaders cfg.defaults with
    | ok H => exact ⟨H, rfl⟩
    | ub =>
      exfalso
      unfold dispatch at h
      rw [hi] at h
      cases eps with
      | nil => exact heps rfl
      | cons c t => cases dflt <;> cases h
  obtain ⟨H, hH⟩ := hH
  obtain ⟨-, h2⟩ := dispatch_refines cfg eps dflt user H hH a tr h
  obtain ⟨t, extra, c1, c2, c3, c4, -, c6, c7, c8⟩ := C24_chain (projCfg cfg) (eps.map proj) (by simpa using heps)
    (dflt.map proj) (fwd ⟨{ header := H }, false, user⟩)
  have hfwd : ∀ j (h1 : j < t.length), ∃ w, t[j].after = fwd w := by
    intro j h1
    have hj : j < (eps.map proj).length := by omega
    have := (c4 j h1 hj).2
    rw [List.getElem_map] at this
    exact ⟨_, (Prod.mk.inj this).2⟩
  have hpass : ∀ e : Dispatch.Ev (Verif.Answer.World σ), (∃ w, e.after = fwd w) → (LetsContinue e ↔
      ((projEv e).ret = 0 ∨ (projEv e).ret = 1) ∧ (projEv e).after.resp.stream = none ∧ (projEv e).after.ws = false) := by
    rintro e ⟨w, hw⟩
    simp only [LetsContinue, projEv, hw, back_fwd, fwd]
    rw [Option.isSome_eq_false_iff, Option.isNone_iff_eq_none]
    exact Iff.rfl
  refine ⟨t.map projEv, extra.map projEv, by rw [← h2, c1, List.map_append], by simpa using c2, by simpa using c3, ?_, ?_, ?_, ?_⟩
  · intro j h1 hj
    have hj1 : j < t.length := by simpa using h1
    have hj2 : j < (eps.map proj).length := by simpa using hj
    obtain ⟨g1, g2⟩ := c4 j hj1 hj2
    rw [List.getElem_map] at g2
    obtain ⟨g3, g4⟩ := Prod.mk.inj g2
    refine ⟨by simpa [projEv] using g1, ?_⟩
    simp only [List.getElem_map, projEv, g3, g4, back_fwd]
  · intro j h1
    have hj1 : j + 1 < t.length := by simpa using h1
    obtain ⟨g1, g2⟩ := c6 j hj1
    have hp := (hpass _ (hfwd j (by omega))).1 g2
    simp only [List.getElem_map]
    exact ⟨by simp only [projEv, g1], hp⟩
  · rcases c7 with c7 | ⟨e, c7, c7'⟩
    · left; simpa using c7
    · right
      refine ⟨projEv e, by simp [c7], ?_⟩
      rw [← hpass e]
      · exact c7'
      · rw [List.getLast?_eq_getElem?] at c7
        obtain ⟨hlt, heq⟩ := List.getElem?_eq_some_iff.1 c7
        rw [← heq]
        exact hfwd _ hlt
  · rcases c8 with rfl | ⟨e, rfl, he, hall⟩
    · left; rfl
    · right
      refine ⟨projEv e, rfl, he, ?_⟩
      intro x hx
      obtain ⟨y, hy, rfl⟩ := List.mem_map.1 hx
      exact hall y hy

example : ∃ a tr, dispatch sampleCfg [sampleCb 0, sampleCb 2, sampleCb 2] none () = .ok (a, tr) ∧ tr.length = 2 := ⟨_, _, rfl, rfl⟩

end Verif.Props
