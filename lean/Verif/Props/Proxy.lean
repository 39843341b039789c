import Verif.Model.Proxy
import Verif.Lemmas.Options
import Verif.Props.AnswerEndToEnd
import Verif.Props.EndToEnd
/-! # C160: a proxy passes on requests and answers -/
namespace Verif.Props
open Verif.UMap Verif.Message Verif.Answer Verif.Send Verif.Proxy Verif.Client Verif.Printf Verif.Strtok
open Verif.Spec.Client (Line headersOf valuesFor headerValue sameName Hdr protocolOf beforeQuery queryParams spaces commaJoin)
open Verif.Spec.Curl (Opt transferOf readHeaders)
open Verif.Spec.OMap (OMap)

/-! ## The headers received, as a list -/

private theorem store_holds {m : UMap} {a : OMap} (h : HoldsParams m a) (k v : Bytes) (hk : k ≠ []) (hkn : NoNul k) (hv : NoNul v)
    (n : Nat) (ha : Vals n a) (hn : n + v.length + 4 < 2 ^ 64) :
    ∃ m', storeHeader m (some k) (some v) = .ok m' ∧ HoldsParams m' (istep a (k, v)) ∧ Vals (n + v.length + 2) (istep a (k, v)) := by
  obtain ⟨es, rfl, hg, hs⟩ := holds_sim h
  obtain ⟨es', e1, -, e3, e4⟩ := storeHeader_sim es a hg hs k v hk hv n ha hn
  refine ⟨_, e1, sim_holds ?_ e3 ?_, e4⟩
  · unfold storeHeader at e1
    rw [hasKeyCase_rep, Res.ok_bind] at e1
    rcases sim_find hs (fun x => eqCase x k) with ⟨f1, f2⟩ | ⟨e, p, f1, f2, f3⟩
    · have hany : es.any (fun e => eqCase e.key k) = false := by
        rw [List.any_eq_false]; rw [List.find?_eq_none] at f1; exact f1
      rw [hany] at e1
      simp only at e1
      cases hp : UMap.put (rep es) (some k) (some v) with
      | ub => rw [hp] at e1; cases e1
      | ok x =>
        rw [hp] at e1
        obtain ⟨rc, m'⟩ := x
        have : m' = rep es' := by simpa using e1
        rw [← this]
        exact Reach.put h.1 (validArgs_str _ (by simp [lenOf]; omega)) hp
    · have hany : es.any (fun e => eqCase e.key k) = true := by
        rw [List.any_eq_true]
        exact ⟨e, List.mem_of_find?_eq_some f1, List.find?_some (p := fun e : Ent => eqCase e.key k) f1⟩
      rw [hany] at e1
      simp only at e1
      obtain ⟨s, s1, s2, s3⟩ := ha p (List.mem_of_find?_eq_some f2)
      obtain ⟨g1, g2⟩ := f3
      rw [s1] at g2
      obtain ⟨g2, t, g3⟩ := g2
      have hj : joined (rep es) k (some v) = .ok (s ++ b!", " ++ v) := by
        unfold joined
        rw [getCase_rep, f1]
        simp only [Option.map_some, Res.ok_bind]
        rw [g3, readStr_strBuf s t s2]
        simp only [Res.ok_bind]
        rfl
      rw [hj, Res.ok_bind] at e1
      cases hr : UMap.removeKeyCase (rep es) (some k) with
      | ub => rw [hr] at e1; cases e1
      | ok x =>
        rw [hr] at e1
        obtain ⟨rc, m'⟩ := x
        have hm' := Reach.removeKeyCase h.1 hr
        simp only [Res.ok_bind] at e1
        by_cases hrc : rc = .ok
        · rw [if_pos hrc] at e1
          cases hp : UMap.put m' (some k) (some (s ++ b!", " ++ v)) with
          | ub => rw [hp] at e1; cases e1
          | ok x =>
            rw [hp] at e1
            obtain ⟨rc, m''⟩ := x
            have : m'' = rep es' := by simpa using e1
            rw [← this]
            refine Reach.put hm' (validArgs_str _ ?_) hp
            simp [lenOf]
            omega
        · rw [if_neg hrc] at e1
          have : m' = rep es' := by simpa using e1
          rw [← this]
          exact hm'
  · intro p hp
    obtain ⟨s, h1, h2, -⟩ := e4 p hp
    refine ⟨?_, fun x hx => ?_⟩
    · unfold istep at hp
      split at hp
      · rw [List.mem_append, List.mem_singleton] at hp
        rcases hp with hp | rfl
        · exact (h.2.2 p hp).2.1
        · exact hkn
      · rw [List.mem_append, List.mem_singleton] at hp
        rcases hp with hp | rfl
        · exact (h.2.2 p (List.mem_filter.1 hp).1).2.1
        · exact hkn
    · rw [h1] at hx
      injection hx with hx
      rw [← hx]
      exact h2

private theorem write_holds (ls : List Line) (hw : ∀ l ∈ ls, l.Wf) : ∀ {m : UMap} {a : OMap}, HoldsParams m a →
    ∀ (n c : Nat) (p : Option Bytes), Vals n a → n + (ls.map (fun l => l.text.length)).sum + 4 < 2 ^ 64 →
    ∃ m' p' c', writeHeaders 0 ⟨m, p, c⟩ (ls.map Line.text) = .ok ⟨m', p', c'⟩ ∧ HoldsParams m' ((headersOf ls).foldl istep a) := by
  induction ls with
  | nil => intro m a h n c p _ _; exact ⟨m, p, c, rfl, h⟩
  | cons l t ih =>
    intro m a h n c p ha hn
    have ih := @ih (fun x hx => hw x (List.mem_cons_of_mem _ hx))
    have hwl := hw l List.mem_cons_self
    rw [List.map_cons, List.sum_cons] at hn
    cases l with
    | other s =>
      have hwl : (0x3a : UInt8) ∉ s := hwl
      have hh : headersOf (.other s :: t) = headersOf t := rfl
      rw [List.map_cons, writeHeaders, show Line.text (.other s) = s from rfl, hh]
      unfold writeHeader
      rw [if_neg hwl]
      by_cases hb : trimSpace s ≠ []
      · rw [if_pos hb, Res.ok_bind]; exact ih h n c _ ha (by omega)
      · rw [if_neg hb, Res.ok_bind]; exact ih h n c _ ha (by omega)
    | header x =>
      have hh : headersOf (.header x :: t) = (x.name, x.value) :: headersOf t := rfl
      have hwl : x.Wf := hwl
      have htl : x.text.length ≥ x.value.length + 2 := by
        have : x.name.length ≠ 0 := by simpa using hwl.name.2.1
        simp [Hdr.text]; omega
      have hcol : (0x3a : UInt8) ∈ x.text := by simp [Hdr.text]
      rw [List.map_cons, writeHeaders, hh]
      have htext : Line.text (.header x) = x.text := rfl
      rw [htext] at hn ⊢
      unfold writeHeader
      rw [if_pos hcol, if_pos (Or.inl rfl), splitHeader_eq x hwl]
      obtain ⟨m', e1, e2, e3⟩ := store_holds h x.name x.value hwl.name.2.1 hwl.name.2.2.2 hwl.value.2 n ha (by omega)
      simp only [e1, Res.ok_bind]
      exact ih e2 _ (c + 1) p e3 (by omega)

private theorem eqCase_same (a b : Bytes) : eqCase a b = decide (sameName a b) := by
  rw [Bool.eq_iff_iff, decide_eq_true_iff]
  exact beq_iff_eq

private theorem lines_values (k : Bytes) : ∀ (a : OMap), a.countP (fun q => eqCase q.1 k) ≤ 1 → (∀ p ∈ a, ∃ v, p.2 = some v) →
    valuesFor k (linesOf a []) = match lk a k with
      | none => []
      | some o => [o.getD []]
  | [], _, _ => rfl
  | (x, o) :: t, hc, hv => by
    obtain ⟨v, rfl⟩ : ∃ v, o = some v := hv (x, o) (List.mem_cons_self ..)
    have hvt : ∀ p ∈ t, ∃ v, p.2 = some v := fun p hp => hv p (List.mem_cons_of_mem _ hp)
    have hl : linesOf ((x, some v) :: t) [] = (x, v) :: linesOf t [] := rfl
    rw [hl]
    unfold valuesFor lk
    rw [List.countP_cons] at hc
    rw [List.filter_cons, List.find?_cons]
    by_cases e : sameName x k
    · have ee : eqCase x k = true := by rw [eqCase_same]; simpa using e
      simp only [ee, if_true] at hc
      have h0 : t.countP (fun q => eqCase q.1 k) = 0 := by omega
      have ih := lines_values k t (by omega) hvt
      have hn : lk t k = none := by
        unfold lk
        rw [List.countP_eq_zero] at h0
        rw [List.find?_eq_none.2 (by simpa using h0)]
        rfl
      rw [hn] at ih
      simp only [valuesFor] at ih
      simp only [e, decide_true, if_true, ee, List.map_cons, ih, Option.map_some, Option.getD_some]
    · have ee : eqCase x k = false := by rw [eqCase_same]; simpa using e
      have ih := lines_values k t (by simp only [ee] at hc; simpa using hc) hvt
      simp only [valuesFor, lk] at ih
      simp only [e, decide_false, Bool.false_eq_true, if_false, ee]
      exact ih

private theorem table_values (l : List (Bytes × Bytes)) : ∀ p ∈ l.foldl istep [], ∃ v, p.2 = some v := by
  suffices h : ∀ (a : OMap), (∀ p ∈ a, ∃ v, p.2 = some v) → ∀ p ∈ l.foldl istep a, ∃ v, p.2 = some v from
    h [] (fun p hp => by cases hp)
  induction l with
  | nil => intro a h; exact h
  | cons x t ih =>
    intro a h
    rw [List.foldl_cons]
    apply ih
    intro p hp
    unfold istep at hp
    split at hp
    · rw [List.mem_append, List.mem_singleton] at hp
      rcases hp with hp | rfl
      · exact h p hp
      · exact ⟨_, rfl⟩
    · rw [List.mem_append, List.mem_singleton] at hp
      rcases hp with hp | rfl
      · exact h p (List.mem_filter.1 hp).1
      · exact ⟨_, rfl⟩

/-- The header lines made of the table of received headers have the same value for every name. -/
private theorem table_lines (l : List (Bytes × Bytes)) (k : Bytes) :
    headerValue k (linesOf (l.foldl istep []) []) = headerValue k l := by
  have h := lines_values k (l.foldl istep []) (foldl_unique l k) (table_values l)
  rw [lk_foldl] at h
  unfold headerValue
  rw [h]
  cases hv : valuesFor k l with
  | nil => rfl
  | cons x t => rfl

/-- A name of the lines received is a name of the lines made of the table, in some case. -/
private theorem table_name {l : List (Bytes × Bytes)} {f : Bytes × Bytes} (hf : f ∈ l) :
    ∃ g ∈ linesOf (l.foldl istep []) [], sameName g.1 f.1 := by
  have h := lines_values f.1 (l.foldl istep []) (foldl_unique l f.1) (table_values l)
  rw [lk_foldl] at h
  have hne : valuesFor f.1 l ≠ [] := by
    unfold valuesFor
    intro e
    have : f ∈ l.filter (fun p => decide (sameName p.1 f.1)) := List.mem_filter.2 ⟨hf, by simp [sameName]⟩
    rw [List.map_eq_nil_iff.1 e] at this
    cases this
  cases hv : valuesFor f.1 l with
  | nil => exact absurd hv hne
  | cons x t =>
    rw [hv] at h
    have : valuesFor f.1 (linesOf (l.foldl istep []) []) ≠ [] := by rw [h]; simp
    unfold valuesFor at this
    obtain ⟨g, hg⟩ := List.exists_mem_of_ne_nil
      ((linesOf (l.foldl istep []) []).filter (fun p => decide (sameName p.1 f.1))) (fun e => this (by rw [e]; rfl))
    rw [List.mem_filter] at hg
    exact ⟨g, hg.1, by simpa using hg.2⟩

/-! ## The request to the origin -/

/-- The lists of the request to the origin: no header `Host`. -/
private def passed (l : Lists) : Lists := { l with header := l.header.filter (fun p => !(p.1 == b!"Host")) }

private theorem forward_wants (dest : Bytes) {r : Request} {l : Lists} (w : Wants r l) :
    ∃ copy req, duplicateRequest r = .ok (some copy) ∧ forward dest r copy = .ok req ∧ Wants req (passed l) ∧
      req.verb = r.verb ∧ req.url = some (dest ++ str r.url) ∧ req.timeout = 30 ∧ req.bodyLen = r.bodyLen ∧
      req.body = (if r.bodyLen = 0 then none else r.body.map (fun b => b.take r.bodyLen)) := by
  obtain ⟨a, mu, mh, mc, mp, d1, d2, d3, d4, d5, d6⟩ := duplicate_full w
  obtain ⟨h, e1, e2, -⟩ := holds_remove d3 b!"Host"
  have hf : forward dest r { r with
      clientAddress := a, mapUrl := mu, mapHeader := mh, mapCookie := mc, mapPost := mp,
      body := if r.bodyLen = 0 then none else r.body.map (fun b => b.take r.bodyLen) } = .ok { r with
      clientAddress := a, mapUrl := mu, mapHeader := h, mapCookie := mc, mapPost := mp,
      body := if r.bodyLen = 0 then none else r.body.map (fun b => b.take r.bodyLen),
      url := some (dest ++ str r.url), timeout := 30 } := by
    unfold forward
    rw [e1, Res.ok_bind]
    rfl
  refine ⟨_, _, d1, hf, ?_, rfl, rfl, rfl, rfl, rfl⟩
  refine ⟨d2, e2, d4, d5, w.urlFit, ?_, w.cookieFit, w.postFit, ?_, d6⟩
  · intro p hp
    exact w.headerFit p (List.mem_filter.1 hp).1
  · rcases w.body with h0 | ⟨b, hb, hl⟩
    · exact .inl h0
    · by_cases h0 : r.bodyLen = 0
      · exact .inl h0
      · refine .inr ⟨b.take r.bodyLen, by simp [h0, hb], ?_⟩
        show r.bodyLen ≤ _
        rw [List.length_take]
        omega

/-- **C160, the request (partial).** Whenever the callback of the proxy returns, it returns CONTINUE and has made at most one request
to the origin; that one has the method of the client's request, its URL behind the one of the origin, its parameters behind that, its
headers but `Host`, and its body; it gives up after 30 seconds.
Missing: URLs with parameters, which are sent twice (`C160_query_false`), the header `host` (`C160_host_false`), and what C106 and
C107 lack. -/
theorem C160_request_partial (dest : Bytes) (c : Curl) {r : Request} {l : Lists} (w : Wants r l) (wd : World (List (List Opt)))
    {x : Int × World (List (List Opt))} (h : callbackGet dest c r wd = .ok x) :
    x.1 = 0 ∧ (x.2.user = wd.user ∨ ∃ opts, x.2.user = wd.user ++ [opts] ∧
      (transferOf opts).method = some (r.verb.getD b!"GET") ∧
      (∀ u, r.url = some u → (0x23 : UInt8) ∉ dest ++ u → ∃ y ts, (transferOf opts).url = some y ∧
        beforeQuery y = beforeQuery (spaces (dest ++ u)) ∧
        queryParams y = queryParams (spaces (dest ++ u)) ++ ts ∧ Spec.Client.ParamTexts ts l.url) ∧
      (l.post = [] → (∀ p ∈ l.header, (0x3a : UInt8) ∉ p.1 ∧ (0x0d : UInt8) ∉ p.1 ∧ ∀ v, p.2 = some v → (0x0d : UInt8) ∉ v) →
        readHeaders (transferOf opts).headerText [] = visible (l.header.filter (fun p => !(p.1 == b!"Host")))) ∧
      (l.post = [] → (transferOf opts).body = if r.bodyLen = 0 then none else r.body.map (fun b => b.take r.bodyLen)) ∧
      (transferOf opts).timeout = 30) := by
  obtain ⟨copy, req, h1, h2, h3, g1, g2, g3, g4, g5⟩ := forward_wants dest w
  unfold callbackGet at h
  rw [h1] at h
  simp only [Res.ok_bind, h2] at h
  cases hs : sendLimit c (some req) (some {}) 0 0 with
  | ub => rw [hs] at h; cases h
  | ok o =>
    rw [hs] at h
    simp only [Res.ok_bind] at h
    cases hc : Proxy.copyInto wd.resp (o.response.getD {}) with
    | ub => rw [hc] at h; cases h
    | ok y =>
      rw [hc] at h
      simp only [Res.ok_bind, Res.pure_eq] at h
      injection h with h
      subst h
      refine ⟨rfl, ?_⟩
      cases hp : o.performed with
      | none => left; simp
      | some opts =>
        right
        have hP : Performed c req (some {}) opts := .inr ⟨0, 0, o, hs, hp⟩
        obtain ⟨-, k2, k3, k4, -, -, -, -, -, -, -, k5, -⟩ := C106_request_partial h3 hP
        refine ⟨opts, by simp, by rw [k2, g1], ?_, ?_, ?_, by rw [k5, g3]⟩
        · intro u hu hf
          rw [hu] at g2
          exact k3 _ g2 hf
        · intro hpost hh
          have := C107_headers_partial h3 hP (fun p hp => hh p (List.mem_filter.1 hp).1)
          rw [this]
          have : (passed l).post = [] := hpost
          rw [if_pos this]
          rfl
        · intro hpost
          rw [k4 hpost, g4, g5]
          by_cases h0 : r.bodyLen = 0
          · simp [h0]
          · simp only [h0, if_false]
            cases r.body with
            | none => rfl
            | some b => simp [List.take_take]

/-! ## The answer -/

private theorem copy_received {H : UMap} {hs A : OMap} {src : Response} {body : Bytes} (_hH : HoldsParams H hs)
    (hA : HoldsParams src.header A) (hp : src.protocol ≠ none) (hc : src.cookies = []) (hst : src.stream = none)
    (hb : bodyOf src.body src.bodyLen = body) (hl : src.bodyLen = body.length) :
    ∃ r, Proxy.copyInto { header := H } src = .ok (.ok, r) ∧ r.status = src.status ∧ r.stream = none ∧ HoldsResp r A [] body := by
  obtain ⟨p, hp⟩ := Option.ne_none_iff_exists'.1 hp
  have hcp : ∃ d, copyBody src.body src.bodyLen = .ok d ∧ (d = none ∧ body = [] ∨ d = some body) := by
    unfold copyBody
    cases hB : src.body with
    | none =>
      rw [hB] at hb
      exact ⟨none, rfl, .inl ⟨rfl, by rw [← hb]; simp [bodyOf]⟩⟩
    | some b =>
      rw [hB] at hb
      have hb : b.take src.bodyLen = body := hb
      simp only
      by_cases h0 : src.bodyLen = 0
      · rw [if_pos h0]
        refine ⟨none, rfl, .inl ⟨rfl, ?_⟩⟩
        rw [h0] at hl
        exact List.eq_nil_of_length_eq_zero hl.symm
      · have hle : src.bodyLen ≤ b.length := by
          have := congrArg List.length hb
          rw [List.length_take, ← hl] at this
          omega
        rw [if_neg h0, if_pos hle, hb]
        exact ⟨_, rfl, .inr rfl⟩
  obtain ⟨d, hd, hd'⟩ := hcp
  unfold Proxy.copyInto
  rw [hp]
  simp only
  rw [C13_copy_exact _ hA.1]
  simp only [Res.ok_bind, hc, copyCookies, hd, hst]
  rcases hd' with ⟨rfl, rfl⟩ | rfl
  · exact ⟨_, rfl, rfl, rfl, hA, rfl, rfl, fun b hb => by cases hb⟩
  · refine ⟨_, rfl, rfl, rfl, hA, rfl, ?_, ?_⟩
    · show body.take src.bodyLen = body
      rw [hl, List.take_length]
    · intro b hb
      injection hb with hb
      rw [← hb]
      exact Nat.le_of_eq hl

private theorem same_decide {a b : Bytes} (h : sameName a b) (x : Bytes) : decide (sameName x a) = decide (sameName x b) := by
  rw [decide_eq_decide]
  unfold sameName at h ⊢
  rw [h]

private theorem same_value {a b : Bytes} (h : sameName a b) (l : List (Bytes × Bytes)) : headerValue a l = headerValue b l := by
  have e : valuesFor a l = valuesFor b l := by
    unfold valuesFor
    congr 2
    funext p
    exact same_decide h p.1
  unfold headerValue
  rw [e]

private theorem shows_same {m : UMap} {a b : Bytes} (h : sameName a b) {v : Option Bytes} (hs : ShowsCase m a v) :
    ShowsCase m b v := by
  have e : (fun x => eqCase x a) = fun x => eqCase x b := by
    funext x
    rw [eqCase_same, eqCase_same, same_decide h x]
  have e' : (fun x => Res.ok (eqCase x a)) = fun x => Res.ok (eqCase x b) := by
    funext x
    rw [congrFun e x]
  have g : UMap.getCase m (some b) = UMap.getCase m (some a) := by simp only [UMap.getCase, e']
  have c : UMap.countKeysCase m (some b) = UMap.countKeysCase m (some a) := by simp only [UMap.countKeysCase, e]
  cases v with
  | none => exact ⟨g.trans hs.1, c.trans hs.2⟩
  | some v => exact ⟨by rw [g]; exact hs.1, c.trans hs.2⟩

private theorem fresh (o : Option UMap) (hd : ∀ d, o = some d → ∃ ps, HoldsParams d ps) :
    ∃ H ds, initHeaders o = .ok H ∧ HoldsParams H ds := by
  cases h : o with
  | none => exact ⟨_, [], rfl, holds_init⟩
  | some d =>
    obtain ⟨ps, hps⟩ := hd d h
    obtain ⟨H, h1, h2⟩ := init_holds (defaults := some d) rfl hps
    exact ⟨H, ps, h1, h2⟩

/-- **C160, the answer (partial).** When the origin answers without setting cookies, the callback makes exactly one request, and the
client gets the status and the body of the origin, and for every header of the origin its values, joined by commas: in the answer
handed to libmicrohttpd, and at every client of the library that receives it.
Missing: cookies (`C160_cookie_false`), an origin that cannot be reached (`C160_unreachable_false`), coded answers
(`C160_coding_false`), and a libmicrohttpd that takes no `Content-Length` (`C160_length_false`). -/
theorem C160_answer_partial (dest : Bytes) (cfg : Cfg (List (List Opt))) (dflt : Option (Callback (List (List Opt))))
    (user : List (List Opt)) (hd : ∀ d, cfg.defaults = some d → ∃ ps, HoldsParams d ps) (c : Curl) (hi : c.init = true)
    (ha : ∀ done o, c.accepts done o = true) {r : Request} {l : Lists} (w : Wants r l) (ls : List Line) (hw : ∀ x ∈ ls, x.Wf)
    (hn : (ls.map (fun x => x.text.length)).sum + 4 < 2 ^ 64) (hp : protocolOf ls ≠ none) (chunks : List Bytes)
    (hc : chunks.flatten.length + 1 < 2 ^ 64) (st : Nat)
    (hrep : ∀ opts, c.perform opts = ⟨ls.map Line.text, chunks, some st, some []⟩)
    (ht : ∀ fs, (∀ k, headerValue k fs = headerValue k (headersOf ls)) → Takes cfg.accept [] fs) :
    ∃ ans ev opts, dispatch cfg [proxyCb dest c r] dflt user = .ok (some ans, [ev]) ∧
      callbackGet dest c r ev.before = .ok (0, ev.after) ∧ ev.after.user = user ++ [opts] ∧
      ans.status = st ∧ ans.content = .buffer chunks.flatten ∧ (∀ k, headerValue k ans.fields = headerValue k (headersOf ls)) ∧
      Arrives ans st (headersOf ls) chunks.flatten := by
  obtain ⟨H, ds, hH, hHd⟩ := fresh cfg.defaults hd
  obtain ⟨copy, req, h1, h2, h3, -⟩ := forward_wants dest w
  obtain ⟨o, r', s1, s2, s3, s4, -, s5, ⟨hdr, s6, s7⟩, s8, s9, rc, s10, s11⟩ := response_received c hi ha h3 {} ⟨rfl, rfl, rfl⟩ 0 0 ls
    hw hn chunks hc st [] (by simp) hrep
  obtain ⟨m, p', c', m1, m2⟩ := write_holds ls hw holds_init 0 0 none (fun p hp => by cases hp) (by omega)
  have hm : hdr.map = m := by
    have e : writeHeaders 0 {} (ls.map Line.text) = .ok ⟨m, p', c'⟩ := m1
    rw [e] at s6
    injection s6 with s6
    rw [← s6]
  rw [hm] at s7
  have hck : r'.cookies = [] := by
    rw [s11]
    have : runCookies {} (List.map argsOf []) = .ok {} := rfl
    rw [this] at s10
    injection s10 with s10
    rw [← s10]
  have hstream : r'.stream = none := by rw [s9]
  simp only [if_true] at s8
  have hbody : bodyOf r'.body r'.bodyLen = chunks.flatten ∧ r'.bodyLen = chunks.flatten.length := by
    by_cases e : chunks.flatten = []
    · obtain ⟨b1, b2⟩ := s8.2 e
      rw [b1, b2, e]
      exact ⟨rfl, rfl⟩
    · exact ⟨(s8.1 e).2, (s8.1 e).1⟩
  obtain ⟨resp, t1, t2, t3, t4⟩ := copy_received hHd (by rw [s7]; exact m2) (by rw [s5]; exact hp) hck hstream hbody.1 hbody.2
  obtain ⟨opts, hop⟩ : ∃ opts, o.performed = some opts := by
    have hsl : sendLimit c (some req) (some {}) 0 0 = .ok o := s1
    unfold sendLimit at hsl
    cases hss : sendStreaming c (some req) (some {}) ⟨true, true⟩ 0 with
    | ub => rw [show (some ({} : Response)).isSome = true from rfl, hss] at hsl; cases hsl
    | ok o' =>
      have h111 := ((C111_errors_partial c h3 (some {}) ⟨true, true⟩ 0).2.1 o' hss).2.2
      rw [show (some ({} : Response)).isSome = true from rfl, hss] at hsl
      simp only [Res.ok_bind] at hsl
      have hk : o'.code = o.code ∧ o'.performed = o.performed := by
        cases hcode : o'.code with
        | ok =>
          cases hr : o'.response with
          | none => simp only [hcode, hr, Res.pure_eq] at hsl; injection hsl with hsl; rw [← hsl, hcode]; exact ⟨rfl, rfl⟩
          | some r2 =>
            simp only [hcode, hr] at hsl
            cases hrc : received 0 o'.chunks with
            | none => simp only [hrc, Res.pure_eq] at hsl; injection hsl with hsl; rw [← hsl, hcode]; exact ⟨rfl, rfl⟩
            | some b => simp only [hrc, Res.pure_eq] at hsl; injection hsl with hsl; rw [← hsl]; exact ⟨rfl, rfl⟩
        | memory => simp only [hcode, Res.pure_eq] at hsl; injection hsl with hsl; rw [← hsl, hcode]; exact ⟨rfl, rfl⟩
        | params => simp only [hcode, Res.pure_eq] at hsl; injection hsl with hsl; rw [← hsl, hcode]; exact ⟨rfl, rfl⟩
        | libcurl => simp only [hcode, Res.pure_eq] at hsl; injection hsl with hsl; rw [← hsl, hcode]; exact ⟨rfl, rfl⟩
      obtain ⟨opts, _, h, _⟩ := h111 (hk.1.trans s2)
      exact ⟨opts, hk.2 ▸ h⟩
  have hcb : callbackGet dest c r ⟨{ header := H }, false, user⟩ = .ok (0, ⟨resp, false, user ++ [opts]⟩) := by
    unfold callbackGet
    rw [h1]
    simp only [Res.ok_bind, h2, s1, s3, Option.getD_some, t1, hop]
    rfl
  have hcb' : proxyCb dest c r 0 ⟨{ header := H }, false, user⟩ = (0, ⟨resp, false, user ++ [opts]⟩) := by
    unfold proxyCb
    rw [hcb]
  have hv := table_lines (headersOf ls)
  have hdis := dispatch_single cfg (proxyCb dest c r) dflt user hH hcb' (.inl rfl) t3 rfl t4 (ht _ hv)
  refine ⟨_, _, opts, hdis, hcb, rfl, t2.trans s4, rfl, hv, ?_⟩
  have := client_part ⟨resp.status, none, linesOf ((headersOf ls).foldl istep []) [], .buffer chunks.flatten⟩ chunks.flatten rfl
  intro c1 r1 l1 st1 ls1 chunks1 cs1 a1 a2 a3 a4 a5 a6
  obtain ⟨o1, r2, b1, b2, b3, b4, b5, b6, b7⟩ := this c1 r1 l1 st1 ls1 chunks1 cs1 a1 a2 a3 a4 a5 a6
  refine ⟨o1, r2, b1, b2, b3, b4.trans (t2.trans s4), b5, b6, ?_⟩
  intro f hf
  obtain ⟨g, hg, hs⟩ := table_name hf
  have := b7 g hg
  rw [hv, same_value hs] at this
  exact shows_same hs this

/-- C160 is false for every request when the origin cannot be reached: the client gets the status 200 with an empty body. -/
theorem C160_unreachable_false (dest : Bytes) (cfg : Cfg (List (List Opt))) (dflt : Option (Callback (List (List Opt))))
    (user : List (List Opt)) {H : UMap} {ds : List (Bytes × Option Bytes)} (hH : initHeaders cfg.defaults = .ok H)
    (hHd : HoldsParams H ds) (ht : Takes cfg.accept [] (linesOf ds [])) (c : Curl) (hi : c.init = true)
    (ha : ∀ done o, c.accepts done o = true) {r : Request} {l : Lists} (w : Wants r l)
    (hrep : ∀ opts, c.perform opts = ⟨[], [], none, none⟩) :
    ∃ ev, dispatch cfg [proxyCb dest c r] dflt user = .ok (some ⟨200, none, linesOf ds [], .buffer []⟩, [ev]) := by
  obtain ⟨copy, req, h1, h2, h3, -⟩ := forward_wants dest w
  obtain ⟨opts, -, h⟩ := send_cases c hi h3 (some {}) ⟨true, true⟩ 0
  have h : sendStreaming c (some req) (some {}) ⟨true, true⟩ 0 = .ok ⟨.libcurl, some opts, some {}, []⟩ := by
    rcases h with ⟨-, h⟩ | ⟨done, o, rest, -, h2, -⟩
    · rw [h]
      unfold perform
      rw [hrep]
      rfl
    · rw [ha] at h2; cases h2
  have hs : sendLimit c (some req) (some {}) 0 0 = .ok ⟨.libcurl, some opts, some {}, []⟩ := by
    unfold sendLimit
    rw [show (some ({} : Response)).isSome = true from rfl, h]
    rfl
  have hcb : proxyCb dest c r 0 ⟨{ header := H }, false, user⟩ = (0, ⟨{ header := H }, false, user ++ [opts]⟩) := by
    unfold proxyCb callbackGet
    rw [h1]
    simp only [Res.ok_bind, h2, hs]
    rfl
  exact ⟨_, dispatch_single cfg (proxyCb dest c r) dflt user hH hcb (.inl rfl) rfl rfl ⟨hHd, rfl, rfl, fun b hb => by cases hb⟩ ht⟩

/-! ## Cases -/

/-- A server without default headers whose libmicrohttpd takes every line. -/
private def plainCfg : Cfg (List (List Opt)) := ⟨fun _ _ _ => true, fun _ => .failed, none, none⟩

/-- The request made by the proxy. -/
private def requestMade (c : Curl) (r : Request) : Option (List Opt) :=
  match callbackGet b!"https://o" c r ⟨{}, false, []⟩ with
  | .ok (_, w) => w.user.head?
  | .ub => none

/-- The answer of the proxy. -/
private def answerMade (cfg : Cfg (List (List Opt))) (c : Curl) (r : Request) : Option Ans :=
  match dispatch cfg [proxyCb b!"https://o" c r] none [] with
  | .ok (a, _) => a
  | .ub => none

/-- A request as it comes from a client. -/
private def fromClient (hs : List (Bytes × Option Bytes)) : Request :=
  { verb := some b!"GET", url := some b!"/p", urlPath := some b!"/p", mapHeader := buildMap hs }

private def page : Curl := answering ⟨[b!"HTTP/1.1 200 OK\r\n", b!"Content-Type: text/html\r\n", b!"X-Id: 7\r\n", b!"\r\n"],
  [b!"<p>", b!"</p>"], some 200, some []⟩

example : answerMade plainCfg page (fromClient [(b!"Host", some b!"proxy"), (b!"Accept", some b!"*/*")]) =
    some ⟨200, none, [(b!"Content-Type", b!"text/html"), (b!"X-Id", b!"7")], .buffer b!"<p></p>"⟩ := by decide +kernel

example : (requestMade page (fromClient [(b!"Host", some b!"proxy"), (b!"Accept", some b!"*/*")])).map (fun o =>
    ((transferOf o).method, (transferOf o).url, readHeaders (transferOf o).headerText [])) =
    some (some b!"GET", some b!"https://o/p", [(b!"Accept", b!"*/*")]) := by decide +kernel

/-- C160 is false for parameters: the URL of the request has them already, and those of `map_url` are added, so that the origin, if it
uses the library too, sees another value. -/
theorem C160_query_false :
    (requestMade page { fromClient [] with url := some b!"/p?a=1", mapUrl := oneParam }).map (fun o => (transferOf o).url) =
      some (some b!"https://o/p?a=1&a=1") ∧
    Spec.Arguments.Reported (queryParams b!"https://o/p?a=1&a=1") [(b!"a", some b!"1"), (b!"a", some b!"1")] ∧
    Endpoint.collect true [(b!"a", some b!"1"), (b!"a", some b!"1")] [] = [(b!"a", some b!"1,1")] := by
  refine ⟨by decide +kernel, ?_, by decide⟩
  have e : queryParams b!"https://o/p?a=1&a=1" = [b!"a=1", b!"a=1"] := by decide
  rw [e]
  refine ⟨⟨?_, ?_⟩, ⟨?_, ?_⟩, trivial⟩ <;> exact .plain _ _ _ (by decide) (by decide) (by decide) .nil

/-- C160 is false for a client that writes `host` in lower case, as many do: the origin is asked for the host of the proxy. -/
theorem C160_host_false :
    (requestMade page (fromClient [(b!"host", some b!"proxy")])).map (fun o => readHeaders (transferOf o).headerText []) =
      some [(b!"host", b!"proxy")] := by decide +kernel

/-- An origin that codes its page, and a libcurl that decodes it when it is told which codings are accepted. -/
private def codedPage (packed plain : Bytes) : Curl where
  perform opts := ⟨[b!"HTTP/1.1 200 OK\r\n", b!"Content-Encoding: gzip\r\n", b!"\r\n"],
    [if (transferOf opts).decode.isSome then plain else packed], some 200, some []⟩

/-- C160 is false for every client that accepts codings, as all browsers do: libcurl decodes the body, the proxy still announces the
coding. -/
theorem C160_coding_false (packed : Bytes) :
    answerMade plainCfg (codedPage packed b!"<p></p>") (fromClient [(b!"Accept-Encoding", some b!"gzip")]) =
      some ⟨200, none, [(b!"Content-Encoding", b!"gzip")], .buffer b!"<p></p>"⟩ := by rfl

/-- C160 is false for cookies: a cookie of the origin is set twice, the second time with attributes the origin did not give. -/
theorem C160_cookie_false :
    answerMade plainCfg (answering ⟨[b!"HTTP/1.1 200 OK\r\n", b!"Set-Cookie: a=1\r\n", b!"\r\n"], [], some 200,
        some [b!"o\tFALSE\t/\tFALSE\t0\ta\t1"]⟩) (fromClient []) =
      some ⟨200, none, [(b!"Set-Cookie", b!"a=1"), (b!"Set-Cookie", b!"a=1; Expires=0; Domain=o; Path=/")], .buffer []⟩ := by decide +kernel

/-- C160 is false when libmicrohttpd does not take the length of the body from the application: the headers behind it are lost. -/
theorem C160_length_false :
    answerMade { plainCfg with accept := fun _ k _ => !(k == b!"Content-Length") }
      (answering ⟨[b!"HTTP/1.1 200 OK\r\n", b!"Content-Length: 7\r\n", b!"Content-Type: text/html\r\n", b!"\r\n"],
        [b!"<p></p>"], some 200, some []⟩) (fromClient []) = some ⟨200, none, [], .buffer b!"<p></p>"⟩ := by decide +kernel

end Verif.Props
