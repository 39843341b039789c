import Verif.Lemmas.Options
/-! # Properties of the option lists of requests and responses, and of JSON bodies -/
namespace Verif.Props
open Verif.UMap Verif.Message Verif.Options
open Verif.Spec.OMap (OMap Code)
open Verif.Spec.Options (Arg Opt Ideal lastOf plain isJson)

/-! ## C112 -/

/-- **C112, partial.** Any list of options on any request: the call has no undefined behaviour, returns the documented code, and
the request then shows what the options up to the first refused one describe; the refused option and those after it change
nothing (the request is the one the accepted options alone give), and neither do the options touch the other fields. Missing: a
text of the request itself, NULL appended to the URL, and timeouts of 2^31 or more, for which it is false (`C112_own_false`,
`C112_append_false`, `C112_timeout_false`). -/
theorem C112_options_partial (r : Request) (i : Ideal) (os : List Opt) (h : Describes r i) (hv : ∀ o ∈ os, ValidOpt o) :
    ∃ r', setRequestProperties r os = .ok (rcOf (i.set os).1, r') ∧ Describes r' (i.set os).2 ∧ SameRest r r' ∧
      ((i.set os).1 ≠ .done → ∃ done o rest, os = done ++ o :: rest ∧ setRequestProperties r done = .ok (.ok, r')) :=
  options_run os h hv

private theorem step_params (i : Ideal) (o : Opt) (_ : (i.step o).1 = .done) :
    (i.step o).2.params = (Spec.OMap.run i.params (Spec.Options.paramOps o)).2 := by
  cases o with
  | param k v => cases k <;> rfl
  | paramRemove k => cases k <;> rfl
  | binaryBody b n => cases b with
    | none => rfl
    | some b => simp only [Ideal.step]; split <;> rfl
  | urlAppend s => cases s <;> rfl
  | stringBody s => cases s <;> rfl
  | jsonBody s => cases s <;> rfl
  | _ => rfl

private theorem step_headers (i : Ideal) (o : Opt) (_ : (i.step o).1 = .done) :
    (i.step o).2.headers = (Spec.OMap.run i.headers (Spec.Options.headerOps o)).2 := by
  cases o with
  | header k v => cases k <;> rfl
  | headerRemove k => cases k <;> rfl
  | binaryBody b n => cases b with
    | none => rfl
    | some b => simp only [Ideal.step]; split <;> rfl
  | urlAppend s => cases s <;> rfl
  | stringBody s => cases s <;> rfl
  | jsonBody s => cases s <;> rfl
  | _ => rfl

private theorem step_cookies (i : Ideal) (o : Opt) (_ : (i.step o).1 = .done) :
    (i.step o).2.cookies = (Spec.OMap.run i.cookies (Spec.Options.cookieOps o)).2 := by
  cases o with
  | cookie k v => cases k <;> rfl
  | cookieRemove k => cases k <;> rfl
  | binaryBody b n => cases b with
    | none => rfl
    | some b => simp only [Ideal.step]; split <;> rfl
  | urlAppend s => cases s <;> rfl
  | stringBody s => cases s <;> rfl
  | jsonBody s => cases s <;> rfl
  | _ => rfl

private theorem step_form (i : Ideal) (o : Opt) (_ : (i.step o).1 = .done) :
    (i.step o).2.form = (Spec.OMap.run i.form (Spec.Options.formOps o)).2 := by
  cases o with
  | form k v => cases k <;> rfl
  | formRemove k => cases k <;> rfl
  | binaryBody b n => cases b with
    | none => rfl
    | some b => simp only [Ideal.step]; split <;> rfl
  | urlAppend s => cases s <;> rfl
  | stringBody s => cases s <;> rfl
  | jsonBody s => cases s <;> rfl
  | _ => rfl

/-- **C112, partial.** When the call succeeds, every setting has the value last given to it, or its former value, the maps are what
the options do to an insertion-ordered map in their order, and the body is the last one given. Same cases missing as above. -/
theorem C112_last_partial (r r' : Request) (i : Ideal) (os : List Opt) (h : Describes r i) (hv : ∀ o ∈ os, ValidOpt o)
    (hok : setRequestProperties r os = .ok (.ok, r')) :
    r'.verb = lastOf Spec.Options.verbOf r.verb os ∧
    r'.proxy = lastOf Spec.Options.proxyOf r.proxy os ∧
    r'.caPath = lastOf Spec.Options.caPathOf r.caPath os ∧
    r'.user = lastOf Spec.Options.userOf r.user os ∧
    r'.password = lastOf Spec.Options.passwordOf r.password os ∧
    r'.certFile = lastOf Spec.Options.certFileOf r.certFile os ∧
    r'.keyFile = lastOf Spec.Options.keyFileOf r.keyFile os ∧
    r'.keyPassword = lastOf Spec.Options.keyPasswordOf r.keyPassword os ∧
    r'.network = lastOf Spec.Options.networkOf r.network os ∧
    r'.checkServer = lastOf Spec.Options.checkServerOf r.checkServer os ∧
    r'.serverFlag = lastOf Spec.Options.serverFlagOf r.serverFlag os ∧
    r'.checkProxy = lastOf Spec.Options.checkProxyOf r.checkProxy os ∧
    r'.proxyFlag = lastOf Spec.Options.proxyFlagOf r.proxyFlag os ∧
    r'.followRedirect = lastOf Spec.Options.followOf r.followRedirect os ∧
    r'.timeout = lastOf Spec.Options.timeoutOf r.timeout os ∧
    HoldsParams r'.mapUrl (Spec.OMap.run i.params (os.flatMap Spec.Options.paramOps)).2 ∧
    HoldsParams r'.mapHeader (Spec.OMap.run i.headers (os.flatMap Spec.Options.headerOps)).2 ∧
    HoldsParams r'.mapCookie (Spec.OMap.run i.cookies (os.flatMap Spec.Options.cookieOps)).2 ∧
    HoldsParams r'.mapPost (Spec.OMap.run i.form (os.flatMap Spec.Options.formOps)).2 ∧
    bodyOf r'.body r'.bodyLen = lastOf Spec.Options.bodyOf (bodyOf r.body r.bodyLen) os ∧
    r'.bodyLen = (bodyOf r'.body r'.bodyLen).length := by
  obtain ⟨r1, e1, e2, _, _⟩ := options_run os h hv
  rw [e1] at hok
  simp only [Res.ok.injEq, Prod.mk.injEq] at hok
  obtain ⟨hd, rfl⟩ := hok
  rw [rcOf_ok] at hd
  have txt : ∀ (cur : Option Bytes) (a : Arg), a ≠ .own → Spec.Options.given cur a = plain a := by
    intro cur a ha
    cases a with
    | null => rfl
    | own => exact absurd rfl ha
    | text s => cases s <;> rfl
  refine ⟨?_, ?_, ?_, ?_, ?_, ?_, ?_, ?_, ?_, ?_, ?_, ?_, ?_, ?_, ?_, ?_, ?_, ?_, ?_, ?_, ?_⟩
  · rw [e2.verb, h.verb]
    exact ideal_last (·.verb) _ (by
      intro i o hv hd
      cases o <;> first | rfl | (cases ‹Option Bytes› <;> first | rfl | (simp only [Ideal.step]; split <;> rfl)) | exact txt _ _ hv) os i hv hd
  · rw [e2.proxy, h.proxy]
    exact ideal_last (·.proxy) _ (by
      intro i o hv hd
      cases o <;> first | rfl | (cases ‹Option Bytes› <;> first | rfl | (simp only [Ideal.step]; split <;> rfl)) | exact txt _ _ hv) os i hv hd
  · rw [e2.caPath, h.caPath]
    exact ideal_last (·.caPath) _ (by
      intro i o hv hd
      cases o <;> first | rfl | (cases ‹Option Bytes› <;> first | rfl | (simp only [Ideal.step]; split <;> rfl)) | exact txt _ _ hv) os i hv hd
  · rw [e2.user, h.user]
    exact ideal_last (·.user) _ (by
      intro i o hv hd
      cases o <;> first | rfl | (cases ‹Option Bytes› <;> first | rfl | (simp only [Ideal.step]; split <;> rfl)) | exact txt _ _ hv | exact txt _ _ hv.1) os i hv hd
  · rw [e2.password, h.password]
    exact ideal_last (·.password) _ (by
      intro i o hv hd
      cases o <;> first | rfl | (cases ‹Option Bytes› <;> first | rfl | (simp only [Ideal.step]; split <;> rfl)) | exact txt _ _ hv | exact txt _ _ hv.2) os i hv hd
  · rw [e2.certFile, h.certFile]
    exact ideal_last (·.certFile) _ (by
      intro i o hv hd
      cases o <;> first | rfl | (cases ‹Option Bytes› <;> first | rfl | (simp only [Ideal.step]; split <;> rfl)) | exact txt _ _ hv) os i hv hd
  · rw [e2.keyFile, h.keyFile]
    exact ideal_last (·.keyFile) _ (by
      intro i o hv hd
      cases o <;> first | rfl | (cases ‹Option Bytes› <;> first | rfl | (simp only [Ideal.step]; split <;> rfl)) | exact txt _ _ hv) os i hv hd
  · rw [e2.keyPassword, h.keyPassword]
    exact ideal_last (·.keyPassword) _ (by
      intro i o hv hd
      cases o <;> first | rfl | (cases ‹Option Bytes› <;> first | rfl | (simp only [Ideal.step]; split <;> rfl)) | exact txt _ _ hv) os i hv hd
  · rw [e2.network, h.network]
    exact ideal_last (·.network) _ (by
      intro i o hv hd
      cases o <;> first | rfl | (cases ‹Option Bytes› <;> first | rfl | (simp only [Ideal.step]; split <;> rfl))) os i hv hd
  · rw [e2.checkServer, h.checkServer]
    exact ideal_last (·.checkServer) _ (by
      intro i o hv hd
      cases o <;> first | rfl | (cases ‹Option Bytes› <;> first | rfl | (simp only [Ideal.step]; split <;> rfl))) os i hv hd
  · rw [e2.serverFlag, h.serverFlag]
    exact ideal_last (·.serverFlag) _ (by
      intro i o hv hd
      cases o <;> first | rfl | (cases ‹Option Bytes› <;> first | rfl | (simp only [Ideal.step]; split <;> rfl))) os i hv hd
  · rw [e2.checkProxy, h.checkProxy]
    exact ideal_last (·.checkProxy) _ (by
      intro i o hv hd
      cases o <;> first | rfl | (cases ‹Option Bytes› <;> first | rfl | (simp only [Ideal.step]; split <;> rfl))) os i hv hd
  · rw [e2.proxyFlag, h.proxyFlag]
    exact ideal_last (·.proxyFlag) _ (by
      intro i o hv hd
      cases o <;> first | rfl | (cases ‹Option Bytes› <;> first | rfl | (simp only [Ideal.step]; split <;> rfl))) os i hv hd
  · rw [e2.follow, h.follow]
    exact ideal_last (·.follow) _ (by
      intro i o hv hd
      cases o <;> first | rfl | (cases ‹Option Bytes› <;> first | rfl | (simp only [Ideal.step]; split <;> rfl))) os i hv hd
  · rw [e2.timeout, h.timeout]
    exact ideal_last (·.timeout) _ (by
      intro i o hv hd
      cases o <;> first | rfl | (cases ‹Option Bytes› <;> first | rfl | (simp only [Ideal.step]; split <;> rfl))) os i hv hd
  · rw [← ideal_map (·.params) Spec.Options.paramOps (by intro i o hd; exact step_params i o hd) os i hd]
    exact e2.params
  · rw [← ideal_map (·.headers) Spec.Options.headerOps (by intro i o hd; exact step_headers i o hd) os i hd]
    exact e2.headers
  · rw [← ideal_map (·.cookies) Spec.Options.cookieOps (by intro i o hd; exact step_cookies i o hd) os i hd]
    exact e2.cookies
  · rw [← ideal_map (·.form) Spec.Options.formOps (by intro i o hd; exact step_form i o hd) os i hd]
    exact e2.form
  · rw [e2.body, h.body]
    exact ideal_last (·.body) _ (by
      intro i o hv hd
      cases o <;> first | rfl | (cases ‹Option Bytes› <;> first | rfl | (simp only [Ideal.step] at hd ⊢; split at hd <;> first | (rw [if_neg (by assumption)]; rfl) | cases hd))) os i hv hd
  · rw [e2.body, e2.bodyLen]


/-- a request with a verb and a header, and options that set, append, overwrite, remove and are finally refused -/
private def sampleOptions : List Opt :=
  [.verb (.text b!"POST"), .url (.text b!"http://a/"), .urlAppend (some b!"b"), .auth (.text b!"u") (.text b!"p"), .verb (.text b!""),
   .param (some b!"k") (some b!"1"), .header (some b!"X") none, .param (some b!"k") (some b!"2"), .timeout 30,
   .stringBody (some b!"hello"), .jsonBody (some b!"{}"), .headerRemove (some b!"X"), .cookieRemove (some b!"none"), .timeout 31]

/-- a new request -/
private def newRequest : Ideal := { network := 0x11, checkServer := 1, serverFlag := 0x11, checkProxy := 1, proxyFlag := 0x11 }

example : (∀ o ∈ sampleOptions, ValidOpt o) ∧ Describes {} newRequest ∧
    newRequest.set sampleOptions =
      (.notFound, {
        url := some b!"http://a/b", user := some b!"u", password := some b!"p", network := 0x11,
        checkServer := 1, serverFlag := 0x11, checkProxy := 1, proxyFlag := 0x11, params := [(b!"k", some b!"2")], timeout := 30,
        body := b!"{}", headers := [(b!"Content-Type", some b!"application/json")] }) := by
  refine ⟨?_, ?_, by decide +kernel⟩
  · intro o ho
    simp only [sampleOptions, List.mem_cons, List.not_mem_nil, or_false] at ho
    rcases ho with rfl | rfl | rfl | rfl | rfl | rfl | rfl | rfl | rfl | rfl | rfl | rfl | rfl | rfl <;>
      first
      | trivial
      | (show _ ≠ _; decide)
      | (show _ < _; decide)
      | exact ⟨by decide, by decide⟩
      | exact ⟨by intro x hx; cases hx; decide, by intro x hx; cases hx <;> decide⟩
  · exact ⟨rfl, rfl, rfl, rfl, rfl, rfl, rfl, rfl, rfl, rfl, rfl, rfl, rfl, holds_init, holds_init, holds_init, holds_init, rfl, rfl,
      rfl, rfl, rfl⟩

/-- C112 is false of a text of the request itself, here the URL of any request that has one: it is freed before it is read. -/
theorem C112_own_false (r : Request) (u : Bytes) (h : r.url = some u) (rest : List Opt) :
    setRequestProperties r (.url .own :: rest) = .ub := by
  simp only [setRequestProperties, setRequestOption, h, setText]
  rfl

/-- C112 is false of NULL appended to the URL: the text "(null)" is appended. -/
theorem C112_append_false :
    setRequestProperties { url := some b!"http://a/" } [.urlAppend none] = .ok (.ok, { url := some b!"http://a/(null)" }) := by
  decide +kernel

/-- C112 is false of a timeout of 2^31 seconds or more: the argument is documented as `unsigned long` and read as `int`. -/
theorem C112_timeout_false :
    setRequestProperties {} [.timeout (2 ^ 31)] = .ok (.ok, { timeout := 2 ^ 64 - 2 ^ 31 }) ∧
    setRequestProperties {} [.timeout (2 ^ 32)] = .ok (.ok, { timeout := 0 }) := by
  decide +kernel

/-! ## C113 -/

/-- Which setting of a response an option gives a value to. -/
def statusGiven : RespOpt → Option Nat | .status n => some n | _ => none
/-- The realm; an empty one is none. -/
def realmGiven : RespOpt → Option (Option Bytes) | .realm (some (c :: t)) => some (some (c :: t)) | .realm _ => some none | _ => none
/-- The shared data. -/
def sharedGiven : RespOpt → Option (Option Nat) | .shared d => some d | _ => none
/-- The timeout. -/
def timeoutGiven : RespOpt → Option Nat | .timeout n => some n | _ => none
/-- The body. -/
def bodyGiven : RespOpt → Option Bytes
  | .binaryBody (some b) n => some (b.take n)
  | .stringBody (some s) => some s
  | .jsonBody (some t) => some t
  | _ => none
/-- The operations on the headers. -/
def headerGiven : RespOpt → List Spec.OMap.Op
  | .header (some k) v => [.put k v]
  | .headerRemove (some k) => [.removeKey k]
  | .jsonBody (some _) => [.put b!"Content-Type" (some b!"application/json")]
  | _ => []

/-- The documented result of an option when the response has these headers. -/
def resultOf (hs : OMap) : RespOpt → Code
  | .header none _ => .badParams
  | .header (some k) _ => if k = [] then .badParams else .done
  | .headerRemove none => .badParams
  | .headerRemove (some k) => if hs.any (fun p => p.1 == k) then .done else .notFound
  | .binaryBody none _ => .badParams
  | .binaryBody (some _) n => if n = 0 then .badParams else .done
  | .stringBody none => .badParams
  | .jsonBody none => .badParams
  | .other => .badParams
  | _ => .done

/-- Arguments of an option: C strings that fit in memory, readable blocks, numbers in the range of `unsigned int`. -/
def ValidRespOpt : RespOpt → Prop
  | .status n => n < 2 ^ 32
  | .header k v => ValidPair k v
  | .binaryBody b n => ∀ x, b = some x → n ≤ x.length
  | _ => True

/-- The response shows these settings, is otherwise the former one. -/
structure RespShows (r r' : Response) (st : Nat) (hs : OMap) (re : Option Bytes) (bd : Bytes) (sh : Option Nat)
    (ti : Nat) : Prop where
  status : r'.status = st
  headers : HoldsParams r'.header hs
  realm : r'.realm = re
  body : bodyOf r'.body r'.bodyLen = bd
  bodyLen : r'.bodyLen = bd.length
  shared : r'.shared = sh
  timeout : r'.timeout = ti
  rest : r'.protocol = r.protocol ∧ r'.cookies = r.cookies ∧ r'.stream = r.stream ∧ r'.freeShared = r.freeShared ∧ r'.ws = r.ws

private theorem resp_step (r : Response) (hs : OMap) (h : HoldsParams r.header hs) (hst : r.status < 2 ^ 32)
    (hb : r.bodyLen = (bodyOf r.body r.bodyLen).length) (o : RespOpt) (hv : ValidRespOpt o) :
    ∃ r', setOption r o = .ok (rcOf (resultOf hs o), r') ∧ r'.status < 2 ^ 32 ∧ (resultOf hs o ≠ .done → r' = r) ∧
      (resultOf hs o = .done → RespShows r r' ((statusGiven o).getD r.status) (Spec.OMap.run hs (headerGiven o)).2
        ((realmGiven o).getD r.realm) ((bodyGiven o).getD (bodyOf r.body r.bodyLen)) ((sharedGiven o).getD r.shared)
        ((timeoutGiven o).getD r.timeout)) := by
  have base : RespShows r r r.status hs r.realm (bodyOf r.body r.bodyLen) r.shared r.timeout :=
    ⟨rfl, h, rfl, rfl, hb, rfl, rfl, rfl, rfl, rfl, rfl, rfl⟩
  have hm : r.status % 2 ^ 32 = r.status := Nat.mod_eq_of_lt hst
  cases o with
  | status n => exact ⟨{ r with status := n }, rfl, hv, fun hn => absurd rfl hn, fun _ => { base with status := rfl }⟩
  | header k v =>
    obtain ⟨m, e1, e2, e3⟩ := holds_added h k v hv
    cases k with
    | none => exact ⟨r, by cases v <;> rfl, hst, fun _ => rfl, fun hd => by cases hd⟩
    | some k =>
      by_cases hk : k = []
      · subst hk
        exact ⟨r, by cases v <;> rfl, hst, fun _ => rfl, fun hd => by cases hd⟩
      · refine ⟨{ r with header := m }, ?_, hst, ?_, ?_⟩
        · simp only [setOption, e1, resultOf, if_neg hk, Spec.Options.added, Spec.OMap.step]; rfl
        · intro hn; simp [resultOf, hk] at hn
        · intro _
          have : Spec.Options.added hs (some k) v = Spec.OMap.step hs (.put k v) := rfl
          rw [this] at e2
          exact { base with headers := e2 }
  | headerRemove k =>
    cases k with
    | none => exact ⟨r, rfl, hst, fun _ => rfl, fun hd => by cases hd⟩
    | some k =>
      obtain ⟨m, e1, e2, e3⟩ := holds_remove h k
      have hl : (Spec.OMap.step hs (.removeKey k)).1 = resultOf hs (.headerRemove (some k)) := by
        simp only [Spec.OMap.step, resultOf, Spec.OMap.lookup, Option.isSome_map]
        have : (List.find? (fun p => p.1 == k) hs).isSome = hs.any (fun p => p.1 == k) := by
          rw [Bool.eq_iff_iff, List.find?_isSome, List.any_eq_true]
        rw [this]
      rw [hl] at e1 e3
      exact ⟨{ r with header := m }, by simp only [setOption, e1]; rfl, hst, fun hn => by rw [e3 hn], fun _ => { base with headers := e2 }⟩
  | realm v =>
    refine ⟨{ r with realm := if v.getD [] = [] then none else v }, rfl, hst, fun hn => absurd rfl hn, fun _ => { base with realm := ?_ }⟩
    cases v with
    | none => rfl
    | some s => cases s <;> rfl
  | binaryBody b n =>
    cases b with
    | none => exact ⟨r, rfl, hst, fun _ => rfl, fun hd => by cases hd⟩
    | some b =>
      have hl := hv b rfl
      by_cases hn : n = 0
      · subst hn
        exact ⟨r, rfl, hst, fun _ => rfl, fun hd => by cases hd⟩
      · refine ⟨{ r with body := some (b.take n), bodyLen := n }, ?_, hst, ?_, ?_⟩
        · simp only [setOption, setBinaryBody, hn, if_false, if_pos hl, hm, resultOf]; rfl
        · intro hc; simp [resultOf, hn] at hc
        · intro _
          exact { base with
            body := by simp only [bodyOf, Option.getD_some, List.take_take, Nat.min_self, bodyGiven]
            bodyLen := by simp only [bodyGiven, Option.getD_some, List.length_take]; omega }
  | stringBody s =>
    cases s with
    | none => exact ⟨r, rfl, hst, fun _ => rfl, fun hd => by cases hd⟩
    | some s =>
      exact ⟨{ r with body := some (s ++ [0]), bodyLen := s.length }, by simp only [setOption, setStringBody, hm]; rfl, hst,
        fun hn => absurd rfl hn, fun _ => { base with body := by simp [bodyOf, bodyGiven], bodyLen := rfl }⟩
  | jsonBody t =>
    cases t with
    | none => exact ⟨r, rfl, hst, fun _ => rfl, fun hd => by cases hd⟩
    | some t =>
      obtain ⟨m, e1, e2⟩ := holds_put h b!"Content-Type" (some b!"application/json") (by decide) (by decide)
        (by intro x hx; cases hx; decide)
      exact ⟨{ r with body := some (t ++ [0]), bodyLen := t.length, header := m },
        by simp only [setOption, setJsonBody, e1, hm]; rfl, hst, fun hn => absurd rfl hn,
        fun _ => { base with headers := e2, body := by simp [bodyOf, bodyGiven], bodyLen := rfl }⟩
  | shared d => exact ⟨{ r with shared := d }, rfl, hst, fun hn => absurd rfl hn, fun _ => { base with shared := rfl }⟩
  | timeout n => exact ⟨{ r with timeout := n }, rfl, hst, fun hn => absurd rfl hn, fun _ => { base with timeout := rfl }⟩
  | other => exact ⟨r, rfl, hst, fun _ => rfl, fun hd => by cases hd⟩

/-- The results of the options one after the other, up to the first refused one. -/
def firstResult (hs : OMap) : List RespOpt → Code
  | [] => .done
  | o :: t => if resultOf hs o = .done then firstResult (Spec.OMap.run hs (headerGiven o)).2 t else resultOf hs o

private theorem lastOf_cons {α : Type} (f : RespOpt → Option α) (x : α) (o : RespOpt) (t : List RespOpt) :
    lastOf f x (o :: t) = lastOf f ((f o).getD x) t := by
  unfold lastOf
  rw [List.filterMap_cons]
  cases f o with
  | none => rfl
  | some v => simp only [Option.getD_some]; rw [List.getLast?_cons]; rfl

private theorem run_append (a b : List Spec.OMap.Op) : ∀ m : OMap,
    (Spec.OMap.run m (a ++ b)).2 = (Spec.OMap.run (Spec.OMap.run m a).2 b).2 := by
  induction a with
  | nil => intro m; rfl
  | cons x t ih => intro m; simp only [List.cons_append, Spec.OMap.run]; exact ih _

/-- **C113.** Any list of options on any response: no undefined behaviour; the code is the documented one of the first refused
option (or success); on success every setting has the value last given to it or its former value, the headers are what the options
do to an insertion-ordered map, and everything else (cookies, stream, websocket, the free function of the shared data) is as
before; on failure the response is the one the options before the refused one alone give. -/
theorem C113_options (os : List RespOpt) : ∀ (r : Response) (hs : OMap), HoldsParams r.header hs → r.status < 2 ^ 32 →
    r.bodyLen = (bodyOf r.body r.bodyLen).length → (∀ o ∈ os, ValidRespOpt o) →
    ∃ r', setProperties r os = .ok (rcOf (firstResult hs os), r') ∧
      (firstResult hs os = .done →
        RespShows r r' (lastOf statusGiven r.status os) (Spec.OMap.run hs (os.flatMap headerGiven)).2
          (lastOf realmGiven r.realm os) (lastOf bodyGiven (bodyOf r.body r.bodyLen) os) (lastOf sharedGiven r.shared os)
          (lastOf timeoutGiven r.timeout os)) ∧
      (firstResult hs os ≠ .done → ∃ done o rest, os = done ++ o :: rest ∧ firstResult hs done = .done ∧
        setProperties r done = .ok (.ok, r')) := by
  induction os with
  | nil =>
    intro r hs h hst hb _
    exact ⟨r, rfl, fun _ => ⟨rfl, h, rfl, rfl, hb, rfl, rfl, rfl, rfl, rfl, rfl, rfl⟩, fun hn => absurd rfl hn⟩
  | cons o t ih =>
    intro r hs h hst hb hv
    obtain ⟨r1, e1, e2, e3, e4⟩ := resp_step r hs h hst hb o (hv o List.mem_cons_self)
    by_cases hd : resultOf hs o = .done
    · have s1 := e4 hd
      obtain ⟨r2, f1, f2, f3⟩ := ih r1 _ s1.headers e2 (by rw [s1.body, s1.bodyLen])
        (fun x hx => hv x (List.mem_cons_of_mem _ hx))
      have hstep : ∀ l, setProperties r (o :: l) = setProperties r1 l := by
        intro l
        simp only [setProperties, e1, Res.ok_bind, hd]
        rw [if_pos (by rfl)]
      have hfr : ∀ l, firstResult hs (o :: l) = firstResult (Spec.OMap.run hs (headerGiven o)).2 l := by
        intro l
        simp only [firstResult, hd, if_true]
      refine ⟨r2, by rw [hstep, hfr, f1], ?_, ?_⟩
      · intro hfd
        rw [hfr] at hfd
        have s2 := f2 hfd
        refine ⟨?_, ?_, ?_, ?_, ?_, ?_, ?_, ?_⟩
        · rw [s2.status, s1.status, lastOf_cons]
        · rw [List.flatMap_cons, run_append]; exact s2.headers
        · rw [s2.realm, s1.realm, lastOf_cons]
        · rw [s2.body, s1.body, lastOf_cons]
        · rw [s2.bodyLen, s1.body, lastOf_cons]
        · rw [s2.shared, s1.shared, lastOf_cons]
        · rw [s2.timeout, s1.timeout, lastOf_cons]
        · exact ⟨s2.rest.1.trans s1.rest.1, s2.rest.2.1.trans s1.rest.2.1, s2.rest.2.2.1.trans s1.rest.2.2.1,
            s2.rest.2.2.2.1.trans s1.rest.2.2.2.1, s2.rest.2.2.2.2.trans s1.rest.2.2.2.2⟩
      · intro hn
        rw [hfr] at hn
        obtain ⟨done, o', rest, g1, g2, g3⟩ := f3 hn
        exact ⟨o :: done, o', rest, by rw [g1]; rfl, by rw [hfr, g2], by rw [hstep, g3]⟩
    · have hfr : firstResult hs (o :: t) = resultOf hs o := by simp only [firstResult, hd, if_false]
      refine ⟨r1, ?_, ?_, ?_⟩
      · rw [hfr]
        simp only [setProperties, e1, Res.ok_bind]
        rw [if_neg (by rw [rcOf_ok]; exact hd)]
        rfl
      · intro hc; rw [hfr] at hc; exact absurd hc hd
      · intro _
        exact ⟨[], o, t, rfl, rfl, by rw [e3 hd]; rfl⟩

/-- options that set, overwrite, remove and are finally refused -/
example :
    let os : List RespOpt := [.status 404, .header (some b!"X") (some b!"1"), .stringBody (some b!"abc"), .jsonBody (some b!"[]"),
      .headerRemove (some b!"X"), .realm (some b!""), .timeout 3, .headerRemove (some b!"Y"), .timeout 4]
    (∀ o ∈ os, ValidRespOpt o) ∧ firstResult [] os = .notFound ∧ firstResult [] (os.take 7) = .done ∧
    lastOf statusGiven 200 (os.take 7) = 404 ∧ lastOf bodyGiven [] (os.take 7) = b!"[]" ∧
    (Spec.OMap.run [] ((os.take 7).flatMap headerGiven)).2 = [(b!"Content-Type", some b!"application/json")] := by
  refine ⟨?_, by decide +kernel, by decide +kernel, by decide +kernel, by decide +kernel, by decide +kernel⟩
  intro o ho
  simp only [List.mem_cons, List.not_mem_nil, or_false] at ho
  rcases ho with rfl | rfl | rfl | rfl | rfl | rfl | rfl | rfl | rfl <;>
    first
    | trivial
    | (show _ < _; decide)
    | exact ⟨by intro x hx; cases hx; decide, by intro x hx; cases hx; decide⟩

/-! ## C114: JSON bodies come back -/

private theorem namesJson_holds {m : UMap} {hs : OMap} (h : HoldsParams m hs) :
    namesJson m = .ok (match hs.find? (fun p => eqCase p.1 b!"Content-Type") with
      | none => false
      | some p => contains b!"application/json" (p.2.getD [])) := by
  have h2 := (holds_case h b!"Content-Type").2
  unfold namesJson
  cases hf : hs.find? (fun p => eqCase p.1 b!"Content-Type") with
  | none =>
    rw [hf] at h2
    simp only at h2
    rw [h2]
    rfl
  | some p =>
    rw [hf] at h2
    obtain ⟨b, e1, e2⟩ := h2
    simp only [e1, Res.ok_bind, e2]
    rfl

theorem getJson_holds {m : UMap} {hs : OMap} (h : HoldsParams m hs) (body : Option Bytes) (len : Nat) :
    getJson m body len =
      if hs.countP (fun p => eqCase p.1 b!"Content-Type") = 1 ∧
        (∃ p, hs.find? (fun p => eqCase p.1 b!"Content-Type") = some p ∧ contains b!"application/json" (p.2.getD []) = true)
      then loadb body len else .ok none := by
  unfold getJson
  rw [(holds_case h b!"Content-Type").1, Res.ok_bind, namesJson_holds h]
  by_cases h1 : hs.countP (fun p => eqCase p.1 b!"Content-Type") = 1
  · rw [if_pos h1, Res.ok_bind]
    cases hf : hs.find? (fun p => eqCase p.1 b!"Content-Type") with
    | none =>
      refine Eq.trans ?_ (if_neg (by rintro ⟨_, p, hp, _⟩; cases hp)).symm
      rfl
    | some p =>
      cases hc : contains b!"application/json" (p.2.getD []) with
      | true =>
        refine Eq.trans ?_ (if_pos ⟨h1, p, rfl, hc⟩).symm
        simp only [hc, if_true]
      | false =>
        refine Eq.trans ?_ (if_neg (by rintro ⟨_, q, hq, hq2⟩; cases hq; rw [hc] at hq2; cases hq2)).symm
        simp only [hc]
        rfl
  · rw [if_neg h1, if_neg (fun hc => h1 hc.1)]
    rfl

/-- Every key that names the content type is spelled "Content-Type". -/
def PlainType (hs : OMap) : Prop := ∀ p ∈ hs, eqCase p.1 b!"Content-Type" = true → p.1 = b!"Content-Type"

theorem put_type (hs : OMap) (hn : (hs.map (·.1)).Nodup) (hp : PlainType hs) :
    (Spec.OMap.put hs b!"Content-Type" (some b!"application/json")).countP (fun p => eqCase p.1 b!"Content-Type") = 1 ∧
    (Spec.OMap.put hs b!"Content-Type" (some b!"application/json")).find? (fun p => eqCase p.1 b!"Content-Type") =
      some (b!"Content-Type", some b!"application/json") := by
  have hself : eqCase b!"Content-Type" b!"Content-Type" = true := by decide
  unfold Spec.OMap.put
  by_cases ha : hs.any (fun p => p.1 == b!"Content-Type") = true
  · rw [if_pos ha]
    induction hs with
    | nil => simp at ha
    | cons p t ih =>
      rw [List.map_cons, List.nodup_cons] at hn
      have hpt : PlainType t := fun q hq => hp q (List.mem_cons_of_mem _ hq)
      by_cases hk : p.1 = b!"Content-Type"
      · have hno : ∀ q ∈ t, eqCase q.1 b!"Content-Type" = false := by
          intro q hq
          cases he : eqCase q.1 b!"Content-Type" with
          | false => rfl
          | true =>
            exfalso
            exact hn.1 (by rw [hk, ← hpt q hq he]; exact List.mem_map.2 ⟨q, hq, rfl⟩)
        have hmap : t.map (fun q => if (q.1 == b!"Content-Type") = true then (b!"Content-Type", some b!"application/json") else q) = t := by
          rw [List.map_congr_left (g := id), List.map_id]
          intro q hq
          rw [if_neg]
          · rfl
          · intro hc
            have := hno q hq
            rw [beq_iff_eq.1 hc, hself] at this
            cases this
        rw [List.map_cons, if_pos (by rw [hk]; rfl), hmap, List.countP_cons_of_pos (by exact hself), List.find?_cons]
        simp only [hself]
        refine ⟨?_, trivial⟩
        rw [List.countP_eq_zero.2 (by intro q hq; rw [hno q hq]; decide)]
      · have hk' : ¬ ((p.1 == b!"Content-Type") = true) := by rw [beq_iff_eq]; exact hk
        have he : eqCase p.1 b!"Content-Type" = false := by
          cases he : eqCase p.1 b!"Content-Type" with
          | false => rfl
          | true => exact absurd (hp p List.mem_cons_self he) hk
        rw [List.any_cons, Bool.or_eq_true] at ha
        obtain ⟨i1, i2⟩ := ih hn.2 hpt (ha.resolve_left hk')
        rw [List.map_cons, if_neg hk', List.countP_cons_of_neg (by rw [he]; decide), List.find?_cons]
        simp only [he]
        exact ⟨i1, i2⟩
  · rw [if_neg ha]
    have hno : ∀ q ∈ hs, eqCase q.1 b!"Content-Type" = false := by
      intro q hq
      cases he : eqCase q.1 b!"Content-Type" with
      | false => rfl
      | true => exact absurd (List.any_eq_true.2 ⟨q, hq, by rw [hp q hq he]; rfl⟩) ha
    rw [List.countP_append, List.find?_append, List.countP_eq_zero.2 (by intro q hq; rw [hno q hq]; decide),
      List.find?_eq_none.2 (by intro q hq; rw [hno q hq]; decide)]
    exact ⟨by decide, by decide⟩

private theorem json_back {m m' : UMap} {hs : OMap} (h : HoldsParams m hs) (hp : PlainType hs)
    (e2 : HoldsParams m' (Spec.OMap.put hs b!"Content-Type" (some b!"application/json"))) (t : Bytes) :
    getJson m' (some (t ++ [0])) t.length = .ok (some t) := by
  obtain ⟨p1, p2⟩ := put_type hs (holds_nodup h) hp
  rw [getJson_holds e2, if_pos ⟨p1, _, p2, by decide⟩]
  simp [loadb]

/-- **C114, partial.** A JSON value set as the body of a request or of a response that has no content type header, or one spelled
"Content-Type" (whatever its value), is what the JSON parser then gets from `ulfius_get_json_body_request` or
`ulfius_get_json_body_response`: exactly the text made of the value. Missing: messages with the header in another spelling, for
which it is false (`C114_spelling_false`). -/
theorem C114_round_trip_partial (t : Bytes) (hs : OMap) (hp : PlainType hs) :
    (∀ r : Request, HoldsParams r.mapHeader hs → ∃ r', setJsonBodyReq r (some t) = .ok (.ok, r') ∧
      getJson r'.mapHeader r'.body r'.bodyLen = .ok (some t)) ∧
    (∀ (r : Response) (st : Nat), HoldsParams r.header hs → ∃ r', setJsonBody r st t = .ok r' ∧ r'.status = st ∧
      getJson r'.header r'.body r'.bodyLen = .ok (some t)) := by
  refine ⟨?_, ?_⟩
  · intro r h
    obtain ⟨m, e1, e2⟩ := holds_put h b!"Content-Type" (some b!"application/json") (by decide) (by decide)
      (by intro x hx; cases hx; decide)
    exact ⟨{ r with body := some (t ++ [0]), bodyLen := t.length, mapHeader := m }, by simp only [setJsonBodyReq, e1]; rfl,
      json_back h hp e2 t⟩
  · intro r st h
    obtain ⟨m, e1, e2⟩ := holds_put h b!"Content-Type" (some b!"application/json") (by decide) (by decide)
      (by intro x hx; cases hx; decide)
    exact ⟨{ r with body := some (t ++ [0]), bodyLen := t.length, status := st, header := m }, by simp only [setJsonBody, e1]; rfl,
      rfl, json_back h hp e2 t⟩

/-- a request that had a text body with its content type -/
example :
    let r : Request := { mapHeader := rep [⟨b!"Content-Type", strBuf b!"text/plain" ++ [some 0], 11⟩] }
    PlainType [(b!"Content-Type", some b!"text/plain")] ∧
    ∃ r', setJsonBodyReq r (some b!"[1]") = .ok (.ok, r') ∧ getJson r'.mapHeader r'.body r'.bodyLen = .ok (some b!"[1]") :=
  ⟨by intro p hp _; rw [List.mem_singleton.1 hp], _, rfl, by decide +kernel⟩

/-- C114 is false of a message that already has the header in another spelling: a second one is added, and the body just set is not
read back. -/
theorem C114_spelling_false :
    ∃ m r', UMap.put UMap.init (some b!"content-type") (some b!"application/json") = .ok (.ok, m) ∧
      setJsonBodyReq { mapHeader := m } (some b!"[1]") = .ok (.ok, r') ∧
      bodyOf r'.body r'.bodyLen = b!"[1]" ∧ getJson r'.mapHeader r'.body r'.bodyLen = .ok none := by
  refine ⟨_, _, rfl, rfl, by decide +kernel, by decide +kernel⟩

/-! ## C115: only JSON is read as JSON -/

/-- **C115, partial.** For every message: the text given to the JSON parser is always the whole body, and only when there is exactly
one content type header and its value contains "application/json"; the body is given to the parser whenever the only content type
header is "application/json", alone or followed by a ';'; without a body nothing is parsed. Missing: other spellings of the media type, and the media types and
parameters that merely contain this text, for which the statement is false (`C115_case_false`, `C115_other_false`). -/
theorem C115_media_partial (m : UMap) (hs : OMap) (h : HoldsParams m hs) (b : Bytes) (len : Nat) (hl : len ≤ b.length) :
    (∀ t, getJson m (some b) len = .ok (some t) → t = b.take len ∧
      ∃ v, hs.filter (fun p => eqCase p.1 b!"Content-Type") = [v] ∧ ∃ x y, v.2.getD [] = x ++ b!"application/json" ++ y) ∧
    (∀ k v rest, hs.filter (fun p => eqCase p.1 b!"Content-Type") = [(k, some v)] →
      (v = b!"application/json" ∨ v = b!"application/json;" ++ rest) →
      isJson v = true ∧ getJson m (some b) len = .ok (some (b.take len))) ∧
    getJson m none len = .ok none ∧ getJson m (some b) len ≠ .ub := by
  have hfind : ∀ (l : OMap) (p : Bytes × Option Bytes), l.find? (fun p => eqCase p.1 b!"Content-Type") = some p ↔
      ∃ t, l.filter (fun p => eqCase p.1 b!"Content-Type") = p :: t := by
    intro l p
    rw [← List.head?_filter]
    cases l.filter (fun p => eqCase p.1 b!"Content-Type") with
    | nil => simp
    | cons a t => simp
  refine ⟨?_, ?_, by rw [getJson_holds h]; split <;> rfl, by
    rw [getJson_holds h]
    split
    · simp only [loadb, if_pos hl]; exact fun h => nomatch h
    · exact fun h => nomatch h⟩
  · intro t ht
    rw [getJson_holds h] at ht
    split at ht
    · rename_i hc
      obtain ⟨h1, p, h2, h3⟩ := hc
      simp only [loadb, if_pos hl] at ht
      refine ⟨by simpa using ht.symm, p, ?_, contains_split _ _ h3⟩
      obtain ⟨u, hu⟩ := (hfind hs p).1 h2
      rw [List.countP_eq_length_filter, hu] at h1
      rw [hu]
      have : u = [] := List.length_eq_zero_iff.1 (by simpa using h1)
      rw [this]
    · cases ht
  · intro k v rest hf hv
    have hcon : contains b!"application/json" v = true ∧ isJson v = true := by
      rcases hv with rfl | rfl
      · exact ⟨by decide, by decide⟩
      · refine ⟨contains_append [] _ _, ?_⟩
        unfold isJson
        rw [show (b!"application/json;" ++ rest).takeWhile (· != 0x3b) = b!"application/json" from ?_]
        · decide
        · rfl
    refine ⟨hcon.2, ?_⟩
    rw [getJson_holds h, if_pos ⟨by rw [List.countP_eq_length_filter, hf]; rfl, _, (hfind hs _).2 ⟨[], hf⟩, hcon.1⟩]
    simp only [loadb, if_pos hl]

example :
    let m := rep [⟨b!"content-type", strBuf b!"application/json; charset=utf-8" ++ [some 0], 32⟩]
    getJson m (some b!"[1]") 3 = .ok (some b!"[1]") ∧ isJson b!"application/json; charset=utf-8" = true ∧
    ([(b!"content-type", some b!"x")] : OMap).filter (fun p => eqCase p.1 b!"Content-Type") = [(b!"content-type", some b!"x")] := by
  decide +kernel

/-- C115 is false of a content type in capitals: it means JSON and the body is not read. -/
theorem C115_case_false :
    isJson b!"Application/JSON" = true ∧
    ∃ m, UMap.put UMap.init (some b!"Content-Type") (some b!"Application/JSON") = .ok (.ok, m) ∧ getJson m (some b!"[1]") 3 = .ok none :=
  ⟨by decide, _, rfl, by decide +kernel⟩

/-- C115 is false of content types that only contain the text: they do not mean JSON and the body is read as JSON. -/
theorem C115_other_false :
    isJson b!"application/json-seq" = false ∧ isJson b!"text/plain; note=application/json" = false ∧
    (∃ m, UMap.put UMap.init (some b!"Content-Type") (some b!"application/json-seq") = .ok (.ok, m) ∧
      getJson m (some b!"[1]") 3 = .ok (some b!"[1]")) ∧
    (∃ m, UMap.put UMap.init (some b!"Content-Type") (some b!"text/plain; note=application/json") = .ok (.ok, m) ∧
      getJson m (some b!"[1]") 3 = .ok (some b!"[1]")) :=
  ⟨by decide, by decide, ⟨_, rfl, by decide +kernel⟩, ⟨_, rfl, by decide +kernel⟩⟩

/-! ## C116: the error structure is filled in -/

/-- All fields are written. -/
def Written (e : JsonError) : Prop :=
  e.line.isSome ∧ e.column.isSome ∧ e.position.isSome ∧ e.source.isSome ∧ e.text.isSome

/-- **C116, partial.** When `ulfius_get_json_body_request` refuses a request with at most one content type header, every field of
`json_error` is written and the text names the content type received (if it is short enough for the field). Missing: requests with several content
type headers, and responses, for which it is false (`C116_several_false`, `C116_response_false`). -/
theorem C116_error_partial (m : UMap) (hs : OMap) (h : HoldsParams m hs) (body : Option Bytes) (len : Nat)
    (h1 : hs.countP (fun p => eqCase p.1 b!"Content-Type") ≤ 1) (hnull : body ≠ none) (hbad : getJson m body len = .ok none) :
    ∃ e, jsonError m = .ok e ∧ Written e ∧
      ∀ p v, hs.find? (fun p => eqCase p.1 b!"Content-Type") = some p → p.2 = some v → v.length ≤ 60 →
        ∃ x y, e.text = some (x ++ b!"received '" ++ v ++ b!"'" ++ y) := by
  have hno : namesJson m = .ok false := by
    rw [namesJson_holds h]
    rw [getJson_holds h] at hbad
    cases hf : hs.find? (fun p => eqCase p.1 b!"Content-Type") with
    | none => rfl
    | some p =>
      cases hc : contains b!"application/json" (p.2.getD []) with
      | false => simp only [hc]
      | true =>
        have hsome := List.find?_some hf
        have hpos : 0 < hs.countP (fun p => eqCase p.1 b!"Content-Type") :=
          List.countP_pos_iff.2 ⟨p, List.mem_of_find?_eq_some hf, hsome⟩
        rw [if_pos ⟨by omega, p, hf, hc⟩] at hbad
        cases body with
        | none => exact absurd rfl hnull
        | some b => simp only [loadb] at hbad; split at hbad <;> cases hbad
  have h2 := (holds_case h b!"Content-Type").2
  unfold jsonError
  rw [hno, Res.ok_bind]
  cases hf : hs.find? (fun p => eqCase p.1 b!"Content-Type") with
  | none =>
    rw [hf] at h2
    simp only at h2
    rw [h2]
    exact ⟨_, rfl, ⟨rfl, rfl, rfl, rfl, rfl⟩, by intro p v hp; cases hp⟩
  | some p =>
    rw [hf] at h2
    obtain ⟨b, e1, e2⟩ := h2
    simp only [e1, Res.ok_bind, e2]
    refine ⟨_, rfl, ⟨rfl, rfl, rfl, rfl, rfl⟩, ?_⟩
    intro q v hq hv hl
    cases hq
    rw [hv]
    refine ⟨b!"HEADER content not valid. Expected containging 'application/json' in header - ", b!".", ?_⟩
    simp only [Option.getD_some]
    rw [List.take_of_length_le (by simp only [List.length_append, List.length_cons, List.length_nil]; omega)]
    simp

example :
    let m := rep [⟨b!"Content-type", strBuf b!"text/plain" ++ [some 0], 11⟩]
    getJson m (some b!"[1]") 3 = .ok none ∧ jsonError m = .ok {
      line := some 1, column := some 57, position := some 1, source := some b!"ulfius_get_json_body_request",
      text := some b!"HEADER content not valid. Expected containging 'application/json' in header - received 'text/plain'." } := by
  decide +kernel

/-- C116 is false of a request with two content type headers, the first of them JSON: nothing is parsed, and neither the column nor
the text of the error is written. -/
theorem C116_several_false :
    ∃ m m', UMap.put UMap.init (some b!"Content-Type") (some b!"application/json") = .ok (.ok, m) ∧
      UMap.put m (some b!"content-type") (some b!"application/json") = .ok (.ok, m') ∧
      getJson m' (some b!"[1]") 3 = .ok none ∧
      jsonError m' = .ok { line := some 1, position := some 1, source := some b!"ulfius_get_json_body_request" } :=
  ⟨_, _, rfl, rfl, by decide +kernel, by decide +kernel⟩

/-- C116 is false of responses: no field is ever written when nothing is parsed. -/
theorem C116_response_false : ¬ Written jsonErrorResp ∧ getJson UMap.init (some b!"[1]") 3 = .ok none := by
  refine ⟨?_, by decide +kernel⟩
  rintro ⟨h, _⟩
  cases h

end Verif.Props
