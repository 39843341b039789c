import Verif.Lemmas.SendTransfer
/-! # Properties C105–C111: sending HTTP requests -/
namespace Verif.Props
open Verif.UMap Verif.Message Verif.Client Verif.Send
open Verif.Spec.Curl
open Verif.Spec.Client (ParamTexts)
open Verif.Spec.Segments (pieces)

/-- Some call of `ulfius_send_http_request`, `…_with_limit` or the streaming functions for this request made a transfer with
these options. -/
def Performed (c : Curl) (r : Request) (resp : Option Response) (opts : List Opt) : Prop :=
  (∃ sink max o, sendStreaming c (some r) resp sink max = .ok o ∧ o.performed = some opts) ∨
  (∃ limit max o, sendLimit c (some r) resp limit max = .ok o ∧ o.performed = some opts)

private theorem perform_performed (c : Curl) (opts : List Opt) (max : Nat) (resp : Option Response) (o : Outcome)
    (h : perform c opts max resp = .ok o) : o.performed = some opts := by
  unfold perform at h
  cases resp with
  | none => simp only at h; injection h with h; rw [← h]
  | some r =>
    simp only at h
    cases hw : writeHeaders max { map := r.header, protocol := r.protocol, counter := 0 } (c.perform opts).lines with
    | ub => rw [hw] at h; cases h
    | ok hd =>
      rw [hw] at h
      simp only [Res.ok_bind] at h
      cases hs : (c.perform opts).status with
      | none => rw [hs] at h; simp only at h; injection h with h; rw [← h]
      | some st =>
        rw [hs] at h
        simp only at h
        cases hc : (c.perform opts).cookies with
        | none => rw [hc] at h; simp only at h; injection h with h; rw [← h]
        | some ls =>
          rw [hc] at h
          simp only at h
          generalize cookieList _ {} ls = x at h
          cases x with
          | ub => cases h
          | ok y => simp only [Res.ok_bind] at h; injection h with h; rw [← h]

private theorem stream_performed (c : Curl) {r : Request} {l : Lists} (w : Wants r l) (resp : Option Response) (sink : Sink)
    (max : Nat) (o : Outcome) (opts : List Opt) (h : sendStreaming c (some r) resp sink max = .ok o)
    (hp : o.performed = some opts) : Plan r l sink resp.isSome opts ∧ AllAccepted c opts := by
  cases hi : c.init with
  | false =>
    obtain ⟨a, mu, mh, mc, mp, d1, -⟩ := duplicate_ok w
    unfold sendStreaming at h
    simp only [d1, Res.ok_bind, hi, Bool.false_eq_true, if_false] at h
    injection h with h
    rw [← h] at hp
    cases hp
  | true =>
    obtain ⟨opts', h1, h2⟩ := send_cases c hi w resp sink max
    rcases h2 with ⟨h2, h3⟩ | ⟨done, x, rest, h2, h3, h4⟩
    · rw [h3] at h
      rw [perform_performed c opts' max resp o h] at hp
      injection hp with hp
      subst hp
      exact ⟨h1, h2⟩
    · rw [h4] at h
      split at h
      · cases h
      · injection h with h
        rw [← h] at hp
        cases hp

private theorem limit_performed (c : Curl) (r : Request) (resp : Option Response) (limit max : Nat) (o : Outcome) (opts : List Opt)
    (h : sendLimit c (some r) resp limit max = .ok o) (hp : o.performed = some opts) :
    ∃ o', sendStreaming c (some r) resp ⟨true, resp.isSome⟩ max = .ok o' ∧ o'.performed = some opts := by
  unfold sendLimit at h
  cases hs : sendStreaming c (some r) resp ⟨true, resp.isSome⟩ max with
  | ub => rw [hs] at h; cases h
  | ok o' =>
    refine ⟨o', rfl, ?_⟩
    rw [hs] at h
    simp only [Res.ok_bind] at h
    obtain ⟨code, perf, rs, ch⟩ := o'
    simp only at h ⊢
    cases code <;> cases rs <;> simp only at h
    case ok.some x =>
      cases hr : received limit ch with
      | none => rw [hr] at h; simp only at h; injection h with h; rw [← h] at hp; exact hp
      | some b => rw [hr] at h; simp only at h; injection h with h; rw [← h] at hp; exact hp
    all_goals injection h with h; rw [← h] at hp; exact hp

theorem performed_plan {c : Curl} {r : Request} {l : Lists} (w : Wants r l) {resp : Option Response} {opts : List Opt}
    (h : Performed c r resp opts) : (∃ sink, Plan r l sink resp.isSome opts) ∧ AllAccepted c opts := by
  rcases h with ⟨sink, max, o, h1, h2⟩ | ⟨limit, max, o, h1, h2⟩
  · obtain ⟨a, b⟩ := stream_performed c w resp sink max o opts h1 h2
    exact ⟨⟨_, a⟩, b⟩
  · obtain ⟨o', h3, h4⟩ := limit_performed c r resp limit max o opts h1 h2
    obtain ⟨a, b⟩ := stream_performed c w resp _ max o' opts h3 h4
    exact ⟨⟨_, a⟩, b⟩

/-! ## A sample request -/

/-- A map with one header. -/
def sampleHeader : UMap :=
  match UMap.put UMap.init (some b!"X-Id") (some b!"7") with
  | .ok (_, m) => m
  | .ub => UMap.init

theorem sampleHeader_holds : HoldsParams sampleHeader [(b!"X-Id", some b!"7")] := by
  obtain ⟨m, h1, h2⟩ := holds_put holds_init b!"X-Id" (some b!"7") (by decide) (by decide)
    (by intro x hx; injection hx with hx; subst hx; exact ⟨by decide, by decide⟩)
  have : sampleHeader = m := by unfold sampleHeader; rw [h1]
  rw [this]
  exact h2

/-- A request with URL parameters, a header, and a body, for which the host name is not to be checked. -/
def sampleRequest : Request :=
  { verb := some b!"PUT", url := some b!"https://h/p", mapUrl := sampleParams, mapHeader := sampleHeader, serverFlag := 1,
    body := some b!"xyz", bodyLen := 2, user := some b!"me" }

def sampleLists : Lists :=
  { url := [(b!"a b", some b!"1&2"), (b!"k", none)], header := [(b!"X-Id", some b!"7")] }

theorem sample_wants : Wants sampleRequest sampleLists where
  url := sampleParams_holds
  header := sampleHeader_holds
  cookie := holds_init
  post := holds_init
  urlFit := by
    intro p hp v hv
    simp only [sampleLists, List.mem_cons, List.not_mem_nil, or_false] at hp
    rcases hp with rfl | rfl
    · injection hv with hv; subst hv; decide
    · cases hv
  headerFit := by
    intro p hp v hv
    simp only [sampleLists, List.mem_cons, List.not_mem_nil, or_false] at hp
    subst hp
    injection hv with hv; subst hv; decide
  cookieFit := by intro p hp; cases hp
  postFit := by intro p hp; cases hp
  body := Or.inr ⟨_, rfl, by decide⟩
  address := by intro a h; cases h

/-- What `ulfius_send_http_request` asks of a libcurl that accepts everything. -/
def askedOf (r : Request) : Option (List Opt) :=
  match sendLimit {} (some r) (some {}) 0 0 with
  | .ok o => o.performed
  | .ub => none

theorem asked_performed (r : Request) (opts : List Opt) (h : askedOf r = some opts) : Performed {} r (some {}) opts := by
  right
  refine ⟨0, 0, ?_⟩
  unfold askedOf at h
  cases hs : sendLimit {} (some r) (some {}) 0 0 with
  | ub => rw [hs] at h; cases h
  | ok o => rw [hs] at h; exact ⟨o, rfl, h⟩

/-- The options of the sample transfer. -/
def sampleOptions : List Opt := (askedOf sampleRequest).getD []

theorem sample_performed : Performed {} sampleRequest (some {}) sampleOptions := by
  apply asked_performed
  have h : (askedOf sampleRequest).isSome = true := by decide +kernel
  unfold sampleOptions
  cases ha : askedOf sampleRequest with
  | none => rw [ha] at h; cases h
  | some x => rfl

/-! ## C105 -/

/-- C105. In every transfer made for a request, the certificate of the server (its name) is checked exactly when server checks
are on and the peer (host name) flag is set; likewise for the proxy; the authorities are those of the request. -/
theorem C105_tls {c : Curl} {r : Request} {l : Lists} (w : Wants r l) {resp : Option Response} {opts : List Opt}
    (h : Performed c r resp opts) :
    let t := transferOf opts
    (t.verifyPeer = true ↔ r.checkServer ≠ 0 ∧ r.serverFlag &&& 0x01 ≠ 0) ∧
    (t.verifyHost = true ↔ r.checkServer ≠ 0 ∧ r.serverFlag &&& 0x10 ≠ 0) ∧
    (t.proxyVerifyPeer = true ↔ r.checkProxy ≠ 0 ∧ r.proxyFlag &&& 0x01 ≠ 0) ∧
    (t.proxyVerifyHost = true ↔ r.checkProxy ≠ 0 ∧ r.proxyFlag &&& 0x10 ≠ 0) ∧ t.caPath = r.caPath := by
  obtain ⟨⟨sink, hp⟩, -⟩ := performed_plan w h
  obtain ⟨url, blk, len, -, -, ht⟩ := plan_transfer hp
  simp only [ht, checks, decide_eq_true_eq]
  exact ⟨trivial, trivial, trivial, trivial, trivial⟩

example : (transferOf sampleOptions).verifyPeer = true ∧ (transferOf sampleOptions).verifyHost = false ∧
    (transferOf sampleOptions).proxyVerifyHost = true := by decide +kernel

/-! ## C106 -/

private theorem emptyParam (p : Bytes × Option Bytes) (hp : p.1 ≠ []) : ¬ Spec.Client.ParamText [] p := by
  rintro ⟨h, -⟩
  have : (Spec.UrlParts.pair []).1 = [] := rfl
  rw [this] at h
  generalize hk : p.1 = k at h
  cases h
  exact hp hk

/-- **C106, partial.** Every transfer made for a request has had all its options accepted by libcurl and has: the verb of the request
(GET if there is none); the given URL with the parameters of `map_url` (see C42), unless the URL has a fragment; the body of the
request, or the form if `map_post_body` is not empty; the user and the password if both are given, neither otherwise; the client
certificate and key if both are given; proxy, redirection and timeout as in the request; and only speaks http and https, also after
a redirection. It does not wait for a body that never comes. Missing: HEAD requests (`C106_head_false`), URLs with a fragment
(C42). -/
theorem C106_request_partial {c : Curl} {r : Request} {l : Lists} (w : Wants r l) {resp : Option Response} {opts : List Opt}
    (h : Performed c r resp opts) :
    let t := transferOf opts
    (∀ (i : Nat) o, opts[i]? = some o → c.accepts (opts.take i) o = true) ∧
    t.method = some (r.verb.getD b!"GET") ∧
    (∀ u, r.url = some u → (0x23 : UInt8) ∉ u → ∃ x ts, t.url = some x ∧ Spec.Client.beforeQuery x = Spec.Client.beforeQuery (Spec.Client.spaces u) ∧
      Spec.Client.queryParams x = Spec.Client.queryParams (Spec.Client.spaces u) ++ ts ∧ ParamTexts ts l.url) ∧
    (l.post = [] → t.body = if r.bodyLen = 0 then none else r.body.map (fun b => b.take r.bodyLen)) ∧
    (l.post ≠ [] → ∃ b, t.body = some b ∧ ParamTexts (pieces 0x26 b) l.post) ∧
    (∀ u p, r.user = some u → r.password = some p → t.auth = true ∧ t.user = some u ∧ t.password = some p) ∧
    (r.user = none ∨ r.password = none → t.auth = false ∧ t.user = none ∧ t.password = none) ∧
    (∀ x k, r.certFile = some x → r.keyFile = some k → t.certificate = some x ∧ t.key = some k ∧ t.keyPassword = r.keyPassword) ∧
    (r.certFile = none ∨ r.keyFile = none → t.certificate = none ∧ t.key = none ∧ t.keyPassword = none) ∧
    t.proxy = r.proxy ∧ (t.follow = true ↔ r.followRedirect ≠ 0) ∧ t.timeout = r.timeout ∧
    t.protocols = some b!"http,https" ∧ t.redirProtocols = some b!"http,https" ∧
    (r.verb ≠ some b!"HEAD" → t.hangs = false) := by
  obtain ⟨⟨sink, hp⟩, hacc⟩ := performed_plan w h
  obtain ⟨url, blk, len, hu, hb, ht⟩ := plan_transfer hp
  intro t
  have htt : t = transferOf opts := rfl
  rw [ht] at htt
  have hbody : t.body = if len = 0 then none else blk.map (fun b => b.take len) := by
    rw [htt]
    unfold Transfer.body
    by_cases h0 : len = 0
    · simp [h0]
    · cases blk <;> simp [h0]
  refine ⟨hacc, by rw [htt], ?_, ?_, ?_, ?_, ?_, ?_, ?_, by rw [htt], by rw [htt]; simp, by rw [htt], by rw [htt], by rw [htt], ?_⟩
  · intro u hru hf
    obtain ⟨m, m1, m2, -⟩ := hu
    obtain ⟨x, x1, x2⟩ := m2 u hru
    obtain ⟨x', ts, y1, y2, y3, y4, -⟩ := C42_url_partial u m l.url m1 hf
    rw [x1] at y1
    injection y1 with y1
    subst y1
    exact ⟨x, ts, by rw [htt]; exact x2, y2, y3, y4⟩
  · intro h0
    obtain ⟨rfl, rfl⟩ := hb.1 h0
    rw [hbody]
    by_cases hz : r.bodyLen = 0
    · simp [hz]
    · rw [if_neg hz, if_neg hz]
      cases r.body with
      | none => rfl
      | some b => simp only [Option.map_some, List.take_take, Nat.min_self]
  · intro h0
    obtain ⟨b, rfl, rfl, b3⟩ := hb.2 h0
    refine ⟨b, ?_, b3⟩
    rw [hbody]
    have hne : b.length ≠ 0 := by
      intro hz
      have : b = [] := List.length_eq_zero_iff.1 hz
      subst this
      have hp1 := w.post
      cases hlp : l.post with
      | nil => exact absurd hlp h0
      | cons p ps =>
        rw [hlp] at b3
        have hne := holds_ne w.post p (by rw [hlp]; simp)
        exact absurd b3 (by
          intro hb3
          simp only [pieces, ParamTexts] at hb3
          exact emptyParam p hne hb3.1)
    rw [if_neg hne]
    simp
  · intro u p e1 e2; rw [htt]; simp [e1, e2, both]
  · intro e
    rw [htt]
    rcases e with e | e <;> rw [e] <;> simp [both]
  · intro x k e1 e2; rw [htt]; simp only [e1, e2, both]; cases r.keyPassword <;> simp
  · intro e
    rw [htt]
    rcases e with e | e <;> rw [e] <;> simp [both]
  · intro hv
    rw [htt]
    unfold Transfer.hangs
    cases hr : r.verb with
    | none => simp
    | some v =>
      rw [hr] at hv
      simp only [Option.getD_some, Bool.and_eq_false_iff, beq_eq_false_iff_ne]
      exact Or.inl hv

example : (transferOf sampleOptions).url = some b!"https://h/p?a%20b=1%262&k" ∧ (transferOf sampleOptions).body = some b!"xy" ∧
    (transferOf sampleOptions).auth = false := by decide +kernel

/-- C106 is false for every HEAD request: it is sent with `CURLOPT_CUSTOMREQUEST` only, and libcurl waits for a body. -/
theorem C106_head_false {c : Curl} {r : Request} {l : Lists} (w : Wants r l) {resp : Option Response} {opts : List Opt}
    (h : Performed c r resp opts) (hv : r.verb = some b!"HEAD") : (transferOf opts).hangs = true := by
  obtain ⟨⟨sink, hp⟩, -⟩ := performed_plan w h
  obtain ⟨url, blk, len, -, -, ht⟩ := plan_transfer hp
  rw [ht]
  unfold Transfer.hangs
  rw [hv]
  rfl

/-! ## C107 -/

/-- The entries libcurl sends: those whose value is not blank. -/
def visible (ps : List (Bytes × Option Bytes)) : List (Bytes × Bytes) :=
  ps.filterMap (fun p => match p.2 with
    | some v => if v.all blank then none else some (p.1, v)
    | none => none)

private theorem read_line (s rest : Bytes) (cur : Bytes) (h : (0x0d : UInt8) ∉ s) :
    readHeaders (s ++ 0x0d :: 0x0a :: rest) cur =
      ((cur ++ s).takeWhile (· != 0x3a), ((cur ++ s).dropWhile (· != 0x3a)).drop 1) :: readHeaders rest [] := by
  induction s generalizing cur with
  | nil => rw [List.nil_append, readHeaders]; simp
  | cons c t ih =>
    simp only [List.mem_cons, not_or] at h
    have hc : ¬ (c = 0x0d) := fun e => h.1 e.symm
    have := ih (cur ++ [c]) h.2
    cases t with
    | nil =>
      rw [List.cons_append, List.nil_append, readHeaders, if_neg (by simp [hc])]
      simpa using this
    | cons d t =>
      rw [List.cons_append, List.cons_append, readHeaders, if_neg (by simp [hc])]
      simpa using this

private theorem name_split (k v : Bytes) (h : (0x3a : UInt8) ∉ k) :
    (k ++ b!":" ++ v).takeWhile (· != 0x3a) = k ∧ ((k ++ b!":" ++ v).dropWhile (· != 0x3a)).drop 1 = v := by
  induction k with
  | nil => simp
  | cons c t ih =>
    simp only [List.mem_cons, not_or] at h
    have hc : (c != 0x3a) = true := by simpa using fun e => h.1 (by rw [e])
    obtain ⟨i1, i2⟩ := ih h.2
    simp only [List.cons_append, List.takeWhile_cons, List.dropWhile_cons, hc, if_true, i1]
    exact ⟨trivial, i2⟩

private theorem header_text (ps : List (Bytes × Option Bytes))
    (h : ∀ p ∈ ps, (0x3a : UInt8) ∉ p.1 ∧ (0x0d : UInt8) ∉ p.1 ∧ ∀ v, p.2 = some v → (0x0d : UInt8) ∉ v) :
    readHeaders ((((ps.map headerLine).filter isSent).map (· ++ [0x0d, 0x0a])).flatten) [] = visible ps := by
  induction ps with
  | nil => rw [show ((((([] : List (Bytes × Option Bytes)).map headerLine).filter isSent).map (· ++ [0x0d, 0x0a])).flatten) = [] from rfl, readHeaders]; rfl
  | cons p t ih =>
    obtain ⟨k, v⟩ := p
    obtain ⟨h1, h2, h3⟩ := h (k, v) List.mem_cons_self
    have iht := ih (fun q hq => h q (List.mem_cons_of_mem _ hq))
    have hs : isSent (headerLine (k, v)) = !(v.getD []).all blank := by
      unfold isSent headerLine
      rw [(name_split k (v.getD []) h1).2]
    rw [List.map_cons, List.filter_cons, hs]
    cases v with
    | none =>
      simp only [Option.getD_none, List.all_nil, Bool.not_true, Bool.false_eq_true, if_false]
      rw [iht]
      rfl
    | some v =>
      by_cases hb : v.all blank = true
      · simp only [Option.getD_some, hb, Bool.not_true, Bool.false_eq_true, if_false]
        rw [iht]
        unfold visible
        rw [List.filterMap_cons]
        simp only [hb, if_true]
      · have hb' : v.all blank = false := by simpa using hb
        simp only [Option.getD_some, hb', Bool.not_false, if_true, List.map_cons, List.flatten_cons]
        have hl : (0x0d : UInt8) ∉ headerLine (k, some v) := by
          unfold headerLine
          simp only [List.mem_append, Option.getD_some, List.mem_cons, List.not_mem_nil, or_false]
          rintro ((e | e) | e)
          · exact h2 e
          · exact absurd e (by decide)
          · exact h3 v rfl e
        rw [List.append_assoc, show ([0x0d, 0x0a] : Bytes) ++ (((t.map headerLine).filter isSent).map (· ++ [0x0d, 0x0a])).flatten =
          0x0d :: 0x0a :: (((t.map headerLine).filter isSent).map (· ++ [0x0d, 0x0a])).flatten from rfl,
          read_line _ _ _ hl, iht]
        obtain ⟨n1, n2⟩ := name_split k v h1
        have : headerLine (k, some v) = k ++ b!":" ++ v := rfl
        rw [List.nil_append, this, n1, n2]
        unfold visible
        rw [List.filterMap_cons]
        simp only [hb', Bool.false_eq_true, if_false]

/-- **C107, partial.** For every request whose header names contain no ':' and whose header names and values contain no CR, the
headers the peer reads are exactly those of the request (with the content type of the form, if there is one) whose value is not
blank, each once, in order, with the given name and value. Missing: headers with a blank value (`C107_blank_false`), CR LF in a
value (`C107_injection_false`), the content type of a form written in another case (`C107_duplicate_false`). -/
theorem C107_headers_partial {c : Curl} {r : Request} {l : Lists} (w : Wants r l) {resp : Option Response} {opts : List Opt}
    (h : Performed c r resp opts)
    (hh : ∀ p ∈ l.header, (0x3a : UInt8) ∉ p.1 ∧ (0x0d : UInt8) ∉ p.1 ∧ ∀ v, p.2 = some v → (0x0d : UInt8) ∉ v) :
    readHeaders (transferOf opts).headerText [] = visible (if l.post = [] then l.header
      else Spec.OMap.put l.header b!"Content-Type" (some b!"application/x-www-form-urlencoded")) := by
  obtain ⟨⟨sink, hp⟩, -⟩ := performed_plan w h
  obtain ⟨url, blk, len, -, -, ht⟩ := plan_transfer hp
  rw [ht]
  refine header_text (sentHeader l) ?_
  unfold sentHeader
  split
  · exact hh
  · intro p hp
    unfold Spec.OMap.put at hp
    split at hp
    · obtain ⟨q, hq, rfl⟩ := List.mem_map.1 hp
      split
      · refine ⟨by simp, by simp, ?_⟩
        intro v hv
        injection hv with hv
        subst hv
        decide
      · exact hh q hq
    · rcases List.mem_append.1 hp with hp | hp
      · exact hh p hp
      · rw [List.mem_singleton.1 hp]
        refine ⟨by simp, by simp, ?_⟩
        intro v hv
        injection hv with hv
        subst hv
        decide

example : readHeaders (transferOf sampleOptions).headerText [] = [(b!"X-Id", b!"7")] := by
  have h := C107_headers_partial sample_wants sample_performed (by
    intro p hp
    simp only [sampleLists, List.mem_cons, List.not_mem_nil, or_false] at hp
    subst hp
    refine ⟨by decide, by decide, ?_⟩
    intro v hv
    injection hv with hv
    subst hv
    decide)
  rw [h]
  decide

/-- A map made of these entries. -/
def buildMap (ps : List (Bytes × Option Bytes)) : UMap :=
  ps.foldl (fun m p => match UMap.put m (some p.1) p.2 with | .ok (_, m') => m' | .ub => m) UMap.init

/-- C107 is false for a header with an empty value: it is not sent. -/
theorem C107_blank_false :
    ∃ opts, askedOf { url := some b!"http://h/", mapHeader := buildMap [(b!"X-Empty", some []), (b!"X-Id", some b!"7")] } = some opts ∧
      readHeaders (transferOf opts).headerText [] = [(b!"X-Id", b!"7")] :=
  ⟨_, rfl, by decide +kernel⟩

/-- C107 is false for a value with CR LF: the peer reads a header the request does not have. -/
theorem C107_injection_false :
    ∃ opts, askedOf { url := some b!"http://h/", mapHeader := buildMap [(b!"X-Id", some b!"7\r\nX-Admin:1")] } = some opts ∧
      readHeaders (transferOf opts).headerText [] = [(b!"X-Id", b!"7"), (b!"X-Admin", b!"1")] :=
  ⟨_, rfl, by decide +kernel⟩

/-- C107 is false for a form when the caller has set the content type in another case: two contradictory headers are sent. -/
theorem C107_duplicate_false :
    ∃ opts, askedOf { url := some b!"http://h/", mapHeader := buildMap [(b!"content-type", some b!"text/plain")],
                      mapPost := buildMap [(b!"a", some b!"1")] } = some opts ∧
      readHeaders (transferOf opts).headerText [] =
        [(b!"content-type", b!"text/plain"), (b!"Content-Type", b!"application/x-www-form-urlencoded")] :=
  ⟨_, rfl, by decide +kernel⟩

/-! ## C108 -/

private theorem cookie_pieces (ps : List (Bytes × Option Bytes)) (p : Bytes × Option Bytes)
    (h : ∀ q ∈ p :: ps, (0x3b : UInt8) ∉ cookiePiece q) :
    pieces 0x3b (cookiePiece p ++ (ps.map (fun p => (0x3b : UInt8) :: cookiePiece p)).flatten) = (p :: ps).map cookiePiece := by
  have := pieces_fields 0x3b (cookiePiece p) (ps.map cookiePiece) (h p List.mem_cons_self) (by
    intro f hf
    obtain ⟨q, hq, rfl⟩ := List.mem_map.1 hf
    exact h q (List.mem_cons_of_mem _ hq))
  rw [List.map_map] at this
  exact this

private theorem eq_split (k v : Bytes) (h : (0x3d : UInt8) ∉ k) :
    (k ++ b!"=" ++ v).takeWhile (· != 0x3d) = k ∧ ((k ++ b!"=" ++ v).dropWhile (· != 0x3d)).drop 1 = v := by
  induction k with
  | nil => simp
  | cons c t ih =>
    simp only [List.mem_cons, not_or] at h
    have hc : (c != 0x3d) = true := by simpa using fun e => h.1 (by rw [e])
    obtain ⟨i1, i2⟩ := ih h.2
    simp only [List.cons_append, List.takeWhile_cons, List.dropWhile_cons, hc, if_true, i1]
    exact ⟨trivial, i2⟩

private theorem line_name (p : Bytes × Option Bytes) (h1 : (0x3a : UInt8) ∉ p.1) (h2 : (0x3b : UInt8) ∉ p.1) :
    lineName (headerLine p) = p.1 := by
  obtain ⟨k, v⟩ := p
  unfold lineName headerLine
  simp only at h1 h2 ⊢
  induction k with
  | nil => simp
  | cons c t ih =>
    simp only [List.mem_cons, not_or] at h1 h2
    have hc : (c != 0x3a && c != 0x3b) = true := by
      simp only [Bool.and_eq_true, bne_iff_ne]
      exact ⟨fun e => h1.1 e.symm, fun e => h2.1 e.symm⟩
    simp only [List.cons_append, List.takeWhile_cons, hc, if_true, ih h1.2 h2.2]

private theorem sent_names (l : Lists) {name : Bytes} (hx : eqCase b!"Content-Type" name = false)
    (hn : ∀ p ∈ l.header, (0x3a : UInt8) ∉ p.1 ∧ (0x3b : UInt8) ∉ p.1 ∧ eqCase p.1 name = false) :
    ∀ p ∈ sentHeader l, (0x3a : UInt8) ∉ p.1 ∧ (0x3b : UInt8) ∉ p.1 ∧ eqCase p.1 name = false := by
  have hct : (0x3a : UInt8) ∉ b!"Content-Type" ∧ (0x3b : UInt8) ∉ b!"Content-Type" ∧ eqCase b!"Content-Type" name = false :=
    ⟨by decide, by decide, hx⟩
  unfold sentHeader
  split
  · exact hn
  · intro p hp
    unfold Spec.OMap.put at hp
    split at hp
    · obtain ⟨q, hq, rfl⟩ := List.mem_map.1 hp
      split
      · exact hct
      · exact hn q hq
    · rcases List.mem_append.1 hp with hp | hp
      · exact hn p hp
      · rw [List.mem_singleton.1 hp]
        exact hct

/-- No header line of a transfer has a name that no header of the request has. -/
theorem no_line {c : Curl} {r : Request} {l : Lists} (w : Wants r l) {resp : Option Response} {opts : List Opt}
    (h : Performed c r resp opts) {name : Bytes} (hx : eqCase b!"Content-Type" name = false)
    (hn : ∀ p ∈ l.header, (0x3a : UInt8) ∉ p.1 ∧ (0x3b : UInt8) ∉ p.1 ∧ eqCase p.1 name = false) :
    ¬ (transferOf opts).lines.any (fun x => eqCase (lineName x) name) = true := by
  obtain ⟨⟨sink, hp⟩, -⟩ := performed_plan w h
  obtain ⟨url, blk, len, -, -, ht⟩ := plan_transfer hp
  rw [ht]
  intro ha
  obtain ⟨x, hx1, hx2⟩ := List.any_eq_true.1 ha
  obtain ⟨p, hp, rfl⟩ := List.mem_map.1 hx1
  obtain ⟨s1, s2, s3⟩ := sent_names l hx hn p hp
  rw [line_name p s1 s2, s3] at hx2
  cases hx2

/-- **C108, partial.** When no header name is "Cookie" in any case or contains ':' or ';', every cookie has a value, no name contains '=' or ';' and no value ';': the
peer reads exactly the cookies of `map_cookie`, in order, with their values. With no cookies, no Cookie header is sent. Missing: a
Cookie header among the headers, by which all cookies are lost (`C108_lost_false`), ';' in a value (`C108_injection_false`),
cookies without a value, sent as "name:" (`C108_null_false`). -/
theorem C108_cookies_partial {c : Curl} {r : Request} {l : Lists} (w : Wants r l) {resp : Option Response} {opts : List Opt}
    (h : Performed c r resp opts) (hn : ∀ p ∈ l.header, (0x3a : UInt8) ∉ p.1 ∧ (0x3b : UInt8) ∉ p.1 ∧ eqCase p.1 b!"Cookie" = false)
    (hc : ∀ p ∈ l.cookie, (0x3d : UInt8) ∉ p.1 ∧ (0x3b : UInt8) ∉ p.1 ∧ ∃ v, p.2 = some v ∧ (0x3b : UInt8) ∉ v) :
    (l.cookie = [] → (transferOf opts).cookieText = none) ∧
    (l.cookie ≠ [] → ∃ t, (transferOf opts).cookieText = some t ∧ readCookies t = l.cookie) := by
  obtain ⟨⟨sink, hp⟩, -⟩ := performed_plan w h
  obtain ⟨url, blk, len, -, -, ht⟩ := plan_transfer hp
  have hct : (transferOf opts).cookieText = cookieString l.cookie := by
    rw [ht]
    unfold Transfer.cookieText
    rw [if_neg]
    intro ha
    obtain ⟨x, hx, hx2⟩ := List.any_eq_true.1 ha
    obtain ⟨p, hp, rfl⟩ := List.mem_map.1 hx
    obtain ⟨s1, s2, s3⟩ := sent_names l (by decide) hn p hp
    rw [line_name p s1 s2, s3] at hx2
    cases hx2
  rw [hct]
  refine ⟨fun e => by rw [e]; rfl, ?_⟩
  intro hne
  cases hl : l.cookie with
  | nil => exact absurd hl hne
  | cons p t =>
    refine ⟨_, rfl, ?_⟩
    rw [hl] at hc
    unfold readCookies
    rw [cookie_pieces t p (by
      intro q hq
      obtain ⟨-, h2, v, hv, h3⟩ := hc q hq
      unfold cookiePiece
      rw [hv]
      simp only [List.mem_append, List.mem_cons, List.not_mem_nil, or_false]
      rintro ((e | e) | e)
      · exact h2 e
      · exact absurd e (by decide)
      · exact h3 e), List.map_map]
    conv => rhs; rw [← List.map_id (p :: t)]
    apply List.map_congr_left
    intro q hq
    obtain ⟨h1, h2, v, hv, h3⟩ := hc q hq
    obtain ⟨k, v'⟩ := q
    simp only at hv h1
    subst hv
    have hpc : cookiePiece (k, some v) = k ++ b!"=" ++ v := rfl
    obtain ⟨n1, n2⟩ := eq_split k v h1
    have hm : (0x3d : UInt8) ∈ k ++ b!"=" ++ v := by simp
    simp only [Function.comp_apply, hpc, n1, n2, if_pos hm, id_eq]

/-- A request with two cookies. -/
theorem C108_sample :
    ∃ opts, askedOf { url := some b!"http://h/", mapCookie := buildMap [(b!"a", some b!"1"), (b!"b", some b!"x=y")] } = some opts ∧
      (transferOf opts).cookieText = some b!"a=1;b=x=y" :=
  ⟨_, rfl, by decide +kernel⟩

/-- C108 is false when the headers contain a Cookie header: the cookies of the request are not sent. -/
theorem C108_lost_false :
    ∃ opts, askedOf { url := some b!"http://h/", mapHeader := buildMap [(b!"cookie", some b!"z=0")],
                      mapCookie := buildMap [(b!"a", some b!"1")] } = some opts ∧
      (transferOf opts).cookieText = none ∧ readHeaders (transferOf opts).headerText [] = [(b!"cookie", b!"z=0")] :=
  ⟨_, rfl, by decide +kernel, by decide +kernel⟩

/-- C108 is false for a value with ';': the peer reads another cookie. -/
theorem C108_injection_false :
    ∃ opts t, askedOf { url := some b!"http://h/", mapCookie := buildMap [(b!"a", some b!"1;admin=1")] } = some opts ∧
      (transferOf opts).cookieText = some t ∧ readCookies t = [(b!"a", some b!"1"), (b!"admin", some b!"1")] :=
  ⟨_, b!"a=1;admin=1", rfl, by decide +kernel, by decide +kernel⟩

/-- C108 is false for a cookie without a value: another name is sent. -/
theorem C108_null_false :
    ∃ opts t, askedOf { url := some b!"http://h/", mapCookie := buildMap [(b!"a", none)] } = some opts ∧
      (transferOf opts).cookieText = some t ∧ readCookies t = [(b!"a:", none)] :=
  ⟨_, b!"a:", rfl, by decide +kernel, by decide +kernel⟩

/-! ## C109 -/

/-- **C109, partial.** A request for any network type (`U_USE_ALL`, the default) resolves to IPv4 and IPv6 addresses. Missing:
requests restricted to one of them (`C109_family_false`). -/
theorem C109_family_partial {c : Curl} {r : Request} {l : Lists} (w : Wants r l) {resp : Option Response} {opts : List Opt}
    (h : Performed c r resp opts) (hn : r.network = 0x11) : (transferOf opts).resolve = .whatever := by
  obtain ⟨⟨sink, hp⟩, -⟩ := performed_plan w h
  obtain ⟨url, blk, len, -, -, ht⟩ := plan_transfer hp
  rw [ht, hn]
  rfl

example : sampleRequest.network = 0x11 ∧ (transferOf sampleOptions).resolve = .whatever := by decide +kernel

/-- C109 is false for every request restricted to IPv4 (`U_USE_IPV4` = 1) or to IPv6 (`U_USE_IPV6` = 0x10): both families are used. -/
theorem C109_family_false {c : Curl} {r : Request} {l : Lists} (w : Wants r l) {resp : Option Response} {opts : List Opt}
    (h : Performed c r resp opts) (hn : r.network = 0x01 ∨ r.network = 0x10) : (transferOf opts).resolve = .whatever := by
  obtain ⟨⟨sink, hp⟩, -⟩ := performed_plan w h
  obtain ⟨url, blk, len, -, -, ht⟩ := plan_transfer hp
  rw [ht]
  rcases hn with hn | hn <;> rw [hn] <;> rfl

theorem C109_sample_false :
    ∃ opts, askedOf { url := some b!"http://h/", network := 0x10 } = some opts ∧ (transferOf opts).resolve = .whatever :=
  ⟨_, rfl, by decide +kernel⟩

/-! ## C110 -/

/-- What is received, with the map of headers as the header function leaves it. -/
theorem response_received (c : Curl) (hi : c.init = true) (ha : ∀ done o, c.accepts done o = true) {r : Request} {l : Lists}
    (w : Wants r l) (r0 : Response) (h0 : r0.header = UMap.init ∧ r0.protocol = none ∧ r0.cookies = []) (limit max : Nat) (ls : List Spec.Client.Line) (hw : ∀ x ∈ ls, x.Wf)
    (hn : (ls.map (fun x => x.text.length)).sum + 4 < 2 ^ 64) (chunks : List Bytes) (hc : chunks.flatten.length + 1 < 2 ^ 64)
    (st : Nat) (cs : List Bytes) (hs : (cs.map strings).Pairwise (· ≤ ·))
    (hrep : ∀ opts, c.perform opts = ⟨ls.map Spec.Client.Line.text, chunks, some st, some cs⟩) :
    ∃ o r', sendLimit c (some r) (some r0) limit max = .ok o ∧ o.code = .ok ∧ o.response = some r' ∧ r'.status = st ∧
      (∀ name, ShowsCase r'.header name (Spec.Client.headerValue name (Spec.Client.kept max (Spec.Client.headersOf ls)))) ∧
      r'.protocol = Spec.Client.protocolOf ls ∧
      (∃ h, writeHeaders max {} (ls.map Spec.Client.Line.text) = .ok h ∧ r'.header = h.map) ∧
      (let kept := if limit = 0 then chunks.flatten else chunks.flatten.take limit
       (kept ≠ [] → r'.bodyLen = kept.length ∧ bodyOf r'.body r'.bodyLen = kept) ∧
       (kept = [] → r'.body = r0.body ∧ r'.bodyLen = r0.bodyLen)) ∧
      r' = { r0 with
        status := r'.status, header := r'.header, protocol := r'.protocol, body := r'.body, bodyLen := r'.bodyLen,
        cookies := r'.cookies } ∧
      ∃ rc, runCookies {} (cs.map argsOf) = .ok rc ∧ r'.cookies = rc.cookies := by
  obtain ⟨opts, -, h⟩ := send_cases c hi w (some r0) ⟨true, true⟩ max
  have h : sendStreaming c (some r) (some r0) ⟨true, true⟩ max = perform c opts max (some r0) := by
    rcases h with ⟨-, h⟩ | ⟨done, o, rest, -, h2, -⟩
    · exact h
    · rw [ha] at h2; cases h2
  obtain ⟨hd, e1, e2, -, -, e3⟩ := C39_headers max ls hw hn
  let r1 : Response := { r0 with header := hd.map, protocol := hd.protocol, status := st }
  obtain ⟨r2, f1, f2⟩ := C41_cookies_partial r1 h0.2.2 cs hs
  obtain ⟨r3, g1, g2, -⟩ := C31_cookies (cs.map argsOf) r1 h0.2.2
  rw [f2] at g1
  injection g1 with g1
  subst g1
  obtain ⟨rc, k1, k2⟩ : ∃ rc, runCookies {} (cs.map argsOf) = .ok rc ∧ r2.cookies = rc.cookies := by
    have a1 := runCookies_eq (cs.map argsOf) ({} : Response) [] rfl
    have a2 := runCookies_eq (cs.map argsOf) r1 [] (by rw [show r1.cookies = [] from h0.2.2]; rfl)
    rw [f2] at a2
    injection a2 with a2
    exact ⟨_, a1, by rw [a2]⟩
  have hst : sendStreaming c (some r) (some r0) ⟨true, true⟩ max = .ok ⟨.ok, some opts, some r2, chunks⟩ := by
    rw [h]
    unfold perform
    rw [hrep]
    have e1' : writeHeaders max { map := r0.header, protocol := r0.protocol, counter := 0 }
        (ls.map Spec.Client.Line.text) = .ok hd := by rw [h0.1, h0.2.1]; exact e1
    simp only [e1', Res.ok_bind]
    have f1' : cookieList { r0 with header := hd.map, protocol := hd.protocol, status := st } {} cs = .ok r2 := f1
    simp only [f1', Res.ok_bind]
    rfl
  have hh : r2.header = hd.map := by have := congrArg Response.header g2; exact this
  have hp : r2.protocol = hd.protocol := by have := congrArg Response.protocol g2; exact this
  have hs2 : r2.status = st := by have := congrArg Response.status g2; exact this
  have hb : r2.body = r0.body := by have := congrArg Response.body g2; exact this
  have hbl : r2.bodyLen = r0.bodyLen := by have := congrArg Response.bodyLen g2; exact this
  have hrc := C38_body_limit limit chunks hc
  simp only at hrc
  have hsl : sendLimit c (some r) (some r0) limit max = (do
      let o ← sendStreaming c (some r) (some r0) ⟨true, true⟩ max
      match o.code, o.response with
      | .ok, some r =>
        match received limit o.chunks with
        | some b => return { o with response := some { r with body := some b, bodyLen := b.length } }
        | none => return o
      | _, _ => return o) := rfl
  rw [hsl, hst]
  simp only [Res.ok_bind, hrc]
  generalize (if limit = 0 then chunks.flatten else chunks.flatten.take limit) = kept at hrc ⊢
  have hall : r2 = { r0 with
      status := r2.status, header := r2.header, protocol := r2.protocol, body := r2.body, bodyLen := r2.bodyLen,
      cookies := r2.cookies } := by
    rw [hs2, hh, hp, hb, hbl]
    have := congrArg (fun x : Response => { x with cookies := r2.cookies }) g2
    exact this
  by_cases hk : kept = []
  · rw [if_pos hk]
    refine ⟨_, r2, rfl, rfl, rfl, hs2, by rw [hh]; exact e2, by rw [hp]; exact e3, ⟨hd, e1, hh⟩, ⟨fun h => absurd hk h, fun _ => ⟨hb, hbl⟩⟩,
      hall, rc, k1, k2⟩
  · rw [if_neg hk]
    refine ⟨_, { r2 with body := some kept, bodyLen := kept.length }, rfl, rfl, rfl, hs2, by rw [← hh] at e2; exact e2,
      by rw [← hp] at e3; exact e3, ⟨hd, e1, hh⟩, ⟨fun _ => ⟨rfl, ?_⟩, fun h => absurd h hk⟩, ?_, rc, k1, k2⟩
    · simp [bodyOf]
    · conv => lhs; rw [hall]

/-- **C110, partial.** When libcurl takes all options and one response of well-formed header lines arrives, a call of
`ulfius_send_http_request_with_limit` with a response without headers and cookies returns `U_OK`, and the response has the status
received, the headers received (see C39), the status line, the first `limit` bytes of the body received (all of it when `limit`
is 0; if there are none, the body it had before), and one cookie per line reported (see C31, C41); nothing else of it changes.
Missing: a response that was used before keeps its old body when the new one
is empty (`C110_stale_false`), the headers of redirections remain (`C110_redirect_false`), cookie lists for which C41 fails. -/
theorem C110_response_partial (c : Curl) (hi : c.init = true) (ha : ∀ done o, c.accepts done o = true) {r : Request} {l : Lists}
    (w : Wants r l) (r0 : Response) (h0 : r0.header = UMap.init ∧ r0.protocol = none ∧ r0.cookies = []) (limit max : Nat) (ls : List Spec.Client.Line) (hw : ∀ x ∈ ls, x.Wf)
    (hn : (ls.map (fun x => x.text.length)).sum + 4 < 2 ^ 64) (chunks : List Bytes) (hc : chunks.flatten.length + 1 < 2 ^ 64)
    (st : Nat) (cs : List Bytes) (hs : (cs.map strings).Pairwise (· ≤ ·))
    (hrep : ∀ opts, c.perform opts = ⟨ls.map Spec.Client.Line.text, chunks, some st, some cs⟩) :
    ∃ o r', sendLimit c (some r) (some r0) limit max = .ok o ∧ o.code = .ok ∧ o.response = some r' ∧ r'.status = st ∧
      (∀ name, ShowsCase r'.header name (Spec.Client.headerValue name (Spec.Client.kept max (Spec.Client.headersOf ls)))) ∧
      r'.protocol = Spec.Client.protocolOf ls ∧
      (let kept := if limit = 0 then chunks.flatten else chunks.flatten.take limit
       (kept ≠ [] → r'.bodyLen = kept.length ∧ bodyOf r'.body r'.bodyLen = kept) ∧
       (kept = [] → r'.body = r0.body ∧ r'.bodyLen = r0.bodyLen)) ∧
      r' = { r0 with
        status := r'.status, header := r'.header, protocol := r'.protocol, body := r'.body, bodyLen := r'.bodyLen,
        cookies := r'.cookies } ∧
      ∃ rc, runCookies {} (cs.map argsOf) = .ok rc ∧ r'.cookies = rc.cookies := by
  obtain ⟨o, r', h1, h2, h3, h4, h5, h6, -, h7⟩ := response_received c hi ha w r0 h0 limit max ls hw hn chunks hc st cs hs hrep
  exact ⟨o, r', h1, h2, h3, h4, h5, h6, h7⟩

/-- A libcurl that gets this reply. -/
def answering (reply : Reply) : Curl := { perform := fun _ => reply }

example : (∀ x ∈ sampleLines, x.Wf) → ∃ o r', sendLimit (answering ⟨sampleLines.map Spec.Client.Line.text, [b!"he", b!"llo"], some 201, some []⟩)
    (some sampleRequest) (some {}) 3 0 = .ok o ∧ o.response = some r' ∧ r'.status = 201 ∧ bodyOf r'.body r'.bodyLen = b!"hel" := by
  intro hw
  obtain ⟨o, r', h1, h2, h3, h4, h5, h6, h7, -⟩ := C110_response_partial
    (answering ⟨sampleLines.map Spec.Client.Line.text, [b!"he", b!"llo"], some 201, some []⟩) rfl (fun _ _ => rfl) sample_wants {} ⟨rfl, rfl, rfl⟩ 3 0
    sampleLines hw (by decide) [b!"he", b!"llo"] (by decide) 201 [] (by simp) (fun _ => rfl)
  exact ⟨o, r', h1, h3, h4, (h7.1 (by decide)).2⟩

/-- C110 is false when the response was used before: with an empty new body, the old one is still there. -/
theorem C110_stale_false :
    ∃ o r', sendLimit (answering { status := some 404 }) (some { url := some b!"http://h/" })
        (some { body := some b!"old", bodyLen := 3 }) 0 0 = .ok o ∧ o.code = .ok ∧ o.response = some r' ∧ r'.status = 404 ∧
      bodyOf r'.body r'.bodyLen = b!"old" :=
  ⟨_, _, rfl, rfl, rfl, rfl, by decide +kernel⟩

/-- C110 is false after a redirection: libcurl hands over the header lines of both responses, and the response shows a header
the final one does not have and a length that is neither's. -/
theorem C110_redirect_false :
    ∃ o r', sendLimit (answering { lines := [b!"HTTP/1.1 302 Found\r\n", b!"Location: /b\r\n", b!"Content-Length: 0\r\n", b!"\r\n",
          b!"HTTP/1.1 200 OK\r\n", b!"Content-Length: 2\r\n", b!"\r\n"], chunks := [b!"ok"] })
        (some { url := some b!"http://h/a", followRedirect := 1 }) (some {}) 0 0 = .ok o ∧ o.code = .ok ∧ o.response = some r' ∧
      r'.protocol = some b!"HTTP/1.1 200 OK" ∧ getStr r'.header b!"Location" = .ok (some b!"/b") ∧
      getStr r'.header b!"Content-Length" = .ok (some b!"0, 2") :=
  ⟨_, _, rfl, rfl, rfl, by decide +kernel, by decide +kernel, by decide +kernel⟩

/-! ## C111 -/

/-- **C111, partial.** Without a request the call returns `U_ERROR_PARAMS`. For every request: when no transfer is made,
`U_ERROR_LIBCURL` is returned and the response is as it was; when the transfer fails, `U_ERROR_LIBCURL` is returned; `U_OK` is only
returned after a successful transfer. The behaviour is defined whenever no response is asked for and libcurl takes the cookies.
Missing: libcurl refuses the cookies (`C111_cookie_false`); cookie lists of the server for which C41 fails. -/
theorem C111_errors_partial (c : Curl) {r : Request} {l : Lists} (w : Wants r l) (resp : Option Response) (sink : Sink) (max : Nat) :
    (∃ o, sendStreaming c none resp sink max = .ok o ∧ o.code = .params ∧ o.performed = none ∧ o.response = resp) ∧
    (∀ o, sendStreaming c (some r) resp sink max = .ok o →
      (o.performed = none → o.code = .libcurl ∧ o.response = resp) ∧
      (∀ opts, o.performed = some opts → (c.perform opts).status = none → o.code = .libcurl) ∧
      (o.code = .ok → ∃ opts st, o.performed = some opts ∧ (c.perform opts).status = some st)) ∧
    (resp = none → (∀ done t, c.accepts done (.cookie t) = true) → ∃ o, sendStreaming c (some r) resp sink max = .ok o) := by
  refine ⟨⟨_, rfl, rfl, rfl, rfl⟩, ?_⟩
  cases hi : c.init with
  | false =>
    obtain ⟨a, mu, mh, mc, mp, d1, -⟩ := duplicate_ok w
    have : sendStreaming c (some r) resp sink max = .ok ⟨.libcurl, none, resp, []⟩ := by
      unfold sendStreaming
      simp only [d1, Res.ok_bind, hi, Bool.false_eq_true, if_false]
      rfl
    rw [this]
    refine ⟨?_, fun _ _ => ⟨_, rfl⟩⟩
    intro o h
    injection h with h
    subst h
    exact ⟨fun _ => ⟨rfl, rfl⟩, fun opts h => (by cases h), fun h => (by cases h)⟩
  | true =>
    obtain ⟨opts', -, h2⟩ := send_cases c hi w resp sink max
    rcases h2 with ⟨-, h3⟩ | ⟨done, x, rest, -, h3, h4⟩
    · rw [h3]
      refine ⟨?_, ?_⟩
      · intro o h
        have hp := perform_performed c opts' max resp o h
        have hst : (c.perform opts').status = none → o.code = .libcurl := by
          intro hs
          unfold perform at h
          cases resp with
          | none => simp only [hs] at h; injection h with h; rw [← h]; rfl
          | some x =>
            simp only [hs] at h
            generalize writeHeaders max _ _ = y at h
            cases y with
            | ub => cases h
            | ok y => simp only [Res.ok_bind] at h; injection h with h; rw [← h]
        refine ⟨fun hn => (by rw [hp] at hn; cases hn), ?_, ?_⟩
        · intro opts ho
          rw [hp] at ho
          injection ho with ho
          subst ho
          exact hst
        · intro hcode
          cases hs : (c.perform opts').status with
          | none => rw [hst hs] at hcode; cases hcode
          | some st => exact ⟨opts', st, hp, hs⟩
      · intro hr _
        subst hr
        exact ⟨_, rfl⟩
    · rw [h4]
      refine ⟨?_, ?_⟩
      · intro o h
        split at h
        · cases h
        · injection h with h
          subst h
          exact ⟨fun _ => ⟨rfl, rfl⟩, fun opts h => (by cases h), fun h => (by cases h)⟩
      · intro _ hacc
        have : isCookie x = false := by
          cases x <;> try rfl
          rw [hacc] at h3
          cases h3
        rw [this]
        exact ⟨_, rfl⟩

private theorem mem_cookie_length (l : List (Bytes × Option Bytes)) (p : Bytes × Option Bytes) (v : Bytes) (hp : p ∈ l)
    (hv : p.2 = some v) : ∃ t, cookieString l = some t ∧ v.length ≤ t.length := by
  have h1 : v.length ≤ (cookiePiece p).length := by unfold cookiePiece; rw [hv]; simp; omega
  cases l with
  | nil => cases hp
  | cons q t =>
    refine ⟨_, rfl, ?_⟩
    rw [List.length_append]
    rcases List.mem_cons.1 hp with rfl | hp
    · omega
    · have : (cookiePiece p).length ≤ ((t.map (fun p => (0x3b : UInt8) :: cookiePiece p)).flatten).length := by
        clear h1 hv
        induction t with
        | nil => cases hp
        | cons x t ih =>
          rw [List.map_cons, List.flatten_cons, List.length_append, List.length_cons]
          rcases List.mem_cons.1 hp with rfl | hp
          · omega
          · have := ih (by simp [hp]) hp
            omega
      omega

/-- C111 is false for every request with a cookie longer than libcurl takes: the message logged about the refusal is made from
freed memory. -/
theorem C111_cookie_false (c : Curl) (hi : c.init = true) (ho : ∀ done o, isCookie o = false → c.accepts done o = true)
    (hc : ∀ done t, c.accepts done (.cookie t) = true ↔ t.length ≤ maxInput) {r : Request} {l : Lists} (w : Wants r l)
    (p : Bytes × Option Bytes) (v : Bytes) (hp : p ∈ l.cookie) (hv : p.2 = some v) (hl : maxInput < v.length)
    (resp : Option Response) (sink : Sink) (max : Nat) : sendStreaming c (some r) resp sink max = .ub := by
  obtain ⟨t, t1, t2⟩ := mem_cookie_length l.cookie p v hp hv
  obtain ⟨opts, h1, h2⟩ := send_cases c hi w resp sink max
  rcases h2 with ⟨h3, -⟩ | ⟨done, x, rest, -, h3, h4⟩
  · exfalso
    obtain ⟨url, blk, len, -, -, rfl⟩ := h1
    rw [t1] at h3
    simp only [Option.toList_some, List.map_cons, List.map_nil] at h3
    rw [accepted_append, accepted_append] at h3
    have := h3.1.2 0 (.cookie t) rfl
    rw [hc] at this
    omega
  · rw [h4]
    cases hx : isCookie x with
    | true => rfl
    | false => rw [ho done x hx] at h3; cases h3

/-- Such a request, and a libcurl with this limit. -/
theorem C111_sample_false : ∃ (c : Curl) (r : Request), (∀ done o, isCookie o = false → c.accepts done o = true) ∧
    sendStreaming c (some r) (some {}) {} 0 = .ub := by
  let c : Curl := { accepts := fun _ o => match o with | .cookie t => decide (t.length ≤ maxInput) | _ => true }
  obtain ⟨v, hv, hvn⟩ : ∃ v : Bytes, v.length = 8000001 ∧ NoNul v :=
    ⟨List.replicate 8000001 0x61, List.length_replicate, fun h => absurd (List.eq_of_mem_replicate h) (by decide)⟩
  obtain ⟨m, -, h2⟩ := holds_put holds_init b!"a" (some v) (by decide) (by decide)
    (by intro x hx; injection hx with hx; subst hx; exact ⟨hvn, by omega⟩)
  have hput : Spec.OMap.put [] b!"a" (some v) = [(b!"a", some v)] := rfl
  rw [hput] at h2
  have w : Wants { mapCookie := m } { cookie := [(b!"a", some v)] } :=
    { url := holds_init
      header := holds_init
      cookie := h2
      post := holds_init
      urlFit := by intro p hp; cases hp
      headerFit := by intro p hp; cases hp
      cookieFit := by
        intro p hp x hx
        rw [List.mem_singleton.1 hp] at hx
        injection hx with hx
        subst hx
        omega
      postFit := by intro p hp; cases hp
      body := Or.inl rfl
      address := by intro a h; cases h }
  have hnc : ∀ done o, isCookie o = false → c.accepts done o = true := by
    intro done o h
    cases o <;> first | rfl | cases h
  refine ⟨c, { mapCookie := m }, hnc, C111_cookie_false c rfl hnc ?_ w (b!"a", some v) v (by simp) rfl ?_ _ _ _⟩
  · intro done t
    show decide (t.length ≤ maxInput) = true ↔ _
    simp
  · rw [hv]; decide

end Verif.Props
