import Verif.Lemmas.Send
/-! # Lemmas: the transfer described by the options of a request -/
namespace Verif.Send
open Verif.UMap Verif.Message Verif.Client Verif.Props
open Verif.Spec.Curl

/-- `a` if `b` is there too. -/
def both (a b : Option Bytes) : Option Bytes := b.bind (fun _ => a)

theorem seg_accept (t : Transfer) (a : Option (Option Bytes)) :
    (acceptOptions a).foldl Transfer.set t = { t with decode := a.getD t.decode } := by
  cases a <;> rfl

theorem seg_auth (t : Transfer) (u p : Option Bytes) :
    (authOptions u p).foldl Transfer.set t =
    { t with auth := t.auth || (u.isSome && p.isSome), user := (both u p).or t.user, password := (both p u).or t.password } := by
  cases u <;> cases p <;> simp [both, Transfer.set, authOptions, certOptions]

theorem seg_cert (t : Transfer) (c k p : Option Bytes) :
    (certOptions c k p).foldl Transfer.set t =
    { t with certificate := (both c k).or t.certificate, key := (both k c).or t.key,
             keyPassword := (both (both p c) k).or t.keyPassword } := by
  cases c <;> cases k <;> cases p <;> simp [both, Transfer.set, authOptions, certOptions]

theorem seg_proxy (t : Transfer) (p : Option Bytes) :
    (proxyOptions p).foldl Transfer.set t = { t with proxy := p.or t.proxy } := by
  cases p <;> simp [Transfer.set, proxyOptions, caOptions]

theorem seg_follow (t : Transfer) (n : Nat) :
    (if n ≠ 0 then [Opt.follow] else []).foldl Transfer.set t = { t with follow := decide (n ≠ 0) || t.follow } := by
  by_cases h : n = 0 <;> simp [h, Transfer.set]

/-- The address family chosen. -/
def family (n : Nat) : Resolve := if n &&& 0x11 ≠ 0 then .whatever else if n &&& 0x10 ≠ 0 then .v6 else .v4

theorem seg_net (t : Transfer) (n : Nat) :
    (familyOptions n).foldl Transfer.set t = { t with resolve := family n } := by
  unfold family familyOptions
  split
  · rfl
  · split <;> rfl

theorem first_transfer (r : Request) (acc : Option (Option Bytes)) :
    (firstOptions r r acc).foldl Transfer.set {} =
    { decode := acc.getD none, redirProtocols := some b!"http,https", protocols := some b!"http,https",
      auth := r.user.isSome && r.password.isSome, user := both r.user r.password, password := both r.password r.user,
      certificate := both r.certFile r.keyFile, key := both r.keyFile r.certFile,
      keyPassword := both (both r.keyPassword r.certFile) r.keyFile, proxy := r.proxy, follow := decide (r.followRedirect ≠ 0),
      resolve := family r.network } := by
  unfold firstOptions
  simp only [List.foldl_append]
  rw [seg_accept, seg_auth, seg_cert, seg_proxy, seg_follow, seg_net]
  simp [Transfer.set]

theorem seg_body (t : Transfer) (r : Request) (blk : Option Bytes) (len : Nat) :
    (bodyOptions { r with body := blk, bodyLen := len }).foldl Transfer.set t =
    { t with post := (if len = 0 then none else blk).or t.post,
             postSize := (if len = 0 then none else blk.map (fun _ => len)).or t.postSize } := by
  unfold bodyOptions
  cases blk with
  | none => simp
  | some b => by_cases h : len = 0 <;> simp [h, Transfer.set]

theorem seg_cookie (t : Transfer) (c : Option Bytes) :
    (c.toList.map Opt.cookie).foldl Transfer.set t = { t with cookie := c.or t.cookie } := by
  cases c <;> simp [Transfer.set]

theorem seg_write (t : Transfer) (b : Bool) :
    (if b = true then [Opt.writeFunction] else []).foldl Transfer.set t = { t with storeBody := b || t.storeBody } := by
  cases b <;> simp [Transfer.set]

theorem seg_data (t : Transfer) (b : Bool) : (if b = true then [Opt.writeData] else []).foldl Transfer.set t = t := by
  cases b <;> rfl

/-- A check is wanted: it is switched on and its flag is set. -/
def checks (check flag bit : Nat) : Bool := decide (check ≠ 0 ∧ flag &&& bit ≠ 0)

theorem seg_server (t : Transfer) (a b : Nat) (h1 : t.verifyPeer = true) (h2 : t.verifyHost = true) :
    (verifyOptions a b .verifyPeer .verifyHost).foldl Transfer.set t =
    { t with verifyPeer := checks a b 1, verifyHost := checks a b 0x10 } := by
  obtain ⟨⟩ := t
  simp only at h1 h2
  subst h1 h2
  unfold verifyOptions checks
  by_cases h : a = 0
  · simp [h, Transfer.set]
  · generalize b &&& 1 = x
    generalize b &&& 0x10 = y
    by_cases hb : x = 0 <;> by_cases hc : y = 0 <;> simp [h, hb, hc, Transfer.set]

theorem seg_proxyCheck (t : Transfer) (a b : Nat) (h1 : t.proxyVerifyPeer = true) (h2 : t.proxyVerifyHost = true) :
    (verifyOptions a b .proxyVerifyPeer .proxyVerifyHost).foldl Transfer.set t =
    { t with proxyVerifyPeer := checks a b 1, proxyVerifyHost := checks a b 0x10 } := by
  obtain ⟨⟩ := t
  simp only at h1 h2
  subst h1 h2
  unfold verifyOptions checks
  by_cases h : a = 0
  · simp [h, Transfer.set]
  · generalize b &&& 1 = x
    generalize b &&& 0x10 = y
    by_cases hb : x = 0 <;> by_cases hc : y = 0 <;> simp [h, hb, hc, Transfer.set]

theorem seg_ca (t : Transfer) (p : Option Bytes) :
    (caOptions p).foldl Transfer.set t = { t with caPath := p.or t.caPath } := by
  cases p <;> simp [Transfer.set, proxyOptions, caOptions]

theorem seg_timeout (t : Transfer) (n : Nat) (h : t.timeout = 0) :
    (if n ≠ 0 then [Opt.timeout n] else []).foldl Transfer.set t = { t with timeout := n } := by
  obtain ⟨⟩ := t
  simp only at h
  subst h
  by_cases h : n = 0 <;> simp [h, Transfer.set]

theorem seg_header (t : Transfer) (b : Bool) :
    (if b = true then [Opt.headerFunction, .headerData] else []).foldl Transfer.set t = { t with storeHeaders := b || t.storeHeaders } := by
  cases b <;> simp [Transfer.set]

/-- The transfer made for a request. -/
theorem plan_transfer {r : Request} {l : Lists} {sink : Sink} {resp : Bool} {opts : List Opt} (h : Plan r l sink resp opts) :
    ∃ url blk len, UrlIs r l url ∧ BodyIs r l blk len ∧ transferOf opts =
    { decode := (acceptOf l).getD none, redirProtocols := some b!"http,https", protocols := some b!"http,https",
      auth := r.user.isSome && r.password.isSome, user := both r.user r.password, password := both r.password r.user,
      certificate := both r.certFile r.keyFile, key := both r.keyFile r.certFile,
      keyPassword := both (both r.keyPassword r.certFile) r.keyFile, proxy := r.proxy, follow := decide (r.followRedirect ≠ 0),
      resolve := family r.network, post := if len = 0 then none else blk, postSize := if len = 0 then none else blk.map (fun _ => len),
      cookie := cookieString l.cookie, url := url, method := some (r.verb.getD b!"GET"), lines := (sentHeader l).map headerLine,
      storeBody := sink.function, verifyPeer := checks r.checkServer r.serverFlag 1, verifyHost := checks r.checkServer r.serverFlag 0x10,
      proxyVerifyPeer := checks r.checkProxy r.proxyFlag 1, proxyVerifyHost := checks r.checkProxy r.proxyFlag 0x10,
      caPath := r.caPath, timeout := r.timeout, storeHeaders := resp } := by
  obtain ⟨url, blk, len, hu, hb, rfl⟩ := h
  refine ⟨url, blk, len, hu, hb, ?_⟩
  unfold transferOf
  rw [List.foldl_append, List.foldl_append, List.foldl_append, first_transfer, seg_body, seg_cookie]
  unfold lastOptions
  simp only [List.foldl_append]
  simp only [List.foldl_cons, List.foldl_nil, Transfer.set, Option.or_none]
  rw [seg_write, seg_data, seg_server _ _ _ rfl rfl, seg_proxyCheck _ _ _ rfl rfl, seg_ca, seg_timeout _ _ rfl, seg_header]
  simp [Transfer.set]

end Verif.Send
