import Verif.Model.Credentials
import Verif.Lemmas.Base64
import Verif.Props.Send
import Verif.Props.WsOpen
/-!
# C155: user and password from client to server
-/
namespace Verif.Props
open Verif.UMap Verif.Client Verif.Send Verif.Credentials
open Verif.Message (Request Response)
open Verif.Spec.Curl (Transfer Opt transferOf lineName)
open Verif.Spec.Base64 (basic readBasic)

/-! ## Specification -/

/-- The Authorization field that libcurl makes (`CURLOPT_HTTPAUTH` with `CURLAUTH_BASIC`, `CURLOPT_USERNAME`, `CURLOPT_PASSWORD`): none
when there is a custom header of that name. -/
def authField (t : Transfer) : Option Bytes :=
  if t.lines.any (fun l => eqCase (lineName l) b!"Authorization") then none
  else if t.auth then t.user.map (fun u => basic u (t.password.getD [])) else none

/-- **C155, partial.** For every request without a header Authorization of its own: if user and password are given and the name of the
user has no ':', the server shows this user and this password; if one is missing, it shows neither.
Missing: names with ':' (`C155_colon_false`), websockets opened with credentials in the URL (`C155_websocket_false`). -/
theorem C155_credentials_partial {c : Curl} {r : Request} {l : Lists} (w : Wants r l) {resp : Option Response} {opts : List Opt}
    (h : Performed c r resp opts)
    (hn : ∀ p ∈ l.header, (0x3a : UInt8) ∉ p.1 ∧ (0x3b : UInt8) ∉ p.1 ∧ eqCase p.1 b!"Authorization" = false) (at_server : Request) :
    (∀ u p, r.user = some u → r.password = some p → (0x3a : UInt8) ∉ u →
      (setCredentials at_server ((authField (transferOf opts)).bind readBasic)).user = some u ∧
      (setCredentials at_server ((authField (transferOf opts)).bind readBasic)).password = some p) ∧
    (r.user = none ∨ r.password = none →
      (setCredentials at_server ((authField (transferOf opts)).bind readBasic)).user = none ∧
      (setCredentials at_server ((authField (transferOf opts)).bind readBasic)).password = none) := by
  obtain ⟨-, -, -, -, -, h1, h2, -⟩ := C106_request_partial w h
  have hl := no_line w h (name := b!"Authorization") (by decide) hn
  constructor
  · intro u p hu hp hc
    obtain ⟨a1, a2, a3⟩ := h1 u p hu hp
    have : authField (transferOf opts) = some (basic u p) := by
      unfold authField
      rw [if_neg hl, if_pos a1, a2, a3]
      rfl
    rw [this]
    simp only [Option.bind_some, Spec.Base64.read_basic hc, setCredentials, Option.map_some]
    exact ⟨trivial, trivial⟩
  · intro hz
    obtain ⟨a1, -, -⟩ := h2 hz
    have : authField (transferOf opts) = none := by
      unfold authField
      rw [if_neg hl, if_neg (by rw [a1]; simp)]
    rw [this]
    exact ⟨rfl, rfl⟩

/-- A transfer with credentials, and what the server reads. -/
example : authField { auth := true, user := some b!"test", password := some b!"a:b" } = some b!"Basic dGVzdDphOmI=" ∧
    (setCredentials {} (readBasic b!"Basic dGVzdDphOmI=")).password = some b!"a:b" := by decide +kernel

/-- **C155 is false** for a user name with ':': the server shows another user and another password. -/
theorem C155_colon_false : ∃ t : Transfer, t.auth = true ∧ t.user = some b!"dom:joe" ∧ t.password = some b!"pw" ∧
    (setCredentials {} ((authField t).bind readBasic)).user = some b!"dom" ∧
    (setCredentials {} ((authField t).bind readBasic)).password = some b!"joe:pw" :=
  ⟨{ auth := true, user := some b!"dom:joe", password := some b!"pw" }, rfl, rfl, rfl, by decide +kernel, by decide +kernel⟩

private theorem no_basic (token : Bytes) : readBasic (b!"Basic: " ++ token) = none := by
  unfold readBasic
  rw [if_neg]
  show ¬ [0x42, 0x61, 0x73, 0x69, 0x63, 0x3a] = [0x42, 0x61, 0x73, 0x69, 0x63, 0x20]
  decide

open Verif.WsOpen Verif.Spec.Http in
/-- **C155 is false** for a websocket opened with credentials in the URL: of the Authorization field sent a server reads neither user nor
password. -/
theorem C155_websocket_false : ∃ w r p o t l fs v, Given w r p [] [] ∧ p.cred = some (b!"u", b!"p") ∧
    openClient w (some r) true true [] (some 0) = .ok o ∧ sent o.steps = [t] ∧ message t = some (l, fs, []) ∧
    fs.filter (fun f => f.1 == b!"Authorization") = [(b!"Authorization", v)] ∧ ∀ at_server, (setCredentials at_server (readBasic v)).user = none := by
  obtain ⟨w, r, p, o, t, l, fs, g, h1, -, h2, h3, h4, h5⟩ := C124_basic_false
  refine ⟨w, r, p, o, t, l, fs, _, g, h1, h2, h3, h4, h5, fun s => ?_⟩
  have := no_basic b!"dGV4dA=="
  rw [show (b!"Basic: dGV4dA==" : Bytes) = b!"Basic: " ++ b!"dGV4dA==" from rfl, this]
  rfl

/-! ## The example -/

/-- **C155, the example server.** Whatever libmicrohttpd reports, `/auth/basic` answers 200 with its text to the user "test" with the
password "testpassword" and 401 with another text to everybody else; the second callback is called in the first case only. -/
theorem C155_example (cfg : Answer.Cfg Unit) (hd : cfg.defaults = none) (r : Request) (mhd : Option (Bytes × Bytes)) :
    ∃ ans calls, Answer.dispatch cfg (basicChain (setCredentials r mhd)) none () = .ok (some ans, calls) ∧
      (mhd = some (b!"test", b!"testpassword") → ans.status = 200 ∧ ans.content = .buffer b!"Basic auth callback" ∧ calls.length = 2) ∧
      (mhd ≠ some (b!"test", b!"testpassword") → ans.status = 401 ∧ ans.content = .buffer b!"Error authentication" ∧ calls.length = 1) := by
  by_cases h : mhd = some (b!"test", b!"testpassword")
  · subst h
    refine ⟨⟨200, none, [], .buffer b!"Basic auth callback"⟩, ?_⟩
    unfold Answer.dispatch
    rw [hd]
    exact ⟨_, rfl, fun _ => ⟨rfl, rfl, rfl⟩, fun hn => absurd rfl hn⟩
  · have e : ∀ resp, authBasicBody (setCredentials r mhd) resp =
        (Dispatch.cbUnauthorized, (Message.setStringBody resp 401 (some b!"Error authentication")).2) := by
      intro resp
      unfold authBasicBody
      rw [if_neg]
      cases mhd with
      | none => simp [setCredentials]
      | some q =>
        obtain ⟨u, p⟩ := q
        simp only [setCredentials, Option.map_some, Option.isSome_some, Bool.and_eq_true, beq_iff_eq, Option.some.injEq]
        intro hh
        exact h (by rw [hh.1.2, hh.2])
    have key : ∃ calls, Answer.dispatch cfg (basicChain (setCredentials r mhd)) none () =
        .ok (some ⟨401, cfg.realm, [], .buffer b!"Error authentication"⟩, calls) ∧ calls.length = 1 := by
      unfold Answer.dispatch basicChain
      simp only [Answer.number, Answer.loop, Answer.call, e, hd, Answer.initHeaders]
      cases hr : cfg.realm with
      | none => simp only [Answer.unauthorized, Message.setStringBody, hr]; exact ⟨_, rfl, rfl⟩
      | some x => simp only [Answer.unauthorized, Message.setStringBody, hr]; exact ⟨_, rfl, rfl⟩
    obtain ⟨calls, k1, k2⟩ := key
    exact ⟨_, calls, k1, fun hh => absurd hh h, fun _ => ⟨rfl, rfl, k2⟩⟩

end Verif.Props
