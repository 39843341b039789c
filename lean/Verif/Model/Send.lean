import Verif.Model.Client
import Verif.Spec.Curl
/-!
# Model of `ulfius_send_http_request` and its variants, `src/u_send_request.c:187–804`

libcurl is a parameter (`Curl`): it answers to `curl_easy_setopt` and performs the transfer as it likes. Allocations and
`curl_easy_escape` succeed. The build has GnuTLS, libcurl ≥ 7.85 and libmicrohttpd ≥ 0.9.52.8 (the `#if` branches taken).
-/
namespace Verif.Send
open Verif.UMap Verif.Message Verif.Client
open Verif.Spec.Curl (Opt Resolve)

/-- The return values used, include/u_map … include/ulfius.h: `U_OK`, `U_ERROR_MEMORY`, `U_ERROR_PARAMS`, `U_ERROR_LIBCURL`. -/
inductive Code
  | ok
  | memory
  | params
  | libcurl
  deriving DecidableEq, Repr

/-- What libcurl does during `curl_easy_perform` and reports afterwards: the header lines and body blocks it hands to the
callbacks, the result (the status code if it is `CURLE_OK`), and the cookies (`none`: `CURLINFO_COOKIELIST` failed). -/
structure Reply where
  lines : List Bytes := []
  chunks : List Bytes := []
  status : Option Nat := some 200
  cookies : Option (List Bytes) := some []
  deriving DecidableEq, Repr

/-- libcurl: `curl_easy_init` succeeds, the option is accepted after these, the reply to a transfer with these options. -/
structure Curl where
  init : Bool := true
  accepts : List Opt → Opt → Bool := fun _ _ => true
  perform : List Opt → Reply := fun _ => {}

/-- A sequence of `curl_easy_setopt` calls, given up at the first refusal. -/
def setAll (c : Curl) : (done : List Opt) → List Opt → Option (List Opt)
  | done, [] => some done
  | done, o :: t => if c.accepts done o then setAll c (done ++ [o]) t else none

/-- Accepted encodings, u_send_request.c:308–314. -/
def acceptOptions : Option (Option Bytes) → List Opt
  | some v => [.acceptEncoding v]
  | none => []

/-- Basic authentication, u_send_request.c:341–354. -/
def authOptions (user password : Option Bytes) : List Opt :=
  match user, password with
  | some u, some p => [.authBasic, .username u, .password p]
  | _, _ => []

/-- Client certificate, u_send_request.c:356–373. -/
def certOptions (cert key password : Option Bytes) : List Opt :=
  match cert, key with
  | some c, some k => [.sslCert c, .sslKey k] ++ (match password with | some p => [.keyPassword p] | none => [])
  | _, _ => []

/-- Proxy, u_send_request.c:381–388. -/
def proxyOptions : Option Bytes → List Opt
  | some p => [.proxy p]
  | none => []

/-- Address family, u_send_request.c:399–419. -/
def familyOptions (network : Nat) : List Opt :=
  if network &&& 0x11 ≠ 0 then [.resolve .whatever]
  else if network &&& 0x10 ≠ 0 then [.resolve .v6] else [.resolve .v4]

/-- The first options, u_send_request.c:306–419. The client certificate is read from the request of the caller, everything else
from its copy. -/
def firstOptions (req copy : Request) (accept : Option (Option Bytes)) : List Opt :=
  acceptOptions accept
  ++ [.redirProtocols b!"http,https", .protocols b!"http,https"]
  ++ authOptions copy.user copy.password
  ++ certOptions req.certFile req.keyFile req.keyPassword
  ++ [.noProgress]
  ++ proxyOptions copy.proxy
  ++ (if copy.followRedirect ≠ 0 then [.follow] else [])
  ++ familyOptions copy.network

/-- The value for `CURLOPT_ACCEPT_ENCODING`, u_send_request.c:308–314. -/
def acceptValue (m : UMap) : Res (Option (Option Bytes)) := do
  if ← UMap.hasKeyCase m (some b!"Accept-Encoding") then do
    match ← UMap.getCase m (some b!"Accept-Encoding") with
    | none => return some none
    | some b => do let s ← readStr b; return some (some s)
  else return none

/-- The URL, u_send_request.c:421–463: `str_replace(NULL, …)` is NULL, `mstrcatf(NULL, …)` starts a new text. -/
def urlValue (copy : Request) : Res (Option Bytes) :=
  match copy.url with
  | some u => do let r ← requestUrl u copy.mapUrl; return some r
  | none => if copy.mapUrl.nb ≠ 0 then do let r ← requestUrl [] copy.mapUrl; return some r else .ok none

/-- The form, u_send_request.c:465–523: replaces the body of the copy and sets its content type; `none`: `u_map_put` failed. -/
def formStep (copy : Request) : Res (Option Request) :=
  if copy.mapPost.nb ≠ 0 then do
    let body ← requestForm copy.mapPost
    let (rc, h) ← UMap.put copy.mapHeader (some b!"Content-Type") (some b!"application/x-www-form-urlencoded")
    if rc ≠ .ok then return none
    else return some { copy with body := some (body ++ [0]), bodyLen := body.length, mapHeader := h }
  else .ok (some copy)

/-- The body options, u_send_request.c:525–545. `CURLOPT_POSTFIELDSIZE` and `CURLOPT_POSTFIELDSIZE_LARGE` mean the same. -/
def bodyOptions (copy : Request) : List Opt :=
  match copy.body with
  | some b => if copy.bodyLen ≠ 0 then [.postSize copy.bodyLen, .postFields b] else []
  | none => []

/-- The header lines, u_send_request.c:546–575. -/
def headerValues (m : UMap) : Res (List Bytes) :=
  if m.nb ≠ 0 then do let keys ← UMap.enumKeys m; headerList m keys else .ok []

/-- The cookie text, u_send_request.c:577–596. -/
def cookieValue (m : UMap) : Res (Option Bytes) :=
  if m.nb ≠ 0 then do let keys ← UMap.enumKeys m; cookieText m keys none else .ok none

/-- Certificate checks, u_send_request.c:630–656 (server) and 658–684 (proxy). -/
def verifyOptions (check flag : Nat) (peer host : Bool → Opt) : List Opt :=
  if check = 0 then [peer false, host false]
  else (if flag &&& 0x01 = 0 then [peer false] else []) ++ (if flag &&& 0x10 = 0 then [host false] else [])

/-- Certificate authorities, u_send_request.c:686–693. -/
def caOptions : Option Bytes → List Opt
  | some p => [.caPath p]
  | none => []

/-- Where the response body goes: nowhere, or to a function, with or without its data pointer. -/
structure Sink where
  function : Bool := true
  data : Bool := true
  deriving DecidableEq, Repr

/-- The last options, u_send_request.c:608–720; `resp`: a response is given. -/
def lastOptions (copy : Request) (url : Option Bytes) (lines : List Bytes) (sink : Sink) (resp : Bool) : List Opt :=
  [.url url, .customRequest (copy.verb.getD b!"GET"), .httpHeader lines]
  ++ (if sink.function then [.writeFunction] else []) ++ (if sink.data then [.writeData] else [])
  ++ verifyOptions copy.checkServer copy.serverFlag .verifyPeer .verifyHost
  ++ verifyOptions copy.checkProxy copy.proxyFlag .proxyVerifyPeer .proxyVerifyHost
  ++ caOptions copy.caPath
  ++ (if copy.timeout ≠ 0 then [.timeout copy.timeout] else [])
  ++ (if resp then [.headerFunction, .headerData] else [])
  ++ [.noSignal, .cookieFile []]

/-- What a call leaves behind: its result, the options of the transfer if one was made, the response, and the blocks given to the
body function. -/
structure Outcome where
  code : Code
  performed : Option (List Opt) := none
  response : Option Response
  chunks : List Bytes := []
  deriving DecidableEq, Repr

/-- The transfer and the reading of its results, u_send_request.c:722–787. -/
def perform (c : Curl) (opts : List Opt) (max : Nat) (response : Option Response) : Res Outcome :=
  let reply := c.perform opts
  match response with
  | none => .ok ⟨if reply.status.isSome then .ok else .libcurl, some opts, none, reply.chunks⟩
  | some r => do
    let h ← writeHeaders max { map := r.header, protocol := r.protocol, counter := 0 } reply.lines
    let r := { r with header := h.map, protocol := h.protocol }
    match reply.status with
    | none => return ⟨.libcurl, some opts, some r, reply.chunks⟩
    | some st =>
      let r := { r with status := st }
      match reply.cookies with
      | none => return ⟨.libcurl, some opts, some r, reply.chunks⟩
      | some lines => do
        let r ← cookieList r {} lines
        return ⟨.ok, some opts, some r, reply.chunks⟩

/-- The cookie option, u_send_request.c:597–606: when libcurl refuses it, the message logged contains the text freed before. -/
def setCookie (c : Curl) (done : List Opt) : Option Bytes → Res (List Opt)
  | none => .ok done
  | some t => if c.accepts done (.cookie t) then .ok (done ++ [.cookie t]) else .ub

/-- From the URL on, u_send_request.c:421–720: the options of the transfer, `none` when given up. -/
def prepare (c : Curl) (req copy : Request) (sink : Sink) (resp : Bool) : Res (Option (List Opt)) := do
  let accept ← acceptValue copy.mapHeader
  match setAll c [] (firstOptions req copy accept) with
  | none => return none
  | some done => do
    let url ← urlValue copy
    match ← formStep copy with
    | none => return none
    | some copy =>
      match setAll c done (bodyOptions copy) with
      | none => return none
      | some done => do
        let lines ← headerValues copy.mapHeader
        let cookies ← cookieValue copy.mapCookie
        let done ← setCookie c done cookies
        return setAll c done (lastOptions copy url lines sink resp)

/-- `ulfius_send_http_streaming_request_max_header`, u_send_request.c:281–804. -/
def sendStreaming (c : Curl) (request : Option Request) (response : Option Response) (sink : Sink) (max : Nat) : Res Outcome :=
  match request with
  | none => .ok ⟨.params, none, response, []⟩
  | some req => do
    match ← duplicateRequest req with
    | none => return ⟨.memory, none, response, []⟩
    | some copy =>
      if c.init then do
        match ← prepare c req copy sink response.isSome with
        | none => return ⟨.libcurl, none, response, []⟩
        | some opts => perform c opts max response
      else return ⟨.libcurl, none, response, []⟩

/-- `ulfius_send_http_request_with_limit`, u_send_request.c:230–259, and with both limits 0 `ulfius_send_http_request`,
192–221. -/
def sendLimit (c : Curl) (request : Option Request) (response : Option Response) (limit max : Nat) : Res Outcome := do
  let o ← sendStreaming c request response ⟨true, response.isSome⟩ max
  match o.code, o.response with
  | .ok, some r =>
    match received limit o.chunks with
    | some b => return { o with response := some { r with body := some b, bodyLen := b.length } }
    | none => return o
  | _, _ => return o

end Verif.Send
