import Verif.Model.Send
import Verif.Spec.Mail
/-!
# Model of `ulfius_send_smtp_rich_email` and `ulfius_send_smtp_email`, `src/u_send_request.c:806–1041`

libcurl is a parameter. Allocations succeed; the date header line is a parameter.
-/
namespace Verif.Mail
open Verif.Client Verif.Printf
open Verif.Send (Code)
open Verif.Spec.Mail (Opt Args)

/-- libcurl: `curl_easy_init` succeeds, the option is accepted after these, the transfer with these options succeeds. -/
structure Curl where
  init : Bool := true
  accepts : List Opt → Opt → Bool := fun _ _ => true
  perform : List Opt → Bool := fun _ => true

/-- A sequence of `curl_easy_setopt` calls, given up at the first refusal. -/
def setAll (c : Curl) : (done : List Opt) → List Opt → Option (List Opt)
  | done, [] => some done
  | done, o :: t => if c.accepts done o then setAll c (done ++ [o]) t else none

/-- The URL, u_send_request.c:858. -/
def smtpUrl (host : Bytes) (port : Int) (tls : Bool) : Bytes :=
  b!"smtp" ++ (if tls then b!"s" else []) ++ b!"://" ++ host ++ b!":" ++ decimalInt (mailPort port tls)

/-- The recipients, u_send_request.c:912–930. -/
def recipients (to' : Bytes) (cc bcc : Option Bytes) : List Bytes :=
  [to'] ++ (match cc with | some c => [c] | none => []) ++ (match bcc with | some c => [c] | none => [])

/-- The options, u_send_request.c:865–977. -/
def options (date : Bytes) (a : Args) (host from' to' body : Bytes) : List Opt :=
  [.url (smtpUrl host a.port a.useTls)]
  ++ (if a.useTls then [.useSsl] else [])
  ++ (if a.useTls && !a.verifyCertificate then [.verifyPeer false, .verifyHost false] else [])
  ++ (match a.user, a.password with | some u, some p => [.username u, .password p] | _, _ => [])
  ++ [.mailFrom from', .mailRcpt (recipients to' a.cc a.bcc)]
  ++ [.readFunction, .readData (mailText date to' from' a.cc a.subject a.contentType body), .upload]

/-- The result and the options of the transfer, if one was made. -/
structure Outcome where
  code : Code
  performed : Option (List Opt) := none
  deriving DecidableEq, Repr

/-- `ulfius_send_smtp_rich_email`, u_send_request.c:824–1009. -/
def sendRich (c : Curl) (date : Bytes) (a : Args) : Outcome :=
  match a.host, a.from', a.to', a.body with
  | some host, some from', some to', some body =>
    if c.init then
      match setAll c [] (options date a host from' to' body) with
      | none => ⟨.libcurl, none⟩
      | some os => ⟨if c.perform os then .ok else .libcurl, some os⟩
    else ⟨.libcurl, none⟩
  | _, _, _, _ => ⟨.params, none⟩

/-- `ulfius_send_smtp_email`, u_send_request.c:1029–1041. -/
def sendPlain (c : Curl) (date : Bytes) (a : Args) : Outcome :=
  sendRich c date { a with contentType := some b!"text/plain; charset=utf-8" }

end Verif.Mail
