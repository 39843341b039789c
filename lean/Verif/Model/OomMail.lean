import Verif.Model.Mail
/-!
# Model of `ulfius_send_smtp_rich_email` when memory runs out, `src/u_send_request.c:824–1009`

`Model/Mail` again, with a name for every allocation of the library and a choice of which fail. The allocations inside `curl_easy_setopt` are those of
`Curl.accepts`. A failing `curl_slist_append` answers NULL.
-/
namespace Verif.OomMail
open Verif.Client Verif.Printf
open Verif.Mail (Curl Outcome setAll smtpUrl recipients)
open Verif.Spec.Mail (Opt Args)

/-- The allocations, u_send_request.c:858, 912, 918, 925, 943–947, 948. -/
inductive Place
  | url
  | toList
  | ccList
  | bccList
  | ccText
  | text
  deriving DecidableEq, Repr

/-- Which allocations fail. -/
abbrev F := Place → Bool

/-- The options before the recipients, u_send_request.c:865–910. -/
def firstOptions (a : Args) (host from' : Bytes) : List Opt :=
  [.url (smtpUrl host a.port a.useTls)]
  ++ (if a.useTls then [.useSsl] else [])
  ++ (if a.useTls && !a.verifyCertificate then [.verifyPeer false, .verifyHost false] else [])
  ++ (match a.user, a.password with | some u, some p => [.username u, .password p] | _, _ => [])
  ++ [.mailFrom from']

/-- The lists of recipients, u_send_request.c:912–930; `none`: given up. -/
def rcpt (f : F) (to' : Bytes) (cc bcc : Option Bytes) : Option (List Bytes) :=
  if f .toList then none
  else if cc.isSome && f .ccList then none
  else if bcc.isSome && f .bccList then none
  else some (recipients to' cc bcc)

/-- The line with the copies, u_send_request.c:943–947. -/
def ccLine (f : F) (cc : Option Bytes) : Option Bytes :=
  if f .ccText then none else some (match cc with | some c => b!"Cc: " ++ c ++ b!"\r\n" | none => [])

/-- The text of the mail, u_send_request.c:948–961; `none`: given up. -/
def mailText (f : F) (date to' from' : Bytes) (cc subject contentType : Option Bytes) (body : Bytes) : Option Bytes :=
  if f .text then none
  else some (date ++ b!"\r\nTo: " ++ to' ++ b!"\r\nFrom: " ++ from' ++ b!"\r\n" ++ str (ccLine f cc)
    ++ b!"Subject: " ++ subject.getD [] ++ b!"\r\nContent-Type: " ++ str contentType ++ b!"\r\n\r\n" ++ body ++ b!"\r\n")

/-- `ulfius_send_smtp_rich_email`, u_send_request.c:824–1009. -/
def sendRich (f : F) (c : Curl) (date : Bytes) (a : Args) : Outcome :=
  match a.host, a.from', a.to', a.body with
  | some host, some from', some to', some body =>
    if c.init then
      if f .url then ⟨.memory, none⟩
      else match setAll c [] (firstOptions a host from') with
      | none => ⟨.libcurl, none⟩
      | some done =>
        match rcpt f to' a.cc a.bcc with
        | none => ⟨.libcurl, none⟩
        | some l =>
          match setAll c done [.mailRcpt l] with
          | none => ⟨.libcurl, none⟩
          | some done =>
            match mailText f date to' from' a.cc a.subject a.contentType body with
            | none => ⟨.memory, none⟩
            | some t =>
              match setAll c done [.readFunction, .readData t, .upload] with
              | none => ⟨.libcurl, none⟩
              | some os => ⟨if c.perform os then .ok else .libcurl, some os⟩
    else ⟨.libcurl, none⟩
  | _, _, _, _ => ⟨.params, none⟩

/-- `ulfius_send_smtp_email`, u_send_request.c:1029–1041. -/
def sendPlain (f : F) (c : Curl) (date : Bytes) (a : Args) : Outcome :=
  sendRich f c date { a with contentType := some b!"text/plain; charset=utf-8" }

end Verif.OomMail
