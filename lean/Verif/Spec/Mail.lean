import Verif.Basic
/-!
# Specification: mail over libcurl

From libcurl's documentation of the options used for SMTP: what is sent, to whom, over which connection. Independent of the model.
-/
namespace Verif.Spec.Mail

/-- The calls `curl_easy_setopt(handle, option, value)`; `readData` stands for the text the read function delivers. -/
inductive Opt
  | url (v : Bytes)
  | useSsl
  | verifyPeer (v : Bool)
  | verifyHost (v : Bool)
  | username (v : Bytes)
  | password (v : Bytes)
  | mailFrom (v : Bytes)
  | mailRcpt (v : List Bytes)
  | readFunction
  | readData (text : Bytes)
  | upload
  deriving DecidableEq, Repr

/-- The mail transfer described by the options; initially libcurl's defaults. -/
structure Mail where
  url : Option Bytes := none
  useSsl : Bool := false
  verifyPeer : Bool := true
  verifyHost : Bool := true
  user : Option Bytes := none
  password : Option Bytes := none
  sender : Option Bytes := none
  recipients : List Bytes := []
  source : Bool := false
  text : Option Bytes := none
  upload : Bool := false
  deriving DecidableEq, Repr

/-- The effect of one option. -/
def Mail.set (m : Mail) : Opt → Mail
  | .url v => { m with url := some v }
  | .useSsl => { m with useSsl := true }
  | .verifyPeer v => { m with verifyPeer := v }
  | .verifyHost v => { m with verifyHost := v }
  | .username v => { m with user := some v }
  | .password v => { m with password := some v }
  | .mailFrom v => { m with sender := some v }
  | .mailRcpt v => { m with recipients := v }
  | .readFunction => { m with source := true }
  | .readData t => { m with text := some t }
  | .upload => { m with upload := true }

/-- The transfer after all options. -/
def mailOf (os : List Opt) : Mail := os.foldl Mail.set {}

/-- The connection is encrypted: an `smtps` URL (TLS from the start). -/
def Mail.encrypted (m : Mail) : Bool := m.url.any (fun u => b!"smtps://".isPrefixOf u)

/-- The connection is encrypted and the server is checked. -/
def Mail.checked (m : Mail) : Bool := m.encrypted && m.verifyPeer && m.verifyHost

/-- Arguments of `ulfius_send_smtp_rich_email` in the order of include/ulfius.h:805–817. -/
structure Args where
  host : Option Bytes
  port : Int
  useTls : Bool
  verifyCertificate : Bool
  user : Option Bytes
  password : Option Bytes
  from' : Option Bytes
  to' : Option Bytes
  cc : Option Bytes
  bcc : Option Bytes
  contentType : Option Bytes
  subject : Option Bytes
  body : Option Bytes
  deriving DecidableEq, Repr

end Verif.Spec.Mail
