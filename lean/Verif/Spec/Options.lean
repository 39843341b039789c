import Verif.Spec.OMap
/-!
# Specification: the options of `ulfius_set_request_properties` and `ulfius_set_response_properties`

From the documentation of `u_option` (include/ulfius.h:145–185): what each option sets. Independent of the model.
-/
namespace Verif.Spec.Options
open Verif.Spec.OMap (OMap Code)

/-- A `const char *` argument of an option: NULL, a string of the caller, or the string the request already holds for this very
option (for instance `request->http_url` given to `U_OPT_HTTP_URL`). -/
inductive Arg where
  | null
  | text (s : Bytes)
  | own
  deriving DecidableEq, Repr

/-- Options of a request, with their arguments; `other` is a number that is no option of requests. A JSON value is the text
`json_dumps` makes of it; `none` is NULL or a value that is neither an array nor an object. -/
inductive Opt where
  | verb (a : Arg)
  | url (a : Arg)
  | urlAppend (s : Option Bytes)
  | proxy (a : Arg)
  | network (n : Nat)
  | checkServer (n : Nat)
  | serverFlag (n : Nat)
  | checkProxy (n : Nat)
  | proxyFlag (n : Nat)
  | follow (n : Nat)
  | caPath (a : Arg)
  | timeout (n : Nat)
  | user (a : Arg)
  | password (a : Arg)
  | auth (user password : Arg)
  | param (k v : Option Bytes)
  | header (k v : Option Bytes)
  | cookie (k v : Option Bytes)
  | form (k v : Option Bytes)
  | paramRemove (k : Option Bytes)
  | headerRemove (k : Option Bytes)
  | cookieRemove (k : Option Bytes)
  | formRemove (k : Option Bytes)
  | binaryBody (b : Option Bytes) (length : Nat)
  | stringBody (s : Option Bytes)
  | jsonBody (text : Option Bytes)
  | certFile (a : Arg)
  | keyFile (a : Arg)
  | keyPassword (a : Arg)
  | other
  deriving DecidableEq, Repr

/-- What the options of a request describe. -/
structure Ideal where
  verb : Option Bytes := none
  url : Option Bytes := none
  proxy : Option Bytes := none
  network : Nat := 0
  checkServer : Nat := 0
  serverFlag : Nat := 0
  checkProxy : Nat := 0
  proxyFlag : Nat := 0
  follow : Nat := 0
  caPath : Option Bytes := none
  timeout : Nat := 0
  user : Option Bytes := none
  password : Option Bytes := none
  params : OMap := []
  headers : OMap := []
  cookies : OMap := []
  form : OMap := []
  body : Bytes := []
  certFile : Option Bytes := none
  keyFile : Option Bytes := none
  keyPassword : Option Bytes := none
  deriving DecidableEq, Repr

/-- A text option: NULL or an empty text unset the value; a value set to itself stays. -/
def given (current : Option Bytes) : Arg → Option Bytes
  | .null => none
  | .text [] => none
  | .text s => some s
  | .own => current

/-- Adding to a map: the key must not be NULL or empty. -/
def added (m : OMap) (k v : Option Bytes) : Code × OMap :=
  match k with
  | none => (.badParams, m)
  | some k => OMap.step m (.put k v)

/-- Removing from a map: the key must be there. -/
def removed (m : OMap) (k : Option Bytes) : Code × OMap :=
  match k with
  | none => (.badParams, m)
  | some k => OMap.step m (.removeKey k)

/-- The effect of one option and its result. -/
def Ideal.step (i : Ideal) : Opt → Code × Ideal
  | .verb a => (.done, { i with verb := given i.verb a })
  | .url a => (.done, { i with url := given i.url a })
  | .urlAppend none => (.done, i)
  | .urlAppend (some s) => (.done, { i with url := some (i.url.getD [] ++ s) })
  | .proxy a => (.done, { i with proxy := given i.proxy a })
  | .network n => (.done, { i with network := n })
  | .checkServer n => (.done, { i with checkServer := n })
  | .serverFlag n => (.done, { i with serverFlag := n })
  | .checkProxy n => (.done, { i with checkProxy := n })
  | .proxyFlag n => (.done, { i with proxyFlag := n })
  | .follow n => (.done, { i with follow := n })
  | .caPath a => (.done, { i with caPath := given i.caPath a })
  | .timeout n => (.done, { i with timeout := n })
  | .user a => (.done, { i with user := given i.user a })
  | .password a => (.done, { i with password := given i.password a })
  | .auth u p => (.done, { i with user := given i.user u, password := given i.password p })
  | .param k v => ((added i.params k v).1, { i with params := (added i.params k v).2 })
  | .header k v => ((added i.headers k v).1, { i with headers := (added i.headers k v).2 })
  | .cookie k v => ((added i.cookies k v).1, { i with cookies := (added i.cookies k v).2 })
  | .form k v => ((added i.form k v).1, { i with form := (added i.form k v).2 })
  | .paramRemove k => ((removed i.params k).1, { i with params := (removed i.params k).2 })
  | .headerRemove k => ((removed i.headers k).1, { i with headers := (removed i.headers k).2 })
  | .cookieRemove k => ((removed i.cookies k).1, { i with cookies := (removed i.cookies k).2 })
  | .formRemove k => ((removed i.form k).1, { i with form := (removed i.form k).2 })
  | .binaryBody (some b) n => if n = 0 then (.badParams, i) else (.done, { i with body := b.take n })
  | .binaryBody none _ => (.badParams, i)
  | .stringBody (some s) => (.done, { i with body := s })
  | .stringBody none => (.badParams, i)
  | .jsonBody (some t) => (.done, { i with body := t, headers := OMap.put i.headers b!"Content-Type" (some b!"application/json") })
  | .jsonBody none => (.badParams, i)
  | .certFile a => (.done, { i with certFile := given i.certFile a })
  | .keyFile a => (.done, { i with keyFile := given i.keyFile a })
  | .keyPassword a => (.done, { i with keyPassword := given i.keyPassword a })
  | .other => (.badParams, i)

/-- A list of options: in order, up to the first refused one. -/
def Ideal.set (i : Ideal) : List Opt → Code × Ideal
  | [] => (.done, i)
  | o :: t => if (i.step o).1 = .done then (i.step o).2.set t else i.step o

/-- The last value given for a setting, or its former value. -/
def lastOf {α β : Type} (f : β → Option α) (former : α) (os : List β) : α := (os.filterMap f).getLast?.getD former

/-- The value given by a text argument that is not the request's own text. -/
def plain : Arg → Option Bytes
  | .text (c :: t) => some (c :: t)
  | _ => none

/-! Which setting an option gives a value to. -/

def verbOf : Opt → Option (Option Bytes) | .verb a => some (plain a) | _ => none
def proxyOf : Opt → Option (Option Bytes) | .proxy a => some (plain a) | _ => none
def caPathOf : Opt → Option (Option Bytes) | .caPath a => some (plain a) | _ => none
def userOf : Opt → Option (Option Bytes) | .user a => some (plain a) | .auth a _ => some (plain a) | _ => none
def passwordOf : Opt → Option (Option Bytes) | .password a => some (plain a) | .auth _ a => some (plain a) | _ => none
def certFileOf : Opt → Option (Option Bytes) | .certFile a => some (plain a) | _ => none
def keyFileOf : Opt → Option (Option Bytes) | .keyFile a => some (plain a) | _ => none
def keyPasswordOf : Opt → Option (Option Bytes) | .keyPassword a => some (plain a) | _ => none
def networkOf : Opt → Option Nat | .network n => some n | _ => none
def checkServerOf : Opt → Option Nat | .checkServer n => some n | _ => none
def serverFlagOf : Opt → Option Nat | .serverFlag n => some n | _ => none
def checkProxyOf : Opt → Option Nat | .checkProxy n => some n | _ => none
def proxyFlagOf : Opt → Option Nat | .proxyFlag n => some n | _ => none
def followOf : Opt → Option Nat | .follow n => some n | _ => none
def timeoutOf : Opt → Option Nat | .timeout n => some n | _ => none
def bodyOf : Opt → Option Bytes
  | .binaryBody (some b) n => some (b.take n)
  | .stringBody (some s) => some s
  | .jsonBody (some t) => some t
  | _ => none

/-! What the options do to the maps, as operations on an insertion-ordered map. -/

def putOp (k v : Option Bytes) : List OMap.Op := k.toList.map (fun k => .put k v)
def removeOp (k : Option Bytes) : List OMap.Op := k.toList.map .removeKey

def paramOps : Opt → List OMap.Op | .param k v => putOp k v | .paramRemove k => removeOp k | _ => []
def headerOps : Opt → List OMap.Op
  | .header k v => putOp k v
  | .headerRemove k => removeOp k
  | .jsonBody (some _) => [.put b!"Content-Type" (some b!"application/json")]
  | _ => []
def cookieOps : Opt → List OMap.Op | .cookie k v => putOp k v | .cookieRemove k => removeOp k | _ => []
def formOps : Opt → List OMap.Op | .form k v => putOp k v | .formRemove k => removeOp k | _ => []

/-! ## JSON bodies -/

/-- The media type of a Content-Type value is `application/json` (RFC 9110, 8.3.1: type and subtype are compared without regard
to case, parameters follow a ';', optional white space around it). -/
def isJson (value : Bytes) : Bool :=
  eqCase (((value.takeWhile (· != 0x3b)).dropWhile (fun c => c == 0x20 || c == 0x09)).reverse.dropWhile
    (fun c => c == 0x20 || c == 0x09)).reverse b!"application/json"

end Verif.Spec.Options
