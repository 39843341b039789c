import Verif.Basic
import Verif.Spec.Segments
/-!
# Specification: what the options of libcurl mean

From libcurl's documentation of `curl_easy_setopt`: which transfer `curl_easy_perform` makes after a sequence of accepted
options. A later option replaces an earlier one of the same kind. Independent of the model.
-/
namespace Verif.Spec.Curl

/-- What `CURLOPT_IPRESOLVE` allows. -/
inductive Resolve
  | whatever
  | v4
  | v6
  deriving DecidableEq, Repr

/-- The calls `curl_easy_setopt(handle, option, value)`. -/
inductive Opt
  | acceptEncoding (v : Option Bytes)
  | redirProtocols (v : Bytes)
  | protocols (v : Bytes)
  | authBasic
  | username (v : Bytes)
  | password (v : Bytes)
  | sslCert (v : Bytes)
  | sslKey (v : Bytes)
  | keyPassword (v : Bytes)
  | noProgress
  | proxy (v : Bytes)
  | follow
  | resolve (v : Resolve)
  | postSize (n : Nat)
  | postFields (block : Bytes)
  | cookie (v : Bytes)
  | url (v : Option Bytes)
  | customRequest (v : Bytes)
  | noBody
  | httpHeader (v : List Bytes)
  | writeFunction
  | writeData
  | verifyPeer (v : Bool)
  | verifyHost (v : Bool)
  | proxyVerifyPeer (v : Bool)
  | proxyVerifyHost (v : Bool)
  | caPath (v : Bytes)
  | timeout (n : Nat)
  | headerFunction
  | headerData
  | noSignal
  | cookieFile (v : Bytes)
  deriving DecidableEq, Repr

/-- The transfer described by the options; initially libcurl's defaults. -/
structure Transfer where
  url : Option Bytes := none
  method : Option Bytes := none
  noBody : Bool := false
  lines : List Bytes := []
  cookie : Option Bytes := none
  post : Option Bytes := none
  postSize : Option Nat := none
  auth : Bool := false
  user : Option Bytes := none
  password : Option Bytes := none
  certificate : Option Bytes := none
  key : Option Bytes := none
  keyPassword : Option Bytes := none
  proxy : Option Bytes := none
  follow : Bool := false
  resolve : Resolve := .whatever
  protocols : Option Bytes := none
  redirProtocols : Option Bytes := none
  verifyPeer : Bool := true
  verifyHost : Bool := true
  proxyVerifyPeer : Bool := true
  proxyVerifyHost : Bool := true
  caPath : Option Bytes := none
  timeout : Nat := 0
  storeHeaders : Bool := false
  storeBody : Bool := false
  decode : Option Bytes := none
  deriving DecidableEq, Repr

/-- The effect of one option. -/
def Transfer.set (t : Transfer) : Opt → Transfer
  | .acceptEncoding v => { t with decode := v }
  | .redirProtocols v => { t with redirProtocols := some v }
  | .protocols v => { t with protocols := some v }
  | .authBasic => { t with auth := true }
  | .username v => { t with user := some v }
  | .password v => { t with password := some v }
  | .sslCert v => { t with certificate := some v }
  | .sslKey v => { t with key := some v }
  | .keyPassword v => { t with keyPassword := some v }
  | .noProgress => t
  | .proxy v => { t with proxy := some v }
  | .follow => { t with follow := true }
  | .resolve v => { t with resolve := v }
  | .postSize n => { t with postSize := some n }
  | .postFields b => { t with post := some b }
  | .cookie v => { t with cookie := some v }
  | .url v => { t with url := v }
  | .customRequest v => { t with method := some v }
  | .noBody => { t with noBody := true }
  | .httpHeader v => { t with lines := v }
  | .writeFunction => { t with storeBody := true }
  | .writeData => t
  | .verifyPeer v => { t with verifyPeer := v }
  | .verifyHost v => { t with verifyHost := v }
  | .proxyVerifyPeer v => { t with proxyVerifyPeer := v }
  | .proxyVerifyHost v => { t with proxyVerifyHost := v }
  | .caPath v => { t with caPath := some v }
  | .timeout n => { t with timeout := n }
  | .headerFunction => { t with storeHeaders := true }
  | .headerData => t
  | .noSignal => t
  | .cookieFile _ => t

/-- The transfer after all options. -/
def transferOf (os : List Opt) : Transfer := os.foldl Transfer.set {}

/-- The request body: `CURLOPT_POSTFIELDSIZE` bytes of the block. -/
def Transfer.body (t : Transfer) : Option Bytes := t.post.map (fun b => b.take (t.postSize.getD b.length))

/-- White space skipped after the ':' of a custom header. -/
def blank (c : UInt8) : Bool := c == 0x20 || (0x09 ≤ c && c ≤ 0x0d)

/-- Whether a custom header line is sent (`CURLOPT_HTTPHEADER`): a line with nothing after its ':' only disables the header
libcurl would have made itself. -/
def isSent (line : Bytes) : Bool := !((line.dropWhile (· != 0x3a)).drop 1).all blank

/-- The custom headers as they go over the network: the lines that are sent, each unchanged and ended by CR LF. -/
def Transfer.headerText (t : Transfer) : Bytes := ((t.lines.filter isSent).map (· ++ [0x0d, 0x0a])).flatten

/-- How the receiver reads header text: lines end with CR LF, the name ends at the first ':'. -/
def readHeaders : Bytes → (cur : Bytes) → List (Bytes × Bytes)
  | [], _ => []
  | [_], _ => []
  | c :: d :: t, cur =>
    if c = 0x0d ∧ d = 0x0a then
      (cur.takeWhile (· != 0x3a), (cur.dropWhile (· != 0x3a)).drop 1) :: readHeaders t []
    else readHeaders (d :: t) (cur ++ [c])

/-- How the receiver reads the Cookie header (RFC 6265, 5.4 and the usual server practice): pairs separated by ';', each split
at its first '='; a pair without '=' has no value. -/
def readCookies (text : Bytes) : List (Bytes × Option Bytes) :=
  (Segments.pieces 0x3b text).map (fun p => (p.takeWhile (· != 0x3d),
    if 0x3d ∈ p then some ((p.dropWhile (· != 0x3d)).drop 1) else none))

/-- The name of a custom header line. -/
def lineName (line : Bytes) : Bytes := line.takeWhile (fun c => c != 0x3a && c != 0x3b)

/-- The text of the Cookie header libcurl makes (`CURLOPT_COOKIE`): none when there is a custom header of that name. -/
def Transfer.cookieText (t : Transfer) : Option Bytes :=
  if t.lines.any (fun l => eqCase (lineName l) b!"Cookie") then none else t.cookie

/-- libcurl expects the response to have a body unless `CURLOPT_NOBODY` is set (documentation of `CURLOPT_CUSTOMREQUEST`); the
response to HEAD has none, so the transfer waits for it in vain. -/
def Transfer.hangs (t : Transfer) : Bool := t.method == some b!"HEAD" && !t.noBody

/-- The longest string `curl_easy_setopt` takes (`CURL_MAX_INPUT_LENGTH`); for a longer one it returns
`CURLE_BAD_FUNCTION_ARGUMENT`. -/
def maxInput : Nat := 8000000

end Verif.Spec.Curl
