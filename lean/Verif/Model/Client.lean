import Verif.Model.Message
import Verif.Model.Strtok
/-!
# Model of the HTTP and SMTP client, `src/u_send_request.c`

libcurl is not modelled: it calls the functions below with blocks and lines of its choice and receives the URL, header and
form texts. Allocations succeed. libcurl's header lines are C strings here (the code reads them as such).
-/
namespace Verif.Client
open Verif.UMap Verif.Printf Verif.Message Verif.Strtok

/-! ## Response body -/

/-- `struct _u_body`, u_send_request.c:65–69; `size` is the length of `data`. -/
structure Body where
  data : Bytes := []
  limit : Nat := 0
  deriving DecidableEq, Repr

/-- `cur_size`, u_send_request.c:91–102 (`size_t` arithmetic). -/
def curSize (size limit realsize : Nat) : Nat :=
  if limit ≠ 0 then
    if size < limit then (if limit < w64 (size + realsize + 1) then limit - size else realsize)
    else 0
  else realsize

/-- `ulfius_write_body`, u_send_request.c:90–119; `chunk` is the block of `size * nmemb` bytes. -/
def writeBody (b : Body) (chunk : Bytes) : Body :=
  let n := curSize b.data.length b.limit chunk.length
  if n ≠ 0 then { b with data := b.data ++ chunk.take n } else b

/-- The transfer, then u_send_request.c:242–252: the body handed to the response (`none`: left as it was). -/
def received (limit : Nat) (chunks : List Bytes) : Option Bytes :=
  let b := chunks.foldl writeBody { limit := limit }
  if b.data = [] then none else some b.data

/-! ## Response headers -/

/-- `struct _u_response_header`, u_send_request.c:80–84, with the two fields of the response it touches. -/
structure Headers where
  map : UMap := UMap.init
  protocol : Option Bytes := none
  counter : Nat := 0
  deriving DecidableEq, Repr

/-- Text without trailing spaces (what `trimwhitespace` leaves behind the original pointer). -/
def trimRight (s : Bytes) : Bytes := if s.all isSpace then s else (s.reverse.dropWhile isSpace).reverse

/-- `msprintf("%s, %s", u_map_get_case(map, key), value)`, u_send_request.c:150. -/
def joined (m : UMap) (key : Bytes) (value : Option Bytes) : Res Bytes := do
  let old ← match ← UMap.getCase m (some key) with
    | none => Res.ok none
    | some b => do let s ← readStr b; Res.ok (some s)
  return str old ++ b!", " ++ str value

/-- Storing one header, u_send_request.c:147–155. -/
def storeHeader (m : UMap) (key value : Option Bytes) : Res UMap := do
  let has ← UMap.hasKeyCase m key
  match key, has with
  | some k, true => do
    let tmp ← joined m k value
    let (rc, m') ← UMap.removeKeyCase m (some k)
    if rc = .ok then do
      let (_, m'') ← UMap.put m' (some k) (some tmp)
      return m''
    else return m'
  | _, _ => do
    let (_, m') ← UMap.put m key value
    return m'

/-- `strtok_r(header, ":")` then `strtok_r(NULL, "")`, both trimmed, u_send_request.c:144–145. -/
def splitHeader (line : Bytes) : Option Bytes × Option Bytes :=
  match strtok (· == 0x3a) line with
  | none => (none, none)
  | some (w, rest) => (some (trimSpace w), if rest = [] then none else some (trimSpace rest))

/-- `write_header`, u_send_request.c:136–171. -/
def writeHeader (max : Nat) (h : Headers) (line : Bytes) : Res Headers :=
  if 0x3a ∈ line then
    if max = 0 ∨ h.counter < max then do
      let m ← storeHeader h.map (splitHeader line).1 (splitHeader line).2
      return { h with map := m, counter := h.counter + 1 }
    else .ok h
  else if trimSpace line ≠ [] then .ok { h with protocol := some (trimRight line) }
  else .ok h

/-- All header lines of a transfer. -/
def writeHeaders (max : Nat) : Headers → List Bytes → Res Headers
  | h, [] => .ok h
  | h, l :: t => do
    let h' ← writeHeader max h l
    writeHeaders max h' t

/-! ## Received cookies -/

/-- The local variables of the cookie loop, u_send_request.c:733–734: declared outside the loop, never reset. -/
structure Locals where
  key : Ptr Bytes := .null
  value : Ptr Bytes := .null
  expires : Ptr Bytes := .null
  domain : Ptr Bytes := .null
  path : Ptr Bytes := .null
  secure : Bool := false
  httpOnly : Bool := false
  deriving DecidableEq, Repr

/-- The `switch`, u_send_request.c:744–766. -/
def setField (v : Locals) (counter : Nat) (elt : Bytes) : Locals :=
  match counter with
  | 0 => { v with domain := .to elt }
  | 1 => { v with secure := elt == b!"TRUE" }
  | 2 => { v with path := .to elt }
  | 3 => { v with httpOnly := elt == b!"TRUE" }
  | 4 => { v with expires := .to elt }
  | 5 => { v with key := .to elt }
  | 6 => { v with value := .to elt }
  | _ => v

/-- The inner loop, u_send_request.c:741–769. -/
def setFields (v : Locals) : Nat → List Bytes → Locals
  | _, [] => v
  | i, e :: t => setFields (setField v i e) (i + 1) t

/-- `o_free(p)`: NULL is accepted, a second free is undefined; the variable keeps its value. -/
def free : Ptr Bytes → Res (Ptr Bytes)
  | .null => .ok .null
  | .to _ => .ok .dead
  | .dead => .ub

/-- Adding the cookie and freeing the strings, u_send_request.c:770–777. -/
def useFields (r : Response) (v : Locals) : Res (Response × Locals) := do
  let key ← Message.read v.key
  let value ← Message.read v.value
  let expires ← Message.read v.expires
  let domain ← Message.read v.domain
  let path ← Message.read v.path
  let (_, r') ← addCookieNoSite r ⟨key, value, expires, 0, domain, path, v.secure, v.httpOnly, 0⟩
  let k ← free v.key
  let va ← free v.value
  let d ← free v.domain
  let p ← free v.path
  let e ← free v.expires
  return (r', { v with key := k, value := va, domain := d, path := p, expires := e })

/-- One turn of the loop over the cookie list, u_send_request.c:736–781. -/
def cookieLine (r : Response) (v : Locals) (line : Bytes) : Res (Response × Locals) :=
  useFields r (setFields v 0 (words (· == 0x09) line))

/-- The loop, u_send_request.c:736–781. -/
def cookieList (r : Response) (v : Locals) : List Bytes → Res Response
  | [] => .ok r
  | l :: t => do
    let (r', v') ← cookieLine r v l
    cookieList r' v' t

/-! ## Request texts -/

/-- `curl_easy_escape` of libcurl: everything but letters, digits and "-._~" becomes %XX. -/
def curlEscape (s : Bytes) : Bytes :=
  s.flatMap (fun c => if isAlnum c || c == 0x2d || c == 0x2e || c == 0x5f || c == 0x7e then [c]
    else [0x25, UrlCodec.toHex (c >>> 4), UrlCodec.toHex (c &&& 15)])

/-- `key` or `key=value`, escaped; `value` is what `u_map_get` points to. u_send_request.c:434–455. -/
def param (key : Bytes) (value : Option Bytes) : Bytes :=
  match value with
  | some v => curlEscape key ++ b!"=" ++ curlEscape v
  | none => curlEscape key

/-- `u_map_get` read as a C string. -/
def getText (m : UMap) (k : Bytes) : Res (Option Bytes) := do
  match ← UMap.get m (some k) with
  | none => return none
  | some b => do let s ← readStr b; return some s

/-- The loop over `map_url`, u_send_request.c:431–463. -/
def addParams (m : UMap) : List Bytes → (has : Bool) → Bytes → Res Bytes
  | [], _, url => .ok url
  | k :: t, has, url => do
    let v ← getText m k
    addParams m t true (url ++ (if has then b!"&" else b!"?") ++ param k v)

/-- The URL given to libcurl, u_send_request.c:421–463. -/
def requestUrl (url : Bytes) (m : UMap) : Res Bytes := do
  let url := replaceSpaces url
  if m.nb ≠ 0 then do
    let keys ← UMap.enumKeys m
    addParams m keys (url.contains 0x3f) url
  else return url

/-- The loop over `map_post_body`, u_send_request.c:473–505; `first` is `!i`. -/
def addForm (m : UMap) : List Bytes → (first : Bool) → Bytes → Res Bytes
  | [], _, body => .ok body
  | k :: t, first, body => do
    let v ← getText m k
    addForm m t false (body ++ (if first then [] else b!"&") ++ param k v)

/-- The form body, u_send_request.c:465–516. -/
def requestForm (m : UMap) : Res Bytes := do
  let keys ← UMap.enumKeys m
  addForm m keys true []

/-- The header lines given to libcurl, u_send_request.c:546–575. -/
def headerList (m : UMap) : List Bytes → Res (List Bytes)
  | [] => .ok []
  | k :: t => do
    let v ← getText m k
    let rest ← headerList m t
    return (k ++ b!":" ++ v.getD []) :: rest

/-- The cookie text given to libcurl, u_send_request.c:577–603. -/
def cookieText (m : UMap) : List Bytes → Option Bytes → Res (Option Bytes)
  | [], acc => .ok acc
  | k :: t, acc => do
    let v ← getText m k
    let c := match v with
      | some v => k ++ b!"=" ++ v
      | none => k ++ b!":"
    cookieText m t (some (match acc with | none => c | some a => a ++ b!";" ++ c))

/-! ## Mail -/

/-- `struct _u_smtp_payload`, u_send_request.c:74–78 (`len` is the length of `data`). -/
structure Payload where
  offset : Nat := 0
  data : Bytes
  deriving DecidableEq, Repr

/-- `smtp_payload_source`, u_send_request.c:173–185; `cap` is `size * nmemb`. -/
def payloadSource (p : Payload) (cap : Nat) : Bytes × Payload :=
  let left := p.data.length - p.offset
  let len := if cap < left then cap else left
  ((p.data.drop p.offset).take len, { p with offset := p.offset + len })

/-- The mail text, u_send_request.c:943–958. -/
def mailText (date to' from' : Bytes) (cc subject : Option Bytes) (contentType : Option Bytes) (body : Bytes) : Bytes :=
  date ++ b!"\r\nTo: " ++ to' ++ b!"\r\nFrom: " ++ from' ++ b!"\r\n"
    ++ (match cc with | some c => b!"Cc: " ++ c ++ b!"\r\n" | none => [])
    ++ b!"Subject: " ++ subject.getD [] ++ b!"\r\nContent-Type: " ++ str contentType ++ b!"\r\n\r\n" ++ body ++ b!"\r\n"

/-- The port used, u_send_request.c:851–857. -/
def mailPort (port : Int) (tls : Bool) : Int :=
  if port = 0 ∧ ¬ tls then 25 else if port = 0 ∧ tls then 587 else port

end Verif.Client
