import Verif.Model.UMap
import Verif.Model.UrlCodec
import Verif.Model.Utf8
import Verif.Model.Yuarel
/-!
# Model of `src/u_response.c` and of the message part of `src/u_request.c`

Allocations succeed. `struct _u_response *` and `struct _u_request *` arguments are not NULL (the functions then only
return `U_ERROR_PARAMS` or NULL). Function pointers and user data are opaque numbers. JSON bodies appear as the text
`json_dumps` returns. Client certificates (GnuTLS) are left out.
-/
namespace Verif.Message
open Verif.UMap Verif.Printf

/-- `struct _u_cookie`, include/ulfius.h:215–225; a pointer may be dangling. -/
structure Cookie where
  key : Ptr Bytes
  value : Ptr Bytes
  expires : Ptr Bytes
  maxAge : Nat
  domain : Ptr Bytes
  path : Ptr Bytes
  secure : Bool
  httpOnly : Bool
  sameSite : Nat
  deriving DecidableEq, Repr

/-- `o_strdup`. -/
def dup : Option Bytes → Ptr Bytes
  | none => .null
  | some s => .to s

/-- Reading a `char *` as an optional C string. -/
def read : Ptr Bytes → Res (Option Bytes)
  | .null => .ok none
  | .to s => .ok (some s)
  | .dead => .ub

/-- `"; Name=value"` or the empty string, u_response.c:34–43, 55–66, 67–80. -/
def attr (name : Bytes) : Option Bytes → Bytes
  | none => []
  | some v => b!"; " ++ name ++ b!"=" ++ v

/-- SameSite attribute, u_response.c:119–125. -/
def sameSiteText (n : Nat) : Bytes :=
  if n = 1 then b!"; SameSite=Strict" else if n = 2 then b!"; SameSite=Lax" else if n = 3 then b!"; SameSite=None" else []

/-- `ulfius_generate_cookie_header`, u_response.c:29–151. `max_age` is an `unsigned int` printed with `%d`. -/
def cookieHeader (c : Cookie) : Res Bytes := do
  let key ← read c.key
  let value ← read c.value
  let expires ← read c.expires
  let domain ← read c.domain
  let path ← read c.path
  return str key ++ b!"=" ++ str value ++ attr b!"Expires" expires
    ++ attr b!"Max-Age" (if 0 < c.maxAge then some (decimalInt (asInt c.maxAge)) else none)
    ++ attr b!"Domain" domain ++ attr b!"Path" path
    ++ (if c.secure then b!"; Secure" else []) ++ (if c.httpOnly then b!"; HttpOnly" else [])
    ++ sameSiteText c.sameSite

/-- Websocket handle of a response, include/u_private.h: the fields `ulfius_copy_response` handles and those it leaves. -/
structure WsHandle where
  protocol : Option Bytes := none
  extensions : Option Bytes := none
  callbacks : List Nat := []
  rsv : Nat := 0
  extensionList : List Nat := []
  deriving DecidableEq, Repr

/-- `struct _u_response`, include/ulfius.h:273–291. `body` is the allocated block, `bodyLen` is `binary_body_length`. -/
structure Response where
  status : Nat := 200
  protocol : Option Bytes := none
  header : UMap := UMap.init
  cookies : List Cookie := []
  realm : Option Bytes := none
  body : Option Bytes := none
  bodyLen : Nat := 0
  stream : Option (Nat × Nat × Nat) := none
  shared : Option Nat := none
  freeShared : Option Nat := none
  timeout : Nat := 0
  ws : WsHandle := {}
  deriving DecidableEq, Repr

/-- Parameters of the cookie functions. -/
structure CookieArgs where
  key : Option Bytes
  value : Option Bytes
  expires : Option Bytes
  maxAge : Nat
  domain : Option Bytes
  path : Option Bytes
  secure : Bool
  httpOnly : Bool
  sameSite : Nat
  deriving DecidableEq, Repr

/-- The cookie stored for the arguments, u_response.c:223–230 and 263–271. -/
def CookieArgs.cookie (a : CookieArgs) (key : Bytes) : Cookie :=
  { key := .to key, value := .to (a.value.getD []), expires := dup a.expires, maxAge := a.maxAge, domain := dup a.domain,
    path := dup a.path, secure := a.secure, httpOnly := a.httpOnly, sameSite := a.sameSite }

/-- The search loop, u_response.c:217–246: replace the first cookie with that key, or append. -/
def putCookie (a : CookieArgs) (key : Bytes) : List Cookie → Res (List Cookie)
  | [] => .ok [a.cookie key]
  | c :: t => do
    let k ← read c.key
    if k = some key then return { a.cookie key with key := c.key } :: t
    else do
      let t ← putCookie a key t
      return c :: t

/-- `ulfius_add_same_site_cookie_to_response`, u_response.c:212–288. -/
def addCookie (r : Response) (a : CookieArgs) : Res (Rc × Response) :=
  match a.key with
  | none => .ok (.params, r)
  | some key =>
    if a.sameSite ≤ 3 then do
      let cs ← putCookie a key r.cookies
      return (.ok, { r with cookies := cs })
    else .ok (.params, r)

/-- `ulfius_add_cookie_to_response`, u_response.c:207–210. -/
def addCookieNoSite (r : Response) (a : CookieArgs) : Res (Rc × Response) := addCookie r { a with sameSite := 0 }

/-- `ulfius_set_string_body_response`, u_response.c:517–533: the block holds the string and its NUL. -/
def setStringBody (r : Response) (status : Nat) (s : Option Bytes) : Rc × Response :=
  match s with
  | none => (.params, r)
  | some s => (.ok, { r with body := some (s ++ [0]), bodyLen := s.length, status := status })

/-- `ulfius_set_binary_body_response`, u_response.c:535–554; `b` is the caller's memory. -/
def setBinaryBody (r : Response) (status : Nat) (b : Option Bytes) (length : Nat) : Res (Rc × Response) :=
  match b with
  | none => .ok (.params, r)
  | some b =>
    if length = 0 then .ok (.params, r)
    else if length ≤ b.length then .ok (.ok, { r with body := some (b.take length), bodyLen := length, status := status })
    else .ub

/-- `ulfius_set_empty_body_response`, u_response.c:556–568. -/
def setEmptyBody (r : Response) (status : Nat) : Response := { r with body := none, bodyLen := 0, status := status }

/-- `ulfius_set_stream_response`, u_response.c:570–593. -/
def setStream (r : Response) (status : Nat) (s : Nat × Nat × Nat) : Response :=
  { r with body := none, bodyLen := 0, status := status, stream := some s }

/-- `ulfius_set_json_body_response`, u_response.c:683–702, for the dumped text of an array or object. The result of
`u_map_put` is ignored. -/
def setJsonBody (r : Response) (status : Nat) (json : Bytes) : Res Response := do
  let (_, h) ← UMap.put r.header (some b!"Content-Type") (some b!"application/json")
  return { r with body := some (json ++ [0]), bodyLen := json.length, status := status, header := h }

/-- `ulfius_set_response_shared_data`, u_response.c:664–675. -/
def setShared (r : Response) (d : Option Nat) (free : Option Nat) : Rc × Response :=
  match d with
  | none => (.params, r)
  | some d => (.ok, { r with shared := some d, freeShared := free })

/-- `ulfius_add_header_to_response`, u_response.c:718–724. -/
def addHeader (r : Response) (key value : Option Bytes) : Res (Rc × Response) :=
  match key, value with
  | some k, some v => do
    let (rc, h) ← UMap.put r.header (some k) (some v)
    return (rc, { r with header := h })
  | _, _ => .ok (.params, r)

/-- Options of `ulfius_set_response_properties` (include/ulfius.h, `u_option`); `other` is any unknown number. A JSON value is
the text `json_dumps` makes of it; `none` is NULL or a value that is neither an array nor an object. -/
inductive RespOpt where
  | status (n : Nat)
  | header (key value : Option Bytes)
  | headerRemove (key : Option Bytes)
  | realm (v : Option Bytes)
  | binaryBody (b : Option Bytes) (length : Nat)
  | stringBody (s : Option Bytes)
  | jsonBody (text : Option Bytes)
  | shared (d : Option Nat)
  | timeout (n : Nat)
  | other
  deriving DecidableEq, Repr

/-- One turn of the loop of `ulfius_set_response_properties`, u_response.c:609–653; the body options cast the status to
`unsigned int`. -/
def setOption (r : Response) : RespOpt → Res (Rc × Response)
  | .status n => .ok (.ok, { r with status := n })
  | .header k v => do let (rc, h) ← UMap.put r.header k v; return (rc, { r with header := h })
  | .headerRemove k => do let (rc, h) ← UMap.removeKey r.header k; return (rc, { r with header := h })
  | .realm v => .ok (.ok, { r with realm := if v.getD [] = [] then none else v })
  | .binaryBody b n => setBinaryBody r (r.status % 2 ^ 32) b n
  | .stringBody s => .ok (setStringBody r (r.status % 2 ^ 32) s)
  | .jsonBody none => .ok (.params, r)
  | .jsonBody (some t) => do let r ← setJsonBody r (r.status % 2 ^ 32) t; return (.ok, r)
  | .shared d => .ok (.ok, { r with shared := d })
  | .timeout n => .ok (.ok, { r with timeout := n })
  | .other => .ok (.params, r)

/-- `ulfius_set_response_properties`, u_response.c:596–662: stops at the first option that fails. -/
def setProperties (r : Response) : List RespOpt → Res (Rc × Response)
  | [] => .ok (.ok, r)
  | o :: t => do
    let (rc, r') ← setOption r o
    if rc = .ok then setProperties r' t else return (rc, r')

/-- A freed copy of a non-NULL pointer keeps its value. -/
def kill : Ptr Bytes → Ptr Bytes
  | .null => .null
  | _ => .dead

/-- `ulfius_copy_cookie`, u_response.c:308–331. On a NULL attribute it frees the others and leaves the pointers. -/
def copyCookie (c : Cookie) : Res (Rc × Cookie) := do
  let key ← read c.key
  let value ← read c.value
  let expires ← read c.expires
  let domain ← read c.domain
  let path ← read c.path
  let d := { c with key := dup key, value := dup value, expires := dup expires, domain := dup domain, path := dup path }
  if path = none ∨ domain = none ∨ expires = none ∨ value = none then
    return (.memory, { d with path := kill d.path, domain := kill d.domain, expires := kill d.expires, value := kill d.value })
  else return (.ok, d)

/-- The cookie loop of `ulfius_copy_response`, u_response.c:448–450; the return codes are ignored. -/
def copyCookies : List Cookie → Res (List Cookie)
  | [] => .ok []
  | c :: t => do
    let (_, d) ← copyCookie c
    let ds ← copyCookies t
    return d :: ds

/-- Copy of the body, u_response.c:455–463: NULL, or a block of exactly `len` bytes. -/
def copyBody (body : Option Bytes) (len : Nat) : Res (Option Bytes) :=
  match body with
  | none => .ok none
  | some b => if len = 0 then .ok none else if len ≤ b.length then .ok (some (b.take len)) else .ub

/-- `ulfius_copy_response` into an initialised response, u_response.c:427–492; `none` stands for an error code. -/
def copyResponse (src : Response) : Res (Option Response) :=
  match src.protocol with
  | none => .ok none
  | some p => do
    match ← UMap.copy src.header with
    | none => return none
    | some h => do
      let cs ← copyCookies src.cookies
      let body ← copyBody src.body src.bodyLen
      return some {
        status := src.status, protocol := some p, realm := src.realm, header := h, cookies := cs,
        body := body, bodyLen := (if body.isSome then src.bodyLen else 0), stream := src.stream, shared := src.shared, freeShared := none,
        timeout := src.timeout,
        ws := { protocol := src.ws.protocol, extensions := src.ws.extensions, callbacks := src.ws.callbacks } }

/-- `ulfius_duplicate_response`, u_response.c:494–515. -/
def duplicateResponse (r : Response) : Res (Option Response) := copyResponse r

/-! ## Export -/

/-- `"Key: value\r\n"` for every entry, u_response.c:734–742 and u_request.c:859–867. -/
def headerLines (m : UMap) : List Bytes → Res Bytes
  | [] => .ok []
  | k :: t => do
    let line ← match ← UMap.get m (some k) with
      | some b => do let v ← readStr b; Res.ok (k ++ b!": " ++ v ++ b!"\r\n")
      | none => Res.ok (k ++ b!":\r\n")
    let rest ← headerLines m t
    return line ++ rest

/-- Set-Cookie lines, u_response.c:744–750. -/
def cookieLines : List Cookie → Res Bytes
  | [] => .ok []
  | c :: t => do
    let h ← cookieHeader c
    let rest ← cookieLines t
    return b!"Set-Cookie: " ++ h ++ b!"\r\n" ++ rest

/-- `"%.*s\r\n"` with the body, the precision being cast to `int` (a negative precision is ignored and `%s` reads up to a
NUL), u_response.c:756–758. -/
def bodyText (body : Option Bytes) (len : Nat) : Res Bytes :=
  let p := asInt len
  match body with
  | none => .ok (if p < 0 ∨ 6 ≤ p then b!"(null)" else [])        -- glibc prints "(null)" if it fits the precision
  | some b =>
    if p < 0 then (if 0 ∈ b then .ok (cstr b) else .ub)
    else if p.toNat ≤ b.length ∨ 0 ∈ b then .ok (precStr p.toNat b) else .ub

/-- `ulfius_export_response_http`, u_response.c:726–761. -/
def exportResponse (r : Response) : Res Bytes := do
  let keys ← UMap.enumKeys r.header
  let hs ← headerLines r.header keys
  let hasSet ← UMap.hasKeyCase r.header (some b!"Set-Cookie")
  let cs ← if !r.cookies.isEmpty && !hasSet then cookieLines r.cookies else Res.ok []
  let cl ← UMap.getCase r.header (some b!"Content-Length")
  let clLine := if r.bodyLen ≠ 0 ∧ cl = none then b!"Content-Length: " ++ decimal r.bodyLen ++ b!"\r\n" else []
  let bt ← if r.bodyLen ≠ 0 then (do let t ← bodyText r.body r.bodyLen; Res.ok (t ++ b!"\r\n")) else Res.ok []
  return b!"HTTP/1.1 " ++ decimal r.status ++ b!"\r\n" ++ hs ++ cs ++ clLine ++ b!"\r\n" ++ bt

/-! ## Requests -/

/-- `struct _u_request`, include/ulfius.h:233–265, with the values `ulfius_init_request` (u_request.c:267–314) gives
them; the C integers used as bit sets are natural numbers. -/
structure Request where
  protocol : Option Bytes := none
  verb : Option Bytes := none
  url : Option Bytes := none
  urlPath : Option Bytes := none
  proxy : Option Bytes := none
  network : Nat := 0x11
  checkServer : Nat := 1
  serverFlag : Nat := 0x11
  checkProxy : Nat := 1
  proxyFlag : Nat := 0x11
  followRedirect : Nat := 0
  caPath : Option Bytes := none
  timeout : Nat := 0
  clientAddress : Option Bytes := none
  user : Option Bytes := none
  password : Option Bytes := none
  mapUrl : UMap := UMap.init
  mapHeader : UMap := UMap.init
  mapCookie : UMap := UMap.init
  mapPost : UMap := UMap.init
  body : Option Bytes := none
  bodyLen : Nat := 0
  position : Nat := 0
  certFile : Option Bytes := none
  keyFile : Option Bytes := none
  keyPassword : Option Bytes := none
  deriving DecidableEq, Repr

/-- `ulfius_set_string_body_request`, u_request.c:704–719. -/
def setStringBodyReq (r : Request) (s : Option Bytes) : Rc × Request :=
  match s with
  | none => (.params, r)
  | some s => (.ok, { r with body := some (s ++ [0]), bodyLen := s.length })

/-- `ulfius_set_binary_body_request`, u_request.c:726–744. -/
def setBinaryBodyReq (r : Request) (b : Option Bytes) (length : Nat) : Res (Rc × Request) :=
  match b with
  | none => .ok (.params, r)
  | some b =>
    if length = 0 then .ok (.params, r)
    else if length ≤ b.length then .ok (.ok, { r with body := some (b.take length), bodyLen := length })
    else .ub

/-- `ulfius_set_empty_body_request`, u_request.c:751–761. -/
def setEmptyBodyReq (r : Request) : Request := { r with body := none, bodyLen := 0 }

/-- `sizeof(struct sockaddr)` on the supported systems. -/
def sockaddrSize : Nat := 16

/-- Copy of the client address, u_request.c:402–410 (and src/ulfius.c:530–535). -/
def copyAddress : Option Bytes → Res (Option Bytes)
  | none => .ok none
  | some a => if sockaddrSize ≤ a.length then .ok (some (a.take sockaddrSize)) else .ub

/-- Copy of the body, u_request.c:454–465. -/
def copyBodyReq (body : Option Bytes) (len : Nat) : Res (Option Bytes) :=
  if len = 0 then .ok none
  else match body with
    | none => .ub
    | some b => if len ≤ b.length then .ok (some (b.take len)) else .ub

/-- `ulfius_copy_request` into an initialised request, u_request.c:380–487. -/
def copyRequest (src : Request) : Res (Option Request) := do
  let addr ← copyAddress src.clientAddress
  let (rc1, m1) ← UMap.copyInto UMap.init src.mapUrl
  if rc1 ≠ .ok then return none
  let (rc2, m2) ← UMap.copyInto UMap.init src.mapHeader
  if rc2 ≠ .ok then return none
  let (rc3, m3) ← UMap.copyInto UMap.init src.mapCookie
  if rc3 ≠ .ok then return none
  let (rc4, m4) ← UMap.copyInto UMap.init src.mapPost
  if rc4 ≠ .ok then return none
  let body ← copyBodyReq src.body src.bodyLen
  return some { src with clientAddress := addr, mapUrl := m1, mapHeader := m2, mapCookie := m3, mapPost := m4, body := body }

/-- `ulfius_duplicate_request`, u_request.c:767–790. -/
def duplicateRequest (r : Request) : Res (Option Request) := copyRequest r

/-- Orcania's `str_replace(s, " ", "%20")`. -/
def replaceSpaces (s : Bytes) : Bytes := s.flatMap (fun c => if c == 0x20 then b!"%20" else [c])

/-- Parameters of `map_url`, u_request.c:808–845: appended to `url` (NULL counts as empty for `mstrcatf`). -/
def urlParams (m : UMap) : List Bytes → (has : Bool) → Option Bytes → Res (Option Bytes)
  | [], _, url => .ok url
  | k :: t, has, url => do
    let ke ← UrlCodec.urlEncode (some k)
    let v ← UMap.get m (some k)
    let sep := if has then b!"&" else b!"?"
    let piece ← match v with
      | some b => do
        let s ← readStr b
        let ve ← UrlCodec.urlEncode (some s)
        Res.ok (sep ++ str ke ++ b!"=" ++ str ve)
      | none => Res.ok (sep ++ str ke)
    urlParams m t true (some (url.getD [] ++ piece))

/-- Cookie lines, u_request.c:868–884. -/
def reqCookieLines (m : UMap) : List Bytes → Res Bytes
  | [] => .ok []
  | k :: t => do
    let line ← match ← UMap.get m (some k) with
      | some b => do
        let v ← readStr b
        let ve ← UrlCodec.urlEncode (some v)
        Res.ok (b!"Cookie: " ++ k ++ b!"=" ++ str ve ++ b!"\r\n")
      | none => Res.ok (b!"Cookie: " ++ k ++ b!"\r\n")
    let rest ← reqCookieLines m t
    return line ++ rest

/-- The form body, u_request.c:911–936. -/
def formBody (m : UMap) : (first : Bool) → List Bytes → Res Bytes
  | _, [] => .ok []
  | first, k :: t => do
    let ke ← UrlCodec.urlEncode (some k)
    let sep := if first then [] else b!"&"
    let v ← UMap.get m (some k)
    let len ← UMap.getLength m (some k)
    let piece ← match v with
      | some b => do
        let s ← readStr b
        -- utf8_check reads the `len` bytes of the value; for a stored string they end with its NUL
        if Utf8.utf8Ok ((b.take (len.getD 0)).filterMap id) then do
          let ve ← UrlCodec.urlEncode (some s)
          Res.ok (str ke ++ b!"=" ++ str ve)
        else Res.ok (b!"?" ++ k)
      | none => Res.ok (b!"?" ++ k)
    let rest ← formBody m false t
    return sep ++ piece ++ rest

/-- `o_strstr(value, needle) != NULL`. -/
def contains (needle : Bytes) : Bytes → Bool
  | [] => needle.isEmpty
  | c :: t => needle.isPrefixOf (c :: t) || contains needle t

/-- The text after the request line; `host`/`port` come from the URL. u_request.c:853–941. `b64` is
`o_base64_encode_alloc`. -/
def exportRest (b64 : Bytes → Bytes) (r : Request) (host : Option Bytes) (port : Int) : Res Bytes := do
  let hasHost ← UMap.hasKeyCase r.mapHeader (some b!"Host")
  let hostLine := if hasHost then [] else
    b!"Host: " ++ (if port ≠ 0 then str host ++ b!":" ++ decimalInt port else str host) ++ b!"\r\n"
  let keys ← UMap.enumKeys r.mapHeader
  let hs ← headerLines r.mapHeader keys
  let ckeys ← UMap.enumKeys r.mapCookie
  let cs ← reqCookieLines r.mapCookie ckeys
  let hasLen ← UMap.hasKeyCase r.mapHeader (some b!"Content-Length")
  let lenLine := if !hasLen && r.bodyLen ≠ 0 then b!"Content-Length: " ++ decimal r.bodyLen ++ b!"\r\n" else []
  let hasType ← UMap.hasKeyCase r.mapHeader (some b!"Content-Type")
  let typeLine := if !hasType && r.mapPost.nb ≠ 0 then b!"Content-type: application/x-www-form-urlencoded\r\n" else []
  let hasAuth ← UMap.hasKeyCase r.mapHeader (some b!"Authorization")
  let authLine := match r.user, r.password with
    | some u, some p => if hasAuth then [] else b!"Authorization: Basic " ++ b64 (u ++ b!":" ++ p) ++ b!"\r\n"
    | _, _ => []
  let tail ←
    if r.bodyLen ≠ 0 then do
      let t ← bodyText r.body r.bodyLen
      Res.ok (b!"\r\n" ++ t ++ b!"\r\n")
    else if r.mapPost.nb ≠ 0 then do
      let ct ← UMap.get r.mapHeader (some b!"Content-Type")
      let form ← match ct with
        | none => Res.ok true
        | some b => do let s ← readStr b; Res.ok (contains b!"application/x-www-form-urlencoded" s)
      if form then do
        let pk ← UMap.enumKeys r.mapPost
        let body ← formBody r.mapPost true pk
        Res.ok (b!"Content-Length: " ++ decimal body.length ++ b!"\r\n\r\n" ++ body)
      else Res.ok []
    else Res.ok []
  return hostLine ++ hs ++ cs ++ lenLine ++ typeLine ++ authLine ++ tail

/-- `ulfius_export_request_http`, u_request.c:792–945: the text (NULL: `none`) and the request afterwards —
`yuarel_parse` cuts `http_url` in place. -/
def exportRequest (b64 : Bytes → Bytes) (r : Request) : Res (Option Bytes × Request) :=
  match r.url with
  | none => .ok (none, r)
  | some u => do
    let (parsed, after) ← Yuarel.parse u
    let r' := { r with url := some after }
    match parsed with
    | none => return (none, r')
    | some y => do
      let url := match y.query with
        | some q => some ((y.path.map replaceSpaces).getD [] ++ b!"?" ++ q)
        | none => y.path.map replaceSpaces
      let url ← if r.mapUrl.nb ≠ 0 then (do
          let keys ← UMap.enumKeys r.mapUrl
          urlParams r.mapUrl keys y.query.isSome url) else Res.ok url
      let line := (r.verb.getD b!"GET") ++ b!" /" ++ str url ++ b!" HTTP/1.1\r\n"
      let rest ← exportRest b64 r y.host y.port
      return (some (line ++ rest), r')

end Verif.Message
