import Verif.Model.Send
/-!
# Model of `ulfius_send_http_request` and its variants when memory runs out, `src/u_send_request.c:86–804`

The functions of `Model/Client` and `Model/Send` again, with a name for every allocation made by the library (`Place`, and the turn of the loop it is made in) and
a choice of which of them fail. The allocations inside `curl_easy_setopt` are those of `Curl.accepts`. Several allocations with the same consequence share a
name. Which blocks are lost is not modelled, only what is sent and what is received. A callback that does not take what libcurl hands to it ends the transfer
with `CURLE_WRITE_ERROR`, as libcurl documents.
-/
namespace Verif.OomSend
open Verif.UMap Verif.Printf Verif.Message Verif.Strtok
open Verif.Client (Body Headers Locals curSize writeBody received splitHeader trimRight getText param joined free)
open Verif.Send (Curl Sink Outcome Reply setAll acceptValue firstOptions bodyOptions lastOptions setCookie)
open Verif.Spec.Curl (Opt)

/-- The allocations. -/
inductive Place
  /-- `ulfius_init_request` of the copy, u_request.c:779. -/
  | dupInit
  /-- The block of the copy, its address, maps and body, u_request.c:778 and 402–463. -/
  | dupBlock
  /-- The texts of the copy that are not used: protocol, path, certificate, u_request.c:383–386 and 466–468. -/
  | dupOther
  | dupVerb | dupUrl | dupProxy | dupCa | dupUser | dupPassword
  /-- u_send_request.c:421, 425, 430, 435, 438–450. -/
  | urlReplace | urlKeys | urlKey | urlValue | urlCat
  /-- u_send_request.c:470, 474, 479, 482–500, 519. -/
  | formKeys | formKey | formValue | formCat | formPut
  /-- u_send_request.c:548, 554 and 561, 555 and 562. -/
  | headerKeys | headerText | headerAppend
  /-- u_send_request.c:579, 585–587, 590–592. -/
  | cookieKeys | cookiePair | cookieCat
  /-- u_send_request.c:150, 148 and 151, 163. -/
  | lineText | linePut | protocol
  /-- u_send_request.c:105, 244. -/
  | bodyPart | bodyCopy
  /-- u_send_request.c:737, 744–766, 770. -/
  | gotLine | gotField | gotAdd
  deriving DecidableEq, Repr

/-- Which allocations fail: the place and the turn of its loop. -/
abbrev F := Place → Nat → Bool

/-- Nothing fails. -/
def never : F := fun _ _ => false

/-- `o_strdup` of a text that may be NULL. -/
def text (f : F) (p : Place) (s : Option Bytes) : Option Bytes := if f p 0 then none else s

/-- `ulfius_duplicate_request`, u_request.c:767–790, with `ulfius_copy_request`, 380–487: no `o_strdup` is looked at. A failing `ulfius_init_request` frees fields
never written (property C181). -/
def duplicate (f : F) (r : Request) : Res (Option Request) :=
  if f .dupInit 0 then .ub
  else if f .dupBlock 0 then .ok none
  else do
    match ← duplicateRequest r with
    | none => return none
    | some c => return some { c with
        protocol := text f .dupOther c.protocol
        urlPath := text f .dupOther c.urlPath
        certFile := text f .dupOther c.certFile
        keyFile := text f .dupOther c.keyFile
        keyPassword := text f .dupOther c.keyPassword
        verb := text f .dupVerb c.verb
        url := text f .dupUrl c.url
        proxy := text f .dupProxy c.proxy
        caPath := text f .dupCa c.caPath
        user := text f .dupUser c.user
        password := text f .dupPassword c.password }

/-- Orcania's `mstrcatf(a, …)` with the formatted text `b`: NULL counts as empty, and is the result of a failure. -/
def cat (fails : Bool) (a : Option Bytes) (b : Bytes) : Option Bytes := if fails then none else some (a.getD [] ++ b)

/-- The loop over `map_url`, u_send_request.c:429–458; `none`: `exit_loop`. -/
def addParams (f : F) (m : UMap) : List Bytes → (i : Nat) → (has : Bool) → Option Bytes → Res (Option (Option Bytes))
  | [], _, _, url => .ok (some url)
  | k :: t, i, has, url =>
    if f .urlKey i then .ok none
    else do
      let v ← getText m k
      if v.isSome && f .urlValue i then return none
      else addParams f m t (i + 1) true (cat (f .urlCat i) url ((if has then b!"&" else b!"?") ++ param k v))

/-- The URL, u_send_request.c:421–463; `none`: given up. -/
def urlStep (f : F) (copy : Request) : Res (Option (Option Bytes)) :=
  let url := text f .urlReplace (copy.url.map replaceSpaces)
  if copy.mapUrl.nb ≠ 0 then
    if f .urlKeys 0 then .ok (some url)
    else do
      let keys ← UMap.enumKeys copy.mapUrl
      addParams f copy.mapUrl keys 0 ((url.getD []).contains 0x3f) url
  else .ok (some url)

/-- The loop over `map_post_body`, u_send_request.c:473–511; `none`: `exit_loop`. -/
def addForm (f : F) (m : UMap) : List Bytes → (i : Nat) → Option Bytes → Res (Option (Option Bytes))
  | [], _, body => .ok (some body)
  | k :: t, i, body =>
    if f .formKey i then .ok none
    else do
      let v ← getText m k
      if v.isSome && f .formValue i then return none
      else addForm f m t (i + 1) (cat (f .formCat i) body ((if i = 0 then [] else b!"&") ++ param k v))

/-- The form, u_send_request.c:465–523: `none`: given up. -/
def formStep (f : F) (copy : Request) : Res (Option Request) :=
  if copy.mapPost.nb ≠ 0 then do
    let body ← (if f .formKeys 0 then .ok (some none) else do
      let keys ← UMap.enumKeys copy.mapPost
      addForm f copy.mapPost keys 0 none)
    match body with
    | none => return none
    | some body => do
      let (rc, h) ← UMap.put copy.mapHeader (some b!"Content-Type") (some b!"application/x-www-form-urlencoded")
      if f .formPut 0 || rc ≠ .ok then return none
      else return some { copy with body := body.map (· ++ [0]), bodyLen := (body.getD []).length, mapHeader := h }
  else .ok (some copy)

/-- The header lines, u_send_request.c:550–568: libcurl's `curl_slist_append` reads the text it is given; `none`: given up. -/
def headerList (f : F) (m : UMap) : List Bytes → (i : Nat) → Res (Option (List Bytes))
  | [], _ => .ok (some [])
  | k :: t, i => do
    let v ← getText m k
    if f .headerText i then .ub
    else if f .headerAppend i then return none
    else do
      match ← headerList f m t (i + 1) with
      | none => return none
      | some rest => return some ((k ++ b!":" ++ v.getD []) :: rest)

/-- u_send_request.c:546–575. -/
def headerStep (f : F) (m : UMap) : Res (Option (List Bytes)) :=
  if m.nb ≠ 0 then
    if f .headerKeys 0 then .ok (some [])
    else do
      let keys ← UMap.enumKeys m
      headerList f m keys 0
  else .ok (some [])

/-- The cookie text, u_send_request.c:581–596: a pair that could not be made is NULL, which `%s` shows as "(null)". -/
def cookieText (f : F) (m : UMap) : List Bytes → (i : Nat) → Option Bytes → Res (Option Bytes)
  | [], _, acc => .ok acc
  | k :: t, i, acc => do
    let v ← getText m k
    let c := if f .cookiePair i then none else some (match v with
      | some v => k ++ b!"=" ++ v
      | none => k ++ b!":")
    cookieText f m t (i + 1) (if f .cookieCat i then none else match acc with
      | none => c
      | some a => some (a ++ b!";" ++ str c))

/-- u_send_request.c:577–596. -/
def cookieStep (f : F) (m : UMap) : Res (Option Bytes) :=
  if m.nb ≠ 0 then
    if f .cookieKeys 0 then .ok none
    else do
      let keys ← UMap.enumKeys m
      cookieText f m keys 0 none
  else .ok none

/-- From the first option on, u_send_request.c:302–720: the options of the transfer, `none` when given up. `CURLOPT_COOKIE` set to NULL leaves libcurl without cookies,
as not setting it does. -/
def prepare (f : F) (c : Curl) (req copy : Request) (sink : Sink) (resp : Bool) : Res (Option (List Opt)) := do
  let accept ← acceptValue copy.mapHeader
  match setAll c [] (firstOptions req copy accept) with
  | none => return none
  | some done => do
    match ← urlStep f copy with
    | none => return none
    | some url => do
      match ← formStep f copy with
      | none => return none
      | some copy =>
        match setAll c done (bodyOptions copy) with
        | none => return none
        | some done => do
          match ← headerStep f copy.mapHeader with
          | none => return none
          | some lines => do
            let cookies ← cookieStep f copy.mapCookie
            let done ← setCookie c done cookies
            return setAll c done (lastOptions copy url lines sink resp)

/-- Storing one header, u_send_request.c:147–155; a text that could not be made is NULL. -/
def storeHeader (f : F) (i : Nat) (m : UMap) (key value : Option Bytes) : Res UMap := do
  let has ← UMap.hasKeyCase m key
  match key, has with
  | some k, true => do
    let tmp ← joined m k value
    let (rc, m') ← UMap.removeKeyCase m (some k)
    if rc = .ok then do
      let (_, m'') ← UMap.put m' (some k) (if f .lineText i then none else some tmp) (if f .linePut i then some 0 else none)
      return m''
    else return m'
  | _, _ => do
    let (_, m') ← UMap.put m key value (if f .linePut i then some 0 else none)
    return m'

/-- `write_header`, u_send_request.c:136–171; `false`: it answers 0. -/
def writeHeader (f : F) (i max : Nat) (h : Headers) (line : Bytes) : Res (Bool × Headers) :=
  if 0x3a ∈ line then
    if max = 0 ∨ h.counter < max then do
      let m ← storeHeader f i h.map (splitHeader line).1 (splitHeader line).2
      return (true, { h with map := m, counter := h.counter + 1 })
    else .ok (true, h)
  else if trimSpace line ≠ [] then
    if f .protocol i then .ok (false, { h with protocol := none })
    else .ok (true, { h with protocol := some (trimRight line) })
  else .ok (true, h)

/-- The header lines of a transfer, up to the first that is not taken. -/
def writeHeaders (f : F) (max : Nat) : (i : Nat) → Headers → List Bytes → Res (Bool × Headers)
  | _, h, [] => .ok (true, h)
  | i, h, l :: t => do
    let (ok, h') ← writeHeader f i max h l
    if ok then writeHeaders f max (i + 1) h' t else return (false, h')

/-- `ulfius_write_body`, u_send_request.c:90–119, for all blocks: are they taken? -/
def takes (f : F) : (i : Nat) → Body → List Bytes → Bool
  | _, _, [] => true
  | i, b, c :: t =>
    if curSize b.data.length b.limit c.length ≠ 0 && f .bodyPart i then false else takes f (i + 1) (writeBody b c) t

/-- A field of a received cookie, u_send_request.c:744–766; `p` is the copy made of it. -/
def setField (v : Locals) (counter : Nat) (elt : Bytes) (p : Ptr Bytes) : Locals :=
  match counter with
  | 0 => { v with domain := p }
  | 1 => { v with secure := elt == b!"TRUE" }
  | 2 => { v with path := p }
  | 3 => { v with httpOnly := elt == b!"TRUE" }
  | 4 => { v with expires := p }
  | 5 => { v with key := p }
  | 6 => { v with value := p }
  | _ => v

/-- The inner loop, u_send_request.c:741–769, for the `i`-th cookie. -/
def setFields (f : F) (i : Nat) (v : Locals) : Nat → List Bytes → Locals
  | _, [] => v
  | j, e :: t => setFields f i (setField v j e (if f .gotField (7 * i + j) then .null else .to e)) (j + 1) t

/-- Adding the cookie and freeing the strings, u_send_request.c:770–777. -/
def useFields (fails : Bool) (r : Response) (v : Locals) : Res (Response × Locals) := do
  let (r', v') ← Client.useFields r v
  return (if fails then r else r', v')

/-- The loop over the received cookies, u_send_request.c:736–781. -/
def cookieList (f : F) : (i : Nat) → Response → Locals → List Bytes → Res Response
  | _, r, _, [] => .ok r
  | i, r, v, l :: t =>
    if f .gotLine i then cookieList f (i + 1) r v t
    else do
      let (r', v') ← useFields (f .gotAdd i) r (setFields f i v 0 (words (· == 0x09) l))
      cookieList f (i + 1) r' v' t

/-- The transfer and the reading of its results, u_send_request.c:722–787; `body` tells whether the body function takes the blocks it is given. -/
def perform (f : F) (c : Curl) (opts : List Opt) (max : Nat) (body : List Bytes → Bool) (response : Option Response) : Res Outcome :=
  let reply := c.perform opts
  match response with
  | none => .ok ⟨if reply.status.isSome && body reply.chunks then .ok else .libcurl, some opts, none, reply.chunks⟩
  | some r => do
    let (ok, h) ← writeHeaders f max 0 { map := r.header, protocol := r.protocol, counter := 0 } reply.lines
    let r := { r with header := h.map, protocol := h.protocol }
    match reply.status with
    | none => return ⟨.libcurl, some opts, some r, reply.chunks⟩
    | some st =>
      if ok && body reply.chunks then
        let r := { r with status := st }
        match reply.cookies with
        | none => return ⟨.libcurl, some opts, some r, reply.chunks⟩
        | some lines => do
          let r ← cookieList f 0 r {} lines
          return ⟨.ok, some opts, some r, reply.chunks⟩
      else return ⟨.libcurl, some opts, some r, reply.chunks⟩

/-- `ulfius_send_http_streaming_request_max_header`, u_send_request.c:281–804. -/
def sendStreaming (f : F) (c : Curl) (request : Option Request) (response : Option Response) (sink : Sink) (max : Nat) (body : List Bytes → Bool) : Res Outcome :=
  match request with
  | none => .ok ⟨.params, none, response, []⟩
  | some req => do
    match ← duplicate f req with
    | none => return ⟨.memory, none, response, []⟩
    | some copy =>
      if c.init then do
        match ← prepare f c req copy sink response.isSome with
        | none => return ⟨.libcurl, none, response, []⟩
        | some opts => perform f c opts max body response
      else return ⟨.libcurl, none, response, []⟩

/-- `ulfius_send_http_request_with_limit`, u_send_request.c:230–259, and with both limits 0 `ulfius_send_http_request`, 192–221. -/
def sendLimit (f : F) (c : Curl) (request : Option Request) (response : Option Response) (limit max : Nat) : Res Outcome := do
  let o ← sendStreaming f c request response ⟨true, response.isSome⟩ max
    (if response.isSome then takes f 0 { limit := limit } else fun _ => true)
  match o.code, o.response with
  | .ok, some r =>
    match received limit o.chunks with
    | some b =>
      if f .bodyCopy 0 then return { o with code := .memory }
      else return { o with response := some { r with body := some b, bodyLen := b.length } }
    | none => return o
  | _, _ => return o

end Verif.OomSend
