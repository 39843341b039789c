import Verif.Model.MemoryResponse
/-!
# Model of the blocks the HTTP client and the mail function use: `src/u_send_request.c:99–804, 846–1000`

As in `Model/Memory`, only blocks count. libcurl is a parameter: it may refuse any option, any escape and any list element and answers what
it likes. A `CURL` handle is one block, so is an element of a `curl_slist`. Options of one stretch of code between two allocations are taken
together. libcurl copies the texts it is given, except the body (`CURLOPT_POSTFIELDS`) and the list of headers, which it reads during the
transfer.
-/
namespace Verif.Memory
open Verif.UMap (Rc)

/-- What libcurl does during `curl_easy_perform` and reports afterwards: the header lines (those beyond `max_header` change nothing and are
left out) and the lengths of the body blocks it hands to the callbacks, `CURLE_OK` of the transfer and of `CURLINFO_RESPONSE_CODE`, the lines of `CURLINFO_COOKIELIST`
as lists of words (`none`: not `CURLE_OK`). -/
structure Answer where
  lines : List Line := []
  chunks : List Nat := []
  ok : Bool := true
  status : Bool := true
  cookies : Option (List (List Bytes)) := some []

/-- Answers of libcurl: `curl_easy_init`; the options before the URL is made; `curl_easy_escape` of key and value number `i` of the URL and
of the form; options for the body; `curl_slist_append` of header number `i`; `CURLOPT_COOKIE`; the options after it; the transfer. -/
structure Libcurl where
  init : Bool := true
  first : Bool := true
  urlKey : Nat → Bool := fun _ => true
  urlValue : Nat → Bool := fun _ => true
  formKey : Nat → Bool := fun _ => true
  formValue : Nat → Bool := fun _ => true
  body : Bool := true
  append : Nat → Bool := fun _ => true
  cookie : Bool := true
  last : Bool := true
  answer : Answer := {}

/-- The loop over the parameters of the URL, u_send_request.c:426–459, and of the form, 475–506, from number `i`: `p` is the text made so
far (`mstrcatf` frees it). `false`: `exit_loop`. -/
def escapeLoop (h : Heap) (p : P) (key value : Nat → Bool) : (i : Nat) → List Entry → Res (Bool × P × Heap)
  | _, [] => .ok (true, p, h)
  | i, e :: t => do
    let _ ← need h e.kp
    if key i then do
      let (k, h) := malloc h
      if 0 < e.len then do
        let _ ← need h e.vp
        if value i then do
          let (v, h) := malloc h
          let (p, h) ← realloc h p
          let h ← free h v
          let h ← free h k
          escapeLoop h p key value (i + 1) t
        else do
          let h ← free h k
          return (false, p, h)
      else do
        let (p, h) ← realloc h p
        let h ← free h k
        escapeLoop h p key value (i + 1) t
    else return (false, p, h)

/-- The entries of a map (`u_map_count` and `u_map_enum_keys` of NULL: no keys). -/
def entriesOf (m : Option RMap) : List Entry := (m.map RMap.entries).getD []

/-- The variables of the function: `copy_request`, `url`, the elements of `header_list`. -/
structure Work where
  copy : Req
  url : P := .null
  list : List P := []

/-- URL and its parameters, u_send_request.c:418–464. `str_replace` of NULL is NULL. -/
def makeUrl (h : Heap) (w : Work) (a : Libcurl) : Res (Bool × Work × Heap) := do
  let (u, h) ← copyP h (w.copy.slot .url)
  let (ok, u, h) ← escapeLoop h u a.urlKey a.urlValue 0 (entriesOf (w.copy.map .url))
  return (ok, { w with url := u }, h)

/-- The form, u_send_request.c:466–518. The length of the new body is not 0. -/
def makeForm (h : Heap) (w : Work) (a : Libcurl) : Res (Bool × Work × Heap) :=
  if entriesOf (w.copy.map .post) = [] then .ok (true, w, h)
  else do
    let h ← free h (w.copy.slot .body)
    let (ok, p, h) ← escapeLoop h .null a.formKey a.formValue 0 (entriesOf (w.copy.map .post))
    let copy := { w.copy.set .body p with bodyLen := if p = .null then 0 else 1 }
    if ok then do
      let (rc, copy, h) ← putIn h copy .header (some b!"Content-Type") (some b!"application/x-www-form-urlencoded")
      return (decide (rc = .ok), { w with copy := copy }, h)
    else return (false, { w with copy := copy }, h)

/-- The loop over the headers, u_send_request.c:549–566: a refused element leaves the variable NULL, whatever the list was. -/
def headerLoop (h : Heap) (list : List P) (append : Nat → Bool) : (i : Nat) → List Entry → Res (Bool × List P × Heap)
  | _, [] => .ok (true, list, h)
  | i, e :: t => do
    let _ ← need h e.kp
    let _ ← (if 0 < e.len then need h e.vp else .ok ())
    let (s, h) := malloc h
    if append i then do
      let (n, h) := malloc h
      let h ← free h s
      headerLoop h (list ++ [n]) append (i + 1) t
    else do
      let h ← free h s
      return (false, [], h)

/-- The loop over the cookies, u_send_request.c:578–592: the last `cookie` (freed) and `cookies`. -/
def cookieLoop (h : Heap) (last all : P) : List Entry → Res (P × P × Heap)
  | [] => .ok (last, all, h)
  | e :: t => do
    let _ ← need h e.kp
    let _ ← (if 0 < e.len then need h e.vp else .ok ())
    let (s, h) := malloc h
    let (all, h) ← (if all = .null then copyP h s else do let _ ← need h s; realloc h all)
    let h ← free h s
    cookieLoop h s all t

/-- The cookies, u_send_request.c:573–602: if they are refused, the message names the cookie freed before (594). -/
def sendCookies (h : Heap) (w : Work) (a : Libcurl) : Res (Bool × Heap) :=
  if entriesOf (w.copy.map .cookie) = [] then .ok (true, h)
  else do
    let (last, all, h) ← cookieLoop h .null .null (entriesOf (w.copy.map .cookie))
    let _ ← touch h all
    let _ ← (if a.cookie then .ok () else need h last)
    let h ← free h all
    return (a.cookie, h)

/-- `cur_size`, u_send_request.c:92–100. -/
def taken (limit size len : Nat) : Nat :=
  if limit ≠ 0 then (if size < limit then (if limit < size + len + 1 then limit - size else len) else 0) else len

/-- `ulfius_write_body`, u_send_request.c:88–118, for a block of `len` bytes: data, size. -/
def writeBody (h : Heap) (limit : Nat) (data : P) (size len : Nat) : Res (P × Nat × Heap) :=
  if taken limit size len ≠ 0 then do
    let (p, h) ← realloc h data
    return (p, size + taken limit size len, h)
  else .ok (data, size, h)

/-- All blocks. -/
def writeBodies (h : Heap) (limit : Nat) (data : P) (size : Nat) : List Nat → Res (P × Nat × Heap)
  | [] => .ok (data, size, h)
  | l :: t => do let (data, size, h) ← writeBody h limit data size l; writeBodies h limit data size t

/-- The variables of the loop over the cookies of the answer, u_send_request.c:733: never reset. -/
structure CookieVars where
  key : P := .null
  value : P := .null
  expires : P := .null
  domain : P := .null
  path : P := .null

/-- `x = o_strdup(elt)` if the line has that word; otherwise the variable keeps its value. -/
def takeWord (h : Heap) (there : Bool) (old : P) : P × Heap := if there then malloc h else (old, h)

/-- NULL or an attribute. -/
def attrOf (p : P) : Option Bytes := if p = .null then none else some []

/-- `ulfius_add_cookie_to_response` with these variables, u_send_request.c:770: the texts are copied; without name it is an error. -/
def storeCookie (h : Heap) (r : Resp) (v : CookieVars) (name : Bytes) : Res (Resp × Heap) :=
  if v.key = .null then .ok (r, h)
  else do
    let _ ← touch h v.key
    let _ ← touch h v.value
    let _ ← touch h v.expires
    let _ ← touch h v.domain
    let _ ← touch h v.path
    addCookie h r name (attrOf v.expires) (attrOf v.domain) (attrOf v.path)

/-- The loop over the cookies of the answer, u_send_request.c:736–781. -/
def answerCookies (h : Heap) (r : Resp) (v : CookieVars) : List (List Bytes) → Res (Resp × Heap)
  | [] => .ok (r, h)
  | ws :: t => do
    let (dup, h) := malloc h
    let (d, h) := takeWord h (decide (0 < ws.length)) v.domain
    let (p, h) := takeWord h (decide (2 < ws.length)) v.path
    let (e, h) := takeWord h (decide (4 < ws.length)) v.expires
    let (k, h) := takeWord h (decide (5 < ws.length)) v.key
    let (x, h) := takeWord h (decide (6 < ws.length)) v.value
    let v : CookieVars := ⟨k, x, e, d, p⟩
    let (r, h) ← storeCookie h r v (ws.getD 5 [])
    let h ← freeAll h [v.key, v.value, v.domain, v.path, v.expires, dup]
    answerCookies h r v t

/-- One element of the list libcurl hands out for each. -/
def cookieNodes (h : Heap) : List (List Bytes) → List P × Heap
  | [] => ([], h)
  | _ :: t =>
    let (n, h) := malloc h
    let (l, h) := cookieNodes h t
    (n :: l, h)

/-- Reading through every pointer. -/
def needAll (h : Heap) : List P → Res Unit
  | [] => .ok ()
  | p :: t => do let _ ← need h p; needAll h t

/-- What comes after the transfer, u_send_request.c:728–786. -/
def readAnswer (h : Heap) (r : Resp) (a : Answer) : Res (Bool × Resp × Heap) :=
  if a.status then
    match a.cookies with
    | none => .ok (false, r, h)
    | some lines => do
      let (nodes, h) := cookieNodes h lines
      let (r, h) ← answerCookies h r {} lines
      let h ← freeAll h nodes
      return (true, r, h)
  else .ok (false, r, h)

/-- Header lines go to `write_header` if there are headers to write to, u_send_request.c:690–700. -/
def answerLines (h : Heap) (r : Resp) (a : Answer) : Res (Resp × Heap) :=
  if r.header = none then .ok (r, h) else writeHeaders h r a.lines

/-- Blocks of the body go to `ulfius_write_body` or to the callback of the caller. -/
def answerBody (h : Heap) (body : Option Nat) (a : Answer) : Res (P × Nat × Heap) :=
  match body with
  | some limit => writeBodies h limit .null 0 a.chunks
  | none => .ok (.null, 0, h)

/-- The transfer, u_send_request.c:721–787. `body`: `ulfius_write_body` takes the body, with this limit. The third and fourth component are its data and size. -/
def perform (h : Heap) (w : Work) (resp : Option Resp) (body : Option Nat) (a : Answer) : Res (Bool × Option Resp × P × Nat × Heap) := do
  let _ ← (if w.copy.bodyLen ≠ 0 then touch h (w.copy.slot .body) else .ok ())
  let _ ← needAll h w.list
  match resp with
  | none => return (a.ok, none, .null, 0, h)
  | some r => do
    let (r, h) ← answerLines h r a
    let (data, size, h) ← answerBody h body a
    if a.ok then do
      let (ok, r, h) ← readAnswer h r a
      return (ok, some r, data, size, h)
    else return (false, some r, data, size, h)

/-- What the function has when it leaves the loop. -/
structure Left where
  ok : Bool
  work : Work
  resp : Option Resp
  data : P := .null
  size : Nat := 0
  heap : Heap

/-- The loop, u_send_request.c:305–787. -/
def sendLoop (h : Heap) (w : Work) (resp : Option Resp) (body : Option Nat) (a : Libcurl) : Res Left :=
  if a.first then do
    let (ok, w, h) ← makeUrl h w a
    if ok then do
      let (ok, w, h) ← makeForm h w a
      if ok && (a.body || decide (w.copy.bodyLen = 0)) then do
        let (ok, list, h) ← headerLoop h [] a.append 0 (entriesOf (w.copy.map .header))
        let w := { w with list := list }
        if ok then do
          let (ok, h) ← sendCookies h w a
          if ok && a.last then do
            let _ ← touch h w.url
            let (ok, resp, data, size, h) ← perform h w resp body a.answer
            return ⟨ok, w, resp, data, size, h⟩
          else return ⟨false, w, resp, .null, 0, h⟩
        else return ⟨false, w, resp, .null, 0, h⟩
      else return ⟨false, w, resp, .null, 0, h⟩
    else return ⟨false, w, resp, .null, 0, h⟩
  else .ok ⟨false, w, resp, .null, 0, h⟩

/-- The body of the answer, u_send_request.c:203–219, 241–257: whatever `binary_body` was. -/
def finishSend (h : Heap) (x : Left) : Res (Bool × Option Resp × Heap) :=
  match x.ok, x.resp with
  | true, some r =>
    if x.data ≠ .null ∧ x.size ≠ 0 then do
      let (p, h) := malloc h
      let h ← free h x.data
      return (true, some { r with body := p, bodyLen := x.size }, h)
    else do
      let h ← free h x.data
      return (true, some r, h)
  | ok, r => do
    let h ← free h x.data
    return (ok, r, h)

/-- `ulfius_send_http_request` and `ulfius_send_http_request_with_limit`, u_send_request.c:192–258, with `body = some limit` (0: no limit),
`ulfius_send_http_streaming_request` and `ulfius_send_http_streaming_request_max_header`, 266–804, with `body = none` (the callback of the
caller takes the body). The first component: `U_OK`. -/
def sendRequest (h : Heap) (src : Req) (resp : Option Resp) (body : Option Nat) (a : Libcurl) : Res (Bool × Option Resp × Heap) := do
  match ← duplicateRequest h src with
  | (none, h) => return (false, resp, h)
  | (some copy, h) =>
    if a.init then do
      let (handle, h) := malloc h
      let x ← sendLoop h { copy := copy } resp body a
      let h ← free x.heap x.work.url
      let h ← cleanRequestFull h x.work.copy
      let h ← free h handle
      let h ← freeAll h x.work.list
      finishSend h x
    else do
      let h ← cleanRequestFull h copy
      return (false, resp, h)

/-! ## Mail -/

/-- A call of `ulfius_send_smtp_rich_email`: the mandatory arguments are given; with `cc`, with `bcc`; the answers of libcurl:
`curl_easy_init`, the options before the recipients, `curl_slist_append` of each, `CURLOPT_MAIL_RCPT`, what follows. -/
structure Mail where
  given : Bool := true
  cc : Bool := false
  bcc : Bool := false
  init : Bool := true
  first : Bool := true
  addTo : Bool := true
  addCc : Bool := true
  addBcc : Bool := true
  rcpt : Bool := true
  last : Bool := true
  deriving DecidableEq

/-- `recipients = curl_slist_append(recipients, x)`: refused, the variable is NULL. -/
def appendNode (h : Heap) (list : List P) (wanted accepted : Bool) : Bool × List P × Heap :=
  if wanted then
    if accepted then
      let (n, h) := malloc h
      (true, list ++ [n], h)
    else (false, [], h)
  else (true, list, h)

/-- The recipients, u_send_request.c:913–935. -/
def recipients (h : Heap) (m : Mail) : Bool × List P × Heap :=
  match appendNode h [] true m.addTo with
  | (false, l, h) => (false, l, h)
  | (true, l, h) =>
    match appendNode h l m.cc m.addCc with
    | (false, l, h) => (false, l, h)
    | (true, l, h) => appendNode h l m.bcc m.addBcc

/-- `ulfius_send_smtp_rich_email`, u_send_request.c:826–1000, and `ulfius_send_smtp_email`, 1017–1041, which calls it. -/
def sendMail (h : Heap) (m : Mail) : Res Heap :=
  if m.given && m.init then do
    let (handle, h) := malloc h
    let (url, h) := malloc h
    let (ok, list, h) := if m.first then recipients h m else (false, [], h)
    if ok && m.rcpt then do
      let (cc, h) := malloc h
      let (data, h) := malloc h
      let _ ← (if m.last then do let _ ← needAll h list; need h data else .ok ())
      let h ← freeAll h list
      freeAll h [handle, url, cc, data]
    else do
      let h ← freeAll h list
      freeAll h [handle, url]
  else .ok h

/-! ## Programs -/

/-- A call of a program with requests and responses, numbered apart. -/
inductive NetCmd where
  | request (c : Cmd)
  | response (c : RCmd)
  /-- request `i` is sent, the answer goes to response `j` (`none`: NULL) -/
  | send (i : Nat) (j : Option Nat) (body : Option Nat) (a : Libcurl)
  | mail (m : Mail)

/-- The requests and responses of a program. -/
structure NetState where
  heap : Heap
  reqs : List (Option Req) := []
  resps : List (Option Resp) := []

/-- One call; calls that name something cleaned before are not made. -/
def netExec (s : NetState) : NetCmd → Res NetState
  | .request c => do
    let x ← exec ⟨s.heap, s.reqs⟩ c
    return ⟨x.heap, x.reqs, s.resps⟩
  | .response c => do
    let x ← rexec ⟨s.heap, s.resps⟩ c
    return ⟨x.heap, s.reqs, x.resps⟩
  | .send i none body a =>
    match s.reqs[i]? with
    | some (some r) => do
      let (_, _, h) ← sendRequest s.heap r none body a
      return { s with heap := h }
    | _ => .ok s
  | .send i (some j) body a =>
    match s.reqs[i]?, s.resps[j]? with
    | some (some r), some (some x) => do
      let (_, x, h) ← sendRequest s.heap r (some x) body a
      return { s with heap := h, resps := s.resps.set j x }
    | _, _ => .ok s
  | .mail m => do
    let h ← sendMail s.heap m
    return { s with heap := h }

/-- All calls. -/
def netRun (s : NetState) : List NetCmd → Res NetState
  | [] => .ok s
  | c :: t => do let s ← netExec s c; netRun s t

end Verif.Memory
