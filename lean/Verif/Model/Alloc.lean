import Verif.Basic
/-!
# Model of the allocation functions a program chooses

`o_set_alloc_funcs` of orcania replaces the functions behind `o_malloc`, `o_realloc`, `o_strdup` and `o_free`; ulfius passes them on to curl and
jansson (src/ulfius.c:1212, 1258, 1927–1949). Which function made a block and which function releases it is all that is looked at here, for the
blocks that cross the border between ulfius and another library: bodies made by jansson, credentials made by libmicrohttpd, texts escaped by curl,
the body handed to libmicrohttpd, the handle of curl. Blocks that only `o_malloc` and `o_free` touch are in `Verif.Model.Memory`.

There are two families: `libc` (`malloc`, `free`) and `own` (the functions of the program). Allocations succeed, no call fails. What curl does is
taken from its documentation and source: `curl_global_init` and `curl_global_init_mem` count their calls and only the first one has an effect
(`lib/easy.c`); a handle comes from `calloc`. The requests a server handles and the calls of the program follow one another.
-/
namespace Verif.Alloc

/-- Whose functions. -/
inductive Fam where
  | libc
  | own
  deriving DecidableEq, Repr

/-- The allocation function of a family made block `n`; the release function of a family was given it. -/
inductive Ev where
  | got (f : Fam) (n : Nat)
  | gave (f : Fam) (n : Nat)
  deriving DecidableEq, Repr

/-- The libraries, what happened so far, and the `binary_body` of the requests and responses of the program. -/
structure St where
  /-- the functions of orcania -/
  orc : Fam := .libc
  /-- the functions of jansson -/
  json : Fam := .libc
  /-- `malloc`, `free` of curl -/
  curl : Fam := .libc
  /-- `calloc` of curl -/
  curlCalloc : Fam := .libc
  /-- `initialized` of curl -/
  inits : Nat := 0
  next : Nat := 0
  trace : List Ev := []
  bodies : List (Option Nat) := []
  deriving DecidableEq, Repr

/-- A block is made. -/
def take (f : Fam) (s : St) : Nat × St := (s.next, { s with next := s.next + 1, trace := s.trace ++ [.got f s.next] })

/-- A pointer is released; NULL is ignored by `free` and `o_free`. -/
def give (f : Fam) (s : St) : Option Nat → St
  | none => s
  | some n => { s with trace := s.trace ++ [.gave f n] }

/-! ## Start and end -/

/-- `o_set_alloc_funcs` with the functions of the program. -/
def setAlloc (s : St) : St := { s with orc := .own }

/-- `curl_global_init`. -/
def curlInit (s : St) : St :=
  if s.inits = 0 then { s with curl := .libc, curlCalloc := .libc, inits := 1 } else { s with inits := s.inits + 1 }

/-- `curl_global_init_mem` with functions for `malloc`, `free`, `realloc`, `strdup` of one family and `calloc` of another. -/
def curlInitMem (f c : Fam) (s : St) : St :=
  if s.inits = 0 then { s with curl := f, curlCalloc := c, inits := 1 } else { s with inits := s.inits + 1 }

/-- `ulfius_global_init`, src/ulfius.c:1927–1949: curl is initialised twice; `calloc` is that of libc (1939). -/
def globalInit (s : St) : St :=
  let s := curlInit s
  let s := curlInitMem s.orc .libc s
  { s with json := s.orc }

/-- `ulfius_global_close`, src/ulfius.c:1951–1955: `curl_global_cleanup`, which counts down. -/
def globalClose (s : St) : St := { s with inits := s.inits - 1 }

/-- `ulfius_start_framework`, `ulfius_start_secure_framework`, `ulfius_start_secure_ca_trust_framework`, src/ulfius.c:1188–1294: jansson gets
the functions of orcania (1212–1213, 1258–1259). -/
def start (s : St) : St := { s with json := s.orc }

/-- `ulfius_start_framework_with_mhd_options`, src/ulfius.c:1296–1313. -/
def startOptions (s : St) : St := s

/-! ## Bodies -/

/-- What a body is set to: `ulfius_set_string_body_…` (with an empty text or another), `ulfius_set_binary_body_…`, `ulfius_set_json_body_…`,
`ulfius_set_empty_body_…`. -/
inductive Body where
  | text (empty : Bool)
  | binary
  | json
  | nothing
  deriving DecidableEq, Repr

/-- src/u_request.c:704–760 and 951–972, src/u_response.c:515–570 and 681–703: the old body goes to `o_free`, the new one comes from
`o_strdup`, `o_malloc` or `json_dumps`. Result: `binary_body`. -/
def setBody (s : St) (old : Option Nat) (b : Body) : Option Nat × St :=
  let s := give s.orc s old
  match b with
  | .text _ => let (n, s) := take s.orc s; (some n, s)
  | .binary => let (n, s) := take s.orc s; (some n, s)
  | .json => let (n, s) := take s.json s; (some n, s)
  | .nothing => (none, s)

/-- `ulfius_init_request` or `ulfius_init_response`: a message without body. -/
def newMessage (s : St) : St := { s with bodies := s.bodies ++ [none] }

/-- The body of message `i` is set. -/
def setMessage (s : St) (i : Nat) (b : Body) : St :=
  match s.bodies[i]? with
  | none => s
  | some old =>
    let (p, s) := setBody s old b
    { s with bodies := s.bodies.set i p }

/-- `ulfius_clean_request` (src/u_request.c:338) and `ulfius_clean_response` (src/u_response.c:345): `o_free` of the body. The message is not
used afterwards. -/
def cleanMessage (s : St) (i : Nat) : St :=
  match s.bodies[i]? with
  | none => s
  | some old =>
    let s := give s.orc s old
    { s with bodies := s.bodies.set i none }

/-- `ulfius_websocket_send_json_message`, src/u_websocket.c:1605–1621: `json_dumps`, then `o_free`. -/
def wsJson (s : St) : St :=
  let (n, s) := take s.json s
  give s.orc s (some n)

/-! ## A request is served -/

/-- `mhd_response_flag`. -/
inductive Flag where
  | mustFree
  | mustCopy
  deriving DecidableEq, Repr

/-- src/ulfius.c:612–616; `new`: `MHD_VERSION >= 0x00096100`, `copy`: `mhd_response_copy_data`. -/
def flagOf (new copy : Bool) : Flag := if new then (if copy then .mustCopy else .mustFree) else .mustFree

/-- `MHD_CREATE_RESPONSE_FROM_BUFFER_PIMPED`, src/ulfius.c:426–430, and what libmicrohttpd does with the buffer until the response is destroyed:
since 0.9.61 `o_free` is called for it; before, it goes to `free`, or a copy of it does. The end of the dispatcher (src/ulfius.c:1055–1061)
releases the buffer if a copy was made, with versions before 0.9.61. -/
def answer (new copy : Bool) (s : St) (buffer : Option Nat) : St :=
  if new then give s.orc s buffer
  else match flagOf new copy with
    | .mustFree => give .libc s buffer
    | .mustCopy =>
      match buffer with
      | none => s
      | some n =>
        let (c, s) := take .libc s
        let s := give .libc s (some c)
        give s.orc s (some n)

/-- A callback sets the body of the response several times. -/
def setBodies (s : St) (p : Option Nat) : List Body → Option Nat × St
  | [] => (p, s)
  | b :: t => let (p, s) := setBody s p b; setBodies s p t

/-- Does the response have a body that is not empty? -/
def sendsBody : List Body → Bool
  | [] => false
  | [b] => match b with
    | .text e => !e
    | .nothing => false
    | _ => true
  | _ :: t => sendsBody t

/-- A request: what the `Authorization` header yields, the bodies the callback gives the response, whether an error is answered instead (the
callback failed, or there is none), version and option of the server. -/
structure Served where
  user : Bool := false
  pass : Bool := false
  bodies : List Body := []
  error : Bool := false
  new : Bool := true
  copy : Bool := false
  deriving DecidableEq, Repr

/-- `MHD_basic_auth_get_username_password` makes a text with `malloc`, or NULL. -/
def fromMhd (b : Bool) (s : St) : Option Nat × St := if b then let (n, s) := take .libc s; (some n, s) else (none, s)

/-- src/ulfius.c:634 (credentials), 645 (callback), 254–280 and 854 (`o_malloc` for the copy of the body) or 919 (`o_strdup` of the text of the error), 1039 (the response is cleaned), then
`mhd_request_completed` with `ulfius_clean_request` (src/u_request.c:330–331). -/
def serve (x : Served) (s : St) : St :=
  let (u, s) := fromMhd x.user s
  let (p, s) := fromMhd (x.user && x.pass) s
  let (body, s) := setBodies s none x.bodies
  let (buffer, s) := if x.error || sendsBody x.bodies then (let (n, s) := take s.orc s; (some n, s)) else (none, s)
  let s := answer x.new x.copy s buffer
  let s := give s.orc s body
  let s := give s.orc s u
  give s.orc s p

/-! ## A request is sent -/

/-- One parameter of the URL, src/u_send_request.c:427–457; `v`: it has a value. -/
def escapeUrl (s : St) (v : Bool) : St :=
  let (k, s) := take s.curl s
  let s := if v then (let (w, s) := take s.curl s; give s.curl s (some w)) else s
  give s.curl s (some k)

/-- One parameter of the body, src/u_send_request.c:472–503: `o_free` of what curl made. -/
def escapePost (s : St) (v : Bool) : St :=
  let (k, s) := take s.curl s
  let s := if v then (let (w, s) := take s.curl s; give s.orc s (some w)) else s
  give s.orc s (some k)

/-- Several parameters. -/
def each (g : St → Bool → St) (s : St) : List Bool → St
  | [] => s
  | v :: t => each g (g s v) t

/-- `ulfius_send_http_request`, src/u_send_request.c:280–800: the handle of curl (which initialises curl if nobody did), the parameters of URL and body. -/
def sendRequest (url post : List Bool) (s : St) : St :=
  let s := if s.inits = 0 then curlInit s else s
  let (c, s) := take s.curlCalloc s
  let s := each escapeUrl s url
  let s := each escapePost s post
  give s.curl s (some c)

/-! ## Programs -/

/-- What happens. -/
inductive Op where
  | setAlloc
  | globalInit
  | globalClose
  | start
  | startOptions
  | newMessage
  | setMessage (i : Nat) (b : Body)
  | cleanMessage (i : Nat)
  | wsJson
  | serve (x : Served)
  | send (url post : List Bool)
  deriving DecidableEq, Repr

/-- One step. -/
def step (s : St) : Op → St
  | .setAlloc => setAlloc s
  | .globalInit => globalInit s
  | .globalClose => globalClose s
  | .start => start s
  | .startOptions => startOptions s
  | .newMessage => newMessage s
  | .setMessage i b => setMessage s i b
  | .cleanMessage i => cleanMessage s i
  | .wsJson => wsJson s
  | .serve x => serve x s
  | .send u p => sendRequest u p s

/-- All steps. -/
def run (s : St) : List Op → St
  | [] => s
  | o :: t => run (step s o) t

end Verif.Alloc
