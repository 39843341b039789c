import Verif.Spec.AnswerMem
/-!
# Model of the answer of the dispatcher when memory runs out, `src/ulfius.c:254–280, 617–634, 842–1042`

The loop over the endpoints, the default endpoint behind it and the response of libmicrohttpd, with every allocation on the way given as a
choice: `true`, it succeeds. The second call of each place (`true` as the first argument) is the one for the default endpoint.

Simplifications: no streams and no websockets (C188, C190); the callbacks are functions of the response, what they do when their own
allocations fail is theirs (C177); a copy of the default headers is whole or NULL (`u_map_copy`, u_map.c:461–488); cookies are the lines
`ulfius_generate_cookie_header` makes of them; status codes libmicrohttpd does not know are queued; the request has an endpoint.
-/
namespace Verif.OomAnswer
open Verif.Spec.AnswerMem

/-- Which allocations succeed. -/
structure Mem where
  /-- `o_malloc(sizeof(struct _u_response))`, ulfius.c:618 -/
  response : Bool := true
  /-- `ulfius_init_response`, ulfius.c:622 -/
  init : Bool := true
  /-- `u_map_copy(default_headers)`, ulfius.c:630 -/
  defaults : Bool := true
  /-- `o_malloc(binary_body_length)`, ulfius.c:260 -/
  body : Bool → Bool := fun _ => true
  /-- `o_strdup(ULFIUS_HTTP_ERROR_BODY)`, ulfius.c:264 -/
  text : Bool → Bool := fun _ => true
  /-- `o_strdup(ULFIUS_HTTP_ERROR_BODY)` in the dispatcher, ulfius.c:867, 884, 899, 918, 947, 961, 981, 1005; at most one of them is reached -/
  page : Bool → Bool := fun _ => true
  /-- `MHD_create_response_from_buffer` -/
  reply : Bool → Bool := fun _ => true
  /-- `MHD_add_response_header` of line `i` -/
  field : Bool → Nat → Bool := fun _ _ => true

/-- The variables of the dispatcher. `mhd`: `mhd_response`, its lines and its body; `unauth`: `inner_error == U_CALLBACK_UNAUTHORIZED`;
`lost`: bodies nobody frees any more. -/
structure St where
  resp : Resp
  mhd : Option (List Field × Bytes) := none
  len : Nat := 0
  unauth : Bool := false
  realm : Option Bytes := none
  lost : Nat := 0
  deriving DecidableEq, Repr

/-- `ulfius_get_body_from_response`, ulfius.c:254–280: `U_OK`, the buffer (NULL: `none`), the variables. Without memory for the copy the length is not set
and the body of the response is replaced by the text of the error without being freed. -/
def getBody (mem : Mem) (w : Bool) (s : St) : Bool × Option Bytes × St :=
  if s.resp.body ≠ [] then
    if mem.body w then (true, some s.resp.body, { s with len := s.resp.body.length })
    else (mem.text w, none,
      { s with resp := { s.resp with status := 500, body := if mem.text w then errorText else [] }, lost := s.lost + 1 })
  else (true, none, { s with len := 0 })

/-- `MHD_create_response_from_buffer(len, buffer, …)`: NULL without memory, and for a NULL buffer that is said to have a length. -/
def create (mem : Mem) (w : Bool) (len : Nat) (buffer : Option Bytes) : Option (List Field × Bytes) :=
  match buffer with
  | some b => if mem.reply w then some ([], b) else none
  | none => if len = 0 ∧ mem.reply w = true then some ([], []) else none

/-- Lines are added until one is refused. -/
def addLines (mem : Mem) (w : Bool) : Nat → List Field → Bool × List Field
  | _, [] => (true, [])
  | i, l :: t => if mem.field w i then let r := addLines mem w (i + 1) t; (r.1, l :: r.2) else (false, [])

/-- `ulfius_set_response_header`, `ulfius_set_response_cookie`, u_response.c:153–206: `-1` without a response or without a map. -/
def setLines (mem : Mem) (w : Bool) (r : Resp) : Option (List Field × Bytes) → Bool × Option (List Field × Bytes)
  | none => (false, none)
  | some m =>
    match r.headers with
    | none => (false, some m)
    | some hs => let a := addLines mem w 0 (hs ++ r.cookies); (a.1, some (m.1 ++ a.2, m.2))

/-- `response_buffer = o_strdup(ULFIUS_HTTP_ERROR_BODY)` and the response of it, e.g. ulfius.c:917–925. -/
def errorPage (mem : Mem) (w : Bool) (s : St) : St :=
  if mem.page w then { s with mhd := create mem w errorText.length (some errorText), len := errorText.length } else { s with mhd := none }

/-- `U_CALLBACK_COMPLETE`, ulfius.c:853–876, 990–1014: whether the lines were taken only sets `mhd_ret`, which the queue sets again. -/
def complete (mem : Mem) (w : Bool) (s : St) : St :=
  let g := getBody mem w s
  if g.1 then { g.2.2 with mhd := (setLines mem w g.2.2.resp (create mem w g.2.2.len g.2.1)).2 }
  else errorPage mem w { g.2.2 with resp := { g.2.2.resp with status := 500 } }

/-- `U_CALLBACK_UNAUTHORIZED`, ulfius.c:877–914, 940–974. -/
def unauthorized (mem : Mem) (w : Bool) (realm : Option Bytes) (s : St) : St :=
  let g := getBody mem w s
  let s' := if g.1 then
      let l := setLines mem w g.2.2.resp (create mem w g.2.2.len g.2.1)
      if l.1 then { g.2.2 with mhd := l.2, unauth := true }
      else { g.2.2 with mhd := l.2, resp := { g.2.2.resp with status := 500, body := if mem.page w then errorText else [] },
                        lost := g.2.2.lost + (if g.2.2.resp.body = [] then 0 else 1) }
    else { errorPage mem w g.2.2 with unauth := mem.page w }
  { s' with realm := s'.resp.realm.orElse (fun _ => realm) }

/-- `U_CALLBACK_ERROR` and what no code is, ulfius.c:915–927, 975–989. -/
def failed (mem : Mem) (w : Bool) (s : St) : St := errorPage mem w { s with resp := { s.resp with status := 500 } }

/-- The switch of the loop, ulfius.c:848–927. -/
def decide_ (mem : Mem) (realm : Option Bytes) (c : Code) (s : St) : St :=
  match c with
  | .unauthorized => unauthorized mem false realm s
  | .error | .other => failed mem false s
  | _ => complete mem false s

/-- The loop, ulfius.c:636–929: the variables, and whether `callback_position` is not 0. -/
def loop (mem : Mem) (realm : Option Bytes) : List Cb → St → Bool → St × Bool
  | [], s, u => (s, u)
  | cb :: t, s, u =>
    let c := (cb s.resp).1
    let u := u || decide (c ≠ .ignore)
    let s := { s with resp := (cb s.resp).2 }
    -- 843–846: the last one
    let c := if (c = .next ∨ c = .ignore) ∧ t = [] then .complete else c
    if c = .next ∨ c = .ignore then loop mem realm t s u else (decide_ mem realm c s, u)

/-- The default endpoint behind the loop, ulfius.c:931–1018. -/
def fallback (mem : Mem) (realm : Option Bytes) (f : Cb) (s : St) : St :=
  let c := (f s.resp).1
  let s := { s with mhd := none, resp := (f s.resp).2 }
  match c with
  | .unauthorized => unauthorized mem true realm s
  | .error => failed mem true s
  | .other => s
  | _ => complete mem true s

/-- What the client gets (`none`: the connection is closed), whether the response was freed, and how many bodies are lost. -/
structure Out where
  answer : Option Ans
  freed : Bool
  lost : Nat
  deriving DecidableEq, Repr

/-- ulfius.c:1020–1042: without `mhd_response` the connection is closed and the response is not freed. -/
def finish (s : St) : Out :=
  match s.mhd with
  | some m => { answer := some { status := if s.unauth then 401 else s.resp.status, realm := if s.unauth then s.realm else none, fields := m.1, body := m.2 },
                freed := true, lost := s.lost }
  | none => { answer := none, freed := false, lost := s.lost }

/-- ulfius.c:617–1042. -/
def serve (mem : Mem) (defaults : List Field) (realm : Option Bytes) (cbs : List Cb) (dflt : Option Cb) : Out :=
  if mem.response && mem.init then
    let resp : Resp := { headers := if defaults = [] then some [] else if mem.defaults then some defaults else none }
    let l := loop mem realm cbs { resp := resp } false
    match l.2, dflt with
    | false, some f => finish (fallback mem realm f l.1)
    | _, _ => finish l.1
  else { answer := none, freed := true, lost := 0 }

end Verif.OomAnswer
