import Verif.Model.Answer
import Verif.Model.Compress
import Verif.Model.Options
import Verif.Model.Endpoint
/-!
# Model of the sheep counter

example_programs/sheep_counter/sheep_counter.c: three callbacks share one number through their `user_data`, the compression callback follows them.

The JSON parser is a parameter: what `json_integer_value(json_object_get(v, "nbsheep"))` is for the value made of a text. The text of an answer is
written with `JSON_COMPACT`. `nb_sheep` is a `json_int_t` of 64 bits.
-/
namespace Verif.Sheep
open Verif.Message Verif.Answer Verif.Printf

/-- Jansson: the number "nbsheep" of a text, 0 when the value has none; `none`: not JSON. -/
abbrev Parser := Bytes → Option Int

/-- What a callback uses of a request. -/
structure Req where
  header : UMap.UMap := UMap.init
  body : Option Bytes := none
  bodyLen : Nat := 0

/-- `json_dumps` of `{"nbsheep": n}`, sheep_counter.c:81–82, with the flags of `ulfius_set_json_body_response` (u_response.c:690). -/
def text (n : Int) : Bytes := b!"{\"nbsheep\":" ++ decimalInt n ++ b!"}"

/-- `callback_sheep_counter_start`, sheep_counter.c:70–87: the code, the response, the number afterwards. -/
def start (J : Parser) (q : Req) (r : Response) : Res (Int × Response × Int) := do
  let t ← Options.getJson q.header q.body q.bodyLen
  let n := (t.bind J).getD 0
  let r ← setJsonBody r 200 (text n)
  return (Dispatch.cbContinue, r, n)

/-- `callback_sheep_counter_reset`, sheep_counter.c:93–105. -/
def reset (r : Response) : Res (Int × Response × Int) := do
  let r ← setJsonBody r 200 (text 0)
  return (Dispatch.cbContinue, r, 0)

/-- `callback_sheep_counter_add`, sheep_counter.c:111–124: `++` of the largest number is undefined. -/
def add (n : Int) (r : Response) : Res (Int × Response × Int) := do
  if n + 1 < 2 ^ 63 then do
    let r ← setJsonBody r 200 (text (n + 1))
    return (Dispatch.cbContinue, r, n + 1)
  else .ub

/-- The three methods, sheep_counter.c:227–229. -/
inductive Verb where
  | post | put | delete
  deriving DecidableEq, Repr

/-- The callback of a method. -/
def counter (J : Parser) (v : Verb) (q : Req) (n : Int) (r : Response) : Res (Int × Response × Int) :=
  match v with
  | .post => start J q r
  | .put => add n r
  | .delete => reset r

/-- The first callback; `user` is `nb_sheep`. `none`: undefined behaviour happened. -/
def counterCb (J : Parser) (v : Verb) (q : Req) : Callback (Option Int) := fun _ w =>
  match w.user with
  | none => (0, w)
  | some n =>
    match counter J v q n w.resp with
    | .ok (ret, r, n) => (ret, { w with resp := r, user := some n })
    | .ub => (0, { w with user := none })

/-- The second callback, `callback_http_compression` without configuration. -/
def compressCb (Z : Compress.Zlib) (q : Req) : Callback (Option Int) := fun _ w =>
  match Compress.callback Z none q.header w.resp with
  | .ok (ret, r) => (ret, { w with resp := r })
  | .ub => (0, { w with user := none })

/-- `nb_sheep` after the calls of a request. -/
def left (evs : List (Ev (Option Int))) (n : Option Int) : Option Int := (evs.getLast?.map (·.after.user)).getD n

/-- One request: the answer and the number afterwards. -/
def serve (cfg : Cfg (Option Int)) (J : Parser) (Z : Compress.Zlib) (n : Int) (v : Verb) (q : Req) : Res (Option Ans × Int) := do
  let (ans, evs) ← dispatch cfg [counterCb J v q, compressCb Z q] none (some n)
  match left evs (some n) with
  | some n => return (ans, n)
  | none => .ub

/-- Requests one after the other. -/
def serveAll (cfg : Cfg (Option Int)) (J : Parser) (Z : Compress.Zlib) : Int → List (Verb × Req) → Res (List (Option Ans) × Int)
  | n, [] => .ok ([], n)
  | n, (v, q) :: t => do
    let (a, n) ← serve cfg J Z n v q
    let (as, n) ← serveAll cfg J Z n t
    return (a :: as, n)

/-- The endpoints, sheep_counter.c:227–233, and the empty one that ends the array. The callbacks: 0 start, 1 add, 2 reset, 3 compression, 4 upload,
5 submit, 6 website. -/
def endpoints : List Endpoint.Endpoint :=
  [⟨some b!"POST", some b!"/sheep", none, 1, some 0, 0⟩, ⟨some b!"PUT", some b!"/sheep", none, 1, some 1, 0⟩,
   ⟨some b!"DELETE", some b!"/sheep", none, 1, some 2, 0⟩, ⟨some b!"*", some b!"/sheep", none, 2, some 3, 0⟩,
   ⟨some b!"*", some b!"static", some b!"/upload", 1, some 4, 0⟩, ⟨some b!"*", some b!"static", some b!"/submit", 1, some 5, 0⟩,
   ⟨some b!"GET", some b!"*", none, 1, some 6, 0⟩, Endpoint.emptyEndpoint]

/-! ## At the same time -/

/-- Where the thread of a request stands. The callbacks read and write `nb_sheep` without a lock; each access is taken to be one step, although a data
race is undefined in C11. -/
inductive Thread where
  | post (v : Int)               -- before `* nb_sheep = …`, sheep_counter.c:76–78
  | posted                       -- before `json_integer(* nb_sheep)`, line 82
  | put                          -- before the load of `(*nb_sheep)++`, line 116
  | loaded (v : Int)             -- before its store
  | stored                       -- before `json_integer(*nb_sheep)`, line 119
  | delete                       -- before `* nb_sheep = 0`, line 96
  | answered (n : Int)
  deriving DecidableEq, Repr

/-- A step of a thread: the number in memory before and after. -/
inductive Step : Int → Thread → Int → Thread → Prop
  | post {c v} : Step c (.post v) v .posted
  | posted {c} : Step c .posted c (.answered c)
  | put {c} : Step c .put c (.loaded c)
  | loaded {c v} : v + 1 < 2 ^ 63 → Step c (.loaded v) (v + 1) .stored
  | stored {c} : Step c .stored c (.answered c)
  | delete {c} : Step c .delete 0 (.answered 0)

/-- Some thread makes a step. -/
inductive Runs : Int × List Thread → Int × List Thread → Prop
  | none {s} : Runs s s
  | more {s c a t b c' t'} : Runs s (c, a ++ t :: b) → Step c t c' t' → Runs s (c', a ++ t' :: b)

end Verif.Sheep
