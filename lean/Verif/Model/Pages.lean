import Verif.Model.Answer
import Verif.Model.Endpoint
import Verif.Model.Printf
import Verif.Model.Session
/-!
# Model of the pages of the simple example

example_programs/simple_example/simple_example.c; the lines given are those of this file. `print_map` is the same text in
multiple_callbacks_example.c:57–85, sheep_counter.c:36–64, test_u_map.c:23–51, request_example/client.c:29–57 and request_example/server.c:26–54.
Allocations succeed. `%s` of NULL prints "(null)" (glibc).
-/
namespace Verif.Pages
open Verif.UMap Verif.Message Verif.Answer Verif.Printf
open Verif.Spec.OMap (OMap)

/-- A block of `size` bytes with a C string in it. -/
structure Text where
  size : Nat
  s : Bytes
  deriving DecidableEq, Repr

/-- `strcat`: undefined when the string and its NUL do not fit. -/
def Text.cat (t : Text) (x : Bytes) : Res Text :=
  if t.s.length + x.length + 1 ≤ t.size then .ok { t with s := t.s ++ x } else .ub

/-- `snprintf` of one entry, lines 57–59. A longer text has no length in an `int` (or `len+1` has none). -/
def line (k : Bytes) (v : Option Bytes) : Res Bytes :=
  let t := b!"key is " ++ k ++ b!", value is " ++ str v
  if t.length + 1 < 2 ^ 31 then .ok t else .ub

/-- One turn of the loop, lines 60–70; `none` is `to_return == NULL`. -/
def turn (t : Option Text) (l : Bytes) : Res Text :=
  match t with
  | some t =>
    let len := t.s.length + l.length + 1
    if len + 1 < 2 ^ 31 then do
      let t : Text := { size := len + 1, s := t.s }                    -- o_realloc
      let t ← if 0 < t.s.length then t.cat [0x0a] else .ok t
      t.cat l
    else .ub
  | none => Text.cat { size := l.length + 1, s := [] } l

/-- The value of a key as a C string. -/
def textOf (m : UMap) (k : Bytes) : Res (Option Bytes) := do
  match ← UMap.get m (some k) with
  | none => return none
  | some b => do
    let s ← readStr b
    return some s

/-- The loop, lines 55–72. -/
def printLoop (m : UMap) : List Bytes → Option Text → Res (Option Text)
  | [], t => .ok t
  | k :: ks, t => do
    let v ← textOf m k
    let l ← line k v
    let t ← turn t l
    printLoop m ks (some t)

/-- `print_map`, lines 49–77, on a map. -/
def printMap (m : UMap) : Res (Option Bytes) := do
  let ks ← UMap.enumKeys m
  let t ← printLoop m ks none
  return t.map (·.s)

/-- What the callbacks use of a request: `query` is `map_url_initial`, `client` what `inet_ntoa` makes of the address. -/
structure Req where
  verb : Bytes
  httpUrl : Bytes
  urlPath : Bytes
  query : OMap := []
  check : Bool := true                    -- u_instance->check_utf8
  cookies : UMap := UMap.init
  headers : UMap := UMap.init
  post : UMap := UMap.init
  client : Bytes

/-- A map with these entries, put one after the other. -/
def fillUrl : OMap → UMap → Res UMap
  | [], m => .ok m
  | (k, v) :: t, m => do
    let (_, m) ← UMap.put m (some k) v
    fillUrl t m

/-- `request->map_url` for a callback, src/ulfius.c:638–643. -/
def mapUrl (q : Req) (e : Endpoint.Endpoint) : Res UMap := do
  let (_, ps) ← Endpoint.callbackUrlMap q.urlPath e q.query q.check
  fillUrl ps UMap.init

/-- A page that is the text `t`: `msprintf`, whose result has its length in an `int`, then `ulfius_set_string_body_response(response, 200, ..)`. -/
def sendText (r : Response) (t : Bytes) : Res (Int × Response) :=
  if t.length + 1 < 2 ^ 31 then .ok (Dispatch.cbContinue, (setStringBody r 200 (some t)).2) else .ub

/-- `callback_get_test`, lines 167–172. -/
def getTest (r : Response) : Res (Int × Response) :=
  .ok (Dispatch.cbContinue, (setStringBody r 200 (some b!"Hello World!")).2)

/-- `callback_get_empty_response`, lines 177–182. -/
def getEmpty (r : Response) : Res (Int × Response) := .ok (Dispatch.cbContinue, r)

/-- `callback_post_test`, lines 187–195. -/
def postTest (q : Req) (r : Response) : Res (Int × Response) := do
  let p ← printMap q.post
  sendText r (b!"Hello World!\n" ++ str p)

/-- `callback_all_test_foo`, lines 200–217; `mu` is `request->map_url`, `user` is `user_data`. -/
def allTest (q : Req) (mu : UMap) (user : Option Bytes) (r : Response) : Res (Int × Response) := do
  let url ← printMap mu
  let headers ← printMap q.headers
  let cookies ← printMap q.cookies
  let post ← printMap q.post
  sendText r (b!"Hello World!\n\n  method is " ++ q.verb ++ b!"\n  url is " ++ q.httpUrl ++ b!"\n\n  parameters from the url are \n" ++ str url ++
    b!"\n\n  cookies are \n" ++ str cookies ++ b!"\n\n  headers are \n" ++ str headers ++ b!"\n\n  post parameters are \n" ++ str post ++
    b!"\n\n  user data is " ++ str user ++ b!"\n\nclient address is " ++ q.client ++ b!"\n\n")

/-- `callback_default`, lines 248–253. -/
def notFound : Callback Bool := fun _ w =>
  (Dispatch.cbContinue, { w with resp := (setStringBody w.resp 404 (some b!"Page not found, do what you want")).2 })

/-- The endpoints in the order of their registration, lines 121–129, and the empty one that ends the array. -/
def endpoints : List Endpoint.Endpoint :=
  [⟨some b!"GET", some b!"/test", none, 0, some 0, 0⟩,
   ⟨some b!"GET", some b!"/test", some b!"/empty", 0, some 1, 0⟩,
   ⟨some b!"GET", some b!"/test", some b!"/multiple/:multiple/:multiple/:not_multiple", 0, some 2, 0⟩,
   ⟨some b!"POST", some b!"/test", none, 0, some 3, 0⟩,
   ⟨some b!"GET", some b!"/test", some b!"/param/:foo", 0, some 2, 1⟩,
   ⟨some b!"POST", some b!"/test", some b!"/param/:foo", 0, some 2, 2⟩,
   ⟨some b!"PUT", some b!"/test", some b!"/param/:foo", 0, some 2, 3⟩,
   ⟨some b!"DELETE", some b!"/test", some b!"/param/:foo", 0, some 2, 4⟩,
   ⟨some b!"GET", some b!"/testcookie", some b!"/:lang/:extra", 0, some 4, 0⟩,
   Endpoint.emptyEndpoint]

/-- The `user_data` of an endpoint, by the number that stands for it in `endpoints`. -/
def userData : Nat → Option Bytes
  | 1 => some b!"user data 1"
  | 2 => some b!"user data 2"
  | 3 => some b!"user data 3"
  | 4 => some b!"user data 4"
  | _ => none

/-- What the callback of an endpoint does, by its number in `endpoints`. -/
def run (q : Req) (e : Endpoint.Endpoint) (r : Response) : Res (Int × Response) := do
  let mu ← mapUrl q e
  match e.callback with
  | some 0 => getTest r
  | some 1 => getEmpty r
  | some 2 => allTest q mu (userData e.userData) r
  | some 3 => postTest q r
  | some _ => do
    let lang ← textOf mu b!"lang"
    let extra ← textOf mu b!"extra"
    let counter ← textOf q.cookies b!"counter"
    Session.cookieTest lang extra counter r
  | none => .ub

/-- The callback of an endpoint; the flag says that something undefined happened. -/
def callbackOf (q : Req) (e : Endpoint.Endpoint) : Callback Bool := fun _ w =>
  match run q e w.resp with
  | .ok (ret, r) => (ret, { w with resp := r })
  | .ub => (Dispatch.cbError, { w with user := true })

/-- `u_map_put(instance.default_headers, "Access-Control-Allow-Origin", "*")`, line 115, on the empty map. -/
def defaults : Res UMap := do
  let (_, m) ← UMap.put UMap.init (some b!"Access-Control-Allow-Origin") (some b!"*")
  return m

/-- The instance, lines 110–132: `accept` is libmicrohttpd, no callback makes a websocket. -/
def instanceOf (accept : List Field → Bytes → Bytes → Bool) : Res (Cfg Bool) := do
  let m ← defaults
  return { accept := accept, hand := fun _ => .failed, realm := none, defaults := some m }

/-- A request: the answer, for an order of the selected endpoints that `qsort` may give. -/
def Serves (accept : List Field → Bytes → Bytes → Bool) (q : Req) (a : Res (Option Ans)) : Prop :=
  ∃ r, Endpoint.EndpointMatch q.verb q.urlPath endpoints r ∧ a = do
    let cfg ← instanceOf accept
    let (ans, evs) ← dispatch cfg (r.map (callbackOf q)) (some notFound) false
    if evs.any (fun e => e.after.user) then .ub else return ans

end Verif.Pages
