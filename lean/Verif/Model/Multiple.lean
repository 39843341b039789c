import Verif.Model.Credentials
import Verif.Model.Endpoint
/-!
# Model of the example with several callbacks for a request

example_programs/multiple_callbacks_example/multiple_callbacks_example.c, lines given for this file. The user state of the dispatcher is what the
example does with the block `response->shared_data`. The example never sets `response->free_shared_data`, so that the library itself never frees the
block (u_response.c:666–668, ulfius.c:1036–1038).
-/
namespace Verif.Multiple
open Verif.Message Verif.Answer

/-- `response->shared_data`: NULL, a block of `o_strdup`, the address of a block that was freed. -/
inductive Ptr where
  | null | live | dangling
  deriving DecidableEq, Repr

/-- The pointer, the blocks that nothing points to any more, and whether something undefined happened. -/
structure Mem where
  ptr : Ptr := .null
  lost : Nat := 0
  undef : Bool := false
  deriving DecidableEq, Repr

/-- `response->shared_data = o_strdup(..)`, line 151. -/
def Mem.dup (m : Mem) : Mem := { m with ptr := .live, lost := if m.ptr = .live then m.lost + 1 else m.lost }

/-- `y_log_message(.., "shared_data is %s", response->shared_data)`, lines 168, 185, 203, 220: reads the string. -/
def Mem.read (m : Mem) : Mem := { m with undef := m.undef || m.ptr != .live }

/-- `o_free(response->shared_data)`, lines 186, 230: the pointer keeps its value. -/
def Mem.free (m : Mem) : Mem :=
  match m.ptr with
  | .null => m
  | .live => { m with ptr := .dangling }
  | .dangling => { m with undef := true }

/-- `callback_multiple_level_zero`, lines 147–153. -/
def levelZero : Callback Mem := fun _ w =>
  (Dispatch.cbContinue, { w with resp := (setStringBody w.resp 200 (some b!"Level zero")).2, user := w.user.dup })

/-- The body of the callbacks of the levels one to three, lines 159–168, 176–185, 194–203, 211–220: `memcpy` of the body (undefined from NULL or beyond
the block), then `msprintf("%s\n%s", old_body, name)`. -/
def addLevel (name : Bytes) (w : World Mem) : World Mem :=
  match w.resp.body with
  | none => { w with user := { w.user with undef := true } }
  | some b =>
    if w.resp.bodyLen ≤ b.length then
      { w with resp := (setStringBody w.resp 200 (some (cstr (b.take w.resp.bodyLen) ++ 0x0a :: name))).2, user := w.user.read }
    else { w with user := { w.user with undef := true } }

/-- `callback_multiple_level_one`, `_two`, `_three`, lines 158–170, 193–205, 210–222. -/
def level (name : Bytes) : Callback Mem := fun _ w => (Dispatch.cbContinue, addLevel name w)

/-- `callback_multiple_level_one_complete`, lines 175–188. -/
def levelOneComplete : Callback Mem := fun _ w =>
  let w := addLevel b!"Level one" w
  (Dispatch.cbComplete, { w with user := w.user.free })

/-- `callback_multiple_level_final`, lines 227–232. -/
def levelFinal : Callback Mem := fun _ w => (Dispatch.cbComplete, { w with user := w.user.free })

/-- `callback_multiple_level_auth_check`, lines 237–251. -/
def authCheck (q : Request) : Callback Mem := fun _ w =>
  if q.user.isSome && q.password.isSome && q.user == some b!"test" && q.password == some b!"testpassword" then (Dispatch.cbContinue, w)
  else
    let r := if q.verb == some b!"PUT" then { w.resp with realm := some b!"specific_realm" } else w.resp
    (Dispatch.cbUnauthorized, { w with resp := (setStringBody r 401 (some b!"Error authentication")).2 })

/-- `callback_multiple_level_auth_data`, lines 256–261. -/
def authData : Callback Mem := fun _ w =>
  (Dispatch.cbContinue, { w with resp := (setStringBody w.resp 200 (some b!"Hello World!")).2 })

/-- `callback_default`, lines 266–271. -/
def notFound : Callback Mem := fun _ w =>
  (Dispatch.cbContinue, { w with resp := (setStringBody w.resp 404 (some b!"Page not found, do what you want")).2 })

/-- The endpoints in the order of their registration, lines 106–118, and the empty one that ends the array. -/
def endpoints : List Endpoint.Endpoint :=
  [⟨some b!"*", some b!"/multiple", some b!"/zero/*", 99, some 0, 0⟩,
   ⟨some b!"GET", some b!"/multiple", some b!"/zero/*", 0, some 1, 0⟩,
   ⟨some b!"GET", some b!"/multiple", some b!"/zero/one/*", 1, some 2, 0⟩,
   ⟨some b!"GET", some b!"/multiple", some b!"/zero/one/two/*", 2, some 3, 0⟩,
   ⟨some b!"GET", some b!"/multiple", some b!"/zero/one/two/three/", 3, some 4, 0⟩,
   ⟨some b!"GET", some b!"/multiple", some b!"/zero/onec/*", 1, some 5, 0⟩,
   ⟨some b!"GET", some b!"/multiple", some b!"/zero/onec/two/*", 2, some 3, 0⟩,
   ⟨some b!"GET", some b!"/multiple", some b!"/auth/*", 1, some 6, 0⟩,
   ⟨some b!"PUT", some b!"/multiple", some b!"/auth/*", 1, some 6, 0⟩,
   ⟨some b!"*", some b!"/multiple", some b!"/auth/data/", 2, some 7, 0⟩,
   Endpoint.emptyEndpoint]

/-- The callbacks by their numbers in `endpoints`. -/
def callbackOf (q : Request) : Option Nat → Callback Mem
  | some 0 => levelFinal
  | some 1 => levelZero
  | some 2 => level b!"Level one"
  | some 3 => level b!"Level two"
  | some 4 => level b!"Level three"
  | some 5 => levelOneComplete
  | some 6 => authCheck q
  | some 7 => authData
  | _ => fun _ w => (Dispatch.cbError, w)

/-- `u_map_put(instance.default_headers, "Access-Control-Allow-Origin", "*")`, line 100, on the empty map. -/
def defaults : Res UMap.UMap := do
  let (_, m) ← UMap.put UMap.init (some b!"Access-Control-Allow-Origin") (some b!"*")
  return m

/-- The instance, lines 95–121: `accept` is libmicrohttpd, no callback makes a websocket. -/
def instanceOf (accept : List Field → Bytes → Bytes → Bool) : Res (Cfg Mem) := do
  let m ← defaults
  return { accept := accept, hand := fun _ => .failed, realm := some b!"default_realm", defaults := some m }

/-- A request: `url` is that of the request without its query (`url_path`, ulfius.c:592); the answer, and the memory after the last call. Several results are
possible when endpoints have the same priority. -/
def Serves (accept : List Field → Bytes → Bytes → Bool) (method url : Bytes) (mhd : Option (Bytes × Bytes)) (a : Res (Option Ans × Option Mem)) : Prop :=
  ∃ r, Endpoint.EndpointMatch method url endpoints r ∧ a = do
    let cfg ← instanceOf accept
    let q := Credentials.setCredentials { verb := some method, urlPath := some url } mhd
    let (ans, evs) ← dispatch cfg (r.map (fun e => callbackOf q e.callback)) (some notFound) {}
    return (ans, evs.getLast?.map (·.after.user))

end Verif.Multiple
