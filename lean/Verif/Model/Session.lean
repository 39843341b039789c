import Verif.Model.Answer
import Verif.Model.Handshake
/-!
# Model of a session that is kept in cookies

`callback_get_cookietest` of example_programs/simple_example/simple_example.c, and what a program does that sends the cookies it received with its next
request.
-/
namespace Verif.Session
open Verif.Message Verif.Answer Verif.Printf

/-- `(int)` of a `long`: the low 32 bits. -/
def toInt (v : Int) : Int :=
  let n := v % 2 ^ 32
  if n < 2 ^ 31 then n else n - 2 ^ 32

/-- simple_example.c:230–235: the counter that is sent, after the one that came with the request. `i_counter++` of the largest `int` is undefined. -/
def nextCounter : Option Bytes → Res Int
  | none => .ok 0
  | some t =>
    let i := toInt (Handshake.strtol t)
    if i = 2 ^ 31 - 1 then .ub else .ok (i + 1)

/-- `callback_get_cookietest`, simple_example.c:223–243, from the strings of the request: at most 11 characters are written to `new_counter`. -/
def cookieTest (lang extra counter : Option Bytes) (r : Response) : Res (Int × Response) := do
  let i ← nextCounter counter
  let (_, r) ← addCookieNoSite r ⟨some b!"lang", lang, none, 0, none, none, false, false, 0⟩
  let (_, r) ← addCookieNoSite r ⟨some b!"extra", extra, none, 0, none, none, false, false, 0⟩
  let (_, r) ← addCookieNoSite r ⟨some b!"counter", some (decimalInt i), none, 0, none, none, false, false, 0⟩
  return (0, (setStringBody r 200 (some b!"Cookies set!")).2)

/-- The callback for a request with these strings. -/
def testCb {σ : Type} (lang extra counter : Option Bytes) : Callback σ := fun _ w =>
  match cookieTest lang extra counter w.resp with
  | .ok (ret, r) => (ret, { w with resp := r })
  | .ub => (0, w)

/-- A program that passes cookies on: `u_map_put(request.map_cookie, response.map_cookie[i].key, response.map_cookie[i].value)` for all `i`. -/
def passOn (m : UMap.UMap) : List Cookie → Res UMap.UMap
  | [] => .ok m
  | c :: t => do
    let k ← read c.key
    let v ← read c.value
    let (_, m) ← UMap.put m k v
    passOn m t

end Verif.Session
