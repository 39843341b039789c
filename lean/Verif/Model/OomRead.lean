import Verif.Model.Client
import Verif.Model.Endpoint
import Verif.Model.Upload
/-!
# Model of reading a request when memory runs out: `src/ulfius.c:68–134, 519–589, 636–639`

The maps are those of `Verif.Model.UMap`, where any allocation of `u_map_put` may fail. libmicrohttpd calls the function that fills a map once for each
pair and stops when it answers `MHD_NO`; when the dispatcher answers `MHD_NO` it closes the connection. Forms are not modelled here.
-/
namespace Verif.OomRead
open Verif.UMap Verif.Utf8

/-- What fails in one call that fills a map: `msprintf` of the joined value (ulfius.c:83, 119), the allocation with this number in `u_map_put`. -/
structure Fail where
  join : Bool := false
  put : Option Nat := none
  deriving DecidableEq, Repr

/-- The value that is put, ulfius.c:81–92, 117–128: behind the old one, or alone; NULL if the joined one cannot be made. -/
def joined (fails : Bool) (old : Option Bytes) (value : Bytes) : Option Bytes :=
  match old with
  | some old => if fails then none else some (old ++ b!"," ++ value)
  | none => some value

/-- `ulfius_fill_map_check_utf8` and `ulfius_fill_map`, ulfius.c:68–100 and 106–134: `MHD_YES`? and the map. -/
def fill (check : Bool) (m : UMap) (key : Bytes) (value : Option Bytes) (x : Fail) : Res (Bool × UMap) :=
  if check && !(utf8Ok key && (value.isNone || utf8Ok (value.getD []))) then .ok (true, m)
  else do
    let old ← Client.getText m key
    let (rc, m) ← UMap.put m (some key) (joined x.join old (value.getD [])) x.put
    return (decide (rc = .ok), m)

/-- `MHD_get_connection_values` with such a function, ulfius.c:536–544; its answer is not looked at. -/
def values (check : Bool) (f : Nat → Fail) : Nat → List (Bytes × Option Bytes) → UMap → Res UMap
  | _, [], m => .ok m
  | i, p :: t, m => do
    let (yes, m) ← fill check m p.1 p.2 (f i)
    if yes then values check f (i + 1) t m else return m

/-- The calls with a part of the body, ulfius.c:561–589: `none` is `MHD_NO`. -/
def chunks (max : Nat) (f : Nat → Bool) : Nat → Bytes → List Bytes → Res (Option Bytes)
  | _, b, [] => .ok (some b)
  | i, b, c :: t =>
    if f i then .ok none
    else do
      let b ← Upload.bodyChunk max b c
      chunks max f (i + 1) b t

/-- What libmicrohttpd reads. -/
structure Sent where
  headers : List (Bytes × Option Bytes)
  query : List (Bytes × Option Bytes)
  cookies : List (Bytes × Option Bytes)
  body : List Bytes
  deriving DecidableEq, Repr

/-- Which allocations fail: those of `http_verb` and `client_address` (ulfius.c:527–528), in the maps, of the body. -/
structure Fails where
  text : Bool := false
  headers : Nat → Fail := fun _ => {}
  query : Nat → Fail := fun _ => {}
  cookies : Nat → Fail := fun _ => {}
  body : Nat → Bool := fun _ => false

/-- What a callback is shown, if one is called. -/
inductive Outcome where
  | refused
  | shown (headers query cookies : UMap) (body : Bytes)
  deriving DecidableEq, Repr

/-- One request up to the first callback: ulfius.c:519–560 (with the look at the content type, 545), 561–589, 638–639. -/
def serve (check : Bool) (max : Nat) (f : Fails) (s : Sent) : Res Outcome :=
  if f.text then .ok .refused
  else do
    let h ← values check f.headers 0 s.headers UMap.init
    let q ← values check f.query 0 s.query UMap.init
    let c ← values check f.cookies 0 s.cookies UMap.init
    let _ ← UMap.getCase h (some b!"Content-Type")
    match ← chunks max f.body 0 [] s.body with
    | none => return .refused
    | some b => do
      let (_, url) ← UMap.copyInto UMap.init q
      return .shown h url c b

end Verif.OomRead
