import Verif.Model.Message
import Verif.Spec.Options
/-!
# Model of `ulfius_set_request_properties` and of the JSON bodies, `src/u_request.c`, `src/u_response.c`

Every argument is passed with the type the code reads, except `U_OPT_TIMEOUT`, whose documented type is `unsigned long`: the
code reads an `int`, on x86-64 the low 32 bits. The other numbers are not negative. Strings given to `U_OPT_*_BODY` and the maps
do not point into the request. jansson appears as the text it makes or is given.
-/
namespace Verif.Options
open Verif.UMap Verif.Message Verif.Printf
open Verif.Spec.Options (Arg Opt)

/-- A text option, for instance u_request.c:510–518: the old text is freed before the new one is read. -/
def setText (current : Option Bytes) : Arg → Res (Option Bytes)
  | .null => .ok none
  | .text [] => .ok none
  | .text s => .ok (some s)
  | .own => match current with
    | none => .ok none
    | some _ => .ub

/-- `(unsigned long)va_arg(vl, int)`, u_request.c:569. -/
def timeoutValue (n : Nat) : Nat := (asInt n % 2 ^ 64).toNat

/-- `ulfius_set_json_body_request`, u_request.c:953–971. The result of `u_map_put` is ignored. -/
def setJsonBodyReq (r : Request) : Option Bytes → Res (Rc × Request)
  | none => .ok (.params, r)
  | some t => do
    let (_, h) ← UMap.put r.mapHeader (some b!"Content-Type") (some b!"application/json")
    return (.ok, { r with body := some (t ++ [0]), bodyLen := t.length, mapHeader := h })

/-- One turn of the loop of `ulfius_set_request_properties`, u_request.c:508–686. -/
def setRequestOption (r : Request) : Opt → Res (Rc × Request)
  | .verb a => do let v ← setText r.verb a; return (.ok, { r with verb := v })
  | .url a => do let v ← setText r.url a; return (.ok, { r with url := v })
  | .urlAppend s => .ok (.ok, { r with url := some (r.url.getD [] ++ str s) })
  | .proxy a => do let v ← setText r.proxy a; return (.ok, { r with proxy := v })
  | .network n => .ok (.ok, { r with network := n % 2 ^ 16 })
  | .checkServer n => .ok (.ok, { r with checkServer := n })
  | .serverFlag n => .ok (.ok, { r with serverFlag := n })
  | .checkProxy n => .ok (.ok, { r with checkProxy := n })
  | .proxyFlag n => .ok (.ok, { r with proxyFlag := n })
  | .follow n => .ok (.ok, { r with followRedirect := n })
  | .caPath a => do let v ← setText r.caPath a; return (.ok, { r with caPath := v })
  | .timeout n => .ok (.ok, { r with timeout := timeoutValue n })
  | .user a => do let v ← setText r.user a; return (.ok, { r with user := v })
  | .password a => do let v ← setText r.password a; return (.ok, { r with password := v })
  | .auth u p => do
    let u ← setText r.user u
    let p ← setText r.password p
    return (.ok, { r with user := u, password := p })
  | .param k v => do let (rc, m) ← UMap.put r.mapUrl k v; return (rc, { r with mapUrl := m })
  | .header k v => do let (rc, m) ← UMap.put r.mapHeader k v; return (rc, { r with mapHeader := m })
  | .cookie k v => do let (rc, m) ← UMap.put r.mapCookie k v; return (rc, { r with mapCookie := m })
  | .form k v => do let (rc, m) ← UMap.put r.mapPost k v; return (rc, { r with mapPost := m })
  | .paramRemove k => do let (rc, m) ← UMap.removeKey r.mapUrl k; return (rc, { r with mapUrl := m })
  | .headerRemove k => do let (rc, m) ← UMap.removeKey r.mapHeader k; return (rc, { r with mapHeader := m })
  | .cookieRemove k => do let (rc, m) ← UMap.removeKey r.mapCookie k; return (rc, { r with mapCookie := m })
  | .formRemove k => do let (rc, m) ← UMap.removeKey r.mapPost k; return (rc, { r with mapPost := m })
  | .binaryBody b n => setBinaryBodyReq r b n
  | .stringBody s => .ok (setStringBodyReq r s)
  | .jsonBody t => setJsonBodyReq r t
  | .certFile a => do let v ← setText r.certFile a; return (.ok, { r with certFile := v })
  | .keyFile a => do let v ← setText r.keyFile a; return (.ok, { r with keyFile := v })
  | .keyPassword a => do let v ← setText r.keyPassword a; return (.ok, { r with keyPassword := v })
  | .other => .ok (.params, r)

/-- `ulfius_set_request_properties`, u_request.c:494–696: stops at the first option that fails. -/
def setRequestProperties (r : Request) : List Opt → Res (Rc × Request)
  | [] => .ok (.ok, r)
  | o :: t => do
    let (rc, r') ← setRequestOption r o
    if rc = .ok then setRequestProperties r' t else return (rc, r')

/-- `json_loadb(buffer, length)`: the text it parses; `none`: it returns NULL at once because the buffer is NULL. -/
def loadb (body : Option Bytes) (len : Nat) : Res (Option Bytes) :=
  match body with
  | none => .ok none
  | some b => if len ≤ b.length then .ok (some (b.take len)) else .ub

/-- `NULL != o_strstr(u_map_get_case(map_header, "Content-Type"), "application/json")`, u_request.c:980. -/
def namesJson (m : UMap) : Res Bool := do
  match ← UMap.getCase m (some b!"Content-Type") with
  | none => return false
  | some b => do let s ← readStr b; return contains b!"application/json" s

/-- `ulfius_get_json_body_request`, u_request.c:979–998, and `ulfius_get_json_body_response`, u_response.c:710–715: the text
given to the JSON parser, `none` when NULL is returned without parsing. -/
def getJson (header : UMap) (body : Option Bytes) (len : Nat) : Res (Option Bytes) := do
  let n ← UMap.countKeysCase header (some b!"Content-Type")
  if n = 1 then
    if ← namesJson header then loadb body len else return none
  else return none

/-- The fields of `json_error_t` the function writes; `none`: not written. -/
structure JsonError where
  line : Option Nat := none
  column : Option Nat := none
  position : Option Nat := none
  source : Option Bytes := none
  text : Option Bytes := none
  deriving DecidableEq, Repr

/-- `json_error` when `ulfius_get_json_body_request` does not parse, u_request.c:982–996, for a request with its header map;
`snprintf` with size 159 (`JSON_ERROR_TEXT_LENGTH - 1`). -/
def jsonError (m : UMap) : Res JsonError := do
  let e : JsonError := { line := some 1, position := some 1, source := some b!"ulfius_get_json_body_request" }
  if ← namesJson m then return e
  else do
    let v ← UMap.getCase m (some b!"Content-Type")
    let s ← match v with
      | none => Res.ok b!"(null)"
      | some b => readStr b
    return { e with
      column := some 57,
      text := some ((b!"HEADER content not valid. Expected containging 'application/json' in header - received '" ++ s ++ b!"'.").take 158) }

/-- `json_error` when `ulfius_get_json_body_response` does not parse, u_response.c:710–715: not written. -/
def jsonErrorResp : JsonError := {}

end Verif.Options
