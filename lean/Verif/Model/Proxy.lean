import Verif.Model.Answer
import Verif.Model.Send
/-!
# Model of `example_programs/proxy_example/proxy.c`

The callback of the proxy, with libcurl as in `Verif.Model.Send`. Allocations succeed; `printf` is left out. The requests made to the
origin are recorded in the user data of the world, which the C program does not have.
-/
namespace Verif.Proxy
open Verif.UMap Verif.Message Verif.Answer Verif.Send Verif.Printf
open Verif.Spec.Curl (Opt)

/-- `ulfius_copy_response` into a response that was used already, src/u_response.c:427–492: unlike `Message.copyResponse` it shows
what is left of the old one. Without a protocol only status and realm are changed; an empty body leaves the old one. -/
def copyInto (dest src : Response) : Res (Rc × Response) :=
  let dest := { dest with status := src.status, protocol := src.protocol, realm := src.realm }
  match src.protocol with
  | none => .ok (.memory, dest)
  | some _ => do
    match ← UMap.copy src.header with
    | none => return (.memory, dest)
    | some h => do
      let cs ← copyCookies src.cookies
      let body ← copyBody src.body src.bodyLen
      let dest := { dest with header := h, cookies := cs, shared := src.shared, timeout := src.timeout, ws := { dest.ws with
        protocol := src.ws.protocol, extensions := src.ws.extensions, callbacks := src.ws.callbacks } }
      let dest := match body with
        | none => dest
        | some b => { dest with body := some b, bodyLen := src.bodyLen }
      return (.ok, match src.stream with
        | none => dest
        | some s => { dest with stream := some s })

/-- The request to the origin, proxy.c:67–79: `u_map_remove_from_key` compares names exactly. -/
def forward (dest : Bytes) (request copy : Request) : Res Request := do
  let (_, h) ← UMap.removeKey copy.mapHeader (some b!"Host")
  return { copy with mapHeader := h, url := some (dest ++ str request.url), timeout := 30 }

/-- `callback_get`, proxy.c:66–84, with `dest` for `PROXY_DEST`. The results of `ulfius_send_http_request` and `ulfius_copy_response`
are ignored. A request that cannot be duplicated is used all the same (NULL). -/
def callbackGet (dest : Bytes) (c : Curl) (request : Request) (w : World (List (List Opt))) : Res (Int × World (List (List Opt))) := do
  match ← duplicateRequest request with
  | none => .ub
  | some copy => do
    let req ← forward dest request copy
    let o ← sendLimit c (some req) (some {}) 0 0
    let (_, resp) ← copyInto w.resp (o.response.getD {})
    return (Dispatch.cbContinue, { w with resp := resp, user := w.user ++ o.performed.toList })

/-- The callback as the dispatcher calls it; a call that is undefined is given up. -/
def proxyCb (dest : Bytes) (c : Curl) (request : Request) : Callback (List (List Opt)) := fun _ w =>
  match callbackGet dest c request w with
  | .ok x => x
  | .ub => (Dispatch.cbError, w)

end Verif.Proxy
