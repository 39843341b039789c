import Verif.Model.Endpoint
/-!
# Model of the other ways to register and remove endpoints

`src/ulfius.c` 1466–1481 (`ulfius_add_endpoint_list`) and 1566–1603 (`ulfius_add_endpoint_by_val`,
`ulfius_remove_endpoint_by_val`), for an instance that is not NULL.
-/
namespace Verif.Endpoint

/-- `ulfius_equals_endpoints(p, ulfius_empty_endpoint())`, src/ulfius.c:1548–1564, where `p` may be NULL. The address
of the static empty endpoint itself is a pointer to an endpoint that equals it. -/
def endsList : Option Endpoint → Bool
  | none => true
  | some e => equals e emptyEndpoint

/-- `ulfius_add_endpoint_list`, src/ulfius.c:1466–1481. The array holds pointers; reading behind its end is undefined. -/
def addEndpointList (s : Inst) : List (Option Endpoint) → Res (Rc × Inst)
  | [] => .ub
  | p :: t =>
    if endsList p then .ok (.ok, s)
    else match p with
      | none => .ok (.params, s)       -- ulfius_add_endpoint refuses NULL, src/ulfius.c:1429
      | some e => do
        let (rc, s') ← addEndpoint s e
        if rc = .ok then addEndpointList s' t else .ok (rc, s')

/-- `ulfius_add_endpoint_by_val`, src/ulfius.c:1566–1587. -/
def addEndpointByVal (s : Inst) (method pfx format : Option Bytes) (priority : Nat) (callback : Option Nat)
    (userData : Nat) : Res (Rc × Inst) :=
  addEndpoint s { method, pfx, format, priority, callback, userData }

/-- `ulfius_remove_endpoint_by_val`, src/ulfius.c:1589–1600; `priority` and `user_data` of the local variable stay
uninitialised (`junkPriority`, `junkData`). -/
def removeEndpointByVal (s : Inst) (method pfx format : Option Bytes) (junkPriority junkData : Nat) :
    Res (Rc × Inst) :=
  removeEndpoint s { method, pfx, format, priority := junkPriority, callback := none, userData := junkData }

end Verif.Endpoint
