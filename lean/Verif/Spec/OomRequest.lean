import Verif.Model.OomRequest
import Verif.Spec.Oom
/-!
# What is expected of requests when memory runs out

As for maps and responses (`Spec/Oom`): a call in which an allocation failed does not answer `U_OK` (or `MHD_YES`, or a pointer), `U_ERROR_MEMORY` is
answered only then, nothing is read or freed that is not there, nothing is lost, and a call that answers an error leaves the requests as they were.
-/
namespace Verif.OomRequest
open Verif.UMap (Rc)

/-- The allocations whose failure the code deals with. -/
def Safe : Spot → Bool
  | .dupBox | .copyAddress | .copyBody | .binaryBody | .jsonBody | .conBox | .verb | .address => true
  | .copyInit s | .copyPut s | .put s => Oom.Safe s
  | _ => false

/-- Only those fail. -/
def OnlySafe (f : F) : Prop := ∀ n s, f n s = true → Safe s = true

/-- The allocations a program can meet: `u_map_init` has three, `u_map_put` of a new or an old key the others; a copied map has no key twice, and the
type of a JSON body is not empty. -/
def Occurs : Spot → Bool
  | .initMap s | .conMap s => s == .initKeys .call || s == .initValues .call || s == .initLengths .call
  | .copyInit s => s == .initKeys .copy || s == .initValues .copy || s == .initLengths .copy
  | .copyPut s => s == .key .copy || s == .value .copy || s == .empty .copy || s == .keys .copy || s == .values .copy || s == .lengths .copy
  | .put s => s == .key .call || s == .value .call || s == .empty .call || s == .keys .call || s == .values .call || s == .lengths .call ||
      s == .grow .call || s == .renew .call
  | .jsonPut s => s == .key .json || s == .value .json || s == .keys .json || s == .values .json || s == .lengths .json || s == .grow .json
  | _ => true

/-- A run as it should be, from a heap with the blocks of others. -/
def Good (f : F) (h0 : Oom.H) (prog : List Cmd) : Prop :=
  ∃ out s, run f ⟨h0, [], []⟩ prog = .ok (out, s) ∧
    ((∀ r ∈ s.reqs, r = none) → (∀ c ∈ s.cons, c = none) → s.heap.mem.live.Perm h0.mem.live) ∧
    ∀ o ∈ out, (0 < o.2 → o.1 ≠ .ok) ∧ (o.1 = .memory → 0 < o.2)

/-- A request after an error: its texts, its address and its maps are the same blocks as before; the body is too, or is gone (with length 0). -/
structure Kept (r r' : Req) : Prop where
  texts : r'.texts = r.texts
  address : r'.address = r.address
  maps : ∀ w, r'.map w = r.map w
  body : (r'.body = r.body ∧ r'.bodyLen = r.bodyLen) ∨ (r'.body = .null ∧ r'.bodyLen = 0)

/-- The requests of the program and those of the connections after a call that answered an error: no more, no fewer, and each is `Kept`. -/
structure Unharmed (s s' : State) : Prop where
  reqs : ∀ (i : Nat) (r : Req), s.reqs[i]? = some (some r) → ∃ r', s'.reqs[i]? = some (some r') ∧ Kept r r'
  noMore : ∀ (i : Nat) (r : Req), s'.reqs[i]? = some (some r) → ∃ r0, s.reqs[i]? = some (some r0)
  cons : ∀ (i : Nat) (c : Con), s.cons[i]? = some (some c) → c.fresh = false → ∃ c', s'.cons[i]? = some (some c') ∧ Kept c.request c'.request

end Verif.OomRequest
