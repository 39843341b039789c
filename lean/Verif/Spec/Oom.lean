import Verif.Model.Oom
/-!
# What is expected when memory runs out

The calls answer an error if an allocation failed in them and `U_ERROR_MEMORY` only then, nothing is read or freed that is not there, and nothing is
lost; a call that answers an error leaves the objects as they were.
-/
namespace Verif.Oom
open Verif.UMap (Rc)

/-- The allocations whose failure the code deals with. -/
def Safe : Site → Bool
  | .initKeys w | .initValues w | .initLengths w | .key w | .value w => w == .call || w == .copy
  | .copyBox | .respMap | .binaryBody | .jsonBody | .cookieArray | .attribute => true
  | .cookieText first => !first
  | _ => false

/-- Only those fail. -/
def OnlySafe (f : F) : Prop := ∀ n s, f n s = true → Safe s = true

/-- The allocations a program can meet: `u_map_init` is not called in `ulfius_set_json_body_response`, nor `u_map_put` in `ulfius_init_response`; a
copied map has no key twice, and the type of a JSON body is not empty. The text of an error is only made once the buffer could not be
(`errorBody`). -/
def Occurs : Site → Bool
  | .initKeys w | .initValues w | .initLengths w => w != .json
  | .key w | .value w | .keys w | .values w | .lengths w => w != .init
  | .empty w => w == .call || w == .copy
  | .grow w => w == .call || w == .json
  | .renew w => w == .call
  | .errorBody => false
  | _ => true

/-- A run as it should be, from a heap with the blocks of others: no invalid access, every block is given back once all objects are cleaned, a call in
which an allocation failed does not answer `U_OK`, and one that answers `U_ERROR_MEMORY` met a failure. -/
def Good (f : F) (h0 : H) (prog : List Cmd) : Prop :=
  ∃ out s, run f ⟨h0, [], []⟩ prog = .ok (out, s) ∧
    ((∀ m ∈ s.maps, m = none) → (∀ r ∈ s.resps, r = none) → s.heap.mem.live.Perm h0.mem.live) ∧
    ∀ o ∈ out, (0 < o.2 → o.1 ≠ .ok) ∧ (o.1 = .memory → 0 < o.2)

/-- A response after an error: its realm, headers and cookies are the same blocks as before; the body is too, or is gone (with length 0). -/
structure Kept (r r' : Resp) : Prop where
  realm : r'.realm = r.realm
  header : r'.header = r.header
  cookies : r'.cookies = r.cookies
  body : (r'.body = r.body ∧ r'.bodyLen = r.bodyLen) ∨ (r'.body = .null ∧ r'.bodyLen = 0)

/-- The objects after a call that answered an error: the maps are the same, there are no more and no fewer responses, and each is `Kept`. -/
structure Unharmed (s s' : State) : Prop where
  maps : ∀ i : Nat, s'.maps[i]?.join = s.maps[i]?.join
  resps : ∀ (i : Nat) (r : Resp), s.resps[i]? = some (some r) → ∃ r', s'.resps[i]? = some (some r') ∧ Kept r r'
  noMore : ∀ (i : Nat) (r : Resp), s'.resps[i]? = some (some r) → ∃ r0, s.resps[i]? = some (some r0)

end Verif.Oom
