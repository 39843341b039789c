import Verif.Model.Answer
import Verif.Model.EndpointList
/-!
# Model of endpoints injected into an instance that runs, and of the injection example

`ulfius_webservice_dispatcher`, src/ulfius.c:592, reads the list of the instance for every request; here requests and changes come one after the other
(Model/Live.lean is about changes while a request is served). The example is example_programs/injection_example/injection_example.c; the lines given are
those of this file. Allocations succeed.
-/
namespace Verif.Injection
open Verif.UMap Verif.Message Verif.Answer Verif.Endpoint

/-- `ulfius_endpoint_match(method, url, instance->endpoint_list)`, src/u_request.c:139–189: without a list nothing is selected (149). -/
def Selects (s : Inst) (method url : Bytes) (r : List Endpoint) : Prop :=
  match s.list with
  | none => r = []
  | some l => EndpointMatch method url l r

/-- A request to an instance: a possible result of the dispatcher. `cb` tells what the callback of an endpoint does. -/
def Answers {σ : Type} (cfg : Cfg σ) (cb : Endpoint → Callback σ) (dflt : Option (Callback σ)) (user : σ) (s : Inst) (method url : Bytes)
    (a : Res (Option Ans × List (Answer.Ev σ))) : Prop :=
  ∃ r, Selects s method url r ∧ a = dispatch cfg (r.map cb) dflt user

/-- `PREFIX`, line 25. -/
def pfx : Bytes := b!"/inject"

/-- `callback_first` to `callback_fifth`, lines 86–139. -/
def greet (text : Bytes) : Callback Unit := fun _ w => (Dispatch.cbContinue, { w with resp := (setStringBody w.resp 200 (some text)).2 })

/-- The callback of an endpoint, by its number. -/
def callbackOf (e : Endpoint) : Callback Unit :=
  match e.callback with
  | some 1 => greet b!"Hello World from callback_first!"
  | some 2 => greet b!"Hello World from callback_second!"
  | some 3 => greet b!"Hello World from callback_third!"
  | some 4 => greet b!"Hello World from callback_fourth!"
  | _ => greet b!"Hello World from callback_fifth!"

/-- The endpoints of the start, lines 49–51. -/
def setUp : Res Inst := do
  let (_, s) ← addEndpointByVal Inst.init (some b!"GET") (some pfx) (some b!"/first") 1 (some 1) 0
  let (_, s) ← addEndpointByVal s (some b!"GET") (some pfx) (some b!"/second") 1 (some 2) 0
  let (_, s) ← addEndpointByVal s (some b!"GET") (some pfx) (some b!"/third") 1 (some 3) 0
  return s

/-- What happens when `<enter>` is pressed for the first, second and third time, lines 58–67. -/
def press : Nat → Inst → Res Inst
  | 0, s => do
    let (_, s) ← addEndpointByVal s (some b!"GET") (some pfx) (some b!"/fourth") 1 (some 4) 0
    return s
  | 1, s => do
    let (_, s) ← addEndpointByVal s (some b!"GET") (some pfx) (some b!"/fifth") 1 (some 5) 0
    return s
  | _, s => do
    let (_, s) ← removeEndpointByVal s (some b!"GET") (some pfx) (some b!"/fourth") 0 0
    return s

/-- The instance after `k` times (`k ≤ 3`). -/
def stage : Nat → Res Inst
  | 0 => setUp
  | k + 1 => do
    let s ← stage k
    press k s

/-- A request after `<enter>` was pressed `k` times; the instance has no default headers and no default endpoint. -/
def Serves (accept : List Field → Bytes → Bytes → Bool) (k : Nat) (method url : Bytes) (a : Res (Option Ans)) : Prop :=
  ∃ s r, stage k = .ok s ∧
    Answers { accept := accept, hand := fun _ => .failed, realm := none, defaults := some UMap.init } callbackOf none () s method url r ∧
    a = do
      let (ans, _) ← r
      return ans

end Verif.Injection
