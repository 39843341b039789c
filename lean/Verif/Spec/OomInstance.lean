import Verif.Model.OomInstance
import Verif.Spec.Routing
/-!
# What is expected of an instance when memory runs out

A call in which an allocation failed does not answer `U_OK`, `U_ERROR_MEMORY` is answered only then, nothing is read or freed that is not there, nothing
is lost, and the endpoints requests are compared with are those registered by the calls that answered `U_OK`.
-/
namespace Verif.OomInstance
open Verif.UMap (Rc)
open Verif.Endpoint (Endpoint)
open Verif.Spec.Routing (Null Designates)

/-- The allocations whose failure the code deals with. -/
def Safe : Spot → Bool
  | .headers | .handler | .list | .default => true
  | _ => false

/-- Only those fail. -/
def OnlySafe (f : F) : Prop := ∀ n s, f n s = true → Safe s = true

/-- The allocations a program can meet: `u_map_init` has three. -/
def Occurs : Spot → Bool
  | .headersMap s => s == .initKeys .call || s == .initValues .call || s == .initLengths .call
  | _ => true

/-- The endpoints registered after a call that answered `rc`. -/
inductive Next : List Endpoint → Cmd → Rc → List Endpoint → Prop
  | error (l c rc) : rc ≠ .ok → (∀ e, c = .remove e → rc = .notFound → ∀ x ∈ l, ¬ Designates e x) → Next l c rc l
  | init (l r) : Next l (.init r) .ok []
  | add (l e) : Next l (.add e) .ok (l ++ [e])
  | remove (l e) (keep : Endpoint → Bool) : (∀ x, keep x = true ↔ ¬ Designates e x) → Next l (.remove e) .ok (l.filter keep)
  | setDefault (l) : Next l .setDefault .ok l
  | request (l) : Next l .request .ok l
  | clean (l) : Next l .clean .ok []

/-- Every request that came while there was an instance was compared with the endpoints registered then. -/
inductive Right : List Endpoint → List Cmd → List Out → Prop
  | nil (l) : Right l [] []
  | cons (l c t o out l') : (c = .request → o.rc = .ok → o.seen = l) → Next l c o.rc l' → Right l' t out → Right l (c :: t) (o :: out)

/-- A run as it should be, from a heap with the blocks of others. -/
def Good (f : F) (h0 : Oom.H) (prog : List Cmd) : Prop :=
  ∃ out s, run f ⟨h0, none⟩ prog = .ok (out, s) ∧ (s.inst = none → s.heap.mem.live.Perm h0.mem.live) ∧ Right [] prog out ∧
    ∀ o ∈ out, (0 < o.failed → o.rc ≠ .ok) ∧ (o.rc = .memory → 0 < o.failed)

/-- The program adds no endpoint without method, prefix and format (which ends the list, see C20). -/
def AddsNoEnd (prog : List Cmd) : Prop := ∀ e, Cmd.add e ∈ prog → ¬ Null e

end Verif.OomInstance
