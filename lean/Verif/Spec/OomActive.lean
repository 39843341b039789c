import Verif.Model.OomActive
/-!
# Which websockets the server knows

From the events alone.
-/
namespace Verif.Spec.OomActive
open Verif.OomActive (Event)

/-- The websockets that are open. -/
def openNow (l : List Event) : List Nat :=
  l.foldl (fun o e => match e with
    | .opens w _ => o ++ [w]
    | .ends w _ => o.filter (· != w)) []

/-- Those of them for which there was memory enough when they opened. -/
def knownNow (l : List Event) : List Nat :=
  l.foldl (fun o e => match e with
    | .opens w true => o ++ [w]
    | .opens _ false => o
    | .ends w _ => o.filter (· != w)) []

/-- A websocket opens once at a time, and only an open one ends. -/
def Plausible (l : List Event) : Prop :=
  ∀ pre e post, l = pre ++ e :: post → match e with
    | .opens w _ => w ∉ openNow pre
    | .ends w _ => w ∈ openNow pre

/-- When the server knows `K`, memory is enough for the event, or it is the first websocket the server would know, the end of one it does
not know, or the end of the only one it knows. -/
def Spared (K : List Nat) : Event → Prop
  | .opens _ enough => enough = true ∨ K = []
  | .ends w enough => enough = true ∨ w ∉ K ∨ K = [w]

/-- So it is whenever memory runs out. -/
def Alone (l : List Event) : Prop :=
  ∀ pre e post, l = pre ++ e :: post → Spared (knownNow pre) e

end Verif.Spec.OomActive
