import Verif.Model.Active
/-! # Specification: executions, and what the application knows about the threads -/
namespace Verif.Active

/-- The thread is inside `ulfius_instance_add_websocket_active` and has not taken the lock yet. -/
def Pc.early : Pc → Bool
  | .growing _ _ | .grown => true
  | _ => false

/-- The thread holds `websocket_active_lock`. -/
def Pc.holdsA : Pc → Bool
  | .adding | .added | .finding | .cut | .lowered | .telling | .told | .leaving => true
  | _ => false

/-- The thread holds `websocket_close_lock`. -/
def Pc.holdsC : Pc → Bool
  | .telling | .told => true
  | _ => false

def StopPc.holdsA : StopPc → Bool
  | .flag | .flagged => true
  | _ => false

def StopPc.holdsC : StopPc → Bool
  | .test | .tested | .exit => true
  | _ => false

/-- The websocket is registered and not removed. -/
def Pc.active : Pc → Bool
  | .added | .listed | .running | .closing | .removing | .finding | .lost => true
  | _ => false

/-- No thread enlarges the table while another one uses it: what a lock around the whole of
`ulfius_instance_add_websocket_active` would give. -/
def Apart (s : Sys) : Prop :=
  ∀ i, (s.pc i).early = true →
    (∀ j, j ≠ i → (s.pc j).early = false ∧ (s.pc j).holdsA = false) ∧ s.stop.holdsA = false

/-- The states of executions that only use actions in `ok` and only visit states in `P`. -/
inductive Reach (ok : Act → Prop) (P : Sys → Prop) : Sys → Prop where
  | init : P {} → Reach ok P {}
  | step {s s' : Sys} {a : Act} : Reach ok P s → ok a → next s a = some (.ok s') → P s' → Reach ok P s'

/-- How an execution can go on. -/
inductive Later (ok : Act → Prop) (P : Sys → Prop) (s : Sys) : Sys → Prop where
  | refl : Later ok P s s
  | step {t t' : Sys} {a : Act} : Later ok P s t → ok a → next t a = some (.ok t') → P t' → Later ok P s t'

/-- Any execution. -/
def Any (_ : Sys) : Prop := True

end Verif.Active

namespace Verif.Active

/-- Perform all actions of a list, each of which must be possible and defined. -/
def steps : List Act → Sys → Option Sys
  | [], s => some s
  | a :: r, s => match next s a with
    | some (.ok s') => steps r s'
    | _ => none

/-- A step of `ulfius_stop_framework` or of a connection that is already being served. -/
def Ongoing (s : Sys) : Act → Prop
  | .stop => True
  | .ws i => s.pc i ≠ .idle
  | _ => False

/-- No connection is lost before its upgrade, and the instance is not cleaned. -/
def Usual : Act → Prop
  | .ws _ | .stop | .spurious => True
  | _ => False

instance (a : Act) : Decidable (Usual a) := by cases a <;> unfold Usual <;> infer_instance

/-- Anything may happen, but the instance is not cleaned. -/
def NotCleaned : Act → Prop
  | .clean => False
  | _ => True

instance (a : Act) : Decidable (NotCleaned a) := by cases a <;> unfold NotCleaned <;> infer_instance

/-- `Cont k m s s'`: from `s` to `s'` by `k` steps of what is under way and `m` spurious wakeups. -/
inductive Cont : Nat → Nat → Sys → Sys → Prop where
  | refl {s : Sys} : Cont 0 0 s s
  | step {k m : Nat} {s t t' : Sys} {a : Act} : Cont k m s t → Ongoing t a → next t a = some (.ok t') → Cont (k + 1) m s t'
  | wake {k m : Nat} {s t t' : Sys} : Cont k m s t → next t .spurious = some (.ok t') → Cont k (m + 1) s t'

end Verif.Active
