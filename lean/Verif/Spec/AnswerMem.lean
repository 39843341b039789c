import Verif.Basic
/-!
# Specification: the answer a chain of callbacks asks for

What `ulfius_webservice_dispatcher` owes the client, in terms of the callbacks only (include/ulfius.h:119–123).
-/
namespace Verif.Spec.AnswerMem

abbrev Field := Bytes × Bytes

/-- Return codes of callbacks. -/
inductive Code where
  | next | ignore | complete | unauthorized | error | other
  deriving DecidableEq, Repr

/-- A response as callbacks see it. `headers = none`: `map_header` is NULL. -/
structure Resp where
  status : Nat := 200
  headers : Option (List Field) := some []
  cookies : List Field := []
  body : Bytes := []
  realm : Option Bytes := none
  deriving DecidableEq, Repr

/-- A callback: any function of the response it finds. -/
abbrev Cb := Resp → Code × Resp

/-- What the client gets. -/
structure Ans where
  status : Nat
  realm : Option Bytes
  fields : List Field
  body : Bytes
  deriving DecidableEq, Repr

/-- The text of an error. -/
def errorText : Bytes := b!"Server Error"

/-- The callbacks in order, up to one that decides; the last one decides in any case. The flag: one did not ignore the request. -/
def chain : List Cb → Resp → Bool → Code × Resp × Bool
  | [], r, u => (.complete, r, u)
  | cb :: t, r, u =>
    let c := (cb r).1
    let u := u || decide (c ≠ .ignore)
    if (c = .next ∨ c = .ignore) ∧ t ≠ [] then chain t (cb r).2 u
    else (if c = .next ∨ c = .ignore then .complete else c, (cb r).2, u)

/-- The answer of a decision. -/
def answerOf (realm : Option Bytes) (c : Code) (r : Resp) : Ans :=
  match c with
  | .unauthorized => { status := 401, realm := r.realm.orElse (fun _ => realm), fields := r.headers.getD [] ++ r.cookies, body := r.body }
  | .error | .other => { status := 500, realm := none, fields := [], body := errorText }
  | _ => { status := r.status, realm := none, fields := r.headers.getD [] ++ r.cookies, body := r.body }

/-- The answer: of the chain, or of the default endpoint when all callbacks ignored the request; the default endpoint with a code of its own
invention gives none. -/
def ideal (defaults : List Field) (realm : Option Bytes) (cbs : List Cb) (dflt : Option Cb) : Option Ans :=
  let d := chain cbs { headers := some defaults } false
  match d.2.2, dflt with
  | false, some f =>
    let c := (f d.2.1).1
    if c = .other then none else some (answerOf realm c (f d.2.1).2)
  | _, _ => some (answerOf realm d.1 d.2.1)

end Verif.Spec.AnswerMem
