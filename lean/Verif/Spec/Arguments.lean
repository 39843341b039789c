import Verif.Spec.Client
/-!
# How libmicrohttpd reads URL arguments and form bodies

`parse_arguments` and the post processor for `application/x-www-form-urlencoded`: the text is cut at `&`, each piece at its first
`=`, both parts are unescaped (`+`, `%XX`); an empty piece at the end is not reported. Only well-formed escapes are considered.
-/
namespace Verif.Spec.Arguments
open Verif.Spec.Client

/-- The arguments reported for the pieces of a query. -/
def Reported (ts : List Bytes) (got : List (Bytes × Option Bytes)) : Prop :=
  ParamTexts (if ts.getLast? = some [] then ts.dropLast else ts) got

/-- The fields of a form, each with its value in one or more parts; no part is empty unless it is the only one. -/
def FormFields (ts : List Bytes) (got : List (Bytes × List Bytes)) : Prop :=
  ParamTexts ts (got.map (fun g => (g.1, some g.2.flatten))) ∧
  ∀ g ∈ got, g.2 ≠ [] ∧ (g.2.length = 1 ∨ ∀ c ∈ g.2, c ≠ [])

end Verif.Spec.Arguments
