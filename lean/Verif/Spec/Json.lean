import Verif.Basic
/-! # JSON values and the functions of jansson that read them -/
namespace Verif.Spec.Json

/-- A JSON value; `other` stands for the remaining types. -/
inductive Json where
  | str (s : Bytes)
  | int (n : Int)
  | obj (l : List (Bytes × Json))
  | arr (l : List Json)
  | other
  deriving Repr

/-- `json_object_get`; NULL for NULL and for anything but an object. -/
def jget : Option Json → Bytes → Option Json
  | some (.obj l), k => l.lookup k
  | _, _ => none

/-- `json_string_value`. -/
def jstr : Option Json → Option Bytes
  | some (.str s) => some s
  | _ => none

/-- `json_integer_value`; 0 for anything else. -/
def jint : Option Json → Int
  | some (.int n) => n
  | _ => 0

/-- `json_string_length`. -/
def jlen (j : Option Json) : Nat := ((jstr j).getD []).length

end Verif.Spec.Json
