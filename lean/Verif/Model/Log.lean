import Verif.Model.Printf
/-!
# Model of the redirection of libmicrohttpd's messages

`mhd_redirect_log`, src/ulfius.c:282–304, given to libmicrohttpd with `MHD_OPTION_EXTERNAL_LOGGER`
(src/ulfius.c:1095). `vsnprintf` is a parameter; `vsn` below is one with the conversions `%%`, `%s`, `%d`, `%u`, `%c`.
`y_log_message` of yder formats its second argument with `vsnprintf` too. Allocations succeed.
-/
namespace Verif.Log

/-- Arguments of a variadic call. -/
inductive Arg where
  | str (s : Bytes)
  | int (i : Int)
  | uint (n : Nat)
  | char (c : UInt8)

/-- `vsnprintf(NULL, 0, …)` followed by `vsnprintf(out, len + 1, …)`: the text written, or a negative result (`none`), or
undefined behaviour (no argument left, wrong type). -/
abbrev Vsn := Bytes → List Arg → Res (Option Bytes)

/-- The loop over a format: `%` and the byte behind it are a conversion, every other byte is copied. Conversions with
flags, width or precision are not among those of this instance. -/
def format : Bytes → List Arg → Res Bytes
  | [], _ => .ok []
  | [0x25], _ => .ub
  | 0x25 :: k :: t, as =>
    if k = 0x25 then do return 0x25 :: (← format t as)
    else match as with
      | .str s :: as' => if k = 0x73 then do return cstr s ++ (← format t as') else .ub
      | .int i :: as' => if k = 0x64 then do return Printf.decimalInt i ++ (← format t as') else .ub
      | .uint n :: as' => if k = 0x75 then do return Printf.decimal n ++ (← format t as') else .ub
      | .char c :: as' => if k = 0x63 then do return c :: (← format t as') else .ub
      | [] => .ub
  | c :: t, as => do return c :: (← format t as)

/-- An instance of `vsnprintf`; a text of more than INT_MAX bytes is an error. -/
def vsn : Vsn := fun f as => do
  let t ← format f as
  return if t.length < 2 ^ 31 then some t else none

/-- `y_log_message(level, out)` without further arguments: the lines written. -/
def logMessage (v : Vsn) (out : Bytes) : Res (List Bytes) := do
  match ← v (cstr out) [] with
  | some t => return [cstr t]
  | none => return []

/-- `mhd_redirect_log`, src/ulfius.c:282–304. -/
def redirectLog (v : Vsn) (fmt : Bytes) (args : List Arg) : Res (List Bytes) := do
  match ← v (b!"MHD - " ++ fmt) args with
  | some out => logMessage v out
  | none => return []

end Verif.Log
