import Verif.Spec.Segments
import Verif.Spec.OMap
import Mathlib.Logic.Relation
import Verif.Model.EndpointType
/-!
# Specification of routing (ulfius documentation: url_prefix, url_format, priority)
-/
namespace Verif.Spec.Routing
open Verif.Spec.Segments Verif.Endpoint

/-- `s` begins with the byte `c`. -/
def StartsWith (c : UInt8) (s : Bytes) : Prop := ∃ t, s = c :: t

/-- A format segment accepts a URL segment: it is the same text, or a parameter `:name` / `@name`. -/
def SegAccepts (f u : Bytes) : Prop := f = u ∨ StartsWith 0x3a f ∨ StartsWith 0x40 f

/-- The rule of the documentation, segment by segment; a last segment beginning with `*` accepts any rest. -/
inductive Matches : (format url : List Bytes) → Prop
  | nil : Matches [] []
  | star {f url} : StartsWith 0x2a f → Matches [f] url
  | cons {f u fs us} : SegAccepts f u → Matches fs us → Matches (f :: fs) (u :: us)

/-- Segments of an endpoint: those of the prefix, then those of the format except the ones beginning with `?`. -/
def formatSegments (pfx format : Option Bytes) : List Bytes :=
  segments (pfx.getD []) ++ (segments (format.getD [])).filter (fun s => !(s.head? == some 0x3f))

/-- One more slash at the start, at the end or beside another slash. -/
inductive SlashStep : Bytes → Bytes → Prop
  | lead (u) : SlashStep u (0x2f :: u)
  | trail (u) : SlashStep u (u ++ [0x2f])
  | double (a b) : SlashStep (a ++ 0x2f :: b) (a ++ 0x2f :: 0x2f :: b)

/-- Two URLs that differ in leading, trailing and repeated slashes only. -/
def SlashEquiv : Bytes → Bytes → Prop := Relation.EqvGen SlashStep

/-- The terminator of endpoint lists: method, prefix and format NULL. -/
def Null (e : Endpoint) : Prop := e.method = none ∧ e.pfx = none ∧ e.format = none

/-- What an endpoint needs to be added: a method, a callback, a prefix or a format. -/
def Acceptable (e : Endpoint) : Prop :=
  e.method.isSome ∧ e.callback.isSome ∧ (e.pfx.isSome ∨ e.format.isSome)

/-- The endpoint is meant for this request. -/
def Handles (method url : Bytes) (e : Endpoint) : Prop :=
  (∃ m, e.method = some m ∧ (fold m = fold method ∨ StartsWith 0x2a m)) ∧
  Matches (formatSegments e.pfx e.format) (segments url)

/-- The same string apart from slashes at both ends. -/
def SameInside (a b : Bytes) : Prop :=
  ∃ (core : Bytes) (i j k l : Nat), core.head? ≠ some 0x2f ∧ core.getLast? ≠ some 0x2f ∧
    a = List.replicate i 0x2f ++ core ++ List.replicate j 0x2f ∧
    b = List.replicate k 0x2f ++ core ++ List.replicate l 0x2f

/-- Both absent, or the same apart from slashes at both ends. -/
def SameOpt : Option Bytes → Option Bytes → Prop
  | none, none => True
  | some a, some b => SameInside a b
  | _, _ => False

/-- `x` is designated by `e` in a call to ulfius_remove_endpoint. -/
def Designates (e x : Endpoint) : Prop :=
  x.method = e.method ∧ SameOpt x.pfx e.pfx ∧ SameOpt x.format e.format

/-- Comma-joined list. -/
def joinComma : List Bytes → Bytes
  | [] => []
  | [v] => v
  | v :: w :: t => v ++ b!"," ++ joinComma (w :: t)

/-- Values of parameter `k`: pair the format segments with the URL segments by position, keep those of `:k` and
`@k` whose decoded text passes `ok`. -/
def paramValues (dec : Bytes → Bytes) (ok : Bytes → Prop) [DecidablePred ok] (k : Bytes) (fmt url : List Bytes) :
    List Bytes :=
  ((fmt.zip url).filter (fun p => decide ((p.1 = 0x3a :: k ∨ p.1 = 0x40 :: k) ∧ ok (dec p.2)))).map (fun p => dec p.2)

/-- What a parameter is worth given what the map held for it and the new values. -/
def merged (old : Option (Option Bytes)) (vs : List Bytes) : Option (Option Bytes) :=
  match old, vs with
  | o, [] => o
  | none, v :: t => some (some (joinComma (v :: t)))
  | some o, v :: t => some (some (joinComma (o.getD b!"(null)" :: v :: t)))

/-- The values given for key `k` by the pairs that pass `ok`, in order; an absent value counts as empty. -/
def valuesOf (ok : Bytes × Option Bytes → Prop) [DecidablePred ok] (k : Bytes) (ps : List (Bytes × Option Bytes)) :
    List Bytes :=
  (ps.filter (fun p => decide (p.1 = k ∧ ok p))).map (fun p => p.2.getD [])

end Verif.Spec.Routing
