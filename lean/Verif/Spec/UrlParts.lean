import Verif.Basic
/-!
# Specification: the text of a URL from its components (RFC 3986 generic syntax, with user:password)
-/
namespace Verif.Spec.UrlParts

/-- Components of an absolute URL; `port` is its text. -/
structure Parts where
  scheme : Bytes
  cred : Option (Bytes × Bytes)
  host : Bytes
  port : Option Bytes
  path : Option Bytes
  query : Option Bytes
  fragment : Option Bytes

/-- `x` followed by the component, or nothing. -/
def opt (x : UInt8) : Option Bytes → Bytes
  | none => []
  | some s => x :: s

/-- user:password@ -/
def credText : Option (Bytes × Bytes) → Bytes
  | none => []
  | some (u, p) => u ++ [0x3a] ++ p ++ [0x40]

/-- scheme://[user:pass@]host[:port][/path][?query][#fragment] -/
def render (p : Parts) : Bytes :=
  p.scheme ++ [0x3a, 0x2f, 0x2f] ++ credText p.cred ++ p.host ++ opt 0x3a p.port ++ opt 0x2f p.path ++ opt 0x3f p.query ++
    opt 0x23 p.fragment

/-- No byte of `ds` occurs in `s`. -/
def Free (ds s : Bytes) : Prop := ∀ d ∈ ds, d ∉ s

instance (ds s : Bytes) : Decidable (Free ds s) := inferInstanceAs (Decidable (∀ d ∈ ds, d ∉ s))

/-- Each component is free of the delimiters of its position; scheme and host are not empty. -/
structure Wf (p : Parts) : Prop where
  scheme : Free b!":?#" p.scheme ∧ p.scheme ≠ [] ∧ p.scheme.head? ≠ some 0x2f
  cred : ∀ u w, p.cred = some (u, w) → Free b!":@/?#" u ∧ Free b!"@/?#" w
  host : Free b!":@/?#" p.host ∧ p.host ≠ []
  port : ∀ t, p.port = some t → t ≠ [] ∧ (∀ c ∈ t, 0x30 ≤ c ∧ c ≤ 0x39)
  path : ∀ t, p.path = some t → Free b!"?#" t
  query : ∀ t, p.query = some t → Free b!"#" t

/-- Each component ends at the first delimiter that can end it; scheme, host and port text are not empty. -/
structure Split (p : Parts) : Prop where
  scheme : Free b!":?#" p.scheme ∧ p.scheme ≠ [] ∧ p.scheme.head? ≠ some 0x2f
  cred : ∀ u w, p.cred = some (u, w) → Free b!":@/?#" u ∧ Free b!"@/?#" w
  bare : p.cred = none → Free b!"@" p.host ∧ ∀ t, p.port = some t → Free b!"@" t
  host : Free b!":/?#" p.host ∧ p.host ≠ []
  port : ∀ t, p.port = some t → Free b!"/?#" t ∧ t ≠ []
  path : ∀ t, p.path = some t → Free b!"?#" t
  query : ∀ t, p.query = some t → Free b!"#" t

/-- Number written in decimal. -/
def number (t : Bytes) : Nat := t.foldl (fun a c => 10 * a + (c.toNat - 0x30)) 0

/-- `key` or `key=value`, cut at the first '='. -/
def pair (s : Bytes) : Bytes × Option Bytes :=
  (s.takeWhile (· ≠ 0x3d), match s.dropWhile (· ≠ 0x3d) with
    | [] => none
    | _ :: v => some v)

end Verif.Spec.UrlParts
