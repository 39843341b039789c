import Verif.Basic
import Verif.Spec.UrlParts
import Verif.Spec.Segments
import Verif.Spec.Url
/-! # Specification of the client: header lines, cookie lines, query strings, mail -/
namespace Verif.Spec.Client

/-- Only blanks (C `isspace`). -/
def Blank (s : Bytes) : Prop := ∀ c ∈ s, isSpace c = true

/-- Neither starts nor ends with a blank. -/
def Trimmed (s : Bytes) : Prop :=
  (∀ c, s.head? = some c → isSpace c = false) ∧ ∀ c, s.getLast? = some c → isSpace c = false

/-- A header line: blanks, name, blanks, ':', blanks, value, blanks (the last ones hold the line end). -/
structure Hdr where
  b1 : Bytes := []
  name : Bytes
  b2 : Bytes := []
  b3 : Bytes := [0x20]
  value : Bytes
  b4 : Bytes := [0x0d, 0x0a]
  deriving DecidableEq, Repr

/-- The text of the line. -/
def Hdr.text (h : Hdr) : Bytes := (h.b1 ++ h.name ++ h.b2) ++ 0x3a :: (h.b3 ++ h.value ++ h.b4)

/-- Well formed: the name is not empty and has no ':'; the line has at least one character after the ':' (its line end). -/
structure Hdr.Wf (h : Hdr) : Prop where
  b1 : Blank h.b1
  b2 : Blank h.b2
  b3 : Blank h.b3
  b4 : Blank h.b4
  name : Trimmed h.name ∧ h.name ≠ [] ∧ (0x3a : UInt8) ∉ h.name ∧ NoNul h.name
  value : Trimmed h.value ∧ NoNul h.value
  rest : h.b3 ++ h.value ++ h.b4 ≠ []

/-- What libcurl delivers: header lines, and lines without ':' (status line, empty line). -/
inductive Line where
  | header (h : Hdr)
  | other (s : Bytes)
  deriving DecidableEq, Repr

/-- The text of the line. -/
def Line.text : Line → Bytes
  | .header h => h.text
  | .other s => s

/-- Well formed lines. -/
def Line.Wf : Line → Prop
  | .header h => h.Wf
  | .other s => (0x3a : UInt8) ∉ s

/-- The header lines in order. -/
def headersOf (l : List Line) : List (Bytes × Bytes) :=
  l.filterMap (fun | .header h => some (h.name, h.value) | .other _ => none)

/-- Names are compared without regard to ASCII case. -/
def sameName (a b : Bytes) : Prop := a.map toLower = b.map toLower

instance (a b : Bytes) : Decidable (sameName a b) := inferInstanceAs (Decidable (_ = _))

/-- The values given for a name, in order. -/
def valuesFor (name : Bytes) (l : List (Bytes × Bytes)) : List Bytes :=
  (l.filter (fun p => decide (sameName p.1 name))).map (·.2)

/-- Values joined by ", ". -/
def commaJoin : List Bytes → Bytes
  | [] => []
  | [v] => v
  | v :: t => v ++ b!", " ++ commaJoin t

/-- The header lines kept under a limit (0: no limit). -/
def kept (max : Nat) (l : List (Bytes × Bytes)) : List (Bytes × Bytes) := if max = 0 then l else l.take max

/-- The value a header table must show for a name: nothing, or the values joined. -/
def headerValue (name : Bytes) (l : List (Bytes × Bytes)) : Option Bytes :=
  if valuesFor name l = [] then none else some (commaJoin (valuesFor name l))

/-- The status text: the last non-blank line without ':', without trailing blanks. -/
def protocolOf (l : List Line) : Option Bytes :=
  ((l.filterMap (fun | .header _ => none | .other s => some s)).filter (fun s => !s.all isSpace)).getLast?.map
    (fun s => (s.reverse.dropWhile isSpace).reverse)

/-- RFC 3986: the fragment starts at the first '#'. -/
def noFragment (url : Bytes) : Bytes := url.takeWhile (· ≠ 0x23)

/-- RFC 3986: the query is what follows the first '?' before the fragment. -/
def queryOf (url : Bytes) : Option Bytes :=
  match (noFragment url).dropWhile (· ≠ 0x3f) with
  | [] => none
  | _ :: q => some q

/-- The parameters texts of a query. -/
def queryParams (url : Bytes) : List Bytes :=
  match queryOf url with
  | none => []
  | some q => Spec.Segments.pieces 0x26 q

/-- Everything before the query. -/
def beforeQuery (url : Bytes) : Bytes := (noFragment url).takeWhile (· ≠ 0x3f)

/-- Spaces written as %20. -/
def spaces (url : Bytes) : Bytes := (url.map (fun c => if c = 0x20 then b!"%20" else [c])).flatten

/-- The text of a parameter, and what it stands for. -/
def ParamText (t : Bytes) (p : Bytes × Option Bytes) : Prop :=
  Spec.Url.PctDecodes (Spec.UrlParts.pair t).1 p.1 ∧
  match (Spec.UrlParts.pair t).2, p.2 with
  | some v, some w => Spec.Url.PctDecodes v w
  | none, none => True
  | _, _ => False

/-- Texts and parameters correspond one to one, in order. -/
def ParamTexts : List Bytes → List (Bytes × Option Bytes) → Prop
  | [], [] => True
  | t :: ts, p :: ps => ParamText t p ∧ ParamTexts ts ps
  | _, _ => False

/-- A cookie as libcurl reports it (Netscape cookie file line). -/
structure Jar where
  domain : Bytes
  subdomains : Bool
  path : Bytes
  secure : Bool
  expires : Bytes
  name : Bytes
  value : Bytes
  httpOnly : Bool
  deriving DecidableEq, Repr

/-- TRUE or FALSE. -/
def boolText (b : Bool) : Bytes := if b then b!"TRUE" else b!"FALSE"

/-- The line: seven fields separated by tabs; HttpOnly is a prefix of the domain. -/
def Jar.text (j : Jar) : Bytes :=
  (if j.httpOnly then b!"#HttpOnly_" else []) ++ j.domain ++ [0x09] ++ boolText j.subdomains ++ [0x09] ++ j.path ++ [0x09] ++
    boolText j.secure ++ [0x09] ++ j.expires ++ [0x09] ++ j.name ++ [0x09] ++ j.value

/-- Fields are free of tabs; all but the value are not empty. -/
structure Jar.Wf (j : Jar) : Prop where
  domain : (0x09 : UInt8) ∉ j.domain ∧ j.domain ≠ []
  path : (0x09 : UInt8) ∉ j.path ∧ j.path ≠ []
  expires : (0x09 : UInt8) ∉ j.expires ∧ j.expires ≠ []
  name : (0x09 : UInt8) ∉ j.name ∧ j.name ≠ []
  value : (0x09 : UInt8) ∉ j.value

/-- Mail (RFC 5322): lines ended by CR LF up to an empty one, then the body. -/
def parseMail (cur : Bytes) : Bytes → Option (List Bytes × Bytes)
  | [] => none
  | [c] => parseMail (cur ++ [c]) []
  | c :: d :: t =>
    if c = 0x0d ∧ d = 0x0a then
      if cur = [] then some ([], t) else (parseMail [] t).map (fun p => (cur :: p.1, p.2))
    else parseMail (cur ++ [c]) (d :: t)

end Verif.Spec.Client
