import Verif.Spec.Json
import Verif.Spec.Handshake
/-! # Specification of bearer tokens (RFC 6750) and of the conditions on their claims -/
namespace Verif.Spec.Token
open Verif.Spec.Json Verif.Spec.Client Verif.Spec.Handshake Verif.Spec.Segments

/-- Header lines or parameters. -/
abbrev Params := List (Bytes × Option Bytes)

/-- The words of a list of scopes. -/
def scopes (s : Bytes) : List Bytes := fields 0x20 s

/-- The text of a claim. -/
def claimText (claims : Json) (name : Bytes) : Option Bytes := jstr (jget (some claims) name)

/-- The number of a claim, 0 if there is none. -/
def claimNumber (claims : Json) (name : Bytes) : Int := jint (jget (some claims) name)

/-- One of the required scopes is among those of the token; nothing is required by an empty list. -/
def Enough (required : Option Bytes) (claims : Json) : Prop :=
  scopes (required.getD []) = [] ∨
  ∃ s w, claimText claims b!"scope" = some s ∧ w ∈ scopes s ∧ w ∈ scopes (required.getD [])

/-- The text says that a body is an HTML form. -/
def FormType (v : Bytes) : Prop := ∃ a b, v = a ++ b!"application/x-www-form-urlencoded" ++ b

/-- The request carries the token at a place: in the header Authorization with this scheme (0), in the form it sends (1), in the
query of its URL (2). -/
def Carries (place : Nat) (headers form query : Params) (scheme token : Bytes) : Prop :=
  place = 0 ∧ First headers b!"Authorization" (scheme ++ b!" " ++ token) ∨
  place = 1 ∧ (∃ k v, (k, some v) ∈ headers ∧ sameName k b!"Content-Type" ∧ FormType v) ∧ (b!"access_token", some token) ∈ form ∨
  place = 2 ∧ (b!"access_token", some token) ∈ query

/-- As `Carries`, in the only header of that name, spelled Content-Type if it is one. -/
def CarriesPlainly (place : Nat) (headers form query : Params) (scheme token : Bytes) : Prop :=
  place = 0 ∧ Single headers b!"Authorization" (scheme ++ b!" " ++ token) ∨
  place = 1 ∧ (∃ v, (b!"Content-Type", some v) ∈ headers ∧ Single headers b!"Content-Type" v ∧ FormType v) ∧
    (b!"access_token", some token) ∈ form ∨
  place = 2 ∧ (b!"access_token", some token) ∈ query

/-- The request carries the token in its only header Authorization with the scheme Bearer or, if `bound`, DPoP, or elsewhere as
`Carries` says. -/
def CarriesOnce (place : Nat) (headers form query : Params) (bound : Bool) (token : Bytes) : Prop :=
  place = 0 ∧ Single headers b!"Authorization" ((if bound then b!"DPoP" else b!"Bearer") ++ b!" " ++ token) ∨
  place ≠ 0 ∧ bound = false ∧ Carries place headers form query b!"Bearer" token

/-- The claim is a text that is not empty. -/
def Named (claims : Json) (name : Bytes) : Prop := ∃ s, claimText claims name = some s ∧ s ≠ []

/-- The token is of an accepted type and names its subject. -/
def Typed (access client : Bool) (user app : Bytes) (claims : Json) : Prop :=
  access = true ∧ claimText claims b!"type" = some b!"access_token" ∧ Named claims user ∨
  client = true ∧ claimText claims b!"type" = some b!"client_token" ∧ Named claims app

/-! ## Challenges (RFC 7235) -/

/-- Characters of a token, RFC 7230 section 3.2.6. -/
def tchar (c : UInt8) : Bool :=
  0x30 ≤ c && c ≤ 0x39 || 0x41 ≤ c && c ≤ 0x5a || 0x61 ≤ c && c ≤ 0x7a || (b!"!#$%&'*+-.^_`|~").contains c

/-- The text up to the closing quote, and what follows. -/
def readQuoted : Bytes → Option (Bytes × Bytes)
  | [] => none
  | 0x22 :: t => some ([], t)
  | 0x5c :: c :: t => (readQuoted t).map (fun p => (c :: p.1, p.2))
  | c :: t => (readQuoted t).map (fun p => (c :: p.1, p.2))

/-- A value: a token or a quoted text. -/
def readValue : Bytes → Option (Bytes × Bytes)
  | 0x22 :: t => readQuoted t
  | s => if (s.takeWhile tchar).isEmpty then none else some (s.takeWhile tchar, s.dropWhile tchar)

/-- `name=value`. -/
def readParam (s : Bytes) : Option ((Bytes × Bytes) × Bytes) :=
  match s.dropWhile tchar with
  | 0x3d :: t => if (s.takeWhile tchar).isEmpty then none
      else (readValue t).map (fun p => ((s.takeWhile tchar, p.1), p.2))
  | _ => none

/-- Parameters separated by commas; at most `n`. -/
def readParams : Nat → Bytes → Option (List (Bytes × Bytes))
  | 0, _ => none
  | n + 1, s =>
    match readParam s with
    | none => none
    | some (p, []) => some [p]
    | some (p, 0x2c :: t) => (readParams n t).map (p :: ·)
    | some _ => none

/-- What a client reads in WWW-Authenticate: the scheme and the parameters. -/
def readChallenge (s : Bytes) : Option (Bytes × List (Bytes × Bytes)) :=
  match s.dropWhile tchar with
  | 0x20 :: t => (readParams (s.length + 1) t).map (fun l => (s.takeWhile tchar, l))
  | _ => none

end Verif.Spec.Token
