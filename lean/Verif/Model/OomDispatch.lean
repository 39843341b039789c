import Verif.Model.Endpoint
/-!
# Model of the choice of the callbacks when memory runs out: `src/u_request.c:41–189`, `src/ulfius.c:592–617, 1357–1372`

Every allocation has a name (`Site`) and may fail; which ones do is a parameter. Only what is read counts here, not what is lost. An array that
`o_realloc` makes anew from NULL has entries in front that nobody wrote.
-/
namespace Verif.OomDispatch
open Verif.Endpoint

/-- What is split into words: the URL of the request, or prefix and format of an endpoint. -/
inductive Kind where
  | url | format
  deriving DecidableEq, Repr

/-- An allocation in the source. -/
inductive Site where
  /-- u_request.c:141 -/
  | returned
  /-- u_request.c:42, 48 and 68, 51 and 71, 56 and 77 -/
  | array (k : Kind) | copy (k : Kind) | grow (k : Kind) | word (k : Kind)
  /-- u_request.c:159, 161; ulfius.c:1359–1361 -/
  | list | endpoint | text
  /-- ulfius.c:596, 598 -/
  | defaultList | defaultEndpoint
  deriving DecidableEq, Repr

/-- Which allocations fail: their number and place. -/
abbrev F := Nat → Site → Bool

/-- A request for memory: whether it succeeds, and the number of the next one. -/
def ask (f : F) (s : Site) (n : Nat) : Bool × Nat := (!f n s, n + 1)

/-- `to_return` of `ulfius_split_url`: `lost` entries that were never written, then words, then NULL. -/
structure Words where
  lost : Nat
  words : List Bytes
  deriving DecidableEq, Repr

/-- A loop of `ulfius_split_url`, u_request.c:50–63 and 70–86: the array (`none`: NULL) and `counter`. -/
def addWords (f : F) (k : Kind) : Nat → Option Words → Nat → List Bytes → Option Words × Nat × Nat
  | n, a, c, [] => (a, c, n)
  | n, a, c, w :: t =>
    let (ok, n) := ask f (.grow k) n
    if !ok then (none, c, n)
    else
      let a := a.getD ⟨c - 1, []⟩
      let (ok, n) := ask f (.word k) n
      if !ok then (some a, c, n) else addWords f k n (some ⟨a.lost, a.words ++ [w]⟩) (c + 1) t

/-- One of the two parts of `ulfius_split_url`, u_request.c:47–66 and 67–89: `strtok_r` of a text that could not be copied reads through NULL, or
through what is left of the other text. -/
def addPart (f : F) (k : Kind) (n : Nat) (a : Option Words) (c : Nat) (s : Option Bytes) (keep : Bytes → Bool) : Res (Option Words × Nat × Nat) :=
  match s with
  | none => .ok (a, c, n)
  | some s =>
    let (ok, n) := ask f (.copy k) n
    if !ok then .ub else .ok (addWords f k n a c ((slashWords s).filter keep))

/-- `ulfius_split_url`, u_request.c:41–95; all entries up to NULL are read when the array is cleaned (u_map.c:101). -/
def split (f : F) (k : Kind) (n : Nat) (pfx url : Option Bytes) : Res (Option (List Bytes) × Nat) :=
  let (ok, n) := ask f (.array k) n
  if !ok then .ok (none, n)
  else do
    let (a, c, n) ← addPart f k n (some ⟨0, []⟩) 1 pfx (fun _ => true)
    let (a, _, n) ← addPart f k n a c url (fun w => !w.isEmpty && !(w.head? == some 0x3f))
    match a with
    | none => return (none, n)
    | some a => if a.lost = 0 then return (some a.words, n) else .ub

/-- `o_strdup` of a text that may be NULL. -/
def dup (f : F) (n : Nat) : Option Bytes → Option Bytes × Nat
  | none => (none, n)
  | some t => let (ok, n) := ask f .text n; (if ok then some t else none, n)

/-- `ulfius_copy_endpoint`, ulfius.c:1357–1372; its result is only logged. -/
def copyEndpoint (f : F) (n : Nat) (e : Endpoint) : Endpoint × Nat :=
  let (m, n) := dup f n e.method
  let (p, n) := dup f n e.pfx
  let (t, n) := dup f n e.format
  ({ e with method := m, pfx := p, format := t }, n)

/-- `endpoint_returned`: `lost` entries that were never written, then copies (`none`: NULL), then NULL. -/
structure Found where
  lost : Nat
  eps : List (Option Endpoint)
  deriving DecidableEq, Repr

/-- A match is appended, u_request.c:159–174: the array (`none`: NULL) and `count`. -/
def addFound (f : F) (n : Nat) (a : Option Found) (count : Nat) (e : Endpoint) : Option Found × Nat :=
  let (ok, n) := ask f .list n
  if !ok then (none, n)
  else
    let a := a.getD ⟨count, []⟩
    let (ok, n) := ask f .endpoint n
    if !ok then (some ⟨a.lost, a.eps ++ [none]⟩, n)
    else
      let (e, n) := copyEndpoint f n e
      (some ⟨a.lost, a.eps ++ [some e]⟩, n)

/-- The loop of `ulfius_endpoint_match`, u_request.c:153–180, up to the empty endpoint at the end of the list: array, `count`, requests. -/
def loop (f : F) (method : Bytes) (surl : List Bytes) : Nat → Option Found → Nat → List Endpoint → Res (Option Found × Nat × Nat)
  | n, a, count, [] => .ok (a, count, n)
  | n, a, count, e :: t =>
    match e.method with
    | none => .ub
    | some m =>
      if eqCase m method || byte0 m == 0x2a then do
        let (ws, n) ← split f .format n e.pfx e.format
        match ws with
        | none => loop f method surl n a count t
        | some ws =>
          if formatMatch surl ws then
            let (a, n) := addFound f n a count e
            loop f method surl n a (count + 1) t
          else loop f method surl n a count t
      else loop f method surl n a count t

/-- `qsort` with `compare_endpoint_priorities`, u_request.c:101–111 and 186: two entries or more are compared and read. What is in the array up to its
first NULL. -/
def sorted (sort : List Endpoint → List Endpoint) (a : Found) : Res (List Endpoint) :=
  match a.lost, a.eps with
  | 0, [none] => .ok []
  | 0, eps => if none ∈ eps then .ub else .ok (sort (eps.filterMap id))
  | _, _ => .ub

/-- `ulfius_endpoint_match` before the array is sorted, u_request.c:139–181, with the endpoints of the instance (`none`: it has no list). -/
def find (f : F) (n : Nat) (method url : Bytes) (list : Option (List Endpoint)) : Res (Option Found × Nat) :=
  let (ok, n) := ask f .returned n
  if !ok then .ok (none, n)
  else match list with
    | none => .ok (some ⟨0, []⟩, n)
    | some list => do
      let (surl, n) ← split f .url n (some url) none
      match surl with
      | none => return (some ⟨0, []⟩, n)
      | some surl => do
        let (a, _, n) ← loop f method surl n (some ⟨0, []⟩) 0 list
        return (a, n)

/-- `ulfius_endpoint_match`, u_request.c:139–189. -/
def endpointMatch (f : F) (sort : List Endpoint → List Endpoint) (n : Nat) (method url : Bytes) (list : Option (List Endpoint)) :
    Res (Option (List Endpoint) × Nat) := do
  let (a, n) ← find f n method url list
  match a with
  | none => return (none, n)
  | some a => do
    let l ← sorted sort a
    return (some l, n)

/-- What becomes of a request: `refused` is `MHD_NO`, `notFound` the answer 404; `calls`: the endpoints whose callbacks are called in this order, up to
the first that ends the loop (ulfius.c:636–644; what `ulfius_parse_url` answers does not stop it). -/
inductive Outcome where
  | refused | notFound
  | calls (l : List Endpoint)
  deriving DecidableEq, Repr

/-- ulfius.c:592–617 with the default endpoint, if there is one. -/
def dispatch (f : F) (sort : List Endpoint → List Endpoint) (method url : Bytes) (list : Option (List Endpoint)) (dflt : Option Endpoint) : Res Outcome := do
  let (l, n) ← endpointMatch f sort 0 method url list
  match l with
  | some (e :: t) => return .calls (e :: t)
  | l =>
    match dflt with
    | some d =>
      let (ok, n) := ask f .defaultList n
      if !ok then return .refused
      else
        let (ok, n) := ask f .defaultEndpoint n
        if !ok then return .notFound else return .calls [(copyEndpoint f n d).1]
    | none =>
      match l with
      | none => .ub                     -- `current_endpoint_list[0]` with NULL
      | some _ => return .notFound

end Verif.OomDispatch
