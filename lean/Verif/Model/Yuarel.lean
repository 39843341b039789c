import Verif.Model.Printf
/-!
# Model of `src/yuarel.c`

The parser works in place: it writes a NUL at a delimiter and keeps a pointer behind it. Every later read goes through a
pointer to the beginning of one of the two pieces, so the model splits the string instead. The C string left in the
caller's buffer is returned too. The test `u < url->path` (line 198) is always true when reached: `host` ends before
`path`.
-/
namespace Verif.Yuarel
open Verif.Printf

/-- `find_and_terminate` (yuarel.c:96–107): the string before the first `c`, and the one behind it. -/
def cut (c : UInt8) : Bytes → Bytes × Option Bytes
  | [] => ([], none)
  | x :: t => if x == c then ([], some t) else let (a, b) := cut c t; (x :: a, b)

/-- `struct yuarel`, include/yuarel.h. -/
structure Url where
  scheme : Option Bytes := none
  username : Option Bytes := none
  password : Option Bytes := none
  host : Option Bytes := none
  port : Int := 0
  path : Option Bytes := none
  query : Option Bytes := none
  fragment : Option Bytes := none
  deriving DecidableEq, Repr

/-- `natoi` (yuarel.c:33–44): unsigned 32 bits arithmetic, `char` signed, then the cast to `int`. -/
def natoi (s : Bytes) : Int :=
  asInt (s.foldl (fun r c => (10 * r + ((if c.toNat < 128 then c.toNat else c.toNat + 2 ^ 32 - 256) + 2 ^ 32 - 0x30)) % 2 ^ 32) 0)

/-- The optional sign read by `atoi`. -/
def sign : Bytes → Bool × Bytes
  | 0x2d :: t => (true, t)
  | 0x2b :: t => (false, t)
  | s => (false, s)

/-- `atoi` (libc) on a string: optional spaces and sign, digits; overflow is undefined. -/
def atoi (s : Bytes) : Res Int :=
  let (neg, s) := sign (s.dropWhile isSpace)
  let n := ofDecimal (s.takeWhile isDigit)
  if neg then (if n ≤ 2 ^ 31 then .ok (-(n : Int)) else .ub)
  else (if n < 2 ^ 31 then .ok (n : Int) else .ub)

/-- yuarel.c:186–216: host and port, `path` already split off. `none` is the return value -1. -/
def hostPart (url : Url) (host : Bytes) : Res (Option Url) :=
  if host = [] then .ok none
  else match cut 0x3a host with
    | (h, some p) =>
      if p = [] then .ok none
      else do
        let port ← if url.path.isSome then Res.ok (natoi p) else atoi p
        if h = [] then return none
        return some { url with host := some h, port := port }
    | (h, none) => .ok (some { url with host := some h })

/-- `yuarel_parse`, yuarel.c:137–222: the result (`none` for -1) and the C string now at `u`. -/
def parse (s : Bytes) : Res (Option Url × Bytes) :=
  let (s, fragment) := cut 0x23 s
  let (s, query) := cut 0x3f s
  let url : Url := { query := query, fragment := fragment }
  match s with
  | 0x2f :: t => .ok (some { url with path := some t }, [])
  | _ =>
    match cut 0x3a s with
    | (scheme, some (0x2f :: 0x2f :: rest)) =>
      if scheme = [] then .ok (none, s)
      else if rest = [] then .ok (none, scheme)
      else
        let (auth, path) := cut 0x2f rest
        let url := { url with scheme := some scheme, path := path }
        match cut 0x40 auth with
        | (cred, some host) =>
          if cred = [] then .ok (none, scheme)
          else match cut 0x3a cred with
            | (user, some pass) => do
              let r ← hostPart { url with username := some user, password := some pass } host
              return (r, scheme)
            | (_, none) => .ok (none, scheme)
        | (host, none) => do
          let r ← hostPart url host
          return (r, scheme)
    | _ => .ok (none, s)

/-- The loop of `yuarel_split_path` (yuarel.c:243–261), with the strings stored so far; storing past the `cap` elements of
`parts` is undefined. The first argument bounds the number of rounds. -/
def splitLoop (cap max : Int) : Nat → Bytes → List Bytes → Res (List Bytes)
  | 0, _, acc => .ok acc
  | f + 1, path, acc =>
    let path := path.dropWhile (· == 0x2f)
    if path = [] then .ok acc
    else if ¬ (acc.length : Int) < cap then .ub
    else match cut 0x2f path with
      | (p, none) => .ok (acc ++ [p])
      | (p, some rest) =>
        let acc := acc ++ [p]
        if (acc.length : Int) < max then splitLoop cap max f rest acc else .ok acc

/-- `yuarel_split_path`, yuarel.c:234–263: `none` is -1; `max` elements are allocated. -/
def splitPath (path : Bytes) (max : Int) : Res (Option (List Bytes)) :=
  if path = [] then .ok none
  else do
    let l ← splitLoop max max (path.length + 1) path []
    return some l

/-- The loop of `yuarel_parse_query` (yuarel.c:275–287). `cur` is the string of the parameter `params[i-1]`, not split
yet; `acc` holds the ones already split. -/
def queryLoop (delim : UInt8) (max : Int) : Nat → Bytes → List (Bytes × Option Bytes) → List (Bytes × Option Bytes)
  | 0, cur, acc => acc ++ [cut 0x3d cur]
  | f + 1, cur, acc =>
    if (acc.length : Int) + 1 < max then
      match cut delim cur with
      | (p, some rest) => queryLoop delim max f rest (acc ++ [cut 0x3d p])
      | (_, none) => acc ++ [cut 0x3d cur]
    else acc ++ [cut 0x3d cur]

/-- `yuarel_parse_query`, yuarel.c:265–295; `params[0]` is written first, whatever `max`. -/
def parseQuery (query : Bytes) (delim : UInt8) (max : Int) : Res (Option (List (Bytes × Option Bytes))) :=
  if query = [] then .ok none
  else if max < 1 then .ub
  else .ok (some (queryLoop delim max (query.length + 1) query []))

end Verif.Yuarel
