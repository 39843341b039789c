import Verif.Basic
/-!
# Model: several requests for one compressed website at the same time

`callback_static_compressed_inmemory_website`, static_compressed_inmemory_website_callback.c:346–475, with caching, for files that are
compressed with one coding: the look-up in the cache (346–347, three calls), the lock (370), `u_map_put_binary` of the compressed file
(441) statement by statement (u_map.c:156–245), the answer from the cache (442), the end of the lock (475). One action is one statement
or one look-up; that already shows what can happen, although C allows more (a look-up beside a change is a data race). Allocations
succeed, files do not change. The arrays of the map are lists; a value stands for its block and for the pointer to it, without the NUL
at its end. The code is the same for both maps.
-/
namespace Verif.WebsiteThreads

/-- A slot of `keys`: not written, NULL, a string. -/
inductive KSlot where
  | junk | null | key (x : Bytes)
  deriving DecidableEq, Repr

/-- A slot of `values`. -/
inductive VSlot where
  | junk | null | val (z : Bytes)
  deriving DecidableEq, Repr

/-- `struct _u_map`; a length is `none` until it is written. -/
structure Mem where
  keys : List KSlot
  values : List VSlot
  lengths : List (Option Nat)
  nb : Nat
  deriving DecidableEq, Repr

/-- `u_map_init`, u_map.c:32–66. -/
def Mem.init : Mem := ⟨[.null], [.null], [some 0], 0⟩

/-- Where a thread is: before the statement named. -/
inductive Pc where
  | ready
  /-- 346: `u_map_has_key` -/
  | has (x : Bytes)
  /-- 347: `u_map_get` -/
  | get (x : Bytes)
  /-- 347: `u_map_get_length`, `ulfius_set_binary_body_response` -/
  | len (x : Bytes) (v : Option Bytes)
  /-- 370 -/
  | lock (x : Bytes)
  /-- 441, u_map.c:160–161 and 184: the search and the test of the last value -/
  | put (x : Bytes)
  /-- u_map.c:162–181: the key exists -/
  | over (x : Bytes) (j : Nat)
  /-- u_map.c:205–206 -/
  | keys (x : Bytes)
  /-- u_map.c:213 -/
  | key (x : Bytes) (j : Nat)
  /-- u_map.c:214 -/
  | keyEnd (x : Bytes) (j : Nat)
  /-- u_map.c:217 -/
  | values (x : Bytes) (j : Nat)
  /-- u_map.c:224 -/
  | value (x : Bytes) (j : Nat)
  /-- u_map.c:225 -/
  | valueEnd (x : Bytes) (j : Nat)
  /-- u_map.c:228 -/
  | lengths (x : Bytes) (j : Nat)
  /-- u_map.c:235 -/
  | length (x : Bytes) (j : Nat)
  /-- u_map.c:236 -/
  | lengthEnd (x : Bytes) (j : Nat)
  /-- u_map.c:238 -/
  | count (x : Bytes)
  /-- 442: `u_map_get` -/
  | lget (x : Bytes)
  /-- 442: `u_map_get_length`, `ulfius_set_binary_body_response`, and 475 -/
  | llen (x : Bytes) (v : Option Bytes)
  deriving DecidableEq, Repr

/-- A thread: the files it still has to serve, and where it is. -/
structure Thread where
  todo : List Bytes
  pc : Pc := .ready
  deriving DecidableEq, Repr

/-- `answers`: the file and the body of each answer given, in order (`none`: the body was not set; the answer has status 200 and the
header Content-Encoding all the same, 348). -/
structure Sys where
  mem : Mem := .init
  lock : Option Nat := none
  th : Nat → Thread
  answers : List (Bytes × Option Bytes) := []

def start (m : Mem) (jobs : Nat → List Bytes) : Sys := { mem := m, th := fun i => ⟨jobs i, .ready⟩ }

/-- Thread `i` goes on. -/
def go (s : Sys) (i : Nat) (pc : Pc) : Sys := { s with th := fun k => if k = i then ⟨(s.th i).todo, pc⟩ else s.th k }

/-- `for (i=0; u_map->keys[i] != NULL; i++) if (0 == o_strcmp(u_map->keys[i], key))`, u_map.c:123–124, 380–381, 436–437: the place of a key. -/
def find (keys : List KSlot) (x : Bytes) : Res (Option Nat) :=
  match keys with
  | [] => .ub
  | .junk :: _ => .ub
  | .null :: _ => .ok none
  | .key k :: t => if k = x then .ok (some 0) else do
    let r ← find t x
    return r.map (· + 1)

/-- `for (i=0; i < nb_values; i++) if (0 == o_strcmp(u_map->keys[i], key))`, u_map.c:160–161. -/
def search (nb : Nat) (keys : List KSlot) (x : Bytes) : Res (Option Nat) :=
  match nb, keys with
  | 0, _ => .ok none
  | n + 1, .key k :: t => if k = x then .ok (some 0) else do
    let r ← search n t x
    return r.map (· + 1)
  | _, _ => .ub

/-- `for (i = 0; u_map->keys[i] != NULL; i++);`, u_map.c:205. -/
def last : List KSlot → Res Nat
  | [] => .ub
  | .junk :: _ => .ub
  | .null :: _ => .ok 0
  | .key _ :: t => do
    let n ← last t
    return n + 1

/-- `o_realloc`: what fits stays, the rest is not written. -/
def resize {α : Type} (junk : α) (l : List α) (n : Nat) : List α := l.take n ++ List.replicate (n - l.length) junk

/-- `l[j] = v` -/
def store {α : Type} (l : List α) (j : Nat) (v : α) : Res (List α) := if j < l.length then .ok (l.set j v) else .ub

/-- `u_map_get`, u_map.c:377–393. -/
def getVal (m : Mem) (x : Bytes) : Res (Option Bytes) := do
  match ← find m.keys x with
  | none => return none
  | some j =>
    match m.lengths[j]? with
    | some (some n) =>
      if n > 0 then
        match m.values[j]? with
        | some (.val z) => return some z
        | some .null => return none
        | _ => .ub
      else return none
    | _ => .ub

/-- `(size_t)u_map_get_length`, u_map.c:433–445; -1 becomes the largest size. -/
def getLen (m : Mem) (x : Bytes) : Res Nat := do
  match ← find m.keys x with
  | none => return 2 ^ 64 - 1
  | some j =>
    match m.lengths[j]? with
    | some (some n) => return n
    | _ => .ub

/-- `ulfius_set_binary_body_response`, u_response.c:535–554: the body afterwards. -/
def body (v : Option Bytes) (n : Nat) : Res (Option Bytes) :=
  match v with
  | none => .ok none
  | some z => if n = 0 then .ok none else if n ≤ z.length then .ok (some (z.take n)) else .ub

/-- u_map.c:162–181 for a value that is not NULL. -/
def overwrite (m : Mem) (j : Nat) (z : Bytes) : Res Mem :=
  match m.lengths[j]?, m.values[j]? with
  | some (some n), some (.val old) =>
    .ok { m with values := m.values.set j (.val (z ++ old.drop z.length)),
                 lengths := if n < z.length then m.lengths.set j (some z.length) else m.lengths }
  | _, _ => .ub

/-- The next action of thread `i`. `zip` is what zlib makes of the file of a name. -/
def step (zip : Bytes → Bytes) (s : Sys) (i : Nat) : Res Sys :=
  match (s.th i).pc with
  | .ready =>
    match (s.th i).todo with
    | [] => .ok s
    | x :: t => .ok { s with th := fun k => if k = i then ⟨t, .has x⟩ else s.th k }
  | .has x => do
    match ← find s.mem.keys x with
    | some _ => return go s i (.get x)
    | none => return go s i (.lock x)
  | .get x => do
    let v ← getVal s.mem x
    return go s i (.len x v)
  | .len x v => do
    let n ← getLen s.mem x
    let b ← body v n
    return go { s with answers := s.answers ++ [(x, b)] } i .ready
  | .lock x =>
    match s.lock with
    | some _ => .ok s
    | none => .ok (go { s with lock := some i } i (.put x))
  | .put x => do
    match ← search s.mem.nb s.mem.keys x with
    | some j => return go s i (.over x j)
    | none =>
      match s.mem.values[s.mem.nb]? with
      | some .null => return go s i (.keys x)
      | some (.val _) => return go s i (.lget x)
      | _ => .ub
  | .over x j => do
    let m ← overwrite s.mem j (zip x)
    return go { s with mem := m } i (.lget x)
  | .keys x => do
    let j ← last s.mem.keys
    return go { s with mem := { s.mem with keys := resize .junk s.mem.keys (j + 2) } } i (.key x j)
  | .key x j => do
    let l ← store s.mem.keys j (.key x)
    return go { s with mem := { s.mem with keys := l } } i (.keyEnd x j)
  | .keyEnd x j => do
    let l ← store s.mem.keys (j + 1) .null
    return go { s with mem := { s.mem with keys := l } } i (.values x j)
  | .values x j => .ok (go { s with mem := { s.mem with values := resize .junk s.mem.values (j + 2) } } i (.value x j))
  | .value x j => do
    let l ← store s.mem.values j (.val (zip x))
    return go { s with mem := { s.mem with values := l } } i (.valueEnd x j)
  | .valueEnd x j => do
    let l ← store s.mem.values (j + 1) .null
    return go { s with mem := { s.mem with values := l } } i (.lengths x j)
  | .lengths x j => .ok (go { s with mem := { s.mem with lengths := resize none s.mem.lengths (j + 2) } } i (.length x j))
  | .length x j => do
    let l ← store s.mem.lengths j (some (zip x).length)
    return go { s with mem := { s.mem with lengths := l } } i (.lengthEnd x j)
  | .lengthEnd x j => do
    let l ← store s.mem.lengths (j + 1) (some 0)
    return go { s with mem := { s.mem with lengths := l } } i (.count x)
  | .count x => .ok (go { s with mem := { s.mem with nb := s.mem.nb + 1 } } i (.lget x))
  | .lget x => do
    let v ← getVal s.mem x
    return go s i (.llen x v)
  | .llen x v => do
    let n ← getLen s.mem x
    let b ← body v n
    return go { s with answers := s.answers ++ [(x, b)], lock := none } i .ready

def exec (zip : Bytes → Bytes) : Sys → List Nat → Res Sys
  | s, [] => .ok s
  | s, i :: t => do
    let s ← step zip s i
    exec zip s t

end Verif.WebsiteThreads
