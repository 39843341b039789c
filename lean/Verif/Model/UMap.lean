import Verif.Basic
/-!
# Model of `src/u_map.c`

`struct _u_map` (include/ulfius.h) holds three parallel arrays `keys`, `values`, `lengths` and the counter
`nb_values`; `keys` and `values` end with a NULL pointer. The model keeps the three arrays, the counter and
the sentinels: nothing in it says that the arrays agree, that is proved.

Simplifications: the `struct _u_map *` argument itself is never NULL (the functions then only return
`U_ERROR_PARAMS`/0/NULL); `int` indices do not overflow (fewer than 2^31 entries); the log calls are left
out; the shrinking `o_realloc` of `u_map_remove_at` and the allocations of `u_map_init` succeed. Allocation
failure inside `u_map_put_binary` is modelled.
-/
namespace Verif.UMap

/-- Bytes of an allocated block; `none` is a byte that was never written. -/
abbrev Buf := List (Option UInt8)

/-- An element of a pointer array: NULL, a pointer to a live block, a pointer to freed memory. -/
inductive Ptr (α : Type) where
  | null
  | to (a : α)
  | dead
  deriving DecidableEq, Repr

/-- `struct _u_map`, include/ulfius.h; a NULL array pointer is `none`. -/
structure UMap where
  nb : Nat
  keys : Option (List (Ptr Bytes))
  values : Option (List (Ptr Buf))
  lengths : Option (List Nat)
  deriving DecidableEq, Repr

/-- Return codes, include/ulfius.h (`U_OK` 0, `U_ERROR_MEMORY` 2, `U_ERROR_PARAMS` 3, `U_ERROR_NOT_FOUND` 6). -/
inductive Rc where
  | ok | memory | params | notFound
  deriving DecidableEq, Repr

/-- Dereference of an array pointer (NULL is undefined behaviour). -/
def deref {α : Type} : Option α → Res α
  | some a => .ok a
  | none => .ub

/-- Array read `a[i]`. -/
def aget {α : Type} (a : List α) (i : Nat) : Res α :=
  match a[i]? with
  | some x => .ok x
  | none => .ub

/-- Read a block as a C string (`strlen`, `strcmp`, ... all walk it up to the NUL). -/
def readStr : Buf → Res Bytes
  | [] => .ub
  | none :: _ => .ub
  | some b :: t => if b == 0 then .ok [] else do
      let r ← readStr t
      return b :: r

/-- The memory of a C string. -/
def strBuf (s : Bytes) : Buf := s.map some ++ [some 0]

/-- `u_map_init`, u_map.c:32–68. -/
def init : UMap := { nb := 0, keys := some [.null], values := some [.null], lengths := some [0] }

/-- `u_map_clean`, u_map.c:70–87: the arrays are released, `nb_values` keeps its value. -/
def clean (m : UMap) : UMap := { m with keys := none, values := none, lengths := none }

/-- `u_map_empty`, u_map.c:528–535. -/
def empty (m : UMap) : Res (Rc × UMap) := do
  -- u_map_clean walks keys[0..nb) and values[0..nb)
  let ks ← deref m.keys
  let vs ← deref m.values
  if m.nb ≤ ks.length ∧ m.nb ≤ vs.length then .ok (.ok, init) else .ub

/-- `for (i=0; a[i] != NULL; i++) if (test(a[i])) return i;` — the loop of has_key, get, ... (e.g.
u_map.c:123–127). -/
def scan {α : Type} (p : α → Res Bool) : Nat → List (Ptr α) → Res (Option Nat)
  | _, [] => .ub
  | _, .null :: _ => .ok none
  | _, .dead :: _ => .ub
  | i, .to k :: t => do
    if ← p k then return some i else scan p (i + 1) t

/-- `for (i=0; i<nb; i++) if (test(a[i])) ...`, with `o_strcmp(NULL, key) != 0`, u_map.c:160–161. -/
def scanNb (p : Bytes → Bool) : Nat → Nat → List (Ptr Bytes) → Res (Option Nat)
  | 0, _, _ => .ok none
  | _ + 1, _, [] => .ub
  | n + 1, i, .null :: t => scanNb p n (i + 1) t
  | _ + 1, _, .dead :: _ => .ub
  | n + 1, i, .to k :: t => if p k then .ok (some i) else scanNb p n (i + 1) t

/-- `for (i = 0; a[i] != NULL; i++);`, u_map.c:203. -/
def sentinel {α : Type} : Nat → List (Ptr α) → Res Nat
  | _, [] => .ub
  | i, .null :: _ => .ok i
  | i, .to _ :: t => sentinel (i + 1) t
  | i, .dead :: t => sentinel (i + 1) t

/-- `u_map_has_key`, u_map.c:120–130. -/
def hasKey (m : UMap) (key : Option Bytes) : Res Bool :=
  match key with
  | none => .ok false
  | some key => do
    let ks ← deref m.keys
    let r ← scan (fun k => .ok (k == key)) 0 ks
    return r.isSome

/-- `u_map_has_key_case`, u_map.c:395–405. -/
def hasKeyCase (m : UMap) (key : Option Bytes) : Res Bool :=
  match key with
  | none => .ok false
  | some key => do
    let ks ← deref m.keys
    let r ← scan (fun k => .ok (eqCase k key)) 0 ks
    return r.isSome

/-- `0 == memcmp(a, b, n)`: reads `n` bytes of both blocks. -/
def memEq (a b : Buf) (n : Nat) : Res Bool :=
  if n ≤ a.length ∧ n ≤ b.length ∧ (a.take n).all Option.isSome ∧ (b.take n).all Option.isSome then
    .ok (a.take n == b.take n)
  else .ub

/-- `u_map_has_value_binary`, u_map.c:136–146. -/
def hasValueBinary (m : UMap) (value : Option Buf) (length : Nat) : Res Bool :=
  match value with
  | none => .ok false
  | some v => do
    let vs ← deref m.values
    let r ← scan (fun x => memEq x v length) 0 vs
    return r.isSome

/-- `u_map_has_value`, u_map.c:132–134. -/
def hasValue (m : UMap) (value : Option Bytes) : Res Bool :=
  hasValueBinary m (value.map strBuf) ((value.getD []).length)

/-- `u_map_has_value_case`, u_map.c:407–417. -/
def hasValueCase (m : UMap) (value : Option Bytes) : Res Bool :=
  match value with
  | none => .ok false
  | some v => do
    let vs ← deref m.values
    let r ← scan (fun x => do let s ← readStr x; return eqCase s v) 0 vs
    return r.isSome

/-- pointer value read from an array and then returned or dereferenced by the caller -/
def ptrOpt {α : Type} : Ptr α → Res (Option α)
  | .null => .ok none
  | .to a => .ok (some a)
  | .dead => .ub

/-- `u_map_get`, u_map.c:377–393: the block `values[i]` points to, or NULL. -/
def get (m : UMap) (key : Option Bytes) : Res (Option Buf) :=
  match key with
  | none => .ok none
  | some key => do
    let ks ← deref m.keys
    match ← scan (fun k => .ok (k == key)) 0 ks with
    | none => return none
    | some i => do
      let ls ← deref m.lengths
      let l ← aget ls i
      if l > 0 then do
        let vs ← deref m.values
        let v ← aget vs i
        ptrOpt v
      else return none

/-- `u_map_get_case`, u_map.c:419–431. -/
def getCase (m : UMap) (key : Option Bytes) : Res (Option Buf) :=
  match key with
  | none => .ok none
  | some key => do
    let ks ← deref m.keys
    match ← scan (fun k => .ok (eqCase k key)) 0 ks with
    | none => return none
    | some i => do
      let vs ← deref m.values
      let v ← aget vs i
      ptrOpt v

/-- `u_map_get_length`, u_map.c:433–445 (`none` is −1). -/
def getLength (m : UMap) (key : Option Bytes) : Res (Option Nat) :=
  match key with
  | none => .ok none
  | some key => do
    let ks ← deref m.keys
    match ← scan (fun k => .ok (k == key)) 0 ks with
    | none => return none
    | some i => do
      let ls ← deref m.lengths
      let l ← aget ls i
      return some l

/-- `u_map_get_case_length`, u_map.c:447–459. -/
def getCaseLength (m : UMap) (key : Option Bytes) : Res (Option Nat) :=
  match key with
  | none => .ok none
  | some key => do
    let ks ← deref m.keys
    match ← scan (fun k => .ok (eqCase k key)) 0 ks with
    | none => return none
    | some i => do
      let ls ← deref m.lengths
      let l ← aget ls i
      return some l

/-- `u_map_count`, u_map.c:507–514. -/
def count (m : UMap) : Nat := m.nb

/-- the counting loop of `u_map_count_keys_case`, u_map.c:519–523 -/
def countLoop (p : Bytes → Bool) : Nat → List (Ptr Bytes) → Res Nat
  | _, [] => .ub
  | n, .null :: _ => .ok n
  | _, .dead :: _ => .ub
  | n, .to k :: t => countLoop p (if p k then n + 1 else n) t

/-- `u_map_count_keys_case`, u_map.c:516–526. -/
def countKeysCase (m : UMap) (key : Option Bytes) : Res Nat :=
  match key with
  | none => .ok 0
  | some key => do
    let ks ← deref m.keys
    countLoop (fun k => eqCase k key) 0 ks

/-- the strings `u_map_enum_keys` (u_map.c:112–114) exposes: the array up to its NULL -/
def enumLoop : List (Ptr Bytes) → Res (List Bytes)
  | [] => .ub
  | .null :: _ => .ok []
  | .dead :: _ => .ub
  | .to k :: t => do let r ← enumLoop t; return k :: r

/-- `u_map_enum_keys`, u_map.c:112–114, as read by a caller. -/
def enumKeys (m : UMap) : Res (List Bytes) := do
  let ks ← deref m.keys
  enumLoop ks

/-- 64-bit unsigned arithmetic (`uint64_t`, `size_t`). -/
def w64 (n : Nat) : Nat := n % 2 ^ 64

/-- `o_realloc(p, n)`: keeps the first bytes, the added ones are not initialised. -/
def resize (b : Buf) (n : Nat) : Buf := b.take n ++ List.replicate (n - b.length) none

/-- `memcpy(dst + off, src, n)`. -/
def memcpy (dst : Buf) (off : Nat) (src : Buf) (n : Nat) : Res Buf :=
  if off + n ≤ dst.length ∧ n ≤ src.length then .ok (dst.take off ++ src.take n ++ dst.drop (off + n))
  else .ub

/-- `*(p + i) = b`. -/
def poke (dst : Buf) (i : Nat) (b : UInt8) : Res Buf :=
  if i < dst.length then .ok (dst.set i (some b)) else .ub

/-- `a = realloc(a, i+2); a[i] = x; a[i+1] = end`, u_map.c:204–212, 215–223, 226–234. -/
def appendAt {α : Type} (a : List α) (i : Nat) (x e : α) : Res (List α) :=
  if i ≤ a.length then .ok (a.take i ++ [x, e]) else .ub

/-- `values[i] = o_realloc(values[i], total + 1)` when the value grows, u_map.c:163–169. -/
def growValue (grow : Bool) (v : Ptr Buf) (total : Nat) : Res (Ptr Buf) :=
  if grow then
    if w64 (total + 1) = 0 then .ub
    else match v with
      | .to b => .ok (.to (resize b (w64 (total + 1))))
      | .null => .ok (.to (List.replicate (w64 (total + 1)) none))
      | .dead => .ub
  else .ok v

/-- The "key already exists" branch of `u_map_put_binary`, u_map.c:162–184. `oom = some j`: the `j`-th
allocation of the call fails. -/
def putExisting (m : UMap) (i : Nat) (value : Option Buf) (offset length : Nat) (oom : Option Nat) :
    Res (Rc × UMap) := do
  let ls ← deref m.lengths
  let vs ← deref m.values
  let l ← aget ls i
  let v ← aget vs i
  let total := w64 (offset + length)
  let grow := decide (l < total)
  if grow && oom == some 0 then
    .ok (.memory, { m with values := some (vs.set i .null) })
  else do
    let v1 ← growValue grow v total
    match value with
    | some src =>
      -- lines 170–175
      match v1 with
      | .to b => do
        let b1 ← memcpy b offset src length
        if grow then do
          let b2 ← poke b1 total 0
          .ok (.ok, { m with values := some (vs.set i (.to b2)), lengths := some (ls.set i total) })
        else .ok (.ok, { m with values := some (vs.set i (.to b1)) })
      | _ => .ub
    | none =>
      -- lines 176–180
      match v1 with
      | .dead => .ub
      | _ =>
        let nv : Ptr Buf := if oom = some (if grow then 1 else 0) then .null else .to (strBuf [])
        .ok (.ok, { m with values := some (vs.set i nv), lengths := some (ls.set i 0) })

/-- `dup_value`, u_map.c:193–204. -/
def dupValue (value : Option Buf) (offset length : Nat) (oom : Option Nat) : Res (Ptr Buf) :=
  match value with
  | some src =>
    if w64 (w64 (offset + length) + 1) = 0 then .ub
    else do
      let b ← memcpy (List.replicate (w64 (w64 (offset + length) + 1)) none) offset src length
      let b ← poke b (w64 (offset + length)) 0
      .ok (.to b)
  | none => .ok (if oom = some 1 then .null else .to (strBuf []))

/-- Appending to the three arrays, u_map.c:203–237. When a `realloc` fails `dup_key` and `dup_value` are freed
although `keys[i]` (and `values[i]`) already point to them. -/
def appendAll (m : UMap) (key : Bytes) (dup : Ptr Buf) (total : Nat) (oom : Option Nat) : Res (Rc × UMap) := do
  let ks ← deref m.keys
  let i ← sentinel 0 ks
  if oom = some 2 then .ok (.memory, { m with keys := none })
  else do
    let ks' ← appendAt ks i (.to key) .null
    let vs ← deref m.values
    if oom = some 3 then .ok (.memory, { m with keys := some (ks'.set i .dead), values := none })
    else do
      let vs' ← appendAt vs i dup .null
      let ls ← deref m.lengths
      if oom = some 4 then
        .ok (.memory, { m with keys := some (ks'.set i .dead), values := some (vs'.set i .dead),
                               lengths := none })
      else do
        let ls' ← appendAt ls i total 0
        .ok (.ok, { nb := m.nb + 1, keys := some ks', values := some vs', lengths := some ls' })

/-- The "not found" branch of `u_map_put_binary`, u_map.c:187–237. -/
def putNew (m : UMap) (key : Bytes) (value : Option Buf) (offset length : Nat) (oom : Option Nat) :
    Res (Rc × UMap) :=
  -- line 188: dup_key
  if oom = some 0 then .ok (.memory, m)
  -- lines 193–199: dup_value
  else if oom = some 1 ∧ value.isSome then .ok (.memory, m)
  else do
    let dup ← dupValue value offset length oom
    appendAll m key dup (w64 (offset + length)) oom

/-- `u_map_put_binary`, u_map.c:156–244. `value` is the memory readable at the pointer `value`. -/
def putBinary (m : UMap) (key : Option Bytes) (value : Option Buf) (offset length : Nat)
    (oom : Option Nat := none) : Res (Rc × UMap) :=
  match key with
  | none => .ok (.params, m)
  | some [] => .ok (.params, m)
  | some key => do
    -- `(offset+length+1) <= SIZE_MAX` is a comparison of a 64-bit value with 2^64-1: always true
    let ks ← deref m.keys
    match ← scanNb (fun k => k == key) m.nb 0 ks with
    | some i => putExisting m i value offset length oom
    | none => do
      let vs ← deref m.values
      match ← aget vs m.nb with
      | .null => putNew m key value offset length oom
      | _ => return (.ok, m)

/-- `u_map_put`, u_map.c:148–154. -/
def put (m : UMap) (key : Option Bytes) (value : Option Bytes) (oom : Option Nat := none) : Res (Rc × UMap) :=
  match value with
  | some v => putBinary m key (some (strBuf v)) 0 (v.length + 1) oom
  | none => putBinary m key none 0 0 oom

/-- `for (i = index; i < nb; i++) a[i] = a[i+1];`, u_map.c:351–355; `n` is the number of turns left. -/
def shift {α : Type} : (n i : Nat) → List α → Res (List α)
  | 0, _, a => .ok a
  | n + 1, i, a => do
    let x ← aget a (i + 1)
    shift n (i + 1) (a.set i x)

/-- `u_map_remove_at`, u_map.c:342–375 (for a non-negative index; a negative one is `U_ERROR_PARAMS`). -/
def removeAt (m : UMap) (index : Nat) : Res (Rc × UMap) :=
  if index ≥ m.nb then .ok (.notFound, m)
  else do
    let ks ← deref m.keys
    let vs ← deref m.values
    let ls ← deref m.lengths
    let ks' ← shift (m.nb - index) index ks
    let vs' ← shift (m.nb - index) index vs
    let ls' ← shift (m.nb - index) index ls
    return (.ok, { nb := m.nb - 1, keys := some (ks'.take m.nb), values := some (vs'.take m.nb),
                   lengths := some (ls'.take m.nb) })

/-- The loop of the remove functions, u_map.c:252–260 (and 275–283, 302–310, 325–333): `i` from `nb-1` down. -/
def removeLoop (p : UMap → Nat → Res Bool) : Nat → UMap → Bool → Res (Rc × UMap)
  | 0, m, found => .ok (if found then .ok else .notFound, m)
  | i + 1, m, found => do
    if ← p m i then do
      let (rc, m') ← removeAt m i
      if rc = .ok then removeLoop p i m' true else return (rc, m')
    else removeLoop p i m found

/-- `keys[i]` tested with a comparison of strings that accepts NULL. -/
def testKey (q : Bytes → Bool) (m : UMap) (i : Nat) : Res Bool := do
  let ks ← deref m.keys
  match ← aget ks i with
  | .null => return false
  | .to k => return q k
  | .dead => .ub

/-- `u_map_remove_from_key`, u_map.c:246–267. -/
def removeKey (m : UMap) (key : Option Bytes) : Res (Rc × UMap) :=
  match key with
  | none => .ok (.params, m)
  | some key => removeLoop (testKey (· == key)) m.nb m false

/-- `u_map_remove_from_key_case`, u_map.c:269–290. -/
def removeKeyCase (m : UMap) (key : Option Bytes) : Res (Rc × UMap) :=
  match key with
  | none => .ok (.params, m)
  | some key => removeLoop (testKey (eqCase · key)) m.nb m false

/-- `0 == memcmp(values[i], value, length)`, u_map.c:303. -/
def testValue (q : Buf → Res Bool) (m : UMap) (i : Nat) : Res Bool := do
  let vs ← deref m.values
  match ← aget vs i with
  | .to b => q b
  | _ => .ub

/-- `u_map_remove_from_value_binary`, u_map.c:296–317. -/
def removeValueBinary (m : UMap) (value : Option Buf) (length : Nat) : Res (Rc × UMap) :=
  match value with
  | none => .ok (.params, m)
  | some v => removeLoop (testValue (fun b => memEq b v length)) m.nb m false

/-- `u_map_remove_from_value`, u_map.c:292–294. -/
def removeValue (m : UMap) (value : Option Bytes) : Res (Rc × UMap) :=
  removeValueBinary m (value.map strBuf) ((value.getD []).length)

/-- `u_map_remove_from_value_case`, u_map.c:319–340. -/
def removeValueCase (m : UMap) (value : Option Bytes) : Res (Rc × UMap) :=
  match value with
  | none => .ok (.params, m)
  | some v => removeLoop (testValue (fun b => do let s ← readStr b; return eqCase s v)) m.nb m false

/-- The loop of `u_map_copy`, u_map.c:476–483; `i` indexes `source`. `none`: the function returns NULL. -/
def copyLoop (src : UMap) : Nat → List (Ptr Bytes) → UMap → Res (Option UMap)
  | _, [], _ => .ub
  | _, .null :: _, c => .ok (some c)
  | _, .dead :: _, _ => .ub
  | i, .to k :: t, c => do
    let v ← get src (some k)
    let ls ← deref src.lengths
    let l ← aget ls i
    let (rc, c') ← putBinary c (some k) v 0 l
    if rc = .ok then copyLoop src (i + 1) t c' else return none

/-- `u_map_copy`, u_map.c:461–487. -/
def copy (src : UMap) : Res (Option UMap) :=
  match src.keys with
  | none => .ok (some init)
  | some ks => copyLoop src 0 ks init

/-- `u_map_put(dest, key, p)` for a pointer `p` into memory: it takes `o_strlen(p)` first, u_map.c:148–154. -/
def putPtr (m : UMap) (key : Option Bytes) (p : Option Buf) : Res (Rc × UMap) :=
  match p with
  | none => put m key none
  | some b => do
    let s ← readStr b
    put m key (some s)

/-- The loop of `u_map_copy_into`, u_map.c:494–500. -/
def copyIntoLoop (src : UMap) : List (Ptr Bytes) → UMap → Res (Rc × UMap)
  | [], _ => .ub
  | .null :: _, d => .ok (.ok, d)
  | .dead :: _, _ => .ub
  | .to k :: t, d => do
    let v ← get src (some k)
    let (rc, d') ← putPtr d (some k) v
    if rc = .ok then copyIntoLoop src t d' else return (rc, d')

/-- `u_map_copy_into`, u_map.c:489–505 (`dest` and `source` distinct maps). -/
def copyInto (dest src : UMap) : Res (Rc × UMap) :=
  match src.keys with
  | none => .ok (.ok, dest)
  | some ks => copyIntoLoop src ks dest

end Verif.UMap
