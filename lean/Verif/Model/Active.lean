import Verif.Basic
/-! # Model: the table of active websockets and the end of the server

`ulfius_instance_add_websocket_active` and `ulfius_instance_remove_websocket_active` (u_websocket.c:1420–1482), the part
of `ulfius_start_websocket_cb` and `ulfius_clear_websocket` around them (1193–1233, 1678–1699), `ulfius_stop_framework`
(ulfius.c:1322–1351) and the end of `ulfius_clean_instance` (1655–1668), as threads that interleave.

One action is one lock operation or one access to the shared table. Coarser than the code: within one action are the
allocation of `o_realloc` and the store of its result; the write of the new entry and `nb_websocket_active++` (1428–1429,
both under the lock); the search, the shift and the reallocation of 1457–1470 (under the lock); the loop that sets the
flags (1331–1333, under the lock). Allocations and lock calls succeed, mutexes are those of POSIX, a condition variable
may wake up spuriously. Reading or writing a block that was freed or outside its size, reading an entry never
written, and using the handler after it was freed are undefined behaviour (`Res.ub`). -/
namespace Verif.Active

/-- The owner of a mutex: the thread of websocket `i` or the thread that called `ulfius_stop_framework`. -/
inductive Who where
  | ws (i : Nat)
  | stop
deriving DecidableEq

/-- Where the thread that serves a connection is. -/
inductive Pc where
  /-- the request is not yet answered -/
  | idle
  /-- 1422: pointer and count are read, `o_realloc` is not called yet -/
  | growing (p : Option Nat) (n : Nat)
  /-- 1424: the lock comes next -/
  | grown
  /-- 1428: the lock is held, the entry comes next -/
  | adding
  /-- 1430: the unlock comes next -/
  | added
  /-- ulfius.c:770: registered, `ulfius_start_websocket_cb` is not called yet -/
  | listed
  /-- `ulfius_thread_websocket` runs -/
  | running
  /-- 1451: `ulfius_instance_remove_websocket_active` is called -/
  | closing
  /-- 1452: the lock comes next -/
  | removing
  /-- 1457: the lock is held, the search comes next -/
  | finding
  /-- 1471: the entry is out of the table -/
  | cut
  /-- 1472: `websocket_close_lock` comes next -/
  | lowered
  /-- 1473: the broadcast comes next -/
  | telling
  /-- 1474: the unlock of `websocket_close_lock` comes next -/
  | told
  /-- 1479: the unlock of `websocket_active_lock` comes next -/
  | leaving
  /-- the websocket is cleared -/
  | gone
  /-- the connection was lost before the upgrade: libmicrohttpd never calls `ulfius_start_websocket_cb` -/
  | lost
deriving DecidableEq

/-- Where `ulfius_stop_framework` is, ulfius.c:1326–1343. -/
inductive StopPc where
  /-- 1327: `websocket_active_lock` comes next -/
  | start
  /-- 1331: the loop over the table comes next -/
  | flag
  /-- 1334: the unlock comes next -/
  | flagged
  /-- 1336, and the way back from 1338: `websocket_close_lock` comes next -/
  | lockClose
  /-- 1337: the test comes next -/
  | test
  /-- 1338: the count was not 0, the call of `pthread_cond_wait` comes next -/
  | tested
  /-- 1338: in `pthread_cond_wait` -/
  | asleep
  /-- 1340: the unlock comes next -/
  | exit
  /-- the function has returned -/
  | returned
deriving DecidableEq

/-- The state shared by all threads. `heap` gives the entries of the live blocks; an entry is `none` until written. -/
structure Sys where
  table : Option Nat := none
  heap : Nat → Option (List (Option Nat)) := fun _ => none
  fresh : Nat := 0
  nb : Nat := 0
  lockA : Option Who := none
  lockC : Option Who := none
  pc : Nat → Pc := fun _ => .idle
  closeFlag : Nat → Bool := fun _ => false
  stop : StopPc := .start
  freed : Bool := false

/-- Replace one value of a function. -/
def upd {α : Type} (f : Nat → α) (i : Nat) (a : α) : Nat → α := fun j => if j = i then a else f j

/-- `websocket_active = o_realloc(p, n * sizeof(struct _websocket *))`, u_websocket.c:1422, 1464. -/
def resize (s : Sys) (p : Option Nat) (n : Nat) : Res Sys :=
  match p with
  | none => .ok { s with
      table := some s.fresh, heap := upd s.heap s.fresh (some (List.replicate n none)), fresh := s.fresh + 1 }
  | some g =>
    match s.heap g with
    | none => .ub
    | some c => .ok { s with
        table := some s.fresh
        heap := upd (upd s.heap g none) s.fresh (some (c.take n ++ List.replicate (n - c.length) none))
        fresh := s.fresh + 1 }

/-- The entries behind `websocket_active`; undefined when there is no live block. -/
def entries (s : Sys) : Res (List (Option Nat)) :=
  match s.table with
  | none => .ub
  | some g => match s.heap g with
    | none => .ub
    | some c => .ok c

/-- The loop of u_websocket.c:1457–1458: the first of `n` entries that is `w`. -/
def search (w : Nat) : Nat → List (Option Nat) → Res (Option Nat)
  | 0, _ => .ok none
  | _ + 1, [] => .ub
  | _ + 1, none :: _ => .ub
  | n + 1, some x :: r => if x = w then .ok (some 0) else do
      let k ← search w n r
      pure (k.map (· + 1))

/-- u_websocket.c:1459–1470: take entry `k` of a table of `s.nb` out. -/
def takeOut (s : Sys) (c : List (Option Nat)) (k : Nat) : Res Sys :=
  if s.nb > 1 then
    if c.length < s.nb then .ub
    else do
      -- the shifted entries are in the block when it is reallocated
      let s' := { s with heap := upd s.heap (s.table.getD 0) (some ((c.take s.nb).eraseIdx k)) }
      resize s' s.table (s.nb - 1)
  else .ok { s with heap := upd s.heap (s.table.getD 0) none, table := none }

/-- The loop of ulfius.c:1331–1333 over the first `n` entries. -/
def setFlags (f : Nat → Bool) : Nat → List (Option Nat) → Res (Nat → Bool)
  | 0, _ => .ok f
  | _ + 1, [] => .ub
  | _ + 1, none :: _ => .ub
  | n + 1, some x :: r => do
      let f' ← setFlags f n r
      pure (upd f' x true)

/-- Move thread `i` to `q`. -/
def go (s : Sys) (i : Nat) (q : Pc) : Sys := { s with pc := upd s.pc i q }

/-- One step of the thread of connection `i`; `none` when it cannot move. -/
def wsStep (s : Sys) (i : Nat) : Option (Res Sys) :=
  match s.pc i with
  | .idle => some (if s.freed then .ub else .ok (go s i (.growing s.table s.nb)))
  | .growing p n => some (if s.freed then .ub else do
      let s' ← resize s p (n + 1)
      pure (go s' i .grown))
  | .grown => if s.freed then some .ub else
      match s.lockA with
      | none => some (.ok (go { s with lockA := some (.ws i) } i .adding))
      | some _ => none
  | .adding => some (if s.freed then .ub else do
      let c ← entries s
      if s.nb < c.length then
        pure (go { s with heap := upd s.heap (s.table.getD 0) (some (c.set s.nb (some i))), nb := s.nb + 1 } i .added)
      else .ub)
  | .added => some (if s.freed then .ub else .ok (go { s with lockA := none } i .listed))
  | .listed => some (.ok (go { s with closeFlag := upd s.closeFlag i false } i .running))
  | .running => some (.ok (go s i .closing))
  | .closing => some (if s.freed then .ub else
      match s.table with
      | none => .ok (go s i .gone)
      | some _ => .ok (go s i .removing))
  | .removing => if s.freed then some .ub else
      match s.lockA with
      | none => some (.ok (go { s with lockA := some (.ws i) } i .finding))
      | some _ => none
  | .finding => some (if s.freed then .ub else
      if s.nb = 0 then .ok (go s i .leaving) else do
        let c ← entries s
        let r ← search i s.nb c
        match r with
        | none => .ok (go s i .leaving)
        | some k => do
          let s' ← takeOut s c k
          pure (go s' i .cut))
  | .cut => some (if s.freed then .ub else .ok (go { s with nb := s.nb - 1 } i .lowered))
  | .lowered => if s.freed then some .ub else
      match s.lockC with
      | none => some (.ok (go { s with lockC := some (.ws i) } i .telling))
      | some _ => none
  | .telling => some (if s.freed then .ub else
      .ok (go { s with stop := if s.stop = .asleep then .lockClose else s.stop } i .told))
  | .told => some (if s.freed then .ub else .ok (go { s with lockC := none } i .leaving))
  | .leaving => some (if s.freed then .ub else .ok (go { s with lockA := none } i .gone))
  | .gone => none
  | .lost => none

/-- One step of `ulfius_stop_framework`, ulfius.c:1322–1344. -/
def stopStep (s : Sys) : Option (Res Sys) :=
  match s.stop with
  | .start => match s.lockA with
      | none => some (.ok { s with lockA := some .stop, stop := .flag })
      | some _ => none
  | .flag => some (if s.nb = 0 then .ok { s with stop := .flagged } else do
      let c ← entries s
      let f ← setFlags s.closeFlag s.nb c
      pure { s with closeFlag := f, stop := .flagged })
  | .flagged => some (.ok { s with lockA := none, stop := .lockClose })
  | .lockClose => match s.lockC with
      | none => some (.ok { s with lockC := some .stop, stop := .test })
      | some _ => none
  | .test => some (.ok { s with stop := if s.nb > 0 then .tested else .exit })
  | .tested => some (.ok { s with lockC := none, stop := .asleep })
  | .asleep => none
  | .exit => some (.ok { s with lockC := none, stop := .returned })
  | .returned => none

/-- What can happen next: a step of a connection's thread, a step of `ulfius_stop_framework`, a spurious wakeup, the loss
of a connection before its upgrade, or the application calling `ulfius_clean_instance` after the stop. -/
inductive Act where
  | ws (i : Nat)
  | stop
  | spurious
  | drop (i : Nat)
  | clean
deriving DecidableEq

/-- The effect of an action; `none` when it cannot happen. -/
def next (s : Sys) : Act → Option (Res Sys)
  | .ws i => wsStep s i
  | .stop => stopStep s
  | .spurious => if s.stop = .asleep then some (.ok { s with stop := .lockClose }) else none
  | .drop i => if s.pc i = .listed then some (.ok (go s i .lost)) else none
  | .clean => if s.stop = .returned ∧ s.freed = false then some (.ok { s with freed := true }) else none

/-- Run a list of actions; an action that cannot happen is skipped. -/
def exec : List Act → Sys → Res Sys
  | [], s => .ok s
  | a :: r, s => match next s a with
    | none => exec r s
    | some .ub => .ub
    | some (.ok s') => exec r s'

end Verif.Active
