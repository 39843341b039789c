import Verif.Basic
/-!
# Model: several threads that use one list of websocket messages

`ulfius_push_websocket_message` (u_websocket.c:1298–1311) and `ulfius_websocket_pop_first_message` (1640–1657) statement by
statement. The list of incoming messages is filled by the thread of the websocket (735) and by every thread that closes it (1523),
without a lock; a program takes messages from it in any thread. One action is one statement; that already shows what can happen,
although C allows more (two threads in the functions at the same time are a data race). Allocations succeed.
-/
namespace Verif.WsLists

/-- A call. -/
inductive Job (α : Type) where
  | push (m : α)
  | pop
  deriving DecidableEq, Repr

/-- Where a thread is. -/
inductive Pc (α : Type) where
  | ready
  /-- 1302: the slot is written next -/
  | write (m : α)
  /-- 1303 -/
  | grow (m : α)
  /-- 1644–1647: the first message has been taken and the others are moved next -/
  | move (m : Option α)
  /-- 1648–1653 -/
  | shrink (m : Option α)
  /-- 1654 -/
  | less (m : Option α)
  deriving DecidableEq, Repr

structure Thread (α : Type) where
  todo : List (Job α)
  pc : Pc α := .ready
  deriving DecidableEq, Repr

/-- `struct _websocket_message_list`: `len` and the block (a slot is `none` until it is written). `pushed`: the messages of the calls
that have returned, in this order; `popped`: the results of the calls that have returned (`none`: a slot that was never written). -/
structure Sys (α : Type) where
  len : Nat := 0
  list : List (Option α) := []
  pushed : List α := []
  popped : List (Option α) := []
  th : Nat → Thread α

def start {α : Type} (jobs : Nat → List (Job α)) : Sys α := { th := fun i => ⟨jobs i, .ready⟩ }

/-- Thread `i` goes on. -/
def go {α : Type} (s : Sys α) (i : Nat) (pc : Pc α) : Sys α :=
  { s with th := fun k => if k = i then ⟨(s.th i).todo, pc⟩ else s.th k }

/-- Thread `i` begins the next call. -/
def take {α : Type} (s : Sys α) (i : Nat) (t : List (Job α)) (pc : Pc α) : Sys α :=
  { s with th := fun k => if k = i then ⟨t, pc⟩ else s.th k }

/-- `o_realloc`: what fits stays, new slots are not written. -/
def resize {α : Type} (l : List (Option α)) (n : Nat) : List (Option α) := l.take n ++ List.replicate (n - l.length) none

/-- The loop of u_websocket.c:1645–1647, `list[0] = list[1]` and so on up to `len - 1`. -/
def shift {α : Type} (l : List (Option α)) (len : Nat) : List (Option α) := (l.drop 1).take (len - 1) ++ l.drop (len - 1)

/-- One statement of thread `i`. -/
def step {α : Type} (s : Sys α) (i : Nat) : Res (Sys α) :=
  match (s.th i).pc with
  | .ready =>
    match (s.th i).todo with
    | [] => .ok s
    | .push m :: t => .ok (take { s with list := resize s.list (s.len + 1) } i t (.write m))
    | .pop :: t =>
      if s.len > 0 then
        match s.list with
        | [] => .ub
        | m :: _ => .ok (take s i t (.move m))
      else .ok (take s i t .ready)
  | .write m => if s.len < s.list.length then .ok (go { s with list := s.list.set s.len (some m) } i (.grow m)) else .ub
  | .grow m => .ok (go { s with len := s.len + 1, pushed := s.pushed ++ [m] } i .ready)
  | .move m => if s.len ≤ s.list.length then .ok (go { s with list := shift s.list s.len } i (.shrink m)) else .ub
  | .shrink m => .ok (go { s with list := if s.len > 1 then resize s.list (s.len - 1) else [] } i (.less m))
  | .less m => .ok (go { s with len := s.len - 1, popped := s.popped ++ [m] } i .ready)

def exec {α : Type} : Sys α → List Nat → Res (Sys α)
  | s, [] => .ok s
  | s, i :: t => do
    let s ← step s i
    exec s t

end Verif.WsLists
