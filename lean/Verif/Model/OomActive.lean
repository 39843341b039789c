import Verif.Basic
/-! # Model: the table of active websockets when memory runs out

`ulfius_instance_add_websocket_active` and `ulfius_instance_remove_websocket_active` (u_websocket.c:1420–1482) with failing
allocations, their callers (ulfius.c:769 and `ulfius_clear_websocket`, u_websocket.c:1686–1688, which both ignore the return value) and
the loops of `ulfius_stop_framework` (ulfius.c:1330–1338).

Simplified: the calls come one after the other (interleavings with memory enough: `Model/Active`); locks work; a websocket is a number;
blocks are told apart only as the one `websocket_active` points to and those nothing points to any more. An entry never written is
`none`; reading it, and reading behind a NULL pointer, is undefined behaviour. -/
namespace Verif.OomActive

/-- `U_OK`, `U_ERROR_MEMORY`, `U_ERROR_PARAMS`, `U_ERROR_NOT_FOUND`. -/
inductive Rc where
  | ok | memory | params | notFound
deriving DecidableEq

/-- `websocket_active` and `nb_websocket_active` of `struct _websocket_handler` (u_private.h), and the number of blocks the pointer was
lost of. -/
structure Tab where
  table : Option (List (Option Nat)) := none
  nb : Nat := 0
  lost : Nat := 0
deriving DecidableEq

/-- `ulfius_instance_add_websocket_active`, u_websocket.c:1420–1440. `enough`: `o_realloc` of 1422 succeeds; otherwise its NULL
replaces the only pointer to the old block, and the count stays. -/
def add (t : Tab) (w : Nat) (enough : Bool) : Rc × Tab :=
  if enough then
    let old := t.table.getD []
    let grown := old.take (t.nb + 1) ++ List.replicate (t.nb + 1 - old.length) none
    (.ok, { t with table := some (grown.set t.nb (some w)), nb := t.nb + 1 })
  else (.memory, { t with table := none, lost := t.lost + (if t.table.isSome then 1 else 0) })

/-- The loop of u_websocket.c:1457–1458: the first of `n` entries that is `w`. -/
def search (w : Nat) : Nat → List (Option Nat) → Res (Option Nat)
  | 0, _ => .ok none
  | _ + 1, [] => .ub
  | _ + 1, none :: _ => .ub
  | n + 1, some x :: r => if x = w then .ok (some 0) else do
      let k ← search w n r
      pure (k.map (· + 1))

/-- `ulfius_instance_remove_websocket_active`, u_websocket.c:1445–1482. `enough`: `o_realloc` of 1463 succeeds; otherwise NULL replaces
the pointer, the count is lowered all the same (1472) and `U_ERROR_MEMORY` is overwritten with `U_OK` (1476). -/
def remove (t : Tab) (w : Nat) (enough : Bool) : Res (Rc × Tab) :=
  match t.table with
  | none => .ok (.params, t)
  | some c => do
    match ← search w t.nb c with
    | none => pure (.notFound, t)
    | some k =>
      if t.nb > 1 then
        if enough then pure (.ok, { t with table := some ((c.take t.nb).eraseIdx k), nb := t.nb - 1 })
        else pure (.ok, { table := none, nb := t.nb - 1, lost := t.lost + 1 })
      else pure (.ok, { t with table := none, nb := t.nb - 1 })

/-- The loop of ulfius.c:1330–1332: the websockets whose `close_flag` is set, from the last entry to the first. -/
def flag (c : List (Option Nat)) : Nat → Res (List Nat)
  | 0 => .ok []
  | n + 1 => match c[n]? with
    | some (some w) => do
      let l ← flag c n
      pure (w :: l)
    | _ => .ub

/-- The first part of `ulfius_stop_framework`, ulfius.c:1327–1334: whom it tells to close. -/
def tell (t : Tab) : Res (List Nat) :=
  match t.table with
  | none => if t.nb = 0 then .ok [] else .ub
  | some c => flag c t.nb

/-- The condition of the second part, ulfius.c:1336: `ulfius_stop_framework` waits as long as this holds. -/
def waits (t : Tab) : Bool := t.nb > 0

/-- What happens to the table: a websocket opens (ulfius.c:769) or ends (u_websocket.c:1687), with memory enough or not. -/
inductive Event where
  | opens (w : Nat) (enough : Bool)
  | ends (w : Nat) (enough : Bool)
deriving DecidableEq

/-- One event; the callers do not look at the return value. -/
def step (t : Tab) : Event → Res Tab
  | .opens w enough => .ok (add t w enough).2
  | .ends w enough => do
    let r ← remove t w enough
    pure r.2

/-- All events, one after the other. -/
def run : Tab → List Event → Res Tab
  | t, [] => .ok t
  | t, e :: l => do
    let t ← step t e
    run t l

/-- `ulfius_stop_framework` after the events: whom it tells to close. -/
def tellAfter (l : List Event) : Res (List Nat) := do
  let t ← run {} l
  tell t

end Verif.OomActive
