import Verif.Model.Answer
/-!
# Model of the data callbacks share

`struct _u_response` has a pointer `shared_data` that one callback sets and the next ones read, and a function `free_shared_data` that
frees it (include/ulfius.h, `struct _u_response`). Data and functions are numbers. A callback is a program of calls on the response; what
else it does to the world is any function that leaves the two fields alone. Everything that happens to the data is recorded in order.
The dispatcher is `Verif.Answer.dispatch`; it reads and writes neither field before the answer is queued.
-/
namespace Verif.Shared
open Verif.Message Verif.Answer

/-- What happens to the data: handed over with a function or without, read by a callback, given to a function that frees it. -/
inductive Act where
  | gave (d : Nat) (f : Option Nat)
  | read (d : Option Nat)
  | freed (f d : Nat)
  deriving DecidableEq, Repr

/-- The body of a callback, as far as the shared data are concerned; it may look at anything it reads. -/
inductive Prog where
  | done (ret : Int)
  | set (d f : Option Nat) (next : Prog)                        -- ulfius_set_response_shared_data
  | option (d : Nat) (next : Prog)                              -- ulfius_set_response_properties, U_OPT_SHARED_DATA
  | look (next : Option Nat → Prog)                             -- response->shared_data
  | other (g : Response → Response) (next : Response → Prog)    -- anything else

/-- `if (response->free_shared_data != NULL && response->shared_data != NULL) response->free_shared_data(response->shared_data)`,
u_response.c:666–668 and ulfius.c:1036–1038. -/
def release (r : Response) : List Act :=
  match r.freeShared, r.shared with
  | some f, some d => [.freed f d]
  | _, _ => []

/-- `ulfius_set_response_shared_data`, u_response.c:664–675. -/
def setData (w : World (List Act)) (d f : Option Nat) : World (List Act) :=
  match d with
  | none => w
  | some x => { w with resp := (setShared w.resp d f).2, user := w.user ++ release w.resp ++ [.gave x f] }

/-- `case U_OPT_SHARED_DATA`, u_response.c:645–647. -/
def setOption (w : World (List Act)) (d : Nat) : World (List Act) :=
  { w with resp := { w.resp with shared := some d }, user := w.user ++ [.gave d none] }

/-- A callback runs. -/
def run : Prog → World (List Act) → Int × World (List Act)
  | .done ret, w => (ret, w)
  | .set d f next, w => run next (setData w d f)
  | .option d next, w => run next (setOption w d)
  | .look next, w => run (next w.resp.shared) { w with user := w.user ++ [.read w.resp.shared] }
  | .other g next, w =>
    run (next w.resp) { w with resp := { g w.resp with shared := w.resp.shared, freeShared := w.resp.freeShared } }

/-- A callback that chooses what to do by what it sees. -/
def callback (p : Nat → World (List Act) → Prog) : Callback (List Act) := fun pos w => run (p pos w) w

/-- What happened in the end, ulfius.c:1020–1041: the data are freed when there is an answer, after it was queued. -/
def ended (ans : Option Ans) (evs : List (Ev (List Act))) : List Act :=
  match evs.getLast? with
  | none => []
  | some e => e.after.user ++ (if ans.isSome then release e.after.resp else [])

/-- A request from the first callback to the end of the dispatcher. -/
def serve (cfg : Cfg (List Act)) (eps : List (Nat → World (List Act) → Prog)) (dflt : Option (Nat → World (List Act) → Prog)) :
    Res (Option Ans × List Act) := do
  let (ans, evs) ← dispatch cfg (eps.map callback) (dflt.map callback) []
  return (ans, ended ans evs)

end Verif.Shared
