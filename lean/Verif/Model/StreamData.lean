import Verif.Model.Answer
/-!
# Model of who frees the data of a stream

`ulfius_set_stream_response` gets data and a function that frees them (src/u_response.c:570–593). The dispatcher hands both to
`MHD_create_response_from_callback` (src/ulfius.c:655); from then on libmicrohttpd calls the function when the MHD response is destroyed, after the
answer was sent or when the dispatcher drops it (src/ulfius.c:934). Data are numbers, each with its function. A callback is a program of calls;
what else it does is any function that leaves the stream alone. `user` of the world records the data handed over, in order.
-/
namespace Verif.StreamData
open Verif.Message Verif.Answer

/-- The body of a callback, as far as streams are concerned; it may look at anything it reads. -/
inductive Prog where
  | done (ret : Int)
  | give (status size block d : Nat) (next : Prog)                                    -- ulfius_set_stream_response
  | other (g : World (List Nat) → World (List Nat)) (next : World (List Nat) → Prog)  -- anything else

/-- A callback runs. -/
def run : Prog → World (List Nat) → Int × World (List Nat)
  | .done ret, w => (ret, w)
  | .give status size block d next, w =>
    run next { w with resp := setStream w.resp status (size, block, d), user := w.user ++ [d] }
  | .other g next, w =>
    run (next w) ⟨{ (g w).resp with stream := w.resp.stream }, (g w).ws, w.user⟩

/-- A callback that chooses what to do by what it sees. -/
def callback (p : Nat → World (List Nat) → Prog) : Callback (List Nat) := fun pos w => run (p pos w) w

/-- `MHD_destroy_response`: the function that frees the data of a stream is called; a response made of a buffer or a protocol switch has none. -/
def destroyed : Option Msg → List Nat
  | some ⟨_, .stream c⟩ => [c.2.2]
  | _ => []

/-- A request from the first callback to the end of its answer, src/ulfius.c:592–1054 as in `Verif.Answer.dispatch`: the answer, the data handed
over, the data freed. The response made before the default endpoint is called as a fallback is destroyed first (932–936). -/
def serve (cfg : Cfg (List Nat)) (eps : List (Nat → World (List Nat) → Prog)) (dflt : Option (Nat → World (List Nat) → Prog)) :
    Res (Option Ans × List Nat × List Nat) := do
  let list := match eps.map callback, dflt.map callback with
    | [], some d => [(Dispatch.Who.dflt, d)]
    | eps, _ => number 0 eps
  if list.isEmpty then return (some ⟨404, none, [], .buffer notFoundBody⟩, [], [])
  else
    let h ← initHeaders cfg.defaults
    let s ← loop cfg list ⟨⟨{ header := h }, false, []⟩, 0, [], none, false, none, false⟩
    let s' ← fallback cfg (dflt.map callback) s
    return (answer s', s'.w.user, (if dflt.isSome && s.pos == 0 then destroyed s.resp else []) ++ destroyed s'.resp)

end Verif.StreamData
