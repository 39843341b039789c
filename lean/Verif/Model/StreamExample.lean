import Verif.Model.Website
import Verif.Model.Endpoint
import Verif.Model.Printf
/-!
# Model of the stream example

example_programs/stream_example/stream_example.c; the lines given are those of this file. Allocations succeed.
-/
namespace Verif.StreamExample
open Verif.UMap Verif.Message Verif.Answer Verif.Printf
open Verif.Website (Disk Node)
open Verif.Spec.Stream (Piece Reader)

/-- What `response->stream_user_data` points to: a string, or an open file, here its path. -/
inductive Source where
  | text (s : Bytes)
  | file (path : Bytes)
  deriving DecidableEq, Repr

/-- The streams that were made; the number of a stream is its place in the list. -/
abbrev Sources := List Source

/-- `U_STREAM_SIZE_UNKNOWN`, include/ulfius.h:107: `MHD_SIZE_UNKNOWN`. -/
def unknownSize : Nat := 2 ^ 64 - 1

/-- `callback_get_stream`, lines 81–86. -/
def getStream : Callback Sources := fun _ w =>
  (Dispatch.cbContinue, { w with resp := setStream w.resp 200 (unknownSize, 32 * 1024, w.user.length), user := w.user ++ [.text b!"stream test"] })

/-- `U_ERROR`, include/ulfius.h:111: it has the value of `U_CALLBACK_IGNORE`. -/
def uError : Int := 1

/-- `callback_get_audio_stream`, lines 88–114; `path` is `user_data`. `fileno` of an open file does not fail, nor does `fstat` of it. -/
def audioStream (d : Disk) (path : Bytes) (r : Response) (s : Sources) : Res (Int × Response × Sources) :=
  match d.fopen path with
  | some (.dir _) => .ok (uError, r, s)                                  -- not a regular file, refuse to serve
  | some (.file c) => do
    let (_, h) ← UMap.put r.header (some b!"Content-Type") (some b!"audio/mpeg")
    return (Dispatch.cbContinue, setStream { r with header := h } 200 (c.length, 32 * 1024, s.length), s ++ [.file path])
  | none => .ok (Dispatch.cbError, r, s)

/-- The callback as the dispatcher calls it. -/
def getAudio (d : Disk) (path : Bytes) : Callback Sources := fun _ w =>
  match audioStream d path w.resp w.user with
  | .ok (ret, r, s) => (ret, { w with resp := r, user := s })
  | .ub => (Dispatch.cbError, w)

/-- `stream_data`, lines 116–125: `snprintf` writes at most `max - 1` characters and a NUL, `o_strlen(buf)` is returned. -/
def streamData (cls : Bytes) : Reader Unit := fun st pos max =>
  if pos ≤ 100 then
    match (cls ++ b!" " ++ decimal pos ++ b!"\n").take (max - 1) with
    | [] => (.notYet, st)
    | b => (.data b, st)
  else (.theEnd, st)

/-- `stream_audio_file`, lines 127–132, of a file that changes: it has the content `content t` when it is read for the `t`th time. -/
def audioFile (content : Nat → Bytes) : Reader Nat := fun t pos max =>
  match ((content t).drop pos).take max with
  | [] => (.notYet, t + 1)
  | b => (.data b, t + 1)

/-- The endpoints, lines 54–57, for `argc > 1`, and the empty one that ends the array. -/
def endpoints : List Endpoint.Endpoint :=
  [⟨some b!"GET", some b!"/stream", none, 0, some 0, 0⟩,
   ⟨some b!"GET", some b!"/stream", some b!"/audio", 0, some 1, 0⟩,
   Endpoint.emptyEndpoint]

/-- The callback of an endpoint. -/
def callbackOf (d : Disk) (path : Bytes) (e : Endpoint.Endpoint) : Callback Sources :=
  match e.callback with
  | some 0 => getStream
  | _ => getAudio d path

/-- `u_map_put(instance.default_headers, "Access-Control-Allow-Origin", "*")`, line 51, on the empty map. -/
def defaults : Res UMap := do
  let (_, m) ← UMap.put UMap.init (some b!"Access-Control-Allow-Origin") (some b!"*")
  return m

/-- The instance, lines 46–57: `accept` is libmicrohttpd; there is no default endpoint. -/
def instanceOf (accept : List Field → Bytes → Bytes → Bool) : Res (Cfg Sources) := do
  let m ← defaults
  return { accept := accept, hand := fun _ => .failed, realm := none, defaults := some m }

/-- A request: the answer and the streams made for it. -/
def Serves (accept : List Field → Bytes → Bytes → Bool) (d : Disk) (path method url : Bytes) (a : Res (Option Ans × Option Sources)) : Prop :=
  ∃ r, Endpoint.EndpointMatch method url endpoints r ∧ a = do
    let cfg ← instanceOf accept
    let (ans, evs) ← dispatch cfg (r.map (callbackOf d path)) none []
    return (ans, evs.getLast?.map (·.after.user))

end Verif.StreamExample
