import Verif.Model.Send
import Verif.Model.Printf
/-!
# Model of the body functions of streaming requests, `src/u_send_request.c:608–622`, `example_programs/stream_example/stream_client.c`

`ulfius_send_http_streaming_request` hands a function and a pointer to libcurl (`CURLOPT_WRITEFUNCTION`, `CURLOPT_WRITEDATA`), each only if it
is not NULL. What libcurl does with an option that was not set is documented by libcurl: the function is `fwrite`, the pointer is `stdout`.
The transfer is that of `Model/Send`. The two functions of the example client print what they get.

libcurl hands over `nmemb` bytes with `size` 1, and says nothing about what lies behind them in memory; `Piece.behind` is that memory up to the
end of what may be read.
-/
namespace Verif.StreamClient
open Verif.UMap (Buf readStr)
open Verif.Spec.Curl (Opt)

/-- A pointer of the program. -/
inductive Data where
  | null
  /-- the standard output -/
  | stdout
  /-- some object of the program -/
  | own (n : Nat)
  deriving DecidableEq, Repr

/-- What is done with a piece of the body. -/
inductive Target where
  /-- the function of the program is called with this pointer -/
  | function (d : Data)
  /-- it is written to this file with `fwrite` -/
  | file (d : Data)
  deriving DecidableEq, Repr

/-- libcurl: the function and the pointer, or their defaults. -/
def target (opts : List Opt) (d : Data) : Target :=
  let p := if .writeData ∈ opts then d else .stdout
  if .writeFunction ∈ opts then .function p else .file p

/-- `write_body_function != NULL`, `write_body_data != NULL`, u_send_request.c:610, 617. -/
def sink (function : Bool) (d : Data) : Send.Sink := ⟨function, decide (d ≠ .null)⟩

/-- `ulfius_send_http_streaming_request_max_header(request, response, function, d, max)`; `ulfius_send_http_streaming_request` has `max` 0,
u_send_request.c:277–279. With the outcome, where the pieces of the body went. -/
def stream (c : Send.Curl) (request : Option Message.Request) (response : Option Message.Response) (function : Bool) (d : Data) (max : Nat) :
    Res (Send.Outcome × List (Target × Bytes)) := do
  let o ← Send.sendStreaming c request response (sink function d) max
  return (o, match o.performed with
    | some opts => o.chunks.map (fun b => (target opts d, b))
    | none => [])

/-- What libcurl hands to the function. -/
structure Piece where
  data : Bytes
  behind : Buf
  deriving DecidableEq, Repr

/-- `my_write_body`, stream_client.c:25–30: `printf("got %s", contents)`; the text printed and the result. -/
def writeBody (p : Piece) : Res (Bytes × Nat) := do
  let s ← readStr (p.data.map some ++ p.behind)
  return (b!"got " ++ s, 1 * p.data.length)

/-- `my_write_meta_body`, stream_client.c:32–38. -/
def writeMeta (p : Piece) : Res (Bytes × Nat) :=
  .ok (b!"got " ++ Printf.decimal 1 ++ b!" " ++ Printf.decimal p.data.length ++ b!"\n", 1 * p.data.length)

/-- libcurl hands over the pieces until the function does not take one whole; the text printed, and whether all were taken. -/
def handAll (f : Piece → Res (Bytes × Nat)) : List Piece → Res (Bytes × Bool)
  | [] => .ok ([], true)
  | p :: t => do
    let (s, n) ← f p
    if n = p.data.length then do
      let (r, b) ← handAll f t
      return (s ++ r, b)
    else return (s, false)

end Verif.StreamClient
