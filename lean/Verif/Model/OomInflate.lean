import Verif.Model.OomDeflate
/-!
# Model of receiving compressed messages when memory runs out, `src/u_websocket.c:589–652, 722–760, 2048–2130`

The messages of `Model/DeflateData`, each with the allocations that fail on its way in, and the blocks nobody frees afterwards.

Simplifications: one extension (`permessage-deflate`), whole binary messages that carry its bit, and nothing else goes wrong on the websocket (for the frames themselves see
`Model/OomWs`). zlib is a parameter, as in `Model/DeflateData`; input it refuses is refused by the first call. `o_malloc(0)` may fail.
-/
namespace Verif.OomInflate
open Verif.DeflateData
open Verif.OomDeflate (turns)

variable {C D : Type}

/-- Which allocations succeed on the way of a message. -/
structure Mem where
  /-- `o_malloc(message->data_len)`, u_websocket.c:598 -/
  copy : Bool := true
  /-- `o_malloc(data_len_in+4)`, u_websocket.c:2071 -/
  suffix : Bool := true
  /-- the number of the `o_realloc` that fails, u_websocket.c:2080 -/
  buffer : Option Nat := none
  /-- `o_malloc(data_len_in)` for an empty message, u_websocket.c:2117 -/
  empty : Bool := true
  /-- `o_malloc(data_out_len)`, u_websocket.c:625 -/
  out : Bool := true
  deriving DecidableEq, Repr

/-- What comes of a message: its data for the callback, unless there was an error, the stream, and the number of blocks nobody frees. -/
structure Got (D : Type) where
  data : Option Bytes
  stream : D
  lost : Nat := 0

/-- `websocket_extension_message_in_inflate`, u_websocket.c:2048–2130, with a context. When a buffer cannot be made larger the pointer to it is
overwritten (2080). -/
def inflateIn (Z : Zlib C D) (d : D) (mem : Mem) (data : Bytes) : Got D :=
  if data.length ≠ 0 ∧ data.length ≤ 2 ^ 63 - 1 - 4 then
    if mem.suffix then
      if mem.buffer = some 0 then ⟨none, d, 0⟩
      else match Z.inflate d ((data ++ [0x00, 0x00, 0xff, 0xff]).take ((data.length % 2 ^ 32 + 4) % 2 ^ 32)) with
        | none => ⟨none, d, 0⟩
        | some (d', pending) =>
          match mem.buffer with
          | some k => if k < turns pending then ⟨none, d', 1⟩ else ⟨some (collect pending []), d', 0⟩
          | none => ⟨some (collect pending []), d', 0⟩
    else ⟨none, d, 0⟩
  else if mem.empty then ⟨some data, d, 0⟩ else ⟨none, d, 0⟩

/-- `ulfius_websocket_extension_message_in_perform_apply`, u_websocket.c:589–652. -/
def apply (Z : Zlib C D) (d : D) (mem : Mem) (data : Bytes) : Got D :=
  if data = [] ∨ mem.copy = true then
    match inflateIn Z d mem data with
    | ⟨none, d', n⟩ => ⟨none, d', n⟩
    | ⟨some x, d', n⟩ => if x = [] ∨ mem.out = true then ⟨some x, d', n⟩ else ⟨none, d', n⟩
  else ⟨none, d, 0⟩

/-- What is seen of a connection: the messages shown to the callback, whether it is still open, and the number of blocks lost. -/
structure Out where
  shown : List Bytes := []
  connected : Bool := true
  lost : Nat := 0
  deriving DecidableEq, Repr

/-- The loop of `ulfius_thread_websocket`, u_websocket.c:667–787, for complete messages: an error ends the connection (757). -/
def run (Z : Zlib C D) : D → List (Bytes × Mem) → Out
  | _, [] => {}
  | d, (p, mem) :: t =>
    match apply Z d mem p with
    | ⟨none, _, n⟩ => { connected := false, lost := n }
    | ⟨some x, d', n⟩ => let r := run Z d' t; { r with shown := x :: r.shown, lost := n + r.lost }

end Verif.OomInflate
