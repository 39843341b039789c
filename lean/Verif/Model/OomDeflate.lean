import Verif.Model.DeflateData
/-!
# Model of sending compressed messages when memory runs out, `src/u_websocket.c:338–395, 1543–1580, 1961–2049`

The messages of `Model/DeflateData`, each with the allocation that fails on its way out, if any.

Simplifications: one extension (`permessage-deflate`), one thread, messages are not fragmented, and a frame that was built is sent whole. zlib is a
parameter, as in `Model/DeflateData`; its own memory was allocated when the extension was negotiated. What is left in its stream when
not all output was taken is `cut`. Nothing is allocated for an empty message before it is compressed (u_websocket.c:1544), but `o_malloc(0)` behind it may fail (1561).
-/
namespace Verif.OomDeflate
open Verif.DeflateData
open Verif.Deflate (Flush)

variable {C D : Type}

/-- zlib, and the stream after the output of `k` buffers was taken and the rest was not asked for. -/
structure ZlibCut (C D : Type) extends Zlib C D where
  cut : C → Flush → Bytes → Nat → C

/-- Which allocations succeed on the way of a message. -/
structure Mem where
  /-- `o_malloc(data_len)`, u_websocket.c:1544 -/
  copyIn : Bool := true
  /-- the number of the `o_realloc` that fails, u_websocket.c:1985 -/
  buffer : Option Nat := none
  /-- `o_malloc(data_out_len)`, u_websocket.c:1561 -/
  copyOut : Bool := true
  /-- `ulfius_build_message`, u_websocket.c:354 -/
  message : Bool := true
  /-- the frame, u_websocket.c:363, 377 -/
  frame : Bool := true
  deriving DecidableEq, Repr

/-- The turns of the loop, u_websocket.c:1984–2004, for this much output. -/
def turns (pending : Bytes) : Nat := pending.length / room + 1

/-- `ulfius_send_websocket_message_managed`, u_websocket.c:338–395, without fragments: `U_OK`, and the payload sent. A frame that cannot be built is an
error, but for an empty message (377). -/
def sendFrame (mem : Mem) (payload : Bytes) : Bool × Option Bytes :=
  if mem.message then
    if mem.frame then (true, some payload) else (decide (payload = []), none)
  else (false, none)

/-- `ulfius_websocket_send_message` for a text or binary message, u_websocket.c:1543–1580, with `websocket_extension_message_out_deflate`,
1961–2049: `U_OK`, the payload sent, the stream. -/
def send (Z : ZlibCut C D) (mask : Flush) (c : C) (mem : Mem) (x : Bytes) : Res (Bool × Option Bytes × C) :=
  if x = [] then
    if mem.copyOut then let s := sendFrame mem []; .ok (s.1, s.2, c) else .ok (false, none, c)
  else if mem.copyIn then
    if mem.buffer = some 0 then .ok (false, none, c)
    else match Z.deflate c mask (x.take (x.length % 2 ^ 32)) with
      | none => .ok (false, none, c)
      | some (c', pending) =>
        match mem.buffer with
        | some k =>
          if k < turns pending then .ok (false, none, Z.cut c mask x k)
          else after c' pending
        | none => after c' pending
  else .ok (false, none, c)
where
  after (c' : C) (pending : Bytes) : Res (Bool × Option Bytes × C) := do
    let out ← strip (collect pending [])
    if mem.copyOut then let s := sendFrame mem out; return (s.1, s.2, c') else return (false, none, c')

/-- The messages one after the other: the codes and what is on the wire. -/
def sendAll (Z : ZlibCut C D) (mask : Flush) : C → List (Bytes × Mem) → Res (List Bool × List Bytes)
  | _, [] => .ok ([], [])
  | c, (x, mem) :: t => do
    let s ← send Z mask c mem x
    let r ← sendAll Z mask s.2.2 t
    return (s.1 :: r.1, s.2.1.toList ++ r.2)

end Verif.OomDeflate
