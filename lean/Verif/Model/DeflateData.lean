import Verif.Model.Deflate
/-!
# Model: compressing and decompressing messages, u_websocket.c:1961–2127

zlib is a parameter: `deflate` gives all the output for an input that is then flushed, `inflate` all the output for an input,
in either case what repeated calls with output buffers of `_U_W_BUFF_LEN` bytes deliver (so the second marker that zlib writes
when the first one ends exactly at the end of a buffer is part of it). The C code asks for that output piece by piece
(`collect`); what a call could not deliver stays pending in the stream and is delivered by the next call. Allocations succeed. `deflate_mask` is never `Z_BLOCK` (it is set in
u_websocket.c:2152–2164 and 2665–2677 only), so the second flush (2006–2026) is left out.
-/
namespace Verif.DeflateData
open Verif.Deflate (Flush)

/-- zlib, seen from outside; `none` is a return code other than Z_OK, Z_STREAM_END, Z_BUF_ERROR. -/
structure Zlib (C D : Type) where
  deflate : C → Flush → Bytes → Option (C × Bytes)
  inflate : D → Bytes → Option (D × Bytes)

/-- `_U_W_BUFF_LEN`, include/u_private.h:104. -/
def room : Nat := 256

/-- The loop `do { ... } while (U_OK == ret && avail_out == 0)`, u_websocket.c:1984–2004 and 2078–2098: one buffer per turn. -/
def collect (pending out : Bytes) : Bytes :=
  let got := pending.take room
  if room - got.length = 0 then collect (pending.drop room) (out ++ got) else out ++ got
termination_by pending.length
decreasing_by
  simp only [got, room, List.length_take, List.length_drop] at *
  omega

/-- `data_out[data_len_out - k]`. -/
def fromEnd (out : Bytes) (k : Nat) : Res UInt8 :=
  if h : 0 < k ∧ k ≤ out.length then .ok (out[out.length - k]'(by omega)) else .ub

/-- The end of the output, u_websocket.c:2032–2037: the marker `00 00 FF FF` is dropped, else a zero byte is appended (the last
buffer has room for it). -/
def strip (out : Bytes) : Res Bytes := do
  let b1 ← fromEnd out 1
  if b1 = 0xff then do
    let b2 ← fromEnd out 2
    if b2 = 0xff then do
      let b3 ← fromEnd out 3
      if b3 = 0x00 then do
        let b4 ← fromEnd out 4
        if b4 = 0x00 then return out.take (out.length - 4) else return out ++ [0]
      else return out ++ [0]
    else return out ++ [0]
  else return out ++ [0]

variable {C D : Type}

/-- `websocket_extension_message_out_deflate`, u_websocket.c:1961–2046, with a context; `none` is U_ERROR. `avail_in` is an
`unsigned int`. -/
def messageOut (Z : Zlib C D) (c : C) (mask : Flush) (data : Bytes) : Res (Option (C × Bytes)) :=
  if data.length ≠ 0 then
    match Z.deflate c mask (data.take (data.length % 2 ^ 32)) with
    | none => .ok none
    | some (c', pending) => do
      let out ← strip (collect pending [])
      return some (c', out)
  else .ok (some (c, []))

/-- `websocket_extension_message_in_inflate`, u_websocket.c:2048–2127, with a context; `none` is U_ERROR. -/
def messageIn (Z : Zlib C D) (d : D) (data : Bytes) : Res (Option (D × Bytes)) :=
  if data.length ≠ 0 ∧ data.length ≤ 2 ^ 63 - 1 - 4 then
    match Z.inflate d ((data ++ [0x00, 0x00, 0xff, 0xff]).take ((data.length % 2 ^ 32 + 4) % 2 ^ 32)) with
    | none => .ok none
    | some (d', pending) => .ok (some (d', collect pending []))
  else .ok (some (d, data))

/-- Send the messages one after the other; `none` when a call fails. -/
def sendAll (Z : Zlib C D) (mask : Flush) : C → List Bytes → Res (Option (C × List Bytes))
  | c, [] => .ok (some (c, []))
  | c, x :: t => do
    match ← messageOut Z c mask x with
    | none => return none
    | some (c, p) =>
      match ← sendAll Z mask c t with
      | none => return none
      | some (c, ps) => return some (c, p :: ps)

/-- Receive the payloads one after the other; `none` when a call fails. -/
def receiveAll (Z : Zlib C D) : D → List Bytes → Res (Option (D × List Bytes))
  | d, [] => .ok (some (d, []))
  | d, p :: t => do
    match ← messageIn Z d p with
    | none => return none
    | some (d, x) =>
      match ← receiveAll Z d t with
      | none => return none
      | some (d, xs) => return some (d, x :: xs)

end Verif.DeflateData
