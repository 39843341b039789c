import Verif.Model.Compress
/-!
# Model of the compression callback when memory runs out, `example_callbacks/http_compression/http_compression_callback.c:66–140`

As `Model/Compress`, with the allocations of the callback given as choices: `true`, it succeeds. That `deflateInit` fails for want of memory is
part of `Zlib.init`. orcania's `split_string` gives all pieces or none. `lost`: buffers nobody can free any more.
-/
namespace Verif.OomCompress
open Verif.UMap Verif.Message Verif.Handshake Verif.Compress

/-- Which allocations succeed. -/
structure Mem where
  /-- `split_string` of Accept-Encoding, http_compression_callback.c:75 -/
  split : Bool := true
  /-- `o_realloc` in turn `n` of the loop, http_compression_callback.c:107 -/
  grow : Nat → Bool := fun _ => true
  /-- `o_malloc` in `ulfius_set_binary_body_response`, u_response.c:542 -/
  body : Bool := true
  /-- the allocation of `u_map_put` that fails, http_compression_callback.c:129 -/
  header : Option Nat := none

/-- The loop, http_compression_callback.c:106–125: `data_zip = o_realloc(data_zip, …)` loses the buffer when it fails. -/
def loop (grow fails : Nat → Bool) (turn : Nat) (pending out : Bytes) : Option Bytes × Nat :=
  if grow turn then
    if fails turn then (none, 0)
    else
      let got := pending.take block
      let availOut := block - got.length
      if availOut = 0 then loop grow fails (turn + 1) (pending.drop block) (out ++ got) else (some (out ++ got), 0)
  else (none, if turn = 0 then 0 else 1)
termination_by pending.length
decreasing_by
  simp only [got, availOut, block, List.length_take, List.length_drop] at *
  omega

/-- `ulfius_set_binary_body_response`, u_response.c:535–554: without memory the body is gone and the status stays. -/
def setBody (ok : Bool) (r : Response) (status : Nat) (b : Bytes) : Res Response :=
  if ok then do
    let (_, r) ← setBinaryBody r status (some b) b.length
    return r
  else if b.length = 0 then .ok r
  else .ok { r with body := none, bodyLen := 0 }

/-- http_compression_callback.c:82–134: the results of the last two calls are not looked at. -/
def compress (Z : Zlib) (mem : Mem) (m : Mode) (r : Response) : Res (Int × Response × Nat) := do
  if Z.init m then do
    let x ← input r
    match loop mem.grow (Z.fails m x) 0 (Z.all m x) [] with
    | (none, lost) => return (Dispatch.cbError, r, lost)
    | (some z, lost) => do
      let r ← setBody mem.body r r.status z
      let (_, h) ← UMap.put r.header (some b!"Content-Encoding") (some (modeName m)) mem.header
      return (Dispatch.cbIgnore, { r with header := h }, lost)
  else return (Dispatch.cbError, r, 0)

/-- `callback_http_compression`, http_compression_callback.c:66–140. -/
def callback (Z : Zlib) (mem : Mem) (cfg : Option Config) (header : UMap) (r : Response) : Res (Int × Response × Nat) := do
  if r.bodyLen = 0 then return (Dispatch.cbIgnore, r, 0)
  else do
    let n ← UMap.countKeysCase header (some b!"Accept-Encoding")
    if n = 1 then do
      match ← UMap.getCase header (some b!"Accept-Encoding") with
      | none => return (Dispatch.cbIgnore, r, 0)
      | some b => do
        let v ← readStr b
        if mem.split then
          match choose cfg (splitString 0x2c v) with
          | none => return (Dispatch.cbIgnore, r, 0)
          | some m => compress Z mem m r
        else return (Dispatch.cbIgnore, r, 0)
    else return (Dispatch.cbIgnore, r, 0)

end Verif.OomCompress
