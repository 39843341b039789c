import Verif.Model.Answer
import Verif.Model.Handshake
/-!
# Model of the compression callback

`callback_http_compression`, example_callbacks/http_compression/http_compression_callback.c:66–140.

zlib is a parameter: whether the stream can be set up, the output of a stream that is given its whole input and then finished
(`deflate(.., Z_FINISH)` delivers it piece by piece, as much as there is room for), and which call fails. Allocations succeed;
`config` is read as two flags.
-/
namespace Verif.Compress
open Verif.UMap Verif.Message Verif.Handshake

/-- `struct _http_compression_config`, http_compression_callback.h. -/
structure Config where
  gzip : Bool
  deflate : Bool
  deriving DecidableEq, Repr

/-- `U_COMPRESS_GZIP`, `U_COMPRESS_DEFL`, http_compression_callback.c:41–43; `U_COMPRESS_NONE` is `none`. -/
inductive Mode where
  | gzip | deflate
  deriving DecidableEq, Repr

/-- zlib: `deflateInit2`/`deflateInit` return Z_OK; all the output for an input; the return code of the n-th call of `deflate`
is none of Z_OK, Z_STREAM_END, Z_BUF_ERROR. -/
structure Zlib where
  init : Mode → Bool
  all : Mode → Bytes → Bytes
  fails : Mode → Bytes → Nat → Bool

/-- `_U_C_BLOCK_SIZE`, http_compression_callback.h:38. -/
def block : Nat := 256

/-- `config == NULL || config->allow_gzip`, http_compression_callback.c:76. -/
def mayGzip : Option Config → Bool
  | none => true
  | some c => c.gzip

/-- `config == NULL || config->allow_deflate`, http_compression_callback.c:78. -/
def mayDeflate : Option Config → Bool
  | none => true
  | some c => c.deflate

/-- The choice, http_compression_callback.c:76–80. -/
def choose (cfg : Option Config) (items : List Bytes) : Option Mode :=
  if mayGzip cfg && hasTrimmed items b!"gzip" then some .gzip
  else if mayDeflate cfg && hasTrimmed items b!"deflate" then some .deflate
  else none

/-- The loop, http_compression_callback.c:106–125: a block more, as long as the last one was filled. `pending` is what zlib
still has to deliver; `none` is U_CALLBACK_ERROR. -/
def loop (fails : Nat → Bool) (turn : Nat) (pending out : Bytes) : Option Bytes :=
  if fails turn then none
  else
    let got := pending.take block
    let availOut := block - got.length
    if availOut = 0 then loop fails (turn + 1) (pending.drop block) (out ++ got) else some (out ++ got)
termination_by pending.length
decreasing_by
  simp only [got, availOut, block, List.length_take, List.length_drop] at *
  omega

/-- The word for the header, http_compression_callback.c:129. -/
def modeName : Mode → Bytes
  | .gzip => b!"gzip"
  | .deflate => b!"deflate"

/-- `uInt`, the type of `avail_in`. -/
def w32 (n : Nat) : Nat := n % 2 ^ 32

/-- What zlib is given to read, http_compression_callback.c:86–87: the length is cast to `uInt`. -/
def input (r : Response) : Res Bytes :=
  match r.body with
  | none => .ub
  | some b => if w32 r.bodyLen ≤ b.length then .ok (b.take (w32 r.bodyLen)) else .ub

/-- http_compression_callback.c:82–134. The codes returned by `ulfius_set_binary_body_response` and `u_map_put` are not
looked at; `total_out` is the number of bytes delivered. -/
def compress (Z : Zlib) (m : Mode) (r : Response) : Res (Int × Response) := do
  if Z.init m then do
    let x ← input r
    match loop (Z.fails m x) 0 (Z.all m x) [] with
    | none => return (Dispatch.cbError, r)
    | some z => do
      let (_, r) ← setBinaryBody r r.status (some z) z.length
      let (_, h) ← UMap.put r.header (some b!"Content-Encoding") (some (modeName m))
      return (Dispatch.cbIgnore, { r with header := h })
  else return (Dispatch.cbError, r)

/-- `callback_http_compression`, http_compression_callback.c:66–140. -/
def callback (Z : Zlib) (cfg : Option Config) (header : UMap) (r : Response) : Res (Int × Response) := do
  if r.bodyLen = 0 then return (Dispatch.cbIgnore, r)
  else do
    let n ← UMap.countKeysCase header (some b!"Accept-Encoding")
    if n = 1 then do
      match ← UMap.getCase header (some b!"Accept-Encoding") with
      | none => return (Dispatch.cbIgnore, r)
      | some b => do
        let v ← readStr b
        match choose cfg (splitString 0x2c v) with
        | none => return (Dispatch.cbIgnore, r)
        | some m => compress Z m r
    else return (Dispatch.cbIgnore, r)

end Verif.Compress
