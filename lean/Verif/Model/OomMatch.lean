import Verif.Model.Deflate
/-!
# Model of the negotiation of permessage-deflate when memory runs out, `src/u_websocket.c:2129–2275, 2652–2755`

The parameters are read as in `Model/Deflate`, with every allocation on the way given as a choice (`true`: it succeeds), and what is allocated counted.

Simplifications: orcania's `split_string` gives all pieces or none; log calls are left out. Of zlib: `deflateInit2` and `inflateInit2` write the field
`state` of the stream once the first block is allocated, and set it to NULL when a later step fails; `deflateEnd` and `inflateEnd` read it, free the
blocks if it is set, and do nothing if it is NULL. `o_malloc` does not clear the memory it gives, so before that the field has no value. Texts lost by a
failed `mstrcatf` are not counted.
-/
namespace Verif.OomMatch
open Verif.Strtok Verif.Handshake Verif.Printf Verif.Deflate

/-- How `deflateInit2` or `inflateInit2` ends. -/
inductive Init where
  | done
  /-- no memory for the first block: `state` is not written -/
  | first
  /-- a later step failed: `state` is NULL -/
  | later
  deriving DecidableEq, Repr

/-- Which allocations succeed. -/
structure Mem where
  /-- `o_malloc(sizeof(struct _websocket_deflate_context))`, u_websocket.c:2147, 2660 -/
  context : Bool := true
  /-- `split_string` of the parameters, u_websocket.c:2157, 2670 -/
  split : Bool := true
  /-- `split_string` of parameter `i` at `=`, u_websocket.c:2166, 2184, 2679, 2696 -/
  value : Nat → Bool := fun _ => true
  /-- `deflateInit2` with that window, u_websocket.c:2224, 2735 -/
  deflate : Nat → Init := fun _ => .done
  /-- `inflateInit2` with that window, u_websocket.c:2230, 2741 -/
  inflate : Nat → Init := fun _ => .done
  /-- `o_strdup(_U_W_EXT_DEFLATE)`, u_websocket.c:2239 -/
  name : Bool := true
  /-- the `mstrcatf` of the answer, u_websocket.c:2241, 2244, 2247, 2250 -/
  part : Nat → Bool := fun _ => true

/-- What is left after the call: `ret == U_OK`, what `*context` points to, whether the two streams of it have blocks of zlib, `*extension_server`, and
how many arrays of pieces nobody can free any more. -/
structure Out where
  ok : Bool
  context : Option Ctx := none
  deflating : Bool := false
  inflating : Bool := false
  answer : Option Bytes := none
  lost : Nat := 0
  deriving DecidableEq

/-- One (trimmed) parameter, u_websocket.c:2159–2211, 2672–2722. The pieces of `server_max_window_bits` are freed only if there are two. -/
def param (server : Bool) (m : Mem) (i : Nat) (s : St × Nat) (p : Bytes) : St × Nat :=
  if b!"server_max_window_bits" <+: p then
    if m.value i then (Deflate.param server s.1 p, if (splitString 0x3d p).length = 2 then s.2 else s.2 + 1)
    else ({ s.1 with ok := false }, s.2)
  else if b!"client_max_window_bits" <+: p then
    if m.value i then (Deflate.param server s.1 p, s.2) else ({ s.1 with ok := false }, s.2)
  else (Deflate.param server s.1 p, s.2)

/-- The loop over the parameters, u_websocket.c:2158–2212, 2671–2723. -/
def loop (server : Bool) (m : Mem) : Nat → St × Nat → List Bytes → St × Nat
  | _, s, [] => s
  | i, s, p :: t => loop server m (i + 1) (param server m i s (trimSpace p)) t

/-- All the parameters, u_websocket.c:2155–2218, 2668–2729. -/
def params (server : Bool) (m : Mem) (s : Bytes) : St × Nat :=
  if s = [] then ({}, 0)
  else if m.split then loop server m 0 ({}, 0) (splitString 0x3b s)
  else ({ ok := false }, 0)

/-- `mstrcatf(a, …)` with the formatted text `b`: NULL counts as empty, and is the result of a failure. -/
def cat (ok : Bool) (a : Option Bytes) (b : Bytes) : Option Bytes := if ok then some (a.getD [] ++ b) else none

/-- The answer, u_websocket.c:2239–2251: nothing is checked. -/
def answer (m : Mem) (s : St) : Option Bytes :=
  let a := if m.name then some extName else none
  let a := if s.ctx.serverNoTakeover then cat (m.part 0) a b!"; server_no_context_takeover" else a
  let a := if s.ctx.clientNoTakeover then cat (m.part 1) a b!"; client_no_context_takeover" else a
  let a := if s.serverChanged then cat (m.part 2) a (b!"; server_max_window_bits=" ++ decimal s.ctx.serverBits) else a
  if s.clientChanged then cat (m.part 3) a (b!"; client_max_window_bits=" ++ decimal s.ctx.clientBits) else a

/-- `deflateEnd` or `inflateEnd` after a failed initialisation. -/
def endFailed : Init → Res Unit
  | .first => .ub
  | _ => .ok ()

/-- The two streams, u_websocket.c:2216–2237, 2727–2748: `some ()` if both are ready. When the second fails `deflateEnd` frees the blocks of the first. -/
def streams (d i : Init) : Res (Option Unit) := do
  if d ≠ .done then
    endFailed d
    return none
  else if i ≠ .done then
    endFailed i
    return none
  else return some ()

/-- `websocket_extension_server_match_deflate`, u_websocket.c:2129–2268. -/
def serverMatch (m : Mem) (item : Bytes) (list : List Bytes) : Res Out := do
  if extName.isPrefixOf item && isFirst item list then
    if m.context then
      let (s, lost) := params true m (item.drop extName.length)
      if s.ok then
        match ← streams (m.deflate s.ctx.serverBits) (m.inflate s.ctx.clientBits) with
        | some () => return { ok := true, context := some s.ctx, deflating := true, inflating := true, answer := answer m s, lost }
        | none => return { ok := false, lost }
      else return { ok := false, lost }
    else return { ok := false }
  else return { ok := false }

/-- `websocket_extension_client_match_deflate`, u_websocket.c:2652–2763. -/
def clientMatch (m : Mem) (item : Bytes) : Res Out := do
  if extName.isPrefixOf item then
    if m.context then
      let (s, lost) := params false m (item.drop extName.length)
      if s.ok then
        match ← streams (m.deflate s.ctx.clientBits) (m.inflate s.ctx.serverBits) with
        | some () => return { ok := true, context := some s.ctx, deflating := true, inflating := true, lost }
        | none => return { ok := false, lost }
      else return { ok := false, lost }
    else return { ok := false }
  else return { ok := false }

/-- `websocket_extension_deflate_free_context`, u_websocket.c:2270–2275. -/
def freeContext (o : Out) : Res Out :=
  match o.context with
  | some _ => .ok { o with context := none, deflating := false, inflating := false }
  | none => .ub

/-- The extension of `ulfius_add_websocket_deflate_extension` (u_websocket.c:2277–2279) as `Model/Handshake` uses it. -/
def srvExt (m : Mem) : SrvExt where
  rsv := 0x40
  server := some extName
  matcher := some (fun _ item items =>
    match serverMatch m item items with
    | .ok o => if o.ok then some o.answer else none
    | .ub => none)

end Verif.OomMatch
