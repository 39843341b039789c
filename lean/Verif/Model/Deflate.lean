import Verif.Model.Handshake
/-! # Model: the permessage-deflate extension, u_websocket.c:1961–2268 and 2652–2755

Only the negotiation is modelled here; zlib is not: whether `deflateInit2`/`inflateInit2` succeed is a parameter. Allocations succeed. `split_string`, `trimwhitespace`, `o_strncmp` are those of orcania. -/
namespace Verif.Deflate
open Verif.Strtok Verif.Handshake Verif.Printf

/-- `_U_W_EXT_DEFLATE`, include/u_private.h:105. -/
def extName : Bytes := b!"permessage-deflate"

/-- `WEBSOCKET_DEFLATE_WINDOWS_BITS`, include/ulfius.h:1555. -/
def defaultBits : Nat := 15

/-- `Z_SYNC_FLUSH` / `Z_FULL_FLUSH`. -/
inductive Flush where
  | sync
  | full
deriving DecidableEq

/-- `struct _websocket_deflate_context` without the streams, include/ulfius.h:1565–1574. -/
structure Ctx where
  serverNoTakeover : Bool := false
  clientNoTakeover : Bool := false
  serverBits : Nat := defaultBits
  clientBits : Nat := defaultBits
  deflateMask : Flush := .sync
  inflateMask : Flush := .sync
deriving DecidableEq

/-- State of the parameter loop: the context, `server_bits_changed`, `client_bits_changed`, `ret == U_OK`. -/
structure St where
  ctx : Ctx := {}
  serverChanged : Bool := false
  clientChanged : Bool := false
  ok : Bool := true
deriving DecidableEq

/-- The checks on a window size, u_websocket.c:2172–2177, 2192–2197: `none` outside 8..15; 8 becomes 9. -/
def bits (n : Int) : Option Nat :=
  if 8 ≤ n ∧ n ≤ 15 then some (if n = 8 then 9 else n.toNat) else none

/-- One (trimmed) parameter, u_websocket.c:2161–2214 (`server := true`) and 2674–2717 (`server := false`). -/
def param (server : Bool) (s : St) (p : Bytes) : St :=
  if p = b!"server_no_context_takeover" then
    { s with ctx := if server then { s.ctx with serverNoTakeover := true, deflateMask := .full }
                    else { s.ctx with serverNoTakeover := true, inflateMask := .full } }
  else if p = b!"client_no_context_takeover" then
    { s with ctx := if server then { s.ctx with clientNoTakeover := true, inflateMask := .full }
                    else { s.ctx with clientNoTakeover := true, deflateMask := .full } }
  else if b!"server_max_window_bits" <+: p then
    match splitString 0x3d p with
    | [_, v] => match bits (strtol v) with
      | some n => { s with ctx := { s.ctx with serverBits := n }, serverChanged := true }
      | none => { s with ok := false }
    | _ => { s with ok := false }
  else if b!"client_max_window_bits" <+: p then
    let v := trimSpace ((splitString 0x3d p).getD 1 [])
    match bits (if v = [] then defaultBits else strtol v) with
    | some n => { s with ctx := { s.ctx with clientBits := n }, clientChanged := true }
    | none => { s with ok := false }
  else if p = [] then s
  else { s with ok := false }

/-- All the parameters after the extension name, u_websocket.c:2158–2221 and 2671–2724. -/
def params (server : Bool) (s : Bytes) : St :=
  if s = [] then {} else (splitString 0x3b s).foldl (fun st p => param server st (trimSpace p)) {}

/-- The answer of the server, u_websocket.c:2245–2257. -/
def answer (s : St) : Bytes :=
  extName ++ (if s.ctx.serverNoTakeover then b!"; server_no_context_takeover" else []) ++
    (if s.ctx.clientNoTakeover then b!"; client_no_context_takeover" else []) ++
    (if s.serverChanged then b!"; server_max_window_bits=" ++ decimal s.ctx.serverBits else []) ++
    (if s.clientChanged then b!"; client_max_window_bits=" ++ decimal s.ctx.clientBits else [])

/-- Is the item the first offer of the extension in the list, u_websocket.c:2137–2145. -/
def isFirst (item : Bytes) (list : List Bytes) : Bool :=
  match list.find? (fun x => extName.isPrefixOf x) with
  | some x => x == item
  | none => false

/-- `websocket_extension_server_match_deflate`, u_websocket.c:2129–2268. `init d i`: `deflateInit2` with window `d` and
`inflateInit2` with window `i` succeed. `none`: not `U_OK`. -/
def serverMatch (init : Nat → Nat → Bool) (item : Bytes) (list : List Bytes) : Option (Ctx × Bytes) :=
  if extName.isPrefixOf item && isFirst item list then
    let s := params true (item.drop extName.length)
    if s.ok && init s.ctx.serverBits s.ctx.clientBits then some (s.ctx, answer s) else none
  else none

/-- `websocket_extension_client_match_deflate`, u_websocket.c:2652–2755. -/
def clientMatch (init : Nat → Nat → Bool) (item : Bytes) : Option Ctx :=
  if extName.isPrefixOf item then
    let s := params false (item.drop extName.length)
    if s.ok && init s.ctx.clientBits s.ctx.serverBits then some s.ctx else none
  else none

/-- The extension as registered by `ulfius_add_websocket_deflate_extension` (u_websocket.c:2277–2279), in the form the server
negotiation of Model/Handshake.lean uses. -/
def srvExt (init : Nat → Nat → Bool) : SrvExt where
  rsv := 0x40
  server := some extName
  matcher := some (fun _ item items => (serverMatch init item items).map (fun r => some r.2))

/-- The extension as registered by `ulfius_add_websocket_client_deflate_extension` (u_websocket.c:2757–2759). -/
def cliExt (init : Nat → Nat → Bool) : CliExt where
  rsv := 0x40
  client := some extName
  matcher := some (fun _ item => (clientMatch init item).isSome)

end Verif.Deflate
