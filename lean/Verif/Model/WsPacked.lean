import Verif.Model.WsPair
import Verif.Model.DeflateData
/-!
# Two endpoints of the library on one websocket that agreed on permessage-deflate

The conversation of `Verif.WsPair` with the extension `permessage-deflate` as `ulfius_add_websocket_deflate_extension` and
`ulfius_add_websocket_client_deflate_extension` install it (u_websocket.c:2277–2279 and 2763–2765), with RSV1 and a context at each end: `defstream` for what it
sends and `infstream` for what it gets (`struct _websocket_deflate_context`, include/ulfius.h:1564–1573). At any moment the extension is one of `Verif.Ws.Ext`
whose functions know the contexts of that moment. Simplified as in `Verif.WsPair` and `Verif.DeflateData`; in particular messages are not fragmented,
and no two threads of one end are in the extension at the same time (C138 has what happens then).
-/
namespace Verif.WsPacked
open Verif.Ws Verif.WsPair Verif.DeflateData
open Verif.Deflate (Flush)

variable {C D : Type}

/-- The conversation, and at each end the context for sending and the one for receiving. -/
structure Packed (C D : Type) where
  sys : WsPair.Sys := {}
  out : Bool → C
  inn : Bool → D

/-- `permessage-deflate` as it acts now at the end `who`: `websocket_extension_message_out_deflate` and `websocket_extension_message_in_inflate`
(u_websocket.c:1961–2127), with RSV1 (2278, 2764). -/
def now (Z : Zlib C D) (mask : Bool → Flush) (v : Packed C D) (who : Bool) : Ext :=
  { enabled := true, rsv := 0x40,
    outPerform := some fun _ _ x =>
      match messageOut Z (v.out who) (mask who) x with
      | .ok (some r) => some r.2
      | _ => none,
    inPerform := some fun _ _ p =>
      match messageIn Z (v.inn who) p with
      | .ok (some r) => some r.2
      | _ => none }

/-- The message this round gives to the extension, u_websocket.c:610–625 and 684–760: a text or binary message with RSV1. -/
def unpacks (y : WsPair.Sys) (who : Bool) (p : Poll) : Option InMsg :=
  if (y.party who).phase = .loop ∧ (y.party who).flag = false ∧ readable y who p = true then
    match readMessage who [.seg (y.party who).inbox] with
    | some (m, _) => if m.fin = true ∧ (m.opcode = 1 ∨ m.opcode = 2) ∧ m.rsv &&& 0x40 ≠ 0 then some m else none
    | none => none
  else none

/-- One step of the conversation; the contexts change with each message that goes through them. -/
def step (Z : Zlib C D) (mask : Bool → Flush) (v : Packed C D) : Act → Res (Packed C D)
  | .say who op x k =>
    if connected (v.sys.party who) = true ∧ (op = 1 ∨ op = 2) then do
      let r ← messageOut Z (v.out who) (mask who) x
      let y ← WsPair.step [now Z mask v who] v.sys (.say who op x k)
      return { v with sys := y, out := match r with
        | some r => fun w => if w = who then r.1 else v.out w
        | none => v.out }
    else do
      let y ← WsPair.step [now Z mask v who] v.sys (.say who op x k)
      return { v with sys := y }
  | .signal who => do
    let y ← WsPair.step [now Z mask v who] v.sys (.signal who)
    return { v with sys := y }
  | .turn who p k =>
    match unpacks v.sys who p with
    | some m => do
      let r ← messageIn Z (v.inn who) m.data
      let y ← WsPair.step [now Z mask v who] v.sys (.turn who p k)
      return { v with sys := y, inn := match r with
        | some r => fun w => if w = who then r.1 else v.inn w
        | none => v.inn }
    | none => do
      let y ← WsPair.step [now Z mask v who] v.sys (.turn who p k)
      return { v with sys := y }

def exec (Z : Zlib C D) (mask : Bool → Flush) (v : Packed C D) : List Act → Res (Packed C D)
  | [] => .ok v
  | a :: t => do exec Z mask (← step Z mask v a) t

end Verif.WsPacked
