import Verif.Model.FileUpload
import Verif.Model.UMap
/-!
# Model of receiving a form into `map_post_body` when memory can run out

`mhd_iterate_post_data`, src/ulfius.c:338–424, without upload callback, on the model of u_map.c, and its use by
`ulfius_webservice_dispatcher`, src/ulfius.c:561–589. Every allocation may fail: `msprintf` of the name of the parameter for the
file name, those of `u_map_put` and `u_map_put_binary` (numbered as in Model/UMap.lean), and the growth of `binary_body`. Keys are not
NULL (a part without a name is one with an empty name). Offsets are below 2^64.

libmicrohttpd: as in Model/FileUpload.lean, once the iterator has returned MHD_NO it is not called again for this request.
-/
namespace Verif.OomForm
open Verif.Utf8 Verif.UMap Verif.Upload

/-- What fails in one call of the iterator: `msprintf` (line 390), and which allocation of `u_map_put` for the file name (line 391), of
the first `u_map_put_binary` (lines 399, 404 or 415) and of the second (line 405). -/
structure Fails where
  name : Bool := false
  note : Option Nat := none
  first : Option Nat := none
  second : Option Nat := none
  deriving DecidableEq

/-- src/ulfius.c:389–394: the name of the file is noted once; a failure is only logged. -/
def noteName (o : Fails) (m : UMap) (key fn : Bytes) : Res UMap := do
  let param := if o.name then none else some (key ++ b!"_filename")
  if ← hasKey m param then .ok m
  else do
    let r ← put m param (some fn) o.note
    .ok r.2

/-- src/ulfius.c:395–420: `data_size` bytes of `data` are stored behind what there is, with a comma between two values. -/
def store (o : Fails) (m : UMap) (key data : Bytes) (off size : Nat) : Res (Bool × UMap) := do
  match ← get m (some key) with
  | some _ =>
    match ← getLength m (some key) with
    | some cur =>
      if off != 0 then do
        let r ← putBinary m (some key) (some (data.map some)) cur size o.first
        .ok (r.1 == .ok, r.2)
      else do
        let r ← putBinary m (some key) (some (b!",".map some)) cur 1 o.first
        if r.1 == .ok then do
          let q ← putBinary r.2 (some key) (some (data.map some)) (w64 (cur + 1)) size o.second
          .ok (q.1 == .ok, q.2)
        else .ok (false, r.2)
    | none => .ok (false, m)
  | none => do
    let r ← putBinary m (some key) (some (data.map some)) 0 size o.first
    .ok (r.1 == .ok, r.2)

/-- `mhd_iterate_post_data`, src/ulfius.c:338–424, without upload callback: MHD_YES?, and the map. -/
def iterateU (cfg : Cfg) (o : Fails) (m : UMap) (c : Call) : Res (Bool × UMap) :=
  if cfg.checkUtf8 && (!utf8Ok c.key || !utf8Ok c.data || (c.filename.isSome && !utf8Ok (c.filename.getD []))) then .ok (true, m)
  else if decide (0 < cfg.maxParam) && decide (cfg.maxParam < c.off) then .ok (true, m)
  else do
    let size := if decide (0 < cfg.maxParam) && decide (cfg.maxParam < c.off + c.data.length)
      then cfg.maxParam - c.off else c.data.length
    let m ← match c.filename with
      | some fn => noteName o m c.key fn
      | none => .ok m
    store o m c.key c.data c.off size

/-- The connection during an upload: body, form, error state of the post processor, number of calls of the iterator. -/
structure Conn where
  body : Bytes := []
  map : UMap := init
  error : Bool := false
  n : Nat := 0

/-- `MHD_post_process`: the calls found in a part of the body, until one returns MHD_NO. -/
def post (cfg : Cfg) (fails : Nat → Fails) : Conn → List Call → Res Conn
  | s, [] => .ok s
  | s, c :: t =>
    if s.error then .ok s
    else do
      let r ← iterateU cfg (fails s.n) s.map c
      post cfg fails { s with map := r.2, error := !r.1, n := s.n + 1 } t

/-- One upload call of the dispatcher, src/ulfius.c:561–589: the body first (`none`: MHD_NO, the connection is closed), then the post
processor, whose result is not looked at. -/
def part (cfg : Cfg) (max : Nat) (noBody : Bool) (fails : Nat → Fails) (s : Conn) (u : Bytes × List Call) : Res (Option Conn) := do
  let b ← bodyChunk max s.body u.1
  if noBody then .ok none
  else do
    let s ← post cfg fails { s with body := b } u.2
    .ok (some s)

/-- All parts of an upload; `noBody i` says whether the body cannot grow for part `i`. With `some s`, the endpoints are called next,
with the form and the body of `s`. -/
def upload (cfg : Cfg) (max : Nat) (noBody : Nat → Bool) (fails : Nat → Fails) : Nat → Conn → List (Bytes × List Call) →
    Res (Option Conn)
  | _, s, [] => .ok (some s)
  | i, s, u :: t => do
    match ← part cfg max (noBody i) fails s u with
    | none => .ok none
    | some s => upload cfg max noBody fails (i + 1) s t

end Verif.OomForm
