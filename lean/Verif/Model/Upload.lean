import Verif.Model.Utf8
/-!
# Model of request body reception

`ulfius_webservice_dispatcher`, src/ulfius.c:561–589 (body) and `mhd_iterate_post_data`, src/ulfius.c:338–424 (form
fields). Allocations succeed. libmicrohttpd hands the body chunk by chunk, and each form field chunk by chunk with
its offset.
-/
namespace Verif.Upload
open Verif.Utf8

/-- `size_t` / `uint64_t` wrap-around. -/
def wrap (n : Nat) : Nat := n % 2 ^ 64

/-- One upload call, src/ulfius.c:561–589. `body` is `request->binary_body` (its first `binary_body_length` bytes),
`max` is `max_post_body_size`. -/
def bodyChunk (max : Nat) (body chunk : Bytes) : Res Bytes :=
  let sum := wrap (body.length + chunk.length)
  let over := decide (0 < max) && decide (max < sum)
  let bodyLen := if over then max else sum
  let cur := if over then wrap (max + 2 ^ 64 - body.length) else chunk.length
  if body.length ≤ bodyLen then
    -- realloc to bodyLen, memcpy of cur bytes at binary_body_length
    if body.length + cur ≤ bodyLen ∧ cur ≤ chunk.length then .ok (body ++ chunk.take cur) else .ub
  else .ok body

/-- The successive calls of the dispatcher for one request. -/
def receive (max : Nat) : (body : Bytes) → List Bytes → Res Bytes
  | body, [] => .ok body
  | body, c :: t => do
    let b ← bodyChunk max body c
    receive max b t

/-! ## Form fields -/

/-- `request->map_post_body`: key and the `lengths[i]` bytes of its value. -/
abbrev PostMap := List (Bytes × Bytes)

/-- Bytes stored for a key. -/
def find (m : PostMap) (k : Bytes) : Option Bytes := (m.find? (fun p => p.1 == k)).map (·.2)

/-- `u_map_put_binary(map, key, data, len(key), n)`: append at the end of the value, or new key. (C10 proves this reading
of `u_map_put_binary` on the model of u_map.c.) -/
def append (m : PostMap) (k data : Bytes) : PostMap :=
  if m.any (fun p => p.1 == k) then m.map (fun p => if p.1 == k then (k, p.2 ++ data) else p) else m ++ [(k, data)]

/-- Instance fields used by the iterator. -/
structure Cfg where
  checkUtf8 : Bool
  maxParam : Nat            -- max_post_param_size
  uploadCb : Bool           -- file_upload_callback != NULL

/-- src/ulfius.c:387–393: record `<key>_filename` once, with its terminating NUL. -/
def withName (m : PostMap) (key : Bytes) (filename : Option Bytes) : PostMap :=
  match filename with
  | some fn => if (find m (key ++ b!"_filename")).isSome then m else append m (key ++ b!"_filename") (fn ++ [0])
  | none => m

/-- `mhd_iterate_post_data`, src/ulfius.c:338–424: returned MHD_YES?, new map. The upload callback, when set, gets every
chunk of a file and nothing is stored; its own return value is left out. -/
def iterate (cfg : Cfg) (m : PostMap) (key : Bytes) (filename : Option Bytes) (data : Bytes) (off : Nat) :
    Bool × PostMap :=
  if filename.isSome && cfg.uploadCb then (true, m)
  else if cfg.checkUtf8 && (!utf8Ok key || !utf8Ok data || (filename.isSome && !utf8Ok (filename.getD []))) then (true, m)
  else if decide (0 < cfg.maxParam) && decide (cfg.maxParam < off) then (true, m)
  else
    let data := if decide (0 < cfg.maxParam) && decide (cfg.maxParam < off + data.length)
      then data.take (cfg.maxParam - off) else data
    let m := withName m key filename
    let cur := (find m key).getD []
    if key.isEmpty then (false, m)
    else if !cur.isEmpty then                          -- u_map_get returns NULL for a value of length 0
      if off != 0 then (true, append m key data)
      else (true, append (append m key b!",") key data)
    else (true, append m key data)

/-- libmicrohttpd delivers one field as consecutive chunks. -/
def deliver (cfg : Cfg) (key : Bytes) (filename : Option Bytes) : (off : Nat) → List Bytes → PostMap → PostMap
  | _, [], m => m
  | off, c :: t, m => deliver cfg key filename (off + c.length) t (iterate cfg m key filename c off).2

end Verif.Upload
