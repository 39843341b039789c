import Verif.Model.Upload
/-!
# Model of uploads with a file callback

`mhd_iterate_post_data`, src/ulfius.c:338–424, with `file_upload_callback`, and its use by `ulfius_webservice_dispatcher`,
src/ulfius.c:561–589. Form content types only; allocations succeed.

libmicrohttpd: each part of the body handed to `MHD_post_process` gives a list of calls of the iterator. Once the iterator has
returned MHD_NO the post processor is in its error state: `MHD_post_process` makes no further call. Its result is not looked at
(src/ulfius.c:582).
-/
namespace Verif.Upload

/-- One call of the iterator. -/
structure Call where
  key : Bytes
  filename : Option Bytes := none
  contentType : Option Bytes := none
  encoding : Option Bytes := none
  data : Bytes
  off : Nat

/-- What the file callback is given besides the request and `cls`, src/ulfius.c:362. -/
structure Block where
  key : Bytes
  filename : Bytes
  contentType : Option Bytes
  encoding : Option Bytes
  data : Bytes
  off : Nat
  size : Nat
  deriving DecidableEq

/-- `ulfius_set_upload_file_callback_function`, src/ulfius.c:1625–1643: the result and the callback in the instance. -/
def setCallback {α : Type} (instance_ : Bool) (cur : Option α) (new : Option α) : Int × Option α :=
  if instance_ && new.isSome then (0, new) else (3, cur)

/-- The connection during an upload: body, form, error state of the post processor, state of the callback and the blocks it got. -/
structure Conn (σ : Type) where
  body : Bytes := []
  map : PostMap := []
  error : Bool := false
  user : σ
  blocks : List Block := []

/-- `mhd_iterate_post_data`, src/ulfius.c:338–424, with the callback of the instance (`cfg.uploadCb` is not used here). -/
def iterateCb {σ : Type} (cfg : Cfg) (cb : Option (σ → Block → σ × Int)) (s : Conn σ) (c : Call) : Conn σ :=
  match c.filename, cb with
  | some fn, some f =>
    let b : Block := ⟨c.key, fn, c.contentType, c.encoding, c.data, c.off, c.data.length⟩
    let r := f s.user b
    { s with user := r.1, blocks := s.blocks ++ [b], error := decide (r.2 ≠ 0) }
  | _, _ =>
    let r := iterate { cfg with uploadCb := false } s.map c.key c.filename c.data c.off
    { s with map := r.2, error := !r.1 }

/-- `MHD_post_process`: the calls found in a part of the body, until one returns MHD_NO. -/
def postProcess {σ : Type} (cfg : Cfg) (cb : Option (σ → Block → σ × Int)) : Conn σ → List Call → Conn σ
  | s, [] => s
  | s, c :: t => if s.error then s else postProcess cfg cb (iterateCb cfg cb s c) t

/-- One upload call of the dispatcher, src/ulfius.c:561–589: the body first, then the post processor. -/
def part {σ : Type} (cfg : Cfg) (max : Nat) (cb : Option (σ → Block → σ × Int)) (s : Conn σ) (u : Bytes × List Call) :
    Res (Conn σ) := do
  let b ← bodyChunk max s.body u.1
  pure (postProcess cfg cb { s with body := b } u.2)

/-- All parts of an upload. -/
def upload {σ : Type} (cfg : Cfg) (max : Nat) (cb : Option (σ → Block → σ × Int)) : Conn σ → List (Bytes × List Call) → Res (Conn σ)
  | s, [] => .ok s
  | s, u :: t => do
    let s ← part cfg max cb s u
    upload cfg max cb s t

end Verif.Upload
