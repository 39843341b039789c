import Verif.Model.StaticFile
import Verif.Model.Compress
import Verif.Spec.Stream
/-!
# Model of the static file callbacks, with the content of the files

`callback_static_file`, example_callbacks/static_file/static_file_callback.c:93–208, and
`callback_static_compressed_inmemory_website`,
example_callbacks/static_compressed_inmemory_website/static_compressed_inmemory_website_callback.c:117–503, once more: the answer is
written into the response, the bytes of the files and the compressed caches are there. The names of the files are those of
`Verif.Model.StaticFile`.

The file system is a parameter and does not change during a call. Allocations, locks and reads of regular files succeed;
`mime_types` is not NULL. Messages to the log are left out.
-/
namespace Verif.Website
open Verif.UMap Verif.Message Verif.StaticFile Verif.Spec.Stream

/-- What can be opened: a file, or something like a directory, which `fopen(path, "rb")` opens as well, whose end `fseek` and
`ftell` report somewhere, and which `fread` does not read. -/
inductive Node where
  | file (content : Bytes)
  | dir (told : Nat)
  deriving DecidableEq, Repr

/-- The file system: `realpath`, what stands at a canonical path, whether `fopen` is permitted there. -/
structure Disk where
  real : Bytes → Option Bytes
  node : Bytes → Option Node
  readable : Bytes → Bool

/-- `access(path, F_OK) != -1` -/
def Disk.exists (d : Disk) (path : Bytes) : Bool := ((d.real path).bind d.node).isSome

/-- `fopen(path, "rb")` -/
def Disk.fopen (d : Disk) (path : Bytes) : Option Node :=
  match d.real path with
  | none => none
  | some r => if d.readable r then d.node r else none

/-- `fseek(f, 0, SEEK_END); length = ftell(f); fseek(f, 0, SEEK_SET);`, static_file_callback.c:168–170. -/
def told : Node → Nat
  | .file c => c.length
  | .dir n => n

/-- `struct _static_file_config`, static_file_callback.h, and the fields of `struct _u_compressed_inmemory_website_config` both
have. -/
structure Config where
  base : StaticFile.Config
  mime : UMap
  headers : Option UMap := none

/-- The files that are open; the number of a file is its place in the list. -/
abbrev Files := List Node

/-- `get_filename_ext`, static_file_callback.c:93–100. -/
def extension (path : Bytes) : Bytes :=
  let tail := (path.reverse.takeWhile (· != 0x2e)).reverse
  if !path.contains 0x2e || tail.length + 1 == path.length then b!"*"
  else cutAt 0x3f (0x2e :: tail)

/-- The media type, static_file_callback.c:172–176. -/
def contentType (mime : UMap) (name : Bytes) : Res (Option Buf) := do
  match ← UMap.getCase mime (some (extension name)) with
  | some b => return some b
  | none => UMap.get mime (some b!"*")

/-- The headers of a file, static_file_callback.c:172–178. -/
def fileHeaders (c : Config) (name : Bytes) (h : UMap) : Res UMap := do
  let ct ← contentType c.mime name
  let (_, h) ← putPtr h (some b!"Content-Type") ct
  match c.headers with
  | none => return h
  | some m => do
    let (_, h) ← UMap.copyInto h m
    return h

/-- The answer with an open file, static_file_callback.c:168–182 and static_compressed_inmemory_website_callback.c:194–208:
`ulfius_set_stream_response(response, 200, .., length, block, f)`. -/
def sendFile (block : Nat) (c : Config) (name : Bytes) (n : Node) (r : Response) (fs : Files) : Res (Response × Files) := do
  let h ← fileHeaders c name r.header
  return (setStream { r with header := h } 200 (told n, block, fs.length), fs ++ [n])

/-- The answer for a file that is not there, static_file_callback.c:185–190 and 193–198. -/
def notThere (c : Config) (r : Response) : Res Response :=
  match c.base.redirect with
  | none => .ok (setStringBody r 404 (some b!"File not found")).2
  | some l => do
    let (_, h) ← UMap.put r.header (some b!"Location") (some l)
    return { r with header := h, status := 302 }

/-- `callback_static_file`, static_file_callback.c:126–208. -/
def staticFile (d : Disk) (c : Config) (url : Bytes) (pos : Nat) (r : Response) (fs : Files) : Res (Int × Response × Files) :=
  if pos > 0 then .ok (Dispatch.cbContinue, r, fs)
  else do
    let name ← requested true c.base url
    let path := filePath c.base name
    if within c.base (d.real path) then
      if d.exists path then
        match d.fopen path with
        | some n => do
          let (r, fs) ← sendFile 256 c name n r fs
          return (Dispatch.cbContinue, r, fs)
        | none => return (Dispatch.cbContinue, r, fs)
      else do
        let r ← notThere c r
        return (Dispatch.cbContinue, r, fs)
    else do
      let r ← notThere c r
      return (Dispatch.cbContinue, r, fs)

/-- `callback_static_file_stream` and `callback_static_file_uncompressed_stream`, static_file_callback.c:105–112 and
static_compressed_inmemory_website_callback.c:139–146: `fread` at the place the file is at. It gives less than asked for at the
end only. The state is the file and this place. -/
def fileReader : Reader (Node × Nat) := fun st _ max =>
  match st.1 with
  | .dir _ => (.notYet, st)
  | .file c => match (c.drop st.2).take max with
    | [] => (.notYet, st)
    | b => (.data b, (st.1, st.2 + b.length))

/-- The callback as the dispatcher calls it; a call that is undefined is given up. -/
def staticCb (d : Disk) (c : Config) (url : Bytes) : Answer.Callback Files := fun pos w =>
  match staticFile d c url pos w.resp w.user with
  | .ok (ret, r, fs) => (ret, { w with resp := r, user := fs })
  | .ub => (Dispatch.cbError, w)

/-! ## The compressed website -/

/-- `struct _u_compressed_inmemory_website_config`, static_compressed_inmemory_website_callback.h: the configuration. -/
structure Site extends Config where
  gzip : Bool := true
  deflate : Bool := true
  caching : Bool := true
  types : List Bytes := []

/-- The two maps `gzip_files` and `deflate_files`. -/
structure Caches where
  gzip : UMap := UMap.init
  deflate : UMap := UMap.init

/-- The cache of a coding. -/
def Caches.of (k : Caches) : Compress.Mode → UMap
  | .gzip => k.gzip
  | .deflate => k.deflate

/-- The cache of a coding replaced. -/
def Caches.set (k : Caches) : Compress.Mode → UMap → Caches
  | .gzip, m => { k with gzip := m }
  | .deflate, m => { k with deflate := m }

/-- What the callback leaves: its code, the response, the caches, the open files. -/
abbrev Out := Int × Response × Caches × Files

/-- The answer for a file that is not there, static_compressed_inmemory_website_callback.c:210–215 and 468–473. -/
def goneSite (c : Config) (r : Response) (k : Caches) (fs : Files) : Res Out :=
  match c.base.redirect with
  | none => .ok (Dispatch.cbIgnore, r, k, fs)
  | some l => do
    let (_, h) ← UMap.put r.header (some b!"Location") (some l)
    return (Dispatch.cbContinue, { r with header := h, status := 302 }, k, fs)

/-- `callback_static_file_uncompressed`, static_compressed_inmemory_website_callback.c:160–234; `name` as
`StaticFile.requested false` finds it. -/
def plainFile (d : Disk) (c : Config) (name : Bytes) (r : Response) (k : Caches) (fs : Files) : Res Out :=
  let path := filePath c.base name
  if within c.base (d.real path) then
    match d.fopen path with
    | some n => do
      let (r, fs) ← sendFile 0x4000 c name n r fs
      return (Dispatch.cbContinue, r, k, fs)
    | none => goneSite c r k fs
  else goneSite c r k fs

/-- The bytes of a block: all of them have been written. -/
def written : Buf → Res Bytes
  | [] => .ok []
  | none :: _ => .ub
  | some x :: t => do
    let t ← written t
    return x :: t

/-- `ulfius_set_binary_body_response(response, 200, u_map_get(cache, name), u_map_get_length(cache, name))`,
static_compressed_inmemory_website_callback.c:347 and 442. -/
def bodyFromCache (cache : UMap) (name : Bytes) (r : Response) : Res Response := do
  let b ← UMap.get cache (some name)
  let n ← UMap.getLength cache (some name)
  match b, n with
  | some b, some n => do
    let z ← written (b.take n)
    let (_, r) ← setBinaryBody r 200 (some z) n
    return r
  | _, _ => return r

/-- What is compressed, static_compressed_inmemory_website_callback.c:384–398: the file in a block of its size, of which
`(uInt)length` bytes are announced to zlib. What cannot be read leaves the block as it was allocated. -/
def zipInput : Node → Res Bytes
  | .dir _ => .ub
  | .file c => .ok (c.take (Compress.w32 c.length))

/-- static_compressed_inmemory_website_callback.c:381–466: the file is compressed, put into the cache and answered with. -/
def packFile (Z : Compress.Zlib) (m : Compress.Mode) (c : Site) (name : Bytes) (n : Node) (r : Response) (k : Caches) (fs : Files) :
    Res Out := do
  let h ← fileHeaders c.toConfig name r.header
  let r := { r with header := h }
  if told n = 0 then return (Dispatch.cbContinue, r, k, fs)
  else if Z.init m then do
    let x ← zipInput n
    match Compress.loop (Z.fails m x) 0 (Z.all m x) [] with
    | none => return (Dispatch.cbError, r, k, fs)
    | some z => do
      let (r, k) ← (if c.caching then do
          let (_, cache) ← UMap.putBinary (k.of m) (some name) (some (z.map some)) 0 z.length
          let r ← bodyFromCache cache name r
          return (r, k.set m cache)
        else do
          let (_, r) ← setBinaryBody r 200 (some z) z.length
          return (r, k))
      let (_, h) ← UMap.put r.header (some b!"Content-Encoding") (some (Compress.modeName m))
      return (Dispatch.cbContinue, { r with header := h }, k, fs)
  else return (Dispatch.cbError, r, k, fs)

/-- The media type is one of `mime_types_compressed`, static_compressed_inmemory_website_callback.c:378. -/
def packs (c : Site) (ct : Option Buf) : Res Bool :=
  match ct with
  | none => .ok false
  | some b => do
    let t ← readStr b
    return c.types.contains t

/-- static_compressed_inmemory_website_callback.c:364–490: a file that is not in the cache. The file opened here is not closed when
the work is left to `callback_static_file_uncompressed`. -/
def loadFile (Z : Compress.Zlib) (m : Compress.Mode) (d : Disk) (c : Site) (name : Bytes) (r : Response) (k : Caches) (fs : Files) :
    Res Out :=
  let path := filePath c.base name
  if within c.base (d.real path) then
    match d.fopen path with
    | none => goneSite c.toConfig r k fs
    | some n => do
      let ct ← contentType c.mime name
      if ← packs c ct then packFile Z m c name n r k fs
      else plainFile d c.toConfig name r k (fs ++ [n])
  else goneSite c.toConfig r k fs

/-- static_compressed_inmemory_website_callback.c:338–343. -/
def chooseMode (c : Site) (accept : Option Buf) : Res (Option Compress.Mode) :=
  match accept with
  | none => .ok none
  | some b => do
    let v ← readStr b
    return Compress.choose (some ⟨c.gzip, c.deflate⟩) (Handshake.splitString 0x2c v)

/-- `callback_static_compressed_inmemory_website`, static_compressed_inmemory_website_callback.c:298–503. -/
def website (Z : Compress.Zlib) (d : Disk) (c : Site) (url : Bytes) (header : UMap) (pos : Nat) (r : Response) (k : Caches)
    (fs : Files) : Res Out :=
  if pos > 0 then .ok (Dispatch.cbIgnore, r, k, fs)
  else do
    let name ← requested false c.base url
    if ← UMap.hasKeyCase r.header (some b!"Content-Encoding") then plainFile d c.toConfig name r k fs
    else do
      let accept ← UMap.getCase header (some b!"Accept-Encoding")
      match ← chooseMode c accept with
      | none => plainFile d c.toConfig name r k fs
      | some m => do
        let known ← UMap.hasKey (k.of m) (some name)
        if c.caching && known then do
          let r ← bodyFromCache (k.of m) name r
          let (_, h) ← UMap.put r.header (some b!"Content-Encoding") (some (Compress.modeName m))
          let h ← fileHeaders c.toConfig name h
          return (Dispatch.cbContinue, { r with header := h }, k, fs)
        else loadFile Z m d c name r k fs

end Verif.Website
