import Verif.Model.OomStatic
import Verif.Model.OomCompress
/-!
# Model of the compressed website when memory runs out,
`example_callbacks/static_compressed_inmemory_website/static_compressed_inmemory_website_callback.c:160–234` and `298–505`

As `website` in `Model/Website`, with the allocations of the callbacks given as choices: `true`, it succeeds. That `deflateInit` fails for want of
memory is part of `Zlib.init`. Buffers that are lost are not counted; the loop is the one of `Model/OomCompress`.
-/
namespace Verif.OomWebsite
open Verif.UMap Verif.Message Verif.StaticFile Verif.Website

/-- Which allocations succeed. -/
structure Mem where
  /-- the URL, `index.html`, the paths, the file and the headers in `callback_static_compressed_inmemory_website` -/
  own : OomStatic.Mem := {}
  /-- the same in `callback_static_file_uncompressed` -/
  plain : OomStatic.Mem := {}
  /-- `split_string` of Accept-Encoding, line 338 -/
  split : Bool := true
  /-- `o_malloc(length)`, line 389 -/
  content : Bool := true
  /-- `o_malloc((2*length)+20)`, line 389 -/
  zip : Bool := true
  /-- `o_realloc` in turn `n` of the loop, line 418 -/
  grow : Nat → Bool := fun _ => true
  /-- the allocation of `u_map_put_binary` into the cache that fails, lines 441 and 448 -/
  cache : Option Nat := none
  /-- `o_malloc` in `ulfius_set_binary_body_response`, u_response.c:542 -/
  body : Bool := true
  /-- the allocation of `u_map_put` of Content-Encoding that fails, lines 348, 358 and 454 -/
  coding : Option Nat := none

/-- The name of the file, static_compressed_inmemory_website_callback.c:316–335 and 168–187. The copies are not looked at. -/
def requested (mem : OomStatic.Mem) (c : StaticFile.Config) (url : Bytes) : Res Bytes := do
  if mem.url then
    let p ← advance (c.pfx.getD []).length url
    let p := cutAt 0x3f (cutAt 0x23 (skipSlashes p))
    if p.isEmpty || p == b!"/" then
      if mem.index then return b!"index.html" else Res.ub
    else return p
  else Res.ub

/-- The answer for a file that is not there, static_compressed_inmemory_website_callback.c:210–215 and 468–473. -/
def goneSite (mem : OomStatic.Mem) (c : Website.Config) (r : Response) (k : Caches) (fs : Files) : Res Out :=
  match c.base.redirect with
  | none => .ok (Dispatch.cbIgnore, r, k, fs)
  | some l => do
    let (_, h) ← UMap.put r.header (some b!"Location") (some l) mem.location
    return (Dispatch.cbContinue, { r with header := h, status := 302 }, k, fs)

/-- `fopen(file_path, "rb")`, static_compressed_inmemory_website_callback.c:192 and 371. -/
def fopen (mem : OomStatic.Mem) (d : Disk) (path : Bytes) : Option Node := if mem.path && mem.file then d.fopen path else none

/-- `callback_static_file_uncompressed`, static_compressed_inmemory_website_callback.c:160–234: the URL is copied once more. -/
def plainFile (mem : OomStatic.Mem) (d : Disk) (c : Website.Config) (url : Bytes) (r : Response) (k : Caches) (fs : Files) : Res Out := do
  let name ← requested mem c.base url
  let path := filePath c.base name
  if within c.base (OomStatic.realPath mem d path) then
    match fopen mem d path with
    | some n => do
      let h ← OomStatic.fileHeaders mem c name r.header
      return (Dispatch.cbContinue, setStream { r with header := h } 200 (told n, 0x4000, fs.length), k, fs ++ [n])
    | none => goneSite mem c r k fs
  else goneSite mem c r k fs

/-- `ulfius_set_binary_body_response(response, 200, u_map_get(cache, name), u_map_get_length(cache, name))`,
static_compressed_inmemory_website_callback.c:347, 357, 442 and 449. -/
def bodyFromCache (ok : Bool) (cache : UMap) (name : Bytes) (r : Response) : Res Response := do
  let b ← UMap.get cache (some name)
  let n ← UMap.getLength cache (some name)
  match b, n with
  | some b, some n => do
    if ok then
      let z ← written (b.take n)
      let (_, r) ← setBinaryBody r 200 (some z) n
      return r
    else if n = 0 then return r
    else return { r with body := none, bodyLen := 0 }
  | _, _ => return r

/-- static_compressed_inmemory_website_callback.c:381–466: the results of storing are not looked at. -/
def packFile (Z : Compress.Zlib) (mem : Mem) (m : Compress.Mode) (c : Site) (name : Bytes) (n : Node) (r : Response) (k : Caches) (fs : Files) :
    Res Out := do
  let h ← OomStatic.fileHeaders mem.own c.toConfig name r.header
  let r := { r with header := h }
  if told n = 0 then return (Dispatch.cbContinue, r, k, fs)
  else if mem.content && mem.zip then
    if Z.init m then do
      let x ← zipInput n
      match (OomCompress.loop mem.grow (Z.fails m x) 0 (Z.all m x) []).1 with
      | none => return (Dispatch.cbError, r, k, fs)
      | some z => do
        let (r, k) ← (if c.caching then do
            let (_, cache) ← UMap.putBinary (k.of m) (some name) (some (z.map some)) 0 z.length mem.cache
            let r ← bodyFromCache mem.body cache name r
            return (r, k.set m cache)
          else do
            let r ← OomCompress.setBody mem.body r 200 z
            return (r, k))
        let (_, h) ← UMap.put r.header (some b!"Content-Encoding") (some (Compress.modeName m)) mem.coding
        return (Dispatch.cbContinue, { r with header := h }, k, fs)
    else return (Dispatch.cbError, r, k, fs)
  else return (Dispatch.cbError, r, k, fs)

/-- static_compressed_inmemory_website_callback.c:367–489: a file that is not in the cache. -/
def loadFile (Z : Compress.Zlib) (mem : Mem) (m : Compress.Mode) (d : Disk) (c : Site) (url name : Bytes) (r : Response) (k : Caches) (fs : Files) :
    Res Out :=
  let path := filePath c.base name
  if within c.base (OomStatic.realPath mem.own d path) then
    match fopen mem.own d path with
    | none => goneSite mem.own c.toConfig r k fs
    | some n => do
      let ct ← contentType c.mime name
      if ← packs c ct then packFile Z mem m c name n r k fs
      else plainFile mem.plain d c.toConfig url r k (fs ++ [n])
  else goneSite mem.own c.toConfig r k fs

/-- `callback_static_compressed_inmemory_website`, static_compressed_inmemory_website_callback.c:298–505. -/
def website (Z : Compress.Zlib) (mem : Mem) (d : Disk) (c : Site) (url : Bytes) (header : UMap) (pos : Nat) (r : Response) (k : Caches)
    (fs : Files) : Res Out :=
  if pos > 0 then .ok (Dispatch.cbIgnore, r, k, fs)
  else do
    let name ← requested mem.own c.base url
    if ← UMap.hasKeyCase r.header (some b!"Content-Encoding") then plainFile mem.plain d c.toConfig url r k fs
    else do
      let accept ← UMap.getCase header (some b!"Accept-Encoding")
      let mode ← (if mem.split then chooseMode c accept else .ok none)
      match mode with
      | none => plainFile mem.plain d c.toConfig url r k fs
      | some m => do
        let known ← UMap.hasKey (k.of m) (some name)
        if c.caching && known then do
          let r ← bodyFromCache mem.body (k.of m) name r
          let (_, h) ← UMap.put r.header (some b!"Content-Encoding") (some (Compress.modeName m)) mem.coding
          let h ← OomStatic.fileHeaders mem.own c.toConfig name h
          return (Dispatch.cbContinue, { r with header := h }, k, fs)
        else loadFile Z mem m d c url name r k fs

end Verif.OomWebsite
