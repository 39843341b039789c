import Verif.Basic
/-!
# Model of the static file callbacks

`example_callbacks/static_file/static_file_callback.c` 126–208 and
`example_callbacks/static_compressed_inmemory_website/static_compressed_inmemory_website_callback.c` 160–228 and 298–497.

The file system is a parameter: `real` is `realpath`, `opens` tells whether `access` and `fopen` succeed on a path. It does not
change during a call. Content types, headers and the bytes of the files are left out, and so is the compression: an answer
names the file whose content it carries.
-/
namespace Verif.StaticFile

/-- The file system as `realpath` and `fopen` show it. -/
structure Fs where
  real : Bytes → Option Bytes
  opens : Bytes → Bool

/-- `struct _static_file_config` and `struct _u_compressed_inmemory_website_config`, the fields used here. -/
structure Config where
  root : Bytes
  pfx : Option Bytes := none
  redirect : Option Bytes := none

/-- The answers. `file r` carries the content of the file whose canonical path is `r`. `empty` is an answer that was not
touched. -/
inductive Ans where
  | file (r : Bytes) | notFound | redirect (to : Bytes) | empty
  deriving DecidableEq, Repr

/-- `while (p[0] == '/') p++` -/
def skipSlashes (s : Bytes) : Bytes := s.dropWhile (· == 0x2f)

/-- `p += n`, followed by a read at `p`: within the string and its terminator only. -/
def advance (n : Nat) (s : Bytes) : Res Bytes := if n ≤ s.length then .ok (s.drop n) else .ub

/-- `if (strchr(p, c) != NULL) *strchr(p, c) = '\0';` -/
def cutAt (c : UInt8) (s : Bytes) : Bytes := s.takeWhile (· != c)

/-- The name of the file that is asked for, static_file_callback.c:138–160. `lead` tells whether the slashes at the begin are
skipped before the prefix, which the compressed variant (316–335) does not do. -/
def requested (lead : Bool) (c : Config) (url : Bytes) : Res Bytes := do
  let p := if lead then skipSlashes url else url
  let p ← advance (c.pfx.getD []).length p
  let p := skipSlashes p
  let p := cutAt 0x23 p
  let p := cutAt 0x3f p
  .ok (if p.isEmpty || p == b!"/" then b!"index.html" else p)

/-- `msprintf("%s/%s", files_path, file_requested)`, static_file_callback.c:162. -/
def filePath (c : Config) (name : Bytes) : Bytes := c.root ++ b!"/" ++ name

/-- `0 == o_strncmp(files_path, real_path, o_strlen(files_path))`, static_file_callback.c:164. A NULL path differs, unless
nothing is compared. -/
def within (c : Config) (real : Option Bytes) : Bool :=
  match real with
  | none => c.root.isEmpty
  | some r => r.take c.root.length == c.root

/-- What is answered for a file that is not there, static_file_callback.c:186–199. -/
def missing (c : Config) : Ans :=
  match c.redirect with
  | none => .notFound
  | some l => .redirect l

/-- `callback_static_file` for the first callback of a request, static_file_callback.c:126–208. -/
def serve (fs : Fs) (c : Config) (url : Bytes) : Res Ans := do
  let name ← requested true c url
  let path := filePath c name
  if within c (fs.real path) then
    match fs.real path with
    | some r => .ok (if fs.opens path then .file r else missing c)
    | none => .ok (missing c)
  else .ok (missing c)

/-- The two caches of the compressed variant: from the name that was asked for to the file whose content is held. `files` is the
number of files that were opened and that nobody is going to close. -/
structure Cache where
  gzip : List (Bytes × Bytes) := []
  deflate : List (Bytes × Bytes) := []
  files : Nat := 0
  deriving DecidableEq, Repr

/-- `U_COMPRESS_NONE`, `U_COMPRESS_GZIP`, `U_COMPRESS_DEFL`. -/
inductive Mode where
  | none | gzip | deflate
  deriving DecidableEq, Repr

/-- `callback_static_compressed_inmemory_website`, static_compressed_inmemory_website_callback.c:298–497: first the cache of
the mode, then the file system. `mode` is the compression agreed on; `packs` tells whether files of this type are compressed
(an empty file is not put into the cache either, which is left out); such a file is handed to
`callback_static_file_uncompressed` (160–228), which opens it once more, and the first `fclose` (465) is left out. The file a
stream reads is closed with the stream. `caching` is `allow_cache_compressed`. Without redirection
the callback leaves a missing file to the next callback (`.empty`). The bytes of a cached file are those of the moment it was
cached. -/
def serveCompressed (fs : Fs) (c : Config) (caching : Bool) (mode : Mode) (packs : Bytes → Bool) (k : Cache) (url : Bytes) :
    Res (Ans × Cache) := do
  let name ← requested false c url
  let gone : Ans := match c.redirect with
    | none => .empty
    | some l => .redirect l
  let look := match mode with
    | .gzip => if caching then k.gzip.lookup name else none
    | .deflate => if caching then k.deflate.lookup name else none
    | .none => none
  match look with
  | some r => .ok (.file r, k)
  | none =>
    let path := filePath c name
    if within c (fs.real path) && fs.opens path then
      match fs.real path with
      | none => .ok (gone, k)
      | some r =>
        if mode = .none then .ok (.file r, k)
        else if !packs name then .ok (.file r, { k with files := k.files + 1 })
        else if caching then
          match mode with
          | .gzip => .ok (.file r, { k with gzip := k.gzip ++ [(name, r)] })
          | _ => .ok (.file r, { k with deflate := k.deflate ++ [(name, r)] })
        else .ok (.file r, k)
    else .ok (gone, k)

end Verif.StaticFile
