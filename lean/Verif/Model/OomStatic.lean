import Verif.Model.Website
/-!
# Model of the static file callback when memory runs out, `example_callbacks/static_file/static_file_callback.c:126–208`

As `staticFile` in `Model/Website`, with the allocations of the callback given as choices: `true`, it succeeds. `realpath(NULL, NULL)` gives NULL, and
`access(NULL, F_OK)` gives -1.
-/
namespace Verif.OomStatic
open Verif.UMap Verif.Message Verif.StaticFile Verif.Website

/-- Which allocations succeed. -/
structure Mem where
  /-- `o_strdup(request->http_url)`, static_file_callback.c:138 -/
  url : Bool := true
  /-- `o_strdup("index.html")`, static_file_callback.c:159 -/
  index : Bool := true
  /-- `msprintf`, static_file_callback.c:162 -/
  path : Bool := true
  /-- the block of `realpath`, static_file_callback.c:163 -/
  real : Bool := true
  /-- the block of `fopen`, static_file_callback.c:166 -/
  file : Bool := true
  /-- the allocation of `u_map_put` of Content-Type that fails, static_file_callback.c:177 -/
  type : Option Nat := none
  /-- the allocation of the n-th `u_map_put` in `u_map_copy_into` that fails, static_file_callback.c:178 -/
  copy : Nat → Option Nat := fun _ => none
  /-- `o_strdup("File not found")` in `ulfius_set_string_body_response`, u_response.c:521 -/
  body : Bool := true
  /-- the allocation of `u_map_put` of Location that fails, static_file_callback.c:189 and 197 -/
  location : Option Nat := none

/-- `u_map_put` of a value that is in another map, u_map.c:218–220. -/
def putFrom (oom : Option Nat) (m : UMap) (key : Bytes) (p : Option Buf) : Res (Rc × UMap) :=
  match p with
  | none => UMap.put m (some key) none oom
  | some b => do
    let s ← readStr b
    UMap.put m (some key) (some s) oom

/-- The loop of `u_map_copy_into`, u_map.c:494–500: it ends with the first entry that is not stored. -/
def copyLoop (oom : Nat → Option Nat) (src : UMap) (n : Nat) : List (Ptr Bytes) → UMap → Res (Rc × UMap)
  | [], _ => .ub
  | .null :: _, d => .ok (.ok, d)
  | .dead :: _, _ => .ub
  | .to k :: t, d => do
    let v ← UMap.get src (some k)
    let (rc, d') ← putFrom (oom n) d k v
    if rc = .ok then copyLoop oom src (n + 1) t d' else return (rc, d')

/-- `u_map_copy_into`, u_map.c:489–505. -/
def copyInto (oom : Nat → Option Nat) (dest src : UMap) : Res (Rc × UMap) :=
  match src.keys with
  | none => .ok (.ok, dest)
  | some ks => copyLoop oom src 0 ks dest

/-- The name of the file, static_file_callback.c:138–160. The copy of the URL is read without looking whether it is there. The copy of `index.html` is
not looked at either; `%s` of a NULL pointer is undefined. -/
def requested (mem : Mem) (c : StaticFile.Config) (url : Bytes) : Res Bytes := do
  if mem.url then
    let p ← advance (c.pfx.getD []).length (skipSlashes url)
    let p := cutAt 0x3f (cutAt 0x23 (skipSlashes p))
    if p.isEmpty || p == b!"/" then
      if mem.index then return b!"index.html" else Res.ub
    else return p
  else Res.ub

/-- The headers of a file, static_file_callback.c:172–178: the results are not looked at. -/
def fileHeaders (mem : Mem) (c : Website.Config) (name : Bytes) (h : UMap) : Res UMap := do
  let ct ← contentType c.mime name
  let (_, h) ← putFrom mem.type h b!"Content-Type" ct
  match c.headers with
  | none => return h
  | some m => do
    let (_, h) ← copyInto mem.copy h m
    return h

/-- The answer for a file that is not there, static_file_callback.c:186–199. Without memory for the text the body before is freed, its length and the
status stay. -/
def notThere (mem : Mem) (c : Website.Config) (r : Response) : Res Response :=
  match c.base.redirect with
  | none => if mem.body then .ok (setStringBody r 404 (some b!"File not found")).2 else .ok { r with body := none }
  | some l => do
    let (_, h) ← UMap.put r.header (some b!"Location") (some l) mem.location
    return { r with header := h, status := 302 }

/-- `realpath(file_path, NULL)`, static_file_callback.c:163: NULL also when one of the two blocks is not there. -/
def realPath (mem : Mem) (d : Disk) (path : Bytes) : Option Bytes := if mem.path && mem.real then d.real path else none

/-- `callback_static_file`, static_file_callback.c:126–208. -/
def staticFile (mem : Mem) (d : Disk) (c : Website.Config) (url : Bytes) (pos : Nat) (r : Response) (fs : Files) :
    Res (Int × Response × Files) :=
  if pos > 0 then .ok (Dispatch.cbContinue, r, fs)
  else do
    let name ← requested mem c.base url
    let path := filePath c.base name
    if within c.base (realPath mem d path) then
      if mem.path && d.exists path then
        match (if mem.file then d.fopen path else none) with
        | some n => do
          let h ← fileHeaders mem c name r.header
          return (Dispatch.cbContinue, setStream { r with header := h } 200 (told n, 256, fs.length), fs ++ [n])
        | none => return (Dispatch.cbContinue, r, fs)
      else do
        let r ← notThere mem c r
        return (Dispatch.cbContinue, r, fs)
    else do
      let r ← notThere mem c r
      return (Dispatch.cbContinue, r, fs)

/-- The callback as the dispatcher calls it; a call that is undefined is given up. -/
def staticCb (mem : Mem) (d : Disk) (c : Website.Config) (url : Bytes) : Answer.Callback Files := fun pos w =>
  match staticFile mem d c url pos w.resp w.user with
  | .ok (ret, r, fs) => (ret, { w with resp := r, user := fs })
  | .ub => (Dispatch.cbError, w)

end Verif.OomStatic
