import Verif.Model.EndpointType
import Verif.Model.Strtok
import Verif.Model.UrlCodec
import Verif.Model.Utf8
import Verif.Spec.OMap
/-!
# Model of endpoint registration, routing and URL parameters

`src/u_request.c` 41–260, `src/ulfius.c` 68–162 and 1357–1600.

Maps that hold strings only (`request->map_url`, `map_header`, ...) are modelled by the ordered map of
`Verif.Spec.OMap`, which `u_map` was proved to refine (C07). Allocations succeed.
-/
namespace Verif.Endpoint
open Verif.Strtok Verif.UrlCodec Verif.Utf8
open Verif.Spec.OMap (OMap lookup put)

/-- `ulfius_empty_endpoint`, src/ulfius.c:1537–1546. -/
def emptyEndpoint : Endpoint :=
  { method := none, pfx := none, format := none, priority := 0, callback := none, userData := 0 }

/-- `ulfius_equals_endpoints` on non-NULL pointers, src/ulfius.c:1548–1564; `o_strcmp` is 0 on two NULLs. -/
def equals (a b : Endpoint) : Bool := b.method == a.method && b.pfx == a.pfx && b.format == a.format

/-- `ulfius_is_valid_endpoint`, src/ulfius.c:141–162. -/
def isValid (e : Endpoint) (toDelete : Bool) : Bool :=
  if equals e emptyEndpoint then true
  else if e.method.isNone then false
  else if !toDelete && e.callback.isNone then false
  else if e.pfx.isNone && e.format.isNone then false
  else true

/-- Words separated by `/` (`ULFIUS_URL_SEPARATOR`), as `strtok_r` returns them. -/
def slashWords (s : Bytes) : List Bytes := words (· == 0x2f) s

/-- `ulfius_split_url`, src/u_request.c:41–95: all words of the first argument, those of the second that do not
begin with `?`. The result array ends with NULL, here the end of the list. -/
def splitUrl (pfx url : Option Bytes) : List Bytes :=
  (match pfx with | some p => slashWords p | none => []) ++
  (match url with
    | some u => (slashWords u).filter (fun w => !w.isEmpty && !(w.head? == some 0x3f))
    | none => [])

/-- First byte of a C string (`s[0]`, the NUL of an empty string). -/
def byte0 (s : Bytes) : UInt8 := s.headD 0

/-- `ulfius_url_format_match`, src/u_request.c:118–130; both arrays end with NULL (end of list). -/
def formatMatch : (url format : List Bytes) → Bool
  | url, [] => url.isEmpty
  | url, f :: fs =>
    if byte0 f == 0x2a && fs.isEmpty then true
    else match url with
      | [] => false
      | u :: us =>
        if byte0 f != 0x40 && byte0 f != 0x3a && !(f == u) then false
        else formatMatch us fs

/-- The loop of `ulfius_endpoint_match`, src/u_request.c:152–180: the endpoints copied into the result, before
sorting. The list is the array up to and including its allocated end. -/
def matchLoop (method : Bytes) (surl : List Bytes) : List Endpoint → Res (List Endpoint)
  | [] => .ub
  | e :: t =>
    if equals e emptyEndpoint then .ok []
    else match e.method with
      | none => .ub                       -- o_strcasecmp is fine with NULL, http_method[0] is not
      | some m => do
        let rest ← matchLoop method surl t
        if (eqCase m method || byte0 m == 0x2a) && formatMatch surl (splitUrl e.pfx e.format) then
          .ok (e :: rest)
        else .ok rest

/-- Result of `qsort` with `compare_endpoint_priorities` (src/u_request.c:101–111): the C library only promises
a permutation sorted by the comparison; the order of endpoints of equal priority is unspecified. -/
def Sorted (l r : List Endpoint) : Prop := l.Perm r ∧ r.Pairwise (fun a b => a.priority ≤ b.priority)

/-- `ulfius_endpoint_match(method, url, endpoint_list)`, src/u_request.c:139–189: `r` is a possible result. -/
def EndpointMatch (method url : Bytes) (list : List Endpoint) (r : List Endpoint) : Prop :=
  ∃ l, matchLoop method (slashWords url) list = .ok l ∧ Sorted l r

/-- The part of `struct _u_instance` these functions use: `endpoint_list` (NULL is `none`) and `nb_endpoints`. -/
structure Inst where
  list : Option (List Endpoint)
  nb : Nat
  deriving DecidableEq, Repr, Inhabited

/-- A new instance (`internal_ulfius_init_instance`, src/ulfius.c:1672–1756). -/
def Inst.init : Inst := { list := none, nb := 0 }

/-- Return codes used here. -/
inductive Rc where
  | ok | memory | params | notFound
  deriving DecidableEq, Repr

/-- `a[i] = x` -/
def aset {α : Type} (a : List α) (i : Nat) (x : α) : Res (List α) :=
  if i < a.length then .ok (a.set i x) else .ub

/-- `ulfius_add_endpoint`, src/ulfius.c:1426–1464. The grown array is modelled as the old one followed by
unspecified endpoints (`junk`), all of which are then written. -/
def addEndpoint (s : Inst) (e : Endpoint) (junk : Endpoint := emptyEndpoint) : Res (Rc × Inst) :=
  if isValid e false then do
    let (a, nb) := match s.list with
      | none => ([junk, junk], 1)
      | some l => ((l ++ [junk, junk]).take (s.nb + 2), s.nb + 1)
    let a ← aset a (nb - 1) e
    let a ← aset a nb emptyEndpoint
    .ok (.ok, { list := some a, nb := nb })
  else .ok (.params, s)

/-- `o_strcmp(trimcharacter(a), trimcharacter(b)) == 0` on possibly NULL strings, src/ulfius.c:1497–1500. -/
def sameTrim (a b : Option Bytes) : Bool := a.map (trimChar 0x2f) == b.map (trimChar 0x2f)

/-- `for (j=i; j<nb; j++) list[j] = list[j+1];` src/ulfius.c:1506–1508; `n` turns left. -/
def shift : (n j : Nat) → List Endpoint → Res (List Endpoint)
  | 0, _, a => .ok a
  | n + 1, j, a =>
    match a[j + 1]? with
    | some x => shift n (j + 1) (a.set j x)
    | none => .ub

/-- The loop of `ulfius_remove_endpoint`, src/ulfius.c:1492–1520; `i` is one more than the C variable. -/
def removeLoop (e : Endpoint) : Nat → Inst → Bool → Res (Rc × Inst)
  | 0, s, found => .ok (if found then .ok else .notFound, s)
  | i + 1, s, found =>
    match s.list with
    | none => .ub
    | some l =>
      match l[i]? with
      | none => .ub
      | some cur =>
        if cur.method == e.method && sameTrim cur.pfx e.pfx && sameTrim cur.format e.format then do
          let l' ← shift (s.nb - i) i l
          removeLoop e i { list := some (l'.take s.nb), nb := s.nb - 1 } true
        else removeLoop e i s found

/-- `ulfius_remove_endpoint`, src/ulfius.c:1483–1535. -/
def removeEndpoint (s : Inst) (e : Endpoint) : Res (Rc × Inst) :=
  if !equals e emptyEndpoint && isValid e true then removeLoop e s.nb s false
  else .ok (.params, s)

/-! ## URL parameters -/

/-- First loop of `ulfius_parse_url`, src/u_request.c:209–214: one URL word is dropped per prefix word. -/
def skipPrefix : (pfxWords urlWords : List Bytes) → List Bytes
  | [], us => us
  | _ :: _, [] => []
  | _ :: ps, _ :: us => skipPrefix ps us

/-- Second loop of `ulfius_parse_url`, src/u_request.c:224–250. -/
def paramLoop (check : Bool) : (fmt url : List Bytes) → OMap → Res (Rc × OMap)
  | f :: fs, u :: us, m => do
    let w ← urlDecode (some u)
    let w := w.getD []
    if (byte0 f == 0x3a || byte0 f == 0x40) && (!check || utf8Ok w) then
      let key := f.drop 1
      let v := match lookup m key with
        | some old => old.getD b!"(null)" ++ b!"," ++ w
        | none => w
      if key.isEmpty then .ok (.memory, m)        -- u_map_put refuses an empty key
      else paramLoop check fs us (put m key (some v))
    else paramLoop check fs us m
  | _, _, m => .ok (.ok, m)

/-- `ulfius_parse_url(url, endpoint, map, check_utf8)`, src/u_request.c:196–260. -/
def parseUrl (url : Bytes) (e : Endpoint) (m : OMap) (check : Bool) : Res (Rc × OMap) :=
  let us := slashWords url
  let us := match e.pfx with
    | some p => skipPrefix (slashWords p) us
    | none => us
  match e.format with
  | some f => paramLoop check (slashWords f) us m
  | none => .ok (.ok, m)

/-- The map handed to one callback: the dispatcher empties `map_url`, copies the query parameters into it and
adds the URL parameters, src/ulfius.c:638–643. -/
def callbackUrlMap (url : Bytes) (e : Endpoint) (query : OMap) (check : Bool) : Res (Rc × OMap) :=
  parseUrl url e (query.foldl (fun m p => put m p.1 p.2) []) check

/-! ## Collecting key/value pairs -/

/-- The value put for a key that already holds `old` (`none`: u_map_get gave NULL), src/ulfius.c:81–92, 117–128. -/
def appendOld (old : Option Bytes) (v : Bytes) : Bytes :=
  match old with
  | some old => old ++ b!"," ++ v
  | none => v

/-- `ulfius_fill_map_check_utf8` / `ulfius_fill_map` with non-NULL map and key, src/ulfius.c:68–100 and 106–134:
`none` is MHD_NO. -/
def fillMap (check : Bool) (m : OMap) (key : Bytes) (value : Option Bytes) : Option OMap :=
  if check && !(utf8Ok key && (value.isNone || utf8Ok (value.getD []))) then some m
  else
    let v := appendOld (lookup m key).join (value.getD [])
    if key.isEmpty then none else some (put m key (some v))

/-- `MHD_get_connection_values(connection, kind, fill_map, map)`, src/ulfius.c:536–544: the iterator is called for
each pair in order and the iteration stops when it returns MHD_NO (libmicrohttpd). -/
def collect (check : Bool) : List (Bytes × Option Bytes) → OMap → OMap
  | [], m => m
  | (k, v) :: t, m =>
    match fillMap check m k v with
    | some m' => collect check t m'
    | none => m

end Verif.Endpoint
