import Verif.Model.UMap
import Verif.Model.Instance
/-!
# Model of the start of the example servers with TLS: the files of key and certificate

`read_file`: example_programs/auth_example/auth_server.c:46–67, the same text in example_programs/simple_example/simple_example.c:79–100 and
example_programs/websocket_example/websocket_server.c:37–58. What it returns is given to `ulfius_start_secure_framework` or
`ulfius_start_secure_ca_trust_framework`, which read it as a text.

Outside the model: a read that is interrupted by a signal. `long` has 64 bits. Every `o_malloc` of 0 bytes that does not fail gives a block of
0 bytes.
-/
namespace Verif.ReadFile
open Verif.UMap (Buf readStr)
open Verif.Instance (Instance Mhd Rc)

/-- A file that could be opened. -/
structure File where
  /-- what `ftell` says after `fseek` to the end; -1 if the file has no positions, like a pipe -/
  told : Int
  /-- what can be read from the start -/
  content : Bytes
  deriving DecidableEq, Repr

/-- The largest `long`. -/
def longMax : Int := 2 ^ 63 - 1

/-- `(size_t)l`. -/
def sizeT (l : Int) : Nat := (l % 2 ^ 64).toNat

/-- `fread(buffer, 1, n, f)` into a block: the bytes read are stored from its start; more than it holds is undefined. -/
def fread (block : Buf) (n : Nat) (content : Bytes) : Res Buf :=
  let got := content.take n
  if got.length ≤ block.length then .ok (got.map some ++ block.drop got.length) else .ub

/-- `buffer[i] = '\0'`. -/
def store0 (block : Buf) (i : Int) : Res Buf :=
  if 0 ≤ i ∧ i < block.length then .ok (block.set i.toNat (some 0)) else .ub

/-- `read_file(filename)`, auth_server.c:46–67; `named`: the name is not NULL, `file`: what `fopen` gives, `alloc`: whether memory of that size
is there. -/
def readFile (alloc : Nat → Bool) (named : Bool) (file : Option File) : Res (Option Buf) :=
  if named then
    match file with
    | none => .ok none
    | some f =>
      let length := f.told
      if length + 1 > longMax then .ub
      else if alloc (sizeT (length + 1)) then do
        let b ← fread (List.replicate (sizeT (length + 1)) none) (sizeT length) f.content
        let b ← store0 b length
        return some b
      else .ok none
  else .ok none

/-- The text in a block, as `MHD_OPTION_HTTPS_MEM_KEY` and the others read it; NULL stays NULL. -/
def text : Option Buf → Res (Option Bytes)
  | none => .ok none
  | some b => do let s ← readStr b; return some s

/-- `simple_example -secure <key_file> <cert_file>`, simple_example.c:135–140. -/
def simple (alloc : Nat → Bool) (key cert : Option File) (u : Option Instance) (m : Mhd) (up : Bool) : Res (Rc × Option Instance × Mhd) := do
  let k ← readFile alloc true key
  let c ← readFile alloc true cert
  Instance.startSecure u m (← text k) (← text c) up

/-- `websocket_server -https <key_file> <cert_file>`, websocket_server.c:102–112. -/
def websocket (alloc : Nat → Bool) (key cert : Option File) (u : Option Instance) (m : Mhd) (up : Bool) : Res (Rc × Option Instance × Mhd) := do
  let k ← readFile alloc true key
  let c ← readFile alloc true cert
  if k.isNone || c.isNone then return (.params, u, m)
  else Instance.startSecure u m (← text k) (← text c) up

/-- `auth_server <key_file> <cert_file> <ca_file>`, auth_server.c:154–156. -/
def auth (alloc : Nat → Bool) (key cert ca : Option File) (u : Option Instance) (m : Mhd) (up : Bool) : Res (Rc × Option Instance × Mhd) := do
  let k ← readFile alloc true key
  let c ← readFile alloc true cert
  let a ← readFile alloc true ca
  Instance.startSecureCa u m (← text k) (← text c) (← text a) up

end Verif.ReadFile
