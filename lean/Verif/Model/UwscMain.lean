import Verif.Spec.OMap
/-!
# The command line of uwsc, tools/uwsc/uwsc.c:272–397

`getopt_long` of the GNU C library, without POSIXLY_CORRECT: arguments that are no options are moved to the end. Letters are
bytes. The error messages of `getopt_long` and the text printed for `-h` and `-v` are left out. Allocations succeed.
-/
namespace Verif.UwscMain
open Verif.Spec.OMap (OMap put)

/-- Whether an option takes an argument. -/
inductive Kind where
  | no | required | optional
  deriving DecidableEq, Repr

/-- `short_options`, uwsc.c:275: `"o:x:b:t:i::l::f:p:e::s::q::v::h::"`. -/
def shortKind (c : UInt8) : Option Kind :=
  if c ∈ b!"oxbtfp" then some .required
  else if c ∈ b!"ilesqvh" then some .optional
  else none

/-- `long_options`, uwsc.c:276–291. -/
def longOptions : List (Bytes × Kind × UInt8) :=
  [(b!"output-log-file", .required, 0x6f), (b!"add-header", .required, 0x78), (b!"send-binary-file", .required, 0x62),
   (b!"send-text-file", .required, 0x74), (b!"non-interactive-send", .no, 0x69), (b!"non-listening", .no, 0x6c),
   (b!"fragmentation", .required, 0x66), (b!"protocol", .required, 0x70), (b!"extensions", .required, 0x65),
   (b!"non-secure", .no, 0x73), (b!"quiet", .no, 0x71), (b!"version", .no, 0x76), (b!"help", .no, 0x68)]

/-- How `getopt_long` finds a long option: the exact name, otherwise the only one that begins with it. -/
def findLong (name : Bytes) : Option (Kind × UInt8) :=
  match longOptions.find? (fun o => o.1 == name) with
  | some o => some o.2
  | none => match longOptions.filter (fun o => name.isPrefixOf o.1) with
    | [o] => some o.2
    | _ => none

/-- What `getopt_long` returns: the letter and `optarg`; `?` is 0x3f. -/
abbrev Opt := UInt8 × Option Bytes

/-- A cluster of short options behind `-`: the options, and the letter that takes the next argument. -/
def cluster : Bytes → List Opt × Option UInt8
  | [] => ([], none)
  | c :: rest =>
    match shortKind c with
    | none => ((0x3f, none) :: (cluster rest).1, (cluster rest).2)
    | some .required => if rest = [] then ([], some c) else ([(c, some rest)], none)
    | some .optional => ([(c, if rest = [] then none else some rest)], none)
    | some .no => ((c, none) :: (cluster rest).1, (cluster rest).2)

/-- A long option behind `--`. -/
def long (s : Bytes) : List Opt × Option UInt8 :=
  let name := s.takeWhile (· != 0x3d)
  let value : Option Bytes := match s.dropWhile (· != 0x3d) with
    | [] => none
    | _ :: v => some v
  match findLong name with
  | none => ([(0x3f, none)], none)
  | some (.no, c) => if value.isSome then ([(0x3f, none)], none) else ([(c, none)], none)
  | some (.required, c) => match value with
    | some v => ([(c, some v)], none)
    | none => ([], some c)
  | some (.optional, c) => ([(c, value)], none)

/-- An argument: an option (or several) or an operand (`none`). -/
def classify : Bytes → Option (List Opt × Option UInt8)
  | 0x2d :: 0x2d :: s => some (long s)
  | 0x2d :: c :: s => some (cluster (c :: s))
  | _ => none

/-- All calls of `getopt_long`: the options returned, in order, and the operands, which are at the end of `argv` afterwards.
`pending`: an option that takes the next argument. -/
def getopt : Option UInt8 → List Bytes → List Opt × List Bytes
  | none, [] => ([], [])
  | some _, [] => ([(0x3f, none)], [])
  | some c, a :: t => ((c, some a) :: (getopt none t).1, (getopt none t).2)
  | none, a :: t =>
    if a = b!"--" then ([], t)
    else match classify a with
      | none => ((getopt none t).1, a :: (getopt none t).2)
      | some (os, p) => (os ++ (getopt p t).1, (getopt p t).2)

/-- `struct _config`, uwsc.c:63–75, as `init_config` (uwsc.c:228–256) leaves it. `fragmentation` is kept as text, nothing
reads it. -/
structure Cfg where
  log : Option Bytes := none
  binary : Option Bytes := none
  text : Option Bytes := none
  nonInteractive : Bool := false
  nonListening : Bool := false
  quiet : Bool := false
  fragmentation : Option Bytes := none
  protocol : Option Bytes := none
  extensions : Option Bytes := none
  checkCert : Bool := true
  headers : OMap := []
  deriving DecidableEq, Repr

/-- The branch for `-x`, uwsc.c:317–327; `u_map_put` refuses an empty key and its result is not looked at. -/
def addHeader (c : Cfg) (v : Bytes) : Option Cfg :=
  match v.dropWhile (· != 0x3a) with
  | [] => none
  | _ :: value =>
    let key := v.takeWhile (· != 0x3a)
    some (if key = [] then c else { c with headers := put c.headers key (some value) })

/-- The switch, uwsc.c:313–375: the configuration, or the exit code. -/
def step (c : Cfg) (o : Opt) : Except Nat Cfg :=
  if o.1 = 0x6f then .ok { c with log := o.2 }
  else if o.1 = 0x78 then match addHeader c (o.2.getD []) with
    | some c' => .ok c'
    | none => .error 1
  else if o.1 = 0x62 then if c.text.isSome then .error 1 else .ok { c with binary := o.2 }
  else if o.1 = 0x74 then if c.binary.isSome then .error 1 else .ok { c with text := o.2 }
  else if o.1 = 0x69 then .ok { c with nonInteractive := true }
  else if o.1 = 0x6c then .ok { c with nonListening := true }
  else if o.1 = 0x66 then .ok { c with fragmentation := o.2 }
  else if o.1 = 0x70 then .ok { c with protocol := o.2 }
  else if o.1 = 0x65 then .ok { c with extensions := o.2 }
  else if o.1 = 0x73 then .ok { c with checkCert := false }
  else if o.1 = 0x71 then .ok { c with quiet := true }
  else if o.1 = 0x76 then .error 0
  else if o.1 = 0x68 then .error 0
  else .ok c

/-- The loop, uwsc.c:308–376. -/
def steps : Cfg → List Opt → Except Nat Cfg
  | c, [] => .ok c
  | c, o :: t => match step c o with
    | .ok c' => steps c' t
    | .error n => .error n

/-- What the program does: exit, or connect with a configuration to a URL offering extensions. -/
inductive Outcome where
  | exit (code : Nat)
  | connect (cfg : Cfg) (url extensions : Bytes)
  deriving DecidableEq, Repr

/-- `main`, uwsc.c:307–395, up to the arguments of `ulfius_set_websocket_request`; `args`: `argv` without the name of
the program. -/
def start (args : List Bytes) : Outcome :=
  match steps {} (getopt none args).1 with
  | .error n => .exit n
  | .ok c =>
    match (getopt none args).2 with
    | [] => .exit 1
    | url :: _ =>
      let e := c.extensions.getD []
      .connect c url (if e = [] then b!"permessage-deflate" else e ++ b!",permessage-deflate")

end Verif.UwscMain
