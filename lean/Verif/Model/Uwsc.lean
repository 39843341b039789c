import Verif.Model.Printf
import Mathlib.Logic.Function.Iterate
/-! # The websocket client program uwsc, tools/uwsc/uwsc.c -/
namespace Verif.Uwsc

/-- `struct _config`, uwsc.c:62–74, the fields the two callbacks use; the contents of the files, `none`: cannot be opened. -/
structure Config where
  textFile : Option (Option Bytes) := none
  binaryFile : Option (Option Bytes) := none
  nonInteractive : Bool := false
  nonListening : Bool := false
  quiet : Bool := false
  fragmentation : Nat := 0

/-- A call of `ulfius_websocket_send_message` (which is `ulfius_websocket_send_fragmented_message` with 0 as the length of
fragments): opcode, data, length of fragments. -/
structure Call where
  opcode : UInt8
  data : Bytes
  fragment : Nat
  deriving DecidableEq, Repr

/-- Reading a line into a buffer with room for `n` bytes and the NUL. -/
def takeLine : Nat → Bytes → Bytes × Bytes
  | 0, s => ([], s)
  | _ + 1, [] => ([], [])
  | n + 1, c :: s => if c = 0x0a then ([c], s) else (c :: (takeLine n s).1, (takeLine n s).2)

/-- `fgets(message, 256, stdin)`, uwsc.c:137: what is stored in front of the NUL and what is left; `none`: NULL, at the end of the
input. -/
def fgets (s : Bytes) : Option (Bytes × Bytes) := if s = [] then none else some (takeLine 255 s)

/-- `0 == o_strncmp(message, "!q", 2)`, uwsc.c:139 and 157. -/
def isQuit (m : Bytes) : Bool := b!"!q".isPrefixOf m

/-- The sends for one line, uwsc.c:138–155; `m`: the line as a C string. -/
def lineCalls (m : Bytes) : List Call :=
  if m.length ≠ 0 then
    if isQuit m then [⟨8, [], 0⟩] else [⟨1, m.take (m.length - 1), 0⟩]
  else []

/-- The state of `uwsc_manager_callback`: the buffer `message` as a C string, what is left of the input, the sends made, the number
of passes of the loop, and whether it is over. -/
structure St where
  message : Bytes := []
  stdin : Bytes
  calls : List Call := []
  passes : Nat := 0
  over : Bool := false
  deriving DecidableEq, Repr

/-- One pass of the loop, uwsc.c:136–157. `status k`: the connection is open at the end of the pass `k`. -/
def pass (status : Nat → Bool) (st : St) : St :=
  if st.over then st
  else match fgets st.stdin with
    | some (l, r) =>
      { message := cstr l, stdin := r, calls := st.calls ++ lineCalls (cstr l), passes := st.passes + 1,
        over := isQuit (cstr l) || !status st.passes }
    | none => { st with passes := st.passes + 1, over := isQuit st.message || !status st.passes }

/-- The sends for a file, uwsc.c:112–133 with `read_file` (76–100): nothing for a file that cannot be opened or is empty; the file
does not change while it is read. -/
def fileCalls (op : UInt8) : Option Bytes → List Call
  | some d => if d.length > 0 then [⟨op, d, 0⟩] else []
  | none => []

/-- The file given on the command line, uwsc.c:112–133. -/
def files (c : Config) : List Call :=
  match c.textFile with
  | some f => fileCalls 1 f
  | none => match c.binaryFile with
    | some f => fileCalls 2 f
    | none => []

/-- `uwsc_manager_callback`, uwsc.c:102–161, after `n` passes of its loop (without prompt there is none: the program waits until the
connection ends, uwsc.c:159). The field `fragmentation` is not used. -/
def manager (c : Config) (status : Nat → Bool) (stdin : Bytes) (n : Nat) : St :=
  if c.nonInteractive then { stdin := stdin, calls := files c, over := true }
  else (pass status)^[n] { stdin := stdin, calls := files c }

/-- `%.*s` with `(int)data_len` for data without a NUL behind it: a negative precision counts as none, and what stands behind the
data is read. -/
def precData (d : Bytes) : Res Bytes :=
  if Printf.asInt d.length < 0 then
    if 0 ∈ d then .ok (cstr d) else .ub
  else .ok (Printf.precStr (Printf.asInt d.length).toNat d)

/-- `uwsc_manager_incoming`, uwsc.c:163–187: what is written to the standard output. -/
def incoming (c : Config) (op : UInt8) (d : Bytes) : Res Bytes :=
  if c.nonListening then .ok []
  else if op = 1 then do
    let t ← precData d
    if !c.quiet && !c.nonInteractive then return b!"\x08\x08Server message: '" ++ t ++ b!"'\n> "
    else return b!"\x08\x08" ++ t ++ b!"\n"
  else if op = 2 then
    if !c.quiet && !c.nonInteractive then .ok (b!"\x08\x08Server sent binary message, length " ++ Printf.decimal d.length ++ b!"\n> ")
    else .ok (b!"\x08\x08Server sent binary message, length " ++ Printf.decimal d.length ++ b!"\n")
  else .ok []

end Verif.Uwsc
