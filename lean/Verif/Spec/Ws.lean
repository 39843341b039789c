import Verif.Basic
import Verif.Spec.Utf8
/-!
# Specification of WebSocket framing (RFC 6455, sections 5.2–5.5)
-/
namespace Verif.Spec.Ws

/-- Big-endian number on `k` bytes. -/
def be : Nat → Nat → Bytes
  | 0, _ => []
  | k + 1, n => UInt8.ofNat (n / 256 ^ k) :: be k n

/-- Section 5.3: byte `i` is combined with byte `i mod 4` of the key; the key turns by one at each byte. -/
def masked : Bytes → Bytes → Bytes
  | _, [] => []
  | [], d => d
  | k :: ks, c :: d => (c ^^^ k) :: masked (ks ++ [k]) d

/-- A frame. -/
structure Frame where
  fin : Bool
  rsv : UInt8
  opcode : UInt8
  mask : Option Bytes
  payload : Bytes

/-- Field ranges: three RSV bits, four opcode bits, four mask bytes. -/
structure Frame.Wf (f : Frame) : Prop where
  rsv : f.rsv &&& 0x8f = 0
  opcode : f.opcode &&& 0xf0 = 0
  mask : ∀ k, f.mask = some k → k.length = 4

/-- The payload length, with the mask bit. -/
def lengthField (m : Bool) (n : Nat) : Bytes :=
  let bit : UInt8 := if m then 0x80 else 0
  if n ≤ 125 then [UInt8.ofNat n + bit]
  else if n < 65536 then (126 + bit) :: be 2 n
  else (127 + bit) :: be 8 n

/-- Masking key and masked payload, or the payload. -/
def body : Option Bytes → Bytes → Bytes
  | some k, d => k ++ masked k d
  | none, d => d

/-- The frame on the wire. -/
def wire (f : Frame) : Bytes :=
  ((if f.fin then 0x80 else 0) + f.rsv + f.opcode) :: lengthField f.mask.isSome f.payload.length ++ body f.mask f.payload

/-- The frames of a stream. -/
def wires (fs : List Frame) : Bytes := (fs.map wire).flatten

/-- A frame a peer of the given role may receive: masked exactly when the receiver is the server (section 5.1). -/
def Received (server : Bool) (f : Frame) : Prop := f.Wf ∧ f.mask.isSome = server

/-- What the receiver has to do. -/
inductive Act where
  | message (opcode : UInt8) (payload : Bytes)
  | pong (payload : Bytes)
  deriving DecidableEq

def Frame.IsPing (f : Frame) : Prop := f.fin = true ∧ f.opcode = 9 ∧ f.payload.length ≤ 125
def Frame.IsPong (f : Frame) : Prop := f.fin = true ∧ f.opcode = 10
def Frame.IsFirst (f : Frame) : Prop := f.opcode = 1 ∨ f.opcode = 2
def Frame.IsNext (f : Frame) : Prop := f.opcode = 0

/-! The RSV bits of control frames and of continuation frames are left open here: they concern C50 only. -/

/-- The frames after the first one of a fragmented message, control frames in between, up to the final one: the payload they
carry, and the pings to answer. -/
inductive Rest : List Frame → Bytes → List Act → Prop
  | last {f} : f.IsNext → f.fin = true → Rest [f] f.payload []
  | more {f l d a} : f.IsNext → f.fin = false → Rest l d a → Rest (f :: l) (f.payload ++ d) a
  | ping {f l d a} : f.IsPing → Rest l d a → Rest (f :: l) d (.pong f.payload :: a)
  | pong {f l d a} : f.IsPong → Rest l d a → Rest (f :: l) d a

/-- Section 5.4: the frames of one message with opcode `op`, RSV bits `r` and payload `d`. -/
inductive Message : List Frame → UInt8 → UInt8 → Bytes → List Act → Prop
  | single {f} : f.IsFirst → f.fin = true → Message [f] f.opcode f.rsv f.payload []
  | fragmented {f l d a} : f.IsFirst → f.fin = false → Rest l d a → Message (f :: l) f.opcode f.rsv (f.payload ++ d) a

/-- Text is UTF-8 (section 5.6), and no RSV bit is used without extension (section 5.2). -/
def Acceptable (op r : UInt8) (d : Bytes) : Prop := r = 0 ∧ (op = 1 → Spec.Utf8.IsUtf8 d)

/-- A legal stream of messages and control frames, and what it makes the receiver do. -/
inductive Stream : List Frame → List Act → Prop
  | nil : Stream [] []
  | ping {f l a} : f.IsPing → Stream l a → Stream (f :: l) (.pong f.payload :: a)
  | pong {f l a} : f.IsPong → Stream l a → Stream (f :: l) a
  | message {m l op r d b a} : Message m op r d b → Acceptable op r d → Stream l a →
      Stream (m ++ l) (b ++ .message op d :: a)

/-- The beginning of a message that is not finished: its opcode, RSV bits and payload so far. -/
inductive Begun : List Frame → UInt8 → UInt8 → Bytes → List Act → Prop
  | first {f} : f.IsFirst → f.fin = false → Begun [f] f.opcode f.rsv f.payload []
  | more {l f op r d a} : Begun l op r d a → f.IsNext → f.fin = false → Begun (l ++ [f]) op r (d ++ f.payload) a
  | ping {l f op r d a} : Begun l op r d a → f.IsPing → Begun (l ++ [f]) op r d (a ++ [.pong f.payload])
  | pong {l f op r d a} : Begun l op r d a → f.IsPong → Begun (l ++ [f]) op r d a

/-- A frame that must end the connection, when the message under way (if any) is `cur`. -/
def Ends (cur : Option (UInt8 × UInt8 × Bytes)) (f : Frame) : Prop :=
  -- close frame
  f.opcode = 8 ∨
  -- control frame fragmented or too long
  (f.opcode = 9 ∧ (f.fin = false ∨ f.payload.length > 125)) ∨ (f.opcode = 10 ∧ f.fin = false) ∨
  -- reserved opcode
  (f.opcode ≠ 0 ∧ f.opcode ≠ 1 ∧ f.opcode ≠ 2 ∧ f.opcode ≠ 9 ∧ f.opcode ≠ 10) ∨
  (match cur with
    | none => f.opcode = 0 ∨ (f.IsFirst ∧ f.fin = true ∧ ¬ Acceptable f.opcode f.rsv f.payload)
    | some (op, r, d) => f.IsFirst ∨ (f.opcode = 0 ∧ f.fin = true ∧ ¬ Acceptable op r (d ++ f.payload)))

end Verif.Spec.Ws
