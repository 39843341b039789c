import Verif.Model.OomWs
/-!
# What is expected of the messages of a websocket when memory runs out

A callback is shown the messages the other side sent, whole, in order and without gaps, until the connection ends; an allocation that fails while a frame is
taken in ends it. A call that sends answers `U_OK` exactly if the whole message was sent, and otherwise nothing was. Nothing is read or freed that is not
there, nothing is lost.
-/
namespace Verif.OomWs

/-- The allocations whose failure the code deals with. -/
def Safe : Spot → Bool
  | .manager | .listOut | .message true | .payload | .inCopy | .inNew | .outCopy | .outNew | .box false | .data | .pushIn true => true
  | _ => false

/-- Only those fail. -/
def OnlySafe (f : F) : Prop := ∀ n s, f n s = true → Safe s = true

/-- The data after all extensions. -/
def through (b : Bytes) : List (Option Bytes) → Option Bytes
  | [] => some b
  | none :: _ => none
  | some c :: t => through c t

/-- What a callback is shown of a message. -/
def content (exts : Bool) (b : Bytes) (x : Frame) : Option Bytes :=
  if x.fine then (if exts then through b x.outs else some b) else none

/-- What a frame does, given the fragments before it: what is shown to the callback, and the fragments there are now; `none`: the connection ends. -/
def expected (exts : Bool) (p : Option Bytes) (x : Frame) : Option (Option Bytes × Option Bytes) :=
  match x.op, x.fin, p with
  | .pong, true, p => some (none, p)
  | .ping, true, p => if x.data.length ≤ 125 then some (none, p) else none
  | .first, true, none => (content exts x.data x).map (fun c => (some c, none))
  | .continue, true, some q => (content exts (q ++ x.data) x).map (fun c => (some c, none))
  | .first, false, none => some (none, some x.data)
  | .continue, false, some q => some (none, some (q ++ x.data))
  | _, _, _ => none

/-- The payloads of the frames of a message: `frag` bytes at most, unless it is 0. -/
def Carries (frag : Nat) (c : Bytes) (l : List Bytes) : Prop :=
  l.flatten = c ∧ l ≠ [] ∧ (frag = 0 → l = [c]) ∧ (frag ≠ 0 → ∀ x ∈ l, x.length ≤ frag)

/-- A frame came in while the websocket was alive. -/
structure TakenIn (exts : Bool) (p : Option Bytes) (x : Frame) (o : Out) (p' : Option Bytes) : Prop where
  ends : expected exts p x = none → o.shown = none ∧ o.alive = false
  goes : ∀ d q, expected exts p x = some (d, q) → o.failed = 0 → o.shown = d ∧ o.alive = true ∧ p' = q
  fails : 0 < o.failed → o.alive = false ∧ (o.shown = none ∨ ∃ d q, expected exts p x = some (d, q) ∧ o.shown = d)
  pong : x.op = .ping → x.fin = true → o.alive = true → o.sent = [x.data]
  close : x.op = .close → x.fin = true → x.data.length ≤ 125 → o.failed = 0 → o.sent = [[]]

/-- A message was to be sent. -/
structure Sent (alive : Bool) (b : Bytes) (frag : Nat) (outs : List (Option Bytes)) (o : Out) : Prop where
  done : o.rc = .ok → o.failed = 0 ∧ ∃ c, through b outs = some c ∧ Carries frag c o.sent
  not : o.rc ≠ .ok → o.sent = []
  memory : o.rc = .memory → 0 < o.failed
  error : o.rc = .error → 0 < o.failed ∨ through b outs = none
  params : o.rc = .params → alive = false

/-- What there is besides the connection: the fragments of the message that is coming, the messages that came and were sent and are kept, whether they are. -/
structure Store where
  prev : Option Bytes := none
  inc : List Bytes := []
  out : List Bytes := []
  keepIn : Bool := true
  keepOut : Bool := true

/-- What was shown and what was sent is kept; what is shown and cannot be kept ends the connection. -/
def Stored (s s' : Store) (o : Out) : Prop :=
  s'.inc = s.inc ++ (if s.keepIn && o.failed == 0 then o.shown.toList else []) ∧ s'.out = s.out ++ (if s.keepOut then o.sent else []) ∧
    s'.keepIn = s.keepIn ∧ s'.keepOut = s.keepOut

/-- One event: what there is before and after it. -/
def Step (exts alive : Bool) (s : Store) (o : Out) (s' : Store) : Ev → Prop
  | .arrives x => if alive then TakenIn exts s.prev x o s'.prev ∧ Stored s s' o else o.shown = none ∧ o.sent = [] ∧ o.alive = false ∧ s' = s
  | .send b frag outs => Sent alive b frag outs o ∧ o.alive = alive ∧
      s' = { s with out := s.out ++ (if s.keepOut && o.rc == .ok then [o.sent.flatten] else []) }
  | .close reads => o.alive = false ∧ (o.rc = .ok → o.sent = [[]] ∧ ∃ k, (o.failed = 0 → k = reads.length) ∧
      s' = { s with inc := s.inc ++ (if s.keepIn then reads.take k else []), out := s.out ++ (if s.keepOut then [[]] else []) }) ∧
      (o.rc ≠ .ok → o.sent = [] ∧ alive = false ∧ s' = s)
  | .pop true => o.alive = alive ∧ o.sent = [] ∧ o.shown = s.inc.head? ∧ s' = { s with inc := s.inc.tail }
  | .pop false => o.alive = alive ∧ o.sent = [] ∧ o.shown = s.out.head? ∧ s' = { s with out := s.out.tail }
  | .keep i k => o.alive = alive ∧ o.sent = [] ∧ s' = { s with keepIn := i, keepOut := k }

/-- All events. -/
inductive Right (exts : Bool) : Bool → Store → List Ev → List Out → Prop
  | nil (a s) : Right exts a s [] []
  | cons (a s e t o out s') : Step exts a s o s' e → Right exts o.alive s' t out → Right exts a s (e :: t) (o :: out)

/-- A connection as it should be, from a heap with the blocks of others: everything is freed in the end. -/
def Good (f : F) (exts : Bool) (h0 : Oom.H) (evs : List Ev) : Prop :=
  ∃ out h, session f exts h0 evs = .ok (out, h) ∧ h.mem.live.Perm h0.mem.live ∧
    (out = none → h0.failed < h.failed) ∧ ∀ l, out = some l → Right exts true {} evs l

end Verif.OomWs
