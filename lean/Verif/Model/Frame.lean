import Verif.Basic
import Verif.Model.Utf8
import Verif.Model.UMap
/-!
# Model of WebSocket frames and of the receive loop, `src/u_websocket.c`

* Allocations and locks succeed; `gnutls_rnd` delivers the mask, which is a parameter.
* A frame is its `frame_len` bytes; `none` is a byte that was never written (uninitialised heap memory goes on the wire).
* The socket is a list of events, one per `poll`: nothing yet, bytes ready, peer hung up (with bytes still unread), failure.
  TLS is not modelled (same loops over `gnutls_record_recv`/`gnutls_record_send`).
* `run` is the loop of `ulfius_thread_websocket`; callbacks are the list of effects it returns.
-/
namespace Verif.Ws

/-! ## Outgoing frames -/

/-- The part of `struct _websocket_message` used for sending, include/ulfius.h:1656–1666; `mask` is absent when `has_mask` is 0. -/
structure OutMsg where
  opcode : UInt8
  rsv : UInt8 := 0
  mask : Option Bytes := none
  data : Bytes
  deriving DecidableEq, Repr

/-- XOR with the four mask bytes, u_websocket.c:253–255 and 541–544. -/
def xorMask (k : Bytes) (d : Bytes) : Bytes := d.mapIdx (fun i c => c ^^^ k.getD (i % 4) 0)

/-- Cast to `uint8_t`. -/
def byte (n : Nat) : UInt8 := UInt8.ofNat n

/-- `*frame_len` without the payload, u_websocket.c:205–213: chosen by the length of the whole message. -/
def headerRoom (n : Nat) (masked : Bool) : Nat :=
  2 + (if n ≥ 65536 then 8 else if n > 125 then 2 else 0) + (if masked then 4 else 0)

/-- The length bytes, u_websocket.c:228–249: the 64-bit form is chosen by the length of the message (`n`), the 16-bit form by
the requested length of the frame (`len`). -/
def lengthBytes (n len fdl : Nat) (masked : Bool) : Bytes :=
  let m : UInt8 := if masked then 0x80 else 0
  if n ≥ 65536 then
    [127 ||| m, byte (fdl >>> 54), byte (fdl >>> 48), byte (fdl >>> 40), byte (fdl >>> 32), byte (fdl >>> 24),
      byte (fdl >>> 16), byte (fdl >>> 8), byte fdl]
  else if len > 125 then [126 ||| m, byte (fdl >>> 8), byte fdl]
  else [byte fdl ||| m]

/-- Mask and payload, u_websocket.c:248–258. -/
def maskAndPayload : Option Bytes → Bytes → Bytes
  | some k, d => k ++ xorMask k d
  | none, d => d

/-- `ulfius_build_frame`, u_websocket.c:196–268. `ub`: a read outside the data, a write outside the frame, or (masked payload of
2^32 bytes or more, whose `unsigned int` counter wraps) a loop that never ends. -/
def buildFrame (m : OutMsg) (off len : Nat) : Res (List (Option UInt8)) :=
  let n := m.data.length
  let fin := UMap.w64 (off + len) ≥ n
  let fdl := if fin then n - off else len
  let frameLen := headerRoom n m.mask.isSome + fdl
  let first := if fin then m.opcode ||| m.rsv ||| 0x80 else m.rsv
  let payload := (m.data.drop off).take fdl
  let bytes := first :: lengthBytes n len fdl m.mask.isSome ++ maskAndPayload m.mask payload
  if off > n ∨ off + fdl > n then .ub
  else if m.mask.isSome ∧ fdl ≥ 2 ^ 32 then .ub
  else if bytes.length > frameLen then .ub
  else .ok (bytes.map some ++ List.replicate (frameLen - bytes.length) none)

/-- `cur_len`, u_websocket.c:357–361. -/
def curLen (dataLen off fragmentLen : Nat) : Nat :=
  if fragmentLen = 0 then (if dataLen < dataLen - off then dataLen else dataLen - off)
  else (if fragmentLen < dataLen - off then fragmentLen else dataLen - off)

theorem curLen_pos (n off f : Nat) (h : off < n) : 0 < curLen n off f := by
  unfold curLen; split <;> split <;> omega

/-- The loop, u_websocket.c:356–373: after the first frame the opcode is CONTINUE. -/
def sendLoop (m : OutMsg) (f : Nat) (off : Nat) : Res (List (List (Option UInt8)) × OutMsg) :=
  if h : off < m.data.length then do
    let fr ← buildFrame m off (curLen m.data.length off f)
    let (rest, m') ← sendLoop { m with opcode := 0 } f (off + curLen m.data.length off f)
    return (fr :: rest, m')
  else .ok ([], m)
termination_by m.data.length - off
decreasing_by
  have := curLen_pos m.data.length off f h
  omega

/-- The opcodes `ulfius_build_message` accepts, u_websocket.c:281–287. -/
def sendable (op : UInt8) : Bool := op == 1 || op == 2 || op == 8 || op == 9 || op == 10

/-- `ulfius_send_websocket_message_managed`, u_websocket.c:338–399: the frames sent and the message as kept in the outgoing list;
`none` when the opcode is refused (`U_ERROR`). -/
def sendManaged (m : OutMsg) (f : Nat) : Res (Option (List (List (Option UInt8)) × OutMsg)) :=
  if sendable m.opcode then
    if m.data.length ≠ 0 then do
      let r ← sendLoop m f 0
      return some r
    else do
      let fr ← buildFrame m 0 0
      return some ([fr], m)
  else .ok none

/-- What one pass of the loop of `ulfius_websocket_send_frame` meets: `poll` says the socket is not writable within 50 ms, the
kernel takes `k` bytes, or `send` fails. -/
inductive Wr where
  | notReady
  | sent (k : Nat)
  | fail
  deriving DecidableEq, Repr

/-- `ulfius_websocket_send_frame`, u_websocket.c:164–189: the bytes that reach the socket (the function returns nothing). -/
def sendFrame {α : Type} : List Wr → List α → List α
  | _, [] => []
  | .sent k :: t, b :: d => (b :: d).take k ++ sendFrame t ((b :: d).drop k)
  | _, _ => []

/-- Return codes, include/ulfius.h. -/
inductive Code where
  | ok
  | error
  deriving DecidableEq, Repr

/-- `ulfius_send_websocket_message_managed` with the socket: return code and bytes on the wire, one list of `Wr` per frame. The
return code does not depend on `ulfius_websocket_send_frame`, u_websocket.c:366 and 376. -/
def sendOn (m : OutMsg) (f : Nat) (ws : List (List Wr)) : Res (Code × List (Option UInt8)) := do
  match ← sendManaged m f with
  | none => return (.error, [])
  | some (frames, _) => return (.ok, (List.zipWith sendFrame ws frames).flatten)

/-! ## The socket -/

/-- What one `poll` (and the `read` that follows) reports. -/
inductive Ev where
  | idle
  | seg (b : Bytes)
  | hup (unread : Bytes)
  | fail
  deriving DecidableEq, Repr

/-- `read_data_from_socket`, u_websocket.c:136–159 (with `is_websocket_data_available`, 96–114); `none`: fewer than `n` bytes
(`ulfius_read_incoming_message` treats 0, a short count and -1 as failure; `ulfius_get_next_line_from_http_response` does not tell a
failed read from silence: Model/WsAwait.lean). -/
def readData : Nat → List Ev → Option (Bytes × List Ev)
  | 0, evs => some ([], evs)
  | _ + 1, [] => none
  | n + 1, .idle :: t => readData (n + 1) t
  | n + 1, .seg b :: t =>
    if n + 1 ≤ b.length then some (b.take (n + 1), .seg (b.drop (n + 1)) :: t)
    else (readData (n + 1 - b.length) t).map (fun p => (b ++ p.1, p.2))
  | _ + 1, .hup _ :: _ => none
  | _ + 1, .fail :: _ => none

/-- Size of a list of events. -/
def size : List Ev → Nat
  | [] => 0
  | .seg b :: t => b.length + 1 + size t
  | _ :: t => 1 + size t

theorem readData_size (n : Nat) (evs : List Ev) (b : Bytes) (r : List Ev) (h : readData n evs = some (b, r)) :
    size r + n ≤ size evs := by
  induction evs generalizing n b r with
  | nil => cases n with
    | zero => simp only [readData, Option.some.injEq, Prod.mk.injEq] at h; rw [← h.2]; exact Nat.le_refl _
    | succ n => simp [readData] at h
  | cons e t ih =>
    cases n with
    | zero => simp only [readData, Option.some.injEq, Prod.mk.injEq] at h; rw [← h.2]; exact Nat.le_refl _
    | succ n =>
      cases e with
      | idle => have := ih _ _ _ h; simp only [size]; omega
      | hup u => simp [readData] at h
      | fail => simp [readData] at h
      | seg s =>
        simp only [readData] at h
        split at h
        · simp only [Option.some.injEq, Prod.mk.injEq] at h
          rw [← h.2]; simp only [size, List.length_drop]; omega
        · cases hr : readData (n + 1 - s.length) t with
          | none => rw [hr] at h; cases h
          | some p =>
            rw [hr] at h
            simp only [Option.map_some, Option.some.injEq, Prod.mk.injEq] at h
            have := ih _ _ _ (show readData (n + 1 - s.length) t = some (p.1, p.2) from hr)
            rw [← h.2]; simp only [size]; omega

/-! ## Incoming frames -/

/-- The part of `struct _websocket_message` set by the reader. -/
structure InMsg where
  opcode : UInt8
  rsv : UInt8
  fin : Bool
  hasMask : Bool
  data : Bytes
  fragmentLen : Nat := 0
  deriving DecidableEq, Repr

/-- `msg_len`, u_websocket.c:464–493 (64-bit arithmetic; the top byte is shifted by 54). -/
def readLength (b1 : UInt8) (evs : List Ev) : Option (Nat × List Ev) :=
  let l := (b1 &&& 0x7f).toNat
  if l ≤ 125 then some (l, evs)
  else if l = 126 then
    match readData 2 evs with
    | some ([p0, p1], evs) => some (p1.toNat ||| p0.toNat <<< 8, evs)
    | _ => none
  else
    match readData 8 evs with
    | some ([p0, p1, p2, p3, p4, p5, p6, p7], evs) =>
      some (UMap.w64 (p7.toNat ||| p6.toNat <<< 8 ||| p5.toNat <<< 16 ||| p4.toNat <<< 24 ||| p3.toNat <<< 32 |||
        p2.toNat <<< 40 ||| p1.toNat <<< 48 ||| p0.toNat <<< 54), evs)
    | _ => none

/-- The mask, u_websocket.c:506–528: required from a client, refused from a server. -/
def readMask (server : Bool) (b1 : UInt8) (evs : List Ev) : Option (Option Bytes × List Ev) :=
  if server then
    if b1 &&& 0x80 ≠ 0 then (readData 4 evs).map (fun p => (some p.1, p.2)) else none
  else
    if b1 &&& 0x80 ≠ 0 then none else some (none, evs)

/-- The payload, u_websocket.c:529–555: `(unsigned int)len != msg_len` fails for 2^32 bytes and more. -/
def readPayload (msgLen : Nat) (mask : Option Bytes) (evs : List Ev) : Option (Bytes × List Ev) :=
  if msgLen = 0 then some ([], evs)
  else match readData msgLen evs with
    | none => none
    | some (p, evs) =>
      if p.length % 2 ^ 32 ≠ msgLen then none
      else some (match mask with
        | some k => xorMask k p
        | none => p, evs)

/-- `ulfius_read_incoming_message`, u_websocket.c:437–566; `none`: any result but `U_OK`. -/
def readMessage (server : Bool) (evs : List Ev) : Option (InMsg × List Ev) :=
  match readData 2 evs with
  | some ([b0, b1], evs) =>
    match readLength b1 evs with
    | none => none
    | some (len, evs) =>
      match readMask server b1 evs with
      | none => none
      | some (mask, evs) =>
        match readPayload len mask evs with
        | none => none
        | some (d, evs) =>
          let fin := decide (b0 &&& 0x80 ≠ 0)
          some (⟨b0 &&& 0x0f, b0 &&& 0x70, fin, mask.isSome, d, if fin then 0 else len⟩, evs)
  | _ => none

theorem readLength_size (b1 : UInt8) (evs : List Ev) (l : Nat) (r : List Ev) (h : readLength b1 evs = some (l, r)) :
    size r ≤ size evs := by
  unfold readLength at h
  simp only at h
  split at h
  · cases h; exact Nat.le_refl _
  · split at h
    · split at h
      · rename_i hr; cases h; have := readData_size _ _ _ _ hr; omega
      · cases h
    · split at h
      · rename_i hr; cases h; have := readData_size _ _ _ _ hr; omega
      · cases h

theorem readMessage_size (server : Bool) (evs : List Ev) (m : InMsg) (r : List Ev) (h : readMessage server evs = some (m, r)) :
    size r < size evs := by
  unfold readMessage at h
  split at h
  · rename_i b0 b1 e1 h1
    have s1 := readData_size _ _ _ _ h1
    split at h
    · cases h
    · rename_i l e2 h2
      have s2 := readLength_size _ _ _ _ h2
      split at h
      · cases h
      · rename_i mk e3 h3
        have s3 : size e3 ≤ size e2 := by
          unfold readMask at h3
          split at h3
          · split at h3
            · cases hr : readData 4 e2 with
              | none => rw [hr] at h3; cases h3
              | some p =>
                rw [hr] at h3
                simp only [Option.map_some, Option.some.injEq, Prod.mk.injEq] at h3
                have := readData_size _ _ _ _ (show readData 4 e2 = some (p.1, p.2) from hr)
                rw [← h3.2]; omega
            · cases h3
          · split at h3
            · cases h3
            · cases h3; exact Nat.le_refl _
        split at h
        · cases h
        · rename_i d e4 h4
          have s4 : size e4 ≤ size e3 := by
            unfold readPayload at h4
            split at h4
            · cases h4; exact Nat.le_refl _
            · split at h4
              · cases h4
              · rename_i p e5 hr
                have := readData_size _ _ _ _ hr
                split at h4
                · cases h4
                · cases h4; omega
          simp only [Option.some.injEq, Prod.mk.injEq] at h
          rw [← h.2]; omega
  · cases h

/-! ## The receive loop -/

/-- `ulfius_merge_fragmented_message`, u_websocket.c:401–430. -/
def merge (p m : InMsg) : Option InMsg :=
  if !p.fin && (p.opcode == 1 || p.opcode == 2) && m.opcode == 0 then
    some { p with fragmentLen := if p.fragmentLen = 0 then p.data.length else p.fragmentLen, fin := p.fin || m.fin,
                  data := p.data ++ m.data }
  else none

/-- Effects of the loop: a message handed to the incoming-message callback (and kept in the incoming list), a pong with its
payload, a close frame. -/
inductive Out where
  | deliver (opcode rsv : UInt8) (data : Bytes)
  | pong (data : Bytes)
  | close
  deriving DecidableEq, Repr

/-- The manager: role, `rsv_expected`, and the extensions applied to an incoming message (`none`: an extension failed), see
`Verif.Ws.applyIn`. -/
structure Cfg where
  server : Bool := true
  rsvExpected : UInt8 := 0
  ext : InMsg → Option Bytes := fun m => some m.data

/-- A complete message, u_websocket.c:726–760. -/
def complete (c : Cfg) (m : InMsg) : List Out × Bool :=
  match c.ext m with
  | none => ([], false)
  | some d =>
    if m.rsv = 0 ∨ c.rsvExpected &&& m.rsv ≠ 0 then
      if m.opcode ≠ 1 ∨ d.length = 0 ∨ Utf8.utf8Ok d then ([.deliver m.opcode m.rsv d], true)
      else ([], false)
    else ([], false)

/-- The handling of one message, u_websocket.c:684–784: effects, the message under construction (`message_previous`), and
whether the connection stays open. A pong that cannot be sent is not modelled. -/
def handle (c : Cfg) (prev : Option InMsg) (m : InMsg) : List Out × Option InMsg × Bool :=
  if m.opcode = 8 ∧ m.fin then (if m.data.length ≤ 125 then [.close] else [], prev, false)
  else if m.opcode = 9 ∧ m.fin then
    if m.data.length ≤ 125 then ([.pong m.data], prev, true) else ([], prev, false)
  else if m.opcode = 10 ∧ m.fin then ([], prev, true)
  else if m.opcode = 1 ∨ m.opcode = 2 ∨ m.opcode = 0 then
    if m.fin ∧ m.opcode = 0 ∧ prev = none then ([], prev, false)
    else if m.fin then
      match prev with
      | none => ((complete c m).1, none, (complete c m).2)
      | some p =>
        match merge p m with
        | none => ([], prev, false)
        | some m' => ((complete c m').1, none, (complete c m').2)
    else if m.opcode ≠ 0 ∨ prev ≠ none then
      match prev with
      | none => ([], some m, true)
      | some p =>
        match merge p m with
        | none => ([], prev, false)
        | some p' => ([], some p', true)
    else ([], prev, false)
  else ([], prev, false)

/-- The loop of `ulfius_thread_websocket`, u_websocket.c:674–792. `patience`: after how many messages `close_flag` is seen set
(`none`: never); the loop then sends a close frame and ends (what the peer sends during the closing handshake, 1510–1533, is not
given to the callback, see `closeWait`). -/
def run (c : Cfg) (patience : Option Nat) (prev : Option InMsg) (evs : List Ev) : List Out :=
  if patience = some 0 then [.close]
  else
    match evs with
    | [] => []
    | .idle :: t => run c patience prev t
    | .seg [] :: t => run c patience prev t
    | .hup _ :: _ => []
    | .fail :: _ => []
    | .seg (b :: s) :: t =>
      match h : readMessage c.server (.seg (b :: s) :: t) with
      | none => []
      | some (m, evs') =>
        (handle c prev m).1 ++
          (if (handle c prev m).2.2 then run c (patience.map (· - 1)) (handle c prev m).2.1 evs' else [])
termination_by size evs
decreasing_by
  · simp only [size]; omega
  · simp only [size]; omega
  · exact readMessage_size _ _ _ _ h

/-- The closing handshake of `ulfius_websocket_send_fragmented_message`, u_websocket.c:1506–1537: the messages appended to the
incoming list (when `KEEP_INCOMING` is set). `count` starts at `WEBSOCKET_MAX_CLOSE_TRY` = 10. -/
def closeWait (server : Bool) : Nat → List Ev → List InMsg
  | count, evs =>
    let step (push : List InMsg) (evs : List Ev) := push ++ (match count with
      | 0 => []
      | k + 1 => closeWait server k evs)
    match evs with
    | [] => []
    | .idle :: t => step [] t
    | .seg [] :: t => step [] t
    | .hup _ :: _ => []
    | .fail :: _ => []
    | .seg (b :: s) :: t =>
      match readMessage server (.seg (b :: s) :: t) with
      | none => []
      | some (m, evs') => if m.opcode = 8 then [m] else step [m] evs'

/-! ## Extensions -/

/-- `struct _websocket_extension`, the fields used when messages are sent and received. The transformations depend on their user
data, the opcode and the payload; the per-connection `context` is not modelled. -/
structure Ext where
  enabled : Bool
  rsv : UInt8
  outPerform : Option (Nat → UInt8 → Bytes → Option Bytes)
  outData : Nat := 0
  inPerform : Option (Nat → UInt8 → Bytes → Option Bytes)
  inData : Nat := 0

/-- The loop over the extensions when sending, u_websocket.c:1552–1571 (`none`: an extension failed). -/
def applyOut (op : UInt8) : List Ext → UInt8 → Bytes → Option (UInt8 × Bytes)
  | [], rsv, d => some (rsv, d)
  | e :: l, rsv, d =>
    if e.enabled then
      match e.outPerform with
      | some f =>
        match f e.outData op d with
        | none => none
        | some d' => applyOut op l (rsv ||| e.rsv) d'
      | none => applyOut op l rsv d
    else applyOut op l rsv d

/-- The loop of `ulfius_websocket_extension_message_in_perform_apply`, u_websocket.c:604–638, over the reversed list; line 616
passes the user data of the *out* function. -/
def applyInList (op rsv : UInt8) : List Ext → Bytes → Option Bytes
  | [], d => some d
  | e :: l, d =>
    if e.enabled ∧ rsv &&& e.rsv ≠ 0 then
      match e.inPerform with
      | some f =>
        match f e.outData op d with
        | none => none
        | some d' => applyInList op rsv l d'
      | none => applyInList op rsv l d
    else applyInList op rsv l d

/-- `ulfius_websocket_extension_message_in_perform_apply`, u_websocket.c:589–652. -/
def applyIn (exts : List Ext) (m : InMsg) : Option Bytes := applyInList m.opcode m.rsv exts.reverse m.data

/-- `ulfius_websocket_send_fragmented_message` for an opcode other than CLOSE on an open connection, u_websocket.c:1542–1580 (a NULL
`data` sends zeroes); `ping_sent` is never set, so pings are not withheld. -/
def sendFragmented (exts : List Ext) (op : UInt8) (mask : Option Bytes) (d : Bytes) (f : Nat) :
    Res (Option (List (List (Option UInt8)) × OutMsg)) :=
  match (if op = 2 ∨ op = 1 then applyOut op exts 0 d else some (0, d)) with
  | none => .ok none
  | some (rsv, d') => sendManaged ⟨op, rsv, mask, d'⟩ f

/-! ## Message lists -/

/-- `struct _websocket_message_list`, include/ulfius.h: `len` and the array (absent when NULL; a slot is `none` until written). -/
structure MsgList (α : Type) where
  len : Nat
  list : Option (List (Option α))

/-- `ulfius_init_websocket_message_list`, u_websocket.c:1284–1292. -/
def MsgList.init {α} : MsgList α := ⟨0, none⟩

/-- `o_realloc` to `n` slots: keeps the common prefix, new slots are uninitialised. -/
def resize {α} (l : Option (List (Option α))) (n : Nat) : List (Option α) :=
  ((l.getD []).take n) ++ List.replicate (n - (l.getD []).length) none

/-- `ulfius_push_websocket_message`, u_websocket.c:1298–1311. -/
def MsgList.push {α} (l : MsgList α) (m : α) : MsgList α :=
  ⟨l.len + 1, some ((resize l.list (l.len + 1)).set l.len (some m))⟩

/-- `ulfius_websocket_pop_first_message`, u_websocket.c:1640–1657; `ub`: reading through the NULL array, outside it, or a slot never
written. -/
def MsgList.pop {α} (l : MsgList α) : Res (Option α × MsgList α) :=
  if l.len > 0 then
    match l.list with
    | some (some m :: rest) =>
      if rest.length + 1 < l.len then .ub
      else .ok (some m, ⟨l.len - 1, if l.len > 1 then some (resize (some (rest.take (l.len - 1))) (l.len - 1)) else none⟩)
    | _ => .ub
  else .ok (none, l)

/-- `ulfius_clear_websocket_message_list`, u_websocket.c:1705–1715: frees the messages and the array but leaves `len`; `ub`: writing
through the NULL array, or clearing a slot never written. -/
def MsgList.clear {α} (l : MsgList α) : Res (MsgList α) :=
  if ((l.list.getD []).take l.len).all (·.isSome) ∧ l.len ≤ (l.list.getD []).length then .ok ⟨l.len, none⟩ else .ub

end Verif.Ws
