import Verif.Props.Frame
/-!
# WebSocket connection, properties C69–C78
-/
namespace Verif.Props
open Verif.Ws Verif.Spec.Ws

/-! ## C69, C70: the byte stream -/

/-- What each wake-up brings: nothing, or some bytes. -/
def arrivals : List (Option Bytes) → List Ev
  | [] => []
  | none :: l => .idle :: arrivals l
  | some b :: l => .seg b :: arrivals l

/-- The bytes that arrived. -/
def stream (l : List (Option Bytes)) : Bytes := (l.map (·.getD [])).flatten

private theorem bytesOf_arrivals (l : List (Option Bytes)) : bytesOf (arrivals l) = stream l := by
  induction l with
  | nil => rfl
  | cons o l ih => cases o <;> simp [arrivals, stream, bytesOf, ih]

/-- C69: what the receive loop does depends on the bytes received only, not on how the network cuts and delays them. -/
theorem C69_segmentation (c : Cfg) (p : Option Nat) (l l' : List (Option Bytes)) (h : stream l = stream l') :
    run c p none (arrivals l) = run c p none (arrivals l') :=
  run_congr c p none (by rw [bytesOf_arrivals, bytesOf_arrivals, h])

/-- a frame byte by byte -/
example : stream [some [0x81], none, some [], some [1], some b!"a"] = stream [some ([0x81, 1] ++ b!"a")] ∧
    run { server := false } none none (arrivals [some [0x81], none, some [], some [1], some b!"a"]) = [.deliver 1 0 b!"a"] := by
  decide +kernel

/-- C70, the part that holds: what arrived before the wake-up that reports the hang-up is processed as usual. Missing: the bytes
still unread at that moment. -/
theorem C70_before_hangup_partial (c : Cfg) (p : Option Nat) (l : List (Option Bytes)) (unread : Bytes) :
    run c p none (arrivals l ++ [.hup unread]) = run c p none (arrivals l) :=
  (C48_after_disconnection c p (arrivals l) [] unread).1

/-- C70 is false: whatever complete frames the peer sent before it closed its side, they are lost when the hang-up is noticed
together with them. -/
theorem C70_hangup_false (c : Cfg) (p : Option Nat) (hp : p ≠ some 0) (fs : List Frame) : run c p none [.hup (wires fs)] = [] := by
  rw [run_eq]
  exact run_empty c p none hp

/-- although the same bytes without the hang-up are a message -/
example : run { server := false } none none [.seg (wires [⟨true, 0, 1, none, b!"bye"⟩])] = [.deliver 1 0 b!"bye"] := by
  decide +kernel

/-! ## C71: uninitialised bytes -/

private theorem maskAndPayload_length (k : Option Bytes) (d : Bytes) (h : ∀ x, k = some x → x.length = 4) :
    (maskAndPayload k d).length = (if k.isSome then 4 else 0) + d.length := by
  cases k with
  | none => simp [maskAndPayload]
  | some x => simp [maskAndPayload, xorMask_length, h x rfl]

/-- C71 exactly: a frame contains bytes that were never written iff the message has 126 to 65535 bytes and the fragment at most
125; there are two of them. The claim holds in all other cases. -/
theorem C71_uninitialised_partial (m : OutMsg) (h : Sendable m) (off len : Nat) (frame : List (Option UInt8))
    (hb : buildFrame m off len = .ok frame) :
    frame.count none = if 125 < m.data.length ∧ m.data.length < 65536 ∧ len ≤ 125 then 2 else 0 := by
  unfold buildFrame at hb
  simp only at hb
  generalize hF : (if UMap.w64 (off + len) ≥ m.data.length then m.data.length - off else len) = fdl at hb
  generalize hB : (if UMap.w64 (off + len) ≥ m.data.length then m.opcode ||| m.rsv ||| 0x80 else m.rsv) = b0 at hb
  split at hb
  · cases hb
  rename_i h1
  split at hb
  · cases hb
  split at hb
  · cases hb
  rename_i h2 h3
  cases hb
  have hl : (maskAndPayload m.mask (List.take fdl (List.drop off m.data))).length = (if m.mask.isSome then 4 else 0) + fdl := by
    rw [maskAndPayload_length _ _ h.mask, List.length_take, List.length_drop]
    omega
  rw [List.length_append, List.length_cons, hl] at h3 ⊢
  have hc : ∀ l : Bytes, List.count none (l.map some) = 0 := by
    intro l; rw [List.count_eq_zero]; simp
  rw [List.count_append, hc, List.count_replicate_self, Nat.zero_add]
  have hlb : (lengthBytes m.data.length len fdl m.mask.isSome).length =
      if m.data.length ≥ 65536 then 9 else if len > 125 then 3 else 1 := by
    unfold lengthBytes; simp only; split
    · rfl
    · split <;> rfl
  rw [hlb] at h3 ⊢
  unfold headerRoom at h3 ⊢
  generalize (if m.mask.isSome = true then 4 else 0) = k at *
  by_cases a1 : m.data.length ≥ 65536
  · rw [if_pos a1] at h3 ⊢
    rw [if_pos a1] at h3 ⊢
    split <;> omega
  · rw [if_neg a1] at h3 ⊢
    rw [if_neg a1] at h3 ⊢
    by_cases a2 : m.data.length > 125
    · rw [if_pos a2] at h3 ⊢
      by_cases a3 : len > 125
      · rw [if_pos a3] at h3 ⊢
        split <;> omega
      · rw [if_neg a3] at h3 ⊢
        split <;> omega
    · rw [if_neg a2] at h3 ⊢
      by_cases a3 : len > 125
      · rw [if_pos a3] at h3 ⊢
        split <;> omega
      · rw [if_neg a3] at h3 ⊢
        split <;> omega

/-- C71 is false: two bytes of heap memory leave with the first fragment. -/
theorem C71_heap_bytes_false : ∃ (m : OutMsg) (f : Nat) (frame : List (Option UInt8)) (rest : List (List (Option UInt8))) (m' : OutMsg),
    sendManaged m f = .ok (some (frame :: rest, m')) ∧ none ∈ frame :=
  ⟨⟨2, 0, none, List.replicate 126 7⟩, 100, [0, 100].map some ++ (List.replicate 100 7).map some ++ [none, none],
    [[0x80, 26].map some ++ (List.replicate 26 7).map some ++ [none, none]], ⟨0, 0, none, List.replicate 126 7⟩,
    by decide +kernel, by decide +kernel⟩

/-! ## C72: pings -/

/-- C72: at any point of a connection, with any extensions, a ping of at most 125 bytes is answered before anything else is
read, with one frame that carries the same payload. -/
theorem C72_pong (c : Cfg) (p : Option Nat) (prev : Option InMsg) (hp : p ≠ some 0) (f : Frame) (hf : f.IsPing)
    (hr : Received c.server f) (rest : Bytes) (k : Option Bytes) (hk : ∀ x, k = some x → x.length = 4) :
    run c p prev [.seg (wire f ++ rest)] = .pong f.payload :: run c (p.map (· - 1)) prev [.seg rest] ∧
    ∃ m', sendFragmented [] 10 k f.payload 0 =
      .ok (some ([(wire { fin := true, rsv := 0, opcode := 10, mask := k, payload := f.payload }).map some], m')) := by
  have hl := hf.2.2
  refine ⟨?_, ?_⟩
  · rw [run_wire c p prev hp f hr (by omega), after, handle_ping c prev hf]
    rfl
  · exact C44_rfc_partial ⟨10, 0, k, f.payload⟩ ⟨by simp, by show (0 : UInt8) &&& 0x8f = 0; decide, hk⟩ (by show f.payload.length < _; omega)
      (fun _ => by show f.payload.length < _; omega) 0 (Or.inl rfl)

example : Frame.IsPing ⟨true, 0, 9, none, b!"abc"⟩ ∧ Received false ⟨true, 0, 9, none, b!"abc"⟩ :=
  ⟨⟨rfl, rfl, by decide⟩, ⟨by decide, by decide, by intro k hk; cases hk⟩, rfl⟩

/-! ## C73: the outgoing history -/

private theorem sendLoop_last (f : Nat) (n : Nat) : ∀ (m : OutMsg) (off : Nat), m.data.length - off = n →
    ∀ fr m', sendLoop m f off = .ok (fr, m') → m' = if off < m.data.length then { m with opcode := 0 } else m := by
  induction n using Nat.strongRecOn with
  | _ n ih =>
    intro m off hn fr m' h
    rw [sendLoop.eq_def] at h
    split at h
    · rename_i ho
      have hpos := curLen_pos m.data.length off f ho
      cases hb : buildFrame m off (curLen m.data.length off f) with
      | ub => rw [hb] at h; cases h
      | ok x =>
        rw [hb] at h
        cases hs : sendLoop { m with opcode := 0 } f (off + curLen m.data.length off f) with
        | ub => simp only [Res.ok_bind, hs] at h; cases h
        | ok q =>
          simp only [Res.ok_bind, hs] at h
          obtain ⟨q1, q2⟩ := q
          have := ih (m.data.length - (off + curLen m.data.length off f)) (by omega) { m with opcode := 0 } _ rfl q1 q2 hs
          cases h
          rw [this, if_pos ho]
          split <;> rfl
    · rename_i ho
      cases h
      rw [if_neg ho]

/-- C73, the part that holds: the message kept in the outgoing list has the payload, RSV bits and mask of the message sent; its
opcode is the right one only if the message is empty. -/
theorem C73_outgoing_partial (m : OutMsg) (f : Nat) (fr : List (List (Option UInt8))) (m' : OutMsg)
    (h : sendManaged m f = .ok (some (fr, m'))) :
    m'.data = m.data ∧ m'.rsv = m.rsv ∧ m'.mask = m.mask ∧ m'.opcode = if m.data = [] then m.opcode else 0 := by
  unfold sendManaged at h
  split at h
  · split at h
    · rename_i hn
      cases hs : sendLoop m f 0 with
      | ub => rw [hs] at h; cases h
      | ok q =>
        obtain ⟨q1, q2⟩ := q
        rw [hs] at h
        have := sendLoop_last f _ m 0 rfl q1 q2 hs
        rw [if_pos (by omega)] at this
        cases h
        subst this
        exact ⟨rfl, rfl, rfl, by rw [if_neg (by intro e; rw [e] at hn; exact hn rfl)]⟩
    · rename_i hn
      cases hb : buildFrame m 0 0 with
      | ub => rw [hb] at h; cases h
      | ok x =>
        rw [hb] at h
        cases h
        have : m.data = [] := List.length_eq_zero_iff.mp (Decidable.of_not_not hn)
        exact ⟨rfl, rfl, rfl, by rw [if_pos this]⟩
  · cases h

/-- C73 is false: a text of two bytes is recorded as a continuation frame. -/
theorem C73_opcode_false : ∃ (m : OutMsg) (fr : List (List (Option UInt8))) (m' : OutMsg),
    sendManaged m 0 = .ok (some (fr, m')) ∧ m'.opcode ≠ m.opcode :=
  ⟨⟨1, 0, none, b!"hi"⟩, [([0x81, 2] ++ b!"hi").map some], ⟨0, 0, none, b!"hi"⟩, by decide +kernel, by decide⟩

/-! ## C74: success means sent -/

/-- C74, the part that holds: when the socket keeps taking bytes, and enough passes are made, a frame is sent completely and in
order, however it is cut. -/
theorem C74_progress_partial {α : Type} (ks : List Nat) (d : List α) (h : d.length ≤ ks.sum) :
    sendFrame (ks.map .sent) d = d := by
  induction ks generalizing d with
  | nil =>
    have : d = [] := List.length_eq_zero_iff.mp (by simpa using h)
    subst this; rfl
  | cons k ks ih =>
    cases d with
    | nil => rfl
    | cons b d =>
      simp only [List.map_cons, sendFrame]
      rw [ih, List.take_append_drop]
      rw [List.length_drop]
      simp only [List.sum_cons] at h
      omega

/-- C74, the part that holds: whatever the socket does, each frame reaches the wire up to some point, in order, with nothing left out or added before it. -/
theorem C74_prefix {α : Type} (ws : List Wr) (d : List α) : sendFrame ws d <+: d := by
  induction ws generalizing d with
  | nil => cases d <;> exact List.nil_prefix
  | cons w ws ih =>
    cases d with
    | nil => exact List.nil_prefix
    | cons b d =>
      cases w with
      | sent k =>
        obtain ⟨t, ht⟩ := ih ((b :: d).drop k)
        exact ⟨t, by rw [sendFrame, List.append_assoc, ht, List.take_append_drop]⟩
      | _ => exact List.nil_prefix

/-- C74, the part that holds: if for every frame the socket keeps taking bytes until it has them all, however it cuts them, the answer is `U_OK` and the frames
of the message are on the wire, whole and in order, whatever the message and the fragment length. Missing: a socket that stops, see
`C74_not_sent_false`. -/
theorem C74_whole_partial (m : OutMsg) (f : Nat) (frames : List (List (Option UInt8))) (m' : OutMsg)
    (h : sendManaged m f = .ok (some (frames, m'))) (kss : List (List Nat)) (hl : kss.length = frames.length)
    (hk : ∀ p ∈ kss.zip frames, p.2.length ≤ p.1.sum) :
    sendOn m f (kss.map (·.map .sent)) = .ok (.ok, frames.flatten) := by
  unfold sendOn
  rw [h]
  simp only [Res.ok_bind, Res.pure_eq]
  have : List.zipWith sendFrame (kss.map (·.map Wr.sent)) frames = frames := by
    clear h
    induction frames generalizing kss with
    | nil => simp
    | cons fr t ih =>
      cases kss with
      | nil => cases hl
      | cons ks u =>
        simp only [List.map_cons, List.zipWith_cons_cons]
        rw [C74_progress_partial ks fr (hk (ks, fr) (by simp)), ih u (by simpa using hl)]
        intro p hp
        exact hk p (by simp [hp])
  rw [this]

-- a message of two bytes in two frames, taken in pieces
example : (match sendManaged ⟨2, 0, none, b!"ab"⟩ 1 with
    | .ok (some (frames, _)) => frames.length == 2 && decide (sendOn ⟨2, 0, none, b!"ab"⟩ 1 [[.sent 1, .sent 2], [.sent 3]] = .ok (.ok, frames.flatten))
    | _ => false) = true := by decide +kernel

/-- C74 is false: whatever the message, if the socket is not writable within 50 ms nothing is sent and `U_OK` is returned; after a
first partial write the frame stays truncated. -/
theorem C74_not_sent_false (m : OutMsg) (h : Sendable m) (hn : m.data.length < 2 ^ 32) (k : Nat) :
    sendOn m 0 [[.sent k, .notReady]] = .ok (.ok, ((wire (wholeFrame m)).take k).map some) := by
  obtain ⟨m', e⟩ := C44_rfc_partial m h (by omega) (fun _ => hn) 0 (Or.inl rfl)
  unfold sendOn
  rw [e]
  simp only [Res.ok_bind, Res.pure_eq, List.zipWith_cons_cons, List.zipWith_nil_left, List.flatten_cons, List.flatten_nil,
    List.append_nil]
  have hs : ∀ l : List (Option UInt8), sendFrame [.sent k, .notReady] l = l.take k := by
    intro l
    cases l with
    | nil => simp [sendFrame]
    | cons b l =>
      simp only [sendFrame]
      cases hd : (b :: l).drop k with
      | nil => simp [sendFrame]
      | cons x y => simp [sendFrame]
  rw [hs, List.map_take]

/-- so a message of 1000 bytes of which 10 bytes left is reported as sent -/
example : (match sendOn ⟨2, 0, none, List.replicate 1000 1⟩ 0 [[.sent 10, .notReady]] with
    | .ok (rc, l) => (some rc, l.length)
    | .ub => (none, 0)) = (some .ok, 10) := by decide +kernel

/-! ## C75, C76: extensions -/

/-- The in function undoes the out function, each with the user data registered for it. -/
def Inverse (e : Ext) : Prop :=
  ∀ f, e.outPerform = some f → ∃ g, e.inPerform = some g ∧ ∀ op d d', f e.outData op d = some d' → g e.inData op d' = some d

/-- Enabled extensions have RSV bits, and do not share them. -/
def Disjoint : List Ext → Prop
  | [] => True
  | e :: l => (e.enabled = true → e.rsv ≠ 0 ∧ ∀ e' ∈ l, e'.enabled = true → e.rsv &&& e'.rsv = 0) ∧ Disjoint l

private theorem applyInList_append (op r : UInt8) (a b : List Ext) (d : Bytes) :
    applyInList op r (a ++ b) d = (applyInList op r a d).bind (applyInList op r b) := by
  induction a generalizing d with
  | nil => rfl
  | cons e a ih =>
    simp only [List.cons_append, applyInList]
    split
    · split
      · split
        · rfl
        · exact ih _
      · exact ih _
    · exact ih _

private theorem or_and (a b c : UInt8) : (a ||| b) &&& c = (a &&& c) ||| (b &&& c) := by
  apply UInt8.toBitVec_inj.mp
  simp only [UInt8.toBitVec_and, UInt8.toBitVec_or]
  exact BitVec.and_or_distrib_right

theorem applyOut_rsv (op : UInt8) (l : List Ext) (r0 : UInt8) (d : Bytes) (r : UInt8) (d' : Bytes)
    (h : applyOut op l r0 d = some (r, d')) (x : UInt8) (h0 : r0 &&& x = 0)
    (hl : ∀ e ∈ l, e.enabled = true → e.rsv &&& x = 0) : r &&& x = 0 := by
  induction l generalizing r0 d with
  | nil => cases h; exact h0
  | cons e l ih =>
    have hl' : ∀ e' ∈ l, e'.enabled = true → e'.rsv &&& x = 0 := fun e' he' => hl e' (List.mem_cons_of_mem _ he')
    unfold applyOut at h
    split at h
    · rename_i hen
      split at h
      · split at h
        · cases h
        · exact ih _ _ h (by rw [or_and, h0, hl e (List.mem_cons_self ..) hen]; rfl) hl'
      · exact ih _ _ h h0 hl'
    · exact ih _ _ h h0 hl'

private theorem applyOut_sub (op : UInt8) (l : List Ext) (r0 : UInt8) (d : Bytes) (r : UInt8) (d' : Bytes)
    (h : applyOut op l r0 d = some (r, d')) (x : UInt8) (h0 : r0 &&& x ≠ 0) : r &&& x ≠ 0 := by
  have key : ∀ a b c : UInt8, a &&& c ≠ 0 → (a ||| b) &&& c ≠ 0 := by
    intro a b c hh e
    rw [or_and] at e
    exact hh ((UInt8.or_eq_zero_iff).mp e).1
  induction l generalizing r0 d with
  | nil => cases h; exact h0
  | cons e l ih =>
    unfold applyOut at h
    split at h
    · split at h
      · split at h
        · cases h
        · exact ih _ _ h (key _ _ _ h0)
      · exact ih _ _ h h0
    · exact ih _ _ h h0

private theorem out_in (op : UInt8) (l : List Ext) (hd : Disjoint l)
    (hi : ∀ e ∈ l, Inverse e ∧ (e.outPerform ≠ none → e.inData = e.outData)) (r0 : UInt8) (d : Bytes)
    (r : UInt8) (d' : Bytes) (h : applyOut op l r0 d = some (r, d')) (h0 : ∀ e ∈ l, e.enabled = true → r0 &&& e.rsv = 0) :
    applyInList op r l.reverse d' = some d := by
  induction l generalizing r0 d with
  | nil => cases h; rfl
  | cons e l ih =>
    have hi' : ∀ e' ∈ l, Inverse e' ∧ (e'.outPerform ≠ none → e'.inData = e'.outData) := fun e' he' => hi e' (List.mem_cons_of_mem _ he')
    have h0' : ∀ e' ∈ l, e'.enabled = true → r0 &&& e'.rsv = 0 := fun e' he' => h0 e' (List.mem_cons_of_mem _ he')
    have hsym : e.enabled = true → ∀ e' ∈ l, e'.enabled = true → e'.rsv &&& e.rsv = 0 := by
      intro hen e' he' hen'
      rw [UInt8.and_comm]; exact (hd.1 hen).2 e' he' hen'
    rw [List.reverse_cons, applyInList_append]
    unfold applyOut at h
    by_cases hen : e.enabled = true
    · rw [if_pos hen] at h
      cases hf : e.outPerform with
      | none =>
        rw [hf] at h
        rw [ih hd.2 hi' _ _ h h0']
        have hz := applyOut_rsv op l r0 d r d' h e.rsv (h0 e (List.mem_cons_self ..) hen) (hsym hen)
        simp only [Option.bind_some, applyInList]
        rw [if_neg (by rintro ⟨_, hh⟩; exact hh hz)]
      | some f =>
        rw [hf] at h
        simp only at h
        cases hfd : f e.outData op d with
        | none => rw [hfd] at h; cases h
        | some d1 =>
          rw [hfd] at h
          simp only at h
          have hnew : ∀ e' ∈ l, e'.enabled = true → (r0 ||| e.rsv) &&& e'.rsv = 0 := by
            intro e' he' hen'
            rw [or_and, h0' e' he' hen', (hd.1 hen).2 e' he' hen']; rfl
          rw [ih hd.2 hi' _ _ h hnew]
          have hset := applyOut_sub op l _ d1 r d' h e.rsv (by
            rw [or_and, h0 e (List.mem_cons_self ..) hen, UInt8.and_self, UInt8.zero_or]
            exact (hd.1 hen).1)
          obtain ⟨hinv, hdata⟩ := hi e (List.mem_cons_self ..)
          obtain ⟨g, hg1, hg2⟩ := hinv f hf
          have := hg2 op d d1 hfd
          rw [hdata (by rw [hf]; simp)] at this
          simp only [Option.bind_some, applyInList]
          rw [if_pos ⟨hen, hset⟩, hg1]
          simp only [this]
    · rw [if_neg hen] at h
      rw [ih hd.2 hi' _ _ h h0']
      simp only [Option.bind_some, applyInList]
      rw [if_neg (fun hh => hen hh.1)]

/-- C75, when each extension's in and out functions have the same user data: a message transformed by the sender's extensions is
restored by a receiver with the same extensions, for any list of extensions with disjoint RSV bits. Missing: different user data,
for which the claim is false. -/
theorem C75_inverse_partial (op : UInt8) (exts : List Ext) (hd : Disjoint exts)
    (hi : ∀ e ∈ exts, Inverse e ∧ (e.outPerform ≠ none → e.inData = e.outData)) (d : Bytes) (r : UInt8) (d' : Bytes)
    (h : applyOut op exts 0 d = some (r, d')) (m : InMsg) (hm : m.opcode = op ∧ m.rsv = r ∧ m.data = d') :
    applyIn exts m = some d := by
  obtain ⟨rfl, rfl, rfl⟩ := hm
  exact out_in m.opcode exts hd hi 0 d m.rsv m.data h (fun e _ _ => by simp)

/-- Adds a byte in front / removes it, the byte being the user data. -/
private def addByte (k : Nat) (_ : UInt8) (d : Bytes) : Option Bytes := some (byte k :: d)
private def dropByte (k : Nat) (_ : UInt8) : Bytes → Option Bytes
  | [] => none
  | c :: d => if c = byte k then some d else none

private theorem drop_add (k : Nat) (op : UInt8) (d d' : Bytes) (h : addByte k op d = some d') : dropByte k op d' = some d := by
  cases h; simp [dropByte]

/-- two such extensions -/
example : ∃ exts : List Ext, exts.length = 2 ∧ Disjoint exts ∧ (∀ e ∈ exts, Inverse e ∧ (e.outPerform ≠ none → e.inData = e.outData)) ∧
    applyOut 1 exts 0 b!"x" = some (0x60, [8, 7] ++ b!"x") ∧ applyIn exts ⟨1, 0x60, true, false, [8, 7] ++ b!"x", 0⟩ = some b!"x" := by
  refine ⟨[⟨true, 0x40, some addByte, 7, some dropByte, 7⟩, ⟨true, 0x20, some addByte, 8, some dropByte, 8⟩], rfl, ?_, ?_, by decide,
    by decide⟩
  · simp [Disjoint]; decide
  · intro e he
    simp only [List.mem_cons, List.not_mem_nil, or_false] at he
    rcases he with rfl | rfl
    · exact ⟨fun f hf => by cases hf; exact ⟨dropByte, rfl, fun op d d' h => drop_add 7 op d d' h⟩, fun _ => rfl⟩
    · exact ⟨fun f hf => by cases hf; exact ⟨dropByte, rfl, fun op d d' h => drop_add 8 op d d' h⟩, fun _ => rfl⟩

/-- C75 on the wire: a text or binary message sent with extensions, in one frame, is read by the other side and restored by the same
extensions; a control frame leaves with its payload unchanged and without RSV bits, whatever extensions there are. -/
theorem C75_sent_partial (exts : List Ext) (hd : Disjoint exts)
    (hi : ∀ e ∈ exts, Inverse e ∧ (e.outPerform ≠ none → e.inData = e.outData)) (op : UInt8) (mask : Option Bytes) (d : Bytes)
    (r : UInt8) (d' : Bytes) (h : if op = 2 ∨ op = 1 then applyOut op exts 0 d = some (r, d') else r = 0 ∧ d' = d)
    (hs : Sendable ⟨op, r, mask, d'⟩) (hn : d'.length < 2 ^ 32) (f : Nat) (hf : f = 0 ∨ d'.length ≤ f) :
    ∃ bytes m', sendFragmented exts op mask d f = .ok (some ([bytes.map some], m')) ∧
      ∀ evs rest, bytesOf evs = bytes ++ rest → ∃ x t, readMessage mask.isSome evs = some (x, t) ∧ bytesOf t = rest ∧
        x.opcode = op ∧ x.fin = true ∧ (if op = 2 ∨ op = 1 then applyIn exts x = some d else x.rsv = 0 ∧ x.data = d) := by
  obtain ⟨bytes, m', e, hr⟩ := C43_round_trip ⟨op, r, mask, d'⟩ hs hn f hf
  refine ⟨bytes, m', ?_, ?_⟩
  · unfold sendFragmented
    by_cases ho : op = 2 ∨ op = 1
    · rw [if_pos ho] at h ⊢
      rw [h]; exact e
    · rw [if_neg ho] at h ⊢
      obtain ⟨rfl, rfl⟩ := h
      exact e
  · intro evs rest hb
    obtain ⟨x, t, h1, h2, h3, h4, h5, h6⟩ := hr evs rest hb
    refine ⟨x, t, h1, h2, h3, h5, ?_⟩
    by_cases ho : op = 2 ∨ op = 1
    · rw [if_pos ho] at h ⊢
      exact C75_inverse_partial op exts hd hi d r d' h x ⟨h3, h4, h6⟩
    · rw [if_neg ho] at h ⊢
      exact ⟨h4.trans h.1, h6.trans h.2⟩

/-- C76 is false, and with it C75: the in function is called with the user data of the out function. An extension whose functions
are inverse with their own user data fails to restore the message. -/
theorem C76_user_data_false : ∃ (exts : List Ext) (d d' : Bytes) (r : UInt8), Disjoint exts ∧ (∀ e ∈ exts, Inverse e) ∧
    applyOut 1 exts 0 d = some (r, d') ∧ applyIn exts ⟨1, r, true, false, d', 0⟩ ≠ some d := by
  refine ⟨[⟨true, 0x40, some (fun k op d => addByte (k - 1) op d), 8, some dropByte, 7⟩], b!"x", [7] ++ b!"x", 0x40, by simp [Disjoint],
    ?_, by decide, by decide⟩
  intro e he
  simp only [List.mem_singleton] at he
  subst he
  intro f hf
  cases hf
  exact ⟨dropByte, rfl, fun op d d' h => drop_add 7 op d d' h⟩

/-- C76, the part that holds: with one pointer for both functions they get what was registered. -/
theorem C76_same_data_partial (e : Ext) (g : Nat → UInt8 → Bytes → Option Bytes) (hg : e.inPerform = some g)
    (hd : e.inData = e.outData) (m : InMsg) (hen : e.enabled = true) (hr : m.rsv &&& e.rsv ≠ 0) :
    applyIn [e] m = g e.inData m.opcode m.data := by
  simp only [applyIn, List.reverse_cons, List.reverse_nil, List.nil_append, applyInList, hen, hg, hd]
  rw [if_pos ⟨trivial, hr⟩]
  cases g e.outData m.opcode m.data <;> rfl

/-! ## C77: clearing a message list -/

/-- C77 is false: after a list that held messages is cleared, popping and clearing again are undefined behaviour (the length is
kept and the array is NULL), and so is popping after a new push (the slots before it were never written). -/
theorem C77_clear_false {α : Type} (l : MsgList α) (h : 0 < l.len) (l' : MsgList α) (hc : l.clear = .ok l') (m : α) :
    l'.pop = .ub ∧ l'.clear = .ub ∧ (l'.push m).pop = .ub := by
  unfold MsgList.clear at hc
  split at hc
  · cases hc
    refine ⟨?_, ?_, ?_⟩
    · simp only [MsgList.pop]; rw [if_pos h]
    · simp only [MsgList.clear]; rw [if_neg]; rintro ⟨_, hh⟩; simp at hh; omega
    · show (⟨l.len + 1, some ((resize none (l.len + 1)).set l.len (some m))⟩ : MsgList α).pop = .ub
      have : (resize (none : Option (List (Option α))) (l.len + 1)).set l.len (some m) =
          none :: (List.replicate l.len (none : Option α)).set (l.len - 1) (some m) := by
        simp only [resize, Option.getD_none, List.take_nil, List.nil_append, List.length_nil, Nat.sub_zero]
        rw [List.replicate_succ]
        obtain ⟨k, hk⟩ : ∃ k, l.len = k + 1 := ⟨l.len - 1, by omega⟩
        rw [hk]; rfl
      rw [this]
      unfold MsgList.pop
      rw [if_pos (show l.len + 1 > 0 by omega)]
  · cases hc

/-- such a list -/
example : ((MsgList.init.push 5).clear : Res (MsgList Nat)) = .ok ⟨1, none⟩ := rfl

/-- C77, the part that holds: a list that never held a message (or was emptied by pops) can be cleared and used again. -/
theorem C77_empty_partial {α : Type} (l : MsgList α) (h : l.len = 0) (hl : l.list = none) : l.clear = .ok MsgList.init := by
  obtain ⟨n, ls⟩ := l
  simp only at h hl
  subst h; subst hl
  rfl

/-! ## C78: the incoming history -/

/-- C78, the part that holds: until the application closes the connection, what is appended to the incoming list is what is
delivered (the same step does both, u_websocket.c:730–740): text or binary messages, allowed, text in UTF-8. Missing: the messages
received while the closing handshake is under way. -/
theorem C78_incoming_partial (c : Cfg) (p : Option Nat) (evs : List Ev) (op r : UInt8) (d : Bytes)
    (h : .deliver op r d ∈ run c p none evs) :
    (op = 1 ∧ Spec.Utf8.IsUtf8 d ∨ op = 2) ∧ (r = 0 ∨ c.rsvExpected &&& r ≠ 0) := by
  refine ⟨?_, C50_rsv_partial c p evs op r d h⟩
  rcases mem_run c p none evs _ h with h' | ⟨prev, m, h'⟩
  · cases h'
  · obtain ⟨q, hq, ho⟩ := deliver_handle h'
    rw [(deliver_complete hq).1] at ho
    rcases ho with ho | ho
    · subst ho; exact Or.inl ⟨rfl, C47_text_is_utf8 c p evs r d h⟩
    · exact Or.inr ho

/-- C78 is false: during the closing handshake the history receives raw frames: text that is not UTF-8, fragments, pings, and the
close frame itself, none of which is ever delivered. -/
theorem C78_closing_false : ((closeWait false 10 [.seg ([0x81, 1, 0xff] ++ [0x01, 1] ++ b!"a" ++ [0x89, 0] ++ [0x88, 0])]).map
    (fun m => (m.opcode, m.fin, m.data))) = [(1, true, [0xff]), (1, false, b!"a"), (9, true, []), (8, true, [])] ∧
    ¬ Spec.Utf8.IsUtf8 [0xff] := by
  refine ⟨by decide +kernel, ?_⟩
  rw [← C05_utf8Ok]; decide

end Verif.Props
