import Verif.Model.WsPacked
import Verif.Props.WsPair
import Verif.Props.DeflateData
/-!
# A conversation with permessage-deflate, property C164
-/
namespace Verif.Props
open Verif.Ws Verif.WsPair Verif.WsPacked Verif.DeflateData
open Verif.Deflate (Flush)
open Verif.Spec.Ws hiding Act

variable {C D : Type}

/-! ## Specification -/

/-- What programs may do: as in C162 without extensions, and messages are of a size zlib can deal with. -/
def Packable (bound : Nat) (a : Act) : Prop :=
  Civil [] a ∧ ∀ who op x k, a = .say who op x k → x.length < bound

/-! ## Proof -/

namespace Pack
open Pair

/-- What one message does to contexts in step. -/
theorem through {Z : Zlib C D} {Sync : C → D → Prop} {bound : Nat} (hb : bound ≤ 2 ^ 32) (hz : Lossless Z Sync bound) (m : Flush) (c : C)
    (hs : ∃ d, Sync c d) (x : Bytes) (hx : x.length < bound) :
    ∃ c' p, messageOut Z c m x = .ok (some (c', p)) ∧ p.length < 2 ^ 32 ∧
      ∀ d, Sync c d → ∃ d', messageIn Z d p = .ok (some (d', x)) ∧ Sync c' d' := by
  obtain ⟨d0, h0⟩ := hs
  by_cases hx0 : x = []
  · subst hx0
    exact ⟨c, [], rfl, by decide, fun d h => ⟨d, rfl, h⟩⟩
  · obtain ⟨c1, o, d1, e1, e2, e3, e4, e5⟩ := hz c d0 m x h0 hx0 hx
    refine ⟨c1, o, messageOut_eq Z c c1 m x o hx0 (by omega) e1, by omega, fun d h => ?_⟩
    obtain ⟨c2, o2, d2, f1, f2, f3, f4, f5⟩ := hz c d m x h hx0 hx
    rw [e1] at f1
    simp only [Option.some.injEq, Prod.mk.injEq, List.append_cancel_right_eq] at f1
    obtain ⟨rfl, rfl⟩ := f1
    exact ⟨d2, messageIn_eq Z d d2 x o f2 f3 f4, f5⟩

/-- A frame and its counterpart in the conversation without compression. -/
structure Twin (t : Bool) (f g : Frame) : Prop where
  received : Received t f
  small : f.payload.length < 2 ^ 32
  fin : f.fin = true
  fit : Fit [] t g
  op : f.opcode = g.opcode
  data : g.opcode = 1 ∨ g.opcode = 2 → f.rsv = 0x40
  control : ¬ (g.opcode = 1 ∨ g.opcode = 2) → f = g

/-- What is on its way can be read by a receiver with the context `d`, and brings it in step with the sender. -/
def Chain (Z : Zlib C D) (Sync : C → D → Prop) (c : C) : D → List (Frame × Frame) → Prop
  | d, [] => Sync c d
  | d, (f, g) :: t =>
    if g.opcode = 1 ∨ g.opcode = 2 then ∃ d', messageIn Z d f.payload = .ok (some (d', g.payload)) ∧ Chain Z Sync c d' t else Chain Z Sync c d t

theorem Chain.ends {Z : Zlib C D} {Sync : C → D → Prop} {c : C} {d : D} {l : List (Frame × Frame)} (h : Chain Z Sync c d l) : ∃ d', Sync c d' := by
  induction l generalizing d with
  | nil => exact ⟨d, h⟩
  | cons a t ih =>
    obtain ⟨f, g⟩ := a
    simp only [Chain] at h
    split at h
    · obtain ⟨d', -, h⟩ := h; exact ih h
    · exact ih h

theorem Chain.snoc {Z : Zlib C D} {Sync : C → D → Prop} {c c' : C} {d : D} {l : List (Frame × Frame)} (h : Chain Z Sync c d l) (f g : Frame)
    (hd : g.opcode = 1 ∨ g.opcode = 2 → ∀ d, Sync c d → ∃ d', messageIn Z d f.payload = .ok (some (d', g.payload)) ∧ Sync c' d')
    (hn : ¬ (g.opcode = 1 ∨ g.opcode = 2) → c' = c) : Chain Z Sync c' d (l ++ [(f, g)]) := by
  induction l generalizing d with
  | nil =>
    simp only [Chain] at h
    simp only [List.nil_append, Chain]
    split
    · rename_i ho
      exact hd ho d h
    · rename_i ho
      rw [hn ho]; exact h
  | cons a t ih =>
    obtain ⟨f', g'⟩ := a
    simp only [Chain] at h
    simp only [List.cons_append, Chain]
    split
    · rename_i ho
      rw [if_pos ho] at h
      obtain ⟨d', h1, h2⟩ := h
      exact ⟨d', h1, ih h2⟩
    · rename_i ho
      rw [if_neg ho] at h
      exact ih h

/-- The end `t` of both conversations, and what is on its way to it. -/
structure Side (Z : Zlib C D) (Sync : C → D → Prop) (t : Bool) (c : C) (d : D) (b b' : Party) (l : List (Frame × Frame)) : Prop where
  inbox : b.inbox = wires (l.map Prod.fst)
  inbox' : b'.inbox = wires (l.map Prod.snd)
  twins : ∀ p ∈ l, Twin t p.1 p.2
  prev : b.prev = none
  prev' : b'.prev = none
  flag : b.flag = b'.flag
  phase : b.phase = b'.phase
  sync : ∃ d', Sync c d'
  chain : b.phase = .loop → Chain Z Sync c d l

/-- The two conversations look alike. -/
def Rel (Z : Zlib C D) (Sync : C → D → Prop) (v : Packed C D) (y : Sys) : Prop :=
  v.sys.log = y.log ∧ ∀ t, ∃ l, Side Z Sync t (v.out (!t)) (v.inn t) (v.sys.party t) (y.party t) l

variable {Z : Zlib C D} {Sync : C → D → Prop}

theorem not_ne (w : Bool) : (!w) ≠ w := by cases w <;> decide

/-- What one end sees alike. -/
theorem Side.readable {t : Bool} {c : C} {d : D} {l : List (Frame × Frame)} {y y' : Sys}
    (h : Side Z Sync t c d (y.party t) (y'.party t) l) (p : Poll) : readable y t p = readable y' t p := by
  unfold WsPair.readable
  congr 1
  rw [h.inbox, h.inbox']
  cases l with
  | nil => rfl
  | cons a l =>
    simp only [List.map_cons, wires_cons]
    have e : ∀ (f : Frame) (r : Bytes), (wire f ++ r != []) = true := by
      intro f r
      simp only [bne_iff_ne, ne_eq, List.append_eq_nil_iff, not_and]
      intro h0
      exact absurd h0 (by simp [wire])
    rw [e, e]

/-- A frame is put on its way to the end `t`. -/
theorem Side.post {t : Bool} {c c' : C} {d : D} {b b' : Party} {l : List (Frame × Frame)} (h : Side Z Sync t c d b b' l) (f g : Frame)
    (ht : Twin t f g) (hs : ∃ d', Sync c' d')
    (hd : g.opcode = 1 ∨ g.opcode = 2 → ∀ d, Sync c d → ∃ d', messageIn Z d f.payload = .ok (some (d', g.payload)) ∧ Sync c' d')
    (hn : ¬ (g.opcode = 1 ∨ g.opcode = 2) → c' = c) :
    Side Z Sync t c' d { b with inbox := b.inbox ++ wire f } { b' with inbox := b'.inbox ++ wire g } (l ++ [(f, g)]) := by
  refine ⟨?_, ?_, ?_, h.prev, h.prev', h.flag, h.phase, hs, fun hp => (h.chain hp).snoc f g hd hn⟩
  · rw [List.map_append, wires_append, ← h.inbox]; simp [wires]
  · rw [List.map_append, wires_append, ← h.inbox']; simp [wires]
  · intro p hp
    rcases List.mem_append.1 hp with hp | hp
    · exact h.twins p hp
    · rw [List.mem_singleton.1 hp]; exact ht

theorem Side.leaves {t : Bool} {c : C} {d d' : D} {b b' : Party} {l : List (Frame × Frame)} (h : Side Z Sync t c d b b' l) (ph : Phase)
    (hp : ph ≠ .loop) : Side Z Sync t c d' { b with phase := ph } { b' with phase := ph } l :=
  ⟨h.inbox, h.inbox', h.twins, h.prev, h.prev', h.flag, rfl, h.sync, fun h0 => absurd h0 hp⟩

/-- Both conversations in terms of the two ends. -/
theorem Rel.of {v : Packed C D} {y : Sys} (w : Bool) (hl : v.sys.log = y.log)
    (h1 : ∃ l, Side Z Sync w (v.out (!w)) (v.inn w) (v.sys.party w) (y.party w) l)
    (h2 : ∃ l, Side Z Sync (!w) (v.out w) (v.inn (!w)) (v.sys.party (!w)) (y.party (!w)) l) : Rel Z Sync v y := by
  refine ⟨hl, fun t => ?_⟩
  by_cases e : t = w
  · subst e; exact h1
  · have : t = !w := by cases t <;> cases w <;> simp_all
    subst this
    rw [Bool.not_not]; exact h2

theorem Rel.split {v : Packed C D} {y : Sys} (h : Rel Z Sync v y) (w : Bool) :
    (∃ l, Side Z Sync w (v.out (!w)) (v.inn w) (v.sys.party w) (y.party w) l) ∧
    (∃ l, Side Z Sync (!w) (v.out w) (v.inn (!w)) (v.sys.party (!w)) (y.party (!w)) l) := by
  refine ⟨h.2 w, ?_⟩
  have := h.2 (!w)
  rw [Bool.not_not] at this
  exact this

theorem Rel.connected {v : Packed C D} {y : Sys} (h : Rel Z Sync v y) (w : Bool) : connected (v.sys.party w) = connected (y.party w) := by
  obtain ⟨l, hs⟩ := h.2 w
  unfold WsPair.connected
  rw [hs.phase]

/-- A control frame of one end. -/
theorem Rel.control {v : Packed C D} {y : Sys} (h : Rel Z Sync v y) (w : Bool) (f : Frame) (hf : Fit [] (!w) f)
    (hc : ¬ (f.opcode = 1 ∨ f.opcode = 2)) : Rel Z Sync { v with sys := post v.sys w (wire f) } (post y w (wire f)) := by
  obtain ⟨⟨l1, s1⟩, l2, s2⟩ := h.split w
  refine Rel.of w h.1 ⟨l1, ?_⟩ ⟨l2 ++ [(f, f)], ?_⟩
  · simp only [post_same]; exact s1
  · simp only [post_other]
    exact s2.post f f ⟨hf.received, hf.small, hf.fin, hf, rfl, fun ho => absurd ho hc, fun _ => rfl⟩ s2.sync (fun ho => absurd ho hc) (fun _ => rfl)

theorem Rel.note {v : Packed C D} {y : Sys} (h : Rel Z Sync v y) (e : Event) : Rel Z Sync { v with sys := note v.sys e } (note y e) :=
  ⟨by simp only [note_log, h.1], fun t => h.2 t⟩

/-- The end `w` changes, the other one does not. -/
theorem Rel.upd {v : Packed C D} {y : Sys} (h : Rel Z Sync v y) (w : Bool) (b b' : Party) (inn : Bool → D) (hi : inn (!w) = v.inn (!w))
    (l : List (Frame × Frame)) (hs : Side Z Sync w (v.out (!w)) (inn w) b b' l) :
    Rel Z Sync { v with sys := upd v.sys w b, inn := inn } (upd y w b') := by
  obtain ⟨-, l2, s2⟩ := h.split w
  refine Rel.of w h.1 ⟨l, ?_⟩ ⟨l2, ?_⟩
  · simp only [upd_same]; exact hs
  · simp only [upd_other, hi]; exact s2

/-! ### Messages -/

theorem say_sim (mask : Bool → Flush) {bound : Nat} (hb : bound ≤ 2 ^ 32) (hz : Lossless Z Sync bound) {v : Packed C D} {y : Sys}
    (h : Rel Z Sync v y) (who : Bool) (op : UInt8) (x k : Bytes) (hc : Packable bound (.say who op x k)) :
    ∃ v' y', WsPacked.step Z mask v (.say who op x k) = .ok v' ∧ WsPair.step [] y (.say who op x k) = .ok y' ∧ Rel Z Sync v' y' := by
  have hl := hc.2 who op x k rfl
  obtain ⟨hk, ho, hu, h9, hn⟩ := hc.1
  obtain ⟨⟨l1, s1⟩, l2, s2⟩ := h.split who
  simp only [WsPacked.step, WsPair.step, ← h.connected who]
  by_cases hcon : connected (v.sys.party who) = true
  · simp only [hcon, true_and, if_true]
    by_cases h12 : op = 1 ∨ op = 2
    · rw [if_pos h12]
      obtain ⟨c', p, e1, e2, e3⟩ := through hb hz (mask who) (v.out who) s2.sync x hl
      have hs : Sendable ⟨op, 0x40, maskOf who k, p⟩ := ⟨by rcases h12 with e | e <;> simp [e], show (0x40 : UInt8) &&& 0x8f = 0 by decide, maskOf_length hk⟩
      have hs' : Sendable ⟨op, 0, maskOf who k, x⟩ := ⟨by rcases h12 with e | e <;> simp [e], show (0 : UInt8) &&& 0x8f = 0 by decide, maskOf_length hk⟩
      obtain ⟨m1, g1⟩ := C44_rfc_partial _ hs (Nat.lt_trans e2 (by decide)) (fun _ => e2) 0 (.inl rfl)
      have hx32 : x.length < 2 ^ 32 := Nat.lt_of_lt_of_le hl hb
      obtain ⟨m2, g2⟩ := C44_rfc_partial _ hs' (Nat.lt_trans hx32 (by decide)) (fun _ => hx32) 0 (.inl rfl)
      have o1 : sendFragmented [now Z mask v who] op (maskOf who k) x 0 = sendManaged ⟨op, 0x40, maskOf who k, p⟩ 0 := by
        unfold sendFragmented
        rw [if_pos h12.symm]
        simp only [applyOut, now, e1, if_true]
        rfl
      have o2 : sendFragmented [] op (maskOf who k) x 0 = sendManaged ⟨op, 0, maskOf who k, x⟩ 0 := by
        unfold sendFragmented
        rw [if_pos h12.symm]
        simp only [applyOut]
      rw [o1, o2, g1, g2]
      simp only [e1, Res.ok_bind, written, Res.pure_eq]
      refine ⟨_, _, rfl, rfl, ?_⟩
      refine Rel.note (v := { v with sys := post v.sys who _, out := fun w => if w = who then c' else v.out w }) ?_ _
      have hop : op &&& 0xf0 = 0 := by rcases h12 with e | e <;> rw [e] <;> decide
      have hfit : Fit [] (!who) (wholeFrame ⟨op, 0, maskOf who k, x⟩) :=
        fit_whole hk (by decide) hop hx32 (.inr (.inr (.inr ⟨h12, x, rfl, fun h1 => (C05_utf8Ok _).mpr (hu h1), .inl rfl⟩)))
      have htwin : Twin (!who) (wholeFrame ⟨op, 0x40, maskOf who k, p⟩) (wholeFrame ⟨op, 0, maskOf who k, x⟩) :=
        ⟨⟨⟨show (0x40 : UInt8) &&& 0x8f = 0 by decide, hop, maskOf_length hk⟩, by cases who <;> rfl⟩, e2, rfl, hfit, rfl, fun _ => rfl, fun hh => absurd h12 hh⟩
      refine Rel.of who h.1 ⟨l1, ?_⟩ ⟨l2 ++ [(wholeFrame ⟨op, 0x40, maskOf who k, p⟩, wholeFrame ⟨op, 0, maskOf who k, x⟩)], ?_⟩
      · simp only [post_same, if_neg (not_ne who)]; exact s1
      · simp only [post_other, if_pos]
        obtain ⟨d0, hd0⟩ := s2.sync
        obtain ⟨d1, -, hd1⟩ := e3 d0 hd0
        exact s2.post _ _ htwin ⟨d1, hd1⟩ (fun _ d hd => e3 d hd) (fun hh => absurd h12 hh)
    · rw [if_neg h12]
      have h9' : op = 9 := ho.resolve_left (fun e => h12 (.inl e)) |>.resolve_left (fun e => h12 (.inr e))
      have hxl := h9 h9'
      have hs : Sendable ⟨op, 0, maskOf who k, x⟩ := ⟨by simp [h9'], show (0 : UInt8) &&& 0x8f = 0 by decide, maskOf_length hk⟩
      obtain ⟨m1, g1⟩ := C44_rfc_partial _ hs (show x.length < 2 ^ 54 by omega) (fun _ => show x.length < 2 ^ 32 by omega) 0 (.inl rfl)
      have o1 : ∀ e, sendFragmented e op (maskOf who k) x 0 = sendManaged ⟨op, 0, maskOf who k, x⟩ 0 := by
        intro e
        unfold sendFragmented
        rw [if_neg (fun hh => h12 hh.symm)]
      rw [o1, o1, g1]
      simp only [Res.ok_bind, written, Res.pure_eq]
      refine ⟨_, _, rfl, rfl, ?_⟩
      refine Rel.note (v := { v with sys := post v.sys who _ }) (h.control who _ ?_ h12) _
      exact fit_whole hk (by decide) (by rw [h9']; decide) (by omega) (.inr (.inl ⟨h9', hxl⟩))
  · simp only [hcon, false_and, if_false, Res.ok_bind, Res.pure_eq]
    exact ⟨_, _, rfl, rfl, h⟩

/-! ### Rounds of the loop -/

theorem Side.read {t : Bool} {c : C} {d : D} {b b' : Party} {l : List (Frame × Frame)} (h : Side Z Sync t c d b b' l) (hb : b.inbox ≠ []) :
    ∃ f g l' r r', l = (f, g) :: l' ∧ Twin t f g ∧ readMessage t [.seg b.inbox] = some (toIn f, r) ∧ unread r = wires (l'.map Prod.fst) ∧
      readMessage t [.seg b'.inbox] = some (toIn g, r') ∧ unread r' = wires (l'.map Prod.snd) := by
  cases l with
  | nil => exact absurd h.inbox hb
  | cons a l' =>
    obtain ⟨f, g⟩ := a
    have ht : Twin t f g := h.twins (f, g) List.mem_cons_self
    obtain ⟨r, h1, h2⟩ := readMessage_wire t f ht.received ht.small [.seg b.inbox] (wires (l'.map Prod.fst)) (by simp [bytesOf, h.inbox, wires_cons])
    obtain ⟨r', h3, h4⟩ := readMessage_wire t g ht.fit.received ht.fit.small [.seg b'.inbox] (wires (l'.map Prod.snd)) (by simp [bytesOf, h.inbox', wires_cons])
    exact ⟨f, g, l', r, r', rfl, ht, h1, by rw [unread_eq, h2], h3, by rw [unread_eq, h4]⟩

theorem hung_sim {v : Packed C D} {y : Sys} (h : Rel Z Sync v y) (who : Bool) (p : Poll) : hung v.sys who p = hung y who p := by
  obtain ⟨l, s⟩ := h.2 (!who)
  unfold hung
  rw [s.phase]

theorem phase_sim {v : Packed C D} {y : Sys} (h : Rel Z Sync v y) (who : Bool) (ph : Phase) (hp : ph ≠ .loop) :
    Rel Z Sync { v with sys := upd v.sys who { v.sys.party who with phase := ph } } (upd y who { y.party who with phase := ph }) := by
  obtain ⟨⟨l1, s1⟩, -⟩ := h.split who
  exact h.upd who _ _ v.inn rfl l1 (s1.leaves ph hp)

theorem turn_sim (mask : Bool → Flush) {v : Packed C D} {y : Sys}
    (h : Rel Z Sync v y) (who : Bool) (p : Poll) (k : Bytes) (hk : k.length = 4) :
    ∃ v' y', WsPacked.step Z mask v (.turn who p k) = .ok v' ∧ WsPair.step [] y (.turn who p k) = .ok y' ∧ Rel Z Sync v' y' := by
  obtain ⟨⟨l1, s1⟩, l2, s2⟩ := h.split who
  have hrd : readable v.sys who p = readable y who p := s1.readable p
  have hhu := hung_sim h who p
  have hclose : Fit [] (!who) (wholeFrame ⟨8, 0, maskOf who k, []⟩) := fit_close hk
  simp only [WsPacked.step, WsPair.step]
  by_cases hun : (v.sys.party who).phase = .loop ∧ (v.sys.party who).flag = false ∧ readable v.sys who p = true
  · obtain ⟨hp, hf, hr⟩ := hun
    have hb : (v.sys.party who).inbox ≠ [] := by
      simp only [readable, Bool.and_eq_true, bne_iff_ne] at hr
      exact hr.2
    obtain ⟨f, g, l', r, r', rfl, ht, e1, e2, e3, e4⟩ := s1.read hb
    have hchain := s1.chain hp
    have hp' : (y.party who).phase = .loop := s1.phase.symm.trans hp
    have hf2 : ¬ (v.sys.party who).flag = true := by rw [hf]; decide
    have hfy : ¬ (y.party who).flag = true := by rw [← s1.flag]; exact hf2
    have hry : readable y who p = true := by rw [← hrd]; exact hr
    have hside : ∀ d' : D, Chain Z Sync (v.out (!who)) d' l' → Side Z Sync who (v.out (!who)) d'
        { v.sys.party who with inbox := wires (l'.map Prod.fst), prev := none, phase := .loop }
        { y.party who with inbox := wires (l'.map Prod.snd), prev := none, phase := .loop } l' :=
      fun d' hd => ⟨rfl, rfl, fun q hq => s1.twins q (List.mem_cons_of_mem _ hq), rfl, rfl, s1.flag, rfl, s1.sync, fun _ => hd⟩
    have hunp : unpacks v.sys who p = if (toIn f).fin = true ∧ ((toIn f).opcode = 1 ∨ (toIn f).opcode = 2) ∧ (toIn f).rsv &&& 0x40 ≠ 0 then some (toIn f) else none := by
      unfold unpacks
      rw [if_pos ⟨hp, hf, hr⟩, e1]
    unfold WsPair.turn
    rw [hp, hp']
    simp only
    rw [if_neg hf2, if_neg hfy, if_pos hr, if_pos hry, e1, e3]
    simp only [e2, e4, s1.prev, s1.prev']
    by_cases h12 : g.opcode = 1 ∨ g.opcode = 2
    · have hrsv : f.rsv = 0x40 := ht.data h12
      have h12f : f.opcode = 1 ∨ f.opcode = 2 := by rw [ht.op]; exact h12
      have hu1 : unpacks v.sys who p = some (toIn f) := by
        have h0 : (toIn f).rsv &&& 0x40 ≠ 0 := by
          show f.rsv &&& 0x40 ≠ 0
          rw [hrsv]; decide
        rw [hunp, if_pos ⟨ht.fin, h12f, h0⟩]
      simp only [Chain, if_pos h12] at hchain
      obtain ⟨d', hm, hch⟩ := hchain
      have hgd : (g.opcode = 1 → Utf8.utf8Ok g.payload = true) := by
        rcases ht.fit.kind with ⟨hh, -⟩ | ⟨hh, -⟩ | hh | ⟨-, x, hx, hxu, -⟩
        · rw [hh] at h12; exact absurd h12 (by decide)
        · rw [hh] at h12; exact absurd h12 (by decide)
        · rw [hh] at h12; exact absurd h12 (by decide)
        · have : g.payload = x := Option.some.inj hx
          rw [this]; exact hxu
      have hin : applyIn [now Z mask v who] (toIn f) = some g.payload := by
        show applyInList f.opcode f.rsv [now Z mask v who] f.payload = _
        simp only [applyInList]
        rw [if_pos ⟨rfl, by rw [hrsv]; show (0x40 : UInt8) &&& 0x40 ≠ 0; decide⟩]
        simp only [now, hm]
      have hfit2 : Fit [now Z mask v who] who f :=
        ⟨ht.received, ht.small, ht.fin, .inr (.inr (.inr ⟨h12f, g.payload, hin, by rw [ht.op]; exact hgd, .inr (by
          rw [hrsv]; show ((0 : UInt8) ||| 0x40) &&& 0x40 ≠ 0; decide)⟩))⟩
      have no : ∀ n : UInt8, n ≠ 1 → n ≠ 2 → g.opcode ≠ n := fun n h1 h2 h0 => h12.elim (fun h => h1 (h0.symm.trans h)) (fun h => h2 (h0.symm.trans h))
      have he : handle (cfg [] who) none (toIn g) = ([.deliver g.opcode g.rsv g.payload], none, true) := by
        rcases ht.fit.handled with ⟨h, -⟩ | ⟨h, -⟩ | ⟨h, -⟩ | ⟨-, x, hx, h⟩
        · exact absurd h (no 8 (by decide) (by decide))
        · exact absurd h (no 9 (by decide) (by decide))
        · exact absurd h (no 10 (by decide) (by decide))
        · unfold carries at hx
          rw [if_pos h12] at hx
          have : (g.opcode, g.payload) = (g.opcode, x) := List.head_eq_of_cons_eq hx
          rw [h, (Prod.mk.inj this).2]
      have he2 : handle (cfg [now Z mask v who] who) none (toIn f) = ([.deliver g.opcode 0x40 g.payload], none, true) := by
        rcases hfit2.handled with ⟨h, -⟩ | ⟨h, -⟩ | ⟨h, -⟩ | ⟨-, x, hx, h⟩
        · exact absurd (ht.op.symm.trans h) (no 8 (by decide) (by decide))
        · exact absurd (ht.op.symm.trans h) (no 9 (by decide) (by decide))
        · exact absurd (ht.op.symm.trans h) (no 10 (by decide) (by decide))
        · unfold carries at hx
          rw [if_pos h12f, hin] at hx
          have : (f.opcode, g.payload) = (f.opcode, x) := List.head_eq_of_cons_eq hx
          rw [h, (Prod.mk.inj this).2, hrsv, ht.op]
      rw [hu1]
      simp only [show (toIn f).data = f.payload from rfl, hm, he, he2, perform, Res.ok_bind, Res.pure_eq]
      refine ⟨_, _, rfl, rfl, ?_⟩
      refine Rel.note (v := { v with sys := upd v.sys who _, inn := fun w => if w = who then d' else v.inn w }) ?_ _
      refine h.upd who _ _ _ (by simp only [if_neg (not_ne who)]) l' ?_
      simp only [if_pos]
      exact hside d' hch
    · have hfg := ht.control h12
      subst hfg
      have hu0 : unpacks v.sys who p = none := by
        rw [hunp, if_neg (fun hh => h12 hh.2.1)]
      rw [hu0]
      simp only
      have hch : Chain Z Sync (v.out (!who)) (v.inn who) l' := by
        simp only [Chain, if_neg h12] at hchain
        exact hchain
      have hfit2 : Fit [now Z mask v who] who f := by
        refine ⟨ht.received, ht.small, ht.fin, ?_⟩
        rcases ht.fit.kind with hh | hh | hh | hh
        · exact .inl hh
        · exact .inr (.inl hh)
        · exact .inr (.inr (.inl hh))
        · exact absurd hh.1 h12
      rcases ht.fit.handled with ⟨e, he⟩ | ⟨e, hl, he⟩ | ⟨e, he⟩ | ⟨e, -⟩
      · have he2 : handle (cfg [now Z mask v who] who) none (toIn f) = ([.close], none, false) := by
          rcases hfit2.handled with ⟨-, h⟩ | ⟨h, -⟩ | ⟨h, -⟩ | ⟨h, -⟩
          · exact h
          · rw [e] at h; exact absurd h (by decide)
          · rw [e] at h; exact absurd h (by decide)
          · exact absurd h h12
        rw [he, he2]
        simp only [perform, control_ok _ who 8 k [] hk (.inl rfl) (show ([] : Bytes).length ≤ 125 by decide), Res.ok_bind, Res.pure_eq]
        refine ⟨_, _, rfl, rfl, ?_⟩
        exact Rel.note (Rel.control (h.upd who _ _ v.inn rfl l' ((hside (v.inn who) hch).leaves .left (fun h => by cases h))) who _ hclose
          (by show ¬ ((8 : UInt8) = 1 ∨ (8 : UInt8) = 2); decide)) _
      · have he2 : handle (cfg [now Z mask v who] who) none (toIn f) = ([.pong f.payload], none, true) := by
          rcases hfit2.handled with ⟨h, -⟩ | ⟨-, -, h⟩ | ⟨h, -⟩ | ⟨h, -⟩
          · rw [e] at h; exact absurd h (by decide)
          · exact h
          · rw [e] at h; exact absurd h (by decide)
          · exact absurd h h12
        rw [he, he2]
        simp only [perform, control_ok _ who 10 k f.payload hk (.inr rfl) hl, Res.ok_bind, Res.pure_eq]
        refine ⟨_, _, rfl, rfl, ?_⟩
        exact Rel.control (h.upd who _ _ v.inn rfl l' (hside (v.inn who) hch)) who _ (fit_pong hk hl)
          (by show ¬ ((10 : UInt8) = 1 ∨ (10 : UInt8) = 2); decide)
      · have he2 : handle (cfg [now Z mask v who] who) none (toIn f) = ([], none, true) := by
          rcases hfit2.handled with ⟨h, -⟩ | ⟨h, -⟩ | ⟨-, h⟩ | ⟨h, -⟩
          · rw [e] at h; exact absurd h (by decide)
          · rw [e] at h; exact absurd h (by decide)
          · exact h
          · exact absurd h h12
        rw [he, he2]
        simp only [perform, Res.ok_bind, Res.pure_eq]
        refine ⟨_, _, rfl, rfl, ?_⟩
        exact h.upd who _ _ v.inn rfl l' (hside (v.inn who) hch)
      · exact absurd e h12
  · have hu0 : unpacks v.sys who p = none := by unfold unpacks; rw [if_neg hun]
    rw [hu0]
    simp only
    unfold WsPair.turn
    cases hp : (v.sys.party who).phase with
    | over =>
      rw [show (y.party who).phase = .over from s1.phase.symm.trans hp]
      exact ⟨_, _, rfl, rfl, h⟩
    | left =>
      rw [show (y.party who).phase = .left from s1.phase.symm.trans hp]
      exact ⟨_, _, rfl, rfl, (phase_sim h who .over (fun h => by cases h)).note (.ended who)⟩
    | waiting c =>
      rw [show (y.party who).phase = .waiting c from s1.phase.symm.trans hp]
      simp only [← hrd, ← hhu]
      by_cases hr : readable v.sys who p = true
      · have hb : (v.sys.party who).inbox ≠ [] := by
          simp only [readable, Bool.and_eq_true, bne_iff_ne] at hr
          exact hr.2
        obtain ⟨f, g, l', r, r', rfl, ht, e1, e2, e3, e4⟩ := s1.read hb
        rw [if_pos hr, if_pos hr, e1, e3]
        simp only [Res.ok_bind, Res.pure_eq, e2, e4]
        have ho : (toIn f).opcode = (toIn g).opcode := ht.op
        rw [ho]
        refine ⟨_, _, rfl, rfl, h.upd who _ _ v.inn rfl l' ⟨rfl, rfl, fun q hq => s1.twins q (List.mem_cons_of_mem _ hq), s1.prev, s1.prev', s1.flag,
          rfl, s1.sync, fun h0 => absurd h0 ?_⟩⟩
        simp only
        split
        · exact fun h => by cases h
        · cases c <;> exact fun h => by cases h
      · rw [if_neg hr, if_neg hr]
        by_cases hh : hung v.sys who p = true
        · rw [if_pos hh, if_pos hh]
          exact ⟨_, _, rfl, rfl, phase_sim h who .left (fun h => by cases h)⟩
        · rw [if_neg hh, if_neg hh]
          refine ⟨_, _, rfl, rfl, phase_sim h who _ ?_⟩
          cases c <;> exact fun h => by cases h
    | loop =>
      rw [show (y.party who).phase = .loop from s1.phase.symm.trans hp]
      simp only
      by_cases hf : (v.sys.party who).flag = true
      · rw [if_pos hf, if_pos (s1.flag.symm.trans hf)]
        rw [control_ok _ who 8 k [] hk (.inl rfl) (by decide), control_ok _ who 8 k [] hk (.inl rfl) (by decide)]
        refine ⟨_, _, rfl, rfl, ?_⟩
        exact (phase_sim (h.control who _ hclose (by show ¬ ((8 : UInt8) = 1 ∨ (8 : UInt8) = 2); decide)) who (.waiting 10) (fun h => by cases h)).note _
      · have hf' : (v.sys.party who).flag = false := by simpa using hf
        have hr : ¬ readable v.sys who p = true := fun hr => hun ⟨hp, hf', hr⟩
        have hfy : ¬ (y.party who).flag = true := by rw [← s1.flag]; exact hf
        have hry : ¬ readable y who p = true := by rw [← hrd]; exact hr
        rw [if_neg hf, if_neg hfy, if_neg hr, if_neg hry]
        by_cases hh : hung v.sys who p = true
        · rw [if_pos hh, if_pos (by rw [← hhu]; exact hh)]
          exact ⟨_, _, rfl, rfl, phase_sim h who .left (fun h => by cases h)⟩
        · rw [if_neg hh, if_neg (by rw [← hhu]; exact hh)]
          exact ⟨_, _, rfl, rfl, h⟩

theorem step_sim (mask : Bool → Flush) {bound : Nat} (hb : bound ≤ 2 ^ 32) (hz : Lossless Z Sync bound) {v : Packed C D} {y : Sys}
    (h : Rel Z Sync v y) (a : Act) (hc : Packable bound a) :
    ∃ v' y', WsPacked.step Z mask v a = .ok v' ∧ WsPair.step [] y a = .ok y' ∧ Rel Z Sync v' y' := by
  cases a with
  | say who op x k => exact say_sim mask hb hz h who op x k hc
  | turn who p k => exact turn_sim mask h who p k hc.1
  | signal who =>
    obtain ⟨⟨l1, s1⟩, -⟩ := h.split who
    exact ⟨_, _, rfl, rfl, h.upd who _ _ v.inn rfl l1 ⟨s1.inbox, s1.inbox', s1.twins, s1.prev, s1.prev', rfl, s1.phase, s1.sync, s1.chain⟩⟩

theorem exec_sim (mask : Bool → Flush) {bound : Nat} (hb : bound ≤ 2 ^ 32) (hz : Lossless Z Sync bound) (acts : List Act) {v : Packed C D} {y : Sys}
    (h : Rel Z Sync v y) (hc : ∀ a ∈ acts, Packable bound a) :
    ∃ v' y', WsPacked.exec Z mask v acts = .ok v' ∧ WsPair.exec [] y acts = .ok y' ∧ Rel Z Sync v' y' := by
  induction acts generalizing v y with
  | nil => exact ⟨v, y, rfl, rfl, h⟩
  | cons a t ih =>
    obtain ⟨v1, y1, e1, e2, h1⟩ := step_sim mask hb hz h a (hc a List.mem_cons_self)
    obtain ⟨v2, y2, e3, e4, h2⟩ := ih h1 (fun x hx => hc x (List.mem_cons_of_mem _ hx))
    exact ⟨v2, y2, by simp only [WsPacked.exec, e1, Res.ok_bind, e3], by simp only [WsPair.exec, e2, Res.ok_bind, e4], h2⟩

theorem start_rel {out : Bool → C} {inn : Bool → D} (hs : ∀ who, Sync (out who) (inn (!who))) : Rel Z Sync { out := out, inn := inn } {} := by
  refine ⟨rfl, fun t => ⟨[], rfl, rfl, fun p hp => (by cases hp), rfl, rfl, rfl, rfl, ?_, fun _ => ?_⟩⟩
  · exact ⟨_, hs (!t)⟩
  · have := hs (!t)
    rw [Bool.not_not] at this
    exact this

end Pack

/-! ## The property -/

/-- **C164**, compression cannot be seen: whatever programs and loops do, in whatever order, and whatever the network delays, a conversation compressed
with permessage-deflate, with or without context takeover, is undefined nowhere, and what the programs see is, event for event, what they would see
without compression: the same calls succeed, the same messages arrive, the same close frames are sent and the same ends are announced. -/
theorem C164_transparent (Z : Zlib C D) (Sync : C → D → Prop) (bound : Nat) (hb : bound ≤ 2 ^ 32) (hz : Lossless Z Sync bound)
    (mask : Bool → Flush) (out : Bool → C) (inn : Bool → D) (hs : ∀ who, Sync (out who) (inn (!who))) (acts : List Act)
    (hc : ∀ a ∈ acts, Packable bound a) :
    ∃ v y, WsPacked.exec Z mask { out := out, inn := inn } acts = .ok v ∧ WsPair.exec [] {} acts = .ok y ∧ v.sys.log = y.log ∧
      ∀ who, connected (v.sys.party who) = connected (y.party who) := by
  obtain ⟨v, y, e1, e2, h⟩ := Pack.exec_sim mask hb hz acts (Pack.start_rel hs) hc
  exact ⟨v, y, e1, e2, h.1, h.connected⟩

private theorem agreed_nil : Agreed [] := ⟨by simp [Disjoint], fun e he => (by cases he), fun e he => (by cases he)⟩

/-- **C164**, the messages: each end gets messages the other one sent before its close frame, unchanged, in order, each once, none left out in between;
no end is announced twice; and an end that was not told to close by its own program sends a close frame only after it got every message its peer
sent before it closed. -/
theorem C164_messages (Z : Zlib C D) (Sync : C → D → Prop) (bound : Nat) (hb : bound ≤ 2 ^ 32) (hz : Lossless Z Sync bound)
    (mask : Bool → Flush) (out : Bool → C) (inn : Bool → D) (hs : ∀ who, Sync (out who) (inn (!who))) (acts : List Act)
    (hc : ∀ a ∈ acts, Packable bound a) :
    ∃ v, WsPacked.exec Z mask { out := out, inn := inn } acts = .ok v ∧ ∀ who, heard (!who) v.sys.log <+: spoken who v.sys.log ∧
      v.sys.log.count (.ended who) ≤ 1 ∧
      (.signal (!who) ∉ acts → .closing (!who) ∈ v.sys.log → .closing who ∈ v.sys.log ∧ heard (!who) v.sys.log = spoken who v.sys.log) := by
  obtain ⟨v, y, e1, e2, hl, -⟩ := C164_transparent Z Sync bound hb hz mask out inn hs acts hc
  have hc' : ∀ a ∈ acts, Civil [] a := fun a ha => (hc a ha).1
  obtain ⟨y', e3, h3⟩ := C162_messages [] agreed_nil acts hc'
  rw [e2] at e3; cases e3
  refine ⟨v, e1, fun who => ?_⟩
  rw [hl]
  exact ⟨(h3 who).1, (h3 who).2, fun h1 h2 => C162_answered [] agreed_nil acts hc' y e2 who h1 h2⟩

/-- **C164**, nothing is held back by the compression: at any moment, an end that is connected and was not told to close by its own program gets all
messages its peer sent so far, if its loop is given enough rounds in which it sees what there is. -/
theorem C164_delivered (Z : Zlib C D) (Sync : C → D → Prop) (bound : Nat) (hb : bound ≤ 2 ^ 32) (hz : Lossless Z Sync bound)
    (mask : Bool → Flush) (out : Bool → C) (inn : Bool → D) (hs : ∀ who, Sync (out who) (inn (!who))) (acts : List Act)
    (hc : ∀ a ∈ acts, Packable bound a) (v : Packed C D) (h : WsPacked.exec Z mask { out := out, inn := inn } acts = .ok v) (who : Bool)
    (hq : .signal (!who) ∉ acts) (hcon : connected (v.sys.party (!who)) = true) (k : Bytes) (hk : k.length = 4) :
    ∃ n v', WsPacked.exec Z mask v (List.replicate n (.turn (!who) .ready k)) = .ok v' ∧ heard (!who) v'.sys.log = spoken who v.sys.log := by
  obtain ⟨v0, y, e1, e2, hr⟩ := Pack.exec_sim mask hb hz acts (Pack.start_rel hs) hc
  rw [h] at e1; cases e1
  obtain ⟨n, y', e3, h3⟩ := C162_delivered [] agreed_nil acts (fun a ha => (hc a ha).1) y e2 who hq (by rw [← hr.connected]; exact hcon) k hk
  obtain ⟨v', y2, e4, e5, hr2⟩ := Pack.exec_sim mask hb hz (List.replicate n (.turn (!who) .ready k)) hr (fun a ha => by
    rw [List.eq_of_mem_replicate ha]
    exact ⟨hk, fun _ _ _ _ hh => by cases hh⟩)
  rw [e3] at e5; cases e5
  exact ⟨n, v', e4, by rw [hr2.1, hr.1]; exact h3⟩

/-- **C164**, the end: once its program asked for the close, the onclose callback of an end is called after at most 13 rounds of its loop; once one
end is over the other one follows, after some number of rounds in which it sees what there is. While no program asked for the close, both stay
connected. -/
theorem C164_ends (Z : Zlib C D) (Sync : C → D → Prop) (bound : Nat) (hb : bound ≤ 2 ^ 32) (hz : Lossless Z Sync bound)
    (mask : Bool → Flush) (out : Bool → C) (inn : Bool → D) (hs : ∀ who, Sync (out who) (inn (!who))) (acts : List Act)
    (hc : ∀ a ∈ acts, Packable bound a) (v : Packed C D) (h : WsPacked.exec Z mask { out := out, inn := inn } acts = .ok v) (who : Bool) :
    ((∀ w, .signal w ∉ acts) → connected (v.sys.party who) = true ∧ .ended who ∉ v.sys.log) ∧
    ∃ n, ∀ more v', (∀ a ∈ more, Packable bound a) → WsPacked.exec Z mask v more = .ok v' →
      (.signal who ∈ acts → 13 ≤ more.countP (isTurn who) → .ended who ∈ v'.sys.log) ∧
      (.ended who ∈ v.sys.log → n ≤ more.countP (sees (!who)) → .ended (!who) ∈ v'.sys.log) := by
  obtain ⟨v0, y, e1, e2, hr⟩ := Pack.exec_sim mask hb hz acts (Pack.start_rel hs) hc
  rw [h] at e1; cases e1
  have hc' : ∀ a ∈ acts, Civil [] a := fun a ha => (hc a ha).1
  refine ⟨fun hq => ?_, (y.party (!who)).inbox.length + 13, fun more v' hm e => ?_⟩
  · obtain ⟨h1, -, h3⟩ := C162_reason [] agreed_nil acts hc' hq y e2 who
    rw [hr.connected, hr.1]
    exact ⟨h1, h3⟩
  · obtain ⟨v2, y', e3, e4, hr2⟩ := Pack.exec_sim mask hb hz more hr hm
    rw [e] at e3; cases e3
    have hcm : ∀ a ∈ acts ++ more, Civil [] a := fun a ha => by
      rcases List.mem_append.1 ha with ha | ha
      · exact hc' a ha
      · exact (hm a ha).1
    rw [hr2.1, hr.1]
    refine ⟨fun h1 h2 => ?_, fun h1 h2 => ?_⟩
    · refine C162_deadline [] agreed_nil acts more hcm y' ?_ who h1 h2
      rw [Pair.exec_append, e2]
      exact e4
    · exact C162_follows [] agreed_nil acts more hcm y y' e2 e4 who h1 h2

/-! ## The hypotheses can be met -/

private theorem conversation_packable : ∀ a ∈ conversation, Packable (2 ^ 29) a := by
  refine fun a ha => ⟨Pair.conversation_civil a ha, fun who op x k e => ?_⟩
  subst e
  simp only [conversation, List.mem_cons, List.mem_nil_iff, or_false, reduceCtorEq, Act.say.injEq, false_or] at ha
  rcases ha with h | h | h | h <;> (rw [h.2.2.1]; decide)

example : ∃ v, WsPacked.exec storedZlib (fun _ => .sync) { out := fun _ => false, inn := fun _ => storedStart } conversation = .ok v ∧ v.sys.log =
    [.said false 1 b!"hi", .said false 9 b!"?", .got true 1 b!"hi", .said true 2 [0, 255], .said false 1 b!"bye", .got false 2 [0, 255],
      .closing false, .got true 1 b!"bye", .closing true, .ended true, .ended false] := by
  obtain ⟨v, y, h1, h2, h3, -⟩ := C164_transparent storedZlib _ (2 ^ 29) (by omega) storedZlib_lossless (fun _ => .sync) (fun _ => false)
    (fun _ => storedStart) (fun _ => ⟨rfl, rfl, rfl⟩) conversation conversation_packable
  have h4 := Pair.conversation_log
  rw [h2] at h4
  exact ⟨v, h1, h3.trans (Option.some.inj h4)⟩

/-- On the wire there is something else: the server says `A`. -/
example : (do let v ← WsPacked.step storedZlib (fun _ => .sync) { out := fun _ => false, inn := fun _ => storedStart } (.say true 1 b!"A" [0, 0, 0, 0])
              pure (v.sys.party false).inbox) = Res.ok ([0xc1, 7, 0, 1, 0, 0xfe, 0xff, 0x41, 0] : Bytes) := by
  have h1 : messageOut storedZlib false .sync b!"A" = .ok (some (true, b!"A".flatMap Spec.Stored.block ++ [0x00])) :=
    messageOut_eq storedZlib false true .sync b!"A" _ (by decide) (by decide) (by rfl)
  simp only [WsPacked.step, connected, true_or, and_self, if_true, WsPair.step, sendFragmented, applyOut, now, h1, Res.ok_bind]
  decide +kernel

end Verif.Props
