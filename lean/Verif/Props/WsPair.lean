import Verif.Model.WsPair
import Verif.Props.FrameMore
/-!
# Two endpoints of the library on one websocket, property C162
-/
namespace Verif.Props
open Verif.Ws Verif.WsPair
open Verif.Spec.Ws hiding Act

/-! ## Specification -/

/-- The messages the callback of `who` got. -/
def heard (who : Bool) (log : List Event) : List (UInt8 × Bytes) :=
  log.filterMap fun
    | .got w op d => if w = who then some (op, d) else none
    | _ => none

/-- The text and binary messages `who` sent before its close frame. -/
def spoken (who : Bool) (log : List Event) : List (UInt8 × Bytes) :=
  (log.takeWhile (fun e => e != .closing who)).filterMap fun
    | .said w op d => if w = who ∧ (op = 1 ∨ op = 2) then some (op, d) else none
    | _ => none

/-- Extensions both ends agreed upon: with RSV bits of their own, each undoing what it did, with one user data. -/
structure Agreed (exts : List Ext) : Prop where
  disjoint : Disjoint exts
  inverse : ∀ e ∈ exts, Inverse e ∧ (e.outPerform ≠ none → e.inData = e.outData)
  bits : ∀ e ∈ exts, e.rsv &&& 0x8f = 0

/-- What programs may do: send text that is UTF-8, binary messages and short pings, below 4 GiB on the wire. Masks have four bytes. -/
def Civil (exts : List Ext) : Act → Prop
  | .say _ op d k => k.length = 4 ∧ (op = 1 ∨ op = 2 ∨ op = 9) ∧ (op = 1 → Spec.Utf8.IsUtf8 d) ∧ (op = 9 → d.length ≤ 125) ∧
    ∀ r d', applyOut op exts 0 d = some (r, d') → d'.length < 2 ^ 32
  | .signal _ => True
  | .turn _ _ k => k.length = 4

/-- A round of the loop of `who`. -/
def isTurn (who : Bool) : Act → Bool
  | .turn w _ _ => w == who
  | _ => false

/-- A round of the loop of `who` in which `poll` tells what there is. -/
def sees (who : Bool) : Act → Bool
  | .turn w p _ => w == who && p != .nothing
  | _ => false

/-! ## Proof -/

namespace Pair

theorem heard_snoc (w : Bool) (l : List Event) (e : Event) :
    heard w (l ++ [e]) = heard w l ++ (match e with
      | .got x op d => if x = w then [(op, d)] else []
      | _ => []) := by
  unfold heard
  rw [List.filterMap_append]
  congr 1
  cases e <;> simp [List.filterMap]
  rename_i x op d
  by_cases h : x = w <;> simp [h]

theorem takeWhile_all {α : Type} (p : α → Bool) (l m : List α) (h : ∀ x ∈ l, p x = true) : (l ++ m).takeWhile p = l ++ m.takeWhile p := by
  induction l with
  | nil => rfl
  | cons a l ih => simp [h a List.mem_cons_self, ih (fun x hx => h x (List.mem_cons_of_mem _ hx))]

theorem takeWhile_some {α : Type} (p : α → Bool) (l m : List α) (h : ∃ x ∈ l, p x = false) : (l ++ m).takeWhile p = l.takeWhile p := by
  induction l with
  | nil => obtain ⟨x, hx, _⟩ := h; cases hx
  | cons a l ih =>
    by_cases ha : p a = true
    · obtain ⟨x, hx, hp⟩ := h
      rcases List.mem_cons.1 hx with rfl | hx
      · rw [ha] at hp; cases hp
      · simp [ha, ih ⟨x, hx, hp⟩]
    · simp [ha]

theorem spoken_closed (w : Bool) (l m : List Event) (h : .closing w ∈ l) : spoken w (l ++ m) = spoken w l := by
  unfold spoken
  rw [takeWhile_some _ l m ⟨_, h, by simp⟩]

theorem spoken_snoc (w : Bool) (l : List Event) (e : Event) (h : .closing w ∉ l) :
    spoken w (l ++ [e]) = spoken w l ++ (match e with
      | .said x op d => if x = w ∧ (op = 1 ∨ op = 2) then [(op, d)] else []
      | _ => []) := by
  unfold spoken
  have hall : ∀ x ∈ l, (x != Event.closing w) = true := by
    intro x hx
    simp only [bne_iff_ne, ne_eq]
    rintro rfl
    exact h hx
  rw [takeWhile_all _ l [e] hall]
  have := takeWhile_all _ l [] hall
  simp only [List.append_nil, List.takeWhile_nil] at this
  rw [this, List.filterMap_append]
  congr 1
  by_cases he : e = .closing w
  · rw [he]
    simp [List.takeWhile]
  · have : List.takeWhile (fun e => e != Event.closing w) [e] = [e] := by
      simp only [List.takeWhile, bne_iff_ne.2 he]
    rw [this]
    cases e with
    | said x op d =>
      by_cases hh : x = w ∧ (op = 1 ∨ op = 2)
      · simp [hh]
      · simp only [List.filterMap_cons, List.filterMap_nil, if_neg hh]
    | _ => rfl

/-- A frame one end sends to the other. -/
structure Fit (exts : List Ext) (t : Bool) (f : Frame) : Prop where
  received : Received t f
  small : f.payload.length < 2 ^ 32
  fin : f.fin = true
  kind : (f.opcode = 8 ∧ f.payload = []) ∨ (f.opcode = 9 ∧ f.payload.length ≤ 125) ∨ f.opcode = 10 ∨
    ((f.opcode = 1 ∨ f.opcode = 2) ∧ ∃ d, applyIn exts (toIn f) = some d ∧ (f.opcode = 1 → Utf8.utf8Ok d = true) ∧
      (f.rsv = 0 ∨ (cfg exts t).rsvExpected &&& f.rsv ≠ 0))

def carries (exts : List Ext) (f : Frame) : List (UInt8 × Bytes) :=
  if f.opcode = 1 ∨ f.opcode = 2 then
    match applyIn exts (toIn f) with
    | some d => [(f.opcode, d)]
    | none => []
  else []

def coming (exts : List Ext) : List Frame → List (UInt8 × Bytes)
  | [] => []
  | f :: t => if f.opcode = 8 then [] else carries exts f ++ coming exts t

theorem coming_closed (exts : List Ext) (l m : List Frame) (h : ∃ f ∈ l, f.opcode = 8) : coming exts (l ++ m) = coming exts l := by
  induction l with
  | nil => obtain ⟨x, hx, _⟩ := h; cases hx
  | cons a l ih =>
    simp only [List.cons_append, coming]
    by_cases ha : a.opcode = 8
    · rw [if_pos ha, if_pos ha]
    · rw [if_neg ha, if_neg ha]
      obtain ⟨x, hx, hp⟩ := h
      rcases List.mem_cons.1 hx with rfl | hx
      · exact absurd hp ha
      · rw [ih ⟨x, hx, hp⟩]

theorem coming_snoc (exts : List Ext) (l : List Frame) (f : Frame) (h : ¬ ∃ f ∈ l, f.opcode = 8) :
    coming exts (l ++ [f]) = coming exts l ++ (if f.opcode = 8 then [] else carries exts f) := by
  induction l with
  | nil => simp [coming]
  | cons a l ih =>
    simp only [List.cons_append, coming]
    by_cases ha : a.opcode = 8
    · exact absurd ⟨a, List.mem_cons_self, ha⟩ h
    · rw [if_neg ha, if_neg ha, ih (fun ⟨x, hx, hp⟩ => h ⟨x, List.mem_cons_of_mem _ hx, hp⟩), List.append_assoc]

/-- The way from `s` to `t`, whose state is `b`. -/
structure Way (exts : List Ext) (s t : Bool) (b : Party) (log : List Event) (fs : List Frame) : Prop where
  inbox : b.inbox = wires fs
  fit : ∀ f ∈ fs, Fit exts t f
  prev : b.phase = .loop → b.prev = none
  open_ : b.phase = .loop → heard t log ++ coming exts fs = spoken s log
  close : b.phase = .loop → (.closing s ∈ log ↔ ∃ f ∈ fs, f.opcode = 8)
  always : heard t log <+: spoken s log
  answered : b.flag = false → .closing t ∈ log → heard t log = spoken s log ∧ .closing s ∈ log

structure Own (s : Bool) (a : Party) (log : List Event) : Prop where
  loop : a.phase = .loop → .closing s ∉ log
  waiting : ∀ c, a.phase = .waiting c → .closing s ∈ log ∧ a.flag = true
  over : log.count (.ended s) = if a.phase = .over then 1 else 0

/-- An event that does not concern this way. -/
theorem Way.other {exts : List Ext} {s t : Bool} {b : Party} {log : List Event} {fs : List Frame} (h : Way exts s t b log fs) (e : Event)
    (h1 : ∀ op d, e ≠ .got t op d) (h2 : ∀ op d, e ≠ .said s op d) (h3 : ∀ x, e ≠ .closing x) : Way exts s t b (log ++ [e]) fs := by
  have e1 : heard t (log ++ [e]) = heard t log := by
    rw [heard_snoc]
    cases e with
    | got x op d =>
      have : x ≠ t := fun hx => h1 op d (by rw [hx])
      simp [this]
    | _ => simp
  have e2 : spoken s (log ++ [e]) = spoken s log := by
    by_cases hc : .closing s ∈ log
    · exact spoken_closed _ _ _ hc
    · rw [spoken_snoc _ _ _ hc]
      cases e with
      | said x op d =>
        have : x ≠ s := fun hx => h2 op d (by rw [hx])
        simp [this]
      | _ => simp
  have e3 : ∀ x, (.closing x ∈ log ++ [e]) ↔ .closing x ∈ log := by
    intro x
    simp only [List.mem_append, List.mem_singleton]
    exact ⟨fun h => h.resolve_right (fun h => h3 x h.symm), .inl⟩
  exact ⟨h.inbox, h.fit, h.prev, by rw [e1, e2]; exact h.open_, by rw [e3]; exact h.close, by rw [e1, e2]; exact h.always,
    by rw [e1, e2, e3, e3]; exact h.answered⟩

/-- A message is sent before the close frame. -/
theorem Way.say {exts : List Ext} {s t : Bool} (hst : s ≠ t) {b : Party} {log : List Event} {fs : List Frame} (h : Way exts s t b log fs)
    (f : Frame) (hf : Fit exts t f) (op : UInt8) (d : Bytes) (h8 : f.opcode ≠ 8) (hc : carries exts f = if op = 1 ∨ op = 2 then [(op, d)] else []) :
    Way exts s t { b with inbox := b.inbox ++ wire f } (log ++ [.said s op d]) (fs ++ [f]) := by
  have e1 : heard t (log ++ [.said s op d]) = heard t log := by rw [heard_snoc]; simp
  have e3 : ∀ x, (.closing x ∈ log ++ [.said s op d]) ↔ .closing x ∈ log := by
    intro x
    simp
  have hfit : ∀ g ∈ fs ++ [f], Fit exts t g := by
    intro g hg
    rcases List.mem_append.1 hg with hg | hg
    · exact h.fit g hg
    · rw [List.mem_singleton.1 hg]; exact hf
  have hin : b.inbox ++ wire f = wires (fs ++ [f]) := by rw [wires_append, h.inbox]; simp [wires]
  have hex : (∃ g ∈ fs ++ [f], g.opcode = 8) ↔ ∃ g ∈ fs, g.opcode = 8 := by
    constructor
    · rintro ⟨g, hg, h0⟩
      rcases List.mem_append.1 hg with hg | hg
      · exact ⟨g, hg, h0⟩
      · rw [List.mem_singleton.1 hg] at h0; exact absurd h0 h8
    · rintro ⟨g, hg, h0⟩
      exact ⟨g, List.mem_append_left _ hg, h0⟩
  by_cases hcl : .closing s ∈ log
  · have e2 : spoken s (log ++ [.said s op d]) = spoken s log := spoken_closed _ _ _ hcl
    refine ⟨hin, hfit, h.prev, ?_, ?_, by rw [e1, e2]; exact h.always, by rw [e1, e2, e3, e3]; exact h.answered⟩
    · intro hp
      rw [e1, e2, coming_closed _ _ _ ((h.close hp).1 hcl)]
      exact h.open_ hp
    · intro hp
      rw [e3, hex]
      exact h.close hp
  · have e2 : spoken s (log ++ [.said s op d]) = spoken s log ++ (if op = 1 ∨ op = 2 then [(op, d)] else []) := by
      rw [spoken_snoc _ _ _ hcl]; simp
    refine ⟨hin, hfit, h.prev, ?_, ?_, ?_, ?_⟩
    · intro hp
      rw [e1, e2, coming_snoc _ _ _ (fun hx => hcl ((h.close hp).2 hx)), if_neg h8, hc, ← List.append_assoc]
      rw [show heard t log ++ coming exts fs = spoken s log from h.open_ hp]
    · intro hp
      rw [e3, hex]
      exact h.close hp
    · rw [e1, e2]
      exact h.always.trans (List.prefix_append _ _)
    · rw [e3, e3]
      intro h0 h1
      exact absurd (h.answered h0 h1).2 hcl

/-- A pong is sent. -/
theorem Way.pong {exts : List Ext} {s t : Bool} {b : Party} {log : List Event} {fs : List Frame} (h : Way exts s t b log fs)
    (f : Frame) (hf : Fit exts t f) (h10 : f.opcode = 10) : Way exts s t { b with inbox := b.inbox ++ wire f } log (fs ++ [f]) := by
  have h8 : f.opcode ≠ 8 := by rw [h10]; decide
  have hc : carries exts f = [] := by unfold carries; rw [h10]; rfl
  have hfit : ∀ g ∈ fs ++ [f], Fit exts t g := by
    intro g hg
    rcases List.mem_append.1 hg with hg | hg
    · exact h.fit g hg
    · rw [List.mem_singleton.1 hg]; exact hf
  have hin : b.inbox ++ wire f = wires (fs ++ [f]) := by rw [wires_append, h.inbox]; simp [wires]
  have hex : (∃ g ∈ fs ++ [f], g.opcode = 8) ↔ ∃ g ∈ fs, g.opcode = 8 := by
    constructor
    · rintro ⟨g, hg, h0⟩
      rcases List.mem_append.1 hg with hg | hg
      · exact ⟨g, hg, h0⟩
      · rw [List.mem_singleton.1 hg] at h0; exact absurd h0 h8
    · rintro ⟨g, hg, h0⟩
      exact ⟨g, List.mem_append_left _ hg, h0⟩
  refine ⟨hin, hfit, h.prev, ?_, fun hp => by rw [hex]; exact h.close hp, h.always, h.answered⟩
  intro hp
  by_cases hx : ∃ g ∈ fs, g.opcode = 8
  · rw [coming_closed _ _ _ hx]; exact h.open_ hp
  · rw [coming_snoc _ _ _ hx, if_neg h8, hc, List.append_nil]; exact h.open_ hp

/-- A close frame is sent. -/
theorem Way.bye {exts : List Ext} {s t : Bool} (hst : s ≠ t) {b : Party} {log : List Event} {fs : List Frame} (h : Way exts s t b log fs)
    (f : Frame) (hf : Fit exts t f) (h8 : f.opcode = 8) (hcl : .closing s ∉ log) :
    Way exts s t { b with inbox := b.inbox ++ wire f } (log ++ [.closing s]) (fs ++ [f]) := by
  have hfit : ∀ g ∈ fs ++ [f], Fit exts t g := by
    intro g hg
    rcases List.mem_append.1 hg with hg | hg
    · exact h.fit g hg
    · rw [List.mem_singleton.1 hg]; exact hf
  have hin : b.inbox ++ wire f = wires (fs ++ [f]) := by rw [wires_append, h.inbox]; simp [wires]
  have e1 : heard t (log ++ [.closing s]) = heard t log := by rw [heard_snoc]; simp
  have e2 : spoken s (log ++ [.closing s]) = spoken s log := by rw [spoken_snoc _ _ _ hcl]; simp
  refine ⟨hin, hfit, h.prev, ?_, ?_, by rw [e1, e2]; exact h.always, ?_⟩
  · intro hp
    rw [e1, e2, coming_snoc _ _ _ (fun hx => hcl ((h.close hp).2 hx)), if_pos h8, List.append_nil]
    exact h.open_ hp
  · intro _
    exact ⟨fun _ => ⟨f, by simp, h8⟩, fun _ => by simp⟩
  · intro h0 h1
    rw [e1, e2]
    have : .closing t ∈ log := by
      rcases List.mem_append.1 h1 with h1 | h1
      · exact h1
      · rw [List.mem_singleton, Event.closing.injEq] at h1; exact absurd h1.symm hst
    exact ⟨(h.answered h0 this).1, by simp⟩

/-- The receiver closes, out of its own (`flag`) or as an answer. -/
theorem Way.closes {exts : List Ext} {s t : Bool} (hst : s ≠ t) {b : Party} {log : List Event} {fs : List Frame} (h : Way exts s t b log fs)
    (hp : b.phase ≠ .loop) (ha : b.flag = false → heard t log = spoken s log ∧ .closing s ∈ log) : Way exts s t b (log ++ [.closing t]) fs := by
  have e1 : heard t (log ++ [.closing t]) = heard t log := by rw [heard_snoc]; simp
  have e2 : spoken s (log ++ [.closing t]) = spoken s log := by
    by_cases hc : .closing s ∈ log
    · exact spoken_closed _ _ _ hc
    · rw [spoken_snoc _ _ _ hc]; simp
  refine ⟨h.inbox, h.fit, fun h0 => absurd h0 hp, fun h0 => absurd h0 hp, fun h0 => absurd h0 hp, by rw [e1, e2]; exact h.always, ?_⟩
  intro h0 _
  rw [e1, e2]
  exact ⟨(ha h0).1, by simp [(ha h0).2]⟩

/-- The receiver leaves the loop, or waits another round. -/
theorem Way.leaves {exts : List Ext} {s t : Bool} {b : Party} {log : List Event} {fs : List Frame} (h : Way exts s t b log fs)
    (p : Phase) (hp : p ≠ .loop) (fl : Bool) (hfl : fl = b.flag ∨ fl = true) : Way exts s t { b with phase := p, flag := fl } log fs :=
  ⟨h.inbox, h.fit, fun h0 => absurd h0 hp, fun h0 => absurd h0 hp, fun h0 => absurd h0 hp, h.always,
    fun h0 => h.answered (by rcases hfl with e | e <;> rw [e] at h0 <;> first | exact h0 | cases h0)⟩

theorem Way.drop {exts : List Ext} {s t : Bool} {b : Party} {log : List Event} {f : Frame} {fs : List Frame}
    (h : Way exts s t b log (f :: fs)) (p : Phase) (hp : p ≠ .loop) (pr : Option InMsg) :
    Way exts s t { b with inbox := wires fs, prev := pr, phase := p } log fs :=
  ⟨rfl, fun g hg => h.fit g (List.mem_cons_of_mem _ hg), fun h0 => absurd h0 hp, fun h0 => absurd h0 hp, fun h0 => absurd h0 hp, h.always, h.answered⟩

/-! ### Frames that are sent -/

theorem mapM_some (b : Bytes) : (b.map some).mapM id = some b := by
  induction b with
  | nil => rfl
  | cons a b ih => simp [List.mapM_cons, ih]

theorem written (b : Bytes) : bytesWritten [b.map some] = .ok b := by
  unfold bytesWritten
  simp only [List.flatten_cons, List.flatten_nil, List.append_nil, mapM_some]

theorem maskOf_length {who : Bool} {k : Bytes} (hk : k.length = 4) : ∀ x, maskOf who k = some x → x.length = 4 := by
  intro x hx
  cases who with
  | true => cases hx
  | false => cases hx; exact hk

theorem control_ok (y : Sys) (who : Bool) (op : UInt8) (k d : Bytes) (hk : k.length = 4) (ho : op = 8 ∨ op = 10) (hd : d.length ≤ 125) :
    control y who op k d = .ok (post y who (wire (wholeFrame ⟨op, 0, maskOf who k, d⟩))) := by
  have hs : Sendable ⟨op, 0, maskOf who k, d⟩ :=
    ⟨by rcases ho with e | e <;> simp [e], show (0 : UInt8) &&& 0x8f = 0 by decide, maskOf_length hk⟩
  obtain ⟨m', e⟩ := C44_rfc_partial _ hs (show d.length < 2 ^ 54 by omega) (fun _ => show d.length < 2 ^ 32 by omega) 0 (.inl rfl)
  unfold WsPair.control
  rw [e]
  simp only [Res.ok_bind, written, Res.pure_eq]

theorem fit_whole {exts : List Ext} {who : Bool} {op r : UInt8} {k d : Bytes} (hk : k.length = 4) (hr : r &&& 0x8f = 0)
    (ho : op &&& 0xf0 = 0) (hd : d.length < 2 ^ 32)
    (kind : (op = 8 ∧ d = []) ∨ (op = 9 ∧ d.length ≤ 125) ∨ op = 10 ∨ ((op = 1 ∨ op = 2) ∧
      ∃ x, applyIn exts (toIn (wholeFrame ⟨op, r, maskOf who k, d⟩)) = some x ∧ (op = 1 → Utf8.utf8Ok x = true) ∧
        (r = 0 ∨ (cfg exts (!who)).rsvExpected &&& r ≠ 0))) :
    Fit exts (!who) (wholeFrame ⟨op, r, maskOf who k, d⟩) :=
  ⟨⟨⟨hr, ho, maskOf_length hk⟩, by cases who <;> rfl⟩, hd, rfl, kind⟩

theorem fit_close {exts : List Ext} {who : Bool} {k : Bytes} (hk : k.length = 4) : Fit exts (!who) (wholeFrame ⟨8, 0, maskOf who k, []⟩) :=
  fit_whole hk (by decide) (by decide) (by decide) (.inl ⟨rfl, rfl⟩)

theorem fit_pong {exts : List Ext} {who : Bool} {k d : Bytes} (hk : k.length = 4) (hd : d.length ≤ 125) :
    Fit exts (!who) (wholeFrame ⟨10, 0, maskOf who k, d⟩) :=
  fit_whole hk (by decide) (by decide) (by omega) (.inr (.inr (.inl rfl)))

theorem bits_ext (a b : UInt8) (h : ∀ i, a.toBitVec.getLsbD i = b.toBitVec.getLsbD i) : a = b :=
  UInt8.toBitVec_inj.1 (BitVec.eq_of_getLsbD_eq (fun i _ => h i))

theorem and_or (a b c : UInt8) : (a ||| b) &&& c = a &&& c ||| b &&& c := by
  refine bits_ext _ _ (fun i => ?_)
  simp only [UInt8.toBitVec_and, UInt8.toBitVec_or, BitVec.getLsbD_and, BitVec.getLsbD_or, Bool.and_or_distrib_right]

theorem applyOut_bits (op : UInt8) (l : List Ext) (r0 : UInt8) (d : Bytes) (r : UInt8) (d' : Bytes) (hb : ∀ e ∈ l, e.rsv &&& 0x8f = 0)
    (h0 : r0 &&& 0x8f = 0) (h : applyOut op l r0 d = some (r, d')) : r &&& 0x8f = 0 := by
  induction l generalizing r0 d with
  | nil => cases h; exact h0
  | cons e l ih =>
    have hb' : ∀ e ∈ l, e.rsv &&& 0x8f = 0 := fun x hx => hb x (List.mem_cons_of_mem _ hx)
    simp only [applyOut] at h
    split at h
    · split at h
      · split at h
        · cases h
        · refine ih _ _ hb' ?_ h
          rw [and_or, h0, hb e List.mem_cons_self]
          rfl
      · exact ih _ _ hb' h0 h
    · exact ih _ _ hb' h0 h

theorem absorb (a b c : UInt8) (h : a &&& b = a) : a &&& (b ||| c) = a := by
  refine bits_ext _ _ (fun i => ?_)
  have := congrArg (fun x => x.toBitVec.getLsbD i) h
  simp only [UInt8.toBitVec_and, UInt8.toBitVec_or, BitVec.getLsbD_and, BitVec.getLsbD_or] at this ⊢
  revert this
  generalize a.toBitVec.getLsbD i = x
  generalize b.toBitVec.getLsbD i = z
  generalize c.toBitVec.getLsbD i = w
  cases x <;> cases z <;> cases w <;> decide

theorem or_and (a b c : UInt8) (h : a &&& b = a) : (a ||| c) &&& (b ||| c) = a ||| c := by
  refine bits_ext _ _ (fun i => ?_)
  have := congrArg (fun x => x.toBitVec.getLsbD i) h
  simp only [UInt8.toBitVec_and, UInt8.toBitVec_or, BitVec.getLsbD_and, BitVec.getLsbD_or] at this ⊢
  revert this
  generalize a.toBitVec.getLsbD i = x
  generalize b.toBitVec.getLsbD i = z
  generalize c.toBitVec.getLsbD i = w
  cases x <;> cases z <;> cases w <;> decide

theorem applyOut_expected (op : UInt8) (l : List Ext) (r0 E0 : UInt8) (d : Bytes) (r : UInt8) (d' : Bytes)
    (h0 : r0 &&& E0 = r0) (h : applyOut op l r0 d = some (r, d')) : r &&& l.foldl (fun r e => if e.enabled then r ||| e.rsv else r) E0 = r := by
  induction l generalizing r0 E0 d with
  | nil => cases h; exact h0
  | cons e l ih =>
    simp only [applyOut] at h
    rw [List.foldl_cons]
    split at h
    · rename_i he
      rw [if_pos he]
      split at h
      · split at h
        · cases h
        · exact ih _ _ _ (or_and _ _ _ h0) h
      · exact ih _ _ _ (absorb _ _ _ h0) h
    · rename_i he
      rw [if_neg he]
      exact ih _ _ _ h0 h

/-- What a program sends. -/
theorem say_ok {exts : List Ext} (ha : Agreed exts) (who : Bool) (op : UInt8) (d k : Bytes) (hc : Civil exts (.say who op d k)) :
    (sendFragmented exts op (maskOf who k) d 0 = .ok none ∧ applyOut op exts 0 d = none) ∨
    ∃ f m, sendFragmented exts op (maskOf who k) d 0 = .ok (some ([(wire f).map some], m)) ∧ Fit exts (!who) f ∧ f.opcode ≠ 8 ∧
      carries exts f = (if op = 1 ∨ op = 2 then [(op, d)] else []) ∧ (op = 1 ∨ op = 2 → ∃ p, applyOut op exts 0 d = some p) := by
  obtain ⟨hk, ho, hu, h9, hn⟩ := hc
  by_cases h12 : op = 2 ∨ op = 1
  · cases hout : applyOut op exts 0 d with
    | none =>
      refine .inl ⟨?_, rfl⟩
      unfold sendFragmented
      rw [if_pos h12, hout]
    | some p =>
      obtain ⟨r, d'⟩ := p
      refine .inr ?_
      have hr : r &&& 0x8f = 0 := applyOut_bits op exts 0 d r d' ha.bits (by decide) hout
      have hs : Sendable ⟨op, r, maskOf who k, d'⟩ := ⟨by rcases h12 with e | e <;> simp [e], hr, maskOf_length hk⟩
      obtain ⟨m', e⟩ := C44_rfc_partial _ hs (Nat.lt_trans (hn r d' hout) (by decide)) (fun _ => hn r d' hout) 0 (.inl rfl)
      have hin := C75_inverse_partial op exts ha.disjoint ha.inverse d r d' hout (toIn (wholeFrame ⟨op, r, maskOf who k, d'⟩)) ⟨rfl, rfl, rfl⟩
      refine ⟨wholeFrame ⟨op, r, maskOf who k, d'⟩, m', ?_, ?_, ?_, ?_, fun _ => ⟨_, rfl⟩⟩
      · unfold sendFragmented
        rw [if_pos h12, hout]
        exact e
      · refine fit_whole hk hr (by rcases h12 with e | e <;> rw [e] <;> decide) (hn r d' hout) (.inr (.inr (.inr ⟨h12.symm, d, hin, ?_, ?_⟩)))
        · exact fun h1 => (C05_utf8Ok _).mpr (hu h1)
        · have := applyOut_expected op exts 0 0 d r d' (by decide) hout
          by_cases h0 : r = 0
          · exact .inl h0
          · refine .inr ?_
            show exts.foldl (fun r e => if e.enabled then r ||| e.rsv else r) 0 &&& r ≠ 0
            rw [UInt8.and_comm, this]
            exact h0
      · show op ≠ 8
        rcases h12 with e | e <;> rw [e] <;> decide
      · have h12' : op = 1 ∨ op = 2 := h12.symm
        unfold carries
        rw [show (wholeFrame ⟨op, r, maskOf who k, d'⟩).opcode = op from rfl, if_pos h12', if_pos h12', hin]
  · have h9' : op = 9 := by
      rcases ho with e | e | e
      · exact absurd (.inr e) h12
      · exact absurd (.inl e) h12
      · exact e
    have hl := h9 h9'
    refine .inr ?_
    have hs : Sendable ⟨op, 0, maskOf who k, d⟩ := ⟨by simp [h9'], show (0 : UInt8) &&& 0x8f = 0 by decide, maskOf_length hk⟩
    obtain ⟨m', e⟩ := C44_rfc_partial _ hs (show d.length < 2 ^ 54 by omega) (fun _ => show d.length < 2 ^ 32 by omega) 0 (.inl rfl)
    refine ⟨wholeFrame ⟨op, 0, maskOf who k, d⟩, m', ?_, ?_, ?_, ?_, fun h => absurd h.symm h12⟩
    · unfold sendFragmented
      rw [if_neg h12]
      exact e
    · exact fit_whole hk (by decide) (by rw [h9']; decide) (by omega) (.inr (.inl ⟨h9', hl⟩))
    · show op ≠ 8
      rw [h9']; decide
    · unfold carries
      rw [show (wholeFrame ⟨op, 0, maskOf who k, d⟩).opcode = op from rfl, h9']
      rfl

/-! ### Frames that are read -/

theorem unread_eq (evs : List Ev) : unread evs = bytesOf evs := by
  induction evs with
  | nil => rfl
  | cons e t ih => cases e <;> simp [unread, bytesOf, ih]

theorem Way.read {exts : List Ext} {s t : Bool} {b : Party} {log : List Event} {fs : List Frame} (h : Way exts s t b log fs)
    (hb : b.inbox ≠ []) : ∃ f fs' r, fs = f :: fs' ∧ Fit exts t f ∧ readMessage t [.seg b.inbox] = some (toIn f, r) ∧ unread r = wires fs' := by
  cases fs with
  | nil => exact absurd h.inbox hb
  | cons f fs' =>
    have hf := h.fit f List.mem_cons_self
    obtain ⟨r, h1, h2⟩ := readMessage_wire t f hf.received hf.small [.seg b.inbox] (wires fs') (by simp [bytesOf, h.inbox, wires_cons])
    exact ⟨f, fs', r, rfl, hf, h1, by rw [unread_eq, h2]⟩

theorem Fit.handled {exts : List Ext} {t : Bool} {f : Frame} (h : Fit exts t f) :
    (f.opcode = 8 ∧ handle (cfg exts t) none (toIn f) = ([.close], none, false)) ∨
    (f.opcode = 9 ∧ f.payload.length ≤ 125 ∧ handle (cfg exts t) none (toIn f) = ([.pong f.payload], none, true)) ∨
    (f.opcode = 10 ∧ handle (cfg exts t) none (toIn f) = ([], none, true)) ∨
    ((f.opcode = 1 ∨ f.opcode = 2) ∧ ∃ d, carries exts f = [(f.opcode, d)] ∧
      handle (cfg exts t) none (toIn f) = ([.deliver f.opcode f.rsv d], none, true)) := by
  have hfin : (toIn f).fin = true := h.fin
  have hop : (toIn f).opcode = f.opcode := rfl
  have hdata : (toIn f).data = f.payload := rfl
  rcases h.kind with ⟨e, hp⟩ | ⟨e, hp⟩ | e | ⟨e, d, hin, hu, hr⟩
  · refine .inl ⟨e, ?_⟩
    unfold handle
    rw [if_pos ⟨hop.trans e, hfin⟩, hdata, hp]
    rfl
  · refine .inr (.inl ⟨e, hp, ?_⟩)
    unfold handle
    rw [if_neg (fun hh => absurd (e.symm.trans hh.1) (by decide)), if_pos ⟨hop.trans e, hfin⟩, hdata, if_pos hp]
  · refine .inr (.inr (.inl ⟨e, ?_⟩))
    unfold handle
    rw [if_neg (fun hh => absurd (e.symm.trans hh.1) (by decide)), if_neg (fun hh => absurd (e.symm.trans hh.1) (by decide)), if_pos ⟨hop.trans e, hfin⟩]
  · refine .inr (.inr (.inr ⟨e, d, ?_, ?_⟩))
    · unfold carries
      rw [if_pos e, hin]
    · have n8 : f.opcode ≠ 8 := by rcases e with e | e <;> rw [e] <;> decide
      have n9 : f.opcode ≠ 9 := by rcases e with e | e <;> rw [e] <;> decide
      have n10 : f.opcode ≠ 10 := by rcases e with e | e <;> rw [e] <;> decide
      have n0 : f.opcode ≠ 0 := by rcases e with e | e <;> rw [e] <;> decide
      have hcomp : complete (cfg exts t) (toIn f) = ([.deliver f.opcode f.rsv d], true) := by
        unfold complete
        rw [show (cfg exts t).ext (toIn f) = some d from hin]
        simp only
        rw [if_pos (show (toIn f).rsv = 0 ∨ (cfg exts t).rsvExpected &&& (toIn f).rsv ≠ 0 from hr), if_pos]
        · rfl
        · by_cases h1 : f.opcode = 1
          · exact .inr (.inr (hu h1))
          · exact .inl h1
      unfold handle
      rw [if_neg (fun hh => n8 hh.1), if_neg (fun hh => n9 hh.1), if_neg (fun hh => n10 hh.1),
        if_pos (show (toIn f).opcode = 1 ∨ (toIn f).opcode = 2 ∨ (toIn f).opcode = 0 from e.elim .inl (fun h => .inr (.inl h))),
        if_neg (fun hh => n0 hh.2.1), if_pos hfin]
      simp only [hcomp]

/-! ### The invariant -/

def Inv (exts : List Ext) (y : Sys) : Prop :=
  ∀ who, (∃ fs, Way exts who (!who) (y.party (!who)) y.log fs) ∧ Own who (y.party who) y.log

theorem ne_not (w : Bool) : w ≠ !w := by cases w <;> decide

theorem Inv.split {exts : List Ext} {y : Sys} (h : Inv exts y) (who : Bool) :
    (∃ fs, Way exts who (!who) (y.party (!who)) y.log fs) ∧ (∃ fs, Way exts (!who) who (y.party who) y.log fs) ∧
      Own who (y.party who) y.log ∧ Own (!who) (y.party (!who)) y.log := by
  refine ⟨(h who).1, ?_, (h who).2, (h (!who)).2⟩
  have := (h (!who)).1
  rw [Bool.not_not] at this
  exact this

theorem Inv.of {exts : List Ext} {y : Sys} (who : Bool) (h1 : ∃ fs, Way exts who (!who) (y.party (!who)) y.log fs)
    (h2 : ∃ fs, Way exts (!who) who (y.party who) y.log fs) (h3 : Own who (y.party who) y.log) (h4 : Own (!who) (y.party (!who)) y.log) : Inv exts y := by
  intro w
  by_cases hw : w = who
  · subst hw; exact ⟨h1, h3⟩
  · have : w = !who := by cases w <;> cases who <;> simp_all
    subst this
    rw [Bool.not_not]
    exact ⟨h2, h4⟩

theorem upd_same (y : Sys) (w : Bool) (p : Party) : (upd y w p).party w = p := by simp [upd]
theorem upd_other (y : Sys) (w : Bool) (p : Party) : (upd y w p).party (!w) = y.party (!w) := by
  simp only [upd]; rw [if_neg (ne_not w).symm]
theorem post_same (y : Sys) (w : Bool) (b : Bytes) : (post y w b).party w = y.party w := by
  simp only [post, upd]; rw [if_neg (ne_not w)]
theorem post_other (y : Sys) (w : Bool) (b : Bytes) :
    (post y w b).party (!w) = { y.party (!w) with inbox := (y.party (!w)).inbox ++ b } := by simp [post, upd]
theorem note_party (y : Sys) (e : Event) (w : Bool) : (note y e).party w = y.party w := rfl
theorem note_log (y : Sys) (e : Event) : (note y e).log = y.log ++ [e] := rfl
theorem upd_log (y : Sys) (w : Bool) (p : Party) : (upd y w p).log = y.log := rfl
theorem post_log (y : Sys) (w : Bool) (b : Bytes) : (post y w b).log = y.log := rfl

theorem Own.other {s : Bool} {a : Party} {log : List Event} (h : Own s a log) (e : Event) (h1 : e ≠ .closing s) (h2 : e ≠ .ended s) :
    Own s a (log ++ [e]) := by
  have e3 : (.closing s ∈ log ++ [e]) ↔ .closing s ∈ log := by
    simp only [List.mem_append, List.mem_singleton]
    exact ⟨fun h => h.resolve_right (fun h => h1 h.symm), .inl⟩
  refine ⟨by rw [e3]; exact h.loop, by rw [e3]; exact h.waiting, ?_⟩
  rw [List.count_append, h.over, List.count_singleton, if_neg (c := (e == Event.ended s) = true) (by simpa using h2)]
  rfl

theorem Own.closed {s : Bool} {a a' : Party} {log : List Event} (h : Own s a log) (h0 : a.phase ≠ .over) (hl : a'.phase ≠ .loop)
    (ho : a'.phase ≠ .over) (hw : ∀ c, a'.phase = .waiting c → a'.flag = true) : Own s a' (log ++ [.closing s]) := by
  refine ⟨fun hx => absurd hx hl, fun c hx => ⟨by simp, hw c hx⟩, ?_⟩
  rw [List.count_append, h.over, if_neg h0, if_neg ho, List.count_singleton]
  rfl

theorem Own.left {s : Bool} {a a' : Party} {log : List Event} (h : Own s a log) (h0 : a.phase ≠ .over) (hp : a'.phase = .left) : Own s a' log := by
  refine ⟨fun hx => (by rw [hp] at hx; cases hx), fun c hx => (by rw [hp] at hx; cases hx), ?_⟩
  rw [h.over, if_neg h0, if_neg (by rw [hp]; exact fun hx => by cases hx)]

theorem Own.same {s : Bool} {a a' : Party} {log : List Event} (h : Own s a log) (hp : a'.phase = a.phase) (hf : a.flag = true → a'.flag = true) :
    Own s a' log :=
  ⟨by rw [hp]; exact h.loop, by rw [hp]; exact fun c hc => ⟨(h.waiting c hc).1, hf (h.waiting c hc).2⟩, by rw [hp]; exact h.over⟩

theorem init_inv (exts : List Ext) : Inv exts {} := by
  intro who
  refine ⟨⟨[], rfl, fun f hf => (by cases hf), fun _ => rfl, fun _ => rfl, fun _ => (by simp), List.prefix_refl _, fun _ h => (by cases h)⟩, ?_⟩
  exact ⟨fun _ h => (by cases h), fun c h => (by cases h), rfl⟩

/-- What a program may do keeps the invariant. -/
theorem say_inv {exts : List Ext} (ha : Agreed exts) {y : Sys} (hi : Inv exts y) (who : Bool) (op : UInt8) (d k : Bytes)
    (hc : Civil exts (.say who op d k)) : ∃ y', step exts y (.say who op d k) = .ok y' ∧ Inv exts y' := by
  obtain ⟨⟨fo, wo⟩, ⟨fi, wi⟩, own, own'⟩ := hi.split who
  simp only [step]
  by_cases hcon : connected (y.party who) = true
  · rw [if_pos hcon]
    rcases say_ok ha who op d k hc with ⟨e, -⟩ | ⟨f, m, e, hf, h8, hcar, -⟩
    · refine ⟨y, ?_, hi⟩
      rw [e]; rfl
    · refine ⟨note (post y who (wire f)) (.said who op d), ?_, ?_⟩
      · rw [e]
        simp only [Res.ok_bind, written, Res.pure_eq]
      · refine Inv.of who ⟨fo ++ [f], ?_⟩ ⟨fi, ?_⟩ ?_ ?_
        · rw [note_party, note_log, post_other, post_log]
          exact wo.say (ne_not who) f hf op d h8 hcar
        · rw [note_party, note_log, post_same, post_log]
          exact wi.other _ (fun _ _ h => by cases h) (fun _ _ h => ne_not who (Event.said.inj h).1) (fun _ h => by cases h)
        · rw [note_party, note_log, post_same, post_log]
          exact own.other _ (fun h => by cases h) (fun h => by cases h)
        · rw [note_party, note_log, post_other, post_log]
          exact (own'.other _ (fun h => by cases h) (fun h => by cases h)).same rfl id
  · rw [if_neg hcon]
    exact ⟨y, rfl, hi⟩

theorem signal_inv {exts : List Ext} {y : Sys} (hi : Inv exts y) (who : Bool) : ∃ y', step exts y (.signal who) = .ok y' ∧ Inv exts y' := by
  obtain ⟨⟨fo, wo⟩, ⟨fi, wi⟩, own, own'⟩ := hi.split who
  refine ⟨_, rfl, Inv.of who ⟨fo, ?_⟩ ⟨fi, ?_⟩ ?_ ?_⟩
  · rw [upd_other]; exact wo
  · rw [upd_same]
    exact ⟨wi.inbox, wi.fit, wi.prev, wi.open_, wi.close, wi.always, fun h => (by cases h)⟩
  · rw [upd_same]; exact own.same rfl (fun _ => rfl)
  · rw [upd_other]; exact own'

theorem Own.again {s : Bool} {a a' : Party} {log : List Event} {c : Nat} (h : Own s a log) (h0 : a.phase = .waiting c)
    (hp : a'.phase = .left ∨ ∃ c, a'.phase = .waiting c) (hf : a'.flag = a.flag) : Own s a' log := by
  have hno : a.phase ≠ .over := by rw [h0]; exact fun hx => by cases hx
  rcases hp with hp | ⟨c', hp⟩
  · exact h.left hno hp
  · refine ⟨fun hx => (by rw [hp] at hx; cases hx), fun c hx => ⟨(h.waiting _ h0).1, by rw [hf]; exact (h.waiting _ h0).2⟩, ?_⟩
    rw [h.over, if_neg hno, if_neg (by rw [hp]; exact fun hx => by cases hx)]

/-- The loop alone: only its phase changes. -/
theorem phase_inv {exts : List Ext} {y : Sys} (hi : Inv exts y) (who : Bool) (ph : Phase) (hl : ph ≠ .loop)
    (ho : Own who { y.party who with phase := ph } y.log) : Inv exts (upd y who { y.party who with phase := ph }) := by
  obtain ⟨⟨fo, wo⟩, ⟨fi, wi⟩, own, own'⟩ := hi.split who
  refine Inv.of who ⟨fo, ?_⟩ ⟨fi, ?_⟩ ?_ ?_
  · rw [upd_other]; exact wo
  · rw [upd_same]; exact wi.leaves ph hl _ (.inl rfl)
  · rw [upd_same]; exact ho
  · rw [upd_other]; exact own'

theorem turn_left {exts : List Ext} {y : Sys} (hi : Inv exts y) (who : Bool) (hp : (y.party who).phase = .left) :
    Inv exts (note (upd y who { y.party who with phase := .over }) (.ended who)) := by
  obtain ⟨⟨fo, wo⟩, ⟨fi, wi⟩, own, own'⟩ := hi.split who
  refine Inv.of who ⟨fo, ?_⟩ ⟨fi, ?_⟩ ?_ ?_
  · rw [note_party, note_log, upd_other, upd_log]
    exact wo.other _ (fun _ _ h => by cases h) (fun _ _ h => by cases h) (fun _ h => by cases h)
  · rw [note_party, note_log, upd_same, upd_log]
    exact (wi.leaves .over (fun h => by cases h) _ (.inl rfl)).other _ (fun _ _ h => by cases h) (fun _ _ h => by cases h) (fun _ h => by cases h)
  · rw [note_party, note_log, upd_same, upd_log]
    refine ⟨fun h => (by cases h), fun c h => (by cases h), ?_⟩
    rw [List.count_append, own.over, if_neg (by rw [hp]; exact fun h => by cases h), if_pos rfl]
    simp
  · rw [note_party, note_log, upd_other, upd_log]
    exact own'.other _ (fun h => by cases h) (fun h => ne_not who (Event.ended.inj h))

theorem turn_flag {exts : List Ext} {y : Sys} (hi : Inv exts y) (who : Bool) (k : Bytes) (hk : k.length = 4)
    (hp : (y.party who).phase = .loop) (hf : (y.party who).flag = true) :
    Inv exts (note (upd (post y who (wire (wholeFrame ⟨8, 0, maskOf who k, []⟩))) who { y.party who with phase := .waiting 10 }) (.closing who)) := by
  obtain ⟨⟨fo, wo⟩, ⟨fi, wi⟩, own, own'⟩ := hi.split who
  refine Inv.of who ⟨fo ++ [wholeFrame ⟨8, 0, maskOf who k, []⟩], ?_⟩ ⟨fi, ?_⟩ ?_ ?_
  · rw [note_party, note_log, upd_other, upd_log, post_other, post_log]
    exact wo.bye (ne_not who) _ (fit_close hk) rfl (own.loop hp)
  · rw [note_party, note_log, upd_same, upd_log, post_log]
    refine (wi.leaves (.waiting 10) (fun h => by cases h) _ (.inl rfl)).closes (ne_not who).symm (fun h => by cases h) (fun h => ?_)
    exact absurd (hf.symm.trans h) (by decide)
  · rw [note_party, note_log, upd_same, upd_log, post_log]
    exact own.closed (by rw [hp]; exact fun h => by cases h) (fun h => by cases h) (fun h => by cases h) (fun _ _ => hf)
  · rw [note_party, note_log, upd_other, upd_log, post_other, post_log]
    exact (own'.other _ (fun h => ne_not who (Event.closing.inj h)) (fun h => by cases h)).same rfl id

theorem turn_inv {exts : List Ext} {y : Sys} (hi : Inv exts y) (who : Bool) (p : Poll) (k : Bytes) (hk : k.length = 4) :
    ∃ y', turn exts y who p k = .ok y' ∧ Inv exts y' := by
  obtain ⟨⟨fo, wo⟩, ⟨fi, wi⟩, own, own'⟩ := hi.split who
  unfold turn
  cases hp : (y.party who).phase with
  | over => exact ⟨y, rfl, hi⟩
  | left => exact ⟨_, rfl, turn_left hi who hp⟩
  | waiting c =>
    simp only
    have hno : (y.party who).phase ≠ .over := by rw [hp]; exact fun hx => by cases hx
    by_cases hr : readable y who p = true
    · rw [if_pos hr]
      have hb : (y.party who).inbox ≠ [] := by
        simp only [readable, Bool.and_eq_true, bne_iff_ne] at hr
        exact hr.2
      obtain ⟨f, fs', r, rfl, hf, hread, hun⟩ := wi.read hb
      rw [hread]
      simp only [hun]
      refine ⟨_, rfl, Inv.of who ⟨fo, ?_⟩ ⟨fs', ?_⟩ ?_ ?_⟩
      · rw [upd_other]; exact wo
      · rw [upd_same]
        refine wi.drop _ ?_ (y.party who).prev
        split
        · exact fun h => by cases h
        · cases c <;> exact fun h => by cases h
      · rw [upd_same]
        refine own.again hp ?_ rfl
        simp only
        split
        · exact .inl rfl
        · cases c with
          | zero => exact .inl rfl
          | succ c => exact .inr ⟨c, rfl⟩
      · rw [upd_other]; exact own'
    · rw [if_neg hr]
      by_cases hh : hung y who p = true
      · rw [if_pos hh]
        exact ⟨_, rfl, phase_inv hi who .left (fun h => by cases h) (own.left hno rfl)⟩
      · rw [if_neg hh]
        refine ⟨_, rfl, phase_inv hi who _ ?_ (own.again hp ?_ rfl)⟩
        · cases c <;> exact fun h => by cases h
        · cases c with
          | zero => exact .inl rfl
          | succ c => exact .inr ⟨c, rfl⟩
  | loop =>
    simp only
    have hno : (y.party who).phase ≠ .over := by rw [hp]; exact fun hx => by cases hx
    by_cases hf : (y.party who).flag = true
    · rw [if_pos hf, control_ok y who 8 k [] hk (.inl rfl) (by decide)]
      refine ⟨_, rfl, ?_⟩
      rw [post_same]
      exact turn_flag hi who k hk hp hf
    · rw [if_neg hf]
      by_cases hr : readable y who p = true
      · rw [if_pos hr]
        have hb : (y.party who).inbox ≠ [] := by
          simp only [readable, Bool.and_eq_true, bne_iff_ne] at hr
          exact hr.2
        obtain ⟨f, fs', r, rfl, hfit, hread, hun⟩ := wi.read hb
        rw [hread]
        simp only [hun, wi.prev hp]
        have hfit' : ∀ g ∈ fs', Fit exts who g := fun g hg => wi.fit g (List.mem_cons_of_mem _ hg)
        have hopen := wi.open_ hp
        have hclose := wi.close hp
        simp only [coming] at hopen
        rcases hfit.handled with ⟨e, he⟩ | ⟨e, hl, he⟩ | ⟨e, he⟩ | ⟨e, d, hcar, he⟩
        · rw [he]
          simp only [perform, control_ok _ who 8 k [] hk (.inl rfl) (show ([] : Bytes).length ≤ 125 by decide), Res.ok_bind]
          rw [if_pos e, List.append_nil] at hopen
          have hcs : .closing (!who) ∈ y.log := hclose.2 ⟨f, List.mem_cons_self, e⟩
          refine ⟨_, rfl, Inv.of who ⟨fo ++ [wholeFrame ⟨8, 0, maskOf who k, []⟩], ?_⟩ ⟨fs', ?_⟩ ?_ ?_⟩
          · rw [note_party, note_log, post_other, post_log, upd_other, upd_log]
            exact wo.bye (ne_not who) _ (fit_close hk) rfl (own.loop hp)
          · rw [note_party, note_log, post_same, post_log, upd_same, upd_log]
            exact (wi.drop .left (fun h => by cases h) none).closes (ne_not who).symm (fun h => by cases h) (fun _ => ⟨hopen, hcs⟩)
          · rw [note_party, note_log, post_same, post_log, upd_same, upd_log]
            exact own.closed hno (fun h => by cases h) (fun h => by cases h) (fun c h => by cases h)
          · rw [note_party, note_log, post_other, post_log, upd_other, upd_log]
            exact (own'.other _ (fun h => ne_not who (Event.closing.inj h)) (fun h => by cases h)).same rfl id
        · have n8 : f.opcode ≠ 8 := by rw [e]; decide
          have hc0 : carries exts f = [] := by unfold carries; rw [e]; rfl
          rw [he]
          simp only [perform, control_ok _ who 10 k f.payload hk (.inr rfl) hl, Res.ok_bind]
          rw [if_neg n8, hc0, List.nil_append] at hopen
          have hw : Way exts (!who) who { y.party who with inbox := wires fs', prev := none, phase := .loop } y.log fs' := by
            refine ⟨rfl, hfit', fun _ => rfl, fun _ => hopen, fun _ => hclose.trans ?_, wi.always, wi.answered⟩
            simp [n8]
          refine ⟨_, rfl, Inv.of who ⟨fo ++ [wholeFrame ⟨10, 0, maskOf who k, f.payload⟩], ?_⟩ ⟨fs', ?_⟩ ?_ ?_⟩
          · rw [post_other, post_log, upd_other, upd_log]
            exact wo.pong _ (fit_pong hk hl) rfl
          · rw [post_same, post_log, upd_same, upd_log]
            exact hw
          · rw [post_same, post_log, upd_same, upd_log]
            exact own.same hp.symm id
          · rw [post_other, post_log, upd_other, upd_log]
            exact own'.same rfl id
        · have n8 : f.opcode ≠ 8 := by rw [e]; decide
          have hc0 : carries exts f = [] := by unfold carries; rw [e]; rfl
          rw [he]
          simp only [perform]
          rw [if_neg n8, hc0, List.nil_append] at hopen
          have hw : Way exts (!who) who { y.party who with inbox := wires fs', prev := none, phase := .loop } y.log fs' := by
            refine ⟨rfl, hfit', fun _ => rfl, fun _ => hopen, fun _ => hclose.trans ?_, wi.always, wi.answered⟩
            simp [n8]
          refine ⟨_, rfl, Inv.of who ⟨fo, ?_⟩ ⟨fs', ?_⟩ ?_ ?_⟩
          · rw [upd_other]; exact wo
          · rw [upd_same]; exact hw
          · rw [upd_same]; exact own.same hp.symm id
          · rw [upd_other]; exact own'
        · have n8 : f.opcode ≠ 8 := by rcases e with e | e <;> rw [e] <;> decide
          rw [he]
          simp only [perform]
          rw [if_neg n8, hcar, ← List.append_assoc] at hopen
          have e1 : heard who (y.log ++ [.got who f.opcode d]) = heard who y.log ++ [(f.opcode, d)] := by rw [heard_snoc]; simp
          have e2 : spoken (!who) (y.log ++ [.got who f.opcode d]) = spoken (!who) y.log := by
            by_cases hc : .closing (!who) ∈ y.log
            · exact spoken_closed _ _ _ hc
            · rw [spoken_snoc _ _ _ hc]; simp
          have e3 : ∀ x, (.closing x ∈ y.log ++ [.got who f.opcode d]) ↔ .closing x ∈ y.log := by intro x; simp
          have hw : Way exts (!who) who { y.party who with inbox := wires fs', prev := none, phase := .loop } (y.log ++ [.got who f.opcode d]) fs' := by
            refine ⟨rfl, hfit', fun _ => rfl, fun _ => ?_, fun _ => ?_, ?_, ?_⟩
            · rw [e1, e2]; exact hopen
            · rw [e3, hclose]; simp [n8]
            · rw [e1, e2, ← hopen]; exact List.prefix_append _ _
            · rw [e3]; intro _ h; exact absurd h (own.loop hp)
          refine ⟨_, rfl, Inv.of who ⟨fo, ?_⟩ ⟨fs', ?_⟩ ?_ ?_⟩
          · rw [note_party, note_log, upd_other, upd_log]
            exact wo.other _ (fun _ _ h => ne_not who (Event.got.inj h).1) (fun _ _ h => by cases h) (fun _ h => by cases h)
          · rw [note_party, note_log, upd_same, upd_log]; exact hw
          · rw [note_party, note_log, upd_same, upd_log]
            exact (own.other _ (fun h => by cases h) (fun h => by cases h)).same hp.symm id
          · rw [note_party, note_log, upd_other, upd_log]
            exact own'.other _ (fun h => by cases h) (fun h => by cases h)
      · rw [if_neg hr]
        by_cases hh : hung y who p = true
        · rw [if_pos hh]
          exact ⟨_, rfl, phase_inv hi who .left (fun h => by cases h) (own.left hno rfl)⟩
        · rw [if_neg hh]
          exact ⟨y, rfl, hi⟩

theorem step_inv {exts : List Ext} (ha : Agreed exts) {y : Sys} (hi : Inv exts y) (a : Act) (hc : Civil exts a) :
    ∃ y', step exts y a = .ok y' ∧ Inv exts y' := by
  cases a with
  | say who op d k => exact say_inv ha hi who op d k hc
  | signal who => exact signal_inv hi who
  | turn who p k => exact turn_inv hi who p k hc

theorem exec_inv {exts : List Ext} (ha : Agreed exts) {y : Sys} (hi : Inv exts y) (acts : List Act) (hc : ∀ a ∈ acts, Civil exts a) :
    ∃ y', exec exts y acts = .ok y' ∧ Inv exts y' := by
  induction acts generalizing y with
  | nil => exact ⟨y, rfl, hi⟩
  | cons a t ih =>
    obtain ⟨y1, e1, h1⟩ := step_inv ha hi a (hc a List.mem_cons_self)
    obtain ⟨y2, e2, h2⟩ := ih h1 (fun x hx => hc x (List.mem_cons_of_mem _ hx))
    refine ⟨y2, ?_, h2⟩
    simp only [exec, e1, Res.ok_bind]
    exact e2

theorem exec_append (exts : List Ext) (y : Sys) (a b : List Act) : exec exts y (a ++ b) = (exec exts y a).bind (fun y => exec exts y b) := by
  induction a generalizing y with
  | nil => rfl
  | cons x t ih =>
    simp only [List.cons_append, exec]
    cases step exts y x with
    | ub => rfl
    | ok y1 => simp only [Res.ok_bind]; exact ih y1

/-! ### Where the loops are -/

theorem control_party {y y' : Sys} {who : Bool} {op : UInt8} {k d : Bytes} (h : WsPair.control y who op k d = .ok y') :
    y'.party who = y.party who ∧ y'.log = y.log := by
  unfold WsPair.control at h
  cases hs : sendManaged ⟨op, 0, maskOf who k, d⟩ 0 with
  | ub => rw [hs] at h; cases h
  | ok r =>
    rw [hs] at h
    simp only [Res.ok_bind] at h
    cases r with
    | none => cases h; exact ⟨rfl, rfl⟩
    | some x =>
      simp only at h
      cases hb : bytesWritten x.1 with
      | ub => rw [hb] at h; cases h
      | ok b =>
        rw [hb] at h
        cases h
        exact ⟨post_same _ _ _, rfl⟩

theorem perform_party {y y' : Sys} {who : Bool} {k : Bytes} {o : List Out} (h : perform y who k o = .ok y') : y'.party who = y.party who := by
  induction o generalizing y with
  | nil => cases h; rfl
  | cons x t ih =>
    cases x with
    | deliver op r d => exact (ih h).trans rfl
    | pong d =>
      simp only [perform] at h
      cases hc : WsPair.control y who 10 k d with
      | ub => rw [hc] at h; cases h
      | ok y1 =>
        rw [hc] at h
        exact (ih h).trans (control_party hc).1
    | close =>
      simp only [perform] at h
      cases hc : WsPair.control y who 8 k [] with
      | ub => rw [hc] at h; cases h
      | ok y1 =>
        rw [hc] at h
        exact (ih h).trans (control_party hc).1

def stage : Phase → Nat
  | .loop => 13
  | .waiting c => c + 2
  | .left => 1
  | .over => 0

theorem stage_again (c : Nat) : stage (match c with
    | 0 => Phase.left
    | c + 1 => .waiting c) < c + 2 := by
  cases c <;> simp [stage]

theorem readMessage_shorter {t : Bool} {b : Bytes} {m : InMsg} {r : List Ev} (h : readMessage t [.seg b] = some (m, r)) (hb : b ≠ []) :
    (unread r).length < b.length := by
  have h1 := readMessage_size t [.seg b] m r h
  have h2 : ∀ evs : List Ev, (unread evs).length + (if evs = [] then 0 else 1) ≤ size evs := by
    intro evs
    induction evs with
    | nil => simp [unread, size]
    | cons e t ih =>
      rw [if_neg (by simp)]
      cases e <;> simp only [unread, size, List.length_append, List.length_nil] <;> (try split at ih) <;> omega
  have h3 := h2 r
  simp only [size] at h1
  have h4 : 0 < b.length := List.length_pos_iff.2 hb
  split at h3
  · rename_i hr; rw [hr]; exact h4
  · omega

/-- How a round of a loop can change its phase `q` and the length `n` of its inbox; `flag`: asked to close, `gone`: the peer is and this is seen. -/
structure Nearer (flag gone : Prop) (q q' : Phase) (n n' : Nat) : Prop where
  closing : flag ∨ q ≠ .loop → stage q' ≤ stage q - 1
  inbox : n' ≤ n
  stage : Pair.stage q' ≤ Pair.stage q
  gone : gone → q ≠ .over → n' + Pair.stage q' < n + Pair.stage q

theorem Nearer.down {flag gone : Prop} {q q' : Phase} {n n' : Nat} (h : Pair.stage q' < Pair.stage q) (hn : n' ≤ n) :
    Nearer flag gone q q' n n' := ⟨fun _ => by omega, hn, by omega, fun _ _ => by omega⟩

/-- One round of a loop brings it nearer to its end, when it was asked to close or its peer is gone. -/
theorem turn_nearer {exts : List Ext} {y y' : Sys} {who : Bool} {p : Poll} {k : Bytes} (h : turn exts y who p k = .ok y') :
    (y'.party who).flag = (y.party who).flag ∧
    Nearer ((y.party who).flag = true) ((y.party (!who)).phase = .over ∧ p ≠ .nothing) (y.party who).phase (y'.party who).phase
      (y.party who).inbox.length (y'.party who).inbox.length := by
  unfold turn at h
  cases hp : (y.party who).phase with
  | over =>
    rw [hp] at h; cases h
    rw [hp]
    exact ⟨rfl, fun _ => Nat.zero_le _, Nat.le_refl _, Nat.le_refl _, fun _ h => absurd rfl h⟩
  | left =>
    rw [hp] at h; cases h
    rw [note_party, upd_same]
    exact ⟨rfl, .down (by simp [stage]) (Nat.le_refl _)⟩
  | waiting c =>
    rw [hp] at h
    simp only at h
    have hs := stage_again c
    have hs' : stage .left < stage (.waiting c) := by simp [stage]
    by_cases hr : readable y who p = true
    · rw [if_pos hr] at h
      have hb : (y.party who).inbox ≠ [] := by
        simp only [readable, Bool.and_eq_true, bne_iff_ne] at hr
        exact hr.2
      cases hm : readMessage who [.seg (y.party who).inbox] with
      | none =>
        rw [hm] at h; cases h
        rw [upd_same]
        exact ⟨rfl, .down hs' (Nat.le_refl _)⟩
      | some x =>
        have hl := readMessage_shorter (m := x.1) (r := x.2) hm hb
        rw [hm] at h; cases h
        rw [upd_same]
        refine ⟨rfl, .down ?_ (Nat.le_of_lt hl)⟩
        simp only
        split
        · exact hs'
        · exact hs
    · rw [if_neg hr] at h
      by_cases hh : hung y who p = true
      · rw [if_pos hh] at h
        cases h
        rw [upd_same]
        exact ⟨rfl, .down hs' (Nat.le_refl _)⟩
      · rw [if_neg hh] at h
        cases h
        rw [upd_same]
        exact ⟨rfl, .down hs (Nat.le_refl _)⟩
  | loop =>
    rw [hp] at h
    simp only at h
    by_cases hf : (y.party who).flag = true
    · rw [if_pos hf] at h
      cases hc : WsPair.control y who 8 k [] with
      | ub => rw [hc] at h; cases h
      | ok y1 =>
        rw [hc] at h; cases h
        rw [note_party, upd_same, (control_party hc).1]
        exact ⟨rfl, .down (by simp [stage]) (Nat.le_refl _)⟩
    · rw [if_neg hf] at h
      by_cases hr : readable y who p = true
      · rw [if_pos hr] at h
        have hb : (y.party who).inbox ≠ [] := by
          simp only [readable, Bool.and_eq_true, bne_iff_ne] at hr
          exact hr.2
        cases hm : readMessage who [.seg (y.party who).inbox] with
        | none =>
          rw [hm] at h; cases h
          rw [upd_same]
          exact ⟨rfl, .down (by simp [stage]) (Nat.le_refl _)⟩
        | some x =>
          have hl := readMessage_shorter (m := x.1) (r := x.2) hm hb
          rw [hm] at h
          simp only at h
          rw [perform_party h, upd_same]
          have hst : stage (if (handle (cfg exts who) (y.party who).prev x.1).2.2 = true then Phase.loop else .left) ≤ stage .loop := by
            split <;> decide
          refine ⟨rfl, fun h0 => ?_, Nat.le_of_lt hl, hst, fun _ _ => Nat.add_lt_add_of_lt_of_le hl hst⟩
          rcases h0 with h0 | h0
          · exact absurd h0 hf
          · exact absurd rfl h0
      · rw [if_neg hr] at h
        by_cases hh : hung y who p = true
        · rw [if_pos hh] at h
          cases h
          rw [upd_same]
          exact ⟨rfl, .down (by simp [stage]) (Nat.le_refl _)⟩
        · rw [if_neg hh] at h
          cases h
          rw [hp]
          refine ⟨rfl, fun h0 => ?_, Nat.le_refl _, Nat.le_refl _, fun ⟨ho, hn⟩ _ => ?_⟩
          · rcases h0 with h0 | h0
            · exact absurd h0 hf
            · exact absurd rfl h0
          · exact absurd (by simp [hung, ho, hn]) hh

/-- The other end only gets bytes. -/
def Alike (p p' : Party) : Prop := p'.phase = p.phase ∧ p'.flag = p.flag

theorem control_other {y y' : Sys} {who : Bool} {op : UInt8} {k d : Bytes} (h : WsPair.control y who op k d = .ok y') :
    Alike (y.party (!who)) (y'.party (!who)) := by
  unfold WsPair.control at h
  cases hs : sendManaged ⟨op, 0, maskOf who k, d⟩ 0 with
  | ub => rw [hs] at h; cases h
  | ok r =>
    rw [hs] at h
    simp only [Res.ok_bind] at h
    cases r with
    | none => cases h; exact ⟨rfl, rfl⟩
    | some x =>
      simp only at h
      cases hb : bytesWritten x.1 with
      | ub => rw [hb] at h; cases h
      | ok b =>
        rw [hb] at h
        cases h
        rw [post_other]
        exact ⟨rfl, rfl⟩

theorem perform_other {y y' : Sys} {who : Bool} {k : Bytes} {o : List Out} (h : perform y who k o = .ok y') :
    Alike (y.party (!who)) (y'.party (!who)) := by
  induction o generalizing y with
  | nil => cases h; exact ⟨rfl, rfl⟩
  | cons x t ih =>
    cases x with
    | deliver op r d =>
      simp only [perform] at h
      exact ih (y := note y (.got who op d)) h
    | pong d =>
      simp only [perform] at h
      cases hc : WsPair.control y who 10 k d with
      | ub => rw [hc] at h; cases h
      | ok y1 =>
        rw [hc] at h
        have h1 := control_other hc
        have h2 := ih h
        exact ⟨h2.1.trans h1.1, h2.2.trans h1.2⟩
    | close =>
      simp only [perform] at h
      cases hc : WsPair.control y who 8 k [] with
      | ub => rw [hc] at h; cases h
      | ok y1 =>
        rw [hc] at h
        have h1 := control_other hc
        have h2 := ih h
        exact ⟨h2.1.trans h1.1, h2.2.trans h1.2⟩

theorem turn_other {exts : List Ext} {y y' : Sys} {who : Bool} {p : Poll} {k : Bytes} (h : turn exts y who p k = .ok y') :
    Alike (y.party (!who)) (y'.party (!who)) ∧ ((y.party who).phase = .over → y' = y) := by
  have same : ∀ q, Alike (y.party (!who)) ((upd y who q).party (!who)) := fun q => by rw [upd_other]; exact ⟨rfl, rfl⟩
  unfold turn at h
  cases hp : (y.party who).phase with
  | over => rw [hp] at h; cases h; exact ⟨⟨rfl, rfl⟩, fun _ => rfl⟩
  | left => rw [hp] at h; cases h; exact ⟨same _, fun h => by cases h⟩
  | waiting c =>
    refine ⟨?_, fun h => by cases h⟩
    rw [hp] at h
    simp only at h
    by_cases hr : readable y who p = true
    · rw [if_pos hr] at h
      cases hm : readMessage who [.seg (y.party who).inbox] with
      | none => rw [hm] at h; cases h; exact same _
      | some x => rw [hm] at h; cases h; exact same _
    · rw [if_neg hr] at h
      by_cases hh : hung y who p = true
      · rw [if_pos hh] at h; cases h; exact same _
      · rw [if_neg hh] at h; cases h; exact same _
  | loop =>
    refine ⟨?_, fun h => by cases h⟩
    rw [hp] at h
    simp only at h
    by_cases hf : (y.party who).flag = true
    · rw [if_pos hf] at h
      cases hc : WsPair.control y who 8 k [] with
      | ub => rw [hc] at h; cases h
      | ok y1 =>
        rw [hc] at h; cases h
        rw [note_party, upd_other]
        exact control_other hc
    · rw [if_neg hf] at h
      by_cases hr : readable y who p = true
      · rw [if_pos hr] at h
        cases hm : readMessage who [.seg (y.party who).inbox] with
        | none => rw [hm] at h; cases h; exact same _
        | some x =>
          rw [hm] at h
          have := perform_other h
          rw [upd_other] at this
          exact this
      · rw [if_neg hr] at h
        by_cases hh : hung y who p = true
        · rw [if_pos hh] at h; cases h; exact same _
        · rw [if_neg hh] at h; cases h; exact ⟨rfl, rfl⟩

/-- What others do leaves the loop of `who` where it is. -/
theorem step_other {exts : List Ext} {y y' : Sys} {a : Act} (h : step exts y a = .ok y') (who : Bool) (ha : ∀ p k, a ≠ .turn who p k) :
    (y'.party who).phase = (y.party who).phase ∧ ((y.party who).flag = true → (y'.party who).flag = true) ∧
    (a ≠ .signal who → (y'.party who).flag = (y.party who).flag) ∧
    ((y.party (!who)).phase = .over → (y'.party who).inbox = (y.party who).inbox) := by
  have hcase : ∀ w, w = who ∨ w = !who := by intro w; cases w <;> cases who <;> simp
  cases a with
  | say w op d k =>
    simp only [step] at h
    by_cases hcon : connected (y.party w) = true
    · rw [if_pos hcon] at h
      cases hs : sendFragmented exts op (maskOf w k) d 0 with
      | ub => rw [hs] at h; cases h
      | ok r =>
        rw [hs] at h
        simp only [Res.ok_bind] at h
        cases r with
        | none => cases h; exact ⟨rfl, id, fun _ => rfl, fun _ => rfl⟩
        | some x =>
          simp only at h
          cases hb : bytesWritten x.1 with
          | ub => rw [hb] at h; cases h
          | ok b =>
            rw [hb] at h
            cases h
            rw [note_party]
            rcases hcase w with rfl | rfl
            · rw [post_same]; exact ⟨rfl, id, fun _ => rfl, fun _ => rfl⟩
            · have := post_other y (!who) b
              rw [Bool.not_not] at this
              rw [this]
              refine ⟨rfl, id, fun _ => rfl, fun ho => ?_⟩
              simp only [connected, ho] at hcon
              cases hcon
    · rw [if_neg hcon] at h; cases h; exact ⟨rfl, id, fun _ => rfl, fun _ => rfl⟩
  | signal w =>
    cases h
    rcases hcase w with rfl | rfl
    · rw [upd_same]; exact ⟨rfl, fun _ => rfl, fun h => absurd rfl h, fun _ => rfl⟩
    · have := upd_other y (!who) { y.party (!who) with flag := true }
      rw [Bool.not_not] at this
      rw [this]
      exact ⟨rfl, id, fun _ => rfl, fun _ => rfl⟩
  | turn w p k =>
    rcases hcase w with rfl | rfl
    · exact absurd rfl (ha p k)
    · have := turn_other h
      rw [Bool.not_not] at this
      exact ⟨this.1.1, fun hf => this.1.2.trans hf, fun _ => this.1.2, fun ho => by rw [this.2 ho]⟩

theorem step_flag {exts : List Ext} {y y' : Sys} {a : Act} (h : step exts y a = .ok y') (who : Bool) (ha : a ≠ .signal who) :
    (y'.party who).flag = (y.party who).flag := by
  by_cases ht : ∃ p k, a = .turn who p k
  · obtain ⟨p, k, rfl⟩ := ht
    exact (turn_nearer h).1
  · exact (step_other h who (fun p k he => ht ⟨p, k, he⟩)).2.2.1 ha

theorem exec_flag {exts : List Ext} {y y' : Sys} {acts : List Act} (h : exec exts y acts = .ok y') (who : Bool) (ha : .signal who ∉ acts) :
    (y'.party who).flag = (y.party who).flag := by
  induction acts generalizing y with
  | nil => cases h; rfl
  | cons a t ih =>
    simp only [exec] at h
    cases hs : step exts y a with
    | ub => rw [hs] at h; cases h
    | ok y1 =>
      rw [hs] at h
      exact (ih h (fun hx => ha (List.mem_cons_of_mem _ hx))).trans (step_flag hs who (fun he => ha (by rw [he]; exact List.mem_cons_self)))

theorem step_stage {exts : List Ext} {y y' : Sys} {a : Act} (h : step exts y a = .ok y') (who : Bool) (hf : (y.party who).flag = true) :
    (y'.party who).flag = true ∧ stage (y'.party who).phase ≤ stage (y.party who).phase - (if isTurn who a then 1 else 0) := by
  by_cases ht : ∃ p k, a = .turn who p k
  · obtain ⟨p, k, rfl⟩ := ht
    have := turn_nearer h
    refine ⟨this.1.trans hf, ?_⟩
    simp only [isTurn, beq_self_eq_true, if_true]
    exact this.2.closing (.inl hf)
  · have := step_other h who (fun p k he => ht ⟨p, k, he⟩)
    refine ⟨this.2.1 hf, ?_⟩
    rw [this.1]
    have : isTurn who a = false := by
      cases a with
      | turn w p k =>
        simp only [isTurn, beq_eq_false_iff_ne]
        rintro rfl
        exact ht ⟨p, k, rfl⟩
      | _ => rfl
    rw [this]
    simp

theorem exec_stage {exts : List Ext} {y y' : Sys} {acts : List Act} (h : exec exts y acts = .ok y') (who : Bool) (hf : (y.party who).flag = true) :
    stage (y'.party who).phase ≤ stage (y.party who).phase - acts.countP (isTurn who) := by
  induction acts generalizing y with
  | nil => cases h; simp
  | cons a t ih =>
    simp only [exec] at h
    cases hs : step exts y a with
    | ub => rw [hs] at h; cases h
    | ok y1 =>
      rw [hs] at h
      have h1 := step_stage hs who hf
      have h2 := ih h h1.1
      rw [List.countP_cons]
      have h3 := h1.2
      split at h3 <;> rename_i hi <;> simp only [hi] at * <;> omega

theorem exec_le {exts : List Ext} {y y' : Sys} {acts : List Act} (h : exec exts y acts = .ok y') (who : Bool) :
    stage (y'.party who).phase ≤ stage (y.party who).phase := by
  induction acts generalizing y with
  | nil => cases h; exact Nat.le_refl _
  | cons a t ih =>
    simp only [exec] at h
    cases hs : step exts y a with
    | ub => rw [hs] at h; cases h
    | ok y1 =>
      rw [hs] at h
      refine Nat.le_trans (ih h) ?_
      by_cases ht : ∃ p k, a = .turn who p k
      · obtain ⟨p, k, rfl⟩ := ht
        exact (turn_nearer hs).2.stage
      · rw [(step_other hs who (fun p k he => ht ⟨p, k, he⟩)).1]
        exact Nat.le_refl _

theorem exec_told {exts : List Ext} {y y' : Sys} {acts : List Act} (h : exec exts y acts = .ok y') (who : Bool)
    (ha : (y.party who).flag = true ∨ .signal who ∈ acts) : (y'.party who).flag = true := by
  induction acts generalizing y with
  | nil =>
    cases h
    rcases ha with ha | ha
    · exact ha
    · cases ha
  | cons a t ih =>
    simp only [exec] at h
    cases hs : step exts y a with
    | ub => rw [hs] at h; cases h
    | ok y1 =>
      rw [hs] at h
      refine ih h ?_
      rcases ha with ha | ha
      · exact .inl (step_stage hs who ha).1
      · rcases List.mem_cons.1 ha with rfl | ha
        · cases hs
          rw [upd_same]
          exact .inl rfl
        · exact .inr ha

theorem stage_zero {p : Phase} (h : stage p = 0) : p = .over := by
  cases p with
  | over => rfl
  | _ => simp [stage] at h

theorem Own.ended {s : Bool} {a : Party} {log : List Event} (h : Own s a log) : .ended s ∈ log ↔ a.phase = .over := by
  have := h.over
  constructor
  · intro hm
    have h1 := List.count_pos_iff.2 hm
    by_cases hp : a.phase = .over
    · exact hp
    · rw [if_neg hp] at this; omega
  · intro hp
    rw [if_pos hp] at this
    exact List.count_pos_iff.1 (by omega)

theorem exec_gone {exts : List Ext} {y y' : Sys} {acts : List Act} (h : exec exts y acts = .ok y') (who : Bool)
    (ho : (y.party (!who)).phase = .over) (hn : (y.party who).inbox.length + stage (y.party who).phase ≤ acts.countP (sees who)) :
    (y'.party who).phase = .over := by
  induction acts generalizing y with
  | nil =>
    cases h
    rw [List.countP_nil] at hn
    exact stage_zero (by omega)
  | cons a t ih =>
    simp only [exec] at h
    cases hs : step exts y a with
    | ub => rw [hs] at h; cases h
    | ok y1 =>
      rw [hs] at h
      by_cases hover : (y.party who).phase = .over
      · have key : ∀ (acts : List Act) (y y' : Sys), exec exts y acts = .ok y' → (y.party who).phase = .over → (y'.party who).phase = .over := by
          intro acts
          induction acts with
          | nil => intro y y' h h0; cases h; exact h0
          | cons a t ih =>
            intro y y' h h0
            simp only [exec] at h
            cases hs : step exts y a with
            | ub => rw [hs] at h; cases h
            | ok y1 =>
              rw [hs] at h
              refine ih y1 y' h ?_
              by_cases ht : ∃ p k, a = .turn who p k
              · obtain ⟨p, k, rfl⟩ := ht
                rw [(turn_other hs).2 h0]; exact h0
              · exact (step_other hs who (fun p k he => ht ⟨p, k, he⟩)).1.trans h0
        refine key (a :: t) y y' ?_ hover
        simp only [exec, hs, Res.ok_bind]
        exact h
      · have hother : ((y1.party (!who)).phase) = .over := by
          by_cases ht : ∃ p k, a = .turn (!who) p k
          · obtain ⟨p, k, rfl⟩ := ht
            rw [(turn_other hs).2 ho]; exact ho
          · exact (step_other hs (!who) (fun p k he => ht ⟨p, k, he⟩)).1.trans ho
        refine ih h hother ?_
        rw [List.countP_cons] at hn
        by_cases ht : ∃ p k, a = .turn who p k
        · obtain ⟨p, k, rfl⟩ := ht
          have := (turn_nearer hs).2
          by_cases hp : p = .nothing
          · have h1 := this.inbox
            have h2 := this.stage
            have h3 : sees who (.turn who p k) = false := by simp [sees, hp]
            rw [h3] at hn
            simp only [Bool.false_eq_true, if_false] at hn
            omega
          · have h1 := this.gone ⟨ho, hp⟩ hover
            split at hn <;> omega
        · have := step_other hs who (fun p k he => ht ⟨p, k, he⟩)
          rw [this.1, this.2.2.2 ho]
          have h3 : sees who a = false := by
            cases a with
            | turn w p k =>
              have : w ≠ who := fun e => ht ⟨p, k, by rw [e]⟩
              simp [sees, this]
            | _ => rfl
          rw [h3] at hn
          simpa using hn

/-! ## C162 -/

theorem read_round {exts : List Ext} {y : Sys} (hi : Inv exts y) (who : Bool) (k : Bytes) (hk : k.length = 4)
    (hp : (y.party who).phase = .loop) (hf : (y.party who).flag = false) (hb : (y.party who).inbox ≠ []) :
    ∃ y', turn exts y who .ready k = .ok y' ∧ Inv exts y' ∧ (y'.party who).flag = false ∧
      (y'.party who).inbox.length < (y.party who).inbox.length ∧ spoken (!who) y'.log = spoken (!who) y.log ∧
      ((y'.party who).phase = .loop ∨ .closing who ∈ y'.log) := by
  obtain ⟨y', e, hi'⟩ := turn_inv hi who .ready k hk
  refine ⟨y', e, hi', (turn_nearer e).1.trans hf, ?_⟩
  obtain ⟨-, ⟨fi, wi⟩, own, -⟩ := hi.split who
  obtain ⟨f, fs', r, rfl, hfit, hread, hun⟩ := wi.read hb
  have hl := readMessage_shorter hread hb
  have hr : readable y who .ready = true := by simp [readable, hb]
  unfold turn at e
  rw [hp] at e
  simp only [hf, Bool.false_eq_true, if_false, hr, if_true, hread, wi.prev hp] at e
  have hs : ∀ ev : Event, (∀ op d, ev ≠ .said (!who) op d) → spoken (!who) (y.log ++ [ev]) = spoken (!who) y.log := by
    intro ev hev
    by_cases hc : .closing (!who) ∈ y.log
    · exact spoken_closed _ _ _ hc
    · rw [spoken_snoc _ _ _ hc]
      cases ev with
      | said x op d =>
        have : x ≠ !who := fun hx => hev op d (by rw [hx])
        simp [this]
      | _ => simp
  rcases hfit.handled with ⟨e8, he⟩ | ⟨e9, hl9, he⟩ | ⟨e10, he⟩ | ⟨e12, d, hcar, he⟩
  · rw [he] at e
    simp only [perform, control_ok _ who 8 k [] hk (.inl rfl) (show ([] : Bytes).length ≤ 125 by decide), Res.ok_bind] at e
    cases e
    rw [note_party, note_log, post_same, post_log, upd_same, upd_log]
    exact ⟨hl, hs _ (fun _ _ h => by cases h), .inr (by simp)⟩
  · rw [he] at e
    simp only [perform, control_ok _ who 10 k f.payload hk (.inr rfl) hl9, Res.ok_bind] at e
    cases e
    rw [post_same, post_log, upd_same, upd_log]
    exact ⟨hl, rfl, .inl rfl⟩
  · rw [he] at e
    simp only [perform] at e
    cases e
    rw [upd_same, upd_log]
    exact ⟨hl, rfl, .inl rfl⟩
  · rw [he] at e
    simp only [perform] at e
    cases e
    rw [note_party, note_log, upd_same, upd_log]
    exact ⟨hl, hs _ (fun _ _ h => by cases h), .inl rfl⟩

theorem read_all {exts : List Ext} (n : Nat) {y : Sys} (hi : Inv exts y) (who : Bool) (k : Bytes) (hk : k.length = 4)
    (hp : (y.party who).phase = .loop) (hf : (y.party who).flag = false) (hn : (y.party who).inbox.length ≤ n) :
    ∃ m y', exec exts y (List.replicate m (.turn who .ready k)) = .ok y' ∧ heard who y'.log = spoken (!who) y.log := by
  induction n generalizing y with
  | zero =>
    have hb : (y.party who).inbox = [] := List.length_eq_zero_iff.1 (by omega)
    obtain ⟨-, ⟨fi, wi⟩, -, -⟩ := hi.split who
    have hfi : fi = [] := by
      cases fi with
      | nil => rfl
      | cons f t =>
        have := wi.inbox
        rw [hb, wires_cons, wire] at this
        cases this
    subst hfi
    refine ⟨0, y, rfl, ?_⟩
    have := wi.open_ hp
    rwa [coming, List.append_nil] at this
  | succ n ih =>
    by_cases hb : (y.party who).inbox = []
    · exact ih hi hp hf (by rw [hb]; exact Nat.zero_le _)
    · obtain ⟨y1, e1, hi1, hf1, hl1, hs1, hor⟩ := read_round hi who k hk hp hf hb
      by_cases hp1 : (y1.party who).phase = .loop
      · obtain ⟨m, y', e, hh⟩ := ih hi1 hp1 hf1 (by omega)
        refine ⟨m + 1, y', ?_, hh.trans hs1⟩
        simp only [List.replicate_succ, exec, step, e1, Res.ok_bind]
        exact e
      · have hcl := hor.resolve_left hp1
        obtain ⟨-, ⟨fi, wi⟩, -, -⟩ := hi1.split who
        refine ⟨1, y1, ?_, (wi.answered hf1 hcl).1.trans hs1⟩
        simp only [List.replicate_succ, List.replicate_zero, exec, step, e1, Res.ok_bind]

/-- What a round of the loop adds to what can be seen. -/
theorem turn_log {exts : List Ext} {y : Sys} (hi : Inv exts y) (who : Bool) (p : Poll) (k : Bytes) (hk : k.length = 4) :
    ∃ y', turn exts y who p k = .ok y' ∧ Inv exts y' ∧
      (y'.log = y.log ∨ y'.log = y.log ++ [.closing who] ∨ y'.log = y.log ++ [.ended who] ∨
        ∃ op d, y'.log = y.log ++ [.got who op d] ∧ (y'.party who).phase = .loop) ∧
      ((y.party who).phase = .loop → (y.party who).flag = false → .closing (!who) ∉ y.log → (y.party (!who)).phase ≠ .over →
        (y'.party who).phase = .loop ∧ (.closing who ∈ y'.log → .closing who ∈ y.log)) := by
  obtain ⟨y', e, hi'⟩ := turn_inv hi who p k hk
  refine ⟨y', e, hi', ?_⟩
  obtain ⟨-, ⟨fi, wi⟩, own, -⟩ := hi.split who
  cases hp : (y.party who).phase with
  | over =>
    unfold turn at e
    rw [hp] at e
    cases e
    exact ⟨.inl rfl, fun h => by cases h⟩
  | left =>
    unfold turn at e
    rw [hp] at e
    cases e
    exact ⟨.inr (.inr (.inl rfl)), fun h => by cases h⟩
  | waiting c =>
    refine ⟨.inl ?_, fun h => by cases h⟩
    unfold turn at e
    rw [hp] at e
    simp only at e
    split at e
    · split at e
      · cases e; rfl
      · cases e; rfl
    · split at e <;> cases e <;> rfl
  | loop =>
    unfold turn at e
    rw [hp] at e
    simp only at e
    cases hf : (y.party who).flag with
    | true =>
      rw [hf] at e
      simp only [if_true, control_ok _ who 8 k [] hk (.inl rfl) (show ([] : Bytes).length ≤ 125 by decide), Res.ok_bind, Res.pure_eq] at e
      cases e
      refine ⟨.inr (.inl ?_), fun _ h => by cases h⟩
      rw [note_log, upd_log, post_log]
    | false =>
      rw [hf] at e
      simp only [Bool.false_eq_true, if_false] at e
      by_cases hr : readable y who p = true
      · rw [if_pos hr] at e
        have hb : (y.party who).inbox ≠ [] := by
          intro hb
          simp [readable, hb] at hr
        obtain ⟨f, fs', r, rfl, hfit, hread, hun⟩ := wi.read hb
        rw [hread] at e
        simp only [wi.prev hp] at e
        rcases hfit.handled with ⟨e8, he⟩ | ⟨e9, hl9, he⟩ | ⟨e10, he⟩ | ⟨e12, d, hcar, he⟩
        · rw [he] at e
          simp only [perform, control_ok _ who 8 k [] hk (.inl rfl) (show ([] : Bytes).length ≤ 125 by decide), Res.ok_bind] at e
          cases e
          rw [note_log, post_log, upd_log]
          exact ⟨.inr (.inl rfl), fun _ _ h => absurd ((wi.close hp).2 ⟨f, List.mem_cons_self, e8⟩) h⟩
        · rw [he] at e
          simp only [perform, control_ok _ who 10 k f.payload hk (.inr rfl) hl9, Res.ok_bind] at e
          cases e
          rw [post_same, post_log, upd_same, upd_log]
          exact ⟨.inl rfl, fun _ _ _ _ => ⟨rfl, id⟩⟩
        · rw [he] at e
          simp only [perform] at e
          cases e
          rw [upd_same, upd_log]
          exact ⟨.inl rfl, fun _ _ _ _ => ⟨rfl, id⟩⟩
        · rw [he] at e
          simp only [perform] at e
          cases e
          rw [note_party, note_log, upd_same, upd_log]
          exact ⟨.inr (.inr (.inr ⟨_, _, rfl, rfl⟩)), fun _ _ _ _ => ⟨rfl, fun h => by simpa using h⟩⟩
      · rw [if_neg hr] at e
        by_cases hh : hung y who p = true
        · rw [if_pos hh] at e
          cases e
          refine ⟨.inl rfl, fun _ _ _ ho => ?_⟩
          simp [hung, ho] at hh
        · rw [if_neg hh] at e
          cases e
          exact ⟨.inl rfl, fun _ _ _ _ => ⟨hp, id⟩⟩

/-- Nobody was told to close, and nobody does. -/
def Calm (y : Sys) : Prop := ∀ who, (y.party who).phase = .loop ∧ (y.party who).flag = false ∧ .closing who ∉ y.log

theorem step_calm {exts : List Ext} (ha : Agreed exts) {y : Sys} (hi : Inv exts y) (hq : Calm y) (a : Act) (hc : Civil exts a) (hs : ∀ w, a ≠ .signal w) :
    ∃ y', step exts y a = .ok y' ∧ Inv exts y' ∧ Calm y' := by
  obtain ⟨y', e, hi'⟩ := step_inv ha hi a hc
  refine ⟨y', e, hi', fun who => ?_⟩
  have hcase : ∀ w, w = who ∨ w = !who := by intro w; cases w <;> cases who <;> simp
  cases a with
  | signal w => exact absurd rfl (hs w)
  | say w op d k =>
    have ho := step_other e who (fun p k h => by cases h)
    refine ⟨ho.1.trans (hq who).1, (ho.2.2.1 (fun h => by cases h)).trans (hq who).2.1, ?_⟩
    have hl : y'.log = y.log ∨ y'.log = y.log ++ [.said w op d] := by
      simp only [step] at e
      split at e
      · rcases say_ok ha w op d k hc with ⟨e', -⟩ | ⟨f, m, e', -, -, -, -⟩
        · rw [e'] at e; cases e; exact .inl rfl
        · rw [e'] at e
          simp only [Res.ok_bind, written, Res.pure_eq] at e
          cases e
          exact .inr rfl
      · cases e; exact .inl rfl
    rcases hl with hl | hl <;> rw [hl]
    · exact (hq who).2.2
    · intro h
      exact (hq who).2.2 (by simpa using h)
  | turn w p k =>
    obtain ⟨y1, e1, -, hl, hph⟩ := turn_log hi w p k hc
    simp only [step] at e
    rw [e] at e1
    cases e1
    have hcalm := hph (hq w).1 (hq w).2.1 (hq (!w)).2.2 (by rw [(hq (!w)).1]; intro h; cases h)
    have hfl : (y'.party who).flag = false := (step_flag (a := .turn w p k) e who (fun h => by cases h)).trans (hq who).2.1
    rcases hcase w with rfl | rfl
    · exact ⟨hcalm.1, hfl, fun h => (hq w).2.2 (hcalm.2 h)⟩
    · refine ⟨?_, hfl, fun h => ?_⟩
      · refine (step_other (a := .turn (!who) p k) e who (fun p k h => ?_)).1.trans (hq who).1
        exact ne_not who (Act.turn.inj h).1.symm
      · have hn : .closing (!who) ∉ y'.log := fun h => (hq (!who)).2.2 (hcalm.2 h)
        rcases hl with hl | hl | hl | ⟨op, d, hl, -⟩ <;> rw [hl] at h hn
        · exact (hq who).2.2 h
        · exact hn (by simp)
        · exact (hq who).2.2 (by simpa using h)
        · exact (hq who).2.2 (by simpa using h)

theorem exec_calm {exts : List Ext} (ha : Agreed exts) {y : Sys} (hi : Inv exts y) (hq : Calm y) (acts : List Act) (hc : ∀ a ∈ acts, Civil exts a)
    (hs : ∀ w, .signal w ∉ acts) : ∃ y', exec exts y acts = .ok y' ∧ Inv exts y' ∧ Calm y' := by
  induction acts generalizing y with
  | nil => exact ⟨y, rfl, hi, hq⟩
  | cons a t ih =>
    obtain ⟨y1, e1, h1, q1⟩ := step_calm ha hi hq a (hc a List.mem_cons_self) (fun w h => hs w (by rw [h]; exact List.mem_cons_self))
    obtain ⟨y2, e2, h2, q2⟩ := ih h1 q1 (fun x hx => hc x (List.mem_cons_of_mem _ hx)) (fun w h => hs w (List.mem_cons_of_mem _ h))
    refine ⟨y2, ?_, h2, q2⟩
    simp only [exec, e1, Res.ok_bind]
    exact e2

theorem calm_start : Calm {} := fun _ => ⟨rfl, rfl, fun h => by cases h⟩

end Pair
open Pair

/-- **C162**, the messages: whatever programs and loops do, in whatever order, and whatever the network delays, nothing is undefined; each end gets
messages the other one sent before its close frame, unchanged, in order, each once, none left out in between; and no end is announced twice. -/
theorem C162_messages (exts : List Ext) (ha : Agreed exts) (acts : List Act) (hc : ∀ a ∈ acts, Civil exts a) :
    ∃ y, exec exts {} acts = .ok y ∧ ∀ who, heard (!who) y.log <+: spoken who y.log ∧ y.log.count (.ended who) ≤ 1 := by
  obtain ⟨y, e, hi⟩ := exec_inv ha (init_inv exts) acts hc
  refine ⟨y, e, fun who => ?_⟩
  obtain ⟨⟨fs, hw⟩, ho⟩ := hi who
  refine ⟨hw.always, ?_⟩
  rw [ho.over]
  split <;> decide

/-- **C162**, the reason: while no program asked for the close, both ends stay connected, no close frame is sent and no onclose callback is called. -/
theorem C162_reason (exts : List Ext) (ha : Agreed exts) (acts : List Act) (hc : ∀ a ∈ acts, Civil exts a) (hs : ∀ w, .signal w ∉ acts) (y : Sys)
    (h : exec exts {} acts = .ok y) (who : Bool) : connected (y.party who) = true ∧ .closing who ∉ y.log ∧ .ended who ∉ y.log := by
  obtain ⟨y', e, hi, hq⟩ := exec_calm ha (init_inv exts) calm_start acts hc hs
  rw [h] at e
  cases e
  refine ⟨by simp [connected, (hq who).1], (hq who).2.2, fun h => ?_⟩
  have := (hi who).2.ended.1 h
  rw [(hq who).1] at this
  cases this

/-- **C162**, closing: an end that was not told to close by its own program sends a close frame only after it got every message its peer sent before
it closed. So a peer that gets this frame knows that all its messages arrived. -/
theorem C162_answered (exts : List Ext) (ha : Agreed exts) (acts : List Act) (hc : ∀ a ∈ acts, Civil exts a) (y : Sys)
    (h : exec exts {} acts = .ok y) (who : Bool) (hq : .signal (!who) ∉ acts) (hcl : .closing (!who) ∈ y.log) :
    .closing who ∈ y.log ∧ heard (!who) y.log = spoken who y.log := by
  obtain ⟨y', e, hi⟩ := exec_inv ha (init_inv exts) acts hc
  rw [h] at e
  cases e
  obtain ⟨⟨fs, hw⟩, -⟩ := hi who
  have := hw.answered (exec_flag h (!who) hq) hcl
  exact ⟨this.2, this.1⟩

/-- **C162**, the end that closes: once its program asked for the close, the onclose callback is called after at most 13 rounds of the loop, whatever
peer and network do. -/
theorem C162_deadline (exts : List Ext) (ha : Agreed exts) (acts more : List Act) (hc : ∀ a ∈ acts ++ more, Civil exts a) (y : Sys)
    (h : exec exts {} (acts ++ more) = .ok y) (who : Bool) (hs : .signal who ∈ acts) (hn : 13 ≤ more.countP (isTurn who)) : .ended who ∈ y.log := by
  obtain ⟨y', e, hi⟩ := exec_inv ha (init_inv exts) (acts ++ more) hc
  rw [h] at e
  cases e
  rw [exec_append] at h
  cases h1 : exec exts {} acts with
  | ub => rw [h1] at h; cases h
  | ok y1 =>
    rw [h1] at h
    have hf := exec_told h1 who (.inr hs)
    have := exec_stage h who hf
    have hle : stage (y1.party who).phase ≤ 13 := exec_le h1 who
    exact (hi who).2.ended.2 (stage_zero (by omega))

/-- **C162**, the other end: once one end is over, the other one calls its onclose callback too, after as many rounds as bytes were not read yet, and
13 more, in which it sees what there is. -/
theorem C162_follows (exts : List Ext) (ha : Agreed exts) (acts more : List Act) (hc : ∀ a ∈ acts ++ more, Civil exts a) (y1 y : Sys)
    (h1 : exec exts {} acts = .ok y1) (h : exec exts y1 more = .ok y) (who : Bool) (he : .ended who ∈ y1.log)
    (hn : (y1.party (!who)).inbox.length + 13 ≤ more.countP (sees (!who))) : .ended (!who) ∈ y.log := by
  obtain ⟨y1', e1, hi1⟩ := exec_inv ha (init_inv exts) acts (fun a hm => hc a (List.mem_append_left _ hm))
  rw [h1] at e1
  cases e1
  obtain ⟨y', e, hi⟩ := exec_inv ha hi1 more (fun a hm => hc a (List.mem_append_right _ hm))
  rw [h] at e
  cases e
  refine (hi (!who)).2.ended.2 (exec_gone h (!who) ?_ ?_)
  · rw [Bool.not_not]; exact (hi1 who).2.ended.1 he
  · have : stage (y1.party (!who)).phase ≤ 13 := exec_le h1 (!who)
    omega

/-- **C162**, nothing is held back: at any moment, an end that is connected and was not told to close by its own program gets all messages its peer
sent so far, if its loop is given enough rounds in which it sees what there is. -/
theorem C162_delivered (exts : List Ext) (ha : Agreed exts) (acts : List Act) (hc : ∀ a ∈ acts, Civil exts a) (y : Sys)
    (h : exec exts {} acts = .ok y) (who : Bool) (hq : .signal (!who) ∉ acts) (hcon : connected (y.party (!who)) = true) (k : Bytes) (hk : k.length = 4) :
    ∃ n y', exec exts y (List.replicate n (.turn (!who) .ready k)) = .ok y' ∧ heard (!who) y'.log = spoken who y.log := by
  obtain ⟨y0, e, hi⟩ := exec_inv ha (init_inv exts) acts hc
  rw [h] at e
  cases e
  have hf : (y.party (!who)).flag = false := exec_flag h (!who) hq
  have hp : (y.party (!who)).phase = .loop := by
    cases hp : (y.party (!who)).phase with
    | loop => rfl
    | waiting c => rw [((hi (!who)).2.waiting c hp).2] at hf; cases hf
    | left => simp [connected, hp] at hcon
    | over => simp [connected, hp] at hcon
  have := read_all _ hi (!who) k hk hp hf (Nat.le_refl _)
  rw [Bool.not_not] at this
  exact this

/-! ### A conversation -/

private def k4 : Bytes := [1, 2, 3, 4]

/-- A client says two things and pings, the server answers one of them, the client closes, and both end. -/
def conversation : List Act :=
  [.say false 1 b!"hi" k4, .say false 9 b!"?" k4, .turn true .ready k4, .say true 2 [0, 255] k4, .say false 1 b!"bye" k4, .turn false .ready k4,
    .signal false, .turn false .nothing k4, .turn true .ready k4, .turn true .nothing k4, .turn true .ready k4, .turn true .ready k4,
    .turn false .ready k4, .turn false .ready k4, .turn true .nothing k4, .turn false .nothing k4]

def Pair.logOf (r : Res Sys) : Option (List Event) :=
  match r with
  | .ok y => some y.log
  | .ub => none

theorem Pair.conversation_civil : ∀ a ∈ conversation, Civil [] a := by
  have hu : ∀ d : Bytes, Utf8.utf8Ok d = true → Spec.Utf8.IsUtf8 d := fun d h => (C05_utf8Ok d).mp h
  intro a ha
  simp only [conversation, List.mem_cons, List.mem_nil_iff, or_false] at ha
  rcases ha with rfl | rfl | rfl | rfl | rfl | rfl | rfl | rfl | rfl | rfl | rfl | rfl | rfl | rfl | rfl | rfl <;>
    first
    | exact rfl
    | exact trivial
    | exact ⟨rfl, by decide, fun h => (by first | exact hu _ (by decide) | exact absurd h (by decide)), by decide,
        fun r d' h => by cases h; decide⟩

theorem Pair.conversation_log : Pair.logOf (exec [] {} conversation) = some
    [.said false 1 b!"hi", .said false 9 b!"?", .got true 1 b!"hi", .said true 2 [0, 255], .said false 1 b!"bye", .got false 2 [0, 255],
      .closing false, .got true 1 b!"bye", .closing true, .ended true, .ended false] := by decide +kernel

example : Agreed [] ∧ (∀ a ∈ conversation, Civil [] a) ∧ Pair.logOf (exec [] {} conversation) = some
    [.said false 1 b!"hi", .said false 9 b!"?", .got true 1 b!"hi", .said true 2 [0, 255], .said false 1 b!"bye", .got false 2 [0, 255],
      .closing false, .got true 1 b!"bye", .closing true, .ended true, .ended false] :=
  ⟨⟨trivial, fun _ h => (by cases h), fun _ h => (by cases h)⟩, Pair.conversation_civil, Pair.conversation_log⟩

/-- An extension that sends messages backwards. -/
def backwards : Ext := ⟨true, 0x40, some (fun _ _ d => some d.reverse), 0, some (fun _ _ d => some d.reverse), 0⟩

example : Agreed [backwards] ∧ Pair.logOf (exec [backwards] {} [.say false 1 b!"abc" k4, .turn true .ready k4]) =
    some [.said false 1 b!"abc", .got true 1 b!"abc"] := by
  refine ⟨⟨⟨fun _ => ⟨by decide, fun _ h => (by cases h)⟩, trivial⟩, ?_, ?_⟩, by decide +kernel⟩
  · intro e he
    rw [List.mem_singleton.1 he]
    refine ⟨fun f hf => ?_, fun _ => rfl⟩
    cases hf
    exact ⟨_, rfl, fun _ d d' h => by cases h; rw [List.reverse_reverse]⟩
  · intro e he
    rw [List.mem_singleton.1 he]
    decide

/-! ### What is lost -/

/-- **C162**, all messages (false): a client that gets no answer within 11 polls, about half a second, is gone for good; a server that was busy until
then sees the hang-up first, and does not get the messages that were sent and had arrived before the close. -/
theorem C162_slow_false :
    Pair.logOf (exec [] {} ([.say false 1 b!"hi" k4, .signal false] ++ List.replicate 13 (.turn false .nothing k4) ++ [.turn true .hangup k4, .turn true .nothing k4])) =
      some [.said false 1 b!"hi", .closing false, .ended false, .ended true] := by decide +kernel

/-- **C162**, all messages (false): what the peer of the end that closes sent before it saw the close frame is read and dropped. -/
theorem C162_closer_false :
    Pair.logOf (exec [] {} [.signal false, .turn false .nothing k4, .say true 1 b!"hi" k4, .turn true .ready k4, .turn true .nothing k4, .turn false .ready k4,
      .turn false .ready k4, .turn false .nothing k4]) =
      some [.closing false, .said true 1 b!"hi", .closing true, .ended true, .ended false] := by decide +kernel

end Verif.Props
