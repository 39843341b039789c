import Verif.Lemmas.OomWs
import Verif.Props.Oom
/-!
# C183: running out of memory on a websocket

`Model/OomWs` gives every allocation for the messages of a websocket a name and lets any of them fail. The specification is in `Spec/OomWs`.
-/
namespace Verif.Props
open Verif Verif.OomWs

namespace OomWs

/-- All requests for memory at one place fail. -/
def always (s : Spot) : F := fun _ t => t == s

/-- The request for memory with this number fails, if it is made there. -/
def once (s : Spot) (k : Nat) : F := fun n t => t == s && n == k

/-- What an event says of itself, computed. -/
def fair : Ev → Out → Bool
  | .arrives _, o => o.failed == 0 || !o.alive
  | .send b _ outs, o => !(o.rc == .ok) || (o.failed == 0 && through b outs == some o.sent.flatten && !o.sent.isEmpty)
  | .close _, o => !(o.rc == .ok) || o.sent == [[]]
  | _, _ => true

def fairAll : List Ev → List Out → Bool
  | e :: t, o :: out => fair e o && fairAll t out
  | _, _ => true

/-- Whether nothing invalid is done, nothing is lost and the calls say whether they failed, computed. -/
def good (f : F) (evs : List Ev) : Bool :=
  match session f true {} evs with
  | .ok (out, h) => h.mem.live.isEmpty && (match out with | none => true | some l => fairAll evs l)
  | .ub => false

theorem fair_of {a : Bool} {s s' : Store} {o : Out} {e : Ev} (alive : o.alive = true → a = true) (h : Step true a s o s' e) : fair e o = true := by
  cases e with
  | arrives x =>
    simp only [fair, Bool.or_eq_true, beq_iff_eq, Bool.not_eq_true']
    by_cases ha : a = true
    · subst ha
      by_cases z : o.failed = 0
      · exact .inl z
      · exact .inr (h.1.fails (by omega)).1
    · right
      cases hb : o.alive with
      | false => rfl
      | true => exact absurd (alive hb) ha
  | send b frag outs =>
    simp only [fair, Bool.or_eq_true, Bool.and_eq_true, beq_iff_eq, Bool.not_eq_true', beq_eq_false_iff_ne]
    by_cases z : o.rc = .ok
    · obtain ⟨h1, c, h2, h3⟩ := h.1.done z
      refine .inr ⟨⟨h1, by rw [h2, h3.1]⟩, ?_⟩
      cases hs : o.sent with
      | nil => exact absurd hs h3.2.1
      | cons => rfl
    · exact .inl z
  | close reads =>
    simp only [fair, Bool.or_eq_true, beq_iff_eq, Bool.not_eq_true', beq_eq_false_iff_ne]
    by_cases z : o.rc = .ok
    · exact .inr (h.2.1 z).1
    · exact .inl z
  | _ => rfl

theorem fairAll_of {a : Bool} {s : Store} {evs : List Ev} {out : List Out} (h : Right true a s evs out) : fairAll evs out = true := by
  induction h with
  | nil => rfl
  | cons a s e t o out s' st _ ih =>
    simp only [fairAll, ih, Bool.and_true]
    refine fair_of ?_ st
    intro ho
    cases e with
    | arrives x =>
      cases a with
      | true => rfl
      | false => simp only [Step, Bool.false_eq_true, if_false] at st; rw [st.2.2.1] at ho; cases ho
    | send => rw [← st.2.1]; exact ho
    | close => rw [st.1] at ho; cases ho
    | pop i => cases i <;> (rw [← st.1]; exact ho)
    | keep => rw [← st.1]; exact ho

theorem good_of {f : F} {evs : List Ev} (h : Good f true {} evs) : good f evs = true := by
  obtain ⟨out, h, e, p, -, q⟩ := h
  simp only [good, e, Bool.and_eq_true]
  refine ⟨by rw [List.isEmpty_iff]; exact List.perm_nil.1 p, ?_⟩
  cases out with
  | none => rfl
  | some l => exact fairAll_of (q l rfl)

def text (b : Bytes) : Ev := .arrives { op := .first, fin := true, data := b }
def begins (b : Bytes) : Ev := .arrives { op := .first, fin := false, data := b }
def goesOn (b : Bytes) : Ev := .arrives { op := .continue, fin := false, data := b }
def ends (b : Bytes) : Ev := .arrives { op := .continue, fin := true, data := b }

/-- For each place a connection. -/
def witness : Spot → List Ev
  | .message false | .unmasked => [text b!"one"]
  | .merge => [begins b!"one", ends b!"two"]
  | .box true => [.close []]
  | .frame => [.send [] 0 []]
  | .pushIn false => [text b!"one", text b!"two"]
  | .pushDrain true => [.close [b!"one"]]
  | .pushDrain false => [.close [b!"one", b!"two"]]
  | .pushOut true => [.send b!"one" 0 []]
  | .pushOut false => [.send b!"one" 0 [], .send b!"two" 0 []]
  | .shrink => [text b!"one", text b!"two", .pop true]
  | _ => []

def allSpots : List Spot :=
  [.manager, .listIn, .listOut, .message true, .message false, .payload, .unmasked, .merge, .inCopy, .inNew, .outCopy, .outNew, .box true, .box false, .data,
    .frame, .pushIn true, .pushIn false, .pushDrain true, .pushDrain false, .pushOut true, .pushOut false, .shrink]

theorem mem_allSpots (s : Spot) : s ∈ allSpots := by
  cases s with
  | message b | box b | pushIn b | pushDrain b | pushOut b => cases b <;> decide
  | _ => decide

end OomWs
open OomWs

/-- **C183, part.** As long as memory runs out only at the places the code deals with — the manager and its second list, the payload of a frame, the copies made for
the extensions, the copy of a message to send, the first message that is kept, anything read while an answer to `close` is awaited — every connection is as
it should be: the callback is shown the messages of the other side, whole and in order, until a failure ends the connection; a call that sends answers
`U_OK` exactly if the whole message was sent, and otherwise nothing was; the messages that are kept are the ones shown and sent; nothing invalid is done, and
nothing is lost. Missing: the other places, see `C183_others_false`. -/
theorem C183_partial (f : F) (safe : OnlySafe f) (exts : Bool) (h0 : Oom.H) (fine : FineHeap h0.mem) (evs : List Ev) : Good f exts h0 evs := by
  have o : Memory.Own h0.mem (fun n => h0.mem.live.count n) := by
    intro n
    exact ⟨rfl, List.nodup_iff_count.1 fine.1 n, fun hn => List.count_eq_zero.2 (fun hm => by have := fine.2 n hm; omega)⟩
  rcases own_init safe o with ⟨w, h1, e1, o1, x1, k1, k2, k3⟩ | ⟨h1, e1, o1, x1⟩
  · obtain ⟨out, w', h2, e2, o2, k⟩ := own_events safe exts evs (w := w) o1 (fun _ => rfl)
    obtain ⟨h3, e3, o3, x3⟩ := own_finish (w := w') (d := fun n => h0.mem.live.count n) o2 (fun _ => rfl)
    refine ⟨some out, h3, by simp [session, e1, e2, e3], ?_, by simp, ?_⟩
    · rw [List.perm_iff_count]
      intro n
      exact (o3 n).1
    · intro l hl
      cases hl
      rw [k1, k2, k3] at k
      exact k
  · refine ⟨none, h1, by simp [session, e1], ?_, fun _ => x1, by simp⟩
    rw [List.perm_iff_count]
    intro n
    exact (o1 n).1

/-- **C183 fails** at every other place: for each of them there is a connection that goes wrong although memory runs out only there. -/
theorem C183_others_false : ∀ s, Safe s = false → ∃ f evs, (∀ n t, f n t = true → t = s) ∧ ¬ Good f true {} evs := by
  have all : ∀ s ∈ allSpots, Safe s = false → good (OomWs.always s) (OomWs.witness s) = false := by decide +kernel
  intro s h
  refine ⟨OomWs.always s, OomWs.witness s, fun n t h => by simpa [OomWs.always] using h, fun g => ?_⟩
  have := all s (OomWs.mem_allSpots s) h
  rw [OomWs.good_of g] at this
  cases this

/-- **C183 fails**: a frame for whose message, or whose payload without the mask, there is no memory is read through NULL; a first list that cannot be
allocated makes the library free a pointer never written. -/
theorem C183_null_false :
    session (OomWs.always (.message false)) true {} [text b!"one"] = .ub ∧ session (OomWs.always .unmasked) true {} [text b!"one"] = .ub ∧
    session (OomWs.always .listIn) true {} [] = .ub := ⟨rfl, rfl, rfl⟩

/-- **C183 fails**: when the list of messages cannot be enlarged, or made smaller, it is lost while its length stays: the end of the connection reads through
NULL. -/
theorem C183_list_false :
    session (OomWs.always (.pushIn false)) true {} [text b!"one", text b!"two"] = .ub ∧
    session (OomWs.always (.pushOut false)) true {} [.send b!"one" 0 [], .send b!"two" 0 []] = .ub ∧
    session (OomWs.always .shrink) true {} [text b!"one", text b!"two", .pop true] = .ub := ⟨rfl, rfl, rfl⟩

/-- **C183 fails**: `U_OK` is answered for a `close` and for an empty message that were not sent; of a message in fragments the beginning is sent, and never the
end; a message that was sent and could not be kept is lost, and `U_OK` is answered. -/
theorem C183_sent_false :
    session (OomWs.always (.box true)) true {} [.close []] = .ok (some [⟨.ok, 1, [], none, false⟩], ⟨{ live := [], next := 4 }, 1⟩) ∧
    session (OomWs.always .frame) true {} [.send [] 0 []] = .ok (some [⟨.ok, 1, [], none, true⟩], ⟨{ live := [], next := 6 }, 1⟩) ∧
    (∃ h, session (once .frame 7) true {} [.send b!"onetwo" 3 []] = .ok (some [⟨.memory, 1, [b!"one"], none, true⟩], h)) ∧
    (∃ h, session (OomWs.always (.pushOut true)) true {} [.send b!"one" 0 []] = .ok (some [⟨.ok, 1, [b!"one"], none, true⟩], h) ∧ h.mem.live ≠ []) :=
  ⟨rfl, rfl, ⟨_, rfl⟩, ⟨_, rfl, by decide⟩⟩

/-- **C183 fails**: when a fragment cannot be appended to the ones before, their data are lost. -/
theorem C183_fragment_false :
    ∃ h, session (OomWs.always .merge) true {} [begins b!"one", ends b!"two"] =
      .ok (some [⟨.ok, 0, [], none, true⟩, ⟨.ok, 1, [], none, false⟩], h) ∧ h.mem.live ≠ [] := ⟨_, rfl, by decide⟩

-- memory runs out in the middle of a connection
example : (match session (once .payload 15) true {} [text b!"one", .send b!"onetwo" 3 [], begins b!"a", ends b!"b", .pop true, .send b!"x" 0 []] with
    | .ok (some l, h) => l == [⟨.ok, 0, [], some b!"one", true⟩, ⟨.ok, 0, [b!"one", b!"two"], none, true⟩, ⟨.ok, 1, [], none, false⟩,
        ⟨.params, 0, [], none, false⟩, ⟨.ok, 0, [], some b!"one", false⟩, ⟨.params, 0, [], none, false⟩] && h.mem.live == []
    | _ => false) = true := by decide +kernel

example : OnlySafe (once .payload 15) := by
  intro n s h
  have : s = .payload := by
    simp only [once, Bool.and_eq_true, beq_iff_eq] at h
    exact h.1
  rw [this]; rfl

-- with extensions: a message that cannot be copied for them is not sent, and the websocket goes on
example : (match session (OomWs.always .outNew) true {} [.send b!"one" 0 [some b!"eno"], .send b!"two" 0 []] with
    | .ok (some l, h) => l == [⟨.memory, 1, [], none, true⟩, ⟨.ok, 0, [b!"two"], none, true⟩] && h.mem.live == []
    | _ => false) = true := by decide +kernel

end Verif.Props
