import Verif.Lemmas.OomInstance
import Verif.Props.Oom
/-!
# C182: running out of memory while endpoints are registered

`Model/OomInstance` gives every allocation of the functions that make, fill and clean an instance a name and lets any of them fail. The specification is
in `Spec/OomInstance`.
-/
namespace Verif.Props
open Verif Verif.OomInstance
open Verif.UMap (Rc)
open Verif.Endpoint (Endpoint)

namespace OomInstance

/-- All requests for memory at one place fail. -/
def always (s : Spot) : F := fun _ t => t == s

/-- The request for memory with this number fails, if it is made there. -/
def once (s : Spot) (k : Nat) : F := fun n t => t == s && n == k

/-- Whether nothing invalid is done, nothing is lost and the calls say whether they failed, computed. -/
def good (f : F) (prog : List Cmd) : Bool :=
  match run f ⟨{}, none⟩ prog with
  | .ok (out, s) =>
    (!s.inst.isNone || s.heap.mem.live.isEmpty) &&
      out.all (fun o => (o.failed == 0 || !(o.rc == .ok)) && (!(o.rc == .memory) || decide (0 < o.failed)))
  | .ub => false

theorem good_of {f : F} {prog : List Cmd} (h : Good f {} prog) : good f prog = true := by
  obtain ⟨out, s, e, p, -, q⟩ := h
  simp only [good, e, Bool.and_eq_true, Bool.or_eq_true]
  refine ⟨?_, ?_⟩
  · by_cases h : s.inst = none
    · right
      rw [List.isEmpty_iff]
      exact List.perm_nil.1 (p h)
    · left
      rw [Bool.not_eq_true', ← Bool.not_eq_true, Option.isNone_iff_eq_none]
      exact h
  · rw [List.all_eq_true]
    intro o ho
    obtain ⟨q1, q2⟩ := q o ho
    simp only [Bool.and_eq_true, Bool.or_eq_true, beq_iff_eq, Bool.not_eq_true', beq_eq_false_iff_ne, decide_eq_true_eq]
    refine ⟨?_, ?_⟩
    · by_cases z : o.failed = 0
      · exact .inl z
      · exact .inr (q1 (by omega))
    · by_cases z : o.rc = .memory
      · exact .inr (q2 z)
      · exact .inl z

/-- `GET` with these texts. -/
def get (pfx format : Option Bytes) (n : Nat) : Endpoint :=
  { method := some b!"GET", pfx := pfx, format := format, priority := 0, callback := some n, userData := 0 }

def api := get (some b!"api") none 1
def cats := get (some b!"api") (some b!"/cats") 2
def onlyCats := get none (some b!"cats") 3

/-- For each place a program. -/
def witness (s : Spot) : List Cmd :=
  match s with
  | .realm => [.init (some b!"realm"), .clean]
  | .grow => [.init none, .add api, .add cats, .clean]
  | .method => [.init none, .add api, .clean]
  | .pfx | .format => [.init none, .add cats, .clean]
  | .argPrefix => [.init none, .add onlyCats, .remove cats, .clean]
  | .argFormat => [.init none, .add api, .remove cats, .clean]
  | .curPrefix => [.init none, .add cats, .remove onlyCats, .clean]
  | .curFormat => [.init none, .add cats, .remove api, .clean]
  | .shrink => [.init none, .add api, .remove api, .clean]
  | _ => [.init none, .clean]

def allSpots : List Spot :=
  Oom.allSites.map .headersMap ++
  [.realm, .headers, .handler, .list, .grow, .method, .pfx, .format, .argPrefix, .argFormat, .curPrefix, .curFormat, .shrink, .default]

theorem mem_allSpots (s : Spot) : s ∈ allSpots := by
  cases s with
  | headersMap x => exact List.mem_append_left _ (List.mem_map.2 ⟨x, Oom.mem_allSites x, rfl⟩)
  | _ => exact List.mem_append_right _ (by decide)

end OomInstance
open OomInstance

/-- **C182, part.** As long as memory runs out only at the places the code deals with — the block of the default headers and of the websocket handler, the first
block of the list of endpoints, the default endpoint — every program is safe: no invalid access, nothing lost, each call says whether it failed, and requests
are compared with exactly the endpoints that were registered by calls that answered `U_OK`. Missing: the other places, see `C182_others_false`. -/
theorem C182_partial (f : F) (safe : OnlySafe f) (h0 : Oom.H) (fine : FineHeap h0.mem) (prog : List Cmd) (ends : AddsNoEnd prog) : Good f h0 prog := by
  have o : Memory.Own h0.mem (fun n => h0.mem.live.count n) := by
    intro n
    exact ⟨rfl, List.nodup_iff_count.1 fine.1 n, fun hn => List.count_eq_zero.2 (fun hm => by have := fine.2 n hm; omega)⟩
  obtain ⟨out, s, l, e, I, r, p⟩ := own_run safe prog ends (s := ⟨h0, none⟩) (l := []) ⟨rfl, o⟩
  refine ⟨out, s, e, fun hm => ?_, r, p⟩
  unfold OomInstance.Inv at I
  rw [hm] at I
  rw [List.perm_iff_count]
  intro n
  exact (I.2 n).1

/-- **C182 fails** at every other place: for each of them there is a program that goes wrong although memory runs out only there. -/
theorem C182_others_false : ∀ s, Occurs s = true → Safe s = false →
    ∃ f prog, (∀ n t, f n t = true → t = s) ∧ AddsNoEnd prog ∧ ¬ Good f {} prog := by
  have all : ∀ s ∈ allSpots, Occurs s = true → Safe s = false → good (always s) (OomInstance.witness s) = false := by decide +kernel
  intro s h1 h2
  refine ⟨always s, OomInstance.witness s, fun n t h => by simpa [always] using h, ?_, fun g => ?_⟩
  · intro e he
    have : e = api ∨ e = cats ∨ e = onlyCats := by
      revert he
      unfold OomInstance.witness
      split <;> simp <;> grind
    rcases this with rfl | rfl | rfl <;> simp [Spec.Routing.Null, api, cats, onlyCats, OomInstance.get]
  · have := all s (mem_allSpots s) h1 h2
    rw [good_of g] at this
    cases this

/-- **C182 fails**: an endpoint whose method or whose only text could not be copied is refused, but stays in the list, and nothing is behind it: the next request,
and cleaning the instance, read through NULL or memory nobody wrote, even when another endpoint was added after it. -/
theorem C182_refused_false :
    (∃ s, run (always .method) {} [.init none, .add api] = .ok ([⟨.ok, 0, []⟩, ⟨.memory, 1, []⟩], s)) ∧
    run (always .method) {} [.init none, .add api, .request] = .ub ∧
    (∃ s, run (always .pfx) {} [.init none, .add api] = .ok ([⟨.ok, 0, []⟩, ⟨.memory, 1, []⟩], s)) ∧
    run (always .pfx) {} [.init none, .add api, .request] = .ub ∧ run (always .pfx) {} [.init none, .add api, .clean] = .ub ∧
    (∃ s, run (once .method 6) {} [.init none, .add api, .add cats] = .ok ([⟨.ok, 0, []⟩, ⟨.memory, 1, []⟩, ⟨.ok, 0, []⟩], s)) ∧
    run (once .method 6) {} [.init none, .add api, .add cats, .request] = .ub :=
  ⟨⟨_, rfl⟩, rfl, ⟨_, rfl⟩, rfl, rfl, ⟨_, rfl⟩, rfl⟩

/-- **C182 fails**: when nothing at all can be copied, what is stored is the mark of the end: `U_OK` is answered, and the endpoints added afterwards are never found. -/
theorem C182_end_false :
    ∃ s, run (fun n t => (t == .method || t == .pfx || t == .format) && decide (n < 10)) {} [.init none, .add cats, .add api, .request] =
      .ok ([⟨.ok, 0, []⟩, ⟨.ok, 3, []⟩, ⟨.ok, 0, []⟩, ⟨.ok, 0, []⟩], s) := ⟨_, rfl⟩

/-- **C182 fails**: an endpoint of which only the prefix, or only the format, could not be copied is registered for other URLs, and `U_OK` is answered. -/
theorem C182_changed_false :
    (∃ s, run (always .pfx) {} [.init none, .add cats, .request] =
      .ok ([⟨.ok, 0, []⟩, ⟨.ok, 1, []⟩, ⟨.ok, 0, [OomInstance.get none (some b!"/cats") 2]⟩], s)) ∧
    (∃ s, run (always .format) {} [.init none, .add cats, .request] =
      .ok ([⟨.ok, 0, []⟩, ⟨.ok, 1, []⟩, ⟨.ok, 0, [OomInstance.get (some b!"api") none 2]⟩], s)) := ⟨⟨_, rfl⟩, ⟨_, rfl⟩⟩

/-- **C182 fails**: a list that could not be enlarged, or made smaller, is lost with all its endpoints, while `nb_endpoints` still counts them: the next
`ulfius_remove_endpoint` reads through NULL. -/
theorem C182_lost_false :
    (∃ s, run (always .grow) {} [.init none, .add api, .add cats, .request] =
      .ok ([⟨.ok, 0, []⟩, ⟨.ok, 0, []⟩, ⟨.memory, 1, []⟩, ⟨.ok, 0, []⟩], s)) ∧
    run (always .grow) {} [.init none, .add api, .add cats, .remove api] = .ub ∧
    (∃ s, run (once .shrink 16) {} [.init none, .add api, .add cats, .remove cats, .request] =
      .ok ([⟨.ok, 0, []⟩, ⟨.ok, 0, []⟩, ⟨.ok, 0, []⟩, ⟨.memory, 1, []⟩, ⟨.ok, 0, []⟩], s)) ∧
    run (once .shrink 16) {} [.init none, .add api, .add cats, .remove cats, .remove api] = .ub :=
  ⟨⟨_, rfl⟩, rfl, ⟨_, rfl⟩, rfl⟩

/-- **C182 fails**: `ulfius_remove_endpoint` that cannot copy a text compares without it, and removes another endpoint than the one named. -/
theorem C182_wrong_false :
    (∃ s, run (always .argFormat) {} [.init none, .add api, .add cats, .remove cats, .request] =
      .ok ([⟨.ok, 0, []⟩, ⟨.ok, 0, []⟩, ⟨.ok, 0, []⟩, ⟨.ok, 1, []⟩, ⟨.ok, 0, [cats]⟩], s)) ∧
    (∃ s, run (always .curPrefix) {} [.init none, .add cats, .remove onlyCats, .request] =
      .ok ([⟨.ok, 0, []⟩, ⟨.ok, 0, []⟩, ⟨.ok, 1, []⟩, ⟨.ok, 0, []⟩], s)) := ⟨⟨_, rfl⟩, ⟨_, rfl⟩⟩

/-- **C182 fails**: an instance whose realm could not be copied, or whose default headers could not be initialised, is handed out as if it were complete. -/
theorem C182_init_false :
    (∃ s i, run (always .realm) {} [.init (some b!"realm")] = .ok ([⟨.ok, 1, []⟩], s) ∧ s.inst = some i ∧ i.realm = .null) ∧
    (∃ s i m, run (always (.headersMap (.initKeys .call))) {} [.init none] = .ok ([⟨.ok, 1, []⟩], s) ∧ s.inst = some i ∧ i.headers = some m ∧ m.keys = .null) :=
  ⟨⟨_, _, rfl, rfl, rfl⟩, ⟨_, _, _, rfl, rfl, rfl, rfl⟩⟩

/-! Examples: memory runs out now and then, wherever the code deals with it. -/
private def scarce : F := fun n s => Safe s && n % 3 == 1
example : OnlySafe scarce := by
  intro n s h
  simp only [scarce, Bool.and_eq_true] at h
  exact h.1
private def busy : List Cmd :=
  [.init (some b!"r"), .init none, .init (some b!"r"), .add api, .add api, .add cats, .add onlyCats, .request, .setDefault, .setDefault, .remove api, .remove api, .request, .clean,
   .init none, .request]
/-- two calls fail and say so -/
example : (match run scarce {} busy with | .ok (out, s) => (out.map (fun (o : Out) => (o.rc, o.failed, o.seen.map Endpoint.callback)), s.heap.mem.live.length) | .ub => ([], 0)) =
    ([(.memory, 1, []), (.ok, 0, []), (.params, 0, []), (.memory, 1, []), (.ok, 0, []), (.ok, 0, []), (.ok, 0, []), (.ok, 0, [some 1, some 2, some 3]), (.ok, 0, []),
      (.ok, 0, []), (.ok, 0, []), (.notFound, 0, []), (.ok, 0, [some 2, some 3]), (.ok, 0, []), (.ok, 0, []), (.ok, 0, [])], 5) := by
  decide +kernel
example : AddsNoEnd busy := by
  intro e he
  have : e = api ∨ e = cats ∨ e = onlyCats := by simpa [busy] using he
  rcases this with rfl | rfl | rfl <;> simp [Spec.Routing.Null, api, cats, onlyCats, OomInstance.get]
example : FineHeap ({} : Oom.H).mem := ⟨List.nodup_nil, by simp⟩
example : (OomInstance.allSpots.filter (fun s => Occurs s && !Safe s)).length = 13 := by decide +kernel

end Verif.Props
