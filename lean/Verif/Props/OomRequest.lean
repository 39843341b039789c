import Verif.Lemmas.OomRequest
import Verif.Props.Oom
/-!
# C181: running out of memory in the functions on requests

`Model/OomRequest` gives every allocation of the request functions, and of the three functions that make, begin and end the request of a connection, a
name and lets any of them fail. The specification is in `Spec/OomRequest`.
-/
namespace Verif.Props
open Verif Verif.OomRequest
open Verif.UMap (Rc)

namespace OomRequest

/-- All requests for memory at one place fail. -/
def always (s : Spot) : F := fun _ t => t == s

/-- Those with a number that is not smaller. -/
def from' (s : Spot) (k : Nat) : F := fun n t => t == s && decide (k ≤ n)

/-- Whether a run is as it should be, computed. -/
def good (f : F) (prog : List Cmd) : Bool :=
  match run f ⟨{}, [], []⟩ prog with
  | .ok (out, s) =>
    (!(s.reqs.all Option.isNone && s.cons.all Option.isNone) || s.heap.mem.live.isEmpty) &&
      out.all (fun o => (o.2 == 0 || !(o.1 == .ok)) && (!(o.1 == .memory) || decide (0 < o.2)))
  | .ub => false

theorem good_of {f : F} {prog : List Cmd} (h : Good f {} prog) : good f prog = true := by
  obtain ⟨out, s, e, p, q⟩ := h
  simp only [good, e, Bool.and_eq_true, Bool.or_eq_true]
  refine ⟨?_, ?_⟩
  · by_cases h : s.reqs.all Option.isNone && s.cons.all Option.isNone
    · simp only [Bool.and_eq_true, List.all_eq_true, Option.isNone_iff_eq_none] at h
      right
      have := p h.1 h.2
      rw [List.isEmpty_iff]
      exact List.perm_nil.1 this
    · left; simp only [h, Bool.not_false]
  · rw [List.all_eq_true]
    intro o ho
    obtain ⟨q1, q2⟩ := q o ho
    simp only [Bool.and_eq_true, Bool.or_eq_true, beq_iff_eq, Bool.not_eq_true', beq_eq_false_iff_ne, decide_eq_true_eq]
    refine ⟨?_, ?_⟩
    · by_cases z : o.2 = 0
      · exact .inl z
      · exact .inr (q1 (by omega))
    · by_cases z : o.1 = .memory
      · exact .inr (q2 z)
      · exact .inl z

private def a := some b!"a"
private def b := some b!"b"

/-- For each place a way to fail and a program. -/
def witness (s : Spot) : F × List Cmd :=
  match s with
  | .copyText => (always s, [.init, .op 0 (.text 1 a), .duplicate 0, .clean 0, .clean 1])
  | .setText => (always s, [.init, .op 0 (.text 1 a), .clean 0])
  | .copyPut (.empty _) => (always s, [.init, .op 0 (.put .url a none), .duplicate 0, .clean 0, .clean 1])
  | .copyPut _ => (always s, [.init, .op 0 (.put .url a b), .duplicate 0, .clean 0, .clean 1])
  | .put (.grow _) => (always s, [.init, .op 0 (.put .url a b), .op 0 (.put .url a (some b!"long")), .clean 0])
  | .put (.renew _) => (always s, [.init, .op 0 (.put .url a b), .op 0 (.put .url a none), .clean 0])
  | .put (.empty _) => (always s, [.init, .op 0 (.put .url a none), .clean 0])
  | .put _ => (always s, [.init, .op 0 (.put .url a b), .clean 0])
  | .stringBody => (from' s 17, [.init, .op 0 (.stringBody a), .op 0 (.stringBody b), .duplicate 0])
  | .jsonPut (.grow _) => (always s, [.init, .op 0 (.put .header (some b!"Content-Type") b), .op 0 (.jsonBody a), .clean 0])
  | .jsonPut _ => (always s, [.init, .op 0 (.jsonBody a), .clean 0])
  | .conMap _ | .conRequest | .uri => (always s, [.connect, .complete 0])
  | .protocol => (always s, [.connect, .first 0, .complete 0])
  | _ => (always s, [.init, .clean 0])

def allSpots : List Spot :=
  (Oom.allSites.map fun s => [.initMap s, .copyInit s, .copyPut s, .put s, .jsonPut s, .conMap s]).flatten ++
  [.mapBox, .copyText, .copyAddress, .copyBody, .dupBox, .setText, .stringBody, .binaryBody, .jsonBody, .conBox, .conRequest, .uri, .protocol, .verb, .address]

theorem mem_allSpots (s : Spot) : s ∈ allSpots := by
  have pay : ∀ (x : Oom.Site) (l : List Spot), l = [.initMap x, .copyInit x, .copyPut x, .put x, .jsonPut x, .conMap x] → s ∈ l → s ∈ allSpots := by
    intro x l hl hs
    exact List.mem_append_left _ (List.mem_flatten.2 ⟨l, List.mem_map.2 ⟨x, Oom.mem_allSites x, hl.symm⟩, hs⟩)
  cases s with
  | initMap x => exact pay x _ rfl (by simp)
  | copyInit x => exact pay x _ rfl (by simp)
  | copyPut x => exact pay x _ rfl (by simp)
  | put x => exact pay x _ rfl (by simp)
  | jsonPut x => exact pay x _ rfl (by simp)
  | conMap x => exact pay x _ rfl (by simp)
  | _ => exact List.mem_append_right _ (by decide)

theorem witness_only (s : Spot) (n : Nat) (t : Spot) (h : (witness s).1 n t = true) : t = s := by
  revert h
  unfold witness
  split <;> simp [always, from'] <;> intro h <;> simp_all

end OomRequest
open OomRequest

private theorem own_zero (h0 : Oom.H) (fine : FineHeap h0.mem) :
    Memory.Own h0.mem (fun n => Oom.cS cReq ([] : List (Option Req)) n + Oom.cS cCon ([] : List (Option Con)) n + h0.mem.live.count n) := by
  intro n
  refine ⟨by simp [Oom.cS], List.nodup_iff_count.1 fine.1 n |> fun x => by simpa [Oom.cS] using x, fun hn => ?_⟩
  simp only [Oom.cS, Nat.zero_add]
  exact List.count_eq_zero.2 (fun hm => by have := fine.2 n hm; omega)

private theorem none_zero (h0 : Oom.H) : AllC ⟨h0, [], []⟩ := by intro i c e; simp at e

/-- **C181, part.** As long as memory runs out only at the places the code deals with — the block of a duplicated request, its client address, its maps and
its body, the key and the value in `u_map_put`, binary and JSON bodies, the block of a connection, the verb and the client address of its request —
every program on requests and connections is safe: no invalid access, nothing lost, and each call says whether it failed. Missing: the other places, see
`C181_others_false`. -/
theorem C181_partial (f : F) (safe : OnlySafe f) (h0 : Oom.H) (fine : FineHeap h0.mem) (prog : List Cmd) : Good f h0 prog := by
  obtain ⟨out, s, e, o, -, p⟩ := own_run safe prog (s := ⟨h0, [], []⟩) (own_zero h0 fine) (none_zero h0)
  refine ⟨out, s, e, fun hm hr => ?_, p⟩
  rw [List.perm_iff_count]
  intro n
  have := (o n).1
  simp only [Oom.cS_none cReq hm, Oom.cS_none cCon hr] at this
  omega

/-- **C181, part.** And then a call that answers an error changes nothing the program can see in any request, except that its body may be gone. Missing: the
other places, see `C181_body_false`. -/
theorem C181_unharmed_partial (f : F) (safe : OnlySafe f) (h0 : Oom.H) (fine : FineHeap h0.mem) (prog : List Cmd) (out : List (Rc × Nat)) (s : State)
    (hr : run f ⟨h0, [], []⟩ prog = .ok (out, s)) (c : Cmd) :
    ∃ rc s', exec f s c = .ok (rc, s') ∧ (rc ≠ .ok → Unharmed s s') := by
  obtain ⟨out', s1, e, o, a, -⟩ := own_run safe prog (s := ⟨h0, [], []⟩) (own_zero h0 fine) (none_zero h0)
  rw [e, Res.ok.injEq] at hr
  cases hr
  obtain ⟨rc, s', e', -, -, -, k⟩ := own_exec safe c o a
  exact ⟨rc, s', e', k⟩

/-- **C181 fails** at every other place: for each of them there is a program that goes wrong although memory runs out only there. -/
theorem C181_others_false : ∀ s, Occurs s = true → Safe s = false →
    ∃ f prog, (∀ n t, f n t = true → t = s) ∧ ¬ Good f {} prog := by
  have all : ∀ s ∈ allSpots, Occurs s = true → Safe s = false → good (witness s).1 (witness s).2 = false := by decide +kernel
  intro s h1 h2
  refine ⟨(witness s).1, (witness s).2, witness_only s, fun g => ?_⟩
  have := all s (mem_allSpots s) h1 h2
  rw [good_of g] at this
  cases this

namespace OomRequest
/-- The request for memory with this number fails, if it is made there. -/
def once (s : Spot) (k : Nat) : F := fun n t => t == s && n == k
end OomRequest

/-- **C181 fails**: `ulfius_init_request` that cannot allocate one of the four maps cleans a structure nothing was written to, and frees what happens to be
in it; so does every call that makes a request. -/
theorem C181_init_false : run (once .mapBox 3) {} [.init] = .ub ∧ run (once .mapBox 18) {} [.init, .duplicate 0] = .ub ∧
    run (once .mapBox 6) {} [.connect] = .ub := ⟨rfl, rfl, rfl⟩

/-- **C181 fails**: a map of a new request that could not be initialised goes unnoticed, and the first `u_map_put` reads through NULL. -/
theorem C181_map_false :
    (∃ s, run (once (.initMap (.initKeys .call)) 4) {} [.init] = .ok ([(.ok, 1)], s)) ∧
    run (once (.initMap (.initKeys .call)) 4) {} [.init, .op 0 (.put .url a b)] = .ub := by
  exact ⟨⟨_, rfl⟩, rfl⟩

/-- **C181 fails**: a text body that could not be copied leaves the length of the one before: `ulfius_set_string_body_request` answers an error, and copying
the request afterwards reads through NULL. -/
theorem C181_body_false :
    (∃ s s', run (once .stringBody 17) {} [.init, .op 0 (.stringBody a)] = .ok ([(.ok, 0), (.ok, 0)], s) ∧
      exec (once .stringBody 17) s (.op 0 (.stringBody b)) = .ok (.memory, s') ∧ ¬ Unharmed s s') ∧
    run (once .stringBody 17) {} [.init, .op 0 (.stringBody a), .op 0 (.stringBody b), .duplicate 0] = .ub := by
  refine ⟨⟨_, _, rfl, rfl, fun h => ?_⟩, rfl⟩
  obtain ⟨r', e, k⟩ := h.reqs 0 _ rfl
  have := k.body
  cases e
  revert this
  decide

/-- **C181 fails**: a text that could not be copied is missing in the duplicate, which is handed out as if it were complete. -/
theorem C181_duplicate_false :
    ∃ s r d, run (always .copyText) {} [.init, .op 0 (.text 1 a), .duplicate 0] = .ok ([(.ok, 0), (.ok, 0), (.ok, 1)], s) ∧
      s.reqs = [some r, some d] ∧ r.texts[1]? ≠ some .null ∧ d.texts[1]? = some .null := by
  refine ⟨_, _, _, rfl, rfl, by decide, by decide⟩

/-- **C181 fails**: a connection whose request, or whose URL or path, cannot be allocated leaves the three arrays of `map_url_initial` behind; and a protocol that
cannot be copied goes unnoticed. -/
theorem C181_connection_false :
    (∃ s, run (always .conRequest) {} [.connect] = .ok ([(.memory, 1)], s) ∧ s.heap.mem.live.length = 3) ∧
    (∃ s, run (always .uri) {} [.connect] = .ok ([(.memory, 2)], s) ∧ s.heap.mem.live.length = 3) ∧
    (∃ s, run (once .uri 22) {} [.connect] = .ok ([(.memory, 1)], s) ∧ s.heap.mem.live.length = 3) ∧
    (∃ s c, run (always .protocol) {} [.connect, .first 0] = .ok ([(.ok, 0), (.ok, 1)], s) ∧ s.cons = [some c] ∧ c.request.texts[0]? = some .null) := by
  refine ⟨⟨_, rfl, by decide⟩, ⟨_, rfl, by decide⟩, ⟨_, rfl, by decide⟩, ⟨_, _, rfl, rfl, by decide⟩⟩

/-! Examples: memory runs out now and then, wherever the code deals with it. -/
private def scarce : F := fun n s => Safe s && n % 4 == 1
example : OnlySafe scarce := by
  intro n s h
  simp only [scarce, Bool.and_eq_true] at h
  exact h.1
private def busy : List Cmd :=
  [.init, .op 0 (.put .url a b), .op 0 (.put .post a b), .op 0 (.put .post a b), .op 0 (.text 1 a), .op 0 (.binaryBody a), .op 0 (.binaryBody a), .op 0 (.jsonBody a), .duplicate 0,
   .duplicate 0, .connect, .first 0, .within 0 (.put .header a b), .within 0 (.text 0 none), .connect, .connect, .first 1, .first 2, .complete 0, .complete 1, .complete 2,
   .op 1 (.text 2 b), .clean 0, .clean 1, .clean 2]
/-- six calls fail and say so, and nothing is left in the end -/
example : (match run scarce {} busy with | .ok (out, s) => (out.map (fun (o : Rc × Nat) => o.2), s.heap.mem.live) | .ub => ([], [0])) =
    ([0, 1, 0, 0, 0, 0, 1, 0, 1, 1, 0, 0, 1, 0, 0, 1, 0, 0, 0, 0, 0, 0, 0, 0, 0], []) := by
  decide +kernel
/-- the conditions of `C181_unharmed_partial`: a binary body that cannot be copied -/
example : (match run scarce {} (busy.take 6) with | .ok (_, s) => (match exec scarce s (.op 0 (.binaryBody a)) with | .ok (rc, _) => rc == .memory | .ub => false) | .ub => false) = true := by
  decide +kernel
example : FineHeap ({} : Oom.H).mem := ⟨List.nodup_nil, by simp⟩
example : (OomRequest.allSpots.filter (fun s => Occurs s && !Safe s)).length = 29 := by decide +kernel

end Verif.Props
