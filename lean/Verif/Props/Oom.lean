import Verif.Lemmas.Oom
import Verif.Props.Memory
/-!
# C177: running out of memory in the functions on maps and responses

`Model/Oom` gives every allocation of `u_map.c` and of the response functions a name and lets any of them fail. The specification is in
`Spec/Oom`.
-/
namespace Verif.Props
open Verif Verif.Oom
open Verif.UMap (Rc)

namespace Oom

/-- All requests for memory at one place fail. -/
def always (s : Site) : F := fun _ t => t == s

/-- Whether a run is as it should be, computed. -/
def good (f : F) (prog : List Cmd) : Bool :=
  match run f ⟨{}, [], []⟩ prog with
  | .ok (out, s) =>
    (!(s.maps.all Option.isNone && s.resps.all Option.isNone) || s.heap.mem.live.isEmpty) &&
      out.all (fun o => (o.2 == 0 || !(o.1 == .ok)) && (!(o.1 == .memory) || decide (0 < o.2)))
  | .ub => false

theorem good_of {f : F} {prog : List Cmd} (h : Good f {} prog) : good f prog = true := by
  obtain ⟨out, s, e, p, q⟩ := h
  simp only [good, e, Bool.and_eq_true, Bool.or_eq_true]
  refine ⟨?_, ?_⟩
  · by_cases h : s.maps.all Option.isNone && s.resps.all Option.isNone
    · simp only [Bool.and_eq_true, List.all_eq_true, Option.isNone_iff_eq_none] at h
      right
      have := p h.1 h.2
      rw [List.isEmpty_iff]
      exact List.perm_nil.1 this
    · left; simp only [h, Bool.not_false]
  · rw [List.all_eq_true]
    intro o ho
    obtain ⟨q1, q2⟩ := q o ho
    simp only [Bool.and_eq_true, Bool.or_eq_true, beq_iff_eq, Bool.not_eq_true', beq_eq_false_iff_ne, decide_eq_true_eq]
    refine ⟨?_, ?_⟩
    · by_cases z : o.2 = 0
      · exact .inl z
      · exact .inr (q1 (by omega))
    · by_cases z : o.1 = .memory
      · exact .inr (q2 z)
      · exact .inl z

private def a := some b!"a"
private def b := some b!"b"

/-- For each place a way to fail and a program. -/
def witness (s : Site) : F × List Cmd :=
  match s with
  | .initKeys _ | .initValues _ | .initLengths _ | .respHandle | .respList => (always s, [.response])
  | .key _ | .value _ => (always s, [.response, .op 0 (.jsonBody a), .clean 0])
  | .empty .copy => (always s, [.map, .put 0 a none, .copy 0, .drop 0, .drop 1])
  | .empty _ => (always s, [.map, .put 0 a none, .drop 0])
  | .keys .json | .values .json | .lengths .json => (always s, [.response, .op 0 (.jsonBody a), .clean 0])
  | .keys .copy | .values .copy | .lengths .copy => (always s, [.map, .put 0 a b, .copy 0, .drop 0, .drop 1])
  | .keys _ | .values _ | .lengths _ => (always s, [.map, .put 0 a b, .drop 0])
  | .grow .json => (always s, [.response, .op 0 (.header (some b!"Content-Type") b), .op 0 (.jsonBody a), .clean 0])
  | .grow _ => (always s, [.map, .put 0 a b, .put 0 a (some b!"long"), .drop 0])
  | .renew _ => (always s, [.map, .put 0 a b, .put 0 a none, .drop 0])
  | .stringBody => (fun n t => t == s && decide (6 < n), [.response, .op 0 (.stringBody a), .op 0 (.stringBody b), .op 0 .exported])
  | .realm => (always s, [.response, .op 0 (.realm a), .clean 0])
  | .cookieArrayGrow => (always s, [.response, .op 0 (.cookie a a none none none), .op 0 (.cookie b a none none none), .clean 0])
  | .cookieText _ =>
    (fun n t => t == s && decide (n < 8), [.response, .op 0 (.cookie a a none none none), .op 0 (.cookie b a none none none), .clean 0])
  | .cookieEmpty true => (always s, [.response, .op 0 (.cookie a none none none none), .clean 0])
  | .cookieEmpty false => (always s, [.response, .op 0 (.cookie a a none none none), .op 0 (.cookie b none none none none), .clean 0])
  | .replaceText => (always s, [.response, .op 0 (.cookie a a none none none), .op 0 (.cookie a b none none none), .op 0 (.answer (true, true, true))])
  | .replaceEmpty =>
    (always s, [.response, .op 0 (.cookie a a none none none), .op 0 (.cookie a none none none none), .op 0 (.answer (true, true, true))])
  | .buffer => (always s, [.response, .op 0 (.stringBody a), .op 0 (.answer (true, true, true)), .clean 0])
  | _ => (always s, [])

def allPlaces : List Place := [.call, .copy, .json, .init]

def allSites : List Site :=
  (allPlaces.map fun w => [.initKeys w, .initValues w, .initLengths w, .key w, .value w, .empty w, .keys w, .values w, .lengths w, .grow w, .renew w]).flatten ++
  [.copyBox, .respMap, .respHandle, .respList, .stringBody, .binaryBody, .jsonBody, .realm, .cookieArray, .cookieArrayGrow, .cookieText true,
   .cookieText false, .cookieEmpty true, .cookieEmpty false, .replaceText, .replaceEmpty, .attribute, .buffer, .errorBody]

theorem mem_allSites (s : Site) : s ∈ allSites := by
  cases s with
  | cookieText x => cases x <;> decide
  | cookieEmpty x => cases x <;> decide
  | initKeys w => cases w <;> decide
  | initValues w => cases w <;> decide
  | initLengths w => cases w <;> decide
  | key w => cases w <;> decide
  | value w => cases w <;> decide
  | empty w => cases w <;> decide
  | keys w => cases w <;> decide
  | values w => cases w <;> decide
  | lengths w => cases w <;> decide
  | grow w => cases w <;> decide
  | renew w => cases w <;> decide
  | _ => decide

theorem witness_only (s : Site) (n : Nat) (t : Site) (h : (witness s).1 n t = true) : t = s := by
  revert h
  unfold witness
  split <;> simp [always] <;> intro h <;> simp_all

end Oom
open Oom

private theorem own_zero (h0 : H) (fine : FineHeap h0.mem) :
    Memory.Own h0.mem (fun n => cS cM ([] : List (Option Map)) n + cS cR ([] : List (Option Resp)) n + h0.mem.live.count n) := by
  intro n
  refine ⟨by simp [cS], List.nodup_iff_count.1 fine.1 n |> fun x => by simpa [cS] using x, fun hn => ?_⟩
  simp only [cS, Nat.zero_add]
  exact List.count_eq_zero.2 (fun hm => by have := fine.2 n hm; omega)

/-- **C177, part.** As long as memory runs out only at the places the code deals with — `u_map_init`, the key and the value in `u_map_put`, the copy of a
map, the first allocation of `ulfius_init_response`, binary and JSON bodies, the array for the first cookie and the texts of the others, and all
texts for the `Set-Cookie` headers — every program on maps and responses is safe: no invalid access, nothing lost, and each call says whether it failed.
Missing: the other places, see `C177_others_false`. -/
theorem C177_partial (f : F) (safe : OnlySafe f) (h0 : H) (fine : FineHeap h0.mem) (prog : List Cmd) : Good f h0 prog := by
  obtain ⟨out, s, e, o, p⟩ := own_run safe prog (s := ⟨h0, [], []⟩) (own_zero h0 fine)
  refine ⟨out, s, e, fun hm hr => ?_, p⟩
  rw [List.perm_iff_count]
  intro n
  have := (o n).1
  simp only [cS_none cM hm, cS_none cR hr] at this
  omega

/-- **C177, part.** And then a call that answers an error changes nothing the program can see in any object, except that the body of a response may be
gone. Missing: the other places, see `C177_damage_false`. -/
theorem C177_unharmed_partial (f : F) (safe : OnlySafe f) (h0 : H) (fine : FineHeap h0.mem) (prog : List Cmd) (out : List (Rc × Nat)) (s : State)
    (hr : run f ⟨h0, [], []⟩ prog = .ok (out, s)) (c : Cmd) :
    ∃ rc s', exec f s c = .ok (rc, s') ∧ (rc ≠ .ok → Unharmed s s') := by
  obtain ⟨out', s1, e, o, -⟩ := own_run safe prog (s := ⟨h0, [], []⟩) (own_zero h0 fine)
  rw [e, Res.ok.injEq] at hr
  cases hr
  obtain ⟨rc, s', e', -, -, k⟩ := own_exec safe c o
  exact ⟨rc, s', e', k⟩

/-- **C177 fails** at every other place: for each of them there is a program that goes wrong although memory runs out only there. It reads or frees what is
not there, loses blocks, or a call answers `U_OK` although it could not do what it was asked to. -/
theorem C177_others_false : ∀ s, Occurs s = true → Safe s = false →
    ∃ f prog, (∀ n t, f n t = true → t = s) ∧ ¬ Good f {} prog := by
  have all : ∀ s ∈ allSites, Occurs s = true → Safe s = false → good (witness s).1 (witness s).2 = false := by decide +kernel
  intro s h1 h2
  refine ⟨(witness s).1, (witness s).2, witness_only s, fun g => ?_⟩
  have := all s (mem_allSites s) h1 h2
  rw [good_of g] at this
  cases this

namespace Oom

/-- The request for memory with this number fails, if it is made there. -/
def once (s : Site) (k : Nat) : F := fun n t => t == s && n == k

/-- A map with one entry, and a second `u_map_put`. -/
def two : List Cmd := [.map, .put 0 a b, .put 0 b b]

end Oom

/-- **C177 fails**: `u_map_put` that cannot enlarge one of the arrays answers `U_ERROR_MEMORY`, but the map cannot be used any more. Once the keys or
the values could not be enlarged, cleaning it reads through NULL; once the lengths could not be, a key that was freed stays in it, and reading the
keys is a use after free. -/
theorem C177_map_false :
    (∃ s, run (once (.keys .call) 10) {} two = .ok ([(.ok, 0), (.ok, 0), (.memory, 1)], s)) ∧ run (once (.keys .call) 10) {} (two ++ [.drop 0]) = .ub ∧
    (∃ s, run (once (.values .call) 11) {} two = .ok ([(.ok, 0), (.ok, 0), (.memory, 1)], s)) ∧ run (once (.values .call) 11) {} (two ++ [.drop 0]) = .ub ∧
    (∃ s, run (once (.lengths .call) 12) {} two = .ok ([(.ok, 0), (.ok, 0), (.memory, 1)], s)) ∧ run (once (.lengths .call) 12) {} (two ++ [.read 0]) = .ub := by
  refine ⟨⟨_, rfl⟩, rfl, ⟨_, rfl⟩, rfl, ⟨_, rfl⟩, rfl⟩

/-- **C177 fails**: and in the last case every later `u_map_put` of a new key answers `U_OK` without storing anything, however much memory there is
again. -/
theorem C177_forgotten_false :
    ∃ s m, run (once (.lengths .call) 12) {} (two ++ [.put 0 (some b!"c") b]) = .ok ([(.ok, 0), (.ok, 0), (.memory, 1), (.ok, 0)], s) ∧
      s.maps = [some m] ∧ m.entries.map (·.key) = [b!"a"] := by
  refine ⟨_, _, rfl, rfl, by decide⟩

/-- **C177 fails**: a text body that could not be copied leaves the length of the one before, and exporting the response reads through NULL; a cookie
that replaces another and could not be copied leaves its fields NULL, and answering the request reads through them. -/
theorem C177_response_false :
    (∃ s, run (once .stringBody 7) {} [.response, .op 0 (.stringBody a), .op 0 (.stringBody b)] = .ok ([(.ok, 0), (.ok, 0), (.memory, 1)], s)) ∧
    run (once .stringBody 7) {} [.response, .op 0 (.stringBody a), .op 0 (.stringBody b), .op 0 .exported] = .ub ∧
    (∃ s, run (always .replaceText) {} [.response, .op 0 (.cookie a a none none none), .op 0 (.cookie a b none none none)] =
      .ok ([(.ok, 0), (.ok, 0), (.memory, 1)], s)) ∧
    run (always .replaceText) {} [.response, .op 0 (.cookie a a none none none), .op 0 (.cookie a b none none none), .op 0 (.answer (true, true, true))] = .ub := by
  refine ⟨⟨_, rfl⟩, rfl, ⟨_, rfl⟩, rfl⟩

/-- **C177 fails**: an answer whose body could not be copied for libmicrohttpd is the text of an error, and the copy of that text is lost; the handler
has no way to know. -/
theorem C177_answer_false :
    ∃ s, run (always .buffer) {} [.response, .op 0 (.stringBody a), .op 0 (.answer (false, false, false)), .clean 0] =
      .ok ([(.ok, 0), (.ok, 0), (.ok, 1), (.ok, 0)], s) ∧ s.heap.mem.live.length = 1 := ⟨_, rfl, by decide⟩

/-- **C177 fails**: a value that could not be enlarged is lost, although `u_map_put` answered `U_ERROR_MEMORY`. -/
theorem C177_damage_false :
    ∃ out s s', run (always (.grow .call)) {} [.map, .put 0 a b] = .ok (out, s) ∧ exec (always (.grow .call)) s (.put 0 a (some b!"long")) = .ok (.memory, s') ∧
      ¬ Unharmed s s' := by
  refine ⟨_, _, _, rfl, rfl, fun h => ?_⟩
  have := h.maps 0
  revert this
  decide

/-! Examples: memory runs out now and then, wherever the code deals with it. -/
private def scarce : F := fun n s => Safe s && n % 7 == 0
example : OnlySafe scarce := by
  intro n s h
  simp only [scarce, Bool.and_eq_true] at h
  exact h.1
private def busy : List Cmd :=
  [.map, .map, .put 1 a b, .put 1 a b, .put 1 (some b!"c") b, .copy 1, .copy 1, .response, .response, .op 0 (.header a b), .op 0 (.binaryBody a), .op 0 (.binaryBody a),
   .op 0 (.cookie a b none none none), .op 0 (.cookie a b none none none), .op 0 (.cookie b b none none none), .op 0 (.answer (true, true, true)), .drop 0, .drop 1, .drop 2, .drop 3,
   .clean 0, .clean 1]
/-- six calls fail and say so, and nothing is left in the end -/
example : (match run scarce {} busy with | .ok (out, s) => (out.map (fun o => o.2), s.heap.mem.live) | .ub => ([], [0])) =
    ([1, 0, 0, 0, 0, 1, 0, 0, 1, 0, 0, 1, 0, 0, 1, 1, 0, 0, 0, 0, 0, 0], []) := by
  decide +kernel
/-- the conditions of `C177_unharmed_partial`: a binary body that cannot be copied -/
example : (match run scarce {} (busy.take 11) with | .ok (_, s) => (match exec scarce s (.op 0 (.binaryBody a)) with | .ok (rc, _) => rc == .memory | .ub => false) | .ub => false) = true := by
  decide +kernel
example : FineHeap ({} : H).mem := ⟨List.nodup_nil, by simp⟩
example : (Oom.allSites.filter (fun s => Occurs s && !Safe s)).length = 30 := by decide +kernel

end Verif.Props
