import Verif.Model.WsLists
/-!
# C153: the lists of websocket messages and threads
-/
namespace Verif.Props
open Verif.WsLists

/-- A thread goes on only while no other thread is inside a call. -/
def OneAtATime {α : Type} : Sys α → List Nat → Prop
  | _, [] => True
  | s, a :: t => (∀ j, (s.th j).pc ≠ .ready → j = a) ∧ ∀ s', WsLists.step s a = .ok s' → OneAtATime s' t

/-- What a thread inside a call has done to the list of the messages `q`. -/
private def Shape {α : Type} (q : List α) (len : Nat) (list : List (Option α)) : Pc α → Prop
  | .ready => len = q.length ∧ list = q.map some
  | .write _ => len = q.length ∧ list = q.map some ++ [none]
  | .grow m => len = q.length ∧ list = q.map some ++ [some m]
  | .move m => len = q.length ∧ list = q.map some ∧ ∃ x t, q = x :: t ∧ m = some x
  | .shrink m => len = q.length ∧ ∃ x t, q = x :: t ∧ m = some x ∧ list.take t.length = t.map some ∧ list.length = q.length
  | .less m => len = q.length ∧ ∃ x t, q = x :: t ∧ m = some x ∧ list = t.map some

private def Whole {α : Type} (s : Sys α) : Prop :=
  ∃ (gone q : List α) (i : Nat), s.popped = gone.map some ∧ gone ++ q = s.pushed ∧ (∀ k, k ≠ i → (s.th k).pc = .ready) ∧
    Shape q s.len s.list (s.th i).pc

private theorem resize_grow {α : Type} (q : List α) : resize (q.map some) (q.length + 1) = q.map some ++ [none] := by
  unfold resize
  rw [List.take_of_length_le (by simp)]
  simp

private theorem whole_step {α : Type} {s : Sys α} (h : Whole s) (i : Nat) (ho : ∀ j, (s.th j).pc ≠ .ready → j = i) :
    ∃ s', WsLists.step s i = .ok s' ∧ Whole s' := by
  obtain ⟨gone, q, i0, h1, h2, h3, h4⟩ := h
  have ho' : ∀ k, k ≠ i → (s.th k).pc = .ready := fun k hk => Classical.byContradiction (fun hn => hk (ho k hn))
  have hm : Shape q s.len s.list (s.th i).pc := by
    by_cases e : i0 = i
    · subst e; exact h4
    · rw [h3 i (fun x => e x.symm)]
      rw [ho' i0 e] at h4
      exact h4
  have hgo : ∀ (s1 : Sys α), s1.th = s.th → ∀ pc k, k ≠ i → ((go s1 i pc).th k).pc = .ready := by
    intro s1 e pc k hk
    simp only [go, if_neg hk, e]
    exact ho' k hk
  have htk : ∀ (s1 : Sys α), s1.th = s.th → ∀ t pc k, k ≠ i → ((take s1 i t pc).th k).pc = .ready := by
    intro s1 e t pc k hk
    simp only [take, if_neg hk, e]
    exact ho' k hk
  unfold WsLists.step
  cases hpc : (s.th i).pc with
  | ready =>
    rw [hpc] at hm
    simp only
    cases htd : (s.th i).todo with
    | nil => exact ⟨s, rfl, gone, q, i, h1, h2, ho', by rw [hpc]; exact hm⟩
    | cons job t =>
      cases job with
      | push m =>
        refine ⟨_, rfl, gone, q, i, h1, h2, htk { s with list := _ } rfl _ _, ?_⟩
        simp only [take, if_true, Shape]
        refine ⟨hm.1, ?_⟩
        rw [hm.1, hm.2, resize_grow]
      | pop =>
        simp only
        by_cases hlen : s.len > 0
        · rw [if_pos hlen]
          cases q with
          | nil => rw [hm.1] at hlen; exact absurd hlen (by simp)
          | cons x v =>
            have e := hm.2
            rw [List.map_cons] at e
            rw [e]
            refine ⟨_, rfl, gone, x :: v, i, h1, h2, htk s rfl _ _, ?_⟩
            simp only [take, if_true, Shape]
            exact ⟨hm.1, hm.2, x, v, rfl, rfl⟩
        · rw [if_neg hlen]
          refine ⟨_, rfl, gone, q, i, h1, h2, htk s rfl _ _, ?_⟩
          simp only [take, if_true]
          exact hm
  | write m =>
    rw [hpc] at hm
    simp only
    rw [if_pos (by rw [hm.1, hm.2]; simp)]
    refine ⟨_, rfl, gone, q, i, h1, h2, hgo { s with list := _ } rfl _, ?_⟩
    simp only [go, if_true, Shape]
    refine ⟨hm.1, ?_⟩
    rw [hm.2, hm.1, List.set_append_right _ _ (by simp)]
    simp
  | grow m =>
    rw [hpc] at hm
    refine ⟨_, rfl, gone, q ++ [m], i, h1, by simp [go, ← h2], hgo { s with len := _, pushed := _ } rfl _, ?_⟩
    simp only [go, if_true, Shape]
    exact ⟨by rw [hm.1]; simp, by rw [hm.2]; simp⟩
  | move m =>
    rw [hpc] at hm
    obtain ⟨m1, m2, x, t, m3, m4⟩ := hm
    simp only
    rw [if_pos (by rw [m1, m2]; simp)]
    refine ⟨_, rfl, gone, q, i, h1, h2, hgo { s with list := _ } rfl _, ?_⟩
    simp only [go, if_true, Shape]
    refine ⟨m1, x, t, m3, m4, ?_, ?_⟩
    · rw [m1, m2, m3]
      simp only [shift, List.map_cons, List.drop_succ_cons, List.drop_zero, List.length_cons, Nat.add_sub_cancel]
      rw [List.take_append_of_le_length (by simp), List.take_take, Nat.min_self, List.take_of_length_le (by simp)]
    · rw [m1, m2, m3]
      simp [shift]
  | shrink m =>
    rw [hpc] at hm
    refine ⟨_, rfl, gone, q, i, h1, h2, hgo { s with list := _ } rfl _, ?_⟩
    simp only [go, if_true, Shape]
    obtain ⟨m1, x, t, m2, m3, m4, m5⟩ := hm
    refine ⟨m1, x, t, m2, m3, ?_⟩
    rw [m1, m2]
    cases t with
    | nil => simp
    | cons y u =>
      rw [if_pos (by simp)]
      unfold resize
      rw [m5, m2]
      simp only [List.length_cons, Nat.add_sub_cancel] at m4 ⊢
      rw [m4]
      simp
  | less m =>
    rw [hpc] at hm
    obtain ⟨m1, x, t, m2, m3, m4⟩ := hm
    refine ⟨_, rfl, gone ++ [x], t, i, by simp [go, h1, m3], by simp [go, ← h2, m2], hgo { s with len := _, popped := _ } rfl _, ?_⟩
    simp only [go, if_true, Shape]
    exact ⟨by rw [m1, m2]; simp, m4⟩

private theorem whole_exec {α : Type} : ∀ (sched : List Nat) (s : Sys α), Whole s → OneAtATime s sched →
    ∃ s', WsLists.exec s sched = .ok s' ∧ Whole s'
  | [], s, h, _ => ⟨s, rfl, h⟩
  | i :: t, s, h, ho => by
    obtain ⟨s1, e, h1⟩ := whole_step h i ho.1
    obtain ⟨s2, e2, h2⟩ := whole_exec t s1 h1 (ho.2 s1 e)
    exact ⟨s2, by rw [WsLists.exec, e]; exact e2, h2⟩

/-- **C153**, with the exclusion that the library does not provide. Whatever messages any number of threads put into a list and take from
it, in any order, as long as no two calls overlap: nothing undefined happens; every message that was taken had been put before, they are
taken in the order in which they were put, each once; and when no call is under way the list has exactly the others. -/
theorem C153_queue_partial {α : Type} (jobs : Nat → List (Job α)) (sched : List Nat) (h : OneAtATime (start jobs) sched) :
    ∃ s, WsLists.exec (start jobs) sched = .ok s ∧ ∃ gone left : List α, s.popped = gone.map some ∧ gone ++ left = s.pushed ∧
      ((∀ i, (s.th i).pc = .ready) → s.list = left.map some ∧ s.len = left.length) := by
  obtain ⟨s, e, gone, q, i, h1, h2, h3, h4⟩ := whole_exec sched (start jobs)
    ⟨[], [], 0, rfl, rfl, fun _ _ => rfl, rfl, rfl⟩ h
  refine ⟨s, e, gone, q, h1, h2, fun hr => ?_⟩
  rw [hr i] at h4
  exact ⟨h4.2, h4.1⟩

private def two : Nat → List (Job Nat) := fun i => if i = 0 then [.push 10, .push 11] else if i = 1 then [.push 20] else if i = 2 then [.pop] else []

private theorem ready_of {α : Type} {s : Sys α} {a : Nat} (h : ∀ j, j ≠ a → (s.th j).pc = .ready) : ∀ j, (s.th j).pc ≠ .ready → j = a :=
  fun j hj => Classical.byContradiction (fun hn => hj (h j hn))

/-- Two threads put messages, a third takes one, one after the other. -/
example : (do let s ← WsLists.exec (start two) [0, 0, 0, 1, 1, 1, 2, 2, 2, 2, 0, 0, 0]; pure (s.pushed, s.popped, s.list, s.len)) =
    Res.ok ([10, 20, 11], [some 10], [some 20, some 11], 2) := by decide +kernel

/-- Such an execution is one at a time (a shorter one, so that it can be spelled out). -/
example : OneAtATime (start two) [0, 0, 0, 1] := by
  refine ⟨fun j hj => absurd rfl hj, fun s1 e1 => ?_⟩
  injection e1 with e1
  subst e1
  refine ⟨ready_of (fun j hj => by simp [take, start, hj]), fun s2 e2 => ?_⟩
  injection e2 with e2
  subst e2
  refine ⟨ready_of (fun j hj => by simp [take, go, start, hj]), fun s3 e3 => ?_⟩
  injection e3 with e3
  subst e3
  refine ⟨fun j hj => absurd ?_ hj, fun _ _ => trivial⟩
  by_cases e : j = 0
  · subst e; rfl
  · simp [take, go, start, e]

/-- **C153 is false of the code.** No lock guards the lists. The thread of the websocket keeps message `10` while a thread that closes it
keeps `20`, a statement each in turn: the first message is gone, and the list says that it has two messages although its block has room
for one. -/
theorem C153_lost_false : ∃ (jobs : Nat → List (Job Nat)) (sched : List Nat), jobs 0 = [.push 10, .push 11] ∧ jobs 1 = [.push 20] ∧
    (do let s ← WsLists.exec (start jobs) sched; pure (s.pushed, s.list, s.len, s.popped)) = Res.ok ([10, 20], [some 20], 2, []) :=
  ⟨two, [0, 1, 0, 1, 0, 1], rfl, rfl, by decide +kernel⟩

/-- The program that takes a message from the list after both are kept then reads behind the end of the block. -/
theorem C153_stray_false : ∃ (jobs : Nat → List (Job Nat)) (sched : List Nat), jobs 0 = [.push 10, .push 11] ∧ jobs 1 = [.push 20] ∧ jobs 2 = [.pop] ∧
    (∀ i, 2 < i → jobs i = []) ∧
    (do let s ← WsLists.exec (start jobs) sched; pure (s.pushed, s.len)) = Res.ok ([10, 20], 2) ∧
    (do let _ ← WsLists.exec (start jobs) (sched ++ [2, 2]); pure ()) = Res.ub :=
  ⟨two, [0, 1, 0, 1, 0, 1], rfl, rfl, rfl, fun i hi => by
    match i, hi with
    | _ + 3, _ => rfl, by decide +kernel, by decide +kernel⟩

/-- The library alone keeps messages, the program takes one at the same time: the new message is written behind the end of the
block. -/
theorem C153_pop_false : ∃ (jobs : Nat → List (Job Nat)) (sched : List Nat), (∀ j ∈ jobs 0, ∃ m, j = .push m) ∧ jobs 1 = [.pop] ∧
    (∀ i, 1 < i → jobs i = []) ∧ (do let _ ← WsLists.exec (start jobs) sched; pure ()) = Res.ub :=
  ⟨fun i => if i = 0 then [.push 10, .push 11] else if i = 1 then [.pop] else [], [0, 0, 0, 1, 1, 0, 1, 0], by
    intro j hj
    simp only [if_true, List.mem_cons, List.not_mem_nil, or_false] at hj
    rcases hj with rfl | rfl
    · exact ⟨10, rfl⟩
    · exact ⟨11, rfl⟩, rfl, fun i hi => by simp only; rw [if_neg (by omega), if_neg (by omega)], by decide +kernel⟩

end Verif.Props
