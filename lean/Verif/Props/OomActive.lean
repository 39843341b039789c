import Verif.Lemmas.OomActive
/-!
# C187: stopping a server with websockets when memory runs out
-/
namespace Verif.Props
open Verif.OomActive Verif.Spec.OomActive

/-- **C187, partial.** However websockets open and end, as long as memory runs out only where the server knows no other websocket:
`ulfius_stop_framework` tells exactly the open websockets to close for which there was memory enough, each once; it waits exactly until the
last of these has ended, whatever ended before or ends after; and no block is lost. With memory enough whenever one opens, these are
all open websockets.
Missing: the websockets without memory enough (`C187_first_false`), and memory running out while others are open
(`C187_stop_false`, `C187_wait_false`). -/
theorem C187_stop_partial (l : List Event) (hp : Plausible l) (ha : Alone l) :
    ∃ t told, run {} l = .ok t ∧ tell t = .ok told ∧ t.lost = 0 ∧ told.Nodup ∧ (∀ w, w ∈ told ↔ w ∈ knownNow l) ∧
      (∀ w ∈ told, w ∈ openNow l) ∧ (waits t = false ↔ knownNow l = []) ∧
      ((∀ w enough, .opens w enough ∈ l → enough = true) → ∀ w, w ∈ told ↔ w ∈ openNow l) := by
  obtain ⟨h1, h2⟩ := known_open l hp
  refine ⟨_, _, run_alone l hp ha, tell_listing _, rfl, List.nodup_reverse.2 h1, fun w => List.mem_reverse,
    fun w hw => h2 w (List.mem_reverse.1 hw), ?_, ?_⟩
  · show decide ((knownNow l).length > 0) = false ↔ knownNow l = []
    cases knownNow l <;> simp
  · intro h
    have : knownNow l = openNow l := by
      clear ha hp h1 h2
      induction l using List.reverseRecOn with
      | nil => rfl
      | append_singleton l e ih =>
        have ih := ih (fun w b hb => h w b (List.mem_append_left _ hb))
        rw [known_snoc, open_snoc, ih]
        match e, h with
        | .opens w true, _ => rfl
        | .opens w false, h => exact absurd (h w false (by simp)) (by simp)
        | .ends w b, _ => rfl
    intro w
    rw [List.mem_reverse, this]

/-- **C187, when it is defined at all.** `ulfius_stop_framework` reads only entries that were written exactly when memory ran out only where
the server knew no other websocket. -/
theorem C187_defined (l : List Event) (hp : Plausible l) : (∃ told, tellAfter l = .ok told) ↔ Alone l := by
  constructor
  · rintro ⟨told, h⟩
    by_contra ha
    rcases run_not_alone l hp ha with hu | ⟨t, ht, hb⟩
    · rw [tellAfter, hu] at h
      exact absurd h (by intro h; cases h)
    · rw [tellAfter, ht, Res.ok_bind, bad_tell hb] at h
      exact absurd h (by intro h; cases h)
  · intro ha
    exact ⟨_, by rw [tellAfter, run_alone l hp ha, Res.ok_bind, tell_listing]⟩

/-- **C187 is false of the code**: when the table cannot grow for one more websocket, or not shrink, the only pointer to it is lost, and
whatever opens or ends afterwards, with memory enough or not, stopping the server is undefined behaviour. -/
theorem C187_stop_false (l later : List Event) (e : Event) (hp : Plausible (l ++ e :: later)) (hs : ¬ Spared (knownNow l) e) :
    tellAfter (l ++ e :: later) = .ub := by
  have hn : ¬ Alone (l ++ e :: later) := fun h => hs (h l e later rfl)
  cases h : tellAfter (l ++ e :: later) with
  | ub => rfl
  | ok told => exact absurd ((C187_defined _ hp).1 ⟨told, h⟩) hn

/-- **C187 is false of the code**: when the table cannot shrink as a websocket ends while `ulfius_stop_framework` waits, it waits for ever: the
others are not taken out of the count when they end. -/
theorem C187_wait_false (l later : List Event) (w : Nat) (hp : Plausible l) (ha : Alone l) (hw : w ∈ knownNow l)
    (hk : knownNow l ≠ [w]) (hl : ∀ e ∈ later, ∃ v b, e = .ends v b) :
    ∃ t, run {} (l ++ .ends w false :: later) = .ok t ∧ waits t = true := by
  obtain ⟨t, hr, -, h1, h2⟩ := bad_ends hw hk (known_open l hp).1
  have hstep : step (listing (knownNow l)) (.ends w false) = .ok t := by
    simp only [step, hr, Res.ok_bind]
    rfl
  refine ⟨t, ?_, by simp only [waits, decide_eq_true_eq]; omega⟩
  rw [run_append, run_alone l hp ha, Res.ok_bind, run, hstep, Res.ok_bind]
  exact ends_none t h2 later hl

/-- **C187 is false of the code**: a websocket for which there is no memory is opened all the same; `ulfius_stop_framework` does not tell it
to close and does not wait for it. -/
theorem C187_first_false (w : Nat) :
    ∃ t, run {} [.opens w false] = .ok t ∧ openNow [.opens w false] = [w] ∧ tell t = .ok [] ∧ waits t = false :=
  ⟨_, rfl, rfl, rfl, rfl⟩

/-- **C187 is false of the code**: the function that takes a websocket out returns `U_OK` although it lost the table. -/
theorem C187_code_false (K : List Nat) (w : Nat) (hn : K.Nodup) (hw : w ∈ K) (hk : K ≠ [w]) :
    ∃ t t', run {} (K.map (.opens · true)) = .ok t ∧ remove t w false = .ok (.ok, t') ∧ t'.table = none ∧ waits t' = true := by
  have hrun : ∀ K : List Nat, run {} (K.map (.opens · true)) = .ok (listing K) := by
    intro K
    induction K using List.reverseRecOn with
    | nil => rfl
    | append_singleton K x ih => rw [List.map_append, List.map_singleton, run_snoc, ih, Res.ok_bind, step, add_enough]
  obtain ⟨t', hr, -, h1, h2⟩ := bad_ends hw hk hn
  exact ⟨_, t', hrun K, hr, h2, by simp only [waits, decide_eq_true_eq]; omega⟩

/-- The hypotheses of `C187_stop_partial` are met: memory runs out for the first websocket, two more open, one of them and the first end, and
the last ends although there is no memory. -/
example : run {} [.opens 5 false, .opens 6 true, .opens 7 true, .ends 6 true, .ends 5 false] = .ok ⟨some [some 7], 1, 0⟩ ∧
    tellAfter [.opens 5 false, .opens 6 true, .opens 7 true, .ends 6 true, .ends 5 false] = .ok [7] ∧
    run {} [.opens 5 false, .opens 6 true, .opens 7 true, .ends 6 true, .ends 5 false, .ends 7 false] = .ok ⟨none, 0, 0⟩ := by
  refine ⟨by decide +kernel, by decide +kernel, by decide +kernel⟩

/-- They are in `Plausible` and `Alone`. -/
example : Plausible [.opens 5 false, .opens 6 true, .ends 5 false] ∧ Alone [.opens 5 false, .opens 6 true, .ends 5 false] := by
  have h : ∀ (P : List Event → Event → Prop), P [] (.opens 5 false) → P [.opens 5 false] (.opens 6 true) →
      P [.opens 5 false, .opens 6 true] (.ends 5 false) →
      ∀ pre e post, ([.opens 5 false, .opens 6 true, .ends 5 false] : List Event) = pre ++ e :: post → P pre e := by
    intro P h1 h2 h3 pre e post he
    match pre, he with
    | [], he => cases he; exact h1
    | [_], he => cases he; exact h2
    | [_, _], he => cases he; exact h3
    | _ :: _ :: _ :: p, he => simp at he
  exact ⟨h (fun pre e => match e with
    | .opens w _ => w ∉ openNow pre
    | .ends w _ => w ∈ openNow pre) (by decide) (by decide) (by decide),
    h (fun pre e => Spared (knownNow pre) e) (.inr rfl) (.inl rfl) (.inr (.inl (by decide)))⟩

/-- The hypotheses of `C187_stop_false` and `C187_wait_false` are met. -/
example : ¬ Spared (knownNow [.opens 1 true]) (.opens 2 false) ∧ ¬ Spared (knownNow [.opens 1 true, .opens 2 true]) (.ends 1 false) ∧
    tellAfter [.opens 1 true, .opens 2 false, .opens 3 true] = .ub ∧
    run {} [.opens 1 true, .opens 2 true, .ends 1 false, .ends 2 true] = .ok ⟨none, 1, 1⟩ := by
  refine ⟨by simp [Spared, knownNow], by simp [Spared, knownNow], by decide +kernel, by decide +kernel⟩

end Verif.Props
