import Verif.Spec.OomActive
import Mathlib.Data.List.Nodup
import Mathlib.Data.List.Induction
import Mathlib.Data.List.InsertIdx
/-! # Lemmas on the table of active websockets when memory runs out -/
namespace Verif.OomActive
open Verif.Spec.OomActive

/-- The table that lists exactly `K`. -/
def listing (K : List Nat) : Tab := ⟨if K = [] then none else some (K.map some), K.length, 0⟩

/-- The pointer is lost, or the first entry was never written, while the count is not 0. -/
def Bad (t : Tab) : Prop := 1 ≤ t.nb ∧ (t.table = none ∨ ∃ r, t.table = some (none :: r))

theorem run_snoc (t : Tab) (l : List Event) (e : Event) : run t (l ++ [e]) = (run t l >>= fun t => step t e) := by
  induction l generalizing t with
  | nil =>
    simp only [List.nil_append, run, Res.ok_bind]
    cases step t e <;> rfl
  | cons a l ih =>
    simp only [List.cons_append, run]
    cases step t a with
    | ub => rfl
    | ok t' => simpa using ih t'

theorem search_some (w : Nat) (K : List Nat) : search w K.length (K.map some) = .ok (K.idxOf? w) := by
  induction K with
  | nil => rfl
  | cons x K ih =>
    simp only [List.length_cons, List.map_cons, search, ih, Res.ok_bind, List.idxOf?_cons]
    by_cases h : x = w
    · simp [h]
    · simp [h]

theorem add_enough (K : List Nat) (w : Nat) : (add (listing K) w true).2 = listing (K ++ [w]) := by
  simp only [add, if_true, listing]
  cases K with
  | nil => rfl
  | cons x K =>
    have hnil : ¬ (x :: K ++ [w] = []) := by simp
    have hset : ∀ (L : List (Option Nat)) (a b : Option Nat), (L ++ [a]).set L.length b = L ++ [b] := by
      intro L a b
      induction L with
      | nil => rfl
      | cons y L ih => simp [ih]
    have h1 : ((x :: K).map some).take ((x :: K).length + 1) = (x :: K).map some := by
      apply List.take_of_length_le; simp
    have h2 : (x :: K).length + 1 - ((x :: K).map some).length = 1 := by simp
    simp only [reduceCtorEq, if_false, hnil, Option.getD_some, h1, h2, List.replicate_one]
    have h3 := hset ((x :: K).map some) none (some w)
    rw [List.length_map] at h3
    rw [h3]
    simp

theorem add_first (w : Nat) : (add (listing []) w false).2 = listing [] := rfl

theorem remove_known (K : List Nat) (hn : K.Nodup) (w : Nat) (enough : Bool) (h : enough = false → w ∈ K → K = [w]) :
    ∃ rc, remove (listing K) w enough = .ok (rc, listing (K.filter (· != w))) := by
  cases K with
  | nil => exact ⟨.params, rfl⟩
  | cons x K =>
    have hlen : (listing (x :: K)).nb = (x :: K).length := rfl
    have htab : (listing (x :: K)).table = some ((x :: K).map some) := rfl
    simp only [remove, htab, hlen, search_some, Res.ok_bind]
    have hf : (x :: K).filter (· != w) = (x :: K).erase w := (hn.erase_eq_filter w).symm
    have he := List.erase_eq_eraseIdx (x :: K) w
    cases hi : (x :: K).idxOf? w with
    | none =>
      rw [hi] at he
      simp only at he
      exact ⟨.notFound, by rw [hf, he]; rfl⟩
    | some k =>
      rw [hi] at he
      simp only at he
      have hmem : w ∈ x :: K := by
        by_contra hc
        rw [← List.idxOf?_eq_none_iff] at hc
        rw [hc] at hi
        exact absurd hi (by simp)
      refine ⟨.ok, ?_⟩
      simp only
      by_cases h1 : (x :: K).length > 1
      · simp only [h1, if_true]
        have hen : enough = true := by
          cases enough with
          | true => rfl
          | false => have := h rfl hmem; rw [this] at h1; simp at h1
        subst hen
        simp only [if_true]
        have h2 : ((x :: K).map some).take (x :: K).length = (x :: K).map some := by
          apply List.take_of_length_le; simp
        rw [h2, hf]
        have h3 : ((x :: K).map some).eraseIdx k = ((x :: K).erase w).map some := by
          rw [he, List.eraseIdx_map]
        have hlen2 : ((x :: K).erase w).length = (x :: K).length - 1 := List.length_erase_of_mem hmem
        have hne : (x :: K).erase w ≠ [] := by
          intro e
          rw [e] at hlen2
          simp only [List.length_nil] at hlen2
          omega
        simp only [listing, hne, if_false, hlen2, h3]
        rfl
      · have hK : K = [] := by
          cases K with
          | nil => rfl
          | cons y K => simp at h1
        subst hK
        have hx : w = x := by simpa using hmem
        subst hx
        simp [listing]

theorem flag_listing (K : List Nat) (n : Nat) (h : n ≤ K.length) : flag (K.map some) n = .ok (K.take n).reverse := by
  induction n with
  | zero => rfl
  | succ n ih =>
    have hn : n < K.length := by omega
    simp only [flag, List.getElem?_map, List.getElem?_eq_getElem hn, Option.map_some, ih (by omega), Res.ok_bind]
    have ht : K.take (n + 1) = K.take n ++ [K[n]] := by rw [List.take_add_one, List.getElem?_eq_getElem hn]; rfl
    rw [ht, List.reverse_append]
    rfl

theorem tell_listing (K : List Nat) : tell (listing K) = .ok K.reverse := by
  cases K with
  | nil => rfl
  | cons x K =>
    have := flag_listing (x :: K) (x :: K).length (Nat.le_refl _)
    rw [List.take_length] at this
    exact this

theorem bad_step {t : Tab} (h : Bad t) (e : Event) : step t e = .ub ∨ ∃ t', step t e = .ok t' ∧ Bad t' := by
  obtain ⟨h1, h2⟩ := h
  obtain ⟨n, hn⟩ : ∃ n, t.nb = n + 1 := ⟨t.nb - 1, by omega⟩
  cases e with
  | opens w enough =>
    right
    cases enough with
    | false => exact ⟨_, rfl, h1, .inl rfl⟩
    | true =>
      refine ⟨_, rfl, by simp [add], .inr ?_⟩
      rcases h2 with h2 | ⟨r, h2⟩
      · simp [add, h2, hn, List.replicate_succ]
      · simp [add, h2, hn]
  | ends w enough =>
    rcases h2 with h2 | ⟨r, h2⟩
    · right
      refine ⟨t, ?_, h1, .inl h2⟩
      simp [step, remove, h2]
    · left
      simp only [step, remove, h2, hn, search]
      rfl

theorem flag_bad (r : List (Option Nat)) (n : Nat) : flag (none :: r) (n + 1) = .ub := by
  induction n with
  | zero => rfl
  | succ n ih =>
    rw [flag, ih]
    split <;> rfl

theorem bad_tell {t : Tab} (h : Bad t) : tell t = .ub := by
  obtain ⟨h1, h2⟩ := h
  obtain ⟨n, hn⟩ : ∃ n, t.nb = n + 1 := ⟨t.nb - 1, by omega⟩
  rcases h2 with h2 | ⟨r, h2⟩
  · simp [tell, h2, hn]
  · simp only [tell, h2, hn, flag_bad]

theorem plausible_snoc {l : List Event} {e : Event} : Plausible (l ++ [e]) → Plausible l ∧ (match e with
    | .opens w _ => w ∉ openNow l
    | .ends w _ => w ∈ openNow l) := by
  intro h
  refine ⟨fun pre e' post he => ?_, h l e [] rfl⟩
  exact h pre e' (post ++ [e]) (by rw [he]; simp)

theorem alone_snoc {l : List Event} {e : Event} : Alone (l ++ [e]) ↔ Alone l ∧ Spared (knownNow l) e := by
  constructor
  · intro h
    exact ⟨fun pre e' post he => h pre e' (post ++ [e]) (by rw [he]; simp), h l e [] rfl⟩
  · rintro ⟨h, he⟩ pre e' post heq
    rcases List.eq_nil_or_concat post with rfl | ⟨post', x, rfl⟩
    · have := List.append_inj' heq rfl
      obtain ⟨rfl, h2⟩ := this
      simp only [List.cons.injEq, and_true] at h2
      subst h2
      exact he
    · have heq' : l ++ [e] = (pre ++ e' :: post') ++ [x] := by rw [heq]; simp
      have := List.append_inj' heq' rfl
      exact h pre e' post' this.1

theorem known_snoc (l : List Event) (e : Event) : knownNow (l ++ [e]) = (match e with
    | .opens w true => knownNow l ++ [w]
    | .opens _ false => knownNow l
    | .ends w _ => (knownNow l).filter (· != w)) := by
  rw [knownNow, List.foldl_append]
  rfl

theorem open_snoc (l : List Event) (e : Event) : openNow (l ++ [e]) = (match e with
    | .opens w _ => openNow l ++ [w]
    | .ends w _ => (openNow l).filter (· != w)) := by
  rw [openNow, List.foldl_append]
  rfl

theorem known_open (l : List Event) (h : Plausible l) : (knownNow l).Nodup ∧ ∀ w ∈ knownNow l, w ∈ openNow l := by
  induction l using List.reverseRecOn with
  | nil => exact ⟨List.nodup_nil, by simp [knownNow]⟩
  | append_singleton l e ih =>
    obtain ⟨hp, he⟩ := plausible_snoc h
    obtain ⟨h1, h2⟩ := ih hp
    rw [known_snoc, open_snoc]
    match e, he with
    | .opens w true, he =>
      refine ⟨?_, ?_⟩
      · have : w ∉ knownNow l := fun hc => he (h2 w hc)
        simp only
        rw [List.nodup_append]
        refine ⟨h1, by simp, ?_⟩
        intro a ha b hb e
        simp at hb
        subst hb
        exact this (e ▸ ha)
      · intro x hx
        simp only [List.mem_append, List.mem_singleton] at hx ⊢
        exact hx.imp_left (h2 x)
    | .opens w false, he =>
      exact ⟨h1, fun x hx => List.mem_append_left _ (h2 x hx)⟩
    | .ends w b, he =>
      refine ⟨h1.filter _, ?_⟩
      intro x hx
      simp only [List.mem_filter] at hx ⊢
      exact ⟨h2 x hx.1, hx.2⟩

theorem run_alone (l : List Event) (h : Plausible l) (ha : Alone l) : run {} l = .ok (listing (knownNow l)) := by
  induction l using List.reverseRecOn with
  | nil => rfl
  | append_singleton l e ih =>
    obtain ⟨hp, -⟩ := plausible_snoc h
    obtain ⟨ha', he⟩ := alone_snoc.1 ha
    rw [run_snoc, ih hp ha', Res.ok_bind, known_snoc]
    match e, he with
    | .opens w true, he => simp only [step, add_enough]
    | .opens w false, he =>
      have he : knownNow l = [] := by simpa [Spared] using he
      simp only [step, he, add_first]
    | .ends w b, he =>
      have hc : b = false → w ∈ knownNow l → knownNow l = [w] := by
        intro hb hw
        subst hb
        rcases he with he | he | he
        · exact absurd he (by simp)
        · exact absurd hw he
        · exact he
      obtain ⟨rc, hr⟩ := remove_known (knownNow l) (known_open l hp).1 w b hc
      simp only [step, hr, Res.ok_bind]
      rfl

theorem bad_opens {K : List Nat} (h : K ≠ []) (w : Nat) : Bad (add (listing K) w false).2 := by
  refine ⟨?_, .inl rfl⟩
  show 1 ≤ K.length
  exact List.length_pos_iff.2 h

theorem bad_ends {K : List Nat} {w : Nat} (hw : w ∈ K) (h : K ≠ [w]) (hn : K.Nodup) :
    ∃ t, remove (listing K) w false = .ok (.ok, t) ∧ t.nb = K.length - 1 ∧ 1 ≤ t.nb ∧ t.table = none := by
  have hlen : 1 < K.length := by
    match K, hw, h with
    | [x], hw, h => simp at hw; subst hw; exact absurd rfl h
    | _ :: _ :: _, _, _ => simp
  have hK : K ≠ [] := by rintro rfl; simp at hlen
  obtain ⟨k, hk⟩ : ∃ k, K.idxOf? w = some k := by
    cases hi : K.idxOf? w with
    | some k => exact ⟨k, rfl⟩
    | none => exact absurd hw (List.idxOf?_eq_none_iff.1 hi)
  refine ⟨⟨none, K.length - 1, 1⟩, ?_, rfl, by show 1 ≤ K.length - 1; omega, rfl⟩
  simp only [remove, listing, hK, if_false, search_some, hk, Res.ok_bind]
  simp [hlen]

theorem run_not_alone (l : List Event) (h : Plausible l) (ha : ¬ Alone l) : run {} l = .ub ∨ ∃ t, run {} l = .ok t ∧ Bad t := by
  induction l using List.reverseRecOn with
  | nil =>
    exact absurd (fun pre e post he => by simp at he) ha
  | append_singleton l e ih =>
    obtain ⟨hp, -⟩ := plausible_snoc h
    rw [run_snoc]
    by_cases ha' : Alone l
    · rw [run_alone l hp ha', Res.ok_bind]
      right
      have hx : ¬ Spared (knownNow l) e := fun hc => ha (alone_snoc.2 ⟨ha', hc⟩)
      cases e with
      | opens w enough =>
        simp only [Spared, not_or, Bool.not_eq_true] at hx
        obtain ⟨rfl, hx⟩ := hx
        exact ⟨_, rfl, bad_opens hx w⟩
      | ends w enough =>
        simp only [Spared, not_or, Bool.not_eq_true, not_not] at hx
        obtain ⟨rfl, hw, hx⟩ := hx
        obtain ⟨t, hr, -, h1, h2⟩ := bad_ends hw hx (known_open l hp).1
        refine ⟨t, ?_, h1, .inl h2⟩
        simp only [step, hr, Res.ok_bind]
        rfl
    · rcases ih hp ha' with hu | ⟨t, ht, hb⟩
      · rw [hu]; exact .inl rfl
      · rw [ht, Res.ok_bind]
        exact bad_step hb e

theorem run_append (t : Tab) (l m : List Event) : run t (l ++ m) = (run t l >>= fun t => run t m) := by
  induction l generalizing t with
  | nil => simp [run]
  | cons a l ih =>
    simp only [List.cons_append, run]
    cases step t a with
    | ub => rfl
    | ok t' => simpa using ih t'

theorem ends_none (t : Tab) (h : t.table = none) (l : List Event) (hl : ∀ e ∈ l, ∃ w b, e = .ends w b) : run t l = .ok t := by
  induction l with
  | nil => rfl
  | cons e l ih =>
    obtain ⟨w, b, rfl⟩ := hl e (by simp)
    have : step t (.ends w b) = .ok t := by
      simp [step, remove, h]
    rw [run, this, Res.ok_bind]
    exact ih (fun e he => hl e (by simp [he]))

end Verif.OomActive
