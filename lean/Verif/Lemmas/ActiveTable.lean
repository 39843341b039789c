import Verif.Lemmas.Active
/-! # The contents of the table when registrations are kept apart -/
namespace Verif.Active

/-- The table has one entry more than used. -/
def Pc.spare : Pc → Bool
  | .grown | .adding => true
  | _ => false

/-- The block behind `websocket_active` holds exactly `c`. -/
def Block (s : Sys) (c : List (Option Nat)) : Prop :=
  (c = [] ∧ s.table = none) ∨ (c ≠ [] ∧ ∃ g, s.table = some g ∧ s.heap g = some c)

/-- The table holds the registered websockets `L`. -/
structure Inv (s : Sys) (L : List Nat) (spare over : Bool) : Prop where
  nodup : L.Nodup
  mem : ∀ i, i ∈ L ↔ (s.pc i).active = true
  spare_iff : spare = true ↔ ∃ i, (s.pc i).spare = true
  over_iff : over = true ↔ ∃ i, s.pc i = .cut
  nb : s.nb = L.length + over.toNat
  blk : Block s (L.map some ++ if spare then [none] else [])
  grow : ∀ i p n, s.pc i = .growing p n → p = s.table ∧ n = s.nb
  live : s.freed = false

theorem Inv.init : Inv {} [] false false := by
  constructor <;> simp [Pc.active, Pc.spare, Block]

theorem ex_upd {f : Nat → Pc} {i : Nat} {q : Pc} (P : Pc → Bool) (h : P q = P (f i)) :
    (∃ j, P (upd f i q j) = true) ↔ ∃ j, P (f j) = true := by
  constructor
  · rintro ⟨j, hj⟩
    by_cases e : j = i
    · subst e; rw [upd_same] at hj; exact ⟨j, by rw [← h]; exact hj⟩
    · rw [upd_ne _ _ e] at hj; exact ⟨j, hj⟩
  · rintro ⟨j, hj⟩
    by_cases e : j = i
    · subst e; exact ⟨j, by rw [upd_same, h]; exact hj⟩
    · exact ⟨j, by rw [upd_ne _ _ e]; exact hj⟩

theorem ex_upd_cut {f : Nat → Pc} {i : Nat} {q : Pc} (h1 : q ≠ .cut) (h2 : f i ≠ .cut) :
    (∃ j, upd f i q j = .cut) ↔ ∃ j, f j = .cut := by
  have := ex_upd (f := f) (i := i) (q := q) (fun p => decide (p = .cut)) (by simp [h1, h2])
  simpa using this

/-- A step that does not touch the table. -/
theorem Inv.still {s s' : Sys} {L : List Nat} {sp ov : Bool} {i : Nat} {q : Pc} (h : Inv s L sp ov)
    (hp : s'.pc = upd s.pc i q) (ht : s'.table = s.table) (hh : s'.heap = s.heap) (hn : s'.nb = s.nb)
    (hf : s'.freed = s.freed) (ha : q.active = (s.pc i).active) (hs : q.spare = (s.pc i).spare)
    (hc1 : q ≠ .cut) (hc2 : s.pc i ≠ .cut) (hg : ∀ p n, q = .growing p n → p = s.table ∧ n = s.nb) :
    Inv s' L sp ov := by
  refine ⟨h.nodup, fun j => ?_, ?_, ?_, by rw [hn]; exact h.nb, ?_, ?_, by rw [hf]; exact h.live⟩
  · rw [h.mem j, hp]
    by_cases e : j = i
    · subst e; rw [upd_same, ha]
    · rw [upd_ne _ _ e]
  · rw [h.spare_iff, hp, ex_upd Pc.spare hs]
  · rw [h.over_iff, hp, ex_upd_cut hc1 hc2]
  · have := h.blk; unfold Block at *; rw [ht, hh]; exact this
  · intro j p n hj
    rw [hp] at hj
    rw [ht, hn]
    by_cases e : j = i
    · subst e; rw [upd_same] at hj; exact hg p n hj
    · rw [upd_ne _ _ e] at hj; exact h.grow j p n hj

/-- When the lock is held by `i` and registrations are apart, nobody else is at work on the table. -/
theorem alone {s : Sys} {i : Nat} (hl : Locks s) (ha : Apart s) (hi : (s.pc i).holdsA = true) (j : Nat) (hj : j ≠ i) :
    (s.pc j).early = false ∧ (s.pc j).holdsA = false := by
  constructor
  · cases h : (s.pc j).early with
    | false => rfl
    | true => have := ((ha j h).1 i (Ne.symm hj)).2; rw [hi] at this; cases this
  · cases h : (s.pc j).holdsA with
    | false => rfl
    | true =>
      have h1 := (hl.aw j).1 h
      have h2 := (hl.aw i).1 hi
      rw [h1] at h2; cases h2; exact absurd rfl hj

theorem not_spare {p : Pc} (h1 : p.early = false) (h2 : p.holdsA = false) : p.spare = false := by
  cases p <;> simp_all [Pc.early, Pc.holdsA, Pc.spare]

theorem not_cut {p : Pc} (h2 : p.holdsA = false) : p ≠ .cut := by
  cases p <;> simp_all [Pc.holdsA]

theorem not_growing {p : Pc} {q : Option Nat} {n : Nat} (h1 : p.early = false) : p ≠ .growing q n := by
  cases p <;> simp_all [Pc.early]

theorem block_entries {s : Sys} {c : List (Option Nat)} (h : Block s c) (hc : c ≠ []) :
    ∃ g, s.table = some g ∧ s.heap g = some c ∧ entries s = .ok c := by
  rcases h with ⟨h, _⟩ | ⟨_, g, h1, h2⟩
  · exact absurd h hc
  · exact ⟨g, h1, h2, by simp [entries, h1, h2]⟩

theorem resize_block {s : Sys} {c : List (Option Nat)} (h : Block s c) (n : Nat) (hn : c.length ≤ n) (h0 : n ≠ 0) :
    ∃ s', resize s s.table n = .ok s' ∧ Block s' (c ++ List.replicate (n - c.length) none) := by
  have hne : c ++ List.replicate (n - c.length) none ≠ [] := by
    intro e
    have : (c ++ List.replicate (n - c.length) (none : Option Nat)).length = n := by simp; omega
    rw [e] at this
    exact h0 this.symm
  rcases h with ⟨hc, ht⟩ | ⟨_, g, h1, h2⟩
  · subst hc
    refine ⟨_, by unfold resize; rw [ht], Or.inr ⟨hne, s.fresh, rfl, ?_⟩⟩
    simp
  · refine ⟨_, by unfold resize; rw [h1]; simp only [h2]; rfl, Or.inr ⟨hne, s.fresh, rfl, ?_⟩⟩
    simp [List.take_of_length_le hn]

theorem search_map {w : Nat} : ∀ (L : List Nat) (t : List (Option Nat)), w ∈ L →
    search w L.length (L.map some ++ t) = .ok (some (L.idxOf w))
  | [], _, h => by cases h
  | x :: r, t, h => by
    simp only [List.length_cons, List.map_cons, List.cons_append, search]
    by_cases e : x = w
    · subst e; simp
    · have hr : w ∈ r := by
        cases h with
        | head => exact absurd rfl e
        | tail _ h => exact h
      rw [if_neg e, search_map r t hr]
      have : (x == w) = false := by simp [e]
      simp [List.idxOf_cons, this]

theorem map_eraseIdx {α β : Type} (f : α → β) : ∀ (l : List α) (k : Nat), (l.map f).eraseIdx k = (l.eraseIdx k).map f
  | [], _ => by simp
  | _ :: _, 0 => by simp
  | _ :: r, k + 1 => by simp [map_eraseIdx f r k]

theorem takeOut_block {s : Sys} {L : List Nat} {w : Nat} (h : Block s (L.map some)) (hn : s.nb = L.length)
    (hw : w ∈ L) : ∃ s', takeOut s (L.map some) (L.idxOf w) = .ok s' ∧ Block s' ((L.erase w).map some) := by
  have hlt : L.idxOf w < L.length := List.idxOf_lt_length_iff.2 hw
  have hne : L.map some ≠ [] := by intro e; simp at e; subst e; cases hw
  obtain ⟨g, ht, hg, _⟩ := block_entries h hne
  have he : (L.map (some : Nat → Option Nat)).eraseIdx (L.idxOf w) = (L.erase w).map some := by
    rw [map_eraseIdx, List.erase_eq_eraseIdx_of_idxOf rfl]
  have hlen : ((L.erase w).map (some : Nat → Option Nat)).length = L.length - 1 := by
    simp [List.length_erase, hw]
  unfold takeOut
  by_cases h1 : s.nb > 1
  · rw [if_pos h1, if_neg (by simp; omega)]
    have hb : Block { s with heap := (upd s.heap (s.table.getD 0)
          (some (((L.map (some : Nat → Option Nat)).take s.nb).eraseIdx (L.idxOf w)))) } ((L.erase w).map some) := by
      refine Or.inr ⟨?_, g, ht, ?_⟩
      · intro e; rw [e] at hlen; simp at hlen; omega
      · simp only [ht, Option.getD_some, upd_same]
        rw [List.take_of_length_le (by simp; omega), he]
    obtain ⟨s', hs, hb'⟩ := resize_block hb (s.nb - 1) (by rw [hlen]; omega) (by omega)
    refine ⟨s', hs, ?_⟩
    rw [hlen] at hb'
    simpa [hn] using hb'
  · rw [if_neg h1]
    refine ⟨_, rfl, Or.inl ⟨?_, rfl⟩⟩
    apply List.eq_nil_of_length_eq_zero
    rw [hlen]; omega

theorem setFlags_map (f : Nat → Bool) : ∀ (L : List Nat) (t : List (Option Nat)),
    ∃ f', setFlags f L.length (L.map some ++ t) = .ok f' ∧ ∀ i, f' i = (f i || decide (i ∈ L))
  | [], t => ⟨f, rfl, fun i => by simp⟩
  | x :: r, t => by
    obtain ⟨f', hf, hi⟩ := setFlags_map f r t
    refine ⟨upd f' x true, by simp [setFlags, hf], fun i => ?_⟩
    by_cases e : i = x
    · subst e; simp
    · rw [upd_ne _ _ e, hi]; simp [e]

theorem setFlags_mono (f : Nat → Bool) (i : Nat) (hi : f i = true) : ∀ (n : Nat) (c : List (Option Nat)) {f' : Nat → Bool},
    setFlags f n c = .ok f' → f' i = true
  | 0, _, _, h => by cases h; exact hi
  | _ + 1, [], _, h => by cases h
  | _ + 1, none :: _, _, h => by cases h
  | n + 1, some x :: r, f', h => by
    unfold setFlags at h
    cases hr : setFlags f n r with
    | ub => simp [hr] at h
    | ok g =>
      simp [hr] at h
      subst h
      by_cases e : i = x
      · subst e; simp
      · rw [upd_ne _ _ e]; exact setFlags_mono f i hi n r hr

theorem set_end {L : List Nat} {i : Nat} : (L.map some ++ [none]).set L.length (some i) = (L ++ [i]).map some := by
  rw [List.set_append_right _ _ (by simp)]
  simp

/-- A step of a connection's thread from a state where registrations are apart: no undefined behaviour, and the table
holds the registered websockets. -/
theorem ws_inv {s : Sys} {L : List Nat} {sp ov : Bool} {i : Nat} {r : Res Sys} (hl : Locks s) (ha : Apart s)
    (h : Inv s L sp ov) (hs : wsStep s i = some r) : ∃ s' L' sp' ov', r = .ok s' ∧ Inv s' L' sp' ov' := by
  have hfr := h.live
  unfold wsStep at hs
  cases hp : s.pc i <;> rw [hp] at hs <;>
    simp only [hfr, Bool.false_eq_true, if_false, Option.some.injEq, reduceCtorEq] at hs
  case idle =>
    subst hs
    refine ⟨_, L, sp, ov, rfl, h.still (i := i) rfl rfl rfl rfl (by simp [go, hfr]) ?_ ?_ ?_ ?_ ?_⟩ <;> simp [hp, Pc.active, Pc.spare]
  case growing p n =>
    obtain ⟨hpt, hnn⟩ := h.grow i p n hp
    subst hpt hnn
    have hap := ha i (by simp [hp, Pc.early])
    have hov : ov = false := by
      cases hv : ov with
      | false => rfl
      | true =>
        obtain ⟨j, hj⟩ := h.over_iff.1 hv
        have : j ≠ i := by intro e; subst e; rw [hp] at hj; cases hj
        have := (hap.1 j this).2
        simp [hj, Pc.holdsA] at this
    have hsp : sp = false := by
      cases hv : sp with
      | false => rfl
      | true =>
        obtain ⟨j, hj⟩ := h.spare_iff.1 hv
        have : j ≠ i := by intro e; subst e; rw [hp] at hj; cases hj
        have := hap.1 j this
        rw [not_spare this.1 this.2] at hj; cases hj
    subst hov hsp
    have hnb := h.nb
    simp at hnb
    have hb := h.blk
    simp only [Bool.false_eq_true, if_false, List.append_nil] at hb
    obtain ⟨t, ht, hbt⟩ := resize_block hb (s.nb + 1) (by simp; omega) (by omega)
    have hf := resize_frame ht
    rw [ht] at hs
    simp only [Res.ok_bind, Res.pure_eq] at hs
    refine ⟨_, L, true, false, hs.symm, h.nodup, fun j => ?_, ?_, ?_, ?_, ?_, ?_, ?_⟩
    · rw [h.mem j]; simp only [go, hf]
      by_cases e : j = i
      · subst e; simp [hp, Pc.active]
      · rw [upd_ne _ _ e]
    · simp only [true_iff]; exact ⟨i, by simp [go, Pc.spare]⟩
    · simp only [Bool.false_eq_true, false_iff, go, hf]
      rw [ex_upd_cut (by simp) (by simp [hp])]
      intro hc; have := h.over_iff.2 hc; cases this
    · simp [go, hf, hnb]
    · unfold Block at *
      simp only [go]
      simpa [hnb] using hbt
    · intro j p n hj
      simp only [go, hf] at hj
      by_cases e : j = i
      · subst e; simp at hj
      · rw [upd_ne _ _ e] at hj
        exact absurd hj (not_growing (hap.1 j e).1)
    · simp [go, hf, hfr]
  case grown =>
    split at hs
    · cases hs
      refine ⟨_, L, sp, ov, rfl, h.still (i := i) rfl rfl rfl rfl (by simp [go, hfr]) ?_ ?_ ?_ ?_ ?_⟩ <;> simp [hp, Pc.active, Pc.spare]
    · cases hs
  case adding =>
    have hal := alone hl ha (i := i) (by simp [hp, Pc.holdsA])
    have hov : ov = false := by
      cases hv : ov with
      | false => rfl
      | true =>
        obtain ⟨j, hj⟩ := h.over_iff.1 hv
        have hji : j ≠ i := by intro e; subst e; rw [hp] at hj; cases hj
        exact absurd hj (not_cut (hal j hji).2)
    have hsp : sp = true := h.spare_iff.2 ⟨i, by simp [hp, Pc.spare]⟩
    subst hov hsp
    have hnb := h.nb
    simp at hnb
    have hb := h.blk
    simp only [if_true] at hb
    obtain ⟨g, ht, hg, he⟩ := block_entries hb (by simp)
    rw [he] at hs
    simp only [Res.ok_bind, Res.pure_eq] at hs
    rw [if_pos (by simp; omega)] at hs
    have hi : i ∉ L := by rw [h.mem i, hp]; simp [Pc.active]
    refine ⟨_, L ++ [i], false, false, hs.symm, ?_, fun j => ?_, ?_, ?_, ?_, ?_, ?_, ?_⟩
    · rw [List.nodup_append]
      refine ⟨h.nodup, by simp, ?_⟩
      intro a ha b hb; simp at hb; subst hb; intro e; subst e; exact hi ha
    · simp only [go]
      by_cases e : j = i
      · subst e; simp [Pc.active]
      · rw [upd_ne _ _ e]; simp [e, h.mem j]
    · simp only [Bool.false_eq_true, false_iff, go]
      rintro ⟨j, hj⟩
      by_cases e : j = i
      · subst e; simp [Pc.spare] at hj
      · rw [upd_ne _ _ e, not_spare (hal j e).1 (hal j e).2] at hj; cases hj
    · simp only [Bool.false_eq_true, false_iff, go]
      rw [ex_upd_cut (by simp) (by simp [hp])]
      intro hc; have := h.over_iff.2 hc; cases this
    · simp [go, hnb]
    · refine Or.inr ⟨by simp, g, by simp [go, ht], ?_⟩
      simp only [go, ht, Option.getD_some, upd_same, Bool.false_eq_true, if_false, List.append_nil]
      rw [hnb, set_end]
    · intro j p n hj
      simp only [go] at hj
      by_cases e : j = i
      · subst e; simp at hj
      · rw [upd_ne _ _ e] at hj
        exact absurd hj (not_growing (hal j e).1)
    · simp [go, hfr]
  case added =>
    subst hs
    refine ⟨_, L, sp, ov, rfl, h.still (i := i) rfl rfl rfl rfl (by simp [go, hfr]) ?_ ?_ ?_ ?_ ?_⟩ <;> simp [hp, Pc.active, Pc.spare]
  case listed =>
    subst hs
    refine ⟨_, L, sp, ov, rfl, h.still (i := i) rfl rfl rfl rfl (by simp [go, hfr]) ?_ ?_ ?_ ?_ ?_⟩ <;> simp [hp, Pc.active, Pc.spare]
  case running =>
    subst hs
    refine ⟨_, L, sp, ov, rfl, h.still (i := i) rfl rfl rfl rfl (by simp [go, hfr]) ?_ ?_ ?_ ?_ ?_⟩ <;> simp [hp, Pc.active, Pc.spare]
  case closing =>
    have hi : i ∈ L := by rw [h.mem i, hp]; rfl
    have hne : L.map some ++ (if sp then [none] else []) ≠ [] := by
      intro e; have := List.append_eq_nil_iff.1 e; simp at this; rw [this.1] at hi; cases hi
    obtain ⟨g, ht, _, _⟩ := block_entries h.blk hne
    rw [ht] at hs
    simp only at hs
    subst hs
    refine ⟨_, L, sp, ov, rfl, h.still (i := i) rfl rfl rfl rfl (by simp [go, hfr]) ?_ ?_ ?_ ?_ ?_⟩ <;> simp [hp, Pc.active, Pc.spare]
  case removing =>
    split at hs
    · cases hs
      refine ⟨_, L, sp, ov, rfl, h.still (i := i) rfl rfl rfl rfl (by simp [go, hfr]) ?_ ?_ ?_ ?_ ?_⟩ <;> simp [hp, Pc.active, Pc.spare]
    · cases hs
  case finding =>
    have hal := alone hl ha (i := i) (by simp [hp, Pc.holdsA])
    have hov : ov = false := by
      cases hv : ov with
      | false => rfl
      | true =>
        obtain ⟨j, hj⟩ := h.over_iff.1 hv
        have hji : j ≠ i := by intro e; subst e; rw [hp] at hj; cases hj
        exact absurd hj (not_cut (hal j hji).2)
    have hsp : sp = false := by
      cases hv : sp with
      | false => rfl
      | true =>
        obtain ⟨j, hj⟩ := h.spare_iff.1 hv
        have hji : j ≠ i := by intro e; subst e; rw [hp] at hj; cases hj
        rw [not_spare (hal j hji).1 (hal j hji).2] at hj; cases hj
    subst hov hsp
    have hnb := h.nb
    simp at hnb
    have hi : i ∈ L := by rw [h.mem i, hp]; rfl
    have hL : L.length ≠ 0 := by intro e; have := List.eq_nil_of_length_eq_zero e; subst this; cases hi
    rw [if_neg (by omega)] at hs
    have hb := h.blk
    simp only [Bool.false_eq_true, if_false, List.append_nil] at hb
    obtain ⟨g, ht, hg, he⟩ := block_entries hb (by intro e; simp at e; subst e; cases hi)
    have hse := search_map L [] hi
    rw [List.append_nil] at hse
    rw [he, hnb] at hs
    simp only [Res.ok_bind, hse] at hs
    obtain ⟨t, hto, hbt⟩ := takeOut_block hb hnb hi
    have hf := takeOut_frame hto
    rw [hto] at hs
    simp only [Res.ok_bind, Res.pure_eq] at hs
    refine ⟨_, L.erase i, false, true, hs.symm, h.nodup.erase _, fun j => ?_, ?_, ?_, ?_, ?_, ?_, ?_⟩
    · simp only [go, hf]
      by_cases e : j = i
      · subst e; simp [Pc.active, h.nodup.mem_erase_iff]
      · rw [upd_ne _ _ e, List.mem_erase_of_ne e, h.mem j]
    · simp only [Bool.false_eq_true, false_iff, go, hf]
      rintro ⟨j, hj⟩
      by_cases e : j = i
      · subst e; simp [Pc.spare] at hj
      · rw [upd_ne _ _ e, not_spare (hal j e).1 (hal j e).2] at hj; cases hj
    · simp only [true_iff]; exact ⟨i, by simp [go]⟩
    · simp only [go, hf, List.length_erase, hi, if_true, Bool.toNat_true]; omega
    · unfold Block at *
      simpa [go] using hbt
    · intro j p n hj
      simp only [go, hf] at hj
      by_cases e : j = i
      · subst e; simp at hj
      · rw [upd_ne _ _ e] at hj
        exact absurd hj (not_growing (hal j e).1)
    · simp [go, hf, hfr]
  case cut =>
    have hal := alone hl ha (i := i) (by simp [hp, Pc.holdsA])
    have hov : ov = true := h.over_iff.2 ⟨i, hp⟩
    subst hov hs
    have hnb := h.nb
    simp at hnb
    refine ⟨_, L, sp, false, rfl, h.nodup, fun j => ?_, ?_, ?_, ?_, ?_, ?_, ?_⟩
    · simp only [go]; rw [h.mem j]
      by_cases e : j = i
      · subst e; simp [hp, Pc.active]
      · rw [upd_ne _ _ e]
    · simp only [go]; rw [h.spare_iff, ex_upd Pc.spare (by simp [hp, Pc.spare])]
    · simp only [Bool.false_eq_true, false_iff, go]
      rintro ⟨j, hj⟩
      by_cases e : j = i
      · subst e; simp at hj
      · rw [upd_ne _ _ e] at hj; exact absurd hj (not_cut (hal j e).2)
    · simp [go, hnb]
    · have := h.blk; unfold Block at *; simpa [go] using this
    · intro j p n hj
      simp only [go] at hj
      by_cases e : j = i
      · subst e; simp at hj
      · rw [upd_ne _ _ e] at hj
        exact absurd hj (not_growing (hal j e).1)
    · simp [go, hfr]
  case lowered =>
    split at hs
    · cases hs
      refine ⟨_, L, sp, ov, rfl, h.still (i := i) rfl rfl rfl rfl (by simp [go, hfr]) ?_ ?_ ?_ ?_ ?_⟩ <;> simp [hp, Pc.active, Pc.spare]
    · cases hs
  case telling =>
    subst hs
    refine ⟨_, L, sp, ov, rfl, h.still (i := i) rfl rfl rfl rfl (by simp [go, hfr]) ?_ ?_ ?_ ?_ ?_⟩ <;> simp [hp, Pc.active, Pc.spare]
  case told =>
    subst hs
    refine ⟨_, L, sp, ov, rfl, h.still (i := i) rfl rfl rfl rfl (by simp [go, hfr]) ?_ ?_ ?_ ?_ ?_⟩ <;> simp [hp, Pc.active, Pc.spare]
  case leaving =>
    subst hs
    refine ⟨_, L, sp, ov, rfl, h.still (i := i) rfl rfl rfl rfl (by simp [go, hfr]) ?_ ?_ ?_ ?_ ?_⟩ <;> simp [hp, Pc.active, Pc.spare]

theorem Inv.same {s s' : Sys} {L : List Nat} {sp ov : Bool} (h : Inv s L sp ov) (hp : s'.pc = s.pc)
    (ht : s'.table = s.table) (hh : s'.heap = s.heap) (hn : s'.nb = s.nb) (hf : s'.freed = s.freed) : Inv s' L sp ov := by
  refine ⟨h.nodup, by rw [hp]; exact h.mem, by rw [hp]; exact h.spare_iff, by rw [hp]; exact h.over_iff,
    by rw [hn]; exact h.nb, ?_, by rw [hp, ht, hn]; exact h.grow, by rw [hf]; exact h.live⟩
  have := h.blk; unfold Block at *; rw [ht, hh]; exact this

/-- While `ulfius_stop_framework` holds the lock the table holds exactly the registered websockets. -/
theorem stop_holds {s : Sys} {L : List Nat} {sp ov : Bool} (hl : Locks s) (ha : Apart s) (h : Inv s L sp ov)
    (hs : s.stop.holdsA = true) : sp = false ∧ ov = false := by
  have hlk := hl.as.1 hs
  constructor
  · cases hv : sp with
    | false => rfl
    | true =>
      obtain ⟨j, hj⟩ := h.spare_iff.1 hv
      cases he : (s.pc j).early with
      | true => have := (ha j he).2; rw [hs] at this; cases this
      | false =>
        cases hh : (s.pc j).holdsA with
        | true => have := (hl.aw j).1 hh; rw [hlk] at this; cases this
        | false => rw [not_spare he hh] at hj; cases hj
  · cases hv : ov with
    | false => rfl
    | true =>
      obtain ⟨j, hj⟩ := h.over_iff.1 hv
      have := (hl.aw j).1 (by simp [hj, Pc.holdsA])
      rw [hlk] at this; cases this

theorem stop_inv {s : Sys} {L : List Nat} {sp ov : Bool} {r : Res Sys} (hl : Locks s) (ha : Apart s)
    (h : Inv s L sp ov) (hs : stopStep s = some r) : ∃ s', r = .ok s' ∧ Inv s' L sp ov := by
  cases r with
  | ok s' =>
    have hf := stopStep_frame hs
    exact ⟨s', rfl, h.same hf.1 hf.2.2.1 hf.2.2.2.1 hf.2.1 hf.2.2.2.2.2⟩
  | ub =>
    exfalso
    unfold Active.stopStep at hs
    cases hp : s.stop <;> rw [hp] at hs <;> simp only at hs
    case flag =>
      split at hs
      · cases hs
      · case isFalse hn =>
        obtain ⟨h1, h2⟩ := stop_holds hl ha h (by simp [hp, StopPc.holdsA])
        subst h1 h2
        have hnb := h.nb
        simp at hnb
        have hb := h.blk
        simp only [Bool.false_eq_true, if_false, List.append_nil] at hb
        obtain ⟨g, _, _, he⟩ := block_entries hb (by intro e; simp at e; subst e; exact hn (by simpa using hnb))
        obtain ⟨f', hf, _⟩ := setFlags_map s.closeFlag L []
        rw [List.append_nil] at hf
        simp [he, hnb, hf] at hs
    case start => split at hs <;> cases hs
    case lockClose => split at hs <;> cases hs
    all_goals cases hs

/-- Every action but `ulfius_clean_instance`. -/
def noClean (a : Act) : Prop := a ≠ .clean

theorem next_inv {s : Sys} {L : List Nat} {sp ov : Bool} {a : Act} {r : Res Sys} (hl : Locks s) (ha : Apart s)
    (h : Inv s L sp ov) (hc : noClean a) (hs : next s a = some r) : ∃ s' L' sp' ov', r = .ok s' ∧ Inv s' L' sp' ov' := by
  cases a with
  | ws i => exact ws_inv hl ha h hs
  | stop => obtain ⟨s', h1, h2⟩ := stop_inv hl ha h hs; exact ⟨s', L, sp, ov, h1, h2⟩
  | spurious =>
    simp only [next] at hs
    split at hs
    · cases hs; exact ⟨_, L, sp, ov, rfl, h.same rfl rfl rfl rfl rfl⟩
    · cases hs
  | drop i =>
    simp only [next] at hs
    split at hs
    · case isTrue e =>
      cases hs
      refine ⟨_, L, sp, ov, rfl, h.still (i := i) rfl rfl rfl rfl rfl ?_ ?_ ?_ ?_ ?_⟩ <;> simp [e, Pc.active, Pc.spare]
    · cases hs
  | clean => exact absurd rfl hc

theorem reach_inv {ok : Act → Prop} (hok : ∀ a, ok a → noClean a) {s : Sys} (h : Reach ok Apart s) :
    ∃ L sp ov, Inv s L sp ov := by
  induction h with
  | init _ => exact ⟨[], false, false, Inv.init⟩
  | step hr ha hn _ ih =>
    obtain ⟨L, sp, ov, hi⟩ := ih
    obtain ⟨s', L', sp', ov', e, h'⟩ := next_inv (reach_locks hr) (reach_P hr) hi (hok _ ha) hn
    cases e
    exact ⟨L', sp', ov', h'⟩

end Verif.Active
