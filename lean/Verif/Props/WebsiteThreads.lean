import Verif.Model.WebsiteThreads
/-! # C159: several requests for one compressed website at the same time -/
namespace Verif.Props
open Verif.WebsiteThreads

/-- The cache with these files, each under its name, as `u_map` keeps it. -/
def cacheOf (zip : Bytes → Bytes) (es : List Bytes) : Mem where
  keys := es.map .key ++ [.null]
  values := es.map (fun x => .val (zip x)) ++ [.null]
  lengths := es.map (fun x => some (zip x).length) ++ [some 0]
  nb := es.length

/-- The thread holds the lock. -/
private def inside : Pc → Bool
  | .ready | .has _ | .get _ | .len _ _ | .lock _ => false
  | _ => true

/-- The map while the thread with the lock is at this statement. -/
private def lay (zip : Bytes → Bytes) (es : List Bytes) : Pc → Mem
  | .key _ _ => { cacheOf zip es with keys := es.map .key ++ [.null, .junk] }
  | .keyEnd x _ => { cacheOf zip es with keys := es.map .key ++ [.key x, .junk] }
  | .values x _ => { cacheOf zip es with keys := (cacheOf zip (es ++ [x])).keys }
  | .value x _ => { cacheOf zip es with keys := (cacheOf zip (es ++ [x])).keys, values := es.map (fun x => .val (zip x)) ++ [.null, .junk] }
  | .valueEnd x _ => { cacheOf zip es with keys := (cacheOf zip (es ++ [x])).keys,
                                           values := es.map (fun x => .val (zip x)) ++ [.val (zip x), .junk] }
  | .lengths x _ => { cacheOf zip (es ++ [x]) with lengths := (cacheOf zip es).lengths, nb := es.length }
  | .length x _ => { cacheOf zip (es ++ [x]) with lengths := es.map (fun x => some (zip x).length) ++ [some 0, none], nb := es.length }
  | .lengthEnd x _ => { cacheOf zip (es ++ [x]) with lengths := es.map (fun x => some (zip x).length) ++ [some (zip x).length, none],
                                                     nb := es.length }
  | .count x => { cacheOf zip (es ++ [x]) with nb := es.length }
  | _ => cacheOf zip es

/-- What is known at this statement. -/
private def Side (zip : Bytes → Bytes) (es : List Bytes) : Pc → Prop
  | .over x j => es[j]? = some x
  | .keys x | .count x => x ∉ es
  | .key x j | .keyEnd x j | .values x j | .value x j | .valueEnd x j | .lengths x j | .length x j | .lengthEnd x j =>
    x ∉ es ∧ j = es.length
  | .lget x => x ∈ es
  | .llen x v => x ∈ es ∧ v = some (zip x)
  | _ => True

private def holder (s : Sys) : Pc := match s.lock with
  | none => .ready
  | some h => (s.th h).pc

private structure Inv (zip : Bytes → Bytes) (es : List Bytes) (s : Sys) : Prop where
  nodup : es.Nodup
  mem : s.mem = lay zip es (holder s)
  side : Side zip es (holder s)
  lock : ∀ j, inside (s.th j).pc = true ↔ s.lock = some j
  answers : ∀ a ∈ s.answers, a.2 = some (zip a.1) ∨ a.2 = none
  reads : ∀ j x v, (s.th j).pc = .len x (some v) → v = zip x

private theorem find_rest : ∀ (es : List Bytes) (x : Bytes) (rest : List KSlot), (x ∈ es → ∃ j, find (es.map .key ++ rest) x = .ok (some j) ∧
    es[j]? = some x) ∧ (x ∉ es → find (es.map .key ++ rest) x = (find rest x >>= fun r => .ok (r.map (· + es.length))))
  | [], x, rest => by
    refine ⟨fun h => by simp at h, fun _ => ?_⟩
    cases h : find rest x with
    | ub => simp [h]
    | ok r => cases r <;> simp [h]
  | k :: t, x, rest => by
    obtain ⟨h1, h2⟩ := find_rest t x rest
    constructor
    · intro hx
      by_cases hk : k = x
      · exact ⟨0, by simp [find, hk], by simp [hk]⟩
      · have hx' : x ∈ t := by
          rcases List.mem_cons.1 hx with h | h
          · exact absurd h.symm hk
          · exact h
        obtain ⟨j, e1, e2⟩ := h1 hx'
        exact ⟨j + 1, by simp [find, hk, e1], by simpa using e2⟩
    · intro hx
      have hk : k ≠ x := fun h => hx (by simp [h])
      have hx' : x ∉ t := fun h => hx (by simp [h])
      simp only [List.map_cons, List.cons_append, find, if_neg hk, h2 hx']
      cases h : find rest x with
      | ub => rfl
      | ok r => cases r <;> simp [Nat.add_assoc]


private theorem find_place : ∀ (ks : List KSlot) (x : Bytes) (j : Nat), find ks x = .ok (some j) → ks[j]? = some (.key x)
  | [], _, _, h => by cases h
  | .junk :: _, _, _, h => by cases h
  | .null :: _, _, _, h => by cases h
  | .key k :: t, x, j, h => by
    simp only [find] at h
    by_cases hk : k = x
    · rw [if_pos hk] at h
      injection h with h
      injection h with h
      subst h
      simp [hk]
    · rw [if_neg hk] at h
      cases hf : find t x with
      | ub => rw [hf] at h; cases h
      | ok r =>
        rw [hf] at h
        cases r with
        | none => cases h
        | some n =>
          simp only [Res.ok_bind, Option.map_some, Res.pure_eq, Res.ok.injEq, Option.some.injEq] at h
          subst h
          simpa using find_place t x n hf

/-- Every key has its value and length, or the length 0. -/
private def Weak (zip : Bytes → Bytes) (m : Mem) : Prop :=
  ∀ (j : Nat) (x : Bytes), m.keys[j]? = some (KSlot.key x) → m.lengths[j]? = some (some 0) ∨
    (m.lengths[j]? = some (some (zip x).length) ∧ m.values[j]? = some (VSlot.val (zip x)))

private theorem weak_of {zip : Bytes → Bytes} {m : Mem} (es : List Bytes) (kt : List KSlot) (vt : List VSlot) (lt : List (Option Nat))
    (hk : m.keys = es.map .key ++ kt) (hv : m.values = es.map (fun x => .val (zip x)) ++ vt)
    (hl : m.lengths = es.map (fun x => some (zip x).length) ++ lt)
    (ht : ∀ (j : Nat) (x : Bytes), kt[j]? = some (KSlot.key x) → lt[j]? = some (some 0) ∨ (lt[j]? = some (some (zip x).length) ∧ vt[j]? = some (VSlot.val (zip x)))) :
    Weak zip m := by
  intro j x h
  rw [hk] at h
  by_cases hj : j < es.length
  · rw [List.getElem?_append_left (by simpa using hj), List.getElem?_map] at h
    cases he : es[j]? with
    | none => rw [he] at h; cases h
    | some y =>
      rw [he] at h
      simp only [Option.map_some, Option.some.injEq, KSlot.key.injEq] at h
      subst h
      right
      rw [hl, hv, List.getElem?_append_left (by simpa using hj), List.getElem?_append_left (by simpa using hj), List.getElem?_map,
        List.getElem?_map, he]
      exact ⟨rfl, rfl⟩
  · rw [List.getElem?_append_right (by simp; omega)] at h
    rw [hl, hv, List.getElem?_append_right (by simp; omega), List.getElem?_append_right (by simp; omega)]
    simp only [List.length_map] at h ⊢
    exact ht _ _ h

private theorem weak_lay (zip : Bytes → Bytes) (es : List Bytes) (pc : Pc) : Weak zip (lay zip es pc) := by
  have hrest : Weak zip (cacheOf zip es) := weak_of es [.null] [.null] [some 0] rfl rfl rfl (by
    intro j x h
    cases j <;> simp at h)
  cases pc with
  | key y j =>
    exact weak_of es [.null, .junk] [.null] [some 0] rfl rfl rfl (by
      intro j x h
      match j with
      | 0 | 1 | _ + 2 => simp at h)
  | keyEnd y j =>
    refine weak_of es [.key y, .junk] [.null] [some 0] rfl rfl rfl (by
      intro j x h
      match j with
      | 0 => simp
      | 1 | _ + 2 => simp at h)
  | values y j =>
    refine weak_of es [.key y, .null] [.null] [some 0] (by simp [lay, cacheOf]) rfl rfl (by
      intro j x h
      match j with
      | 0 => simp
      | 1 | _ + 2 => simp at h)
  | value y j =>
    refine weak_of es [.key y, .null] [.null, .junk] [some 0] (by simp [lay, cacheOf]) rfl rfl (by
      intro j x h
      match j with
      | 0 => simp
      | 1 | _ + 2 => simp at h)
  | valueEnd y j =>
    refine weak_of es [.key y, .null] [.val (zip y), .junk] [some 0] (by simp [lay, cacheOf]) rfl rfl (by
      intro j x h
      match j with
      | 0 => simp
      | 1 | _ + 2 => simp at h)
  | lengths y j =>
    refine weak_of es [.key y, .null] [.val (zip y), .null] [some 0] (by simp [lay, cacheOf]) (by simp [lay, cacheOf]) rfl (by
      intro j x h
      match j with
      | 0 => simp
      | 1 | _ + 2 => simp at h)
  | length y j =>
    refine weak_of es [.key y, .null] [.val (zip y), .null] [some 0, none] (by simp [lay, cacheOf]) (by simp [lay, cacheOf]) rfl (by
      intro j x h
      match j with
      | 0 => simp
      | 1 | _ + 2 => simp at h)
  | lengthEnd y j =>
    refine weak_of es [.key y, .null] [.val (zip y), .null] [some (zip y).length, none] (by simp [lay, cacheOf]) (by simp [lay, cacheOf])
      rfl (by
      intro j x h
      match j with
      | 0 =>
        simp only [List.getElem?_cons_zero, Option.some.injEq, KSlot.key.injEq] at h
        subst h
        simp
      | 1 | _ + 2 => simp at h)
  | count y =>
    refine weak_of es [.key y, .null] [.val (zip y), .null] [some (zip y).length, some 0] (by simp [lay, cacheOf]) (by simp [lay, cacheOf])
      (by simp [lay, cacheOf]) (by
      intro j x h
      match j with
      | 0 =>
        simp only [List.getElem?_cons_zero, Option.some.injEq, KSlot.key.injEq] at h
        subst h
        simp
      | 1 | _ + 2 => simp at h)
  | ready | has _ | get _ | len _ _ | lock _ | put _ | over _ _ | keys _ | lget _ | llen _ _ => exact hrest

private theorem getVal_weak {zip : Bytes → Bytes} {m : Mem} (hw : Weak zip m) {x : Bytes} {v : Option Bytes} (h : getVal m x = .ok v) :
    v = none ∨ v = some (zip x) := by
  unfold getVal at h
  cases hf : find m.keys x with
  | ub => rw [hf] at h; cases h
  | ok r =>
    rw [hf] at h
    simp only [Res.ok_bind] at h
    cases r with
    | none => simp only [Res.pure_eq, Res.ok.injEq] at h; exact .inl h.symm
    | some j =>
      simp only at h
      rcases hw j x (find_place _ _ _ hf) with hl | ⟨hl, hv⟩
      · rw [hl] at h
        simp only [gt_iff_lt, Nat.lt_irrefl, if_false, Res.pure_eq, Res.ok.injEq] at h
        exact .inl h.symm
      · rw [hl, hv] at h
        simp only at h
        split at h
        · simp only [Res.pure_eq, Res.ok.injEq] at h; exact .inr h.symm
        · simp only [Res.pure_eq, Res.ok.injEq] at h; exact .inl h.symm

private theorem body_weak {zip : Bytes → Bytes} (hz : ∀ x, (zip x).length + 1 < 2 ^ 64) {m : Mem} (hw : Weak zip m) {x : Bytes}
    {v : Option Bytes} (hv : v = none ∨ v = some (zip x)) {n : Nat} (hn : getLen m x = .ok n) {b : Option Bytes} (hb : body v n = .ok b) :
    b = some (zip x) ∨ b = none := by
  rcases hv with rfl | rfl
  · simp only [body, Res.ok.injEq] at hb
    exact .inr hb.symm
  · simp only [body] at hb
    unfold getLen at hn
    cases hf : find m.keys x with
    | ub => rw [hf] at hn; cases hn
    | ok r =>
      rw [hf] at hn
      simp only [Res.ok_bind] at hn
      cases r with
      | none =>
        simp only [Res.pure_eq, Res.ok.injEq] at hn
        have := hz x
        rw [if_neg (by omega), if_neg (by omega)] at hb
        cases hb
      | some j =>
        simp only at hn
        rcases hw j x (find_place _ _ _ hf) with hl | ⟨hl, -⟩
        · rw [hl] at hn
          simp only [Res.pure_eq, Res.ok.injEq] at hn
          rw [if_pos hn.symm] at hb
          injection hb with hb
          exact .inr hb.symm
        · rw [hl] at hn
          simp only [Res.pure_eq, Res.ok.injEq] at hn
          subst hn
          split at hb
          · injection hb with hb
            exact .inr hb.symm
          · rw [if_pos (Nat.le_refl _), List.take_length] at hb
            injection hb with hb
            exact .inl hb.symm

/-! ## At rest -/

private theorem rest_find (zip : Bytes → Bytes) (es : List Bytes) (x : Bytes) :
    (x ∈ es → ∃ j, find (cacheOf zip es).keys x = .ok (some j) ∧ es[j]? = some x) ∧
    (x ∉ es → find (cacheOf zip es).keys x = .ok none) := by
  obtain ⟨h1, h2⟩ := find_rest es x [.null]
  exact ⟨h1, fun h => h2 h⟩

private theorem rest_at {zip : Bytes → Bytes} {es : List Bytes} {x : Bytes} {j : Nat} (h : es[j]? = some x) :
    (cacheOf zip es).lengths[j]? = some (some (zip x).length) ∧ (cacheOf zip es).values[j]? = some (.val (zip x)) := by
  have hj : j < es.length := by
    rcases Nat.lt_or_ge j es.length with h' | h'
    · exact h'
    · rw [List.getElem?_eq_none h'] at h
      cases h
  simp only [cacheOf]
  rw [List.getElem?_append_left (by simpa using hj), List.getElem?_append_left (by simpa using hj), List.getElem?_map,
    List.getElem?_map, h]
  exact ⟨rfl, rfl⟩

private theorem rest_get {zip : Bytes → Bytes} (hz : ∀ x, zip x ≠ []) {es : List Bytes} {x : Bytes} (h : x ∈ es) :
    getVal (cacheOf zip es) x = .ok (some (zip x)) ∧ getLen (cacheOf zip es) x = .ok (zip x).length ∧
    body (some (zip x)) (zip x).length = .ok (some (zip x)) := by
  obtain ⟨j, h1, h2⟩ := (rest_find zip es x).1 h
  obtain ⟨h3, h4⟩ := rest_at (zip := zip) h2
  have hl : 0 < (zip x).length := List.length_pos_iff.2 (hz x)
  refine ⟨?_, ?_, ?_⟩
  · simp only [getVal, h1, Res.ok_bind, h3, h4]
    rw [if_pos hl]
    rfl
  · simp only [getLen, h1, Res.ok_bind, h3]
    rfl
  · simp only [body]
    rw [if_neg (by omega), if_pos (Nat.le_refl _), List.take_length]

private theorem rest_search (zip : Bytes → Bytes) : ∀ (es : List Bytes) (x : Bytes) (rest : List KSlot),
    (x ∈ es → ∃ j, search es.length (es.map .key ++ rest) x = .ok (some j) ∧ es[j]? = some x) ∧
    (x ∉ es → search es.length (es.map .key ++ rest) x = .ok none)
  | [], x, rest => by
    refine ⟨fun h => by simp at h, fun _ => ?_⟩
    simp [search]
  | k :: t, x, rest => by
    obtain ⟨h1, h2⟩ := rest_search zip t x rest
    constructor
    · intro hx
      by_cases hk : k = x
      · exact ⟨0, by simp [search, hk], by simp [hk]⟩
      · have hx' : x ∈ t := by
          rcases List.mem_cons.1 hx with h | h
          · exact absurd h.symm hk
          · exact h
        obtain ⟨j, e1, e2⟩ := h1 hx'
        exact ⟨j + 1, by simp [search, hk, e1], by simpa using e2⟩
    · intro hx
      have hk : k ≠ x := fun h => hx (by simp [h])
      have hx' : x ∉ t := fun h => hx (by simp [h])
      simp [search, hk, h2 hx']

private theorem rest_last : ∀ (es : List Bytes) (rest : List KSlot), last (es.map .key ++ .null :: rest) = .ok es.length
  | [], _ => rfl
  | k :: t, rest => by simp [last, rest_last t rest]

private theorem resize_more {α β : Type} (junk : α) (f : β → α) (es : List β) (a : α) :
    resize junk (es.map f ++ [a]) (es.length + 2) = es.map f ++ [a, junk] := by
  unfold resize
  rw [List.take_of_length_le (by simp)]
  simp

private theorem store_at {α β : Type} (f : β → α) (es : List β) (a b c : α) :
    store (es.map f ++ [a, b]) es.length c = .ok (es.map f ++ [c, b]) ∧
    store (es.map f ++ [a, b]) (es.length + 1) c = .ok (es.map f ++ [a, c]) := by
  unfold store
  rw [if_pos (by simp), if_pos (by simp)]
  constructor
  · rw [List.set_append_right _ _ (by simp)]
    simp
  · rw [List.set_append_right _ _ (by simp)]
    simp

private theorem overwrite_same {zip : Bytes → Bytes} {es : List Bytes} {x : Bytes} {j : Nat} (h : es[j]? = some x) :
    overwrite (cacheOf zip es) j (zip x) = .ok (cacheOf zip es) := by
  obtain ⟨h3, h4⟩ := rest_at (zip := zip) h
  unfold overwrite
  rw [h3, h4]
  simp only [Nat.lt_irrefl, if_false, List.drop_length, List.append_nil]
  have : (cacheOf zip es).values.set j (.val (zip x)) = (cacheOf zip es).values := by
    apply List.ext_getElem?
    intro k
    by_cases hk : j = k
    · subst hk
      rw [List.getElem?_set_self', h4]
      rfl
    · rw [List.getElem?_set_ne hk]
  rw [this]


/-! ## One action -/

private theorem go_other (s : Sys) (i : Nat) (pc : Pc) {j : Nat} (h : j ≠ i) : (go s i pc).th j = s.th j := if_neg h
private theorem go_self (s : Sys) (i : Nat) (pc : Pc) : ((go s i pc).th i).pc = pc := by simp [go]

/-- What the thread with the lock does. -/
private structure Held (zip : Bytes → Bytes) (es : List Bytes) (s : Sys) (i : Nat) (s' : Sys) (es' : List Bytes) : Prop where
  run : step zip s i = .ok s'
  grows : ∀ x ∈ es, x ∈ es'
  inv : Inv zip es' s'
  others : ∀ j, j ≠ i → s'.th j = s.th j
  out : (∀ x, (s'.th i).pc ≠ .get x) ∧ ∀ x v, (s'.th i).pc ≠ .len x v
  answers : s'.answers = s.answers ∨ ∃ x, s'.answers = s.answers ++ [(x, some (zip x))]

private theorem held_go {zip : Bytes → Bytes} {es es' : List Bytes} {s : Sys} {i : Nat} (h : Inv zip es s) (hi : s.lock = some i) {m : Mem} {pc : Pc}
    (hr : step zip s i = .ok (go { s with mem := m } i pc)) (hn : es'.Nodup) (hg : ∀ x ∈ es, x ∈ es') (hin : inside pc = true)
    (hm : m = lay zip es' pc) (hs : Side zip es' pc) : Held zip es s i (go { s with mem := m } i pc) es' := by
  have hh : holder (go { s with mem := m } i pc) = pc := by
    have : (go { s with mem := m } i pc).lock = some i := hi
    simp only [holder, this, go_self]
  refine ⟨hr, hg, ⟨hn, ?_, ?_, ?_, h.answers, ?_⟩, fun j hj => go_other _ _ _ hj, ⟨?_, ?_⟩, .inl rfl⟩
  · rw [hh]; exact hm
  · rw [hh]; exact hs
  · intro j
    show inside ((go { s with mem := m } i pc).th j).pc = true ↔ s.lock = some j
    by_cases hj : j = i
    · subst hj
      rw [go_self]
      exact ⟨fun _ => hi, fun _ => hin⟩
    · rw [go_other _ _ _ hj]
      exact h.lock j
  · intro j x v hj
    by_cases hji : j = i
    · subst hji
      rw [go_self] at hj
      rw [hj] at hin
      cases hin
    · rw [go_other _ _ _ hji] at hj
      exact h.reads j x v hj
  · intro x hx
    rw [go_self] at hx
    rw [hx] at hin
    cases hin
  · intro x v hx
    rw [go_self] at hx
    rw [hx] at hin
    cases hin

private theorem held_step {zip : Bytes → Bytes} (hz : ∀ x, zip x ≠ []) {es : List Bytes} {s : Sys} {i : Nat} (h : Inv zip es s)
    (hi : inside (s.th i).pc = true) : ∃ s' es', Held zip es s i s' es' := by
  have hl : s.lock = some i := (h.lock i).1 hi
  have hh : holder s = (s.th i).pc := by simp only [holder, hl]
  have hm := h.mem
  have hs := h.side
  rw [hh] at hm hs
  have hsm (m : Mem) (e : m = s.mem) : ({ s with mem := m } : Sys) = s := by rw [e]
  generalize hpc : (s.th i).pc = pc at hi hm hs
  cases pc with
  | ready | has _ | get _ | len _ _ | lock _ => cases hi
  | put x =>
    have hm' : s.mem = cacheOf zip es := hm
    by_cases hx : x ∈ es
    · obtain ⟨j, e1, e2⟩ := (rest_search zip es x [.null]).1 hx
      refine ⟨_, es, held_go h hl (m := s.mem) (pc := .over x j) ?_ h.nodup (fun _ h => h) rfl hm' e2⟩
      have e1' : search s.mem.nb s.mem.keys x = .ok (some j) := by rw [hm']; exact e1
      simp only [step, hpc, e1', Res.ok_bind, Res.pure_eq]
    · have e1 := (rest_search zip es x [.null]).2 hx
      refine ⟨_, es, held_go h hl (m := s.mem) (pc := .keys x) ?_ h.nodup (fun _ h => h) rfl hm' hx⟩
      have e1' : search s.mem.nb s.mem.keys x = .ok none := by rw [hm']; exact e1
      have e2 : s.mem.values[s.mem.nb]? = some .null := by
        rw [hm']
        simp only [cacheOf]
        rw [List.getElem?_append_right (by simp)]
        simp
      simp only [step, hpc, e1', Res.ok_bind, e2, Res.pure_eq]
  | over x j =>
    have hm' : s.mem = cacheOf zip es := hm
    have hs' : es[j]? = some x := hs
    refine ⟨_, es, held_go h hl (m := s.mem) (pc := .lget x) ?_ h.nodup (fun _ h => h) rfl hm' (List.mem_of_getElem? hs')⟩
    have e1 : overwrite s.mem j (zip x) = .ok s.mem := by rw [hm']; exact overwrite_same hs'
    simp only [step, hpc, e1, Res.ok_bind, Res.pure_eq]
  | keys x =>
    have hm' : s.mem = cacheOf zip es := hm
    have e1 : last s.mem.keys = .ok es.length := by rw [hm']; exact rest_last es []
    refine ⟨_, es, held_go h hl (m := { s.mem with keys := resize .junk s.mem.keys (es.length + 2) }) (pc := .key x es.length) ?_ h.nodup
      (fun _ h => h) rfl ?_ ⟨hs, rfl⟩⟩
    · simp only [step, hpc, e1, Res.ok_bind, Res.pure_eq]
    · rw [hm']
      show (_ : Mem) = { cacheOf zip es with keys := es.map .key ++ [.null, .junk] }
      rw [show resize KSlot.junk (cacheOf zip es).keys (es.length + 2) = es.map .key ++ [.null, .junk] from resize_more _ _ _ _]
  | key x j =>
    obtain ⟨hx, rfl⟩ := hs
    have e1 : store s.mem.keys es.length (.key x) = .ok (es.map .key ++ [.key x, .junk]) := by
      rw [hm]; exact (store_at KSlot.key es _ _ _).1
    refine ⟨_, es, held_go h hl (m := { s.mem with keys := es.map .key ++ [.key x, .junk] }) (pc := .keyEnd x es.length) ?_ h.nodup
      (fun _ h => h) rfl ?_ ⟨hx, rfl⟩⟩
    · simp only [step, hpc, e1, Res.ok_bind, Res.pure_eq]
    · rw [hm]; rfl
  | keyEnd x j =>
    obtain ⟨hx, rfl⟩ := hs
    have e1 : store s.mem.keys (es.length + 1) .null = .ok (es.map .key ++ [.key x, .null]) := by
      rw [hm]; exact (store_at KSlot.key es _ _ _).2
    refine ⟨_, es, held_go h hl (m := { s.mem with keys := es.map .key ++ [.key x, .null] }) (pc := .values x es.length) ?_ h.nodup
      (fun _ h => h) rfl ?_ ⟨hx, rfl⟩⟩
    · simp only [step, hpc, e1, Res.ok_bind, Res.pure_eq]
    · rw [hm]; simp [lay, cacheOf]
  | values x j =>
    obtain ⟨hx, rfl⟩ := hs
    refine ⟨_, es, held_go h hl (m := { s.mem with values := resize .junk s.mem.values (es.length + 2) }) (pc := .value x es.length) ?_
      h.nodup (fun _ h => h) rfl ?_ ⟨hx, rfl⟩⟩
    · simp only [step, hpc]
    · rw [hm]
      simp only [lay, cacheOf]
      rw [resize_more]
  | value x j =>
    obtain ⟨hx, rfl⟩ := hs
    have e1 : store s.mem.values es.length (.val (zip x)) = .ok (es.map (fun x => .val (zip x)) ++ [.val (zip x), .junk]) := by
      rw [hm]; exact (store_at (fun x => VSlot.val (zip x)) es _ _ _).1
    refine ⟨_, es, held_go h hl (m := { s.mem with values := es.map (fun x => .val (zip x)) ++ [.val (zip x), .junk] })
      (pc := .valueEnd x es.length) ?_ h.nodup (fun _ h => h) rfl ?_ ⟨hx, rfl⟩⟩
    · simp only [step, hpc, e1, Res.ok_bind, Res.pure_eq]
    · rw [hm]; rfl
  | valueEnd x j =>
    obtain ⟨hx, rfl⟩ := hs
    have e1 : store s.mem.values (es.length + 1) .null = .ok (es.map (fun x => .val (zip x)) ++ [.val (zip x), .null]) := by
      rw [hm]; exact (store_at (fun x => VSlot.val (zip x)) es _ _ _).2
    refine ⟨_, es, held_go h hl (m := { s.mem with values := es.map (fun x => .val (zip x)) ++ [.val (zip x), .null] })
      (pc := .lengths x es.length) ?_ h.nodup (fun _ h => h) rfl ?_ ⟨hx, rfl⟩⟩
    · simp only [step, hpc, e1, Res.ok_bind, Res.pure_eq]
    · rw [hm]; simp [lay, cacheOf]
  | lengths x j =>
    obtain ⟨hx, rfl⟩ := hs
    refine ⟨_, es, held_go h hl (m := { s.mem with lengths := resize none s.mem.lengths (es.length + 2) }) (pc := .length x es.length) ?_
      h.nodup (fun _ h => h) rfl ?_ ⟨hx, rfl⟩⟩
    · simp only [step, hpc]
    · rw [hm]
      simp only [lay, cacheOf]
      rw [resize_more]
  | length x j =>
    obtain ⟨hx, rfl⟩ := hs
    have e1 : store s.mem.lengths es.length (some (zip x).length) =
        .ok (es.map (fun x => some (zip x).length) ++ [some (zip x).length, none]) := by
      rw [hm]; exact (store_at (fun x => some (zip x).length) es _ _ _).1
    refine ⟨_, es, held_go h hl (m := { s.mem with lengths := es.map (fun x => some (zip x).length) ++ [some (zip x).length, none] })
      (pc := .lengthEnd x es.length) ?_ h.nodup (fun _ h => h) rfl ?_ ⟨hx, rfl⟩⟩
    · simp only [step, hpc, e1, Res.ok_bind, Res.pure_eq]
    · rw [hm]; rfl
  | lengthEnd x j =>
    obtain ⟨hx, rfl⟩ := hs
    have e1 : store s.mem.lengths (es.length + 1) (some 0) =
        .ok (es.map (fun x => some (zip x).length) ++ [some (zip x).length, some 0]) := by
      rw [hm]; exact (store_at (fun x => some (zip x).length) es _ _ _).2
    refine ⟨_, es, held_go h hl (m := { s.mem with lengths := es.map (fun x => some (zip x).length) ++ [some (zip x).length, some 0] })
      (pc := .count x) ?_ h.nodup (fun _ h => h) rfl ?_ hx⟩
    · simp only [step, hpc, e1, Res.ok_bind, Res.pure_eq]
    · rw [hm]; simp [lay, cacheOf]
  | count x =>
    have hx : x ∉ es := hs
    refine ⟨_, es ++ [x], held_go h hl (m := { s.mem with nb := s.mem.nb + 1 }) (pc := .lget x) ?_ ?_
      (fun _ h => List.mem_append_left _ h) rfl ?_ (by simp [Side])⟩
    · simp only [step, hpc]
    · rw [List.nodup_append]
      exact ⟨h.nodup, by simp, by intro a ha b hb hab; simp at hb; subst hb; subst hab; exact hx ha⟩
    · rw [hm]; simp [lay, cacheOf]
  | lget x =>
    have hm' : s.mem = cacheOf zip es := hm
    have hx : x ∈ es := hs
    have e1 : getVal s.mem x = .ok (some (zip x)) := by rw [hm']; exact (rest_get hz hx).1
    refine ⟨_, es, held_go h hl (m := s.mem) (pc := .llen x (some (zip x))) ?_ h.nodup (fun _ h => h) rfl hm' ⟨hx, rfl⟩⟩
    simp only [step, hpc, e1, Res.ok_bind, Res.pure_eq]
  | llen x v =>
    have hm' : s.mem = cacheOf zip es := hm
    obtain ⟨hx, rfl⟩ := hs
    obtain ⟨-, e1, e2⟩ := rest_get hz hx
    have e1 : getLen s.mem x = .ok (zip x).length := by rw [hm']; exact e1
    refine ⟨go { s with answers := s.answers ++ [(x, some (zip x))], lock := none } i .ready, es, ?_, fun _ h => h, ⟨h.nodup, hm', trivial, ?_, ?_, ?_⟩,
      fun j hj => go_other _ _ _ hj, ⟨?_, ?_⟩, .inr ⟨x, rfl⟩⟩
    · simp only [step, hpc, e1, e2, Res.ok_bind, Res.pure_eq]
    · intro j
      by_cases hj : j = i
      · subst hj
        rw [go_self]
        exact ⟨(fun h => by cases h), (fun h => by cases h)⟩
      · rw [go_other _ _ _ hj]
        refine ⟨fun hin => ?_, fun h => by cases h⟩
        have := (h.lock j).1 hin
        rw [hl] at this
        injection this with this
        exact absurd this.symm hj
    · intro a ha
      rcases List.mem_append.1 ha with ha | ha
      · exact h.answers a ha
      · have : a = (x, some (zip x)) := by simpa using ha
        subst this
        exact .inl rfl
    · intro j y w hj
      by_cases hji : j = i
      · subst hji
        rw [go_self] at hj
        cases hj
      · rw [go_other _ _ _ hji] at hj
        exact h.reads j y w hj
    · intro y hy
      rw [go_self] at hy
      cases hy
    · intro y w hy
      rw [go_self] at hy
      cases hy

/-- A thread without the lock that goes on without it. -/
private theorem inv_free {zip : Bytes → Bytes} {es : List Bytes} {s : Sys} {i : Nat} (h : Inv zip es s) (hi : inside (s.th i).pc = false) {t : List Bytes}
    {pc : Pc} (hp : inside pc = false) {as : List (Bytes × Option Bytes)} (ha : ∀ a ∈ as, a.2 = some (zip a.1) ∨ a.2 = none)
    (hr : ∀ x v, pc = .len x (some v) → v = zip x) :
    Inv zip es { s with answers := s.answers ++ as, th := fun k => if k = i then ⟨t, pc⟩ else s.th k } := by
  have hli : s.lock ≠ some i := by
    intro e
    rw [(h.lock i).2 e] at hi
    cases hi
  have hh : holder { s with answers := s.answers ++ as, th := fun k => if k = i then ⟨t, pc⟩ else s.th k } = holder s := by
    simp only [holder]
    cases hl : s.lock with
    | none => rfl
    | some k =>
      have : k ≠ i := fun e => hli (by rw [hl, e])
      simp only [if_neg this]
  refine ⟨h.nodup, by rw [hh]; exact h.mem, by rw [hh]; exact h.side, ?_, ?_, ?_⟩
  · intro j
    by_cases hj : j = i
    · subst hj
      simp only [if_true, hp]
      exact ⟨(fun h => by cases h), fun e => absurd e hli⟩
    · simp only [if_neg hj]
      exact h.lock j
  · intro a hx
    rcases List.mem_append.1 hx with hx | hx
    · exact h.answers a hx
    · exact ha a hx
  · intro j x v hj
    by_cases hji : j = i
    · subst hji
      simp only [if_true] at hj
      exact hr x v hj
    · simp only [if_neg hji] at hj
      exact h.reads j x v hj

private theorem inv_lock {zip : Bytes → Bytes} {es : List Bytes} {s : Sys} {i : Nat} (h : Inv zip es s) (hl : s.lock = none) (x : Bytes) :
    Inv zip es (go { s with lock := some i } i (.put x)) := by
  have hh : holder (go { s with lock := some i } i (.put x)) = .put x := by simp [holder, go]
  have hm := h.mem
  have hold : holder s = .ready := by simp only [holder, hl]
  rw [hold] at hm
  refine ⟨h.nodup, by rw [hh]; exact hm, by rw [hh]; trivial, ?_, h.answers, ?_⟩
  · intro j
    by_cases hj : j = i
    · subst hj
      rw [go_self]
      exact ⟨fun _ => rfl, fun _ => rfl⟩
    · rw [go_other _ _ _ hj]
      refine ⟨fun hin => ?_, fun e => ?_⟩
      · have := (h.lock j).1 hin
        rw [hl] at this
        cases this
      · have e : some i = some j := e
        injection e with e
        exact absurd e.symm hj
  · intro j y v hj
    by_cases hji : j = i
    · subst hji
      rw [go_self] at hj
      cases hj
    · rw [go_other _ _ _ hji] at hj
      exact h.reads j y v hj

private theorem inv_step {zip : Bytes → Bytes} (hz : ∀ x, zip x ≠ [] ∧ (zip x).length + 1 < 2 ^ 64) {es : List Bytes} {s s' : Sys} {i : Nat}
    (h : Inv zip es s) (hr : step zip s i = .ok s') : ∃ es', Inv zip es' s' := by
  by_cases hin : inside (s.th i).pc = true
  · obtain ⟨s1, es', hh⟩ := held_step (fun x => (hz x).1) h hin
    have := hh.run
    rw [hr] at this
    injection this with this
    subst this
    exact ⟨es', hh.inv⟩
  · have hin : inside (s.th i).pc = false := by simpa using hin
    refine ⟨es, ?_⟩
    have hweak : Weak zip s.mem := by rw [h.mem]; exact weak_lay zip es _
    have hnil (t : List Bytes) (pc : Pc) (hp : inside pc = false) (hq : ∀ x v, pc = .len x (some v) → v = zip x) :
        Inv zip es { s with th := fun k => if k = i then ⟨t, pc⟩ else s.th k } := by
      have := inv_free (as := []) h hin (t := t) hp (by simp) hq
      rwa [List.append_nil] at this
    unfold step at hr
    generalize hpc : (s.th i).pc = pc at hr hin
    cases pc with
    | ready =>
      cases ht : (s.th i).todo with
      | nil =>
        rw [ht] at hr
        simp only [Res.ok.injEq] at hr
        rw [← hr]
        exact h
      | cons x t =>
        rw [ht] at hr
        simp only [Res.ok.injEq] at hr
        rw [← hr]
        exact hnil t (.has x) rfl (by intro x v hx; cases hx)
    | has x =>
      simp only at hr
      cases hf : find s.mem.keys x with
      | ub => rw [hf] at hr; cases hr
      | ok r =>
        rw [hf] at hr
        cases r with
        | none =>
          simp only [Res.ok_bind, Res.pure_eq, Res.ok.injEq] at hr
          rw [← hr]
          exact hnil _ (.lock x) rfl (by intro x v hx; cases hx)
        | some _ =>
          simp only [Res.ok_bind, Res.pure_eq, Res.ok.injEq] at hr
          rw [← hr]
          exact hnil _ (.get x) rfl (by intro x v hx; cases hx)
    | get x =>
      simp only at hr
      cases hf : getVal s.mem x with
      | ub => rw [hf] at hr; cases hr
      | ok v =>
        rw [hf] at hr
        simp only [Res.ok_bind, Res.pure_eq, Res.ok.injEq] at hr
        rw [← hr]
        refine hnil _ (.len x v) rfl ?_
        intro y w hy
        injection hy with hy1 hy2
        subst hy1
        rcases getVal_weak hweak hf with e | e
        · rw [e] at hy2; cases hy2
        · rw [e] at hy2
          injection hy2 with hy2
          exact hy2.symm
    | len x v =>
      simp only at hr
      cases hn : getLen s.mem x with
      | ub => rw [hn] at hr; cases hr
      | ok n =>
        rw [hn] at hr
        simp only [Res.ok_bind] at hr
        cases hb : body v n with
        | ub => rw [hb] at hr; cases hr
        | ok b =>
          rw [hb] at hr
          simp only [Res.ok_bind, Res.pure_eq, Res.ok.injEq] at hr
          rw [← hr]
          have hv : v = none ∨ v = some (zip x) := by
            cases v with
            | none => exact .inl rfl
            | some v => exact .inr (by rw [h.reads i x v hpc])
          refine inv_free (as := [(x, b)]) h (by rw [hpc]; rfl) rfl ?_ (by intro x v hx; cases hx)
          intro a ha
          have : a = (x, b) := by simpa using ha
          subst this
          exact body_weak (fun x => (hz x).2) hweak hv hn hb
    | lock x =>
      simp only at hr
      cases hl : s.lock with
      | none =>
        rw [hl] at hr
        simp only [Res.ok.injEq] at hr
        rw [← hr]
        exact inv_lock h hl x
      | some k =>
        rw [hl] at hr
        simp only [Res.ok.injEq] at hr
        rw [← hr]
        exact h
    | put _ | over _ _ | keys _ | key _ _ | keyEnd _ _ | values _ _ | value _ _ | valueEnd _ _ | lengths _ _ | length _ _ | lengthEnd _ _
    | count _ | lget _ | llen _ _ => cases hin

private theorem inv_exec {zip : Bytes → Bytes} (hz : ∀ x, zip x ≠ [] ∧ (zip x).length + 1 < 2 ^ 64) : ∀ (sched : List Nat) (s s' : Sys) (es : List Bytes),
    Inv zip es s → exec zip s sched = .ok s' → ∃ es', Inv zip es' s'
  | [], s, s', es, h, hr => by
    simp only [exec, Res.ok.injEq] at hr
    rw [← hr]
    exact ⟨es, h⟩
  | i :: t, s, s', es, h, hr => by
    simp only [exec] at hr
    cases hs : step zip s i with
    | ub => rw [hs] at hr; cases hr
    | ok s1 =>
      rw [hs] at hr
      obtain ⟨es1, h1⟩ := inv_step hz h hs
      exact inv_exec hz t s1 s' es1 h1 hr

private theorem inv_start (zip : Bytes → Bytes) {es : List Bytes} (hn : es.Nodup) (jobs : Nat → List Bytes) :
    Inv zip es (start (cacheOf zip es) jobs) :=
  ⟨hn, rfl, trivial, fun j => ⟨(fun h => by cases h), (fun h => by cases h)⟩, by simp [start], fun j x v h => by cases h⟩

/-! ## The theorems -/

/-- **C159**, without any exclusion. Whatever files any number of threads serve, from a cache with any files in it, in any interleaving:
an execution in which nothing undefined happens gives, for each request, the compressed file of the name asked for or no body at all,
never a part of it and never another file; and whenever no thread is inside the lock the cache has each file once, whole, with its
length. -/
theorem C159_answers_partial (zip : Bytes → Bytes) (hz : ∀ x, zip x ≠ [] ∧ (zip x).length + 1 < 2 ^ 64) (es : List Bytes) (hn : es.Nodup)
    (jobs : Nat → List Bytes) (sched : List Nat) (s : Sys) (h : exec zip (start (cacheOf zip es) jobs) sched = .ok s) :
    (∀ a ∈ s.answers, a.2 = some (zip a.1) ∨ a.2 = none) ∧ (s.lock = none → ∃ es', es'.Nodup ∧ s.mem = cacheOf zip es') := by
  obtain ⟨es', hi⟩ := inv_exec hz sched _ s es (inv_start zip hn jobs) h
  refine ⟨hi.answers, fun hl => ⟨es', hi.nodup, ?_⟩⟩
  have hm := hi.mem
  simp only [holder, hl] at hm
  exact hm

/-- No thread looks into the cache while another one is inside the lock: what the callback would have to do, and does not. -/
def LooksApart (zip : Bytes → Bytes) : Sys → List Nat → Prop
  | _, [] => True
  | s, i :: t => ((∃ x, (s.th i).pc = .has x ∨ (s.th i).pc = .get x ∨ ∃ v, (s.th i).pc = .len x v) → s.lock = none) ∧
    ∀ s', WebsiteThreads.step zip s i = .ok s' → LooksApart zip s' t

private structure Full (zip : Bytes → Bytes) (es : List Bytes) (s : Sys) : Prop where
  inv : Inv zip es s
  get : ∀ j x, (s.th j).pc = .get x → x ∈ es
  len : ∀ j x v, (s.th j).pc = .len x v → x ∈ es ∧ v = some (zip x)
  answers : ∀ a ∈ s.answers, a.2 = some (zip a.1)

private theorem full_free {zip : Bytes → Bytes} {es : List Bytes} {s : Sys} {i : Nat} (h : Full zip es s) (hi : inside (s.th i).pc = false) {t : List Bytes}
    {pc : Pc} (hp : inside pc = false) {as : List (Bytes × Option Bytes)} (ha : ∀ a ∈ as, a.2 = some (zip a.1))
    (hg : ∀ x, pc = .get x → x ∈ es) (hr : ∀ x v, pc = .len x v → x ∈ es ∧ v = some (zip x)) :
    Full zip es { s with answers := s.answers ++ as, th := fun k => if k = i then ⟨t, pc⟩ else s.th k } := by
  refine ⟨inv_free h.inv hi hp (fun a h => .inl (ha a h)) (fun x v e => ?_), ?_, ?_, ?_⟩
  · obtain ⟨-, e⟩ := hr x _ e
    injection e
  · intro j x hj
    by_cases hji : j = i
    · subst hji
      simp only [if_true] at hj
      exact hg x hj
    · simp only [if_neg hji] at hj
      exact h.get j x hj
  · intro j x v hj
    by_cases hji : j = i
    · subst hji
      simp only [if_true] at hj
      exact hr x v hj
    · simp only [if_neg hji] at hj
      exact h.len j x v hj
  · intro a hx
    rcases List.mem_append.1 hx with hx | hx
    · exact h.answers a hx
    · exact ha a hx

private theorem full_step {zip : Bytes → Bytes} (hz : ∀ x, zip x ≠ []) {es : List Bytes} {s : Sys} {i : Nat} (h : Full zip es s)
    (ha : (∃ x, (s.th i).pc = .has x ∨ (s.th i).pc = .get x ∨ ∃ v, (s.th i).pc = .len x v) → s.lock = none) :
    ∃ s' es', WebsiteThreads.step zip s i = .ok s' ∧ Full zip es' s' := by
  by_cases hin : inside (s.th i).pc = true
  · obtain ⟨s', es', hh⟩ := held_step hz h.inv hin
    refine ⟨s', es', hh.run, hh.inv, ?_, ?_, ?_⟩
    · intro j x hj
      by_cases hji : j = i
      · subst hji
        exact absurd hj (hh.out.1 x)
      · rw [hh.others j hji] at hj
        exact hh.grows x (h.get j x hj)
    · intro j x v hj
      by_cases hji : j = i
      · subst hji
        exact absurd hj (hh.out.2 x v)
      · rw [hh.others j hji] at hj
        exact ⟨hh.grows x (h.len j x v hj).1, (h.len j x v hj).2⟩
    · intro a hx
      rcases hh.answers with e | ⟨y, e⟩
      · rw [e] at hx
        exact h.answers a hx
      · rw [e] at hx
        rcases List.mem_append.1 hx with hx | hx
        · exact h.answers a hx
        · have : a = (y, some (zip y)) := by simpa using hx
          subst this
          rfl
  · have hin : inside (s.th i).pc = false := by simpa using hin
    have hnil (t : List Bytes) (pc : Pc) (hp : inside pc = false) (hg : ∀ x, pc = .get x → x ∈ es)
        (hq : ∀ x v, pc = .len x v → x ∈ es ∧ v = some (zip x)) :
        Full zip es { s with th := fun k => if k = i then ⟨t, pc⟩ else s.th k } := by
      have := full_free (as := []) h hin (t := t) hp (by simp) hg hq
      rwa [List.append_nil] at this
    have hrest (hl : s.lock = none) : s.mem = cacheOf zip es := by
      have hm := h.inv.mem
      simp only [holder, hl] at hm
      exact hm
    cases hpc : (s.th i).pc with
    | ready =>
      cases ht : (s.th i).todo with
      | nil => exact ⟨s, es, by simp only [WebsiteThreads.step, hpc, ht], h⟩
      | cons x t =>
        exact ⟨_, es, by simp only [WebsiteThreads.step, hpc, ht],
          hnil t (.has x) rfl (by intro x hx; cases hx) (by intro x v hx; cases hx)⟩
    | has x =>
      have hm := hrest (ha ⟨x, .inl hpc⟩)
      by_cases hx : x ∈ es
      · obtain ⟨j, e, -⟩ := (rest_find zip es x).1 hx
        refine ⟨_, es, by simp only [WebsiteThreads.step, hpc, hm, e, Res.ok_bind, Res.pure_eq]; rfl, ?_⟩
        exact hnil _ (.get x) rfl (by intro y hy; injection hy with hy; exact hy ▸ hx) (by intro x v hx; cases hx)
      · have e := (rest_find zip es x).2 hx
        refine ⟨_, es, by simp only [WebsiteThreads.step, hpc, hm, e, Res.ok_bind, Res.pure_eq]; rfl, ?_⟩
        exact hnil _ (.lock x) rfl (by intro y hy; cases hy) (by intro x v hx; cases hx)
    | get x =>
      have hm := hrest (ha ⟨x, .inr (.inl hpc)⟩)
      have hx := h.get i x hpc
      refine ⟨_, es, by simp only [WebsiteThreads.step, hpc, hm, (rest_get hz hx).1, Res.ok_bind, Res.pure_eq]; rfl, ?_⟩
      refine hnil _ (.len x (some (zip x))) rfl (by intro y hy; cases hy) ?_
      intro y v hy
      injection hy with h1 h2
      subst h1
      exact ⟨hx, h2.symm⟩
    | len x v =>
      have hm := hrest (ha ⟨x, .inr (.inr ⟨v, hpc⟩)⟩)
      obtain ⟨hx, rfl⟩ := h.len i x v hpc
      obtain ⟨-, e1, e2⟩ := rest_get hz hx
      refine ⟨_, es, by simp only [WebsiteThreads.step, hpc, hm, e1, e2, Res.ok_bind, Res.pure_eq]; rfl, ?_⟩
      rw [← hm]
      exact full_free (as := [(x, some (zip x))]) h hin (pc := .ready) rfl (by simp) (by intro y hy; cases hy) (by intro x v hx; cases hx)
    | lock x =>
      cases hl : s.lock with
      | some k => exact ⟨s, es, by simp only [WebsiteThreads.step, hpc, hl], h⟩
      | none =>
        refine ⟨_, es, by simp only [WebsiteThreads.step, hpc, hl]; rfl, inv_lock h.inv hl x, ?_, ?_, h.answers⟩
        · intro j y hj
          by_cases hji : j = i
          · subst hji
            rw [go_self] at hj
            cases hj
          · rw [go_other _ _ _ hji] at hj
            exact h.get j y hj
        · intro j y v hj
          by_cases hji : j = i
          · subst hji
            rw [go_self] at hj
            cases hj
          · rw [go_other _ _ _ hji] at hj
            exact h.len j y v hj
    | put _ | over _ _ | keys _ | key _ _ | keyEnd _ _ | values _ _ | value _ _ | valueEnd _ _ | lengths _ _ | length _ _ | lengthEnd _ _
    | count _ | lget _ | llen _ _ => rw [hpc] at hin; cases hin

private theorem full_exec {zip : Bytes → Bytes} (hz : ∀ x, zip x ≠ []) : ∀ (sched : List Nat) (s : Sys) (es : List Bytes), Full zip es s →
    LooksApart zip s sched → ∃ s' es', WebsiteThreads.exec zip s sched = .ok s' ∧ Full zip es' s'
  | [], s, es, h, _ => ⟨s, es, rfl, h⟩
  | i :: t, s, es, h, ha => by
    obtain ⟨s1, es1, e, h1⟩ := full_step hz h ha.1
    obtain ⟨s2, es2, e2, h2⟩ := full_exec hz t s1 es1 h1 (ha.2 s1 e)
    exact ⟨s2, es2, by rw [WebsiteThreads.exec, e]; exact e2, h2⟩

private theorem full_start (zip : Bytes → Bytes) {es : List Bytes} (hn : es.Nodup) (jobs : Nat → List Bytes) :
    Full zip es (start (cacheOf zip es) jobs) :=
  ⟨inv_start zip hn jobs, (fun j x h => by cases h), (fun j x v h => by cases h), by simp [start]⟩

/-- **C159**, with the exclusion that the callback does not provide. Whatever files any number of threads serve, as long as none looks
into the cache while another is inside the lock: nothing undefined happens, and each request is answered with the whole compressed
file of the name asked for. Two threads that miss the same file one after the other put it twice; the cache has it once. -/
theorem C159_apart_partial (zip : Bytes → Bytes) (hz : ∀ x, zip x ≠ []) (es : List Bytes) (hn : es.Nodup) (jobs : Nat → List Bytes)
    (sched : List Nat) (ha : LooksApart zip (start (cacheOf zip es) jobs) sched) :
    ∃ s, WebsiteThreads.exec zip (start (cacheOf zip es) jobs) sched = .ok s ∧ (∀ a ∈ s.answers, a.2 = some (zip a.1)) ∧
      (s.lock = none → ∃ es', es'.Nodup ∧ s.mem = cacheOf zip es') := by
  obtain ⟨s, es', e, h⟩ := full_exec hz sched _ es (full_start zip hn jobs) ha
  refine ⟨s, e, h.answers, fun hl => ⟨es', h.inv.nodup, ?_⟩⟩
  have hm := h.inv.mem
  simp only [holder, hl] at hm
  exact hm

/-! ## A warm cache -/

private def Warm (es : List Bytes) (s : Sys) : Prop :=
  s.lock = none ∧ ∀ j, (∀ x ∈ (s.th j).todo, x ∈ es) ∧
    ((s.th j).pc = .ready ∨ ∃ x, x ∈ es ∧ ((s.th j).pc = .has x ∨ (s.th j).pc = .get x ∨ ∃ v, (s.th j).pc = .len x v))

private theorem warm_set {es : List Bytes} {s : Sys} (h : Warm es s) (i : Nat) {t : List Bytes} {pc : Pc} (ht : ∀ x ∈ t, x ∈ es)
    (hp : pc = .ready ∨ ∃ x, x ∈ es ∧ (pc = .has x ∨ pc = .get x ∨ ∃ v, pc = .len x v)) (as : List (Bytes × Option Bytes)) :
    Warm es { s with answers := as, th := fun k => if k = i then ⟨t, pc⟩ else s.th k } := by
  refine ⟨h.1, fun j => ?_⟩
  by_cases hj : j = i
  · simp only [if_pos hj]
    exact ⟨ht, hp⟩
  · simp only [if_neg hj]
    exact h.2 j

private theorem warm_step {zip : Bytes → Bytes} {es : List Bytes} {s s' : Sys} {i : Nat} (hm : s.mem = cacheOf zip es) (h : Warm es s)
    (hr : WebsiteThreads.step zip s i = .ok s') : Warm es s' ∧ s'.mem = cacheOf zip es := by
  obtain ⟨ht, hp⟩ := h.2 i
  rcases hp with hpc | ⟨x, hx, hpc | hpc | ⟨v, hpc⟩⟩
  · cases htd : (s.th i).todo with
    | nil =>
      simp only [WebsiteThreads.step, hpc, htd, Res.ok.injEq] at hr
      subst hr
      exact ⟨h, hm⟩
    | cons x t =>
      simp only [WebsiteThreads.step, hpc, htd, Res.ok.injEq] at hr
      subst hr
      rw [htd] at ht
      exact ⟨warm_set h i (fun y hy => ht y (by simp [hy])) (.inr ⟨x, ht x (by simp), .inl rfl⟩) s.answers, hm⟩
  · obtain ⟨j, e, -⟩ := (rest_find zip es x).1 hx
    simp only [WebsiteThreads.step, hpc, hm, e, Res.ok_bind, Res.pure_eq, Res.ok.injEq] at hr
    subst hr
    exact ⟨warm_set h i ht (.inr ⟨x, hx, .inr (.inl rfl)⟩) s.answers, hm⟩
  · simp only [WebsiteThreads.step, hpc] at hr
    cases hg : getVal s.mem x with
    | ub => rw [hg] at hr; cases hr
    | ok v =>
      simp only [hg, Res.ok_bind, Res.pure_eq, Res.ok.injEq] at hr
      subst hr
      exact ⟨warm_set h i ht (.inr ⟨x, hx, .inr (.inr ⟨v, rfl⟩)⟩) s.answers, hm⟩
  · simp only [WebsiteThreads.step, hpc] at hr
    cases hg : getLen s.mem x with
    | ub => rw [hg] at hr; cases hr
    | ok n =>
      simp only [hg, Res.ok_bind] at hr
      cases hb : body v n with
      | ub => rw [hb] at hr; cases hr
      | ok b =>
        simp only [hb, Res.ok_bind, Res.pure_eq, Res.ok.injEq] at hr
        subst hr
        exact ⟨warm_set h i ht (.inl rfl) _, hm⟩

private theorem warm_apart {zip : Bytes → Bytes} {es : List Bytes} : ∀ (sched : List Nat) (s : Sys), s.mem = cacheOf zip es → Warm es s →
    LooksApart zip s sched
  | [], _, _, _ => trivial
  | _ :: t, _, hm, h => ⟨fun _ => h.1, fun s' e => warm_apart t s' (warm_step hm h e).2 (warm_step hm h e).1⟩

private theorem warm_exec {zip : Bytes → Bytes} {es : List Bytes} : ∀ (sched : List Nat) (s s' : Sys), s.mem = cacheOf zip es → Warm es s →
    WebsiteThreads.exec zip s sched = .ok s' → s'.mem = cacheOf zip es
  | [], s, s', hm, _, e => by
    simp only [WebsiteThreads.exec, Res.ok.injEq] at e
    rw [← e]
    exact hm
  | i :: t, s, s', hm, h, e => by
    simp only [WebsiteThreads.exec] at e
    cases hs : WebsiteThreads.step zip s i with
    | ub => rw [hs] at e; cases e
    | ok s1 =>
      rw [hs] at e
      exact warm_exec t s1 s' (warm_step hm h hs).2 (warm_step hm h hs).1 e

/-- **C159** once every file asked for is in the cache: no exclusion is needed. In every interleaving of any number of threads nothing
undefined happens, each request is answered with the whole compressed file, and the cache stays as it is. -/
theorem C159_warm_partial (zip : Bytes → Bytes) (hz : ∀ x, zip x ≠ []) (es : List Bytes) (hn : es.Nodup) (jobs : Nat → List Bytes)
    (hj : ∀ i, ∀ x ∈ jobs i, x ∈ es) (sched : List Nat) :
    ∃ s, WebsiteThreads.exec zip (start (cacheOf zip es) jobs) sched = .ok s ∧ (∀ a ∈ s.answers, a.2 = some (zip a.1)) ∧
      s.mem = cacheOf zip es := by
  have hw : Warm es (start (cacheOf zip es) jobs) := ⟨rfl, fun j => ⟨hj j, .inl rfl⟩⟩
  obtain ⟨s, e, h, -⟩ := C159_apart_partial zip hz es hn jobs sched (warm_apart sched _ rfl hw)
  exact ⟨s, e, h, warm_exec sched _ s rfl hw e⟩

/-! ## Cases and witnesses -/

private def toy (x : Bytes) : Bytes := b!"z:" ++ x

private theorem toy_fine (x : Bytes) : toy x ≠ [] := by simp [toy]

/-- Thread 0 serves a.css and b.css, thread 1 a.css, thread 2 c.js. -/
private def work : Nat → List Bytes := fun i =>
  if i = 0 then [b!"a.css", b!"b.css"] else if i = 1 then [b!"a.css"] else if i = 2 then [b!"c.js"] else []

private def given (m : Mem) (sched : List Nat) : Option (List (Bytes × Option Bytes) × Mem) :=
  match WebsiteThreads.exec toy (start m work) sched with
  | .ok s => some (s.answers, s.mem)
  | .ub => none

/-- The executable form of `LooksApart`. -/
private def looks : Pc → Bool
  | .has _ | .get _ | .len _ _ => true
  | _ => false

private def apart : Sys → List Nat → Bool
  | _, [] => true
  | s, i :: t => (!looks (s.th i).pc || s.lock.isNone) && match WebsiteThreads.step toy s i with
    | .ok s' => apart s' t
    | .ub => true

private theorem apart_looks : ∀ (sched : List Nat) (s : Sys), apart s sched = true → LooksApart toy s sched
  | [], _, _ => trivial
  | i :: t, s, h => by
    simp only [apart, Bool.and_eq_true, Bool.or_eq_true, Bool.not_eq_true'] at h
    refine ⟨fun ⟨x, hx⟩ => ?_, fun s' e => ?_⟩
    · have : looks (s.th i).pc = true := by
        rcases hx with e | e | ⟨v, e⟩ <;> rw [e] <;> rfl
      rcases h.1 with h' | h'
      · rw [this] at h'; cases h'
      · simpa using h'
    · have h2 := h.2
      rw [e] at h2
      exact apart_looks t s' h2

/-- Threads 0 and 1 both miss a.css before either has the lock; both put it, the cache has it once, and both answers are whole. -/
private def missTwice : List Nat := [0, 1, 0, 1] ++ List.replicate 14 0 ++ List.replicate 5 1

example : LooksApart toy (start (cacheOf toy []) work) missTwice := apart_looks _ _ (by decide +kernel)

example : (given (cacheOf toy []) missTwice).map (fun r => (r.1.take 2, r.2.keys)) =
    some ([(b!"a.css", some b!"z:a.css"), (b!"a.css", some b!"z:a.css")], [.key b!"a.css", .null]) := by decide +kernel

/-- The cache with both files, in an arbitrary interleaving. -/
example : given (cacheOf toy [b!"b.css", b!"a.css"]) [0, 1, 1, 0, 0, 1, 0, 0, 1, 0, 0, 0] =
    some ([(b!"a.css", some b!"z:a.css"), (b!"a.css", some b!"z:a.css"), (b!"b.css", some b!"z:b.css")],
      cacheOf toy [b!"b.css", b!"a.css"]) := by decide +kernel

/-- A new cache is one without files. -/
example : cacheOf toy [] = Mem.init := rfl

/-- **C159 is false of the code**: thread 0 stores a.css for the first time; between its name and its length thread 1 looks for a.css
without the lock, finds the name, and is given no value: a client that asks for a.css is answered with status 200, Content-Encoding and
an empty body. -/
theorem C159_empty_false : ∃ (jobs : Nat → List Bytes) (sched : List Nat), jobs 0 = [b!"a.css", b!"b.css"] ∧ jobs 1 = [b!"a.css"] ∧
    (∀ i ∈ sched, i = 0 ∨ i = 1) ∧ ∃ s, WebsiteThreads.exec (fun x => b!"z:" ++ x) (start Mem.init jobs) sched = .ok s ∧ (b!"a.css", none) ∈ s.answers := by
  refine ⟨work, List.replicate 7 0 ++ List.replicate 4 1, rfl, rfl, by decide, ?_⟩
  have h : given Mem.init (List.replicate 7 0 ++ List.replicate 4 1) = some ([(b!"a.css", none)], ⟨[.key b!"a.css", .null], [.null], [some 0], 0⟩) := by
    decide +kernel
  unfold given at h
  show ∃ s, WebsiteThreads.exec toy _ _ = _ ∧ _
  cases he : WebsiteThreads.exec toy (start Mem.init work) (List.replicate 7 0 ++ List.replicate 4 1) with
  | ub => rw [he] at h; cases h
  | ok s =>
    rw [he] at h
    injection h with h
    injection h with h1 h2
    exact ⟨s, rfl, by rw [h1]; simp⟩

/-- **C159 is false of the code**: thread 0 stores a.css for the first time; after `keys[i] = dup_key` and before `keys[i+1] = NULL`
thread 2 looks for c.js without the lock, goes past the name and reads a pointer that nobody has written. -/
theorem C159_stray_false : ∃ (jobs : Nat → List Bytes) (sched : List Nat), jobs 0 = [b!"a.css", b!"b.css"] ∧ jobs 2 = [b!"c.js"] ∧ (∀ i ∈ sched, i = 0 ∨ i = 2) ∧
    (match WebsiteThreads.exec (fun x => b!"z:" ++ x) (start Mem.init jobs) sched with | .ub => true | .ok _ => false) = true :=
  ⟨work, List.replicate 6 0 ++ List.replicate 2 2, rfl, rfl, by decide, by decide +kernel⟩

end Verif.Props
