import Verif.Model.UMap
/-!
# The three arrays of a `u_map` represent one list of entries
-/
namespace Verif.UMap

/-- One entry of a map: key, memory of the value, recorded length. -/
structure Ent where
  key : Bytes
  buf : Buf
  len : Nat
  deriving DecidableEq, Repr

/-- The concrete structure representing a list of entries. -/
def rep (es : List Ent) : UMap where
  nb := es.length
  keys := some (es.map (fun e => Ptr.to e.key) ++ [Ptr.null])
  values := some (es.map (fun e => Ptr.to e.buf) ++ [Ptr.null])
  lengths := some (es.map (fun e => e.len) ++ [0])

/-- The value's memory is one byte longer than its length and the byte after it is NUL. -/
def Ent.Good (e : Ent) : Prop :=
  e.key ≠ [] ∧ e.buf.length = e.len + 1 ∧ e.buf[e.len]? = some (some 0) ∧ e.len + 1 < 2 ^ 64

/-- Invariant of a list of entries. -/
def Good (es : List Ent) : Prop := (es.map (·.key)).Nodup ∧ ∀ e ∈ es, e.Good

/-- Invariant of the concrete structure. -/
def WF (m : UMap) : Prop := ∃ es, m = rep es ∧ Good es

theorem init_eq : init = rep [] := rfl
theorem good_nil : Good [] := ⟨by simp, by simp⟩

@[simp] theorem deref_some {α : Type} (a : α) : deref (some a) = .ok a := rfl

/-! ### reading -/

theorem scan_rep {α β : Type} (q : α → Bool) (p : α → Res Bool) (f : β → α) (es : List β) (i : Nat)
    (hp : ∀ e ∈ es, p (f e) = .ok (q (f e))) :
    scan p i (es.map (fun e => Ptr.to (f e)) ++ [Ptr.null])
      = .ok ((es.findIdx? (fun e => q (f e))).map (· + i)) := by
  induction es generalizing i with
  | nil => simp [scan]
  | cons e t ih =>
    simp only [List.map_cons, List.cons_append, scan]
    rw [hp e (by simp)]
    simp only [Res.ok_bind, List.findIdx?_cons]
    by_cases h : q (f e) = true
    · simp [h]
    · rw [if_neg h, ih (i + 1) (fun e he => hp e (by simp [he])), if_neg h]
      simp [Option.map_map, Function.comp_def]
      congr 1; funext x; omega

theorem scanNb_rep (q : Bytes → Bool) (es : List Ent) (i : Nat) (tl : List (Ptr Bytes)) :
    scanNb q es.length i (es.map (fun e => Ptr.to e.key) ++ tl)
      = .ok ((es.findIdx? (fun e => q e.key)).map (· + i)) := by
  induction es generalizing i with
  | nil => simp [scanNb]
  | cons e t ih =>
    simp only [List.map_cons, List.cons_append, List.length_cons, scanNb, List.findIdx?_cons]
    by_cases h : q e.key = true
    · simp [h]
    · rw [if_neg h, ih (i + 1), if_neg h]
      simp [Option.map_map, Function.comp_def]
      congr 1; funext x; omega

theorem findIdx?_find? {β : Type} (p : β → Bool) (es : List β) :
    (es.findIdx? p = none ∧ es.find? p = none) ∨
    (∃ i e, es.findIdx? p = some i ∧ es[i]? = some e ∧ es.find? p = some e) := by
  induction es with
  | nil => left; simp
  | cons e t ih =>
    by_cases h : p e = true
    · right; exact ⟨0, e, by simp [List.findIdx?_cons, h], by simp, by simp [h]⟩
    · rcases ih with ⟨h1, h2⟩ | ⟨i, e', h1, h2, h3⟩
      · left; simp [List.findIdx?_cons, h, h1]; simpa using h2
      · right; exact ⟨i + 1, e', by simp [List.findIdx?_cons, h, h1], by simp [h2], by simp [h, h3]⟩

theorem aget_map {β γ : Type} (f : β → γ) (es : List β) (tl : List γ) (i : Nat) (e : β) (h : es[i]? = some e) :
    aget (es.map f ++ tl) i = .ok (f e) := by
  have hi : i < es.length := by
    rw [List.getElem?_eq_some_iff] at h; exact h.1
  rw [aget, List.getElem?_append_left (by simpa using hi), List.getElem?_map, h]; rfl

theorem hasKey_rep (es : List Ent) (k : Bytes) :
    hasKey (rep es) (some k) = .ok (es.any (fun e => e.key == k)) := by
  simp only [hasKey, rep, deref_some, Res.ok_bind]
  rw [scan_rep (fun x => x == k) (fun x => .ok (x == k)) Ent.key es 0 (by simp)]
  simp

theorem hasKeyCase_rep (es : List Ent) (k : Bytes) :
    hasKeyCase (rep es) (some k) = .ok (es.any (fun e => eqCase e.key k)) := by
  simp only [hasKeyCase, rep, deref_some, Res.ok_bind]
  rw [scan_rep (fun x => eqCase x k) (fun x => .ok (eqCase x k)) Ent.key es 0 (by simp)]
  simp

theorem get_rep (es : List Ent) (k : Bytes) :
    get (rep es) (some k) =
      .ok ((es.find? (fun e => e.key == k)).bind (fun e => if e.len > 0 then some e.buf else none)) := by
  simp only [get, rep, deref_some, Res.ok_bind]
  rw [scan_rep (fun x => x == k) (fun x => .ok (x == k)) Ent.key es 0 (by simp)]
  rcases findIdx?_find? (fun e : Ent => e.key == k) es with ⟨h1, h2⟩ | ⟨i, e, h1, h2, h3⟩
  · simp [h1, h2]
  · simp only [h1, h3, Option.map_some, Res.ok_bind, Nat.add_zero]
    rw [aget_map (fun e : Ent => e.len) es [0] i e h2]
    simp only [Res.ok_bind]
    by_cases hl : e.len > 0
    · simp only [hl, if_true]
      rw [aget_map (fun e : Ent => Ptr.to e.buf) es [Ptr.null] i e h2]
      simp [ptrOpt, hl]
    · simp [hl]

theorem getCase_rep (es : List Ent) (k : Bytes) :
    getCase (rep es) (some k) = .ok ((es.find? (fun e => eqCase e.key k)).map (·.buf)) := by
  simp only [getCase, rep, deref_some, Res.ok_bind]
  rw [scan_rep (fun x => eqCase x k) (fun x => .ok (eqCase x k)) Ent.key es 0 (by simp)]
  rcases findIdx?_find? (fun e : Ent => eqCase e.key k) es with ⟨h1, h2⟩ | ⟨i, e, h1, h2, h3⟩
  · simp [h1, h2]
  · simp only [h1, h3, Option.map_some, Res.ok_bind, Nat.add_zero]
    rw [aget_map (fun e : Ent => Ptr.to e.buf) es [Ptr.null] i e h2]
    simp [ptrOpt]

theorem getLength_rep (es : List Ent) (k : Bytes) :
    getLength (rep es) (some k) = .ok ((es.find? (fun e => e.key == k)).map (·.len)) := by
  simp only [getLength, rep, deref_some, Res.ok_bind]
  rw [scan_rep (fun x => x == k) (fun x => .ok (x == k)) Ent.key es 0 (by simp)]
  rcases findIdx?_find? (fun e : Ent => e.key == k) es with ⟨h1, h2⟩ | ⟨i, e, h1, h2, h3⟩
  · simp [h1, h2]
  · simp only [h1, h3, Option.map_some, Res.ok_bind, Nat.add_zero]
    rw [aget_map (fun e : Ent => e.len) es [0] i e h2]
    simp

theorem getCaseLength_rep (es : List Ent) (k : Bytes) :
    getCaseLength (rep es) (some k) = .ok ((es.find? (fun e => eqCase e.key k)).map (·.len)) := by
  simp only [getCaseLength, rep, deref_some, Res.ok_bind]
  rw [scan_rep (fun x => eqCase x k) (fun x => .ok (eqCase x k)) Ent.key es 0 (by simp)]
  rcases findIdx?_find? (fun e : Ent => eqCase e.key k) es with ⟨h1, h2⟩ | ⟨i, e, h1, h2, h3⟩
  · simp [h1, h2]
  · simp only [h1, h3, Option.map_some, Res.ok_bind, Nat.add_zero]
    rw [aget_map (fun e : Ent => e.len) es [0] i e h2]
    simp

theorem countLoop_rep (q : Bytes → Bool) (es : List Ent) (n : Nat) :
    countLoop q n (es.map (fun e => Ptr.to e.key) ++ [Ptr.null])
      = .ok (n + es.countP (fun e => q e.key)) := by
  induction es generalizing n with
  | nil => simp [countLoop]
  | cons e t ih =>
    simp only [List.map_cons, List.cons_append, countLoop, ih, List.countP_cons]
    by_cases h : q e.key = true <;> simp [h]; omega

theorem countKeysCase_rep (es : List Ent) (k : Bytes) :
    countKeysCase (rep es) (some k) = .ok (es.countP (fun e => eqCase e.key k)) := by
  simp [countKeysCase, rep, countLoop_rep (fun x => eqCase x k)]

theorem enumKeys_rep (es : List Ent) : enumKeys (rep es) = .ok (es.map (·.key)) := by
  simp only [enumKeys, rep, deref_some, Res.ok_bind]
  induction es with
  | nil => simp [enumLoop]
  | cons e t ih => simp [enumLoop, ih]

theorem empty_rep (es : List Ent) : empty (rep es) = .ok (.ok, rep []) := by
  simp [empty, rep, init]

/-! ### writing -/

/-- `memcpy` as a total function. -/
def copyAt (dst : Buf) (off : Nat) (src : Buf) (n : Nat) : Buf :=
  dst.take off ++ src.take n ++ dst.drop (off + n)

theorem copyAt_length (dst src : Buf) (off n : Nat) (h1 : off + n ≤ dst.length) (h2 : n ≤ src.length) :
    (copyAt dst off src n).length = dst.length := by
  simp [copyAt]; omega

theorem resize_length (b : Buf) (n : Nat) (h : b.length ≤ n) : (resize b n).length = n := by
  simp [resize]; omega

/-- What one call writes into an existing entry. -/
def upd (e : Ent) (value : Option Buf) (offset length : Nat) : Ent :=
  match value with
  | some src =>
    if e.len < offset + length then
      { e with buf := (copyAt (resize e.buf (offset + length + 1)) offset src length).set (offset + length) (some 0),
               len := offset + length }
    else { e with buf := copyAt e.buf offset src length }
  | none => { e with buf := strBuf [], len := 0 }

/-- The entry one call appends. -/
def mk (key : Bytes) (value : Option Buf) (offset length : Nat) : Ent :=
  match value with
  | some src =>
    { key, buf := (copyAt (List.replicate (offset + length + 1) none) offset src length).set (offset + length) (some 0),
      len := offset + length }
  | none => { key, buf := strBuf [], len := 0 }

/-- A call on a list of entries. -/
def eput (es : List Ent) (key : Bytes) (value : Option Buf) (offset length : Nat) : List Ent :=
  if es.any (fun e => e.key == key) then
    es.map (fun e => if e.key == key then upd e value offset length else e)
  else es ++ [mk key value offset length]

/-- Arguments for which `u_map_put_binary` has defined behaviour: the sum does not wrap, the block is at
least as long as announced, and with a NULL value no length is announced. -/
def ValidArgs (value : Option Buf) (offset length : Nat) : Prop :=
  offset + length + 1 < 2 ^ 64 ∧ (∀ src, value = some src → length ≤ src.length) ∧
  (value = none → offset + length = 0)

theorem upd_key (e : Ent) (v : Option Buf) (o l : Nat) : (upd e v o l).key = e.key := by
  unfold upd; split
  · split <;> rfl
  · rfl

theorem mk_key (k : Bytes) (v : Option Buf) (o l : Nat) : (mk k v o l).key = k := by
  unfold mk; split <;> rfl

theorem upd_good (e : Ent) (v : Option Buf) (o l : Nat) (he : e.Good) (hv : ValidArgs v o l) :
    (upd e v o l).Good := by
  obtain ⟨h1, h2, h3, h4⟩ := he
  obtain ⟨v1, v2, v3⟩ := hv
  refine ⟨by rw [upd_key]; exact h1, ?_⟩
  cases v with
  | none => simp [upd, strBuf]
  | some src =>
    have hs := v2 src rfl
    unfold upd
    by_cases hl : e.len < o + l
    · simp only [hl, if_true]
      have hlen : (copyAt (resize e.buf (o + l + 1)) o src l).length = o + l + 1 := by
        rw [copyAt_length, resize_length] <;> try omega
        rw [resize_length] <;> omega
      refine ⟨by simpa using hlen, ?_, v1⟩
      rw [List.getElem?_set_self (by omega)]
    · simp only [hl, if_false]
      refine ⟨by rw [copyAt_length _ _ _ _ (by omega) hs]; exact h2, ?_, h4⟩
      have : (List.take o e.buf ++ List.take l src).length = o + l := by simp; omega
      rw [copyAt, List.getElem?_append_right (by omega), this, List.getElem?_drop,
        show o + l + (e.len - (o + l)) = e.len by omega, h3]

theorem mk_good (k : Bytes) (v : Option Buf) (o l : Nat) (hk : k ≠ []) (hv : ValidArgs v o l) :
    (mk k v o l).Good := by
  obtain ⟨v1, v2, v3⟩ := hv
  refine ⟨by rw [mk_key]; exact hk, ?_⟩
  cases v with
  | none => simp [mk, strBuf]
  | some src =>
    have hs := v2 src rfl
    simp only [mk]
    have hlen : (copyAt (List.replicate (o + l + 1) none) o src l).length = o + l + 1 := by
      rw [copyAt_length _ _ _ _ (by simp) hs]; simp
    refine ⟨by simpa using hlen, ?_, v1⟩
    rw [List.getElem?_set_self (by omega)]

theorem eput_good (es : List Ent) (k : Bytes) (v : Option Buf) (o l : Nat) (hk : k ≠ []) (hg : Good es)
    (hv : ValidArgs v o l) : Good (eput es k v o l) := by
  obtain ⟨g1, g2⟩ := hg
  unfold eput
  split
  · constructor
    · rw [List.map_map]
      have : ((fun x : Ent => x.key) ∘ fun e => if (e.key == k) = true then upd e v o l else e) = fun e => e.key := by
        funext e; simp only [Function.comp]; split
        · exact upd_key ..
        · rfl
      rw [this]; exact g1
    · intro e he
      rw [List.mem_map] at he
      obtain ⟨a, ha, rfl⟩ := he
      split
      · exact upd_good _ _ _ _ (g2 a ha) hv
      · exact g2 a ha
  · rename_i h
    constructor
    · rw [List.map_append, List.nodup_append]
      refine ⟨g1, by simp, ?_⟩
      intro a ha b hb
      simp only [List.map_cons, List.map_nil, List.mem_singleton, mk_key] at hb
      subst hb
      rintro rfl
      apply h
      rw [List.mem_map] at ha
      obtain ⟨e, he, hek⟩ := ha
      rw [List.any_eq_true]
      exact ⟨e, he, by simp [hek]⟩
    · intro e he
      rw [List.mem_append, List.mem_singleton] at he
      rcases he with he | rfl
      · exact g2 e he
      · exact mk_good _ _ _ _ hk hv

theorem w64_of_lt {n : Nat} (h : n < 2 ^ 64) : w64 n = n := Nat.mod_eq_of_lt h

theorem set_map_of_nodup (es : List Ent) (k : Bytes) (i : Nat) (e e' : Ent) (hn : (es.map (·.key)).Nodup)
    (hi : es[i]? = some e) (hk : e.key = k) :
    es.set i e' = es.map (fun x => if x.key == k then e' else x) := by
  induction es generalizing i with
  | nil => simp at hi
  | cons a t ih =>
    rw [List.map_cons, List.nodup_cons] at hn
    cases i with
    | zero =>
      simp only [List.getElem?_cons_zero, Option.some.injEq] at hi
      subst hi
      simp only [List.set_cons_zero, List.map_cons, hk, beq_self_eq_true, if_true, List.cons.injEq, true_and]
      have : ∀ x ∈ t, (if (x.key == k) = true then e' else x) = x := by
        intro x hx
        rw [if_neg]
        intro hxk
        apply hn.1
        rw [hk, List.mem_map]
        exact ⟨x, hx, by simpa using hxk⟩
      conv => lhs; rw [← List.map_id' t]
      exact List.map_congr_left (fun x hx => (this x hx).symm)
    | succ i =>
      simp only [List.getElem?_cons_succ] at hi
      have hak : ¬ (a.key == k) = true := by
        intro h
        apply hn.1
        rw [List.mem_map]
        refine ⟨e, List.mem_of_getElem? hi, ?_⟩
        rw [hk]; simpa using (by simpa using h : a.key = k).symm
      rw [List.set_cons_succ, List.map_cons, ih i hn.2 hi, if_neg hak]

theorem map_set_comm {β γ : Type} (f : β → γ) (es : List β) (tl : List γ) (i : Nat) (e' : β) (hi : i < es.length) :
    (es.map f ++ tl).set i (f e') = (es.set i e').map f ++ tl := by
  rw [List.set_append_left _ _ (by simpa using hi), List.map_set]

theorem memcpy_ok (dst src : Buf) (off n : Nat) (h1 : off + n ≤ dst.length) (h2 : n ≤ src.length) :
    memcpy dst off src n = .ok (copyAt dst off src n) := by
  simp [memcpy, h1, h2, copyAt]

theorem set_same_map {β γ : Type} (f : β → γ) (es : List β) (i : Nat) (e e' : β) (h : es[i]? = some e)
    (hf : f e' = f e) : (es.set i e').map f = es.map f := by
  apply List.ext_getElem?
  intro j
  rw [List.getElem?_map, List.getElem?_map, List.getElem?_set]
  by_cases hj : i = j
  · subst hj
    rw [List.getElem?_eq_some_iff] at h
    obtain ⟨hi, he⟩ := h
    simp [hi, hf, he]
  · simp [hj]

theorem nodup_inj {es : List Ent} (hn : (es.map (·.key)).Nodup) {x y : Ent} (hx : x ∈ es) (hy : y ∈ es)
    (h : x.key = y.key) : x = y := by
  induction es with
  | nil => simp at hx
  | cons a t ih =>
    rw [List.map_cons, List.nodup_cons] at hn
    rw [List.mem_cons] at hx hy
    rcases hx with rfl | hx <;> rcases hy with rfl | hy
    · rfl
    · exact absurd (List.mem_map.2 ⟨y, hy, h.symm⟩) hn.1
    · exact absurd (List.mem_map.2 ⟨x, hx, h⟩) hn.1
    · exact ih hn.2 hx hy

theorem putExisting_rep (es : List Ent) (k : Bytes) (v : Option Buf) (o l i : Nat) (e : Ent) (hg : Good es)
    (hv : ValidArgs v o l) (hi : es[i]? = some e) (hek : e.key = k) :
    putExisting (rep es) i v o l none = .ok (.ok, rep (es.map (fun x => if x.key == k then upd x v o l else x))) := by
  have heg : e.Good := hg.2 e (List.mem_of_getElem? hi)
  obtain ⟨_, hb1, hb2, _⟩ := heg
  obtain ⟨v1, v2, v3⟩ := hv
  have hil : i < es.length := by
    rw [List.getElem?_eq_some_iff] at hi; exact hi.1
  have hmap : es.map (fun x => if x.key == k then upd x v o l else x) = es.set i (upd e v o l) := by
    rw [set_map_of_nodup es k i e _ hg.1 hi hek]
    apply List.map_congr_left
    intro x hx
    by_cases hxk : (x.key == k) = true
    · rw [if_pos hxk, if_pos hxk]
      have : x = e := by
        exact nodup_inj hg.1 hx (List.mem_of_getElem? hi) (by rw [hek]; simpa using hxk)
      rw [this]
    · rw [if_neg hxk, if_neg hxk]
  rw [hmap]
  have hw : w64 (o + l) = o + l := w64_of_lt (by omega)
  have hw1 : w64 (o + l + 1) = o + l + 1 := w64_of_lt v1
  have hlen : (es.set i (upd e v o l)).length = es.length := by simp
  have hkeys : (es.set i (upd e v o l)).map (fun e => Ptr.to e.key) = es.map (fun e => Ptr.to e.key) :=
    set_same_map _ es i e _ hi (by rw [upd_key])
  simp only [putExisting, rep, deref_some, Res.ok_bind]
  rw [aget_map (fun e : Ent => e.len) es [0] i e hi, aget_map (fun e : Ent => Ptr.to e.buf) es [Ptr.null] i e hi]
  simp only [Res.ok_bind, hw, hlen, hkeys]
  rw [if_neg (by simp)]
  cases v with
  | none =>
    have h0 := v3 rfl
    have hgrow : ¬ e.len < o + l := by omega
    simp only [growValue, hgrow, decide_false, Bool.false_eq_true, if_false, Res.ok_bind]
    rw [if_neg (by simp)]
    rw [← map_set_comm (fun e : Ent => Ptr.to e.buf) es _ i _ hil, ← map_set_comm (fun e : Ent => e.len) es _ i _ hil]
    simp [upd]
  | some src =>
    have hs := v2 src rfl
    by_cases hgrow : e.len < o + l
    · have hr : (resize e.buf (o + l + 1)).length = o + l + 1 := resize_length _ _ (by omega)
      simp only [growValue, hgrow, decide_true, if_true, hw1, Res.ok_bind]
      rw [if_neg (by omega)]
      simp only [Res.ok_bind]
      rw [memcpy_ok _ _ _ _ (by omega) hs]
      simp only [Res.ok_bind, poke]
      rw [if_pos (by rw [copyAt_length _ _ _ _ (by omega) hs]; omega)]
      rw [← map_set_comm (fun e : Ent => Ptr.to e.buf) es _ i _ hil, ← map_set_comm (fun e : Ent => e.len) es _ i _ hil]
      simp [upd, hgrow]
    · simp only [growValue, hgrow, decide_false, Bool.false_eq_true, if_false, Res.ok_bind]
      rw [memcpy_ok _ _ _ _ (by omega) hs]
      have hl : (es.set i (upd e (some src) o l)).map (fun e => e.len) = es.map (fun e => e.len) :=
        set_same_map _ es i e _ hi (by simp [upd, hgrow])
      simp only [Res.ok_bind]
      rw [hl, ← map_set_comm (fun e : Ent => Ptr.to e.buf) es _ i _ hil]
      simp [upd, hgrow]

theorem sentinel_rep {β γ : Type} (f : β → γ) (es : List β) (i : Nat) :
    sentinel i (es.map (fun e => Ptr.to (f e)) ++ [Ptr.null]) = .ok (i + es.length) := by
  induction es generalizing i with
  | nil => simp [sentinel]
  | cons e t ih => simp [sentinel, ih]; omega

theorem appendAt_rep {β γ : Type} (f : β → γ) (es : List β) (e : β) (z : γ) :
    appendAt (es.map f ++ [z]) es.length (f e) z = .ok ((es ++ [e]).map f ++ [z]) := by
  simp [appendAt]

theorem putNew_rep (es : List Ent) (k : Bytes) (v : Option Buf) (o l : Nat) (hv : ValidArgs v o l) :
    putNew (rep es) k v o l none = .ok (.ok, rep (es ++ [mk k v o l])) := by
  obtain ⟨v1, v2, v3⟩ := hv
  have hw : w64 (o + l) = o + l := w64_of_lt (by omega)
  have hw1 : w64 (o + l + 1) = o + l + 1 := w64_of_lt v1
  have hd : dupValue v o l none = .ok (.to (mk k v o l).buf) ∧ (mk k v o l).len = o + l := by
    cases v with
    | none => simp [dupValue, mk, v3 rfl]
    | some src =>
      have hs := v2 src rfl
      refine ⟨?_, by simp [mk]⟩
      simp only [dupValue, hw, hw1]
      rw [if_neg (by omega), memcpy_ok _ _ _ _ (by simp) hs]
      simp only [Res.ok_bind, poke]
      rw [if_pos (by rw [copyAt_length _ _ _ _ (by simp) hs]; simp)]
      simp [mk]
  simp only [putNew, hd.1, Res.ok_bind]
  rw [if_neg (by simp), if_neg (by simp)]
  simp only [appendAll, rep, deref_some, Res.ok_bind]
  rw [sentinel_rep Ent.key es 0]
  simp only [Res.ok_bind, Nat.zero_add, hw]
  have a1 := appendAt_rep (fun e : Ent => Ptr.to e.key) es (mk k v o l) .null
  have a2 := appendAt_rep (fun e : Ent => Ptr.to e.buf) es (mk k v o l) .null
  have a3 := appendAt_rep (fun e : Ent => e.len) es (mk k v o l) 0
  simp only [mk_key, hd.2] at a1 a2 a3
  simp only [a1, a2, a3, Res.ok_bind, reduceCtorEq, if_false]
  simp

/-- `u_map_put_binary` on the represented list. -/
theorem putBinary_rep (es : List Ent) (k : Bytes) (v : Option Buf) (o l : Nat) (hk : k ≠ []) (hg : Good es)
    (hv : ValidArgs v o l) :
    putBinary (rep es) (some k) v o l = .ok (.ok, rep (eput es k v o l)) := by
  cases k with
  | nil => exact absurd rfl hk
  | cons c k =>
    simp only [putBinary]
    generalize hkk : c :: k = key at *
    have e1 : deref (rep es).keys = .ok (es.map (fun e => Ptr.to e.key) ++ [Ptr.null]) := rfl
    have e2 : deref (rep es).values = .ok (es.map (fun e => Ptr.to e.buf) ++ [Ptr.null]) := rfl
    have e3 : (rep es).nb = es.length := rfl
    rw [e1, e2, e3]
    simp only [Res.ok_bind]
    rw [scanNb_rep]
    simp only [Res.ok_bind]
    rcases findIdx?_find? (fun e : Ent => e.key == key) es with ⟨h1, h2⟩ | ⟨i, e, h1, h2, h3⟩
    · rw [h1]
      have e4 : aget (es.map (fun e : Ent => Ptr.to e.buf) ++ [Ptr.null]) es.length = .ok .null := by
        simp [aget]
      simp only [Option.map_none, e4, Res.ok_bind]
      rw [putNew_rep es key v o l hv, eput, if_neg]
      rw [List.any_eq_true]
      rintro ⟨x, hx, hxk⟩
      rw [List.find?_eq_none] at h2
      exact h2 x hx hxk
    · have hek : e.key = key := by have := List.find?_some h3; simpa using this
      rw [h1]
      simp only [Option.map_some, Nat.add_zero]
      rw [putExisting_rep es key v o l i e hg hv h2 hek, eput, if_pos]
      rw [List.any_eq_true]
      exact ⟨e, List.mem_of_getElem? h2, by simp [hek]⟩

/-! ### removing -/

theorem shift_spec {α : Type} (n : Nat) : ∀ (i : Nat) (a : List α), i + n < a.length →
    ∃ a', shift n i a = .ok a' ∧ a'.length = a.length ∧
      ∀ j, a'[j]? = if i ≤ j ∧ j < i + n then a[j + 1]? else a[j]? := by
  induction n with
  | zero => intro i a h; exact ⟨a, rfl, rfl, fun j => by rw [if_neg (by omega)]⟩
  | succ n ih =>
    intro i a h
    obtain ⟨x, hx⟩ : ∃ x, a[i + 1]? = some x := ⟨a[i + 1]'(by omega), by simp⟩
    obtain ⟨a', h1, h2, h3⟩ := ih (i + 1) (a.set i x) (by simp; omega)
    refine ⟨a', by simp [shift, aget, hx, h1], by simpa using h2, ?_⟩
    intro j
    rw [h3 j, List.getElem?_set, List.getElem?_set]
    by_cases c1 : i + 1 ≤ j ∧ j < i + 1 + n
    · rw [if_pos c1, if_neg (by omega), if_pos (by omega)]
    · rw [if_neg c1]
      by_cases c2 : i = j
      · subst c2
        rw [if_pos rfl, if_pos (by omega), if_pos (by omega), hx]
      · rw [if_neg c2, if_neg (by omega)]

theorem shift_rep {β γ : Type} (f : β → γ) (es : List β) (z : γ) (i : Nat) (hi : i < es.length) :
    ∃ a', shift (es.length - i) i (es.map f ++ [z]) = .ok a' ∧
      a'.take es.length = (es.eraseIdx i).map f ++ [z] := by
  obtain ⟨a', h1, h2, h3⟩ := shift_spec (es.length - i) i (es.map f ++ [z]) (by simp; omega)
  refine ⟨a', h1, ?_⟩
  apply List.ext_getElem?
  intro j
  rw [List.getElem?_take]
  have hel : (es.eraseIdx i).length = es.length - 1 := by rw [List.length_eraseIdx]; simp [hi]
  by_cases hj : j < es.length
  · rw [if_pos hj, h3 j]
    by_cases hij : i ≤ j
    · rw [if_pos (by omega)]
      by_cases hlast : j + 1 < es.length
      · rw [List.getElem?_append_left (by simpa using hlast), List.getElem?_append_left (by simp [hel]; omega),
          List.getElem?_map, List.getElem?_map, List.getElem?_eraseIdx, if_neg (by omega)]
      · have : j + 1 = es.length := by omega
        rw [List.getElem?_append_right (by simp; omega), List.getElem?_append_right (by simp [hel]; omega)]
        simp [hel, this]; rw [show j - (es.length - 1) = 0 by omega]; rfl
    · rw [if_neg (by omega), List.getElem?_append_left (by simpa using hj),
        List.getElem?_append_left (by simp [hel]; omega),
          List.getElem?_map, List.getElem?_map, List.getElem?_eraseIdx, if_pos (by omega)]
  · rw [if_neg hj, List.getElem?_eq_none]
    simp [hel]; omega

theorem removeAt_rep (es : List Ent) (i : Nat) (hi : i < es.length) :
    removeAt (rep es) i = .ok (.ok, rep (es.eraseIdx i)) := by
  obtain ⟨a1, h1, h1'⟩ := shift_rep (fun e : Ent => Ptr.to e.key) es .null i hi
  obtain ⟨a2, h2, h2'⟩ := shift_rep (fun e : Ent => Ptr.to e.buf) es .null i hi
  obtain ⟨a3, h3, h3'⟩ := shift_rep (fun e : Ent => e.len) es 0 i hi
  have hni : ¬ i ≥ es.length := by omega
  simp only [removeAt, rep, hni, if_false]
  simp only [deref_some, Res.ok_bind, h1, h2, h3, h1', h2', h3', Res.pure_eq]
  rw [List.length_eraseIdx, if_pos hi]

theorem removeAt_rep_out (es : List Ent) (i : Nat) (hi : es.length ≤ i) :
    removeAt (rep es) i = .ok (.notFound, rep es) := by
  simp [removeAt, rep, hi]

theorem good_sublist {es es' : List Ent} (h : es'.Sublist es) (hg : Good es) : Good es' :=
  ⟨(h.map _).nodup hg.1, fun e he => hg.2 e (h.subset he)⟩

theorem removeLoop_rep (p : UMap → Nat → Res Bool) (q : Ent → Bool) (A : List Ent) :
    ∀ (B : List Ent) (found : Bool),
      (∀ es i e, es[i]? = some e → e ∈ A → p (rep es) i = .ok (q e)) →
      removeLoop p A.length (rep (A ++ B)) found
        = .ok (if found || A.any q then .ok else .notFound, rep (A.filter (fun e => !q e) ++ B)) := by
  induction hn : A.length generalizing A with
  | zero =>
    intro B found hp
    have : A = [] := List.length_eq_zero_iff.1 hn
    subst this
    simp [removeLoop]
  | succ n ih =>
    intro B found hp
    have hne : A ≠ [] := by intro h; simp [h] at hn
    obtain ⟨A', a, rfl⟩ : ∃ A' a, A = A' ++ [a] := ⟨A.dropLast, A.getLast hne, (List.dropLast_concat_getLast hne).symm⟩
    have hn' : A'.length = n := by simpa using hn
    have hget : (A' ++ [a] ++ B)[n]? = some a := by
      rw [List.append_assoc, List.getElem?_append_right (by omega), hn']; simp
    simp only [removeLoop]
    rw [hp _ n a hget (by simp)]
    simp only [Res.ok_bind]
    by_cases hq : q a = true
    · rw [if_pos hq, removeAt_rep _ n (by simp; omega)]
      have her : (A' ++ [a] ++ B).eraseIdx n = A' ++ B := by
        rw [List.append_assoc, List.eraseIdx_append_of_length_le (by omega), hn']; simp
      simp only [Res.ok_bind, her, if_true]
      rw [ih A' hn' B true (fun es i e h1 h2 => hp es i e h1 (by simp [h2]))]
      simp [List.filter_append, hq]
    · rw [if_neg hq, List.append_assoc, ih A' hn' ([a] ++ B) found (fun es i e h1 h2 => hp es i e h1 (by simp [h2]))]
      simp [List.filter_append, hq]

theorem testKey_rep (q : Bytes → Bool) (es : List Ent) (i : Nat) (e : Ent) (h : es[i]? = some e) :
    testKey q (rep es) i = .ok (q e.key) := by
  simp only [testKey, rep, deref_some, Res.ok_bind]
  rw [aget_map (fun e : Ent => Ptr.to e.key) es _ i e h]
  simp

theorem removeKey_rep (es : List Ent) (k : Bytes) :
    removeKey (rep es) (some k) = .ok (if es.any (fun e => e.key == k) then .ok else .notFound,
      rep (es.filter (fun e => !(e.key == k)))) := by
  have := removeLoop_rep (testKey (· == k)) (fun e => e.key == k) es [] false
    (fun es i e h _ => testKey_rep _ es i e h)
  simpa [removeKey, rep] using this

theorem removeKeyCase_rep (es : List Ent) (k : Bytes) :
    removeKeyCase (rep es) (some k) = .ok (if es.any (fun e => eqCase e.key k) then .ok else .notFound,
      rep (es.filter (fun e => !(eqCase e.key k)))) := by
  have := removeLoop_rep (testKey (eqCase · k)) (fun e => eqCase e.key k) es [] false
    (fun es i e h _ => testKey_rep _ es i e h)
  simpa [removeKeyCase, rep] using this

/-- Whatever the test, the loop only takes entries away. -/
theorem removeLoop_sub (p : UMap → Nat → Res Bool) : ∀ (n : Nat) (es : List Ent) (found : Bool) (rc : Rc) (m' : UMap),
    n ≤ es.length → removeLoop p n (rep es) found = .ok (rc, m') → ∃ es', m' = rep es' ∧ es'.Sublist es := by
  intro n
  induction n with
  | zero => intro es found rc m' _ h; simp only [removeLoop] at h; cases h; exact ⟨es, rfl, List.Sublist.refl _⟩
  | succ n ih =>
    intro es found rc m' hn h
    simp only [removeLoop] at h
    cases hp : p (rep es) n with
    | ub => rw [hp] at h; cases h
    | ok b =>
      rw [hp] at h
      cases b with
      | false => exact ih es found rc m' (by omega) h
      | true =>
        simp only [Res.ok_bind, if_true] at h
        rw [removeAt_rep es n (by omega)] at h
        simp only [Res.ok_bind, if_true] at h
        obtain ⟨es', h1, h2⟩ := ih (es.eraseIdx n) true rc m'
          (by rw [List.length_eraseIdx, if_pos (by omega)]; omega) h
        exact ⟨es', h1, h2.trans (List.eraseIdx_sublist _ _)⟩

theorem testValue_rep (q : Buf → Res Bool) (es : List Ent) (i : Nat) (e : Ent) (h : es[i]? = some e) :
    testValue q (rep es) i = q e.buf := by
  simp only [testValue, rep, deref_some, Res.ok_bind]
  rw [aget_map (fun e : Ent => Ptr.to e.buf) es _ i e h]
  simp

/-! ### copying -/

theorem set_last {α : Type} (l : List α) (x y : α) : (l ++ [x]).set l.length y = l ++ [y] := by
  simp

theorem mk_copy (e : Ent) (he : e.Good) :
    mk e.key (if e.len > 0 then some e.buf else none) 0 e.len = e := by
  obtain ⟨h1, h2, h3, h4⟩ := he
  have hb : e.buf = e.buf.take e.len ++ [some 0] := by
    conv => lhs; rw [← List.take_append_drop e.len e.buf]
    congr 1
    apply List.ext_getElem?
    intro j
    rw [List.getElem?_drop]
    cases j with
    | zero => simpa using h3
    | succ j => rw [List.getElem?_eq_none (by omega), List.getElem?_eq_none (by simp)]
  rcases e with ⟨k, buf, n⟩
  simp only at *
  by_cases hl : n > 0
  · rw [if_pos hl]
    simp only [mk, Nat.zero_add, Ent.mk.injEq, true_and, and_true]
    conv => rhs; rw [hb]
    simp only [copyAt, List.take_zero, List.nil_append, Nat.zero_add]
    have hd : (List.replicate (n + 1) (none : Option UInt8)).drop n = [none] := by simp
    rw [hd]
    have hl' : (buf.take n).length = n := by simp; omega
    conv => lhs; arg 2; rw [← hl']
    exact set_last _ _ _
  · have : n = 0 := by omega
    subst this
    rw [if_neg hl]
    simp only [mk, Ent.mk.injEq, true_and, and_true]
    rw [hb]; simp [strBuf]

theorem copyLoop_rep (es : List Ent) (hg : Good es) : ∀ (A B : List Ent), es = A ++ B →
    copyLoop (rep es) A.length (B.map (fun e => Ptr.to e.key) ++ [Ptr.null]) (rep A) = .ok (some (rep es)) := by
  intro A B
  induction B generalizing A with
  | nil => intro h; subst h; simp [copyLoop]
  | cons e t ih =>
    intro h
    have hes : es[A.length]? = some e := by subst h; simp
    have hme : e ∈ es := by subst h; simp
    have hfind : es.find? (fun x => x.key == e.key) = some e := by
      rcases findIdx?_find? (fun x : Ent => x.key == e.key) es with ⟨_, h2⟩ | ⟨i, e', _, h2, h3⟩
      · rw [List.find?_eq_none] at h2
        exact absurd (by simp) (h2 e hme)
      · rw [h3, nodup_inj hg.1 (List.mem_of_getElem? h2) hme (by simpa using List.find?_some h3)]
    simp only [List.map_cons, List.cons_append, copyLoop]
    rw [get_rep, hfind]
    have e1 : deref (rep es).lengths = .ok (es.map (fun e => e.len) ++ [0]) := rfl
    rw [e1]
    simp only [Res.ok_bind, Option.bind_some]
    rw [aget_map (fun e : Ent => e.len) es [0] _ e hes]
    simp only [Res.ok_bind]
    have hge := hg.2 e hme
    have hgA : Good A := by
      subst h
      exact good_sublist (List.sublist_append_left A (e :: t)) hg
    rw [putBinary_rep A e.key _ 0 e.len hge.1 hgA ?_]
    · simp only [Res.ok_bind, if_true]
      have hnew : eput A e.key (if e.len > 0 then some e.buf else none) 0 e.len = A ++ [e] := by
        rw [eput, if_neg, mk_copy e hge]
        rw [List.any_eq_true]
        rintro ⟨x, hx, hxk⟩
        subst h
        have := hg.1
        rw [List.map_append, List.nodup_append] at this
        exact this.2.2 x.key (List.mem_map.2 ⟨x, hx, rfl⟩) e.key (by simp) (by simpa using hxk)
      rw [hnew]
      have := ih (A ++ [e]) (by simp [h])
      simpa using this
    · refine ⟨by simpa using hge.2.2.2, ?_, ?_⟩
      · intro src hsrc
        by_cases hl : e.len > 0
        · rw [if_pos hl] at hsrc
          cases hsrc
          rw [hge.2.1]; omega
        · omega
      · intro hn
        by_cases hl : e.len > 0
        · simp [hl] at hn
        · omega

theorem copy_rep (es : List Ent) (hg : Good es) : copy (rep es) = .ok (some (rep es)) := by
  have := copyLoop_rep es hg [] es rfl
  simpa [copy, rep, init_eq] using this

theorem readStr_strBuf (s : Bytes) (t : Buf) (h : NoNul s) : readStr (strBuf s ++ t) = .ok s := by
  induction s with
  | nil => simp [strBuf, readStr]
  | cons b s ih =>
    have hb : b ≠ 0 := by intro hb; apply h; simp [hb]
    have hs : NoNul s := fun hm => h (List.mem_cons_of_mem _ hm)
    have := ih hs
    simp only [strBuf, List.append_assoc, List.map_cons, List.cons_append, readStr] at *
    rw [if_neg (by simpa using hb), this]
    simp

theorem find?_map_upd (es : List Ent) (k k' : Bytes) (f : Ent → Ent) (hf : ∀ e, (f e).key = e.key) :
    (es.map (fun e => if e.key == k then f e else e)).find? (fun e => e.key == k') =
      (es.find? (fun e => e.key == k')).map (fun e => if e.key == k then f e else e) := by
  rw [List.find?_map]
  congr 1
  apply congrFun (congrArg _ _)
  funext e
  simp only [Function.comp]
  split
  · rw [hf]
  · rfl

theorem find?_eput (es : List Ent) (k k' : Bytes) (v : Option Buf) (o l : Nat) :
    (eput es k v o l).find? (fun e => e.key == k') =
      if k = k' then
        (match es.find? (fun e => e.key == k) with
          | some e => some (upd e v o l)
          | none => some (mk k v o l))
      else es.find? (fun e => e.key == k') := by
  unfold eput
  by_cases h : es.any (fun e => e.key == k) = true
  · rw [if_pos h, find?_map_upd _ _ _ _ (fun e => upd_key e v o l)]
    by_cases hk : k = k'
    · subst hk
      rw [if_pos rfl]
      cases hf : es.find? (fun e => e.key == k) with
      | none =>
        rw [List.find?_eq_none] at hf
        rw [List.any_eq_true] at h
        obtain ⟨x, hx, hxk⟩ := h
        exact absurd hxk (hf x hx)
      | some e =>
        have := List.find?_some hf
        rw [Option.map_some, if_pos this]
    · rw [if_neg hk]
      cases hf : es.find? (fun e => e.key == k') with
      | none => rfl
      | some e =>
        have := List.find?_some hf
        simp only [beq_iff_eq] at this
        simp [this, Ne.symm hk]
  · rw [if_neg h, List.find?_append]
    have hn : es.find? (fun e => e.key == k) = none := by
      rw [List.find?_eq_none]
      intro x hx hxk
      exact h (List.any_eq_true.2 ⟨x, hx, hxk⟩)
    by_cases hk : k = k'
    · subst hk
      rw [if_pos rfl, hn]
      simp [mk_key]
    · rw [if_neg hk]
      simp [mk_key, hk]

end Verif.UMap
