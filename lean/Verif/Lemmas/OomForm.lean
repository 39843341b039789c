import Verif.Model.OomForm
import Verif.Lemmas.UMap
import Verif.Lemmas.Upload
import Verif.Spec.OomForm
import Verif.Props.Utf8
/-!
# Lemmas on receiving a form when memory can run out
-/
namespace Verif.OomForm
open Verif.Utf8 Verif.UMap Verif.Upload

/-- The entry that holds a parameter. -/
def ent (p : Bytes × Bytes) : Ent := ⟨p.1, p.2.map some ++ [some 0], p.2.length⟩

/-- The structure holds the parameters, none longer than `w`. -/
structure Stands (m : UMap) (pm : PostMap) (w : Nat) : Prop where
  eq : m = rep (pm.map ent)
  nodup : (pm.map (·.1)).Nodup
  keys : ∀ p ∈ pm, p.1 ≠ []
  le : ∀ p ∈ pm, p.2.length ≤ w

theorem ent_good (p : Bytes × Bytes) (hk : p.1 ≠ []) (hl : p.2.length + 1 < 2 ^ 64) : (ent p).Good := by
  refine ⟨hk, by simp [ent], ?_, hl⟩
  simp [ent]

theorem Stands.good {m : UMap} {pm : PostMap} {w : Nat} (h : Stands m pm w) (hw : w + 1 < 2 ^ 64) : Good (pm.map ent) := by
  refine ⟨?_, ?_⟩
  · rw [List.map_map]
    exact h.nodup
  · intro e he
    obtain ⟨p, hp, rfl⟩ := List.mem_map.1 he
    exact ent_good p (h.keys p hp) (by have := h.le p hp; omega)

theorem Stands.mono {m : UMap} {pm : PostMap} {w w' : Nat} (h : Stands m pm w) (hw : w ≤ w') : Stands m pm w' :=
  ⟨h.eq, h.nodup, h.keys, fun p hp => Nat.le_trans (h.le p hp) hw⟩

theorem stands_init : Stands init [] 0 := ⟨rfl, by simp, by simp, by simp⟩

theorem find_ent (pm : PostMap) (k : Bytes) :
    (pm.map ent).find? (fun e => e.key == k) = (pm.find? (fun p => p.1 == k)).map ent := by
  rw [List.find?_map]
  rfl

theorem any_ent (pm : PostMap) (k : Bytes) : (pm.map ent).any (fun e => e.key == k) = pm.any (fun p => p.1 == k) := by
  rw [List.any_map]
  rfl

theorem find_any (pm : PostMap) (k : Bytes) : pm.any (fun p => p.1 == k) = (find pm k).isSome := by
  rw [find, Option.isSome_map, Bool.eq_iff_iff, List.find?_isSome, List.any_eq_true]

theorem find_mem (pm : PostMap) (hn : (pm.map (·.1)).Nodup) (p : Bytes × Bytes) (hp : p ∈ pm) : find pm p.1 = some p.2 := by
  induction pm with
  | nil => cases hp
  | cons q t ih =>
    rw [List.map_cons, List.nodup_cons] at hn
    rw [find, List.find?_cons]
    rcases List.mem_cons.1 hp with rfl | ht
    · simp
    · have : (q.1 == p.1) = false := by
        rw [beq_eq_false_iff_ne]
        intro e
        exact hn.1 (List.mem_map.2 ⟨p, ht, e.symm⟩)
      rw [this]
      exact ih hn.2 ht

theorem block_upd (A b : Bytes) (k : Bytes) (hlen : A.length + b.length + 1 < 2 ^ 64) :
    upd ⟨k, A.map some ++ [some 0], A.length⟩ (some (b.map some)) A.length b.length =
      ⟨k, (A ++ b).map some ++ [some 0], (A ++ b).length⟩ := by
  unfold upd
  by_cases hb : b = []
  · subst hb
    simp [copyAt]
  · have hpos : 0 < b.length := List.length_pos_iff.2 hb
    have h1 : A.length < A.length + b.length := by omega
    simp only [h1, if_true]
    rw [List.length_append]
    congr 1
    rw [copyAt]
    have t1 : (resize (A.map some ++ [some 0]) (A.length + b.length + 1)).take A.length = A.map some := by
      rw [resize, List.take_of_length_le (l := A.map some ++ [some 0]) (by simp), List.append_assoc]
      conv => lhs; arg 1; rw [← List.length_map (as := A) some]
      exact List.take_left
    have t3 : ((resize (A.map some ++ [some 0]) (A.length + b.length + 1)).drop (A.length + b.length)).length = 1 := by
      simp [resize]; omega
    obtain ⟨x, hx⟩ := List.length_eq_one_iff.1 t3
    rw [t1, hx]
    have t2 : (b.map some).take b.length = b.map some := by rw [List.take_of_length_le (by simp)]
    rw [t2]
    have : A.length + b.length = (A.map some ++ b.map some).length := by simp
    rw [this, set_last]; simp

theorem block_mk (b k : Bytes) : mk k (some (b.map some)) 0 b.length = ent (k, b) := by
  simp only [mk, ent, Nat.zero_add, Ent.mk.injEq, true_and, and_true, copyAt, List.take_zero, List.nil_append]
  have hd : (List.replicate (b.length + 1) (none : Option UInt8)).drop b.length = [none] := by simp
  rw [hd]
  have t2 : (b.map some).take b.length = b.map some := by rw [List.take_of_length_le (by simp)]
  rw [t2]
  have : b.length = (b.map (some : UInt8 → Option UInt8)).length := by simp
  conv => lhs; arg 2; rw [this]
  exact set_last _ _ _

theorem copyAt_take (dst src : Buf) (off n : Nat) : copyAt dst off src n = copyAt dst off (src.take n) n := by
  rw [copyAt, copyAt, List.take_take, Nat.min_self]

theorem upd_take (e : Ent) (d : Bytes) (off n : Nat) :
    upd e (some (d.map some)) off n = upd e (some ((d.take n).map some)) off n := by
  have h : ∀ dst, copyAt dst off (d.map some) n = copyAt dst off ((d.take n).map some) n := by
    intro dst
    rw [copyAt_take _ (d.map some), List.map_take]
  simp only [upd, h]

theorem mk_take (k d : Bytes) (off n : Nat) : mk k (some (d.map some)) off n = mk k (some ((d.take n).map some)) off n := by
  simp only [mk]
  rw [copyAt_take _ (d.map some), copyAt_take _ ((d.take n).map some), ← List.map_take, ← List.map_take, List.take_take, Nat.min_self]

/-- Storing behind what there is. -/
theorem eput_append {m : UMap} {pm : PostMap} {w : Nat} (h : Stands m pm w) (k d : Bytes) (n : Nat) (hn : n ≤ d.length)
    (hw : w + n + 1 < 2 ^ 64) :
    eput (pm.map ent) k (some (d.map some)) ((find pm k).getD []).length n = (append pm k (d.take n)).map ent := by
  have hdl : (d.take n).length = n := by rw [List.length_take]; omega
  rw [eput, append, any_ent]
  by_cases ha : pm.any (fun p => p.1 == k) = true
  · rw [if_pos ha, if_pos ha, List.map_map, List.map_map]
    refine List.map_congr_left (fun p hp => ?_)
    simp only [Function.comp]
    by_cases hk : p.1 = k
    · have hb : ((ent p).key == k) = true := by simpa [ent] using hk
      have hb' : (p.1 == k) = true := by simpa using hk
      rw [if_pos hb, if_pos hb', upd_take]
      have hf := find_mem pm h.nodup p hp
      rw [hk] at hf
      rw [hf]
      have := h.le p hp
      have hu := block_upd p.2 (d.take n) p.1 (by rw [hdl]; omega)
      rw [hdl] at hu
      rw [show ent p = ⟨p.1, p.2.map some ++ [some 0], p.2.length⟩ from rfl]
      simp only [Option.getD_some]
      rw [hu, hk]
      rfl
    · have hb : ((ent p).key == k) = false := by simpa [ent] using hk
      have hb' : (p.1 == k) = false := by simpa using hk
      rw [if_neg (by simp [hb]), if_neg (by simp [hb'])]
  · rw [if_neg ha, if_neg ha, List.map_append]
    congr 1
    have hf : find pm k = none := by
      rw [find_any] at ha
      simpa using ha
    rw [hf, mk_take]
    have := block_mk (d.take n) k
    rw [hdl] at this
    simp only [Option.getD_none, List.length_nil, List.map_cons, List.map_nil]
    rw [this]

theorem append_keys (pm : PostMap) (k d : Bytes) :
    (append pm k d).map (·.1) = if pm.any (fun p => p.1 == k) then pm.map (·.1) else pm.map (·.1) ++ [k] := by
  rw [append]
  by_cases ha : pm.any (fun p => p.1 == k) = true
  · rw [if_pos ha, if_pos ha, List.map_map]
    refine List.map_congr_left (fun p hp => ?_)
    simp only [Function.comp]
    by_cases hk : p.1 = k
    · simp [hk]
    · simp [hk]
  · rw [if_neg ha, if_neg ha]
    simp

theorem Stands.append {m : UMap} {pm : PostMap} {w : Nat} (h : Stands m pm w) (k d : Bytes) (hk : k ≠ []) :
    Stands (rep ((append pm k d).map ent)) (append pm k d) (w + d.length) := by
  refine ⟨rfl, ?_, ?_, ?_⟩
  · rw [append_keys]
    by_cases ha : pm.any (fun p => p.1 == k) = true
    · rw [if_pos ha]
      exact h.nodup
    · rw [if_neg ha, List.nodup_append]
      refine ⟨h.nodup, by simp, ?_⟩
      intro a hA b hb e
      rw [List.mem_singleton] at hb
      subst hb
      subst e
      obtain ⟨p, hp, rfl⟩ := List.mem_map.1 hA
      exact ha (List.any_eq_true.2 ⟨p, hp, by simp⟩)
  · intro p hp
    have : p.1 ∈ (Upload.append pm k d).map (·.1) := List.mem_map_of_mem hp
    rw [append_keys] at this
    split at this
    · obtain ⟨q, hq, e⟩ := List.mem_map.1 this
      rw [← e]
      exact h.keys q hq
    · rcases List.mem_append.1 this with hm | hm
      · obtain ⟨q, hq, e⟩ := List.mem_map.1 hm
        rw [← e]
        exact h.keys q hq
      · rw [List.mem_singleton.1 hm]
        exact hk
  · intro p hp
    rw [Upload.append] at hp
    split at hp
    · obtain ⟨q, hq, rfl⟩ := List.mem_map.1 hp
      have := h.le q hq
      split
      · rw [List.length_append]; omega
      · omega
    · rcases List.mem_append.1 hp with hm | hm
      · have := h.le p hm; omega
      · rw [List.mem_singleton.1 hm]
        exact Nat.le_add_left _ _

/-! ## `u_map_put_binary` when memory can run out -/

/-- The failing allocation is not one of the three arrays. -/
def NotArrays (o : Option Nat) : Prop := o ≠ some 2 ∧ o ≠ some 3 ∧ o ≠ some 4

/-- The entry at `i` has lost its value. -/
def lost (es : List Ent) (i : Nat) : UMap :=
  { rep es with values := some ((es.map (fun e : Ent => Ptr.to e.buf) ++ [Ptr.null]).set i .null) }

theorem putNew_oom (es : List Ent) (k : Bytes) (b : Buf) (o l : Nat) (oom : Option Nat) (h : NotArrays oom) :
    putNew (rep es) k (some b) o l oom = putNew (rep es) k (some b) o l none ∨
    (putNew (rep es) k (some b) o l oom = .ok (.memory, rep es) ∧ oom ≠ none) := by
  by_cases h0 : oom = some 0
  · right
    exact ⟨by rw [putNew, if_pos h0], by rw [h0]; simp⟩
  by_cases h1 : oom = some 1
  · right
    exact ⟨by rw [putNew, if_neg h0, if_pos ⟨h1, rfl⟩], by rw [h1]; simp⟩
  left
  rw [putNew, putNew, if_neg h0, if_neg (fun e => h1 e.1), if_neg (by simp), if_neg (by simp)]
  have e1 : dupValue (some b) o l oom = dupValue (some b) o l none := rfl
  rw [e1]
  congr 1
  funext dup
  rw [appendAll, appendAll]
  simp [h.1, h.2.1, h.2.2]

theorem putBinary_oom (es : List Ent) (k : Bytes) (b : Buf) (o l : Nat) (oom : Option Nat) (hk : k ≠ []) (h : NotArrays oom) :
    putBinary (rep es) (some k) (some b) o l oom = putBinary (rep es) (some k) (some b) o l ∨
    (oom ≠ none ∧ (putBinary (rep es) (some k) (some b) o l oom = .ok (.memory, rep es) ∧ es.find? (fun e => e.key == k) = none ∨
      ∃ i, es.findIdx? (fun e => e.key == k) = some i ∧
        putBinary (rep es) (some k) (some b) o l oom = .ok (.memory, lost es i))) := by
  obtain ⟨x, xs, rfl⟩ := List.exists_cons_of_ne_nil hk
  have hs := scanNb_rep (fun y => y == x :: xs) es 0 [Ptr.null]
  simp only [Nat.add_zero, Option.map_id'] at hs
  have hd : deref (rep es).keys = .ok (es.map (fun e => Ptr.to e.key) ++ [Ptr.null]) := rfl
  have hnb : (rep es).nb = es.length := rfl
  simp only [putBinary, hd, hnb, Res.ok_bind, hs]
  rcases findIdx?_find? (fun e => e.key == x :: xs) es with ⟨hi, hf⟩ | ⟨i, e, hi, he, hf⟩
  · simp only [hi]
    have hv : deref (rep es).values = .ok (es.map (fun e : Ent => Ptr.to e.buf) ++ [Ptr.null]) := rfl
    have hg : aget (es.map (fun e : Ent => Ptr.to e.buf) ++ [Ptr.null]) es.length = .ok (Ptr.null : Ptr Buf) := by
      simp [aget]
    simp only [hv, Res.ok_bind, hg]
    rcases putNew_oom es (x :: xs) b o l oom h with e | ⟨e, hne⟩
    · exact .inl e
    · exact .inr ⟨hne, .inl ⟨e, hf⟩⟩
  · simp only [hi]
    have hl : deref (rep es).lengths = .ok (es.map (fun e => e.len) ++ [0]) := rfl
    have hv : deref (rep es).values = .ok (es.map (fun e : Ent => Ptr.to e.buf) ++ [Ptr.null]) := rfl
    have a1 := aget_map (fun e : Ent => e.len) es [0] i e he
    have a2 := aget_map (fun e : Ent => Ptr.to e.buf) es [Ptr.null] i e he
    simp only [putExisting, hl, hv, Res.ok_bind, a1, a2]
    by_cases hc : (decide (e.len < w64 (o + l)) && oom == some 0) = true
    · right
      rw [if_pos hc]
      refine ⟨?_, .inr ⟨i, rfl, rfl⟩⟩
      simp only [Bool.and_eq_true, beq_iff_eq] at hc
      rw [hc.2]; simp
    · left
      rw [if_neg hc, if_neg (by simp)]

theorem lost_get (es : List Ent) (i : Nat) (k q : Bytes) (hi : es.findIdx? (fun e => e.key == k) = some i) :
    UMap.get (lost es i) (some q) = if q = k then .ok none else UMap.get (rep es) (some q) := by
  have hs := scan_rep (fun y : Bytes => y == q) (fun y => .ok (y == q)) (fun e : Ent => e.key) es 0 (fun _ _ => rfl)
  simp only [Nat.add_zero, Option.map_id'] at hs
  have hd : deref (lost es i).keys = .ok (es.map (fun e => Ptr.to e.key) ++ [Ptr.null]) := rfl
  have hd' : deref (rep es).keys = .ok (es.map (fun e => Ptr.to e.key) ++ [Ptr.null]) := rfl
  have hl : deref (lost es i).lengths = .ok (es.map (fun e => e.len) ++ [0]) := rfl
  have hl' : deref (rep es).lengths = .ok (es.map (fun e => e.len) ++ [0]) := rfl
  have hv : deref (lost es i).values = .ok ((es.map (fun e : Ent => Ptr.to e.buf) ++ [Ptr.null]).set i .null) := rfl
  have hv' : deref (rep es).values = .ok (es.map (fun e : Ent => Ptr.to e.buf) ++ [Ptr.null]) := rfl
  simp only [UMap.get, hd, hd', hl, hl', hv, hv', Res.ok_bind, hs]
  by_cases hq : q = k
  · subst hq
    rw [if_pos rfl, hi]
    simp only
    obtain ⟨hlt, -, -⟩ := List.findIdx?_eq_some_iff_getElem.1 hi
    have a1 := aget_map (fun e : Ent => e.len) es [0] i es[i] (by simp [hlt])
    rw [a1]
    simp only [Res.ok_bind]
    split
    · have : aget ((es.map (fun e : Ent => Ptr.to e.buf) ++ [Ptr.null]).set i .null) i = .ok (Ptr.null : Ptr Buf) := by
        rw [aget, List.getElem?_set_self (by simp; omega)]
      rw [this]
      rfl
    · rfl
  · rw [if_neg hq]
    cases hj : es.findIdx? (fun e => e.key == q) with
    | none => rfl
    | some j =>
      simp only
      have hij : i ≠ j := by
        rintro rfl
        obtain ⟨hlt, h1, -⟩ := List.findIdx?_eq_some_iff_getElem.1 hi
        obtain ⟨_, h2, -⟩ := List.findIdx?_eq_some_iff_getElem.1 hj
        simp only [beq_iff_eq] at h1 h2
        exact hq (h2.symm.trans h1)
      have : aget ((es.map (fun e : Ent => Ptr.to e.buf) ++ [Ptr.null]).set i .null) j =
          aget (es.map (fun e : Ent => Ptr.to e.buf) ++ [(Ptr.null : Ptr Buf)]) j := by
        rw [aget, aget, List.getElem?_set_ne hij]
      rw [this]

/-! ## One call of the iterator -/

/-- What `u_map_get` gives for a value. -/
def shown (v : Option Bytes) : Option Buf := v.bind (fun v => if v = [] then none else some (v.map some ++ [some 0]))

theorem get_stands {m : UMap} {pm : PostMap} {w : Nat} (h : Stands m pm w) (q : Bytes) :
    UMap.get m (some q) = .ok (shown (find pm q)) := by
  rw [h.eq, get_rep, find_ent, find]
  cases hf : pm.find? (fun p => p.1 == q) with
  | none => rfl
  | some p =>
    simp only [Option.map_some, Option.bind_some, shown, ent]
    by_cases hp : p.2 = []
    · simp [hp]
    · rw [if_pos (List.length_pos_iff.2 hp), if_neg hp]

theorem getLength_stands {m : UMap} {pm : PostMap} {w : Nat} (h : Stands m pm w) (q : Bytes) :
    getLength m (some q) = .ok ((find pm q).map List.length) := by
  rw [h.eq, getLength_rep, find_ent, find]
  cases hf : pm.find? (fun p => p.1 == q) with
  | none => rfl
  | some p => rfl

theorem find_le {m : UMap} {pm : PostMap} {w : Nat} (h : Stands m pm w) (k : Bytes) : ((find pm k).getD []).length ≤ w := by
  rw [find]
  cases hf : pm.find? (fun p => p.1 == k) with
  | none => simp
  | some p => exact h.le p (List.mem_of_find?_eq_some hf)

theorem put_stands {m : UMap} {pm : PostMap} {w : Nat} (h : Stands m pm w) (k d : Bytes) (n : Nat) (oom : Option Nat) (hk : k ≠ [])
    (hn : n ≤ d.length) (hw : w + n + 1 < 2 ^ 64) (ho : NotArrays oom) :
    putBinary m (some k) (some (d.map some)) ((find pm k).getD []).length n oom =
      .ok (.ok, rep ((append pm k (d.take n)).map ent)) ∨
    (oom ≠ none ∧ ∃ m', putBinary m (some k) (some (d.map some)) ((find pm k).getD []).length n oom = .ok (.memory, m') ∧
      (∀ q, UMap.get m' (some q) = if q = k then .ok none else UMap.get m (some q)) ∧
      (find pm k = none → m' = m)) := by
  have hle := find_le h k
  have hg := h.good (by omega)
  have hv : ValidArgs (some (d.map some)) ((find pm k).getD []).length n :=
    ⟨by omega, by intro src hs; cases hs; simpa using hn, by simp⟩
  have hp := putBinary_rep (pm.map ent) k (some (d.map some)) ((find pm k).getD []).length n hk hg hv
  rw [eput_append h k d n hn hw] at hp
  have hm := h.eq
  rcases putBinary_oom (pm.map ent) k (d.map some) ((find pm k).getD []).length n oom hk ho with e | ⟨hne, e⟩
  · left
    rw [hm, e, hp]
  · right
    refine ⟨hne, ?_⟩
    rcases e with ⟨e, hf⟩ | ⟨i, hi, e⟩
    · refine ⟨m, by rw [hm, e], ?_, fun _ => rfl⟩
      intro q
      by_cases hq : q = k
      · subst hq
        rw [if_pos rfl, get_stands h]
        rw [find_ent] at hf
        rw [find]
        cases hx : pm.find? (fun p => p.1 == q) with
        | none => rfl
        | some p => rw [hx] at hf; cases hf
      · rw [if_neg hq]
    · refine ⟨lost (pm.map ent) i, by rw [hm, e], ?_, ?_⟩
      · intro q
        rw [lost_get _ i k q hi, hm]
      · intro hx
        have : (pm.map ent).any (fun e => e.key == k) = true := by
          rw [List.any_eq_true]
          obtain ⟨hlt, h1, -⟩ := List.findIdx?_eq_some_iff_getElem.1 hi
          exact ⟨_, List.getElem_mem hlt, h1⟩
        rw [any_ent, find_any, hx] at this
        cases this

/-- What storing does to the parameters. -/
def storeF (pm : PostMap) (key d : Bytes) (off : Nat) : PostMap :=
  if !((find pm key).getD []).isEmpty then
    if off != 0 then append pm key d else append (append pm key b!",") key d
  else append pm key d

theorem rc_ok : ((Rc.ok : Rc) == Rc.ok) = true := by decide
theorem rc_memory : ((Rc.memory : Rc) == Rc.ok) = false := by decide

theorem store_stands {m : UMap} {pm : PostMap} {w : Nat} (h : Stands m pm w) (o : Fails) (key d : Bytes) (off n : Nat)
    (hk : key ≠ []) (hn : n ≤ d.length) (hw : w + n + 3 < 2 ^ 64) (h1 : NotArrays o.first) (h2 : NotArrays o.second) :
    (∃ m', store o m key d off n = .ok (true, m') ∧ Stands m' (storeF pm key (d.take n) off) (w + n + 1)) ∨
    ((o.first ≠ none ∨ o.second ≠ none) ∧ ∃ m', store o m key d off n = .ok (false, m') ∧
      ∀ q, UMap.get m' (some q) = if q = key then .ok none else UMap.get m (some q)) := by
  have hdl : (d.take n).length = n := by rw [List.length_take]; omega
  have hput := put_stands h key d n o.first hk hn (by omega) h1
  rw [store, get_stands h]
  simp only [Res.ok_bind]
  cases hf : find pm key with
  | none =>
    have hs : shown none = none := rfl
    rw [hs]
    rw [hf] at hput
    simp only [Option.getD_none, List.length_nil] at hput
    rcases hput with e | ⟨hne, m', e, hm, -⟩
    · left
      refine ⟨_, by simp only [e, Res.ok_bind, rc_ok]; rfl, ?_⟩
      rw [storeF, hf]
      simp only [Option.getD_none, List.isEmpty_nil, Bool.not_true, Bool.false_eq_true, if_false]
      exact (h.append key (d.take n) hk).mono (by omega)
    · right
      exact ⟨.inl hne, m', by simp only [e, Res.ok_bind, rc_memory], hm⟩
  | some v =>
    by_cases hv : v = []
    · subst hv
      have hs : shown (some []) = none := rfl
      rw [hs]
      rw [hf] at hput
      simp only [Option.getD_some, List.length_nil] at hput
      rcases hput with e | ⟨hne, m', e, hm, -⟩
      · left
        refine ⟨_, by simp only [e, Res.ok_bind, rc_ok]; rfl, ?_⟩
        rw [storeF, hf]
        simp only [Option.getD_some, List.isEmpty_nil, Bool.not_true, Bool.false_eq_true, if_false]
        exact (h.append key (d.take n) hk).mono (by omega)
      · right
        exact ⟨.inl hne, m', by simp only [e, Res.ok_bind, rc_memory], hm⟩
    · have hs : shown (some v) = some (v.map some ++ [some 0]) := by
        simp [shown, hv]
      rw [hs]
      have hlen := getLength_stands h key
      rw [hf] at hlen
      simp only [hlen, Res.ok_bind, Option.map_some]
      rw [hf] at hput
      simp only [Option.getD_some] at hput
      have hcur : (!v.isEmpty) = true := by
        cases v with
        | nil => exact absurd rfl hv
        | cons _ _ => rfl
      by_cases ho : (off != 0) = true
      · rw [if_pos ho]
        rcases hput with e | ⟨hne, m', e, hm, -⟩
        · left
          refine ⟨_, by simp only [e, Res.ok_bind, rc_ok]; rfl, ?_⟩
          rw [storeF, hf]
          simp only [Option.getD_some, hcur, if_true]
          rw [if_pos ho]
          exact (h.append key (d.take n) hk).mono (by omega)
        · right
          exact ⟨.inl hne, m', by simp only [e, Res.ok_bind, rc_memory], hm⟩
      · rw [if_neg ho]
        have hc := put_stands h key b!"," 1 o.first hk (by decide) (by omega) h1
        rw [hf] at hc
        simp only [Option.getD_some] at hc
        have hvw : v.length ≤ w := by
          have := find_le h key
          rw [hf] at this
          exact this
        rcases hc with e | ⟨hne, m', e, hm, -⟩
        · simp only [e, Res.ok_bind, rc_ok, if_true]
          have ht : List.take 1 b!"," = b!"," := by decide
          rw [ht]
          have hst := h.append key b!"," hk
          have hc1 : (b!",").length = 1 := by decide
          have hq := put_stands hst key d n o.second hk hn (by rw [hc1]; omega) h2
          have hf2 : find (append pm key b!",") key = some (v ++ b!",") := by
            rw [find_append_self, hf]
            rfl
          rw [hf2] at hq
          simp only [Option.getD_some, List.length_append, hc1] at hq
          have hw1 : w64 (v.length + 1) = v.length + 1 := w64_of_lt (by omega)
          rw [hw1]
          rcases hq with e2 | ⟨hne, m2, e2, hm2, -⟩
          · left
            refine ⟨_, by simp only [e2, Res.ok_bind, rc_ok]; rfl, ?_⟩
            rw [storeF, hf]
            simp only [Option.getD_some, hcur, if_true]
            rw [if_neg ho]
            exact (hst.append key (d.take n) hk).mono (by rw [hc1]; omega)
          · right
            refine ⟨.inr hne, m2, by simp only [e2, Res.ok_bind, rc_memory], ?_⟩
            intro q
            rw [hm2 q]
            by_cases hqk : q = key
            · rw [if_pos hqk, if_pos hqk]
            · rw [if_neg hqk, if_neg hqk, get_stands hst, get_stands h, find_append_other _ _ _ _ (fun e => hqk e.symm)]
        · right
          exact ⟨.inl hne, m', by simp only [e, Res.ok_bind, rc_memory]; rfl, hm⟩

theorem note_stands {m : UMap} {pm : PostMap} {w : Nat} (h : Stands m pm w) (o : Fails) (key fn : Bytes)
    (hw : w + fn.length + 3 < 2 ^ 64) (ho : NotArrays o.note) :
    ∃ pm' m', noteName o m key fn = .ok m' ∧ Stands m' pm' (w + fn.length + 1) ∧
      (pm' = withName pm key (some fn) ∨ pm' = pm ∧ (o.name = true ∨ o.note ≠ none)) := by
  rw [noteName]
  by_cases hn : o.name = true
  · rw [if_pos hn]
    exact ⟨pm, m, rfl, h.mono (by omega), .inr ⟨rfl, .inl hn⟩⟩
  · rw [if_neg hn]
    have hk : key ++ b!"_filename" ≠ [] := by
      intro e
      have := congrArg List.length e
      rw [List.length_append] at this
      have h9 : (b!"_filename").length = 9 := by decide
      rw [h9] at this
      simp at this
    have hh : hasKey m (some (key ++ b!"_filename")) = .ok (find pm (key ++ b!"_filename")).isSome := by
      rw [h.eq, hasKey_rep, any_ent, find_any]
    simp only [hh, Res.ok_bind]
    cases hf : find pm (key ++ b!"_filename") with
    | some v =>
      refine ⟨pm, m, by simp, h.mono (by omega), .inl ?_⟩
      rw [withName]
      simp [hf]
    | none =>
      simp only [Option.isSome_none, Bool.false_eq_true, if_false]
      have hput := put_stands h (key ++ b!"_filename") (fn ++ [0]) (fn.length + 1) o.note hk (by simp) (by omega) ho
      rw [hf] at hput
      have hb : ((fn ++ [0]).map some) = strBuf fn := by simp [strBuf]
      have ht : (fn ++ [0]).take (fn.length + 1) = fn ++ [0] := List.take_of_length_le (by simp)
      rw [hb, ht] at hput
      simp only [Option.getD_none, List.length_nil] at hput
      have hp : put m (some (key ++ b!"_filename")) (some fn) o.note =
        putBinary m (some (key ++ b!"_filename")) (some (strBuf fn)) 0 (fn.length + 1) o.note := rfl
      rw [hp]
      rcases hput with e | ⟨hne, m', e, -, hm⟩
      · refine ⟨append pm (key ++ b!"_filename") (fn ++ [0]), _, by simp only [e, Res.ok_bind]; rfl, ?_, .inl ?_⟩
        · exact (h.append _ (fn ++ [0]) hk).mono (by simp; omega)
        · rw [withName]
          simp [hf]
      · refine ⟨pm, m', by simp only [e, Res.ok_bind], ?_, .inr ⟨rfl, .inr hne⟩⟩
        rw [hm trivial]
        exact h.mono (by omega)

/-- None of the arrays of the map fails to grow. -/
def Mild (o : Fails) : Prop := NotArrays o.note ∧ NotArrays o.first ∧ NotArrays o.second

/-- What a call may add to a value. -/
def weight (c : Call) : Nat := c.data.length + (c.filename.getD []).length + 4

theorem iterate_eq (cfg : Cfg) (pm : PostMap) (key : Bytes) (fn : Option Bytes) (d : Bytes) (off : Nat) :
    iterate { cfg with uploadCb := false } pm key fn d off =
      if cfg.checkUtf8 && (!utf8Ok key || !utf8Ok d || (fn.isSome && !utf8Ok (fn.getD []))) then (true, pm)
      else if decide (0 < cfg.maxParam) && decide (cfg.maxParam < off) then (true, pm)
      else if key.isEmpty then (false, withName pm key fn)
      else (true, storeF (withName pm key fn) key (d.take (if decide (0 < cfg.maxParam) && decide (cfg.maxParam < off + d.length)
        then cfg.maxParam - off else d.length)) off) := by
  have hd : (if (decide (0 < cfg.maxParam) && decide (cfg.maxParam < off + d.length)) = true then d.take (cfg.maxParam - off) else d) =
      d.take (if (decide (0 < cfg.maxParam) && decide (cfg.maxParam < off + d.length)) = true then cfg.maxParam - off else d.length) := by
    split
    · rfl
    · rw [List.take_length]
  rw [iterate]
  simp only [Bool.and_false, Bool.false_eq_true, if_false]
  rw [hd]
  split
  · rfl
  · split
    · rfl
    · split
      · rfl
      · rw [storeF]
        split
        · split <;> rfl
        · rfl

theorem size_le (cfg : Cfg) (c : Call) :
    (if decide (0 < cfg.maxParam) && decide (cfg.maxParam < c.off + c.data.length) then cfg.maxParam - c.off else c.data.length) ≤
      c.data.length := by
  split
  · rename_i h
    simp only [Bool.and_eq_true, decide_eq_true_eq] at h
    omega
  · exact Nat.le_refl _

/-- One call: as if memory sufficed, perhaps without the file name; or refused, and the value of this name alone is lost. -/
theorem iterate_stands {m : UMap} {pm : PostMap} {w : Nat} (h : Stands m pm w) (cfg : Cfg) (o : Fails) (c : Call) (hk : c.key ≠ [])
    (hw : w + weight c < 2 ^ 64) (ho : Mild o) :
    (∃ m' fn, iterateU cfg o m c = .ok (true, m') ∧
      Stands m' (iterate { cfg with uploadCb := false } pm c.key fn c.data c.off).2 (w + weight c) ∧
      (fn = c.filename ∨ fn = none ∧ o ≠ {} ∧
        ¬ (cfg.checkUtf8 && (!utf8Ok c.key || !utf8Ok c.data || (c.filename.isSome && !utf8Ok (c.filename.getD [])))) = true)) ∨
    (o ≠ {} ∧ ∃ m', iterateU cfg o m c = .ok (false, m') ∧ ∀ q, (∀ fn, c.filename = some fn → q ≠ c.key ++ b!"_filename") →
      UMap.get m' (some q) = if q = c.key then .ok none else UMap.get m (some q)) := by
  rw [weight] at hw ⊢
  rw [iterateU]
  by_cases hu : (cfg.checkUtf8 && (!utf8Ok c.key || !utf8Ok c.data || (c.filename.isSome && !utf8Ok (c.filename.getD [])))) = true
  · rw [if_pos hu]
    left
    refine ⟨m, c.filename, rfl, ?_, .inl rfl⟩
    rw [iterate_eq, if_pos hu]
    exact h.mono (by omega)
  rw [if_neg hu]
  by_cases hl : (decide (0 < cfg.maxParam) && decide (cfg.maxParam < c.off)) = true
  · rw [if_pos hl]
    left
    refine ⟨m, c.filename, rfl, ?_, .inl rfl⟩
    rw [iterate_eq, if_neg hu, if_pos hl]
    exact h.mono (by omega)
  rw [if_neg hl]
  have hs := size_le cfg c
  have hke : c.key.isEmpty = false := by
    cases hx : c.key with
    | nil => exact absurd hx hk
    | cons _ _ => rfl
  simp only
  generalize hsz : (if (decide (0 < cfg.maxParam) && decide (cfg.maxParam < c.off + c.data.length)) = true then cfg.maxParam - c.off
    else c.data.length) = n at hs ⊢
  have done : ∀ (m1 : UMap) (pm1 : PostMap) (w1 : Nat) (fn : Option Bytes), Stands m1 pm1 w1 → w1 ≤ w + (c.filename.getD []).length + 1 →
      pm1 = withName pm c.key fn → (fn.isSome && !utf8Ok (fn.getD [])) = false ∨ fn = c.filename →
      (fn = c.filename ∨ fn = none ∧ o ≠ {}) →
      (∀ q, (∀ fn, c.filename = some fn → q ≠ c.key ++ b!"_filename") → UMap.get m1 (some q) = UMap.get m (some q)) →
      (∃ m' fn, store o m1 c.key c.data c.off n = .ok (true, m') ∧
        Stands m' (iterate { cfg with uploadCb := false } pm c.key fn c.data c.off).2 (w + (c.data.length + (c.filename.getD []).length + 4)) ∧
        (fn = c.filename ∨ fn = none ∧ o ≠ {} ∧
          ¬ (cfg.checkUtf8 && (!utf8Ok c.key || !utf8Ok c.data || (c.filename.isSome && !utf8Ok (c.filename.getD [])))) = true)) ∨
      (o ≠ {} ∧ ∃ m', store o m1 c.key c.data c.off n = .ok (false, m') ∧ ∀ q, (∀ fn, c.filename = some fn → q ≠ c.key ++ b!"_filename") →
        UMap.get m' (some q) = if q = c.key then .ok none else UMap.get m (some q)) := by
    intro m1 pm1 w1 fn h1 hw1 hpm hfu hfn hsame
    rcases store_stands h1 o c.key c.data c.off n hk hs (by omega) ho.2.1 ho.2.2 with ⟨m', e, hst⟩ | ⟨hne, m', e, hget⟩
    · left
      refine ⟨m', fn, e, ?_, ?_⟩
      · have hu' : ¬ (cfg.checkUtf8 && (!utf8Ok c.key || !utf8Ok c.data || (fn.isSome && !utf8Ok (fn.getD [])))) = true := by
          rcases hfu with hfu | hfu
          · rw [hfu]
            intro hx
            apply hu
            simp only [Bool.and_eq_true, Bool.or_eq_true] at hx ⊢
            refine ⟨hx.1, .inl ?_⟩
            rcases hx.2 with hx | hx
            · exact hx
            · cases hx
          · rw [hfu]
            exact hu
        rw [iterate_eq, if_neg hu', if_neg hl, hke]
        simp only [Bool.false_eq_true, if_false]
        rw [hsz, ← hpm]
        exact hst.mono (by omega)
      · rcases hfn with hfn | hfn
        · exact .inl hfn
        · exact .inr ⟨hfn.1, hfn.2, hu⟩
    · right
      refine ⟨?_, m', e, ?_⟩
      · rintro rfl
        rcases hne with hne | hne <;> exact hne rfl
      · intro q hq
        rw [hget q, hsame q hq]
  cases hf : c.filename with
  | none =>
    simp only [Res.ok_bind]
    have := done m pm w none h (by omega) rfl (.inl rfl) (.inl hf.symm) (fun _ _ => rfl)
    rw [hf] at this
    exact this
  | some fn =>
    simp only [Res.ok_bind]
    have hfl : (c.filename.getD []).length = fn.length := by rw [hf]; rfl
    obtain ⟨pm', m', e, hst, hcase⟩ := note_stands h o c.key fn (by rw [hfl] at hw; omega) ho.1
    rw [e]
    simp only [Res.ok_bind]
    have hsame : ∀ q, (∀ fn, c.filename = some fn → q ≠ c.key ++ b!"_filename") → UMap.get m' (some q) = UMap.get m (some q) := by
      intro q hq
      have hq' := hq fn hf
      rw [get_stands hst, get_stands h]
      rcases hcase with rfl | ⟨rfl, -⟩
      · rw [withName]
        split
        · rfl
        · rw [find_append_other _ _ _ _ (fun e => hq' e.symm)]
      · rfl
    rcases hcase with hp | ⟨hp, hne⟩
    · have := done m' pm' _ (some fn) hst (Nat.le_of_eq (by rw [hfl])) hp (.inr hf.symm) (.inl hf.symm) hsame
      rw [hf] at this
      exact this
    · have := done m' pm' _ none hst (Nat.le_of_eq (by rw [hfl])) (by rw [hp]; rfl) (.inl rfl)
        (.inr ⟨rfl, fun e => by subst e; simp at hne⟩) hsame
      rw [hf] at this
      exact this

/-! ## Values -/

open Verif.Spec.OomForm

theorem skip_iff (cfg : Cfg) (c : Call) :
    ((cfg.checkUtf8 && (!utf8Ok c.key || !utf8Ok c.data || (c.filename.isSome && !utf8Ok (c.filename.getD [])))) = false ∧
      (decide (0 < cfg.maxParam) && decide (cfg.maxParam < c.off)) = false) ↔ Counts cfg.checkUtf8 cfg.maxParam c := by
  rw [Counts, ← Props.C05_utf8Ok, ← Props.C05_utf8Ok]
  have hx : (decide (0 < cfg.maxParam) && decide (cfg.maxParam < c.off)) = false ↔ (cfg.maxParam = 0 ∨ c.off ≤ cfg.maxParam) := by
    rw [← Bool.not_eq_true, Bool.and_eq_true, decide_eq_true_eq, decide_eq_true_eq]
    omega
  rw [hx]
  refine and_congr ?_ Iff.rfl
  cases hf : c.filename with
  | none =>
    cases cfg.checkUtf8 <;> cases utf8Ok c.key <;> cases utf8Ok c.data <;> simp
  | some fn =>
    have : (∀ f, some fn = some f → Verif.Spec.Utf8.IsUtf8 f) ↔ utf8Ok fn = true := by
      rw [Props.C05_utf8Ok]
      exact ⟨fun h => h fn rfl, fun h f e => by cases e; exact h⟩
    rw [this]
    simp only [Option.isSome_some, Option.getD_some, Bool.true_and]
    cases cfg.checkUtf8 <;> cases utf8Ok c.key <;> cases utf8Ok c.data <;> cases utf8Ok fn <;> simp

theorem within_eq (cfg : Cfg) (c : Call) (h : Counts cfg.checkUtf8 cfg.maxParam c) :
    c.data.take (if decide (0 < cfg.maxParam) && decide (cfg.maxParam < c.off + c.data.length) then cfg.maxParam - c.off
      else c.data.length) = within cfg.maxParam c := by
  rw [within]
  by_cases h0 : cfg.maxParam = 0
  · simp [h0]
  · rw [if_neg h0]
    split
    · rfl
    · rename_i hc
      rw [List.take_length, List.take_of_length_le]
      simp only [Bool.and_eq_true, decide_eq_true_eq] at hc
      rcases h.2 with h2 | h2 <;> omega

theorem find_withName (pm : PostMap) (key : Bytes) (fn : Option Bytes) (q : Bytes) (h : fn.isSome = true → q ≠ key ++ b!"_filename") :
    find (withName pm key fn) q = find pm q := by
  rw [withName.eq_def]
  cases fn with
  | none => rfl
  | some f =>
    simp only
    split
    · rfl
    · rw [find_append_other _ _ _ _ (fun e => h rfl e.symm)]

theorem find_storeF (pm : PostMap) (key d : Bytes) (off : Nat) (q : Bytes) :
    (find (storeF pm key d off) q).getD [] =
      if q = key then (if (find pm q).getD [] ≠ [] ∧ off = 0 then (find pm q).getD [] ++ b!"," ++ d else (find pm q).getD [] ++ d)
      else (find pm q).getD [] := by
  rw [storeF]
  by_cases hq : q = key
  · subst hq
    rw [if_pos rfl]
    cases hv : (find pm q).getD [] with
    | nil =>
      simp only [List.isEmpty_nil, Bool.not_true, Bool.false_eq_true, if_false, ne_eq, not_true_eq_false, false_and]
      rw [find_append_self, hv]
      rfl
    | cons x xs =>
      simp only [List.isEmpty_cons, Bool.not_false, if_true]
      by_cases ho : off = 0
      · subst ho
        simp only [bne_self_eq_false, Bool.false_eq_true, if_false]
        rw [find_append_self, find_append_self, hv, if_pos ⟨by simp, trivial⟩]
        rfl
      · rw [if_pos (by simpa using ho), if_neg (fun e => ho e.2), find_append_self, hv]
        rfl
  · rw [if_neg hq]
    have hq' : key ≠ q := fun e => hq e.symm
    split
    · split
      · rw [find_append_other _ _ _ _ hq']
      · rw [find_append_other _ _ _ _ hq', find_append_other _ _ _ _ hq']
    · rw [find_append_other _ _ _ _ hq']

open Classical in
theorem find_iterate (cfg : Cfg) (pm : PostMap) (c : Call) (fn : Option Bytes) (hk : c.key ≠ [])
    (hfn : fn = c.filename ∨ fn = none ∧
      ¬ (cfg.checkUtf8 && (!utf8Ok c.key || !utf8Ok c.data || (c.filename.isSome && !utf8Ok (c.filename.getD [])))) = true)
    (q : Bytes) (hq : c.filename.isSome = true → q ≠ c.key ++ b!"_filename") :
    (find (iterate { cfg with uploadCb := false } pm c.key fn c.data c.off).2 q).getD [] =
      joined cfg.maxParam ((find pm q).getD []) ([c].filter (fun c => decide (c.key = q ∧ Counts cfg.checkUtf8 cfg.maxParam c))) := by
  have hq' : fn.isSome = true → q ≠ c.key ++ b!"_filename" := by
    intro h
    rcases hfn with rfl | ⟨rfl, -⟩
    · exact hq h
    · cases h
  have hke : c.key.isEmpty = false := by
    cases hx : c.key with
    | nil => exact absurd hx hk
    | cons _ _ => rfl
  have hu : (cfg.checkUtf8 && (!utf8Ok c.key || !utf8Ok c.data || (fn.isSome && !utf8Ok (fn.getD [])))) =
      (cfg.checkUtf8 && (!utf8Ok c.key || !utf8Ok c.data || (c.filename.isSome && !utf8Ok (c.filename.getD [])))) := by
    rcases hfn with rfl | ⟨rfl, hn⟩
    · rfl
    · rw [Bool.not_eq_true] at hn
      rw [hn]
      cases hc : cfg.checkUtf8
      · rfl
      · rw [hc, Bool.true_and, Bool.or_eq_false_iff] at hn
        rw [hn.1]
        rfl
  rw [iterate_eq, hu]
  by_cases hc : Counts cfg.checkUtf8 cfg.maxParam c
  · obtain ⟨h1, h2⟩ := (skip_iff cfg c).2 hc
    rw [h1, h2, hke]
    simp only [Bool.false_eq_true, if_false]
    rw [within_eq cfg c hc, find_storeF, find_withName _ _ _ _ hq']
    by_cases hkq : q = c.key
    · have hy : ([c].filter (fun c => decide (c.key = q ∧ Counts cfg.checkUtf8 cfg.maxParam c))) = [c] := by
        rw [List.filter_cons, if_pos (by simp [hkq, hc])]
        rfl
      rw [if_pos hkq, hy]
      rfl
    · have hy : ([c].filter (fun c => decide (c.key = q ∧ Counts cfg.checkUtf8 cfg.maxParam c))) = [] := by
        rw [List.filter_cons, if_neg (by simp only [decide_eq_true_eq]; exact fun e => hkq e.1.symm)]
        rfl
      rw [if_neg hkq, hy]
      rfl
  · have hf : ([c].filter (fun c => decide (c.key = q ∧ Counts cfg.checkUtf8 cfg.maxParam c))) = [] := by
      rw [List.filter_cons, if_neg (by simp [hc])]
      rfl
    rw [hf, joined]
    by_cases h1 : (cfg.checkUtf8 && (!utf8Ok c.key || !utf8Ok c.data || (c.filename.isSome && !utf8Ok (c.filename.getD [])))) = true
    · rw [if_pos h1]
    · rw [if_neg h1]
      by_cases h2 : (decide (0 < cfg.maxParam) && decide (cfg.maxParam < c.off)) = true
      · rw [if_pos h2]
      · exact absurd ((skip_iff cfg c).1 ⟨by simpa using h1, by simpa using h2⟩) hc

theorem joined_append (max : Nat) : ∀ (a b : List Call) (v : Bytes), joined max v (a ++ b) = joined max (joined max v a) b
  | [], _, _ => rfl
  | c :: a, b, v => by
    rw [List.cons_append, joined, joined]
    exact joined_append max a b _

/-! ## All calls -/

/-- What a program gets for a value. -/
def Shows (m : UMap) (q v : Bytes) : Prop := UMap.get m (some q) = .ok (if v = [] then none else some (v.map some ++ [some 0]))

theorem shown_eq (v : Option Bytes) : shown v = if v.getD [] = [] then none else some ((v.getD []).map some ++ [some 0]) := by
  cases v <;> rfl

theorem post_append (cfg : Cfg) (fails : Nat → Fails) : ∀ (a b : List Call) (s : Conn),
    post cfg fails s (a ++ b) = (post cfg fails s a >>= fun s => post cfg fails s b)
  | [], _, _ => rfl
  | c :: a, b, s => by
    rw [List.cons_append, post, post]
    by_cases e : s.error = true
    · rw [if_pos e, if_pos e]
      simp only [Res.ok_bind]
      cases b with
      | nil => rfl
      | cons _ _ => rw [post, if_pos e]
    · rw [if_neg e, if_neg e]
      cases iterateU cfg (fails s.n) s.map c with
      | ub => rfl
      | ok r =>
        simp only [Res.ok_bind]
        exact post_append cfg fails a b _

theorem post_body (cfg : Cfg) (fails : Nat → Fails) (x : Bytes) : ∀ (a : List Call) (s s' : Conn), post cfg fails s a = .ok s' →
    post cfg fails { s with body := x } a = .ok { s' with body := x } ∧ s'.body = s.body
  | [], s, s', h => by cases h; exact ⟨rfl, rfl⟩
  | c :: a, s, s', h => by
    rw [post] at h ⊢
    by_cases e : s.error = true
    · rw [if_pos e] at h ⊢
      cases h
      exact ⟨rfl, rfl⟩
    · rw [if_neg e] at h ⊢
      simp only
      cases hr : iterateU cfg (fails s.n) s.map c with
      | ub => rw [hr] at h; cases h
      | ok r =>
        rw [hr] at h
        simp only [Res.ok_bind] at h ⊢
        obtain ⟨h1, h2⟩ := post_body cfg fails x a _ s' h
        exact ⟨h1, h2⟩

theorem upload_post (cfg : Cfg) (max : Nat) (noBody : Nat → Bool) (fails : Nat → Fails) :
    ∀ (us : List (Bytes × List Call)) (i : Nat) (s s' : Conn) (b : Bytes), receive max s.body (us.map (·.1)) = .ok b →
    post cfg fails s (us.map (·.2)).flatten = .ok s' →
    upload cfg max noBody fails i s us = .ok (some { s' with body := b }) ∨
    (upload cfg max noBody fails i s us = .ok none ∧ ∃ j, j < us.length ∧ noBody (i + j) = true)
  | [], i, s, s', b, h, h' => by
    simp only [List.map_nil, List.flatten_nil, receive, post] at h h'
    cases h
    cases h'
    exact .inl rfl
  | u :: t, i, s, s', b, h, h' => by
    rw [List.map_cons, receive] at h
    rw [List.map_cons, List.flatten_cons, post_append] at h'
    rw [upload, part]
    cases hb : bodyChunk max s.body u.1 with
    | ub => rw [hb] at h; cases h
    | ok b1 =>
      rw [hb] at h
      simp only [Res.ok_bind] at h ⊢
      by_cases hn : noBody i = true
      · right
        rw [if_pos hn]
        exact ⟨rfl, 0, by simp, hn⟩
      · rw [if_neg hn]
        cases hp : post cfg fails s u.2 with
        | ub => rw [hp] at h'; cases h'
        | ok s1 =>
          rw [hp] at h'
          simp only [Res.ok_bind] at h'
          rw [(post_body cfg fails b1 u.2 s s1 hp).1]
          simp only [Res.ok_bind]
          have h2 := post_body cfg fails b1 _ s1 s' h'
          rcases upload_post cfg max noBody fails t (i + 1) { s1 with body := b1 } { s' with body := b1 } b h h2.1 with e | ⟨e, j, hj, hj'⟩
          · exact .inl e
          · exact .inr ⟨e, j + 1, by simpa using hj, by rw [← hj']; congr 1; omega⟩

/-- What all calls may add to a value. -/
def weights (cs : List Call) : Nat := (cs.map weight).sum

open Classical in
theorem post_stands (cfg : Cfg) (fails : Nat → Fails) : ∀ (cs : List Call) (s : Conn) (pm : PostMap) (w : Nat), s.error = false →
    Stands s.map pm w → w + weights cs < 2 ^ 64 → (∀ c ∈ cs, c.key ≠ []) → (∀ i, Mild (fails i)) →
    ∃ s' used rest, post cfg fails s cs = .ok s' ∧ cs = used ++ rest ∧
      (s'.error = false → rest = []) ∧
      (s'.error = true → rest ≠ [] ∧ fails (s.n + used.length) ≠ {}) ∧
      ∀ q, (∀ c ∈ cs, c.filename.isSome = true → q ≠ c.key ++ b!"_filename") →
        (s'.error = true ∧ rest.head?.map (·.key) = some q ∧ UMap.get s'.map (some q) = .ok none) ∨
        Shows s'.map q (joined cfg.maxParam ((find pm q).getD [])
          (used.filter (fun c => decide (c.key = q ∧ Counts cfg.checkUtf8 cfg.maxParam c))))
  | [], s, pm, w, he, h, _, _, _ => by
    refine ⟨s, [], [], rfl, rfl, fun _ => rfl, (fun h => by rw [he] at h; cases h), fun q _ => .inr ?_⟩
    rw [Shows, get_stands h, shown_eq]
    rfl
  | c :: t, s, pm, w, he, h, hw, hk, ho => by
    rw [weights, List.map_cons, List.sum_cons] at hw
    rw [post, if_neg (by simp [he])]
    have hkc := hk c (List.mem_cons_self ..)
    rcases iterate_stands h cfg (fails s.n) c hkc (by omega) (ho s.n) with ⟨m', fn, e, hst, hfn⟩ | ⟨hne, m', e, hget⟩
    · rw [e]
      simp only [Res.ok_bind, Bool.not_true]
      obtain ⟨s', used, rest, h1, h2, h3, h4, h5⟩ := post_stands cfg fails t { s with map := m', error := false, n := s.n + 1 } _ _ rfl
        hst (by rw [weights]; omega) (fun x hx => hk x (List.mem_cons_of_mem _ hx)) ho
      refine ⟨s', c :: used, rest, h1, by rw [h2]; rfl, h3, ?_, ?_⟩
      · intro hs
        obtain ⟨a, b⟩ := h4 hs
        refine ⟨a, ?_⟩
        rw [List.length_cons, ← Nat.add_assoc, Nat.add_right_comm]
        exact b
      · intro q hq
        rcases h5 q (fun x hx => hq x (List.mem_cons_of_mem _ hx)) with hl | hr
        · exact .inl hl
        · right
          rw [find_iterate cfg pm c fn hkc ?_ q (hq c (List.mem_cons_self ..)), ← joined_append, ← List.filter_append] at hr
          · exact hr
          · rcases hfn with hfn | hfn
            · exact .inl hfn
            · exact .inr ⟨hfn.1, hfn.2.2⟩
    · rw [e]
      simp only [Res.ok_bind, Bool.not_false]
      have hp : post cfg fails { s with map := m', error := true, n := s.n + 1 } t =
          .ok { s with map := m', error := true, n := s.n + 1 } := by
        cases t with
        | nil => rfl
        | cons _ _ => rw [post, if_pos rfl]
      rw [hp]
      refine ⟨_, [], c :: t, rfl, rfl, (fun h => by cases h), (fun _ => ⟨by simp, by simpa using hne⟩), ?_⟩
      intro q hq
      have hg := hget q (fun f hf => hq c (List.mem_cons_self ..) (by rw [hf]; rfl))
      by_cases hqk : q = c.key
      · left
        rw [if_pos hqk] at hg
        exact ⟨rfl, by rw [hqk]; rfl, hg⟩
      · right
        rw [if_neg hqk, get_stands h, shown_eq] at hg
        exact hg

end Verif.OomForm
