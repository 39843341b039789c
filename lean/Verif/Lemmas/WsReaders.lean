import Verif.Model.WsReaders
import Verif.Lemmas.Frame
/-!
# Lemmas about threads that read from one websocket
-/
namespace Verif.WsReaders
open Verif.Ws
open Verif.Spec.Ws (Frame wire wires Received)

def feeds (server : Bool) : Call → Bytes → Call
  | c, [] => c
  | c, b :: t => feeds server (feed server c b) t

theorem feeds_append (sv : Bool) (c : Call) (a b : Bytes) : feeds sv c (a ++ b) = feeds sv (feeds sv c a) b := by
  induction a generalizing c with
  | nil => rfl
  | cons x t ih => exact ih _

/-- A field that is read whole. -/
theorem feeds_field (sv : Bool) (pc : Pc) (a : Bytes) (h : a ≠ []) (acc : Bytes) (hn : (acc ++ a).length = pc.need) :
    feeds sv ⟨pc, acc⟩ a = ⟨next sv pc (acc ++ a), []⟩ := by
  induction a generalizing acc with
  | nil => exact absurd rfl h
  | cons x t ih =>
    cases t with
    | nil => simp only [feeds, feed, hn, if_true]
    | cons y t =>
      have hf : feed sv ⟨pc, acc⟩ x = ⟨pc, acc ++ [x]⟩ := by
        unfold feed
        rw [if_neg]
        simp only [List.length_append, List.length_cons, List.length_nil] at hn ⊢
        omega
      rw [feeds, hf, ih (by simp) (acc ++ [x]) (by simpa using hn)]
      simp

/-- A call that is done stays as it is. -/
theorem feeds_done (sv : Bool) (r : Option InMsg) (a acc : Bytes) : feeds sv ⟨.done r, acc⟩ a = ⟨.done r, acc ++ a⟩ := by
  induction a generalizing acc with
  | nil => simp [feeds]
  | cons x t ih =>
    have hf : feed sv ⟨.done r, acc⟩ x = ⟨.done r, acc ++ [x]⟩ := by
      unfold feed
      rw [if_neg]
      simp [Pc.need]
    rw [feeds, hf, ih]
    simp

private theorem readData_parts {n : Nat} {evs r : List Ev} {a : Bytes} (h : readData n evs = some (a, r)) :
    bytesOf evs = a ++ bytesOf r ∧ a.length = n := by
  by_cases hn : n ≤ (bytesOf evs).length
  · obtain ⟨r', h1, h2⟩ := readData_some n evs hn
    rw [h] at h1
    injection h1 with h1
    injection h1 with h1 h3
    subst h1
    subst h3
    refine ⟨by rw [h2, List.take_append_drop], ?_⟩
    rw [List.length_take]
    omega
  · rw [readData_none n evs (by omega)] at h
    cases h

private theorem payload_feeds (sv : Bool) (b0 : UInt8) (len : Nat) (mask : Option Bytes) {evs r : List Ev} {d : Bytes}
    (h : readPayload len mask evs = some (d, r)) (hr : bytesOf r = []) :
    feeds sv ⟨toPayload b0 len mask, []⟩ (bytesOf evs) = ⟨.done (some (message b0 len mask d)), []⟩ := by
  unfold toPayload
  by_cases h0 : len = 0
  · subst h0
    simp only [readPayload, if_true, Option.some.injEq, Prod.mk.injEq] at h
    obtain ⟨rfl, rfl⟩ := h
    rw [if_pos rfl, hr]
    rfl
  · rw [if_neg h0]
    have h' := h
    unfold readPayload at h'
    rw [if_neg h0] at h'
    cases hd : readData len evs with
    | none => rw [hd] at h'; cases h'
    | some q =>
      obtain ⟨p, e⟩ := q
      rw [hd] at h'
      simp only at h'
      obtain ⟨hb, hl⟩ := readData_parts hd
      have he : e = r := by
        split at h'
        · cases h'
        · injection h' with h'; injection h'
      subst he
      rw [hr, List.append_nil] at hb
      have hp : p ≠ [] := by intro e; rw [e] at hl; exact h0 hl.symm
      rw [hb, feeds_field sv _ p hp [] (by simpa [Pc.need] using hl), List.nil_append]
      have hc := readPayload_congr len mask (show bytesOf evs = bytesOf [.seg p] by simp [bytesOf, hb])
      rw [h, flat_some] at hc
      obtain ⟨e', he', -⟩ := flat_eq_some hc.symm
      simp only [next, he']

private theorem mask_feeds (sv : Bool) (b0 b1 : UInt8) (len : Nat) {evs e r : List Ev} {mask : Option Bytes} {d : Bytes}
    (h : readMask sv b1 evs = some (mask, e)) (hp : readPayload len mask e = some (d, r)) (hr : bytesOf r = []) :
    feeds sv ⟨toMask sv b0 b1 len, []⟩ (bytesOf evs) = ⟨.done (some (message b0 len mask d)), []⟩ := by
  unfold readMask at h
  unfold toMask
  cases sv with
  | true =>
    simp only [if_true] at h ⊢
    by_cases hb : b1 &&& 0x80 ≠ 0
    · rw [if_pos hb] at h ⊢
      cases hd : readData 4 evs with
      | none => rw [hd] at h; cases h
      | some q =>
        obtain ⟨k, e'⟩ := q
        rw [hd] at h
        simp only [Option.map_some, Option.some.injEq, Prod.mk.injEq] at h
        obtain ⟨rfl, rfl⟩ := h
        obtain ⟨hbs, hl⟩ := readData_parts hd
        rw [hbs, feeds_append, feeds_field true _ k (by intro e; rw [e] at hl; cases hl) [] (by simpa [Pc.need] using hl), List.nil_append]
        exact payload_feeds true b0 len (some k) hp hr
    · rw [if_neg hb] at h
      cases h
  | false =>
    simp only [Bool.false_eq_true, if_false] at h ⊢
    by_cases hb : b1 &&& 0x80 ≠ 0
    · rw [if_pos hb] at h
      cases h
    · rw [if_neg hb] at h ⊢
      simp only [Option.some.injEq, Prod.mk.injEq] at h
      obtain ⟨rfl, rfl⟩ := h
      exact payload_feeds false b0 len none hp hr

private theorem length_parts {b1 : UInt8} (hb : ¬ (b1 &&& 0x7f).toNat ≤ 125) {evs e : List Ev} {n : Nat} (h : readLength b1 evs = some (n, e)) :
    ∃ a, bytesOf evs = a ++ bytesOf e ∧ a.length = (if (b1 &&& 0x7f).toNat = 126 then 2 else 8) ∧
      ∃ e', readLength b1 [.seg a] = some (n, e') := by
  have key : ∃ a, bytesOf evs = a ++ bytesOf e ∧ a.length = (if (b1 &&& 0x7f).toNat = 126 then 2 else 8) := by
    unfold readLength at h
    simp only at h
    rw [if_neg hb] at h
    by_cases h6 : (b1 &&& 0x7f).toNat = 126
    · rw [if_pos h6] at h ⊢
      split at h
      · rename_i p0 p1 e' hd
        injection h with h
        injection h with _ h
        subst h
        exact ⟨_, readData_parts hd⟩
      · cases h
    · rw [if_neg h6] at h ⊢
      split at h
      · rename_i hd
        injection h with h
        injection h with _ h
        subst h
        exact ⟨_, readData_parts hd⟩
      · cases h
  obtain ⟨a, h1, h2⟩ := key
  refine ⟨a, h1, h2, ?_⟩
  have hc : flat (readLength b1 [.seg (a ++ bytesOf e)]) = some (n, bytesOf e) := by
    rw [readLength_congr b1 (show bytesOf [.seg (a ++ bytesOf e)] = bytesOf evs by simp [bytesOf, h1]), h]
    rfl
  unfold readLength at hc ⊢
  simp only at hc ⊢
  rw [if_neg hb] at hc ⊢
  by_cases h6 : (b1 &&& 0x7f).toNat = 126
  · rw [if_pos h6] at hc h2 ⊢
    match a, h2 with
    | [p0, p1], _ =>
      simp [readData, flat] at hc ⊢
      exact hc.1
  · rw [if_neg h6] at hc h2 ⊢
    match a, h2 with
    | [p0, p1, p2, p3, p4, p5, p6, p7], _ =>
      simp [readData, flat] at hc ⊢
      exact hc.1

/-- Byte by byte a call reads what it reads in one go. -/
theorem feeds_message (sv : Bool) {evs r : List Ev} {m : InMsg} (h : readMessage sv evs = some (m, r)) (hr : bytesOf r = []) :
    feeds sv {} (bytesOf evs) = ⟨.done (some m), []⟩ := by
  unfold readMessage at h
  split at h
  · rename_i b0 b1 e1 hd
    obtain ⟨hb, -⟩ := readData_parts hd
    cases hl : readLength b1 e1 with
    | none => rw [hl] at h; cases h
    | some q =>
      obtain ⟨len, e2⟩ := q
      rw [hl] at h
      simp only at h
      cases hm : readMask sv b1 e2 with
      | none => rw [hm] at h; cases h
      | some q =>
        obtain ⟨mask, e3⟩ := q
        rw [hm] at h
        simp only at h
        cases hp : readPayload len mask e3 with
        | none => rw [hp] at h; cases h
        | some q =>
          obtain ⟨d, e4⟩ := q
          rw [hp] at h
          simp only [Option.some.injEq, Prod.mk.injEq] at h
          obtain ⟨rfl, rfl⟩ := h
          have tail := mask_feeds sv b0 b1 len hm hp hr
          rw [hb, feeds_append, show ({} : Call) = ⟨.head, []⟩ from rfl, feeds_field sv .head [b0, b1] (by simp) [] rfl, List.nil_append]
          simp only [next]
          by_cases h5 : (b1 &&& 0x7f).toNat ≤ 125
          · rw [if_pos h5]
            unfold readLength at hl
            simp only at hl
            rw [if_pos h5] at hl
            injection hl with hl
            injection hl with h1 h2
            subst h1
            subst h2
            exact tail
          · rw [if_neg h5]
            obtain ⟨a, ha, hal, e', he'⟩ := length_parts h5 hl
            have hne : a ≠ [] := by
              intro e
              rw [e] at hal
              split at hal <;> cases hal
            rw [ha, feeds_append, feeds_field sv (.length b0 b1) a hne [] (by simpa [Pc.need] using hal), List.nil_append]
            simp only [next, he']
            exact tail
  · cases h

/-- A whole frame. -/
theorem feeds_wire (sv : Bool) (f : Frame) (hf : Received sv f) (hn : f.payload.length < 2 ^ 32) :
    feeds sv {} (wire f) = ⟨.done (some (toIn f)), []⟩ := by
  obtain ⟨r, h1, h2⟩ := readMessage_wire sv f hf hn [.seg (wire f)] [] (by simp [bytesOf])
  have := feeds_message sv h1 h2
  simpa [bytesOf] using this

/-- A call is done at the end of the frame and not before. -/
theorem feeds_prefix (sv : Bool) (f : Frame) (hf : Received sv f) (hn : f.payload.length < 2 ^ 32) (a b : Bytes) (h : wire f = a ++ b)
    (r : Option InMsg) (hd : (feeds sv {} a).pc = .done r) : b = [] ∧ r = some (toIn f) := by
  have hw := feeds_wire sv f hf hn
  rw [h, feeds_append] at hw
  have e : feeds sv {} a = ⟨.done r, (feeds sv {} a).acc⟩ := by rw [← hd]
  rw [e, feeds_done] at hw
  injection hw with h1 h2
  injection h1 with h1
  exact ⟨(List.append_eq_nil_iff.1 h2).2, h1⟩

end Verif.WsReaders
