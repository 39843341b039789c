import Verif.Spec.OomRead
import Verif.Lemmas.Holds
import Verif.Lemmas.Endpoint
import Verif.Lemmas.Upload
/-!
# C179: what a callback is shown of a request when memory runs out while it is read
-/
namespace Verif.Props
open Verif.UMap Verif.OomRead Verif.Spec.OomRead Verif.Utf8
open Verif.Endpoint (collect fillMap appendOld)
open Verif.Spec.OMap (OMap)

namespace Read

theorem getText_holds {m : UMap} {a : OMap} (h : HoldsParams m a) (k : Bytes) : Client.getText m k = .ok (Spec.OMap.lookup a k).join := by
  obtain ⟨es, rfl, hg, hs⟩ := holds_sim h
  simp only [Client.getText, get_rep, Res.ok_bind, Spec.OMap.lookup]
  rcases sim_find hs (fun x => x == k) with ⟨h1, h2⟩ | ⟨e, p, h1, h2, h3⟩
  · rw [h1, h2]; rfl
  · rw [h1, h2]
    obtain ⟨hk, hv⟩ := h3
    have hp := h.2.2 p (List.mem_of_find?_eq_some h2)
    cases h4 : p.2 with
    | none =>
      rw [h4] at hv
      simp only [Option.bind_some, hv, h4, Option.map_some, Nat.lt_irrefl, gt_iff_lt, if_false]
      rfl
    | some v =>
      rw [h4] at hv
      obtain ⟨hl, t, ht⟩ := hv
      simp only [Option.bind_some, hl, if_true, h4, Option.map_some, ht, readStr_strBuf v t (hp.2.2 v h4), Res.ok_bind, Option.join_some]
      rfl

theorem put_fail {m : UMap} {a : OMap} (h : HoldsParams m a) (k : Bytes) (hk : k ≠ []) (hn : ∀ p ∈ a, p.1 ≠ k) (v : Bytes) (x : Option Nat)
    (hx : x = some 0 ∨ x = some 1) : UMap.put m (some k) (some v) x = .ok (.memory, m) := by
  obtain ⟨es, rfl, hg, hs⟩ := holds_sim h
  cases k with
  | nil => exact absurd rfl hk
  | cons c k =>
    simp only [UMap.put, putBinary]
    generalize hkk : c :: k = key at *
    have e1 : deref (rep es).keys = .ok (es.map (fun e => Ptr.to e.key) ++ [Ptr.null]) := rfl
    have e2 : deref (rep es).values = .ok (es.map (fun e => Ptr.to e.buf) ++ [Ptr.null]) := rfl
    have e3 : (rep es).nb = es.length := rfl
    rw [e1, e2, e3]
    simp only [Res.ok_bind]
    rw [scanNb_rep]
    simp only [Res.ok_bind]
    rcases findIdx?_find? (fun e : Ent => e.key == key) es with ⟨h1, h2⟩ | ⟨i, e, h1, h2, h3⟩
    · rw [h1]
      have e4 : aget (es.map (fun e : Ent => Ptr.to e.buf) ++ [Ptr.null]) es.length = .ok .null := by simp [aget]
      simp only [Option.map_none, e4, Res.ok_bind, putNew]
      rcases hx with rfl | rfl <;> simp
    · have hek : e.key = key := by simpa using List.find?_some h3
      have : e.key ∈ a.map (·.1) := by
        rw [← sim_keys hs]; exact List.mem_map.2 ⟨e, List.mem_of_getElem? h2, rfl⟩
      obtain ⟨p, hp, hpe⟩ := List.mem_map.1 this
      exact absurd (hpe.trans hek) (hn p hp)

/-- the values are no longer than all that came -/
def Upto (n : Nat) (a : OMap) : Prop := ∀ p ∈ a, ∀ v, p.2 = some v → v.length + 1 ≤ n

theorem lookup_mem {a : OMap} {k v : Bytes} (h : (Spec.OMap.lookup a k).join = some v) : ∃ p ∈ a, p.1 = k ∧ p.2 = some v := by
  unfold Spec.OMap.lookup at h
  cases hf : a.find? (fun p => p.1 == k) with
  | none => rw [hf] at h; cases h
  | some p =>
    rw [hf] at h
    exact ⟨p, List.mem_of_find?_eq_some hf, by simpa using List.find?_some hf, by simpa using h⟩

theorem upto_put {n l : Nat} {a : OMap} (h : Upto n a) (k v : Bytes) (hv : v.length + 1 ≤ n + l) : Upto (n + l) (Spec.OMap.put a k (some v)) := by
  intro p hp w hw
  unfold Spec.OMap.put at hp
  have old : ∀ q ∈ a, q.2 = some w → w.length + 1 ≤ n + l := fun q hq hqw => by have := h q hq w hqw; omega
  split at hp
  · obtain ⟨q, hq, rfl⟩ := List.mem_map.1 hp
    split at hw
    · cases hw; exact hv
    · exact old q hq hw
  · rcases List.mem_append.1 hp with hp | hp
    · exact old p hp hw
    · rw [List.mem_singleton.1 hp] at hw
      cases hw; exact hv

/-- nothing fails -/
theorem fill_ok {m : UMap} {a : OMap} (h : HoldsParams m a) (check : Bool) (k : Bytes) (v : Option Bytes) (hk : NoNul k) (hv : ∀ x, v = some x → NoNul x)
    {n : Nat} (hn : Upto n a) (hfit : n + (v.getD []).length + 1 + 2 < 2 ^ 64) :
    (∃ m' a', fill check m k v {} = .ok (true, m') ∧ fillMap check a k v = some a' ∧ HoldsParams m' a' ∧ Upto (n + ((v.getD []).length + 1)) a' ∧
      ∀ p ∈ a', p.1 = k ∨ ∃ q ∈ a, q.1 = p.1) ∨
    (fill check m k v {} = .ok (false, m) ∧ fillMap check a k v = none ∧ k = []) := by
  unfold fill fillMap
  by_cases hu : (check && !(utf8Ok k && (v.isNone || utf8Ok (v.getD [])))) = true
  · left
    exact ⟨m, a, by rw [if_pos hu], by rw [if_pos hu], h, fun p hp w hw => by have := hn p hp w hw; omega, fun p hp => .inr ⟨p, hp, rfl⟩⟩
  · rw [if_neg hu, if_neg hu]
    simp only [getText_holds h, Res.ok_bind, Bool.false_eq_true, if_false]
    have hvn : NoNul (v.getD []) := by
      cases v with
      | none => intro h; cases h
      | some v => exact hv v rfl
    have hnew : ∀ o : Option Bytes, joined false o (v.getD []) = some (appendOld o (v.getD [])) := by
      intro o; cases o <;> rfl
    rw [hnew]
    generalize ho : (Spec.OMap.lookup a k).join = o
    have hlen : (appendOld o (v.getD [])).length + 1 ≤ n + ((v.getD []).length + 1) := by
      cases o with
      | none => simp [appendOld]
      | some old =>
        obtain ⟨p, hp, _, hpv⟩ := lookup_mem ho
        have := hn p hp old hpv
        simp only [appendOld, List.length_append]
        have : (b!",").length = 1 := rfl
        omega
    have hnn : NoNul (appendOld o (v.getD [])) := by
      cases o with
      | none => exact hvn
      | some old =>
        obtain ⟨p, hp, _, hpv⟩ := lookup_mem ho
        have := (h.2.2 p hp).2.2 old hpv
        simp only [appendOld, NoNul, List.mem_append] at *
        rintro ((h | h) | h)
        · exact this h
        · revert h; decide
        · exact hvn h
    cases k with
    | nil =>
      right
      refine ⟨?_, by simp, rfl⟩
      simp only [UMap.put, putBinary, Res.ok_bind]
      rfl
    | cons c k =>
      left
      obtain ⟨m', hp, hm'⟩ := holds_put h (c :: k) (some (appendOld o (v.getD []))) (by simp) hk (by
        intro x hx; cases hx; exact ⟨hnn, by omega⟩)
      refine ⟨m', _, ?_, ?_, hm', upto_put hn _ _ hlen, ?_⟩
      · rw [hp, Res.ok_bind]; rfl
      · simp
      · intro p hp
        unfold Spec.OMap.put at hp
        split at hp
        · obtain ⟨q, hq, rfl⟩ := List.mem_map.1 hp
          split
          · exact .inl rfl
          · exact .inr ⟨q, hq, rfl⟩
        · rcases List.mem_append.1 hp with hp | hp
          · exact .inr ⟨p, hp, rfl⟩
          · rw [List.mem_singleton.1 hp]; exact .inl rfl

theorem fill_fail {m : UMap} {a : OMap} (h : HoldsParams m a) (check : Bool) (k : Bytes) (v : Option Bytes) (x : Fail)
    (hx : x.join = false ∧ (x.put = some 0 ∨ x.put = some 1)) (hn : ∀ p ∈ a, p.1 ≠ k) :
    fill check m k v x = .ok (false, m) ∨ (fill check m k v x = .ok (true, m) ∧ fillMap check a k v = some a) := by
  unfold fill fillMap
  by_cases hu : (check && !(utf8Ok k && (v.isNone || utf8Ok (v.getD [])))) = true
  · exact .inr ⟨by rw [if_pos hu], by rw [if_pos hu]⟩
  · left
    have ho : (Spec.OMap.lookup a k).join = none := by
      cases e : (Spec.OMap.lookup a k).join with
      | none => rfl
      | some v => obtain ⟨p, hp, hpk, _⟩ := lookup_mem e; exact absurd hpk (hn p hp)
    rw [if_neg hu]
    simp only [getText_holds h, Res.ok_bind, ho, joined]
    cases k with
    | nil => simp only [UMap.put, putBinary, Res.ok_bind]; rfl
    | cons c k => rw [put_fail h (c :: k) (by simp) hn _ _ hx.2, Res.ok_bind]; rfl

theorem values_eq (check : Bool) (f : Nat → Fail) : ∀ (ps : List (Bytes × Option Bytes)) (i n : Nat) (m : UMap) (a : OMap), HoldsParams m a → Upto n a →
    (∀ p ∈ ps, NoNul p.1 ∧ ∀ v, p.2 = some v → NoNul v) → n + (ps.map (fun p => (p.2.getD []).length + 1)).sum + 2 < 2 ^ 64 →
    (∀ j, f (i + j) ≠ {} → (f (i + j)).join = false ∧ ((f (i + j)).put = some 0 ∨ (f (i + j)).put = some 1) ∧
      ∀ p, ps[j]? = some p → (∀ q ∈ ps.take j, q.1 ≠ p.1) ∧ ∀ q ∈ a, q.1 ≠ p.1) →
    ∃ m' k, values check f i ps m = .ok m' ∧ HoldsParams m' (collect check (ps.take k) a) ∧ k ≤ ps.length ∧ (k < ps.length → f (i + k) ≠ {}) ∧
      Upto (n + (ps.map (fun p => (p.2.getD []).length + 1)).sum) (collect check (ps.take k) a) := by
  intro ps
  induction ps with
  | nil => intro i n m a h hn _ _ _; exact ⟨m, 0, rfl, by simpa [collect] using h, by simp, by simp, by simpa [collect] using hn⟩
  | cons p t ih =>
    intro i n m a h hn hs hfit hf
    simp only [List.map_cons, List.sum_cons] at hfit
    have hp := hs p (by simp)
    have ht : ∀ q ∈ t, NoNul q.1 ∧ ∀ v, q.2 = some v → NoNul v := fun q hq => hs q (by simp [hq])
    by_cases h0 : f i = {}
    · rcases fill_ok h check p.1 p.2 hp.1 hp.2 hn (by omega) with ⟨m', a', e1, e2, e3, e4, e5⟩ | ⟨e1, e2, e3⟩
      · obtain ⟨m'', k, r1, r2, r3, r4, r5⟩ := ih (i + 1) _ m' a' e3 e4 ht (by omega) (by
          intro j hj
          have hj' : i + 1 + j = i + (j + 1) := by omega
          rw [hj'] at hj ⊢
          obtain ⟨g1, g2, g3⟩ := hf (j + 1) hj
          refine ⟨g1, g2, fun q hq => ?_⟩
          obtain ⟨g4, g5⟩ := g3 q (by simpa using hq)
          refine ⟨fun r hr => g4 r (by simp [hr]), fun r hr => ?_⟩
          rcases e5 r hr with hr | ⟨s, hs, hsr⟩
          · rw [hr]; exact g4 p (by simp)
          · rw [← hsr]; exact g5 s hs)
        refine ⟨m'', k + 1, ?_, ?_, by simpa using r3, ?_, ?_⟩
        · simp only [values, h0, e1, Res.ok_bind, if_true, r1]
        · simpa only [List.take_succ_cons, collect, e2] using r2
        · intro hk
          have : i + (k + 1) = i + 1 + k := by omega
          rw [this]; exact r4 (by simpa using hk)
        · simp only [List.take_succ_cons, collect, e2, List.map_cons, List.sum_cons]
          intro q hq v hv
          have := r5 q hq v hv
          omega
      · refine ⟨m, t.length + 1, ?_, ?_, by simp, by simp, ?_⟩
        · simp only [values, h0, e1, Res.ok_bind, Bool.false_eq_true, if_false]; rfl
        · simpa only [List.take_succ_cons, collect, e2] using h
        · simp only [List.take_succ_cons, collect, e2]
          intro q hq v hv
          have := hn q hq v hv
          omega
    · obtain ⟨g1, g2, g3⟩ := hf 0 h0
      have g3 := g3 p rfl
      rcases fill_fail h check p.1 p.2 (f i) ⟨g1, g2⟩ g3.2 with e1 | ⟨e1, e2⟩
      · refine ⟨m, 0, ?_, by simpa [collect] using h, by simp, fun _ => h0, ?_⟩
        · simp only [values, e1, Res.ok_bind, Bool.false_eq_true, if_false]; rfl
        · simp only [List.take_zero, collect]
          intro q hq v hv
          have := hn q hq v hv
          omega
      · obtain ⟨m'', k, r1, r2, r3, r4, r5⟩ := ih (i + 1) n m a h hn ht (by omega) (by
          intro j hj
          have hj' : i + 1 + j = i + (j + 1) := by omega
          rw [hj'] at hj ⊢
          obtain ⟨g1, g2, g3⟩ := hf (j + 1) hj
          refine ⟨g1, g2, fun q hq => ?_⟩
          obtain ⟨g4, g5⟩ := g3 q (by simpa using hq)
          exact ⟨fun r hr => g4 r (by simp [hr]), g5⟩)
        refine ⟨m'', k + 1, ?_, ?_, by simpa using r3, ?_, ?_⟩
        · simp only [values, e1, Res.ok_bind, if_true, r1]
        · simpa only [List.take_succ_cons, collect, e2] using r2
        · intro hk
          have : i + (k + 1) = i + 1 + k := by omega
          rw [this]; exact r4 (by simpa using hk)
        · simp only [List.take_succ_cons, collect, e2, List.map_cons, List.sum_cons]
          intro q hq v hv
          have := r5 q hq v hv
          omega

/-- the calls for the body -/
theorem chunks_eq (max : Nat) (hm : max < 2 ^ 64) (f : Nat → Bool) : ∀ (cs : List Bytes) (i : Nat) (done : Bytes), done.length + cs.flatten.length < 2 ^ 64 →
    (chunks max f i (Upload.cut max done) cs = .ok none ∧ ∃ j < cs.length, f (i + j) = true) ∨
    (chunks max f i (Upload.cut max done) cs = .ok (some (Upload.cut max (done ++ cs.flatten))) ∧ ∀ j < cs.length, f (i + j) = false) := by
  intro cs
  induction cs with
  | nil => intro i done _; exact .inr ⟨by simp [chunks], by simp⟩
  | cons c t ih =>
    intro i done h
    rw [List.flatten_cons, List.length_append] at h
    unfold chunks
    cases hf : f i with
    | true => exact .inl ⟨by simp, 0, by simp, hf⟩
    | false =>
      simp only [Bool.false_eq_true, if_false]
      rw [Upload.bodyChunk_eq max done c (by omega) hm, Res.ok_bind]
      rcases ih (i + 1) (done ++ c) (by rw [List.length_append]; omega) with ⟨h1, j, hj, hfj⟩ | ⟨h1, h2⟩
      · exact .inl ⟨h1, j + 1, by simpa using hj, by rw [show i + (j + 1) = i + 1 + j by omega]; exact hfj⟩
      · refine .inr ⟨by rw [h1]; simp, fun j hj => ?_⟩
        cases j with
        | zero => exact hf
        | succ j => rw [show i + (j + 1) = i + 1 + j by omega]; exact h2 j (by simpa using hj)

/-- The map holds what the first pairs give, and it ends before a failure or at the end. -/
def UpToFailure (check : Bool) (f : Nat → Fail) (ps : List (Bytes × Option Bytes)) (m : UMap) : Prop :=
  ∃ k, k ≤ ps.length ∧ HoldsParams m (collect check (ps.take k) []) ∧ (k < ps.length → f k ≠ {})

theorem values_from {check : Bool} {f : Nat → Fail} {ps : List (Bytes × Option Bytes)} (hs : Strings ps) (hf : OnlyCopies f ps) :
    ∃ m k, values check f 0 ps UMap.init = .ok m ∧ HoldsParams m (collect check (ps.take k) []) ∧ Fit (collect check (ps.take k) []) ∧ k ≤ ps.length ∧
      (k < ps.length → f k ≠ {}) := by
  obtain ⟨m, k, h1, h2, h3, h4, h5⟩ := values_eq check f ps 0 0 UMap.init [] holds_init (by intro p hp; cases hp) hs.1 (by have := hs.2; omega) (by
    intro j hj
    rw [Nat.zero_add] at hj ⊢
    obtain ⟨g1, g2, g3⟩ := hf j hj
    exact ⟨g1, g2, fun p hp => ⟨g3 p hp, by simp⟩⟩)
  refine ⟨m, k, h1, h2, ?_, h3, by simpa using h4⟩
  intro p hp v hv
  have := h5 p hp v hv
  have := hs.2
  omega

end Read

open Read

/-- C179: if nothing else fails than `http_verb`, `client_address`, room for a part of the body, and the copy of the name or of the value of a new pair,
nothing undefined happens. Either the connection is refused, because of the former, or a callback is shown the whole body (up to the limit of the instance)
and maps that are right as far as they go: they end where a copy failed. -/
theorem C179_partial (check : Bool) (max : Nat) (hm : max < 2 ^ 64) (f : Fails) (s : Sent) (hb : s.body.flatten.length < 2 ^ 64)
    (hh : Strings s.headers) (hq : Strings s.query) (hc : Strings s.cookies)
    (fh : OnlyCopies f.headers s.headers) (fq : OnlyCopies f.query s.query) (fc : OnlyCopies f.cookies s.cookies) :
    (serve check max f s = .ok .refused ∧ (f.text = true ∨ ∃ j < s.body.length, f.body j = true)) ∨
    ∃ h q c, serve check max f s = .ok (.shown h q c (if max = 0 then s.body.flatten else s.body.flatten.take max)) ∧
      f.text = false ∧ (∀ j < s.body.length, f.body j = false) ∧
      UpToFailure check f.headers s.headers h ∧ UpToFailure check f.query s.query q ∧ UpToFailure check f.cookies s.cookies c := by
  unfold serve
  cases ht : f.text with
  | true => exact .inl ⟨by simp, .inl rfl⟩
  | false =>
    obtain ⟨h, kh, h1, h2, _, h3, h4⟩ := values_from (check := check) hh fh
    obtain ⟨q, kq, q1, q2, q5, q3, q4⟩ := values_from (check := check) hq fq
    obtain ⟨c, kc, c1, c2, _, c3, c4⟩ := values_from (check := check) hc fc
    obtain ⟨d, d1, d2⟩ := holds_copy q2 q5
    have hct : ∃ x, UMap.getCase h (some b!"Content-Type") = .ok x := by
      obtain ⟨es, rfl, _⟩ := reach_wf h2.1
      exact ⟨_, getCase_rep es _⟩
    obtain ⟨x, hx⟩ := hct
    have hcut : ∀ b : Bytes, Upload.cut max b = if max = 0 then b else b.take max := fun b => rfl
    have h0 : Upload.cut max [] = [] := by simp [Upload.cut]
    rcases chunks_eq max hm f.body s.body 0 [] (by simpa using hb) with ⟨e, j, hj, hfj⟩ | ⟨e, he⟩
    · left
      rw [h0] at e
      refine ⟨?_, .inr ⟨j, hj, by simpa using hfj⟩⟩
      simp only [Bool.false_eq_true, if_false, h1, q1, c1, hx, e, Res.ok_bind]; rfl
    · right
      rw [h0] at e
      refine ⟨h, d, c, ?_, rfl, fun j hj => by simpa using he j hj, ⟨kh, h3, h2, h4⟩, ⟨kq, q3, d2, q4⟩, ⟨kc, c3, c2, c4⟩⟩
      simp only [Bool.false_eq_true, if_false, h1, q1, c1, hx, e, Res.ok_bind, d1, List.nil_append, hcut]; rfl

/-- C179: if nothing fails, a callback is shown everything. -/
theorem C179_whole_partial (check : Bool) (max : Nat) (hm : max < 2 ^ 64) (s : Sent) (hb : s.body.flatten.length < 2 ^ 64)
    (hh : Strings s.headers) (hq : Strings s.query) (hc : Strings s.cookies) :
    ∃ h q c, serve check max {} s = .ok (.shown h q c (if max = 0 then s.body.flatten else s.body.flatten.take max)) ∧
      HoldsParams h (collect check s.headers []) ∧ HoldsParams q (collect check s.query []) ∧ HoldsParams c (collect check s.cookies []) := by
  have no : ∀ ps, OnlyCopies (fun _ => {}) ps := fun ps i h => absurd rfl h
  rcases C179_partial check max hm {} s hb hh hq hc (no _) (no _) (no _) with ⟨_, h | ⟨j, _, h⟩⟩ | ⟨h, q, c, e, _, _, ⟨kh, h1, h2, h3⟩, ⟨kq, q1, q2, q3⟩, ⟨kc, c1, c2, c3⟩⟩
  · cases h
  · cases h
  · have e1 : kh = s.headers.length := by
      rcases Nat.lt_or_ge kh s.headers.length with h | h
      · exact absurd rfl (h3 h)
      · omega
    have e2 : kq = s.query.length := by
      rcases Nat.lt_or_ge kq s.query.length with h | h
      · exact absurd rfl (q3 h)
      · omega
    have e3 : kc = s.cookies.length := by
      rcases Nat.lt_or_ge kc s.cookies.length with h | h
      · exact absurd rfl (c3 h)
      · omega
    subst e1; subst e2; subst e3
    rw [List.take_length] at h2 q2 c2
    exact ⟨h, q, c, e, h2, q2, c2⟩

private def oneFails (i : Nat) (x : Fail) : Nat → Fail := fun j => if j = i then x else {}

private def sample : Sent := ⟨[(b!"Accept", some b!"*/*"), (b!"X-Role", some b!"guest"), (b!"X-Last", some b!"1")], [(b!"a", some b!"1"), (b!"a", some b!"2")], [], [b!"he", b!"llo"]⟩

example : Strings sample.headers ∧ Strings sample.query ∧ Strings sample.cookies ∧ sample.body.flatten.length < 2 ^ 64 ∧
    OnlyCopies (oneFails 1 { put := some 0 }) sample.headers ∧
    serve false 4 { body := fun i => i == 1 } sample = .ok .refused := by
  refine ⟨⟨by decide, by decide⟩, ⟨by decide, by decide⟩, ⟨by decide, by decide⟩, by decide, ?_, by decide +kernel⟩
  intro i hi
  by_cases h : i = 1
  · subst h
    exact ⟨rfl, .inl rfl, by intro p hp; cases hp; decide⟩
  · exact absurd (by simp [oneFails, h]) hi

/-- What a callback reads of a header. -/
private def headerOf (o : Res Outcome) (k : Bytes) : Option (Option Bytes) :=
  match o with
  | .ok (.shown h _ _ _) => match getStr h k with | .ok v => some v | .ub => none
  | _ => none

/-- It is not true that a callback is shown the whole request or not called: a header whose copy fails is missing, and all that come after it. -/
theorem C179_missing_false : ∃ (f : Fails) (s : Sent), Strings s.headers ∧ OnlyCopies f.headers s.headers ∧ f.text = false ∧
    headerOf (serve false 0 f s) b!"Accept" = some (some b!"*/*") ∧ headerOf (serve false 0 f s) b!"X-Role" = some none ∧
    headerOf (serve false 0 f s) b!"X-Last" = some none ∧ headerOf (serve false 0 {} s) b!"X-Role" = some (some b!"guest") := by
  refine ⟨{ headers := oneFails 1 { put := some 0 } }, sample, ⟨by decide, by decide⟩, ?_, rfl, by decide +kernel, by decide +kernel, by decide +kernel, by decide +kernel⟩
  intro i hi
  by_cases h : i = 1
  · subst h
    exact ⟨rfl, .inl rfl, by intro p hp; cases hp; decide⟩
  · exact absurd (by simp [oneFails, h]) hi

/-- It is not true that what was read stays: if the values of a header that comes twice cannot be joined, the first one is lost as well; all headers after
it are read. The same if there is no room for the joined value. -/
theorem C179_joined_false : ∃ (x y : Fail) (s : Sent),
    headerOf (serve false 0 {} s) b!"X-For" = some (some b!"10.0.0.1,10.0.0.2") ∧
    headerOf (serve false 0 { headers := oneFails 1 x } s) b!"X-For" = some none ∧ headerOf (serve false 0 { headers := oneFails 1 x } s) b!"Last" = some (some b!"1") ∧
    headerOf (serve false 0 { headers := oneFails 1 y } s) b!"X-For" = some none ∧ headerOf (serve false 0 { headers := oneFails 1 y } s) b!"Last" = some none :=
  ⟨{ join := true }, { put := some 0 }, ⟨[(b!"X-For", some b!"10.0.0.1"), (b!"X-For", some b!"10.0.0.2"), (b!"Last", some b!"1")], [], [], []⟩,
    by decide +kernel, by decide +kernel, by decide +kernel, by decide +kernel, by decide +kernel⟩

/-- It is not true that nothing undefined happens: an array of a map that cannot grow is NULL, and the next look into the map reads through it. -/
theorem C179_crash_false : ∃ s : Sent, Strings s.headers ∧ ∀ j ∈ [2, 3, 4], serve false 0 { headers := oneFails 0 { put := some j } } s = .ub :=
  ⟨sample, ⟨by decide, by decide⟩, by decide +kernel⟩

end Verif.Props
