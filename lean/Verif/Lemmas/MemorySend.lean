import Verif.Model.MemorySend
import Verif.Lemmas.MemoryResponse
/-! # Lemmas about the blocks of the HTTP client -/
namespace Verif.Memory
open Verif.UMap (Rc)

theorem own_escapeLoop {c : Nat → Nat} (key value : Nat → Bool) (es : List Entry) {i : Nat} {h : Heap} {p : P} (d : Nat → Nat) (o : Own h c)
    (e : ∀ n, c n = cP p n + (cE es n + d n)) :
    ∃ ok p' h', escapeLoop h p key value i es = .ok (ok, p', h') ∧ Own h' (fun n => cP p' n + (cE es n + d n)) := by
  induction es generalizing i h p c d with
  | nil => exact ⟨true, p, h, rfl, o.congr e⟩
  | cons x t ih =>
    have hk : need h x.kp = .ok () := own_need (d := fun n => cP p n + (cK x.key n + cA x.vp n + cE t n + d n)) o
      (by intro n; rw [e n]; simp only [cE]; omega)
    by_cases hx : key i = true
    · obtain ⟨k, h1, e1, o1, q1⟩ := own_malloc o
      by_cases hl : 0 < x.len
      · have hv : need h1 x.vp = .ok () := own_need (d := fun n => cA k n + cP p n + (cK x.key n + cA x.kp n + cE t n + d n)) o1
          (by intro n; rw [e n]; simp only [cE]; omega)
        by_cases hy : value i = true
        · obtain ⟨v, h2, e2, o2, q2⟩ := own_malloc o1
          obtain ⟨p', h3, e3, o3⟩ := own_realloc (p := p) (d := fun n => cP v n + (cP k n + (cE (x :: t) n + d n))) o2
            (by intro n; rw [e n, q2 n, q1 n]; omega)
          obtain ⟨h4, e4, o4⟩ := own_free (p := v) (d := fun n => cP p' n + (cP k n + (cE (x :: t) n + d n))) o3 (by intro n; omega)
          obtain ⟨h5, e5, o5⟩ := own_free (p := k) (d := fun n => cP p' n + (cE (x :: t) n + d n)) o4 (by intro n; omega)
          obtain ⟨ok, p2, h6, e6, o6⟩ := ih (i := i + 1) (p := p') (d := fun n => cK x.key n + cA x.kp n + cA x.vp n + d n) o5
            (by intro n; simp only [cE]; omega)
          refine ⟨ok, p2, h6, ?_, o6.congr (by intro n; simp only [cE]; omega)⟩
          simp only [escapeLoop, hk, Res.ok_bind, hx, if_true, e1, hl, hv, hy, e2, e3, e4, e5, e6]
        · obtain ⟨h2, e2, o2⟩ := own_free (p := k) (d := c) o1 (by intro n; rw [q1 n])
          refine ⟨false, p, h2, ?_, o2.congr e⟩
          simp [escapeLoop, hk, hx, e1, hl, hv, hy, e2]
      · obtain ⟨p', h3, e3, o3⟩ := own_realloc (p := p) (d := fun n => cP k n + (cE (x :: t) n + d n)) o1
          (by intro n; rw [e n, q1 n]; omega)
        obtain ⟨h5, e5, o5⟩ := own_free (p := k) (d := fun n => cP p' n + (cE (x :: t) n + d n)) o3 (by intro n; omega)
        obtain ⟨ok, p2, h6, e6, o6⟩ := ih (i := i + 1) (p := p') (d := fun n => cK x.key n + cA x.kp n + cA x.vp n + d n) o5
          (by intro n; simp only [cE]; omega)
        refine ⟨ok, p2, h6, ?_, o6.congr (by intro n; simp only [cE]; omega)⟩
        simp only [escapeLoop, hk, Res.ok_bind, hx, if_true, e1, hl, if_false, e3, e5, e6]
    · exact ⟨false, p, h, by simp [escapeLoop, hk, hx], o.congr e⟩

/-- The entries of one map of a request and the rest. -/
theorem entries_split {h : Heap} {c d : Nat → Nat} {r : Req} (i : MapId) (o : Own h c) (e : ∀ n, c n = cR r n + d n) :
    ∃ f : Nat → Nat, ∀ n, cR r n = cE (entriesOf (r.map i)) n + f n := by
  have hm := own_map i o e
  rcases hr : r.map i with _ | m
  · exact absurd hr hm
  · refine ⟨fun n => cA m.box n + cA m.keys n + cA m.values n + cA m.lengths n + cRm r i n, fun n => ?_⟩
    rw [cR_splitMap r i n, hr]
    simp only [cX, cM, entriesOf, Option.map_some, Option.getD_some]
    omega

theorem own_makeUrl {h : Heap} {c d : Nat → Nat} {w : Work} (a : Libcurl) (hu : w.url = .null) (o : Own h c) (e : ∀ n, c n = cR w.copy n + d n) :
    ∃ ok u h', makeUrl h w a = .ok (ok, { w with url := u }, h') ∧ Own h' (fun n => cP u n + (cR w.copy n + d n)) := by
  obtain ⟨u, h1, e1, o1⟩ := own_copyP (p := w.copy.slot .url) (d := fun n => cR (w.copy.set .url .null) n + d n) o
    (by intro n; rw [e n, cR_split w.copy .url n]; omega)
  obtain ⟨f, hf⟩ := entries_split .url o e
  obtain ⟨ok, u', h2, e2, o2⟩ := own_escapeLoop a.urlKey a.urlValue (entriesOf (w.copy.map .url)) (i := 0) (p := u) (fun n => f n + d n) o1
    (by intro n; have := hf n; have := e n; omega)
  exact ⟨ok, u', h2, by simp [makeUrl, e1, e2], o2.congr (by intro n; have := hf n; omega)⟩

theorem own_makeForm {h : Heap} {c d : Nat → Nat} {w : Work} (a : Libcurl) (hb : BodyOk w.copy) (o : Own h c) (e : ∀ n, c n = cR w.copy n + d n) :
    ∃ ok w' h', makeForm h w a = .ok (ok, w', h') ∧ w'.url = w.url ∧ w'.list = w.list ∧ Own h' (fun n => cR w'.copy n + d n) ∧ BodyOk w'.copy := by
  unfold makeForm
  split
  · exact ⟨true, w, h, rfl, rfl, rfl, o.congr e, hb⟩
  · obtain ⟨h1, e1, o1⟩ := own_free (p := w.copy.slot .body) (d := fun n => cR (w.copy.set .body .null) n + d n) o
      (by intro n; rw [e n, cR_split w.copy .body n]; omega)
    obtain ⟨f, hf⟩ := entries_split (r := w.copy.set .body .null) .post o1 (fun _ => rfl)
    have hm : (w.copy.set .body .null).map .post = w.copy.map .post := rfl
    rw [hm] at hf
    obtain ⟨ok, p, h2, e2, o2⟩ := own_escapeLoop a.formKey a.formValue (entriesOf (w.copy.map .post)) (i := 0) (p := .null) (fun n => f n + d n) o1
      (by intro n; have := hf n; simp only [cP_null]; omega)
    have o2' : Own h2 (fun n => cR { w.copy.set .body p with bodyLen := if p = .null then 0 else 1 } n + d n) :=
      o2.congr (by
        intro n
        have h1 := cR_set w.copy .body p n
        have h2 : cR { w.copy.set .body p with bodyLen := if p = .null then 0 else 1 } n = cR (w.copy.set .body p) n := rfl
        have := hf n
        omega)
    have hb' : BodyOk { w.copy.set .body p with bodyLen := if p = .null then 0 else 1 } := by
      intro hl
      show (w.copy.set .body p).slot .body ≠ .null
      rw [slot_set_self]
      rintro rfl
      simp at hl
    cases ok with
    | false => exact ⟨false, { w with copy := { w.copy.set .body p with bodyLen := if p = .null then 0 else 1 } }, h2, by simp [e1, e2], rfl, rfl, o2', hb'⟩
    | true =>
      obtain ⟨rc, r', h3, e3, o3, s3, l3, -⟩ := own_putIn .header (some b!"Content-Type") (some b!"application/x-www-form-urlencoded") o2' (fun _ => rfl)
      refine ⟨decide (rc = .ok), { w with copy := r' }, h3, ?_, rfl, rfl, o3, ?_⟩
      · simp only [e1, Res.ok_bind, e2, if_true, e3, Res.pure_eq]
      · intro hl
        show r'.slot .body ≠ .null
        rw [s3]
        exact hb' (by rw [← l3]; exact hl)

theorem own_headerLoop {c : Nat → Nat} (append : Nat → Bool) (ha : ∀ i, 0 < i → append i = true) (es : List Entry) {i : Nat} {h : Heap} {l : List P}
    (d : Nat → Nat) (hl : i = 0 → l = []) (hn : ∀ p ∈ l, p ≠ .null) (o : Own h c) (e : ∀ n, c n = cL l n + (cE es n + d n)) :
    ∃ ok l' h', headerLoop h l append i es = .ok (ok, l', h') ∧ (∀ p ∈ l', p ≠ .null) ∧ Own h' (fun n => cL l' n + (cE es n + d n)) := by
  induction es generalizing i h l c d with
  | nil => exact ⟨true, l, h, rfl, hn, o.congr e⟩
  | cons x t ih =>
    have hk : need h x.kp = .ok () := own_need (d := fun n => cL l n + (cK x.key n + cA x.vp n + cE t n + d n)) o
      (by intro n; rw [e n]; simp only [cE]; omega)
    have hv : (if 0 < x.len then need h x.vp else Res.ok ()) = .ok () := by
      split
      · exact own_need (d := fun n => cL l n + (cK x.key n + cA x.kp n + cE t n + d n)) o (by intro n; rw [e n]; simp only [cE]; omega)
      · rfl
    obtain ⟨s, h1, e1, o1, q1⟩ := own_malloc o
    by_cases hx : append i = true
    · obtain ⟨m, h2, e2, o2, q2⟩ := own_malloc o1
      obtain ⟨h3, e3, o3⟩ := own_free (p := s) (d := fun n => cA m n + c n) o2 (by intro n; rw [q1 n]; omega)
      obtain ⟨ok, l', h4, e4, n4, o4⟩ := ih (i := i + 1) (l := l ++ [m]) (d := fun n => cK x.key n + cA x.kp n + cA x.vp n + d n) (by omega)
        (by
          intro p hp
          rcases List.mem_append.1 hp with hp | hp
          · exact hn p hp
          · simp at hp; subst hp; exact malloc_ne e2)
        o3 (by intro n; rw [e n, cL_append]; simp only [cL, cE]; have := q2 n; omega)
      refine ⟨ok, l', h4, ?_, n4, o4.congr (by intro n; simp only [cE]; omega)⟩
      simp only [headerLoop, hk, hv, Res.ok_bind, hx, if_true, e1, e2, e3, e4]
    · have hi : i = 0 := by
        rcases Nat.eq_zero_or_pos i with hi | hi
        · exact hi
        · exact absurd (ha i hi) hx
      obtain ⟨h2, e2, o2⟩ := own_free (p := s) (d := c) o1 (by intro n; rw [q1 n])
      refine ⟨false, [], h2, by simp [headerLoop, hk, hv, hx, e1, e2], by simp, o2.congr (by intro n; rw [e n, hl hi])⟩

theorem own_cookieLoop {c : Nat → Nat} (es : List Entry) {h : Heap} {last all : P} (d : Nat → Nat) (o : Own h c)
    (e : ∀ n, c n = cP all n + (cE es n + d n)) :
    ∃ last' all' h', cookieLoop h last all es = .ok (last', all', h') ∧ Own h' (fun n => cP all' n + (cE es n + d n)) := by
  induction es generalizing h last all c d with
  | nil => exact ⟨last, all, h, rfl, o.congr e⟩
  | cons x t ih =>
    have hk : need h x.kp = .ok () := own_need (d := fun n => cP all n + (cK x.key n + cA x.vp n + cE t n + d n)) o
      (by intro n; rw [e n]; simp only [cE]; omega)
    have hv : (if 0 < x.len then need h x.vp else Res.ok ()) = .ok () := by
      split
      · exact own_need (d := fun n => cP all n + (cK x.key n + cA x.kp n + cE t n + d n)) o (by intro n; rw [e n]; simp only [cE]; omega)
      · rfl
    obtain ⟨s, h1, e1, o1, q1⟩ := own_malloc o
    have st : ∃ all' h2, (if all = .null then copyP h1 s else do let _ ← need h1 s; realloc h1 all) = .ok (all', h2) ∧
        Own h2 (fun n => cP s n + (cP all' n + (cE (x :: t) n + d n))) := by
      split
      · rename_i ha
        subst ha
        obtain ⟨a, h2, e2, o2⟩ := own_copyP (p := s) (d := c) o1 (by intro n; rw [q1 n])
        exact ⟨a, h2, e2, o2.congr (by intro n; rw [e n, q1 n, cP_null]; omega)⟩
      · have hs : need h1 s = .ok () := own_need (d := c) o1 (fun _ => rfl)
        obtain ⟨a, h2, e2, o2⟩ := own_realloc (p := all) (d := fun n => cP s n + (cE (x :: t) n + d n)) o1 (by intro n; rw [e n, q1 n]; omega)
        exact ⟨a, h2, by simp only [hs, Res.ok_bind, e2], o2.congr (by intro n; omega)⟩
    obtain ⟨a, h2, e2, o2⟩ := st
    obtain ⟨h3, e3, o3⟩ := own_free (p := s) (d := fun n => cP a n + (cE (x :: t) n + d n)) o2 (fun _ => rfl)
    obtain ⟨l', a', h4, e4, o4⟩ := ih (last := s) (all := a) (d := fun n => cK x.key n + cA x.kp n + cA x.vp n + d n) o3
      (by intro n; simp only [cE]; omega)
    refine ⟨l', a', h4, ?_, o4.congr (by intro n; simp only [cE]; omega)⟩
    simp only [cookieLoop, hk, hv, Res.ok_bind, e1, e2, e3, e4]

theorem own_sendCookies {h : Heap} {c d : Nat → Nat} {w : Work} (a : Libcurl) (ha : a.cookie = true) (o : Own h c) (e : ∀ n, c n = cR w.copy n + d n) :
    ∃ ok h', sendCookies h w a = .ok (ok, h') ∧ Own h' c := by
  unfold sendCookies
  split
  · exact ⟨true, h, rfl, o⟩
  · obtain ⟨f, hf⟩ := entries_split .cookie o e
    obtain ⟨last, all, h1, e1, o1⟩ := own_cookieLoop (entriesOf (w.copy.map .cookie)) (last := .null) (all := .null) (fun n => f n + d n) o
      (by intro n; rw [e n, hf n, cP_null]; omega)
    have ht : touch h1 all = .ok () := own_touch o1 (fun _ => rfl)
    obtain ⟨h2, e2, o2⟩ := own_free (p := all) (d := c) o1 (by intro n; rw [e n, hf n]; omega)
    exact ⟨true, h2, by simp [e1, ht, ha, e2], o2⟩

theorem taken_zero (limit size : Nat) : taken limit size 0 = 0 := by
  unfold taken
  split
  · split
    · split
      · omega
      · rfl
    · rfl
  · rfl

theorem own_writeBodies {c d : Nat → Nat} (limit : Nat) (ls : List Nat) {h : Heap} {data : P} {size : Nat} (o : Own h c)
    (e : ∀ n, c n = cP data n + d n) :
    ∃ data' size' h', writeBodies h limit data size ls = .ok (data', size', h') ∧ Own h' (fun n => cP data' n + d n) ∧
      ((∀ l ∈ ls, l = 0) → data' = data ∧ size' = size) := by
  induction ls generalizing h data size c with
  | nil => exact ⟨data, size, h, rfl, o.congr e, fun _ => ⟨rfl, rfl⟩⟩
  | cons l t ih =>
    have st : ∃ data1 size1 h1, writeBody h limit data size l = .ok (data1, size1, h1) ∧ Own h1 (fun n => cP data1 n + d n) ∧
        (l = 0 → data1 = data ∧ size1 = size) := by
      unfold writeBody
      split
      · rename_i hc
        obtain ⟨p, h1, e1, o1⟩ := own_realloc (p := data) (d := d) o e
        refine ⟨p, size + taken limit size l, h1, by rw [e1]; rfl, o1, ?_⟩
        rintro rfl
        exact absurd (taken_zero limit size) hc
      · exact ⟨data, size, h, rfl, o.congr e, fun _ => ⟨rfl, rfl⟩⟩
    obtain ⟨d1, s1, h1, e1, o1, z1⟩ := st
    obtain ⟨d2, s2, h2, e2, o2, z2⟩ := ih (data := d1) (size := s1) o1 (fun _ => rfl)
    refine ⟨d2, s2, h2, by simp [writeBodies, e1, e2], o2, fun hz => ?_⟩
    have a1 := z1 (hz l (by simp))
    have a2 := z2 (fun x hx => hz x (by simp [hx]))
    exact ⟨a2.1.trans a1.1, a2.2.trans a1.2⟩

theorem own_takeWord {h : Heap} {c : Nat → Nat} {there : Bool} {old : P} (o : Own h c) (hn : there = false → old = .null) :
    ∃ p h', takeWord h there old = (p, h') ∧ Own h' (fun n => cP p n + c n) ∧ (there = false → p = .null) ∧ (there = true → p ≠ .null) := by
  cases there with
  | false => exact ⟨old, h, rfl, o.congr (by intro n; rw [hn rfl, cP_null, Nat.zero_add]), hn, by simp⟩
  | true =>
    obtain ⟨p, h1, e1, o1, q1⟩ := own_malloc o
    exact ⟨p, h1, e1, o1.congr (by intro n; rw [q1]), by simp, fun _ => malloc_ne e1⟩

/-- Variables not set by lines with at most `m` words. -/
structure Fresh (v : CookieVars) (m : Nat) : Prop where
  domain : m ≤ 0 → v.domain = .null
  path : m ≤ 2 → v.path = .null
  expires : m ≤ 4 → v.expires = .null
  key : m ≤ 5 → v.key = .null
  value : m ≤ 6 → v.value = .null

theorem own_answerCookies {c d : Nat → Nat} (ls : List (List Bytes)) {h : Heap} {r : Resp} {v : CookieVars} {m : Nat}
    (hp : ls.Pairwise (fun a b => min 7 a.length ≤ b.length)) (hm : ∀ l ∈ ls, min 7 m ≤ l.length) (f : Fresh v m) (I : RInv r) (o : Own h c)
    (e : ∀ n, c n = cRs r n + d n) :
    ∃ r' h', answerCookies h r v ls = .ok (r', h') ∧ Own h' (fun n => cRs r' n + d n) ∧ Same r r' := by
  induction ls generalizing h r c v m with
  | nil => exact ⟨r, h, rfl, o.congr e, I, rfl, fun hf => hf⟩
  | cons ws t ih =>
    have hw : min 7 m ≤ ws.length := hm ws (by simp)
    obtain ⟨dup, h1, e1, o1, q1⟩ := own_malloc o
    obtain ⟨D, h2, e2, o2, z2, y2⟩ := own_takeWord (there := decide (0 < ws.length)) (old := v.domain) o1 (fun hx => f.domain (by simp at hx; simp [hx] at hw; omega))
    obtain ⟨P, h3, e3, o3, z3, y3⟩ := own_takeWord (there := decide (2 < ws.length)) (old := v.path) o2 (fun hx => f.path (by simp at hx; omega))
    obtain ⟨E, h4, e4, o4, z4, y4⟩ := own_takeWord (there := decide (4 < ws.length)) (old := v.expires) o3 (fun hx => f.expires (by simp at hx; omega))
    obtain ⟨K, h5, e5, o5, z5, y5⟩ := own_takeWord (there := decide (5 < ws.length)) (old := v.key) o4 (fun hx => f.key (by simp at hx; omega))
    obtain ⟨X, h6, e6, o6, z6, y6⟩ := own_takeWord (there := decide (6 < ws.length)) (old := v.value) o5 (fun hx => f.value (by simp at hx; omega))
    have o6' : Own h6 (fun n => cRs r n + (cL [K, X, D, P, E, dup] n + d n)) :=
      o6.congr (by intro n; have := e n; have := q1 n; simp only [cL]; omega)
    have st : ∃ r' h', storeCookie h6 r ⟨K, X, E, D, P⟩ (ws.getD 5 []) = .ok (r', h') ∧ Own h' (fun n => cRs r' n + (cL [K, X, D, P, E, dup] n + d n)) ∧
        Same r r' := by
      unfold storeCookie
      dsimp only
      split
      · exact ⟨r, h6, rfl, o6', I, rfl, fun hf => hf⟩
      · rename_i hK
        have hlen : 5 < ws.length := by
          by_cases hx : 5 < ws.length
          · exact hx
          · exact absurd (z5 (by simp; omega)) hK
        have t1 : touch h6 K = .ok () := own_touch (d := fun n => cRs r n + (cL [X, D, P, E, dup] n + d n)) o6' (by intro n; simp only [cL]; omega)
        have t2 : touch h6 X = .ok () := own_touch (d := fun n => cRs r n + (cL [K, D, P, E, dup] n + d n)) o6' (by intro n; simp only [cL]; omega)
        have t3 : touch h6 E = .ok () := own_touch (d := fun n => cRs r n + (cL [K, X, D, P, dup] n + d n)) o6' (by intro n; simp only [cL]; omega)
        have t4 : touch h6 D = .ok () := own_touch (d := fun n => cRs r n + (cL [K, X, P, E, dup] n + d n)) o6' (by intro n; simp only [cL]; omega)
        have t5 : touch h6 P = .ok () := own_touch (d := fun n => cRs r n + (cL [K, X, D, E, dup] n + d n)) o6' (by intro n; simp only [cL]; omega)
        obtain ⟨a, cs, h7, e7, o7, I7, f7⟩ := own_addCookie (ws.getD 5 []) (attrOf E) (attrOf D) (attrOf P) I o6' (fun _ => rfl)
        refine ⟨{ r with array := a, cookies := cs }, h7, by simp only [t1, t2, t3, t4, t5, Res.ok_bind, e7], o7, I7, rfl, fun hf => ?_⟩
        refine f7 hf ?_ ?_ ?_
        · simp [attrOf, y4 (decide_eq_true (by omega))]
        · simp [attrOf, y2 (decide_eq_true (by omega))]
        · simp [attrOf, y3 (decide_eq_true (by omega))]
    obtain ⟨r1, h7, e7, o7, s7⟩ := st
    obtain ⟨h8, e8, o8⟩ := own_freeAll [K, X, D, P, E, dup] (d := fun n => cRs r1 n + d n) o7 (by intro n; omega)
    obtain ⟨r2, h9, e9, o9, s9⟩ := ih (v := ⟨K, X, E, D, P⟩) (m := ws.length) (List.pairwise_cons.1 hp).2 (List.pairwise_cons.1 hp).1
      ⟨fun hx => z2 (decide_eq_false (by omega)), fun hx => z3 (by simp; omega), fun hx => z4 (by simp; omega), fun hx => z5 (by simp; omega), fun hx => z6 (by simp; omega)⟩
      s7.inv o8 (fun _ => rfl)
    refine ⟨r2, h9, ?_, o9, s7.trans s9⟩
    simp only [answerCookies, e1, e2, e3, e4, e5, e6, Res.ok_bind, e7, e8, e9]

theorem own_cookieNodes {c : Nat → Nat} (ls : List (List Bytes)) {h : Heap} (o : Own h c) :
    ∃ l h', cookieNodes h ls = (l, h') ∧ Own h' (fun n => cL l n + c n) := by
  induction ls generalizing h c with
  | nil => exact ⟨[], h, rfl, o.congr (by intro n; simp [cL])⟩
  | cons w t ih =>
    obtain ⟨p, h1, e1, o1, q1⟩ := own_malloc o
    obtain ⟨l, h2, e2, o2⟩ := ih o1
    exact ⟨p :: l, h2, by simp [cookieNodes, e1, e2], o2.congr (by intro n; simp only [cL]; rw [q1 n]; omega)⟩

theorem own_needAll {h : Heap} {c d : Nat → Nat} (l : List P) (hl : ∀ p ∈ l, p ≠ .null) (o : Own h c) (e : ∀ n, c n = cL l n + d n) :
    needAll h l = .ok () := by
  induction l generalizing d with
  | nil => rfl
  | cons p t ih =>
    have h1 : need h p = .ok () := own_needP (d := fun n => cL t n + d n) o (hl p (by simp)) (by intro n; rw [e n]; simp only [cL]; omega)
    have h2 := ih (d := fun n => cP p n + d n) (fun q hq => hl q (by simp [hq])) (by intro n; rw [e n]; simp only [cL]; omega)
    simp only [needAll, h1, Res.ok_bind, h2]

/-- The lines of cookies the code reads properly. -/
def CookiesOk (a : Answer) : Prop := ∀ ls, a.cookies = some ls → ls.Pairwise (fun x y => min 7 x.length ≤ y.length)

theorem own_readAnswer {h : Heap} {c d : Nat → Nat} {r : Resp} {a : Answer} (ha : CookiesOk a) (I : RInv r) (o : Own h c) (e : ∀ n, c n = cRs r n + d n) :
    ∃ ok r' h', readAnswer h r a = .ok (ok, r', h') ∧ Own h' (fun n => cRs r' n + d n) ∧ Same r r' ∧ (ok = true → a.status = true ∧ a.cookies ≠ none) := by
  unfold readAnswer
  split
  · rename_i hs
    rcases hc : a.cookies with _ | ls
    · exact ⟨false, r, h, rfl, o.congr e, ⟨I, rfl, fun hf => hf⟩, by simp⟩
    · obtain ⟨l, h1, e1, o1⟩ := own_cookieNodes ls o
      obtain ⟨r2, h2, e2, o2, s2⟩ := own_answerCookies ls (v := {}) (m := 0) (d := fun n => cL l n + d n) (ha ls hc) (by simp)
        ⟨fun _ => rfl, fun _ => rfl, fun _ => rfl, fun _ => rfl, fun _ => rfl⟩ I o1 (by intro n; rw [e n]; omega)
      obtain ⟨h3, e3, o3⟩ := own_freeAll l (d := fun n => cRs r2 n + d n) o2 (by intro n; omega)
      exact ⟨true, r2, h3, by simp [e1, e2, e3], o3, s2, fun _ => ⟨hs, by simp⟩⟩
  · exact ⟨false, r, h, rfl, o.congr e, ⟨I, rfl, fun hf => hf⟩, by simp⟩

/-- The blocks of a response that may not be there. -/
def cRo : Option Resp → Nat → Nat
  | none, _ => 0
  | some r, n => cRs r n

/-- What a call keeps of it. -/
def SameO : Option Resp → Option Resp → Prop
  | none, none => True
  | some r, some r' => Same r r'
  | _, _ => False

theorem SameO.refl {r : Option Resp} (I : ∀ x, r = some x → RInv x) : SameO r r := by
  cases r with
  | none => trivial
  | some x => exact ⟨I x rfl, rfl, fun hf => hf⟩

/-- The answer has a body for the response. -/
def Brings (body : Option Nat) (a : Answer) : Prop :=
  body ≠ none ∧ a.ok = true ∧ a.status = true ∧ a.cookies ≠ none ∧ ∃ l ∈ a.chunks, l ≠ 0

theorem own_perform {h : Heap} {c d : Nat → Nat} {w : Work} {resp : Option Resp} {a : Answer} (body : Option Nat) (hb : BodyOk w.copy)
    (hl : ∀ p ∈ w.list, p ≠ .null) (ha : CookiesOk a) (I : ∀ x, resp = some x → RInv x) (o : Own h c)
    (e : ∀ n, c n = cRo resp n + (cL w.list n + (cR w.copy n + d n))) :
    ∃ ok resp' data size h', perform h w resp body a = .ok (ok, resp', data, size, h') ∧
      Own h' (fun n => cP data n + (cRo resp' n + (cL w.list n + (cR w.copy n + d n)))) ∧ SameO resp resp' ∧
      (resp ≠ none → ok = true → data ≠ .null → size ≠ 0 → Brings body a) := by
  have t1 : (if w.copy.bodyLen ≠ 0 then touch h (w.copy.slot .body) else Res.ok ()) = .ok () := by
    split
    · exact own_touch (d := fun n => cRo resp n + (cL w.list n + (cR (w.copy.set .body .null) n + d n))) o
        (by intro n; rw [e n, cR_split w.copy .body n]; omega)
    · rfl
  have t2 : needAll h w.list = .ok () := own_needAll w.list (d := fun n => cRo resp n + (cR w.copy n + d n)) hl o (by intro n; rw [e n]; omega)
  cases resp with
  | none =>
    refine ⟨a.ok, none, .null, 0, h, ?_, o.congr (by intro n; rw [e n, cP_null, Nat.zero_add]), trivial, by simp⟩
    simp only [perform, t1, t2, Res.ok_bind, Res.pure_eq]
  | some r =>
    have Ir := I r rfl
    have sa : ∃ r1 h1, answerLines h r a = .ok (r1, h1) ∧ Own h1 (fun n => cRs r1 n + (cL w.list n + (cR w.copy n + d n))) ∧ Same r r1 := by
      unfold answerLines
      split
      · exact ⟨r, h, rfl, o.congr e, Ir, rfl, fun hf => hf⟩
      · exact own_writeHeaders a.lines Ir o e
    obtain ⟨r1, h1, e1, o1, s1⟩ := sa
    have sb : ∃ data size h2, answerBody h1 body a = .ok (data, size, h2) ∧ Own h2 (fun n => cP data n + (cRs r1 n + (cL w.list n + (cR w.copy n + d n)))) ∧
        (data ≠ .null → body ≠ none ∧ ∃ l ∈ a.chunks, l ≠ 0) := by
      cases body with
      | none => exact ⟨.null, 0, h1, rfl, o1.congr (by intro n; rw [cP_null, Nat.zero_add]), by simp⟩
      | some limit =>
        obtain ⟨data, size, h2, e2, o2, z2⟩ := own_writeBodies limit a.chunks (data := .null) (size := 0) o1 (d := fun n => cRs r1 n + (cL w.list n + (cR w.copy n + d n)))
          (by intro n; rw [cP_null, Nat.zero_add])
        refine ⟨data, size, h2, e2, o2, fun hd => ⟨by simp, ?_⟩⟩
        by_cases hz : ∀ l ∈ a.chunks, l = 0
        · exact absurd (z2 hz).1 hd
        · simpa using hz
    obtain ⟨data, size, h2, e2, o2, b2⟩ := sb
    by_cases hok : a.ok = true
    · obtain ⟨ok, r3, h3, e3, o3, s3, k3⟩ := own_readAnswer (r := r1) (d := fun n => cP data n + (cL w.list n + (cR w.copy n + d n))) ha s1.inv o2 (by intro n; omega)
      refine ⟨ok, some r3, data, size, h3, ?_, o3.congr (by intro n; simp only [cRo]; omega), s1.trans s3, ?_⟩
      · simp only [perform, t1, t2, Res.ok_bind, e1, e2, hok, if_true, e3, Res.pure_eq]
      · intro _ hk hd _
        exact ⟨(b2 hd).1, hok, (k3 hk).1, (k3 hk).2, (b2 hd).2⟩
    · refine ⟨false, some r1, data, size, h2, ?_, o2, s1, by simp⟩
      simp only [perform, t1, t2, Res.ok_bind, e1, e2, hok, Res.pure_eq]
      simp

/-- What the loop leaves. -/
structure LeftOk (resp : Option Resp) (body : Option Nat) (a : Answer) (d : Nat → Nat) (x : Left) : Prop where
  own : Own x.heap (fun n => cP x.data n + (cRo x.resp n + (cL x.work.list n + (cP x.work.url n + (cR x.work.copy n + d n)))))
  same : SameO resp x.resp
  brings : resp ≠ none → x.ok = true → x.data ≠ .null → x.size ≠ 0 → Brings body a

theorem own_sendLoop {h : Heap} {c d : Nat → Nat} {copy : Req} {resp : Option Resp} {a : Libcurl} (body : Option Nat) (hb : BodyOk copy)
    (ha : ∀ i, 0 < i → a.append i = true) (hk : a.cookie = true) (hc : CookiesOk a.answer) (I : ∀ x, resp = some x → RInv x) (o : Own h c)
    (e : ∀ n, c n = cRo resp n + (cR copy n + d n)) :
    ∃ x, sendLoop h { copy := copy } resp body a = .ok x ∧ LeftOk resp body a.answer d x := by
  have quit : ∀ {w : Work} {h' : Heap}, Own h' (fun n => cRo resp n + (cL w.list n + (cP w.url n + (cR w.copy n + d n)))) →
      LeftOk resp body a.answer d ⟨false, w, resp, .null, 0, h'⟩ := by
    intro w h' o'
    exact ⟨o'.congr (by intro n; simp only [cP_null, Nat.zero_add]), SameO.refl I, by simp⟩
  unfold sendLoop
  split
  · obtain ⟨ok1, u, h1, e1, o1⟩ := own_makeUrl (w := { copy := copy }) (d := fun n => cRo resp n + d n) a rfl o (by intro n; rw [e n]; dsimp only; omega)
    cases ok1 with
    | false => exact ⟨_, by simp only [e1, Res.ok_bind]; rfl, quit (o1.congr (by intro n; simp only [cL]; omega))⟩
    | true =>
      obtain ⟨ok2, w2, h2, e2, u2, l2, o2, b2⟩ := own_makeForm (w := { copy := copy, url := u }) (d := fun n => cP u n + (cRo resp n + d n)) a hb o1
        (by intro n; dsimp only; omega)
      dsimp only at u2 l2
      by_cases g2 : (ok2 && (a.body || decide (w2.copy.bodyLen = 0))) = true
      · obtain ⟨f, hf⟩ := entries_split .header o2 (fun _ => rfl)
        obtain ⟨ok3, l3, h3, e3, n3, o3⟩ := own_headerLoop a.append ha (entriesOf (w2.copy.map .header)) (i := 0) (l := [])
          (fun n => f n + (cP u n + (cRo resp n + d n))) (fun _ => rfl) (by simp) o2 (by intro n; rw [hf n]; simp only [cL]; omega)
        have o3' : Own h3 (fun n => cRo resp n + (cL l3 n + (cP w2.url n + (cR w2.copy n + d n)))) :=
          o3.congr (by intro n; rw [hf n, u2]; omega)
        cases ok3 with
        | false =>
          exact ⟨⟨false, { w2 with list := l3 }, resp, .null, 0, h3⟩, by simp only [e1, Res.ok_bind, e2, if_true, g2, e3]; rfl, quit o3'⟩
        | true =>
          obtain ⟨ok4, h4, e4, o4⟩ := own_sendCookies (w := { w2 with list := l3 }) (d := fun n => cRo resp n + (cL l3 n + (cP w2.url n + d n))) a hk o3'
            (by intro n; dsimp only; omega)
          by_cases g4 : (ok4 && a.last) = true
          · have t5 : touch h4 w2.url = .ok () := own_touch (d := fun n => cRo resp n + (cL l3 n + (cR w2.copy n + d n))) o4 (by intro n; omega)
            obtain ⟨ok6, resp6, data, size, h6, e6, o6, s6, k6⟩ := own_perform (w := { w2 with list := l3 }) (resp := resp) (d := fun n => cP w2.url n + d n) body b2 n3
              hc I o4 (by intro n; dsimp only; omega)
            refine ⟨⟨ok6, { w2 with list := l3 }, resp6, data, size, h6⟩, ?_, o6.congr (by intro n; dsimp only; omega), s6, k6⟩
            simp only [e1, Res.ok_bind, e2, if_true, g2, e3, e4, g4, t5, e6, Res.pure_eq]
          · refine ⟨⟨false, { w2 with list := l3 }, resp, .null, 0, h4⟩, ?_, quit o4⟩
            simp only [e1, Res.ok_bind, e2, if_true, g2, e3, e4, g4, Res.pure_eq]
            simp
      · refine ⟨⟨false, w2, resp, .null, 0, h2⟩, ?_, quit (o2.congr (by intro n; rw [u2, l2]; simp only [cL]; omega))⟩
        simp only [e1, Res.ok_bind, e2, if_true, g2, Res.pure_eq]
        simp
  · exact ⟨_, rfl, quit (o.congr (by intro n; rw [e n]; simp only [cL, cP_null]; omega))⟩

/-- What a call keeps of the response. -/
structure Sent (r r' : Resp) (brings : Prop) : Prop where
  inv : RInv r'
  body : ¬ brings → r'.body = r.body
  full : (∀ x ∈ r.cookies, FullCk x) → ∀ x ∈ r'.cookies, FullCk x

/-- The same for one that may not be there. -/
def SentO (r r' : Option Resp) (brings : Prop) : Prop :=
  match r, r' with
  | none, none => True
  | some r, some r' => Sent r r' brings
  | _, _ => False

theorem SameO.sent {r r' : Option Resp} (s : SameO r r') (b : Prop) : SentO r r' b := by
  cases r <;> cases r' <;> simp_all [SameO, SentO]
  exact ⟨s.inv, fun _ => s.body, s.full⟩

theorem own_sendRequest {h : Heap} {c d : Nat → Nat} {src : Req} {resp : Option Resp} {a : Libcurl} (body : Option Nat) (hb : BodyOk src)
    (hn : src.slot .cert = .null) (ha : ∀ i, 0 < i → a.append i = true) (hk : a.cookie = true) (hc : CookiesOk a.answer) (I : ∀ x, resp = some x → RInv x)
    (hr : Brings body a.answer → ∀ x, resp = some x → x.body = .null) (o : Own h c)
    (e : ∀ n, c n = cR src n + (cRo resp n + d n)) :
    ∃ ok resp' h', sendRequest h src resp body a = .ok (ok, resp', h') ∧ Own h' (fun n => cR src n + (cRo resp' n + d n)) ∧
      SentO resp resp' (Brings body a.answer) := by
  obtain ⟨copy, h1, e1, o1, b1, -⟩ := own_duplicateRequest hb hn o e
  have stay : SentO resp resp (Brings body a.answer) := SameO.sent (SameO.refl I) _
  by_cases hi : a.init = true
  · obtain ⟨hd, h2, e2, o2, q2⟩ := own_malloc o1
    obtain ⟨x, e3, L⟩ := own_sendLoop (copy := copy) (resp := resp) (d := fun n => cP hd n + (cR src n + d n)) body b1 ha hk hc I o2
      (by intro n; rw [e n, q2 n]; omega)
    obtain ⟨h4, e4, o4⟩ := own_free (p := x.work.url)
      (d := fun n => cP x.data n + (cRo x.resp n + (cL x.work.list n + (cR x.work.copy n + (cP hd n + (cR src n + d n)))))) L.own (by intro n; omega)
    obtain ⟨h5, e5, o5⟩ := own_cleanRequestFull (r := x.work.copy)
      (d := fun n => cP x.data n + (cRo x.resp n + (cL x.work.list n + (cP hd n + (cR src n + d n))))) o4 (by intro n; omega)
    obtain ⟨h6, e6, o6⟩ := own_free (p := hd)
      (d := fun n => cP x.data n + (cRo x.resp n + (cL x.work.list n + (cR src n + d n)))) o5 (by intro n; omega)
    obtain ⟨h7, e7, o7⟩ := own_freeAll x.work.list (d := fun n => cP x.data n + (cRo x.resp n + (cR src n + d n))) o6 (by intro n; omega)
    have head : sendRequest h src resp body a = finishSend h7 x := by
      simp only [sendRequest, e1, Res.ok_bind, hi, if_true, e2, e3, e4, e5, e6, e7]
    rw [head]
    have plain : ∀ ok : Bool, ∃ ok' resp' h', (do let h ← free h7 x.data; return (ok, x.resp, h) : Res (Bool × Option Resp × Heap)) = .ok (ok', resp', h') ∧
        Own h' (fun n => cR src n + (cRo resp' n + d n)) ∧ SentO resp resp' (Brings body a.answer) := by
      intro ok
      obtain ⟨h8, e8, o8⟩ := own_free (p := x.data) (d := fun n => cR src n + (cRo x.resp n + d n)) o7 (by intro n; omega)
      exact ⟨ok, x.resp, h8, by simp [e8], o8, L.same.sent _⟩
    unfold finishSend
    split
    · rename_i r hx hxr
      split
      · rename_i hdata
        have hs := L.same
        rw [hxr] at hs
        rcases resp with _ | r0
        · exact hs.elim
        · have br := L.brings (by simp) hx hdata.1 hdata.2
          have nb : r.body = .null := by rw [Same.body hs]; exact hr br r0 rfl
          obtain ⟨p, h8, e8, o8, q8⟩ := own_malloc o7
          obtain ⟨h9, e9, o9⟩ := own_free (p := x.data) (d := fun n => cA p n + (cRo x.resp n + (cR src n + d n))) o8 (by intro n; omega)
          refine ⟨true, some { r with body := p, bodyLen := x.size }, h9, by simp [e8, e9], o9.congr ?_, ?_⟩
          · intro n
            have := q8 n
            rw [hxr]
            simp only [cRo, cRs, nb, cP_null]
            omega
          · have I' := Same.inv hs
            exact ⟨⟨I'.ws, I'.arr, I'.arr', I'.good⟩, fun hx => absurd br hx, (show Same r0 r from hs).full⟩
      · rw [← hxr]; exact plain true
    · exact plain _
  · obtain ⟨h2, e2, o2⟩ := own_cleanRequestFull (r := copy) (d := c) o1 (fun _ => rfl)
    exact ⟨false, resp, h2, by simp [sendRequest, e1, hi, e2], o2.congr e, stay⟩

theorem own_appendNode {h : Heap} {c d : Nat → Nat} {l : List P} (wanted accepted : Bool) (hn : ∀ p ∈ l, p ≠ .null)
    (ha : wanted = true → accepted = false → l = []) (o : Own h c) (e : ∀ n, c n = cL l n + d n) :
    ∃ ok l' h', appendNode h l wanted accepted = (ok, l', h') ∧ (∀ p ∈ l', p ≠ .null) ∧ Own h' (fun n => cL l' n + d n) := by
  cases wanted with
  | false => exact ⟨true, l, h, rfl, hn, o.congr e⟩
  | true =>
    cases accepted with
    | false => exact ⟨false, [], h, rfl, by simp, o.congr (by intro n; rw [e n, ha rfl rfl])⟩
    | true =>
      obtain ⟨p, h1, e1, o1, q1⟩ := own_malloc o
      refine ⟨true, l ++ [p], h1, by simp [appendNode, e1], ?_, o1.congr (by intro n; rw [e n, cL_append]; simp only [cL]; rw [q1 n]; omega)⟩
      intro q hq
      rcases List.mem_append.1 hq with hq | hq
      · exact hn q hq
      · simp at hq; subst hq; exact malloc_ne e1

theorem own_recipients {h : Heap} {c : Nat → Nat} (m : Mail) (h1 : m.cc = true → m.addCc = true) (h2 : m.bcc = true → m.addBcc = true) (o : Own h c) :
    ∃ ok l h', recipients h m = (ok, l, h') ∧ (∀ p ∈ l, p ≠ .null) ∧ Own h' (fun n => cL l n + c n) := by
  obtain ⟨ok1, l1, g1, e1, n1, o1⟩ := own_appendNode (l := []) (d := c) true m.addTo (by simp) (fun _ _ => rfl) o (by intro n; simp [cL])
  unfold recipients
  rw [e1]
  cases ok1 with
  | false => exact ⟨false, l1, g1, rfl, n1, o1⟩
  | true =>
    obtain ⟨ok2, l2, g2, e2, n2, o2⟩ := own_appendNode (l := l1) (d := c) m.cc m.addCc n1 (fun ha hb => by rw [h1 ha] at hb; cases hb) o1 (fun _ => rfl)
    dsimp only
    rw [e2]
    cases ok2 with
    | false => exact ⟨false, l2, g2, rfl, n2, o2⟩
    | true => exact own_appendNode (l := l2) (d := c) m.bcc m.addBcc n2 (fun ha hb => by rw [h2 ha] at hb; cases hb) o2 (fun _ => rfl)

theorem own_sendMail {h : Heap} {c : Nat → Nat} (m : Mail) (h1 : m.cc = true → m.addCc = true) (h2 : m.bcc = true → m.addBcc = true) (o : Own h c) :
    ∃ h', sendMail h m = .ok h' ∧ Own h' c := by
  unfold sendMail
  split
  · obtain ⟨hd, g1, e1, o1, q1⟩ := own_malloc o
    obtain ⟨u, g2, e2, o2, q2⟩ := own_malloc o1
    have st : ∃ ok l g3, (if m.first then recipients g2 m else (false, [], g2)) = (ok, l, g3) ∧ (∀ p ∈ l, p ≠ .null) ∧
        Own g3 (fun n => cL l n + (cP hd n + (cP u n + c n))) := by
      split
      · obtain ⟨ok, l, g3, e3, n3, o3⟩ := own_recipients m h1 h2 o2
        exact ⟨ok, l, g3, e3, n3, o3.congr (by intro n; rw [q1 n, q2 n]; omega)⟩
      · exact ⟨false, [], g2, rfl, by simp, o2.congr (by intro n; rw [q1 n, q2 n]; simp only [cL]; omega)⟩
    obtain ⟨ok, l, g3, e3, n3, o3⟩ := st
    simp only [e1, e2, e3]
    split
    · obtain ⟨cc, g4, e4, o4, q4⟩ := own_malloc o3
      obtain ⟨da, g5, e5, o5, q5⟩ := own_malloc o4
      have t1 : (if m.last = true then do let _ ← needAll g5 l; need g5 da else Res.ok ()) = .ok () := by
        split
        · have t1 : needAll g5 l = .ok () := own_needAll l (d := fun n => cA da n + (cA cc n + (cP hd n + (cP u n + c n)))) n3 o5 (by intro n; omega)
          have t2 : need g5 da = .ok () := own_need (d := fun n => cA cc n + (cL l n + (cP hd n + (cP u n + c n)))) o5 (fun _ => rfl)
          simp only [t1, t2, Res.ok_bind]
        · rfl
      obtain ⟨g6, e6, o6⟩ := own_freeAll l (d := fun n => cA da n + (cA cc n + (cP hd n + (cP u n + c n)))) o5 (by intro n; omega)
      obtain ⟨g7, e7, o7⟩ := own_freeAll [hd, u, cc, da] (d := c) o6 (by intro n; simp only [cL]; rw [q4 n, q5 n]; omega)
      exact ⟨g7, by simp only [e4, e5, t1, Res.ok_bind, e6, e7], o7⟩
    · obtain ⟨g6, e6, o6⟩ := own_freeAll l (d := fun n => cP hd n + (cP u n + c n)) o3 (fun _ => rfl)
      obtain ⟨g7, e7, o7⟩ := own_freeAll [hd, u] (d := c) o6 (by intro n; simp only [cL]; omega)
      exact ⟨g7, by simp only [e6, Res.ok_bind, e7], o7⟩
  · exact ⟨h, rfl, o⟩

end Verif.Memory
