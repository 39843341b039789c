import Verif.Model.Alloc
/-!
# C176: blocks go back to where they came from
-/
namespace Verif.Props
open Verif.Alloc

/-- No release function is given a block more often than the allocation function of its family made it. -/
def Proper (t : List Ev) : Prop := ∀ p, p <+: t → ∀ f n, p.count (.gave f n) ≤ p.count (.got f n)

/-- Every block went back, to the family it came from. -/
def Settled (t : List Ev) : Prop := ∀ f n, t.count (.gave f n) = t.count (.got f n)

/-- jansson is asked for a text. -/
def UsesJson : Op → Prop
  | .setMessage _ b => b = .json
  | .wsJson => True
  | .serve x => .json ∈ x.bodies
  | _ => False

namespace Pool

/-- The blocks in use. -/
def pool : List Ev → Option (List (Fam × Nat)) → Option (List (Fam × Nat))
  | [], l => l
  | .got f n :: t, l => pool t (l.map ((f, n) :: ·))
  | .gave f n :: t, l => pool t (l.bind (fun l => if (f, n) ∈ l then some (l.erase (f, n)) else none))

theorem pool_none (t : List Ev) : pool t none = none := by
  induction t with
  | nil => rfl
  | cons e t ih => cases e <;> simp [pool, ih]

theorem pool_append (a b : List Ev) (l) : pool (a ++ b) l = pool b (pool a l) := by
  induction a generalizing l with
  | nil => rfl
  | cons e a ih => cases e <;> simp [pool, ih]

theorem pool_count (t : List Ev) (l l' : List (Fam × Nat)) (h : pool t (some l) = some l') (f n) :
    t.count (.gave f n) + l'.count (f, n) = t.count (.got f n) + l.count (f, n) := by
  induction t generalizing l with
  | nil => simp [pool] at h; subst h; simp
  | cons e t ih =>
    cases e with
    | got g m =>
      have := ih ((g, m) :: l) (by simpa [pool] using h)
      simp only [List.count_cons] at this ⊢
      by_cases e : g = f ∧ m = n
      · obtain ⟨rfl, rfl⟩ := e; simp at this ⊢; omega
      · have e1 : (Ev.got g m == Ev.got f n) = false := by simpa using e
        have e2 : ((g, m) == (f, n)) = false := by simpa using e
        simp [e1, e2] at this ⊢; omega
    | gave g m =>
      simp only [pool, Option.bind_some] at h
      by_cases hm : (g, m) ∈ l
      · simp only [hm, if_true] at h
        have := ih _ h
        simp only [List.count_cons, List.count_erase] at this ⊢
        have hp : 0 < l.count (g, m) := List.count_pos_iff.mpr hm
        by_cases e : g = f ∧ m = n
        · obtain ⟨rfl, rfl⟩ := e; simp at this ⊢; omega
        · have e1 : (Ev.gave g m == Ev.gave f n) = false := by simpa using e
          have e2 : ((g, m) == (f, n)) = false := by simpa using e
          simp [e1, e2] at this ⊢; omega
      · simp [hm, pool_none] at h

/-- The blocks in use are those of `L`. -/
def Has (s : St) (L : List (Fam × Nat)) : Prop := ∃ l, pool s.trace (some []) = some l ∧ l.Perm L

theorem proper_of_has {s : St} {L} (h : Has s L) : Proper s.trace := by
  obtain ⟨l, hl, _⟩ := h
  intro p ⟨q, hq⟩ f n
  rw [← hq, pool_append] at hl
  cases hp : pool p (some []) with
  | none => simp [hp, pool_none] at hl
  | some l' => have := pool_count p [] l' hp f n; simp at this; omega

theorem settled_of_has {s : St} (h : Has s []) : Settled s.trace := by
  obtain ⟨l, hl, hp⟩ := h
  intro f n
  have := pool_count s.trace [] l hl f n
  rw [List.Perm.eq_nil hp] at this
  simpa using this

theorem has_take {s : St} {L} (f : Fam) (h : Has s L) : Has (take f s).2 ((f, s.next) :: L) := by
  obtain ⟨l, hl, hp⟩ := h
  exact ⟨(f, s.next) :: l, by simp [take, pool_append, hl, pool], hp.cons _⟩

theorem has_perm {s : St} {L L'} (h : Has s L) (p : L.Perm L') : Has s L' :=
  ⟨h.choose, h.choose_spec.1, h.choose_spec.2.trans p⟩

theorem has_give {s : St} {L} (f : Fam) (n : Nat) (h : Has s ((f, n) :: L)) : Has (give f s (some n)) L := by
  obtain ⟨l, hl, hp⟩ := h
  have hm : (f, n) ∈ l := hp.mem_iff.mpr (by simp)
  exact ⟨l.erase (f, n), by simp [give, pool_append, hl, pool, hm], by simpa using hp.erase (f, n)⟩

/-- The blocks of an optional pointer. -/
def opt (f : Fam) : Option Nat → List (Fam × Nat)
  | none => []
  | some n => [(f, n)]

theorem has_give_opt {s : St} {L} (f : Fam) (p : Option Nat) (h : Has s (opt f p ++ L)) : Has (give f s p) L := by
  cases p with
  | none => simpa [give, opt] using h
  | some n => exact has_give f n (by simpa [opt] using h)

/-- The bodies held. -/
def bodiesOf (f : Fam) (l : List (Option Nat)) : List (Fam × Nat) := l.flatMap (opt f)

theorem bodies_set {f : Fam} {l : List (Option Nat)} {i : Nat} {old : Option Nat} (p : Option Nat) (h : l[i]? = some old) :
    ∃ R, (bodiesOf f l).Perm (opt f old ++ R) ∧ (bodiesOf f (l.set i p)).Perm (opt f p ++ R) := by
  induction l generalizing i with
  | nil => simp at h
  | cons a t ih =>
    cases i with
    | zero =>
      simp at h; subst h
      exact ⟨bodiesOf f t, by simp [bodiesOf], by simp [bodiesOf]⟩
    | succ i =>
      simp at h
      obtain ⟨R, h1, h2⟩ := ih h
      have sw : ∀ x : List (Fam × Nat), (opt f a ++ (x ++ R)).Perm (x ++ (opt f a ++ R)) := fun x => by
        rw [← List.append_assoc, ← List.append_assoc]; exact List.perm_append_comm.append_right R
      refine ⟨opt f a ++ R, ?_, ?_⟩
      · have : bodiesOf f (a :: t) = opt f a ++ bodiesOf f t := rfl
        rw [this]; exact (h1.append_left _).trans (sw _)
      · have : bodiesOf f ((a :: t).set (i + 1) p) = opt f a ++ bodiesOf f (t.set i p) := rfl
        rw [this]; exact (h2.append_left _).trans (sw _)

/-- Everything but blocks stays. -/
structure Same (s s' : St) : Prop where
  orc : s'.orc = s.orc
  json : s'.json = s.json
  curl : s'.curl = s.curl
  calloc : s'.curlCalloc = s.curlCalloc
  inits : s'.inits = s.inits
  bodies : s'.bodies = s.bodies

theorem Same.refl (s : St) : Same s s := ⟨rfl, rfl, rfl, rfl, rfl, rfl⟩
theorem Same.trans {a b c : St} (h : Same a b) (k : Same b c) : Same a c :=
  ⟨k.orc.trans h.orc, k.json.trans h.json, k.curl.trans h.curl, k.calloc.trans h.calloc, k.inits.trans h.inits, k.bodies.trans h.bodies⟩
theorem same_take (f : Fam) (s : St) : Same s (take f s).2 := ⟨rfl, rfl, rfl, rfl, rfl, rfl⟩
theorem same_give (f : Fam) (s : St) (p) : Same s (give f s p) := by cases p <;> exact ⟨rfl, rfl, rfl, rfl, rfl, rfl⟩

theorem setBody_has {s : St} {old} {b : Body} {L} (h : Has s (opt s.orc old ++ L)) (hj : b = .json → s.json = s.orc) :
    Has (setBody s old b).2 (opt s.orc (setBody s old b).1 ++ L) ∧ Same s (setBody s old b).2 := by
  have h1 := has_give_opt s.orc old h
  have s1 := same_give s.orc s old
  cases b with
  | text e =>
    refine ⟨?_, s1.trans (same_take _ _)⟩
    have := has_take s.orc h1
    simpa [setBody, opt, s1.orc, take] using this
  | binary =>
    refine ⟨?_, s1.trans (same_take _ _)⟩
    have := has_take s.orc h1
    simpa [setBody, opt, s1.orc, take] using this
  | json =>
    refine ⟨?_, s1.trans (same_take _ _)⟩
    have := has_take s.json h1
    have e := hj rfl
    simpa [setBody, opt, s1.orc, s1.json, take, e] using this
  | nothing => exact ⟨by simpa [setBody, opt] using h1, s1⟩

theorem setBodies_has {s : St} {p} (l : List Body) {L} (h : Has s (opt s.orc p ++ L)) (hj : .json ∈ l → s.json = s.orc) :
    Has (setBodies s p l).2 (opt s.orc (setBodies s p l).1 ++ L) ∧ Same s (setBodies s p l).2 := by
  induction l generalizing s p with
  | nil => exact ⟨h, Same.refl s⟩
  | cons b t ih =>
    obtain ⟨h1, s1⟩ := setBody_has (b := b) h (fun e => hj (by simp [e]))
    have := ih (s := (setBody s p b).2) (p := (setBody s p b).1) (by rw [s1.orc]; exact h1)
      (fun e => by rw [s1.json, s1.orc]; exact hj (by simp [e]))
    rw [s1.orc] at this
    exact ⟨this.1, s1.trans this.2⟩

theorem fromMhd_has {s : St} {b L} (h : Has s L) :
    Has (fromMhd b s).2 (opt .libc (fromMhd b s).1 ++ L) ∧ Same s (fromMhd b s).2 := by
  cases b with
  | false => exact ⟨by simpa [fromMhd, opt] using h, Same.refl s⟩
  | true => exact ⟨by simpa [fromMhd, opt, take] using has_take .libc h, same_take _ _⟩

theorem fromMhd_false (s : St) : fromMhd false s = (none, s) := rfl

theorem answer_has {s : St} {new copy buffer L} (h : Has s (opt s.orc buffer ++ L)) (hn : new = true ∨ s.orc = .libc) :
    Has (answer new copy s buffer) L ∧ Same s (answer new copy s buffer) := by
  unfold answer
  cases new with
  | true => exact ⟨by simpa using has_give_opt _ _ h, by simpa using same_give _ _ _⟩
  | false =>
    have e : s.orc = .libc := by simpa using hn
    rw [e] at h
    exact ⟨by simpa [flagOf] using has_give_opt _ _ h, by simpa [flagOf] using same_give _ _ _⟩

theorem serve_has {s : St} {x : Served} {L} (h : Has s L) (hu : x.user = false ∨ s.orc = .libc) (hn : x.new = true ∨ s.orc = .libc)
    (hj : .json ∈ x.bodies → s.json = s.orc) : Has (serve x s) L ∧ Same s (serve x s) := by
  obtain ⟨h1, s1⟩ := fromMhd_has (b := x.user) h
  obtain ⟨h2, s2⟩ := fromMhd_has (b := x.user && x.pass) h1
  have cred : ∀ b : Bool, (b = true → x.user = true) → ∀ t : St, opt .libc (fromMhd b t).1 = opt s.orc (fromMhd b t).1 := by
    intro b hb t
    cases b with
    | false => rfl
    | true =>
      have e : s.orc = .libc := by rcases hu with h | h; · simp [hb rfl] at h
                                   · exact h
      rw [e]
  rw [cred x.user (fun e => e), cred (x.user && x.pass) (fun e => by simp at e; exact e.1)] at h2
  have s12 := s1.trans s2
  revert h2 s12
  unfold serve
  generalize fromMhd x.user s = a
  obtain ⟨u, sa⟩ := a
  dsimp only
  generalize fromMhd (x.user && x.pass) sa = b
  obtain ⟨p, sb⟩ := b
  dsimp only
  intro h2 s12
  obtain ⟨h3, s3⟩ := setBodies_has (s := sb) (p := none) x.bodies (by simpa [opt] using h2)
    (fun e => by rw [s12.json, s12.orc]; exact hj e)
  rw [s12.orc] at h3
  have s13 := s12.trans s3
  revert h3 s13
  generalize setBodies sb none x.bodies = c
  obtain ⟨body, sc⟩ := c
  dsimp only
  intro h3 s13
  -- the buffer
  have hb : ∃ q : Option Nat × St, (if x.error || sendsBody x.bodies then (let (n, s) := take sc.orc sc; (some n, s)) else (none, sc)) = q ∧
      Has q.2 (opt s.orc q.1 ++ (opt s.orc body ++ (opt s.orc p ++ (opt s.orc u ++ L)))) ∧ Same s q.2 := by
    refine ⟨_, rfl, ?_⟩
    split
    · have := has_take sc.orc h3
      rw [s13.orc] at this
      exact ⟨by simpa [opt, take, s13.orc] using this, s13.trans (same_take _ _)⟩
    · exact ⟨by simpa [opt] using h3, s13⟩
  obtain ⟨⟨buf, sd⟩, eq, h4, s14⟩ := hb
  rw [eq]
  dsimp only at h4 s14 ⊢
  obtain ⟨h5, s5⟩ := answer_has (new := x.new) (copy := x.copy) (s := sd) (buffer := buf) (by rw [s14.orc]; exact h4)
    (by rw [s14.orc]; exact hn)
  have s15 := s14.trans s5
  generalize answer x.new x.copy sd buf = se at h5 s15 ⊢
  have h6 := has_give_opt s.orc body h5
  have s16 := s15.trans (same_give s.orc se body)
  rw [show se.orc = s.orc from s15.orc]
  generalize give s.orc se body = sf at h6 s16 ⊢
  have h7 := has_give_opt s.orc u (has_perm (L' := opt s.orc u ++ (opt s.orc p ++ L)) h6 (by
    rw [← List.append_assoc, ← List.append_assoc]; exact List.perm_append_comm.append_right L))
  have s17 := s16.trans (same_give s.orc sf u)
  rw [show sf.orc = s.orc from s16.orc]
  generalize give s.orc sf u = sg at h7 s17 ⊢
  rw [show sg.orc = s.orc from s17.orc]
  exact ⟨has_give_opt s.orc p h7, s17.trans (same_give s.orc sg p)⟩

theorem escape_has {s : St} (g : Fam) (v : Bool) {L} (h : Has s L) (e : g = s.curl) :
    let s1 := (take s.curl s).2
    let s2 := if v then give g (take s1.curl s1).2 (some s1.next) else s1
    Has (give g s2 (some s.next)) L ∧ Same s (give g s2 (some s.next)) := by
  subst e
  have h1 := has_take s.curl h
  cases v with
  | false => exact ⟨has_give _ _ h1, (same_take _ _).trans (same_give _ _ _)⟩
  | true =>
    have h2 := has_give _ _ (has_take s.curl h1)
    exact ⟨has_give _ _ h2, ⟨rfl, rfl, rfl, rfl, rfl, rfl⟩⟩

theorem escapeUrl_has {s : St} (v : Bool) {L} (h : Has s L) : Has (escapeUrl s v) L ∧ Same s (escapeUrl s v) := by
  have := escape_has s.curl v h rfl
  cases v <;> exact this

theorem escapePost_has {s : St} (v : Bool) {L} (h : Has s L) (e : s.orc = s.curl) : Has (escapePost s v) L ∧ Same s (escapePost s v) := by
  have := escape_has s.orc v h e
  cases v <;> exact this

theorem each_has (g : St → Bool → St) (C : St → Prop) (hg : ∀ s v L, C s → Has s L → Has (g s v) L ∧ Same s (g s v))
    (hC : ∀ s s', Same s s' → C s → C s') (l : List Bool) {s : St} {L} (c : C s) (h : Has s L) :
    Has (each g s l) L ∧ Same s (each g s l) := by
  induction l generalizing s with
  | nil => exact ⟨h, Same.refl s⟩
  | cons v t ih =>
    obtain ⟨h1, s1⟩ := hg s v L c h
    obtain ⟨h2, s2⟩ := ih (hC _ _ s1 c) h1
    exact ⟨h2, s1.trans s2⟩

/-- What holds between the steps. -/
structure Inv (f : Fam) (s : St) : Prop where
  has : Has s (bodiesOf f s.bodies)
  orc : s.orc = f
  curl : s.curl = .libc
  calloc : s.curlCalloc = .libc

/-- A step the invariant allows. -/
def Allowed (f : Fam) (s : St) (o : Op) : Prop :=
  (o = .setAlloc → f = .own) ∧ (UsesJson o → s.json = f) ∧
  (∀ x, o = .serve x → (x.user = false ∨ f = .libc) ∧ (x.new = true ∨ f = .libc)) ∧
  (∀ u p, o = .send u p → p = [] ∨ f = .libc)

theorem inv_of_same {f : Fam} {s s' : St} (i : Inv f s) (h : Has s' (bodiesOf f s.bodies)) (e : Same s s') : Inv f s' :=
  ⟨by rw [e.bodies]; exact h, e.orc.trans i.orc, e.curl.trans i.curl, e.calloc.trans i.calloc⟩

theorem curlInit_inv {f : Fam} {s : St} (i : Inv f s) : Inv f (curlInit s) := by
  unfold curlInit
  split
  · exact ⟨i.has, i.orc, rfl, rfl⟩
  · exact ⟨i.has, i.orc, i.curl, i.calloc⟩

theorem curlInit_some (s : St) : (curlInit s).inits ≠ 0 := by
  unfold curlInit; split <;> simp

theorem send_inv {f : Fam} {s : St} {u p : List Bool} (i : Inv f s) (hp : p = [] ∨ f = .libc) : Inv f (sendRequest u p s) := by
  have i0 : Inv f (if s.inits = 0 then curlInit s else s) := by split <;> first | exact curlInit_inv i | exact i
  unfold sendRequest
  generalize (if s.inits = 0 then curlInit s else s) = s0 at i0 ⊢
  have h1 := has_take s0.curlCalloc i0.has
  have s1 := same_take s0.curlCalloc s0
  obtain ⟨h2, s2⟩ := each_has escapeUrl (fun _ => True) (fun s v L _ h => escapeUrl_has v h) (fun _ _ _ _ => trivial) u trivial h1
  have s12 := s1.trans s2
  have : Has (each escapePost (each escapeUrl (take s0.curlCalloc s0).2 u) p) ((s0.curlCalloc, s0.next) :: bodiesOf f s0.bodies) ∧
      Same (each escapeUrl (take s0.curlCalloc s0).2 u) (each escapePost (each escapeUrl (take s0.curlCalloc s0).2 u) p) := by
    rcases hp with rfl | rfl
    · exact ⟨h2, Same.refl _⟩
    · exact each_has escapePost (fun s => s.orc = s.curl) (fun s v L e h => escapePost_has v h e)
        (fun a b e h => by rw [e.orc, e.curl, h]) p (by rw [s12.orc, s12.curl, i0.orc, i0.curl]) h2
  obtain ⟨h3, s3⟩ := this
  have s13 := s12.trans s3
  refine inv_of_same i0 ?_ (s13.trans (same_give _ _ _))
  have e : (each escapePost (each escapeUrl (take s0.curlCalloc s0).2 u) p).curl = s0.curlCalloc := by
    rw [s13.curl, i0.curl, i0.calloc]
  show Has (give (each escapePost (each escapeUrl (take s0.curlCalloc s0).2 u) p).curl _ (some s0.next)) _
  rw [e]
  exact has_give _ _ h3

theorem step_inv {f : Fam} {s : St} {o : Op} (i : Inv f s) (a : Allowed f s o) : Inv f (step s o) := by
  obtain ⟨a1, a2, a3, a4⟩ := a
  cases o with
  | setAlloc => have := a1 rfl; subst this; exact ⟨i.has, rfl, i.curl, i.calloc⟩
  | globalInit =>
    have j := curlInit_inv i
    have n := curlInit_some s
    show Inv f (globalInit s)
    unfold globalInit curlInitMem
    simp only [n, if_false]
    exact ⟨j.has, j.orc, j.curl, j.calloc⟩
  | globalClose => exact ⟨i.has, i.orc, i.curl, i.calloc⟩
  | start => exact ⟨i.has, i.orc, i.curl, i.calloc⟩
  | startOptions => exact i
  | newMessage =>
    refine ⟨?_, i.orc, i.curl, i.calloc⟩
    show Has (newMessage s) (bodiesOf f (s.bodies ++ [none]))
    have : bodiesOf f (s.bodies ++ [none]) = bodiesOf f s.bodies := by simp [bodiesOf, opt]
    rw [this]; exact i.has
  | setMessage k b =>
    show Inv f (setMessage s k b)
    unfold setMessage
    split
    · exact i
    · rename_i old h
      obtain ⟨R, p1, p2⟩ := bodies_set (f := f) (setBody s old b).1 h
      obtain ⟨h1, s1⟩ := setBody_has (s := s) (old := old) (b := b) (L := R) (by rw [i.orc]; exact has_perm i.has p1)
        (fun e => by rw [i.orc]; exact a2 e)
      rw [i.orc] at h1
      refine ⟨?_, s1.orc.trans i.orc, s1.curl.trans i.curl, s1.calloc.trans i.calloc⟩
      show Has _ (bodiesOf f ((setBody s old b).2.bodies.set k (setBody s old b).1))
      rw [s1.bodies]
      exact has_perm h1 p2.symm
  | cleanMessage k =>
    show Inv f (cleanMessage s k)
    unfold cleanMessage
    split
    · exact i
    · rename_i old h
      obtain ⟨R, p1, p2⟩ := bodies_set (f := f) none h
      have s1 := same_give s.orc s old
      have h1 := has_give_opt s.orc old (by rw [i.orc]; exact has_perm i.has p1)
      refine ⟨?_, s1.orc.trans i.orc, s1.curl.trans i.curl, s1.calloc.trans i.calloc⟩
      show Has _ (bodiesOf f ((give s.orc s old).bodies.set k none))
      rw [s1.bodies]
      exact has_perm h1 p2.symm
  | wsJson =>
    have e : s.json = s.orc := by rw [i.orc]; exact a2 trivial
    refine inv_of_same i ?_ ⟨rfl, rfl, rfl, rfl, rfl, rfl⟩
    show Has (give s.orc (take s.json s).2 (some s.next)) _
    rw [← e]
    exact has_give _ _ (has_take _ i.has)
  | serve x =>
    obtain ⟨b1, b2⟩ := a3 x rfl
    obtain ⟨h1, s1⟩ := serve_has (x := x) i.has (by rw [i.orc]; exact b1) (by rw [i.orc]; exact b2) (fun e => by rw [i.orc]; exact a2 e)
    exact inv_of_same i h1 s1
  | send u p => exact send_inv i (a4 u p rfl)

theorem bodies_none {f : Fam} {l : List (Option Nat)} (h : ∀ b ∈ l, b = none) : bodiesOf f l = [] := by
  simp only [bodiesOf, List.flatMap_eq_nil_iff]
  intro b hb; rw [h b hb]; rfl

theorem json_serve (x : Served) (s : St) : (serve x s).json = s.json := by
  have b : ∀ (b : Bool) (s : St), (fromMhd b s).2.json = s.json := by intro b s; cases b <;> rfl
  have g : ∀ f (s : St) p, (give f s p).json = s.json := by intro f s p; cases p <;> rfl
  have sb : ∀ (s : St) p (c : Body), (setBody s p c).2.json = s.json := by
    intro s p c; cases c <;> simp [setBody, take, g]
  have sbs : ∀ (l : List Body) (s : St) p, (setBodies s p l).2.json = s.json := by
    intro l; induction l with
    | nil => intro s p; rfl
    | cons c t ih => intro s p; show (setBodies (setBody s p c).2 (setBody s p c).1 t).2.json = _; rw [ih, sb]
  have an : ∀ n c (s : St) p, (answer n c s p).json = s.json := by
    intro n c s p; cases n <;> simp [answer, flagOf, g]
  unfold serve
  simp only [g, an]
  split <;> simp [take, sbs, b]

theorem json_send (u p : List Bool) (s : St) : (sendRequest u p s).json = s.json := by
  have g : ∀ f (s : St) p, (give f s p).json = s.json := by intro f s p; cases p <;> rfl
  have e : ∀ (h : St → Bool → St), (∀ s v, (h s v).json = s.json) → ∀ (l : List Bool) (s : St), (each h s l).json = s.json := by
    intro h hh l; induction l with
    | nil => intro s; rfl
    | cons v t ih => intro s; show (each h (h s v) t).json = _; rw [ih, hh]
  have a : ∀ s v, (escapeUrl s v).json = s.json := by intro s v; cases v <;> rfl
  have b : ∀ s v, (escapePost s v).json = s.json := by intro s v; cases v <;> rfl
  unfold sendRequest
  simp only [g, e _ a, e _ b, take]
  split
  · unfold curlInit; split <;> rfl
  · rfl

theorem json_step {f : Fam} {s : St} {o : Op} (ho : s.orc = f) (h : s.json = f) (hf : o = .setAlloc → f = .own) : (step s o).json = f := by
  cases o with
  | setAlloc => exact h
  | globalInit =>
    show (curlInitMem _ _ (curlInit s)).orc = f
    have : ∀ (a b : Fam) (t : St), (curlInitMem a b t).orc = t.orc := by intro a b t; unfold curlInitMem; split <;> rfl
    rw [this]; unfold curlInit; split <;> exact ho
  | globalClose => exact h
  | start => exact ho
  | startOptions => exact h
  | newMessage => exact h
  | setMessage k b =>
    show (setMessage s k b).json = f
    unfold setMessage; split
    · exact h
    · rename_i old _
      cases b <;> cases old <;> exact h
  | cleanMessage k =>
    show (cleanMessage s k).json = f
    unfold cleanMessage; split
    · exact h
    · rename_i old _; cases old <;> exact h
  | wsJson => exact h
  | serve x => exact (json_serve x s).trans h
  | send u p => exact (json_send u p s).trans h

theorem json_ready {f : Fam} {s : St} {o : Op} (ho : s.orc = f) (h : o = .globalInit ∨ o = .start) : (step s o).json = f := by
  rcases h with rfl | rfl
  · show (curlInitMem _ _ (curlInit s)).orc = f
    have : ∀ (a b : Fam) (t : St), (curlInitMem a b t).orc = t.orc := by intro a b t; unfold curlInitMem; split <;> rfl
    rw [this]; unfold curlInit; split <;> exact ho
  · exact ho

/-- The steps of a program from a state in which jansson may or may not have the right functions. -/
theorem run_inv {f : Fam} (ops : List Op) {s : St} (i : Inv f s) (h1 : .setAlloc ∈ ops → f = .own)
    (h2 : ∀ pre o post, ops = pre ++ o :: post → UsesJson o → s.json = f ∨ .globalInit ∈ pre ∨ .start ∈ pre)
    (h3 : ∀ x, .serve x ∈ ops → (x.user = false ∨ f = .libc) ∧ (x.new = true ∨ f = .libc))
    (h4 : ∀ u p, .send u p ∈ ops → p = [] ∨ f = .libc) : Inv f (run s ops) := by
  induction ops generalizing s with
  | nil => exact i
  | cons o t ih =>
    have al : Allowed f s o := by
      refine ⟨fun e => h1 (by simp [e]), fun u => ?_, fun x e => h3 x (by simp [e]), fun u p e => h4 u p (by simp [e])⟩
      rcases h2 [] o t rfl u with h | h | h
      · exact h
      · simp at h
      · simp at h
    have j := step_inv i al
    refine ih j (fun e => h1 (by simp [e])) (fun pre o' post e u => ?_) (fun x e => h3 x (by simp [e])) (fun u p e => h4 u p (by simp [e]))
    rcases h2 (o :: pre) o' post (by simp [e]) u with h | h | h
    · exact Or.inl (json_step i.orc h (fun e => h1 (by simp [e])))
    · rcases List.mem_cons.mp h with h | h
      · exact Or.inl (json_ready i.orc (Or.inl h.symm))
      · exact Or.inr (Or.inl h)
    · rcases List.mem_cons.mp h with h | h
      · exact Or.inl (json_ready i.orc (Or.inr h.symm))
      · exact Or.inr (Or.inr h)

end Pool
open Pool

/-- C176: in a program that does not choose allocation functions, whatever it does and whatever is asked of its server, every block goes back to
the functions it came from, at most once, and when the bodies are cleaned nothing is left. -/
theorem C176_default (ops : List Op) (h : .setAlloc ∉ ops) :
    Proper (run {} ops).trace ∧ ((∀ b ∈ (run {} ops).bodies, b = none) → Settled (run {} ops).trace) := by
  have i : Inv .libc ({} : St) := ⟨⟨[], rfl, .nil⟩, rfl, rfl, rfl⟩
  have j := run_inv ops i (fun e => absurd e h)
    (fun _ _ _ _ _ => Or.inl rfl) (fun _ _ => ⟨Or.inr rfl, Or.inr rfl⟩) (fun _ _ _ => Or.inr rfl)
  refine ⟨proper_of_has j.has, fun hb => settled_of_has ?_⟩
  have := j.has
  rwa [bodies_none hb] at this

/-- C176: a program that chooses its functions first, uses JSON only after `ulfius_global_init` or `ulfius_start_framework` (and its secure
variants), has a libmicrohttpd since 0.9.61, is never sent credentials and sends no form gets exactly its own blocks back.
Missing: the cases of the theorems below, where this fails. -/
theorem C176_own_partial (ops : List Op)
    (json : ∀ pre o post, ops = pre ++ o :: post → UsesJson o → .globalInit ∈ pre ∨ .start ∈ pre)
    (served : ∀ x, .serve x ∈ ops → x.user = false ∧ x.new = true) (form : ∀ u p, .send u p ∈ ops → p = []) :
    Proper (run {} (.setAlloc :: ops)).trace ∧
      ((∀ b ∈ (run {} (.setAlloc :: ops)).bodies, b = none) → Settled (run {} (.setAlloc :: ops)).trace) := by
  have i : Inv .own (step {} .setAlloc) := ⟨⟨[], rfl, .nil⟩, rfl, rfl, rfl⟩
  have j := run_inv ops i (fun _ => rfl)
    (fun pre o post e u => Or.inr (json pre o post e u))
    (fun x e => ⟨Or.inl (served x e).1, Or.inl (served x e).2⟩) (fun u p e => Or.inl (form u p e))
  refine ⟨proper_of_has j.has, fun hb => settled_of_has ?_⟩
  have := j.has
  rwa [show (run (step {} .setAlloc) ops) = run {} (.setAlloc :: ops) from rfl, bodies_none hb] at this

/-- A trace that is not proper, by one of its parts. -/
private theorem improper {t : List Ev} (p : List Ev) (f : Fam) (n : Nat) (hp : p <+: t) (h : p.count (.got f n) < p.count (.gave f n)) : ¬ Proper t :=
  fun k => by have := k p hp f n; omega

/-- C176 is false of the code: a client that sends credentials makes the server release with the functions of the program what libmicrohttpd took
from `malloc`. -/
theorem C176_credentials_false : ∃ x : Served, x.new = true ∧ x.bodies = [.text false] ∧
    ¬ Proper (run {} [.setAlloc, .globalInit, .start, .serve x]).trace :=
  ⟨{ user := true, pass := true, bodies := [.text false] }, rfl, rfl, improper _ .own 0 (List.prefix_refl _) (by decide)⟩

/-- C176 is false of the code: the parameters of a form are escaped by curl and released by `o_free`; those of the URL are released by
`curl_free`. -/
theorem C176_form_false : ¬ Proper (run {} [.setAlloc, .globalInit, .send [] [true]]).trace ∧
    Proper (run {} [.setAlloc, .globalInit, .send [true] []]).trace :=
  ⟨improper _ .own 1 (List.prefix_refl _) (by decide),
   (C176_own_partial [.globalInit, .send [true] []]
    (fun pre o post e u => by
      have : o ∈ [Op.globalInit, .send [true] []] := by rw [e]; simp
      simp at this
      rcases this with rfl | rfl <;> exact u.elim)
    (fun x e => by simp at e) (fun u p e => by simp at e; exact e.2)).1⟩

/-- C176 is false of the code: `ulfius_start_framework_with_mhd_options` does not tell jansson, so a JSON body comes from `malloc` and goes to the
functions of the program; after `ulfius_start_framework` it does not. -/
theorem C176_json_false : ¬ Proper (run {} [.setAlloc, .startOptions, .serve { bodies := [.json] }]).trace ∧
    Proper (run {} [.setAlloc, .start, .serve { bodies := [.json] }]).trace := by
  refine ⟨improper _ .own 0 (List.prefix_refl _) (by decide), (C176_own_partial [.start, .serve { bodies := [.json] }] ?_ ?_ ?_).1⟩
  · intro pre o post e u
    cases pre with
    | nil => simp at e; rw [← e.1] at u; exact u.elim
    | cons a t => simp at e; simp [e.1]
  · intro x e; simp at e; subst e; exact ⟨rfl, rfl⟩
  · intro u p e; simp at e

/-- C176 is false of the code: before version 0.9.61 of libmicrohttpd the body of a response goes to `free`, also if `mhd_response_copy_data` is set,
which the manual asks for in this case. -/
theorem C176_old_false : ∀ copy, ¬ Proper (run {} [.setAlloc, .start, .serve { bodies := [.text false], new := false, copy := copy }]).trace := by
  intro copy
  cases copy <;> exact improper _ .libc 1 (List.prefix_refl _) (by decide)

/-- C176 is false of the code: `ulfius_global_init` does not pass the functions on to curl, as the manual says; its blocks still come from `malloc`. -/
theorem C176_curl_false :
    (run {} [.setAlloc, .globalInit, .send [true] []]).trace = [.got .libc 0, .got .libc 1, .got .libc 2, .gave .libc 2, .gave .libc 1, .gave .libc 0] := by
  decide

/-- C176 is false of the code: after `ulfius_global_init` and `ulfius_global_close` curl is still initialised, because it was initialised twice. -/
theorem C176_close_false : (run {} [.globalInit, .globalClose]).inits = 1 := by decide

/-- A program with two messages whose bodies change, JSON, a request that is served and one that is sent. -/
private def sample : List Op := [.globalInit, .start, .newMessage, .newMessage, .setMessage 0 (.text false), .setMessage 1 .json, .setMessage 0 .json,
  .serve { bodies := [.text true, .json] }, .send [true, false] [], .wsJson, .cleanMessage 1, .serve { error := true }, .cleanMessage 0, .globalClose]

-- the hypotheses of C176_own_partial are met and something happens
example : Settled (run {} (.setAlloc :: sample)).trace ∧ (run {} (.setAlloc :: sample)).trace.length = 24 := by
  refine ⟨(C176_own_partial sample ?_ ?_ ?_).2 (by decide), by decide⟩
  · intro pre o post e u
    cases pre with
    | nil => simp [sample] at e; rw [← e.1] at u; exact u.elim
    | cons a t => simp [sample] at e; simp [e.1]
  · intro x e; simp [sample] at e; rcases e with rfl | rfl <;> exact ⟨rfl, rfl⟩
  · intro u p e; simp [sample] at e; exact e.2

-- without own functions credentials, forms and old versions do no harm
example : Settled (run {} [.startOptions, .serve { user := true, pass := true, bodies := [.json], new := false, copy := true }, .send [true] [true, false]]).trace :=
  (C176_default _ (by simp)).2 (by decide)

end Verif.Props
