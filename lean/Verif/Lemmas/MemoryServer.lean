import Verif.Model.MemoryServer
import Verif.Lemmas.MemoryRequest
import Verif.Lemmas.MemoryResponse
/-! # Blocks of the server for a request -/
namespace Verif.Memory
open Verif.UMap (Rc)
open Verif.Endpoint (Endpoint slashWords splitUrl formatMatch skipPrefix byte0)

/-! ## Maps -/

theorem own_seek {c : Nat → Nat} (k : Bytes) (es : List Entry) (d : Nat → Nat) {h : Heap} (o : Own h c) (e : ∀ n, c n = cE es n + d n) :
    ∃ x, seek h k es = .ok x := by
  induction es generalizing d with
  | nil => exact ⟨none, rfl⟩
  | cons x t ih =>
    have hk : need h x.kp = .ok () := own_need (d := fun n => cK x.key n + cA x.vp n + cE t n + d n) o (by intro n; rw [e n]; simp only [cE]; omega)
    have hv : need h x.vp = .ok () := own_need (d := fun n => cK x.key n + cA x.kp n + cE t n + d n) o (by intro n; rw [e n]; simp only [cE]; omega)
    obtain ⟨y, ey⟩ := ih (fun n => cK x.key n + cA x.kp n + cA x.vp n + d n) (by intro n; rw [e n]; simp only [cE]; omega)
    by_cases hx : x.key = k
    · exact ⟨some x.len, by simp [seek, hk, hv, hx]⟩
    · exact ⟨y, by simp [seek, hk, hx, ey]⟩

theorem own_seekM {h : Heap} {c d : Nat → Nat} {m : RMap} (k : Bytes) (o : Own h c) (e : ∀ n, c n = cM m n + d n) :
    ∃ x, seek h k m.entries = .ok x :=
  own_seek k m.entries (fun n => cA m.box n + cA m.keys n + cA m.values n + cA m.lengths n + d n) o (by intro n; rw [e n]; simp only [cM]; omega)

theorem own_box {h : Heap} {c d : Nat → Nat} {m : RMap} (o : Own h c) (e : ∀ n, c n = cM m n + d n) :
    need h m.box = .ok () ∧ need h m.keys = .ok () :=
  ⟨own_need (d := fun n => cA m.keys n + cA m.values n + cA m.lengths n + cE m.entries n + d n) o (by intro n; rw [e n]; simp only [cM]; omega),
   own_need (d := fun n => cA m.box n + cA m.values n + cA m.lengths n + cE m.entries n + d n) o (by intro n; rw [e n]; simp only [cM]; omega)⟩

theorem own_mapEmpty {h : Heap} {c d : Nat → Nat} {m : RMap} (o : Own h c) (e : ∀ n, c n = cM m n + d n) :
    ∃ m' h', mapEmpty h m = .ok (m', h') ∧ m'.box = m.box ∧ Own h' (fun n => cM m' n + d n) := by
  obtain ⟨h1, e1, o1⟩ := own_mapClean o e
  obtain ⟨m2, h2, e2, b2, o2, l2⟩ := own_mapInit m.box o1
  exact ⟨m2, h2, by simp [mapEmpty, e1, e2], b2, o2.congr (by intro n; have := l2 n; omega)⟩

theorem own_mapCopyInto {h : Heap} {c d : Nat → Nat} {m s : RMap} (o : Own h c) (e : ∀ n, c n = cM m n + (cM s n + d n)) :
    ∃ m' h', mapCopyInto h m s = .ok (m', h') ∧ m'.box = m.box ∧ Own h' (fun n => cM m' n + (cM s n + d n)) := by
  obtain ⟨hb, hk⟩ := own_box (m := s) (d := fun n => cM m n + d n) o (by intro n; rw [e n]; omega)
  obtain ⟨b, m1, h1, e1, b1, o1⟩ := own_copyEntries (m := m) s.entries (fun n => cA s.box n + cA s.keys n + cA s.values n + cA s.lengths n + d n) o
    (by intro n; rw [e n]; simp only [cM]; omega)
  exact ⟨m1, h1, by simp [mapCopyInto, hb, hk, e1], b1, o1.congr (by intro n; simp only [cM]; omega)⟩

theorem own_putB {h : Heap} {c d : Nat → Nat} {m : RMap} (k v : Option Bytes) (o : Own h c) (e : ∀ n, c n = cM m n + d n) :
    ∃ rc m' h', put h m k v = .ok (rc, m', h') ∧ m'.box = m.box ∧ Own h' (fun n => cM m' n + d n) := by
  unfold put
  obtain ⟨rc, m', h', e1, b1, o1⟩ := own_putBinary (m := m) (d := d) k v.isSome _ o e
  exact ⟨rc, m', h', e1, b1, o1⟩

/-- `u_map_put_binary` with a block of its own that is freed after it. -/
theorem own_putTemp {h : Heap} {c d : Nat → Nat} {m : RMap} (k : Option Bytes) (total : Nat) (o : Own h c) (e : ∀ n, c n = cM m n + d n) :
    ∃ t h1 rc m' h2 h3, malloc h = (t, h1) ∧ putBinary h1 m k true total = .ok (rc, m', h2) ∧ free h2 t = .ok h3 ∧ m'.box = m.box ∧
      Own h3 (fun n => cM m' n + d n) := by
  obtain ⟨t, h1, e1, o1, q1⟩ := own_malloc o
  obtain ⟨rc, m', h2, e2, b2, o2⟩ := own_putBinary (m := m) (d := fun n => cA t n + d n) k true total o1 (by intro n; rw [e n]; omega)
  obtain ⟨h3, e3, o3⟩ := own_freeA (p := t) (d := fun n => cM m' n + d n) o2 (by intro n; omega)
  exact ⟨t, h1, rc, m', h2, h3, e1, e2, e3, b2, o3⟩

theorem own_fillMap (check : Bool) {h : Heap} {c d : Nat → Nat} {m : RMap} (k : Bytes) (v : Option Bytes) (o : Own h c)
    (e : ∀ n, c n = cM m n + d n) :
    ∃ b m' h', fillMap check h m k v = .ok (b, m', h') ∧ m'.box = m.box ∧ Own h' (fun n => cM m' n + d n) := by
  unfold fillMap
  split
  · exact ⟨true, m, h, rfl, rfl, o.congr e⟩
  · obtain ⟨hb, hk⟩ := own_box o e
    obtain ⟨x, ex⟩ := own_seekM k o e
    rw [hb, hk, ex]
    simp only [Res.ok_bind]
    split
    · obtain ⟨t, h1, rc, m', h2, h3, e1, e2, e3, b2, o3⟩ := own_putTemp (some k) (x.getD 0 + 1 + (v.getD []).length) o e
      exact ⟨_, m', h3, by simp [e1, e2, e3]; rfl, b2, o3⟩
    · obtain ⟨rc, m', h', e1, b1, o1⟩ := own_putB (m := m) (d := d) (some k) (some (v.getD [])) o e
      exact ⟨_, m', h', by simp [e1]; rfl, b1, o1⟩

theorem own_collect (check : Bool) {c d : Nat → Nat} (l : List (Bytes × Option Bytes)) {h : Heap} {m : RMap} (o : Own h c)
    (e : ∀ n, c n = cM m n + d n) :
    ∃ m' h', collect check h m l = .ok (m', h') ∧ m'.box = m.box ∧ Own h' (fun n => cM m' n + d n) := by
  induction l generalizing h m c with
  | nil => exact ⟨m, h, rfl, rfl, o.congr e⟩
  | cons x t ih =>
    obtain ⟨k, v⟩ := x
    obtain ⟨b, m1, h1, e1, b1, o1⟩ := own_fillMap check k v o e
    cases b with
    | true =>
      obtain ⟨m2, h2, e2, b2, o2⟩ := ih o1 (fun _ => rfl)
      exact ⟨m2, h2, by simp [collect, e1, e2], b2.trans b1, o2⟩
    | false => exact ⟨m1, h1, by simp [collect, e1], b1, o1⟩

/-- The request is the same except for a map. -/
structure SameSlots (r r' : Req) : Prop where
  slot : r'.slot = r.slot
  len : r'.bodyLen = r.bodyLen

theorem SameSlots.body {r r' : Req} (s : SameSlots r r') (b : BodyOk r) : BodyOk r' := by
  unfold BodyOk; rw [s.slot, s.len]; exact b

theorem own_collectIn (check : Bool) {c d : Nat → Nat} (i : MapId) (l : List (Bytes × Option Bytes)) {h : Heap} {r : Req} (o : Own h c)
    (e : ∀ n, c n = cR r n + d n) :
    ∃ r' h', collectIn check h r i l = .ok (r', h') ∧ Own h' (fun n => cR r' n + d n) ∧ SameSlots r r' := by
  unfold collectIn
  cases hm : r.map i with
  | none => exact ⟨r, h, rfl, o.congr e, rfl, rfl⟩
  | some m =>
    obtain ⟨m', h', e1, -, o1⟩ := own_collect check (m := m) (d := fun n => cRm r i n + d n) l o
      (by intro n; rw [e n, cR_splitMap r i n, hm]; simp only [cX]; omega)
    refine ⟨r.setMap i (some m'), h', by simp [e1], o1.congr ?_, rfl, rfl⟩
    intro n; have := cR_setMap r i (some m') n; simp only [cX] at this; omega

/-! ## Before the callbacks -/

/-- The blocks of the request of a connection. -/
def cQo : Option Req → Nat → Nat
  | none, _ => 0
  | some r, n => cR r n

/-- The blocks of a connection. -/
def cN (con : Con) (n : Nat) : Nat := cM con.initial n + cQo con.request n + cP con.processor n + cL con.queued n

theorem own_completed {h : Heap} {c d : Nat → Nat} {con : Con} (o : Own h c) (e : ∀ n, c n = cN con n + d n) :
    ∃ h', completed h con = .ok h' ∧ Own h' d := by
  obtain ⟨h1, e1, o1⟩ := own_free (p := con.processor) (d := fun n => cQo con.request n + (cM con.initial n + cL con.queued n + d n)) o
    (by intro n; rw [e n]; simp only [cN]; omega)
  have mid : ∃ h2, (match con.request with | some r => cleanRequestFull h1 r | none => Res.ok h1) = .ok h2 ∧
      Own h2 (fun n => cM con.initial n + cL con.queued n + d n) := by
    cases hr : con.request with
    | none => exact ⟨h1, rfl, o1.congr (by intro n; rw [hr]; simp [cQo])⟩
    | some r =>
      obtain ⟨h2, e2, o2⟩ := own_cleanRequestFull (r := r) (d := fun n => cM con.initial n + cL con.queued n + d n) o1 (by intro n; rw [hr]; simp only [cQo])
      exact ⟨h2, e2, o2⟩
  obtain ⟨h2, e2, o2⟩ := mid
  obtain ⟨h3, e3, o3⟩ := own_mapClean (m := con.initial) (d := fun n => cL con.queued n + d n) o2 (by intro n; omega)
  obtain ⟨h4, e4, o4⟩ := own_freeA (p := con.initial.box) (d := fun n => cL con.queued n + d n) o3 (by intro n; omega)
  obtain ⟨h5, e5, o5⟩ := own_freeAll con.queued (d := d) o4 (by intro n; omega)
  refine ⟨h5, ?_, o5⟩
  unfold completed
  rw [e1]
  simp only [Res.ok_bind]
  generalize hx : (match con.request with | some r => cleanRequestFull h1 r | none => Res.ok h1) = x at e2
  have : (match con.request with | some r => cleanRequestFull h1 r | none => Res.ok h1) = .ok h2 := hx.trans e2
  cases hr : con.request with
  | none => rw [hr] at this; simp only at this ⊢; rw [this]; simp [e3, e4, e5]
  | some r => rw [hr] at this; simp only at this ⊢; rw [this]; simp [e3, e4, e5]

theorem own_uriLogger {h : Heap} {c : Nat → Nat} (o : Own h c) :
    ∃ con r h', uriLogger h = .ok (con, h') ∧ con.request = some r ∧ con.processor = .null ∧ con.queued = [] ∧ Own h' (fun n => cN con n + c n) ∧
      r.bodyLen = 0 ∧ ∀ s, s ≠ .url → s ≠ .urlPath → r.slot s = .null := by
  obtain ⟨b, h1, e1, o1, q1⟩ := own_malloc o
  obtain ⟨m, h2, e2, b2, o2, l2⟩ := own_mapInit b o1
  obtain ⟨box, h3, e3, o3, q3⟩ := own_malloc o2
  obtain ⟨r, h4, e4, b4, n4, z4, o4⟩ := own_initRequest (d := fun n => cM m n + c n) box o3 (by
    intro n; rw [q3]; have := l2 n; omega)
  obtain ⟨u, h5, e5, o5, q5⟩ := own_malloc o4
  obtain ⟨p, h6, e6, o6, q6⟩ := own_malloc o5
  refine ⟨⟨m, some ((r.set .url u).set .urlPath p), .null, []⟩, (r.set .url u).set .urlPath p, h6, ?_, rfl, rfl, rfl, o6.congr ?_, ?_, ?_⟩
  · simp [uriLogger, e1, e2, e3, e4, e5, e6]
  · intro n
    have a1 := cR_set (r.set .url u) .urlPath p n
    have a2 := cR_set r .url u n
    have a3 := cR_split (r.set .url u) .urlPath n
    have a4 := cR_split r .url n
    have s1 : (r.set .url u).slot .urlPath = .null := by rw [slot_set_ne _ _ (by decide)]; exact n4 _
    have s2 : r.slot .url = .null := n4 _
    rw [s1, cP_null] at a3
    rw [s2, cP_null] at a4
    have := q5 n
    have := q6 n
    simp only [cN, cQo, cP_null, cL]
    omega
  · exact z4
  · intro s hu hp
    rw [slot_set_ne _ _ hp, slot_set_ne _ _ hu]
    exact n4 _

theorem cR_fill {r : Req} {s : Slot} {p : P} (hs : r.slot s = .null) (n : Nat) : cR (r.set s p) n = cP p n + cR r n := by
  have a1 := cR_set r s p n
  have a2 := cR_split r s n
  rw [hs, cP_null] at a2
  omega

theorem own_certificate {h : Heap} {c d : Nat → Nat} {r : Req} {x : Option Bool} (hx : x ≠ some false) (hs : r.slot .cert = .null) (o : Own h c)
    (e : ∀ n, c n = cR r n + d n) :
    ∃ p h', certificate h r x = .ok (r.set .cert p, h') ∧ Own h' (fun n => cR (r.set .cert p) n + d n) ∧ (x = none → p = .null) := by
  cases x with
  | none =>
    have hr : r.set .cert .null = r := by
      cases r with
      | mk b sl mp l =>
        simp only [Req.set, Req.mk.injEq, true_and, and_true]
        funext t
        split
        · rename_i ht; subst ht; exact hs.symm
        · rfl
    exact ⟨.null, h, by simp [certificate, hr], by rw [hr]; exact o.congr e, fun _ => rfl⟩
  | some b =>
    cases b with
    | false => exact absurd rfl hx
    | true =>
      obtain ⟨p, h1, e1, o1, q1⟩ := own_malloc o
      refine ⟨p, h1, by simp [certificate, e1], o1.congr ?_, fun hn => by cases hn⟩
      intro n
      rw [cR_fill hs, e n]
      have := q1 n
      omega

/-- What holds of the request between the calls of the dispatcher; `x`: its client certificate. -/
structure Ready (x : Option Bool) (con : Con) (r : Req) : Prop where
  request : con.request = some r
  queued : con.queued = []
  body : BodyOk r
  user : r.slot .user = .null
  password : r.slot .password = .null
  cert : x = none → r.slot .cert = .null

theorem own_first (s : Server) {h : Heap} {c d : Nat → Nat} {con : Con} {r : Req} {a : Arrival} (ha : a.cert ≠ some false)
    (hr : con.request = some r) (hp : con.processor = .null) (hq : con.queued = []) (hz : r.bodyLen = 0)
    (hs : ∀ s, s ≠ .url → s ≠ .urlPath → r.slot s = .null) (o : Own h c) (e : ∀ n, c n = cN con n + d n) :
    ∃ go con' h', first s h con a = .ok (go, con', h') ∧ Own h' (fun n => cN con' n + d n) ∧ (go = true → ∃ r', Ready a.cert con' r') := by
  obtain ⟨p, h1, e1, o1, z1⟩ := own_certificate (r := r) (d := fun n => cM con.initial n + d n) ha (hs .cert (by decide) (by decide)) o
    (by intro n; rw [e n]; simp only [cN, hr, hp, hq, cQo, cP_null, cL]; omega)
  obtain ⟨v, h2, e2, o2, q2⟩ := own_malloc o1
  obtain ⟨m, h3, e3, o3, q3⟩ := own_malloc o2
  obtain ⟨ad, h4, e4, o4, q4⟩ := own_malloc o3
  have s1 : (r.set .cert p).slot .protocol = .null := by rw [slot_set_ne _ _ (by decide)]; exact hs _ (by decide) (by decide)
  have s2 : ((r.set .cert p).set .protocol v).slot .verb = .null := by
    rw [slot_set_ne _ _ (by decide), slot_set_ne _ _ (by decide)]; exact hs _ (by decide) (by decide)
  have s3 : (((r.set .cert p).set .protocol v).set .verb m).slot .address = .null := by
    rw [slot_set_ne _ _ (by decide), slot_set_ne _ _ (by decide), slot_set_ne _ _ (by decide)]; exact hs _ (by decide) (by decide)
  obtain ⟨r5, h5, e5, o5, k5⟩ := own_collectIn s.check (r := (((r.set .cert p).set .protocol v).set .verb m).set .address ad)
    (d := fun n => cM con.initial n + d n) .header a.headers o4 (by
      intro n
      have := cR_fill (p := v) s1 n
      have := cR_fill (p := m) s2 n
      have := cR_fill (p := ad) s3 n
      have := q2 n; have := q3 n; have := q4 n
      omega)
  obtain ⟨i6, h6, e6, b6, o6⟩ := own_collect s.check (m := con.initial) (d := fun n => cR r5 n + d n) a.query o5 (by intro n; omega)
  obtain ⟨r7, h7, e7, o7, k7⟩ := own_collectIn s.check (r := r5) (d := fun n => cM i6 n + d n) .cookie a.cookies o6 (by intro n; omega)
  have hslot : ∀ t, t ≠ .cert → t ≠ .protocol → t ≠ .verb → t ≠ .address → r7.slot t = r.slot t := by
    intro t t1 t2 t3 t4
    rw [k7.slot, k5.slot, slot_set_ne _ _ t4, slot_set_ne _ _ t3, slot_set_ne _ _ t2, slot_set_ne _ _ t1]
  have hlen : r7.bodyLen = 0 := by rw [k7.len, k5.len]; exact hz
  have ready : ∀ con' : Con, con'.request = some r7 → con'.queued = [] → Ready a.cert con' r7 := by
    intro con' x1 x2
    refine ⟨x1, x2, fun hb => absurd hlen hb, ?_, ?_, ?_⟩
    · rw [hslot _ (by decide) (by decide) (by decide) (by decide)]; exact hs _ (by decide) (by decide)
    · rw [hslot _ (by decide) (by decide) (by decide) (by decide)]; exact hs _ (by decide) (by decide)
    · intro hn
      rw [k7.slot, k5.slot, slot_set_ne _ _ (by decide), slot_set_ne _ _ (by decide), slot_set_ne _ _ (by decide), slot_set_self]
      exact z1 hn
  have pre : first s h con a = postProcessor h7 { con with initial := i6 } r7 a.processor := by
    simp [first, hr, e1, e2, e3, e4, e5, e6, e7]
  rw [pre]
  cases hx : a.processor with
  | none =>
    refine ⟨true, { con with initial := i6, request := some r7 }, h7, rfl, o7.congr ?_, fun _ => ⟨r7, ready _ rfl hq⟩⟩
    intro n; simp only [cN, cQo, hp, hq, cP_null, cL]; omega
  | some b =>
    cases b with
    | true =>
      obtain ⟨pp, h8, e8, o8, q8⟩ := own_malloc o7
      refine ⟨true, { con with initial := i6, request := some r7, processor := pp }, h8, by simp [postProcessor, e8], o8.congr ?_, fun _ => ⟨r7, ready _ rfl hq⟩⟩
      intro n; simp only [cN, cQo, hq, cL]; have := q8 n; omega
    | false =>
      obtain ⟨h8, e8, o8⟩ := own_cleanRequestFull (r := r7) (d := fun n => cM i6 n + d n) o7 (by intro n; omega)
      refine ⟨false, { con with initial := i6, request := none }, h8, by simp [postProcessor, e8], o8.congr ?_, fun hf => by cases hf⟩
      intro n; simp only [cN, cQo, hp, hq, cP_null, cL]; omega

theorem own_itemName {h : Heap} {c d : Nat → Nat} {m : RMap} (i : Item) (o : Own h c) (e : ∀ n, c n = cM m n + d n) :
    ∃ p m' h', itemName h m i = .ok (p, m', h') ∧ m'.box = m.box ∧ Own h' (fun n => cM m' n + (cP p n + d n)) := by
  unfold itemName
  cases hf : i.filename with
  | none => exact ⟨.null, m, h, rfl, rfl, o.congr (by intro n; rw [e n, cP_null]; omega)⟩
  | some f =>
    obtain ⟨p, h1, e1, o1, q1⟩ := own_malloc o
    obtain ⟨x, ex⟩ := own_seekM (m := m) (d := fun n => cA p n + d n) (i.key ++ b!"_filename") o1 (by intro n; rw [e n]; omega)
    cases hx : x.isSome with
    | true => exact ⟨p, m, h1, by simp [e1, ex, hx], rfl, o1.congr (by intro n; rw [e n]; have := q1 n; omega)⟩
    | false =>
      obtain ⟨rc, m', h', e2, b2, o2⟩ := own_putB (m := m) (d := fun n => cA p n + d n) (some (i.key ++ b!"_filename")) (some f) o1
        (by intro n; rw [e n]; omega)
      exact ⟨p, m', h', by simp [e1, ex, hx, e2], b2, o2.congr (by intro n; have := q1 n; omega)⟩

theorem own_itemData {h : Heap} {c d : Nat → Nat} {m : RMap} (i : Item) (k : Nat) (o : Own h c) (e : ∀ n, c n = cM m n + d n) :
    ∃ m' h', itemData h m i k = .ok (m', h') ∧ m'.box = m.box ∧ Own h' (fun n => cM m' n + d n) := by
  unfold itemData
  obtain ⟨x, ex⟩ := own_seekM i.key o e
  rw [ex]
  simp only [Res.ok_bind]
  split
  · split
    · obtain ⟨rc, m', h', e1, b1, o1⟩ := own_putBinary (some i.key) true (x.getD 0 + k) o e
      exact ⟨m', h', by simp [e1], b1, o1⟩
    · obtain ⟨rc, m', h', e1, b1, o1⟩ := own_putBinary (some i.key) true (x.getD 0 + 1) o e
      obtain ⟨rc2, m2, h2, e2, b2, o2⟩ := own_putBinary (m := m') (d := d) (some i.key) true (x.getD 0 + 1 + k) o1 (fun _ => rfl)
      exact ⟨m2, h2, by simp [e1, e2], b2.trans b1, o2⟩
  · obtain ⟨rc, m', h', e1, b1, o1⟩ := own_putBinary (some i.key) true k o e
    exact ⟨m', h', by simp [e1], b1, o1⟩

theorem own_iteratePost (s : Server) {h : Heap} {c d : Nat → Nat} {m : RMap} (i : Item) (o : Own h c) (e : ∀ n, c n = cM m n + d n) :
    ∃ m' h', iteratePost s h m i = .ok (m', h') ∧ m'.box = m.box ∧ Own h' (fun n => cM m' n + d n) := by
  have same : ∃ m' h', Res.ok (m, h) = .ok (m', h') ∧ m'.box = m.box ∧ Own h' (fun n => cM m' n + d n) := ⟨m, h, rfl, rfl, o.congr e⟩
  unfold iteratePost
  split
  · exact same
  · split
    · exact same
    · split
      · exact same
      · obtain ⟨p, m1, h1, e1, b1, o1⟩ := own_itemName i o e
        rw [e1]
        simp only [Res.ok_bind]
        generalize (if (decide (0 < s.maxParam) && decide (s.maxParam < i.off + i.data.length)) = true then s.maxParam - i.off else i.data.length) = k
        obtain ⟨m2, h2, e2, b2, o2⟩ := own_itemData (m := m1) (d := fun n => cP p n + d n) i k o1 (fun _ => rfl)
        obtain ⟨h3, e3, o3⟩ := own_free (p := p) (d := fun n => cM m2 n + d n) o2 (by intro n; omega)
        exact ⟨m2, h3, by simp [e2, e3], b2.trans b1, o3⟩

theorem own_iterateAll (s : Server) {c d : Nat → Nat} (l : List Item) {h : Heap} {m : RMap} (o : Own h c) (e : ∀ n, c n = cM m n + d n) :
    ∃ m' h', iterateAll s h m l = .ok (m', h') ∧ Own h' (fun n => cM m' n + d n) := by
  induction l generalizing h m c with
  | nil => exact ⟨m, h, rfl, o.congr e⟩
  | cons i t ih =>
    obtain ⟨m1, h1, e1, -, o1⟩ := own_iteratePost s i o e
    obtain ⟨m2, h2, e2, o2⟩ := ih o1 (fun _ => rfl)
    exact ⟨m2, h2, by simp [iterateAll, e1, e2], o2⟩

theorem realloc_ne {h h' : Heap} {p q : P} (e : realloc h p = .ok (q, h')) : q ≠ .null := by
  unfold realloc at e
  rcases hf : free h p with h1 | _
  · rw [hf] at e
    simp only [Res.ok_bind, Res.pure_eq] at e
    exact malloc_ne (Res.ok.inj e)
  · rw [hf] at e; cases e

theorem own_upload (s : Server) {h : Heap} {c d : Nat → Nat} {con : Con} {r : Req} (k : Nat) (items : List Item) {x : Option Bool} (R : Ready x con r) (o : Own h c)
    (e : ∀ n, c n = cN con n + d n) :
    ∃ con' r' h', upload s h con k items = .ok (con', h') ∧ Own h' (fun n => cN con' n + d n) ∧ Ready x con' r' := by
  unfold upload
  rw [R.request]
  simp only
  generalize hl : (if 0 < s.maxBody ∧ s.maxBody < r.bodyLen + k then s.maxBody else r.bodyLen + k) = len
  split
  · obtain ⟨b, h1, e1, o1⟩ := own_realloc (p := r.slot .body) (d := fun n => cR (r.set .body .null) n + (cM con.initial n + cP con.processor n + d n)) o (by
      intro n; rw [e n]; have := cR_split r .body n; simp only [cN, R.request, R.queued, cQo, cL]; omega)
    have nb := realloc_ne e1
    rw [e1]
    simp only [Res.ok_bind]
    have cb : ∀ n, cR { r.set .body b with bodyLen := len } n = cP b n + cR (r.set .body .null) n := fun n => by
      rw [cR_len, cR_set]
    have cs : ({ r.set .body b with bodyLen := len } : Req).slot = (r.set .body b).slot := rfl
    have cm : ({ r.set .body b with bodyLen := len } : Req).map .post = (r.set .body b).map .post := rfl
    generalize ({ r.set .body b with bodyLen := len } : Req) = r1 at cb cs cm ⊢
    rw [← cm]
    have ready : ∀ (con' : Con) (r' : Req), con'.request = some r' → con'.queued = [] → r'.slot = r1.slot → Ready x con' r' := by
      intro con' r' x1 x2 x3
      rw [cs] at x3
      refine ⟨x1, x2, ?_, ?_, ?_, ?_⟩
      · intro _; rw [x3, slot_set_self]; exact nb
      · rw [x3, slot_set_ne _ _ (by decide)]; exact R.user
      · rw [x3, slot_set_ne _ _ (by decide)]; exact R.password
      · intro hn; rw [x3, slot_set_ne _ _ (by decide)]; exact R.cert hn
    cases hm : r1.map .post with
    | none =>
      refine ⟨{ con with request := some r1 }, r1, h1, rfl, o1.congr ?_, ready _ _ rfl R.queued rfl⟩
      intro n; have := cb n; simp only [cN, cQo, R.queued, cL]; omega
    | some m =>
      obtain ⟨m', h2, e2, o2⟩ := own_iterateAll s (m := m) (d := fun n => cRm r1 .post n +
        (cM con.initial n + cP con.processor n + d n)) items o1 (by
          intro n
          have := cb n
          have a2 := cR_splitMap r1 .post n
          rw [hm] at a2; simp only [cX] at a2; omega)
      refine ⟨{ con with request := some (r1.setMap .post (some m')) }, _, h2, by simp [e2], o2.congr ?_, ready _ _ rfl R.queued rfl⟩
      intro n
      have a2 := cR_setMap r1 .post (some m') n
      simp only [cX] at a2
      simp only [cN, cQo, R.queued, cL]
      omega
  · exact ⟨con, r, h, rfl, o.congr e, R⟩

theorem own_uploads (s : Server) {c d : Nat → Nat} (l : List (Nat × List Item)) {h : Heap} {con : Con} {r : Req} {x : Option Bool} (R : Ready x con r) (o : Own h c)
    (e : ∀ n, c n = cN con n + d n) :
    ∃ con' r' h', uploads s h con l = .ok (con', h') ∧ Own h' (fun n => cN con' n + d n) ∧ Ready x con' r' := by
  induction l generalizing h con r c with
  | nil => exact ⟨con, r, h, rfl, o.congr e, R⟩
  | cons x t ih =>
    obtain ⟨k, items⟩ := x
    obtain ⟨con1, r1, h1, e1, o1, R1⟩ := own_upload s k items R o e
    obtain ⟨con2, r2, h2, e2, o2, R2⟩ := ih R1 o1 (fun _ => rfl)
    exact ⟨con2, r2, h2, by simp [uploads, e1, e2], o2, R2⟩

end Verif.Memory
