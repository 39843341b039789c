import Verif.Lemmas.Memory
/-! # Lemmas about the blocks of requests, continued -/
namespace Verif.Memory
open Verif.UMap (Rc)

/-- The blocks of the pointers of a request. -/
def cS (r : Req) (n : Nat) : Nat :=
  cP (r.slot .protocol) n + cP (r.slot .verb) n + cP (r.slot .url) n + cP (r.slot .urlPath) n + cP (r.slot .proxy) n + cP (r.slot .user) n +
  cP (r.slot .password) n + cP (r.slot .address) n + cP (r.slot .caPath) n + cP (r.slot .body) n + cP (r.slot .cert) n + cP (r.slot .certFile) n +
  cP (r.slot .keyFile) n + cP (r.slot .keyPassword) n

/-- The blocks of its maps. -/
def cMs (r : Req) (n : Nat) : Nat := cX (r.map .url) n + cX (r.map .header) n + cX (r.map .cookie) n + cX (r.map .post) n

/-- The blocks of a request. -/
def cR (r : Req) (n : Nat) : Nat := cP r.box n + cS r n + cMs r n

/-- All but one map. -/
def cRm (r : Req) (i : MapId) (n : Nat) : Nat := cR (r.setMap i none) n - 2

/-- A body that has a length is there. -/
def BodyOk (r : Req) : Prop := r.bodyLen ≠ 0 → r.slot .body ≠ .null

theorem cS_set (r : Req) (s : Slot) (p : P) (n : Nat) : cS (r.set s p) n = cP p n + cS (r.set s .null) n := by
  cases s <;> simp [cS, Req.set, cP] <;> omega

theorem cS_split (r : Req) (s : Slot) (n : Nat) : cS r n = cP (r.slot s) n + cS (r.set s .null) n := by
  cases s <;> simp [cS, Req.set, cP] <;> omega

theorem cMs_set (r : Req) (i : MapId) (x : Option RMap) (n : Nat) : cMs (r.setMap i x) n = cX x n + (cMs (r.setMap i none) n - 2) := by
  cases i <;> simp [cMs, Req.setMap, cX] <;> omega

theorem cMs_split (r : Req) (i : MapId) (n : Nat) : cMs r n = cX (r.map i) n + (cMs (r.setMap i none) n - 2) := by
  cases i <;> simp [cMs, Req.setMap, cX] <;> omega

theorem cMs_two (r : Req) (i : MapId) (n : Nat) : 2 ≤ cMs (r.setMap i none) n := by
  cases i <;> simp [cMs, Req.setMap, cX] <;> omega

@[simp] theorem cMs_setSlot (r : Req) (s : Slot) (p : P) (n : Nat) : cMs (r.set s p) n = cMs r n := rfl
@[simp] theorem cS_setMap (r : Req) (i : MapId) (x : Option RMap) (n : Nat) : cS (r.setMap i x) n = cS r n := rfl
@[simp] theorem box_set (r : Req) (s : Slot) (p : P) : (r.set s p).box = r.box := rfl
@[simp] theorem box_setMap (r : Req) (i : MapId) (x : Option RMap) : (r.setMap i x).box = r.box := rfl
@[simp] theorem slot_setMap (r : Req) (i : MapId) (x : Option RMap) : (r.setMap i x).slot = r.slot := rfl
@[simp] theorem len_setMap (r : Req) (i : MapId) (x : Option RMap) : (r.setMap i x).bodyLen = r.bodyLen := rfl
@[simp] theorem len_set (r : Req) (s : Slot) (p : P) : (r.set s p).bodyLen = r.bodyLen := rfl
theorem slot_set (r : Req) (s t : Slot) (p : P) : (r.set s p).slot t = if t = s then p else r.slot t := rfl
@[simp] theorem slot_set_self (r : Req) (s : Slot) (p : P) : (r.set s p).slot s = p := by simp [slot_set]
theorem slot_set_ne (r : Req) {s t : Slot} (p : P) (h : t ≠ s) : (r.set s p).slot t = r.slot t := by simp [slot_set, h]

theorem cR_set (r : Req) (s : Slot) (p : P) (n : Nat) : cR (r.set s p) n = cP p n + cR (r.set s .null) n := by
  simp only [cR, cMs_setSlot, box_set]
  rw [cS_set r s p n]; omega

theorem cR_split (r : Req) (s : Slot) (n : Nat) : cR r n = cP (r.slot s) n + cR (r.set s .null) n := by
  simp only [cR, cMs_setSlot, box_set]
  rw [cS_split r s n]; omega

theorem cR_setMap (r : Req) (i : MapId) (x : Option RMap) (n : Nat) : cR (r.setMap i x) n = cX x n + cRm r i n := by
  simp only [cRm, cR, cS_setMap, box_setMap]
  have := cMs_two r i n
  rw [cMs_set r i x n]; omega

theorem cR_splitMap (r : Req) (i : MapId) (n : Nat) : cR r n = cX (r.map i) n + cRm r i n := by
  simp only [cRm, cR, cS_setMap, box_setMap]
  have := cMs_two r i n
  rw [cMs_split r i n]; omega

theorem own_map {h : Heap} {c d : Nat → Nat} {r : Req} (i : MapId) (o : Own h c) (e : ∀ n, c n = cR r n + d n) : r.map i ≠ none := by
  intro h0
  have a := cR_splitMap r i 0
  rw [h0] at a
  simp only [cX] at a
  have := e 0; have := o 0; omega

theorem cR_len (r : Req) (k : Nat) (n : Nat) : cR { r with bodyLen := k } n = cR r n := rfl

theorem own_cleanRequest {h : Heap} {c d : Nat → Nat} {r : Req} (o : Own h c) (e : ∀ n, c n = cR r n + d n) :
    ∃ r' h', cleanRequest h r = .ok (r', h') ∧ r'.box = r.box ∧ Own h' (fun n => cP r.box n + d n) := by
  obtain ⟨h1, e1, o1⟩ := own_freeAll (d := fun n => cP r.box n + cP (r.slot .body) n + cP (r.slot .cert) n + cP (r.slot .certFile) n +
      cP (r.slot .keyFile) n + cP (r.slot .keyPassword) n + cMs r n + d n)
    [r.slot .protocol, r.slot .verb, r.slot .url, r.slot .urlPath, r.slot .proxy, r.slot .user, r.slot .password,
    r.slot .address, r.slot .caPath] o (by intro n; rw [e n]; simp only [cR, cS, cL]; omega)
  obtain ⟨h2, e2, o2⟩ := own_mapCleanFullX (m := r.map .url) (d := fun n => cP r.box n + cP (r.slot .body) n + cP (r.slot .cert) n + cP (r.slot .certFile) n +
      cP (r.slot .keyFile) n + cP (r.slot .keyPassword) n + cX (r.map .header) n + cX (r.map .cookie) n + cX (r.map .post) n + d n) o1
    (by intro n; simp only [cMs]; omega)
  obtain ⟨h3, e3, o3⟩ := own_mapCleanFullX (m := r.map .header) (d := fun n => cP r.box n + cP (r.slot .body) n + cP (r.slot .cert) n + cP (r.slot .certFile) n +
      cP (r.slot .keyFile) n + cP (r.slot .keyPassword) n + cX (r.map .cookie) n + cX (r.map .post) n + d n) o2 (by intro n; omega)
  obtain ⟨h4, e4, o4⟩ := own_mapCleanFullX (m := r.map .cookie) (d := fun n => cP r.box n + cP (r.slot .body) n + cP (r.slot .cert) n + cP (r.slot .certFile) n +
      cP (r.slot .keyFile) n + cP (r.slot .keyPassword) n + cX (r.map .post) n + d n) o3 (by intro n; omega)
  obtain ⟨h5, e5, o5⟩ := own_mapCleanFullX (m := r.map .post) (d := fun n => cP r.box n + cP (r.slot .body) n + cP (r.slot .cert) n + cP (r.slot .certFile) n +
      cP (r.slot .keyFile) n + cP (r.slot .keyPassword) n + d n) o4 (by intro n; omega)
  obtain ⟨h6, e6, o6⟩ := own_freeAll (d := fun n => cP r.box n + d n)
    [r.slot .body, r.slot .cert, r.slot .certFile, r.slot .keyFile, r.slot .keyPassword] o5 (by intro n; simp only [cL]; omega)
  refine ⟨⟨r.box, fun s => if s ∈ [Slot.protocol, .verb, .url, .proxy, .address, .body] then .null else r.slot s, fun _ => none, r.bodyLen⟩, h6, ?_, rfl, o6⟩
  simp only [cleanRequest, e1, e2, e3, e4, e5, e6, Res.ok_bind, Res.pure_eq]

theorem own_cleanRequestFull {h : Heap} {c d : Nat → Nat} {r : Req} (o : Own h c) (e : ∀ n, c n = cR r n + d n) :
    ∃ h', cleanRequestFull h r = .ok h' ∧ Own h' d := by
  obtain ⟨r', h1, e1, b1, o1⟩ := own_cleanRequest o e
  obtain ⟨h2, e2, o2⟩ := own_free o1 (fun _ => rfl)
  exact ⟨h2, by simp [cleanRequestFull, e1, b1, e2], o2⟩

theorem own_initRequest {h : Heap} {c d : Nat → Nat} (box : P) (o : Own h c) (e : ∀ n, c n = cP box n + d n) :
    ∃ r h', initRequest h box = .ok (true, r, h') ∧ r.box = box ∧ (∀ s, r.slot s = .null) ∧ r.bodyLen = 0 ∧ Own h' (fun n => cR r n + d n) := by
  obtain ⟨u, h1, e1, o1, -⟩ := own_malloc o
  obtain ⟨hd, h2, e2, o2, -⟩ := own_malloc o1
  obtain ⟨ck, h3, e3, o3, -⟩ := own_malloc o2
  obtain ⟨p, h4, e4, o4, -⟩ := own_malloc o3
  obtain ⟨mu, h5, e5, b5, o5, l5⟩ := own_mapInit u o4
  obtain ⟨mh, h6, e6, b6, o6, l6⟩ := own_mapInit hd o5
  obtain ⟨mc, h7, e7, b7, o7, l7⟩ := own_mapInit ck o6
  obtain ⟨mp, h8, e8, b8, o8, l8⟩ := own_mapInit p o7
  refine ⟨⟨box, fun _ => .null, fun i => match i with | .url => some mu | .header => some mh | .cookie => some mc | .post => some mp, 0⟩, h8, ?_, rfl,
    fun _ => rfl, rfl, o8.congr ?_⟩
  · simp only [initRequest, e1, e2, e3, e4, e5, e6, e7, e8]; rfl
  · intro n
    simp only [cR, cS, cMs, cX, cP, e n]
    have := l5 n; have := l6 n; have := l7 n; have := l8 n
    omega

theorem own_setText {h : Heap} {c d : Nat → Nat} {r : Req} (s : Slot) (v : Option Bytes) (o : Own h c) (e : ∀ n, c n = cR r n + d n) :
    ∃ p h', setText h r s v = .ok (r.set s p, h') ∧ Own h' (fun n => cR (r.set s p) n + d n) := by
  obtain ⟨h1, e1, o1⟩ := own_free (p := r.slot s) (d := fun n => cR (r.set s .null) n + d n) o (by intro n; rw [e n, cR_split r s n]; omega)
  obtain ⟨p, h2, e2, o2, -⟩ := own_strdup o1 (if v = some [] then none else v)
  refine ⟨p, h2, by simp [setText, e1, e2], o2.congr ?_⟩
  intro n
  have := cR_set r s p n; omega

theorem own_setBody {h : Heap} {c d : Nat → Nat} {r : Req} (v : Option Bytes) (o : Own h c) (e : ∀ n, c n = cR r n + d n) :
    ∃ r' h', setBody h r v = .ok (r', h') ∧ Own h' (fun n => cR r' n + d n) ∧ BodyOk r' ∧ r'.box = r.box ∧ r'.slot .cert = r.slot .cert := by
  obtain ⟨h1, e1, o1⟩ := own_free (p := r.slot .body) (d := fun n => cR (r.set .body .null) n + d n) o
    (by intro n; rw [e n, cR_split r .body n]; omega)
  obtain ⟨p, h2, e2, o2, hp⟩ := own_strdup o1 v
  refine ⟨{ r.set .body p with bodyLen := (v.getD []).length }, h2, by simp [setBody, e1, e2], o2.congr ?_, ?_, rfl, ?_⟩
  · intro n
    have := cR_set r .body p n
    show _ = cR (r.set .body p) n + d n
    omega
  · intro hl
    dsimp only at hl ⊢
    rw [slot_set_self]
    intro hp0
    have hv : v ≠ none := by rintro rfl; simp at hl
    have := hp hv 0
    rw [hp0] at this
    simp [cP, cA] at this
  · exact slot_set_ne r p (show Slot.cert ≠ Slot.body by decide)

theorem own_put {h : Heap} {c d : Nat → Nat} {m : RMap} (k v : Option Bytes) (o : Own h c) (e : ∀ n, c n = cM m n + d n) :
    ∃ rc m' h', put h m k v = .ok (rc, m', h') ∧ Own h' (fun n => cM m' n + d n) := by
  unfold put
  obtain ⟨rc, m', h', e1, -, o1⟩ := own_putBinary (m := m) (d := d) k v.isSome _ o e
  exact ⟨rc, m', h', e1, o1⟩

theorem own_putIn {h : Heap} {c d : Nat → Nat} {r : Req} (i : MapId) (k v : Option Bytes) (o : Own h c) (e : ∀ n, c n = cR r n + d n) :
    ∃ rc r' h', putIn h r i k v = .ok (rc, r', h') ∧ Own h' (fun n => cR r' n + d n) ∧ r'.slot = r.slot ∧ r'.bodyLen = r.bodyLen ∧ r'.box = r.box := by
  unfold putIn
  cases hm : r.map i with
  | none => exact ⟨_, r, h, rfl, o.congr e, rfl, rfl, rfl⟩
  | some m =>
    obtain ⟨rc, m', h', e1, o1⟩ := own_put (m := m) (d := fun n => cRm r i n + d n) k v o (by intro n; rw [e n, cR_splitMap r i n, hm]; simp only [cX]; omega)
    refine ⟨rc, r.setMap i (some m'), h', ?_, o1.congr ?_, rfl, rfl, rfl⟩
    · simp [e1]
    · intro n; have := cR_setMap r i (some m') n; simp only [cX] at this; omega

theorem own_removeIn {h : Heap} {c d : Nat → Nat} {r : Req} (i : MapId) (k : Option Bytes) (o : Own h c) (e : ∀ n, c n = cR r n + d n) :
    ∃ rc r' h', removeIn h r i k = .ok (rc, r', h') ∧ Own h' (fun n => cR r' n + d n) ∧ r'.slot = r.slot ∧ r'.bodyLen = r.bodyLen ∧ r'.box = r.box := by
  unfold removeIn
  cases hm : r.map i with
  | none => exact ⟨_, r, h, rfl, o.congr e, rfl, rfl, rfl⟩
  | some m =>
    obtain ⟨rc, m', h', e1, -, o1⟩ := own_remove (m := m) (d := fun n => cRm r i n + d n) k (fun a b => decide (a = b)) o
      (by intro n; rw [e n, cR_splitMap r i n, hm]; simp only [cX]; omega)
    refine ⟨rc, r.setMap i (some m'), h', by simp [e1], o1.congr ?_, rfl, rfl, rfl⟩
    intro n; have := cR_setMap r i (some m') n; simp only [cX] at this; omega

/-- What a step of a program keeps. -/
def Kept (r r' : Req) : Prop := BodyOk r' ∧ r'.box = r.box ∧ r'.slot .cert = r.slot .cert

theorem own_step {h : Heap} {c d : Nat → Nat} {r : Req} (op : Op) (hc : ∀ v, op ≠ .cert v) (hb : BodyOk r) (o : Own h c)
    (e : ∀ n, c n = cR r n + d n) :
    ∃ r' h', step h r op = .ok (r', h') ∧ Own h' (fun n => cR r' n + d n) ∧ Kept r r' := by
  have same : ∃ r' h', Res.ok (r, h) = .ok (r', h') ∧ Own h' (fun n => cR r' n + d n) ∧ Kept r r' := ⟨r, h, rfl, o.congr e, hb, rfl, rfl⟩
  cases op with
  | text s v =>
    simp only [step]
    cases hs : isOption s with
    | false => exact same
    | true =>
      obtain ⟨p, h', e1, o1⟩ := own_setText s v o e
      refine ⟨_, h', by simp [e1], o1, ?_, rfl, ?_⟩
      · intro hl; rw [slot_set_ne _ _ (by rintro rfl; cases hs)]; exact hb hl
      · rw [slot_set_ne _ _ (by rintro rfl; cases hs)]
  | append v =>
    obtain ⟨p, h1, e1, o1⟩ := own_realloc (p := r.slot .url) (d := fun n => cR (r.set .url .null) n + d n) o
      (by intro n; rw [e n, cR_split r .url n]; omega)
    refine ⟨r.set .url p, h1, by simp [step, e1], o1.congr ?_, ?_, rfl, slot_set_ne _ _ (by decide)⟩
    · intro n; have := cR_set r .url p n; omega
    · intro hl; rw [slot_set_ne _ _ (by decide)]; exact hb hl
  | put i k v =>
    obtain ⟨rc, r', h', e1, o1, s1, l1, b1⟩ := own_putIn i k v o e
    exact ⟨r', h', by simp [step, e1], o1, by simpa [BodyOk, s1, l1] using hb, b1, by rw [s1]⟩
  | remove i k =>
    obtain ⟨rc, r', h', e1, o1, s1, l1, b1⟩ := own_removeIn i k o e
    exact ⟨r', h', by simp [step, e1], o1, by simpa [BodyOk, s1, l1] using hb, b1, by rw [s1]⟩
  | stringBody v =>
    simp only [step]
    split
    · obtain ⟨r', h', e1, o1, k1, b1, c1⟩ := own_setBody v o e
      exact ⟨r', h', e1, o1, k1, b1, c1⟩
    · exact same
  | binaryBody v =>
    simp only [step]
    split
    · exact same
    · obtain ⟨r', h', e1, o1, k1, b1, c1⟩ := own_setBody v o e
      exact ⟨r', h', e1, o1, k1, b1, c1⟩
  | emptyBody =>
    obtain ⟨r', h', e1, o1, k1, b1, c1⟩ := own_setBody none o e
    exact ⟨r', h', e1, o1, k1, b1, c1⟩
  | jsonBody v =>
    simp only [step]
    split
    · obtain ⟨r1, h1, e1, o1, k1, b1, c1⟩ := own_setBody v o e
      obtain ⟨rc, r2, h2, e2, o2, s2, l2, b2⟩ := own_putIn (r := r1) .header (some b!"Content-Type") (some b!"application/json") o1 (fun _ => rfl)
      exact ⟨r2, h2, by simp [e1, e2], o2, by simpa [BodyOk, s2, l2] using k1, b2.trans b1, by rw [s2, c1]⟩
    · exact same
  | websocket url protocol extensions key =>
    cases url with
    | none => exact same
    | some url =>
      obtain ⟨h1, e1, o1⟩ := own_freeAll (d := fun n => cR (((r.set .protocol .null).set .verb .null).set .url .null) n + d n)
        [r.slot .protocol, r.slot .verb, r.slot .url] o (by
          intro n
          rw [e n, cR_split r .protocol n, cR_split (r.set .protocol .null) .verb n, cR_split ((r.set .protocol .null).set .verb .null) .url n]
          simp only [cL, slot_set_ne _ _ (show Slot.verb ≠ Slot.protocol by decide), slot_set_ne _ _ (show Slot.url ≠ Slot.protocol by decide),
            slot_set_ne _ _ (show Slot.url ≠ Slot.verb by decide)]
          omega)
      obtain ⟨p, h2, e2, o2, q2⟩ := own_malloc o1
      obtain ⟨v, h3, e3, o3, q3⟩ := own_malloc o2
      obtain ⟨u, h4, e4, o4, q4⟩ := own_malloc o3
      have o5 : Own h4 (fun n => cR (((r.set .protocol p).set .verb v).set .url u) n + d n) := by
        refine o4.congr ?_
        intro n
        have a := q2 n; have b := q3 n; have g := q4 n
        have x1 : cS (((r.set .protocol p).set .verb v).set .url u) n + 0 =
            cP p n + cP v n + cP u n + cS (((r.set .protocol .null).set .verb .null).set .url .null) n := by
          simp [cS, Req.set, cP]; omega
        simp only [cR, cMs_setSlot, box_set]
        omega
      generalize hr1 : ((r.set .protocol p).set .verb v).set .url u = r1 at o5
      have k1 : Kept r r1 := by
        rw [← hr1]
        refine ⟨?_, rfl, rfl⟩
        intro hl
        exact hb hl
      have opt : ∀ (b : Bool) (k v : Option Bytes) (h : Heap) (r1 : Req), Own h (fun n => cR r1 n + d n) → Kept r r1 →
          ∃ rc r' h', (if b then putIn h r1 .header k v else Res.ok (Rc.ok, r1, h)) = .ok (rc, r', h') ∧
            Own h' (fun n => cR r' n + d n) ∧ Kept r r' := by
        intro b k v h r1 o1 k1
        cases b with
        | false => exact ⟨_, r1, h, rfl, o1, k1⟩
        | true =>
          obtain ⟨rc, r', h', e1, o1, s1, l1, b1⟩ := own_putIn (r := r1) .header k v o1 (fun _ => rfl)
          exact ⟨rc, r', h', by simp [e1], o1, by simpa [BodyOk, s1, l1] using k1.1, b1.trans k1.2.1, by rw [s1]; exact k1.2.2⟩
      obtain ⟨c6, r6, h6, e6, o6, k6⟩ := opt protocol.isSome (some b!"Sec-WebSocket-Protocol") protocol h4 r1 o5 k1
      obtain ⟨c7, r7, h7, e7, o7, k7⟩ := opt extensions.isSome (some b!"Sec-WebSocket-Extensions") extensions h6 r6 o6 k6
      obtain ⟨c8, r8, h8, e8, o8, k8⟩ := opt true (some b!"Sec-WebSocket-Version") (some b!"13") h7 r7 o7 k7
      obtain ⟨c9, r9, h9, e9, o9, k9⟩ := opt true (some b!"User-Agent") (some b!"Ulfius Websocket Client Framework/") h8 r8 o8 k8
      obtain ⟨c10, r10, h10, e10, o10, k10⟩ := opt key (some b!"Sec-WebSocket-Key") (some b!"key") h9 r9 o9 k9
      rw [if_pos rfl] at e8 e9
      refine ⟨r10, h10, ?_, o10, k10⟩
      simp only [step, e1, Res.ok_bind, e2, e3, strdup, e4, hr1, e6, e7, e8, e9, e10, Res.pure_eq]
  | cert v => exact absurd rfl (hc v)

/-- Importing a certificate into a request that has none. -/
theorem own_cert {h : Heap} {c d : Nat → Nat} {r : Req} (v : Option Bytes) (hb : BodyOk r) (hn : r.slot .cert = .null) (o : Own h c)
    (e : ∀ n, c n = cR r n + d n) :
    ∃ r' h', step h r (.cert v) = .ok (r', h') ∧ Own h' (fun n => cR r' n + d n) ∧ BodyOk r' := by
  cases v with
  | none => exact ⟨r, h, rfl, o.congr e, hb⟩
  | some v =>
    obtain ⟨p, h1, e1, o1, q1⟩ := own_malloc o
    refine ⟨r.set .cert p, h1, by simp [step, e1], o1.congr ?_, ?_⟩
    · intro n
      have a := cR_set r .cert p n
      have b := cR_split r .cert n
      have q := q1 n
      have g := e n
      rw [hn] at b
      simp only [cP] at b
      omega
    · intro hl; rw [slot_set_ne _ _ (by decide)]; exact hb hl

theorem own_copySlots {src : Req} {c d : Nat → Nat} (l : List Slot) (hl : l.Nodup) {h : Heap} {dest : Req} (hd : ∀ s ∈ l, dest.slot s = .null)
    (o : Own h c) (e : ∀ n, c n = cR dest n + (cR src n + d n)) :
    ∃ dest' h', copySlots h dest src l = .ok (dest', h') ∧ Own h' (fun n => cR dest' n + (cR src n + d n)) ∧ dest'.bodyLen = dest.bodyLen ∧
      dest'.box = dest.box ∧ ∀ t, t ∉ l → dest'.slot t = dest.slot t := by
  induction l generalizing h c dest with
  | nil => exact ⟨dest, h, rfl, o.congr e, rfl, rfl, fun _ _ => rfl⟩
  | cons s t ih =>
    obtain ⟨q, h1, e1, o1⟩ := own_copyP (p := src.slot s) (d := fun n => cR dest n + (cR (src.set s .null) n + d n)) o
      (by intro n; have a := e n; have b := cR_split src s n; omega)
    have hs := hd s (by simp)
    obtain ⟨dest', h2, e2, o2, l2, b2, t2⟩ := ih (List.nodup_cons.1 hl).2 (dest := dest.set s q)
      (by
        intro u hu
        rw [slot_set_ne _ _ (by rintro rfl; exact (List.nodup_cons.1 hl).1 hu)]
        exact hd u (by simp [hu])) o1
      (by
        intro n
        have a := e n; have b := cR_split dest s n; have g := cR_set dest s q n
        rw [hs] at b
        simp only [cP] at b
        omega)
    refine ⟨dest', h2, by simp [copySlots, copySlot, e1, e2], o2, l2, b2, ?_⟩
    intro u hu
    simp only [List.mem_cons, not_or] at hu
    rw [t2 u hu.2, slot_set_ne _ _ hu.1]

theorem own_copyMap {src : Req} {c d : Nat → Nat} (i : MapId) {h : Heap} {dest : Req} (o : Own h c)
    (e : ∀ n, c n = cR dest n + (cR src n + d n)) :
    ∃ dest' h', copyMap h dest src i = .ok (true, dest', h') ∧ Own h' (fun n => cR dest' n + (cR src n + d n)) ∧ dest'.bodyLen = dest.bodyLen ∧
      dest'.slot = dest.slot := by
  unfold copyMap
  cases hm : dest.map i with
  | none => exact absurd hm (own_map i o e)
  | some m =>
    obtain ⟨h1, e1, o1⟩ := own_mapClean (m := m) (d := fun n => cRm dest i n + (cR src n + d n)) o
      (by intro n; have a := e n; have b := cR_splitMap dest i n; rw [hm] at b; simp only [cX] at b; omega)
    obtain ⟨m1, h2, e2, b2, o2, l2⟩ := own_mapInit m.box o1
    have o3 : Own h2 (fun n => cM m1 n + (cRm dest i n + (cR src n + d n))) :=
      o2.congr (by intro n; have := l2 n; omega)
    simp only [e1, Res.ok_bind, e2]
    cases hs : src.map i with
    | none => exact absurd hs (own_map (d := fun n => cR dest n + d n) i o (by intro n; rw [e n]; omega))
    | some s =>
      have split : ∀ n, cR src n = cM s n + cRm src i n := by
        intro n; have b := cR_splitMap src i n; rw [hs] at b; simpa only [cX] using b
      have n1 : need h2 s.box = .ok () := own_need (d := fun n => cM m1 n + (cRm dest i n + (cA s.keys n + cA s.values n + cA s.lengths n +
        cE s.entries n + cRm src i n + d n))) o3 (by intro n; have := split n; simp only [cM] at this ⊢; omega)
      have n2 : need h2 s.keys = .ok () := own_need (d := fun n => cM m1 n + (cRm dest i n + (cA s.box n + cA s.values n + cA s.lengths n +
        cE s.entries n + cRm src i n + d n))) o3 (by intro n; have := split n; simp only [cM] at this ⊢; omega)
      obtain ⟨ok, m2, h3, e3, -, o4⟩ := own_copyEntries s.entries (m := m1) (fun n => cRm dest i n + (cA s.box n + cA s.keys n + cA s.values n +
        cA s.lengths n + cRm src i n + d n)) o3 (by intro n; have := split n; simp only [cM] at this ⊢; omega)
      have hok := copyEntries_ok _ (own_keys s.entries (fun n => cM m1 n + (cRm dest i n + (cA s.box n + cA s.keys n + cA s.values n +
        cA s.lengths n + cRm src i n + d n))) o3 (by intro n; have := split n; simp only [cM] at this ⊢; omega)) e3
      refine ⟨dest.setMap i (some m2), h3, by simp [n1, n2, e3, hok], o4.congr ?_, rfl, rfl⟩
      intro n
      have a := cR_setMap dest i (some m2) n
      have b := split n
      simp only [cX] at a
      simp only [cM] at a b ⊢
      omega

theorem own_copyMaps {src : Req} {c d : Nat → Nat} (l : List MapId) {h : Heap} {dest : Req} (o : Own h c)
    (e : ∀ n, c n = cR dest n + (cR src n + d n)) :
    ∃ dest' h', copyMaps h dest src l = .ok (true, dest', h') ∧ Own h' (fun n => cR dest' n + (cR src n + d n)) ∧ dest'.bodyLen = dest.bodyLen ∧
      dest'.slot = dest.slot := by
  induction l generalizing h c dest with
  | nil => exact ⟨dest, h, rfl, o.congr e, rfl, rfl⟩
  | cons i t ih =>
    obtain ⟨d1, h1, e1, o1, l1, s1⟩ := own_copyMap i o e
    obtain ⟨d2, h2, e2, o2, l2, s2⟩ := ih o1 (fun _ => rfl)
    exact ⟨d2, h2, by simp [copyMaps, e1, e2], o2, l2.trans l1, s2.trans s1⟩

theorem own_needP {h : Heap} {c d : Nat → Nat} {p : P} (o : Own h c) (hp : p ≠ .null) (e : ∀ n, c n = cP p n + d n) : need h p = .ok () := by
  cases p with
  | null => exact absurd rfl hp
  | «at» m => exact own_need (d := d) o e
  | junk => have := o 0; have e0 := e 0; simp only [cP] at e0; omega

theorem own_copyRest {src : Req} {c d : Nat → Nat} (ok : Bool) {h : Heap} {dest : Req} (hb : BodyOk src) (hc : src.slot .cert = .null)
    (hd : ∀ s ∈ [Slot.body, .cert, .certFile, .keyFile, .keyPassword], dest.slot s = .null) (hl : dest.bodyLen = 0) (o : Own h c)
    (e : ∀ n, c n = cR dest n + (cR src n + d n)) :
    ∃ dest' h', copyRest h dest src ok = .ok (ok, dest', h') ∧ Own h' (fun n => cR dest' n + (cR src n + d n)) ∧ BodyOk dest' ∧
      dest'.slot .cert = .null := by
  have body : ∃ d1 h1, (if (ok && src.bodyLen != 0) = true then (do
      let _ ← need h (src.slot .body)
      let (p, h) := malloc h
      return ({ dest.set .body p with bodyLen := src.bodyLen }, h))
    else Res.ok (dest, h)) = .ok (d1, h1) ∧ Own h1 (fun n => cR d1 n + (cR src n + d n)) ∧ BodyOk d1 ∧ ∀ s, s ≠ .body → d1.slot s = dest.slot s := by
    split
    · rename_i hif
      simp only [Bool.and_eq_true, bne_iff_ne] at hif
      have n1 : need h (src.slot .body) = .ok () := own_needP (d := fun n => cR dest n + (cR (src.set .body .null) n + d n)) o (hb hif.2)
        (by intro n; have a := e n; have b := cR_split src .body n; omega)
      obtain ⟨p, h1, e1, o1, q1⟩ := own_malloc o
      refine ⟨{ dest.set .body p with bodyLen := src.bodyLen }, h1, by simp [n1, e1], o1.congr ?_, ?_, ?_⟩
      · intro n
        show _ = cR (dest.set .body p) n + _
        have a := e n; have b := cR_split dest .body n; have g := cR_set dest .body p n; have q := q1 n
        rw [hd .body (by simp)] at b
        simp only [cP] at b
        omega
      · intro _
        show (dest.set .body p).slot .body ≠ .null
        rw [slot_set_self]
        intro hp0
        have := q1 0
        rw [hp0] at this
        simp [cP, cA] at this
      · intro s hs; exact slot_set_ne _ _ hs
    · exact ⟨dest, h, rfl, o.congr e, fun hx => absurd hl hx, fun _ _ => rfl⟩
  obtain ⟨d1, h1, e1, o1, b1, s1⟩ := body
  obtain ⟨d2, h2, e2, o2, l2, -, s2⟩ := own_copySlots [.certFile, .keyFile, .keyPassword] (by decide) (dest := d1)
    (by intro s hs; rw [s1 s (by rintro rfl; simp at hs)]; exact hd s (by simp at hs; rcases hs with rfl | rfl | rfl <;> simp)) o1 (fun _ => rfl)
  refine ⟨d2, h2, ?_, o2, ?_, ?_⟩
  · unfold copyRest
    simp only [Res.pure_eq] at e1 ⊢
    rw [e1]
    simp only [Res.ok_bind, e2, hc]
    simp
  · intro hx
    rw [s2 .body (by decide)]
    exact b1 (by rw [← l2]; exact hx)
  · rw [s2 .cert (by decide), s1 .cert (by decide)]
    exact hd .cert (by simp)

theorem own_copyRequest {src : Req} {c d : Nat → Nat} {h : Heap} {dest : Req} (hb : BodyOk src) (hc : src.slot .cert = .null)
    (hd : ∀ s, dest.slot s = .null) (hl : dest.bodyLen = 0) (o : Own h c) (e : ∀ n, c n = cR dest n + (cR src n + d n)) :
    ∃ dest' h', copyRequest h dest src = .ok (true, dest', h') ∧ Own h' (fun n => cR dest' n + (cR src n + d n)) ∧ BodyOk dest' ∧
      dest'.slot .cert = .null := by
  obtain ⟨d1, h1, e1, o1, l1, -, s1⟩ := own_copySlots [.protocol, .verb, .url, .urlPath, .proxy, .caPath, .user, .password] (by decide) (dest := dest)
    (fun s _ => hd s) o e
  have addr : ∃ d2 h2, (if src.slot .address = .null then Res.ok (d1, h1) else (do
      let _ ← need h1 (src.slot .address)
      let (p, h) := malloc h1
      return (d1.set .address p, h))) = .ok (d2, h2) ∧ Own h2 (fun n => cR d2 n + (cR src n + d n)) ∧ d2.bodyLen = d1.bodyLen ∧
      ∀ s, s ≠ .address → d2.slot s = d1.slot s := by
    split
    · exact ⟨d1, h1, rfl, o1, rfl, fun _ _ => rfl⟩
    · rename_i ha
      have n1 : need h1 (src.slot .address) = .ok () := own_needP (d := fun n => cR d1 n + (cR (src.set .address .null) n + d n)) o1 ha
        (by intro n; have b := cR_split src .address n; omega)
      obtain ⟨p, h2, e2, o2, q2⟩ := own_malloc o1
      refine ⟨d1.set .address p, h2, by simp [n1, e2], o2.congr ?_, rfl, fun s hs => slot_set_ne _ _ hs⟩
      intro n
      have b := cR_split d1 .address n; have g := cR_set d1 .address p n; have q := q2 n
      rw [s1 .address (by decide), hd] at b
      simp only [cP] at b
      omega
  obtain ⟨d2, h2, e2, o2, l2, s2⟩ := addr
  obtain ⟨d3, h3, e3, o3, l3, s3⟩ := own_copyMaps (dest := d2) [.url, .header, .cookie, .post] o2 (fun _ => rfl)
  obtain ⟨d4, h4, e4, o4, b4, c4⟩ := own_copyRest (dest := d3) true hb hc
    (by
      intro s hs
      rw [s3, s2 s (by rintro rfl; simp at hs), s1 s (by simp at hs; rcases hs with rfl | rfl | rfl | rfl | rfl <;> decide)]
      exact hd s)
    (by rw [l3, l2, l1, hl]) o3 (fun _ => rfl)
  refine ⟨d4, h4, ?_, o4, b4, c4⟩
  unfold copyRequest
  simp only [Res.pure_eq] at e2 ⊢
  simp only [e1, Res.ok_bind, e2, e3, e4]

theorem own_duplicateRequest {src : Req} {c d : Nat → Nat} {h : Heap} (hb : BodyOk src) (hc : src.slot .cert = .null) (o : Own h c)
    (e : ∀ n, c n = cR src n + d n) :
    ∃ r h', duplicateRequest h src = .ok (some r, h') ∧ Own h' (fun n => cR r n + c n) ∧ BodyOk r ∧ r.slot .cert = .null := by
  obtain ⟨box, h1, e1, o1, q1⟩ := own_malloc o
  obtain ⟨r, h2, e2, b2, n2, l2, o2⟩ := own_initRequest (d := c) box o1 (by intro n; rw [q1])
  obtain ⟨r3, h3, e3, o3, b3, c3⟩ := own_copyRequest (d := d) hb hc n2 l2 o2 (by intro n; rw [e n])
  exact ⟨r3, h3, by simp [duplicateRequest, e1, e2, e3], o3.congr (by intro n; rw [e n]), b3, c3⟩

theorem own_receive {c : Nat → Nat} {h : Heap} (cert : Bool) (o : Own h c) :
    ∃ r h', receive h cert = .ok (r, h') ∧ Own h' (fun n => cR r n + c n) ∧ BodyOk r ∧ (cert = false → r.slot .cert = .null) := by
  obtain ⟨box, h1, e1, o1, q1⟩ := own_malloc o
  obtain ⟨r, h2, e2, b2, n2, l2, o2⟩ := own_initRequest (d := c) box o1 (by intro n; rw [q1])
  obtain ⟨u, h3, e3, o3, q3⟩ := own_malloc o2
  obtain ⟨p, h4, e4, o4, q4⟩ := own_malloc o3
  have certs : ∃ k h5, (if cert then (let (c, h) := malloc h4; (((r.set .url u).set .urlPath p).set .cert c, h)) else ((r.set .url u).set .urlPath p, h4)) =
      (((r.set .url u).set .urlPath p).set .cert k, h5) ∧ Own h5 (fun n => cP k n + (cA p n + (cA u n + (cR r n + c n)))) ∧ (cert = false → k = .null) := by
    cases cert with
    | true =>
      obtain ⟨k, h5, e5, o5, q5⟩ := own_malloc o4
      exact ⟨k, h5, by simp [e5], o5.congr (by intro n; rw [q5]), by simp⟩
    | false =>
      refine ⟨.null, h4, ?_, o4.congr (by intro n; simp [cP]), fun _ => rfl⟩
      have : ((r.set .url u).set .urlPath p).set .cert .null = (r.set .url u).set .urlPath p := by
        simp only [Req.set]
        congr 1
        funext t
        cases t <;> simp [n2]
      simp [this]
  obtain ⟨k, h5, e5, o5, k5⟩ := certs
  obtain ⟨v, h6, e6, o6, q6⟩ := own_malloc o5
  obtain ⟨m, h7, e7, o7, q7⟩ := own_malloc o6
  obtain ⟨a, h8, e8, o8, q8⟩ := own_malloc o7
  refine ⟨(((((r.set .url u).set .urlPath p).set .cert k).set .protocol v).set .verb m).set .address a, h8, ?_, o8.congr ?_, ?_, ?_⟩
  · simp only [receive, e1, e2, Res.ok_bind, e3, e4]
    rw [e5]
    simp only [e6, e7, e8, Res.pure_eq]
  · intro n
    have := q3 n; have := q4 n; have := q6 n; have := q7 n; have := q8 n
    have x : cS ((((((r.set .url u).set .urlPath p).set .cert k).set .protocol v).set .verb m).set .address a) n =
        cP u n + cP p n + cP k n + cP v n + cP m n + cP a n + cS r n := by
      simp [cS, Req.set, cP, n2]; omega
    simp only [cR, cMs_setSlot, box_set, x]
    omega
  · intro hl; exact absurd l2 hl
  · intro hc; simp [slot_set, k5 hc]

/-! ## Programs -/

/-- The blocks of all requests. -/
def cQ : List (Option Req) → Nat → Nat
  | [], _ => 0
  | none :: t, n => cQ t n
  | some r :: t, n => cR r n + cQ t n

theorem cQ_append (a b : List (Option Req)) (n : Nat) : cQ (a ++ b) n = cQ a n + cQ b n := by
  induction a with
  | nil => simp [cQ]
  | cons x t ih => cases x <;> simp [cQ, ih] <;> omega

theorem cQ_get {l : List (Option Req)} {i : Nat} {r : Req} (h : l[i]? = some (some r)) (n : Nat) : cQ l n = cR r n + cQ (l.set i none) n := by
  induction l generalizing i with
  | nil => simp at h
  | cons x t ih =>
    cases i with
    | zero => simp at h; subst h; simp [cQ]
    | succ i =>
      have := ih (i := i) (by simpa using h)
      cases x <;> simp [cQ, this] <;> omega

theorem cQ_set {l : List (Option Req)} {i : Nat} (h : i < l.length) (r : Req) (n : Nat) : cQ (l.set i (some r)) n = cR r n + cQ (l.set i none) n := by
  have := cQ_get (l := l.set i (some r)) (i := i) (r := r) (by simp [h]) n
  simpa using this

theorem cQ_none {l : List (Option Req)} (h : ∀ r ∈ l, r = none) (n : Nat) : cQ l n = 0 := by
  induction l with
  | nil => rfl
  | cons x t ih =>
    rw [h x (by simp)]
    exact ih (fun r hr => h r (by simp [hr]))

end Verif.Memory
