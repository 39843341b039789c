import Verif.Lemmas.MemoryRequest
import Verif.Model.MemoryResponse
/-! # Lemmas about the blocks of responses -/
namespace Verif.Memory
open Verif.UMap (Rc)

/-- The blocks of a cookie. -/
def cC (c : Ck) (n : Nat) : Nat := cP c.key n + cP c.value n + cP c.expires n + cP c.domain n + cP c.path n

/-- The blocks of cookies. -/
def cCs : List Ck → Nat → Nat
  | [], _ => 0
  | c :: t, n => cC c n + cCs t n

/-- The blocks of extensions. -/
def cXs : List Ext → Nat → Nat
  | [], _ => 0
  | e :: t, n => cP e.box n + cP e.server n + cP e.client n + cXs t n

/-- The blocks of a websocket handle. -/
def cW (w : WsH) (n : Nat) : Nat := cA w.box n + cP w.protocol n + cP w.extensions n + cP w.list n + cP w.array n + cXs w.exts n

/-- The same for a pointer to a handle. -/
def cWo : Option WsH → Nat → Nat
  | none, _ => 0
  | some w, n => cW w n

/-- The blocks of a response. -/
def cRs (r : Resp) (n : Nat) : Nat :=
  cP r.box n + cP r.protocol n + cP r.realm n + cP r.body n + cO r.header n + cP r.array n + cCs r.cookies n + cWo r.ws n

/-- A cookie as the library makes it. -/
def GoodCk (c : Ck) : Prop := c.key ≠ .null ∧ c.value ≠ .null

/-- A cookie with all attributes. -/
def FullCk (c : Ck) : Prop := c.expires ≠ .null ∧ c.domain ≠ .null ∧ c.path ≠ .null

/-- What holds of every response that was initialised. -/
structure RInv (r : Resp) : Prop where
  ws : ∃ w, r.ws = some w ∧ w.list ≠ .null ∧ ∀ e ∈ w.exts, e.client = .null
  arr : r.cookies = [] → r.array = .null
  arr' : r.cookies ≠ [] → r.array ≠ .null
  good : ∀ c ∈ r.cookies, GoodCk c

theorem cP_null (n : Nat) : cP .null n = 0 := rfl

theorem cL_cookies (cs : List Ck) (n : Nat) : cL (cs.flatMap ckPtrs) n = cCs cs n := by
  induction cs with
  | nil => rfl
  | cons c t ih => rw [List.flatMap_cons, cL_append, ih]; simp [ckPtrs, cL, cCs, cC]; omega

theorem cL_exts (es : List Ext) (n : Nat) : cL (es.flatMap extPtrs) n = cXs es n := by
  induction es with
  | nil => rfl
  | cons c t ih => rw [List.flatMap_cons, cL_append, ih]; simp [extPtrs, cL, cXs]; omega

theorem cCs_append (a b : List Ck) (n : Nat) : cCs (a ++ b) n = cCs a n + cCs b n := by
  induction a with
  | nil => simp [cCs]
  | cons p t ih => simp [cCs, ih]; omega

theorem cXs_append (a b : List Ext) (n : Nat) : cXs (a ++ b) n = cXs a n + cXs b n := by
  induction a with
  | nil => simp [cXs]
  | cons p t ih => simp [cXs, ih]; omega

theorem P_eq {h : Heap} {c d : Nat → Nat} {p : P} (o : Own h c) (e : ∀ n, c n = cA p n + d n) : ∀ n, cP p n = cA p n := by
  cases p with
  | null => have := o 0; have e0 := e 0; simp only [cA] at e0; omega
  | «at» m => intro n; rfl
  | junk => have := o 0; have e0 := e 0; simp only [cA] at e0; omega

theorem malloc_ne {h h' : Heap} {p : P} (e : malloc h = (p, h')) : p ≠ .null := by
  simp [malloc] at e; rw [← e.1]; simp

theorem own_initResponse {h : Heap} {c d : Nat → Nat} (box : P) (o : Own h c) (e : ∀ n, c n = cP box n + d n) :
    ∃ r h', initResponse h box = (r, h') ∧ Own h' (fun n => cRs r n + d n) ∧ RInv r ∧ r.protocol = .null ∧ r.realm = .null ∧ r.body = .null ∧
      r.cookies = [] ∧ ∃ w, r.ws = some w ∧ w.protocol = .null ∧ w.extensions = .null := by
  obtain ⟨b, h1, e1, o1, -⟩ := own_malloc o
  obtain ⟨m, h2, e2, b2, o2, l2⟩ := own_mapInit b o1
  obtain ⟨w, h3, e3, o3, -⟩ := own_malloc o2
  obtain ⟨l, h4, e4, o4, q4⟩ := own_malloc o3
  refine ⟨⟨box, .null, .null, .null, 0, some m, .null, [], some ⟨w, .null, .null, l, .null, []⟩⟩, h4, by simp only [initResponse, e1, e2, e3, e4], o4.congr ?_, ⟨⟨_, rfl, malloc_ne e4, by simp⟩, fun _ => rfl, fun hx => absurd rfl hx, by simp⟩, rfl, rfl, rfl, rfl,
    _, rfl, rfl, rfl⟩
  intro n
  have := e n; have := l2 n; have := q4 n
  simp only [cRs, cP_null, cO, cCs, cWo, cW, cXs]
  omega

theorem own_touch {h : Heap} {c d : Nat → Nat} {p : P} (o : Own h c) (e : ∀ n, c n = cP p n + d n) : touch h p = .ok () := by
  unfold touch
  split
  · rfl
  · rename_i hp
    exact own_needP o hp e

theorem own_cleanHandle {h : Heap} {c d : Nat → Nat} {w : Option WsH} (o : Own h c) (e : ∀ n, c n = cWo w n + d n) :
    ∃ h', cleanHandle h w = .ok h' ∧ Own h' d := by
  cases w with
  | none => exact ⟨h, rfl, o.congr (by intro n; rw [e n]; simp [cWo])⟩
  | some w =>
    have n1 : need h w.box = .ok () := own_need (d := fun n => cP w.protocol n + cP w.extensions n + cP w.list n + cP w.array n + cXs w.exts n + d n) o
      (by intro n; rw [e n]; simp only [cWo, cW]; omega)
    obtain ⟨h1, e1, o1⟩ := own_freeAll (d := fun n => cA w.box n + cP w.list n + cP w.array n + cXs w.exts n + d n) [w.protocol, w.extensions] o
      (by intro n; rw [e n]; simp only [cWo, cW, cL]; omega)
    have n2 := own_touch (p := w.list) (d := fun n => cA w.box n + cP w.array n + cXs w.exts n + d n) o1 (by intro n; omega)
    obtain ⟨h2, e2, o2⟩ := own_freeAll (d := fun n => cA w.box n + cP w.list n + cP w.array n + d n) (w.exts.flatMap extPtrs) o1
      (by intro n; rw [cL_exts]; omega)
    have q1 := P_eq (p := w.box) (d := fun n => cP w.list n + cP w.array n + d n) o2 (by intro n; omega)
    obtain ⟨h3, e3, o3⟩ := own_freeAll (d := d) [w.array, w.list, w.box] o2 (by
      intro n; have := q1 n; simp only [cL]; omega)
    exact ⟨h3, by simp [cleanHandle, n1, e1, n2, e2, e3], o3⟩

theorem needIf {h : Heap} {c d : Nat → Nat} {cs : List Ck} {p : P} (o : Own h c) (hp : cs ≠ [] → p ≠ .null) (e : ∀ n, c n = cP p n + d n) :
    (if cs = [] then Res.ok () else need h p) = .ok () := by
  split
  · rfl
  · rename_i hc
    exact own_needP o (hp hc) e

theorem own_cleanResponse {h : Heap} {c d : Nat → Nat} {r : Resp} (I : r.cookies ≠ [] → r.array ≠ .null) (o : Own h c) (e : ∀ n, c n = cRs r n + d n) :
    ∃ r' h', cleanResponse h r = .ok (r', h') ∧ r'.box = r.box ∧ Own h' (fun n => cP r.box n + d n) := by
  obtain ⟨h1, e1, o1⟩ := own_free (p := r.protocol) (d := fun n => cP r.box n + cP r.realm n + cP r.body n + cO r.header n + cP r.array n +
    cCs r.cookies n + cWo r.ws n + d n) o (by intro n; rw [e n]; simp only [cRs]; omega)
  obtain ⟨h2, e2, o2⟩ := own_mapCleanFull (m := r.header) (d := fun n => cP r.box n + cP r.realm n + cP r.body n + cP r.array n +
    cCs r.cookies n + cWo r.ws n + d n) o1 (by intro n; omega)
  have n2 := needIf (cs := r.cookies) (p := r.array) (d := fun n => cP r.box n + cP r.realm n + cP r.body n +
    cCs r.cookies n + cWo r.ws n + d n) o2 I (by intro n; omega)
  obtain ⟨h3, e3, o3⟩ := own_freeAll (d := fun n => cP r.box n + cP r.realm n + cP r.body n + cP r.array n + cWo r.ws n + d n)
    (r.cookies.flatMap ckPtrs) o2 (by intro n; rw [cL_cookies]; omega)
  obtain ⟨h4, e4, o4⟩ := own_freeAll (d := fun n => cP r.box n + cWo r.ws n + d n) [r.realm, r.array, r.body] o3
    (by intro n; simp only [cL]; omega)
  obtain ⟨h5, e5, o5⟩ := own_cleanHandle (w := r.ws) (d := fun n => cP r.box n + d n) o4 (by intro n; omega)
  exact ⟨{ r with protocol := .null, header := none, realm := .null, array := .null, body := .null }, h5,
    by simp only [cleanResponse, e1, e2, n2, e3, e4, e5, Res.ok_bind, Res.pure_eq], rfl, o5⟩

theorem own_cleanResponseFull {h : Heap} {c d : Nat → Nat} {r : Resp} (I : r.cookies ≠ [] → r.array ≠ .null) (o : Own h c) (e : ∀ n, c n = cRs r n + d n) :
    ∃ h', cleanResponseFull h r = .ok h' ∧ Own h' d := by
  obtain ⟨r', h1, e1, b1, o1⟩ := own_cleanResponse I o e
  obtain ⟨h2, e2, o2⟩ := own_free o1 (fun _ => rfl)
  exact ⟨h2, by simp [cleanResponseFull, e1, b1, e2], o2⟩

theorem own_rput {h : Heap} {c d : Nat → Nat} {r : Resp} (k v : Option Bytes) (o : Own h c) (e : ∀ n, c n = cRs r n + d n) :
    ∃ rc m h', rput h r k v = .ok (rc, { r with header := m }, h') ∧ Own h' (fun n => cRs { r with header := m } n + d n) := by
  unfold rput
  cases hm : r.header with
  | none => exact ⟨.params, none, h, by simp [← hm], o.congr (by intro n; rw [e n]; simp [cRs, hm])⟩
  | some m =>
    obtain ⟨rc, m', h', e1, o1⟩ := own_put (m := m) (d := fun n => cP r.box n + cP r.protocol n + cP r.realm n + cP r.body n + cP r.array n +
      cCs r.cookies n + cWo r.ws n + d n) k v o (by intro n; rw [e n]; simp only [cRs, hm, cO]; omega)
    exact ⟨rc, some m', h', by simp [e1], o1.congr (by intro n; simp only [cRs, cO]; omega)⟩

theorem own_rremove {h : Heap} {c d : Nat → Nat} {r : Resp} (k : Option Bytes) (same : Bytes → Bytes → Bool) (o : Own h c)
    (e : ∀ n, c n = cRs r n + d n) :
    ∃ rc m h', rremove h r k same = .ok (rc, { r with header := m }, h') ∧ Own h' (fun n => cRs { r with header := m } n + d n) := by
  unfold rremove
  cases hm : r.header with
  | none => exact ⟨.params, none, h, by simp [← hm], o.congr (by intro n; rw [e n]; simp [cRs, hm])⟩
  | some m =>
    obtain ⟨rc, m', h', e1, -, o1⟩ := own_remove (m := m) (d := fun n => cP r.box n + cP r.protocol n + cP r.realm n + cP r.body n + cP r.array n +
      cCs r.cookies n + cWo r.ws n + d n) k same o (by intro n; rw [e n]; simp only [cRs, hm, cO]; omega)
    exact ⟨rc, some m', h', by simp [e1], o1.congr (by intro n; simp only [cRs, cO]; omega)⟩

theorem own_rbody {h : Heap} {c d : Nat → Nat} {r : Resp} (v : Option Bytes) (o : Own h c) (e : ∀ n, c n = cRs r n + d n) :
    ∃ p l h', rbody h r v = .ok ({ r with body := p, bodyLen := l }, h') ∧ Own h' (fun n => cRs { r with body := p, bodyLen := l } n + d n) := by
  obtain ⟨h1, e1, o1⟩ := own_free (p := r.body) (d := fun n => cP r.box n + cP r.protocol n + cP r.realm n + cO r.header n + cP r.array n +
    cCs r.cookies n + cWo r.ws n + d n) o (by intro n; rw [e n]; simp only [cRs]; omega)
  obtain ⟨p, h2, e2, o2, -⟩ := own_strdup o1 v
  exact ⟨p, _, h2, by simp [rbody, e1, e2]; rfl, o2.congr (by intro n; simp only [cRs]; omega)⟩

theorem strdup_some {h h' : Heap} {v : Option Bytes} {p : P} (e : strdup h v = (p, h')) (hv : v ≠ none) : p ≠ .null := by
  cases v with
  | none => exact absurd rfl hv
  | some s => simp [strdup, malloc] at e; rw [← e.1]; simp

theorem own_replaceCookie {c : Nat → Nat} (key : Bytes) (expires domain path : Option Bytes) (cs : List Ck) (d : Nat → Nat) {h : Heap}
    (good : ∀ x ∈ cs, GoodCk x) (o : Own h c) (e : ∀ n, c n = cCs cs n + d n) :
    replaceCookie h key expires domain path cs = .ok none ∨
    ∃ cs' h', replaceCookie h key expires domain path cs = .ok (some (cs', h')) ∧ Own h' (fun n => cCs cs' n + d n) ∧ (∀ x ∈ cs', GoodCk x) ∧
      cs' ≠ [] ∧ cs ≠ [] ∧
      ((∀ x ∈ cs, FullCk x) → expires ≠ none → domain ≠ none → path ≠ none → ∀ x ∈ cs', FullCk x) := by
  induction cs generalizing d with
  | nil => exact .inl rfl
  | cons x t ih =>
    have gx := good x (by simp)
    have hn : need h x.key = .ok () := own_needP (d := fun n => cP x.value n + cP x.expires n + cP x.domain n + cP x.path n + cCs t n + d n) o gx.1
      (by intro n; rw [e n]; simp only [cCs, cC]; omega)
    by_cases hk : x.text = key
    · obtain ⟨h1, e1, o1⟩ := own_freeAll (d := fun n => cP x.key n + cCs t n + d n) [x.value, x.expires, x.domain, x.path] o
        (by intro n; rw [e n]; simp only [cCs, cC, cL]; omega)
      obtain ⟨v, h2, e2, o2, q2⟩ := own_malloc o1
      obtain ⟨ex, h3, e3, o3, -⟩ := own_strdup o2 expires
      obtain ⟨dm, h4, e4, o4, -⟩ := own_strdup o3 domain
      obtain ⟨pa, h5, e5, o5, -⟩ := own_strdup o4 path
      refine .inr ⟨{ x with value := v, expires := ex, domain := dm, path := pa } :: t, h5,
        by simp [replaceCookie, hn, hk, e1, e2, e3, e4, e5], o5.congr ?_, ?_, by simp, by simp, ?_⟩
      · intro n; have := q2 n; simp only [cCs, cC]; omega
      · intro y hy
        rcases List.mem_cons.1 hy with rfl | hy
        · exact ⟨gx.1, malloc_ne e2⟩
        · exact good y (by simp [hy])
      · intro hf h1 h2 h3 y hy
        rcases List.mem_cons.1 hy with rfl | hy
        · exact ⟨strdup_some e3 h1, strdup_some e4 h2, strdup_some e5 h3⟩
        · exact hf y (by simp [hy])
    · rcases ih (fun n => cC x n + d n) (fun y hy => good y (by simp [hy])) (by intro n; rw [e n]; simp only [cCs]; omega) with h1 | ⟨cs', h1, e1, o1, g1, -, -, f1⟩
      · exact .inl (by simp [replaceCookie, hn, hk, h1])
      · refine .inr ⟨x :: cs', h1, by simp [replaceCookie, hn, hk, e1], o1.congr (by intro n; simp only [cCs]; omega), ?_, by simp, by simp, ?_⟩
        · intro y hy
          rcases List.mem_cons.1 hy with rfl | hy
          · exact gx
          · exact g1 y hy
        · intro hf h1 h2 h3 y hy
          rcases List.mem_cons.1 hy with rfl | hy
          · exact hf y (by simp)
          · exact f1 (fun z hz => hf z (by simp [hz])) h1 h2 h3 y hy

theorem own_addCookie {h : Heap} {c d : Nat → Nat} {r : Resp} (key : Bytes) (expires domain path : Option Bytes) (I : RInv r) (o : Own h c)
    (e : ∀ n, c n = cRs r n + d n) :
    ∃ a cs h', addCookie h r key expires domain path = .ok ({ r with array := a, cookies := cs }, h') ∧
      Own h' (fun n => cRs { r with array := a, cookies := cs } n + d n) ∧ RInv { r with array := a, cookies := cs } ∧
      ((∀ x ∈ r.cookies, FullCk x) → expires ≠ none → domain ≠ none → path ≠ none → ∀ x ∈ cs, FullCk x) := by
  have n0 := needIf (cs := r.cookies) (p := r.array) (d := fun n => cP r.box n + cP r.protocol n + cP r.realm n + cP r.body n + cO r.header n +
    cCs r.cookies n + cWo r.ws n + d n) o I.arr' (by intro n; rw [e n]; simp only [cRs]; omega)
  unfold addCookie
  simp only [n0, Res.ok_bind]
  rcases own_replaceCookie key expires domain path r.cookies (fun n => cP r.box n + cP r.protocol n + cP r.realm n + cP r.body n + cO r.header n +
    cP r.array n + cWo r.ws n + d n) I.good o (by intro n; rw [e n]; simp only [cRs]; omega) with h1 | ⟨cs', h1, e1, o1, g1, ne, ne', f1⟩
  · have arr : ∃ a h2, (if r.cookies = [] then Res.ok (malloc h) else realloc h r.array) = .ok (a, h2) ∧ a ≠ .null ∧
        Own h2 (fun n => cP a n + (cP r.box n + cP r.protocol n + cP r.realm n + cP r.body n + cO r.header n + cCs r.cookies n + cWo r.ws n + d n)) := by
      split
      · rename_i hc
        obtain ⟨a, h2, e2, o2, q2⟩ := own_malloc o
        refine ⟨a, h2, by rw [e2], malloc_ne e2, o2.congr ?_⟩
        intro n
        have := q2 n; have := e n
        simp only [cRs, I.arr hc, cP_null] at this
        omega
      · obtain ⟨a, h2, e2, o2⟩ := own_realloc (p := r.array) (d := fun n => cP r.box n + cP r.protocol n + cP r.realm n + cP r.body n + cO r.header n +
          cCs r.cookies n + cWo r.ws n + d n) o (by intro n; rw [e n]; simp only [cRs]; omega)
        refine ⟨a, h2, e2, ?_, o2⟩
        simp only [realloc] at e2
        rcases hf : free h r.array with hh | _
        · rw [hf] at e2
          simp only [Res.ok_bind, Res.pure_eq] at e2
          exact malloc_ne (Res.ok.inj e2)
        · rw [hf] at e2; cases e2
    obtain ⟨a, h2, e2, na, o2⟩ := arr
    obtain ⟨k, h3, e3, o3, q3⟩ := own_malloc o2
    obtain ⟨v, h4, e4, o4, q4⟩ := own_malloc o3
    obtain ⟨ex, h5, e5, o5, -⟩ := own_strdup o4 expires
    obtain ⟨dm, h6, e6, o6, -⟩ := own_strdup o5 domain
    obtain ⟨pa, h7, e7, o7, -⟩ := own_strdup o6 path
    refine ⟨a, r.cookies ++ [⟨key, k, v, ex, dm, pa⟩], h7, ?_, o7.congr ?_, ⟨I.ws, by simp, fun _ => na, ?_⟩, ?_⟩
    · simp only [h1, Res.ok_bind, e2, e3, e4, e5, e6, e7, Res.pure_eq]
    · intro n
      have := q3 n; have := q4 n
      simp only [cRs, cCs_append, cCs, cC]
      omega
    · intro x hx
      rcases List.mem_append.1 hx with hx | hx
      · exact I.good x hx
      · simp at hx; subst hx; exact ⟨malloc_ne e3, malloc_ne e4⟩
    · intro hf h1 h2 h3 x hx
      rcases List.mem_append.1 hx with hx | hx
      · exact hf x hx
      · simp at hx; subst hx; exact ⟨strdup_some e5 h1, strdup_some e6 h2, strdup_some e7 h3⟩
  · refine ⟨r.array, cs', h1, by simp [e1], o1.congr (by intro n; simp only [cRs]; omega), ⟨I.ws, fun hx => absurd hx ne, fun _ => I.arr' ne', g1⟩, f1⟩

/-- What the client keeps of a response. -/
structure Same (r r' : Resp) : Prop where
  inv : RInv r'
  body : r'.body = r.body
  full : (∀ x ∈ r.cookies, FullCk x) → ∀ x ∈ r'.cookies, FullCk x

theorem RInv.header {r : Resp} (I : RInv r) (m : Option RMap) : RInv { r with header := m } := ⟨I.ws, I.arr, I.arr', I.good⟩

theorem own_writeHeader {h : Heap} {c d : Nat → Nat} {r : Resp} (l : Line) (I : RInv r) (o : Own h c) (e : ∀ n, c n = cRs r n + d n) :
    ∃ r' h', writeHeader h r l = .ok (r', h') ∧ Own h' (fun n => cRs r' n + d n) ∧ Same r r' := by
  cases l with
  | status =>
    obtain ⟨h1, e1, o1⟩ := own_free (p := r.protocol) (d := fun n => cP r.box n + cP r.realm n + cP r.body n + cO r.header n + cP r.array n +
      cCs r.cookies n + cWo r.ws n + d n) o (by intro n; rw [e n]; simp only [cRs]; omega)
    obtain ⟨p, h2, e2, o2, q2⟩ := own_malloc o1
    exact ⟨{ r with protocol := p }, h2, by simp [writeHeader, e1, e2], o2.congr (by intro n; have := q2 n; simp only [cRs]; omega),
      ⟨I.ws, I.arr, I.arr', I.good⟩, rfl, fun hf => hf⟩
  | field k v =>
    by_cases hh : rhas r k = true
    · obtain ⟨tmp, h1, e1, o1, q1⟩ := own_malloc o
      obtain ⟨rc, m, h2, e2, o2⟩ := own_rremove (r := r) (d := fun n => cP tmp n + d n) k eqCase o1 (by intro n; have := q1 n; have := e n; omega)
      have putb : ∃ rc' m' h3, (if rc = Rc.ok then rput h2 { r with header := m } k (some []) else Res.ok (rc, { r with header := m }, h2)) =
          .ok (rc', { r with header := m' }, h3) ∧ Own h3 (fun n => cRs { r with header := m' } n + (cP tmp n + d n)) := by
        split
        · obtain ⟨rc', m', h3, e3, o3⟩ := own_rput (r := { r with header := m }) k (some []) o2 (fun _ => rfl)
          exact ⟨rc', m', h3, e3, o3⟩
        · exact ⟨rc, m, h2, rfl, o2⟩
      obtain ⟨rc', m', h3, e3, o3⟩ := putb
      obtain ⟨h4, e4, o4⟩ := own_free (p := tmp) (d := fun n => cRs { r with header := m' } n + d n) o3 (by intro n; omega)
      exact ⟨_, h4, by simp only [writeHeader, hh, if_true, e1, e2, Res.ok_bind, e3, e4, Res.pure_eq], o4, I.header m', rfl, fun hf => hf⟩
    · obtain ⟨rc, m, h1, e1, o1⟩ := own_rput (r := r) k v o e
      exact ⟨_, h1, by simp [writeHeader, hh, e1], o1, I.header m, rfl, fun hf => hf⟩

theorem Same.trans {a b c : Resp} (x : Same a b) (y : Same b c) : Same a c := ⟨y.inv, y.body.trans x.body, fun hf => y.full (x.full hf)⟩

theorem own_writeHeaders {c d : Nat → Nat} (ls : List Line) {h : Heap} {r : Resp} (I : RInv r) (o : Own h c) (e : ∀ n, c n = cRs r n + d n) :
    ∃ r' h', writeHeaders h r ls = .ok (r', h') ∧ Own h' (fun n => cRs r' n + d n) ∧ Same r r' := by
  induction ls generalizing h r c with
  | nil => exact ⟨r, h, rfl, o.congr e, I, rfl, fun hf => hf⟩
  | cons l t ih =>
    obtain ⟨r1, h1, e1, o1, s1⟩ := own_writeHeader l I o e
    obtain ⟨r2, h2, e2, o2, s2⟩ := ih s1.inv o1 (fun _ => rfl)
    exact ⟨r2, h2, by simp [writeHeaders, e1, e2], o2, s1.trans s2⟩

theorem own_fetchCookies {c d : Nat → Nat} (ks : List Bytes) {h : Heap} {r : Resp} (I : RInv r) (o : Own h c) (e : ∀ n, c n = cRs r n + d n) :
    ∃ r' h', fetchCookies h r ks = .ok (r', h') ∧ Own h' (fun n => cRs r' n + d n) ∧ Same r r' := by
  induction ks generalizing h r c with
  | nil => exact ⟨r, h, rfl, o.congr e, I, rfl, fun hf => hf⟩
  | cons k t ih =>
    obtain ⟨a, cs, h1, e1, o1, I1, f1⟩ := own_addCookie k (some []) (some []) (some []) I o e
    obtain ⟨r2, h2, e2, o2, s2⟩ := ih I1 o1 (fun _ => rfl)
    exact ⟨r2, h2, by simp [fetchCookies, e1, e2], o2,
      Same.trans (b := { r with array := a, cookies := cs }) ⟨I1, rfl, fun hf => f1 hf (by simp) (by simp) (by simp)⟩ s2⟩

/-- Calls that may set a body. -/
def touchesBody : ROp → Bool
  | .stringBody _ | .binaryBody _ | .emptyBody | .jsonBody _ | .fetch .. => true
  | _ => false

/-- Calls that may add a cookie without one of the attributes. -/
def leavesGap : ROp → Bool
  | .cookie _ e d p => e.isNone || d.isNone || p.isNone
  | _ => false

theorem own_rstep {h : Heap} {c d : Nat → Nat} {r : Resp} (op : ROp) (I : RInv r)
    (hf : ∀ ls cs b, op = .fetch ls true cs b → b ≠ [] → r.body = .null) (o : Own h c) (e : ∀ n, c n = cRs r n + d n) :
    ∃ r' h', rstep h r op = .ok (r', h') ∧ Own h' (fun n => cRs r' n + d n) ∧ RInv r' ∧
      (touchesBody op = false → r'.body = r.body) ∧ (leavesGap op = false → (∀ x ∈ r.cookies, FullCk x) → ∀ x ∈ r'.cookies, FullCk x) := by
  have same : ∃ r' h', Res.ok (r, h) = .ok (r', h') ∧ Own h' (fun n => cRs r' n + d n) ∧ RInv r' ∧
      (touchesBody op = false → r'.body = r.body) ∧ (leavesGap op = false → (∀ x ∈ r.cookies, FullCk x) → ∀ x ∈ r'.cookies, FullCk x) :=
    ⟨r, h, rfl, o.congr e, I, fun _ => rfl, fun _ hf => hf⟩
  cases op with
  | put k v =>
    obtain ⟨rc, m, h1, e1, o1⟩ := own_rput k v o e
    exact ⟨_, h1, by simp [rstep, e1], o1, I.header m, fun _ => rfl, fun _ hf => hf⟩
  | remove k =>
    obtain ⟨rc, m, h1, e1, o1⟩ := own_rremove k (fun a b => decide (a = b)) o e
    exact ⟨_, h1, by simp [rstep, e1], o1, I.header m, fun _ => rfl, fun _ hf => hf⟩
  | realm v =>
    obtain ⟨h1, e1, o1⟩ := own_free (p := r.realm) (d := fun n => cP r.box n + cP r.protocol n + cP r.body n + cO r.header n + cP r.array n +
      cCs r.cookies n + cWo r.ws n + d n) o (by intro n; rw [e n]; simp only [cRs]; omega)
    obtain ⟨p, h2, e2, o2, -⟩ := own_strdup o1 (if v = some [] then none else v)
    exact ⟨{ r with realm := p }, h2, by simp [rstep, e1, e2], o2.congr (by intro n; simp only [cRs]; omega),
      ⟨I.ws, I.arr, I.arr', I.good⟩, fun _ => rfl, fun _ hf => hf⟩
  | cookie key ex dm pa =>
    cases key with
    | none => exact same
    | some key =>
      obtain ⟨a, cs, h1, e1, o1, I1, f1⟩ := own_addCookie key ex dm pa I o e
      refine ⟨_, h1, e1, o1, I1, fun _ => rfl, fun hg hf => f1 hf ?_ ?_ ?_⟩ <;>
        (rintro rfl; simp [leavesGap] at hg)
  | stringBody v =>
    simp only [rstep]
    split
    · obtain ⟨p, l, h1, e1, o1⟩ := own_rbody v o e
      exact ⟨_, h1, e1, o1, ⟨I.ws, I.arr, I.arr', I.good⟩, by simp [touchesBody], fun _ hf => hf⟩
    · exact same
  | binaryBody v =>
    simp only [rstep]
    split
    · exact same
    · obtain ⟨p, l, h1, e1, o1⟩ := own_rbody v o e
      exact ⟨_, h1, e1, o1, ⟨I.ws, I.arr, I.arr', I.good⟩, by simp [touchesBody], fun _ hf => hf⟩
  | emptyBody =>
    obtain ⟨p, l, h1, e1, o1⟩ := own_rbody none o e
    exact ⟨_, h1, e1, o1, ⟨I.ws, I.arr, I.arr', I.good⟩, by simp [touchesBody], fun _ hf => hf⟩
  | jsonBody v =>
    simp only [rstep]
    split
    · obtain ⟨p, l, h1, e1, o1⟩ := own_rbody v o e
      obtain ⟨rc, m, h2, e2, o2⟩ := own_rput (r := { r with body := p, bodyLen := l }) (some b!"Content-Type") (some b!"application/json") o1 (fun _ => rfl)
      exact ⟨_, h2, by simp [e1, e2], o2, ⟨I.ws, I.arr, I.arr', I.good⟩, by simp [touchesBody], fun _ hf => hf⟩
    · exact same
  | websocket protocol extensions =>
    obtain ⟨w, hw, hl, hx⟩ := I.ws
    have n1 : need h w.box = .ok () := own_need (d := fun n => cP r.box n + cP r.protocol n + cP r.realm n + cP r.body n + cO r.header n + cP r.array n +
      cCs r.cookies n + (cP w.protocol n + cP w.extensions n + cP w.list n + cP w.array n + cXs w.exts n) + d n) o
      (by intro n; rw [e n]; simp only [cRs, hw, cWo, cW]; omega)
    obtain ⟨h1, e1, o1⟩ := own_free (p := w.protocol) (d := fun n => cP r.box n + cP r.protocol n + cP r.realm n + cP r.body n + cO r.header n + cP r.array n +
      cCs r.cookies n + (cA w.box n + cP w.extensions n + cP w.list n + cP w.array n + cXs w.exts n) + d n) o
      (by intro n; rw [e n]; simp only [cRs, hw, cWo, cW]; omega)
    obtain ⟨p, h2, e2, o2, -⟩ := own_strdup o1 protocol
    obtain ⟨h3, e3, o3⟩ := own_free (p := w.extensions) (d := fun n => cP p n + (cP r.box n + cP r.protocol n + cP r.realm n + cP r.body n + cO r.header n +
      cP r.array n + cCs r.cookies n + (cA w.box n + cP w.list n + cP w.array n + cXs w.exts n) + d n)) o2 (by intro n; omega)
    obtain ⟨x, h4, e4, o4, -⟩ := own_strdup o3 extensions
    refine ⟨{ r with ws := some { w with protocol := p, extensions := x } }, h4, by simp [rstep, hw, n1, e1, e2, e3, e4], o4.congr ?_,
      ⟨⟨_, rfl, hl, hx⟩, I.arr, I.arr', I.good⟩, fun _ => rfl, fun _ hf => hf⟩
    intro n; simp only [cRs, cWo, cW]; omega
  | extension name =>
    simp only [rstep]
    split
    · exact same
    · obtain ⟨w, hw, hl, hx⟩ := I.ws
      obtain ⟨x, h1, e1, o1, q1⟩ := own_malloc o
      obtain ⟨s, h2, e2, o2, q2⟩ := own_malloc o1
      have n1 : need h2 w.box = .ok () := own_need (d := fun n => cA s n + (cA x n + (cP r.box n + cP r.protocol n + cP r.realm n + cP r.body n + cO r.header n +
        cP r.array n + cCs r.cookies n + (cP w.protocol n + cP w.extensions n + cP w.list n + cP w.array n + cXs w.exts n) + d n))) o2
        (by intro n; rw [e n]; simp only [cRs, hw, cWo, cW]; omega)
      have n2 : need h2 w.list = .ok () := own_needP (p := w.list) (hp := hl) (d := fun n => cA s n + (cA x n + (cP r.box n + cP r.protocol n + cP r.realm n + cP r.body n + cO r.header n +
        cP r.array n + cCs r.cookies n + (cP w.protocol n + cP w.extensions n + cA w.box n + cP w.array n + cXs w.exts n) + d n))) o2
        (by intro n; rw [e n]; simp only [cRs, hw, cWo, cW]; omega)
      obtain ⟨a, h3, e3, o3⟩ := own_realloc (p := w.array) (d := fun n => cA s n + (cA x n + (cP r.box n + cP r.protocol n + cP r.realm n + cP r.body n +
        cO r.header n + cP r.array n + cCs r.cookies n + (cP w.protocol n + cP w.extensions n + cA w.box n + cP w.list n + cXs w.exts n) + d n))) o2
        (by intro n; rw [e n]; simp only [cRs, hw, cWo, cW]; omega)
      refine ⟨{ r with ws := some { w with array := a, exts := w.exts ++ [⟨x, s, .null⟩] } }, h3, by simp [hw, e1, e2, n1, n2, e3], o3.congr ?_,
        ⟨⟨_, rfl, hl, by
          intro y hy
          rcases List.mem_append.1 hy with h0 | h0
          · exact hx y h0
          · rw [List.mem_singleton.1 h0]⟩, I.arr, I.arr', I.good⟩, fun _ => rfl, fun _ hf => hf⟩
      intro n
      have := q1 n; have := q2 n
      simp only [cRs, cWo, cW, cXs_append, cXs, cP_null]
      omega
  | fetch ls ok cs b =>
    obtain ⟨r1, h1, e1, o1, s1⟩ := own_writeHeaders ls I o e
    cases ok with
    | false => exact ⟨r1, h1, by simp [rstep, e1], o1, s1.inv, by simp [touchesBody], fun _ => s1.full⟩
    | true =>
      obtain ⟨r2, h2, e2, o2, s2⟩ := own_fetchCookies cs s1.inv o1 (fun _ => rfl)
      by_cases hb : b = []
      · exact ⟨r2, h2, by simp [rstep, e1, e2, hb], o2, s2.inv, by simp [touchesBody], fun _ => (s1.trans s2).full⟩
      · obtain ⟨p, h3, e3, o3, q3⟩ := own_malloc o2
        have hn := hf ls cs b rfl hb
        refine ⟨{ r2 with body := p, bodyLen := b.length }, h3, by simp [rstep, e1, e2, hb, e3], o3.congr ?_,
          ⟨s2.inv.ws, s2.inv.arr, s2.inv.arr', s2.inv.good⟩, by simp [touchesBody], fun _ => (s1.trans s2).full⟩
        intro n
        have := q3 n
        simp only [cRs, s2.body, s1.body, hn, cP_null]
        omega

theorem copyP_ne {h h' : Heap} {p q : P} (e : copyP h p = .ok (q, h')) (hp : p ≠ .null) : q ≠ .null := by
  have mk : ∀ {p : P}, (do let _ ← need h p; return malloc h) = Res.ok (q, h') → q ≠ .null := by
    intro p e
    rcases hn : need h p with _ | _
    · rw [hn] at e
      simp only [Res.ok_bind, Res.pure_eq] at e
      exact malloc_ne (Res.ok.inj e)
    · rw [hn] at e; cases e
  cases p with
  | null => exact absurd rfl hp
  | «at» m => exact mk e
  | junk => exact mk e

theorem own_copyCookie {h : Heap} {c d : Nat → Nat} {x : Ck} (g : GoodCk x) (f : FullCk x) (o : Own h c) (e : ∀ n, c n = cC x n + d n) :
    ∃ y h', copyCookie h x = .ok (y, h') ∧ Own h' (fun n => cC y n + c n) ∧ GoodCk y ∧ FullCk y := by
  obtain ⟨k, h1, e1, o1⟩ := own_copyP (p := x.key) (d := fun n => cP x.value n + cP x.expires n + cP x.domain n + cP x.path n + d n) o
    (by intro n; rw [e n]; simp only [cC]; omega)
  obtain ⟨v, h2, e2, o2⟩ := own_copyP (p := x.value) (d := fun n => cP k n + (cP x.key n + cP x.expires n + cP x.domain n + cP x.path n + d n)) o1
    (by intro n; rw [e n]; simp only [cC]; omega)
  obtain ⟨ex, h3, e3, o3⟩ := own_copyP (p := x.expires) (d := fun n => cP v n + (cP k n + (cP x.key n + cP x.value n + cP x.domain n + cP x.path n + d n))) o2
    (by intro n; rw [e n]; simp only [cC]; omega)
  obtain ⟨dm, h4, e4, o4⟩ := own_copyP (p := x.domain) (d := fun n => cP ex n + (cP v n + (cP k n + (cP x.key n + cP x.value n + cP x.expires n + cP x.path n + d n)))) o3
    (by intro n; rw [e n]; simp only [cC]; omega)
  obtain ⟨pa, h5, e5, o5⟩ := own_copyP (p := x.path) (d := fun n => cP dm n + (cP ex n + (cP v n + (cP k n + (cP x.key n + cP x.value n + cP x.expires n + cP x.domain n + d n))))) o4
    (by intro n; rw [e n]; simp only [cC]; omega)
  have b1 := copyP_ne e1 g.1
  have b2 := copyP_ne e2 g.2
  have b3 := copyP_ne e3 f.1
  have b4 := copyP_ne e4 f.2.1
  have b5 := copyP_ne e5 f.2.2
  refine ⟨⟨x.text, k, v, ex, dm, pa⟩, h5, ?_, o5.congr (by intro n; simp only [cC]; omega), ⟨b1, b2⟩, b3, b4, b5⟩
  simp [copyCookie, e1, e2, e3, e4, e5, b2, b3, b4, b5]

theorem own_copyCookies {c : Nat → Nat} (cs : List Ck) (d : Nat → Nat) {h : Heap} (g : ∀ x ∈ cs, GoodCk x) (f : ∀ x ∈ cs, FullCk x) (o : Own h c)
    (e : ∀ n, c n = cCs cs n + d n) :
    ∃ ys h', copyCookies h cs = .ok (ys, h') ∧ Own h' (fun n => cCs ys n + c n) ∧ (∀ x ∈ ys, GoodCk x) ∧ (∀ x ∈ ys, FullCk x) ∧ (cs ≠ [] → ys ≠ []) := by
  induction cs generalizing h c d with
  | nil => exact ⟨[], h, rfl, o.congr (by intro n; simp [cCs]), by simp, by simp, fun hx => absurd rfl hx⟩
  | cons x t ih =>
    obtain ⟨y, h1, e1, o1, g1, f1⟩ := own_copyCookie (d := fun n => cCs t n + d n) (g x (by simp)) (f x (by simp)) o
      (by intro n; rw [e n]; simp only [cCs]; omega)
    obtain ⟨ys, h2, e2, o2, g2, f2, -⟩ := ih (fun n => cC y n + (cC x n + d n)) (fun z hz => g z (by simp [hz])) (fun z hz => f z (by simp [hz])) o1
      (by intro n; rw [e n]; simp only [cCs]; omega)
    refine ⟨y :: ys, h2, by simp [copyCookies, e1, e2], o2.congr (by intro n; simp only [cCs]; omega), ?_, ?_, fun _ => by simp⟩
    · intro z hz
      rcases List.mem_cons.1 hz with rfl | hz
      · exact g1
      · exact g2 z hz
    · intro z hz
      rcases List.mem_cons.1 hz with rfl | hz
      · exact f1
      · exact f2 z hz

theorem own_mapCopy {h : Heap} {c d : Nat → Nat} {m : Option RMap} (o : Own h c) (e : ∀ n, c n = cO m n + d n) :
    ∃ m' h', mapCopy h m = .ok (m', h') ∧ Own h' (fun n => cO m' n + c n) := by
  cases m with
  | none => exact ⟨none, h, rfl, o.congr (by intro n; simp [cO])⟩
  | some s =>
    obtain ⟨b, h1, e1, o1, -⟩ := own_malloc o
    obtain ⟨m1, h2, e2, b2, o2, l2⟩ := own_mapInit b o1
    have o3 : Own h2 (fun n => cM m1 n + c n) := o2.congr (by intro n; have := l2 n; omega)
    have n1 : need h2 s.box = .ok () := own_need (d := fun n => cM m1 n + (cA s.keys n + cA s.values n + cA s.lengths n + cE s.entries n + d n)) o3
      (by intro n; rw [e n]; simp only [cO, cM]; omega)
    have n2 : need h2 s.keys = .ok () := own_need (d := fun n => cM m1 n + (cA s.box n + cA s.values n + cA s.lengths n + cE s.entries n + d n)) o3
      (by intro n; rw [e n]; simp only [cO, cM]; omega)
    obtain ⟨ok, m2, h3, e3, -, o4⟩ := own_copyEntries s.entries (m := m1) (fun n => cA s.box n + cA s.keys n + cA s.values n + cA s.lengths n + d n) o3
      (by intro n; rw [e n]; simp only [cO, cM]; omega)
    have o5 : Own h3 (fun n => cM m2 n + c n) := o4.congr (by intro n; rw [e n]; simp only [cO, cM]; omega)
    cases ok with
    | true => exact ⟨some m2, h3, by simp [mapCopy, e1, e2, n1, n2, e3], o5⟩
    | false =>
      obtain ⟨h4, e4, o6⟩ := own_mapCleanFull (m := some m2) (d := c) o5 (fun _ => rfl)
      exact ⟨none, h4, by simp [mapCopy, e1, e2, n1, n2, e3, e4], o6.congr (by intro n; simp [cO])⟩

/-- A response nothing was put into. -/
structure Unused (r : Resp) : Prop where
  inv : RInv r
  protocol : r.protocol = .null
  realm : r.realm = .null
  body : r.body = .null
  cookies : r.cookies = []
  ws : ∃ w, r.ws = some w ∧ w.protocol = .null ∧ w.extensions = .null

theorem own_copyContent {h : Heap} {c d : Nat → Nat} {dest src : Resp} (I : RInv dest) (hb : dest.body = .null) (hc : dest.cookies = []) (J : RInv src)
    (f : ∀ x ∈ src.cookies, FullCk x) (o : Own h c) (e : ∀ n, c n = cRs dest n + (cRs src n + d n)) :
    ∃ r h', copyContent h dest src = .ok (r, h') ∧ Own h' (fun n => cRs r n + (cRs src n + d n)) ∧ RInv r ∧ r.ws = dest.ws ∧
      (∀ x ∈ r.cookies, FullCk x) := by
  have first : ∃ r h1, (if src.cookies = [] then Res.ok ({ dest with cookies := [], array := .null }, h) else (do
      let (a, h) := malloc h
      let _ ← need h src.array
      let (cs, h) ← copyCookies h src.cookies
      return ({ dest with cookies := cs, array := a }, h))) = .ok (r, h1) ∧ Own h1 (fun n => cRs r n + (cRs src n + d n)) ∧ RInv r ∧ r.ws = dest.ws ∧
      r.body = .null ∧ (∀ x ∈ r.cookies, FullCk x) := by
    split
    · refine ⟨_, h, rfl, o.congr ?_, ⟨I.ws, fun _ => rfl, fun hx => absurd rfl hx, by simp⟩, rfl, hb, by simp⟩
      intro n; rw [e n]; simp only [cRs, hc, I.arr hc]
    · rename_i hne
      obtain ⟨a, h1, e1, o1, q1⟩ := own_malloc o
      have n1 : need h1 src.array = .ok () := own_needP (d := fun n => cA a n + (cRs dest n + (cP src.box n + cP src.protocol n + cP src.realm n + cP src.body n +
        cO src.header n + cCs src.cookies n + cWo src.ws n + d n))) o1 (J.arr' hne) (by intro n; rw [e n]; simp only [cRs]; omega)
      obtain ⟨ys, h2, e2, o2, g2, f2, ne2⟩ := own_copyCookies src.cookies (fun n => cA a n + (cRs dest n + (cP src.box n + cP src.protocol n + cP src.realm n +
        cP src.body n + cO src.header n + cP src.array n + cWo src.ws n + d n))) J.good f o1 (by intro n; rw [e n]; simp only [cRs]; omega)
      refine ⟨{ dest with cookies := ys, array := a }, h2, by simp [e1, n1, e2], o2.congr ?_,
        ⟨I.ws, fun hx => absurd hx (ne2 hne), fun _ => malloc_ne e1, g2⟩, rfl, hb, f2⟩
      intro n
      have := q1 n
      rw [e n]; simp only [cRs, hc, I.arr hc, cP_null, cCs]; omega
  obtain ⟨r, h1, e1, o1, I1, w1, b1, f1⟩ := first
  unfold copyContent
  simp only [Res.pure_eq] at e1 ⊢
  rw [e1]
  simp only [Res.ok_bind]
  split
  · rename_i hif
    obtain ⟨p, h2, e2, o2, q2⟩ := own_malloc o1
    have n1 : need h2 src.body = .ok () := own_needP (d := fun n => cA p n + (cRs r n + (cP src.box n + cP src.protocol n + cP src.realm n + cP src.array n +
      cO src.header n + cCs src.cookies n + cWo src.ws n + d n))) o2 hif.1 (by intro n; simp only [cRs]; omega)
    refine ⟨{ r with body := p, bodyLen := src.bodyLen }, h2, by simp [e2, n1], o2.congr ?_, ⟨I1.ws, I1.arr, I1.arr', I1.good⟩, w1, f1⟩
    intro n
    have := q2 n
    simp only [cRs, b1, cP_null]; omega
  · exact ⟨r, h1, rfl, o1, I1, w1, f1⟩

theorem own_copyHandle {h : Heap} {c d : Nat → Nat} {dest src : Resp} (I : RInv dest) (hw : ∃ w, dest.ws = some w ∧ w.protocol = .null ∧ w.extensions = .null)
    (o : Own h c) (e : ∀ n, c n = cRs dest n + (cRs src n + d n)) :
    ∃ r h', copyHandle h dest src = .ok (r, h') ∧ Own h' (fun n => cRs r n + (cRs src n + d n)) ∧ RInv r ∧ r.cookies = dest.cookies := by
  unfold copyHandle
  cases hs : src.ws with
  | none => exact ⟨dest, h, rfl, o.congr e, I, rfl⟩
  | some s =>
    obtain ⟨w, hd, h1, h2⟩ := hw
    have es : ∀ n, cRs src n = cA s.box n + cP s.protocol n + cP s.extensions n + (cP s.list n + cP s.array n + cXs s.exts n + (cP src.box n +
      cP src.protocol n + cP src.realm n + cP src.body n + cO src.header n + cP src.array n + cCs src.cookies n)) := by
      intro n; simp only [cRs, hs, cWo, cW]; omega
    have ed : ∀ n, cRs dest n = cA w.box n + (cP w.list n + cP w.array n + cXs w.exts n + (cP dest.box n +
      cP dest.protocol n + cP dest.realm n + cP dest.body n + cO dest.header n + cP dest.array n + cCs dest.cookies n)) := by
      intro n; simp only [cRs, hd, cWo, cW, h1, h2, cP_null]; omega
    have n1 : need h s.box = .ok () := own_need (d := fun n => cRs dest n + (cP s.protocol n + cP s.extensions n + (cP s.list n + cP s.array n + cXs s.exts n + (cP src.box n +
      cP src.protocol n + cP src.realm n + cP src.body n + cO src.header n + cP src.array n + cCs src.cookies n)) + d n)) o
      (by intro n; have := e n; have := es n; omega)
    have n2 : need h w.box = .ok () := own_need (d := fun n => cP w.list n + cP w.array n + cXs w.exts n + (cP dest.box n +
      cP dest.protocol n + cP dest.realm n + cP dest.body n + cO dest.header n + cP dest.array n + cCs dest.cookies n) + (cRs src n + d n)) o
      (by intro n; have := e n; have := ed n; omega)
    obtain ⟨p, h3, e3, o3⟩ := own_copyP (p := s.protocol) (d := fun n => cRs dest n + (cA s.box n + cP s.extensions n + (cP s.list n + cP s.array n + cXs s.exts n + (cP src.box n +
      cP src.protocol n + cP src.realm n + cP src.body n + cO src.header n + cP src.array n + cCs src.cookies n)) + d n)) o
      (by intro n; have := e n; have := es n; omega)
    obtain ⟨x, h4, e4, o4⟩ := own_copyP (p := s.extensions) (d := fun n => cP p n + (cRs dest n + (cA s.box n + cP s.protocol n + (cP s.list n + cP s.array n + cXs s.exts n + (cP src.box n +
      cP src.protocol n + cP src.realm n + cP src.body n + cO src.header n + cP src.array n + cCs src.cookies n)) + d n))) o3
      (by intro n; have := e n; have := es n; omega)
    refine ⟨{ dest with ws := some { w with protocol := p, extensions := x } }, h4, by simp [hd, n1, n2, e3, e4], o4.congr ?_,
      ⟨⟨_, rfl, by
        obtain ⟨w', hw', hl, hx⟩ := I.ws
        rw [hd, Option.some.injEq] at hw'
        subst hw'
        exact ⟨hl, hx⟩⟩, I.arr, I.arr', I.good⟩, rfl⟩
    intro n
    have := e n; have := ed n
    simp only [cRs, cWo, cW] at this ⊢
    simp only [cRs, cWo, cW] at *
    omega

theorem own_copyResponse {h : Heap} {c d : Nat → Nat} {dest src : Resp} (U : Unused dest) (J : RInv src) (f : ∀ x ∈ src.cookies, FullCk x) (o : Own h c)
    (e : ∀ n, c n = cRs dest n + (cRs src n + d n)) :
    ∃ ok r h', copyResponse h dest src = .ok (ok, r, h') ∧ Own h' (fun n => cRs r n + (cRs src n + d n)) ∧ RInv r ∧ (∀ x ∈ r.cookies, FullCk x) := by
  obtain ⟨p, h1, e1, o1⟩ := own_copyP (p := src.protocol) (d := fun n => cRs dest n + (cP src.box n + cP src.realm n + cP src.body n + cO src.header n +
    cP src.array n + cCs src.cookies n + cWo src.ws n + d n)) o (by intro n; rw [e n]; simp only [cRs]; omega)
  obtain ⟨a, h2, e2, o2⟩ := own_copyP (p := src.realm) (d := fun n => cP p n + (cRs dest n + (cP src.box n + cP src.protocol n + cP src.body n + cO src.header n +
    cP src.array n + cCs src.cookies n + cWo src.ws n + d n))) o1 (by intro n; rw [e n]; simp only [cRs]; omega)
  have o3 : Own h2 (fun n => cRs { dest with protocol := p, realm := a } n + (cRs src n + d n)) := o2.congr (by
    intro n; rw [e n]; simp only [cRs, U.protocol, U.realm, cP_null]; omega)
  have I3 : RInv { dest with protocol := p, realm := a } := ⟨U.inv.ws, U.inv.arr, U.inv.arr', U.inv.good⟩
  unfold copyResponse
  simp only [e1, Res.ok_bind, e2]
  by_cases hp : p = .null
  · refine ⟨false, { dest with protocol := p, realm := a }, h2, by simp [hp], o3, I3, ?_⟩
    intro x hx; rw [show ({ dest with protocol := p, realm := a } : Resp).cookies = [] from U.cookies] at hx; simp at hx
  · rw [if_neg hp]
    obtain ⟨h3, e3, o4⟩ := own_mapCleanFull (m := dest.header) (d := fun n => cRs { dest with protocol := p, realm := a, header := none } n + (cRs src n + d n)) o3
      (by intro n; simp only [cRs, cO]; omega)
    obtain ⟨m, h4, e4, o5⟩ := own_mapCopy (m := src.header) (d := fun n => cRs { dest with protocol := p, realm := a, header := none } n + (cP src.box n +
      cP src.protocol n + cP src.realm n + cP src.body n + cP src.array n + cCs src.cookies n + cWo src.ws n + d n)) o4
      (by intro n; simp only [cRs]; omega)
    have o6 : Own h4 (fun n => cRs { dest with protocol := p, realm := a, header := m } n + (cRs src n + d n)) := o5.congr (by
      intro n; simp only [cRs, cO]; omega)
    have I4 : RInv { dest with protocol := p, realm := a, header := m } := ⟨U.inv.ws, U.inv.arr, U.inv.arr', U.inv.good⟩
    simp only [e3, Res.ok_bind, e4]
    by_cases hm : m = none
    · refine ⟨false, { dest with protocol := p, realm := a, header := m }, h4, by simp [hm], o6, I4, ?_⟩
      intro x hx; rw [show ({ dest with protocol := p, realm := a, header := m } : Resp).cookies = [] from U.cookies] at hx; simp at hx
    · rw [if_neg hm]
      obtain ⟨r1, h5, e5, o7, I5, w5, f5⟩ := own_copyContent I4 U.body U.cookies J f o6 (fun _ => rfl)
      obtain ⟨r2, h6, e6, o8, I6, c6⟩ := own_copyHandle (src := src) I5 (by rw [w5]; exact U.ws) o7 (fun _ => rfl)
      exact ⟨true, r2, h6, by simp [e5, e6], o8, I6, by rw [c6]; exact f5⟩

theorem own_duplicateResponse {src : Resp} {c d : Nat → Nat} {h : Heap} (J : RInv src) (f : ∀ x ∈ src.cookies, FullCk x) (o : Own h c)
    (e : ∀ n, c n = cRs src n + d n) :
    ∃ x h', duplicateResponse h src = .ok (x, h') ∧ ((x = none ∧ Own h' c) ∨
      ∃ r, x = some r ∧ Own h' (fun n => cRs r n + c n) ∧ RInv r ∧ (∀ x ∈ r.cookies, FullCk x)) := by
  obtain ⟨box, h1, e1, o1, q1⟩ := own_malloc o
  obtain ⟨r, h2, e2, o2, I2, p2, a2, b2, c2, w2⟩ := own_initResponse (d := c) box o1 (by intro n; rw [q1])
  obtain ⟨ok, r3, h3, e3, o3, I3, f3⟩ := own_copyResponse (d := d) ⟨I2, p2, a2, b2, c2, w2⟩ J f o2 (by intro n; rw [e n])
  cases ok with
  | true => exact ⟨some r3, h3, by simp [duplicateResponse, e1, e2, e3], .inr ⟨r3, rfl, o3.congr (by intro n; rw [e n]), I3, f3⟩⟩
  | false =>
    obtain ⟨h4, e4, o4⟩ := own_cleanResponseFull I3.arr' o3 (fun _ => rfl)
    exact ⟨none, h4, by simp [duplicateResponse, e1, e2, e3, e4], .inl ⟨rfl, o4.congr (by intro n; rw [e n])⟩⟩

/-! ## Programs -/

/-- The blocks of all responses. -/
def cV : List (Option Resp) → Nat → Nat
  | [], _ => 0
  | none :: t, n => cV t n
  | some r :: t, n => cRs r n + cV t n

theorem cV_append (a b : List (Option Resp)) (n : Nat) : cV (a ++ b) n = cV a n + cV b n := by
  induction a with
  | nil => simp [cV]
  | cons x t ih => cases x <;> simp [cV, ih] <;> omega

theorem cV_get {l : List (Option Resp)} {i : Nat} {r : Resp} (h : l[i]? = some (some r)) (n : Nat) : cV l n = cRs r n + cV (l.set i none) n := by
  induction l generalizing i with
  | nil => simp at h
  | cons x t ih =>
    cases i with
    | zero => simp at h; subst h; simp [cV]
    | succ i =>
      have := ih (i := i) (by simpa using h)
      cases x <;> simp [cV, this] <;> omega

theorem cV_set {l : List (Option Resp)} {i : Nat} (h : i < l.length) (r : Resp) (n : Nat) : cV (l.set i (some r)) n = cRs r n + cV (l.set i none) n := by
  have := cV_get (l := l.set i (some r)) (i := i) (r := r) (by simp [h]) n
  simpa using this

theorem cV_none {l : List (Option Resp)} (h : ∀ r ∈ l, r = none) (n : Nat) : cV l n = 0 := by
  induction l with
  | nil => rfl
  | cons x t ih =>
    rw [h x (by simp)]
    exact ih (fun r hr => h r (by simp [hr]))

end Verif.Memory
