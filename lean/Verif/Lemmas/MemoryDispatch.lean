import Verif.Lemmas.MemoryEndpoints
import Verif.Lemmas.MemoryWs
/-! # Blocks of callbacks and answers -/
namespace Verif.Memory
open Verif.UMap (Rc)
open Verif.Endpoint (Endpoint slashWords)

/-! ## The headers of a response stay there -/

theorem rput_header {h h' : Heap} {r r' : Resp} {k v : Option Bytes} {rc : Rc} (e : rput h r k v = .ok (rc, r', h')) (hr : r.header ≠ none) :
    r'.header ≠ none := by
  cases hx : r.header with
  | none => exact absurd hx hr
  | some m =>
    unfold rput at e
    rw [hx] at e
    obtain ⟨a, -, e2⟩ := bind_inv e
    simp only [Res.pure_eq, Res.ok.injEq, Prod.mk.injEq] at e2
    rw [← e2.2.1]
    simp

theorem rremove_header {h h' : Heap} {r r' : Resp} {k : Option Bytes} {same : Bytes → Bytes → Bool} {rc : Rc}
    (e : rremove h r k same = .ok (rc, r', h')) (hr : r.header ≠ none) : r'.header ≠ none := by
  cases hx : r.header with
  | none => exact absurd hx hr
  | some m =>
    unfold rremove at e
    rw [hx] at e
    obtain ⟨a, -, e2⟩ := bind_inv e
    simp only [Res.pure_eq, Res.ok.injEq, Prod.mk.injEq] at e2
    rw [← e2.2.1]
    simp

theorem rbody_header {h h' : Heap} {r r' : Resp} {v : Option Bytes} (e : rbody h r v = .ok (r', h')) : r'.header = r.header := by
  unfold rbody at e
  obtain ⟨a, -, e2⟩ := bind_inv e
  simp only [Res.pure_eq, Res.ok.injEq, Prod.mk.injEq] at e2
  rw [← e2.1]

theorem addCookie_header {h h' : Heap} {r r' : Resp} {key : Bytes} {x d p : Option Bytes} (e : addCookie h r key x d p = .ok (r', h')) :
    r'.header = r.header := by
  unfold addCookie at e
  obtain ⟨_, -, e⟩ := bind_inv e
  obtain ⟨a, -, e⟩ := bind_inv e
  cases a with
  | some y =>
    simp only [Res.pure_eq, Res.ok.injEq, Prod.mk.injEq] at e
    rw [← e.1]
  | none =>
    simp only at e
    obtain ⟨a, -, e⟩ := bind_inv e
    simp only [Res.pure_eq, Res.ok.injEq, Prod.mk.injEq] at e
    rw [← e.1]

theorem writeHeader_header {h h' : Heap} {r r' : Resp} {l : Line} (e : writeHeader h r l = .ok (r', h')) (hr : r.header ≠ none) :
    r'.header ≠ none := by
  cases l with
  | status =>
    unfold writeHeader at e
    obtain ⟨a, -, e⟩ := bind_inv e
    simp only [Res.pure_eq, Res.ok.injEq, Prod.mk.injEq] at e
    rw [← e.1]
    exact hr
  | field k v =>
    unfold writeHeader at e
    simp only at e
    split at e
    · obtain ⟨⟨rc, r1, h1⟩, e1, e⟩ := bind_inv e
      have k1 := rremove_header e1 hr
      simp only at e
      by_cases hc : rc = .ok
      · simp only [if_pos hc] at e
        obtain ⟨⟨rc2, r2, h2⟩, e2, e⟩ := bind_inv e
        have k2 := rput_header e2 k1
        obtain ⟨a, -, e⟩ := bind_inv e
        simp only [Res.pure_eq, Res.ok.injEq, Prod.mk.injEq] at e
        rw [← e.1]
        exact k2
      · simp only [if_neg hc, Res.ok_bind] at e
        obtain ⟨a, -, e⟩ := bind_inv e
        simp only [Res.pure_eq, Res.ok.injEq, Prod.mk.injEq] at e
        rw [← e.1]
        exact k1
    · obtain ⟨⟨rc, r1, h1⟩, e1, e⟩ := bind_inv e
      have k1 := rput_header e1 hr
      simp only [Res.pure_eq, Res.ok.injEq, Prod.mk.injEq] at e
      rw [← e.1]
      exact k1

theorem writeHeaders_header (ls : List Line) {h h' : Heap} {r r' : Resp} (e : writeHeaders h r ls = .ok (r', h')) (hr : r.header ≠ none) :
    r'.header ≠ none := by
  induction ls generalizing h r with
  | nil => simp only [writeHeaders, Res.ok.injEq, Prod.mk.injEq] at e; rw [← e.1]; exact hr
  | cons l t ih =>
    unfold writeHeaders at e
    obtain ⟨⟨r1, h1⟩, e1, e⟩ := bind_inv e
    exact ih e (writeHeader_header e1 hr)

theorem fetchCookies_header (ks : List Bytes) {h h' : Heap} {r r' : Resp} (e : fetchCookies h r ks = .ok (r', h')) : r'.header = r.header := by
  induction ks generalizing h r with
  | nil => simp only [fetchCookies, Res.ok.injEq, Prod.mk.injEq] at e; rw [← e.1]
  | cons k t ih =>
    unfold fetchCookies at e
    obtain ⟨⟨r1, h1⟩, e1, e⟩ := bind_inv e
    exact (ih e).trans (addCookie_header e1)

theorem rstep_header {h h' : Heap} {r r' : Resp} {op : ROp} (e : rstep h r op = .ok (r', h')) (hr : r.header ≠ none) : r'.header ≠ none := by
  have same : ∀ {x : Resp}, Res.ok (x, h) = .ok (r', h') → x.header ≠ none → r'.header ≠ none := by
    intro x ex hx
    simp only [Res.ok.injEq, Prod.mk.injEq] at ex
    rw [← ex.1]; exact hx
  cases op with
  | put k v =>
    unfold rstep at e
    obtain ⟨⟨rc, r1, h1⟩, e1, e⟩ := bind_inv e
    simp only [Res.pure_eq, Res.ok.injEq, Prod.mk.injEq] at e
    rw [← e.1]; exact rput_header e1 hr
  | remove k =>
    unfold rstep at e
    obtain ⟨⟨rc, r1, h1⟩, e1, e⟩ := bind_inv e
    simp only [Res.pure_eq, Res.ok.injEq, Prod.mk.injEq] at e
    rw [← e.1]; exact rremove_header e1 hr
  | realm v =>
    unfold rstep at e
    obtain ⟨a, -, e⟩ := bind_inv e
    simp only [Res.pure_eq, Res.ok.injEq, Prod.mk.injEq] at e
    rw [← e.1]; exact hr
  | cookie k x d p =>
    cases k with
    | none => exact same e hr
    | some k =>
      unfold rstep at e
      rw [addCookie_header e]; exact hr
  | stringBody v =>
    unfold rstep at e
    simp only at e
    split at e
    · rw [rbody_header e]; exact hr
    · exact same e hr
  | binaryBody v =>
    unfold rstep at e
    simp only at e
    split at e
    · exact same e hr
    · rw [rbody_header e]; exact hr
  | emptyBody =>
    unfold rstep at e
    rw [rbody_header e]; exact hr
  | jsonBody v =>
    unfold rstep at e
    simp only at e
    split at e
    · obtain ⟨⟨r1, h1⟩, e1, e⟩ := bind_inv e
      obtain ⟨⟨rc, r2, h2⟩, e2, e⟩ := bind_inv e
      simp only [Res.pure_eq, Res.ok.injEq, Prod.mk.injEq] at e
      rw [← e.1]; exact rput_header e2 (by rw [rbody_header e1]; exact hr)
    · exact same e hr
  | websocket p x =>
    unfold rstep at e
    cases hw : r.ws with
    | none => rw [hw] at e; cases e
    | some w =>
      rw [hw] at e
      simp only at e
      obtain ⟨a, -, e⟩ := bind_inv e
      obtain ⟨a, -, e⟩ := bind_inv e
      obtain ⟨a, -, e⟩ := bind_inv e
      simp only [Res.pure_eq, Res.ok.injEq, Prod.mk.injEq] at e
      rw [← e.1]; exact hr
  | extension name =>
    unfold rstep at e
    simp only at e
    split at e
    · exact same e hr
    · cases hw : r.ws with
      | none => rw [hw] at e; cases e
      | some w =>
        rw [hw] at e
        simp only at e
        obtain ⟨a, -, e⟩ := bind_inv e
        obtain ⟨a, -, e⟩ := bind_inv e
        obtain ⟨a, -, e⟩ := bind_inv e
        simp only [Res.pure_eq, Res.ok.injEq, Prod.mk.injEq] at e
        rw [← e.1]; exact hr
  | fetch ls ok cs b =>
    unfold rstep at e
    obtain ⟨⟨r1, h1⟩, e1, e⟩ := bind_inv e
    have k1 := writeHeaders_header ls e1 hr
    simp only at e
    split at e
    · obtain ⟨⟨r2, h2⟩, e2, e⟩ := bind_inv e
      have k2 := fetchCookies_header cs e2
      simp only at e
      split at e
      · simp only [Res.pure_eq, Res.ok.injEq, Prod.mk.injEq] at e
        rw [← e.1, k2]; exact k1
      · simp only [Res.pure_eq, Res.ok.injEq, Prod.mk.injEq] at e
        rw [← e.1]
        show r2.header ≠ none
        rw [k2]; exact k1
    · simp only [Res.pure_eq, Res.ok.injEq, Prod.mk.injEq] at e
      rw [← e.1]; exact k1

/-! ## What a callback does -/

/-- Calls the code gets right: no further client certificate. -/
def ReqOk (l : List Op) : Prop := ∀ v, Op.cert v ∉ l

/-- Calls the code gets right: no answer with a body is fetched into the response. -/
def RespOk (l : List ROp) : Prop := ∀ ls cs b, ROp.fetch ls true cs b ∈ l → b = []

theorem own_steps {c d : Nat → Nat} (l : List Op) {h : Heap} {r : Req} (hl : ReqOk l) (hb : BodyOk r) (o : Own h c) (e : ∀ n, c n = cR r n + d n) :
    ∃ r' h', steps h r l = .ok (r', h') ∧ Own h' (fun n => cR r' n + d n) ∧ BodyOk r' ∧ r'.slot .cert = r.slot .cert := by
  induction l generalizing h r c with
  | nil => exact ⟨r, h, rfl, o.congr e, hb, rfl⟩
  | cons x t ih =>
    obtain ⟨r1, h1, e1, o1, k1⟩ := own_step x (fun v hx => hl v (by simp [hx])) hb o e
    obtain ⟨r2, h2, e2, o2, k2, s2⟩ := ih (fun v hv => hl v (by simp [hv])) k1.1 o1 (fun _ => rfl)
    exact ⟨r2, h2, by simp [steps, e1, e2], o2, k2, s2.trans k1.2.2⟩

theorem own_rsteps {c d : Nat → Nat} (l : List ROp) {h : Heap} {r : Resp} (hl : RespOk l) (I : RFine r) (o : Own h c) (e : ∀ n, c n = cRs r n + d n) :
    ∃ r' h', rsteps h r l = .ok (r', h') ∧ Own h' (fun n => cRs r' n + d n) ∧ RFine r' := by
  induction l generalizing h r c with
  | nil => exact ⟨r, h, rfl, o.congr e, I⟩
  | cons x t ih =>
    obtain ⟨r1, h1, e1, o1, k1, -⟩ := own_rstep x I.inv (fun ls cs b hx hn => absurd (hl ls cs b (by simp [hx])) hn) o e
    obtain ⟨r2, h2, e2, o2, k2⟩ := ih (fun ls cs b hv => hl ls cs b (by simp [hv])) ⟨k1, rstep_header e1 I.header⟩ o1 (fun _ => rfl)
    exact ⟨r2, h2, by simp [rsteps, e1, e2], o2, k2⟩

/-! ## The answer -/

theorem own_bodyBuffer {h : Heap} {c d : Nat → Nat} {r : Resp} (o : Own h c) (e : ∀ n, c n = cRs r n + d n) :
    ∃ p h', bodyBuffer h r = .ok (p, h') ∧ Own h' (fun n => cP p n + c n) := by
  unfold bodyBuffer
  split
  · rename_i hb
    have hn : need h r.body = .ok () := own_needP (p := r.body) (d := fun n => cP r.box n + cP r.protocol n + cP r.realm n + cO r.header n +
      cP r.array n + cCs r.cookies n + cWo r.ws n + d n) o hb.1 (by intro n; rw [e n]; simp only [cRs]; omega)
    obtain ⟨p, h1, e1, o1, q1⟩ := own_malloc o
    exact ⟨p, h1, by simp [hn, e1], o1.congr (by intro n; have := q1 n; omega)⟩
  · exact ⟨.null, h, rfl, o.congr (by intro n; rw [cP_null]; omega)⟩

theorem own_create {h : Heap} {c d : Nat → Nat} {b : P} (o : Own h c) (e : ∀ n, c n = cP b n + d n) :
    ∃ a h', create h b true = (some a, h') ∧ Own h' (fun n => cL a n + d n) := by
  obtain ⟨p, h1, e1, o1, q1⟩ := own_malloc o
  exact ⟨[b, p], h1, by simp [create, e1], o1.congr (by intro n; have := q1 n; have := e n; simp only [cL]; omega)⟩

theorem own_complete {h : Heap} {c d : Nat → Nat} {r : Resp} {t : Turn} (ht : t.created = true) (I : RFine r) (o : Own h c)
    (e : ∀ n, c n = cRs r n + d n) : ∃ a h', complete h r t = .ok (some a, r, h') ∧ Own h' (fun n => cL a n + (cRs r n + d n)) := by
  obtain ⟨b, h1, e1, o1⟩ := own_bodyBuffer o e
  obtain ⟨a, h2, e2, o2⟩ := own_create o1 (fun _ => rfl)
  obtain ⟨h3, e3, o3⟩ := own_setFields (r := r) (d := fun n => cL a n + d n) t.accepted I.send o2 (by intro n; rw [e n]; omega)
  exact ⟨a, h3, by simp [complete, e1, ht, e2, e3], o3.congr (by intro n; rw [e n])⟩

theorem own_unauthorized {h : Heap} {c d : Nat → Nat} {r : Resp} {t : Turn} (ht : t.created = true) (ha : t.accepted = true) (I : RFine r)
    (o : Own h c) (e : ∀ n, c n = cRs r n + d n) :
    ∃ a h', unauthorized h r t = .ok (some a, r, h') ∧ Own h' (fun n => cL a n + (cRs r n + d n)) := by
  obtain ⟨b, h1, e1, o1⟩ := own_bodyBuffer o e
  obtain ⟨a, h2, e2, o2⟩ := own_create o1 (fun _ => rfl)
  obtain ⟨h3, e3, o3⟩ := own_setFields (r := r) (d := fun n => cL a n + d n) true I.send o2 (by intro n; rw [e n]; omega)
  exact ⟨a, h3, by simp [unauthorized, e1, ht, ha, e2, e3], o3.congr (by intro n; rw [e n])⟩

theorem own_failed {h : Heap} {c : Nat → Nat} {r : Resp} {t : Turn} (ht : t.created = true) (o : Own h c) :
    ∃ a h', failed h r t = .ok (some a, r, h') ∧ Own h' (fun n => cL a n + c n) := by
  obtain ⟨b, h1, e1, o1, q1⟩ := own_malloc o
  obtain ⟨a, h2, e2, o2⟩ := own_create (b := b) (d := c) o1 (by intro n; have := q1 n; omega)
  exact ⟨a, h2, by simp [failed, e1, ht, e2], o2⟩

/-- Turns the code gets right. -/
structure TurnOk (t : Turn) : Prop where
  req : ReqOk t.reqOps
  resp : RespOk t.respOps
  created : t.created = true
  fields : t.ret = Dispatch.cbUnauthorized → t.accepted = true

theorem own_conclude {h : Heap} {c d : Nat → Nat} {r : Resp} {t : Turn} (T : TurnOk t) (I : RFine r) (o : Own h c) (e : ∀ n, c n = cRs r n + d n) :
    ∃ a h', conclude h r t (if goesOn t.ret then Dispatch.cbComplete else t.ret) = .ok (some a, r, h') ∧ Own h' (fun n => cL a n + (cRs r n + d n)) := by
  unfold conclude
  by_cases g : goesOn t.ret = true
  · simp only [g, if_true]
    exact own_complete T.created I o e
  · rw [if_neg g]
    split
    · exact own_complete T.created I o e
    · split
      · rename_i hu
        exact own_unauthorized T.created (T.fields hu) I o e
      · obtain ⟨a, h1, e1, o1⟩ := own_failed (r := r) T.created o
        exact ⟨a, h1, e1, o1.congr (by intro n; rw [e n])⟩

theorem own_streamed {h : Heap} {c d : Nat → Nat} {r : Resp} {t : Turn} (ht : t.created = true) (I : RFine r) (o : Own h c)
    (e : ∀ n, c n = cRs r n + d n) : ∃ a h', streamed h r t = .ok (some a, r, h') ∧ Own h' (fun n => cL a n + (cRs r n + d n)) := by
  obtain ⟨a, h2, e2, o2⟩ := own_create (b := .null) (d := c) o (by intro n; rw [cP_null]; omega)
  obtain ⟨h3, e3, o3⟩ := own_setFields (r := r) (d := fun n => cL a n + d n) t.accepted I.send o2 (by intro n; rw [e n]; omega)
  exact ⟨a, h3, by simp [streamed, ht, e2, e3], o3.congr (by intro n; rw [e n])⟩

theorem own_urlParams (s : Server) {h : Heap} {c d : Nat → Nat} {q : Req} {initial : RMap} (url : Bytes) {ep : Endpoint}
    (hf : Named ((ep.format.map slashWords).getD [])) (hb : BodyOk q) (o : Own h c) (e : ∀ n, c n = cR q n + (cM initial n + d n)) :
    ∃ q' h', urlParams s h q initial url ep = .ok (q', h') ∧ Own h' (fun n => cR q' n + (cM initial n + d n)) ∧ BodyOk q' ∧
      q'.slot .cert = q.slot .cert := by
  unfold urlParams
  cases hm : q.map .url with
  | none => exact ⟨q, h, rfl, o.congr e, hb, rfl⟩
  | some m =>
    obtain ⟨m1, h1, e1, -, o1⟩ := own_mapEmpty (m := m) (d := fun n => cRm q .url n + (cM initial n + d n)) o
      (by intro n; rw [e n, cR_splitMap q .url n, hm]; simp only [cX]; omega)
    obtain ⟨m2, h2, e2, -, o2⟩ := own_mapCopyInto (m := m1) (s := initial) (d := fun n => cRm q .url n + d n) o1 (by intro n; omega)
    obtain ⟨m3, h3, e3, o3⟩ := own_parseMem s.check (m := m2) (d := fun n => cM initial n + (cRm q .url n + d n)) url ep hf o2 (by intro n; omega)
    refine ⟨q.setMap .url (some m3), h3, by simp [e1, e2, e3], o3.congr ?_, hb, rfl⟩
    intro n; have := cR_setMap q .url (some m3) n; simp only [cX] at this; omega

/-- Requests for a websocket the code gets right; `dflt`: there is a default endpoint. -/
def UpgradeOk (dflt : Bool) (t : Turn) : Prop :=
  ∀ k, t.upgrade = some k → KOk k ∧ t.accepted = true ∧ (dflt = true → t.ret ≠ Dispatch.cbIgnore)

theorem own_loop (dflt : Bool) (s : Server) (initial : RMap) (url : Bytes) {tb : Table} (T : TOk tb) {c d : Nat → Nat} (cs : List EpCopy) (turns : Nat → Turn) (counted : Bool)
    {h : Heap} {q : Req} {r : Resp} (hn : cs ≠ []) (hf : ∀ x ∈ cs, Named ((x.of.format.map slashWords).getD [])) (hbox : ∀ x ∈ cs, ∀ n, cA x.box n ≤ d n)
    (hT : ∀ n, TurnOk (turns n)) (hU : ∀ n, UpgradeOk dflt (turns n)) (hC : (∃ n k, (turns n).upgrade = some k) → q.slot .cert = .null) (hb : BodyOk q) (I : RFine r)
    (o : Own h c) (e : ∀ n, c n = cR q n + (cM initial n + (cRs r n + (cP tb.array n + d n)))) :
    ∃ counted' a up q' r' h', loop s initial url tb h q r counted cs turns = .ok (counted', some a, up, q', r', h') ∧ BodyOk q' ∧ Sendable r' ∧
      (dflt = true → counted' = true ∨ (RFine r' ∧ up = ⟨tb, none, .null⟩)) ∧ UpOk tb up ∧ (up.socket ≠ none → ∃ n k, (turns n).upgrade = some k) ∧
      Own h' (fun n => cL a n + (cR q' n + (cM initial n + (cRs r' n + (cP up.table.array n + (cSo up.socket n + d n)))))) := by
  induction cs generalizing h q r c turns counted with
  | nil => exact absurd rfl hn
  | cons x cs ih =>
    have n0 : need h x.box = .ok () := own_need (p := x.box) (d := fun n => cR q n + (cM initial n + (cRs r n + (cP tb.array n + (d n - cA x.box n))))) o (by
      intro n; rw [e n]; have := hbox x (by simp) n; omega)
    obtain ⟨q1, h1, e1, o1, b1, s1⟩ := own_urlParams s (q := q) (initial := initial) (d := fun n => cRs r n + (cP tb.array n + d n)) url (hf x (by simp)) hb o e
    obtain ⟨q2, h2, e2, o2, b2, s2⟩ := own_steps (turns 0).reqOps (hT 0).req b1 o1 (fun _ => rfl)
    obtain ⟨r3, h3, e3, o3, I3⟩ := own_rsteps (turns 0).respOps (r := r) (d := fun n => cR q2 n + (cM initial n + (cP tb.array n + d n))) (hT 0).resp I o2
      (by intro n; omega)
    have hC2 : (∃ n k, (turns n).upgrade = some k) → q2.slot .cert = .null := fun hx => by rw [s2, s1]; exact hC hx
    unfold loop
    simp only [n0, e1, e2, e3, Res.ok_bind]
    by_cases hs : (turns 0).stream = true
    · obtain ⟨a, h4, e4, o4⟩ := own_streamed (hT 0).created I3 o3 (fun _ => rfl)
      simp only [hs, if_true, e4, Res.ok_bind, Res.pure_eq]
      exact ⟨_, a, ⟨tb, none, .null⟩, q2, r3, h4, rfl, b2, I3.send, fun _ => .inr ⟨I3, rfl⟩, UpOk.same T, fun h0 => absurd rfl h0,
        o4.congr (by intro n; simp only [cSo]; omega)⟩
    · rw [if_neg hs]
      cases hk : (turns 0).upgrade with
      | some k =>
        obtain ⟨K, ha, hi⟩ := hU 0 k hk
        obtain ⟨a, up, r4, h4, e4, S4, U4, o4⟩ := own_openWs (t := tb) (d := fun n => cM initial n + d n) K I3 b2 (hC2 ⟨0, k, hk⟩) T o3 (by intro n; omega)
        simp only [ha, (hT 0).created, e4, Res.ok_bind, Res.pure_eq]
        refine ⟨_, a, up, q2, r4, h4, rfl, b2, S4, fun hd => .inl ?_, U4, fun _ => ⟨0, k, hk⟩, o4.congr (by intro n; omega)⟩
        simp [hi hd]
      | none =>
        simp only
        by_cases hg : (goesOn (turns 0).ret && !cs.isEmpty) = true
        · rw [if_pos hg]
          have hne : cs ≠ [] := by
            intro h0; rw [h0] at hg; simp at hg
          obtain ⟨c5, a5, up5, q5, r5, h5, e5, b5, S5, D5, U5, K5, o5⟩ := ih (fun n => turns (n + 1)) (counted || decide ((turns 0).ret ≠ Dispatch.cbIgnore)) hne (fun y hy => hf y (by simp [hy])) (fun y hy => hbox y (by simp [hy]))
            (fun n => hT (n + 1)) (fun n => hU (n + 1)) (fun ⟨n, k, hx⟩ => hC2 ⟨n + 1, k, hx⟩) b2 I3 o3 (by intro n; omega)
          exact ⟨c5, a5, up5, q5, r5, h5, e5, b5, S5, D5, U5, fun h0 => by obtain ⟨n, k, hx⟩ := K5 h0; exact ⟨n + 1, k, hx⟩, o5⟩
        · rw [if_neg hg]
          obtain ⟨a, h4, e4, o4⟩ := own_conclude (hT 0) I3 o3 (fun _ => rfl)
          rw [e4]
          simp only [Res.ok_bind, Res.pure_eq]
          exact ⟨_, a, ⟨tb, none, .null⟩, q2, r3, h4, rfl, b2, I3.send, fun _ => .inr ⟨I3, rfl⟩, UpOk.same T, fun h0 => absurd rfl h0,
            o4.congr (by intro n; simp only [cSo]; omega)⟩

/-- The values a callback can return. -/
def Known (ret : Int) : Prop :=
  goesOn ret = true ∨ ret = Dispatch.cbComplete ∨ ret = Dispatch.cbUnauthorized ∨ ret = Dispatch.cbError

theorem own_fallback {h : Heap} {c d : Nat → Nat} {q : Req} {r : Resp} {a : List P} {t : Turn} (T : TurnOk t) (hk : Known t.ret)
    (hb : BodyOk q) (I : RFine r) (o : Own h c) (e : ∀ n, c n = cL a n + (cR q n + (cRs r n + d n))) :
    ∃ a' q' r' h', fallback h q r (some a) t = .ok (some a', q', r', h') ∧ RFine r' ∧
      Own h' (fun n => cL a' n + (cR q' n + (cRs r' n + d n))) := by
  obtain ⟨h1, e1, o1⟩ := own_freeAll a o e
  obtain ⟨q2, h2, e2, o2, b2, -⟩ := own_steps t.reqOps T.req hb o1 (fun _ => rfl)
  obtain ⟨r3, h3, e3, o3, I3⟩ := own_rsteps t.respOps (r := r) (d := fun n => cR q2 n + d n) T.resp I o2 (by intro n; omega)
  have fin : ∃ a' h', (if goesOn t.ret || decide (t.ret = Dispatch.cbComplete) then complete h3 r3 t
      else if t.ret = Dispatch.cbUnauthorized then unauthorized h3 r3 t
      else if t.ret = Dispatch.cbError then failed h3 r3 t
      else .ok (none, r3, h3)) = .ok (some a', r3, h') ∧ Own h' (fun n => cL a' n + (cRs r3 n + (cR q2 n + d n))) := by
    split
    · exact own_complete T.created I3 o3 (fun _ => rfl)
    · split
      · rename_i hu
        exact own_unauthorized T.created (T.fields hu) I3 o3 (fun _ => rfl)
      · split
        · exact own_failed T.created o3
        · rename_i n1 n2 n3
          exfalso
          rcases hk with h0 | h0 | h0 | h0
          · exact n1 (by simp [h0])
          · exact n1 (by simp [h0])
          · exact n2 h0
          · exact n3 h0
  obtain ⟨a', h4, e4, o4⟩ := fin
  refine ⟨a', q2, r3, h4, ?_, I3, o4.congr (by intro n; omega)⟩
  unfold fallback
  simp only [Option.getD_some, e1, e2, e3, Res.ok_bind]
  rw [e4]
  simp only [Res.ok_bind, Res.pure_eq]

theorem own_send {h : Heap} {c d : Nat → Nat} {r : Resp} {a : List P} {cls : P} (queued : Bool) (I : Sendable r) (ht : touch h cls = .ok ()) (o : Own h c)
    (e : ∀ n, c n = cL a n + (cRs r n + d n)) : ∃ k h', send h r (some a) cls queued = .ok (k, h') ∧ Own h' (fun n => cL k n + d n) := by
  cases queued with
  | true =>
    obtain ⟨h1, e1, o1⟩ := own_cleanResponseFull (r := r) (d := fun n => cL a n + d n) I.arr' o (by intro n; rw [e n]; omega)
    exact ⟨a, h1, by simp [send, ht, e1], o1⟩
  | false =>
    obtain ⟨h1, e1, o1⟩ := own_freeAll a o e
    obtain ⟨h2, e2, o2⟩ := own_cleanResponseFull (r := r) I.arr' o1 (fun _ => rfl)
    exact ⟨[], h2, by simp [send, e1, e2], o2.congr (by intro n; simp [cL])⟩

/-! ## The dispatcher -/

theorem mapCopy_some {h h' : Heap} {s : RMap} {m : Option RMap} (hk : KeysOk s.entries) (e : mapCopy h (some s) = .ok (m, h')) : m ≠ none := by
  unfold mapCopy at e
  simp only at e
  obtain ⟨_, -, e⟩ := bind_inv e
  obtain ⟨_, -, e⟩ := bind_inv e
  obtain ⟨⟨b, m1, h1⟩, e1, e⟩ := bind_inv e
  have := copyEntries_ok _ hk e1
  simp only [this, if_true, Res.pure_eq, Res.ok.injEq, Prod.mk.injEq] at e
  rw [← e.1]
  simp

theorem own_defaultHeaders (s : Server) {h : Heap} {c d : Nat → Nat} {r : Resp} (I : RFine r)
    (o : Own h c) (e : ∀ n, c n = cRs r n + (cO s.headers n + d n)) :
    ∃ r' h', defaultHeaders s h r = .ok (r', h') ∧ Own h' (fun n => cRs r' n + (cO s.headers n + d n)) ∧ RFine r' := by
  unfold defaultHeaders
  cases hs : s.headers with
  | none => exact ⟨r, h, rfl, o.congr (by intro n; rw [e n, hs]), I⟩
  | some m =>
    simp only
    split
    · exact ⟨r, h, rfl, o.congr (by intro n; rw [e n, hs]), I⟩
    · have hk : KeysOk m.entries := own_keys m.entries (fun n => cRs r n + (cA m.box n + cA m.keys n + cA m.values n + cA m.lengths n + d n)) o
        (by intro n; rw [e n, hs]; simp only [cO, cM]; omega)
      obtain ⟨h1, e1, o1⟩ := own_mapCleanFull (m := r.header) (d := fun n => cP r.box n + cP r.protocol n + cP r.realm n + cP r.body n + cP r.array n +
        cCs r.cookies n + cWo r.ws n + (cO (some m) n + d n)) o (by intro n; rw [e n, hs]; simp only [cRs]; omega)
      obtain ⟨m2, h2, e2, o2⟩ := own_mapCopy (m := some m) (d := fun n => cP r.box n + cP r.protocol n + cP r.realm n + cP r.body n + cP r.array n +
        cCs r.cookies n + cWo r.ws n + d n) o1 (by intro n; omega)
      exact ⟨{ r with header := m2 }, h2, by simp [e1, e2], o2.congr (by intro n; simp only [cRs]; omega), I.inv.header m2, mapCopy_some hk e2⟩

/-- Calls of the dispatcher the code gets right. -/
structure CallOk (x : Call) : Prop where
  sort : ∀ l, (x.sort l).Perm l
  methods : ∀ ep ∈ x.endpoints, ep.method ≠ none
  named : ∀ ep ∈ x.endpoints, Named ((ep.format.map slashWords).getD [])
  turns : ∀ n, TurnOk (x.turns n)
  dflt : ∀ ep t, x.dflt = some (ep, t) → Named ((ep.format.map slashWords).getD []) ∧ TurnOk t ∧ Known t.ret
  created : x.created = true
  upgrades : ∀ n, UpgradeOk x.dflt.isSome (x.turns n)
  queued : (∃ n k, (x.turns n).upgrade = some k) → x.queued = true

/-- A request may have opened a websocket, if `A`. -/
structure SoOk (A : Prop) (t t' : Table) (so : Option Ws) : Prop where
  table : TOk t'
  none : so = none → t' = t
  some : ∀ w, so = some w → WOk w ∧ t'.members = t.members ++ [w.box]
  asked : so ≠ Option.none → A

theorem SoOk.same {A : Prop} {t : Table} (T : TOk t) : SoOk A t t .none := ⟨T, fun _ => rfl, fun w h => by (cases h), fun h => absurd rfl h⟩

theorem cEps_mem {cs : List EpCopy} {x : EpCopy} (hx : x ∈ cs) (n : Nat) : cA x.box n ≤ cEps cs n := by
  induction cs with
  | nil => cases hx
  | cons y t ih =>
    simp only [cEps, cEp]
    rcases List.mem_cons.1 hx with h0 | h0
    · subst h0; omega
    · have := ih h0; omega

theorem own_callEndpoints (s : Server) {tb : Table} (T : TOk tb) {h : Heap} {c d : Nat → Nat} {con : Con} {q : Req} {cs : List EpCopy} {x : Call} {cert : Option Bool}
    (X : CallOk x) (R : Ready cert con q) (hC : (∃ n k, (x.turns n).upgrade = some k) → cert = none) (hn : cs ≠ [])
    (hf : ∀ y ∈ cs, Named ((y.of.format.map slashWords).getD [])) (o : Own h c)
    (e : ∀ n, c n = cN con n + (cEps cs n + (cO s.headers n + (cP tb.array n + d n)))) :
    ∃ con' t' so h', callEndpoints s tb h con q cs x = .ok (con', t', so, h') ∧ SoOk (∃ n k, (x.turns n).upgrade = some k) tb t' so ∧
      Own h' (fun n => cN con' n + (cEps cs n + (cO s.headers n + (cP t'.array n + (cSo so n + d n))))) := by
  obtain ⟨box, h1, e1, o1, q1⟩ := own_malloc o
  obtain ⟨r2, h2, e2, o2, I2, -⟩ := own_initResponse box (d := c) o1 (by intro n; have := q1 n; omega)
  have hh2 : r2.header ≠ none := by
    unfold initResponse at e2
    simp only [Prod.mk.injEq] at e2
    rw [← e2.1]; simp
  obtain ⟨r3, h3, e3, o3, I3⟩ := own_defaultHeaders s (r := r2) (d := fun n => cN con n + (cEps cs n + (cP tb.array n + d n))) ⟨I2, hh2⟩ o2
    (by intro n; rw [e n]; omega)
  have cred : ∃ q4 h4, (if x.credentials then (((q.set .user (malloc h3).1).set .password (malloc (malloc h3).2).1), (malloc (malloc h3).2).2) else (q, h3)) =
      (q4, h4) ∧ BodyOk q4 ∧ q4.slot .cert = q.slot .cert ∧
      Own h4 (fun n => cR q4 n + (cM con.initial n + (cRs r3 n + (cP tb.array n + (cEps cs n + (cP con.processor n + (cO s.headers n + d n))))))) := by
    split
    · obtain ⟨u, h4, e4, o4, q4⟩ := own_malloc o3
      obtain ⟨p, h5, e5, o5, q5⟩ := own_malloc o4
      refine ⟨(q.set .user u).set .password p, h5, by simp [e4, e5], ?_, ?_, o5.congr ?_⟩
      · intro hb
        rw [slot_set_ne _ _ (by decide), slot_set_ne _ _ (by decide)]
        exact R.body hb
      · rw [slot_set_ne _ _ (by decide), slot_set_ne _ _ (by decide)]
      · intro n
        have s1 : (q.set .user u).slot .password = .null := by rw [slot_set_ne _ _ (by decide)]; exact R.password
        have := cR_fill (p := u) R.user n
        have := cR_fill (p := p) s1 n
        have := q4 n; have := q5 n
        simp only [cN, R.request, R.queued, cQo, cL]
        omega
    · refine ⟨q, h3, rfl, R.body, rfl, o3.congr ?_⟩
      intro n
      simp only [cN, R.request, R.queued, cQo, cL]
      omega
  obtain ⟨q4, h4, e4, b4, c4, o4⟩ := cred
  obtain ⟨counted, a, up, q5, r5, h5, e5, b5, S5, D5, U5, K5, o5⟩ := own_loop x.dflt.isSome s con.initial x.url T cs x.turns false hn hf
    (fun y hy n => by have := cEps_mem hy n; show cA y.box n ≤ cEps cs n + (cP con.processor n + (cO s.headers n + d n)); omega) X.turns X.upgrades
    (fun hx => by rw [c4]; exact R.cert (hC hx)) b4 I3 o4 (fun _ => rfl)
  have keep : ∃ a6 up6 q6 r6 h6, Res.ok (some a, up, q5, r5, h5) = .ok (some a6, up6, q6, r6, h6) ∧ Sendable r6 ∧ UpOk tb up6 ∧
      (up6.socket ≠ none → ∃ n k, (x.turns n).upgrade = some k) ∧
      Own h6 (fun n => cL a6 n + (cR q6 n + (cRs r6 n + (cP up6.table.array n + (cSo up6.socket n + (cM con.initial n + (cEps cs n + (cP con.processor n + (cO s.headers n + d n))))))))) :=
    ⟨a, up, q5, r5, h5, rfl, S5, U5, K5, o5.congr (by intro n; omega)⟩
  have dfl : ∃ a6 up6 q6 r6 h6, (match x.dflt with
      | some (_, t) => if counted then Res.ok (some a, up, q5, r5, h5) else do
        let (a, q, r, h) ← fallback h5 q5 r5 (some a) t
        return (a, ⟨up.table, none, .null⟩, q, r, h)
      | none => .ok (some a, up, q5, r5, h5)) = .ok (some a6, up6, q6, r6, h6) ∧ Sendable r6 ∧ UpOk tb up6 ∧
      (up6.socket ≠ none → ∃ n k, (x.turns n).upgrade = some k) ∧
      Own h6 (fun n => cL a6 n + (cR q6 n + (cRs r6 n + (cP up6.table.array n + (cSo up6.socket n + (cM con.initial n + (cEps cs n + (cP con.processor n + (cO s.headers n + d n))))))))) := by
    cases hd : x.dflt with
    | none => exact keep
    | some y =>
      obtain ⟨ep, t⟩ := y
      cases counted with
      | true => exact keep
      | false =>
        have D := X.dflt ep t hd
        rcases D5 (by rw [hd]; rfl) with D5 | ⟨I5, D5⟩
        · cases D5
        · subst D5
          obtain ⟨a6, q6, r6, h6, e6, I6, o6⟩ := own_fallback (a := a) (d := fun n => cP tb.array n + (cM con.initial n + (cEps cs n + (cP con.processor n + (cO s.headers n + d n))))) D.2.1 D.2.2 b5 I5 o5
            (by intro n; simp only [cSo]; omega)
          exact ⟨a6, ⟨tb, none, .null⟩, q6, r6, h6, by simp [e6], I6.send, UpOk.same T, fun h0 => absurd rfl h0, o6.congr (by intro n; simp only [cSo]; omega)⟩
  obtain ⟨a6, up6, q6, r6, h6, e6, I6, U6, K6, o6⟩ := dfl
  have ht : touch h6 up6.cls = .ok () := by
    cases hso : up6.socket with
    | none =>
      rw [U6.none hso]
      rfl
    | some w =>
      rw [(U6.some w hso).1]
      have hw : need h6 w.box = .ok () := own_need (d := fun n => cL a6 n + (cR q6 n + (cRs r6 n + (cP up6.table.array n + (cA w.manager n + cQo w.request n + cP w.list n + cP w.array n +
        cWX w.exts n + cML w.incoming n + cML w.outcoming n + (cM con.initial n + (cEps cs n + (cP con.processor n + (cO s.headers n + d n))))))))) o6
        (by intro n; simp only [hso, cSo, cWs, cW0]; omega)
      unfold touch
      split <;> simp_all
  obtain ⟨k, h7, e7, o7⟩ := own_send (a := a6) (r := r6) (d := fun n => cR q6 n + (cP up6.table.array n + (cSo up6.socket n + (cM con.initial n + (cEps cs n + (cP con.processor n + (cO s.headers n + d n)))))))
    x.queued I6 ht o6 (by intro n; omega)
  have so : (if x.queued then up6.socket else none) = up6.socket := by
    split
    · rfl
    · rename_i hq
      cases hso : up6.socket with
      | none => rfl
      | some w => exact absurd (X.queued (K6 (by rw [hso]; simp))) hq
  refine ⟨{ con with request := some q6, queued := k }, up6.table, up6.socket, h7, ?_, ⟨U6.table, fun h0 => by rw [U6.none h0], fun w hw => (U6.some w hw).2, K6⟩,
    o7.congr (by intro n; simp only [cN, cQo]; omega)⟩
  unfold callEndpoints
  simp only [e1, e2, e3, Res.ok_bind]
  rw [e4]
  simp only [e5, Res.ok_bind]
  cases hd : x.dflt with
  | none =>
    rw [hd] at e6
    simp only at e6
    rw [e6]
    simp only [Res.ok_bind, e7, Res.pure_eq, so]
  | some y =>
    rw [hd] at e6
    simp only at e6 ⊢
    rw [e6]
    simp only [Res.ok_bind, e7, Res.pure_eq, so]

theorem own_notFound {h : Heap} {c d : Nat → Nat} {con : Con} {x : Call} (hx : x.created = true) (hq : con.queued = []) (o : Own h c)
    (e : ∀ n, c n = cN con n + d n) : ∃ con' h', notFound h con x = .ok (con', h') ∧ Own h' (fun n => cN con' n + d n) := by
  obtain ⟨b, h1, e1, o1, q1⟩ := own_malloc o
  obtain ⟨a, h2, e2, o2⟩ := own_create (b := b) (d := c) o1 (by intro n; have := q1 n; omega)
  cases hu : x.queued with
  | true =>
    exact ⟨{ con with queued := a }, h2, by simp [notFound, e1, hx, e2, hu], o2.congr (by intro n; rw [e n]; simp only [cN, hq, cL]; omega)⟩
  | false =>
    obtain ⟨h3, e3, o3⟩ := own_freeAll a (d := c) o2 (fun _ => rfl)
    exact ⟨con, h3, by simp [notFound, e1, hx, e2, hu, e3], o3.congr e⟩

theorem own_dispatch (s : Server) {tb : Table} (T : TOk tb) {h : Heap} {c d : Nat → Nat} {con : Con} {q : Req} {x : Call} {cert : Option Bool}
    (X : CallOk x) (R : Ready cert con q) (hC : (∃ n k, (x.turns n).upgrade = some k) → cert = none) (o : Own h c)
    (e : ∀ n, c n = cN con n + (cO s.headers n + (cP tb.array n + d n))) :
    ∃ con' t' so h', dispatch s tb h con x = .ok (con', t', so, h') ∧ SoOk (∃ n k, (x.turns n).upgrade = some k) tb t' so ∧
      Own h' (fun n => cN con' n + (cO s.headers n + (cP t'.array n + (cSo so n + d n)))) := by
  obtain ⟨arr, cs, h1, e1, o1, m1⟩ := own_endpointMatchMem x.method x.url x.endpoints x.sort X.sort X.methods o
  have dfl : ∃ arr2 cs2 h2, orDefault h1 arr cs x.dflt = .ok (arr2, cs2, h2) ∧ (∀ y ∈ cs2, Named ((y.of.format.map slashWords).getD [])) ∧
      Own h2 (fun n => cA arr2 n + (cEps cs2 n + c n)) := by
    have named : ∀ y ∈ cs, Named ((y.of.format.map slashWords).getD []) := fun y hy => X.named _ (m1 y hy)
    cases hd : x.dflt with
    | none => exact ⟨arr, cs, h1, by cases cs <;> rfl, named, o1⟩
    | some y =>
      obtain ⟨ep, t⟩ := y
      cases cs with
      | cons z zs => exact ⟨arr, z :: zs, h1, rfl, named, o1⟩
      | nil =>
        obtain ⟨arr2, h2, e2, o2, -⟩ := own_reallocA (p := arr) (d := c) o1 (by intro n; simp only [cEps]; omega)
        obtain ⟨box, h3, e3, o3, -⟩ := own_malloc o2
        obtain ⟨z, h4, e4, of4, o4⟩ := own_copyEndpoint (d := fun n => cA arr2 n + c n) box ep o3 (fun _ => rfl)
        refine ⟨arr2, [z], h4, by simp [orDefault, e2, e3, e4], ?_, o4.congr (by intro n; simp only [cEps]; omega)⟩
        intro w hw
        rw [List.mem_singleton.1 hw, of4]
        exact (X.dflt ep t hd).1
  obtain ⟨arr2, cs2, h2, e2, named2, o2⟩ := dfl
  unfold dispatch
  rw [R.request]
  simp only [e1, e2, Res.ok_bind]
  by_cases hne : cs2.isEmpty = true
  · rw [if_pos hne]
    obtain ⟨con3, h3, e3, o3⟩ := own_notFound (con := con) (d := fun n => cEps cs2 n + (cO s.headers n + (cP tb.array n + (cA arr2 n + d n)))) X.created R.queued o2
      (by intro n; rw [e n]; omega)
    obtain ⟨h4, e4, o4⟩ := own_freeEndpoints (arr := arr2) (d := fun n => cN con3 n + (cO s.headers n + (cP tb.array n + (cSo none n + d n)))) cs2 o3
      (by intro n; simp only [cSo]; omega)
    exact ⟨con3, tb, none, h4, by simp [e3, e4], SoOk.same T, o4⟩
  · rw [if_neg hne]
    obtain ⟨con3, t3, so, h3, e3, S3, o3⟩ := own_callEndpoints s T (con := con) (q := q) (cs := cs2) (d := fun n => cA arr2 n + d n) X R hC
      (by intro h0; rw [h0] at hne; exact hne rfl) named2 o2 (by intro n; rw [e n]; omega)
    obtain ⟨h4, e4, o4⟩ := own_freeEndpoints (arr := arr2) (d := fun n => cN con3 n + (cO s.headers n + (cP t3.array n + (cSo so n + d n)))) cs2 o3
      (by intro n; omega)
    exact ⟨con3, t3, so, h4, by simp [e3, e4], S3, o4⟩

/-- Requests the code gets right. -/
def ReachOk : Reach → Prop
  | .line => True
  | .header a => a.cert ≠ some false
  | .body a _ => a.cert ≠ some false
  | .whole a _ x => a.cert ≠ some false ∧ CallOk x ∧ ((∃ n k, (x.turns n).upgrade = some k) → a.cert = none)

/-- A callback asks for a websocket. -/
def Asks : Reach → Prop
  | .whole _ _ x => ∃ n k, (x.turns n).upgrade = some k
  | _ => False

theorem own_request (s : Server) {tb : Table} (T : TOk tb) {h : Heap} {c d : Nat → Nat} {x : Reach} (X : ReachOk x) (o : Own h c)
    (e : ∀ n, c n = cO s.headers n + (cP tb.array n + d n)) :
    ∃ t' so h', request s tb h x = .ok (t', so, h') ∧ SoOk (Asks x) tb t' so ∧ Own h' (fun n => cO s.headers n + (cP t'.array n + (cSo so n + d n))) := by
  have ec : ∀ n, c n = cO s.headers n + (cP tb.array n + (cSo none n + d n)) := by
    intro n; rw [e n]; simp only [cSo]; omega
  obtain ⟨con, r, h1, e1, hr, hp, hq, o1, hz, hs⟩ := own_uriLogger o
  cases x with
  | line =>
    obtain ⟨h2, e2, o2⟩ := own_completed o1 (fun _ => rfl)
    exact ⟨tb, none, h2, by simp [request, e1, e2], SoOk.same T, o2.congr ec⟩
  | header a =>
    obtain ⟨go, con2, h2, e2, o2, -⟩ := own_first s (a := a) X hr hp hq hz hs o1 (fun _ => rfl)
    obtain ⟨h3, e3, o3⟩ := own_completed o2 (fun _ => rfl)
    exact ⟨tb, none, h3, by simp [request, e1, e2, e3], SoOk.same T, o3.congr ec⟩
  | body a parts =>
    obtain ⟨go, con2, h2, e2, o2, g2⟩ := own_first s (a := a) X hr hp hq hz hs o1 (fun _ => rfl)
    cases go with
    | false =>
      obtain ⟨h3, e3, o3⟩ := own_completed o2 (fun _ => rfl)
      exact ⟨tb, none, h3, by simp [request, e1, e2, e3], SoOk.same T, o3.congr ec⟩
    | true =>
      obtain ⟨r2, R2⟩ := g2 rfl
      obtain ⟨con3, r3, h3, e3, o3, R3⟩ := own_uploads s parts R2 o2 (fun _ => rfl)
      obtain ⟨h4, e4, o4⟩ := own_completed o3 (fun _ => rfl)
      exact ⟨tb, none, h4, by simp [request, e1, e2, e3, e4], SoOk.same T, o4.congr ec⟩
  | whole a parts y =>
    obtain ⟨go, con2, h2, e2, o2, g2⟩ := own_first s (a := a) X.1 hr hp hq hz hs o1 (fun _ => rfl)
    cases go with
    | false =>
      obtain ⟨h3, e3, o3⟩ := own_completed o2 (fun _ => rfl)
      exact ⟨tb, none, h3, by simp [request, e1, e2, e3], SoOk.same T, o3.congr ec⟩
    | true =>
      obtain ⟨r2, R2⟩ := g2 rfl
      obtain ⟨con3, r3, h3, e3, o3, R3⟩ := own_uploads s parts R2 o2 (fun _ => rfl)
      obtain ⟨con4, t4, so, h4, e4, S4, o4⟩ := own_dispatch s T (d := d) X.2.1 R3 X.2.2 o3 (by intro n; rw [e n])
      obtain ⟨h5, e5, o5⟩ := own_completed o4 (fun _ => rfl)
      exact ⟨t4, so, h5, by simp [request, e1, e2, e3, e4, e5], S4, o5⟩

/-! ## Requests and websockets -/

/-- The blocks of the open websockets. -/
def cSs : List (Option Live) → Nat → Nat
  | [], _ => 0
  | none :: t, n => cSs t n
  | some v :: t, n => cLv v n + cSs t n

theorem cSs_append (a b : List (Option Live)) (n : Nat) : cSs (a ++ b) n = cSs a n + cSs b n := by
  induction a with
  | nil => simp [cSs]
  | cons x t ih => cases x <;> simp [cSs, ih]; omega

/-- The open websockets. -/
def boxes : List (Option Live) → List P
  | [] => []
  | none :: t => boxes t
  | some v :: t => v.ws.box :: boxes t

theorem boxes_append (a b : List (Option Live)) : boxes (a ++ b) = boxes a ++ boxes b := by
  induction a with
  | nil => rfl
  | cons x t ih => cases x <;> simp [boxes, ih]

theorem cSs_set {l : List (Option Live)} {i : Nat} {v : Live} (x : Option Live) (h : l[i]? = some (some v)) :
    ∃ f : Nat → Nat, (∀ n, cSs l n = cLv v n + f n) ∧ ∀ n, cSs (l.set i x) n = cSs [x] n + f n := by
  induction l generalizing i with
  | nil => simp at h
  | cons y t ih =>
    cases i with
    | zero =>
      simp only [List.getElem?_cons_zero, Option.some.injEq] at h
      subst h
      refine ⟨cSs t, fun _ => rfl, fun n => ?_⟩
      cases x <;> simp [cSs]
    | succ i =>
      simp only [List.getElem?_cons_succ] at h
      obtain ⟨f, h1, h2⟩ := ih h
      refine ⟨fun n => cSs [y] n + f n, fun n => ?_, fun n => ?_⟩
      · have := h1 n
        cases y <;> simp only [cSs] <;> omega
      · have := h2 n
        simp only [List.set_cons_succ]
        cases y <;> simp only [cSs] at * <;> omega

theorem boxes_same {l : List (Option Live)} {i : Nat} {v v' : Live} (h : l[i]? = some (some v)) (hb : v'.ws.box = v.ws.box) :
    boxes (l.set i (some v')) = boxes l := by
  induction l generalizing i with
  | nil => simp at h
  | cons y t ih =>
    cases i with
    | zero =>
      simp only [List.getElem?_cons_zero, Option.some.injEq] at h
      subst h
      simp [boxes, hb]
    | succ i =>
      simp only [List.getElem?_cons_succ] at h
      cases y <;> simp [boxes, ih h]

theorem boxes_erase {l : List (Option Live)} {i : Nat} {v : Live} (h : l[i]? = some (some v)) :
    (boxes l).Perm (v.ws.box :: boxes (l.set i none)) := by
  induction l generalizing i with
  | nil => simp at h
  | cons y t ih =>
    cases i with
    | zero =>
      simp only [List.getElem?_cons_zero, Option.some.injEq] at h
      subst h
      exact List.Perm.refl _
    | succ i =>
      simp only [List.getElem?_cons_succ] at h
      cases y with
      | none => exact ih h
      | some w => exact ((ih h).cons _).trans (List.Perm.swap _ _ _)

/-- A server at work: every active websocket is in the table once. -/
structure SrvOk (v : Srv) : Prop where
  table : TOk v.table
  members : v.table.members.Perm (boxes v.socks)
  sockets : ∀ l, some l ∈ v.socks → WOk l.ws

/-- What the code gets right. -/
def HappensOk : Happens → Prop
  | .request x => ReachOk x
  | .event _ e => EvOk e
  | .ends _ calls => MOpsOk calls

/-- The blocks of a server at work. -/
def cSv (v : Srv) (n : Nat) : Nat := cP v.table.array n + (cSs v.socks n + cHs v.held n)

theorem own_happen (s : Server) {v : Srv} {c d : Nat → Nat} {x : Happens} (X : HappensOk x) (V : SrvOk v) (o : Own v.heap c)
    (e : ∀ n, c n = cO s.headers n + (cSv v n + d n)) :
    ∃ v', happen s v x = .ok v' ∧ SrvOk v' ∧ Own v'.heap (fun n => cO s.headers n + (cSv v' n + d n)) := by
  cases x with
  | request x =>
    obtain ⟨t1, so, h1, e1, S1, o1⟩ := own_request s (tb := v.table) (d := fun n => cSs v.socks n + cHs v.held n + d n) V.table X o
      (by intro n; rw [e n]; simp only [cSv]; omega)
    refine ⟨⟨h1, t1, v.socks ++ [so.map (fun w => ⟨w, none⟩)], v.held⟩, by simp only [happen, e1, Res.ok_bind, Res.pure_eq], ⟨S1.table, ?_, ?_⟩, o1.congr ?_⟩
    · show t1.members.Perm (boxes (v.socks ++ [so.map (fun w => ⟨w, none⟩)]))
      rw [boxes_append]
      cases so with
      | none => rw [S1.none rfl]; simpa [boxes] using V.members
      | some w => rw [(S1.some w rfl).2]; exact V.members.append_right _
    · intro l hl
      rcases List.mem_append.1 hl with h0 | h0
      · exact V.sockets l h0
      · cases so with
        | none => simp at h0
        | some w =>
          simp only [Option.map_some, List.mem_singleton, Option.some.injEq] at h0
          rw [h0]
          exact (S1.some w rfl).1
    · intro n
      simp only [cSv, cSs_append]
      cases so <;> simp only [Option.map_none, Option.map_some, cSs, cSo, cLv, cGo] <;> omega
  | event i x =>
    cases hv : v.socks[i]? with
    | none => exact ⟨v, by simp [happen, hv], V, o.congr e⟩
    | some l =>
      cases l with
      | none => exact ⟨v, by simp [happen, hv], V, o.congr e⟩
      | some l =>
        have hm : some l ∈ v.socks := List.mem_of_getElem? hv
        cases hx : event v.heap l v.held x with
        | ub =>
          obtain ⟨f, f1, -⟩ := cSs_set none hv
          obtain ⟨l1, g1, h1, e1, -, -⟩ := own_event (v := l) (held := v.held) (d := fun n => cO s.headers n + (cP v.table.array n + (f n + d n))) X o
            (by intro n; rw [e n]; simp only [cSv, f1]; omega)
          rw [hx] at e1; cases e1
        | ok y =>
          obtain ⟨l0, g0, h0⟩ := y
          obtain ⟨f, f1, f2⟩ := cSs_set (some l0) hv
          obtain ⟨l1, g1, h1, e1, s1, o1⟩ := own_event (v := l) (held := v.held) (d := fun n => cO s.headers n + (cP v.table.array n + (f n + d n))) X o
            (by intro n; rw [e n]; simp only [cSv, f1]; omega)
          rw [hx] at e1
          simp only [Res.ok.injEq, Prod.mk.injEq] at e1
          obtain ⟨r1, r2, r3⟩ := e1
          subst r1 r2 r3
          refine ⟨⟨h0, v.table, v.socks.set i (some l0), g0⟩, by simp [happen, hv, hx], ⟨V.table, ?_, ?_⟩, o1.congr ?_⟩
          · show v.table.members.Perm (boxes (v.socks.set i (some l0)))
            rw [boxes_same hv s1.box]; exact V.members
          · intro z hz
            rcases List.mem_or_eq_of_mem_set hz with h2 | h2
            · exact V.sockets z h2
            · simp only [Option.some.injEq] at h2
              rw [h2]; exact s1.ok (V.sockets l hm)
          · intro n
            simp only [cSv, f2, cSs]; omega
  | ends i calls =>
    cases hv : v.socks[i]? with
    | none => exact ⟨v, by simp [happen, hv], V, o.congr e⟩
    | some l =>
      cases l with
      | none => exact ⟨v, by simp [happen, hv], V, o.congr e⟩
      | some l =>
        have hm : some l ∈ v.socks := List.mem_of_getElem? hv
        obtain ⟨f, f1, f2⟩ := cSs_set none hv
        obtain ⟨t1, g1, h1, e1, T1, m1, o1⟩ := own_finish (v := l) (t := v.table) (held := v.held) (d := fun n => cO s.headers n + (f n + d n)) X (V.sockets l hm) V.table o
          (by intro n; rw [e n]; simp only [cSv, f1]; omega)
        refine ⟨⟨h1, t1, v.socks.set i none, g1⟩, by simp [happen, hv, e1], ⟨T1, ?_, ?_⟩, o1.congr ?_⟩
        · show t1.members.Perm (boxes (v.socks.set i none))
          rw [m1]
          have := (V.members.trans (boxes_erase hv)).erase l.ws.box
          simpa using this
        · intro z hz
          rcases List.mem_or_eq_of_mem_set hz with h2 | h2
          · exact V.sockets z h2
          · cases h2
        · intro n
          simp only [cSv, f2, cSs]; omega

theorem own_happens (s : Server) {c d : Nat → Nat} (l : List Happens) {v : Srv} (X : ∀ x ∈ l, HappensOk x) (V : SrvOk v) (o : Own v.heap c)
    (e : ∀ n, c n = cO s.headers n + (cSv v n + d n)) :
    ∃ v', happens s v l = .ok v' ∧ SrvOk v' ∧ Own v'.heap (fun n => cO s.headers n + (cSv v' n + d n)) := by
  induction l generalizing v c with
  | nil => exact ⟨v, rfl, V, o.congr e⟩
  | cons x t ih =>
    obtain ⟨v1, e1, V1, o1⟩ := own_happen s (X x (by simp)) V o e
    obtain ⟨v2, e2, V2, o2⟩ := ih (fun y hy => X y (by simp [hy])) V1 o1 (fun _ => rfl)
    exact ⟨v2, by simp [happens, e1, e2], V2, o2⟩

/-- Without websockets. -/
theorem happens_quiet (s : Server) {c d : Nat → Nat} (l : List Reach) {v v' : Srv} (X : ∀ x ∈ l, ReachOk x ∧ ¬Asks x) (V : SrvOk v) (o : Own v.heap c)
    (e : ∀ n, c n = cO s.headers n + (cSv v n + d n)) (hv : ∀ y ∈ v.socks, y = none) (r : happens s v (l.map .request) = .ok v') :
    (∀ y ∈ v'.socks, y = none) ∧ v'.held = v.held := by
  induction l generalizing v c with
  | nil =>
    simp only [List.map_nil, happens, Res.ok.injEq] at r
    subst r
    exact ⟨hv, rfl⟩
  | cons x t ih =>
    obtain ⟨v1, e1, V1, o1⟩ := own_happen s (x := .request x) (X x (by simp)).1 V o e
    simp only [List.map_cons, happens, e1, Res.ok_bind] at r
    obtain ⟨t1, so, h1, r1, S1, -⟩ := own_request s (tb := v.table) (d := fun n => cSs v.socks n + cHs v.held n + d n) V.table (X x (by simp)).1 o
      (by intro n; rw [e n]; simp only [cSv]; omega)
    have hso : so = none := by
      cases so with
      | none => rfl
      | some w => exact absurd (S1.asked (by simp)) (X x (by simp)).2
    simp only [happen, r1, Res.ok_bind, Res.pure_eq, hso, Option.map_none, Res.ok.injEq] at e1
    have hs : ∀ y ∈ v1.socks, y = none := by
      rw [← e1]
      intro y hy
      rcases List.mem_append.1 hy with h0 | h0
      · exact hv y h0
      · exact List.mem_singleton.1 h0
    obtain ⟨k1, k2⟩ := ih (fun y hy => X y (by simp [hy])) V1 o1 (fun _ => rfl) hs r
    exact ⟨k1, by rw [k2, ← e1]⟩

/-! ## The instance -/

theorem own_setDefaults {c d : Nat → Nat} (l : List (Option Bytes × Option Bytes)) {h : Heap} {m : RMap} (o : Own h c)
    (e : ∀ n, c n = cM m n + d n) : ∃ m' h', setDefaults h m l = .ok (m', h') ∧ Own h' (fun n => cM m' n + d n) := by
  induction l generalizing h m c with
  | nil => exact ⟨m, h, rfl, o.congr e⟩
  | cons x t ih =>
    obtain ⟨k, v⟩ := x
    obtain ⟨rc, m1, h1, e1, b1, o1⟩ := own_putB (m := m) (d := d) k v o e
    obtain ⟨m2, h2, e2, o2⟩ := ih o1 (fun _ => rfl)
    exact ⟨m2, h2, by simp [setDefaults, e1, e2], o2⟩

theorem own_serve (s : Server) (realm : Option Bytes) (defaults : List (Option Bytes × Option Bytes)) {h : Heap} {c : Nat → Nat} (l : List Happens)
    (X : ∀ x ∈ l, HappensOk x) (o : Own h c) :
    ∃ v, serve s realm defaults h l = .ok v ∧ SrvOk v ∧ Own v.heap (fun n => cSv v n + c n) ∧
      ((∃ k : List Reach, l = k.map .request ∧ ∀ x ∈ k, ¬Asks x) → (∀ y ∈ v.socks, y = none) ∧ v.held = []) := by
  obtain ⟨a, h1, e1, o1, -⟩ := own_strdup o realm
  obtain ⟨b, h2, e2, o2, -⟩ := own_malloc o1
  obtain ⟨m, h3, e3, b3, o3, l3⟩ := own_mapInit b o2
  obtain ⟨w, h4, e4, o4, q4⟩ := own_malloc o3
  obtain ⟨m5, h5, e5, o5⟩ := own_setDefaults defaults (m := m) (d := fun n => cP w n + (cP a n + c n)) o4
    (by intro n; have := l3 n; have := q4 n; omega)
  have V0 : SrvOk ⟨h5, {}, [], []⟩ := ⟨by simp [TOk], List.Perm.refl _, by intro l hl; cases hl⟩
  have c0 : ∀ n, cM m5 n + (cP w n + (cP a n + c n)) = cO (some m5) n + (cSv ⟨h5, {}, [], []⟩ n + (cP w n + (cP a n + c n))) := by
    intro n; simp only [cO, cSv, cSs, cHs, cP_null]; omega
  obtain ⟨v, e6, V6, o6⟩ := own_happens { s with headers := some m5 } l (v := ⟨h5, {}, [], []⟩) (d := fun n => cP w n + (cP a n + c n)) X V0 o5 c0
  obtain ⟨h7, e7, o7⟩ := own_mapCleanFull (m := some m5) (d := fun n => cSv v n + (cP w n + (cP a n + c n))) o6 (fun _ => rfl)
  obtain ⟨h8, e8, o8⟩ := own_free (p := a) (d := fun n => cSv v n + (cP w n + c n)) o7 (by intro n; omega)
  obtain ⟨h9, e9, o9⟩ := own_free (p := w) (d := fun n => cSv v n + c n) o8 (by intro n; omega)
  refine ⟨{ v with heap := h9 }, by simp [serve, initInstance, e1, e2, e3, e4, e5, e6, cleanInstance, e7, e8, e9], ⟨V6.table, V6.members, V6.sockets⟩, o9, ?_⟩
  rintro ⟨k, rfl, hk⟩
  show (∀ y ∈ v.socks, y = none) ∧ v.held = []
  exact happens_quiet { s with headers := some m5 } k (v' := v) (d := fun n => cP w n + (cP a n + c n))
    (fun x hx => ⟨X (.request x) (List.mem_map_of_mem hx), hk x hx⟩) V0 o5 c0 (by intro y hy; cases hy) e6

/-- Once all websockets have ended and all messages are cleared nothing is left. -/
theorem SrvOk.over {v : Srv} (V : SrvOk v) (hs : ∀ y ∈ v.socks, y = none) (hm : ∀ m ∈ v.held, m = none) (n : Nat) : cSv v n = 0 := by
  have b : ∀ l : List (Option Live), (∀ y ∈ l, y = none) → boxes l = [] ∧ cSs l n = 0 := by
    intro l hl
    induction l with
    | nil => exact ⟨rfl, rfl⟩
    | cons x t ih =>
      rw [hl x (by simp)]
      exact ih (fun y hy => hl y (by simp [hy]))
  have g : ∀ l : List (Option Msg), (∀ y ∈ l, y = none) → cHs l n = 0 := by
    intro l hl
    induction l with
    | nil => rfl
    | cons x t ih =>
      rw [hl x (by simp)]
      simp only [cHs, cGo, ih (fun y hy => hl y (by simp [hy]))]
  have m := V.members
  rw [(b v.socks hs).1] at m
  have ha := V.table.1 m.eq_nil
  simp only [cSv, ha, cP_null, (b v.socks hs).2, g v.held hm]

end Verif.Memory
