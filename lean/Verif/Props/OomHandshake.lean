import Verif.Model.OomHandshake
import Verif.Lemmas.Handshake
/-!
# C190: a websocket that cannot be opened as it should for want of memory is refused
-/
namespace Verif.Props
open Verif.UMap Verif.OomHandshake
open Verif.Handshake (Handle SrvExt Nego hasTrimmed splitString addItem serverHandshake)

namespace OomHandshakeAux

theorem srvItem_ok (mem : Mem) (hx : ∀ x, mem.copy x = true ∧ mem.answer x = true) (x : Nat) :
    ∀ (es : List SrvExt) (n : Nego), OomHandshake.srvItem mem x es n = Handshake.srvItem x es n := by
  intro es
  induction es with
  | nil => intro n; rfl
  | cons e t ih =>
    intro n
    simp only [OomHandshake.srvItem, Handshake.srvItem, ih, OomHandshake.addAnswer, (hx x).1, (hx x).2, if_true]
    rfl

theorem srvItems_ok (mem : Mem) (hx : ∀ x, mem.copy x = true ∧ mem.answer x = true) :
    ∀ (xs : List Nat) (es : List SrvExt) (n : Nego), OomHandshake.srvItems mem xs es n = Handshake.srvItems xs es n := by
  intro xs
  induction xs with
  | nil => intro es n; rfl
  | cons x xs ih => intro es n; simp only [OomHandshake.srvItems, Handshake.srvItems, srvItem_ok mem hx, ih]

theorem listLoop_ok (mem : Mem) (hl : ∀ i, mem.listItem i = true) (m : List Bytes) (sep : UInt8) :
    ∀ (l : List Bytes) (i : Nat) (r : Option Bytes),
      OomHandshake.listLoop mem m sep i r l = l.foldl (fun r i => if hasTrimmed m i then addItem r sep i else r) r := by
  intro l
  induction l with
  | nil => intro i r; rfl
  | cons a t ih => intro i r; simp only [OomHandshake.listLoop, hl, if_true, List.foldl_cons, ih]

theorem foldl_some (m : List Bytes) (sep : UInt8) : ∀ (l : List Bytes) (r : Option Bytes),
    (r.isSome = true ∨ l.any (hasTrimmed m) = true) →
      (l.foldl (fun r i => if hasTrimmed m i then addItem r sep i else r) r).isSome = true := by
  intro l
  induction l with
  | nil => intro r h; simpa using h
  | cons a t ih =>
    intro r h
    rw [List.foldl_cons]
    apply ih
    cases ha : hasTrimmed m a with
    | true => left; cases r <;> simp [addItem]
    | false =>
      simp only [Bool.false_eq_true, if_false]
      simpa [ha] using h

theorem listLoop_some (mem : Mem) (m : List Bytes) (sep : UInt8) : ∀ (l : List Bytes) (i : Nat) (r : Option Bytes),
    (OomHandshake.listLoop mem m sep i r l).isSome = true → r.isSome = true ∨ l.any (hasTrimmed m) = true := by
  intro l
  induction l with
  | nil => intro i r h; left; simpa [OomHandshake.listLoop] using h
  | cons a t ih =>
    intro i r h
    simp only [OomHandshake.listLoop] at h
    rcases ih _ _ h with h | h
    · cases ha : hasTrimmed m a with
      | true => right; simp [ha]
      | false => left; simpa [ha] using h
    · right; simp [List.any_cons, h]

theorem listMatch_ok (mem : Mem) (hl : ∀ i, mem.listItem i = true) (s m : Option Bytes) (sep : UInt8) :
    OomHandshake.listMatch mem s m sep = Handshake.listMatch s m sep ∨ (OomHandshake.listMatch mem s m sep).1 = false := by
  cases m with
  | none => left; rfl
  | some m =>
    cases s with
    | none => left; rfl
    | some s =>
      simp only [OomHandshake.listMatch, Handshake.listMatch]
      cases mem.listSplit with
      | true => left; simp only [if_true, listLoop_ok mem hl]
      | false => right; rfl

theorem listMatch_some (mem : Mem) (s m : Option Bytes) (sep : UInt8) (h : (OomHandshake.listMatch mem s m sep).1 = true) :
    (Handshake.listMatch s m sep).1 = true := by
  cases m with
  | none => rfl
  | some m =>
    cases s with
    | none => rfl
    | some s =>
      simp only [OomHandshake.listMatch, Handshake.listMatch] at h ⊢
      cases hs : mem.listSplit with
      | true =>
        rw [hs, if_pos rfl] at h
        have := listLoop_some mem _ sep _ 0 none h
        exact foldl_some _ _ _ _ this
      | false => rw [hs] at h; cases h

theorem firstLoop_ok (mem : Mem) (hf : ∀ i, mem.firstItem i = true) (m : List Bytes) : ∀ (l : List Bytes) (i : Nat),
    OomHandshake.firstLoop mem m i l = (l.find? (hasTrimmed m)).map Strtok.trimSpace := by
  intro l
  induction l with
  | nil => intro i; rfl
  | cons a t ih =>
    intro i
    simp only [OomHandshake.firstLoop, hf, Bool.and_true, List.find?_cons]
    cases hasTrimmed m a <;> simp [ih]

theorem firstLoop_some (mem : Mem) (m : List Bytes) : ∀ (l : List Bytes) (i : Nat),
    (OomHandshake.firstLoop mem m i l).isSome = true → (l.find? (hasTrimmed m)).isSome = true := by
  intro l
  induction l with
  | nil => intro i h; cases h
  | cons a t ih =>
    intro i h
    simp only [OomHandshake.firstLoop, List.find?_cons] at h ⊢
    cases ha : hasTrimmed m a with
    | true => rfl
    | false =>
      simp only [ha, Bool.false_and, Bool.false_eq_true, if_false] at h
      simpa using ih _ h

theorem firstMatch_ok (mem : Mem) (hf : ∀ i, mem.firstItem i = true) (s m : Option Bytes) (sep : UInt8)
    (hs : m = none → mem.firstSplit = true) :
    OomHandshake.firstMatch mem s m sep = Handshake.firstMatch s m sep ∨ (OomHandshake.firstMatch mem s m sep).1 = false := by
  cases m with
  | none =>
    left
    cases s with
    | none => rfl
    | some s => simp [OomHandshake.firstMatch, Handshake.firstMatch, hs rfl, hf 0]
  | some m =>
    cases s with
    | none => left; rfl
    | some s =>
      simp only [OomHandshake.firstMatch, Handshake.firstMatch]
      cases mem.firstSplit with
      | true => left; simp only [if_true, firstLoop_ok mem hf]
      | false => right; rfl

theorem firstMatch_some (mem : Mem) (s m : Option Bytes) (sep : UInt8) (h : (OomHandshake.firstMatch mem s m sep).1 = true) :
    (Handshake.firstMatch s m sep).1 = true := by
  cases m with
  | none => cases s <;> rfl
  | some m =>
    cases s with
    | none => exact h
    | some s =>
      simp only [OomHandshake.firstMatch, Handshake.firstMatch, Option.isSome_map] at h ⊢
      cases hs : mem.firstSplit with
      | true => rw [hs, if_pos rfl] at h; exact firstLoop_some mem _ _ 0 h
      | false => rw [hs] at h; cases h

/-- A refusal in good order. -/
abbrev Refused (onclose : Bool) (r : Res Out) : Prop :=
  ∃ o, r = .ok o ∧ (o.answer = .refused 400 ∨ o.answer = .refused 500 ∨ o.answer = .closed) ∧
    o.onclose = (if onclose then 1 else 0) ∧ o.held = false ∧ o.active = false

theorem refuse500 (mem : Mem) (onclose ws : Bool) (h : onclose = true → ws = true) :
    Refused onclose (OomHandshake.refuse onclose ws (OomHandshake.error500 mem)) := by
  have h0 : (onclose && !ws) = false := by cases onclose <;> cases ws <;> simp_all
  refine ⟨_, by rw [OomHandshake.refuse, h0]; rfl, ?_, rfl, rfl, rfl⟩
  simp only [OomHandshake.error500]
  split <;> simp

theorem refuse400 (mem : Mem) (onclose : Bool) : Refused onclose (OomHandshake.refuse onclose true (OomHandshake.error400 mem)) := by
  refine ⟨_, by simp [OomHandshake.refuse]; rfl, ?_, rfl, rfl, rfl⟩
  simp only [OomHandshake.error400]
  split <;> simp

/-- The extensions with enough memory for the answer: as in `Handshake`, or refused. -/
theorem srvExtensions_ok (mem : Mem) (hso : mem.splitOffer = true) (hx : ∀ x, mem.copy x = true ∧ mem.answer x = true)
    (hl : ∀ i, mem.listItem i = true) (m : UMap) (h : Handle) (r : Bool × Option Bytes × UInt8 × List SrvExt)
    (hr : Handshake.srvExtensions m h = .ok r) :
    ∃ r', OomHandshake.srvExtensions mem m h = .ok r' ∧ (r' = r ∨ r'.1 = false) := by
  simp only [Handshake.srvExtensions, OomHandshake.srvExtensions] at hr ⊢
  cases hk : UMap.hasKey m (some b!"Sec-WebSocket-Extensions") with
  | ub => rw [hk] at hr; cases hr
  | ok has =>
    cases ho : Handshake.header m b!"Sec-WebSocket-Extensions" with
    | ub => rw [hk, ho] at hr; cases hr
    | ok offer =>
      rw [hk, ho] at hr
      simp only [Res.ok_bind] at hr ⊢
      cases hc : (has && h.exts.length != 0) with
      | true =>
        rw [hc, if_pos rfl] at hr
        rw [if_pos rfl]
        cases offer with
        | none => exact ⟨r, hr, .inl rfl⟩
        | some o =>
          refine ⟨r, ?_, .inl rfl⟩
          simp only [OomHandshake.srvNegotiate, hso, if_true, srvItems_ok mem hx]
          exact hr
      | false =>
        rw [hc, if_neg (by simp)] at hr
        rw [if_neg (by simp)]
        rcases listMatch_ok mem hl offer h.extensions 0x2c with e | e
        · exact ⟨r, by rw [e]; exact hr, .inl rfl⟩
        · exact ⟨_, rfl, .inr e⟩

/-- Whatever fails, extensions that are accepted would be accepted. -/
theorem srvExtensions_some (mem : Mem) (m : UMap) (h : Handle) (r' : Bool × Option Bytes × UInt8 × List SrvExt)
    (hr : OomHandshake.srvExtensions mem m h = .ok r') (ht : r'.1 = true) :
    ∃ r, Handshake.srvExtensions m h = .ok r ∧ r.1 = true := by
  simp only [Handshake.srvExtensions, OomHandshake.srvExtensions] at hr ⊢
  cases hk : UMap.hasKey m (some b!"Sec-WebSocket-Extensions") with
  | ub => rw [hk] at hr; cases hr
  | ok has =>
    cases ho : Handshake.header m b!"Sec-WebSocket-Extensions" with
    | ub => rw [hk, ho] at hr; cases hr
    | ok offer =>
      rw [hk, ho] at hr
      simp only [Res.ok_bind] at hr ⊢
      cases hc : (has && h.exts.length != 0) with
      | true =>
        rw [if_pos rfl]
        cases offer with
        | none => exact ⟨_, rfl, rfl⟩
        | some o => exact ⟨_, rfl, rfl⟩
      | false =>
        rw [hc, if_neg (by simp)] at hr
        rw [if_neg (by simp)]
        cases hr
        exact ⟨_, rfl, listMatch_some mem offer h.extensions 0x2c ht⟩

end OomHandshakeAux
open OomHandshakeAux

/-- **C190, partial.** Where the server would give the answer `a` with enough memory: whichever allocations fail, either it gives just that
answer, the websocket is active and nobody is told that it ended, or the client is refused — 400, 500, connection closed — the onclose callback
(when there is one) is called once and nothing stays allocated. Missing, and false: see below. -/
theorem C190_refused_or_same_partial (mem : Mem) (onclose : Bool) (status : Nat) (accept : Bytes → Option Bytes) (m : UMap)
    (protocol verb : Option Bytes) (h : Handle) (a : Handshake.Answer) (hs : serverHandshake accept m protocol verb h = .ok a)
    (hws : onclose = true → mem.websocket = true) (hin : mem.incoming = true) (hup : mem.upgrade = true)
    (hst : mem.headers = true ∨ status ≠ 101) (hf : ∀ i, mem.field i = true) (hso : mem.splitOffer = true)
    (hx : ∀ x, mem.copy x = true ∧ mem.answer x = true) (hl : ∀ i, mem.listItem i = true)
    (hfi : ∀ i, mem.firstItem i = true) (hfs : h.protocol = none → mem.firstSplit = true) :
    (∃ o acc p e r es, OomHandshake.serve mem onclose status accept m protocol verb h = .ok o ∧ a = .upgrade acc p e r es ∧
      o.answer = .upgrade true (some acc) p (if e = some [] then none else e) r (es.map (·.enabled)) ∧
      o.active = true ∧ o.onclose = 0 ∧ o.held = false) ∨
    (∃ o, OomHandshake.serve mem onclose status accept m protocol verb h = .ok o ∧
      (o.answer = .refused 400 ∨ o.answer = .refused 500 ∨ o.answer = .closed) ∧
      o.onclose = (if onclose then 1 else 0) ∧ o.held = false ∧ o.active = false) := by
  simp only [serverHandshake] at hs
  simp only [OomHandshake.serve]
  cases hw : mem.websocket with
  | false => rw [if_pos rfl]; exact .inr (refuse500 mem onclose false (fun hc => by rw [hws hc] at hw; cases hw))
  | true =>
    rw [if_neg (by simp)]
    cases hm : mem.manager with
    | false => rw [if_pos rfl]; exact .inr (refuse500 mem onclose true (fun _ => rfl))
    | true =>
      rw [if_neg (by simp), hin, if_neg (by simp)]
      cases ho : mem.outcoming with
      | false => rw [if_pos rfl]; exact .inr (refuse500 mem onclose true (fun _ => rfl))
      | true =>
        rw [if_neg (by simp)]
        cases hv : Handshake.validUpgrade m protocol verb with
        | ub => rw [hv] at hs; cases hs
        | ok v =>
          rw [hv] at hs
          simp only [Res.ok_bind] at hs ⊢
          cases v with
          | false => exact .inr (refuse400 mem onclose)
          | true =>
            simp only [if_true] at hs ⊢
            cases he : Handshake.srvExtensions m h with
            | ub => rw [he] at hs; cases hs
            | ok r =>
              obtain ⟨r', hr', hrr⟩ := srvExtensions_ok mem hso hx hl m h r he
              obtain ⟨okE, ext, rsv, es⟩ := r
              rw [he] at hs
              rw [hr']
              simp only [Res.ok_bind] at hs ⊢
              cases hp : Handshake.header m b!"Sec-WebSocket-Protocol" with
              | ub => rw [hp] at hs; cases hs
              | ok offered =>
                rw [hp] at hs
                simp only [Res.ok_bind] at hs ⊢
                rcases hrr with rfl | hrr
                · rcases firstMatch_ok mem hfi offered h.protocol 0x2c hfs with e | e
                  · rw [e]
                    cases hq : Handshake.firstMatch offered h.protocol 0x2c with
                    | mk okP proto =>
                      rw [hq] at hs
                      simp only at hs ⊢
                      cases hb : (okE && okP) with
                      | false => exact .inr (refuse400 mem onclose)
                      | true =>
                        rw [hb, if_pos rfl] at hs
                        rw [if_pos rfl]
                        cases hk : Handshake.header m b!"Sec-WebSocket-Key" with
                        | ub => rw [hk] at hs; cases hs
                        | ok key =>
                          rw [hk] at hs
                          simp only [Res.ok_bind] at hs ⊢
                          cases key with
                          | none => exact .inr (refuse500 mem onclose true (fun _ => rfl))
                          | some key =>
                            simp only at hs ⊢
                            cases hd : mem.digest with
                            | false => exact .inr (refuse500 mem onclose true (fun _ => rfl))
                            | true =>
                              rw [if_pos rfl]
                              cases hacc : accept key with
                              | none => exact .inr (refuse500 mem onclose true (fun _ => rfl))
                              | some acc =>
                                rw [hacc] at hs
                                cases hs
                                simp only [OomHandshake.upgrade]
                                cases hrq : mem.request with
                                | false => exact .inr (refuse500 mem onclose true (fun _ => rfl))
                                | true =>
                                  rw [if_pos rfl, hup, if_pos rfl]
                                  cases hh : mem.headers with
                                  | true =>
                                    rw [if_pos rfl]
                                    exact .inl ⟨_, acc, proto, ext, rsv, es, rfl, rfl, by simp only [hf, OomHandshake.sent, OomHandshake.nonEmpty, if_true], rfl, rfl, rfl⟩
                                  | false =>
                                    rw [if_neg (by simp)]
                                    rcases hst with hst | hst
                                    · rw [hst] at hh; cases hh
                                    · rw [if_neg hst]
                                      refine .inr ⟨_, by simp [OomHandshake.refuse]; rfl, .inr (.inr rfl), rfl, rfl, rfl⟩
                  · cases hq : OomHandshake.firstMatch mem offered h.protocol 0x2c with
                    | mk okP proto =>
                      rw [hq] at e
                      simp only at e ⊢
                      subst e
                      rw [Bool.and_false, if_neg (by simp)]
                      exact .inr (refuse400 mem onclose)
                · obtain ⟨okE', ext', rsv', es'⟩ := r'
                  simp only at hrr ⊢
                  subst hrr
                  rw [Bool.false_and, if_neg (by simp)]
                  exact .inr (refuse400 mem onclose)

/-- **C190**: whatever fails, a websocket is opened only for a request the server would accept with enough memory, and the client is given
the right Sec-WebSocket-Accept or none. -/
theorem C190_never_more (mem : Mem) (onclose : Bool) (status : Nat) (accept : Bytes → Option Bytes) (m : UMap)
    (protocol verb : Option Bytes) (h : Handle) (o : Out) (f : Bool) (acc p e : Option Bytes) (rsv : UInt8) (en : List Bool)
    (ho : OomHandshake.serve mem onclose status accept m protocol verb h = .ok o) (ha : o.answer = .upgrade f acc p e rsv en) :
    ∃ acc' p' e' rsv' es', serverHandshake accept m protocol verb h = .ok (.upgrade acc' p' e' rsv' es') ∧
      (acc = some acc' ∨ acc = none) := by
  have h500 : ∀ (ws : Bool), OomHandshake.refuse onclose ws (OomHandshake.error500 mem) = .ok o → False := by
    intro ws hr
    simp only [OomHandshake.refuse] at hr
    split at hr
    · cases hr
    · cases hr
      simp only [OomHandshake.error500] at ha
      split at ha <;> cases ha
  have h400 : OomHandshake.refuse onclose true (OomHandshake.error400 mem) = .ok o → False := by
    intro hr
    simp only [OomHandshake.refuse] at hr
    split at hr
    · cases hr
    · cases hr
      simp only [OomHandshake.error400] at ha
      split at ha <;> cases ha
  simp only [OomHandshake.serve] at ho
  simp only [serverHandshake]
  split at ho
  · exact (h500 _ ho).elim
  split at ho
  · exact (h500 _ ho).elim
  split at ho
  · cases ho
  split at ho
  · exact (h500 _ ho).elim
  cases hv : Handshake.validUpgrade m protocol verb with
  | ub => rw [hv] at ho; cases ho
  | ok v =>
    rw [hv] at ho
    simp only [Res.ok_bind] at ho ⊢
    cases v with
    | false => exact (h400 ho).elim
    | true =>
      simp only [if_true] at ho ⊢
      cases hr : OomHandshake.srvExtensions mem m h with
      | ub => rw [hr] at ho; cases ho
      | ok r' =>
        obtain ⟨okE', ext', rsv', es'⟩ := r'
        rw [hr] at ho
        simp only [Res.ok_bind] at ho
        cases hp : Handshake.header m b!"Sec-WebSocket-Protocol" with
        | ub => rw [hp] at ho; cases ho
        | ok offered =>
          rw [hp] at ho
          simp only [Res.ok_bind] at ho ⊢
          cases hq : OomHandshake.firstMatch mem offered h.protocol 0x2c with
          | mk okP' proto' =>
            rw [hq] at ho
            simp only at ho
            cases hb : (okE' && okP') with
            | false => rw [hb] at ho; exact (h400 ho).elim
            | true =>
              rw [hb, if_pos rfl] at ho
              rw [Bool.and_eq_true] at hb
              obtain ⟨r, her, hr1⟩ := srvExtensions_some mem m h _ hr hb.1
              have hfm := firstMatch_some mem offered h.protocol 0x2c (by rw [hq]; exact hb.2)
              obtain ⟨okE, ext, rsv0, es⟩ := r
              simp only at hr1
              subst hr1
              rw [her]
              simp only [Res.ok_bind]
              cases hq' : Handshake.firstMatch offered h.protocol 0x2c with
              | mk okP proto =>
                rw [hq'] at hfm
                simp only at hfm ⊢
                subst hfm
                rw [Bool.and_self, if_pos rfl]
                cases hk : Handshake.header m b!"Sec-WebSocket-Key" with
                | ub => rw [hk] at ho; cases ho
                | ok key =>
                  rw [hk] at ho
                  simp only [Res.ok_bind] at ho ⊢
                  cases key with
                  | none => exact (h500 _ ho).elim
                  | some key =>
                    simp only at ho ⊢
                    cases hd : mem.digest with
                    | false => rw [hd] at ho; exact (h500 _ ho).elim
                    | true =>
                      rw [hd, if_pos rfl] at ho
                      cases hacc : accept key with
                      | none => rw [hacc] at ho; exact (h500 _ ho).elim
                      | some acc' =>
                        rw [hacc] at ho
                        refine ⟨acc', proto, ext, rsv0, es, rfl, ?_⟩
                        simp only [OomHandshake.upgrade] at ho
                        split at ho
                        · split at ho
                          · split at ho
                            · cases ho
                              simp only [Ans.upgrade.injEq, OomHandshake.sent] at ha
                              obtain ⟨_, ha, _⟩ := ha
                              split at ha
                              · exact .inl ha.symm
                              · exact .inr ha.symm
                            · split at ho
                              · cases ho
                              · simp only [OomHandshake.refuse] at ho
                                split at ho
                                · cases ho
                                · cases ho; cases ha
                          · cases ho; cases ha
                        · exact (h500 _ ho).elim

/-- **C190, enough memory.** The answer, and what is done with the websocket, when no allocation fails. -/
theorem C190_enough (onclose : Bool) (status : Nat) (accept : Bytes → Option Bytes) (m : UMap) (protocol verb : Option Bytes) (h : Handle)
    (a : Handshake.Answer) (hs : serverHandshake accept m protocol verb h = .ok a) :
    OomHandshake.serve {} onclose status accept m protocol verb h = .ok (match a with
      | .upgrade acc p e r es => { answer := .upgrade true (some acc) p (if e = some [] then none else e) r (es.map (·.enabled)),
                                   onclose := 0, held := false, active := true }
      | .refused s => { answer := .refused s, onclose := if onclose then 1 else 0, held := false, active := false }) := by
  have hl : ∀ s m sep, OomHandshake.listMatch {} s m sep = Handshake.listMatch s m sep := by
    intro s m sep
    cases m with
    | none => rfl
    | some m => cases s with
      | none => rfl
      | some s => simp only [OomHandshake.listMatch, Handshake.listMatch, if_true, listLoop_ok {} (fun _ => rfl)]
  have hf : ∀ s m sep, OomHandshake.firstMatch {} s m sep = Handshake.firstMatch s m sep := by
    intro s m sep
    cases m with
    | none => cases s <;> simp [OomHandshake.firstMatch, Handshake.firstMatch]
    | some m => cases s with
      | none => rfl
      | some s => simp only [OomHandshake.firstMatch, Handshake.firstMatch, if_true, firstLoop_ok {} (fun _ => rfl)]
  have he : OomHandshake.srvExtensions {} m h = Handshake.srvExtensions m h := by
    simp only [OomHandshake.srvExtensions, Handshake.srvExtensions, hl, OomHandshake.srvNegotiate, if_true,
      srvItems_ok {} (fun _ => ⟨rfl, rfl⟩), Handshake.srvNegotiate]
    cases UMap.hasKey m (some b!"Sec-WebSocket-Extensions") with
    | ub => rfl
    | ok has =>
      cases Handshake.header m b!"Sec-WebSocket-Extensions" with
      | ub => rfl
      | ok offer => cases offer <;> rfl
  have h4 : OomHandshake.refuse onclose true (OomHandshake.error400 {}) =
      .ok { answer := .refused 400, onclose := if onclose then 1 else 0, held := false, active := false } := by
    simp [OomHandshake.refuse, OomHandshake.error400]
  have h5 : OomHandshake.refuse onclose true (OomHandshake.error500 {}) =
      .ok { answer := .refused 500, onclose := if onclose then 1 else 0, held := false, active := false } := by
    simp [OomHandshake.refuse, OomHandshake.error500]
  simp only [serverHandshake] at hs
  simp only [OomHandshake.serve, he, hf, h4, h5, Bool.true_eq_false, if_false]
  cases hv : Handshake.validUpgrade m protocol verb with
  | ub => rw [hv] at hs; cases hs
  | ok v =>
    rw [hv] at hs
    simp only [Res.ok_bind] at hs ⊢
    cases v with
    | false => cases hs; rfl
    | true =>
      simp only [if_true] at hs ⊢
      cases hr : Handshake.srvExtensions m h with
      | ub => rw [hr] at hs; cases hs
      | ok r =>
        rw [hr] at hs
        simp only [Res.ok_bind] at hs ⊢
        cases hp : Handshake.header m b!"Sec-WebSocket-Protocol" with
        | ub => rw [hp] at hs; cases hs
        | ok offered =>
          rw [hp] at hs
          simp only [Res.ok_bind] at hs ⊢
          cases hb : (r.1 && (Handshake.firstMatch offered h.protocol 0x2c).1) with
          | false => rw [hb] at hs; cases hs; rfl
          | true =>
            rw [hb, if_pos rfl] at hs
            rw [if_pos rfl]
            cases hk : Handshake.header m b!"Sec-WebSocket-Key" with
            | ub => rw [hk] at hs; cases hs
            | ok key =>
              rw [hk] at hs
              simp only [Res.ok_bind] at hs ⊢
              cases key with
              | none => cases hs; rfl
              | some key =>
                simp only at hs ⊢
                cases hacc : accept key with
                | none => rw [hacc] at hs; cases hs; rfl
                | some acc => rw [hacc] at hs; cases hs; rfl

/-! ### What is missing -/

/-- The headers of a request with these extra fields. -/
def openingMap (more : List (Bytes × Bytes)) : UMap :=
  UMap.rep ((([(b!"Upgrade", b!"websocket"), (b!"Connection", b!"Upgrade"), (b!"Sec-WebSocket-Key", b!"dGhl"),
    (b!"Sec-WebSocket-Version", b!"13")] : List (Bytes × Bytes)) ++ more).map fun p => ⟨p.1, UMap.strBuf p.2, p.2.length + 1⟩)

/-- The server with a request of these fields. -/
def opened (mem : Mem) (onclose : Bool) (status : Nat) (more : List (Bytes × Bytes)) (h : Handle) : Res Out :=
  OomHandshake.serve mem onclose status (fun k => some (k ++ b!"+")) (openingMap more) (some b!"HTTP/1.1") (some b!"GET") h

local macro "run" : tactic => `(tactic| (simp only [opened, OomHandshake.serve, OomHandshake.srvExtensions, OomHandshake.srvNegotiate,
  OomHandshake.listMatch, OomHandshake.firstMatch, Handshake.splitString_eq]; decide +kernel))

/-- C190 fails: no memory for the websocket and an onclose callback: a field of a NULL pointer is read. -/
theorem C190_websocket_false : opened { websocket := false } true 200 [] {} = .ub := by run

/-- C190 fails: no memory for the list of incoming messages: the other list, never set, is freed. -/
theorem C190_lists_false : opened { incoming := false } false 200 [] {} = .ub ∧ opened { outcoming := false } true 200 [] {} =
    .ok { answer := .refused 500, onclose := 1, held := false, active := false } := ⟨by run, by run⟩

/-- C190 fails: no response for the upgrade: the connection is closed, but the onclose callback is not called and the websocket is never freed. -/
theorem C190_response_false : opened { upgrade := false } true 200 [] {} =
    .ok { answer := .closed, onclose := 0, held := true, active := false } := by run

/-- C190 fails: a header cannot be added and the application had set the status 101: libmicrohttpd starts a websocket that was freed. -/
theorem C190_status_false : opened { headers := false } true 101 [] {} = .ub ∧ opened { headers := false } true 200 [] {} =
    .ok { answer := .closed, onclose := 1, held := false, active := false } := ⟨by run, by run⟩

/-- C190 fails: a field libmicrohttpd has no memory for is left out, here Sec-WebSocket-Accept: the websocket is active. -/
theorem C190_accept_false : opened { field := fun i => i != 1 } true 200 [] {} =
    .ok { answer := .upgrade true none none none 0 [], onclose := 0, held := false, active := true } := by run

/-- C190 fails: no memory for the name of an extension: it is in use (`rsv` 0x40, enabled) and the client is not told. -/
theorem C190_extension_false :
    opened { copy := fun _ => false } true 200 [(b!"Sec-WebSocket-Extensions", b!"x")] { exts := [{ rsv := 0x40, server := some b!"x" }] } =
      .ok { answer := .upgrade true (some b!"dGhl+") none none 0x40 [true], onclose := 0, held := false, active := true } ∧
    opened { answer := fun x => x != 1 } true 200 [(b!"Sec-WebSocket-Extensions", b!"x,y")]
        { exts := [{ rsv := 0x40, server := some b!"x" }, { rsv := 0x20, server := some b!"y" }] } =
      .ok { answer := .upgrade true (some b!"dGhl+") none none 0x60 [true, true], onclose := 0, held := false, active := true } ∧
    opened {} true 200 [(b!"Sec-WebSocket-Extensions", b!"x,y")]
        { exts := [{ rsv := 0x40, server := some b!"x" }, { rsv := 0x20, server := some b!"y" }] } =
      .ok { answer := .upgrade true (some b!"dGhl+") none (some b!"x, y") 0x60 [true, true], onclose := 0, held := false, active := true } :=
  ⟨by run, by run, by run⟩

/-- C190 fails: no memory for the pieces of the offer: the websocket is opened without any of the extensions. -/
theorem C190_offer_false :
    opened { splitOffer := false } true 200 [(b!"Sec-WebSocket-Extensions", b!"x")] { exts := [{ rsv := 0x40, server := some b!"x" }] } =
      .ok { answer := .upgrade true (some b!"dGhl+") none none 0 [false], onclose := 0, held := false, active := true } := by run

/-- C190 fails: no memory for the second of three extensions: the client is told of the third only. -/
theorem C190_list_false :
    opened { listItem := fun i => i != 1 } true 200 [(b!"Sec-WebSocket-Extensions", b!"a,b,c")] { extensions := some b!"a,b,c" } =
      .ok { answer := .upgrade true (some b!"dGhl+") none (some b!"c") 0 [], onclose := 0, held := false, active := true } := by run

/-- C190 fails: no memory for the sub-protocol: the next one of the offer is taken; with none demanded, no protocol is. -/
theorem C190_protocol_false :
    opened { firstItem := fun i => i != 0 } true 200 [(b!"Sec-WebSocket-Protocol", b!"v2,v1")] { protocol := some b!"v1,v2" } =
      .ok { answer := .upgrade true (some b!"dGhl+") (some b!"v1") none 0 [], onclose := 0, held := false, active := true } ∧
    opened { firstSplit := false } true 200 [(b!"Sec-WebSocket-Protocol", b!"v2,v1")] {} =
      .ok { answer := .upgrade true (some b!"dGhl+") none none 0 [], onclose := 0, held := false, active := true } ∧
    opened {} true 200 [(b!"Sec-WebSocket-Protocol", b!"v2,v1")] { protocol := some b!"v1,v2" } =
      .ok { answer := .upgrade true (some b!"dGhl+") (some b!"v2") none 0 [], onclose := 0, held := false, active := true } :=
  ⟨by run, by run, by run⟩

/-! Cases within the theorems: memory fails, the client is refused. -/

example : opened { digest := false } true 200 [] {} = .ok { answer := .refused 500, onclose := 1, held := false, active := false } := by run
example : opened { request := false, body := false } true 200 [] {} =
    .ok { answer := .closed, onclose := 1, held := false, active := false } := by run
example : opened { firstSplit := false } true 200 [(b!"Sec-WebSocket-Protocol", b!"v2")] { protocol := some b!"v2" } =
    .ok { answer := .refused 400, onclose := 1, held := false, active := false } := by run
example : opened { listSplit := false } false 200 [(b!"Sec-WebSocket-Extensions", b!"a")] { extensions := some b!"a" } =
    .ok { answer := .refused 400, onclose := 0, held := false, active := false } := by run
example : opened { websocket := false } false 200 [] {} = .ok { answer := .refused 500, onclose := 0, held := false, active := false } := by run
example : opened {} true 200 [(b!"Sec-WebSocket-Extensions", b!"a , z,b")] { extensions := some b!"b,a" } =
    .ok { answer := .upgrade true (some b!"dGhl+") none (some b!"a,b") 0 [], onclose := 0, held := false, active := true } := by run

end Verif.Props
