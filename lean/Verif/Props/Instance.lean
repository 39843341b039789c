import Verif.Model.Instance
import Verif.Lemmas.Endpoint
/-! # C62, C63, C64, C86, C87, C88: the life of an instance -/
namespace Verif.Props
open Verif.Instance
open Verif.Endpoint (Endpoint emptyEndpoint)

/-- An endpoint that can be called: a method, a callback, and a place. -/
def UsableEp (e : Endpoint) : Prop := e.method ≠ none ∧ e.callback ≠ none ∧ (e.pfx ≠ none ∨ e.format ≠ none)

/-- An endpoint without method and place. -/
def BlankEp (e : Endpoint) : Prop := e.method = none ∧ e.pfx = none ∧ e.format = none

/-- A port number TCP knows. -/
def PortFine (p : Nat) : Prop := 1 ≤ p ∧ p ≤ 65535

/-- Key and certificate come together, a trusted authority only with both. -/
def KeysFine (key cert ca : Option Bytes) : Prop :=
  (key ≠ none ↔ cert ≠ none) ∧ (ca ≠ none → key ≠ none ∧ cert ≠ none)

private theorem and_bit (n i : Nat) : (n &&& 2 ^ i) ≠ 0 ↔ n.testBit i = true := by
  constructor
  · intro h
    by_cases hb : n.testBit i = true
    · exact hb
    refine absurd ?_ h
    apply Nat.eq_of_testBit_eq
    intro j
    rw [Nat.testBit_and, Nat.testBit_two_pow, Nat.zero_testBit]
    by_cases e : i = j
    · subst e; simp [hb]
    · simp [e]
  · intro h h0
    have := congrArg (fun x => Nat.testBit x i) h0
    simp [Nat.testBit_and, h] at this

private theorem and_v4 (n : Nat) : (n &&& useIpv4) ≠ 0 ↔ n.testBit 0 = true := and_bit n 0
private theorem and_v6 (n : Nat) : (n &&& useIpv6) ≠ 0 ↔ n.testBit 4 = true := and_bit n 4
private theorem and_all (n : Nat) : (n &&& useAll) ≠ 0 ↔ n.testBit 0 = true ∨ n.testBit 4 = true := by
  rw [← and_v4, ← and_v6, useAll, Nat.and_or_distrib_left, ne_eq, Nat.or_eq_zero_iff]
  by_cases a : n &&& useIpv4 = 0 <;> by_cases b : n &&& useIpv6 = 0 <;> simp [a, b]

/-! ## C62 -/

/-- **C62**. `ulfius_init_instance` succeeds exactly for an instance that is not NULL and a port in 1..65535. -/
theorem C62_init (u : Option Instance) (port : Nat) (bind : Option Nat) (realm : Option Bytes) :
    (init u port bind realm).1 = .ok ↔ u ≠ none ∧ PortFine port := by
  cases u with
  | none => simp [init, initAny]
  | some u =>
    simp only [init, initAny, PortFine]
    split
    · rename_i h; simp at h ⊢; omega
    · rename_i h; simp [useIpv4, useAll, useIpv6] at h ⊢; omega

/-- **C62**. `ulfius_init_instance_ipv6` succeeds exactly if in addition the IPv6 bit of the network type is set. -/
theorem C62_initIpv6 (u : Option Instance) (port : Nat) (bind : Option Nat) (network : Nat) (realm : Option Bytes) :
    (initIpv6 u port bind network realm).1 = .ok ↔ u ≠ none ∧ PortFine port ∧ network.testBit 4 = true := by
  rw [← and_v6]
  cases u with
  | none => by_cases h : (network &&& useIpv6) = 0 <;> simp [initIpv6, initAny, h]
  | some u =>
    by_cases h : (network &&& useIpv6) = 0
    · simp [initIpv6, h]
    · have ha : (network &&& useAll) ≠ 0 := (and_all _).2 (Or.inr ((and_v6 _).1 h))
      have hb : (useIpv6 &&& useAll) ≠ 0 := by decide
      cases bind <;> simp [initIpv6, initAny, h, PortFine, ha, hb] <;> split <;> simp <;> omega

/-- **C62**. Whatever the memory held before, a new instance is stopped, has no endpoint, no default endpoint, no daemon
and the port and address it was given; a refused one is left as it was. -/
theorem C62_fresh (u : Option Instance) (port : Nat) (bind : Option Nat) (realm : Option Bytes) :
    ((init u port bind realm).1 = .ok → ∃ i, (init u port bind realm).2 = some i ∧ i.daemon = none ∧ i.status = .stop ∧
      i.port = port ∧ i.bind4 = bind ∧ i.bind6 = none ∧ i.ep.nb = 0 ∧ i.ep.list = none ∧ i.defaultEp = none ∧
      i.realm = realm ∧ i.certAuth = false) ∧
    ((init u port bind realm).1 ≠ .ok → (init u port bind realm).2 = u ∧ (init u port bind realm).1 = .params) := by
  cases u with
  | none => simp [init, initAny]
  | some u =>
    simp only [init, initAny]
    split <;> simp [Endpoint.Inst.init]

example : (init (some default) 8080 none (some b!"realm")).1 = .ok := by decide
example : (init none 8080 none none).1 = .params ∧ (init (some default) 0 none none).1 = .params ∧
    (init (some default) 65536 none none).1 = .params := by decide
example : (initIpv6 (some default) 8080 (some 1) 0x11 none).1 = .ok ∧
    (initIpv6 (some default) 8080 (some 1) 0x01 none).1 = .params := by decide


private theorem equals_blank (e : Endpoint) : Endpoint.equals e emptyEndpoint = true ↔ BlankEp e := by
  simp [Endpoint.equals, emptyEndpoint, BlankEp, @eq_comm _ none, and_assoc]

private theorem equals_blank' (e : Endpoint) : Endpoint.equals emptyEndpoint e = true ↔ BlankEp e := by
  simp [Endpoint.equals, emptyEndpoint, BlankEp, and_assoc]

private theorem valid_usable (e : Endpoint) : Endpoint.isValid e false = true ↔ UsableEp e ∨ BlankEp e := by
  by_cases hb : BlankEp e
  · simp [Endpoint.isValid, (equals_blank e).2 hb, hb]
  · have : ¬ Endpoint.equals e emptyEndpoint = true := fun h => hb ((equals_blank e).1 h)
    simp only [Endpoint.isValid, this, hb, or_false, UsableEp]
    cases e.method <;> cases e.callback <;> cases e.pfx <;> cases e.format <;> simp

/-- The endpoints an instance counts: usable or blank ones, and the first one is usable. -/
def ListFine (u : Instance) : Prop :=
  ∃ l, u.ep.list = some l ∧ ∀ i < u.ep.nb, ∃ e, l[i]? = some e ∧ (UsableEp e ∨ (BlankEp e ∧ i ≠ 0))

private theorem usable_not_blank {e : Endpoint} (h : UsableEp e) : ¬ BlankEp e := fun b => h.1 b.1

private theorem validateLoop_true (l : List Endpoint) : ∀ n i, validateLoop l n i = .ok true ↔
    ∀ j, i ≤ j → j < i + n → ∃ e, l[j]? = some e ∧ (UsableEp e ∨ (BlankEp e ∧ j ≠ 0)) := by
  intro n
  induction n with
  | zero => intro i; simp only [validateLoop, true_iff]; intro j a b; omega
  | succ n ih =>
    intro i
    have key : (∀ j, i ≤ j → j < i + (n + 1) → ∃ e, l[j]? = some e ∧ (UsableEp e ∨ (BlankEp e ∧ j ≠ 0))) ↔
        (∃ e, l[i]? = some e ∧ (UsableEp e ∨ (BlankEp e ∧ i ≠ 0))) ∧
        (∀ j, i + 1 ≤ j → j < i + 1 + n → ∃ e, l[j]? = some e ∧ (UsableEp e ∨ (BlankEp e ∧ j ≠ 0))) := by
      constructor
      · intro h
        exact ⟨h i (by omega) (by omega), fun j a b => h j (by omega) (by omega)⟩
      · rintro ⟨h0, h1⟩ j a b
        by_cases e : j = i
        · subst e; exact h0
        · exact h1 j (by omega) (by omega)
    rw [key, ← ih]
    simp only [validateLoop]
    cases hl : l[i]? with
    | none => simp
    | some e =>
      simp only [Option.some.injEq, exists_eq_left']
      by_cases hb : BlankEp e
      · have hu : ¬ UsableEp e := fun h => usable_not_blank h hb
        have hv := (valid_usable e).2 (Or.inr hb)
        by_cases h0 : i = 0
        · simp [h0, (equals_blank' e).2 hb, hu]
        · simp [h0, hv, hb]
      · have he : ¬ Endpoint.equals emptyEndpoint e = true := fun h => hb ((equals_blank' e).1 h)
        by_cases hu : UsableEp e
        · have hv := (valid_usable e).2 (Or.inl hu)
          simp [he, hv, hu]
        · have hv : ¬ Endpoint.isValid e false = true := fun h => ((valid_usable e).1 h).elim hu hb
          simp [he, hv, hu, hb]

private theorem validateLoop_ub (l : List Endpoint) : ∀ n i, i + n ≤ l.length → validateLoop l n i ≠ .ub := by
  intro n
  induction n with
  | zero => intro i _; simp [validateLoop]
  | succ n ih =>
    intro i h
    simp only [validateLoop]
    have : l[i]? = some l[i] := List.getElem?_eq_getElem (by omega)
    rw [this]
    simp only
    split
    · simp
    · split
      · simp
      · exact ih _ (by omega)

private theorem validate_true (u : Instance) : validate u = .ok true ↔ PortFine u.port ∧ ListFine u := by
  simp only [validate]
  by_cases hp : PortFine u.port
  · have : ¬ ((u.port == 0 || decide (u.port ≥ 65536)) = true) := by
      simp; unfold PortFine at hp; omega
    rw [if_neg this]
    cases hl : u.ep.list with
    | none => simp [ListFine, hl]
    | some l =>
      simp only [validateLoop_true, hp, true_and, ListFine, hl, Option.some.injEq, exists_eq_left']
      constructor
      · intro h i hi; exact h i (by omega) (by omega)
      · intro h j _ hj; exact h j (by omega)
  · have : (u.port == 0 || decide (u.port ≥ 65536)) = true := by
      simp; unfold PortFine at hp; omega
    rw [if_pos this]
    simp [hp]

/-- The options for key, certificate and authority. -/
def tlsOps (key cert ca : Option Bytes) : List Opt :=
  match key, cert with
  | some k, some c => [.key k, .cert c] ++ ca.toList.map .trust
  | _, _ => []

/-- The address family. -/
def familyFlags (u : Instance) (ssl : Bool) : Flags :=
  { ipv6 := u.bind6.isSome || (u.network.testBit 4 && !u.network.testBit 0)
    dual := !u.bind6.isSome && u.network.testBit 4 && u.network.testBit 0
    ssl := ssl }

private theorem bne_v4 (n : Nat) : ((n &&& useIpv4) != 0) = n.testBit 0 := by
  have := and_v4 n
  cases h : n.testBit 0 <;> simp_all
private theorem bne_v6 (n : Nat) : ((n &&& useIpv6) != 0) = n.testBit 4 := by
  have := and_v6 n
  cases h : n.testBit 4 <;> simp_all

private theorem daemonFor_eq (u : Instance) (key cert ca : Option Bytes) : daemonFor u key cert ca = .ok
    { flags := familyFlags u (key.isSome && cert.isSome)
      port := UInt16.ofNat u.port
      ops := [.logger, .completed, .sockAddr (if u.bind6.isSome then u.bind6 else u.bind4), .uriLog] ++
        tlsOps key cert ca ++ (if u.timeout > 0 then [.timeout u.timeout] else []) ++ [.fin] } := by
  simp only [daemonFor, bne_v4, bne_v6, familyFlags]
  by_cases ht : u.timeout > 0 <;> cases key <;> cases cert <;> cases ca <;> cases u.bind6 <;>
    cases u.network.testBit 0 <;> cases u.network.testBit 4 <;>
    simp [ht, putOp, tlsOps, Res.ok_bind]

private theorem startSecureCa_eq (u : Instance) (m : Mhd) (key cert ca : Option Bytes) (up : Bool) :
    startSecureCa (some u) m key cert ca up =
      (if (key.isNone && cert.isSome) || (key.isSome && cert.isNone) then .ok (.params, some u, m)
      else if ca.isSome && (key.isNone || cert.isNone) then .ok (.params, some u, m)
      else do
        if ← validate { u with certAuth := ca.isSome } then
          let (d, m) ← runDaemon { u with certAuth := ca.isSome } m key cert ca up
          .ok ((started { u with certAuth := ca.isSome } d).1, some (started { u with certAuth := ca.isSome } d).2, m)
        else .ok (.params, some { u with certAuth := ca.isSome }, m)) := rfl

private theorem keysFine_iff (key cert ca : Option Bytes) : KeysFine key cert ca ↔
    ((key.isNone && cert.isSome) || (key.isSome && cert.isNone)) = false ∧
    (ca.isSome && (key.isNone || cert.isNone)) = false := by
  cases key <;> cases cert <;> cases ca <;> simp [KeysFine]

/-- What a successful start did. -/
theorem start_ok {u : Option Instance} {m m' : Mhd} {key cert ca : Option Bytes} {up : Bool} {u' : Option Instance}
    (h : startSecureCa u m key cert ca up = .ok (.ok, u', m')) :
    ∃ i d, u = some i ∧ KeysFine key cert ca ∧ PortFine i.port ∧ ListFine i ∧ i.daemon = none ∧ up = true ∧
      daemonFor i key cert ca = .ok d ∧ m' = { run := m.run ++ [(m.fresh, d)], fresh := m.fresh + 1 } ∧
      u' = some { i with certAuth := ca.isSome, daemon := some m.fresh, status := .running } := by
  cases u with
  | none => simp [startSecureCa] at h
  | some u =>
    rw [startSecureCa_eq] at h
    split at h
    · simp at h
    · rename_i h1
      split at h
      · simp at h
      · rename_i h2
        have hk : KeysFine key cert ca := (keysFine_iff ..).2 ⟨Bool.eq_false_iff.2 h1, Bool.eq_false_iff.2 h2⟩
        cases hv : validate { u with certAuth := ca.isSome } with
        | ub => rw [hv] at h; simp [Res.ub_bind] at h
        | ok b =>
          rw [hv, Res.ok_bind] at h
          cases b with
          | false => simp at h
          | true =>
            have hv' := (validate_true _).1 hv
            have hd : daemonFor { u with certAuth := ca.isSome } key cert ca = daemonFor u key cert ca := by
              rw [daemonFor_eq, daemonFor_eq]; rfl
            simp only [runDaemon, if_true, hd] at h
            cases hdm : u.daemon with
            | some n => simp [hdm, Res.ok_bind, started] at h
            | none =>
              rw [hdm] at h
              rw [daemonFor_eq] at h
              simp only [Res.ok_bind, startDaemon] at h
              cases up with
              | false => simp [started] at h
              | true =>
                simp only [if_true, started, Res.ok.injEq, Prod.mk.injEq, true_and] at h
                exact ⟨u, _, rfl, hk, hv'.1, hv'.2, hdm, rfl, daemonFor_eq .., h.2.symm, h.1.symm⟩

/-- **C62** (partial: a blank endpoint may stand behind the first one). An instance that was started by
`ulfius_start_framework` or one of the secure start functions had a fine port and fine endpoints. -/
theorem C62_started_partial {u : Option Instance} {m m' : Mhd} {key cert ca : Option Bytes} {up : Bool}
    {u' : Option Instance} (h : startSecureCa u m key cert ca up = .ok (.ok, u', m')) :
    ∃ i, u = some i ∧ PortFine i.port ∧ ListFine i := by
  obtain ⟨i, d, hu, _, hp, hl, _⟩ := start_ok h
  exact ⟨i, hu, hp, hl⟩

/-- **C62**. The converse: nothing else keeps an instance from starting. -/
theorem C62_accepts {i : Instance} (m : Mhd) {key cert ca : Option Bytes} (hp : PortFine i.port) (hl : ListFine i)
    (hk : KeysFine key cert ca) (hd : i.daemon = none) :
    ∃ u' m', startSecureCa (some i) m key cert ca true = .ok (.ok, u', m') := by
  have h12 := (keysFine_iff ..).1 hk
  have hv : validate { i with certAuth := ca.isSome } = .ok true := (validate_true _).2 ⟨hp, hl⟩
  rw [startSecureCa_eq, if_neg (by simp [h12.1]), if_neg (by simp [h12.2]), hv, Res.ok_bind]
  simp only [if_true, runDaemon, hd, daemonFor_eq, Res.ok_bind, startDaemon, started]
  exact ⟨_, _, rfl⟩

/-- **C62**. If the endpoint array is as long as the instance says, starting is defined in every case. -/
theorem C62_defined {i : Instance} (m : Mhd) (key cert ca : Option Bytes) (up : Bool)
    (hn : ∀ l, i.ep.list = some l → i.ep.nb ≤ l.length) : startSecureCa (some i) m key cert ca up ≠ .ub := by
  rw [startSecureCa_eq]
  split
  · simp
  · split
    · simp
    · have hv : validate { i with certAuth := ca.isSome } ≠ .ub := by
        simp only [validate]
        split
        · simp
        · cases hl : i.ep.list with
          | none => simp
          | some l => exact validateLoop_ub _ _ _ (by have := hn l hl; omega)
      cases hb : validate { i with certAuth := ca.isSome } with
      | ub => exact absurd hb hv
      | ok b =>
        rw [Res.ok_bind]
        cases b
        · simp
        · simp only [if_true, runDaemon]
          cases i.daemon <;> simp [Res.ok_bind, daemonFor_eq]

private def getEp : Endpoint :=
  { method := some b!"GET", pfx := none, format := some b!"/", priority := 0, callback := some 1, userData := 0 }

/-- A sample instance with one endpoint. -/
def sampleInst : Instance :=
  { daemon := none, status := .stop, port := 8080, bind4 := none, bind6 := none, network := 1, timeout := 0, realm := none,
    ep := { list := some [getEp, emptyEndpoint], nb := 1 }, defaultEp := none, certAuth := false, handler := true }

example : PortFine sampleInst.port ∧ ListFine sampleInst := by
  refine ⟨by simp [PortFine, sampleInst], [getEp, emptyEndpoint], rfl, ?_⟩
  intro i hi
  have : i = 0 := by simp [sampleInst] at hi; omega
  subst this
  exact ⟨getEp, rfl, Or.inl ⟨by decide, by decide, Or.inr (by decide)⟩⟩
example : ∃ u m, start (some sampleInst) {} true = .ok (.ok, u, m) := ⟨_, _, rfl⟩
example : ∃ u m, start (some { sampleInst with port := 65536 }) {} true = .ok (.params, u, m) := ⟨_, _, rfl⟩
example : ∃ u m, start (some { sampleInst with ep := { list := some [emptyEndpoint], nb := 1 } }) {} true =
    .ok (.params, u, m) := ⟨_, _, rfl⟩

/-- **C62** is false: an instance with a blank endpoint, which hides those behind it, is built by the API and starts. -/
theorem C62_blank_false : ∃ s1 s2 s3 u m, Endpoint.addEndpoint Endpoint.Inst.init getEp = .ok (.ok, s1) ∧
    Endpoint.addEndpoint s1 { emptyEndpoint with callback := some 2 } = .ok (.ok, s2) ∧
    Endpoint.addEndpoint s2 getEp = .ok (.ok, s3) ∧
    start (some { sampleInst with ep := s3 }) {} true = .ok (.ok, u, m) ∧
    ∃ l, s3.list = some l ∧ ∃ e, l[1]? = some e ∧ BlankEp e :=
  ⟨_, _, _, _, _, rfl, rfl, rfl, rfl, _, rfl, _, rfl, rfl, rfl, rfl⟩

/-- **C62** is false: `ulfius_start_framework_with_mhd_options` validates nothing. An instance without endpoint list starts,
and a port number that was changed after the initialisation is cut to 16 bits. -/
theorem C62_options_false : ∃ u m,
    startWith (some { sampleInst with port := 65536 + 22, ep := Endpoint.Inst.init }) {} {} (some [.fin]) true =
      (.ok, some u, m) ∧ u.status = .running ∧ u.ep.list = none ∧ ∃ d, m.run = [(0, d)] ∧ d.port = 22 :=
  ⟨_, _, rfl, rfl, rfl, _, rfl, rfl⟩

/-! ## C63 -/

/-- **C63**. The server is started only with both key and certificate or with neither, and with a trusted authority only with
both. The daemon speaks TLS exactly if they were given, with that key and certificate, and verifies clients exactly if an
authority was given. -/
theorem C63_tls {u : Option Instance} {m m' : Mhd} {key cert ca : Option Bytes} {up : Bool} {u' : Option Instance}
    (h : startSecureCa u m key cert ca up = .ok (.ok, u', m')) :
    KeysFine key cert ca ∧ ∃ i d, u' = some i ∧ m'.run = m.run ++ [(m.fresh, d)] ∧ i.daemon = some m.fresh ∧
      (d.flags.ssl = true ↔ key ≠ none) ∧ (i.certAuth = true ↔ ca ≠ none) ∧
      (∀ k, Opt.key k ∈ d.ops ↔ key = some k) ∧ (∀ c, Opt.cert c ∈ d.ops ↔ cert = some c) ∧
      (∀ a, Opt.trust a ∈ d.ops ↔ ca = some a) := by
  obtain ⟨i, d, hu, hk, hp, hl, hd, hup, hda, hm, hu'⟩ := start_ok h
  refine ⟨hk, _, d, hu', by rw [hm], rfl, ?_⟩
  rw [daemonFor_eq] at hda
  injection hda with hda
  subst hda
  unfold KeysFine at hk
  by_cases ht : i.timeout > 0 <;> cases key <;> cases cert <;> cases ca <;>
    simp [ht, familyFlags, tlsOps, @eq_comm Bytes] at hk ⊢

/-- **C63**, the other start functions: `ulfius_start_secure_framework` starts a daemon with exactly this key and this certificate that does not verify
clients, `ulfius_start_framework` one without TLS. -/
theorem C63_others {u : Option Instance} {m m' : Mhd} {key cert : Option Bytes} {up : Bool} {u' : Option Instance} :
    (startSecure u m key cert up = .ok (.ok, u', m') → (key = none ↔ cert = none) ∧ ∃ i d, u' = some i ∧ m'.run = m.run ++ [(m.fresh, d)] ∧
      i.daemon = some m.fresh ∧ i.certAuth = false ∧ (d.flags.ssl = true ↔ key ≠ none) ∧ (∀ k, Opt.key k ∈ d.ops ↔ key = some k) ∧
      (∀ c, Opt.cert c ∈ d.ops ↔ cert = some c) ∧ ∀ a, Opt.trust a ∉ d.ops) ∧
    (start u m up = .ok (.ok, u', m') → ∃ i d, u' = some i ∧ m'.run = m.run ++ [(m.fresh, d)] ∧ i.daemon = some m.fresh ∧ i.certAuth = false ∧
      d.flags.ssl = false) := by
  refine ⟨fun h => ?_, fun h => ?_⟩
  · obtain ⟨hk, i, d, h1, h2, h3, h4, h5, h6, h7, h8⟩ := C63_tls h
    refine ⟨?_, i, d, h1, h2, h3, ?_, h4, h6, h7, fun a ha => ?_⟩
    · cases key <;> cases cert <;> simp_all [KeysFine]
    · cases hc : i.certAuth with
      | false => rfl
      | true => exact absurd rfl (h5.1 hc)
    · exact absurd ((h8 a).1 ha) (fun h => by cases h)
  · obtain ⟨hk, i, d, h1, h2, h3, h4, h5, -⟩ := C63_tls h
    refine ⟨i, d, h1, h2, h3, ?_, ?_⟩
    · cases hc : i.certAuth with
      | false => rfl
      | true => exact absurd rfl (h5.1 hc)
    · cases hc : d.flags.ssl with
      | false => rfl
      | true => exact absurd rfl (h4.1 hc)

example : ∃ u m, startSecure (some sampleInst) {} (some b!"key") (some b!"cert") true = .ok (.ok, u, m) := ⟨_, _, rfl⟩

/-- **C63**. With anything else the server is not started. -/
theorem C63_refused {u : Option Instance} (m : Mhd) {key cert ca : Option Bytes} (up : Bool) (h : ¬ KeysFine key cert ca) :
    startSecureCa u m key cert ca up = .ok (.params, u, m) := by
  cases u with
  | none => rfl
  | some u =>
    rw [startSecureCa_eq]
    rw [keysFine_iff] at h
    split
    · rfl
    · rename_i h1
      split
      · rfl
      · rename_i h2
        exact absurd ⟨Bool.eq_false_iff.2 h1, Bool.eq_false_iff.2 h2⟩ h

/-- **C63**. The options never overrun their array (nine elements), and they end with the end mark and nothing behind it. -/
theorem C63_options (u : Instance) (key cert ca : Option Bytes) :
    ∃ d, daemonFor u key cert ca = .ok d ∧ d.ops.length ≤ 9 ∧ d.ops.getLast? = some .fin ∧ d.ops.count .fin = 1 := by
  refine ⟨_, daemonFor_eq .., ?_⟩
  by_cases ht : u.timeout > 0 <;> cases key <;> cases cert <;> cases ca <;> simp [ht, tlsOps] <;> decide

example : ∃ i m, startSecureCa (some sampleInst) {} (some b!"k") (some b!"c") (some b!"a") true = .ok (.ok, some i, m) ∧
    i.certAuth = true ∧ m.run.length = 1 := ⟨_, _, rfl, rfl, rfl⟩
example : ¬ KeysFine (some b!"k") none none ∧ ¬ KeysFine none none (some b!"a") := by simp [KeysFine]
example : ∃ d, daemonFor { sampleInst with timeout := 5 } (some b!"k") (some b!"c") (some b!"a") = .ok d ∧ d.ops.length = 9 :=
  ⟨_, rfl, rfl⟩

/-! ## C64 -/

/-- **C64** is false: whatever list is copied, unless it is empty the first copy is written outside the block. -/
theorem C64_overflow_false (e : Endpoint) (l : List Endpoint) (h : e.method ≠ none) : duplicate (some (e :: l)) = .ub := by
  obtain ⟨m, hm⟩ := Option.ne_none_iff_exists'.1 h
  simp [duplicate, duplicateLoop, hm, endpointSize, ptrSize, Res.ub_bind]

/-- **C64** (partial: only for an empty list). The result is NULL. -/
theorem C64_empty_partial (l : Option (List Endpoint)) (h : ∀ x, l = some x → ∃ e t, x = e :: t ∧ e.method = none) :
    duplicate l = .ok none := by
  cases l with
  | none => rfl
  | some x =>
    obtain ⟨e, t, rfl, he⟩ := h x rfl
    simp [duplicate, duplicateLoop, he, Res.ok_bind]

example : getEp.method ≠ none := by decide
example : duplicate (some [emptyEndpoint]) = .ok none := rfl

/-! ## C86: starting twice -/

/-- **C86** is false: a start of an instance that runs fails, but forgets the daemon. It goes on running, and nothing can
stop it any more. -/
theorem C86_twice_false : ∃ u1 m1 u2 m2 u3, start (some sampleInst) {} true = .ok (.ok, some u1, m1) ∧
    start (some u1) m1 true = .ok (.libmhd, some u2, m2) ∧ u2.daemon = none ∧ m2.run = m1.run ∧ m1.run.length = 1 ∧
    stop (some u2) m2 = .ok (.params, some u3, m2) :=
  ⟨_, _, _, _, _, rfl, rfl, rfl, rfl, rfl, rfl⟩

/-- **C86** (partial). Every start of an instance that runs, with fine parameters, fails with `U_ERROR_LIBMHD` and starts no
second daemon; with other parameters it is refused and the instance keeps its daemon. -/
theorem C86_refused_partial {u : Instance} {n : Nat} (m : Mhd) (key cert ca : Option Bytes) (up : Bool)
    (hn : u.daemon = some n) {r : Rc × Option Instance × Mhd} (h : startSecureCa (some u) m key cert ca up = .ok r) :
    r.2.2 = m ∧ (r.1 = .libmhd ∨ (r.1 = .params ∧ ∃ u', r.2.1 = some u' ∧ u'.daemon = some n ∧ u'.status = u.status)) := by
  rw [startSecureCa_eq] at h
  split at h
  · injection h with h; subst h; exact ⟨rfl, Or.inr ⟨rfl, _, rfl, hn, rfl⟩⟩
  · split at h
    · injection h with h; subst h; exact ⟨rfl, Or.inr ⟨rfl, _, rfl, hn, rfl⟩⟩
    · cases hv : validate { u with certAuth := ca.isSome } with
      | ub => rw [hv] at h; simp [Res.ub_bind] at h
      | ok b =>
        rw [hv, Res.ok_bind] at h
        cases b with
        | false => simp at h; subst h; exact ⟨rfl, Or.inr ⟨rfl, _, rfl, hn, rfl⟩⟩
        | true =>
          simp only [if_true, runDaemon, hn, Res.ok_bind, started] at h
          injection h with h; subst h
          exact ⟨rfl, Or.inl rfl⟩

/-! ## C87: where the server listens -/

/-- Which families a daemon listens to: IPv4 without a flag, IPv6 only, or both. -/
inductive Family where
  | v4 | v6 | both
  deriving DecidableEq, Repr

/-- As libmicrohttpd reads the flags. -/
def Flags.family (f : Flags) : Family := if f.dual then .both else if f.ipv6 then .v6 else .v4

/-- **C87**. An instance made by `ulfius_init_instance` listens to IPv4 on the address and the port it was given. -/
theorem C87_ipv4 {u : Option Instance} {port : Nat} {bind : Option Nat} {realm : Option Bytes} {i : Instance}
    (h : init u port bind realm = (.ok, some i)) (key cert ca : Option Bytes) :
    ∃ d, daemonFor i key cert ca = .ok d ∧ Flags.family d.flags = .v4 ∧ d.port.toNat = port ∧
      d.ops.find? (fun o => o matches .sockAddr _) = some (.sockAddr bind) := by
  have hp := ((C62_init u port bind realm).1 (by rw [h])).2
  cases u with
  | none => simp [init, initAny] at h
  | some u =>
    simp only [init, initAny] at h
    split at h
    · injection h with _ h
      injection h with h
      subst h
      refine ⟨_, daemonFor_eq .., ?_⟩
      refine ⟨by simp [Flags.family, familyFlags]; decide, ?_, by simp⟩
      simp only [UInt16.toNat_ofNat']
      unfold PortFine at hp; omega
    · simp at h

/-- **C87**. An instance made by `ulfius_init_instance_ipv6` listens to the IPv6 address it was given and nothing else; without
an address to IPv6, and to IPv4 too exactly if asked for. -/
theorem C87_ipv6 {u : Option Instance} {port network : Nat} {bind : Option Nat} {realm : Option Bytes} {i : Instance}
    (h : initIpv6 u port bind network realm = (.ok, some i)) (key cert ca : Option Bytes) :
    ∃ d, daemonFor i key cert ca = .ok d ∧ d.port.toNat = port ∧
      Flags.family d.flags = (if bind = none ∧ network.testBit 0 = true then .both else .v6) ∧
      d.ops.find? (fun o => o matches .sockAddr _) = some (.sockAddr bind) := by
  have hp := ((C62_initIpv6 u port bind network realm).1 (by rw [h])).2
  cases u with
  | none => by_cases hb : (network &&& useIpv6) = 0 <;> simp [initIpv6, initAny, hb] at h
  | some u =>
    simp only [initIpv6, initAny] at h
    split at h
    · by_cases hc : (decide (port > 0) && decide (port < 65536) && ((none : Option Nat).isNone || bind.isNone) &&
          (if bind.isSome then useIpv6 else network) &&& useAll != 0) = true
      · rw [if_pos hc] at h
        injection h with _ h
        injection h with h
        subst h
        refine ⟨_, daemonFor_eq .., ?_, ?_⟩
        · simp only [UInt16.toNat_ofNat']
          have := hp.1; unfold PortFine at this; omega
        · have hb := hp.2
          cases bind with
          | none => cases h0 : network.testBit 0 <;> simp [Flags.family, familyFlags, h0, hb]
          | some b => simp [Flags.family, familyFlags]
      · rw [if_neg hc] at h; simp at h
    · simp at h

example : ∃ i, init (some default) 8080 (some 7) none = (.ok, some i) := ⟨_, rfl⟩
example : ∃ i, initIpv6 (some default) 8080 none 0x11 none = (.ok, some i) := ⟨_, rfl⟩

/-! ## C88: the life of an instance -/

/-- The calls an application makes with its instance. -/
inductive LifeCall where
  | init (port : Nat) (bind : Option Nat) (realm : Option Bytes)
  | initIpv6 (port : Nat) (bind : Option Nat) (network : Nat) (realm : Option Bytes)
  | add (e : Endpoint)
  | remove (e : Endpoint)
  | setDefault (callback : Option Nat) (data : Nat)
  | start (key cert ca : Option Bytes) (up : Bool)
  | startWith (flags : Flags) (ops : Option (List Opt)) (up : Bool)
  | stop
  | clean

/-- One call; the first component tells whether it returned `U_OK`. -/
def lifeStep (u : Instance) (m : Mhd) : LifeCall → Res (Bool × Option Instance × Mhd)
  | .init p b r => .ok ((init (some u) p b r).1 == .ok, (init (some u) p b r).2, m)
  | .initIpv6 p b n r => .ok ((initIpv6 (some u) p b n r).1 == .ok, (initIpv6 (some u) p b n r).2, m)
  | .add e => do let (rc, ep) ← Endpoint.addEndpoint u.ep e; .ok (rc == .ok, some { u with ep := ep }, m)
  | .remove e => do let (rc, ep) ← Endpoint.removeEndpoint u.ep e; .ok (rc == .ok, some { u with ep := ep }, m)
  | .setDefault c d => .ok ((setDefault (some u) c d).1 == .ok, (setDefault (some u) c d).2, m)
  | .start k c a up => do let (rc, r) ← startSecureCa (some u) m k c a up; .ok (rc == .ok, r)
  | .startWith f o up => .ok ((startWith (some u) m f o up).1 == .ok, (startWith (some u) m f o up).2)
  | .stop => do let (rc, r) ← stop (some u) m; .ok (rc == .ok, r)
  | .clean => .ok (true, clean (some u), m)

/-- What the application knows: whether its instance is initialised, whether it is started. -/
structure Know where
  alive : Bool := false
  running : Bool := false
  deriving DecidableEq

/-- What an application should do: initialise first, start only what is stopped, stop before it cleans. -/
def Know.allows (k : Know) : LifeCall → Bool
  | .init .. | .initIpv6 .. => !k.running
  | .add _ | .remove _ | .setDefault .. | .stop => k.alive
  | .start .. | .startWith .. | .clean => k.alive && !k.running

/-- What it knows after a call. -/
def Know.learn (k : Know) (c : LifeCall) (ok : Bool) : Know :=
  match c with
  | .init .. | .initIpv6 .. => { k with alive := k.alive || ok }
  | .start .. | .startWith .. => { k with running := ok }
  | .stop => { k with running := false }
  | .clean => { k with alive := false }
  | _ => k

/-- A run of an application: the calls it makes as it should, the outcome `none` if it does something else. -/
def life : List LifeCall → Know → Instance → Mhd → Res (Option (Know × Instance × Mhd))
  | [], k, u, m => .ok (some (k, u, m))
  | c :: t, k, u, m =>
    if k.allows c then do
      let (ok, u', m') ← lifeStep u m c
      match u' with
      | none => .ub
      | some u' => life t (k.learn c ok) u' m'
    else .ok none

private structure Alive (k : Know) (u : Instance) (m : Mhd) : Prop where
  off : k.running = false → m.run = []
  dead : k.alive = false → k.running = false
  shape : k.alive = true → u.handler = true ∧ ∃ l, Endpoint.Shape u.ep l
  none : k.alive = true → (k.running = false ↔ u.daemon = none)
  on : k.running = true → ∃ n d, u.daemon = some n ∧ m.run = [(n, d)] ∧ u.status = .running

private theorem initAny_ok (u : Instance) (p : Nat) (b4 b6 : Option Nat) (n : Nat) (r : Option Bytes) :
    ((initAny (some u) p b4 b6 n r).1 = .ok ∧ ∃ i, (initAny (some u) p b4 b6 n r).2 = some i ∧ i.daemon = none ∧
      i.handler = true ∧ i.ep = Endpoint.Inst.init) ∨
    ((initAny (some u) p b4 b6 n r).1 ≠ .ok ∧ (initAny (some u) p b4 b6 n r).2 = some u) := by
  simp only [initAny]
  split
  · exact Or.inl ⟨rfl, _, rfl, rfl, rfl, rfl⟩
  · exact Or.inr ⟨by simp, rfl⟩

private theorem alive_init {k : Know} {u : Instance} {m : Mhd} (hi : Alive k u m) (hr : k.running = false)
    {p : Nat} {b4 b6 : Option Nat} {n : Nat} {r : Option Bytes} :
    ∃ u', (initAny (some u) p b4 b6 n r).2 = some u' ∧
      Alive { k with alive := k.alive || (initAny (some u) p b4 b6 n r).1 == .ok } u' m := by
  rcases initAny_ok u p b4 b6 n r with ⟨h1, i, h2, h3, h4, h5⟩ | ⟨h1, h2⟩
  · refine ⟨i, h2, ?_⟩
    rw [h1]
    exact ⟨hi.off, fun _ => hr, fun _ => ⟨h4, [], Or.inl ⟨rfl, h5⟩⟩, fun _ => by simp [hr, h3], fun h => by simp [hr] at h⟩
  · refine ⟨u, h2, ?_⟩
    have : ((initAny (some u) p b4 b6 n r).1 == Rc.ok) = false := by simpa using h1
    rw [this, Bool.or_false]
    exact hi

private theorem shape_nb {s : Endpoint.Inst} {l : List Endpoint} (h : Endpoint.Shape s l) :
    ∀ x, s.list = some x → s.nb ≤ x.length := by
  rcases h with ⟨_, rfl⟩ | ⟨z, _, rfl⟩
  · simp
  · intro x hx; simp at hx; subst hx; simp

private theorem start_other {u : Instance} {m : Mhd} {key cert ca : Option Bytes} {up : Bool}
    {r : Rc × Option Instance × Mhd} (h : startSecureCa (some u) m key cert ca up = .ok r) (hr : r.1 ≠ .ok)
    (hd : u.daemon = none) :
    r.2.2 = m ∧ ∃ u', r.2.1 = some u' ∧ u'.daemon = none ∧ u'.handler = u.handler ∧ u'.ep = u.ep := by
  rw [startSecureCa_eq] at h
  split at h
  · injection h with h; subst h; exact ⟨rfl, _, rfl, hd, rfl, rfl⟩
  · split at h
    · injection h with h; subst h; exact ⟨rfl, _, rfl, hd, rfl, rfl⟩
    · cases hv : validate { u with certAuth := ca.isSome } with
      | ub => rw [hv] at h; simp [Res.ub_bind] at h
      | ok b =>
        rw [hv, Res.ok_bind] at h
        cases b with
        | false => simp at h; subst h; exact ⟨rfl, _, rfl, hd, rfl, rfl⟩
        | true =>
          simp only [if_true, runDaemon, hd, daemonFor_eq, Res.ok_bind, startDaemon] at h
          cases up with
          | false => simp [started] at h; subst h; exact ⟨rfl, _, rfl, rfl, rfl, rfl⟩
          | true => simp [started] at h; subst h; exact absurd rfl hr

private theorem add_shape' {s : Endpoint.Inst} {l : List Endpoint} (h : Endpoint.Shape s l) (e : Endpoint) :
    ∃ rc s' l', Endpoint.addEndpoint s e = .ok (rc, s') ∧ Endpoint.Shape s' l' := by
  by_cases hv : Endpoint.isValid e false = true
  · obtain ⟨s', h1, h2⟩ := Endpoint.add_shape s l e emptyEndpoint h hv
    exact ⟨_, _, _, h1, h2⟩
  · exact ⟨_, s, l, by unfold Endpoint.addEndpoint; rw [if_neg hv], h⟩

private theorem remove_shape' {s : Endpoint.Inst} {l : List Endpoint} (h : Endpoint.Shape s l) (e : Endpoint) :
    ∃ rc s' l', Endpoint.removeEndpoint s e = .ok (rc, s') ∧ Endpoint.Shape s' l' := by
  by_cases hn : Endpoint.equals e emptyEndpoint = true
  · exact ⟨_, s, l, by unfold Endpoint.removeEndpoint; rw [if_neg (by simp [hn])], h⟩
  · by_cases hv : Endpoint.isValid e true = true
    · obtain ⟨s', h1, h2⟩ := Endpoint.remove_shape s l e h hv (fun x => hn ((Endpoint.equals_empty e).2 x))
      exact ⟨_, _, _, h1, h2⟩
    · exact ⟨_, s, l, by unfold Endpoint.removeEndpoint; rw [if_neg (by simp [hv])], h⟩

private theorem alive_ep {k : Know} {u : Instance} {m : Mhd} (hi : Alive k u m) {ep : Endpoint.Inst} {l : List Endpoint}
    (hs : Endpoint.Shape ep l) : Alive k { u with ep := ep } m :=
  ⟨hi.off, hi.dead, fun h => ⟨(hi.shape h).1, l, hs⟩, hi.none, hi.on⟩

private theorem alive_step {k : Know} {u : Instance} {m : Mhd} (hi : Alive k u m) (c : LifeCall)
    (ha : k.allows c = true) :
    ∃ ok u' m', lifeStep u m c = .ok (ok, some u', m') ∧ Alive (k.learn c ok) u' m' := by
  cases c with
  | init p b r =>
    have hr : k.running = false := by simpa [Know.allows] using ha
    obtain ⟨u', h1, h2⟩ := alive_init hi hr (p := p) (b4 := b) (b6 := none) (n := useIpv4) (r := r)
    exact ⟨_, u', m, by simp only [lifeStep, init, h1], h2⟩
  | initIpv6 p b n r =>
    have hr : k.running = false := by simpa [Know.allows] using ha
    by_cases hn : ((n &&& useIpv6) != 0) = true
    · obtain ⟨u', h1, h2⟩ := alive_init hi hr (p := p) (b4 := none) (b6 := b)
        (n := if b.isSome then useIpv6 else n) (r := r)
      refine ⟨_, u', m, ?_, h2⟩
      simp only [lifeStep, initIpv6, if_pos hn, h1]
    · refine ⟨false, u, m, ?_, ?_⟩
      · simp only [lifeStep, initIpv6, if_neg hn]; rfl
      · simpa [Know.learn] using hi
  | add e =>
    have hk : k.alive = true := by simpa [Know.allows] using ha
    obtain ⟨hh, l, hs⟩ := hi.shape hk
    obtain ⟨rc, s', l', h1, h2⟩ := add_shape' hs e
    exact ⟨rc == .ok, _, m, by simp only [lifeStep, h1, Res.ok_bind], alive_ep hi h2⟩
  | remove e =>
    have hk : k.alive = true := by simpa [Know.allows] using ha
    obtain ⟨hh, l, hs⟩ := hi.shape hk
    obtain ⟨rc, s', l', h1, h2⟩ := remove_shape' hs e
    exact ⟨rc == .ok, _, m, by simp only [lifeStep, h1, Res.ok_bind], alive_ep hi h2⟩
  | setDefault c d =>
    cases c with
    | none => exact ⟨_, u, m, rfl, hi⟩
    | some c => exact ⟨_, _, m, rfl, hi.off, hi.dead, hi.shape, hi.none, hi.on⟩
  | start key cert ca up =>
    obtain ⟨hk, hr⟩ : k.alive = true ∧ k.running = false := by simpa [Know.allows] using ha
    obtain ⟨hh, l, hs⟩ := hi.shape hk
    have hd := (hi.none hk).1 hr
    cases hst : startSecureCa (some u) m key cert ca up with
    | ub => exact absurd hst (C62_defined m key cert ca up (shape_nb hs))
    | ok r =>
      obtain ⟨rc, v, m'⟩ := r
      by_cases hrc : rc = .ok
      · subst hrc
        obtain ⟨i, d, hu, _, _, _, _, _, _, hm, hv⟩ := start_ok hst
        injection hu with hu
        subst hu hv hm
        refine ⟨true, _, _, by simp only [lifeStep, hst, Res.ok_bind]; rfl, ?_⟩
        refine ⟨fun h => by simp [Know.learn] at h, fun h => by simp [Know.learn, hk] at h, fun _ => ⟨hh, l, hs⟩,
          fun _ => by simp [Know.learn], fun _ => ⟨_, d, rfl, by simp [hi.off hr], rfl⟩⟩
      · obtain ⟨h1, u', h2, h3, h4, h5⟩ := start_other hst hrc hd
        simp only at h1 h2
        subst h1 h2
        have hf : (rc == Rc.ok) = false := by simpa using hrc
        refine ⟨false, u', m', by simp only [lifeStep, hst, Res.ok_bind, hf], ?_⟩
        refine ⟨fun _ => hi.off hr, fun _ => rfl, fun _ => ⟨h4.trans hh, l, h5 ▸ hs⟩, fun _ => by simp [Know.learn, h3],
          fun h => by simp [Know.learn] at h⟩
  | startWith f o up =>
    obtain ⟨hk, hr⟩ : k.alive = true ∧ k.running = false := by simpa [Know.allows] using ha
    obtain ⟨hh, l, hs⟩ := hi.shape hk
    have hd := (hi.none hk).1 hr
    cases o with
    | none =>
      refine ⟨false, u, m, rfl, ?_⟩
      exact ⟨fun _ => hi.off hr, fun _ => rfl, hi.shape, fun _ => by simp [Know.learn, hd], fun h => by simp [Know.learn] at h⟩
    | some o =>
      cases up with
      | false =>
        refine ⟨false, _, m, rfl, ?_⟩
        exact ⟨fun _ => hi.off hr, fun _ => rfl, fun _ => ⟨hh, l, hs⟩, fun _ => by simp [Know.learn],
          fun h => by simp [Know.learn] at h⟩
      | true =>
        refine ⟨true, _, _, rfl, ?_⟩
        exact ⟨fun h => by simp [Know.learn] at h, fun h => by simp [Know.learn, hk] at h, fun _ => ⟨hh, l, hs⟩,
          fun _ => by simp [Know.learn], fun _ => ⟨_, { flags := f, port := UInt16.ofNat u.port, ops := o }, rfl, by simp [hi.off hr], rfl⟩⟩
  | stop =>
    have hk : k.alive = true := by simpa [Know.allows] using ha
    obtain ⟨hh, l, hs⟩ := hi.shape hk
    cases hr : k.running with
    | false =>
      have hd := (hi.none hk).1 hr
      refine ⟨false, { u with status := .error }, m, by simp only [lifeStep, stop, hd, Res.ok_bind]; rfl, ?_⟩
      exact ⟨fun _ => hi.off hr, fun _ => rfl, fun _ => ⟨hh, l, hs⟩, fun _ => by simp [Know.learn, hd],
        fun h => by simp [Know.learn] at h⟩
    | true =>
      obtain ⟨n, d, h1, h2, _⟩ := hi.on hr
      refine ⟨true, { u with daemon := none, status := .stop }, { m with run := m.run.filter (fun p => p.1 != n) },
        by simp only [lifeStep, stop, h1, hh, if_true, Res.ok_bind]; rfl, ?_⟩
      exact ⟨fun _ => by simp [h2], fun _ => rfl, fun _ => ⟨hh, l, hs⟩, fun _ => by simp [Know.learn],
        fun h => by simp [Know.learn] at h⟩
  | clean =>
    obtain ⟨hk, hr⟩ : k.alive = true ∧ k.running = false := by simpa [Know.allows] using ha
    refine ⟨true, _, m, rfl, ?_⟩
    exact ⟨fun _ => hi.off hr, fun _ => hr, fun h => by simp [Know.learn] at h, fun h => by simp [Know.learn] at h,
      fun h => by simp [Know.learn, hr] at h⟩

private theorem life_alive (l : List LifeCall) : ∀ {k : Know} {u : Instance} {m : Mhd}, Alive k u m →
    ∃ r, life l k u m = .ok r ∧ ∀ k' u' m', r = some (k', u', m') → Alive k' u' m' := by
  induction l with
  | nil =>
    intro k u m h
    exact ⟨_, rfl, fun k' u' m' e => by simp at e; obtain ⟨rfl, rfl, rfl⟩ := e; exact h⟩
  | cons c t ih =>
    intro k u m h
    by_cases ha : k.allows c = true
    · obtain ⟨ok, u', m', h1, h2⟩ := alive_step h c ha
      obtain ⟨r, h3, h4⟩ := ih h2
      exact ⟨r, by simp only [life, if_pos ha, h1, Res.ok_bind]; exact h3, h4⟩
    · exact ⟨none, by simp only [life, if_neg ha], fun _ _ _ e => by cases e⟩

/-- **C88** (partial: for applications that initialise first, start only what is stopped and stop before they clean). Whatever
sequence of calls is made, nothing undefined happens, exactly one daemon runs while the instance is started, and none
otherwise. The memory of the instance may hold anything at first. -/
theorem C88_life_partial (l : List LifeCall) (junk : Instance) :
    ∃ r, life l {} junk {} = .ok r ∧ ∀ k u m, r = some (k, u, m) →
      (k.running = true → ∃ n d, u.daemon = some n ∧ m.run = [(n, d)] ∧ u.status = .running) ∧
      (k.running = false → m.run = []) := by
  obtain ⟨r, h1, h2⟩ := life_alive l (k := {}) (u := junk) (m := {})
    ⟨fun _ => rfl, fun _ => rfl, fun h => by simp at h, fun h => by simp at h, fun h => by simp at h⟩
  exact ⟨r, h1, fun k u m e => ⟨(h2 k u m e).on, (h2 k u m e).off⟩⟩

/-- Started and stopped twice, with an endpoint removed in between, then cleaned and used again. -/
def sampleLife : List LifeCall :=
  [.init 8080 none none, .add getEp, .start none none none true, .stop, .add getEp, .start (some b!"k") (some b!"c") none true,
   .remove getEp, .stop, .clean, .init 8081 none none, .add getEp, .start none none none true]

example : ∃ u m, life sampleLife {} default {} = .ok (some ({ alive := true, running := true }, u, m)) ∧ m.run.length = 1 :=
  ⟨_, _, rfl, rfl⟩

private def instOf (r : Res (Option (Know × Instance × Mhd))) : Option (Instance × Mhd) :=
  match r with
  | .ok (some (_, u, m)) => some (u, m)
  | _ => none

/-- **C88** is false: an instance that is cleaned while it runs can not be stopped any more; `ulfius_stop_framework` follows a
null pointer. -/
theorem C88_clean_false : ∃ u m, instOf (life [.init 8080 none none, .add getEp, .start none none none true] {} default {}) =
      some (u, m) ∧ stop (clean (some u)) m = .ub :=
  ⟨_, _, rfl, rfl⟩

/-- **C88** is false: `ulfius_clean_instance` frees the endpoint list but keeps the number of endpoints. The removal of an
endpoint after it follows a null pointer. -/
theorem C88_remove_false : ∃ u m v, instOf (life [.init 8080 none none, .add getEp] {} default {}) = some (u, m) ∧
      clean (some u) = some v ∧ Endpoint.removeEndpoint v.ep getEp = .ub :=
  ⟨_, _, _, rfl, rfl, rfl⟩

/-- C27, the setter: the callback and the data given last are those of the default endpoint, nothing else of the instance changes;
refused arguments change nothing. -/
theorem C27_set (u : Instance) (c d : Nat) :
    (∃ u', setDefault (some u) (some c) d = (.ok, some u') ∧ u'.defaultEp = some (c, d) ∧ { u' with defaultEp := u.defaultEp } = u) ∧
    setDefault (some u) none d = (.params, some u) ∧ (setDefault none (some c) d).1 = .params :=
  ⟨⟨{ u with defaultEp := some (c, d) }, rfl, rfl, rfl⟩, rfl, rfl⟩

end Verif.Props
