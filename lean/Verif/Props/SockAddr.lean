import Verif.Model.SockAddr
import Verif.Spec.SockAddr
import Verif.Lemmas.Token
/-!
# C154: the address of the client
-/
namespace Verif.Props
open Verif.SockAddr Verif.Spec.SockAddr
open Verif.Spec.Handshake (First Absent)
open Verif.Spec.SockAddr (Address)

/-- **C154, partial.** For every IPv4 client the request has its address: the block is the whole `struct sockaddr_in`, a program that
reads it gets port and address of the client, and a copy of the request has the same.
Missing: IPv6, for which it is false (`C154_v6_false`). -/
theorem C154_v4_partial (port : UInt8 × UInt8) (a b c d : UInt8) :
    ∃ block, clientAddress (Address.v4 port a b c d).bytes = .ok (some block) ∧
      Spec.SockAddr.read block = .ok (some (.v4 port a b c d)) ∧ Message.copyAddress (some block) = .ok (some block) :=
  ⟨_, rfl, rfl, rfl⟩

example : Spec.SockAddr.read (Address.v4 (0x1f, 0x90) 10 0 0 7).bytes = .ok (some (.v4 (0x1f, 0x90) 10 0 0 7)) := rfl

private theorem v6_taken (port : UInt8 × UInt8) (flow : Vector UInt8 4) (addr : Vector UInt8 16) (scope : Vector UInt8 4) :
    clientAddress (Address.v6 port flow addr scope).bytes =
      .ok (some ([10, 0, port.1, port.2] ++ flow.toList ++ addr.toList.take 8)) := by
  simp only [clientAddress, Message.copyAddress]
  have h1 : flow.toList.length = 4 := by simp
  have h2 : addr.toList.length = 16 := by simp
  rw [if_pos (by simp [Address.bytes, Message.sockaddrSize])]
  congr 2
  simp only [Address.bytes]
  rw [show Message.sockaddrSize = ([10, 0, port.1, port.2] ++ flow.toList).length + 8 by simp [Message.sockaddrSize],
    List.append_assoc ([10, 0, port.1, port.2] ++ flow.toList), List.take_length_add_append,
    List.take_append_of_le_length (by rw [h2]; omega)]

/-- **C154 is false for every IPv6 client.** The block has 16 bytes and ends in the middle of the address: reading the address is
undefined. -/
theorem C154_v6_false (port : UInt8 × UInt8) (flow : Vector UInt8 4) (addr : Vector UInt8 16) (scope : Vector UInt8 4) :
    ∃ block, clientAddress (Address.v6 port flow addr scope).bytes = .ok (some block) ∧ Spec.SockAddr.read block = .ub := by
  refine ⟨_, v6_taken port flow addr scope, ?_⟩
  simp only [List.cons_append, List.nil_append, Spec.SockAddr.read]
  rw [dif_neg]
  simp

/-- Two IPv6 clients whose addresses differ in the second half (two machines of one network) cannot be told apart, whatever a program
does with the block. -/
theorem C154_same_false (port : UInt8 × UInt8) (flow : Vector UInt8 4) (addr addr' : Vector UInt8 16) (scope scope' : Vector UInt8 4)
    (h : addr.toList.take 8 = addr'.toList.take 8) :
    clientAddress (Address.v6 port flow addr scope).bytes = clientAddress (Address.v6 port flow addr' scope').bytes := by
  rw [v6_taken, v6_taken, h]

/-- fe80::1 and fe80::2. -/
example : ∃ a a' : Vector UInt8 16, a ≠ a' ∧ a.toList.take 8 = a'.toList.take 8 :=
  ⟨#v[0xfe, 0x80, 0, 0, 0, 0, 0, 0, 0, 0, 0, 0, 0, 0, 0, 1], #v[0xfe, 0x80, 0, 0, 0, 0, 0, 0, 0, 0, 0, 0, 0, 0, 0, 2], by decide, by decide⟩

/-- An instance that listens to IPv4 and IPv6 with one socket gets IPv4 clients as ::ffff:a.b.c.d: they all look the same. -/
theorem C154_mapped_false (port : UInt8 × UInt8) (flow scope : Vector UInt8 4) (a b c d a' b' c' d' : UInt8) :
    clientAddress (Address.v6 port flow #v[0, 0, 0, 0, 0, 0, 0, 0, 0, 0, 0xff, 0xff, a, b, c, d] scope).bytes =
      clientAddress (Address.v6 port flow #v[0, 0, 0, 0, 0, 0, 0, 0, 0, 0, 0xff, 0xff, a', b', c', d'] scope).bytes :=
  C154_same_false _ _ _ _ _ _ rfl

/-! ## The address shown by `get_ip_source` -/

private def value (s : Bytes) : Nat := s.foldl (fun n c => n * 10 + (c.toNat - 0x30)) 0

private theorem value_decimal : ∀ n, n < 256 → value (decimal n) = n ∧ (0x2e : UInt8) ∉ decimal n := by decide +kernel

private theorem decimal_inj {x y : UInt8} (h : decimal x.toNat = decimal y.toNat) : x = y := by
  have h1 := (value_decimal _ x.toNat_lt).1
  have h2 := (value_decimal _ y.toNat_lt).1
  rw [h, h2] at h1
  exact UInt8.toNat.inj h1.symm

private theorem dot_split {a b s t : Bytes} (ha : (0x2e : UInt8) ∉ a) (hb : (0x2e : UInt8) ∉ b) (h : a ++ 0x2e :: s = b ++ 0x2e :: t) :
    a = b ∧ s = t := by
  induction a generalizing b with
  | nil =>
    cases b with
    | nil => simpa using h
    | cons y u =>
      rw [List.nil_append, List.cons_append] at h
      injection h with h1 _
      exact absurd (h1 ▸ List.mem_cons_self) hb
  | cons x v ih =>
    cases b with
    | nil =>
      rw [List.nil_append, List.cons_append] at h
      injection h with h1 _
      exact absurd (h1 ▸ List.mem_cons_self) ha
    | cons y u =>
      rw [List.cons_append, List.cons_append] at h
      injection h with h1 h2
      obtain ⟨e1, e2⟩ := ih (fun hm => ha (List.mem_cons_of_mem _ hm)) (fun hm => hb (List.mem_cons_of_mem _ hm)) h2
      exact ⟨by rw [h1, e1], e2⟩

/-- **C154, the address shown (partial).** In a request without the header X-Forwarded-For of an IPv4 client, `get_ip_source` shows the
address of the client in decimal; different addresses are shown differently. -/
theorem C154_shown_partial {r : Message.Request} {hs : List (Bytes × Option Bytes)} (hh : HoldsParams r.mapHeader hs)
    (hx : Absent hs b!"X-Forwarded-For") (port : UInt8 × UInt8) (a b c d : UInt8)
    (hc : clientAddress (Address.v4 port a b c d).bytes = .ok r.clientAddress) :
    ipSource dotted r = .ok (dotted a b c d) ∧
      ∀ a' b' c' d', dotted a' b' c' d' = dotted a b c d → a' = a ∧ b' = b ∧ c' = c ∧ d' = d := by
  constructor
  · obtain ⟨o, e1, e2, -⟩ := Token.caseText_first hh b!"X-Forwarded-For"
    have : r.clientAddress = some (Address.v4 port a b c d).bytes := (Res.ok.inj hc).symm
    unfold ipSource
    rw [e1, e2.2 hx, this]
    rfl
  · intro a' b' c' d' h
    have hn : ∀ x : UInt8, (0x2e : UInt8) ∉ decimal x.toNat := fun x => (value_decimal _ x.toNat_lt).2
    unfold dotted at h
    rw [show (b!"." : Bytes) = [0x2e] from rfl] at h
    simp only [List.append_assoc, List.singleton_append] at h
    obtain ⟨e1, h⟩ := dot_split (hn a') (hn a) h
    obtain ⟨e2, h⟩ := dot_split (hn b') (hn b) h
    obtain ⟨e3, e4⟩ := dot_split (hn c') (hn c) h
    exact ⟨decimal_inj e1, decimal_inj e2, decimal_inj e3, decimal_inj e4⟩

example : ∃ r : Message.Request, HoldsParams r.mapHeader [] ∧ ipSource dotted r = .ok b!"10.0.0.7" :=
  ⟨{ clientAddress := some (Address.v4 (0x1f, 0x90) 10 0 0 7).bytes }, ⟨.init, rfl, (fun _ h => by cases h)⟩, by decide +kernel⟩

/-- With the header X-Forwarded-For the text shown is what the client wrote there, whoever it is. -/
theorem C154_forwarded_false {r : Message.Request} {hs : List (Bytes × Option Bytes)} (hh : HoldsParams r.mapHeader hs) {v : Bytes}
    (hx : First hs b!"X-Forwarded-For" v) : ipSource dotted r = .ok v := by
  obtain ⟨o, e1, -, e3⟩ := Token.caseText_first hh b!"X-Forwarded-For"
  unfold ipSource
  rw [e1, (e3 v).2 hx]
  rfl

/-- An IPv6 client is shown as its flow label, usually 0.0.0.0. -/
theorem C154_flow_false {r : Message.Request} {hs : List (Bytes × Option Bytes)} (hh : HoldsParams r.mapHeader hs)
    (hx : Absent hs b!"X-Forwarded-For") (port : UInt8 × UInt8) (addr : Vector UInt8 16) (scope : Vector UInt8 4)
    (hc : clientAddress (Address.v6 port #v[0, 0, 0, 0] addr scope).bytes = .ok r.clientAddress) :
    ipSource dotted r = .ok b!"0.0.0.0" := by
  obtain ⟨o, e1, e2, -⟩ := Token.caseText_first hh b!"X-Forwarded-For"
  rw [v6_taken] at hc
  have := (Res.ok.inj hc).symm
  unfold ipSource
  rw [e1, e2.2 hx, this]
  rfl

end Verif.Props
