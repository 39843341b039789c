import Verif.Model.OomOpen
import Verif.Lemmas.Handshake
import Verif.Lemmas.Yuarel
/-!
# C192: a client websocket opened while memory runs out is the one asked for
-/
namespace Verif.Props
open Verif.OomOpen
open Verif.UMap Verif.Ws Verif.Client Verif.Printf
open Verif.Handshake (CliExt cliItems cliNegotiate splitString nextLine statusLine clientHandshake handshakeRequest requestHeaders header)
open Verif.Message (Request)

namespace OomOpenAux

theorem sendLines_all (mem : Mem) (h : ∀ i, mem.line i = true) : ∀ (ls : List Bytes) (i : Nat), sendLines mem i ls = ls.flatten := by
  intro ls
  induction ls with
  | nil => intro i; rfl
  | cons a t ih => intro i; simp [sendLines, h, ih]

theorem headerLines_flat (m : UMap) : ∀ ks : List Bytes, requestHeaders m ks = (headerLines m ks >>= fun ls => Res.ok ls.flatten) := by
  intro ks
  induction ks with
  | nil => rfl
  | cons k t ih =>
    simp only [requestHeaders, headerLines, ih]
    cases header m k with
    | ub => rfl
    | ok v =>
      cases headerLines m t with
      | ub => rfl
      | ok ls => simp [Res.ok_bind, pure]

theorem requestLines_flat (r : Request) (u : Yuarel.Url) :
    handshakeRequest r.verb r.protocol r.mapUrl r.mapHeader u = (requestLines r u >>= fun ls => Res.ok (ls.flatten ++ b!"\r\n")) := by
  simp only [handshakeRequest, requestLines]
  cases header r.mapUrl b!"Origin" with
  | ub => rfl
  | ok o =>
    cases o <;>
    · simp only [Res.ok_bind]
      cases UMap.enumKeys r.mapHeader with
      | ub => rfl
      | ok ks =>
        simp only [Res.ok_bind, headerLines_flat]
        cases headerLines r.mapHeader ks with
        | ub => rfl
        | ok ls => cases hq : u.query <;> simp [Res.ok_bind, pure]

theorem credentials_full (mem : Mem) (w : WsOpen.World) (r : Request) (u : Yuarel.Url) (h : u.username = none ∨ u.password = none ∨
    (mem.basic = true ∧ mem.encode = true ∧ mem.basicText = true ∧ mem.basicPut = none)) :
    credentials mem w.base64 r u = WsOpen.urlCredentials w r u := by
  simp only [credentials, WsOpen.urlCredentials]
  cases hn : u.username with
  | none => rfl
  | some n =>
    cases hp : u.password with
    | none => rfl
    | some p =>
      obtain ⟨h1, h2, h3, h4⟩ : mem.basic = true ∧ mem.encode = true ∧ mem.basicText = true ∧ mem.basicPut = none := by simpa [hn, hp] using h
      simp only [h1, h2, h3, h4, Bool.and_self, if_true]
      cases w.base64 (n ++ b!":" ++ p) <;> rfl

/-- The bits say what was seen. -/
def Bits (s : OomOpen.Seen) : Prop := s.protocolBit = s.base.protocol.isSome ∧ s.extensionBit = s.base.extensions.isSome

theorem headerLine_full (f : Bytes → Bool) (i : Nat) (s : OomOpen.Seen) (l : Bytes) (hb : Bits s) :
    (OomOpen.headerLine {} i f s l = .ub ∧ Handshake.headerLine f s.base l = .ub) ∨
    ∃ s', OomOpen.headerLine {} i f s l = .ok s' ∧ Handshake.headerLine f s.base l = .ok s'.base ∧ Bits s' ∧ s'.base.broken = s.base.broken := by
  simp only [OomOpen.headerLine, Handshake.headerLine]
  rcases hc : Yuarel.cut 0x3a l with ⟨k, _ | v⟩
  · exact .inr ⟨s, rfl, rfl, hb, rfl⟩
  · simp only [if_true]
    cases hp : UMap.put s.base.headers (some k) (some v) none with
    | ub => left; exact ⟨rfl, rfl⟩
    | ok x =>
      right
      obtain ⟨rc, hs⟩ := x
      simp only [Res.ok_bind, Option.any_some]
      by_cases h1 : eqCase l b!"Upgrade: websocket" = true
      · simp only [h1, if_true]; exact ⟨_, rfl, rfl, hb, rfl⟩
      by_cases h2 : eqCase l b!"Connection: Upgrade" = true
      · simp only [h1, h2, if_true, Bool.false_eq_true, if_false]; exact ⟨_, rfl, rfl, hb, rfl⟩
      by_cases h3 : eqCase k b!"Sec-WebSocket-Protocol" = true
      · simp only [h1, h2, h3, if_true, Bool.false_eq_true, if_false]; exact ⟨_, rfl, rfl, ⟨rfl, hb.2⟩, rfl⟩
      by_cases h4 : eqCase k b!"Sec-WebSocket-Extensions" = true
      · simp only [h1, h2, h3, h4, if_true, Bool.false_eq_true, if_false]; exact ⟨_, rfl, rfl, ⟨hb.1, rfl⟩, rfl⟩
      by_cases h5 : (eqCase l b!"Sec-WebSocket-Accept" && f v) = true
      · simp only [h1, h2, h3, h4, h5, if_true, Bool.false_eq_true, if_false]; exact ⟨_, rfl, rfl, hb, rfl⟩
      · simp only [h1, h2, h3, h4, h5, Bool.false_eq_true, if_false]; exact ⟨_, rfl, rfl, hb, rfl⟩

theorem headerLoop_full (f : Bytes → Bool) (evs : List Ev) : ∀ (i : Nat) (s : OomOpen.Seen), Bits s →
    (OomOpen.headerLoop {} f i s (readLines evs).1 = .ub ∧ Handshake.headerLoop f s.base evs = .ub) ∨
    ∃ s' r, OomOpen.headerLoop {} f i s (readLines evs).1 = .ok s' ∧
      Handshake.headerLoop f s.base evs = .ok (if (readLines evs).2 then { s'.base with broken := true } else s'.base, r) ∧ Bits s' := by
  fun_induction readLines evs with
  | case1 evs r h =>
    intro i s hb
    right
    refine ⟨s, r, rfl, ?_, hb⟩
    rw [Handshake.headerLoop.eq_def]
    split
    · next l r' h' => rw [h] at h'; cases h'; simp
    · next r' h' => rw [h] at h'; cases h'
  | case2 evs line r h hl x ih =>
    intro i s hb
    have hstep : Handshake.headerLoop f s.base evs = (Handshake.headerLine f s.base line >>= fun s => Handshake.headerLoop f s r) := by
      rw [Handshake.headerLoop.eq_def]
      split
      · next l r' h' => rw [h] at h'; cases h'; simp [hl]
      · next r' h' => rw [h] at h'; cases h'
    rw [hstep]
    simp only [OomOpen.headerLoop]
    rcases headerLine_full f i s line hb with ⟨h1, h2⟩ | ⟨s', h1, h2, h3, h4⟩
    · left; rw [h1, h2]; exact ⟨rfl, rfl⟩
    · rw [h1, h2]
      simp only [Res.ok_bind]
      exact ih (i + 1) s' h3
  | case3 evs r h =>
    intro i s hb
    right
    refine ⟨s, r, rfl, ?_, hb⟩
    rw [Handshake.headerLoop.eq_def]
    split
    · next l r' h' => rw [h] at h'; cases h'
    · next r' h' => rw [h] at h'; cases h'; rfl

theorem headerLoop_mem (mem : Mem) (f : Bytes → Bool) (h : ∀ i, mem.key i = true ∧ mem.value i = true ∧ mem.copy i = true ∧ mem.put i = none) :
    ∀ (ls : List Bytes) (i : Nat) (s : OomOpen.Seen), OomOpen.headerLoop mem f i s ls = OomOpen.headerLoop {} f i s ls := by
  have hl : ∀ i s l, OomOpen.headerLine mem i f s l = OomOpen.headerLine {} i f s l := by
    intro i s l
    simp only [OomOpen.headerLine, h]
  intro ls
  induction ls with
  | nil => intro i s; rfl
  | cons a t ih =>
    intro i s
    simp only [OomOpen.headerLoop, hl]
    cases OomOpen.headerLine {} i f s a with
    | ub => rfl
    | ok s' => exact ih _ _

/-- A line of the reply with this name has this value. -/
def Named (ls : List Bytes) (name : Bytes) (v : Bytes) : Prop := ∃ k, k ++ 0x3a :: v ∈ ls ∧ eqCase k name = true

theorem headerLine_named (mem : Mem) (i : Nat) (f : Bytes → Bool) (s s' : OomOpen.Seen) (l : Bytes) (h : OomOpen.headerLine mem i f s l = .ok s') :
    (s'.base.protocol = none ∨ s'.base.protocol = s.base.protocol ∨
      ∃ k v, l = k ++ 0x3a :: v ∧ eqCase k b!"Sec-WebSocket-Protocol" = true ∧ s'.base.protocol = some v) ∧
    (s'.base.extensions = none ∨ s'.base.extensions = s.base.extensions ∨
      ∃ k v, l = k ++ 0x3a :: v ∧ eqCase k b!"Sec-WebSocket-Extensions" = true ∧ s'.base.extensions = some v) := by
  simp only [OomOpen.headerLine] at h
  rcases hc : Yuarel.cut 0x3a l with ⟨k, _ | v⟩
  · rw [hc] at h; cases h; exact ⟨.inr (.inl rfl), .inr (.inl rfl)⟩
  · rw [hc] at h
    have hl : l = k ++ 0x3a :: v := by
      have := Yuarel.cut_spec 0x3a l
      rw [hc] at this
      exact this.2.1 v rfl
    simp only [] at h
    have hvo : (if mem.copy i = true then (if mem.value i = true then some v else none) else none) = none ∨
        (if mem.copy i = true then (if mem.value i = true then some v else none) else none) = some v := by
      cases mem.copy i <;> cases mem.value i <;> simp
    have hko : ∀ p : Bytes → Bool, (if mem.key i = true then some k else none).any p = true → p k = true := by
      intro p
      cases mem.key i <;> simp
    generalize (if mem.copy i = true then (if mem.value i = true then some v else none) else none) = vo at h hvo
    generalize (if mem.key i = true then some k else none) = ko at h hko
    generalize (if mem.value i = true then some v else none) = va at h
    cases hp : UMap.put s.base.headers ko va (mem.put i) with
    | ub => rw [hp] at h; cases h
    | ok x =>
      rw [hp] at h
      simp only [Res.ok_bind] at h
      split at h
      · cases h; exact ⟨.inr (.inl rfl), .inr (.inl rfl)⟩
      split at h
      · cases h; exact ⟨.inr (.inl rfl), .inr (.inl rfl)⟩
      split at h
      · next hk =>
        cases h
        refine ⟨?_, .inr (.inl rfl)⟩
        rcases hvo with e | e
        · exact .inl e
        · exact .inr (.inr ⟨k, v, hl, hko _ hk, e⟩)
      split at h
      · next hk =>
        cases h
        refine ⟨.inr (.inl rfl), ?_⟩
        rcases hvo with e | e
        · exact .inl e
        · exact .inr (.inr ⟨k, v, hl, hko _ hk, e⟩)
      split at h
      · cases h; exact ⟨.inr (.inl rfl), .inr (.inl rfl)⟩
      · cases h; exact ⟨.inr (.inl rfl), .inr (.inl rfl)⟩

theorem headerLoop_named (mem : Mem) (f : Bytes → Bool) (all : List Bytes) : ∀ (ls : List Bytes) (i : Nat) (s s' : OomOpen.Seen), (∀ l ∈ ls, l ∈ all) →
    (∀ v, s.base.protocol = some v → Named all b!"Sec-WebSocket-Protocol" v) →
    (∀ v, s.base.extensions = some v → Named all b!"Sec-WebSocket-Extensions" v) → OomOpen.headerLoop mem f i s ls = .ok s' →
    (∀ v, s'.base.protocol = some v → Named all b!"Sec-WebSocket-Protocol" v) ∧
    (∀ v, s'.base.extensions = some v → Named all b!"Sec-WebSocket-Extensions" v) := by
  intro ls
  induction ls with
  | nil => intro i s s' _ hp he h; cases h; exact ⟨hp, he⟩
  | cons a t ih =>
    intro i s s' hm hp he h
    simp only [OomOpen.headerLoop] at h
    cases ha : OomOpen.headerLine mem i f s a with
    | ub => rw [ha] at h; cases h
    | ok s1 =>
      rw [ha] at h
      obtain ⟨n1, n2⟩ := headerLine_named mem i f s s1 a ha
      refine ih (i + 1) s1 s' (fun l hl => hm l (by simp [hl])) ?_ ?_ h
      · intro v hv
        rcases n1 with e | e | ⟨k, v', e1, e2, e3⟩
        · rw [e] at hv; cases hv
        · exact hp v (by rw [← e]; exact hv)
        · rw [e3] at hv; cases hv
          exact ⟨k, by rw [← e1]; exact hm a (by simp), e2⟩
      · intro v hv
        rcases n2 with e | e | ⟨k, v', e1, e2, e3⟩
        · rw [e] at hv; cases hv
        · exact he v (by rw [← e]; exact hv)
        · rw [e3] at hv; cases hv
          exact ⟨k, by rw [← e1]; exact hm a (by simp), e2⟩

/-- The handshake once the status line was read as 101. -/
def rest101 (mem : Mem) (acceptOk : Option Bytes → Bytes → Bool) (p : Reply) (r : Request) (u : Yuarel.Url) (es : List CliExt) : Res OomOpen.Out := do
  let ls ← requestLines r u
  let text := sendLines mem 0 ls ++ b!"\r\n"
  let keys ← UMap.enumKeys r.mapHeader
  let key ← header r.mapHeader b!"Sec-WebSocket-Key"
  let seen ← OomOpen.headerLoop mem (acceptOk key) 0 {} p.lines
  if !OomOpen.someBit keys seen then return { code := .error, sent := [text] }
  else
    let (es', rsv, ok) := negotiate mem seen.base.extensions es
    if ok then return { code := .ok, sent := [text], protocol := seen.base.protocol, enabled := es'.map CliExt.enabled, rsv := rsv,
                        headers := seen.base.headers, given := mem.request }
    else return { code := .error, sent := [text] }

theorem handshake_101 (mem : Mem) (acceptOk : Option Bytes → Bytes → Bool) (p : Reply) (r : Request) (u : Yuarel.Url) (es : List CliExt) (st : Int)
    (hm : mem.status = true) (h : p.first.bind statusLine = some 101) :
    OomOpen.handshake mem acceptOk (fun _ => p) r u es st = rest101 mem acceptOk p r u es := by
  simp only [OomOpen.handshake, rest101, hm, if_true, h, Option.isNone_some, Bool.false_or, Option.getD_some, bne_self_eq_false, Bool.or_false]
  rfl

end OomOpenAux
open OomOpenAux

/-- What `Model/WsOpen` says of the opening of a websocket, in terms of this model. -/
def openedAs (x : WsOpen.Code × List WsOpen.Step × Handshake.ClientResult) : OomOpen.Out :=
  let sent := x.2.1.filterMap (fun s => match s with | .send t => some t | _ => none)
  if x.1 = .ok then { code := .ok, sent := sent, protocol := x.2.2.seen.protocol, enabled := x.2.2.exts.map CliExt.enabled, rsv := x.2.2.rsv,
                      headers := x.2.2.seen.headers, given := true }
  else { code := x.1, sent := sent }


/-- **C192.** With memory for all of it the opening is that of `Model/WsOpen`, the subject of C120–C126 and C54. -/
theorem C192_enough (w : WsOpen.World) (fresh : Bool) (r : Request) (u : Yuarel.Url) (es : List CliExt) (st : Int) :
    OomOpen.openClient {} w.base64 w.acceptOk (fun t => readReply (w.replies t)) fresh r u es st =
      (WsOpen.urlCredentials w r u >>= fun r => WsOpen.connectionHandshake w r u es st >>= fun x => Res.ok (openedAs x)) := by
  simp only [OomOpen.openClient, if_true, Bool.and_self, Bool.not_true, Bool.and_false, Bool.false_eq_true, if_false]
  rw [credentials_full {} w r u (.inr (.inr ⟨rfl, rfl, rfl, rfl⟩))]
  cases WsOpen.urlCredentials w r u with
  | ub => rfl
  | ok r =>
    simp only [Res.ok_bind, WsOpen.connectionHandshake, OomOpen.handshake, requestLines_flat]
    cases requestLines r u with
    | ub => rfl
    | ok ls =>
      simp only [Res.ok_bind, sendLines_all {} (fun _ => rfl)]
      cases UMap.enumKeys r.mapHeader with
      | ub => rfl
      | ok keys =>
        simp only [Res.ok_bind]
        cases header r.mapHeader b!"Sec-WebSocket-Key" with
        | ub => rfl
        | ok key =>
          simp only [Res.ok_bind, clientHandshake, readReply, if_true]
          generalize w.replies (ls.flatten ++ b!"\r\n") = evs
          rcases hn : nextLine [] evs with ⟨line, rest⟩
          simp only []
          generalize hh : line.bind statusLine = http
          have hsome : ∀ s : OomOpen.Seen, Bits s → ∀ b : Bool, Handshake.someBit keys (if b then { s.base with broken := true } else s.base) =
              OomOpen.someBit keys s := by
            intro s hb b
            cases b <;> simp [Handshake.someBit, OomOpen.someBit, hb.1, hb.2]
          by_cases h101 : http = some 101
          · subst h101
            simp only [if_true, Option.getD_some, Option.isNone_some, Bool.false_or]
            rcases headerLoop_full (w.acceptOk key) rest 0 {} ⟨rfl, rfl⟩ with ⟨h1, h2⟩ | ⟨s', r', h1, h2, h3⟩
            · rw [h1, h2]; rfl
            · rw [h1, h2]
              simp only [Res.ok_bind, hsome s' h3]
              cases hs : OomOpen.someBit keys s' with
              | false => simp [openedAs, Res.ok_bind, pure]
              | true =>
                have he : (if (readLines rest).2 = true then { s'.base with broken := true } else s'.base).extensions = s'.base.extensions := by
                  split <;> rfl
                have hp : (if (readLines rest).2 = true then { s'.base with broken := true } else s'.base).protocol = s'.base.protocol := by
                  split <;> rfl
                have hm : (if (readLines rest).2 = true then { s'.base with broken := true } else s'.base).headers = s'.base.headers := by
                  split <;> rfl
                have hneg : negotiate {} s'.base.extensions es = cliNegotiate s'.base.extensions es := by
                  cases s'.base.extensions <;> simp [negotiate, cliNegotiate]
                rw [hneg, he]
                rcases cliNegotiate s'.base.extensions es with ⟨es', rsv, ok⟩
                cases ok <;> cases hbk : (readLines rest).2 <;> simp [openedAs, Res.ok_bind, pure]
          · simp only [h101, if_false, Res.ok_bind]
            have : (http.isNone || !OomOpen.someBit keys {} || http.getD st != 101) = true := by
              simp [OomOpen.someBit]
            have h2 : (http.isNone || !Handshake.someBit keys {} || http.getD st != 101) = true := by
              simp [Handshake.someBit]
            rw [if_pos this, if_pos h2]
            by_cases h4 : 400 ≤ http.getD st ∧ http.getD st ≤ 499 <;> simp [openedAs, Res.ok_bind, pure, h4]

/-- **C192, partial.** When the URL, the websocket, the list of outgoing messages, or the pieces of the status line or of the extensions find no memory: the
websocket is opened just as with enough memory, or the call returns an error. Missing: the failures for which it is false, below. -/
theorem C192_same_or_error_partial (mem : Mem) (base64 : Bytes → Option Bytes) (acceptOk : Option Bytes → Bytes → Bool) (reply : Bytes → Reply)
    (fresh : Bool) (r : Request) (u : Yuarel.Url) (es : List CliExt) (st : Int)
    (hl : ∀ i, mem.line i = true) (hr : mem.request = true)
    (hk : ∀ i, mem.key i = true ∧ mem.value i = true ∧ mem.copy i = true ∧ mem.put i = none)
    (hc : u.username = none ∨ u.password = none ∨ (mem.basic = true ∧ mem.encode = true ∧ mem.basicText = true ∧ mem.basicPut = none))
    (hi : fresh = true → mem.incoming = true) (o : OomOpen.Out)
    (h : OomOpen.openClient {} base64 acceptOk reply fresh r u es st = .ok o) :
    ∃ o', OomOpen.openClient mem base64 acceptOk reply fresh r u es st = .ok o' ∧ (o' = o ∨ o'.code ≠ .ok) := by
  have hcred : ∀ m : Mem, (u.username = none ∨ u.password = none ∨ (m.basic = true ∧ m.encode = true ∧ m.basicText = true ∧ m.basicPut = none)) →
      credentials m base64 r u = WsOpen.urlCredentials { base64 := base64 } r u := fun m hm => credentials_full m { base64 := base64 } r u hm
  simp only [OomOpen.openClient, if_true, Bool.and_self, Bool.not_true, Bool.and_false, Bool.false_eq_true, if_false] at h ⊢
  rw [hcred {} (.inr (.inr ⟨rfl, rfl, rfl, rfl⟩))] at h
  cases hu : mem.url with
  | false => exact ⟨_, rfl, .inr (by simp)⟩
  | true =>
    simp only [if_true]
    rw [hcred mem hc]
    cases hx : WsOpen.urlCredentials { base64 := base64 } r u with
    | ub => rw [hx] at h; cases h
    | ok r =>
      rw [hx] at h
      simp only [Res.ok_bind] at h ⊢
      by_cases h1 : (fresh && !(mem.websocket && mem.manager)) = true
      · rw [if_pos h1]; exact ⟨_, rfl, .inr (by simp)⟩
      rw [if_neg h1]
      have h2 : ¬ (fresh && !mem.incoming) = true := by
        cases fresh with
        | false => simp
        | true => simp [hi rfl]
      rw [if_neg h2]
      by_cases h3 : (fresh && !mem.outcoming) = true
      · rw [if_pos h3]; exact ⟨_, rfl, .inr (by simp)⟩
      rw [if_neg h3]
      simp only [OomOpen.handshake] at h ⊢
      cases hq : requestLines r u with
      | ub => rw [hq] at h; cases h
      | ok ls =>
        rw [hq] at h
        simp only [Res.ok_bind, sendLines_all {} (fun _ => rfl), sendLines_all mem hl] at h ⊢
        cases hkeys : UMap.enumKeys r.mapHeader with
        | ub => rw [hkeys] at h; cases h
        | ok keys =>
          rw [hkeys] at h
          simp only [Res.ok_bind] at h ⊢
          cases hkey : header r.mapHeader b!"Sec-WebSocket-Key" with
          | ub => rw [hkey] at h; cases h
          | ok key =>
            rw [hkey] at h
            simp only [Res.ok_bind, if_true, headerLoop_mem mem _ hk] at h ⊢
            cases hst : mem.status with
            | false =>
              refine ⟨_, rfl, .inr ?_⟩
              simp only [Bool.false_eq_true, if_false]
              split <;> simp
            | true =>
              simp only [if_true] at h ⊢
              generalize hh : (reply (ls.flatten ++ b!"\r\n")).first.bind statusLine = http at h ⊢
              by_cases h101 : http = some 101
              · subst h101
                simp only [if_true] at h ⊢
                generalize hseen : OomOpen.headerLoop {} (acceptOk key) 0 {} (reply (ls.flatten ++ b!"\r\n")).lines = seen at h ⊢
                cases seen with
                | ub => cases h
                | ok s =>
                  simp only [Res.ok_bind] at h ⊢
                  split at h
                  · next hb => rw [if_pos hb]; exact ⟨_, rfl, .inl (Res.ok.inj h)⟩
                  · next hb =>
                    rw [if_neg hb]
                    cases hsp : mem.split with
                    | true =>
                      have hneg : negotiate mem s.base.extensions es = negotiate {} s.base.extensions es := by
                        cases s.base.extensions <;> simp [negotiate, hsp]
                      rw [hneg, hr]
                      exact ⟨o, h, .inl rfl⟩
                    | false =>
                      cases he : s.base.extensions with
                      | none =>
                        rw [he] at h
                        simp only [negotiate, hr] at h ⊢
                        exact ⟨o, h, .inl rfl⟩
                      | some a =>
                        rw [he] at h
                        simp only [negotiate, hsp, hr] at h ⊢
                        by_cases hz : a = [] ∨ es = []
                        · rw [if_pos hz] at h ⊢; exact ⟨o, h, .inl rfl⟩
                        · rw [if_neg hz]; exact ⟨_, rfl, .inr (by simp)⟩
              · simp only [h101, if_false] at h ⊢
                have hb : (http.isNone || !OomOpen.someBit keys {} || http.getD st != 101) = true := by
                  simp [OomOpen.someBit]
                rw [if_pos hb] at h ⊢
                exact ⟨_, rfl, .inl (Res.ok.inj h)⟩


/-- **C192.** Whatever fails, an open websocket is one the server agreed to: it answered 101 to what was sent, the sub-protocol is none or the one of a line
of the answer, and the extensions in use are none but those enabled before, or just those a line of the answer names. -/
theorem C192_agreed (mem : Mem) (base64 : Bytes → Option Bytes) (acceptOk : Option Bytes → Bytes → Bool) (reply : Bytes → Reply)
    (fresh : Bool) (r : Request) (u : Yuarel.Url) (es : List CliExt) (st : Int) (o : OomOpen.Out)
    (h : OomOpen.openClient mem base64 acceptOk reply fresh r u es st = .ok o) (hok : o.code = .ok) :
    ∃ text l, o.sent = [text] ∧ (reply text).first = some l ∧ statusLine l = some 101 ∧
      (∀ v, o.protocol = some v → Named (reply text).lines b!"Sec-WebSocket-Protocol" v) ∧
      ((o.enabled = es.map CliExt.enabled ∧ o.rsv = 0) ∨
        ∃ v es', Named (reply text).lines b!"Sec-WebSocket-Extensions" v ∧ cliItems 0 (splitString 0x2c v) es 0 = (es', o.rsv, true) ∧
          o.enabled = es'.map CliExt.enabled) := by
  simp only [OomOpen.openClient] at h
  split at h
  rotate_left
  · cases h; simp at hok
  cases hx : credentials mem base64 r u with
  | ub => rw [hx] at h; cases h
  | ok r =>
    rw [hx] at h
    simp only [Res.ok_bind] at h
    split at h
    · cases h; simp at hok
    split at h
    · cases h
    split at h
    · cases h; simp at hok
    simp only [OomOpen.handshake] at h
    cases hq : requestLines r u with
    | ub => rw [hq] at h; cases h
    | ok ls =>
      rw [hq] at h
      simp only [Res.ok_bind] at h
      generalize ht : sendLines mem 0 ls ++ b!"\r\n" = text at h
      cases hkeys : UMap.enumKeys r.mapHeader with
      | ub => rw [hkeys] at h; cases h
      | ok keys =>
        rw [hkeys] at h
        simp only [Res.ok_bind] at h
        cases hkey : header r.mapHeader b!"Sec-WebSocket-Key" with
        | ub => rw [hkey] at h; cases h
        | ok key =>
          rw [hkey] at h
          simp only [Res.ok_bind] at h
          generalize hh : (if mem.status = true then (reply text).first.bind statusLine else none) = http at h
          by_cases h101 : http = some 101
          · subst h101
            have hfirst : ∃ l, (reply text).first = some l ∧ statusLine l = some 101 := by
              split at hh
              · exact Option.bind_eq_some_iff.1 hh
              · cases hh
            obtain ⟨l, hl, hsl⟩ := hfirst
            simp only [if_true] at h
            cases hs : OomOpen.headerLoop mem (acceptOk key) 0 {} (reply text).lines with
            | ub => rw [hs] at h; cases h
            | ok s =>
              rw [hs] at h
              obtain ⟨n1, n2⟩ := headerLoop_named mem (acceptOk key) (reply text).lines _ 0 {} s (fun _ h => h) (by simp) (by simp) hs
              simp only [Res.ok_bind] at h
              split at h
              · cases h; simp at hok
              split at h
              rotate_left
              · cases h; simp at hok
              · next hneg =>
                cases h
                refine ⟨text, l, rfl, hl, hsl, n1, ?_⟩
                simp only []
                cases he : s.base.extensions with
                | none => left; simp [negotiate]
                | some v =>
                  rw [he] at hneg
                  simp only [negotiate] at hneg ⊢
                  by_cases hz : v = [] ∨ es = []
                  · left; simp [hz]
                  · rw [if_neg hz] at hneg ⊢
                    cases hsp : mem.split with
                    | false => simp [hsp] at hneg
                    | true =>
                      simp only [hsp, if_true] at hneg ⊢
                      right
                      exact ⟨v, _, n2 v he, by rw [← hneg], rfl⟩
          · simp only [h101, if_false] at h
            have hb : (http.isNone || !OomOpen.someBit keys {} || http.getD st != 101) = true := by
              simp [OomOpen.someBit]
            rw [if_pos hb] at h
            cases h
            simp only [] at hok
            split at hok <;> cases hok

/-- A request to `ws://me:secret@h/chat`. -/
def chatUrl : Yuarel.Url := { scheme := some b!"ws", username := some b!"me", password := some b!"secret", host := some b!"h", port := 80, path := some b!"chat" }
/-- Headers. -/
def chatMap : UMap := match UMap.put UMap.init (some b!"Sec-WebSocket-Protocol") (some b!"chat") with | .ok x => x.2 | .ub => UMap.init
/-- The request of the application. -/
def chatRequest : Request := { verb := some b!"GET", protocol := some b!"1.1", mapHeader := chatMap }
/-- A server that agrees to the sub-protocol and to the extension `x`. -/
def chatReply : Reply := ⟨some b!"HTTP/1.1 101 Switching Protocols", [b!"Upgrade: websocket", b!"Sec-WebSocket-Protocol:chat", b!"Sec-WebSocket-Extensions:x"], false⟩
/-- The opening, with the base64 text of the credentials. -/
def chatOpen (mem : Mem) (es : List CliExt) : Res OomOpen.Out :=
  OomOpen.openClient mem (fun _ => some b!"bWU6c2VjcmV0") (fun _ _ => true) (fun _ => chatReply) true chatRequest chatUrl es 0

private theorem status101 : chatReply.first.bind statusLine = some 101 := by
  simp only [chatReply, Option.bind_some, statusLine, Handshake.splitString_eq]
  decide +kernel

private theorem chatOpen_eq (mem : Mem) (es : List CliExt) (h : mem.status = true) : chatOpen mem es =
    (if mem.url then
      credentials mem (fun _ => some b!"bWU6c2VjcmV0") chatRequest chatUrl >>= fun r =>
      if !(mem.websocket && mem.manager) then Res.ok { code := .memory }
      else if !mem.incoming then Res.ub
      else if !mem.outcoming then Res.ok { code := .memory }
      else rest101 mem (fun _ _ => true) chatReply r chatUrl es
    else Res.ok { code := .params }) := by
  simp only [chatOpen, OomOpen.openClient, handshake_101 _ _ _ _ _ _ _ h status101, Bool.true_and]
  rfl

/-- **C192, false.** Without memory for the text of the credentials, or for their header or its line, the websocket is opened without them; when the map of the
headers cannot grow the call ends in undefined behaviour. -/
theorem C192_credentials_false :
    (∃ o, chatOpen {} [] = .ok o ∧ o.code = .ok ∧ o.sent =
      [b!"GET /chat HTTP/1.1\r\nHost: h:80\r\nUpgrade: websocket\r\nConnection: Upgrade\r\nSec-WebSocket-Protocol: chat\r\nAuthorization: Basic: bWU6c2VjcmV0\r\n\r\n"]) ∧
    (∃ o, chatOpen { basic := false } [] = .ok o ∧ o.code = .ok ∧ o.sent =
      [b!"GET /chat HTTP/1.1\r\nHost: h:80\r\nUpgrade: websocket\r\nConnection: Upgrade\r\nSec-WebSocket-Protocol: chat\r\n\r\n"]) ∧
    (∃ o, chatOpen { encode := false } [] = .ok o ∧ o.code = .ok ∧ o.sent =
      [b!"GET /chat HTTP/1.1\r\nHost: h:80\r\nUpgrade: websocket\r\nConnection: Upgrade\r\nSec-WebSocket-Protocol: chat\r\n\r\n"]) ∧
    (∃ o, chatOpen { basicText := false } [] = .ok o ∧ o.code = .ok ∧ o.sent =
      [b!"GET /chat HTTP/1.1\r\nHost: h:80\r\nUpgrade: websocket\r\nConnection: Upgrade\r\nSec-WebSocket-Protocol: chat\r\nAuthorization: \r\n\r\n"]) ∧
    chatOpen { basicPut := some 2 } [] = .ub := by
  refine ⟨?_, ?_, ?_, ?_, ?_⟩
  · rw [chatOpen_eq _ _ rfl]; exact ⟨_, by rfl, by decide +kernel, by decide +kernel⟩
  · rw [chatOpen_eq _ _ rfl]; exact ⟨_, by rfl, by decide +kernel, by decide +kernel⟩
  · rw [chatOpen_eq _ _ rfl]; exact ⟨_, by rfl, by decide +kernel, by decide +kernel⟩
  · rw [chatOpen_eq _ _ rfl]; exact ⟨_, by rfl, by decide +kernel, by decide +kernel⟩
  · rw [chatOpen_eq _ _ rfl]; rfl

/-- **C192, false.** A line of the request that finds no memory is left out: the request line, the line of the host, or the credentials. -/
theorem C192_line_false :
    (∃ o, chatOpen { line := fun i => i != 0 } [] = .ok o ∧ o.code = .ok ∧ o.sent =
      [b!"Host: h:80\r\nUpgrade: websocket\r\nConnection: Upgrade\r\nSec-WebSocket-Protocol: chat\r\nAuthorization: Basic: bWU6c2VjcmV0\r\n\r\n"]) ∧
    (∃ o, chatOpen { line := fun i => i != 1 && i != 5 } [] = .ok o ∧ o.code = .ok ∧ o.sent =
      [b!"GET /chat HTTP/1.1\r\nUpgrade: websocket\r\nConnection: Upgrade\r\nSec-WebSocket-Protocol: chat\r\n\r\n"]) := by
  refine ⟨?_, ?_⟩
  · rw [chatOpen_eq _ _ rfl]; exact ⟨_, by rfl, by decide +kernel, by decide +kernel⟩
  · rw [chatOpen_eq _ _ rfl]; exact ⟨_, by rfl, by decide +kernel, by decide +kernel⟩

/-- **C192, false.** The server agreed to a sub-protocol, and the client finds no memory for its name: the websocket is opened and has none. So it is when the
name of the line or the first copy of the value finds no memory. -/
theorem C192_protocol_false :
    (∃ o, chatOpen {} [] = .ok o ∧ o.code = .ok ∧ o.protocol = some b!"chat") ∧
    (∃ o, chatOpen { copy := fun i => i != 1 } [] = .ok o ∧ o.code = .ok ∧ o.protocol = none) ∧
    (∃ o, chatOpen { key := fun i => i != 1 } [] = .ok o ∧ o.code = .ok ∧ o.protocol = none) ∧
    (∃ o, chatOpen { value := fun i => i != 1 } [] = .ok o ∧ o.code = .ok ∧ o.protocol = none) := by
  refine ⟨?_, ?_, ?_, ?_⟩
  · rw [chatOpen_eq _ _ rfl]; exact ⟨_, by rfl, by decide +kernel, by decide +kernel⟩
  · rw [chatOpen_eq _ _ rfl]; exact ⟨_, by rfl, by decide +kernel, by decide +kernel⟩
  · rw [chatOpen_eq _ _ rfl]; exact ⟨_, by rfl, by decide +kernel, by decide +kernel⟩
  · rw [chatOpen_eq _ _ rfl]; exact ⟨_, by rfl, by decide +kernel, by decide +kernel⟩

/-- **C192, false.** The server agreed to the extension `x` and will use it, and the client, which finds no memory for the answer, opens the websocket
without it. -/
theorem C192_extension_false :
    (∃ o, chatOpen {} [{ rsv := 0x40, client := some b!"x" }] = .ok o ∧ o.code = .ok ∧ o.enabled = [true] ∧ o.rsv = 0x40) ∧
    (∃ o, chatOpen { copy := fun i => i != 2 } [{ rsv := 0x40, client := some b!"x" }] = .ok o ∧ o.code = .ok ∧ o.enabled = [false] ∧ o.rsv = 0) ∧
    (∃ o, chatOpen { split := false } [{ rsv := 0x40, client := some b!"x" }] = .ok o ∧ o.code = .error) := by
  refine ⟨?_, ?_, ?_⟩
  · have hs : splitString 0x2c b!"x" = [b!"x"] := by rw [Handshake.splitString_eq]; decide +kernel
    have hn : negotiate {} (some b!"x") [{ rsv := 0x40, client := some b!"x" }] =
        ([{ rsv := 0x40, client := some b!"x", server := some b!"x", enabled := true }], 0x40, true) := by
      simp only [negotiate, hs]; rfl
    rw [chatOpen_eq _ _ rfl]
    refine ⟨⟨.ok, [sendLines {} 0 (match requestLines { chatRequest with mapHeader := (match UMap.put chatMap (some b!"Authorization")
      (some b!"Basic: bWU6c2VjcmV0") with | .ok x => x.2 | .ub => UMap.init) } chatUrl with | .ok ls => ls | .ub => []) ++ b!"\r\n"], some b!"chat", [true], 0x40,
      (match OomOpen.headerLoop {} (fun _ => true) 0 {} chatReply.lines with | .ok s => s.base.headers | .ub => UMap.init), true⟩, ?_, rfl, rfl, rfl⟩
    show ((match negotiate {} (some b!"x") [{ rsv := 0x40, client := some b!"x" }] with
      | (es', rsv, ok) => if ok = true then Res.ok (⟨.ok, _, some b!"chat", es'.map CliExt.enabled, rsv, _, true⟩ : OomOpen.Out) else Res.ok ⟨.error, _, none, [], 0, UMap.init, false⟩) = _)
    rw [hn]
    rfl
  · rw [chatOpen_eq _ _ rfl]; exact ⟨_, by rfl, by decide +kernel, by decide +kernel, by decide +kernel⟩
  · rw [chatOpen_eq _ _ rfl]; exact ⟨_, by rfl, by decide +kernel⟩

/-- **C192, false.** The callbacks of an open websocket are given NULL for the request when it cannot be copied. -/
theorem C192_request_false :
    (∃ o, chatOpen {} [] = .ok o ∧ o.code = .ok ∧ o.given = true) ∧ (∃ o, chatOpen { request := false } [] = .ok o ∧ o.code = .ok ∧ o.given = false) := by
  refine ⟨?_, ?_⟩
  · rw [chatOpen_eq _ _ rfl]; exact ⟨_, by rfl, by decide +kernel, by decide +kernel⟩
  · rw [chatOpen_eq _ _ rfl]; exact ⟨_, by rfl, by decide +kernel, by decide +kernel⟩

/-- **C192, false.** A header of the reply that finds no memory is not shown to the caller; when the map cannot grow the next line ends in undefined
behaviour. -/
theorem C192_response_false :
    (∃ o o', chatOpen {} [] = .ok o ∧ chatOpen { put := fun i => if i = 1 then some 0 else none } [] = .ok o' ∧ o'.code = .ok ∧
      UMap.enumKeys o.headers = .ok [b!"Upgrade", b!"Sec-WebSocket-Protocol", b!"Sec-WebSocket-Extensions"] ∧
      UMap.enumKeys o'.headers = .ok [b!"Upgrade", b!"Sec-WebSocket-Extensions"]) ∧
    chatOpen { put := fun i => if i = 1 then some 2 else none } [] = .ub := by
  refine ⟨?_, ?_⟩
  · rw [chatOpen_eq _ _ rfl, chatOpen_eq _ _ rfl]
    exact ⟨_, _, by rfl, by rfl, by decide +kernel, by decide +kernel, by decide +kernel⟩
  · rw [chatOpen_eq _ _ rfl]; rfl

/-- **C192, false.** Without memory for the list of incoming messages a pointer that was not set is freed. -/
theorem C192_lists_false : chatOpen { incoming := false } [] = .ub := by
  rw [chatOpen_eq _ _ rfl]; rfl

/-- The hypotheses of `C192_same_or_error_partial` leave failures: the errors of the theorem. -/
example : (∃ o, chatOpen { url := false } [] = .ok o ∧ o.code = .params) ∧ (∃ o, chatOpen { manager := false } [] = .ok o ∧ o.code = .memory) ∧
    (∃ o, chatOpen { outcoming := false } [] = .ok o ∧ o.code = .memory) ∧ (∃ o, chatOpen {} [] = .ok o ∧ o.code = .ok) := by
  refine ⟨?_, ?_, ?_, ?_⟩
  · rw [chatOpen_eq _ _ rfl]; exact ⟨_, by rfl, by decide +kernel⟩
  · rw [chatOpen_eq _ _ rfl]; exact ⟨_, by rfl, by decide +kernel⟩
  · rw [chatOpen_eq _ _ rfl]; exact ⟨_, by rfl, by decide +kernel⟩
  · rw [chatOpen_eq _ _ rfl]; exact ⟨_, by rfl, by decide +kernel⟩

end Verif.Props
