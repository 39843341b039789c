import Verif.Model.WsOpen
import Verif.Spec.WsOpen
import Verif.Lemmas.Handshake
import Verif.Lemmas.Options
import Verif.Props.Export
/-! # Lemmas about opening a websocket as a client -/
namespace Verif.WsOpen
open Verif.UMap Verif.Ws Verif.Client Verif.Printf Verif.Handshake Verif.Props
open Verif.Message (Request)
open Verif.Spec.Client (sameName)
open Verif.Spec.UrlParts Verif.Spec.WsOpen

theorem same_name (a b : Bytes) : eqCase a b = true ↔ sameName a b := by simp [eqCase, fold, sameName]

/-! ## The answer is always read without undefined behaviour -/

theorem nextLine_short (acc : Bytes) (evs : List Ev) (l : Bytes) (r : List Ev) (h : nextLine acc evs = (some l, r))
    (ha : acc.length ≤ bufferLen) : l.length ≤ bufferLen := by
  fun_induction nextLine acc evs with
  | case1 acc evs c r' h1 h2 =>
    simp only [Prod.mk.injEq] at h
    obtain ⟨h, -⟩ := h
    split at h
    · injection h with h
      rw [← h]
      have : (cstr acc.dropLast).length ≤ acc.dropLast.length := (List.takeWhile_sublist _).length_le
      rw [List.length_dropLast] at this
      omega
    · cases h
  | case2 acc evs c r' h1 h2 h3 ih => exact ih h (by simp; omega)
  | case3 acc evs c r' h1 h2 h3 => cases h
  | case4 acc evs h1 => cases h

theorem headerLoop_total (f : Bytes → Bool) : ∀ (n : Nat) (s : Seen) (es : List Ent) (evs : List Ev), size evs ≤ n → s.headers = rep es → Good es →
    ∃ s' r, headerLoop f s evs = .ok (s', r) := by
  intro n
  induction n with
  | zero =>
    intro s es evs hn hs hg
    rcases hl : nextLine [] evs with ⟨_ | l, r⟩
    · exact ⟨_, _, headerLoop_end f s evs r hl⟩
    · have := nextLine_size _ _ _ _ hl; omega
  | succ n ih =>
    intro s es evs hn hs hg
    rcases hl : nextLine [] evs with ⟨_ | l, r⟩
    · exact ⟨_, _, headerLoop_end f s evs r hl⟩
    · have h1 := nextLine_size _ _ _ _ hl
      have h2 := nextLine_short _ _ _ _ hl (by simp)
      rw [headerLoop_line f s evs r l hl]
      by_cases he : l = []
      · rw [if_pos he]; exact ⟨_, _, rfl⟩
      · rw [if_neg he]
        obtain ⟨s', es', e1, e2, e3, -⟩ := headerLine_mark f s l es hs hg (by unfold bufferLen at h2; omega)
        rw [e1, Res.ok_bind]
        exact ih s' es' r (by omega) e2 e3

theorem clientHandshake_total (f : Bytes → Bool) (keys : List Bytes) (es : List CliExt) (st : Int) (evs : List Ev) :
    ∃ c, clientHandshake f keys es st evs = .ok c := by
  unfold clientHandshake
  rcases nextLine [] evs with ⟨line, r⟩
  simp only
  by_cases hb : line.bind statusLine = some 101
  · obtain ⟨s, r', h⟩ := headerLoop_total f _ {} [] r (Nat.le_refl _) rfl good_nil
    rw [if_pos hb, h, Res.ok_bind]
    simp only
    split <;> exact ⟨_, rfl⟩
  · rw [if_neg hb, Res.ok_bind]
    simp only
    split <;> exact ⟨_, rfl⟩

/-- A refused handshake closes the connection, unless the extensions could not be agreed on. -/
theorem clientHandshake_closed (f : Bytes → Bool) (keys : List Bytes) (st : Int) (evs : List Ev) (c : ClientResult)
    (h : clientHandshake f keys [] st evs = .ok c) (hc : c.ok = false) : c.isOpen = false := by
  unfold clientHandshake at h
  generalize nextLine [] evs = q at h
  obtain ⟨line, r⟩ := q
  simp only at h
  have hn : ∀ x, (cliNegotiate x []).2.2 = true := by intro x; cases x <;> simp [cliNegotiate]
  by_cases hb : line.bind statusLine = some 101
  · rw [if_pos hb] at h
    cases h1 : headerLoop f {} r with
    | ub => rw [h1] at h; cases h
    | ok p =>
      rw [h1, Res.ok_bind] at h
      split at h
      · cases h; rfl
      · cases h
        rw [hn] at hc; cases hc
  · rw [if_neg hb, Res.ok_bind] at h
    simp only at h
    split at h
    · cases h; rfl
    · cases h
      rw [hn] at hc; cases hc

/-! ## The request -/

/-- The value shown for a name. -/
def shown (hs : List (Bytes × Option Bytes)) (k : Bytes) : Option Bytes := (hs.find? (fun p => eqCase p.1 k)).map (fun p => p.2.getD [])

theorem header_shown {m : UMap} {hs : List (Bytes × Option Bytes)} (h : HoldsParams m hs) (k : Bytes) : header m k = .ok (shown hs k) := by
  have := (holds_case h k).2
  unfold header shown
  cases hf : hs.find? (fun p => eqCase p.1 k) with
  | none => rw [hf] at this; simp only at this; rw [this]; rfl
  | some p =>
    rw [hf] at this
    obtain ⟨b, h1, h2⟩ := this
    rw [h1, Res.ok_bind]
    simp only [h2, Res.ok_bind]
    rfl

theorem requestHeaders_eq {m : UMap} {hs : List (Bytes × Option Bytes)} (h : HoldsParams m hs) (ks : List Bytes) :
    requestHeaders m ks = .ok (ks.map (fun k => k ++ b!": " ++ str (shown hs k) ++ b!"\r\n")).flatten := by
  induction ks with
  | nil => rfl
  | cons k t ih =>
    unfold requestHeaders
    rw [header_shown h, Res.ok_bind, ih, Res.ok_bind]
    simp

/-- The line for the origin. -/
def originText : Option Bytes → Bytes
  | some o => b!"Origin: " ++ o ++ b!"\r\n"
  | none => []

/-- The text sent. -/
def openText (verb protocol : Option Bytes) (host : Bytes) (port : Nat) (path query origin : Option Bytes)
    (hs : List (Bytes × Option Bytes)) : Bytes :=
  (str verb ++ b!" /" ++ path.getD [] ++ opt 0x3f query ++ b!" HTTP/" ++ str protocol ++ b!"\r\n") ++
  (b!"Host: " ++ (host ++ b!":" ++ decimal port) ++ b!"\r\n") ++ b!"Upgrade: websocket\r\n" ++ b!"Connection: Upgrade\r\n" ++
  originText origin ++
  (hs.map (fun p => p.1 ++ b!": " ++ str (shown hs p.1) ++ b!"\r\n")).flatten ++ b!"\r\n"

theorem handshakeRequest_eq {mh mu : UMap} {hs us : List (Bytes × Option Bytes)} (hh : HoldsParams mh hs) (hu : HoldsParams mu us)
    (verb protocol : Option Bytes) (u : Yuarel.Url) (host : Bytes) (port : Nat) (h1 : u.host = some host) (h2 : u.port = port) (h3 : port ≠ 0) :
    handshakeRequest verb protocol mu mh u = .ok (openText verb protocol host port u.path u.query (shown us b!"Origin") hs) := by
  unfold handshakeRequest openText
  rw [header_shown hu, Res.ok_bind, hh.2.1, h1, h2]
  rw [if_pos (by simpa using h3)]
  have hd : decimalInt (port : Int) = decimal port := rfl
  rw [hd]
  cases u.query <;> cases shown us b!"Origin" <;>
    simp [opt, originText, Res.ok_bind, requestHeaders_eq hh, Res.pure_eq, List.map_map, Function.comp_def, str]

/-- Headers after the credentials of the URL were added. -/
def withCredentials (base64 : Bytes → Option Bytes) (cred : Option (Bytes × Bytes)) (hs : List (Bytes × Option Bytes)) :
    List (Bytes × Option Bytes) :=
  match cred with
  | none => hs
  | some (n, p) =>
    match base64 (n ++ b!":" ++ p) with
    | none => hs
    | some t => hs.filter (fun q => !(q.1 == b!"Authorization")) ++ [(b!"Authorization", some (b!"Basic: " ++ t))]

theorem urlCredentials_eq (w : World) (r : Request) (u : Yuarel.Url) (cred : Option (Bytes × Bytes)) (hs : List (Bytes × Option Bytes))
    (h1 : u.username = cred.map (·.1)) (h2 : u.password = cred.map (·.2)) (hh : HoldsParams r.mapHeader hs)
    (hb : ∀ x t, w.base64 x = some t → NoNul t ∧ t.length + 16 < 2 ^ 64) :
    ∃ m, urlCredentials w r u = .ok { r with mapHeader := m } ∧ HoldsParams m (withCredentials w.base64 cred hs) := by
  unfold urlCredentials withCredentials
  rw [h1, h2]
  cases cred with
  | none => exact ⟨r.mapHeader, rfl, hh⟩
  | some c =>
    obtain ⟨n, p⟩ := c
    simp only [Option.map_some]
    cases ht : w.base64 (n ++ b!":" ++ p) with
    | none => exact ⟨r.mapHeader, rfl, hh⟩
    | some t =>
      simp only
      obtain ⟨m1, e1, e2, -⟩ := holds_remove hh b!"Authorization"
      rw [e1, Res.ok_bind]
      have hbt := hb _ _ ht
      obtain ⟨m2, e3, e4⟩ := holds_put e2 b!"Authorization" (some (b!"Basic: " ++ t)) (by decide) (by decide) (by
        intro x hx
        cases hx
        refine ⟨?_, by simp; omega⟩
        intro hm
        rcases List.mem_append.1 hm with hm | hm
        · revert hm; decide
        · exact hbt.1 hm)
      simp only
      rw [e3, Res.ok_bind]
      refine ⟨m2, rfl, ?_⟩
      have he : Spec.OMap.put (Spec.OMap.step hs (.removeKey b!"Authorization")).2 b!"Authorization" (some (b!"Basic: " ++ t)) =
          hs.filter (fun q => !(q.1 == b!"Authorization")) ++ [(b!"Authorization", some (b!"Basic: " ++ t))] := by
        unfold Spec.OMap.put
        rw [if_neg]
        · rfl
        · simp [Spec.OMap.step, Spec.OMap.remove]
      rw [← he]
      exact e4

/-! ## The whole call -/

/-- The certificate is checked for this name. -/
def verifyOf (r : Request) (host : Bytes) : Option Bytes := if r.checkServer ≠ 0 then some host else none

/-- The network part. -/
def network (w : World) (r : Request) (p : Parts) : Option (List Step) × List Step :=
  if PlainScheme p.scheme then
    if w.socket then
      if w.resolves p.host then
        if w.connects p.host (portOf p % 2 ^ 16) then (some [.socket, .connect p.host (portOf p % 2 ^ 16)], [])
        else (none, [.socket, .close])
      else (none, [.socket])
    else (none, [])
  else if w.gnutls then
    if w.socket then
      if w.resolves p.host then
        if w.connects p.host (portOf p % 2 ^ 16) then
          if w.handshake (verifyOf r p.host) then
            (some [.socket, .connect p.host (portOf p % 2 ^ 16), .tls p.host (verifyOf r p.host)], [])
          else (none, [.socket, .connect p.host (portOf p % 2 ^ 16)])
        else (none, [.socket, .close])
      else (none, [.socket])
    else (none, [])
  else (none, [])

/-- The call with a well-formed URL: the steps up to the request, the request, and what follows from the answer. -/
theorem open_shape (w : World) (r : Request) (p : Parts) (hs us : List (Bytes × Option Bytes)) (es : List CliExt) (st : Int)
    (hp : Wf p) (hport : ∀ t, p.port = some t → number t < 2 ^ 31) (hsch : PlainScheme p.scheme ∨ SecureScheme p.scheme)
    (hurl : r.url = some (render p)) (hh : HoldsParams r.mapHeader hs) (hu : HoldsParams r.mapUrl us)
    (hb : ∀ x t, w.base64 x = some t → NoNul t ∧ t.length + 16 < 2 ^ 64) (hth : w.thread = true) :
    ∃ m, HoldsParams m (withCredentials w.base64 p.cred hs) ∧
    ((∃ steps, network w r p = (none, steps) ∧
      openClient w (some r) true true es (some st) = .ok { code := .error, steps := steps, request := some { r with mapHeader := m } }) ∨
    (∃ before c, network w r p = (some before, []) ∧
      clientHandshake (w.acceptOk (shown (withCredentials w.base64 p.cred hs) b!"Sec-WebSocket-Key"))
        ((withCredentials w.base64 p.cred hs).map (·.1)) es st
        (w.replies (openText r.verb r.protocol p.host (portOf p) p.path p.query (shown us b!"Origin")
          (withCredentials w.base64 p.cred hs))) = .ok c ∧
      openClient w (some r) true true es (some st) = .ok {
        code := if c.ok then .ok else if PlainScheme p.scheme ∧ 400 ≤ c.status ∧ c.status ≤ 499 then .params else .error,
        steps := before ++ (.send (openText r.verb r.protocol p.host (portOf p) p.path p.query (shown us b!"Origin")
            (withCredentials w.base64 p.cred hs)) :: (if c.isOpen then [] else [.close])),
        request := some { r with mapHeader := m }, result := some c })) := by
  have hpl : isPlain p.scheme = true ↔ PlainScheme p.scheme := by
    unfold isPlain PlainScheme
    rw [Bool.or_eq_true, same_name, same_name]
    unfold sameName
    constructor <;> (rintro (h | h) <;> simp [h])
  have htl : isTls p.scheme = true ↔ SecureScheme p.scheme := by
    unfold isTls SecureScheme
    rw [Bool.or_eq_true, same_name, same_name]
    unfold sameName
    constructor <;> (rintro (h | h) <;> simp [h])
  have hparse := C36_absolute_partial p hp hport
  -- the port
  have hport0 : portOf p ≠ 0 := by
    unfold portOf
    simp only
    split
    · split <;> decide
    · assumption
  generalize hU : ({
      scheme := some p.scheme, username := p.cred.map (·.1), password := p.cred.map (·.2), host := some p.host,
      port := ((p.port.map number).getD 0 : Nat), path := p.path, query := p.query, fragment := p.fragment } : Yuarel.Url) = u at hparse
  obtain ⟨u', hu'⟩ : ∃ u' : Yuarel.Url, u' = (if u.port = 0 then { u with port := if isPlain p.scheme then 80 else 443 } else u) := ⟨_, rfl⟩
  have f : u'.scheme = some p.scheme ∧ u'.username = p.cred.map (·.1) ∧ u'.password = p.cred.map (·.2) ∧ u'.host = some p.host ∧
      u'.port = (portOf p : Nat) ∧ u'.path = p.path ∧ u'.query = p.query := by
    subst hU
    subst hu'
    unfold portOf
    simp only
    by_cases h0 : (p.port.map number).getD 0 = 0
    · rw [if_pos (by rw [h0]; rfl), if_pos h0]
      refine ⟨rfl, rfl, rfl, rfl, ?_, rfl, rfl⟩
      by_cases hP : PlainScheme p.scheme
      · rw [if_pos hP]; simp [hpl.2 hP]
      · rw [if_neg hP]; simp [hpl, hP]
    · rw [if_neg (by exact_mod_cast h0), if_neg h0]
      exact ⟨rfl, rfl, rfl, rfl, rfl, rfl, rfl⟩
  obtain ⟨-, f2, f3, f4, f5, f6, f7⟩ := f
  obtain ⟨m, c1, c2⟩ := urlCredentials_eq w r u' p.cred hs f2 f3 hh hb
  have hwp : wirePort u'.port = portOf p % 2 ^ 16 := by
    rw [f5]; unfold wirePort; omega
  have htext := handshakeRequest_eq c2 hu r.verb r.protocol u' p.host (portOf p) f4 f5 hport0
  rw [f6, f7] at htext
  generalize htx : openText r.verb r.protocol p.host (portOf p) p.path p.query (shown us b!"Origin") (withCredentials w.base64 p.cred hs) = text at htext
  obtain ⟨c, hc⟩ := clientHandshake_total (w.acceptOk (shown (withCredentials w.base64 p.cred hs) b!"Sec-WebSocket-Key"))
        ((withCredentials w.base64 p.cred hs).map (·.1)) es st (w.replies text)
  have hcon : connectionHandshake w { r with mapHeader := m } u' es st =
      .ok (if c.ok then Code.ok else if 400 ≤ c.status ∧ c.status ≤ 499 then .params else .error,
        .send text :: (if c.isOpen then [] else [.close]), c) := by
    unfold connectionHandshake
    simp only [htext, Res.ok_bind, c2.2.1, header_shown c2, hc]
    rfl
  obtain ⟨r', hr'⟩ : ∃ r' : Request, { r with mapHeader := m } = r' := ⟨_, rfl⟩
  have hcall : openClient w (some r) true true es (some st) = (do
      let (code, steps, c) ← (if isPlain p.scheme then openPlain w r' u' es st else openTls w r' u' es st)
      let code := if isPlain p.scheme then code else if code = .ok then .ok else .error
      if code = .ok then Res.ok { code := .ok, steps := steps, request := some r', result := c }
      else Res.ok { code := code, steps := steps, request := some r', result := c }) := by
    have hs0 : u.scheme.getD [] = p.scheme := by subst hU; rfl
    have hsc : (isPlain p.scheme || isTls p.scheme) = true := by
      rcases hsch with h | h
      · simp [hpl.2 h]
      · simp [htl.2 h]
    unfold openClient
    rw [hr'] at c1
    simp only [hurl, hparse, Res.ok_bind, if_true, hs0, hsc]
    rw [← hu', c1, Res.ok_bind]
    simp only [hth, if_true]
    try rfl
  subst hr'
  refine ⟨m, c2, ?_⟩
  rw [hcall]
  by_cases hP : PlainScheme p.scheme
  · have hP' := hpl.2 hP
    simp only [hP', if_true]
    unfold openPlain network
    simp only [f4, hwp, if_pos hP]
    by_cases g1 : w.socket = true
    · by_cases g2 : w.resolves p.host = true
      · by_cases g3 : w.connects p.host (portOf p % 2 ^ 16) = true
        · right
          refine ⟨_, c, by simp only [g1, g2, g3, if_true]; rfl, hc, ?_⟩
          simp only [g1, g2, g3, if_true, hcon, Res.ok_bind, Res.pure_eq]
          cases ho : c.ok with
          | true => simp
          | false =>
            simp only [Bool.false_eq_true, if_false, hP, true_and]
            by_cases hst : 400 ≤ c.status ∧ c.status ≤ 499 <;> simp [hst]
        · left
          refine ⟨_, by simp only [g1, g2, g3, if_true]; rfl, ?_⟩
          simp only [g1, g2, g3, if_true, Res.ok_bind]
          rfl
      · left
        refine ⟨_, by simp only [g1, g2, if_true]; rfl, ?_⟩
        simp only [g1, g2, if_true]
        rfl
    · left
      refine ⟨_, by simp only [g1]; rfl, ?_⟩
      simp only [g1]
      rfl
  · have hP' : isPlain p.scheme = false := by rw [← Bool.not_eq_true, hpl]; exact hP
    simp only [hP', Bool.false_eq_true, if_false]
    unfold openTls network
    simp only [f4, hwp, if_neg hP]
    have hv : (if r.checkServer ≠ 0 then some p.host else none) = verifyOf r p.host := rfl
    simp only [hv]
    by_cases g0 : w.gnutls = true
    · by_cases g1 : w.socket = true
      · by_cases g2 : w.resolves p.host = true
        · by_cases g3 : w.connects p.host (portOf p % 2 ^ 16) = true
          · by_cases g4 : w.handshake (verifyOf r p.host) = true
            · right
              refine ⟨_, c, by simp only [g0, g1, g2, g3, g4, if_true]; rfl, hc, ?_⟩
              simp only [g0, g1, g2, g3, g4, if_true, hcon, Res.ok_bind, Res.pure_eq]
              cases ho : c.ok with
              | true => simp
              | false =>
                simp only [Bool.false_eq_true, if_false, hP, false_and]
                split <;> (rename_i he; simp_all)
            · left
              refine ⟨_, by simp only [g0, g1, g2, g3, g4, if_true]; rfl, ?_⟩
              simp only [g0, g1, g2, g3, g4, if_true, Res.ok_bind]
              rfl
          · left
            refine ⟨_, by simp only [g0, g1, g2, g3, if_true]; rfl, ?_⟩
            simp only [g0, g1, g2, g3, if_true, Res.ok_bind]
            rfl
        · left
          refine ⟨_, by simp only [g0, g1, g2, if_true]; rfl, ?_⟩
          simp only [g0, g1, g2, if_true]
          rfl
      · left
        refine ⟨_, by simp only [g0, g1, if_true]; rfl, ?_⟩
        simp only [g0, g1, if_true]
        rfl
    · left
      refine ⟨_, by simp only [g0]; rfl, ?_⟩
      simp only [g0]
      rfl

end Verif.WsOpen
