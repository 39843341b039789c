import Verif.Lemmas.WsOpen
import Verif.Props.Handshake
import Verif.Props.YuarelSound
import Mathlib.Data.List.Perm.Subperm
/-! # Properties of opening a websocket as a client -/
namespace Verif.Props
open Verif.UMap Verif.Ws Verif.WsOpen Verif.Handshake Verif.Printf
open Verif.Message (Request)
open Verif.Spec.Client (sameName)
open Verif.Spec.UrlParts Verif.Spec.WsOpen
open Verif.Spec.Handshake (First Absent Single Mentions Valid)
open Verif.Spec.Http (message Name Value blank)

/-- A request with a well-formed URL of one of the four schemes and a port below 2^16; its headers and URL parameters; base64 gives
text; threads can be created. -/
structure Given (w : World) (r : Request) (p : Spec.UrlParts.Parts) (hs us : List (Bytes × Option Bytes)) : Prop where
  url : r.url = some (render p)
  wf : Wf p
  port : ∀ t, p.port = some t → number t < 2 ^ 16
  scheme : PlainScheme p.scheme ∨ SecureScheme p.scheme
  headers : HoldsParams r.mapHeader hs
  params : HoldsParams r.mapUrl us
  base64 : ∀ x t, w.base64 x = some t → NoNul t ∧ t.length + 16 < 2 ^ 64
  thread : w.thread = true

/-- The name for which the certificate of the server has to be valid. -/
def nameChecked (r : Request) (p : Spec.UrlParts.Parts) : Option Bytes := if r.checkServer ≠ 0 then some p.host else none

/-- The server can be reached, with TLS where it is asked for. -/
def Reaches (w : World) (r : Request) (p : Spec.UrlParts.Parts) : Prop :=
  w.socket = true ∧ w.resolves p.host = true ∧ w.connects p.host (portOf p) = true ∧
  (PlainScheme p.scheme ∨ w.gnutls = true ∧ w.handshake (nameChecked r p) = true)

instance (w : World) (r : Request) (p : Spec.UrlParts.Parts) : Decidable (Reaches w r p) := inferInstanceAs (Decidable (_ ∧ _))

/-- The texts sent. -/
def sent (steps : List Step) : List Bytes := steps.filterMap (fun s => match s with | .send t => some t | _ => none)

private theorem port_lt {p : Spec.UrlParts.Parts} (h : ∀ t, p.port = some t → number t < 2 ^ 16) : portOf p < 2 ^ 16 := by
  unfold portOf
  simp only
  split
  · split <;> decide
  · cases hp : p.port with
    | none => simp
    | some t => simpa using h t hp

private theorem shape {w : World} {r : Request} {p : Spec.UrlParts.Parts} {hs us : List (Bytes × Option Bytes)} (g : Given w r p hs us)
    (es : List CliExt) (st : Int) :
    ∃ m, HoldsParams m (withCredentials w.base64 p.cred hs) ∧
    ((∃ steps, network w r p = (none, steps) ∧
      openClient w (some r) true true es (some st) = .ok { code := .error, steps := steps, request := some { r with mapHeader := m } }) ∨
    (∃ before c, network w r p = (some before, []) ∧
      clientHandshake (w.acceptOk (shown (withCredentials w.base64 p.cred hs) b!"Sec-WebSocket-Key"))
        ((withCredentials w.base64 p.cred hs).map (·.1)) es st
        (w.replies (openText r.verb r.protocol p.host (portOf p) p.path p.query (shown us b!"Origin")
          (withCredentials w.base64 p.cred hs))) = .ok c ∧
      openClient w (some r) true true es (some st) = .ok {
        code := if c.ok then .ok else if PlainScheme p.scheme ∧ 400 ≤ c.status ∧ c.status ≤ 499 then .params else .error,
        steps := before ++ (.send (openText r.verb r.protocol p.host (portOf p) p.path p.query (shown us b!"Origin")
            (withCredentials w.base64 p.cred hs)) :: (if c.isOpen then [] else [.close])),
        request := some { r with mapHeader := m }, result := some c })) :=
  open_shape w r p hs us es st g.wf (fun t ht => Nat.lt_trans (g.port t ht) (by decide)) g.scheme g.url g.headers g.params g.base64 g.thread

private theorem network_cases {w : World} {r : Request} {p : Spec.UrlParts.Parts} {hs us : List (Bytes × Option Bytes)}
    (g : Given w r p hs us) :
    (Reaches w r p ∧ network w r p = (some ([.socket, .connect p.host (portOf p)] ++
      if PlainScheme p.scheme then [] else [.tls p.host (nameChecked r p)]), [])) ∨
    (¬ Reaches w r p ∧ ∃ steps, network w r p = (none, steps) ∧
      (steps = [] ∨ (steps = [.socket, .close] ∧ w.resolves p.host = true) ∨
        (steps = [.socket] ∧ w.resolves p.host = false) ∨
        (steps = [.socket, .connect p.host (portOf p)] ∧ ¬ PlainScheme p.scheme ∧ w.handshake (nameChecked r p) = false))) := by
  have hm : portOf p % 2 ^ 16 = portOf p := Nat.mod_eq_of_lt (port_lt g.port)
  unfold network Reaches
  have hv : verifyOf r p.host = nameChecked r p := rfl
  simp only [hm, hv]
  by_cases hP : PlainScheme p.scheme
  · simp only [hP, if_true, true_or, and_true]
    by_cases g1 : w.socket = true <;> by_cases g2 : w.resolves p.host = true <;> by_cases g3 : w.connects p.host (portOf p) = true <;>
      simp_all
  · simp only [hP, if_false, false_or]
    by_cases g0 : w.gnutls = true <;> by_cases g1 : w.socket = true <;> by_cases g2 : w.resolves p.host = true <;>
      by_cases g3 : w.connects p.host (portOf p) = true <;> by_cases g4 : w.handshake (nameChecked r p) = true <;> simp_all

/-! ## C120 -/

/-- The origin given with the request (the code looks for it among the URL parameters). -/
def OriginIs (us : List (Bytes × Option Bytes)) : Option Bytes → Prop
  | some o => First us b!"Origin" o ∧ Value o
  | none => Absent us b!"Origin"

private theorem shown_first {us : List (Bytes × Option Bytes)} {o : Option Bytes} (h : OriginIs us o) : shown us b!"Origin" = o := by
  unfold shown
  cases o with
  | none =>
    rw [List.find?_eq_none.2 (fun q hq => by rw [same_name]; exact h q hq)]
    rfl
  | some o =>
    obtain ⟨⟨a, p, b, rfl, h1, h2, h3⟩, -⟩ := h
    rw [List.find?_append, List.find?_eq_none.2 (fun q hq => by rw [same_name]; exact h3 q hq), Option.none_or,
      List.find?_cons, (same_name _ _).2 h1]
    simp [h2]

private theorem shown_self {hs : List (Bytes × Option Bytes)} (hd : Distinct hs) (p : Bytes × Option Bytes) (hp : p ∈ hs) :
    shown hs p.1 = some (p.2.getD []) := by
  unfold shown
  induction hs with
  | nil => cases hp
  | cons q t ih =>
    unfold Distinct at hd
    rw [List.pairwise_cons] at hd
    rw [List.find?_cons]
    by_cases he : eqCase q.1 p.1 = true
    · rw [he]
      rcases List.mem_cons.1 hp with rfl | hp
      · rfl
      · exact absurd ((same_name _ _).1 he) (hd.1 p hp)
    · rw [Bool.not_eq_true] at he
      rw [he]
      rcases List.mem_cons.1 hp with rfl | hp
      · have : eqCase p.1 p.1 = true := by simp [eqCase]
        rw [this] at he; cases he
      · exact ih hd.2 hp

private theorem fields_sent (all hs : List (Bytes × Option Bytes)) (hd : Distinct all) (hm : ∀ p ∈ hs, p ∈ all) (hf : FineHeaders hs)
    (r : Bytes) (fs : List (Bytes × Bytes)) (b : Bytes) (h : Spec.Http.fields r = some (fs, b)) :
    Spec.Http.fields ((hs.map (fun p => p.1 ++ b!": " ++ str (shown all p.1) ++ b!"\r\n")).flatten ++ r) = some (hs.map fieldOf ++ fs, b) := by
  induction hs with
  | nil => exact h
  | cons p t ih =>
    have := fields_one p.1 (p.2.getD []) _ (hf p (by simp)).1 (by
      cases hp : p.2 with
      | none => decide
      | some v => exact (hf p (by simp)).2 v hp) _ _ (ih (fun q hq => hm q (by simp [hq])) (fun q hq => hf q (by simp [hq])))
    rw [List.map_cons, List.flatten_cons, List.append_assoc, shown_self hd p (hm p (by simp))]
    exact this

/-- The fields of an opening handshake. -/
def openingFields (p : Spec.UrlParts.Parts) (origin : Option Bytes) (hs : List (Bytes × Option Bytes)) : List (Bytes × Bytes) :=
  [(b!"Host", p.host ++ b!":" ++ decimal (portOf p)), (b!"Upgrade", b!"websocket"), (b!"Connection", b!"Upgrade")] ++
    (origin.map (fun o => (b!"Origin", o))).toList ++ hs.map fieldOf

/-- A URL that can stand in a request. -/
structure FineUrl (p : Spec.UrlParts.Parts) : Prop where
  cr : (0x0d : UInt8) ∉ render p
  lf : (0x0a : UInt8) ∉ render p
  host : ∀ c ∈ p.host, blank c = false

private theorem text_message {p : Spec.UrlParts.Parts} (hf : FineUrl p) (hw : Wf p) (origin : Option Bytes)
    (ho : ∀ o, origin = some o → Value o) (hs : List (Bytes × Option Bytes)) (hd : Distinct hs) (hh : FineHeaders hs) :
    message (openText (some b!"GET") (some b!"1.1") p.host (portOf p) p.path p.query origin hs) =
      some (b!"GET " ++ target p ++ b!" HTTP/1.1", openingFields p origin hs, []) := by
  have nocr : ∀ (c : UInt8), c ∉ render p → c ∉ p.host ∧ c ∉ p.path.getD [] ∧ c ∉ opt 0x3f p.query := by
    intro c hc
    unfold render at hc
    simp only [List.mem_append, not_or] at hc
    refine ⟨hc.1.1.1.1.2, ?_, hc.1.2⟩
    cases hp : p.path with
    | none => simp
    | some t =>
      have := hc.1.1.2
      rw [hp] at this
      exact fun hm => this (List.mem_cons_of_mem _ hm)
  obtain ⟨c1, c2, c3⟩ := nocr _ hf.cr
  obtain ⟨l1, l2, l3⟩ := nocr _ hf.lf
  have hhost : Value (p.host ++ b!":" ++ decimal (portOf p)) := by
    have hdv := decimal_value (portOf p)
    refine ⟨?_, ?_, ?_, ?_⟩
    · simp only [List.mem_append, not_or]; exact ⟨⟨c1, by decide⟩, hdv.1⟩
    · simp only [List.mem_append, not_or]; exact ⟨⟨l1, by decide⟩, hdv.2.1⟩
    · intro c hc
      cases hp : p.host with
      | nil => exact absurd hp hw.host.2
      | cons x t =>
        rw [hp] at hc
        simp only [List.cons_append, List.head?_cons, Option.some.injEq] at hc
        exact hf.host c (by rw [hp, ← hc]; simp)
    · intro c hc
      rw [List.getLast?_append] at hc
      cases hdd : (decimal (portOf p)).getLast? with
      | none =>
        rw [hdd] at hc
        simp only [Option.none_or, List.getLast?_append, List.getLast?_singleton, Option.some_or, Option.some.injEq] at hc
        rw [← hc]; decide
      | some x =>
        rw [hdd] at hc
        simp only [Option.some_or, Option.some.injEq] at hc
        exact hdv.2.2.2 c (by rw [hdd, hc])
  have e0 : Spec.Http.fields b!"\r\n" = some ([], []) := Spec.Http.fields_end []
  have e1 := fields_sent hs hs hd (fun _ h => h) hh b!"\r\n" [] [] e0
  have e2 : Spec.Http.fields (originText origin ++
      ((hs.map (fun p => p.1 ++ b!": " ++ str (shown hs p.1) ++ b!"\r\n")).flatten ++ b!"\r\n")) =
      some ((origin.map (fun o => (b!"Origin", o))).toList ++ (hs.map fieldOf ++ []), []) := by
    cases origin with
    | none => exact e1
    | some o => exact fields_one b!"Origin" o _ (by decide) (ho o rfl) _ _ e1
  have e3 := fields_one b!"Connection" b!"Upgrade" _ (by decide) (by decide) _ _ e2
  have e4 := fields_one b!"Upgrade" b!"websocket" _ (by decide) (by decide) _ _ e3
  have e5 := fields_one b!"Host" _ _ (by decide) hhost _ _ e4
  unfold message openText
  have hl : ∀ rest : Bytes, Spec.Http.line (b!"GET " ++ target p ++ b!" HTTP/1.1" ++ 0x0d :: 0x0a :: rest) =
      some (b!"GET " ++ target p ++ b!" HTTP/1.1", rest) := by
    intro rest
    apply Spec.Http.line_crlf
    unfold target
    simp only [List.mem_append, List.mem_cons, not_or]
    exact ⟨⟨by decide, ⟨by decide, c2⟩, c3⟩, by decide⟩
  have hs' : ∀ rest : Bytes, str (some b!"GET") ++ b!" /" ++ p.path.getD [] ++ opt 0x3f p.query ++ b!" HTTP/" ++ str (some b!"1.1") ++ b!"\r\n" ++ rest =
      b!"GET " ++ target p ++ b!" HTTP/1.1" ++ 0x0d :: 0x0a :: rest := by
    intro rest; simp [str, target]
  simp only [List.append_assoc] at hs' hl e5 ⊢
  rw [hs', hl]
  simp only
  rw [show (b!"Upgrade: websocket\r\n" : Bytes) = b!"Upgrade" ++ (b!": " ++ (b!"websocket" ++ b!"\r\n")) from rfl,
    show (b!"Connection: Upgrade\r\n" : Bytes) = b!"Connection" ++ (b!": " ++ (b!"Upgrade" ++ b!"\r\n")) from rfl,
    show (b!"Host: " : Bytes) = b!"Host" ++ b!": " from rfl]
  simp only [List.append_assoc]
  rw [e5]
  simp [openingFields]

/-- **C120, partial.** Opening a websocket sends nothing, when the server cannot be reached, or one HTTP/1.1 request and nothing else:
`GET`, the path and query of the URL, its host and port, the two fields of an upgrade, and the headers of the request in their order.
Missing: names that differ only in case get the same value (`C120_case_false`), line breaks in a header add fields
(`C120_injection_false`), and URL parameters are left out (`C120_params_false`); credentials in the URL are the subject of C124. -/
theorem C120_request_partial (w : World) (r : Request) (p : Spec.UrlParts.Parts) (hs us : List (Bytes × Option Bytes)) (es : List CliExt)
    (st : Int) (g : Given w r p hs us) (hcred : p.cred = none) (hv : r.verb = some b!"GET") (hpr : r.protocol = some b!"1.1")
    (hf : FineUrl p) (hd : Distinct hs) (hh : FineHeaders hs) (origin : Option Bytes) (ho : OriginIs us origin) :
    ∃ o t, openClient w (some r) true true es (some st) = .ok o ∧ sent o.steps = (if Reaches w r p then [t] else []) ∧
      message t = some (b!"GET " ++ target p ++ b!" HTTP/1.1", openingFields p origin hs, []) := by
  have hmsg := text_message hf g.wf origin (by intro o e; subst e; exact ho.2) hs hd hh
  obtain ⟨m, -, h⟩ := shape g es st
  have hwc : withCredentials w.base64 p.cred hs = hs := by rw [hcred]; rfl
  rw [hwc, hv, hpr, shown_first ho] at h
  rcases h with ⟨steps, h1, h2⟩ | ⟨before, c, h1, -, h2⟩
  · refine ⟨_, _, h2, ?_, hmsg⟩
    rcases network_cases g with ⟨-, k⟩ | ⟨k0, st', k1, k2⟩
    · rw [h1] at k; cases k
    · rw [h1] at k1
      cases k1
      rw [if_neg k0]
      rcases k2 with rfl | ⟨rfl, -⟩ | ⟨rfl, -⟩ | ⟨rfl, -⟩ <;> rfl
  · refine ⟨_, _, h2, ?_, hmsg⟩
    rcases network_cases g with ⟨k0, k⟩ | ⟨-, st', k1, -⟩
    · rw [h1] at k
      cases k
      rw [if_pos k0]
      simp only [sent]
      split <;> split <;> rfl
    · rw [h1] at k1; cases k1

/-- The text sent, in every case. -/
private theorem sent_text {w : World} {r : Request} {p : Spec.UrlParts.Parts} {hs us : List (Bytes × Option Bytes)} (g : Given w r p hs us)
    (es : List CliExt) (st : Int) (hr : Reaches w r p) :
    ∃ o, openClient w (some r) true true es (some st) = .ok o ∧ sent o.steps = [openText r.verb r.protocol p.host (portOf p) p.path p.query
      (shown us b!"Origin") (withCredentials w.base64 p.cred hs)] := by
  obtain ⟨m, -, h⟩ := shape g es st
  rcases network_cases g with ⟨k0, k⟩ | ⟨k0, -⟩
  · rcases h with ⟨steps, h1, h2⟩ | ⟨before, c, h1, -, h2⟩
    · rw [h1] at k; cases k
    · rw [h1] at k
      cases k
      refine ⟨_, h2, ?_⟩
      simp only [sent]
      split <;> split <;> rfl
  · exact absurd hr k0

/-- A URL of a host `h`. -/
private def plainUrl : Spec.UrlParts.Parts :=
  { scheme := b!"ws", cred := none, host := b!"h", port := none, path := some b!"a", query := some b!"b", fragment := none }

private theorem plainUrl_wf : Wf plainUrl :=
  ⟨by decide, (by intro u w h; cases h), by decide, (by intro t h; cases h), (by intro t h; cases h; decide), (by intro t h; cases h; decide)⟩

/-- A request for that URL. -/
private def asking (headers params : UMap) : Request :=
  { protocol := some b!"1.1", verb := some b!"GET", url := some (render plainUrl), mapHeader := headers, mapUrl := params }

/-- A world where everything works. -/
private def fine : World := { base64 := fun _ => some b!"dGV4dA==" }

private theorem asking_given {mh mu : UMap} {hs us : List (Bytes × Option Bytes)} (hh : HoldsParams mh hs) (hu : HoldsParams mu us) :
    Given fine (asking mh mu) plainUrl hs us :=
  ⟨rfl, plainUrl_wf, (by intro t h; cases h), .inl (by decide), hh, hu, (by intro x t h; cases h; decide), rfl⟩

private theorem asking_reaches (mh mu : UMap) : Reaches fine (asking mh mu) plainUrl := ⟨rfl, rfl, rfl, .inl (by decide)⟩

example : ∃ mh mu o t, Given fine (asking mh mu) plainUrl [(b!"X", some b!"1")] [] ∧
    openClient fine (some (asking mh mu)) true true [] (some 0) = .ok o ∧ sent o.steps = [t] ∧
    message t = some (b!"GET /a?b HTTP/1.1",
      [(b!"Host", b!"h:80"), (b!"Upgrade", b!"websocket"), (b!"Connection", b!"Upgrade"), (b!"X", b!"1")], []) := by
  obtain ⟨m, -, hm⟩ := holds_put holds_init b!"X" (some b!"1") (by decide) (by decide) (by intro x h; cases h; decide)
  have g := asking_given hm holds_init
  obtain ⟨o, t, h1, h2, h3⟩ := C120_request_partial fine (asking m UMap.init) plainUrl _ [] [] 0 g rfl rfl rfl
    ⟨by decide, by decide, by decide⟩ (by decide) (by
      intro p hp
      have : p = (b!"X", some b!"1") := by simpa [Spec.OMap.put] using hp
      subst this
      exact ⟨by decide, by intro v h; cases h; decide⟩) none (by intro q hq; cases hq)
  rw [if_pos (asking_reaches _ _)] at h2
  exact ⟨m, UMap.init, o, t, g, h1, h2, h3.trans (by decide +kernel)⟩

private theorem two_headers (k1 v1 k2 v2 : Bytes) (h1 : k1 ≠ [] ∧ NoNul k1 ∧ NoNul v1 ∧ v1.length < 2 ^ 10)
    (h2 : k2 ≠ [] ∧ NoNul k2 ∧ NoNul v2 ∧ v2.length < 2 ^ 10) (hn : k1 ≠ k2) :
    ∃ m, HoldsParams m [(k1, some v1), (k2, some v2)] := by
  obtain ⟨m1, -, a⟩ := holds_put holds_init k1 (some v1) h1.1 h1.2.1 (by intro x h; cases h; exact ⟨h1.2.2.1, by have := h1.2.2.2; omega⟩)
  obtain ⟨m2, -, b⟩ := holds_put a k2 (some v2) h2.1 h2.2.1 (by intro x h; cases h; exact ⟨h2.2.2.1, by have := h2.2.2.2; omega⟩)
  refine ⟨m2, ?_⟩
  have : Spec.OMap.put (Spec.OMap.put [] k1 (some v1)) k2 (some v2) = [(k1, some v1), (k2, some v2)] := by
    simp [Spec.OMap.put, hn]
  rw [← this]; exact b

private theorem one_header (k v : Bytes) (h : k ≠ [] ∧ NoNul k ∧ NoNul v ∧ v.length < 2 ^ 10) : ∃ m, HoldsParams m [(k, some v)] := by
  obtain ⟨m, -, a⟩ := holds_put holds_init k (some v) h.1 h.2.1 (by intro x e; cases e; exact ⟨h.2.2.1, by have := h.2.2.2; omega⟩)
  exact ⟨m, a⟩

/-- **C120 is false** for two names that differ in case: both are sent with the value of the first. -/
theorem C120_case_false : ∃ w r p o t l fs, Given w r p [(b!"A", some b!"1"), (b!"a", some b!"2")] [] ∧
    openClient w (some r) true true [] (some 0) = .ok o ∧ sent o.steps = [t] ∧ message t = some (l, fs, []) ∧
    (b!"a", b!"1") ∈ fs ∧ (b!"a", b!"2") ∉ fs := by
  obtain ⟨m, hm⟩ := two_headers b!"A" b!"1" b!"a" b!"2" (by decide) (by decide) (by decide)
  have g := asking_given hm holds_init
  obtain ⟨o, h1, h2⟩ := sent_text g [] 0 (asking_reaches _ _)
  exact ⟨_, _, _, o, _, b!"GET /a?b HTTP/1.1", [(b!"Host", b!"h:80"), (b!"Upgrade", b!"websocket"), (b!"Connection", b!"Upgrade"),
    (b!"A", b!"1"), (b!"a", b!"1")], g, h1, h2, by show message (openText (some b!"GET") (some b!"1.1") _ _ _ _ _ _) = _; decide +kernel,
    by decide, by decide⟩

/-- **C120 is false** when a header contains a line break: one header is given, two are sent. -/
theorem C120_injection_false : ∃ w r p o t l fs, Given w r p [(b!"A", some b!"1\r\nB: 2")] [] ∧
    openClient w (some r) true true [] (some 0) = .ok o ∧ sent o.steps = [t] ∧ message t = some (l, fs, []) ∧
    (b!"A", b!"1") ∈ fs ∧ (b!"B", b!"2") ∈ fs := by
  obtain ⟨m, hm⟩ := one_header b!"A" b!"1\r\nB: 2" (by decide)
  have g := asking_given hm holds_init
  obtain ⟨o, h1, h2⟩ := sent_text g [] 0 (asking_reaches _ _)
  exact ⟨_, _, _, o, _, b!"GET /a?b HTTP/1.1", [(b!"Host", b!"h:80"), (b!"Upgrade", b!"websocket"), (b!"Connection", b!"Upgrade"),
    (b!"A", b!"1"), (b!"B", b!"2")], g, h1, h2, by show message (openText (some b!"GET") (some b!"1.1") _ _ _ _ _ _) = _; decide +kernel,
    by decide, by decide⟩

/-- **C120 is false** for the URL parameters of the request, which an HTTP request of this library carries: they are not sent. -/
theorem C120_params_false : ∃ w r p o t fs, Given w r p [] [(b!"q", some b!"1")] ∧
    openClient w (some r) true true [] (some 0) = .ok o ∧ sent o.steps = [t] ∧ message t = some (b!"GET /a?b HTTP/1.1", fs, []) := by
  obtain ⟨m, hm⟩ := one_header b!"q" b!"1" (by decide)
  have g := asking_given holds_init hm
  obtain ⟨o, h1, h2⟩ := sent_text g [] 0 (asking_reaches _ _)
  exact ⟨_, _, _, o, _, [(b!"Host", b!"h:80"), (b!"Upgrade", b!"websocket"), (b!"Connection", b!"Upgrade")], g, h1, h2,
    by show message (openText (some b!"GET") (some b!"1.1") _ _ _ _ _ _) = _; decide +kernel⟩

/-! ## C121 -/

/-- A header called `name` has exactly this spelling. -/
def Spelled (hs : List (Bytes × Option Bytes)) (name : Bytes) : Prop := ∀ q ∈ hs, sameName q.1 name → q.1 = name

private theorem put_keys (hs : List (Bytes × Option Bytes)) (k : Bytes) (v : Option Bytes) (q : Bytes × Option Bytes)
    (h : q ∈ Spec.OMap.put hs k v) : q.1 = k ∨ q ∈ hs := by
  unfold Spec.OMap.put at h
  split at h
  · obtain ⟨p, hp, e⟩ := List.mem_map.1 h
    split at e
    · rw [← e]; exact .inl rfl
    · rw [← e]; exact .inr hp
  · rcases List.mem_append.1 h with h | h
    · exact .inr h
    · rw [List.mem_singleton] at h; rw [h]; exact .inl rfl

private theorem spelled_put {hs : List (Bytes × Option Bytes)} {name : Bytes} (h : Spelled hs name) (k : Bytes) (v : Option Bytes)
    (hk : sameName k name → k = name) : Spelled (Spec.OMap.put hs k v) name := by
  intro q hq hs'
  rcases put_keys hs k v q hq with e | hm
  · rw [e] at hs' ⊢; exact hk hs'
  · exact h q hm hs'

private theorem absent_put {hs : List (Bytes × Option Bytes)} {name : Bytes} (h : Absent hs name) (k : Bytes) (v : Option Bytes)
    (hk : ¬ sameName k name) : Absent (Spec.OMap.put hs k v) name := by
  intro q hq
  rcases put_keys hs k v q hq with e | hm
  · rw [e]; exact hk
  · exact h q hm

private theorem single_self {hs : List (Bytes × Option Bytes)} {name : Bytes} (h : Spelled hs name) (hn : (hs.map (·.1)).Nodup) (v : Bytes) :
    Single (Spec.OMap.put hs name (some v)) name v := by
  unfold Spec.OMap.put
  split
  · rename_i ha
    rw [List.any_eq_true] at ha
    obtain ⟨q, hq, he⟩ := ha
    have he' : q.1 = name := by simpa using he
    obtain ⟨a, b, rfl⟩ := List.append_of_mem hq
    rw [List.map_append, List.map_cons, List.nodup_append, List.nodup_cons] at hn
    obtain ⟨-, ⟨hb, -⟩, hab⟩ := hn
    have ha1 : ∀ x ∈ a, x.1 ≠ name := by
      intro x hx e
      exact hab x.1 (List.mem_map.2 ⟨x, hx, rfl⟩) q.1 (by simp) (by rw [e, he'])
    have hb1 : ∀ x ∈ b, x.1 ≠ name := by
      intro x hx e
      exact hb (List.mem_map.2 ⟨x, hx, by rw [e, he']⟩)
    have idm : ∀ l : List (Bytes × Option Bytes), (∀ x ∈ l, x.1 ≠ name) → l.map (fun p => if p.1 == name then (name, some v) else p) = l := by
      intro l hl
      have : l.map (fun p => if p.1 == name then (name, some v) else p) = l.map id := by
        apply List.map_congr_left
        intro x hx
        simp [hl x hx]
      simpa using this
    refine ⟨a, (name, some v), b, ?_, rfl, rfl, ?_⟩
    · rw [List.map_append, List.map_cons, idm a ha1, idm b hb1]; simp [he']
    · intro x hx hs
      rcases List.mem_append.1 hx with hx | hx
      · exact ha1 x hx (h x (by simp [hx]) hs)
      · exact hb1 x hx (h x (by simp [hx]) hs)
  · rename_i ha
    refine ⟨hs, (name, some v), [], rfl, rfl, rfl, ?_⟩
    intro x hx hsn
    rw [List.append_nil] at hx
    apply ha
    rw [List.any_eq_true]
    exact ⟨x, hx, by simpa using h x hx hsn⟩

private theorem single_other {hs : List (Bytes × Option Bytes)} {name v : Bytes} (h : Single hs name v) (k : Bytes) (x : Option Bytes)
    (hk : ¬ sameName k name) : Single (Spec.OMap.put hs k x) name v := by
  obtain ⟨a, p, b, rfl, h1, h2, h3⟩ := h
  unfold Spec.OMap.put
  split
  · have hp : (p.1 == k) = false := by
      rw [← Bool.not_eq_true]
      intro e
      have e : p.1 = k := by simpa using e
      exact hk (e ▸ h1)
    refine ⟨_, p, _, by rw [List.map_append, List.map_cons, hp]; rfl, h1, h2, ?_⟩
    intro q hq
    rw [← List.map_append] at hq
    obtain ⟨q', hq', e⟩ := List.mem_map.1 hq
    split at e
    · rw [← e]; exact hk
    · rw [← e]; exact h3 q' hq'
  · refine ⟨a, p, b ++ [(k, x)], by simp, h1, h2, ?_⟩
    intro q hq
    rw [← List.append_assoc] at hq
    rcases List.mem_append.1 hq with hq | hq
    · exact h3 q hq
    · rw [List.mem_singleton] at hq; rw [hq]; exact hk

/-- The names the preparation sets. -/
def websocketNames : List Bytes :=
  [b!"Sec-WebSocket-Protocol", b!"Sec-WebSocket-Extensions", b!"Sec-WebSocket-Version", b!"User-Agent", b!"Sec-WebSocket-Key"]

/-- A header as read from the wire. -/
def asParam (f : Bytes × Bytes) : Bytes × Option Bytes := (f.1, some f.2)

private theorem single_fields {hs : List (Bytes × Option Bytes)} {name v : Bytes} (h : Single hs name v) (pre : List (Bytes × Bytes))
    (hp : ∀ f ∈ pre, ¬ sameName f.1 name) : Single ((pre ++ hs.map fieldOf).map asParam) name v := by
  obtain ⟨a, p, b, rfl, h1, h2, h3⟩ := h
  refine ⟨(pre ++ a.map fieldOf).map asParam, asParam (fieldOf p), (b.map fieldOf).map asParam, by simp, h1, h2, ?_⟩
  intro q hq
  rw [← List.map_append] at hq
  obtain ⟨f, hf, rfl⟩ := List.mem_map.1 hq
  rw [List.append_assoc, ← List.map_append] at hf
  rcases List.mem_append.1 hf with hf | hf
  · exact hp f hf
  · obtain ⟨x, hx, rfl⟩ := List.mem_map.1 hf
    exact h3 x hx

/-- A value put when there is one. -/
def putSome (hs : List (Bytes × Option Bytes)) (name : Bytes) : Option Bytes → List (Bytes × Option Bytes)
  | some x => Spec.OMap.put hs name (some x)
  | none => hs

/-- What the preparation does to the headers. -/
def prepared (hs : List (Bytes × Option Bytes)) (protocol extensions : Option Bytes) (agent key : Bytes) : List (Bytes × Option Bytes) :=
  Spec.OMap.put (Spec.OMap.put (Spec.OMap.put (putSome (putSome hs b!"Sec-WebSocket-Protocol" protocol) b!"Sec-WebSocket-Extensions" extensions)
    b!"Sec-WebSocket-Version" (some b!"13")) b!"User-Agent" (some (b!"Ulfius Websocket Client Framework/" ++ agent)))
    b!"Sec-WebSocket-Key" (some key)

private theorem holds_given {m : UMap} {hs : List (Bytes × Option Bytes)} (h : HoldsParams m hs) (name : Bytes) (hn : name ≠ [] ∧ NoNul name)
    (v : Option Bytes) (hv : ∀ x, v = some x → NoNul x ∧ x.length + 2 < 2 ^ 64) :
    ∃ m', putGiven m name v = .ok m' ∧ HoldsParams m' (putSome hs name v) := by
  cases v with
  | none => exact ⟨m, rfl, h⟩
  | some x =>
    obtain ⟨m', a, b⟩ := holds_put h name (some x) hn.1 hn.2 hv
    exact ⟨m', by simp only [putGiven, a, Res.ok_bind]; rfl, b⟩

private theorem prepare_eq (base64 : Bytes → Option Bytes) (random agent key url : Bytes) (r : Request) (hs : List (Bytes × Option Bytes))
    (protocol extensions : Option Bytes) (hh : HoldsParams r.mapHeader hs) (hk : base64 random = some key)
    (ht : ∀ x, x = key ∨ x = agent ∨ protocol = some x ∨ extensions = some x → NoNul x ∧ x.length + 64 < 2 ^ 64) :
    ∃ m, setWebsocketRequest base64 (some random) agent (some r) (.text url) protocol extensions =
        .ok (.ok, some { r with protocol := some b!"1.1", verb := some b!"GET", url := some url, mapHeader := m }) ∧
      HoldsParams m (prepared hs protocol extensions agent key) := by
  obtain ⟨m1, e1, h1⟩ := holds_given hh b!"Sec-WebSocket-Protocol" (by decide) protocol
    (fun x hx => by have := ht x (.inr (.inr (.inl hx))); exact ⟨this.1, by omega⟩)
  obtain ⟨m2, e2, h2⟩ := holds_given h1 b!"Sec-WebSocket-Extensions" (by decide) extensions
    (fun x hx => by have := ht x (.inr (.inr (.inr hx))); exact ⟨this.1, by omega⟩)
  obtain ⟨m3, e3, h3⟩ := holds_put h2 b!"Sec-WebSocket-Version" (some b!"13") (by decide) (by decide) (by intro x h; cases h; decide)
  obtain ⟨m4, e4, h4⟩ := holds_put h3 b!"User-Agent" (some (b!"Ulfius Websocket Client Framework/" ++ agent)) (by decide) (by decide) (by
    intro x h
    cases h
    have := ht agent (.inr (.inl rfl))
    refine ⟨?_, by simp; omega⟩
    intro hm
    rcases List.mem_append.1 hm with hm | hm
    · revert hm; decide
    · exact this.1 hm)
  obtain ⟨m5, e5, h5⟩ := holds_put h4 b!"Sec-WebSocket-Key" (some key) (by decide) (by decide)
    (by intro x hx; cases hx; have := ht key (.inl rfl); exact ⟨this.1, by omega⟩)
  refine ⟨m5, ?_, h5⟩
  unfold setWebsocketRequest
  simp only [e1, e2, e3, e4, e5, Res.ok_bind, Option.bind_some, hk]
  rfl

private theorem single_putSome {hs : List (Bytes × Option Bytes)} {name v : Bytes} (h : Single hs name v) (k : Bytes) (x : Option Bytes)
    (hk : ¬ sameName k name) : Single (putSome hs k x) name v := by
  cases x with
  | none => exact h
  | some x => exact single_other h k _ hk

private theorem putSome_keys {hs : List (Bytes × Option Bytes)} {k : Bytes} {x : Option Bytes} {q : Bytes × Option Bytes}
    (h : q ∈ putSome hs k x) : q.1 = k ∨ q ∈ hs := by
  cases x with
  | none => exact .inr h
  | some x => exact put_keys hs k _ q h

private theorem prepared_keys {hs : List (Bytes × Option Bytes)} {pr ex : Option Bytes} {agent key : Bytes} {q : Bytes × Option Bytes}
    (h : q ∈ prepared hs pr ex agent key) : q.1 ∈ websocketNames ∨ q ∈ hs := by
  unfold prepared at h
  rcases put_keys _ _ _ _ h with e | h
  · rw [e]; exact .inl (by decide)
  rcases put_keys _ _ _ _ h with e | h
  · rw [e]; exact .inl (by decide)
  rcases put_keys _ _ _ _ h with e | h
  · rw [e]; exact .inl (by decide)
  rcases putSome_keys h with e | h
  · rw [e]; exact .inl (by decide)
  rcases putSome_keys h with e | h
  · rw [e]; exact .inl (by decide)
  exact .inr h

theorem nodup_put {hs : List (Bytes × Option Bytes)} (h : (hs.map (·.1)).Nodup) (k : Bytes) (v : Option Bytes) :
    ((Spec.OMap.put hs k v).map (·.1)).Nodup := by
  unfold Spec.OMap.put
  split
  · have : (hs.map (fun p => if p.1 == k then (k, v) else p)).map (·.1) = hs.map (·.1) := by
      rw [List.map_map]
      apply List.map_congr_left
      intro p _
      simp only [Function.comp]
      split
      · rename_i e; simpa using (by simpa using e : p.1 = k).symm
      · rfl
    rw [this]; exact h
  · rename_i hn
    rw [List.map_append, List.nodup_append]
    refine ⟨h, by simp, ?_⟩
    intro a ha b hb
    simp only [List.map_cons, List.map_nil, List.mem_singleton] at hb
    subst hb
    intro e
    subst e
    obtain ⟨p, hp, e⟩ := List.mem_map.1 ha
    apply hn
    rw [List.any_eq_true]
    exact ⟨p, hp, by simpa using e⟩

private theorem nodup_putSome {hs : List (Bytes × Option Bytes)} (h : (hs.map (·.1)).Nodup) (k : Bytes) (v : Option Bytes) :
    ((putSome hs k v).map (·.1)).Nodup := by
  cases v with
  | none => exact h
  | some x => exact nodup_put h k _

private theorem spelled_putSome {hs : List (Bytes × Option Bytes)} {name : Bytes} (h : Spelled hs name) (k : Bytes) (v : Option Bytes)
    (hk : sameName k name → k = name) : Spelled (putSome hs k v) name := by
  cases v with
  | none => exact h
  | some x => exact spelled_put h k _ hk

private theorem distinct_put {hs : List (Bytes × Option Bytes)} {k : Bytes} (h : Distinct hs) (hs' : Spelled hs k) (v : Option Bytes) :
    Distinct (Spec.OMap.put hs k v) := by
  unfold Distinct at h ⊢
  have key : ∀ l : List (Bytes × Option Bytes), l.Pairwise (fun a b => ¬ sameName a.1 b.1) ↔ (l.map (·.1)).Pairwise (fun a b => ¬ sameName a b) := by
    intro l; rw [List.pairwise_map]
  unfold Spec.OMap.put
  split
  · have : (hs.map (fun p => if p.1 == k then (k, v) else p)).map (·.1) = hs.map (·.1) := by
      rw [List.map_map]
      apply List.map_congr_left
      intro p _
      simp only [Function.comp]
      split
      · rename_i e; simpa using (by simpa using e : p.1 = k).symm
      · rfl
    rw [key, this, ← key]; exact h
  · rename_i hn
    rw [List.pairwise_append]
    refine ⟨h, by simp, ?_⟩
    intro a ha b hb
    rw [List.mem_singleton] at hb
    subst hb
    intro e
    apply hn
    rw [List.any_eq_true]
    exact ⟨a, ha, by simpa using hs' a ha e⟩

private theorem distinct_putSome {hs : List (Bytes × Option Bytes)} {k : Bytes} (h : Distinct hs) (hs' : Spelled hs k) (v : Option Bytes) :
    Distinct (putSome hs k v) := by
  cases v with
  | none => exact h
  | some x => exact distinct_put h hs' _

private theorem prepared_singles {hs : List (Bytes × Option Bytes)} (hsp : ∀ name ∈ websocketNames, Spelled hs name)
    (hn : (hs.map (·.1)).Nodup) (pr ex : Option Bytes) (agent key : Bytes) :
    Single (prepared hs pr ex agent key) b!"Sec-WebSocket-Key" key ∧
    Single (prepared hs pr ex agent key) b!"Sec-WebSocket-Version" b!"13" ∧
    Single (prepared hs pr ex agent key) b!"User-Agent" (b!"Ulfius Websocket Client Framework/" ++ agent) ∧
    (∀ x, pr = some x → Single (prepared hs pr ex agent key) b!"Sec-WebSocket-Protocol" x) ∧
    (∀ x, ex = some x → Single (prepared hs pr ex agent key) b!"Sec-WebSocket-Extensions" x) := by
  have s1 := fun n hn => spelled_putSome (hsp n hn) b!"Sec-WebSocket-Protocol" pr
  have n1 := nodup_putSome hn b!"Sec-WebSocket-Protocol" pr
  have n2 := nodup_putSome n1 b!"Sec-WebSocket-Extensions" ex
  have n3 := nodup_put n2 b!"Sec-WebSocket-Version" (some b!"13")
  have n4 := nodup_put n3 b!"User-Agent" (some (b!"Ulfius Websocket Client Framework/" ++ agent))
  refine ⟨?_, ?_, ?_, ?_, ?_⟩
  · exact single_self (spelled_put (spelled_put (spelled_putSome (s1 b!"Sec-WebSocket-Key" (by decide) (by decide)) _ _ (by decide)) _ _ (by decide)) _ _ (by decide)) n4 key
  · exact single_other (single_other (single_self (spelled_putSome (s1 b!"Sec-WebSocket-Version" (by decide) (by decide)) _ _ (by decide)) n2 _) _ _ (by decide)) _ _ (by decide)
  · exact single_other (single_self (spelled_put (spelled_putSome (s1 b!"User-Agent" (by decide) (by decide)) _ _ (by decide)) _ _ (by decide)) n3 _) _ _ (by decide)
  · rintro x rfl
    exact single_other (single_other (single_other (single_putSome (single_self (hsp _ (by decide)) hn x) _ _ (by decide)) _ _ (by decide)) _ _ (by decide)) _ _ (by decide)
  · rintro x rfl
    exact single_other (single_other (single_other (single_self (s1 b!"Sec-WebSocket-Extensions" (by decide) (by decide)) n1 x) _ _ (by decide)) _ _ (by decide)) _ _ (by decide)

/-- **C121, partial.** A request prepared for a websocket asks for the URL given with `GET` and HTTP/1.1, keeps the other headers and
settings, and the handshake made of it (C120) is one a server accepts (C53): it has a single version 13, a single key, which is the
base64 text of the random bytes, and a single sub-protocol and list of extensions as given, if any. Missing: requests that already
have one of these headers in another spelling (`C121_spelling_false`), and the URL of the request itself (`C121_own_false`). -/
theorem C121_prepared_partial (base64 : Bytes → Option Bytes) (random agent key url : Bytes) (r : Request) (hs : List (Bytes × Option Bytes))
    (protocol extensions : Option Bytes) (hh : HoldsParams r.mapHeader hs) (hk : base64 random = some key)
    (ht : ∀ x, x = key ∨ x = agent ∨ protocol = some x ∨ extensions = some x → NoNul x ∧ x.length + 64 < 2 ^ 64)
    (hsp : ∀ name ∈ websocketNames, Spelled hs name) (hup : Absent hs b!"Upgrade") (hco : Absent hs b!"Connection") :
    ∃ m hs', setWebsocketRequest base64 (some random) agent (some r) (.text url) protocol extensions =
        .ok (.ok, some { r with protocol := some b!"1.1", verb := some b!"GET", url := some url, mapHeader := m }) ∧
      HoldsParams m hs' ∧
      (∀ p origin, ∃ fs, (openingFields p origin hs').map asParam = fs ∧ Valid fs (some b!"HTTP/1.1") (some b!"GET") ∧
        Single fs b!"Sec-WebSocket-Key" key ∧
        (∀ x, protocol = some x → Single fs b!"Sec-WebSocket-Protocol" x) ∧
        (∀ x, extensions = some x → Single fs b!"Sec-WebSocket-Extensions" x)) ∧
      (∀ q, q.1 ∉ websocketNames → (q ∈ hs' ↔ q ∈ hs)) ∧
      (protocol = none → ∀ v, (b!"Sec-WebSocket-Protocol", v) ∈ hs' → (b!"Sec-WebSocket-Protocol", v) ∈ hs) ∧
      (Distinct hs → Distinct hs') ∧
      (∀ x, extensions = some x → (b!"Sec-WebSocket-Extensions", some x) ∈ hs') := by
  obtain ⟨m, e, h⟩ := prepare_eq base64 random agent key url r hs protocol extensions hh hk ht
  obtain ⟨s1, s2, s3, s4, s5⟩ := prepared_singles hsp (holds_nodup hh) protocol extensions agent key
  have keep : ∀ (k : Bytes) (v : Option Bytes) (l : List (Bytes × Option Bytes)) (q : Bytes × Option Bytes), q.1 ≠ k →
      (q ∈ Spec.OMap.put l k v ↔ q ∈ l) := by
    intro k v l q hq
    constructor
    · intro hm
      rcases put_keys _ _ _ _ hm with e | hm
      · exact absurd e hq
      · exact hm
    · intro hm
      unfold Spec.OMap.put
      split
      · exact List.mem_map.2 ⟨q, hm, by simp [hq]⟩
      · exact List.mem_append_left _ hm
  have keepS : ∀ (k : Bytes) (v : Option Bytes) (l : List (Bytes × Option Bytes)) (q : Bytes × Option Bytes), q.1 ≠ k →
      (q ∈ putSome l k v ↔ q ∈ l) := by
    intro k v l q hq
    cases v with
    | none => exact Iff.rfl
    | some x => exact keep k _ l q hq
  have s1' : ∀ n ∈ websocketNames, Spelled (putSome hs b!"Sec-WebSocket-Protocol" protocol) n := by
    intro n hn
    refine spelled_putSome (hsp n hn) _ _ ?_
    revert n
    decide
  refine ⟨m, _, e, h, ?_, ?_, ?_, ?_, ?_⟩
  · intro p origin
    refine ⟨_, rfl, ?_⟩
    have pre : ∀ name ∈ b!"" :: websocketNames, ∀ f ∈ [(b!"Host", p.host ++ b!":" ++ decimal (portOf p)), (b!"Upgrade", b!"websocket"),
        (b!"Connection", b!"Upgrade")] ++ (origin.map (fun o => (b!"Origin", o))).toList, ¬ sameName f.1 name := by
      intro name hname f hf
      have hf1 : f.1 ∈ [b!"Host", b!"Upgrade", b!"Connection", b!"Origin"] := by
        cases origin with
        | none => simp at hf; rcases hf with rfl | rfl | rfl <;> simp
        | some o => simp at hf; rcases hf with rfl | rfl | rfl | rfl <;> simp
      revert hf1
      generalize f.1 = x
      intro hx
      revert x
      revert name
      decide
    have S : ∀ name ∈ websocketNames, ∀ v, Single (prepared hs protocol extensions agent key) name v →
        Single ((openingFields p origin (prepared hs protocol extensions agent key)).map asParam) name v :=
      fun name hn v hsv => single_fields hsv _ (pre name (List.mem_cons_of_mem _ hn))
    have rest : ∀ name, ¬ sameName b!"Origin" name → Absent hs name → (∀ k ∈ websocketNames, ¬ sameName k name) →
        ∀ q ∈ (((origin.map (fun o => (b!"Origin", o))).toList ++ (prepared hs protocol extensions agent key).map fieldOf).map asParam), ¬ sameName q.1 name := by
      intro name ho ha hw q hq
      obtain ⟨f, hf, rfl⟩ := List.mem_map.1 hq
      rcases List.mem_append.1 hf with hf | hf
      · cases origin with
        | none => cases hf
        | some o => simp at hf; rw [hf]; exact ho
      · obtain ⟨x, hx, rfl⟩ := List.mem_map.1 hf
        rcases prepared_keys hx with hx | hx
        · exact hw _ hx
        · exact ha x hx
    refine ⟨⟨⟨b!"websocket", ?_, [], b!"websocket", [], rfl, rfl⟩, ⟨b!"Upgrade", ?_, [], b!"Upgrade", [], rfl, rfl⟩, ⟨key, S _ (by decide) _ s1⟩,
      S _ (by decide) _ s2, rfl, rfl⟩, S _ (by decide) _ s1, fun x hx => S _ (by decide) _ (s4 x hx), fun x hx => S _ (by decide) _ (s5 x hx)⟩
    · refine ⟨[asParam (b!"Host", p.host ++ b!":" ++ decimal (portOf p))], asParam (b!"Upgrade", b!"websocket"),
        asParam (b!"Connection", b!"Upgrade") :: (((origin.map (fun o => (b!"Origin", o))).toList ++ (prepared hs protocol extensions agent key).map fieldOf).map asParam),
        by simp [openingFields], rfl, rfl, ?_⟩
      intro q hq
      rcases List.mem_append.1 hq with hq | hq
      · rw [List.mem_singleton] at hq; subst hq; exact (by decide : ¬ sameName b!"Host" b!"Upgrade")
      · rcases List.mem_cons.1 hq with rfl | hq
        · exact (by decide : ¬ sameName b!"Connection" b!"Upgrade")
        · exact rest _ (by decide) hup (by decide) q hq
    · refine ⟨[asParam (b!"Host", p.host ++ b!":" ++ decimal (portOf p)), asParam (b!"Upgrade", b!"websocket")], asParam (b!"Connection", b!"Upgrade"),
        (((origin.map (fun o => (b!"Origin", o))).toList ++ (prepared hs protocol extensions agent key).map fieldOf).map asParam),
        by simp [openingFields], rfl, rfl, ?_⟩
      intro q hq
      rcases List.mem_append.1 hq with hq | hq
      · simp only [List.mem_cons, List.not_mem_nil, or_false] at hq
        rcases hq with rfl | rfl
        · exact (by decide : ¬ sameName b!"Host" b!"Connection")
        · exact (by decide : ¬ sameName b!"Upgrade" b!"Connection")
      · exact rest _ (by decide) hco (by decide) q hq
  · intro q hq
    have ne : ∀ k ∈ websocketNames, q.1 ≠ k := fun k hk e => hq (e ▸ hk)
    unfold prepared
    rw [keep _ _ _ _ (ne _ (by decide)), keep _ _ _ _ (ne _ (by decide)), keep _ _ _ _ (ne _ (by decide)),
      keepS _ _ _ _ (ne _ (by decide)), keepS _ _ _ _ (ne _ (by decide))]
  · rintro rfl v hv
    unfold prepared at hv
    rw [keep _ _ _ _ (by dsimp only; decide), keep _ _ _ _ (by dsimp only; decide), keep _ _ _ _ (by dsimp only; decide),
      keepS _ _ _ _ (by dsimp only; decide)] at hv
    exact hv
  · intro hd
    have d1 := distinct_putSome hd (hsp b!"Sec-WebSocket-Protocol" (by decide)) protocol
    have d2 := distinct_putSome d1 (spelled_putSome (hsp b!"Sec-WebSocket-Extensions" (by decide)) b!"Sec-WebSocket-Protocol" protocol (by decide)) extensions
    have s2 := fun n hn => spelled_putSome (s1' n hn) b!"Sec-WebSocket-Extensions" extensions
    have d3 := distinct_put d2 (s2 b!"Sec-WebSocket-Version" (by decide) (by decide)) (some b!"13")
    have d4 := distinct_put d3 (spelled_put (s2 b!"User-Agent" (by decide) (by decide)) _ _ (by decide))
      (some (b!"Ulfius Websocket Client Framework/" ++ agent))
    exact distinct_put d4 (spelled_put (spelled_put (s2 b!"Sec-WebSocket-Key" (by decide) (by decide)) _ _ (by decide)) _ _ (by decide)) (some key)
  · rintro x rfl
    unfold prepared
    rw [keep _ _ _ _ (by dsimp only; decide), keep _ _ _ _ (by dsimp only; decide), keep _ _ _ _ (by dsimp only; decide)]
    generalize putSome hs b!"Sec-WebSocket-Protocol" protocol = l
    rw [putSome, Spec.OMap.put]
    split
    · rename_i hx
      obtain ⟨q, hq, hq'⟩ := List.any_eq_true.1 hx
      exact List.mem_map.2 ⟨q, hq, if_pos hq'⟩
    · simp

/-- **C121**: success is reported only with a key: for a request with any headers, when there are no random bytes or they cannot be
encoded, the result is an error; nothing else can be reported for a missing request or URL either. -/
theorem C121_key (base64 : Bytes → Option Bytes) (random : Option Bytes) (agent : Bytes) (r : Option Request) (url : Spec.Options.Arg)
    (protocol extensions : Option Bytes) (c : WsOpen.Code) (r' : Option Request)
    (e : setWebsocketRequest base64 random agent r url protocol extensions = .ok (c, r')) (hc : c = .ok) :
    (∃ x key, random = some x ∧ base64 x = some key) ∧ r ≠ none ∧ ∃ u, url = .text u := by
  subst hc
  cases r with
  | none => cases url <;> simp [setWebsocketRequest] at e
  | some r =>
    cases url with
    | null => simp [setWebsocketRequest] at e
    | own => simp only [setWebsocketRequest] at e; split at e <;> simp at e
    | text u =>
      refine ⟨?_, by simp, u, rfl⟩
      cases random with
      | some x =>
        cases hb : base64 x with
        | some key => exact ⟨x, key, rfl, hb⟩
        | none =>
          exfalso
          simp only [setWebsocketRequest, Option.bind_some, hb] at e
          simp only [bind, Res.bind] at e
          repeat' split at e
          all_goals simp at e
      | none =>
        exfalso
        simp only [setWebsocketRequest, Option.bind_none] at e
        simp only [bind, Res.bind] at e
        repeat' split at e
        all_goals simp at e

/-- **C121 is false** when the caller already set one of the headers in another spelling: the handshake then has two keys. -/
theorem C121_spelling_false : ∃ r m, HoldsParams r.mapHeader [(b!"sec-websocket-key", some b!"k")] ∧
    setWebsocketRequest (fun _ => some b!"dGV4dA==") (some b!"text") b!"3" (some r) (.text b!"ws://h/") none none =
      .ok (.ok, some { r with protocol := some b!"1.1", verb := some b!"GET", url := some b!"ws://h/", mapHeader := m }) ∧
    HoldsParams m [(b!"sec-websocket-key", some b!"k"), (b!"Sec-WebSocket-Version", some b!"13"),
      (b!"User-Agent", some b!"Ulfius Websocket Client Framework/3"), (b!"Sec-WebSocket-Key", some b!"dGV4dA==")] := by
  obtain ⟨m0, h0⟩ := one_header b!"sec-websocket-key" b!"k" (by decide)
  obtain ⟨m, e, h⟩ := prepare_eq (fun _ => some b!"dGV4dA==") b!"text" b!"3" b!"dGV4dA==" b!"ws://h/" { mapHeader := m0 }
    [(b!"sec-websocket-key", some b!"k")] none none h0 rfl (by
      intro x hx
      rcases hx with rfl | rfl | hx | hx
      · decide
      · decide
      · cases hx
      · cases hx)
  exact ⟨{ mapHeader := m0 }, m, h0, e, h⟩

/-- **C121 is false** for the URL the request already has: it is read after it was freed. -/
theorem C121_own_false : setWebsocketRequest some (some b!"text") b!"3" (some { url := some b!"ws://h/" }) .own none none = .ub := rfl

example : ∃ m hs', HoldsParams m [(b!"X", some b!"1")] ∧ (∀ name ∈ websocketNames, Spelled [(b!"X", some b!"1")] name) ∧
    (∃ m', setWebsocketRequest some (some b!"r") b!"3" (some { mapHeader := m }) (.text b!"ws://h/") (some b!"p") none =
      .ok (.ok, some { protocol := some b!"1.1", verb := some b!"GET", url := some b!"ws://h/", mapHeader := m' }) ∧ HoldsParams m' hs') ∧
    hs' = [(b!"X", some b!"1"), (b!"Sec-WebSocket-Protocol", some b!"p"), (b!"Sec-WebSocket-Version", some b!"13"),
      (b!"User-Agent", some b!"Ulfius Websocket Client Framework/3"), (b!"Sec-WebSocket-Key", some b!"r")] := by
  obtain ⟨m, hm⟩ := one_header b!"X" b!"1" (by decide)
  obtain ⟨m', e, h⟩ := prepare_eq some b!"r" b!"3" b!"r" b!"ws://h/" { mapHeader := m } _ (some b!"p") none hm rfl (by
    intro x hx
    rcases hx with rfl | rfl | hx | hx
    · decide
    · decide
    · cases hx; decide
    · cases hx)
  refine ⟨m, _, hm, ?_, ⟨m', e, h⟩, by decide +kernel⟩
  intro name hn q hq
  rw [List.mem_singleton] at hq
  subst hq
  revert name
  decide

/-! ## C122 -/

private theorem scheme_free {s name : Bytes} (h : sameName s name) (d : UInt8) (hd : toLower d ∉ name.map toLower) : d ∉ s := by
  intro hm
  apply hd
  rw [← (show s.map toLower = name.map toLower from h)]
  exact List.mem_map.2 ⟨d, hm, rfl⟩

/-- A text that begins with a scheme and ':' is parsed with this scheme, if at all. -/
private theorem parse_scheme (s rest a : Bytes) (u : Yuarel.Url) (hne : s ≠ []) (h1 : (0x23 : UInt8) ∉ s) (h2 : (0x3f : UInt8) ∉ s)
    (h3 : (0x3a : UInt8) ∉ s) (h4 : s.head? ≠ some 0x2f) (h : Yuarel.parse (s ++ 0x3a :: rest) = .ok (some u, a)) : u.scheme = some s := by
  have cutp : ∀ (d : UInt8) (r : Bytes), d ∉ s → d ≠ 0x3a → ∃ r' o, Yuarel.cut d (s ++ 0x3a :: r) = (s ++ 0x3a :: r', o) := by
    intro d r hd hne
    have hd' : d ∉ s ++ [0x3a] := by simp [hd, hne]
    obtain ⟨k1, k2, k3⟩ := Yuarel.cut_spec d r
    cases ho : (Yuarel.cut d r).2 with
    | none =>
      have e := k3 ho
      refine ⟨r, none, ?_⟩
      apply Yuarel.cut_none
      rw [e]
      intro hm
      rcases List.mem_append.1 hm with hm | hm
      · exact hd hm
      · rcases List.mem_cons.1 hm with hm | hm
        · exact hne hm
        · exact k1 hm
    | some b =>
      have e := k2 b ho
      refine ⟨(Yuarel.cut d r).1, some b, ?_⟩
      have e' : s ++ 0x3a :: r = (s ++ 0x3a :: (Yuarel.cut d r).1) ++ d :: b := by
        rw [List.append_assoc, List.cons_append, ← e]
      rw [e']
      apply Yuarel.cut_found
      intro hm
      rcases List.mem_append.1 hm with hm | hm
      · exact hd hm
      · rcases List.mem_cons.1 hm with hm | hm
        · exact hne hm
        · exact k1 hm
  obtain ⟨r1, o1, c1⟩ := cutp 0x23 rest h1 (by decide)
  obtain ⟨r2, o2, c2⟩ := cutp 0x3f r1 h2 (by decide)
  have c3 : Yuarel.cut 0x3a (s ++ 0x3a :: r2) = (s, some r2) := Yuarel.cut_found _ _ _ h3
  have host : ∀ (url : Yuarel.Url) (x : Bytes) (r : Option Yuarel.Url) (v : Yuarel.Url), Yuarel.hostPart url x = .ok r → r = some v →
      v.scheme = url.scheme := by
    intro url x r v hh hr
    subst hr
    unfold Yuarel.hostPart at hh
    split at hh
    · cases hh
    · split at hh
      · split at hh
        · cases hh
        · rename_i hst pp _ _
          have fin : ∀ z : Res Int, (do
              let port ← z
              if hst = [] then return none
              return some { url with host := some hst, port := port } : Res (Option Yuarel.Url)) = .ok (some v) → v.scheme = url.scheme := by
            intro z hz
            cases z with
            | ub => cases hz
            | ok z =>
              rw [Res.ok_bind] at hz
              split at hz
              · cases hz
              · cases hz; rfl
          simp only at hh
          split at hh
          · exact fin _ hh
          · exact fin _ hh
      · cases hh; rfl
  have bnd : ∀ (url : Yuarel.Url) (x sch : Bytes), (do let r ← Yuarel.hostPart url x; return (r, sch) : Res (Option Yuarel.Url × Bytes)) = .ok (some u, a) →
      u.scheme = url.scheme := by
    intro url x sch hh
    cases hp : Yuarel.hostPart url x with
    | ub => rw [hp] at hh; cases hh
    | ok r =>
      rw [hp, Res.ok_bind] at hh
      cases hh
      exact host url x _ u hp rfl
  unfold Yuarel.parse at h
  simp only [c1, c2] at h
  split at h
  · rename_i t heq
    exfalso
    apply h4
    cases s with
    | nil => exact absurd rfl hne
    | cons x t' =>
      rw [List.cons_append] at heq
      injection heq with e _
      rw [List.head?_cons, e]
  · simp only [c3] at h
    split at h
    · rename_i sch r heq
      injection heq with e1 e2
      subst e1
      split at h
      · cases h
      · split at h
        · cases h
        · split at h
          · split at h
            · cases h
            · split at h
              · exact bnd _ _ _ h
              · cases h
          · exact bnd _ _ _ h
    · cases h

private theorem secure_tls {s : Bytes} (h : SecureScheme s) : isTls s = true ∧ isPlain s = false := by
  unfold isTls isPlain
  rcases h with h | h
  all_goals
    have e : ∀ x, eqCase x s = (fold x == s.map toLower) := fun _ => rfl
    rw [e, e, e, e, (show s.map toLower = _ from h)]
    decide

private theorem plain_tls {s : Bytes} (h : PlainScheme s) : isPlain s = true := by
  unfold isPlain
  rcases h with h | h
  all_goals
    have e : ∀ x, eqCase x s = (fold x == s.map toLower) := fun _ => rfl
    rw [e, e, (show s.map toLower = _ from h)]
    decide

private theorem credentials_keep {w : World} {r r' : Request} {u : Yuarel.Url} (h : urlCredentials w r u = .ok r') :
    r'.checkServer = r.checkServer := by
  unfold urlCredentials at h
  split at h
  · split at h
    · rename_i t _
      cases h1 : UMap.removeKey r.mapHeader (some b!"Authorization") with
      | ub => rw [h1] at h; cases h
      | ok q =>
        rw [h1, Res.ok_bind] at h
        cases h2 : UMap.put q.2 (some b!"Authorization") (some (b!"Basic: " ++ t)) with
        | ub => simp only [h2] at h; cases h
        | ok q' => simp only [h2, Res.ok_bind] at h; cases h; rfl
    · cases h; rfl
  · cases h; rfl

private theorem handshake_steps {w : World} {r : Request} {u : Yuarel.Url} {es : List CliExt} {st : Int} {x : WsOpen.Code × List Step × ClientResult}
    (h : connectionHandshake w r u es st = .ok x) : ∃ t rest, x.2.1 = .send t :: rest ∧ (rest = [] ∨ rest = [.close]) := by
  unfold connectionHandshake at h
  cases h1 : handshakeRequest r.verb r.protocol r.mapUrl r.mapHeader u with
  | ub => rw [h1] at h; cases h
  | ok t =>
    rw [h1, Res.ok_bind] at h
    cases h2 : UMap.enumKeys r.mapHeader with
    | ub => rw [h2] at h; cases h
    | ok ks =>
      rw [h2, Res.ok_bind] at h
      cases h3 : header r.mapHeader b!"Sec-WebSocket-Key" with
      | ub => rw [h3] at h; cases h
      | ok k =>
        rw [h3, Res.ok_bind] at h
        cases h4 : clientHandshake (w.acceptOk k) ks es st (w.replies t) with
        | ub => rw [h4] at h; cases h
        | ok c =>
          rw [h4, Res.ok_bind] at h
          cases h
          refine ⟨t, _, rfl, ?_⟩
          cases c.isOpen <;> simp

/-- **C122.** With a `wss` or `https` URL, whatever the rest of it, the request and the world: nothing is sent, or one request is sent on
a connection to the host of the URL (`C92_unique`: the URL can be split in one way only), after a TLS session for this host was established, in which the certificate was checked for this
name unless the request turns this off. -/
theorem C122_tls (w : World) (r : Request) (callbacks handler : Bool) (es : List CliExt) (st : Option Int) (s rest : Bytes) (o : Opened)
    (hurl : r.url = some (s ++ 0x3a :: rest)) (hs : SecureScheme s) (h : openClient w (some r) callbacks handler es st = .ok o) :
    sent o.steps = [] ∨
    ∃ p port t tail, s ++ 0x3a :: rest = render p ∧ Split p ∧ p.scheme = s ∧
      o.steps = [.socket, .connect p.host port, .tls p.host (if r.checkServer = 0 then none else some p.host), .send t] ++ tail ∧
      sent tail = [] ∧ w.handshake (if r.checkServer = 0 then none else some p.host) = true := by
  unfold openClient at h
  split at h
  · rename_i r' st' e1
    injection e1 with e1
    subst e1
    split at h
    · rw [hurl] at h
      simp only at h
      cases hp : Yuarel.parse (s ++ 0x3a :: rest) with
      | ub => rw [hp] at h; cases h
      | ok q =>
        rw [hp, Res.ok_bind] at h
        split at h
        · cases h; exact .inl rfl
        · rename_i u aft
          have free : (0x23 : UInt8) ∉ s ∧ (0x3f : UInt8) ∉ s ∧ (0x3a : UInt8) ∉ s ∧ (0x2f : UInt8) ∉ s ∧ s ≠ [] := by
            rcases hs with hs | hs
            · exact ⟨scheme_free hs _ (by decide), scheme_free hs _ (by decide), scheme_free hs _ (by decide), scheme_free hs _ (by decide),
                by rintro rfl; cases hs⟩
            · exact ⟨scheme_free hs _ (by decide), scheme_free hs _ (by decide), scheme_free hs _ (by decide), scheme_free hs _ (by decide),
                by rintro rfl; cases hs⟩
          obtain ⟨f1, f2, f3, f4, f5⟩ := free
          have hsc := parse_scheme s rest aft u f5 f1 f2 f3 (fun e => f4 (List.mem_of_head? e)) hp
          have hacc := C92_accepted_partial _ _ _ hp
          rcases hacc with ⟨path, e, -, -, hy⟩ | ⟨p, e, hsplit, -, hy⟩
          · exfalso
            rw [hy] at hsc
            cases hsc
          have hscp : p.scheme = s := by rw [hy] at hsc; simpa using hsc
          have hhost : u.host = some p.host := by rw [hy]
          have hg : u.scheme.getD [] = s := by rw [hsc]; rfl
          simp only [hg, secure_tls hs, Bool.or_true, if_true, Bool.false_eq_true, if_false] at h
          generalize hu' : (if u.port = 0 then ({ u with port := 443 } : Yuarel.Url) else u) = u' at h
          have hh' : u'.host = some p.host := by rw [← hu']; split <;> exact hhost
          cases hc : urlCredentials w r u' with
          | ub => rw [hc] at h; cases h
          | ok r1 =>
            rw [hc, Res.ok_bind] at h
            have hck := credentials_keep hc
            split at h
            · cases ht : openTls w r1 u' es st' with
              | ub => rw [ht] at h; cases h
              | ok x =>
                have key : sent x.2.1 = [] ∨ ∃ port t tail,
                    x.2.1 = [.socket, .connect p.host port, .tls p.host (if r.checkServer = 0 then none else some p.host), .send t] ++ tail ∧
                    sent tail = [] ∧ w.handshake (if r.checkServer = 0 then none else some p.host) = true := by
                  unfold openTls at ht
                  rw [hh'] at ht
                  simp only [hck] at ht
                  have hv : (if r.checkServer ≠ 0 then some p.host else none) = (if r.checkServer = 0 then none else some p.host) := by
                    by_cases h0 : r.checkServer = 0 <;> simp [h0]
                  rw [hv] at ht
                  generalize (if r.checkServer = 0 then none else some p.host) = ver at ht ⊢
                  split at ht
                  · split at ht
                    · split at ht
                      · split at ht
                        · split at ht
                          · rename_i hhs
                            cases hcn : connectionHandshake w r1 u' es st' with
                            | ub => rw [hcn] at ht; cases ht
                            | ok y =>
                              rw [hcn, Res.ok_bind] at ht
                              cases ht
                              obtain ⟨t, rst, ey, hr⟩ := handshake_steps hcn
                              refine .inr ⟨wirePort u'.port, t, rst, ?_, ?_, hhs⟩
                              · simp only [ey]; rfl
                              · rcases hr with rfl | rfl <;> rfl
                          · cases ht; exact .inl rfl
                        · cases ht; exact .inl rfl
                      · cases ht; exact .inl rfl
                    · cases ht; exact .inl rfl
                  · cases ht; exact .inl rfl
                rw [ht, Res.ok_bind] at h
                have fin : o.steps = x.2.1 := by
                  generalize hco : (if x.1 = WsOpen.Code.ok then WsOpen.Code.ok else WsOpen.Code.error) = co at h
                  split at h
                  · split at h
                    · cases h; rfl
                    · cases h
                  · cases h; rfl
                rw [fin]
                rcases key with k | ⟨port, t, tail, k1, k2, k3⟩
                · exact .inl k
                · exact .inr ⟨p, port, t, tail, e, hsplit, hscp, k1, k2, k3⟩
            · cases h
    · cases h; exact .inl rfl
  · cases h; exact .inl rfl

private theorem known_scheme {s : Bytes} (h : (isPlain s || isTls s) = true) : PlainScheme s ∨ SecureScheme s := by
  have e : ∀ x, eqCase x s = true → sameName s x := by
    intro x hx
    exact ((same_name x s).1 hx).symm
  unfold isPlain isTls at h
  simp only [Bool.or_eq_true] at h
  rcases h with (h | h) | (h | h)
  · exact .inl (.inr (e _ h))
  · exact .inl (.inl (e _ h))
  · exact .inr (.inr (e _ h))
  · exact .inr (.inl (e _ h))

/-- **C122, other schemes.** A URL that does not begin with one of the four schemes and ':' is refused without any effect on the
network or on the request. -/
theorem C122_other (w : World) (r : Request) (callbacks handler : Bool) (es : List CliExt) (st : Option Int) (url : Bytes) (o : Opened)
    (hurl : r.url = some url) (hs : ∀ s rest, url = s ++ 0x3a :: rest → ¬ PlainScheme s ∧ ¬ SecureScheme s)
    (h : openClient w (some r) callbacks handler es st = .ok o) : o.steps = [] ∧ o.code = .params ∧ o.request = some r := by
  unfold openClient at h
  split at h
  · rename_i r' st' e1
    injection e1 with e1
    subst e1
    split at h
    · rw [hurl] at h
      simp only at h
      cases hp : Yuarel.parse url with
      | ub => rw [hp] at h; cases h
      | ok q =>
        rw [hp, Res.ok_bind] at h
        split at h
        · cases h; exact ⟨rfl, rfl, rfl⟩
        · rename_i u aft
          have hno : (isPlain (u.scheme.getD []) || isTls (u.scheme.getD [])) = false := by
            rw [← Bool.not_eq_true]
            intro hk
            rcases C92_accepted_partial _ _ _ hp with ⟨path, e, -, -, hy⟩ | ⟨p, e, -, -, hy⟩
            · have hsc : u.scheme = none := by rw [hy]
              rw [hsc] at hk
              revert hk; decide
            · have hsc : u.scheme = some p.scheme := by rw [hy]
              rw [hsc] at hk
              have hk' := known_scheme hk
              simp only [Option.getD_some] at hk'
              have := hs p.scheme (0x2f :: 0x2f :: (credText p.cred ++ p.host ++ opt 0x3a p.port ++ opt 0x2f p.path ++ opt 0x3f p.query ++
                opt 0x23 p.fragment)) (by rw [e]; simp [render])
              rcases hk' with hk' | hk'
              · exact this.1 hk'
              · exact this.2 hk'
          simp only [hno, Bool.false_eq_true, if_false] at h
          cases h; exact ⟨rfl, rfl, rfl⟩
    · cases h; exact ⟨rfl, rfl, rfl⟩
  · cases h; exact ⟨rfl, rfl, rfl⟩

/-- The URL `wss://h/`. -/
private def secureUrl : Spec.UrlParts.Parts := ⟨b!"wss", none, b!"h", none, some [], none, none⟩

private theorem secure_given (w : World) (hw : w.base64 = fine.base64 ∧ w.thread = true) :
    Given w { url := some (render secureUrl) } secureUrl [] [] :=
  ⟨rfl, ⟨by decide, (by intro u w h; cases h), by decide, (by intro t h; cases h), (by intro t h; cases h; decide), (by intro t h; cases h)⟩,
    (by intro t h; cases h), .inr (by decide), holds_init, holds_init, (by rw [hw.1]; intro x t h; cases h; decide), hw.2⟩

/-- A request that is sent, and one that is not because the certificate does not fit. -/
example : (∃ o t, openClient fine (some { url := some b!"wss://h/" }) true true [] (some 0) = .ok o ∧ sent o.steps = [t]) ∧
    (∃ o, openClient { fine with handshake := fun n => n == some b!"other" } (some { url := some b!"wss://h/" }) true true [] (some 0) = .ok o ∧
      o.code = .error ∧ sent o.steps = []) := by
  constructor
  · obtain ⟨o, h1, h2⟩ := sent_text (secure_given fine ⟨rfl, rfl⟩) [] 0 (by decide)
    exact ⟨o, _, h1, h2⟩
  · obtain ⟨m, -, h⟩ := shape (secure_given { fine with handshake := fun n => n == some b!"other" } ⟨rfl, rfl⟩) [] 0
    rcases h with ⟨steps, h1, h2⟩ | ⟨before, c, h1, -, h2⟩
    · refine ⟨_, h2, rfl, ?_⟩
      have : network { fine with handshake := fun n => n == some b!"other" } { url := some (render secureUrl) } secureUrl =
        (none, [.socket, .connect b!"h" 443]) := by rfl
      rw [this] at h1
      cases h1
      rfl
    · exfalso
      have : network { fine with handshake := fun n => n == some b!"other" } { url := some (render secureUrl) } secureUrl =
        (none, [.socket, .connect b!"h" 443]) := by rfl
      rw [this] at h1
      cases h1

example : ∃ o, openClient fine (some { url := some b!"ftp://h/" }) true true [] (some 0) = .ok o ∧ o.steps = [] ∧ o.code = .params :=
  ⟨_, rfl, by decide, by decide⟩

/-! ## C123 -/

/-- **C123, partial.** Opening a websocket connects to the host and the port of the URL, and asks for a TLS session with this host, and
to nothing else. Missing: ports from 2^16 (`C123_port_false`). -/
theorem C123_connect_partial (w : World) (r : Request) (p : Spec.UrlParts.Parts) (hs us : List (Bytes × Option Bytes)) (es : List CliExt)
    (st : Int) (g : Given w r p hs us) :
    ∃ o, openClient w (some r) true true es (some st) = .ok o ∧
      (∀ host n, .connect host n ∈ o.steps → host = p.host ∧ n = portOf p) ∧
      (∀ name v, .tls name v ∈ o.steps → name = p.host) ∧
      (Reaches w r p → .connect p.host (portOf p) ∈ o.steps) := by
  obtain ⟨m, -, h⟩ := shape g es st
  rcases h with ⟨steps, h1, h2⟩ | ⟨before, c, h1, -, h2⟩
  · refine ⟨_, h2, ?_⟩
    rcases network_cases g with ⟨-, k⟩ | ⟨k0, st', k1, k2⟩
    · rw [h1] at k; cases k
    · rw [h1] at k1
      cases k1
      refine ⟨?_, ?_, fun hr => absurd hr k0⟩
      · rcases k2 with rfl | ⟨rfl, -⟩ | ⟨rfl, -⟩ | ⟨rfl, -⟩ <;> simp
      · rcases k2 with rfl | ⟨rfl, -⟩ | ⟨rfl, -⟩ | ⟨rfl, -⟩ <;> simp
  · refine ⟨_, h2, ?_⟩
    rcases network_cases g with ⟨k0, k⟩ | ⟨-, st', k1, -⟩
    · rw [h1] at k
      cases k
      refine ⟨?_, ?_, fun _ => by simp⟩
      · split <;> split <;> simp
      · split <;> split <;> simp +contextual
    · rw [h1] at k1; cases k1

/-- **C123 is false** for ports from 2^16: the number is cut to 16 bits for the connection, not in the request. -/
theorem C123_port_false : ∃ w r o t l fs, r.url = some b!"ws://h:65616/" ∧ openClient w (some r) true true [] (some 0) = .ok o ∧
    .connect b!"h" 80 ∈ o.steps ∧ sent o.steps = [t] ∧ message t = some (l, fs, []) ∧ (b!"Host", b!"h:65616") ∈ fs := by
  let p : Spec.UrlParts.Parts := ⟨b!"ws", none, b!"h", some b!"65616", some [], none, none⟩
  let r : Request := { protocol := some b!"1.1", verb := some b!"GET", url := some (render p) }
  obtain ⟨m, -, h⟩ := open_shape fine r p [] [] [] 0
    ⟨by decide, (by intro u w h; cases h), by decide, (by intro t h; cases h; decide), (by intro t h; cases h; decide), (by intro t h; cases h)⟩
    (by intro t h; cases h; decide) (.inl (by decide)) rfl holds_init holds_init (by intro x t h; cases h; decide) rfl
  have hn : network fine r p = (some [.socket, .connect b!"h" 80], []) := by decide +kernel
  rcases h with ⟨steps, h1, h2⟩ | ⟨before, c, h1, -, h2⟩
  · rw [hn] at h1; cases h1
  · rw [hn] at h1
    cases h1
    refine ⟨fine, r, _, openText (some b!"GET") (some b!"1.1") b!"h" 65616 (some []) none none [], b!"GET / HTTP/1.1",
      [(b!"Host", b!"h:65616"), (b!"Upgrade", b!"websocket"), (b!"Connection", b!"Upgrade")], rfl, h2, ?_, ?_, by decide +kernel, by decide⟩
    · simp
    · simp only [sent]
      split <;> rfl

/-! ## C124 -/

/-- The headers without those of this name. -/
def without (name : Bytes) (hs : List (Bytes × Option Bytes)) : List (Bytes × Option Bytes) := hs.filter (fun q => ¬ sameName q.1 name)

private theorem without_eq {hs : List (Bytes × Option Bytes)} {name : Bytes} (h : Spelled hs name) :
    hs.filter (fun q => !(q.1 == name)) = without name hs := by
  unfold without
  apply List.filter_congr
  intro q hq
  by_cases e : q.1 = name
  · rw [e]; simp [sameName]
  · have : ¬ sameName q.1 name := fun hn => e (h q hq hn)
    simp [e, this]

/-- **C124, partial.** With user and password in the URL, the request sent has exactly one field `Authorization`, at the end, that ends with
base64 of `user:password`, instead of a header of this name in the request; all other fields are those of C120. Missing: the scheme of the
field (`C124_basic_false`), and that the request of the caller stays as it is (`C124_request_false`). -/
theorem C124_credentials_partial (w : World) (r : Request) (p : Spec.UrlParts.Parts) (hs us : List (Bytes × Option Bytes)) (es : List CliExt)
    (st : Int) (g : Given w r p hs us) (user password token : Bytes) (hcred : p.cred = some (user, password))
    (htok : w.base64 (user ++ b!":" ++ password) = some token) (hv : r.verb = some b!"GET") (hpr : r.protocol = some b!"1.1")
    (hf : FineUrl p) (hd : Distinct hs) (hsp : Spelled hs b!"Authorization") (hh : FineHeaders hs) (htv : Value token) (hne : token ≠ [])
    (origin : Option Bytes) (ho : OriginIs us origin) :
    ∃ o t scheme, openClient w (some r) true true es (some st) = .ok o ∧ sent o.steps = (if Reaches w r p then [t] else []) ∧
      message t = some (b!"GET " ++ target p ++ b!" HTTP/1.1",
        openingFields p origin (without b!"Authorization" hs) ++ [(b!"Authorization", scheme ++ b!" " ++ token)], []) := by
  let hs' := without b!"Authorization" hs ++ [(b!"Authorization", some (b!"Basic: " ++ token))]
  have hwc : withCredentials w.base64 p.cred hs = hs' := by
    rw [hcred]
    simp only [withCredentials]
    rw [htok]
    simp only
    rw [without_eq hsp]
  have hd' : Distinct hs' := by
    unfold Distinct
    rw [List.pairwise_append]
    refine ⟨List.Pairwise.filter _ hd, List.pairwise_singleton _ _, ?_⟩
    intro a ha b hb
    rw [List.mem_singleton] at hb
    subst hb
    have := (List.mem_filter.1 ha).2
    simpa using this
  have hh' : FineHeaders hs' := by
    intro q hq
    rcases List.mem_append.1 hq with hq | hq
    · exact hh q ((List.mem_filter.1 hq).1)
    · rw [List.mem_singleton] at hq
      subst hq
      refine ⟨by dsimp only; decide, ?_⟩
      intro v hv
      cases hv
      obtain ⟨v1, v2, -, v4⟩ := htv
      refine ⟨?_, ?_, ?_, ?_⟩
      · simp [v1]
      · simp [v2]
      · intro c hc; cases hc; decide
      · intro c hc
        rw [List.getLast?_append, List.getLast?_eq_some_getLast hne, Option.some_or] at hc
        exact v4 c (by rw [List.getLast?_eq_some_getLast hne, hc])
  have hmsg := text_message hf g.wf origin (by intro o e; subst e; exact ho.2) hs' hd' hh'
  have hfs : openingFields p origin hs' = openingFields p origin (without b!"Authorization" hs) ++ [(b!"Authorization", b!"Basic:" ++ b!" " ++ token)] := by
    simp [openingFields, hs', fieldOf]
  rw [hfs] at hmsg
  obtain ⟨m, -, h⟩ := shape g es st
  rw [hwc, hv, hpr, shown_first ho] at h
  rcases h with ⟨steps, h1, h2⟩ | ⟨before, c, h1, -, h2⟩
  · refine ⟨_, _, _, h2, ?_, hmsg⟩
    rcases network_cases g with ⟨-, k⟩ | ⟨k0, st', k1, k2⟩
    · rw [h1] at k; cases k
    · rw [h1] at k1
      cases k1
      rw [if_neg k0]
      rcases k2 with rfl | ⟨rfl, -⟩ | ⟨rfl, -⟩ | ⟨rfl, -⟩ <;> rfl
  · refine ⟨_, _, _, h2, ?_, hmsg⟩
    rcases network_cases g with ⟨k0, k⟩ | ⟨-, st', k1, -⟩
    · rw [h1] at k
      cases k
      rw [if_pos k0]
      simp only [sent]
      split <;> split <;> rfl
    · rw [h1] at k1; cases k1

/-- The URL `ws://u:p@h/`. -/
private def userUrl : Spec.UrlParts.Parts := ⟨b!"ws", some (b!"u", b!"p"), b!"h", none, some [], none, none⟩

private def userAsking (m : UMap) : Request := { protocol := some b!"1.1", verb := some b!"GET", url := some (render userUrl), mapHeader := m }

private theorem user_given {m : UMap} {hs : List (Bytes × Option Bytes)} (h : HoldsParams m hs) : Given fine (userAsking m) userUrl hs [] :=
  ⟨rfl, ⟨by decide, (by intro u w h; cases h; decide), by decide, (by intro t h; cases h), (by intro t h; cases h; decide), (by intro t h; cases h)⟩,
    (by intro t h; cases h), .inl (by decide), h, holds_init, (by intro x t h; cases h; decide), rfl⟩

/-- **C124 is false** for the scheme of the field: it is `Basic:`, not `Basic`. -/
theorem C124_basic_false : ∃ w r p o t l fs, Given w r p [] [] ∧ p.cred = some (b!"u", b!"p") ∧ w.base64 b!"u:p" = some b!"dGV4dA==" ∧
    openClient w (some r) true true [] (some 0) = .ok o ∧ sent o.steps = [t] ∧ message t = some (l, fs, []) ∧
    fs.filter (fun f => f.1 == b!"Authorization") = [(b!"Authorization", b!"Basic: dGV4dA==")] := by
  have g := user_given (m := UMap.init) holds_init
  obtain ⟨o, h1, h2⟩ := sent_text g [] 0 ⟨rfl, rfl, rfl, .inl (by decide)⟩
  exact ⟨_, _, _, o, _, b!"GET / HTTP/1.1", [(b!"Host", b!"h:80"), (b!"Upgrade", b!"websocket"), (b!"Connection", b!"Upgrade"),
    (b!"Authorization", b!"Basic: dGV4dA==")], g, rfl, rfl, h1, h2,
    by show message (openText (some b!"GET") (some b!"1.1") _ _ _ _ _ _) = _; decide +kernel, by decide⟩

/-- **C124 is false** for the request of the caller: its header `Authorization` is replaced. -/
theorem C124_request_false : ∃ w r p o r', Given w r p [(b!"Authorization", some b!"Bearer x")] [] ∧
    openClient w (some r) true true [] (some 0) = .ok o ∧ o.request = some r' ∧
    HoldsParams r'.mapHeader [(b!"Authorization", some b!"Basic: dGV4dA==")] := by
  obtain ⟨m0, hm⟩ := one_header b!"Authorization" b!"Bearer x" (by decide)
  have g := user_given hm
  obtain ⟨m, h0, h⟩ := shape g [] 0
  rcases h with ⟨steps, h1, h2⟩ | ⟨before, c, h1, -, h2⟩
  · exact ⟨_, _, _, _, _, g, h2, rfl, h0⟩
  · exact ⟨_, _, _, _, _, g, h2, rfl, h0⟩

example : Given fine (userAsking UMap.init) userUrl [] [] ∧ FineUrl userUrl ∧ Spelled [] b!"Authorization" ∧
    Value b!"dGV4dA==" ∧ OriginIs [] none :=
  ⟨user_given holds_init, ⟨by decide, by decide, by decide⟩, nofun, by decide, nofun⟩

/-! ## C125 -/

/-- Sockets opened and not closed. -/
def openSockets (steps : List Step) : Nat := steps.count .socket - steps.count .close

/-- **C125, partial.** When the opening of a websocket fails, no socket stays open, provided that the name of the host can be resolved, that
a TLS handshake succeeds, and that the handle has no extensions; at most one socket is opened, and it is closed at most once, in every
case. Missing: these three cases (`C125_resolve_false`, `C125_tls_false`, `C125_extension_false`). -/
theorem C125_closed_partial (w : World) (r : Request) (p : Spec.UrlParts.Parts) (hs us : List (Bytes × Option Bytes)) (es : List CliExt)
    (st : Int) (g : Given w r p hs us) :
    ∃ o, openClient w (some r) true true es (some st) = .ok o ∧
      o.steps.count .close ≤ o.steps.count .socket ∧ o.steps.count .socket ≤ 1 ∧
      (o.code ≠ .ok → es = [] → w.resolves p.host = true → w.handshake (nameChecked r p) = true → openSockets o.steps = 0) := by
  obtain ⟨m, -, h⟩ := shape g es st
  rcases h with ⟨steps, h1, h2⟩ | ⟨before, c, h1, hc, h2⟩
  · refine ⟨_, h2, ?_⟩
    dsimp only
    rcases network_cases g with ⟨-, k⟩ | ⟨k0, st', k1, k2⟩
    · rw [h1] at k; cases k
    · rw [h1] at k1
      cases k1
      rcases k2 with rfl | ⟨rfl, -⟩ | ⟨rfl, hr⟩ | ⟨rfl, -, ht⟩
      · exact ⟨by decide, by decide, fun _ _ _ _ => by decide⟩
      · exact ⟨by decide, by decide, fun _ _ _ _ => by decide⟩
      · exact ⟨by decide, by decide, fun _ _ h _ => by rw [hr] at h; cases h⟩
      · refine ⟨by simp, by simp, fun _ _ _ h => by rw [ht] at h; cases h⟩
  · refine ⟨_, h2, ?_⟩
    dsimp only
    rcases network_cases g with ⟨k0, k⟩ | ⟨-, st', k1, -⟩
    · rw [h1] at k
      cases k
      refine ⟨?_, ?_, ?_⟩
      · split <;> split <;> simp
      · split <;> split <;> simp
      · intro hne he _ _
        subst he
        have hok : c.ok = false := by
          cases h : c.ok with
          | false => rfl
          | true => simp only [h, if_true] at hne; exact absurd rfl hne
        have := clientHandshake_closed _ _ _ _ _ hc hok
        rw [this]
        unfold openSockets
        split <;> simp
    · rw [h1] at k1; cases k1

private theorem plain_network (w : World) (r : Request) (hw : w.socket = true) : network w r plainUrl =
    if w.resolves b!"h" then if w.connects b!"h" 80 then (some [.socket, .connect b!"h" 80], []) else (none, [.socket, .close]) else (none, [.socket]) := by
  have e : network w r plainUrl = if w.socket then if w.resolves b!"h" then if w.connects b!"h" 80 then (some [.socket, .connect b!"h" 80], [])
    else (none, [.socket, .close]) else (none, [.socket]) else (none, []) := rfl
  rw [e, hw]; rfl

/-- **C125 is false** whenever the name of the host cannot be resolved, for every request: the socket, made before, is not closed. -/
theorem C125_resolve_false (w : World) (r : Request) (p : Spec.UrlParts.Parts) (hs us : List (Bytes × Option Bytes)) (es : List CliExt)
    (st : Int) (g : Given w r p hs us) (hk : w.socket = true ∧ w.gnutls = true) (hr : w.resolves p.host = false) :
    ∃ o, openClient w (some r) true true es (some st) = .ok o ∧ o.code = .error ∧ openSockets o.steps = 1 := by
  have hn : network w r p = (none, [.socket]) := by
    unfold network
    simp [hk.1, hk.2, hr]
  obtain ⟨m, -, h⟩ := shape g es st
  rw [hn] at h
  rcases h with ⟨steps, h1, h2⟩ | ⟨before, c, h1, -, h2⟩
  · cases h1; exact ⟨_, h2, rfl, rfl⟩
  · cases h1

example : ∃ r, Given { fine with resolves := fun _ => false } r plainUrl [] [] :=
  ⟨asking UMap.init UMap.init, rfl, plainUrl_wf, (by intro t h; cases h), .inl (by decide), holds_init, holds_init,
    (by intro x t h; cases h; decide), rfl⟩

/-- **C125 is false** whenever the TLS handshake fails, for every request. -/
theorem C125_tls_false (w : World) (r : Request) (p : Spec.UrlParts.Parts) (hs us : List (Bytes × Option Bytes)) (es : List CliExt)
    (st : Int) (g : Given w r p hs us) (hs' : ¬ PlainScheme p.scheme) (hk : w.socket = true ∧ w.gnutls = true)
    (hr : w.resolves p.host = true) (hc : w.connects p.host (portOf p) = true) (ht : w.handshake (nameChecked r p) = false) :
    ∃ o, openClient w (some r) true true es (some st) = .ok o ∧ o.code = .error ∧ openSockets o.steps = 1 := by
  have hm : portOf p % 2 ^ 16 = portOf p := Nat.mod_eq_of_lt (port_lt g.port)
  have hv : verifyOf r p.host = nameChecked r p := rfl
  have hn : network w r p = (none, [.socket, .connect p.host (portOf p)]) := by
    unfold network
    simp only [hm, hv]
    simp [hk.1, hk.2, hr, hs', hc, ht]
  obtain ⟨m, -, h⟩ := shape g es st
  rw [hn] at h
  rcases h with ⟨steps, h1, h2⟩ | ⟨before, c, h1, -, h2⟩
  · cases h1; exact ⟨_, h2, rfl, by simp [openSockets]⟩
  · cases h1

example : ∃ r, Given { fine with handshake := fun n => n == some b!"other" } r secureUrl [] [] ∧
    nameChecked r secureUrl = some b!"h" ∧ ¬ PlainScheme secureUrl.scheme :=
  ⟨_, secure_given { fine with handshake := fun n => n == some b!"other" } ⟨rfl, rfl⟩, by decide, by decide⟩

private theorem readable_line (l : Bytes) (h1 : (0x0d : UInt8) ∉ l) (h2 : NoNul l) (h3 : Utf8.utf8Ok l = true) (h4 : l.length ≤ 4094) :
    Spec.Handshake.ReadableLine l := ⟨h1, h2, (C05_utf8Ok l).1 h3, h4⟩

/-- The server answers with an extension the client did not ask for. -/
private def unasked : List Bytes := [b!"HTTP/1.1 101 x", b!"Upgrade: websocket", b!"Sec-WebSocket-Extensions:b"]

private theorem unasked_open (f : Bytes → Bool) (keys : List Bytes) : ∃ c,
    clientHandshake f keys [{ rsv := 0x40, client := some b!"a" }] 0 [.seg (Spec.Handshake.crlf unasked ++ b!"\r\n")] = .ok c ∧
      c.ok = false ∧ c.isOpen = true ∧ c.status = 101 := by
  have hl : ∀ l ∈ unasked, Spec.Handshake.ReadableLine l ∧ l ≠ [] ∧ Utf8.utf8Ok l = true := by
    intro l hl
    have : ((0x0d : UInt8) ∉ l ∧ NoNul l ∧ Utf8.utf8Ok l = true ∧ l.length ≤ 4094) ∧ l ≠ [] := by
      revert l; decide +kernel
    exact ⟨readable_line l this.1.1 this.1.2.1 this.1.2.2.1 this.1.2.2.2, this.2, this.1.2.2.1⟩
  obtain ⟨r1, e1, e2⟩ := nextLine_readable b!"HTTP/1.1 101 x" (Spec.Handshake.crlf [b!"Upgrade: websocket", b!"Sec-WebSocket-Extensions:b"] ++ b!"\r\n")
    [.seg (Spec.Handshake.crlf unasked ++ b!"\r\n")] (hl _ (by simp [unasked])).2.2 (hl _ (by simp [unasked])).1 (by rfl)
  obtain ⟨s', r', e3, e4⟩ := headerLoop_lines f [b!"Upgrade: websocket", b!"Sec-WebSocket-Extensions:b"] b!"\r\n" false (.blank []) {} [] r1 rfl good_nil rfl
    (fun l h => hl l (by simp only [unasked]; exact List.mem_cons_of_mem _ h)) e2
  have x1 : s'.upgrade = true := congrArg Seen.upgrade e4
  have x2 : s'.broken = false := congrArg Seen.broken e4
  have x3 : s'.extensions = some b!"b" := congrArg Seen.extensions e4
  unfold clientHandshake
  have hst : statusLine b!"HTTP/1.1 101 x" = some 101 := by decide +kernel
  simp only [e1, Option.bind_some, hst, Option.getD_some, Option.isNone_some, Bool.false_or, if_true, e3, Res.ok_bind]
  have hb : someBit keys s' = true := by unfold someBit; rw [x1]; simp
  have hn : cliNegotiate (some b!"b") [{ rsv := 0x40, client := some b!"a" }] = ([{ rsv := 0x40, client := some b!"a" }], 0, false) := by
    have : splitString 0x2c b!"b" = [b!"b"] := by rw [splitString_eq]; decide
    unfold cliNegotiate
    simp only [this]
    rfl
  simp only [hb, x3, hn, x2]
  exact ⟨_, rfl, rfl, rfl, rfl⟩

/-- **C125 is false** when the server answers with an extension that was not asked for. -/
theorem C125_extension_false : ∃ w r p o, Given w r p [] [] ∧ Reaches w r p ∧
    (∀ t, w.replies t = [.seg (Spec.Handshake.crlf [b!"HTTP/1.1 101 x", b!"Upgrade: websocket", b!"Sec-WebSocket-Extensions:b"] ++ b!"\r\n")]) ∧
    openClient w (some r) true true [{ rsv := 0x40, client := some b!"a" }] (some 0) = .ok o ∧ o.code = .error ∧
    openSockets o.steps = 1 := by
  let w : World := { fine with replies := fun _ => [.seg (Spec.Handshake.crlf unasked ++ b!"\r\n")] }
  have g : Given w (asking UMap.init UMap.init) plainUrl [] [] :=
    ⟨rfl, plainUrl_wf, (by intro t h; cases h), .inl (by decide), holds_init, holds_init, (by intro x t h; cases h; decide), rfl⟩
  obtain ⟨m, -, h⟩ := shape g [{ rsv := 0x40, client := some b!"a" }] 0
  rw [plain_network _ _ rfl] at h
  rcases h with ⟨steps, h1, h2⟩ | ⟨before, c, h1, hc, h2⟩
  · cases h1
  · obtain ⟨c', e1, e2, e3, e4⟩ := unasked_open (w.acceptOk (shown (withCredentials w.base64 plainUrl.cred []) b!"Sec-WebSocket-Key"))
      ((withCredentials w.base64 plainUrl.cred []).map (·.1))
    have : Res.ok c' = Res.ok c := e1.symm.trans hc
    cases this
    cases h1
    refine ⟨_, _, _, _, g, ⟨rfl, rfl, rfl, .inl (by decide)⟩, fun _ => rfl, h2, ?_, ?_⟩
    · simp [e2, e4]
    · simp only [e3, if_true]; rfl

/-! ## C126 -/

/-- What a registration of an extension needs: a name, a function for at least one direction, exactly one of the three RSV bits. -/
def Registrable (a : Reg) : Prop :=
  (∃ n, a.name = some n ∧ n ≠ []) ∧ (a.out = true ∨ a.inc = true) ∧ a.rsv ∈ [(0x40 : UInt8), 0x20, 0x10]

private theorem registrable_iff (a : Reg) : regOk a = true ↔ Registrable a := by
  unfold regOk Registrable
  simp only [Bool.and_eq_true, Bool.or_eq_true, bne_iff_ne, ne_eq, beq_iff_eq, List.mem_cons, List.not_mem_nil, or_false]
  constructor
  · rintro ⟨⟨h1, h2⟩, h3⟩
    refine ⟨?_, h2, by rcases h3 with (h | h) | h <;> simp [h]⟩
    cases hn : a.name with
    | none => rw [hn] at h1; exact absurd rfl h1
    | some n => rw [hn] at h1; exact ⟨n, rfl, h1⟩
  · rintro ⟨⟨n, h0, h1⟩, h2, h3⟩
    refine ⟨⟨by rw [h0]; exact h1, h2⟩, by rcases h3 with h | h | h <;> simp [h]⟩

instance (a : Reg) : Decidable (Registrable a) := decidable_of_iff _ (registrable_iff a)

private theorem addAll_eq (client : Bool) (l : List Stored) (as : List Reg) :
    addAll client l as = (as.map (fun a => if Registrable a then WsOpen.Code.ok else .params), l ++ (as.filter Registrable).map (fun a => ⟨a, !client⟩)) := by
  induction as generalizing l with
  | nil => simp [addAll]
  | cons a t ih =>
    unfold addAll addExtension
    by_cases h : Registrable a
    · have := (registrable_iff a).2 h
      simp [this, ih, h]
    · have : regOk a = false := by
        rw [← Bool.not_eq_true]; exact fun e => h ((registrable_iff a).1 e)
      simp [this, ih, h]

private theorem srvItem_rsv (x : Nat) (es : List SrvExt) (n : Nego) : (srvItem x es n).1.map (·.rsv) = es.map (·.rsv) := by
  induction es generalizing n with
  | nil => rfl
  | cons e t ih =>
    unfold srvItem
    split
    · simp [ih]
    · split
      · simp only
        split
        · simp [ih]
        · split <;> simp
      · split
        · split
          · simp
          · simp [ih]
        · simp [ih]

private theorem srvNegotiate_rsv (offer : Bytes) (es : List SrvExt) : (srvNegotiate offer es).1.map (·.rsv) = es.map (·.rsv) := by
  have : ∀ (xs : List Nat) (es : List SrvExt) (n : Nego), (srvItems xs es n).1.map (·.rsv) = es.map (·.rsv) := by
    intro xs
    induction xs with
    | nil => intro es n; rfl
    | cons x t ih => intro es n; rw [srvItems, ih, srvItem_rsv]
  exact this _ _ _

private theorem cliItem_rsv (i : Nat) (item : Bytes) (es : List CliExt) (rsv : UInt8) : (cliItem i item es rsv).1.map (·.rsv) = es.map (·.rsv) := by
  induction es with
  | nil => rfl
  | cons e t ih =>
    unfold cliItem
    split
    · simp [ih]
    · split
      · split <;> simp
      · simp [ih]

private theorem cliNegotiate_rsv (answer : Option Bytes) (es : List CliExt) : (cliNegotiate answer es).1.map (·.rsv) = es.map (·.rsv) := by
  have : ∀ (xs : List Bytes) (i : Nat) (es : List CliExt) (r : UInt8), (cliItems i xs es r).1.map (·.rsv) = es.map (·.rsv) := by
    intro xs
    induction xs with
    | nil => intro i es n; rfl
    | cons x t ih =>
      intro i es r
      have := cliItem_rsv i x es r
      unfold cliItems
      split
      · rename_i heq; rw [heq] at this; rw [ih]; exact this
      · rename_i heq; rw [heq] at this; exact this
  unfold cliNegotiate
  split
  · rfl
  · split
    · rfl
    · exact this _ _ _ _

private theorem three_bits (l : List UInt8) (h : ∀ x ∈ l, x ∈ [(0x40 : UInt8), 0x20, 0x10]) (hp : l.Pairwise (fun a b => a &&& b = 0)) :
    l.length ≤ 3 ∧ l.Nodup := by
  have hn : l.Nodup := by
    apply List.Pairwise.imp_of_mem ?_ hp
    rintro a b ha - hab rfl
    have := h a ha
    have hz : ∀ x ∈ [(0x40 : UInt8), 0x20, 0x10], x &&& x ≠ 0 := by decide
    exact hz a this hab
  exact ⟨(List.subperm_of_subset hn h).length_le, hn⟩

/-- **C126, partial.** A sequence of registrations of extensions, on a response or on a client handle, accepts exactly those that have a name,
a function and one of the three RSV bits, in their order; and whatever was registered, whatever the match functions answer and whatever the
peer sends, at most three of them are enabled, with different RSV bits, and no other bit is ever expected. On the server the context of an
extension is NULL until its match function sets it. Missing: the same for the client (`C126_context_false`). -/
theorem C126_register_partial (client : Bool) (as : List Reg) :
    (addAll client [] as).1 = as.map (fun a => if Registrable a then .ok else .params) ∧
    ((addAll client [] as).2.map (·.reg)) = as.filter Registrable ∧
    (∀ (matcher : Stored → Option (Nat → Bytes → List Bytes → Option (Option Bytes))) (offer : Bytes),
      let r := srvNegotiate offer ((addAll client [] as).2.map (fun s => toServer s (matcher s)))
      (srvBits r.1).length ≤ 3 ∧ (srvBits r.1).Nodup ∧ r.2.rsv &&& 0x8f = 0) ∧
    (∀ (matcher : Stored → Option (Nat → Bytes → Bool)) (answer : Option Bytes),
      let r := cliNegotiate answer ((addAll client [] as).2.map (fun s => toClient s (matcher s)))
      (cliBits r.1).length ≤ 3 ∧ (cliBits r.1).Nodup ∧ r.2.1 &&& 0x8f = 0) ∧
    (client = false → ∀ s ∈ (addAll client [] as).2, ∀ set, contextRead s set = .ok set) := by
  rw [addAll_eq]
  simp only [List.nil_append, List.map_map, Function.comp_def, List.map_id']
  have bits : ∀ l : List UInt8, (∀ x ∈ l, x ∈ [(0x40 : UInt8), 0x20, 0x10]) → l.foldr (· ||| ·) 0 &&& 0x8f = 0 := by
    intro l hl
    have z : ∀ x ∈ [(0x40 : UInt8), 0x20, 0x10], (0x8f : UInt8) &&& x = 0 := by decide
    rw [UInt8.and_comm]
    exact (and_union_zero 0x8f l).2 (fun x hx => z x (hl x hx))
  refine ⟨trivial, trivial, ?_, ?_, ?_⟩
  · intro matcher offer
    generalize hes : ((as.filter Registrable).map (fun a => toServer ⟨a, !client⟩ (matcher ⟨a, !client⟩))) = es
    have hr : ∀ x ∈ es.map (·.rsv), x ∈ [(0x40 : UInt8), 0x20, 0x10] := by
      intro x hx
      rw [← hes, List.map_map, List.mem_map] at hx
      obtain ⟨a, ha, rfl⟩ := hx
      exact (of_decide_eq_true (List.mem_filter.1 ha).2).2.2
    have hoff : ∀ e ∈ es, e.enabled = false := by
      intro e he
      rw [← hes, List.mem_map] at he
      obtain ⟨a, -, rfl⟩ := he
      rfl
    obtain ⟨⟨h1, h2⟩, -⟩ := C52_disjoint offer es hoff none [] nofun
    have hb : ∀ x ∈ srvBits (srvNegotiate offer es).1, x ∈ [(0x40 : UInt8), 0x20, 0x10] := by
      intro x hx
      unfold srvBits at hx
      rw [List.mem_map] at hx
      obtain ⟨e, he, rfl⟩ := hx
      have : e.rsv ∈ (srvNegotiate offer es).1.map (·.rsv) := List.mem_map.2 ⟨e, (List.mem_filter.1 he).1, rfl⟩
      rw [srvNegotiate_rsv] at this
      exact hr _ this
    obtain ⟨t1, t2⟩ := three_bits _ hb h1
    exact ⟨t1, t2, by rw [h2]; exact bits _ hb⟩
  · intro matcher answer
    generalize hes : ((as.filter Registrable).map (fun a => toClient ⟨a, !client⟩ (matcher ⟨a, !client⟩))) = es
    have hr : ∀ x ∈ es.map (·.rsv), x ∈ [(0x40 : UInt8), 0x20, 0x10] := by
      intro x hx
      rw [← hes, List.map_map, List.mem_map] at hx
      obtain ⟨a, ha, rfl⟩ := hx
      exact (of_decide_eq_true (List.mem_filter.1 ha).2).2.2
    have hoff : ∀ e ∈ es, e.enabled = false := by
      intro e he
      rw [← hes, List.mem_map] at he
      obtain ⟨a, -, rfl⟩ := he
      rfl
    obtain ⟨-, h1, h2⟩ := C52_disjoint [] [] nofun answer es hoff
    have hb : ∀ x ∈ cliBits (cliNegotiate answer es).1, x ∈ [(0x40 : UInt8), 0x20, 0x10] := by
      intro x hx
      unfold cliBits at hx
      rw [List.mem_map] at hx
      obtain ⟨e, he, rfl⟩ := hx
      have : e.rsv ∈ (cliNegotiate answer es).1.map (·.rsv) := List.mem_map.2 ⟨e, (List.mem_filter.1 he).1, rfl⟩
      rw [cliNegotiate_rsv] at this
      exact hr _ this
    obtain ⟨t1, t2⟩ := three_bits _ hb h1
    exact ⟨t1, t2, by rw [h2]; exact bits _ hb⟩
  · rintro rfl s hs set
    rw [List.mem_map] at hs
    obtain ⟨a, -, rfl⟩ := hs
    cases set <;> rfl

/-- **C126 is false** for the context on the client: an extension without match function that is enabled works with a pointer nobody set. -/
theorem C126_context_false : ∃ a s, Registrable a ∧ (addAll true [] [a]).2 = [s] ∧
    (cliNegotiate (some b!"x") [toClient s none]).2.2 = true ∧ contextRead s false = .ub := by
  refine ⟨⟨some b!"x", 0x40, true, false⟩, ⟨⟨some b!"x", 0x40, true, false⟩, false⟩, by decide, rfl, ?_, rfl⟩
  have : splitString 0x2c b!"x" = [b!"x"] := by rw [splitString_eq]; decide
  unfold cliNegotiate
  simp only [this]
  rfl

example : (addAll false [] [⟨some b!"a", 0x40, true, true⟩, ⟨some b!"b", 0x60, true, true⟩, ⟨none, 0x20, true, true⟩, ⟨some b!"c", 0x20, false, true⟩]) =
    ([.ok, .params, .params, .ok], [⟨⟨some b!"a", 0x40, true, true⟩, true⟩, ⟨⟨some b!"c", 0x20, false, true⟩, true⟩]) := by decide

end Verif.Props
