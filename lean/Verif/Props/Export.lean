import Verif.Props.Client
import Verif.Props.Utf8
import Verif.Props.Yuarel
import Verif.Lemmas.Http
/-! # C93, C94: the exported text of messages -/
namespace Verif.Props
open Verif.Message Verif.UMap Verif.Spec.Http Verif.Printf

private theorem holds_keys {m : UMap} {hs : List (Bytes × Option Bytes)} (h : HoldsParams m hs) (name : Bytes) :
    UMap.hasKeyCase m (some name) = .ok (hs.any (fun p => eqCase p.1 name)) ∧
    ∃ o, UMap.getCase m (some name) = .ok o ∧ o.isSome = hs.any (fun p => eqCase p.1 name) := by
  obtain ⟨h0, h1, -⟩ := h
  obtain ⟨es, rfl, -⟩ := reach_wf h0
  rw [enumKeys_rep] at h1
  injection h1 with h1
  have e : es.any (fun e => eqCase e.key name) = hs.any (fun p => eqCase p.1 name) := by
    have := congrArg (fun l : List Bytes => l.any (fun k => eqCase k name)) h1
    simp only [List.any_map] at this
    exact this
  refine ⟨by rw [hasKeyCase_rep, e], _, getCase_rep es name, ?_⟩
  rw [Option.isSome_map, ← e]
  rw [Bool.eq_iff_iff, List.find?_isSome, List.any_eq_true]

/-- the text of a header line -/
private def headerText (p : Bytes × Option Bytes) : Bytes :=
  match p.2 with
  | some v => p.1 ++ b!": " ++ v ++ b!"\r\n"
  | none => p.1 ++ b!":\r\n"

private theorem headerLines_eq (m : UMap) (hs : List (Bytes × Option Bytes)) (h : ∀ p ∈ hs, getStr m p.1 = .ok p.2) :
    headerLines m (hs.map (·.1)) = .ok (hs.map headerText).flatten := by
  induction hs with
  | nil => rfl
  | cons p t ih =>
    have h0 := h p List.mem_cons_self
    have ih := ih (fun q hq => h q (List.mem_cons_of_mem _ hq))
    rw [List.map_cons, headerLines, ih]
    unfold getStr at h0
    cases hg : UMap.get m (some p.1) with
    | ub => rw [hg] at h0; cases h0
    | ok o =>
      rw [hg, Res.ok_bind] at h0
      cases o with
      | none =>
        simp only [Res.ok.injEq] at h0
        simp [Res.ok_bind, headerText, ← h0]
      | some b =>
        simp only at h0
        cases hr : readStr b with
        | ub => rw [hr] at h0; cases h0
        | ok s =>
          rw [hr] at h0
          simp only [Res.ok_bind, Res.ok.injEq] at h0
          simp [Res.ok_bind, headerText, ← h0, hr]

/-- Name and value of a header; an entry without value is an empty field. -/
def fieldOf (p : Bytes × Option Bytes) : Bytes × Bytes := (p.1, p.2.getD [])

/-- Headers that can stand in a message. -/
def FineHeaders (hs : List (Bytes × Option Bytes)) : Prop := ∀ p ∈ hs, Name p.1 ∧ ∀ v, p.2 = some v → Value v

/-- A header of this name is present, whatever its case. -/
def present (hs : List (Bytes × Option Bytes)) (name : Bytes) : Bool := hs.any (fun p => eqCase p.1 name)

private theorem fields_headers (hs : List (Bytes × Option Bytes)) (hf : FineHeaders hs) (r : Bytes) (fs : List (Bytes × Bytes))
    (b : Bytes) (h : fields r = some (fs, b)) : fields ((hs.map headerText).flatten ++ r) = some (hs.map fieldOf ++ fs, b) := by
  induction hs with
  | nil => exact h
  | cons p t ih =>
    have ih := ih (fun q hq => hf q (List.mem_cons_of_mem _ hq))
    obtain ⟨h1, h2⟩ := hf p List.mem_cons_self
    obtain ⟨k, o⟩ := p
    cases o with
    | none =>
      have := fields_line k [] _ h1 (by simp) _ _ ih
      simpa [headerText, fieldOf, strip] using this
    | some v =>
      have hv := h2 v rfl
      have := fields_line k (0x20 :: v) _ h1 (by simp [hv.1]) _ _ ih
      rw [strip_space v hv] at this
      simpa [headerText, fieldOf] using this

theorem fields_one (k v r : Bytes) (hk : Name k) (hv : Value v) (fs : List (Bytes × Bytes)) (b : Bytes)
    (h : fields r = some (fs, b)) : fields (k ++ b!": " ++ v ++ b!"\r\n" ++ r) = some ((k, v) :: fs, b) := by
  have := fields_line k (0x20 :: v) r hk (by simp [hv.1]) fs b h
  rw [strip_space v hv] at this
  simpa using this

private theorem fields_if (c : Bool) (k v r : Bytes) (hk : Name k) (hv : Value v) (fs : List (Bytes × Bytes)) (b : Bytes)
    (h : fields r = some (fs, b)) :
    fields ((if c then k ++ b!": " ++ v ++ b!"\r\n" else []) ++ r) = some ((if c then [(k, v)] else []) ++ fs, b) := by
  cases c with
  | false => simpa using h
  | true => simpa using fields_one k v r hk hv fs b h

theorem digit_fine (c : UInt8) (h : isDigit c = true) : c ≠ 0x0d ∧ c ≠ 0x0a ∧ blank c = false := by
  have : ∀ i : Fin 256, isDigit (UInt8.ofNat i) = true →
      UInt8.ofNat i ≠ 0x0d ∧ UInt8.ofNat i ≠ 0x0a ∧ blank (UInt8.ofNat i) = false := by decide +kernel
  have h2 := this ⟨c.toNat, c.toNat_lt⟩
  simp only [UInt8.ofNat_toNat] at h2
  exact h2 h

theorem decimal_value (n : Nat) : Value (decimal n) := by
  have h := decimal_digit n
  refine ⟨fun hm => (digit_fine _ (h _ hm)).1 rfl, fun hm => (digit_fine _ (h _ hm)).2.1 rfl, ?_, ?_⟩
  · intro c hc; exact (digit_fine _ (h _ (List.mem_of_head? hc))).2.2
  · intro c hc; exact (digit_fine _ (h _ (List.mem_of_getLast? hc))).2.2

/-! ## C93: responses -/

/-- The fields a response stands for: its headers, one Set-Cookie per cookie and the length of its body; the latter two give way
to a header of the same name. -/
def responseFields (hs : List (Bytes × Option Bytes)) (cookies : List Bytes) (body : Bytes) : List (Bytes × Bytes) :=
  hs.map fieldOf ++ ((if present hs b!"Set-Cookie" then [] else cookies.map (fun c => (b!"Set-Cookie", c))) ++
    if !body.isEmpty && !present hs b!"Content-Length" then [(b!"Content-Length", decimal body.length)] else [])

private theorem cookieLines_eq (l : List Cookie) (cs : List Bytes) (h : l.map cookieHeader = cs.map .ok) :
    cookieLines l = .ok (cs.map (fun c => b!"Set-Cookie: " ++ c ++ b!"\r\n")).flatten := by
  induction l generalizing cs with
  | nil => cases cs with
    | nil => rfl
    | cons c t => simp at h
  | cons x l ih =>
    cases cs with
    | nil => simp at h
    | cons c t =>
      simp only [List.map_cons, List.cons.injEq] at h
      rw [cookieLines, h.1, ih t h.2]
      simp [Res.ok_bind]

private theorem fields_cookies (cs : List Bytes) (hc : ∀ c ∈ cs, Value c) (r : Bytes) (fs : List (Bytes × Bytes)) (b : Bytes)
    (h : fields r = some (fs, b)) :
    fields ((cs.map (fun c => b!"Set-Cookie: " ++ c ++ b!"\r\n")).flatten ++ r) =
      some (cs.map (fun c => (b!"Set-Cookie", c)) ++ fs, b) := by
  induction cs with
  | nil => exact h
  | cons c t ih =>
    have ih := ih (fun q hq => hc q (List.mem_cons_of_mem _ hq))
    have := fields_one b!"Set-Cookie" c _ (by decide) (hc c List.mem_cons_self) _ _ ih
    simpa using this

private theorem bodyText_eq (body x : Bytes) (hn : NoNul body) (hl : body.length < 2 ^ 31) :
    bodyText (some (body ++ x)) body.length = .ok body := by
  have e : asInt body.length = body.length := by
    unfold asInt
    rw [Nat.mod_eq_of_lt (by omega), if_pos hl]
  unfold bodyText
  simp only [e]
  rw [if_neg (by omega), if_pos (.inl (by simp))]
  have : precStr body.length (body ++ x) = body := by
    unfold precStr
    rw [List.take_left' rfl]
    have := (Verif.Client.takeWhile_all 0 body hn).1
    rw [← this]
    congr 1
    · funext c; by_cases h : c = 0 <;> simp [h]
  simpa using this

private theorem exportResponse_eq (r : Response) : exportResponse r =
    (UMap.enumKeys r.header).bind fun keys => (headerLines r.header keys).bind fun hs =>
    (UMap.hasKeyCase r.header (some b!"Set-Cookie")).bind fun hasSet =>
    (if !r.cookies.isEmpty && !hasSet then cookieLines r.cookies else Res.ok []).bind fun cs =>
    (UMap.getCase r.header (some b!"Content-Length")).bind fun cl =>
    (if r.bodyLen ≠ 0 then (do let t ← bodyText r.body r.bodyLen; Res.ok (t ++ b!"\r\n")) else Res.ok []).bind fun bt =>
    .ok (b!"HTTP/1.1 " ++ decimal r.status ++ b!"\r\n" ++ hs ++ cs ++
      (if r.bodyLen ≠ 0 ∧ cl = none then b!"Content-Length: " ++ decimal r.bodyLen ++ b!"\r\n" else []) ++ b!"\r\n" ++ bt) := by
  unfold exportResponse
  refine congrArg _ (funext fun keys => congrArg _ (funext fun hs => congrArg _ (funext fun hasSet => ?_)))
  by_cases h1 : (!r.cookies.isEmpty && !hasSet) = true <;> by_cases h2 : r.bodyLen ≠ 0
  · simp only [if_pos h1, if_pos h2]; rfl
  · simp only [if_pos h1, if_neg h2]; rfl
  · simp only [if_neg h1, if_pos h2]; rfl
  · simp only [if_neg h1, if_neg h2]; rfl

/-- **C93, partial.** The text of a response whose headers and cookies contain no line breaks and whose body contains no NUL is
an HTTP/1.1 message with its status, its headers in order, its cookies and its length, and the body behind the empty line. Missing:
a non-empty body is followed by CR LF, which its length does not count (`C93_trailer_false`); bodies with a NUL are cut
(`C93_nul_false`); a line break in a header adds fields (`C93_injection_false`). -/
theorem C93_response_partial (r : Response) (hs : List (Bytes × Option Bytes)) (hh : HoldsParams r.header hs) (hf : FineHeaders hs)
    (cs : List Bytes) (hc : r.cookies.map cookieHeader = cs.map .ok) (hcv : ∀ c ∈ cs, Value c)
    (body : Bytes) (hl : r.bodyLen = body.length) (hb : body ≠ [] → ∃ x, r.body = some (body ++ x)) (hn : NoNul body)
    (hs31 : body.length < 2 ^ 31) :
    ∃ t, exportResponse r = .ok t ∧ message t =
      some (b!"HTTP/1.1 " ++ decimal r.status, responseFields hs cs body, if body = [] then [] else body ++ b!"\r\n") := by
  obtain ⟨k1, -⟩ := holds_keys hh b!"Set-Cookie"
  obtain ⟨-, o, k2, k3⟩ := holds_keys hh b!"Content-Length"
  have hcl : cookieLines r.cookies = .ok _ := cookieLines_eq r.cookies cs hc
  have hbt : (if r.bodyLen ≠ 0 then (do let t ← bodyText r.body r.bodyLen; Res.ok (t ++ b!"\r\n")) else Res.ok []) =
      .ok (if body = [] then [] else body ++ b!"\r\n") := by
    by_cases he : body = []
    · subst he; simp [hl]
    · obtain ⟨x, hx⟩ := hb he
      have : body.length ≠ 0 := by simpa using he
      rw [hl, if_pos this, if_neg he, hx, bodyText_eq body x hn hs31]; rfl
  have hcs : (if (!r.cookies.isEmpty && !hs.any (fun p => eqCase p.1 b!"Set-Cookie")) = true then cookieLines r.cookies else Res.ok []) =
      .ok (if present hs b!"Set-Cookie" then [] else (cs.map (fun c => b!"Set-Cookie: " ++ c ++ b!"\r\n")).flatten) := by
    unfold present
    cases hp : hs.any (fun p => eqCase p.1 b!"Set-Cookie") with
    | true => simp
    | false =>
      cases hce : r.cookies with
      | nil =>
        rw [hce] at hc
        cases cs with
        | nil => rfl
        | cons c t => simp at hc
      | cons c t => rw [hce] at hcl; simp [hcl]
  rw [exportResponse_eq, hh.2.1]
  simp only [Res.bind]
  rw [headerLines_eq _ _ (fun p hp => (hh.2.2 p hp).1), k1]
  simp only []
  rw [hcs, k2]
  simp only []
  rw [hbt]
  refine ⟨_, rfl, ?_⟩
  have hlen : (if r.bodyLen ≠ 0 ∧ o = none then b!"Content-Length: " ++ decimal r.bodyLen ++ b!"\r\n" else []) =
      if (!body.isEmpty && !present hs b!"Content-Length") = true then b!"Content-Length" ++ b!": " ++ decimal body.length ++ b!"\r\n"
        else [] := by
    have e1 : (r.bodyLen ≠ 0 ∧ o = none) ↔ (!body.isEmpty && !present hs b!"Content-Length") = true := by
      unfold present
      rw [← k3, hl]
      cases o <;> cases body <;> simp
    rw [← hl]
    by_cases h : r.bodyLen ≠ 0 ∧ o = none
    · rw [if_pos h, if_pos (e1.1 h)]; rfl
    · rw [if_neg h, if_neg (fun h' => h (e1.2 h'))]
  rw [hlen]
  have f0 := fields_end (if body = [] then [] else body ++ b!"\r\n")
  have f1 := fields_if (!body.isEmpty && !present hs b!"Content-Length") b!"Content-Length" (decimal body.length) _ (by decide)
    (decimal_value _) _ _ f0
  have f2 : fields ((if present hs b!"Set-Cookie" then [] else (cs.map (fun c => b!"Set-Cookie: " ++ c ++ b!"\r\n")).flatten) ++
      ((if (!body.isEmpty && !present hs b!"Content-Length") = true then
        b!"Content-Length" ++ b!": " ++ decimal body.length ++ b!"\r\n" else []) ++
        0x0d :: 0x0a :: (if body = [] then [] else body ++ b!"\r\n"))) = some ((if present hs b!"Set-Cookie" then [] else
          cs.map (fun c => (b!"Set-Cookie", c))) ++ ((if (!body.isEmpty && !present hs b!"Content-Length") = true then
            [(b!"Content-Length", decimal body.length)] else []) ++ []),
            if body = [] then [] else body ++ b!"\r\n") := by
    cases present hs b!"Set-Cookie" with
    | true => exact f1
    | false => exact fields_cookies cs hcv _ _ _ f1
  have f3 := fields_headers hs hf _ _ _ f2
  have f4 := message_line (b!"HTTP/1.1 " ++ decimal r.status) _ (by
    rw [List.mem_append, not_or]
    exact ⟨by decide, (decimal_value _).1⟩) _ _ f3
  simp only [List.append_nil] at f4
  unfold responseFields
  rw [← f4]
  congr 1
  simp only [List.append_assoc]
  rfl

/-- A response with a header, a cookie and a body. -/
def sampleAnswer : Response :=
  { status := 200, header := sampleParams, body := some b!"hello", bodyLen := 5,
    cookies := [⟨.to b!"a", .to b!"1", .null, 0, .null, .to b!"/", false, false, 0⟩] }

example : ∃ t, exportResponse sampleAnswer = .ok t ∧ message t = some (b!"HTTP/1.1 200",
    [(b!"a b", b!"1&2"), (b!"k", []), (b!"Set-Cookie", b!"a=1; Path=/"), (b!"Content-Length", b!"5")], b!"hello\r\n") := by
  refine C93_response_partial sampleAnswer _ sampleParams_holds ?_ [b!"a=1; Path=/"] (by decide) (by decide)
    b!"hello" rfl (fun _ => ⟨[], rfl⟩) (by decide) (by decide)
  intro p hp
  simp only [List.mem_cons, List.not_mem_nil, or_false] at hp
  rcases hp with rfl | rfl
  · exact ⟨by decide, by rintro v ⟨⟩; decide⟩
  · exact ⟨by decide, by rintro v ⟨⟩⟩

/-- What follows the empty line of a message without an own length is its body: here a response of two bytes, exported. -/
def answerOf (body : Bytes) : Response := { status := 200, header := UMap.init, body := some body, bodyLen := body.length, cookies := [] }

/-- **C93 is false**: two bytes stand behind the body that are neither of it nor counted. -/
theorem C93_trailer_false : ∃ t, exportResponse (answerOf b!"ab") = .ok t ∧
    message t = some (b!"HTTP/1.1 200", [(b!"Content-Length", b!"2")], b!"ab\r\n") :=
  ⟨b!"HTTP/1.1 200\r\nContent-Length: 2\r\n\r\nab\r\n", by decide, by decide +kernel⟩

/-- **C93 is false** for binary bodies: three bytes are announced, the first alone is written. -/
theorem C93_nul_false : ∃ t, exportResponse (answerOf [0x61, 0, 0x62]) = .ok t ∧
    message t = some (b!"HTTP/1.1 200", [(b!"Content-Length", b!"3")], b!"a\r\n") :=
  ⟨b!"HTTP/1.1 200\r\nContent-Length: 3\r\n\r\na\r\n", by decide, by decide +kernel⟩

/-- **C93 is false** when a header value contains a line break: one header is written, two are read. -/
theorem C93_injection_false :
    ∃ r m, UMap.put UMap.init (some b!"a") (some b!"1\r\nb: 2") = .ok (r, m) ∧
    ∃ t, exportResponse { status := 200, header := m, body := none, bodyLen := 0, cookies := [] } = .ok t ∧
    message t = some (b!"HTTP/1.1 200", [(b!"a", b!"1"), (b!"b", b!"2")], []) :=
  ⟨_, _, rfl, b!"HTTP/1.1 200\r\na: 1\r\nb: 2\r\n\r\n", by decide, by decide +kernel⟩

/-! ## C94: requests -/
open Verif.Spec.UrlParts Verif.Spec.Client Verif.Spec.Segments

private theorem pct_enc (s : Bytes) (h : NoNul s) : Spec.Url.PctDecodes (UrlCodec.enc s) s := by
  induction s with
  | nil => exact .nil
  | cons c s ih =>
    obtain ⟨h0, hs⟩ := UrlCodec.NoNul.cons h
    have ih := ih hs
    rw [UrlCodec.enc]
    split
    · rename_i hc
      obtain ⟨h1, h2, -⟩ := UrlCodec.safe_ne c hc
      exact .plain c _ _ h0 h1 h2 ih
    · split
      · rename_i hc; subst hc; exact .plus _ _ ih
      · have key : ∀ c : UInt8, Spec.Url.hexVal (UrlCodec.toHex (c >>> 4)) = some (c.toNat / 16) ∧
            Spec.Url.hexVal (UrlCodec.toHex (c &&& 15)) = some (c.toNat % 16) := by
          apply forall_byte; decide +kernel
        have e : UInt8.ofNat (16 * (c.toNat / 16) + c.toNat % 16) = c := by
          rw [Nat.div_add_mod]; simp
        have hz : 16 * (c.toNat / 16) + c.toNat % 16 ≠ 0 := by
          rw [Nat.div_add_mod]
          intro h; exact h0 (by rw [← UInt8.toNat_inj]; simpa using h)
        have := Spec.Url.PctDecodes.pct _ _ _ _ _ _ (key c).1 (key c).2 hz ih
        rwa [e] at this

private theorem urlEncode_enc (s : Bytes) (h : NoNul s) : UrlCodec.urlEncode (some s) = .ok (some (UrlCodec.enc s)) := by
  unfold UrlCodec.urlEncode
  simp only
  rw [UrlCodec.urlEncodeBuf_eq s h, Res.ok_bind, UrlCodec.cstr_append_nul _ _ (UrlCodec.enc_noNul s h)]

private theorem enc_mem (s : Bytes) (c : UInt8) (h : c ∈ UrlCodec.enc s) : c ∈ b!"+%" ++ Spec.Url.unreserved := by
  have hw := UrlCodec.wellEncoded_enc s
  revert h
  generalize UrlCodec.enc s = t at hw
  have hu : ∀ c ∈ Spec.Url.upperHex, c ∈ b!"+%" ++ Spec.Url.unreserved := by decide
  induction hw with
  | nil => simp
  | lit d s hd _ ih =>
    intro hm
    rcases List.mem_cons.1 hm with rfl | hm
    · exact List.mem_append_right _ hd
    · exact ih hm
  | plus s _ ih =>
    intro hm
    rcases List.mem_cons.1 hm with rfl | hm
    · decide
    · exact ih hm
  | pct a b s ha hb _ ih =>
    intro hm
    simp only [List.mem_cons] at hm
    rcases hm with rfl | rfl | rfl | hm
    · decide
    · exact hu _ ha
    · exact hu _ hb
    · exact ih hm

/-- the text of a parameter -/
private def encParam (p : Bytes × Option Bytes) : Bytes :=
  match p.2 with
  | some v => UrlCodec.enc p.1 ++ b!"=" ++ UrlCodec.enc v
  | none => UrlCodec.enc p.1

private theorem encParam_free (p : Bytes × Option Bytes) (c : UInt8) (h : c ∉ b!"=+%" ++ Spec.Url.unreserved) : c ∉ encParam p := by
  have h1 : ∀ s, c ∉ UrlCodec.enc s := fun s hm => h (by
    have := enc_mem s c hm
    simp only [List.mem_append, List.mem_cons] at this ⊢
    rcases this with h | h
    · exact .inl (.inr h)
    · exact .inr h)
  unfold encParam
  split
  · simp only [List.mem_append, not_or]
    refine ⟨⟨h1 _, ?_⟩, h1 _⟩
    intro hc; exact h (List.mem_append_left _ (by simp only [List.mem_singleton] at hc; subst hc; decide))
  · exact h1 _

private theorem encParam_text (p : Bytes × Option Bytes) (h1 : NoNul p.1) (h2 : ∀ v, p.2 = some v → NoNul v) :
    ParamText (encParam p) p := by
  have hf : (0x3d : UInt8) ∉ UrlCodec.enc p.1 := fun h => absurd (enc_mem _ _ h) (by decide)
  obtain ⟨k, o⟩ := p
  unfold ParamText pair encParam
  cases o with
  | none =>
    simp only
    rw [(Verif.Client.takeWhile_all _ _ hf).1, (Verif.Client.takeWhile_all _ _ hf).2]
    exact ⟨pct_enc _ h1, trivial⟩
  | some v =>
    simp only
    have e : UrlCodec.enc k ++ b!"=" ++ UrlCodec.enc v = UrlCodec.enc k ++ 0x3d :: UrlCodec.enc v := by simp
    rw [e, (Verif.Client.takeWhile_free _ _ _ hf).1, (Verif.Client.takeWhile_free _ _ _ hf).2]
    exact ⟨pct_enc _ h1, pct_enc _ (h2 v rfl)⟩

private theorem encParam_texts (ps : List (Bytes × Option Bytes)) (h : ∀ p ∈ ps, NoNul p.1 ∧ ∀ w, p.2 = some w → NoNul w) :
    ParamTexts (ps.map encParam) ps := by
  induction ps with
  | nil => trivial
  | cons p t ih =>
    exact ⟨encParam_text _ (h p List.mem_cons_self).1 (h p List.mem_cons_self).2, ih (fun x hx => h x (List.mem_cons_of_mem _ hx))⟩

private theorem getStr_cases {m : UMap} {k : Bytes} {o : Option Bytes} (h : getStr m k = .ok o) :
    (o = none ∧ UMap.get m (some k) = .ok none) ∨
    ∃ v b, o = some v ∧ UMap.get m (some k) = .ok (some b) ∧ readStr b = .ok v := by
  unfold getStr at h
  cases hg : UMap.get m (some k) with
  | ub => rw [hg] at h; cases h
  | ok x =>
    rw [hg, Res.ok_bind] at h
    cases x with
    | none => simp only [Res.ok.injEq] at h; exact .inl ⟨h.symm, rfl⟩
    | some b =>
      simp only at h
      cases hr : readStr b with
      | ub => rw [hr] at h; cases h
      | ok s =>
        rw [hr] at h
        simp only [Res.ok_bind, Res.ok.injEq] at h
        exact .inr ⟨s, b, h.symm, rfl, hr⟩

private theorem urlParams_step (m : UMap) (p : Bytes × Option Bytes) (ks : List Bytes) (has : Bool) (url : Option Bytes)
    (h : getStr m p.1 = .ok p.2 ∧ NoNul p.1 ∧ ∀ v, p.2 = some v → NoNul v) :
    urlParams m (p.1 :: ks) has url =
      urlParams m ks true (some (url.getD [] ++ ((if has then b!"&" else b!"?") ++ encParam p))) := by
  rw [urlParams, urlEncode_enc _ h.2.1]
  unfold encParam
  rcases getStr_cases h.1 with ⟨h1, h2⟩ | ⟨v, b, h1, h2, h3⟩
  · rw [h2, h1]
    cases has <;> simp [str]
  · rw [h2, h1]
    have := urlEncode_enc v (h.2.2 v h1)
    cases has <;> simp [h3, str, this]

private theorem urlParams_true (m : UMap) (ps : List (Bytes × Option Bytes)) (url : Bytes)
    (h : ∀ p ∈ ps, getStr m p.1 = .ok p.2 ∧ NoNul p.1 ∧ ∀ v, p.2 = some v → NoNul v) :
    urlParams m (ps.map (·.1)) true (some url) = .ok (some (url ++ Verif.Client.amps (ps.map encParam))) := by
  induction ps generalizing url with
  | nil => simp [urlParams, Verif.Client.amps]
  | cons p t ih =>
    rw [List.map_cons, urlParams_step m p _ _ _ (h p List.mem_cons_self), ih _ (fun q hq => h q (List.mem_cons_of_mem _ hq))]
    simp [Verif.Client.amps]

/-- The target of the request line: path, and the query with all parameters. -/
private def targetText (path : Bytes) (query : Option Bytes) (ps : List (Bytes × Option Bytes)) : Bytes :=
  match query, ps with
  | none, [] => spaces path
  | none, p :: t => spaces path ++ 0x3f :: (encParam p ++ Verif.Client.amps (t.map encParam))
  | some q, ps => spaces path ++ 0x3f :: (q ++ Verif.Client.amps (ps.map encParam))

private theorem holds_nb' {m : UMap} {ps : List (Bytes × Option Bytes)} (h : HoldsParams m ps) : m.nb = ps.length := by
  obtain ⟨es, rfl, -⟩ := reach_wf h.1
  have := h.2.1
  rw [enumKeys_rep] at this
  injection this with this
  have := congrArg List.length this
  simpa [rep] using this

private theorem target_eq (m : UMap) (ps : List (Bytes × Option Bytes)) (h : HoldsParams m ps) (path : Bytes) (query : Option Bytes) :
    (if m.nb ≠ 0 then (do
      let keys ← UMap.enumKeys m
      urlParams m keys query.isSome (match query with
        | some q => some (((some path).map replaceSpaces).getD [] ++ b!"?" ++ q)
        | none => (some path).map replaceSpaces)) else Res.ok (match query with
        | some q => some (((some path).map replaceSpaces).getD [] ++ b!"?" ++ q)
        | none => (some path).map replaceSpaces)) = .ok (some (targetText path query ps)) := by
  have e : replaceSpaces path = spaces path := Verif.Client.replaceSpaces_eq path
  rw [holds_nb' h, h.2.1]
  cases ps with
  | nil =>
    rw [if_neg (by simp)]
    cases query <;> simp [targetText, e, Verif.Client.amps]
  | cons p t =>
    rw [if_pos (by simp), Res.ok_bind]
    cases query with
    | some q =>
      simp only [Option.isSome_some]
      rw [urlParams_true m _ _ h.2.2]
      simp [targetText, e]
    | none =>
      simp only [Option.isSome_none, List.map_cons]
      rw [urlParams_step m p _ _ _ (h.2.2 p List.mem_cons_self), urlParams_true m _ _ (fun q hq => h.2.2 q (List.mem_cons_of_mem _ hq))]
      simp [targetText, e]

private theorem spaces_mem (u : Bytes) (c : UInt8) (h : c ∈ spaces u) : (c ∈ u ∧ c ≠ 0x20) ∨ c ∈ b!"%20" := by
  unfold spaces at h
  simp only [List.mem_flatten, List.mem_map] at h
  obtain ⟨_, ⟨d, hd, rfl⟩, hc⟩ := h
  by_cases e : d = 0x20
  · rw [if_pos e] at hc; exact .inr hc
  · rw [if_neg e, List.mem_singleton] at hc; subst hc; exact .inl ⟨hd, e⟩

private theorem amps_free' (d : UInt8) (ps : List (Bytes × Option Bytes)) (hd : d ∉ b!"&=+%" ++ Spec.Url.unreserved) :
    d ∉ Verif.Client.amps (ps.map encParam) := by
  simp only [List.cons_append, List.mem_cons, not_or] at hd
  refine Verif.Client.amps_free d _ hd.1 ?_
  intro t ht
  obtain ⟨p, -, rfl⟩ := List.mem_map.1 ht
  refine encParam_free p d ?_
  simp only [List.cons_append, List.mem_cons, not_or]
  exact hd.2

private theorem target_free (path : Bytes) (query : Option Bytes) (ps : List (Bytes × Option Bytes)) (d : UInt8)
    (h0 : d ∉ b!"?&=+%20" ++ Spec.Url.unreserved)
    (h1 : d ∈ path → d = 0x20) (h2 : ∀ t, query = some t → d ∉ t) : d ∉ targetText path query ps := by
  have hs : d ∉ spaces path := by
    intro h
    rcases spaces_mem _ _ h with ⟨h, h'⟩ | h
    · exact h' (h1 h)
    · refine h0 (List.mem_append_left _ ?_)
      exact (show ∀ c ∈ b!"%20", c ∈ b!"?&=+%20" by decide) _ h
  have hd : d ∉ b!"&=+%" ++ Spec.Url.unreserved := fun h => h0 (by
    rcases List.mem_append.1 h with h | h
    · exact List.mem_append_left _ ((show ∀ c ∈ b!"&=+%", c ∈ b!"?&=+%20" by decide) _ h)
    · exact List.mem_append_right _ h)
  have hd2 : d ∉ b!"=+%" ++ Spec.Url.unreserved := fun h => hd (by
    simp only [List.cons_append, List.mem_cons] at h ⊢; exact .inr h)
  have hq : d ≠ 0x3f := fun h => h0 (by subst h; decide)
  unfold targetText
  cases query with
  | some q =>
    simp only [List.mem_append, List.mem_cons, not_or]
    exact ⟨hs, hq, h2 q rfl, amps_free' d ps hd⟩
  | none =>
    cases ps with
    | nil => exact hs
    | cons p t =>
      simp only [List.mem_append, List.mem_cons, not_or]
      exact ⟨hs, hq, encParam_free p d hd2, amps_free' d t hd⟩

private theorem target_parts (path : Bytes) (query : Option Bytes) (ps : List (Bytes × Option Bytes))
    (h1 : Free b!"?#" path) (h2 : ∀ t, query = some t → Free b!"#" t) :
    beforeQuery (targetText path query ps) = spaces path ∧
    queryParams (targetText path query ps) = ((query.map (pieces 0x26)).getD []) ++ ps.map encParam := by
  have hf : (0x23 : UInt8) ∉ targetText path query ps :=
    target_free path query ps _ (by decide) (fun h => absurd h (h1 _ (by decide))) (fun t ht => h2 t ht _ (by decide))
  have hq : (0x3f : UInt8) ∉ spaces path := by
    intro h
    rcases spaces_mem _ _ h with ⟨h, -⟩ | h
    · exact h1 _ (by decide) h
    · revert h; decide
  have hp : ∀ l : List (Bytes × Option Bytes), ∀ t ∈ l.map encParam, (0x26 : UInt8) ∉ t := by
    intro l t ht
    obtain ⟨p, -, rfl⟩ := List.mem_map.1 ht
    exact encParam_free p _ (by decide)
  unfold queryParams
  unfold targetText at hf ⊢
  cases query with
  | some q =>
    obtain ⟨q1, q2⟩ := Verif.Client.query_some _ _ hq hf
    rw [q1, q2]
    exact ⟨rfl, Verif.Client.pieces_amps q _ (hp ps)⟩
  | none =>
    cases ps with
    | nil =>
      obtain ⟨q1, q2⟩ := Verif.Client.query_none _ hq hf
      rw [q1, q2]
      exact ⟨rfl, rfl⟩
    | cons p t =>
      obtain ⟨q1, q2⟩ := Verif.Client.query_some _ _ hq hf
      rw [q1, q2]
      refine ⟨rfl, ?_⟩
      simp only
      rw [Verif.Client.pieces_amps _ _ (hp t), Verif.Client.pieces_free _ _ (encParam_free p _ (by decide))]
      rfl

/-- The text of a cookie: its name, and its value in encoded form. -/
def CookieText (t : Bytes) (c : Bytes × Option Bytes) : Prop :=
  (pair t).1 = c.1 ∧
  match (pair t).2, c.2 with
  | some e, some v => Spec.Url.PctDecodes e v
  | none, none => True
  | _, _ => False

/-- Texts and cookies correspond one to one, in order. -/
def CookieTexts : List Bytes → List (Bytes × Option Bytes) → Prop
  | [], [] => True
  | t :: ts, c :: cs => CookieText t c ∧ CookieTexts ts cs
  | _, _ => False

/-- A cookie name that can stand in a header. -/
def FineCookies (cs : List (Bytes × Option Bytes)) : Prop :=
  ∀ c ∈ cs, (0x3d : UInt8) ∉ c.1 ∧ c.1 ≠ [] ∧ Value c.1

private def cookieVal (c : Bytes × Option Bytes) : Bytes :=
  match c.2 with
  | some v => c.1 ++ b!"=" ++ UrlCodec.enc v
  | none => c.1

private theorem cookieVal_text (c : Bytes × Option Bytes) (h : (0x3d : UInt8) ∉ c.1) (hn : ∀ v, c.2 = some v → NoNul v) :
    CookieText (cookieVal c) c := by
  obtain ⟨k, o⟩ := c
  unfold CookieText pair cookieVal
  cases o with
  | none =>
    simp only
    rw [(Verif.Client.takeWhile_all _ _ h).1, (Verif.Client.takeWhile_all _ _ h).2]
    exact ⟨rfl, trivial⟩
  | some v =>
    simp only
    have e : k ++ b!"=" ++ UrlCodec.enc v = k ++ 0x3d :: UrlCodec.enc v := by simp
    rw [e, (Verif.Client.takeWhile_free _ _ _ h).1, (Verif.Client.takeWhile_free _ _ _ h).2]
    exact ⟨rfl, pct_enc _ (hn v rfl)⟩

private theorem cookieVal_value (c : Bytes × Option Bytes) (h : c.1 ≠ [] ∧ Value c.1) : Value (cookieVal c) := by
  obtain ⟨k, o⟩ := c
  unfold cookieVal
  cases o with
  | none => exact h.2
  | some v =>
    obtain ⟨h0, h1, h2, h3, h4⟩ := h
    simp only at *
    have hb : ∀ d ∈ b!"=" ++ UrlCodec.enc v, d ≠ 0x0d ∧ d ≠ 0x0a ∧ blank d = false := by
      intro d hd
      rcases List.mem_append.1 hd with hd | hd
      · simp only [List.mem_singleton] at hd; subst hd; decide
      · exact (show ∀ c ∈ b!"+%" ++ Spec.Url.unreserved, c ≠ 0x0d ∧ c ≠ 0x0a ∧ blank c = false by decide) _ (enc_mem v d hd)
    rw [List.append_assoc]
    refine ⟨?_, ?_, ?_, ?_⟩
    · rw [List.mem_append, not_or]; exact ⟨h1, fun hd => (hb _ hd).1 rfl⟩
    · rw [List.mem_append, not_or]; exact ⟨h2, fun hd => (hb _ hd).2.1 rfl⟩
    · intro d hd
      refine h3 d ?_
      cases k with
      | nil => exact absurd rfl h0
      | cons a t => exact hd
    · intro d hd
      rw [List.getLast?_append, Option.or_of_isSome (by simp)] at hd
      exact (hb d (List.mem_of_getLast? hd)).2.2

private theorem reqCookieLines_eq (m : UMap) (cs : List (Bytes × Option Bytes))
    (h : ∀ p ∈ cs, getStr m p.1 = .ok p.2 ∧ NoNul p.1 ∧ ∀ v, p.2 = some v → NoNul v) :
    reqCookieLines m (cs.map (·.1)) = .ok (cs.map (fun c => b!"Cookie: " ++ cookieVal c ++ b!"\r\n")).flatten := by
  induction cs with
  | nil => rfl
  | cons c t ih =>
    have ih := ih (fun q hq => h q (List.mem_cons_of_mem _ hq))
    have h0 := h c List.mem_cons_self
    rw [List.map_cons, reqCookieLines, ih]
    rcases getStr_cases h0.1 with ⟨h1, h2⟩ | ⟨v, b, h1, h2, h3⟩
    · have e : cookieVal c = c.1 := by unfold cookieVal; rw [h1]
      rw [h2, List.map_cons, List.flatten_cons, e]
      rfl
    · have e : cookieVal c = c.1 ++ b!"=" ++ UrlCodec.enc v := by unfold cookieVal; rw [h1]
      have := urlEncode_enc v (h0.2.2 v h1)
      rw [h2, List.map_cons, List.flatten_cons, e]
      simp [h3, str, this]

private theorem adds_cookies (cs : List (Bytes × Option Bytes)) (h : FineCookies cs) :
    Adds (cs.map (fun c => b!"Cookie: " ++ cookieVal c ++ b!"\r\n")).flatten (cs.map (fun c => (b!"Cookie", cookieVal c))) := by
  induction cs with
  | nil => exact Adds.nil
  | cons c t ih =>
    have ih := ih (fun q hq => h q (List.mem_cons_of_mem _ hq))
    exact (adds_one b!"Cookie" (cookieVal c) (by decide) (cookieVal_value c (h c List.mem_cons_self).2)).append ih

private theorem adds_headers (hs : List (Bytes × Option Bytes)) (hf : FineHeaders hs) :
    Adds (hs.map headerText).flatten (hs.map fieldOf) := by
  induction hs with
  | nil => exact Adds.nil
  | cons p t ih =>
    have ih := ih (fun q hq => hf q (List.mem_cons_of_mem _ hq))
    obtain ⟨h1, h2⟩ := hf p List.mem_cons_self
    obtain ⟨k, o⟩ := p
    have : Adds (headerText (k, o)) [fieldOf (k, o)] := by
      cases o with
      | none => exact adds_line k [] h1 (by simp)
      | some v => exact adds_one k v h1 (h2 v rfl)
    exact this.append ih

private theorem readStr_take (b : Buf) (v : Bytes) (h : readStr b = .ok v) : b.take (v.length + 1) = strBuf v := by
  induction b generalizing v with
  | nil => cases h
  | cons x t ih =>
    cases x with
    | none => cases h
    | some c =>
      rw [readStr] at h
      by_cases hc : c = 0
      · subst hc
        simp only [beq_self_eq_true, if_true, Res.ok.injEq] at h
        subst h; rfl
      · rw [if_neg (by simpa using hc)] at h
        cases hr : readStr t with
        | ub => rw [hr] at h; cases h
        | ok w =>
          rw [hr] at h
          simp only [Res.ok_bind, Res.pure_eq, Res.ok.injEq] at h
          subst h
          have := ih w hr
          simp only [List.length_cons, List.take_succ_cons, this]
          rfl

private theorem utf8_nul (v : Bytes) (h : Spec.Utf8.IsUtf8 v) : Utf8.utf8Ok (v ++ [0]) = true := by
  rw [C05_utf8Ok]
  obtain ⟨cs, rfl⟩ := h
  exact ⟨cs ++ ['\x00'], by simp; rfl⟩

/-- The entries are strings of UTF-8 text. -/
def TextEntries (m : UMap) (ps : List (Bytes × Option Bytes)) : Prop :=
  ∀ p ∈ ps, ∃ v, p.2 = some v ∧ UMap.getLength m (some p.1) = .ok (some (v.length + 1)) ∧ Spec.Utf8.IsUtf8 v

private theorem formBody_step (m : UMap) (p : Bytes × Option Bytes) (ks : List Bytes) (first : Bool) (rest : Bytes)
    (h : getStr m p.1 = .ok p.2 ∧ NoNul p.1 ∧ ∀ v, p.2 = some v → NoNul v)
    (ht : ∃ v, p.2 = some v ∧ UMap.getLength m (some p.1) = .ok (some (v.length + 1)) ∧ Spec.Utf8.IsUtf8 v)
    (hr : formBody m false ks = .ok rest) :
    formBody m first (p.1 :: ks) = .ok ((if first then [] else b!"&") ++ encParam p ++ rest) := by
  obtain ⟨v, hv, hl, hu⟩ := ht
  rcases getStr_cases h.1 with ⟨h1, -⟩ | ⟨w, b, h1, h2, h3⟩
  · rw [h1] at hv; cases hv
  · rw [h1] at hv
    cases hv
    have e1 := readStr_take b v h3
    have e2 : (strBuf v).filterMap id = v ++ [0] := by
      unfold strBuf
      rw [List.filterMap_append, List.filterMap_map]
      simp
    have e3 := urlEncode_enc v (h.2.2 v h1)
    have e4 : encParam p = UrlCodec.enc p.1 ++ b!"=" ++ UrlCodec.enc v := by unfold encParam; rw [h1]
    rw [formBody, urlEncode_enc _ h.2.1, h2, hl, e4]
    simp only [Res.ok_bind, h3, Option.getD_some, e1, e2, utf8_nul v hu, if_true, e3, hr]
    rfl

private theorem formBody_false (m : UMap) (ps : List (Bytes × Option Bytes))
    (h : ∀ p ∈ ps, getStr m p.1 = .ok p.2 ∧ NoNul p.1 ∧ ∀ v, p.2 = some v → NoNul v) (ht : TextEntries m ps) :
    formBody m false (ps.map (·.1)) = .ok (Verif.Client.amps (ps.map encParam)) := by
  induction ps with
  | nil => rfl
  | cons p t ih =>
    have ih := ih (fun q hq => h q (List.mem_cons_of_mem _ hq)) (fun q hq => ht q (List.mem_cons_of_mem _ hq))
    rw [List.map_cons, formBody_step m p _ false _ (h p List.mem_cons_self) (ht p List.mem_cons_self) ih]
    rfl

/-- The host as it stands in a request: the port is left out when it is 0 or not given. -/
def hostText (p : Parts) : Bytes :=
  p.host ++ if (p.port.map number).getD 0 = 0 then [] else b!":" ++ decimal ((p.port.map number).getD 0)

/-- The fields of a request before those that belong to its body. -/
def headFields (p : Parts) (hs : List (Bytes × Option Bytes)) (cookies : List Bytes) : List (Bytes × Bytes) :=
  (if present hs b!"Host" then [] else [(b!"Host", hostText p)]) ++ hs.map fieldOf ++ cookies.map (fun c => (b!"Cookie", c))

/-- The field with user name and password. -/
def authFields (b64 : Bytes → Bytes) (r : Request) (hs : List (Bytes × Option Bytes)) : List (Bytes × Bytes) :=
  match r.user, r.password with
  | some u, some w => if present hs b!"Authorization" then [] else [(b!"Authorization", b!"Basic " ++ b64 (u ++ b!":" ++ w))]
  | _, _ => []

/-- A request with this URL, these parameters, headers and cookies, all of which can stand in a message. -/
structure Fine (r : Request) (p : Parts) (pt : Bytes) (ps hs cs : List (Bytes × Option Bytes)) : Prop where
  url : r.url = some (render p)
  wf : Wf p
  port : ∀ t, p.port = some t → number t < 2 ^ 31
  path : p.path = some pt
  line : (0x0d : UInt8) ∉ pt ∧ ∀ q, p.query = some q → (0x0d : UInt8) ∉ q ∧ (0x20 : UInt8) ∉ q
  verb : ∀ v, r.verb = some v → (0x0d : UInt8) ∉ v ∧ (0x20 : UInt8) ∉ v
  host : Value p.host
  params : HoldsParams r.mapUrl ps
  headers : HoldsParams r.mapHeader hs
  names : FineHeaders hs
  cookies : HoldsParams r.mapCookie cs
  cnames : FineCookies cs

/-- `o_base64_encode_alloc` gives text that can stand in a header. -/
def Fine64 (b64 : Bytes → Bytes) : Prop := ∀ s, s ≠ [] → Value (b64 s) ∧ b64 s ≠ []

private theorem hostText_value (p : Parts) (h : Value p.host) (h0 : p.host ≠ []) : Value (hostText p) := by
  unfold hostText
  split
  · simpa using h
  · obtain ⟨h1, h2, h3, h4⟩ := h
    generalize (p.port.map number).getD 0 = n
    obtain ⟨d1, d2, d3, d4⟩ := decimal_value n
    have hd : decimal n ≠ [] := decimal_ne_nil n
    rw [← List.append_assoc]
    refine ⟨?_, ?_, ?_, ?_⟩
    · simp only [List.mem_append, not_or]; exact ⟨⟨h1, by decide⟩, d1⟩
    · simp only [List.mem_append, not_or]; exact ⟨⟨h2, by decide⟩, d2⟩
    · intro c hc
      refine h3 c ?_
      cases hh : p.host with
      | nil => exact absurd hh h0
      | cons a t => rw [hh] at hc; exact hc
    · intro c hc
      rw [List.getLast?_append, Option.or_of_isSome (by simpa using hd)] at hc
      exact d4 c hc

private theorem auth_value (s : Bytes) (h : Value s) (h0 : s ≠ []) : Value (b!"Basic " ++ s) := by
  obtain ⟨h1, h2, h3, h4⟩ := h
  refine ⟨?_, ?_, ?_, ?_⟩
  · simp only [List.mem_append, not_or]; exact ⟨by decide, h1⟩
  · simp only [List.mem_append, not_or]; exact ⟨by decide, h2⟩
  · intro c hc; cases hc; decide
  · intro c hc
    rw [List.getLast?_append, Option.or_of_isSome (by simpa using h0)] at hc
    exact h4 c hc

/-- the end of the text -/
private def exportTail (r : Request) : Res Bytes :=
  if r.bodyLen ≠ 0 then do
    let t ← bodyText r.body r.bodyLen
    Res.ok (b!"\r\n" ++ t ++ b!"\r\n")
  else if r.mapPost.nb ≠ 0 then do
    let ct ← UMap.get r.mapHeader (some b!"Content-Type")
    let form ← match ct with
      | none => Res.ok true
      | some b => do let s ← readStr b; Res.ok (contains b!"application/x-www-form-urlencoded" s)
    if form then do
      let pk ← UMap.enumKeys r.mapPost
      let body ← formBody r.mapPost true pk
      Res.ok (b!"Content-Length: " ++ decimal body.length ++ b!"\r\n\r\n" ++ body)
    else Res.ok []
  else Res.ok []

private def headText (b64 : Bytes → Bytes) (r : Request) (p : Parts) (hs cs : List (Bytes × Option Bytes)) : Bytes :=
  (if present hs b!"Host" then [] else b!"Host" ++ b!": " ++ hostText p ++ b!"\r\n") ++ (hs.map headerText).flatten ++
    (cs.map (fun c => b!"Cookie: " ++ cookieVal c ++ b!"\r\n")).flatten ++
    (if !present hs b!"Content-Length" && r.bodyLen ≠ 0 then b!"Content-Length" ++ b!": " ++ decimal r.bodyLen ++ b!"\r\n" else []) ++
    (if !present hs b!"Content-Type" && r.mapPost.nb ≠ 0 then b!"Content-type" ++ b!": " ++ b!"application/x-www-form-urlencoded" ++
      b!"\r\n" else []) ++
    (match r.user, r.password with
    | some u, some w => if present hs b!"Authorization" then [] else b!"Authorization" ++ b!": " ++ (b!"Basic " ++
        b64 (u ++ b!":" ++ w)) ++ b!"\r\n"
    | _, _ => [])

/-- The fields that tell about the body. -/
def bodyFields (r : Request) (hs : List (Bytes × Option Bytes)) : List (Bytes × Bytes) :=
  (if !present hs b!"Content-Length" && r.bodyLen ≠ 0 then [(b!"Content-Length", decimal r.bodyLen)] else []) ++
    if !present hs b!"Content-Type" && r.mapPost.nb ≠ 0 then [(b!"Content-type", b!"application/x-www-form-urlencoded")] else []

private theorem adds_head (b64 : Bytes → Bytes) (h64 : Fine64 b64) (r : Request) (p : Parts) (hs cs : List (Bytes × Option Bytes))
    (hf : FineHeaders hs) (hc : FineCookies cs) (hh : Value p.host) (h0 : p.host ≠ []) :
    Adds (headText b64 r p hs cs) (headFields p hs (cs.map cookieVal) ++ bodyFields r hs ++ authFields b64 r hs) := by
  have a1 : Adds (if present hs b!"Host" then [] else b!"Host" ++ b!": " ++ hostText p ++ b!"\r\n")
      (if present hs b!"Host" then [] else [(b!"Host", hostText p)]) := by
    split
    · exact Adds.nil
    · exact adds_one _ _ (by decide) (hostText_value p hh h0)
  have a2 := adds_headers hs hf
  have a3 := adds_cookies cs hc
  have a4 := adds_if (!present hs b!"Content-Length" && r.bodyLen ≠ 0) (adds_one b!"Content-Length" (decimal r.bodyLen) (by decide)
    (decimal_value _))
  have a5 := adds_if (!present hs b!"Content-Type" && r.mapPost.nb ≠ 0) (adds_one b!"Content-type"
    b!"application/x-www-form-urlencoded" (by decide) (by decide))
  have a6 : Adds (match r.user, r.password with
    | some u, some w => if present hs b!"Authorization" then [] else b!"Authorization" ++ b!": " ++ (b!"Basic " ++
        b64 (u ++ b!":" ++ w)) ++ b!"\r\n"
    | _, _ => []) (authFields b64 r hs) := by
    unfold authFields
    split
    · split
      · exact Adds.nil
      · rename_i u w _ _ _
        obtain ⟨b1, b2⟩ := h64 (u ++ b!":" ++ w) (by simp)
        exact adds_one _ _ (by decide) (auth_value _ b1 b2)
    · exact Adds.nil
  have := ((((a1.append a2).append a3).append a4).append a5).append a6
  unfold headText headFields bodyFields
  rw [List.map_map]
  simpa only [List.append_assoc, Function.comp_def] using this

private theorem exportRest_eq (b64 : Bytes → Bytes) (r : Request) (p : Parts) (hs cs : List (Bytes × Option Bytes))
    (hh : HoldsParams r.mapHeader hs) (hc : HoldsParams r.mapCookie cs) (tail : Bytes) (ht : exportTail r = .ok tail) :
    exportRest b64 r (some p.host) ((p.port.map number).getD 0 : Nat) = .ok (headText b64 r p hs cs ++ tail) := by
  have k1 := (holds_keys hh b!"Host").1
  have k2 := (holds_keys hh b!"Content-Length").1
  have k3 := (holds_keys hh b!"Content-Type").1
  have k4 := (holds_keys hh b!"Authorization").1
  have e1 := headerLines_eq r.mapHeader hs (fun p hp => (hh.2.2 p hp).1)
  have e2 := reqCookieLines_eq r.mapCookie cs hc.2.2
  unfold exportRest
  rw [k1, k2, k3, k4, hh.2.1, hc.2.1]
  simp only [Res.ok_bind]
  rw [e1, e2]
  simp only [Res.ok_bind]
  have hhead : headText b64 r p hs cs = (if (hs.any fun p => eqCase p.1 b!"Host") = true then [] else
    b!"Host: " ++ (if (((p.port.map number).getD 0 : Nat) : Int) ≠ 0 then str (some p.host) ++ b!":" ++
      decimalInt ((p.port.map number).getD 0 : Nat) else str (some p.host)) ++ b!"\r\n") ++ (hs.map headerText).flatten ++
      (cs.map (fun c => b!"Cookie: " ++ cookieVal c ++ b!"\r\n")).flatten ++
      (if (!(hs.any fun p => eqCase p.1 b!"Content-Length") && r.bodyLen ≠ 0) = true then
        b!"Content-Length: " ++ decimal r.bodyLen ++ b!"\r\n" else []) ++
      (if (!(hs.any fun p => eqCase p.1 b!"Content-Type") && r.mapPost.nb ≠ 0) = true then
        b!"Content-type: application/x-www-form-urlencoded\r\n" else []) ++
      (match r.user, r.password with
      | some u, some p => if (hs.any fun p => eqCase p.1 b!"Authorization") = true then [] else
          b!"Authorization: Basic " ++ b64 (u ++ b!":" ++ p) ++ b!"\r\n"
      | _, _ => []) := by
    have hhost : b!"Host" ++ b!": " ++ hostText p ++ b!"\r\n" = b!"Host: " ++ (if (((p.port.map number).getD 0 : Nat) : Int) ≠ 0 then
        str (some p.host) ++ b!":" ++ decimalInt ((p.port.map number).getD 0 : Nat) else str (some p.host)) ++ b!"\r\n" := by
      unfold hostText
      generalize (p.port.map number).getD 0 = n
      by_cases hn : n = 0
      · subst hn; simp [str]
      · rw [if_neg hn, if_pos (by omega)]
        simp only [List.append_assoc]
        rfl
    unfold headText
    rw [hhost]
    unfold present
    cases r.user with
    | none => rfl
    | some u =>
      cases r.password with
      | none => rfl
      | some w =>
        simp only [List.append_assoc]
        rfl
  rw [hhead]
  unfold exportTail at ht
  by_cases h1 : r.bodyLen ≠ 0
  · rw [if_pos h1] at ht
    rw [if_pos h1]
    cases hb : bodyText r.body r.bodyLen with
    | ub => rw [hb] at ht; cases ht
    | ok t =>
      rw [hb] at ht
      simp only [Res.ok_bind, Res.ok.injEq] at ht ⊢
      rw [← ht]; rfl
  · rw [if_neg h1] at ht
    rw [if_neg h1]
    by_cases h2 : r.mapPost.nb ≠ 0
    · rw [if_pos h2] at ht
      rw [if_pos h2]
      have fin : ∀ (f : Bool) (x : Bytes → Res Bytes), (if f then (do
            let pk ← UMap.enumKeys r.mapPost
            let body ← formBody r.mapPost true pk
            Res.ok (b!"Content-Length: " ++ decimal body.length ++ b!"\r\n\r\n" ++ body)) else Res.ok []) = .ok tail →
          (if f then (do
            let pk ← UMap.enumKeys r.mapPost
            let body ← formBody r.mapPost true pk
            let tail ← Res.ok (b!"Content-Length: " ++ decimal body.length ++ b!"\r\n\r\n" ++ body)
            x tail) else (Res.ok []) >>= x) = x tail := by
        intro f x hx
        cases f
        · simp only [Bool.false_eq_true, if_false, Res.ok.injEq] at hx ⊢
          rw [← hx]; rfl
        · simp only [if_true] at hx ⊢
          cases hk : UMap.enumKeys r.mapPost with
          | ub => rw [hk] at hx; cases hx
          | ok ks =>
            rw [hk] at hx
            simp only [Res.ok_bind] at hx ⊢
            cases hb : formBody r.mapPost true ks with
            | ub => rw [hb] at hx; cases hx
            | ok b =>
              rw [hb] at hx
              simp only [Res.ok_bind, Res.ok.injEq] at hx ⊢
              rw [hx]
      cases hg : UMap.get r.mapHeader (some b!"Content-Type") with
      | ub => rw [hg] at ht; cases ht
      | ok ct =>
        rw [hg] at ht
        simp only [Res.ok_bind] at ht ⊢
        cases ct with
        | none =>
          exact fin true (fun t => Res.ok (_ ++ t)) ht
        | some b =>
          simp only at ht ⊢
          cases hr : readStr b with
          | ub => rw [hr] at ht; cases ht
          | ok w =>
            rw [hr] at ht
            exact fin _ (fun t => Res.ok (_ ++ t)) ht
    · rw [if_neg h2] at ht
      rw [if_neg h2]
      cases ht
      rfl

private theorem export_eq (b64 : Bytes → Bytes) (r : Request) (p : Parts) (pt : Bytes) (ps hs cs : List (Bytes × Option Bytes))
    (hF : Fine r p pt ps hs cs) (tail : Bytes) (ht : exportTail r = .ok tail) :
    exportRequest b64 r = .ok (some (r.verb.getD b!"GET" ++ b!" /" ++ targetText pt p.query ps ++ b!" HTTP/1.1\r\n" ++
      (headText b64 r p hs cs ++ tail)), { r with url := some p.scheme }) := by
  have h1 := C36_absolute_partial p hF.wf hF.port
  have h2 := target_eq r.mapUrl ps hF.params pt p.query
  have h3 := exportRest_eq b64 r p hs cs hF.headers hF.cookies tail ht
  unfold exportRequest
  rw [hF.url]
  simp only
  rw [h1]
  simp only [Res.ok_bind, hF.path]
  cases hq : p.query with
  | none =>
    rw [hq] at h2
    simp only at h2 ⊢
    by_cases hn : r.mapUrl.nb ≠ 0
    · rw [if_pos hn] at h2
      rw [if_pos hn]
      cases hk : UMap.enumKeys r.mapUrl with
      | ub => rw [hk] at h2; cases h2
      | ok ks =>
        rw [hk] at h2
        simp only [Res.ok_bind] at h2 ⊢
        rw [h2]
        simp only [Res.ok_bind, h3]
        rfl
    · rw [if_neg hn] at h2
      injection h2 with h2
      rw [if_neg hn, h2]
      simp only [h3, Res.ok_bind]
      rfl
  | some q =>
    rw [hq] at h2
    simp only at h2 ⊢
    by_cases hn : r.mapUrl.nb ≠ 0
    · rw [if_pos hn] at h2
      rw [if_pos hn]
      cases hk : UMap.enumKeys r.mapUrl with
      | ub => rw [hk] at h2; cases h2
      | ok ks =>
        rw [hk] at h2
        simp only [Res.ok_bind] at h2 ⊢
        rw [h2]
        simp only [Res.ok_bind, h3]
        rfl
    · rw [if_neg hn] at h2
      injection h2 with h2
      rw [if_neg hn, h2]
      simp only [h3, Res.ok_bind]
      rfl

/-- The text of an exported request: three words in its first line — the verb, the target, the protocol — with the path and the
parameters of URL and `map_url` in the target; then these fields, in which the cookies stand in order; then `rest`. -/
def ReadsAs (t : Bytes) (verb : Option Bytes) (path : Bytes) (query : Option Bytes) (ps cs : List (Bytes × Option Bytes))
    (fs : List Bytes → List (Bytes × Bytes)) (rest : Bytes) : Prop :=
  ∃ first target ts cts, message t = some (first, fs cts, rest) ∧
    pieces 0x20 first = [verb.getD b!"GET", 0x2f :: target, b!"HTTP/1.1"] ∧
    beforeQuery target = spaces path ∧ queryParams target = (query.map (pieces 0x26)).getD [] ++ ts ∧ ParamTexts ts ps ∧
    CookieTexts cts cs

private theorem cookieVal_texts (cs : List (Bytes × Option Bytes)) (h : FineCookies cs)
    (hn : ∀ c ∈ cs, ∀ v, c.2 = some v → NoNul v) : CookieTexts (cs.map cookieVal) cs := by
  induction cs with
  | nil => trivial
  | cons c t ih =>
    exact ⟨cookieVal_text c (h c List.mem_cons_self).1 (hn c List.mem_cons_self),
      ih (fun q hq => h q (List.mem_cons_of_mem _ hq)) (fun q hq => hn q (List.mem_cons_of_mem _ hq))⟩

private theorem first_line (r : Request) (p : Parts) (pt : Bytes) (ps hs cs : List (Bytes × Option Bytes))
    (hF : Fine r p pt ps hs cs) :
    (0x0d : UInt8) ∉ r.verb.getD b!"GET" ++ b!" /" ++ targetText pt p.query ps ++ b!" HTTP/1.1" ∧
    pieces 0x20 (r.verb.getD b!"GET" ++ b!" /" ++ targetText pt p.query ps ++ b!" HTTP/1.1") =
      [r.verb.getD b!"GET", 0x2f :: targetText pt p.query ps, b!"HTTP/1.1"] := by
  have hv : (0x0d : UInt8) ∉ r.verb.getD b!"GET" ∧ (0x20 : UInt8) ∉ r.verb.getD b!"GET" := by
    cases h : r.verb with
    | none => decide
    | some v => exact hF.verb v h
  have t1 : (0x0d : UInt8) ∉ targetText pt p.query ps :=
    target_free _ _ _ _ (by decide) (fun h => absurd h hF.line.1) (fun q hq => (hF.line.2 q hq).1)
  have t2 : (0x20 : UInt8) ∉ targetText pt p.query ps :=
    target_free _ _ _ _ (by decide) (fun _ => rfl) (fun q hq => (hF.line.2 q hq).2)
  generalize targetText pt p.query ps = tg at *
  generalize r.verb.getD b!"GET" = v at *
  constructor
  · simp only [List.mem_append, not_or]
    exact ⟨⟨⟨hv.1, by decide⟩, t1⟩, by decide⟩
  · have e : v ++ b!" /" ++ tg ++ b!" HTTP/1.1" = v ++ ([0x2f :: tg, b!"HTTP/1.1"].map (fun f => 0x20 :: f)).flatten := by simp
    rw [e, Verif.Message.pieces_fields 0x20 v _ hv.2]
    intro f hf
    simp only [List.mem_cons, List.not_mem_nil, or_false] at hf
    rcases hf with rfl | rfl
    · simp only [List.mem_cons, not_or]; exact ⟨by decide, t2⟩
    · decide

private theorem reads (b64 : Bytes → Bytes) (h64 : Fine64 b64) (r : Request) (p : Parts) (pt : Bytes)
    (ps hs cs : List (Bytes × Option Bytes)) (hF : Fine r p pt ps hs cs) (x : Bytes) (g : List (Bytes × Bytes)) (hx : Adds x g) (rest : Bytes) :
    ReadsAs (r.verb.getD b!"GET" ++ b!" /" ++ targetText pt p.query ps ++ b!" HTTP/1.1\r\n" ++
      (headText b64 r p hs cs ++ (x ++ (b!"\r\n" ++ rest)))) r.verb pt p.query ps cs
      (fun cts => headFields p hs cts ++ bodyFields r hs ++ authFields b64 r hs ++ g) rest := by
  obtain ⟨l1, l2⟩ := first_line r p pt ps hs cs hF
  obtain ⟨q1, q2⟩ := target_parts pt p.query ps (hF.wf.path _ hF.path) hF.wf.query
  refine ⟨_, _, _, _, ?_, l2, q1, q2, encParam_texts ps (fun q hq => (hF.params.2.2 q hq).2),
    cookieVal_texts cs hF.cnames (fun c hc => (hF.cookies.2.2 c hc).2.2)⟩
  have a := (adds_head b64 h64 r p hs cs hF.names hF.cnames hF.host hF.wf.host.2).append hx
  have f := a.fields rest
  have m := message_line _ _ l1 _ _ f
  rw [← m]
  congr 1
  simp only [List.append_assoc]
  rfl

/-- **C94, partial.** For every request with a body: the text reads back as its verb, target, headers, cookies, credentials and
body. Missing: a query with blanks (`C94_blank_false`), a URL without path (`C94_path_false`), bodies with a NUL, and the two bytes
behind the body (as for responses, C93), requests without body (`C94_end_false`). -/
theorem C94_body_partial (b64 : Bytes → Bytes) (h64 : Fine64 b64) (r : Request) (p : Parts) (pt : Bytes)
    (ps hs cs : List (Bytes × Option Bytes)) (hF : Fine r p pt ps hs cs) (body x : Bytes) (hl : r.bodyLen = body.length)
    (hne : body ≠ []) (hb : r.body = some (body ++ x)) (hn : NoNul body) (h31 : body.length < 2 ^ 31) :
    ∃ t, exportRequest b64 r = .ok (some t, { r with url := some p.scheme }) ∧
      ReadsAs t r.verb pt p.query ps cs (fun cts => headFields p hs cts ++ bodyFields r hs ++ authFields b64 r hs)
        (body ++ b!"\r\n") := by
  have ht : exportTail r = .ok (b!"\r\n" ++ body ++ b!"\r\n") := by
    unfold exportTail
    rw [if_pos (by rw [hl]; simpa using hne), hb, hl, bodyText_eq body x hn h31]
    rfl
  refine ⟨_, export_eq b64 r p pt ps hs cs hF _ ht, ?_⟩
  have := reads b64 h64 r p pt ps hs cs hF [] [] Adds.nil (body ++ b!"\r\n")
  simpa only [List.append_nil, List.nil_append, List.append_assoc] using this

private theorem absent_get {m : UMap} {hs : List (Bytes × Option Bytes)} (h : HoldsParams m hs) (k : Bytes)
    (ha : present hs k = false) : UMap.get m (some k) = .ok none := by
  obtain ⟨h0, h1, -⟩ := h
  obtain ⟨es, rfl, -⟩ := reach_wf h0
  rw [enumKeys_rep] at h1
  injection h1 with h1
  have e : es.find? (fun e => e.key == k) = none := by
    rw [List.find?_eq_none]
    intro e he hk
    have hk : e.key = k := by simpa using hk
    have hm : k ∈ hs.map (·.1) := by rw [← h1, ← hk]; exact List.mem_map_of_mem he
    obtain ⟨p, hp, rfl⟩ := List.mem_map.1 hm
    unfold present at ha
    rw [List.any_eq_false] at ha
    exact ha p hp (by simp [eqCase])
  rw [get_rep, e]
  rfl

/-- **C94, partial**, for a form: without body, the entries of `map_post_body` are sent, in order, joined by '&' and encoded, and
their length is announced. Missing: entries that are not UTF-8 text (`C94_entry_false`), and requests that have a Content-Type
header. -/
theorem C94_form_partial (b64 : Bytes → Bytes) (h64 : Fine64 b64) (r : Request) (p : Parts) (pt : Bytes)
    (ps hs cs : List (Bytes × Option Bytes)) (hF : Fine r p pt ps hs cs) (hl : r.bodyLen = 0) (es : List (Bytes × Option Bytes))
    (he : HoldsParams r.mapPost es) (ht : TextEntries r.mapPost es) (hne : es ≠ []) (hct : present hs b!"Content-Type" = false) :
    ∃ t body, exportRequest b64 r = .ok (some t, { r with url := some p.scheme }) ∧
      ReadsAs t r.verb pt p.query ps cs (fun cts => headFields p hs cts ++
        [(b!"Content-type", b!"application/x-www-form-urlencoded")] ++ authFields b64 r hs ++
        [(b!"Content-Length", decimal body.length)]) body ∧
      ParamTexts (pieces 0x26 body) es := by
  cases es with
  | nil => exact absurd rfl hne
  | cons e es =>
    have hnb : r.mapPost.nb ≠ 0 := by rw [holds_nb' he]; simp
    have hbody : formBody r.mapPost true ((e :: es).map (·.1)) = .ok (encParam e ++ Verif.Client.amps (es.map encParam)) := by
      have := formBody_false r.mapPost es (fun q hq => he.2.2 q (List.mem_cons_of_mem _ hq)) (fun q hq => ht q (List.mem_cons_of_mem _ hq))
      rw [List.map_cons, formBody_step r.mapPost e _ true _ (he.2.2 e List.mem_cons_self) (ht e List.mem_cons_self) this]
      rfl
    have hget : UMap.get r.mapHeader (some b!"Content-Type") = .ok none := absent_get hF.headers _ hct
    have htail : exportTail r = .ok (b!"Content-Length: " ++ decimal (encParam e ++ Verif.Client.amps (es.map encParam)).length ++
        b!"\r\n\r\n" ++ (encParam e ++ Verif.Client.amps (es.map encParam))) := by
      unfold exportTail
      rw [if_neg (by simp [hl]), if_pos hnb, hget, he.2.1]
      simp only [Res.ok_bind, if_true]
      rw [hbody]
      rfl
    refine ⟨_, encParam e ++ Verif.Client.amps (es.map encParam), export_eq b64 r p pt ps hs cs hF _ htail, ?_, ?_⟩
    · have := reads b64 h64 r p pt ps hs cs hF _ _ (adds_one b!"Content-Length"
        (decimal (encParam e ++ Verif.Client.amps (es.map encParam)).length) (by decide) (decimal_value _))
        (encParam e ++ Verif.Client.amps (es.map encParam))
      have eb : bodyFields r hs = [(b!"Content-type", b!"application/x-www-form-urlencoded")] := by
        unfold bodyFields
        simp only [hl, hct]
        simp [hnb]
      rw [eb] at this
      generalize encParam e ++ Verif.Client.amps (es.map encParam) = bd at *
      have e2 : b!"Content-Length: " ++ decimal bd.length ++ b!"\r\n\r\n" ++ bd =
        b!"Content-Length" ++ b!": " ++ decimal bd.length ++ b!"\r\n" ++ (b!"\r\n" ++ bd) := by
        simp only [List.append_assoc]; rfl
      rw [e2]
      exact this
    · rw [Verif.Client.pieces_amps _ _ (by
        intro x hx
        obtain ⟨q, -, rfl⟩ := List.mem_map.1 hx
        exact encParam_free q _ (by decide)), Verif.Client.pieces_free _ _ (encParam_free e _ (by decide))]
      exact encParam_texts (e :: es) (fun q hq => (he.2.2 q hq).2)

/-- **C94 is false** for every request without body and without form entries: the text is never a complete message, the empty line
that ends the headers is missing. -/
theorem C94_end_false (b64 : Bytes → Bytes) (h64 : Fine64 b64) (r : Request) (p : Parts) (pt : Bytes)
    (ps hs cs : List (Bytes × Option Bytes)) (hF : Fine r p pt ps hs cs) (hl : r.bodyLen = 0) (he : r.mapPost.nb = 0) :
    ∃ t, exportRequest b64 r = .ok (some t, { r with url := some p.scheme }) ∧ message t = none := by
  have htail : exportTail r = .ok [] := by
    unfold exportTail
    rw [if_neg (by simp [hl]), if_neg (by simp [he])]
  refine ⟨_, export_eq b64 r p pt ps hs cs hF _ htail, ?_⟩
  obtain ⟨l1, -⟩ := first_line r p pt ps hs cs hF
  have a := adds_head b64 h64 r p hs cs hF.names hF.cnames hF.host hF.wf.host.2
  have f : fields (headText b64 r p hs cs ++ []) = none := by rw [a, fields_nil]; rfl
  have e : r.verb.getD b!"GET" ++ b!" /" ++ targetText pt p.query ps ++ b!" HTTP/1.1\r\n" ++ (headText b64 r p hs cs ++ []) =
      (r.verb.getD b!"GET" ++ b!" /" ++ targetText pt p.query ps ++ b!" HTTP/1.1") ++ 0x0d :: 0x0a :: (headText b64 r p hs cs ++ []) := by
    simp only [List.append_assoc]; rfl
  rw [e]
  unfold message
  rw [line_crlf _ _ l1]
  simp only [f]
  rfl

/-- A request with a URL, a parameter, a header and the given body. -/
def sampleGet (url : Bytes) (body : Bytes) : Request :=
  { verb := none, url := some url, mapUrl := sampleParams, mapHeader := sampleParams, mapCookie := UMap.init, body := some body,
    bodyLen := body.length }

example : Fine (sampleGet (render ⟨b!"http", none, b!"h", some b!"8080", some b!"p q", some b!"x=1", none⟩) b!"hello")
    ⟨b!"http", none, b!"h", some b!"8080", some b!"p q", some b!"x=1", none⟩ b!"p q" [(b!"a b", some b!"1&2"), (b!"k", none)]
    [(b!"a b", some b!"1&2"), (b!"k", none)] [] where
  url := rfl
  wf := by refine ⟨by decide, ?_, by decide, ?_, ?_, ?_⟩ <;> (simp; try decide)
  port := by rintro t ⟨⟩; decide
  path := rfl
  line := ⟨by decide, by rintro q ⟨⟩; decide⟩
  verb := by rintro v ⟨⟩
  host := by decide
  params := sampleParams_holds
  headers := sampleParams_holds
  names := by
    intro p hp
    simp only [List.mem_cons, List.not_mem_nil, or_false] at hp
    rcases hp with rfl | rfl
    · exact ⟨by decide, by rintro v ⟨⟩; decide⟩
    · exact ⟨by decide, by rintro v ⟨⟩⟩
  cookies := ⟨.init, rfl, by simp⟩
  cnames := by intro c hc; cases hc

example : ∃ r', exportRequest id (sampleGet b!"http://h:8080/p q?x=1" b!"hello") = .ok (some
    (b!"GET /p%20q?x=1&a+b=1%262&k HTTP/1.1\r\nHost: h:8080\r\na b: 1&2\r\nk:\r\nContent-Length: 5\r\n\r\nhello\r\n"), r') :=
  ⟨{ sampleGet b!"http" b!"hello" with url := some b!"http" }, by decide +kernel⟩

/-- **C94 is false** when the query of the URL contains a blank: only those of the path are replaced, so the first line has four
words. -/
theorem C94_blank_false : ∃ t r' first fs, exportRequest id { sampleGet b!"http://h/p q?x y" b!"b" with mapUrl := UMap.init } =
      .ok (some t, r') ∧ message t = some (first, fs, b!"b\r\n") ∧
      pieces 0x20 first = [b!"GET", b!"/p%20q?x", b!"y", b!"HTTP/1.1"] :=
  ⟨b!"GET /p%20q?x y HTTP/1.1\r\nHost: h\r\na b: 1&2\r\nk:\r\nContent-Length: 1\r\n\r\nb\r\n",
    { sampleGet b!"http" b!"b" with mapUrl := UMap.init }, b!"GET /p%20q?x y HTTP/1.1",
    [(b!"Host", b!"h"), (b!"a b", b!"1&2"), (b!"k", []), (b!"Content-Length", b!"1")], by decide +kernel, by decide +kernel, by decide⟩

/-- **C94 is false** for a URL without path: the target is the text of a NULL pointer. -/
theorem C94_path_false : ∃ t r' first fs, exportRequest id { sampleGet b!"http://h" b!"b" with mapUrl := UMap.init } =
      .ok (some t, r') ∧ message t = some (first, fs, b!"b\r\n") ∧
      pieces 0x20 first = [b!"GET", b!"/(null)", b!"HTTP/1.1"] :=
  ⟨b!"GET /(null) HTTP/1.1\r\nHost: h\r\na b: 1&2\r\nk:\r\nContent-Length: 1\r\n\r\nb\r\n",
    { sampleGet b!"http" b!"b" with mapUrl := UMap.init }, b!"GET /(null) HTTP/1.1",
    [(b!"Host", b!"h"), (b!"a b", b!"1&2"), (b!"k", []), (b!"Content-Length", b!"1")], by decide +kernel, by decide +kernel, by decide⟩

/-- **C94 is false** for a form entry without value: a '?' and the plain key are written, so another key is read. -/
theorem C94_entry_false : ∃ t r' first fs body,
    exportRequest id { url := some b!"http://h/", mapPost := sampleParams } = .ok (some t, r') ∧
      message t = some (first, fs, body) ∧ (pieces 0x26 body).map pair = [(b!"a+b", some b!"1%262"), (b!"?k", none)] :=
  ⟨b!"GET / HTTP/1.1\r\nHost: h\r\nContent-type: application/x-www-form-urlencoded\r\nContent-Length: 12\r\n\r\na+b=1%262&?k",
    { url := some b!"http", mapPost := sampleParams }, b!"GET / HTTP/1.1",
    [(b!"Host", b!"h"), (b!"Content-type", b!"application/x-www-form-urlencoded"), (b!"Content-Length", b!"12")], b!"a+b=1%262&?k",
    by decide +kernel, by decide +kernel, by decide⟩

end Verif.Props
