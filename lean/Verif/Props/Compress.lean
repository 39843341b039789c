import Verif.Model.Compress
import Verif.Spec.Coding
import Verif.Lemmas.Handshake
import Verif.Lemmas.Options
import Verif.Lemmas.WsOpen
import Verif.Props.Answer
/-! # Properties of the compression callback -/
namespace Verif.Props
open Verif.UMap Verif.Message Verif.Compress Verif.Handshake
open Verif.Spec.Client Verif.Spec.Handshake Verif.Spec.Coding Verif.Spec.Segments

/-- zlib is lossless, and no compressed stream is empty. -/
def LosslessZlib (Z : Zlib) (undo : Bytes → Bytes → Option Bytes) : Prop :=
  ∀ m x, undo (modeName m) (Z.all m x) = some x ∧ Z.all m x ≠ []

theorem zip_loop (fails : Nat → Bool) : ∀ (n turn : Nat) (pending out : Bytes), pending.length = n →
    (Compress.loop fails turn pending out = some (out ++ pending)) ∨
    (Compress.loop fails turn pending out = none ∧ ∃ i, fails i = true) := by
  intro n
  induction n using Nat.strongRecOn with
  | ind n ih =>
    intro turn pending out hn
    rw [Compress.loop]
    by_cases hf : fails turn = true
    · rw [if_pos hf]
      exact .inr ⟨rfl, turn, hf⟩
    · rw [if_neg hf]
      simp only [List.length_take]
      by_cases h : block - min block pending.length = 0
      · rw [if_pos h]
        have hl : block ≤ pending.length := by omega
        have hb : 0 < block := by simp [block]
        rcases ih (pending.drop block).length (by rw [List.length_drop]; omega) (turn + 1) (pending.drop block)
          (out ++ pending.take block) rfl with h1 | h1
        · left
          rw [h1, List.append_assoc, List.take_append_drop]
        · exact .inr h1
      · rw [if_neg h, List.take_of_length_le (by omega)]
        exact .inl rfl

private theorem count_single : ∀ (qs : List (Bytes × Option Bytes)) (k : Bytes) (p : Bytes × Option Bytes),
    qs.countP (fun p => eqCase p.1 k) = 1 → qs.find? (fun p => eqCase p.1 k) = some p → Single qs k (p.2.getD [])
  | [], _, _, h, _ => by simp at h
  | q :: t, k, p, h, hf => by
    rw [List.countP_cons] at h
    by_cases hq : eqCase q.1 k = true
    · rw [List.find?_cons, hq] at hf
      simp only [Option.some.injEq] at hf
      subst hf
      rw [if_pos hq] at h
      refine ⟨[], q, t, rfl, (WsOpen.same_name _ _).1 hq, rfl, ?_⟩
      intro x hx hn
      have h0 : t.countP (fun p => eqCase p.1 k) = 0 := by omega
      exact absurd ((WsOpen.same_name _ _).2 hn) (List.countP_eq_zero.1 h0 x hx)
    · rw [List.find?_cons] at hf
      simp only [hq] at hf
      rw [if_neg hq] at h
      obtain ⟨a, x, b, e1, e2, e3, e4⟩ := count_single t k p h hf
      refine ⟨q :: a, x, b, by rw [e1]; rfl, e2, e3, ?_⟩
      intro y hy
      have hy' : y ∈ q :: (a ++ b) := hy
      rcases List.mem_cons.1 hy' with rfl | hy
      · exact fun hn => hq ((WsOpen.same_name _ _).2 hn)
      · exact e4 y hy

theorem single_found {qs : List (Bytes × Option Bytes)} {k v : Bytes} (h : Single qs k v) :
    qs.countP (fun p => eqCase p.1 k) = 1 ∧ ∃ p, qs.find? (fun p => eqCase p.1 k) = some p ∧ p.2.getD [] = v := by
  obtain ⟨a, p, b, rfl, e2, e3, e4⟩ := h
  have ha : ∀ x ∈ a, ¬ eqCase x.1 k = true := fun x hx hc => e4 x (by simp [hx]) ((WsOpen.same_name _ _).1 hc)
  have hb : ∀ x ∈ b, ¬ eqCase x.1 k = true := fun x hx hc => e4 x (by simp [hx]) ((WsOpen.same_name _ _).1 hc)
  have hp : eqCase p.1 k = true := (WsOpen.same_name _ _).2 e2
  constructor
  · rw [List.countP_append, List.countP_cons, List.countP_eq_zero.2 ha, List.countP_eq_zero.2 hb, if_pos hp]
  · refine ⟨p, ?_, e3⟩
    rw [List.find?_append, List.find?_eq_none.2 ha, List.find?_cons, hp]
    rfl

private theorem accepts_iff {qs : List (Bytes × Option Bytes)} {v : Bytes} (h : Single qs b!"Accept-Encoding" v) (c : Bytes)
    (hc : Strtok.trimSpace c = c) : hasTrimmed (splitString 0x2c v) c = true ↔ Accepts qs c := by
  have hi : Items v ((pieces 0x2c v).map Strtok.trimSpace) := (items_iff v _).2 rfl
  rw [hasTrimmed_iff v c _ hi, hc]
  constructor
  · exact fun hm => ⟨v, _, h, hi, hm⟩
  · rintro ⟨v', xs, h', hi', hm⟩
    obtain ⟨p, e1, e2⟩ := (single_found h).2
    obtain ⟨p', e1', e2'⟩ := (single_found h').2
    rw [e1] at e1'
    cases e1'
    rw [e2] at e2'
    subst e2'
    rw [(items_iff v xs).1 hi'] at hm
    exact hm

/-- The codings the configuration allows; both without configuration. -/
def allowsGzip (cfg : Option Config) : Prop := ∀ c, cfg = some c → c.gzip = true
/-- See `allowsGzip`. -/
def allowsDeflate (cfg : Option Config) : Prop := ∀ c, cfg = some c → c.deflate = true

theorem choose_wanted {qs : List (Bytes × Option Bytes)} {v : Bytes} (h : Single qs b!"Accept-Encoding" v)
    (cfg : Option Config) :
    match choose cfg (splitString 0x2c v) with
    | some m => Wanted (allowsGzip cfg) (allowsDeflate cfg) qs (modeName m)
    | none => ∀ c, ¬ Wanted (allowsGzip cfg) (allowsDeflate cfg) qs c := by
  have hg := accepts_iff h b!"gzip" (by decide)
  have hd := accepts_iff h b!"deflate" (by decide)
  have ag : mayGzip cfg = true ↔ allowsGzip cfg := by
    cases cfg with
    | none => simp [allowsGzip, mayGzip]
    | some c => simp [allowsGzip, mayGzip]
  have ad : mayDeflate cfg = true ↔ allowsDeflate cfg := by
    cases cfg with
    | none => simp [allowsDeflate, mayDeflate]
    | some c => simp [allowsDeflate, mayDeflate]
  have h1 : (mayGzip cfg && hasTrimmed (splitString 0x2c v) b!"gzip") = true ↔ allowsGzip cfg ∧ Accepts qs b!"gzip" := by
    rw [Bool.and_eq_true, ag, hg]
  have h2 : (mayDeflate cfg && hasTrimmed (splitString 0x2c v) b!"deflate") = true ↔
      allowsDeflate cfg ∧ Accepts qs b!"deflate" := by
    rw [Bool.and_eq_true, ad, hd]
  unfold choose
  by_cases g1 : (mayGzip cfg && hasTrimmed (splitString 0x2c v) b!"gzip") = true
  · rw [if_pos g1]
    exact .inl ⟨rfl, h1.1 g1⟩
  · rw [if_neg g1]
    have n1 : ¬ (allowsGzip cfg ∧ Accepts qs b!"gzip") := fun h => g1 (h1.2 h)
    by_cases g2 : (mayDeflate cfg && hasTrimmed (splitString 0x2c v) b!"deflate") = true
    · rw [if_pos g2]
      have := h2.1 g2
      exact .inr ⟨rfl, this.1, this.2, n1⟩
    · rw [if_neg g2]
      rintro c (⟨_, h3⟩ | ⟨_, h3, h4, _⟩)
      · exact n1 h3
      · exact g2 (h2.2 ⟨h3, h4⟩)

theorem codings_absent {hs : List (Bytes × Option Bytes)} (h : Absent hs b!"Content-Encoding") : codings hs = [] := by
  unfold codings
  rw [List.filterMap_eq_nil_iff]
  intro p hp
  exact if_neg (h p hp)

private theorem put_absent {hs : List (Bytes × Option Bytes)} (h : Absent hs b!"Content-Encoding") (v : Option Bytes) :
    Spec.OMap.put hs b!"Content-Encoding" v = hs ++ [(b!"Content-Encoding", v)] := by
  unfold Spec.OMap.put
  rw [if_neg]
  intro hc
  obtain ⟨p, hp, he⟩ := List.any_eq_true.1 hc
  have : p.1 = b!"Content-Encoding" := by simpa using he
  exact h p hp (by rw [this]; rfl)

private theorem modeName_fine (m : Mode) : NoNul (modeName m) ∧ (modeName m).length + 2 < 2 ^ 64 := by
  cases m <;> exact ⟨by decide, by decide⟩

/-- **C131, partial.** For every request and every response with a body shorter than 4 GiB and without header Content-Encoding:
the callback changes nothing but the body and the header Content-Encoding, and a client that undoes the codings the answer names
reads the body that was set before. The body is compressed exactly when it is not empty and the configuration allows a coding the
client lists in its one header Accept-Encoding (gzip first), and the header names that coding; when zlib fails the response is left
as it was. Missing: responses that have a header Content-Encoding (`C131_encoded_false`) and longer bodies
(`C131_long_false`). -/
theorem C131_compression_partial (Z : Zlib) (undo : Bytes → Bytes → Option Bytes) (cfg : Option Config) (header : UMap)
    (r : Response) (qs hs : List (Bytes × Option Bytes)) (cs : List Bytes) (body : Bytes)
    (hz : LosslessZlib Z undo) (hq : HoldsParams header qs) (hr : HoldsResp r hs cs body)
    (hl : r.bodyLen = body.length) (h32 : body.length < 2 ^ 32) (hc : Absent hs b!"Content-Encoding") :
    ∃ code r' hs' body', callback Z cfg header r = .ok (code, r') ∧
      HoldsResp r' hs' cs body' ∧ r'.bodyLen = body'.length ∧
      r' = { r with header := r'.header, body := r'.body, bodyLen := r'.bodyLen } ∧
      readBody undo hs' body' = some body ∧
      (code = 1 ∧ r' = r ∧ hs' = hs ∧ body' = body ∧
          (body = [] ∨ ∀ c, ¬ Wanted (allowsGzip cfg) (allowsDeflate cfg) qs c) ∨
        code = 4 ∧ r' = r ∧ hs' = hs ∧ body' = body ∧ body ≠ [] ∧
          (∃ m, Wanted (allowsGzip cfg) (allowsDeflate cfg) qs (modeName m) ∧
            (Z.init m = false ∨ ∃ n, Z.fails m body n = true)) ∨
        code = 1 ∧ body ≠ [] ∧ ∃ c, Wanted (allowsGzip cfg) (allowsDeflate cfg) qs c ∧
          hs' = hs ++ [(b!"Content-Encoding", some c)]) := by
  have hsame : readBody undo hs body = some body := by
    unfold readBody
    rw [codings_absent hc]
    rfl
  have hkeep : r = { r with header := r.header, body := r.body, bodyLen := r.bodyLen } := rfl
  unfold callback
  by_cases h0 : r.bodyLen = 0
  · rw [if_pos h0]
    refine ⟨1, r, hs, body, rfl, hr, hl, hkeep, hsame, .inl ⟨rfl, rfl, rfl, rfl, .inl ?_⟩⟩
    rw [hl] at h0
    exact List.length_eq_zero_iff.1 h0
  · rw [if_neg h0]
    have hne : body ≠ [] := by rintro rfl; exact h0 (by simpa using hl)
    obtain ⟨c1, c2⟩ := holds_case hq b!"Accept-Encoding"
    rw [c1, Res.ok_bind]
    have none_wanted (hcnt : ¬ qs.countP (fun p => eqCase p.1 b!"Accept-Encoding") = 1) :
        ∀ c, ¬ Wanted (allowsGzip cfg) (allowsDeflate cfg) qs c := by
      rintro c (⟨_, _, v, xs, hs1, _⟩ | ⟨_, _, ⟨v, xs, hs1, _⟩, _⟩)
      · exact hcnt (single_found hs1).1
      · exact hcnt (single_found hs1).1
    by_cases hcnt : qs.countP (fun p => eqCase p.1 b!"Accept-Encoding") = 1
    · rw [if_pos hcnt]
      cases hf : qs.find? (fun p => eqCase p.1 b!"Accept-Encoding") with
      | none =>
        rw [hf] at c2
        rw [List.find?_eq_none] at hf
        rw [List.countP_eq_zero.2 (by simpa using hf)] at hcnt
        cases hcnt
      | some p =>
        rw [hf] at c2
        obtain ⟨b, g1, g2⟩ := c2
        rw [g1, Res.ok_bind]
        simp only [g2, Res.ok_bind]
        have hsg := count_single qs _ p hcnt hf
        have hw := choose_wanted hsg cfg
        cases hm : choose cfg (splitString 0x2c (p.2.getD [])) with
        | none =>
          rw [hm] at hw
          exact ⟨1, r, hs, body, rfl, hr, hl, hkeep, hsame, .inl ⟨rfl, rfl, rfl, rfl, .inr hw⟩⟩
        | some m =>
          rw [hm] at hw
          simp only at hw ⊢
          unfold compress
          by_cases hi : Z.init m = true
          · rw [if_pos hi]
            have hin : input r = .ok body := by
              unfold input
              obtain ⟨_, _, hb, hlen⟩ := hr
              cases hbody : r.body with
              | none => rw [hbody] at hb; exact absurd hb.symm (by simpa [bodyOf] using hne)
              | some b =>
                rw [hbody] at hb
                have h1 := hlen b hbody
                simp only [w32, hl, Nat.mod_eq_of_lt h32]
                rw [hl] at h1 hb
                rw [if_pos h1]
                exact congrArg Res.ok hb
            rw [hin, Res.ok_bind]
            rcases zip_loop (Z.fails m body) _ 0 (Z.all m body) [] rfl with hlp | ⟨hlp, n, hn⟩
            · rw [hlp]
              simp only [List.nil_append]
              have hzn := (hz m body).2
              have hzl : ¬ (Z.all m body).length = 0 := by simpa using hzn
              simp only [setBinaryBody, if_neg hzl, Nat.le_refl, if_true, List.take_length, Res.ok_bind]
              obtain ⟨m', p1, p2⟩ := holds_put hr.1 b!"Content-Encoding" (some (modeName m)) (by decide) (by decide)
                (by intro x hx; cases hx; exact modeName_fine m)
              rw [p1]
              refine ⟨1, _, Spec.OMap.put hs b!"Content-Encoding" (some (modeName m)), Z.all m body, rfl,
                ⟨p2, hr.2.1, by simp [bodyOf], by simp⟩, rfl, rfl, ?_, .inr (.inr ⟨rfl, hne, modeName m, hw, put_absent hc _⟩)⟩
              rw [put_absent hc]
              unfold readBody
              have : codings (hs ++ [(b!"Content-Encoding", some (modeName m))]) = [modeName m] := by
                have := codings_absent hc
                unfold codings at this ⊢
                rw [List.filterMap_append, this]
                rfl
              rw [this]
              simp [(hz m body).1]
            · rw [hlp]
              exact ⟨4, r, hs, body, rfl, hr, hl, hkeep, hsame, .inr (.inl ⟨rfl, rfl, rfl, rfl, hne, m, hw, .inr ⟨n, hn⟩⟩)⟩
          · rw [if_neg hi]
            exact ⟨4, r, hs, body, rfl, hr, hl, hkeep, hsame,
              .inr (.inl ⟨rfl, rfl, rfl, rfl, hne, m, hw, .inl (by simpa using hi)⟩)⟩
    · rw [if_neg hcnt]
      exact ⟨1, r, hs, body, rfl, hr, hl, hkeep, hsame, .inl ⟨rfl, rfl, rfl, rfl, .inr (none_wanted hcnt)⟩⟩

/-- A request that accepts gzip. -/
private noncomputable def gzipHeader : UMap := (holds_put holds_init b!"Accept-Encoding" (some b!"gzip") (by decide) (by decide)
  (by intro x hx; cases hx; exact ⟨by decide, by decide⟩)).choose

private theorem gzipHeader_holds : HoldsParams gzipHeader [(b!"Accept-Encoding", some b!"gzip")] :=
  (holds_put holds_init b!"Accept-Encoding" (some b!"gzip") (by decide) (by decide)
    (by intro x hx; cases hx; exact ⟨by decide, by decide⟩)).choose_spec.2

/-- zlib does not fail. -/
def ReliableZlib (Z : Zlib) : Prop := ∀ m, Z.init m = true ∧ ∀ x n, Z.fails m x n = false

private theorem gzip_run (Z : Zlib) (hf : ReliableZlib Z) (hn : ∀ x, Z.all .gzip x ≠ []) (header : UMap)
    (hq : HoldsParams header [(b!"Accept-Encoding", some b!"gzip")])
    (r : Response) (hs : List (Bytes × Option Bytes)) (cs : List Bytes) (body x : Bytes) (hr : HoldsResp r hs cs body)
    (h0 : r.bodyLen ≠ 0) (hi : input r = .ok x) :
    ∃ r', callback Z none header r = .ok (1, r') ∧
      HoldsResp r' (Spec.OMap.put hs b!"Content-Encoding" (some b!"gzip")) cs (Z.all .gzip x) := by
  unfold callback
  rw [if_neg h0]
  obtain ⟨c1, c2⟩ := holds_case hq b!"Accept-Encoding"
  rw [c1, Res.ok_bind, if_pos (by decide)]
  have hfd : List.find? (fun p : Bytes × Option Bytes => eqCase p.1 b!"Accept-Encoding") [(b!"Accept-Encoding", some b!"gzip")] =
      some (b!"Accept-Encoding", some b!"gzip") := by decide
  rw [hfd] at c2
  obtain ⟨b, g1, g2⟩ := c2
  rw [g1, Res.ok_bind]
  simp only [g2, Res.ok_bind, Option.getD_some]
  have hch : choose none (splitString 0x2c b!"gzip") = some .gzip := by
    rw [splitString_eq]
    decide
  rw [hch]
  simp only
  unfold compress
  rw [if_pos (hf .gzip).1, hi, Res.ok_bind]
  rcases zip_loop (Z.fails .gzip x) _ 0 (Z.all .gzip x) [] rfl with hlp | ⟨_, n, hx⟩
  · rw [hlp]
    have hzl : ¬ (Z.all .gzip x).length = 0 := by simpa using hn x
    simp only [List.nil_append, setBinaryBody, if_neg hzl, Nat.le_refl, if_true, List.take_length, Res.ok_bind]
    obtain ⟨m', p1, p2⟩ := holds_put hr.1 b!"Content-Encoding" (some b!"gzip") (by decide) (by decide)
      (by intro x hx; cases hx; exact modeName_fine .gzip)
    show ∃ r', (UMap.put r.header (some b!"Content-Encoding") (some b!"gzip") >>= _) = _ ∧ _
    rw [p1]
    exact ⟨_, rfl, p2, hr.2.1, by simp [bodyOf], by simp⟩
  · rw [(hf .gzip).2] at hx
    cases hx

/-- **C131, counterexample.** A response whose body is gzip already, and says so, is compressed once more while its header keeps
naming gzip once: a client that read the text `x` before reads the compressed form of `x` instead. This holds for every lossless
zlib and every `x` that compression changes. -/
theorem C131_encoded_false (Z : Zlib) (undo : Bytes → Bytes → Option Bytes) (hz : LosslessZlib Z undo) (hf : ReliableZlib Z)
    (x : Bytes) (hx : Z.all .gzip x ≠ x) (hx32 : (Z.all .gzip x).length < 2 ^ 32) :
    ∃ header qs r hs body, HoldsParams header qs ∧ HoldsResp r hs [] body ∧ r.bodyLen = body.length ∧ body.length < 2 ^ 32 ∧
      readBody undo hs body = some x ∧
      ∃ r' hs' body', callback Z none header r = .ok (1, r') ∧ HoldsResp r' hs' [] body' ∧
        readBody undo hs' body' = some (Z.all .gzip x) ∧ readBody undo hs' body' ≠ some x := by
  obtain ⟨m, _, hm⟩ := holds_put holds_init b!"Content-Encoding" (some b!"gzip") (by decide) (by decide)
    (by intro x hx; cases hx; exact modeName_fine .gzip)
  have hm' : HoldsParams m [(b!"Content-Encoding", some b!"gzip")] := hm
  have hr : HoldsResp { header := m, body := some (Z.all .gzip x), bodyLen := (Z.all .gzip x).length }
      [(b!"Content-Encoding", some b!"gzip")] [] (Z.all .gzip x) := ⟨hm', rfl, by simp [bodyOf], by simp⟩
  have hrd (z y : Bytes) (h : undo b!"gzip" z = some y) : readBody undo [(b!"Content-Encoding", some b!"gzip")] z = some y := by
    have hcd : codings [(b!"Content-Encoding", some b!"gzip")] = [b!"gzip"] := by decide
    unfold readBody
    rw [hcd]
    simp [h]
  have hn : (Z.all .gzip x).length ≠ 0 := by simpa using (hz .gzip x).2
  obtain ⟨r', e1, e2⟩ := gzip_run Z hf (fun y => (hz .gzip y).2) gzipHeader gzipHeader_holds _ _ _ _ (Z.all .gzip x) hr hn
    (by simp only [input, w32, Nat.mod_eq_of_lt hx32, Nat.le_refl, if_true, List.take_length])
  have hrd2 := hrd _ _ (hz .gzip (Z.all .gzip x)).1
  refine ⟨gzipHeader, _, _, _, _, gzipHeader_holds, hr, rfl, hx32, hrd _ _ (hz .gzip x).1, r', _, _, e1, e2, hrd2, ?_⟩
  intro h
  have := Option.some.inj (hrd2.symm.trans h)
  exact hx this

/-- **C131, counterexample.** The length of the body is cast to 32 bits: of a body of 4 GiB nothing is left, and the client reads
an empty body, without any error. -/
theorem C131_long_false (Z : Zlib) (undo : Bytes → Bytes → Option Bytes) (hz : LosslessZlib Z undo) (hf : ReliableZlib Z) :
    ∃ header qs r body, HoldsParams header qs ∧ HoldsResp r [] [] body ∧ r.bodyLen = body.length ∧ body.length = 2 ^ 32 ∧
      readBody undo [] body = some body ∧
      ∃ r' hs' body', callback Z none header r = .ok (1, r') ∧ HoldsResp r' hs' [] body' ∧ readBody undo hs' body' = some [] := by
  have key : ∀ body : Bytes, body.length = 2 ^ 32 →
      ∃ header qs r body, HoldsParams header qs ∧ HoldsResp r [] [] body ∧ r.bodyLen = body.length ∧ body.length = 2 ^ 32 ∧
        readBody undo [] body = some body ∧
        ∃ r' hs' body', callback Z none header r = .ok (1, r') ∧ HoldsResp r' hs' [] body' ∧ readBody undo hs' body' = some [] := by
    intro body hb
    have hr : HoldsResp { body := some body, bodyLen := body.length } [] [] body := ⟨holds_init, rfl, by simp [bodyOf], by simp⟩
    obtain ⟨r', e1, e2⟩ := gzip_run Z hf (fun y => (hz .gzip y).2) gzipHeader gzipHeader_holds _ _ _ _ [] hr
      (by show body.length ≠ 0; rw [hb]; decide)
      (by
        have : w32 body.length = 0 := by rw [hb]; rfl
        simp only [input, this, Nat.zero_le, if_true, List.take_zero])
    refine ⟨gzipHeader, _, _, body, gzipHeader_holds, hr, rfl, hb, rfl, r', _, _, e1, e2, ?_⟩
    have hcd : codings (Spec.OMap.put [] b!"Content-Encoding" (some b!"gzip")) = [b!"gzip"] := by decide
    unfold readBody
    rw [hcd]
    simp [show undo b!"gzip" (Z.all .gzip []) = some [] from (hz .gzip []).1]
  exact key (List.replicate (2 ^ 32) 0) List.length_replicate

/-! A case that meets the hypotheses: a zlib that puts one byte in front, a request that accepts gzip, a response with a body. -/

def toyZlib : Zlib := { init := fun _ => true, all := fun _ x => 0x1f :: x, fails := fun _ _ _ => false }
def toyUndo (_ : Bytes) : Bytes → Option Bytes
  | 0x1f :: t => some t
  | _ => none

example : LosslessZlib toyZlib toyUndo ∧ ReliableZlib toyZlib ∧ toyZlib.all .gzip b!"abc" ≠ b!"abc" ∧
    HoldsParams gzipHeader [(b!"Accept-Encoding", some b!"gzip")] ∧
    HoldsResp { body := some b!"abc", bodyLen := 3 } [] [] b!"abc" ∧ Absent [] b!"Content-Encoding" ∧
    Wanted (allowsGzip none) (allowsDeflate none) [(b!"Accept-Encoding", some b!"gzip")] b!"gzip" :=
  ⟨fun _ _ => ⟨rfl, by simp [toyZlib]⟩, fun _ => ⟨rfl, fun _ _ => rfl⟩, by decide, gzipHeader_holds,
    ⟨holds_init, rfl, by decide, by simp⟩, by simp [Absent],
    .inl ⟨rfl, by simp [allowsGzip], b!"gzip", [b!"gzip"], ⟨[], _, [], rfl, rfl, rfl, by simp⟩,
      (items_iff _ _).2 (by decide), by decide⟩⟩

end Verif.Props
