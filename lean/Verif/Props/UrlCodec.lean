import Verif.Lemmas.UrlCodec
/-!
# C01–C04: the URL codec
-/
namespace Verif.Props
open Verif.UrlCodec Verif.Spec.Url

/-- **C01.** Encoding then decoding gives the original string, for every C string. -/
theorem C01_decode_encode (s : Bytes) (hs : NoNul s) :
    ∃ e, urlEncode (some s) = .ok (some e) ∧ urlDecode (some e) = .ok (some s) := by
  refine ⟨enc s, ?_, ?_⟩
  · simp only [urlEncode, urlEncodeBuf_eq s hs, Res.ok_bind]
    rw [cstr_append_nul _ _ (enc_noNul s hs)]
  · simp only [urlDecode, urlDecodeBuf_eq _ (enc_noNul s hs), Res.ok_bind, dec_enc]
    rw [cstr_append_nul _ _ hs]

example : NoNul b!"a b/é%" ∧ urlEncode (some b!"a b/é%") = .ok (some b!"a+b%2F%C3%A9%25") := by decide

/-- **C02.** The encoder never writes outside its buffer of `3n+1` bytes, its output consists of unreserved
characters, `+` and `%XX`, is at most three times as long as the input, and determines the input. -/
theorem C02_encode_alphabet (s : Bytes) (hs : NoNul s) :
    ∃ e, urlEncode (some s) = .ok (some e) ∧ WellEncoded e ∧ e.length ≤ 3 * s.length ∧
      ∀ s', NoNul s' → urlEncode (some s') = .ok (some e) → s' = s := by
  refine ⟨enc s, ?_, wellEncoded_enc s, enc_length s, ?_⟩
  · simp only [urlEncode, urlEncodeBuf_eq s hs, Res.ok_bind]
    rw [cstr_append_nul _ _ (enc_noNul s hs)]
  · intro s' hs' h
    simp only [urlEncode, urlEncodeBuf_eq s' hs', Res.ok_bind] at h
    rw [cstr_append_nul _ _ (enc_noNul s' hs')] at h
    simp only [Res.ok.injEq, Option.some.injEq] at h
    rw [← dec_enc s', h, dec_enc]

example : NoNul b!"~\"<>" := by decide

/-- Characters that need no escaping are copied (the encoder is not trivially `%XX` everywhere). -/
theorem C02_encode_unreserved (s : Bytes) (hs : ∀ c ∈ s, c ∈ unreserved) :
    urlEncode (some s) = .ok (some s) := by
  have h0 : NoNul s := by
    intro h; exact absurd (hs 0 h) (by decide)
  have : enc s = s := by
    clear h0
    induction s with
    | nil => rfl
    | cons c s ih =>
      rw [enc, if_pos ((safe_mem c).2 (hs c (by simp))), ih (fun c h => hs c (by simp [h]))]
  simp only [urlEncode, urlEncodeBuf_eq s h0, Res.ok_bind, this]
  rw [cstr_append_nul _ _ h0]

example : ∀ c ∈ b!"index.html", c ∈ unreserved := by decide

/-- **C03.** For every C string, malformed or not, the decoder stays inside the source string and inside
its buffer (no undefined behaviour), and returns a C string no longer than the input. -/
theorem C03_decode_safe (s : Bytes) (hs : NoNul s) :
    ∃ t, urlDecode (some s) = .ok (some t) ∧ NoNul t ∧ t.length ≤ s.length := by
  refine ⟨cstr (dec s ++ [0]), ?_, cstr_noNul _, ?_⟩
  · simp only [urlDecode, urlDecodeBuf_eq s hs, Res.ok_bind]
  · have h1 := dec_length s
    have h3 : ∀ u : Bytes, (cstr (u ++ [0])).length ≤ u.length := by
      intro u
      unfold cstr
      induction u with
      | nil => simp
      | cons c u ih =>
        rw [List.cons_append, List.takeWhile_cons]; split
        · simpa using ih
        · simp
    have := h3 (dec s)
    omega

/-- malformed tails: `%`, `%4` at the end of the string; NULL gives NULL -/
example : urlDecode (some b!"a%") = .ok (some b!"a") ∧ urlDecode (some b!"a%4") = .ok (some b!"a4")
    ∧ urlDecode none = .ok none := by decide

/-- **C04.** On well-formed input the decoder computes the bytes the input stands for. -/
theorem C04_decode_spec (s t : Bytes) (h : PctDecodes s t) : urlDecode (some s) = .ok (some t) := by
  obtain ⟨h1, h2, h3⟩ := dec_of_pctDecodes h
  simp only [urlDecode, urlDecodeBuf_eq s h1, Res.ok_bind, h3]
  rw [cstr_append_nul _ _ h2]

example : PctDecodes b!"%c3%A9+a" b!"é a" :=
  .pct 0x63 0x33 12 3 _ _ (by decide) (by decide) (by decide)
    (.pct 0x41 0x39 10 9 _ _ (by decide) (by decide) (by decide)
      (.plus _ _ (.plain _ _ _ (by decide) (by decide) (by decide) .nil)))

/-- The excluded case is real: `%00` cuts the decoded string short. -/
example : urlDecode (some b!"a%00b") = .ok (some b!"a") := by decide

end Verif.Props
