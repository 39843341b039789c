import Verif.Lemmas.Upload
/-! # Properties C28–C29: request body and form fields -/
namespace Verif.Props
open Verif.Upload Verif.Spec.Utf8

/-- C28. Whatever the cut into chunks, the body is the first `max` bytes of what was sent (everything if `max` is 0), and
no copy overflows. -/
theorem C28_body (max : Nat) (hm : max < 2 ^ 64) (chunks : List Bytes) (h : chunks.flatten.length < 2 ^ 64) :
    receive max [] chunks = .ok (if max = 0 then chunks.flatten else chunks.flatten.take max) := by
  have := receive_eq max hm chunks [] (by simpa using h)
  rw [show cut max [] = [] by simp [cut], List.nil_append] at this
  exact this

example : receive 5 [] [b!"abc", b!"def", b!"gh"] = .ok b!"abcde" := by decide
example : receive 0 [] [b!"abc", b!"def", b!"gh"] = .ok b!"abcdefgh" := by decide

/-- C28, chunk independence. -/
theorem C28_chunking (max : Nat) (hm : max < 2 ^ 64) (cs cs' : List Bytes) (h : cs.flatten = cs'.flatten)
    (hl : cs.flatten.length < 2 ^ 64) : receive max [] cs = receive max [] cs' := by
  rw [C28_body max hm cs hl, C28_body max hm cs' (h ▸ hl), h]

example : ([b!"ab", b!"c"] : List Bytes).flatten = [b!"a", b!"bc"].flatten := by decide

/-- Full claim: the value given to the callbacks depends on the field value only. -/
def C29_claim : Prop :=
  ∀ (cfg : Cfg) (key : Bytes) (cs cs' : List Bytes), key ≠ [] → (∀ c ∈ cs, c ≠ []) → (∀ c ∈ cs', c ≠ []) →
    cs.flatten = cs'.flatten → find (deliver cfg key none 0 cs []) key = find (deliver cfg key none 0 cs' []) key

/-- C29 is false: with check_utf8 on (the default) a character cut by a chunk boundary is lost. -/
theorem C29_chunking_false : ¬ C29_claim := by
  intro h
  have := h ⟨true, 0, false⟩ b!"k" [[0xc3, 0xa9]] [[0xc3], [0xa9]] (by decide) (by decide) (by decide) (by decide)
  revert this; decide +kernel

/-- A second field of the same name normally gives "first,second", yet an empty first value disappears, so
`a=&a=b` reads "b". -/
theorem C29_empty_first_false :
    find (deliver ⟨true, 0, false⟩ b!"a" none 0 [b!"b"] (deliver ⟨true, 0, false⟩ b!"a" none 0 [b!""] [])) b!"a" = some b!"b" ∧
    find (deliver ⟨true, 0, false⟩ b!"a" none 0 [b!"b"] (deliver ⟨true, 0, false⟩ b!"a" none 0 [b!"x"] [])) b!"a" = some b!"x,b" := by
  decide +kernel

/-- With check_utf8 on, the size limit can still cut a character: the callback is given a value that is not UTF-8. -/
theorem C29_limit_breaks_utf8_false :
    ∃ v, find (deliver ⟨true, 1, false⟩ b!"a" none 0 [[0xc3, 0xa9]] []) b!"a" = some v ∧ ¬ IsUtf8 v := by
  refine ⟨[0xc3], by decide +kernel, ?_⟩
  rw [← C05_utf8Ok]
  decide +kernel

/-- C29 partial: the claim for chunks that are each valid (check off, or every chunk valid UTF-8 by itself) and non-empty
(unless alone). The value is the field cut to the limit, after the previous non-empty value and a comma; other keys keep
their value. Missing: characters cut by a chunk boundary (`C29_chunking_false`). -/
theorem C29_value_partial (cfg : Cfg) (key : Bytes) (filename : Option Bytes) (c : Bytes) (t : List Bytes) (m : PostMap)
    (hk : key ≠ []) (hcb : filename.isSome = true → cfg.uploadCb = false)
    (hg : cfg.checkUtf8 = true → IsUtf8 key ∧ (∀ x ∈ c :: t, IsUtf8 x) ∧ ∀ f, filename = some f → IsUtf8 f)
    (hne : t = [] ∨ c ≠ []) :
    let old := (find m key).getD []
    let v := (c :: t).flatten
    let v := if cfg.maxParam = 0 then v else v.take cfg.maxParam
    find (deliver cfg key filename 0 (c :: t) m) key = some (if old = [] then v else old ++ b!"," ++ v) ∧
    ∀ k, k ≠ key → k ≠ key ++ b!"_filename" → find (deliver cfg key filename 0 (c :: t) m) k = find m k := by
  refine ⟨?_, fun k h1 h2 => deliver_other cfg key filename (c :: t) 0 m k h1 h2⟩
  have := deliver_eq cfg key filename hk hcb c t (fun x hx hc => ⟨(hg hc).1, (hg hc).2.1 x hx, (hg hc).2.2⟩) hne m
  rw [this]
  by_cases ho : (find m key).getD [] = []
  · simp [ho, cut]
  · simp [ho, cut]

example : find (deliver ⟨true, 4, false⟩ b!"k" (some b!"f.txt") 0 [b!"ab", b!"cd", b!"ef"] [(b!"k", b!"x")]) b!"k"
    = some b!"x,abcd" := by decide +kernel

/-- C29 for ASCII values: no partition makes a difference, check on or off. -/
theorem C29_ascii_partial (cfg : Cfg) (key : Bytes) (cs cs' : List Bytes) (m : PostMap)
    (hk : key ≠ []) (hka : ∀ b ∈ key, b < 0x80) (hv : ∀ b ∈ cs.flatten, b < 0x80) (h : cs.flatten = cs'.flatten)
    (hne : ∀ c ∈ cs, c ≠ []) (hne' : ∀ c ∈ cs', c ≠ []) :
    find (deliver cfg key none 0 cs m) key = find (deliver cfg key none 0 cs' m) key := by
  cases cs with
  | nil =>
    cases cs' with
    | nil => rfl
    | cons c t =>
      have := hne' c (by simp)
      cases c <;> simp_all
  | cons c t =>
    cases cs' with
    | nil =>
      have := hne c (by simp)
      cases c <;> simp_all
    | cons c' t' =>
      have ha : ∀ x ∈ c :: t, IsUtf8 x := fun x hx => ascii_utf8 x (fun b hb => hv b (List.mem_flatten.2 ⟨x, hx, hb⟩))
      have ha' : ∀ x ∈ c' :: t', IsUtf8 x :=
        fun x hx => ascii_utf8 x (fun b hb => hv b (h ▸ List.mem_flatten.2 ⟨x, hx, hb⟩))
      have e1 := (C29_value_partial cfg key none c t m hk (by simp) (fun _ => ⟨ascii_utf8 _ hka, ha, by simp⟩)
        (.inr (hne c (by simp)))).1
      have e2 := (C29_value_partial cfg key none c' t' m hk (by simp) (fun _ => ⟨ascii_utf8 _ hka, ha', by simp⟩)
        (.inr (hne' c' (by simp)))).1
      rw [e1, e2, h]

example : ([b!"ab", b!"c"] : List Bytes).flatten = [b!"a", b!"bc"].flatten ∧
    ∀ b ∈ ([b!"ab", b!"c"] : List Bytes).flatten, b < 0x80 := by decide

/-- C29: with an upload callback set, a file part stores nothing. -/
theorem C29_upload_callback (cfg : Cfg) (key fn : Bytes) (cs : List Bytes) (off : Nat) (m : PostMap)
    (h : cfg.uploadCb = true) : deliver cfg key (some fn) off cs m = m := by
  induction cs generalizing off m with
  | nil => rfl
  | cons c t ih => rw [deliver, ih]; simp [iterate, h]

end Verif.Props
