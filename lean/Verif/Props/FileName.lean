import Verif.Props.FileUpload
/-!
# C180: the file name of an uploaded file

Without an upload callback, src/ulfius.c:387–393 notes the name of a file next to its contents, under the name of the part with
`_filename` behind it. The theorems run the model of the whole upload (`Model/FileUpload`) for all lists of calls libmicrohttpd may
make.
-/
namespace Verif.Props
open Verif.Upload Verif.Spec.Utf8

namespace FileName

/-! ## Specification -/

/-- Where a program looks for the name of the file sent as `key`. -/
def nameOf (key : Bytes) : Bytes := key ++ b!"_filename"

/-- `fn` is the C string a program finds. -/
def Shown (m : PostMap) (key fn : Bytes) : Prop := ∃ w, find m (nameOf key) = some (fn ++ 0 :: w)

/-- The block can be read under the settings of the instance: UTF-8 if that is checked, and within the limit. -/
def Readable (cfg : Cfg) (c : Call) (fn : Bytes) : Prop :=
  (cfg.checkUtf8 = true → IsUtf8 c.key ∧ IsUtf8 c.data ∧ IsUtf8 fn) ∧ (cfg.maxParam = 0 ∨ c.off ≤ cfg.maxParam)

/-! ## Proofs -/

private theorem append_grows (m : PostMap) (k d q v : Bytes) (h : find m q = some v) : ∃ w, find (append m k d) q = some (v ++ w) := by
  by_cases e : k = q
  · subst e
    exact ⟨d, by rw [find_append_self, h]; rfl⟩
  · exact ⟨[], by rw [find_append_other _ _ _ _ e, h, List.append_nil]⟩

private theorem withName_grows (m : PostMap) (k : Bytes) (fn : Option Bytes) (q v : Bytes) (h : find m q = some v) :
    ∃ w, find (withName m k fn) q = some (v ++ w) := by
  unfold withName
  split
  · split
    · exact ⟨[], by rw [h, List.append_nil]⟩
    · exact append_grows _ _ _ _ _ h
  · exact ⟨[], by rw [h, List.append_nil]⟩

private theorem rest_grows (m : PostMap) (k d : Bytes) (off : Nat) (q v : Bytes) (h : find m q = some v) :
    ∃ w, find (if k.isEmpty then (false, m)
      else if !((find m k).getD []).isEmpty then
        if off != 0 then (true, append m k d) else (true, append (append m k b!",") k d)
      else (true, append m k d)).2 q = some (v ++ w) := by
  split
  · exact ⟨[], by rw [h, List.append_nil]⟩
  · split
    · split
      · exact append_grows _ _ _ _ _ h
      · obtain ⟨w, hw⟩ := append_grows m k b!"," q v h
        obtain ⟨w', hw'⟩ := append_grows _ k d q _ hw
        exact ⟨w ++ w', by rw [hw', List.append_assoc]⟩
    · exact append_grows _ _ _ _ _ h

private theorem iterate_grows (cfg : Cfg) (m : PostMap) (k : Bytes) (fn : Option Bytes) (d : Bytes) (off : Nat) (q v : Bytes)
    (h : find m q = some v) : ∃ w, find (iterate cfg m k fn d off).2 q = some (v ++ w) := by
  have same : ∃ w, find m q = some (v ++ w) := ⟨[], by rw [h, List.append_nil]⟩
  unfold iterate
  split
  · exact same
  split
  · exact same
  split
  · exact same
  obtain ⟨w, hw⟩ := withName_grows m k fn q v h
  obtain ⟨w', hw'⟩ := rest_grows (withName m k fn) k (if decide (0 < cfg.maxParam) && decide (cfg.maxParam < off + d.length)
      then d.take (cfg.maxParam - off) else d) off q _ hw
  exact ⟨w ++ w', by rw [← List.append_assoc]; exact hw'⟩

private theorem process_grows {σ : Type} (cfg : Cfg) : ∀ (cs : List Call) (s : Conn σ) (q v : Bytes), find s.map q = some v →
    ∃ w, find (postProcess cfg none s cs).map q = some (v ++ w)
  | [], _, _, _, h => ⟨[], by rw [List.append_nil]; exact h⟩
  | c :: t, s, q, v, h => by
    rw [postProcess]
    split
    · exact ⟨[], by rw [List.append_nil]; exact h⟩
    · obtain ⟨w, hw⟩ := iterate_grows { cfg with uploadCb := false } s.map c.key c.filename c.data c.off q v h
      have e : (iterateCb cfg none s c).map = (iterate { cfg with uploadCb := false } s.map c.key c.filename c.data c.off).2 := by
        unfold iterateCb
        split
        · rename_i h; cases h
        · rfl
      obtain ⟨w', hw'⟩ := process_grows cfg t (iterateCb cfg none s c) q (v ++ w) (by rw [e]; exact hw)
      exact ⟨w ++ w', by rw [hw', List.append_assoc]⟩

private theorem iterate_apart (cfg : Cfg) (m : PostMap) (k : Bytes) (fn : Option Bytes) (d : Bytes) (off : Nat) (key : Bytes)
    (h1 : k ≠ nameOf key) (h2 : fn.isSome = true → k ≠ key) :
    find (iterate cfg m k fn d off).2 (nameOf key) = find m (nameOf key) := by
  by_cases e : nameOf key = k ++ b!"_filename"
  · have hk : key = k := List.append_cancel_right e
    cases fn with
    | some f => exact absurd hk.symm (h2 rfl)
    | none =>
      have hq : k ≠ nameOf key := h1
      unfold iterate withName
      simp only [Option.isSome_none, Bool.false_and, Bool.false_eq_true, if_false]
      split
      · rfl
      split
      · rfl
      split
      · rfl
      split
      · split
        · rw [find_append_other _ _ _ _ hq]
        · rw [find_append_other _ _ _ _ hq, find_append_other _ _ _ _ hq]
      · rw [find_append_other _ _ _ _ hq]
  · exact iterate_other _ _ _ _ _ _ _ h1.symm e

private theorem process_apart {σ : Type} (cfg : Cfg) (key : Bytes) : ∀ (cs : List Call) (s : Conn σ), s.error = false →
    (∀ c ∈ cs, c.key ≠ [] ∧ c.key ≠ nameOf key ∧ (c.filename.isSome = true → c.key ≠ key)) →
    find (postProcess cfg none s cs).map (nameOf key) = find s.map (nameOf key) ∧ (postProcess cfg none s cs).error = false
  | [], _, he, _ => ⟨rfl, he⟩
  | c :: t, s, he, h => by
    obtain ⟨h0, h1, h2⟩ := h c (List.mem_cons_self ..)
    rw [postProcess, if_neg (by simp [he])]
    have e : iterateCb cfg none s c = { s with
        map := (iterate { cfg with uploadCb := false } s.map c.key c.filename c.data c.off).2, error := false } := by
      unfold iterateCb
      split
      · rename_i h; cases h
      · simp only [iterate_named _ s.map c.key c.filename c.data c.off h0]
        rfl
    rw [e]
    have ih := process_apart cfg key t { s with
        map := (iterate { cfg with uploadCb := false } s.map c.key c.filename c.data c.off).2, error := false } rfl
      (fun x hx => h x (List.mem_cons_of_mem _ hx))
    exact ⟨by rw [ih.1]; exact iterate_apart _ _ _ _ _ _ _ h1 h2, ih.2⟩

private theorem iterate_names (cfg : Cfg) (m : PostMap) (c : Call) (fn : Bytes) (hk : find m (nameOf c.key) = none)
    (hr : Readable cfg c fn) :
    ∃ w, find (iterate { cfg with uploadCb := false } m c.key (some fn) c.data c.off).2 (nameOf c.key) = some (fn ++ 0 :: w) := by
  have hc := good_cond { cfg with uploadCb := false } c.key (some fn) c.data (fun h => by
    obtain ⟨a, b, d⟩ := hr.1 h
    exact ⟨a, b, fun f hf => by cases hf; exact d⟩)
  have hn : find (withName m c.key (some fn)) (nameOf c.key) = some (fn ++ [0]) := by
    unfold withName
    have : (find m (c.key ++ b!"_filename")).isSome = false := by
      rw [show find m (c.key ++ b!"_filename") = none from hk]; rfl
    simp only [this, Bool.false_eq_true, if_false]
    rw [show nameOf c.key = c.key ++ b!"_filename" from rfl, find_append_self,
      show find m (c.key ++ b!"_filename") = none from hk]
    rfl
  have h3 : (decide (0 < cfg.maxParam) && decide (cfg.maxParam < c.off)) = false := by
    have := hr.2
    simp only [Bool.and_eq_false_iff, decide_eq_false_iff_not]; omega
  obtain ⟨w, hw⟩ := rest_grows (withName m c.key (some fn)) c.key
    (if decide (0 < cfg.maxParam) && decide (cfg.maxParam < c.off + c.data.length)
      then c.data.take (cfg.maxParam - c.off) else c.data) c.off _ _ hn
  refine ⟨w, ?_⟩
  unfold iterate
  rw [if_neg (by simp), if_neg (by simpa using hc), if_neg (by simp only [h3]; simp)]
  rw [List.append_assoc] at hw
  exact hw

end FileName
open FileName

/-- **C180, partial.** Whatever the form and however it is cut: if the block `c` of a file can be read, and no earlier part bears the
name under which the file name is noted, and no earlier block is a file of the same name, then a program finds the name of that file,
whatever comes later.
Missing: parts that bear that name, see `C180_forged_false`; blocks that cannot be read, see `C180_binary_false`. -/
theorem C180_partial {σ : Type} (cfg : Cfg) (max : Nat) (u0 : σ) (us : List (Bytes × List Call)) (pre post : List Call) (c : Call)
    (fn : Bytes) (s : Conn σ) (hm : max < 2 ^ 64) (hl : (us.map (·.1)).flatten.length < 2 ^ 64)
    (hu : upload cfg max none { user := u0 } us = .ok s) (hcs : (us.map (·.2)).flatten = pre ++ c :: post)
    (hf : c.filename = some fn) (hr : Readable cfg c fn)
    (hpre : ∀ x ∈ pre, x.key ≠ [] ∧ x.key ≠ nameOf c.key ∧ (x.filename.isSome = true → x.key ≠ c.key)) :
    Shown s.map c.key fn := by
  have hb := C28_body max hm (us.map (·.1)) hl
  rw [upload_eq cfg max none us { user := u0 } _ hb, hcs, postProcess_append] at hu
  obtain ⟨h1, h2⟩ := process_apart cfg c.key pre { user := u0 } rfl hpre
  generalize postProcess cfg none { user := u0 } pre = p at h1 h2 hu
  rw [postProcess, if_neg (by simp [h2])] at hu
  have e : (iterateCb cfg none p c).map = (iterate { cfg with uploadCb := false } p.map c.key (some fn) c.data c.off).2 := by
    unfold iterateCb
    rw [hf]
  obtain ⟨w, hw⟩ := iterate_names cfg p.map c fn (by rw [h1]; rfl) hr
  obtain ⟨w', hw'⟩ := process_grows cfg post (iterateCb cfg none p c) (nameOf c.key) _ (by rw [e]; exact hw)
  injection hu with hu
  subst hu
  exact ⟨w ++ w', by rw [hw']; simp⟩

/-- A field, a file in two blocks, and a field that bears the name under which the file name is noted. -/
private def form : List (Bytes × List Call) :=
  [(b!"..", [⟨b!"title", none, none, none, b!"hello", 0⟩, ⟨b!"doc", some b!"a.txt", none, none, b!"con", 0⟩]),
   (b!"..", [⟨b!"doc", some b!"a.txt", none, none, b!"tent", 3⟩, ⟨b!"doc_filename", none, none, none, b!"/etc/passwd", 0⟩])]

example : ∃ s : Conn Unit, upload ⟨true, 0, false⟩ 0 none { user := () } form = .ok s ∧
    find s.map b!"doc_filename" = some (b!"a.txt" ++ 0 :: b!",/etc/passwd") ∧
    Readable ⟨true, 0, false⟩ ⟨b!"doc", some b!"a.txt", none, none, b!"con", 0⟩ b!"a.txt" := by
  refine ⟨_, rfl, by decide +kernel, fun _ => ⟨?_, ?_, ?_⟩, .inl rfl⟩ <;> exact ascii_utf8 _ (by decide)

/-- **C180** is false: a field that comes before the file and bears the name under which the file name is noted is taken for the name
of the file. -/
theorem C180_forged_false : ∃ s : Conn Unit, upload ⟨true, 0, false⟩ 0 none { user := () }
    [(b!"..", [⟨b!"doc_filename", none, none, none, b!"/etc/passwd", 0⟩, ⟨b!"doc", some b!"a.txt", none, none, b!"con", 0⟩])] = .ok s ∧
    find s.map b!"doc_filename" = some b!"/etc/passwd" ∧ find s.map b!"doc" = some b!"con" := by
  exact ⟨_, rfl, by decide +kernel, by decide +kernel⟩

/-- **C180** is false: with check_utf8 on, the default, a file whose contents are not UTF-8 leaves no trace, not even its name. -/
theorem C180_binary_false : ∃ s : Conn Unit, upload ⟨true, 0, false⟩ 0 none { user := () }
    [(b!"..", [⟨b!"doc", some b!"a.png", none, none, [0x89, 0x50, 0x4e, 0x47], 0⟩])] = .ok s ∧ s.map = [] := by
  exact ⟨_, rfl, by decide +kernel⟩

end Verif.Props
