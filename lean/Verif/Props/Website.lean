import Verif.Model.Website
import Verif.Props.StaticFile
import Verif.Props.Compress
import Verif.Props.AnswerEndToEnd
/-! # C157: a file arrives as it is -/
namespace Verif.Props
open Verif.UMap Verif.Message Verif.Answer Verif.Website Verif.Spec.Client Verif.Spec.Stream
open Verif.StaticFile (requested filePath within cutAt skipSlashes)

/-- The URL of a file for a callback with this prefix: a slash, the prefix and a slash (if there is one), the name, and at most a
query or fragment. -/
def FileUrl (pfx : Option Bytes) (url name : Bytes) : Prop :=
  ∃ q, name ≠ [] ∧ name.head? ≠ some 0x2f ∧ 0x23 ∉ name ∧ 0x3f ∉ name ∧ (q = [] ∨ ∃ t, q = 0x3f :: t ∨ q = 0x23 :: t) ∧
    (pfx = none ∧ url = b!"/" ++ name ++ q ∨
      ∃ p, pfx = some p ∧ p ≠ [] ∧ p.head? ≠ some 0x2f ∧ url = b!"/" ++ p ++ b!"/" ++ name ++ q)

/-- The extension of a name: what begins with the last dot, `*` if there is no dot, or only one at the begin. -/
def Extension (name ext : Bytes) : Prop :=
  (∃ a t, name = a ++ 0x2e :: t ∧ a ≠ [] ∧ 0x2e ∉ t ∧ ext = 0x2e :: t) ∨
  ((0x2e ∉ name ∨ ∃ t, name = 0x2e :: t ∧ 0x2e ∉ t) ∧ ext = b!"*")

/-- The media type registered for a name: that of its extension, in any case, else that of `*`. -/
def MediaType (ms : List (Bytes × Option Bytes)) (name ct : Bytes) : Prop :=
  ∃ ext, Extension name ext ∧
    ((∃ k, (k, some ct) ∈ ms ∧ sameName k ext ∧ ∀ p ∈ ms, sameName p.1 ext → p.1 = k) ∨
      (∀ p ∈ ms, ¬ sameName p.1 ext) ∧ (b!"*", some ct) ∈ ms)

/-- A map with further entries put into it, in order. -/
def putEach (m ps : List (Bytes × Option Bytes)) : List (Bytes × Option Bytes) :=
  ps.foldl (fun m p => Spec.OMap.put m p.1 p.2) m

theorem cut_cut {name q : Bytes} (h23 : 0x23 ∉ name) (h3f : 0x3f ∉ name)
    (hq : q = [] ∨ ∃ t, q = 0x3f :: t ∨ q = 0x23 :: t) : cutAt 0x3f (cutAt 0x23 (name ++ q)) = name := by
  have hall : ∀ c : UInt8, c ∉ name → ∀ x ∈ name, (x != c) = true := by
    intro c hc x hx
    simp only [bne_iff_ne, ne_eq]
    exact fun e => hc (e ▸ hx)
  unfold cutAt
  rw [List.takeWhile_append_of_pos (hall _ h23), List.takeWhile_append_of_pos (hall _ h3f)]
  rcases hq with rfl | ⟨t, rfl | rfl⟩
  · simp
  · rw [List.takeWhile_cons, if_pos (by decide), List.takeWhile_cons, if_neg (by decide)]
    simp
  · rw [List.takeWhile_cons, if_neg (by decide)]
    simp

theorem requested_file {c : StaticFile.Config} {url name : Bytes} (h : FileUrl c.pfx url name) : requested true c url = .ok name := by
  obtain ⟨q, hn, hn0, h23, h3f, hq, hu⟩ := h
  obtain ⟨b, n', rfl⟩ := List.exists_cons_of_ne_nil hn
  have hb : b ≠ 0x2f := by simpa using hn0
  have hfin : ((b :: n').isEmpty || (b :: n') == b!"/") = false := by simp [hb]
  rcases hu with ⟨hp, rfl⟩ | ⟨p, hp, hpne, h0, rfl⟩
  · have e1 : skipSlashes (b!"/" ++ (b :: n') ++ q) = (b :: n') ++ q := by simp [skipSlashes, hb]
    have e2 : skipSlashes ((b :: n') ++ q) = (b :: n') ++ q := by simp [skipSlashes, hb]
    simp only [requested, if_true, e1, hp, Option.getD_none, StaticFile.advance, List.length_nil, Nat.zero_le, Res.ok_bind,
      List.drop_zero, e2, cut_cut h23 h3f hq]
    rw [if_neg (by simp [hb])]
  · obtain ⟨a, p', rfl⟩ := List.exists_cons_of_ne_nil hpne
    have ha : a ≠ 0x2f := by simpa using h0
    have e1 : skipSlashes (b!"/" ++ (a :: p') ++ b!"/" ++ (b :: n') ++ q) = (a :: p') ++ (b!"/" ++ ((b :: n') ++ q)) := by
      simp [skipSlashes, ha]
    have e2 : skipSlashes (b!"/" ++ ((b :: n') ++ q)) = (b :: n') ++ q := by simp [skipSlashes, hb]
    simp only [requested, if_true, e1, hp, Option.getD_some, StaticFile.advance]
    rw [if_pos (by simp), Res.ok_bind, List.drop_left, e2, cut_cut h23 h3f hq, if_neg (by simp [hb])]

private theorem ext_eq {name ext : Bytes} (h3f : 0x3f ∉ name) (h : Extension name ext) : extension name = ext := by
  unfold extension
  have htw : ∀ t : Bytes, 0x2e ∉ t → ∀ r : Bytes, (t.reverse ++ 0x2e :: r).takeWhile (· != 0x2e) = t.reverse := by
    intro t ht r
    rw [List.takeWhile_append_of_pos (by
      intro x hx
      simp only [bne_iff_ne, ne_eq]
      exact fun e => ht (e ▸ List.mem_reverse.1 hx)), List.takeWhile_cons, if_neg (by decide), List.append_nil]
  rcases h with ⟨a, t, rfl, ha, ht, rfl⟩ | ⟨h | ⟨t, rfl, ht⟩, rfl⟩
  · have e : (a ++ 0x2e :: t).reverse = t.reverse ++ 0x2e :: a.reverse := by simp
    simp only [e, htw t ht, List.reverse_reverse]
    have : a.length ≠ 0 := fun h => ha (List.eq_nil_of_length_eq_zero h)
    have hno : (!(a ++ 0x2e :: t).contains 0x2e || t.length + 1 == (a ++ 0x2e :: t).length) = false := by
      simp
      omega
    rw [if_neg (by rw [hno]; decide)]
    exact StaticFile_cut h3f
  · rw [if_pos]
    simp [h]
  · have e : (0x2e :: t).reverse = t.reverse ++ 0x2e :: [] := by simp
    simp only [e, htw t ht, List.reverse_reverse]
    rw [if_pos (by simp)]
where
  StaticFile_cut {a t : Bytes} (h : 0x3f ∉ a ++ 0x2e :: t) : cutAt 0x3f (0x2e :: t) = 0x2e :: t := by
    unfold cutAt
    rw [show (0x2e :: t : Bytes) = (0x2e :: t) ++ [] by simp, List.takeWhile_append_of_pos]
    · simp
    · intro x hx
      simp only [bne_iff_ne, ne_eq]
      rintro rfl
      exact h (List.mem_append_right _ hx)

theorem type_found {m : UMap} {ms : List (Bytes × Option Bytes)} (hm : HoldsParams m ms) {name ct : Bytes}
    (h3f : 0x3f ∉ name) (h : MediaType ms name ct) : ∃ b, contentType m name = .ok (some b) ∧ readStr b = .ok ct := by
  obtain ⟨ext, hx, h⟩ := h
  unfold contentType
  rw [ext_eq h3f hx]
  have hc := (holds_case hm ext).2
  rcases h with ⟨k, hk, hs, hu⟩ | ⟨hn, hk⟩
  · cases hf : ms.find? (fun p => eqCase p.1 ext) with
    | none =>
      rw [List.find?_eq_none] at hf
      exact absurd ((WsOpen.same_name _ _).2 hs) (hf _ hk)
    | some p =>
      rw [hf] at hc
      obtain ⟨b, h1, h2⟩ := hc
      have hp := List.mem_of_find?_eq_some hf
      have hpk : p.1 = k := hu p hp ((WsOpen.same_name _ _).1 (by simpa using List.find?_some hf))
      have hp2 : p.2 = some ct := by
        have e1 := (hm.2.2 p hp).1
        have e2 := (hm.2.2 _ hk).1
        rw [hpk] at e1
        simp only at e2
        rw [e1] at e2
        injection e2
      rw [h1]
      simp only [Res.ok_bind]
      refine ⟨b, rfl, ?_⟩
      rw [h2, hp2]
      rfl
  · have hf : ms.find? (fun p => eqCase p.1 ext) = none := by
      rw [List.find?_eq_none]
      intro p hp hc
      exact hn p hp ((WsOpen.same_name _ _).1 hc)
    rw [hf] at hc
    rw [hc]
    simp only [Res.ok_bind]
    have h1 := (hm.2.2 _ hk).1
    simp only [getStr] at h1
    cases hg : UMap.get m (some b!"*") with
    | ub => rw [hg] at h1; cases h1
    | ok o =>
      rw [hg] at h1
      cases o with
      | none => cases h1
      | some b =>
        refine ⟨b, rfl, ?_⟩
        simp only [Res.ok_bind] at h1
        cases hr : readStr b with
        | ub => rw [hr] at h1; cases h1
        | ok v =>
          rw [hr] at h1
          injection h1 with h1
          injection h1 with h1
          rw [h1]

/-- The configured headers: a map of strings that fit the memory, or none. -/
def Headers (m : Option UMap) (hs : List (Bytes × Option Bytes)) : Prop :=
  m = none ∧ hs = [] ∨ ∃ x, m = some x ∧ HoldsParams x hs ∧ Fit hs

theorem file_headers {c : Website.Config} {ms hs ds : List (Bytes × Option Bytes)} (hm : HoldsParams c.mime ms) (hh : Headers c.headers hs)
    {H : UMap} (hd : HoldsParams H ds) {name ct : Bytes} (h3f : 0x3f ∉ name) (hct : MediaType ms name ct) (hfit : Fit ms) :
    ∃ H', fileHeaders c name H = .ok H' ∧ HoldsParams H' (putEach (Spec.OMap.put ds b!"Content-Type" (some ct)) hs) := by
  obtain ⟨b, h1, h2⟩ := type_found hm h3f hct
  have hctm : ∃ k, (k, some ct) ∈ ms := by
    obtain ⟨_, _, ⟨k, hk, _⟩ | ⟨_, hk⟩⟩ := hct
    · exact ⟨k, hk⟩
    · exact ⟨_, hk⟩
  obtain ⟨k, hk⟩ := hctm
  obtain ⟨H1, e1, e2⟩ := holds_put hd b!"Content-Type" (some ct) (by decide) (by decide)
    (fun x hx => by cases hx; exact ⟨(hm.2.2 _ hk).2.2 _ rfl, hfit _ hk _ rfl⟩)
  unfold fileHeaders
  rw [h1]
  simp only [Res.ok_bind, putPtr, h2, e1]
  rcases hh with ⟨hn, rfl⟩ | ⟨x, hx, hx1, hx2⟩
  · rw [hn]
    exact ⟨H1, rfl, e2⟩
  · rw [hx]
    obtain ⟨H', r1, r2⟩ := holds_into hx1 hx2 e2
    simp only [r1, Res.ok_bind]
    exact ⟨H', rfl, r2⟩

/-- Whatever buffers libmicrohttpd offers, the body read from a file is the file, and it is brought to its end. -/
theorem read_file (content : Bytes) (block : Nat) (hb : 0 < block) (out : Bytes) :
    Completes fileReader (some content.length) block (.file content, 0) [] out ↔ out = content := by
  have key : ∀ (st : Node × Nat) (sent out : Bytes), Completes fileReader (some content.length) block st sent out →
      st = (.file content, sent.length) → sent = content.take sent.length → out = content := by
    intro st sent out h
    induction h with
    | full hf =>
      intro _ hs
      injection hf with hf
      rw [hs, ← hf, List.take_of_length_le (Nat.le_refl _)]
    | @more st0 st' sent out d max hr hrd hne hle hc ih =>
      intro hst hs
      rw [hst] at hrd
      simp only [fileReader] at hrd
      cases hp : (content.drop sent.length).take max with
      | nil => rw [hp] at hrd; cases hrd
      | cons x t =>
        rw [hp] at hrd
        simp only [Prod.mk.injEq, Piece.data.injEq] at hrd
        obtain ⟨hd, hst'⟩ := hrd
        refine ih ?_ ?_
        · rw [← hst', ← hd]; simp
        · rw [List.length_append, List.take_add, ← hs]
          congr 1
          rw [hd] at hp
          exact List.prefix_iff_eq_take.1 (hp ▸ List.take_prefix _ _)
    | @wait st0 st' sent out max hr hrd hc ih =>
      intro hst hs
      rw [hst] at hrd
      simp only [fileReader] at hrd
      cases hp : (content.drop sent.length).take max with
      | nil =>
        rw [hp] at hrd
        simp only [Prod.mk.injEq, true_and] at hrd
        exact ih hrd.symm hs
      | cons x t => rw [hp] at hrd; cases hrd
    | theEnd h => cases h
  constructor
  · intro h
    exact key _ _ _ h rfl rfl
  · rintro rfl
    have go : ∀ (n k : Nat), out.length - k = n → k ≤ out.length →
        Completes fileReader (some out.length) block (.file out, k) (out.take k) out := by
      intro n
      induction n with
      | zero =>
        intro k hn hk
        have : k = out.length := by omega
        subst this
        rw [List.take_of_length_le (Nat.le_refl _)]
        exact .full rfl
      | succ n ih =>
        intro k hn hk
        have hl : (out.take k).length = k := by rw [List.length_take]; omega
        have hlt : k < out.length := by omega
        have hp : (out.drop k).take 1 = [out[k]] := by
          rw [List.drop_eq_getElem_cons hlt]; rfl
        have hnext : out.take k ++ [out[k]] = out.take (k + 1) := by
          rw [List.take_succ_eq_append_getElem hlt]
        refine .more (d := [out[k]]) (max := 1) (st' := (.file out, k + 1)) ?_ ?_ (by simp) (by simp) ?_
        · refine ⟨by omega, hb, ?_⟩
          intro s hs
          injection hs with hs
          omega
        · simp only [fileReader, hp]
          rfl
        · rw [hnext]
          exact ih (k + 1) (by omega) (by omega)
    exact go out.length 0 (by omega) (by omega)

/-- What is opened and cannot be read is never brought to its end. -/
theorem read_dir (n block : Nat) (h0 : 0 < n) (out : Bytes) : ¬ Completes fileReader (some n) block (.dir n, 0) [] out := by
  have key : ∀ (st : Node × Nat) (sent out : Bytes), Completes fileReader (some n) block st sent out →
      st.1 = .dir n → sent = [] → False := by
    intro st sent out h
    induction h with
    | full hf =>
      intro _ hs
      subst hs
      injection hf with hf
      simp at hf
      omega
    | @more st0 st' sent out d max hr hrd hne hle hc ih =>
      intro hst _
      unfold fileReader at hrd
      rw [hst] at hrd
      cases hrd
    | @wait st0 st' sent out max hr hrd hc ih =>
      intro hst hs
      unfold fileReader at hrd
      rw [hst] at hrd
      simp only [Prod.mk.injEq, true_and] at hrd
      exact ih (by rw [← hrd]; exact hst) hs
    | theEnd h => cases h
  exact fun h => key _ _ _ h rfl rfl

private theorem mem_put {m : List (Bytes × Option Bytes)} {k : Bytes} {v : Option Bytes} {p : Bytes × Option Bytes} (h : p ∈ m)
    (hk : p.1 ≠ k) : p ∈ Spec.OMap.put m k v := by
  unfold Spec.OMap.put
  split
  · exact List.mem_map.2 ⟨p, h, if_neg (by simpa using hk)⟩
  · exact List.mem_append_left _ h

private theorem put_mem (m : List (Bytes × Option Bytes)) (k : Bytes) (v : Option Bytes) : (k, v) ∈ Spec.OMap.put m k v := by
  unfold Spec.OMap.put
  split
  · rename_i h
    obtain ⟨q, hq, hqk⟩ := List.any_eq_true.1 h
    exact List.mem_map.2 ⟨q, hq, if_pos hqk⟩
  · exact List.mem_append_right _ (by simp)

private theorem of_put {m : List (Bytes × Option Bytes)} {k : Bytes} {v : Option Bytes} {p : Bytes × Option Bytes}
    (h : p ∈ Spec.OMap.put m k v) : p = (k, v) ∨ p ∈ m := by
  unfold Spec.OMap.put at h
  split at h
  · obtain ⟨q, hq, e⟩ := List.mem_map.1 h
    split at e
    · exact .inl e.symm
    · exact .inr (e ▸ hq)
  · rcases List.mem_append.1 h with h | h
    · exact .inr h
    · exact .inl (by simpa using h)

private theorem mem_each : ∀ (ps m : List (Bytes × Option Bytes)) (p : Bytes × Option Bytes), p ∈ m → (∀ q ∈ ps, q.1 ≠ p.1) →
    p ∈ putEach m ps
  | [], _, _, h, _ => h
  | q :: t, m, p, h, hn => mem_each t _ p (mem_put h (fun e => hn q (by simp) e.symm)) (fun x hx => hn x (by simp [hx]))

private theorem of_each : ∀ (ps m : List (Bytes × Option Bytes)) (p : Bytes × Option Bytes), p ∈ putEach m ps → p ∈ ps ∨ p ∈ m
  | [], _, _, h => .inr h
  | q :: t, m, p, h => by
    rcases of_each t _ p h with h | h
    · exact .inl (by simp [h])
    · rcases of_put h with h | h
      · exact .inl (by rw [h]; simp)
      · exact .inr h

/-- The file system has a file under the directory `root`, and it may be read. -/
def HasFile (d : Disk) (root name content : Bytes) : Prop :=
  ∃ rest, d.real (root ++ b!"/" ++ name) = some (root ++ rest) ∧ d.node (root ++ rest) = some (.file content) ∧
    d.readable (root ++ rest) = true

theorem fopen_file {d : Disk} {c : StaticFile.Config} {name content : Bytes} (h : HasFile d c.root name content) :
    within c (d.real (filePath c name)) = true ∧ d.exists (filePath c name) = true ∧ d.fopen (filePath c name) = some (.file content) := by
  obtain ⟨rest, h1, h2, h3⟩ := h
  have h1 : d.real (filePath c name) = some (c.root ++ rest) := h1
  refine ⟨?_, ?_, ?_⟩
  · rw [h1]; simp [within]
  · simp [Disk.exists, h1, h2]
  · simp [Disk.fopen, h1, h2, h3]

private theorem holds_fresh {H : UMap} {hs : List (Bytes × Option Bytes)} (h : HoldsParams H hs) (st : Nat) (c : Nat × Nat × Nat) :
    HoldsResp { header := H, status := st, stream := some c } hs [] [] := ⟨h, rfl, rfl, by intro b hb; cases hb⟩

/-- The headers of the instance: a map of strings, or none. -/
theorem headers_init {o : Option UMap} {ds : List (Bytes × Option Bytes)} (h : Headers o ds) :
    ∃ H, initHeaders o = .ok H ∧ HoldsParams H ds := by
  rcases h with ⟨rfl, rfl⟩ | ⟨x, rfl, h, -⟩
  · exact ⟨_, rfl, holds_init⟩
  · exact init_holds rfl h

/-- **C157, partial.** On every file system, a request for a file below the directory that may be read is answered by the static
file callback, before any other, with status 200, the default headers of the instance, the media type registered for the name and the
configured headers, and with a stream of the length of the file. Whatever buffers libmicrohttpd offers, the body comes to its end and is
the file; a client of the library that receives it shows status 200, these headers and the content of the file.
Missing: names that have to be written with `%` (`C157_encoded_false`), directories (`C157_directory_false`), files that may not be
read (`C157_forbidden_false`). -/
theorem C157_file_partial (d : Disk) (c : Website.Config) {ms hs ds : List (Bytes × Option Bytes)} {url name content ct : Bytes}
    (hm : HoldsParams c.mime ms) (hfit : Fit ms) (hh : Headers c.headers hs) (hu : FileUrl c.base.pfx url name)
    (hf : HasFile d c.base.root name content) (hct : MediaType ms name ct)
    (cfg : Cfg Files) (hd : Headers cfg.defaults ds) (more : List (Callback Files)) (dflt : Option (Callback Files)) (fs : Files)
    (ht : Takes cfg.accept [] (linesOf (putEach (Spec.OMap.put ds b!"Content-Type" (some ct)) hs) [])) :
    ∃ ans ev, dispatch cfg (staticCb d c url :: more) dflt fs = .ok (some ans, [ev]) ∧
      ans = ⟨200, none, linesOf (putEach (Spec.OMap.put ds b!"Content-Type" (some ct)) hs) [],
        .stream (content.length, 256, fs.length)⟩ ∧
      ev.after.user = fs ++ [.file content] ∧
      (∀ out, Completes fileReader (some content.length) 256 (.file content, 0) [] out ↔ out = content) ∧
      Arrives { ans with content := .buffer content } 200 ans.fields content ∧
      ((∀ p ∈ hs, ¬ sameName p.1 b!"Content-Type") → (∀ p ∈ ds, sameName p.1 b!"Content-Type" → p.1 = b!"Content-Type") →
        headerValue b!"Content-Type" ans.fields = some ct) := by
  obtain ⟨H, hH, hHds⟩ := headers_init hd
  have h3f : 0x3f ∉ name := by obtain ⟨_, _, _, _, h, _⟩ := hu; exact h
  obtain ⟨H', e1, e2⟩ := file_headers hm hh hHds h3f hct hfit
  obtain ⟨f1, f2, f3⟩ := fopen_file hf
  have hcb : staticCb d c url 0 ⟨{ header := H }, false, fs⟩ =
      (0, ⟨setStream { header := H' } 200 (content.length, 256, fs.length), false, fs ++ [.file content]⟩) := by
    simp only [staticCb, staticFile, Nat.lt_irrefl, gt_iff_lt, if_false, requested_file hu, Res.ok_bind, f1, f2, f3, if_true, sendFile,
      e1, Dispatch.cbContinue, told, Res.pure_eq]
  have hr : HoldsResp (setStream { header := H' } 200 (content.length, 256, fs.length))
      (putEach (Spec.OMap.put ds b!"Content-Type" (some ct)) hs) [] [] := holds_fresh e2 200 _
  refine ⟨_, _, dispatch_stream cfg _ more dflt fs hH hcb (by decide) rfl (by show 0 < 256; decide) hr ht, rfl, rfl, fun out => read_file _ _ (by decide) _,
    client_part _ _ rfl, ?_⟩
  intro hn1 hn2
  refine (C150_value [] e2 (k := b!"Content-Type") (v := ct) (mem_each _ _ _ (put_mem _ _ _) ?_) ?_ (by decide)).2
  · intro q hq e
    exact hn1 q hq (by rw [e]; rfl)
  · intro p hp hs'
    rcases of_each _ _ _ hp with h | h
    · exact absurd hs' (hn1 p h)
    · rcases of_put h with h | h
      · rw [h]
      · exact hn2 p h hs'

private theorem holds_text {H : UMap} {hs : List (Bytes × Option Bytes)} (h : HoldsParams H hs) (st : Nat) (t : Bytes) :
    HoldsResp { header := H, status := st, body := some (t ++ [0]), bodyLen := t.length } hs [] t := by
  refine ⟨h, rfl, ?_, ?_⟩
  · simp [bodyOf]
  · intro b hb
    injection hb with hb
    rw [← hb]
    simp

private theorem holds_none {H : UMap} {hs : List (Bytes × Option Bytes)} (h : HoldsParams H hs) (st : Nat) :
    HoldsResp { header := H, status := st } hs [] [] := ⟨h, rfl, rfl, by intro b hb; cases hb⟩

/-- **C157, partial.** A request for a name no path leads to is answered with 404 and a text, or, when a redirection is configured,
with 302 and the header Location. (The callback is the only one of the endpoint.) -/
theorem C157_missing_partial (d : Disk) (c : Website.Config) {ds : List (Bytes × Option Bytes)} {url name : Bytes}
    (hu : FileUrl c.base.pfx url name) (hroot : c.base.root ≠ []) (hf : d.real (c.base.root ++ b!"/" ++ name) = none)
    (cfg : Cfg Files) (hd : Headers cfg.defaults ds) (dflt : Option (Callback Files)) (fs : Files) :
    (c.base.redirect = none → Takes cfg.accept [] (linesOf ds []) →
      ∃ ans ev, dispatch cfg [staticCb d c url] dflt fs = .ok (some ans, [ev]) ∧ ev.after.user = fs ∧
        Arrives ans 404 (linesOf ds []) b!"File not found") ∧
    (∀ l, c.base.redirect = some l → NoNul l → l.length + 2 < 2 ^ 64 →
      Takes cfg.accept [] (linesOf (Spec.OMap.put ds b!"Location" (some l)) []) →
      ∃ ans ev, dispatch cfg [staticCb d c url] dflt fs = .ok (some ans, [ev]) ∧ ev.after.user = fs ∧
        Arrives ans 302 (linesOf (Spec.OMap.put ds b!"Location" (some l)) []) []) := by
  obtain ⟨H, hH, hHds⟩ := headers_init hd
  have hf : d.real (filePath c.base name) = none := hf
  have hw : within c.base (d.real (filePath c.base name)) = false := by
    rw [hf]
    cases hr : c.base.root with
    | nil => exact absurd hr hroot
    | cons _ _ => simp [within, hr]
  constructor
  · intro hn ht
    have hcb : staticCb d c url 0 ⟨{ header := H }, false, fs⟩ =
        (0, ⟨{ header := H, status := 404, body := some (b!"File not found" ++ [0]), bodyLen := (b!"File not found").length }, false, fs⟩) := by
      simp only [staticCb, staticFile, Nat.lt_irrefl, gt_iff_lt, if_false, requested_file hu, Res.ok_bind, hw, Bool.false_eq_true,
        notThere, hn, setStringBody, Dispatch.cbContinue, Res.pure_eq]
    exact ⟨_, _, dispatch_single cfg _ dflt fs hH hcb (.inl rfl) rfl rfl (holds_text hHds 404 b!"File not found") ht, rfl,
      client_part _ _ rfl⟩
  · intro l hl hnl hlen ht
    obtain ⟨H', e1, e2⟩ := holds_put hHds b!"Location" (some l) (by decide) (by decide) (fun x hx => by cases hx; exact ⟨hnl, hlen⟩)
    have hcb : staticCb d c url 0 ⟨{ header := H }, false, fs⟩ = (0, ⟨{ header := H', status := 302 }, false, fs⟩) := by
      simp only [staticCb, staticFile, Nat.lt_irrefl, gt_iff_lt, if_false, requested_file hu, Res.ok_bind, hw, Bool.false_eq_true,
        notThere, hl, e1, Dispatch.cbContinue, Res.pure_eq]
    exact ⟨_, _, dispatch_single cfg _ dflt fs hH hcb (.inl rfl) rfl rfl (holds_none e2 302) ht, rfl, client_part _ _ rfl⟩

/-- A directory `/srv/www` with a page, a file whose name has a blank, a file that may not be read, and a directory. -/
def sampleDisk : Disk where
  real p := if p = b!"/srv/www/p.html" ∨ p = b!"/srv/www/a b.html" ∨ p = b!"/srv/www/key.pem" ∨ p = b!"/srv/www/img" then some p else none
  node r := if r = b!"/srv/www/p.html" then some (.file b!"<p>") else if r = b!"/srv/www/a b.html" then some (.file b!"<a>")
    else if r = b!"/srv/www/key.pem" then some (.file b!"secret") else if r = b!"/srv/www/img" then some (.dir 4096) else none
  readable r := r != b!"/srv/www/key.pem"

def sampleSite : Website.Config where
  base := { root := b!"/srv/www" }
  mime := match UMap.put UMap.init (some b!".html") (some b!"text/html") with
    | .ok (_, m) => match UMap.put m (some b!"*") (some b!"application/octet-stream") with
      | .ok (_, m) => m
      | .ub => UMap.init
    | .ub => UMap.init

/-- An instance whose libmicrohttpd takes every line. -/
def siteCfg : Cfg Files := { accept := fun _ _ _ => true, hand := fun _ => .failed, realm := none, defaults := none }

example : HoldsParams sampleSite.mime [(b!".html", some b!"text/html"), (b!"*", some b!"application/octet-stream")] ∧
    Fit [(b!".html", some b!"text/html"), (b!"*", some b!"application/octet-stream")] ∧ Headers sampleSite.headers [] ∧
    FileUrl none b!"/p.html?x=1" b!"p.html" ∧ HasFile sampleDisk b!"/srv/www" b!"p.html" b!"<p>" ∧
    MediaType [(b!".html", some b!"text/html"), (b!"*", some b!"application/octet-stream")] b!"p.html" b!"text/html" := by
  refine ⟨?_, ?_, .inl ⟨rfl, rfl⟩, ⟨b!"?x=1", by decide, by decide, by decide, by decide, .inr ⟨b!"x=1", .inl rfl⟩, .inl ⟨rfl, rfl⟩⟩,
    ⟨b!"/p.html", by decide, by decide, by decide⟩, ⟨b!".html", .inl ⟨b!"p", b!"html", rfl, by decide, by decide, rfl⟩,
      .inl ⟨b!".html", by decide, rfl, by decide⟩⟩⟩
  · obtain ⟨m1, e1, h1⟩ := holds_put holds_init b!".html" (some b!"text/html") (by decide) (by decide)
      (by intro x hx; cases hx; exact ⟨by decide, by decide⟩)
    obtain ⟨m2, e2, h2⟩ := holds_put h1 b!"*" (some b!"application/octet-stream") (by decide) (by decide)
      (by intro x hx; cases hx; exact ⟨by decide, by decide⟩)
    simp only [sampleSite, e1, e2]
    exact h2
  · intro p hp v hv
    simp at hp
    rcases hp with rfl | rfl <;> cases hv <;> decide

example : queued (dispatch siteCfg [staticCb sampleDisk sampleSite b!"/p.html?x=1"] none []) =
    some ⟨200, none, [(b!"Content-Type", b!"text/html")], .stream (3, 256, 0)⟩ := by decide +kernel
example : FileUrl none b!"/no.html" b!"no.html" ∧ sampleDisk.real (b!"/srv/www" ++ b!"/" ++ b!"no.html") = none :=
  ⟨⟨[], by decide, by decide, by decide, by decide, .inl rfl, .inl ⟨rfl, rfl⟩⟩, by decide⟩

/-- **C157 is false of the code** for names that a URL cannot hold as they are: the directory has a file `a b.html`; its URL is
`/a%20b.html`, which the callback takes as it is. -/
theorem C157_encoded_false :
    HasFile sampleDisk b!"/srv/www" b!"a b.html" b!"<a>" ∧ UrlCodec.urlDecode (some b!"a%20b.html") = .ok (some b!"a b.html") ∧
    queued (dispatch siteCfg [staticCb sampleDisk sampleSite b!"/a%20b.html"] none []) =
      some ⟨404, none, [], .buffer b!"File not found"⟩ :=
  ⟨⟨b!"/a b.html", by decide, by decide, by decide⟩, by decide +kernel, by decide +kernel⟩

/-- **C157 is false of the code** for directories: `fopen` opens them, the answer is a stream of the length `ftell` reports for a
directory, and no bytes ever come. The request is never answered to the end. -/
theorem C157_directory_false :
    queued (dispatch siteCfg [staticCb sampleDisk sampleSite b!"/img"] none []) =
      some ⟨200, none, [(b!"Content-Type", b!"application/octet-stream")], .stream (4096, 256, 0)⟩ ∧
    ∀ out, ¬ Completes fileReader (some 4096) 256 (.dir 4096, 0) [] out :=
  ⟨by decide +kernel, fun out => read_dir 4096 256 (by decide) out⟩

/-- **C157 is false of the code** for files that exist and may not be read: the client is told 200 and gets an empty body. -/
theorem C157_forbidden_false :
    sampleDisk.exists b!"/srv/www/key.pem" = true ∧ sampleDisk.fopen b!"/srv/www/key.pem" = none ∧
    queued (dispatch siteCfg [staticCb sampleDisk sampleSite b!"/key.pem"] none []) = some ⟨200, none, [], .buffer []⟩ :=
  ⟨by decide +kernel, by decide +kernel, by decide +kernel⟩

end Verif.Props
