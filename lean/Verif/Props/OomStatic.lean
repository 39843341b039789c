import Verif.Model.OomStatic
import Verif.Props.Website
/-!
# C200: the static file callback when memory runs out

Full statement: whatever allocations of the static file callback fail, nothing undefined happens; a file below the directory is answered in full, with
status 200, its media type and the configured headers, or the answer is an error of the server; a name that is not there is answered with 404, or with
302 and Location, or with an error of the server; a file elsewhere is never sent.

True: no file elsewhere is ever opened (`C200_root`); a file is answered in full or not at all when the URL can be copied and the headers stored
(`C200_file_partial`, `C200_missing_partial`). False: a URL or a name that cannot be copied is read at NULL (`C200_url_false`, `C200_index_false`);
a file whose path cannot be resolved for want of memory is said not to exist (`C200_path_false`); a file that cannot be opened for want of memory is
an empty page (`C200_open_false`); a file is sent without its media type (`C200_type_false`); a name that is not there is an empty page
(`C200_text_false`) or a redirection to nowhere (`C200_location_false`).
-/
namespace Verif.Props
open Verif.UMap Verif.Message Verif.StaticFile Verif.Website Verif.Answer Verif.Spec.Stream

namespace OomStaticHelp

theorem putFrom_none (m : UMap) (k : Bytes) (p : Option Buf) : OomStatic.putFrom none m k p = UMap.putPtr m (some k) p := by
  cases p <;> rfl

theorem copyLoop_none (src : UMap) : ∀ (ks : List (Ptr Bytes)) (n : Nat) (d : UMap),
    OomStatic.copyLoop (fun _ => none) src n ks d = UMap.copyIntoLoop src ks d
  | [], _, _ => rfl
  | .null :: _, _, _ => rfl
  | .dead :: _, _, _ => rfl
  | .to k :: t, n, d => by
    simp only [OomStatic.copyLoop, UMap.copyIntoLoop, putFrom_none, copyLoop_none src t (n + 1)]

theorem headers_none (mem : OomStatic.Mem) (ht : mem.type = none) (hc : mem.copy = fun _ => none) (c : Website.Config) (name : Bytes) (h : UMap) :
    OomStatic.fileHeaders mem c name h = Website.fileHeaders c name h := by
  have hi : ∀ a b, OomStatic.copyInto (fun _ => none) a b = UMap.copyInto a b := by
    intro a b
    unfold OomStatic.copyInto UMap.copyInto
    cases b.keys with
    | none => rfl
    | some ks => exact copyLoop_none b ks 0 a
  unfold OomStatic.fileHeaders Website.fileHeaders
  rw [ht, hc]
  simp only [putFrom_none, hi]
  rfl

theorem requested_oom (mem : OomStatic.Mem) (hm : mem.url = true) {c : StaticFile.Config} {url name : Bytes} (h : FileUrl c.pfx url name) :
    OomStatic.requested mem c url = .ok name := by
  obtain ⟨q, hn, hn0, h23, h3f, hq, hu⟩ := h
  obtain ⟨b, n', rfl⟩ := List.exists_cons_of_ne_nil hn
  have hb : b ≠ 0x2f := by simpa using hn0
  rcases hu with ⟨hp, rfl⟩ | ⟨p, hp, hpne, h0, rfl⟩
  · have e1 : skipSlashes (b!"/" ++ (b :: n') ++ q) = (b :: n') ++ q := by simp [skipSlashes, hb]
    have e2 : skipSlashes ((b :: n') ++ q) = (b :: n') ++ q := by simp [skipSlashes, hb]
    simp only [OomStatic.requested, hm, if_true, e1, hp, Option.getD_none, StaticFile.advance, List.length_nil, Nat.zero_le, Res.ok_bind,
      List.drop_zero, e2, cut_cut h23 h3f hq]
    rw [if_neg (by simp [hb])]
    rfl
  · obtain ⟨a, p', rfl⟩ := List.exists_cons_of_ne_nil hpne
    have ha : a ≠ 0x2f := by simpa using h0
    have e1 : skipSlashes (b!"/" ++ (a :: p') ++ b!"/" ++ (b :: n') ++ q) = (a :: p') ++ (b!"/" ++ ((b :: n') ++ q)) := by
      simp [skipSlashes, ha]
    have e2 : skipSlashes (b!"/" ++ ((b :: n') ++ q)) = (b :: n') ++ q := by simp [skipSlashes, hb]
    simp only [OomStatic.requested, hm, if_true, e1, hp, Option.getD_some, StaticFile.advance]
    rw [if_pos (by simp), Res.ok_bind, List.drop_left, e2, cut_cut h23 h3f hq, if_neg (by simp [hb])]
    rfl

theorem notThere_stream {mem : OomStatic.Mem} {c : Website.Config} {r r' : Response} (h : OomStatic.notThere mem c r = .ok r') :
    r'.stream = r.stream := by
  unfold OomStatic.notThere at h
  split at h
  · split at h <;> (injection h with h; subst h; rfl)
  · cases hp : UMap.put r.header (some b!"Location") (some _) mem.location with
    | ub => rw [hp] at h; cases h
    | ok x => rw [hp] at h; injection h with h; subst h; rfl

theorem notThere_ok {mem : OomStatic.Mem} {c : Website.Config} {r : Response} {ds : List (Bytes × Option Bytes)} (hr : HoldsParams r.header ds)
    (hl : mem.location = none) (hre : ∀ l, c.base.redirect = some l → NoNul l ∧ l.length + 2 < 2 ^ 64) :
    ∃ r', OomStatic.notThere mem c r = .ok r' ∧
      ∀ l, c.base.redirect = some l → r'.status = 302 ∧ HoldsParams r'.header (Spec.OMap.put ds b!"Location" (some l)) := by
  unfold OomStatic.notThere
  cases h : c.base.redirect with
  | none => cases mem.body <;> exact ⟨_, rfl, by intro l hl; cases hl⟩
  | some l =>
    obtain ⟨H', e1, e2⟩ := holds_put hr b!"Location" (some l) (by decide) (by decide) (fun x hx => by cases hx; exact hre l h)
    simp only [hl, e1, Res.ok_bind]
    exact ⟨_, rfl, by intro l' hl'; cases hl'; exact ⟨rfl, e2⟩⟩

end OomStaticHelp

open OomStaticHelp

/-- **C200.** Whatever fails, and whatever is asked for: the callback opens nothing and the response streams what it did before, or it opens one thing
below the directory that may be read, and the response streams this one, with status 200. It opens nothing without
a path and a block for the file. -/
theorem C200_root (mem : OomStatic.Mem) (d : Disk) (c : Website.Config) (url : Bytes) (pos : Nat) (r : Response) (fs : Files)
    (code : Int) (r' : Response) (fs' : Files) (h : OomStatic.staticFile mem d c url pos r fs = .ok (code, r', fs')) :
    code = 0 ∧ (fs' = fs ∧ r'.stream = r.stream ∨
    ∃ n path rest size, fs' = fs ++ [n] ∧ d.real path = some (c.base.root ++ rest) ∧ d.node (c.base.root ++ rest) = some n ∧
      d.readable (c.base.root ++ rest) = true ∧ r'.status = 200 ∧ r'.stream = some (size, 256, fs.length) ∧ r'.bodyLen = 0 ∧
      (∀ content, n = .file content → size = content.length) ∧ mem.path = true ∧ mem.file = true) := by
  unfold OomStatic.staticFile at h
  split at h
  · injection h with h
    injection h with h1 h2
    injection h2 with h2 h3
    subst h1 h2 h3
    exact ⟨rfl, .inl ⟨rfl, rfl⟩⟩
  · cases hq : OomStatic.requested mem c.base url with
    | ub => rw [hq] at h; cases h
    | ok name =>
      rw [hq, Res.ok_bind] at h
      dsimp only at h
      have gone : ∀ {x : Res (Int × Response × Files)}, x = (do
          let r ← OomStatic.notThere mem c r
          return (Dispatch.cbContinue, r, fs)) → x = .ok (code, r', fs') → code = 0 ∧ fs' = fs ∧ r'.stream = r.stream := by
        intro x hx h
        subst hx
        cases hn : OomStatic.notThere mem c r with
        | ub => rw [hn] at h; cases h
        | ok q =>
          rw [hn, Res.ok_bind] at h
          injection h with h
          injection h with h1 h2
          injection h2 with h2 h3
          subst h1 h2 h3
          exact ⟨rfl, rfl, notThere_stream hn⟩
      split at h
      · rename_i hw
        split at h
        · rename_i he
          split at h
          · rename_i n hn
            have ⟨hn, hmf⟩ : d.fopen (filePath c.base name) = some n ∧ mem.file = true := by
              cases hm : mem.file with
              | true => rw [hm] at hn; exact ⟨hn, rfl⟩
              | false => rw [hm] at hn; cases hn
            cases hh : OomStatic.fileHeaders mem c name r.header with
            | ub => rw [hh] at h; cases h
            | ok H =>
              rw [hh, Res.ok_bind] at h
              injection h with h
              injection h with h1 h2
              injection h2 with h2 h3
              subst h1 h2 h3
              refine ⟨rfl, .inr ?_⟩
              unfold Disk.fopen at hn
              cases hp : d.real (filePath c.base name) with
              | none => rw [hp] at hn; cases hn
              | some p =>
                rw [hp] at hn
                dsimp only at hn
                split at hn
                · rename_i hrd
                  have hpre : p.take c.base.root.length = c.base.root := by
                    unfold OomStatic.realPath at hw
                    split at hw
                    · rw [hp] at hw
                      simpa [within] using hw
                    · have : c.base.root = [] := by simpa [within] using hw
                      simp [this]
                  have hsp : p = c.base.root ++ p.drop c.base.root.length := by
                    have := (List.take_append_drop c.base.root.length p).symm
                    rwa [hpre] at this
                  refine ⟨n, _, p.drop c.base.root.length, told n, rfl, hp.trans (congrArg some hsp), ?_, ?_, rfl, rfl, rfl, ?_,
                    (Bool.and_eq_true_iff.1 he).1, hmf⟩
                  · rw [← hsp]; exact hn
                  · rw [← hsp]; exact hrd
                  · intro content hc; subst hc; rfl
                · cases hn
          · injection h with h
            injection h with h1 h2
            injection h2 with h2 h3
            subst h1 h2 h3
            exact ⟨rfl, .inl ⟨rfl, rfl⟩⟩
        · obtain ⟨a, b⟩ := gone rfl h
          exact ⟨a, .inl b⟩
      · obtain ⟨a, b⟩ := gone rfl h
        exact ⟨a, .inl b⟩

/-- **C200** (partial: there is memory for the copy of the URL and for the headers). A file below the directory that may be read: if there is memory for
its path and for opening it, it is answered in full; if not, nothing is opened or streamed. -/
theorem C200_file_partial (mem : OomStatic.Mem) (d : Disk) (c : Website.Config) {ms hs ds : List (Bytes × Option Bytes)} {url name content ct : Bytes}
    (hu : mem.url = true) (ht : mem.type = none) (hc : mem.copy = fun _ => none) (hl : mem.location = none)
    (hm : HoldsParams c.mime ms) (hfit : Fit ms) (hh : Headers c.headers hs) (hn : FileUrl c.base.pfx url name)
    (hf : HasFile d c.base.root name content) (hct : MediaType ms name ct) (hroot : c.base.root ≠ [])
    (hre : ∀ l, c.base.redirect = some l → NoNul l ∧ l.length + 2 < 2 ^ 64)
    (r : Response) (hr : HoldsParams r.header ds) (fs : Files) :
    ∃ r' fs', OomStatic.staticFile mem d c url 0 r fs = .ok (0, r', fs') ∧
      (mem.path = true → mem.real = true → mem.file = true →
        fs' = fs ++ [.file content] ∧ r'.status = 200 ∧ r'.body = none ∧ r'.bodyLen = 0 ∧ r'.stream = some (content.length, 256, fs.length) ∧
        HoldsParams r'.header (putEach (Spec.OMap.put ds b!"Content-Type" (some ct)) hs)) ∧
      (¬ (mem.path = true ∧ mem.real = true ∧ mem.file = true) → fs' = fs ∧ r'.stream = r.stream) := by
  obtain ⟨hw, hex, hop⟩ := fopen_file hf
  have h3f : 0x3f ∉ name := by obtain ⟨_, _, _, _, h, _⟩ := hn; exact h
  obtain ⟨H', e1, e2⟩ := file_headers hm hh hr h3f hct hfit
  obtain ⟨r1, e3, -⟩ := notThere_ok (mem := mem) (c := c) hr hl hre
  have hwn : within c.base none = false := by
    cases hc : c.base.root with
    | nil => exact absurd hc hroot
    | cons _ _ => simp [within, hc]
  unfold OomStatic.staticFile
  rw [if_neg (by decide), requested_oom mem hu hn, Res.ok_bind]
  dsimp only [OomStatic.realPath]
  rcases Bool.eq_false_or_eq_true mem.path with hp | hp
  · rcases Bool.eq_false_or_eq_true mem.real with hq | hq
    · rcases Bool.eq_false_or_eq_true mem.file with ho | ho
      · simp only [hp, hq, ho, Bool.and_self, if_true, hw, Bool.true_and, hex, hop, headers_none mem ht hc, e1, Res.ok_bind]
        exact ⟨_, _, rfl, fun _ _ _ => ⟨rfl, rfl, rfl, rfl, rfl, e2⟩, fun h => absurd ⟨trivial, trivial, trivial⟩ h⟩
      · simp only [hp, hq, ho, Bool.and_self, if_true, hw, Bool.true_and, hex, Bool.false_eq_true, if_false]
        exact ⟨r, fs, rfl, by simp, fun _ => ⟨rfl, rfl⟩⟩
    · simp only [hp, hq, Bool.and_false, Bool.false_eq_true, if_false, hwn, e3, Res.ok_bind]
      exact ⟨r1, fs, rfl, by simp, fun _ => ⟨rfl, notThere_stream e3⟩⟩
  · simp only [hp, Bool.false_and, Bool.false_eq_true, if_false, hwn, e3, Res.ok_bind]
    exact ⟨r1, fs, rfl, by simp, fun _ => ⟨rfl, notThere_stream e3⟩⟩

/-- **C200** (partial: there is memory for the copy of the URL and for the answer). A name no path leads to is answered with 404 and a text, or with 302
and Location, whatever else fails. -/
theorem C200_missing_partial (mem : OomStatic.Mem) (d : Disk) (c : Website.Config) {ds : List (Bytes × Option Bytes)} {url name : Bytes}
    (hu : mem.url = true) (hb : mem.body = true) (hl : mem.location = none) (hn : FileUrl c.base.pfx url name)
    (hf : d.real (c.base.root ++ b!"/" ++ name) = none) (r : Response) (hr : HoldsParams r.header ds) (fs : Files) :
    (c.base.redirect = none → ∃ r', OomStatic.staticFile mem d c url 0 r fs = .ok (0, r', fs) ∧ r'.status = 404 ∧ HoldsParams r'.header ds ∧
      bodyOf r'.body r'.bodyLen = b!"File not found" ∧ r'.stream = r.stream) ∧
    (∀ l, c.base.redirect = some l → NoNul l → l.length + 2 < 2 ^ 64 →
      ∃ r', OomStatic.staticFile mem d c url 0 r fs = .ok (0, r', fs) ∧ r'.status = 302 ∧
        HoldsParams r'.header (Spec.OMap.put ds b!"Location" (some l)) ∧ r'.stream = r.stream) := by
  have key : OomStatic.staticFile mem d c url 0 r fs = (do
      let r ← OomStatic.notThere mem c r
      return (Dispatch.cbContinue, r, fs)) := by
    have hx : d.exists (filePath c.base name) = false := by
      have : d.real (filePath c.base name) = none := hf
      simp [Disk.exists, this]
    have hreal : OomStatic.realPath mem d (filePath c.base name) = none := by
      unfold OomStatic.realPath
      split
      · exact hf
      · rfl
    unfold OomStatic.staticFile
    rw [if_neg (by decide), requested_oom mem hu hn, Res.ok_bind]
    simp only [hreal, hx, Bool.and_false, Bool.false_eq_true, if_false, ite_self]
  rw [key]
  constructor
  · intro h
    have : OomStatic.notThere mem c r = .ok (setStringBody r 404 (some b!"File not found")).2 := by
      unfold OomStatic.notThere
      rw [h, hb]
      rfl
    rw [this, Res.ok_bind]
    exact ⟨_, rfl, rfl, hr, (by decide : bodyOf (some (b!"File not found" ++ [0])) (b!"File not found").length = b!"File not found"), rfl⟩
  · intro l h hnl hlen
    obtain ⟨r1, e1, e2⟩ := notThere_ok (mem := mem) (c := c) hr hl (fun l' h' => by rw [h] at h'; cases h'; exact ⟨hnl, hlen⟩)
    rw [e1, Res.ok_bind]
    exact ⟨r1, rfl, (e2 l h).1, (e2 l h).2, notThere_stream e1⟩

/-- It fails when the URL cannot be copied: the callback reads at NULL. -/
theorem C200_url_false (d : Disk) (c : Website.Config) (url : Bytes) (r : Response) (fs : Files) :
    OomStatic.staticFile { url := false } d c url 0 r fs = .ub := rfl

/-- It fails when the name `index.html` cannot be copied: NULL is printed with `%s`. -/
theorem C200_index_false (d : Disk) (r : Response) (fs : Files) : OomStatic.staticFile { index := false } d sampleSite b!"/" 0 r fs = .ub := rfl

/-- It fails when there is no memory for the path of the file, or for the canonical one: a page that is there is not found. -/
theorem C200_path_false : HasFile sampleDisk b!"/srv/www" b!"p.html" b!"<p>" ∧
    queued (dispatch siteCfg [OomStatic.staticCb { path := false } sampleDisk sampleSite b!"/p.html"] none []) =
      some ⟨404, none, [], .buffer b!"File not found"⟩ ∧
    queued (dispatch siteCfg [OomStatic.staticCb { real := false } sampleDisk sampleSite b!"/p.html"] none []) =
      some ⟨404, none, [], .buffer b!"File not found"⟩ :=
  ⟨⟨b!"/p.html", by decide, by decide, by decide⟩, by decide +kernel, by decide +kernel⟩

/-- It fails when there is no memory for opening the file: the client is told 200 and gets an empty page. -/
theorem C200_open_false : HasFile sampleDisk b!"/srv/www" b!"p.html" b!"<p>" ∧
    queued (dispatch siteCfg [OomStatic.staticCb { file := false } sampleDisk sampleSite b!"/p.html"] none []) = some ⟨200, none, [], .buffer []⟩ :=
  ⟨⟨b!"/p.html", by decide, by decide, by decide⟩, by decide +kernel⟩

/-- It fails when there is no memory for the header: the page is sent without its media type. -/
theorem C200_type_false : HasFile sampleDisk b!"/srv/www" b!"p.html" b!"<p>" ∧
    queued (dispatch siteCfg [OomStatic.staticCb { type := some 0 } sampleDisk sampleSite b!"/p.html"] none []) =
      some ⟨200, none, [], .stream (3, 256, 0)⟩ ∧
    queued (dispatch siteCfg [OomStatic.staticCb {} sampleDisk sampleSite b!"/p.html"] none []) =
      some ⟨200, none, [(b!"Content-Type", b!"text/html")], .stream (3, 256, 0)⟩ :=
  ⟨⟨b!"/p.html", by decide, by decide, by decide⟩, by decide +kernel, by decide +kernel⟩

/-- It fails when there is no memory for the text of the answer: a name that is not there is an empty page, with status 200. -/
theorem C200_text_false : sampleDisk.real b!"/srv/www/no.html" = none ∧
    queued (dispatch siteCfg [OomStatic.staticCb { body := false } sampleDisk sampleSite b!"/no.html"] none []) = some ⟨200, none, [], .buffer []⟩ :=
  ⟨by decide, by decide +kernel⟩

/-- It fails when there is no memory for the header Location: the client is redirected and not told where. -/
theorem C200_location_false : sampleDisk.real b!"/srv/www/no.html" = none ∧
    queued (dispatch siteCfg [OomStatic.staticCb { location := some 0 } sampleDisk
      { sampleSite with base := { root := b!"/srv/www", redirect := some b!"/" } } b!"/no.html"] none []) = some ⟨302, none, [], .buffer []⟩ :=
  ⟨by decide, by decide +kernel⟩

example : FileUrl sampleSite.base.pfx b!"/p.html" b!"p.html" ∧ HasFile sampleDisk b!"/srv/www" b!"p.html" b!"<p>" ∧ sampleSite.base.root ≠ [] ∧
    Headers sampleSite.headers [] ∧ FileUrl none b!"/no.html" b!"no.html" ∧ sampleDisk.real (b!"/srv/www" ++ b!"/" ++ b!"no.html") = none :=
  ⟨⟨[], by decide, by decide, by decide, by decide, .inl rfl, .inl ⟨rfl, rfl⟩⟩, ⟨b!"/p.html", by decide, by decide, by decide⟩, by decide,
    .inl ⟨rfl, rfl⟩, ⟨[], by decide, by decide, by decide, by decide, .inl rfl, .inl ⟨rfl, rfl⟩⟩, by decide⟩

/-- with memory, the first page of the sample is answered in full -/
example : OomStatic.staticFile {} sampleDisk sampleSite b!"/p.html" 0 { header := UMap.init } [] =
    Website.staticFile sampleDisk sampleSite b!"/p.html" 0 { header := UMap.init } [] := by decide +kernel

end Verif.Props
