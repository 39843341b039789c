import Verif.Model.OomWebsite
import Verif.Props.WebsiteCompressed
import Verif.Props.OomCompress
import Verif.Lemmas.OomForm
/-!
# C201: the compressed website after memory ran out

Full statement: requests come while memory runs out in any way. Nothing undefined happens, each of them is answered with the page or with an error, and
once there is memory again every page is answered as if nothing had happened.

True: unless an array of a cache cannot be enlarged, later requests get their pages (`C201_later_partial`). False: when an array of the cache cannot be
enlarged the callback follows NULL (`C201_cache_false`), as without a copy of the URL (`C201_url_false`); a page that does not fit into the cache is
answered as an empty page (`C201_empty_false`); without memory for a header the compressed page is taken for the page (`C201_coding_false`); a page
that is there is not found (`C201_path_false`).
-/
namespace Verif.Props
open Verif.UMap Verif.Message Verif.Answer Verif.Website Verif.Spec.Client Verif.Spec.Stream Verif.Spec.Coding Verif.Spec.Handshake
open Verif.StaticFile (filePath within cutAt skipSlashes)
open Verif.Compress (Zlib modeName)

/-- The caches a series of requests leaves, each with its own lack of memory; the arrays of the caches can be enlarged. -/
inductive VisitedTight (Z : Zlib) (d : Disk) (c : Site) : Caches → Prop
  | start : VisitedTight Z d c {}
  | visit {k k' mem url header pos r fs ret r' fs'} : VisitedTight Z d c k → mem.cache ∉ [some 2, some 3, some 4] →
      OomWebsite.website Z mem d c url header pos r k fs = .ok (ret, r', k', fs') → VisitedTight Z d c k'

namespace OomWebsiteHelp

theorem tail_eq {a : Int} {b : Response} {k : Caches} {f : Files} {ret r' k' fs'} (h : (.ok (a, b, k, f) : Res Out) = .ok (ret, r', k', fs')) : k' = k := by
  injection h with h
  injection h with _ h
  injection h with _ h
  injection h with h _
  exact h.symm

theorem oom_requested_ne {mem : OomStatic.Mem} {c : StaticFile.Config} {url name : Bytes} (h : OomWebsite.requested mem c url = .ok name) : name ≠ [] := by
  unfold OomWebsite.requested at h
  split at h
  · cases ha : StaticFile.advance (c.pfx.getD []).length url with
    | ub => rw [ha] at h; cases h
    | ok p =>
      rw [ha, Res.ok_bind] at h
      dsimp only at h
      split at h
      · split at h
        · injection h with h; subst h; decide
        · cases h
      · rename_i hn
        injection h with h
        rw [h] at hn
        rintro rfl
        simp at hn
  · cases h

theorem gone_caches {mem : OomStatic.Mem} {c : Website.Config} {r : Response} {k : Caches} {fs : Files} {ret r' k' fs'}
    (h : OomWebsite.goneSite mem c r k fs = .ok (ret, r', k', fs')) : k' = k := by
  unfold OomWebsite.goneSite at h
  split at h
  · exact tail_eq h
  · cases hp : UMap.put r.header (some b!"Location") (some _) mem.location with
    | ub => rw [hp] at h; cases h
    | ok x => rw [hp] at h; exact tail_eq h

theorem plain_caches {mem : OomStatic.Mem} {d : Disk} {c : Website.Config} {url : Bytes} {r : Response} {k : Caches} {fs : Files} {ret r' k' fs'}
    (h : OomWebsite.plainFile mem d c url r k fs = .ok (ret, r', k', fs')) : k' = k := by
  unfold OomWebsite.plainFile at h
  cases hq : OomWebsite.requested mem c.base url with
  | ub => rw [hq] at h; cases h
  | ok name =>
    rw [hq, Res.ok_bind] at h
    dsimp only at h
    split at h
    · split at h
      · cases hh : OomStatic.fileHeaders mem c name r.header with
        | ub => rw [hh] at h; cases h
        | ok H => rw [hh] at h; exact tail_eq h
      · exact gone_caches h
    · exact gone_caches h

theorem set_of (k : Caches) (m : Compress.Mode) : k.set m (k.of m) = k := by cases m <;> rfl

theorem pack_fits {Z : Zlib} {mem : OomWebsite.Mem} {d : Disk} {c : Site} {k : Caches} {undo} (hz : LosslessZlib Z undo) (hs : SmallFiles Z d)
    (hk : CachesFit Z d c k) (ho : Verif.OomForm.NotArrays mem.cache) {m : Compress.Mode} {name : Bytes} {n : Node} {ct : Option Buf} (hn : name ≠ [])
    (hf : d.fopen (filePath c.base name) = some n) (hct : contentType c.mime name = .ok ct) (hp : packs c ct = .ok true)
    (hnew : c.caching = true → UMap.hasKey (k.of m) (some name) = .ok false) {r : Response} {fs : Files} {ret r' k' fs'}
    (h : OomWebsite.packFile Z mem m c name n r k fs = .ok (ret, r', k', fs')) : CachesFit Z d c k' := by
  unfold OomWebsite.packFile at h
  cases hh : OomStatic.fileHeaders mem.own c.toConfig name r.header with
  | ub => rw [hh] at h; cases h
  | ok H =>
    rw [hh] at h
    simp only [Res.ok_bind] at h
    by_cases h0 : told n = 0
    · rw [if_pos h0] at h
      rw [tail_eq h]
      exact hk
    · rw [if_neg h0] at h
      split at h
      · by_cases hi : Z.init m = true
        · rw [if_pos hi] at h
          cases n with
          | dir _ => cases h
          | file content =>
            have hne : content ≠ [] := by rintro rfl; exact h0 rfl
            have hw : Compress.w32 content.length = content.length := Nat.mod_eq_of_lt (hs _ _ hf).1
            simp only [zipInput, hw, List.take_length, Res.ok_bind] at h
            rw [(OomCompressHelp.loop_eq mem.grow (Z.fails m content) _ 0 (Z.all m content) [] rfl).1] at h
            rcases zip_loop (fun n => Z.fails m content n || !mem.grow n) _ 0 (Z.all m content) [] rfl with hlp | ⟨hlp, -⟩
            · rw [hlp] at h
              simp only [List.nil_append] at h
              by_cases hcc : c.caching = true
              · obtain ⟨cache, e1, e2, -, -⟩ := fits_put hz hs hk hn hne hf hct hp (hnew hcc)
                have key : ∃ rc cache', UMap.putBinary (k.of m) (some name) (some ((Z.all m content).map some)) 0 (Z.all m content).length mem.cache =
                    .ok (rc, cache') ∧ CachesFit Z d c (k.set m cache') := by
                  obtain ⟨es, he, hg, hes⟩ := hk m
                  have hnew' := hnew hcc
                  rw [he] at e1 hnew' ⊢
                  rcases Verif.OomForm.putBinary_oom es name ((Z.all m content).map some) 0 (Z.all m content).length mem.cache hn ho with e | ⟨-, ⟨e, -⟩ | ⟨i, hi', -⟩⟩
                  · exact ⟨_, cache, e.trans e1, e2⟩
                  · refine ⟨_, _, e, ?_⟩
                    rw [← he, set_of]
                    exact hk
                  · rw [hasKey_rep] at hnew'
                    injection hnew' with hnew'
                    rcases findIdx?_find? (fun e : Ent => e.key == name) es with ⟨h1, -⟩ | ⟨j, e, h1, h2, h3⟩
                    · rw [h1] at hi'; cases hi'
                    · have := List.any_eq_false.1 hnew' e (List.mem_of_getElem? h2)
                      exact absurd (List.find?_some h3) this
                obtain ⟨rc, cache', k1, k2⟩ := key
                simp only [hcc, if_true, k1, Res.ok_bind] at h
                cases hb : OomWebsite.bodyFromCache mem.body cache' name { r with header := H } with
                | ub => rw [hb] at h; cases h
                | ok r1 =>
                  rw [hb] at h
                  simp only [Res.ok_bind, Res.pure_eq] at h
                  cases hput : UMap.put r1.header (some b!"Content-Encoding") (some (modeName m)) mem.coding with
                  | ub => rw [hput] at h; cases h
                  | ok x =>
                    rw [hput] at h
                    rw [tail_eq h]
                    exact k2
              · simp only [hcc, Bool.false_eq_true, if_false] at h
                cases hb : OomCompress.setBody mem.body { r with header := H } 200 (Z.all m content) with
                | ub => rw [hb] at h; cases h
                | ok r1 =>
                  rw [hb] at h
                  simp only [Res.ok_bind, Res.pure_eq] at h
                  cases hput : UMap.put r1.header (some b!"Content-Encoding") (some (modeName m)) mem.coding with
                  | ub => rw [hput] at h; cases h
                  | ok x =>
                    rw [hput] at h
                    rw [tail_eq h]
                    exact hk
            · rw [hlp] at h
              rw [tail_eq h]
              exact hk
        · rw [if_neg hi] at h
          rw [tail_eq h]
          exact hk
      · rw [tail_eq h]
        exact hk

theorem load_fits {Z : Zlib} {mem : OomWebsite.Mem} {d : Disk} {c : Site} {k : Caches} {undo} (hz : LosslessZlib Z undo) (hs : SmallFiles Z d)
    (hk : CachesFit Z d c k) (ho : Verif.OomForm.NotArrays mem.cache) {m : Compress.Mode} {url name : Bytes} (hn : name ≠ [])
    (hnew : c.caching = true → UMap.hasKey (k.of m) (some name) = .ok false) {r : Response} {fs : Files} {ret r' k' fs'}
    (h : OomWebsite.loadFile Z mem m d c url name r k fs = .ok (ret, r', k', fs')) : CachesFit Z d c k' := by
  unfold OomWebsite.loadFile at h
  simp only at h
  split at h
  · cases hf : OomWebsite.fopen mem.own d (filePath c.base name) with
    | none => rw [hf] at h; rw [gone_caches h]; exact hk
    | some n =>
      rw [hf] at h
      have hf' : d.fopen (filePath c.base name) = some n := by
        unfold OomWebsite.fopen at hf
        split at hf
        · exact hf
        · cases hf
      simp only at h
      cases hct : contentType c.mime name with
      | ub => rw [hct] at h; cases h
      | ok ct =>
        rw [hct] at h
        simp only [Res.ok_bind] at h
        cases hp : packs c ct with
        | ub => rw [hp] at h; cases h
        | ok b =>
          rw [hp] at h
          simp only [Res.ok_bind] at h
          cases b with
          | true =>
            rw [if_pos rfl] at h
            exact pack_fits hz hs hk ho hn hf' hct hp hnew h
          | false =>
            rw [if_neg (by decide)] at h
            rw [plain_caches h]
            exact hk
  · rw [gone_caches h]; exact hk

theorem site_fits {Z : Zlib} {mem : OomWebsite.Mem} {d : Disk} {c : Site} {k : Caches} {undo} (hz : LosslessZlib Z undo) (hs : SmallFiles Z d)
    (hk : CachesFit Z d c k) (ho : Verif.OomForm.NotArrays mem.cache) {url : Bytes} {header : UMap} {pos : Nat} {r : Response} {fs : Files} {ret r' k' fs'}
    (h : OomWebsite.website Z mem d c url header pos r k fs = .ok (ret, r', k', fs')) : CachesFit Z d c k' := by
  unfold OomWebsite.website at h
  by_cases hpos : pos > 0
  · rw [if_pos hpos] at h
    rw [tail_eq h]
    exact hk
  · rw [if_neg hpos] at h
    cases hreq : OomWebsite.requested mem.own c.base url with
    | ub => rw [hreq] at h; cases h
    | ok name =>
      rw [hreq] at h
      simp only [Res.ok_bind] at h
      cases hce : UMap.hasKeyCase r.header (some b!"Content-Encoding") with
      | ub => rw [hce] at h; cases h
      | ok ce =>
        rw [hce] at h
        simp only [Res.ok_bind] at h
        by_cases hc1 : ce = true
        · rw [if_pos hc1] at h
          rw [plain_caches h]
          exact hk
        · rw [if_neg hc1] at h
          cases hac : UMap.getCase header (some b!"Accept-Encoding") with
          | ub => rw [hac] at h; cases h
          | ok accept =>
            rw [hac] at h
            simp only [Res.ok_bind] at h
            cases hcm : (if mem.split = true then chooseMode c accept else .ok none) with
            | ub => rw [hcm] at h; cases h
            | ok o =>
              rw [hcm] at h
              simp only [Res.ok_bind] at h
              cases o with
              | none => simp only at h; rw [plain_caches h]; exact hk
              | some m =>
                simp only at h
                obtain ⟨es, he, hg, hes⟩ := hk m
                rw [he, hasKey_rep] at h
                simp only [Res.ok_bind] at h
                by_cases hkn : (c.caching && es.any fun e => e.key == name) = true
                · rw [if_pos hkn] at h
                  cases hb : OomWebsite.bodyFromCache mem.body (rep es) name r with
                  | ub => rw [hb] at h; cases h
                  | ok r1 =>
                    rw [hb] at h
                    simp only [Res.ok_bind] at h
                    cases hput : UMap.put r1.header (some b!"Content-Encoding") (some (modeName m)) mem.coding with
                    | ub => rw [hput] at h; cases h
                    | ok x =>
                      rw [hput] at h
                      simp only [Res.ok_bind] at h
                      cases hfh : OomStatic.fileHeaders mem.own c.toConfig name x.2 with
                      | ub => rw [hfh] at h; cases h
                      | ok H =>
                        rw [hfh] at h
                        rw [tail_eq h]
                        exact hk
                · rw [if_neg hkn] at h
                  refine load_fits hz hs hk ho (oom_requested_ne hreq) ?_ h
                  intro hcc
                  rw [he, hasKey_rep]
                  congr 1
                  simpa [hcc] using hkn

theorem tight_fits {Z : Zlib} {d : Disk} {c : Site} {undo} (hz : LosslessZlib Z undo) (hs : SmallFiles Z d) {k : Caches}
    (h : VisitedTight Z d c k) : CachesFit Z d c k := by
  induction h with
  | start =>
    intro m
    cases m <;> exact ⟨[], init_eq, good_nil, by simp⟩
  | visit _ ho hw ih =>
    simp only [List.mem_cons, List.not_mem_nil, or_false, not_or] at ho
    exact site_fits hz hs ih ho hw

end OomWebsiteHelp

open OomWebsiteHelp

/-- **C201** (partial: the arrays of the caches can be enlarged, and no request ended in anything undefined). On every file system whose files are
shorter than 4 GiB, after every series of requests during which memory ran out in any way, a request for a file that may be read is answered, when there
is memory, as C158 says: with a body and headers from which the client reads the content of the file, or with a stream of it, or with an error if zlib
fails. -/
theorem C201_later_partial (Z : Zlib) (undo : Bytes → Bytes → Option Bytes) (hz : LosslessZlib Z undo) (d : Disk) (c : Site)
    (hsmall : SmallFiles Z d) {ms hs ds qs : List (Bytes × Option Bytes)} {url name content ct : Bytes}
    (hm : HoldsParams c.mime ms) (hfit : Fit ms) (hh : Headers c.headers hs) (hu : SiteUrl c.base.pfx url name)
    (hf : HasFile d c.base.root name content) (hct : MediaType ms name ct) {header H : UMap} (hq : HoldsParams header qs)
    (ha : Absent qs b!"Accept-Encoding" ∨ ∃ v, Single qs b!"Accept-Encoding" v) (hd : HoldsParams H ds)
    (hds : Absent ds b!"Content-Encoding") (hhs : Absent hs b!"Content-Encoding") {k : Caches} (hk : VisitedTight Z d c k) (fs : Files) :
    ∃ ret r' k' fs' hs' body, website Z d c url header 0 { header := H } k fs = .ok (ret, r', k', fs') ∧
      HoldsResp r' hs' [] body ∧ withoutCoding hs' = putEach (Spec.OMap.put ds b!"Content-Type" (some ct)) hs ∧
      (ret = 0 ∧ r'.status = 200 ∧ codings hs' = [] ∧
          (∃ i, r'.stream = some (content.length, 0x4000, i) ∧ fs'[i]? = some (.file content)) ∧
          ((∀ cod, ¬ Wanted (c.gzip = true) (c.deflate = true) qs cod) ∨ ct ∉ c.types) ∨
        ret = 0 ∧ r'.status = 200 ∧ r'.stream = none ∧ r'.bodyLen = body.length ∧ readBody undo hs' body = some content ∧ fs' = fs ∧
          (∃ cod, Wanted (c.gzip = true) (c.deflate = true) qs cod ∧ codings hs' = if content = [] then [] else [cod]) ∧
          ct ∈ c.types ∨
        ret = 4 ∧ content ≠ [] ∧ ct ∈ c.types ∧ ∃ m, Wanted (c.gzip = true) (c.deflate = true) qs (modeName m) ∧
          (Z.init m = false ∨ ∃ n, Z.fails m content n = true)) :=
  page_fits Z undo hz d c hsmall hm hfit hh hu hf hct hq ha hd hds hhs (tight_fits hz hsmall hk) fs

/-- The callback as the dispatcher calls it; a call that is undefined is given up. -/
def tightCb (mem : OomWebsite.Mem) (c : Site) (url : Bytes) : Callback (Caches × Files) := fun pos w =>
  match OomWebsite.website toyZlib mem (pageDisk (.file b!"<p>")) c url gzipClient pos w.resp w.user.1 w.user.2 with
  | .ok (ret, r, k, fs) => (ret, { w with resp := r, user := (k, fs) })
  | .ub => (Dispatch.cbError, w)

/-- An instance whose libmicrohttpd takes every line. -/
private def zipCfg : Cfg (Caches × Files) := { accept := fun _ _ _ => true, hand := fun _ => .failed, realm := none, defaults := none }

/-- The code a request is answered with, the status and the body. -/
private def codeOf : Res Out → Option (Int × Nat × Option Bytes)
  | .ok (ret, r, _, _) => some (ret, r.status, r.body)
  | .ub => none

/-- It fails when the array of the keys of the cache cannot be enlarged: the callback follows NULL. -/
theorem C201_cache_false :
    seen (OomWebsite.website toyZlib { cache := some 2 } (pageDisk (.file b!"<p>")) zipSite b!"/p.html" gzipClient 0 {} {} []) = none := by
  decide +kernel

/-- It fails when the URL cannot be copied: NULL is read. -/
theorem C201_url_false (Z : Zlib) (d : Disk) (c : Site) (url : Bytes) (header : UMap) (r : Response) (k : Caches) (fs : Files) :
    OomWebsite.website Z { own := { url := false } } d c url header 0 r k fs = .ub := rfl

/-- It fails when the page does not fit into the cache: the client is told 200 and gzip, and gets an empty page, from which nothing can be read. -/
theorem C201_empty_false :
    queued (dispatch zipCfg [tightCb { cache := some 1 } zipSite b!"/p.html"] none ({}, [])) =
      some ⟨200, none, [(b!"Content-Type", b!"text/html"), (b!"Content-Encoding", b!"gzip")], .buffer []⟩ ∧
    queued (dispatch zipCfg [tightCb {} zipSite b!"/p.html"] none ({}, [])) =
      some ⟨200, none, [(b!"Content-Type", b!"text/html"), (b!"Content-Encoding", b!"gzip")], .buffer (0x1f :: b!"<p>")⟩ ∧
    toyUndo b!"gzip" [] = none := by decide +kernel

/-- It fails when there is no memory for the header Content-Encoding: the client takes the compressed page for the page. -/
theorem C201_coding_false :
    queued (dispatch zipCfg [tightCb { coding := some 0 } zipSite b!"/p.html"] none ({}, [])) =
      some ⟨200, none, [(b!"Content-Type", b!"text/html")], .buffer (0x1f :: b!"<p>")⟩ := by decide +kernel

/-- It fails when there is no memory for the path of the file: the callback does as if there was no such page. -/
theorem C201_path_false : HasFile (pageDisk (.file b!"<p>")) b!"/srv/www" b!"p.html" b!"<p>" ∧
    codeOf (OomWebsite.website toyZlib { own := { real := false } } (pageDisk (.file b!"<p>")) zipSite b!"/p.html" gzipClient 0 {} {} []) =
      some (1, 200, none) :=
  ⟨⟨b!"/p.html", by decide, by decide, by decide⟩, by decide +kernel⟩

/-- A page that did not fit into the cache, and then, with memory, the page. -/
example : VisitedTight toyZlib (pageDisk (.file b!"<p>")) zipSite
    (left (OomWebsite.website toyZlib { cache := some 1 } (pageDisk (.file b!"<p>")) zipSite b!"/p.html" gzipClient 0 {} {} [])) ∧
    seen (website toyZlib (pageDisk (.file b!"<p>")) zipSite b!"/p.html" gzipClient 0 {}
      (left (OomWebsite.website toyZlib { cache := some 1 } (pageDisk (.file b!"<p>")) zipSite b!"/p.html" gzipClient 0 {} {} [])) []) =
      some (some (0x1f :: b!"<p>"), 1) := by
  constructor
  · cases h : OomWebsite.website toyZlib { cache := some 1 } (pageDisk (.file b!"<p>")) zipSite b!"/p.html" gzipClient 0 {} {} [] with
    | ub => exact .start
    | ok x => exact .visit .start (by decide) h
  · decide +kernel

end Verif.Props
