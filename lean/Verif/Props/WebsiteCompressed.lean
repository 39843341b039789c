import Verif.Props.Website
/-! # C158: pages served from compressed copies -/
namespace Verif.Props
open Verif.UMap Verif.Message Verif.Answer Verif.Website Verif.Spec.Client Verif.Spec.Stream Verif.Spec.Coding Verif.Spec.Handshake
open Verif.StaticFile (requested filePath within cutAt skipSlashes)
open Verif.Compress (Zlib Mode modeName)

/-- The URL of a file for the compressed website: the prefix, a slash, the name, and at most a query or fragment. -/
def SiteUrl (pfx : Option Bytes) (url name : Bytes) : Prop :=
  ∃ q, name ≠ [] ∧ name.head? ≠ some 0x2f ∧ 0x23 ∉ name ∧ 0x3f ∉ name ∧ (q = [] ∨ ∃ t, q = 0x3f :: t ∨ q = 0x23 :: t) ∧
    url = pfx.getD [] ++ b!"/" ++ name ++ q

/-- The caches a series of requests leaves that begins with empty ones, on one file system. -/
inductive Visited (Z : Zlib) (d : Disk) (c : Site) : Caches → Prop
  | start : Visited Z d c {}
  | visit {k k' url header pos r fs ret r' fs'} : Visited Z d c k →
      website Z d c url header pos r k fs = .ok (ret, r', k', fs') → Visited Z d c k'

/-- Every file is shorter than 4 GiB, and what zlib makes of it fits the memory. -/
def SmallFiles (Z : Zlib) (d : Disk) : Prop :=
  ∀ path content, d.fopen path = some (.file content) → content.length < 2 ^ 32 ∧ ∀ m, (Z.all m content).length + 1 < 2 ^ 64

/-- Every entry of the caches is a compressed file. -/
def CachesFit (Z : Zlib) (d : Disk) (c : Site) (k : Caches) : Prop :=
  ∀ m, ∃ es, k.of m = rep es ∧ Good es ∧ ∀ e ∈ es, ∃ content ct, content ≠ [] ∧
    d.fopen (filePath c.base e.key) = some (.file content) ∧ contentType c.mime e.key = .ok ct ∧ packs c ct = .ok true ∧
    e.len = (Z.all m content).length ∧ e.buf.take e.len = (Z.all m content).map some

theorem requested_ne {lead : Bool} {c : StaticFile.Config} {url name : Bytes} (h : requested lead c url = .ok name) : name ≠ [] := by
  unfold requested at h
  cases ha : StaticFile.advance (c.pfx.getD []).length (if lead = true then skipSlashes url else url) with
  | ub => simp only [ha] at h; cases h
  | ok p =>
    simp only [ha, Res.ok_bind, Res.ok.injEq] at h
    rintro rfl
    split at h
    · cases h
    · rename_i hn
      rw [h] at hn
      simp at hn

private theorem mk_bytes (k z : Bytes) : (mk k (some (z.map some)) 0 z.length).key = k ∧
    (mk k (some (z.map some)) 0 z.length).len = z.length ∧
    (mk k (some (z.map some)) 0 z.length).buf.take z.length = z.map some := by
  refine ⟨rfl, by simp [mk], ?_⟩
  simp only [mk, Nat.zero_add, copyAt, List.take_zero, List.nil_append]
  have : (z.map some).take z.length = z.map some := List.take_of_length_le (by simp)
  rw [List.take_set_of_le (by omega), this, List.take_append_of_le_length (by simp), this]

private theorem zip_valid {z : Bytes} (h : z.length + 1 < 2 ^ 64) : ValidArgs (some (z.map some)) 0 z.length :=
  ⟨by omega, by intro src hs; cases hs; simp, by intro h; cases h⟩

private theorem goneSite_caches {c : Website.Config} {r : Response} {k : Caches} {fs : Files} {ret r' k' fs'}
    (h : goneSite c r k fs = .ok (ret, r', k', fs')) : k' = k := by
  unfold goneSite at h
  cases hr : c.base.redirect with
  | none => rw [hr] at h; simp only [Res.ok.injEq, Prod.mk.injEq] at h; exact h.2.2.1.symm
  | some l =>
    rw [hr] at h
    simp only at h
    cases hp : UMap.put r.header (some b!"Location") (some l) with
    | ub => rw [hp] at h; cases h
    | ok x =>
      rw [hp] at h
      simp only [Res.ok_bind, Res.pure_eq, Res.ok.injEq, Prod.mk.injEq] at h
      exact h.2.2.1.symm

private theorem plainFile_caches {d : Disk} {c : Website.Config} {name : Bytes} {r : Response} {k : Caches} {fs : Files} {ret r' k' fs'}
    (h : plainFile d c name r k fs = .ok (ret, r', k', fs')) : k' = k := by
  unfold plainFile at h
  simp only at h
  split at h
  · cases hf : d.fopen (filePath c.base name) with
    | none => rw [hf] at h; exact goneSite_caches h
    | some n =>
      rw [hf] at h
      simp only at h
      cases hs : sendFile 0x4000 c name n r fs with
      | ub => rw [hs] at h; cases h
      | ok x =>
        rw [hs] at h
        simp only [Res.ok_bind, Res.pure_eq, Res.ok.injEq, Prod.mk.injEq] at h
        exact h.2.2.1.symm
  · exact goneSite_caches h

private theorem of_set (k : Caches) (m m' : Mode) (x : UMap) : (k.set m x).of m' = if m' = m then x else k.of m' := by
  cases m <;> cases m' <;> rfl

/-- The bytes of a written block. -/
private theorem written_some : ∀ z : Bytes, written (z.map some) = .ok z
  | [] => rfl
  | x :: t => by
    simp only [List.map_cons, written, written_some t, Res.ok_bind]
    rfl

theorem fits_put {Z : Zlib} {d : Disk} {c : Site} {k : Caches} {undo} (hz : LosslessZlib Z undo) (hs : SmallFiles Z d)
    (hk : CachesFit Z d c k) {m : Mode} {name content : Bytes} {ct : Option Buf} (hn : name ≠ []) (hne : content ≠ [])
    (hf : d.fopen (filePath c.base name) = some (.file content)) (hct : contentType c.mime name = .ok ct) (hp : packs c ct = .ok true)
    (hnew : UMap.hasKey (k.of m) (some name) = .ok false) :
    ∃ cache, UMap.putBinary (k.of m) (some name) (some ((Z.all m content).map some)) 0 (Z.all m content).length = .ok (.ok, cache) ∧
      CachesFit Z d c (k.set m cache) ∧
      (UMap.hasKey cache (some name) = .ok true ∧ (∀ x, x ≠ name → UMap.hasKey cache (some x) = UMap.hasKey (k.of m) (some x)) ∧
        cache.nb = (k.of m).nb + 1) ∧
      ∀ r, bodyFromCache cache name r =
        .ok { r with body := some (Z.all m content), bodyLen := (Z.all m content).length, status := 200 } := by
  obtain ⟨es, he, hg, hes⟩ := hk m
  have hv := zip_valid ((hs _ _ hf).2 m)
  have hzn := (hz m content).2
  have hzl : (Z.all m content).length ≠ 0 := by simpa using hzn
  rw [he, hasKey_rep] at hnew
  injection hnew with hnew
  obtain ⟨g1, g2, g3⟩ := mk_bytes name (Z.all m content)
  have happ : eput es name (some ((Z.all m content).map some)) 0 (Z.all m content).length =
      es ++ [mk name (some ((Z.all m content).map some)) 0 (Z.all m content).length] := by
    unfold eput
    rw [if_neg (by rw [hnew]; decide)]
  refine ⟨rep (eput es name (some ((Z.all m content).map some)) 0 (Z.all m content).length), ?_, ?_, ?_, ?_⟩
  · rw [he, putBinary_rep es name _ 0 _ hn hg hv]
  · intro m'
    rw [of_set]
    by_cases hm : m' = m
    · subst hm
      rw [if_pos rfl]
      refine ⟨_, rfl, eput_good es name _ 0 _ hn hg hv, ?_⟩
      intro e hmem
      rw [happ] at hmem
      rcases List.mem_append.1 hmem with h | h
      · exact hes e h
      · have : e = mk name (some ((Z.all m' content).map some)) 0 (Z.all m' content).length := by simpa using h
        subst this
        exact ⟨content, ct, hne, by rw [g1]; exact hf, by rw [g1]; exact hct, hp, g2, by rw [g2]; exact g3⟩
    · rw [if_neg hm]
      exact hk m'
  · rw [happ, he]
    refine ⟨?_, ?_, ?_⟩
    · rw [hasKey_rep, List.any_append]
      simp [g1]
    · intro x hx
      rw [hasKey_rep, hasKey_rep, List.any_append]
      simp [g1, hx.symm]
    · simp [rep]
  · intro r
    have hfind : (eput es name (some ((Z.all m content).map some)) 0 (Z.all m content).length).find? (fun e => e.key == name) =
        some (mk name (some ((Z.all m content).map some)) 0 (Z.all m content).length) := by
      rw [happ, List.find?_append, List.find?_eq_none.2]
      · simp [List.find?_cons, g1]
      · intro x hx hc
        have := List.any_eq_false.1 hnew x hx
        exact this hc
    unfold bodyFromCache
    rw [get_rep, getLength_rep, hfind]
    simp only [Option.bind_some, Option.map_some, g2, Res.ok_bind]
    rw [if_pos (by omega)]
    simp only [g3, written_some, Res.ok_bind, setBinaryBody, if_neg hzl, Nat.le_refl, if_true, List.take_length]
    rfl

private theorem pack_caches {Z : Zlib} {d : Disk} {c : Site} {k : Caches} {undo} (hz : LosslessZlib Z undo) (hs : SmallFiles Z d)
    (hk : CachesFit Z d c k) {m : Mode} {name : Bytes} {n : Node} {ct : Option Buf} (hn : name ≠ [])
    (hf : d.fopen (filePath c.base name) = some n) (hct : contentType c.mime name = .ok ct) (hp : packs c ct = .ok true)
    (hnew : c.caching = true → UMap.hasKey (k.of m) (some name) = .ok false) {r : Response} {fs : Files} {ret r' k' fs'}
    (h : packFile Z m c name n r k fs = .ok (ret, r', k', fs')) : CachesFit Z d c k' := by
  unfold packFile at h
  cases hh : fileHeaders c.toConfig name r.header with
  | ub => rw [hh] at h; cases h
  | ok H =>
    rw [hh] at h
    simp only [Res.ok_bind] at h
    by_cases h0 : told n = 0
    · rw [if_pos h0] at h
      simp only [Res.pure_eq, Res.ok.injEq, Prod.mk.injEq] at h
      rw [← h.2.2.1]
      exact hk
    · rw [if_neg h0] at h
      by_cases hi : Z.init m = true
      · rw [if_pos hi] at h
        cases n with
        | dir _ => cases h
        | file content =>
          have hne : content ≠ [] := by rintro rfl; exact h0 rfl
          have hw : Compress.w32 content.length = content.length := Nat.mod_eq_of_lt (hs _ _ hf).1
          simp only [zipInput, hw, List.take_length, Res.ok_bind] at h
          rcases zip_loop (Z.fails m content) _ 0 (Z.all m content) [] rfl with hlp | ⟨hlp, -⟩
          · rw [hlp] at h
            simp only [List.nil_append] at h
            by_cases hcc : c.caching = true
            · obtain ⟨cache, e1, e2, -, e3⟩ := fits_put hz hs hk hn hne hf hct hp (hnew hcc)
              simp only [hcc, if_true, e1, Res.ok_bind, e3, Res.pure_eq] at h
              cases hput : UMap.put H (some b!"Content-Encoding") (some (modeName m)) with
              | ub => rw [hput] at h; cases h
              | ok x =>
                rw [hput] at h
                simp only [Res.ok_bind, Res.ok.injEq, Prod.mk.injEq] at h
                rw [← h.2.2.1]
                exact e2
            · have hzl : (Z.all m content).length ≠ 0 := by simpa using (hz m content).2
              simp only [hcc, setBinaryBody, if_neg hzl, Nat.le_refl, if_true, List.take_length, Res.ok_bind, Res.pure_eq,
                Bool.false_eq_true, if_false] at h
              cases hput : UMap.put H (some b!"Content-Encoding") (some (modeName m)) with
              | ub => rw [hput] at h; cases h
              | ok x =>
                rw [hput] at h
                simp only [Res.ok_bind, Res.ok.injEq, Prod.mk.injEq] at h
                rw [← h.2.2.1]
                exact hk
          · rw [hlp] at h
            simp only [Res.pure_eq, Res.ok.injEq, Prod.mk.injEq] at h
            rw [← h.2.2.1]
            exact hk
      · rw [if_neg hi] at h
        simp only [Res.pure_eq, Res.ok.injEq, Prod.mk.injEq] at h
        rw [← h.2.2.1]
        exact hk

private theorem load_caches {Z : Zlib} {d : Disk} {c : Site} {k : Caches} {undo} (hz : LosslessZlib Z undo) (hs : SmallFiles Z d)
    (hk : CachesFit Z d c k) {m : Mode} {name : Bytes} (hn : name ≠ [])
    (hnew : c.caching = true → UMap.hasKey (k.of m) (some name) = .ok false) {r : Response} {fs : Files} {ret r' k' fs'}
    (h : loadFile Z m d c name r k fs = .ok (ret, r', k', fs')) : CachesFit Z d c k' := by
  unfold loadFile at h
  simp only at h
  split at h
  · cases hf : d.fopen (filePath c.base name) with
    | none => rw [hf] at h; rw [goneSite_caches h]; exact hk
    | some n =>
      rw [hf] at h
      simp only at h
      cases hct : contentType c.mime name with
      | ub => rw [hct] at h; cases h
      | ok ct =>
        rw [hct] at h
        simp only [Res.ok_bind] at h
        cases hp : packs c ct with
        | ub => rw [hp] at h; cases h
        | ok b =>
          rw [hp] at h
          simp only [Res.ok_bind] at h
          cases b with
          | true =>
            rw [if_pos rfl] at h
            exact pack_caches hz hs hk hn hf hct hp hnew h
          | false =>
            rw [if_neg (by decide)] at h
            rw [plainFile_caches h]
            exact hk
  · rw [goneSite_caches h]; exact hk

private theorem site_caches {Z : Zlib} {d : Disk} {c : Site} {k : Caches} {undo} (hz : LosslessZlib Z undo) (hs : SmallFiles Z d)
    (hk : CachesFit Z d c k) {url : Bytes} {header : UMap} {pos : Nat} {r : Response} {fs : Files} {ret r' k' fs'}
    (h : website Z d c url header pos r k fs = .ok (ret, r', k', fs')) : CachesFit Z d c k' := by
  unfold website at h
  by_cases hpos : pos > 0
  · rw [if_pos hpos] at h
    simp only [Res.ok.injEq, Prod.mk.injEq] at h
    rw [← h.2.2.1]
    exact hk
  · rw [if_neg hpos] at h
    cases hreq : requested false c.base url with
    | ub => rw [hreq] at h; cases h
    | ok name =>
      rw [hreq] at h
      simp only [Res.ok_bind] at h
      cases hce : UMap.hasKeyCase r.header (some b!"Content-Encoding") with
      | ub => rw [hce] at h; cases h
      | ok ce =>
        rw [hce] at h
        simp only [Res.ok_bind] at h
        by_cases hc1 : ce = true
        · rw [if_pos hc1] at h
          rw [plainFile_caches h]
          exact hk
        · rw [if_neg hc1] at h
          cases hac : UMap.getCase header (some b!"Accept-Encoding") with
          | ub => rw [hac] at h; cases h
          | ok accept =>
            rw [hac] at h
            simp only [Res.ok_bind] at h
            cases hcm : chooseMode c accept with
            | ub => rw [hcm] at h; cases h
            | ok o =>
              rw [hcm] at h
              simp only [Res.ok_bind] at h
              cases o with
              | none => simp only at h; rw [plainFile_caches h]; exact hk
              | some m =>
                simp only at h
                obtain ⟨es, he, hg, hes⟩ := hk m
                rw [he, hasKey_rep] at h
                simp only [Res.ok_bind] at h
                by_cases hkn : (c.caching && es.any fun e => e.key == name) = true
                · rw [if_pos hkn] at h
                  cases hb : bodyFromCache (rep es) name r with
                  | ub => rw [hb] at h; cases h
                  | ok r1 =>
                    rw [hb] at h
                    simp only [Res.ok_bind] at h
                    cases hput : UMap.put r1.header (some b!"Content-Encoding") (some (modeName m)) with
                    | ub => rw [hput] at h; cases h
                    | ok x =>
                      rw [hput] at h
                      simp only [Res.ok_bind] at h
                      cases hfh : fileHeaders c.toConfig name x.2 with
                      | ub => rw [hfh] at h; cases h
                      | ok H =>
                        rw [hfh] at h
                        simp only [Res.ok_bind, Res.pure_eq, Res.ok.injEq, Prod.mk.injEq] at h
                        rw [← h.2.2.1]
                        exact hk
                · rw [if_neg hkn] at h
                  refine load_caches hz hs hk (requested_ne hreq) ?_ h
                  intro hcc
                  rw [he, hasKey_rep]
                  congr 1
                  simpa [hcc] using hkn

private theorem visited_fits {Z : Zlib} {d : Disk} {c : Site} {undo} (hz : LosslessZlib Z undo) (hs : SmallFiles Z d) {k : Caches}
    (h : Visited Z d c k) : CachesFit Z d c k := by
  induction h with
  | start =>
    intro m
    cases m <;> exact ⟨[], init_eq, good_nil, by simp⟩
  | visit _ hw ih => exact site_caches hz hs ih hw

/-! ## One request -/

private theorem requested_site {c : StaticFile.Config} {url name : Bytes} (h : SiteUrl c.pfx url name) : requested false c url = .ok name := by
  obtain ⟨q, hn, hn0, h23, h3f, hq, rfl⟩ := h
  obtain ⟨b, n', rfl⟩ := List.exists_cons_of_ne_nil hn
  have hb : b ≠ 0x2f := by simpa using hn0
  have e2 : skipSlashes (b!"/" ++ ((b :: n') ++ q)) = (b :: n') ++ q := by simp [skipSlashes, hb]
  simp only [requested, StaticFile.advance, Bool.false_eq_true, if_false]
  rw [if_pos (by simp), Res.ok_bind, List.append_assoc, List.append_assoc, List.drop_left, e2, cut_cut h23 h3f hq, if_neg (by simp [hb])]

private theorem no_coding {H : UMap} {ds : List (Bytes × Option Bytes)} (h : HoldsParams H ds) (ha : Absent ds b!"Content-Encoding") :
    UMap.hasKeyCase H (some b!"Content-Encoding") = .ok false := by
  obtain ⟨es, rfl, hg, hs⟩ := holds_sim h
  rw [hasKeyCase_rep]
  congr 1
  have hc := Client.sim_countP hs (fun x => eqCase x b!"Content-Encoding")
  have h0 : ds.countP (fun p => eqCase p.1 b!"Content-Encoding") = 0 := by
    rw [List.countP_eq_zero]
    exact fun p hp he => ha p hp ((WsOpen.same_name _ _).1 he)
  rw [h0, List.countP_eq_zero] at hc
  exact List.any_eq_false.2 hc

private theorem site_mode {c : Site} {header : UMap} {qs : List (Bytes × Option Bytes)} (hq : HoldsParams header qs)
    (ha : Absent qs b!"Accept-Encoding" ∨ ∃ v, Single qs b!"Accept-Encoding" v) :
    ∃ accept o, UMap.getCase header (some b!"Accept-Encoding") = .ok accept ∧ chooseMode c accept = .ok o ∧
      match o with
      | some m => Wanted (c.gzip = true) (c.deflate = true) qs (modeName m)
      | none => ∀ cod, ¬ Wanted (c.gzip = true) (c.deflate = true) qs cod := by
  have hc := (holds_case hq b!"Accept-Encoding").2
  rcases ha with ha | ⟨v, hv⟩
  · have hf : qs.find? (fun p => eqCase p.1 b!"Accept-Encoding") = none := by
      rw [List.find?_eq_none]
      exact fun p hp he => ha p hp ((WsOpen.same_name _ _).1 he)
    rw [hf] at hc
    refine ⟨none, none, hc, rfl, ?_⟩
    rintro cod (⟨_, _, v, xs, ⟨a, p, b, rfl, h2, _⟩, _⟩ | ⟨_, _, ⟨v, xs, ⟨a, p, b, rfl, h2, _⟩, _⟩, _⟩)
    · exact ha p (by simp) h2
    · exact ha p (by simp) h2
  · obtain ⟨p, hf, hp⟩ := (single_found hv).2
    rw [hf] at hc
    obtain ⟨b, g1, g2⟩ := hc
    have hw := choose_wanted hv (some ⟨c.gzip, c.deflate⟩)
    have eg : allowsGzip (some ⟨c.gzip, c.deflate⟩) = (c.gzip = true) :=
      propext ⟨fun h => h _ rfl, fun h x hx => by cases hx; exact h⟩
    have ed : allowsDeflate (some ⟨c.gzip, c.deflate⟩) = (c.deflate = true) :=
      propext ⟨fun h => h _ rfl, fun h x hx => by cases hx; exact h⟩
    rw [eg, ed] at hw
    refine ⟨some b, _, g1, ?_, hw⟩
    simp only [chooseMode, g2, Res.ok_bind, hp]
    rfl

/-- The header lines that are not called Content-Encoding. -/
def withoutCoding (hs : List (Bytes × Option Bytes)) : List (Bytes × Option Bytes) :=
  hs.filter (fun p => decide (p.1.map toLower ≠ (b!"Content-Encoding").map toLower))

private theorem filterMap_same {f g : Bytes × Option Bytes → Option Bytes} : ∀ (l : List (Bytes × Option Bytes)),
    (∀ p ∈ l, f p = g p) → l.filterMap f = l.filterMap g
  | [], _ => rfl
  | p :: t, h => by
    rw [List.filterMap_cons, List.filterMap_cons, h p (by simp), filterMap_same t (fun q hq => h q (by simp [hq]))]

private theorem other_put {m : List (Bytes × Option Bytes)} {k : Bytes} {v : Option Bytes} (hk : ¬ sameName k b!"Content-Encoding") :
    withoutCoding (Spec.OMap.put m k v) = Spec.OMap.put (withoutCoding m) k v ∧ codings (Spec.OMap.put m k v) = codings m := by
  have hk' : k.map toLower ≠ (b!"Content-Encoding").map toLower := hk
  unfold withoutCoding codings
  generalize (b!"Content-Encoding").map toLower = ce at hk'
  have hany : (m.filter (fun p => decide (p.1.map toLower ≠ ce))).any (fun p => p.1 == k) = m.any (fun p => p.1 == k) := by
    rw [List.any_filter]
    congr 1
    funext p
    by_cases hp : p.1 = k
    · rw [hp]; simp [hk']
    · simp [hp]
  unfold Spec.OMap.put
  rw [hany]
  split
  · constructor
    · rw [List.filter_map]
      congr 1
      apply List.filter_congr
      intro p hp
      simp only [Function.comp]
      split
      · rename_i he
        have : p.1 = k := by simpa using he
        rw [this]
      · rfl
    · rw [List.filterMap_map]
      apply filterMap_same
      intro p hp
      simp only [Function.comp]
      split
      · rename_i he
        have : p.1 = k := by simpa using he
        rw [this, if_neg hk']
      · rfl
  · constructor
    · rw [List.filter_append]
      simp [hk']
    · rw [List.filterMap_append]
      simp [hk']

private theorem other_each : ∀ (ps m : List (Bytes × Option Bytes)), Absent ps b!"Content-Encoding" →
    withoutCoding (putEach m ps) = putEach (withoutCoding m) ps ∧ codings (putEach m ps) = codings m
  | [], _, _ => ⟨rfl, rfl⟩
  | p :: t, m, h => by
    have hp := other_put (m := m) (v := p.2) (h p (by simp))
    have ht := other_each t (Spec.OMap.put m p.1 p.2) (fun q hq => h q (by simp [hq]))
    have e : putEach m (p :: t) = putEach (Spec.OMap.put m p.1 p.2) t := rfl
    have e' : putEach (withoutCoding m) (p :: t) = putEach (Spec.OMap.put (withoutCoding m) p.1 p.2) t := rfl
    rw [e, e', ht.1, ht.2, hp.1, hp.2]
    exact ⟨rfl, rfl⟩

private theorem without_absent {m : List (Bytes × Option Bytes)} (h : Absent m b!"Content-Encoding") : withoutCoding m = m := by
  unfold withoutCoding
  rw [List.filter_eq_self]
  intro p hp
  exact decide_eq_true (h p hp)

private theorem absent_codings {m : List (Bytes × Option Bytes)} (h : withoutCoding m = m) : Absent m b!"Content-Encoding" := by
  intro p hp
  rw [← h] at hp
  exact of_decide_eq_true (List.mem_filter.1 hp).2

private theorem coding_put {m : List (Bytes × Option Bytes)} (h : Absent m b!"Content-Encoding") (v : Bytes) :
    withoutCoding (Spec.OMap.put m b!"Content-Encoding" (some v)) = m ∧
      codings (Spec.OMap.put m b!"Content-Encoding" (some v)) = [v] := by
  have e : Spec.OMap.put m b!"Content-Encoding" (some v) = m ++ [(b!"Content-Encoding", some v)] := by
    unfold Spec.OMap.put
    rw [if_neg]
    intro hc
    obtain ⟨p, hp, he⟩ := List.any_eq_true.1 hc
    have : p.1 = b!"Content-Encoding" := by simpa using he
    exact h p hp (by rw [this]; rfl)
  rw [e]
  constructor
  · have := without_absent h
    unfold withoutCoding at this ⊢
    rw [List.filter_append, this]
    simp
  · have := codings_absent h
    unfold codings at this ⊢
    rw [List.filterMap_append, this]
    simp

private theorem plain_site {d : Disk} {c : Website.Config} {ms hs ds : List (Bytes × Option Bytes)} (hm : HoldsParams c.mime ms)
    (hfit : Fit ms) (hh : Headers c.headers hs) {H : UMap} (hd : HoldsParams H ds) {name ct content : Bytes} (h3f : 0x3f ∉ name)
    (hct : MediaType ms name ct) (hf : HasFile d c.base.root name content) (k : Caches) (fs : Files) :
    ∃ r', plainFile d c name { header := H } k fs = .ok (0, r', k, fs ++ [.file content]) ∧ r'.status = 200 ∧
      r'.stream = some (content.length, 0x4000, fs.length) ∧
      HoldsResp r' (putEach (Spec.OMap.put ds b!"Content-Type" (some ct)) hs) [] [] := by
  obtain ⟨H', e1, e2⟩ := file_headers hm hh hd h3f hct hfit
  obtain ⟨f1, f2, f3⟩ := fopen_file hf
  unfold plainFile
  simp only [f1, if_true, f3, sendFile, e1, Res.ok_bind, Res.pure_eq, told, Dispatch.cbContinue]
  exact ⟨_, rfl, rfl, rfl, e2, rfl, rfl, by intro b hb; cases hb⟩

/-- What a request does to the cache of its coding. -/
private def Grows (c : Site) (m : Mode) (name content : Bytes) (k k' : Caches) : Prop :=
  (c.caching = true → content ≠ [] → UMap.hasKey (k'.of m) (some name) = .ok true) ∧
  (∀ x, x ≠ name → UMap.hasKey (k'.of m) (some x) = UMap.hasKey (k.of m) (some x)) ∧
  (c.caching = true → content ≠ [] → UMap.hasKey (k.of m) (some name) = .ok false → (k'.of m).nb = (k.of m).nb + 1)

private theorem page_full (Z : Zlib) (undo : Bytes → Bytes → Option Bytes) (hz : LosslessZlib Z undo) (d : Disk) (c : Site)
    (hsmall : SmallFiles Z d) {ms hs ds qs : List (Bytes × Option Bytes)} {url name content ct : Bytes}
    (hm : HoldsParams c.mime ms) (hfit : Fit ms) (hh : Headers c.headers hs) (hu : SiteUrl c.base.pfx url name)
    (hf : HasFile d c.base.root name content) (hct : MediaType ms name ct) {header H : UMap} (hq : HoldsParams header qs)
    (ha : Absent qs b!"Accept-Encoding" ∨ ∃ v, Single qs b!"Accept-Encoding" v) (hd : HoldsParams H ds)
    (hds : Absent ds b!"Content-Encoding") (hhs : Absent hs b!"Content-Encoding") {k : Caches} (hk : CachesFit Z d c k) (fs : Files) :
    ∃ ret r' k' fs' hs' body, website Z d c url header 0 { header := H } k fs = .ok (ret, r', k', fs') ∧
      HoldsResp r' hs' [] body ∧ withoutCoding hs' = putEach (Spec.OMap.put ds b!"Content-Type" (some ct)) hs ∧
      (ret = 0 ∧ r'.status = 200 ∧ codings hs' = [] ∧
          (∃ i, r'.stream = some (content.length, 0x4000, i) ∧ fs'[i]? = some (.file content)) ∧
          ((∀ cod, ¬ Wanted (c.gzip = true) (c.deflate = true) qs cod) ∨ ct ∉ c.types) ∨
        ret = 0 ∧ r'.status = 200 ∧ r'.stream = none ∧ r'.bodyLen = body.length ∧ readBody undo hs' body = some content ∧ fs' = fs ∧
          (∃ m, Wanted (c.gzip = true) (c.deflate = true) qs (modeName m) ∧
            codings hs' = (if content = [] then [] else [modeName m]) ∧ Grows c m name content k k') ∧
          ct ∈ c.types ∨
        ret = 4 ∧ content ≠ [] ∧ ct ∈ c.types ∧ ∃ m, Wanted (c.gzip = true) (c.deflate = true) qs (modeName m) ∧
          (Z.init m = false ∨ ∃ n, Z.fails m content n = true)) := by
  have h3f : 0x3f ∉ name := by obtain ⟨_, _, _, _, h, _⟩ := hu; exact h
  have hne : name ≠ [] := by obtain ⟨_, h, _⟩ := hu; exact h
  obtain ⟨f1, f2, f3⟩ := fopen_file hf
  obtain ⟨tb, t1, t2⟩ := type_found hm h3f hct
  have hpk : packs c (some tb) = .ok (c.types.contains ct) := by
    simp only [packs, t2, Res.ok_bind]
    rfl
  have hCT : ¬ sameName b!"Content-Type" b!"Content-Encoding" := by unfold sameName; decide
  have base1 := other_put (m := ds) (v := some ct) hCT
  have base2 := other_each hs (Spec.OMap.put ds b!"Content-Type" (some ct)) hhs
  have hw0 : withoutCoding (putEach (Spec.OMap.put ds b!"Content-Type" (some ct)) hs) =
      putEach (Spec.OMap.put ds b!"Content-Type" (some ct)) hs := by
    rw [base2.1, base1.1, without_absent hds]
  have habs := absent_codings hw0
  have hfitk := hk
  obtain ⟨accept, o, a1, a2, a3⟩ := site_mode (c := c) hq ha
  unfold website
  rw [if_neg (by decide), requested_site hu]
  simp only [Res.ok_bind, no_coding hd hds, Bool.false_eq_true, if_false, a1, a2]
  cases o with
  | none =>
    obtain ⟨r', e1, e2, e3, e4⟩ := plain_site hm hfit hh hd h3f hct hf k fs
    exact ⟨0, r', k, _, _, [], e1, e4, hw0, .inl ⟨rfl, e2, codings_absent habs, ⟨fs.length, e3, by simp⟩, .inl a3⟩⟩
  | some m =>
    simp only at a3 ⊢
    obtain ⟨es, he, hg, hes⟩ := hfitk m
    rw [he, hasKey_rep]
    simp only [Res.ok_bind]
    have hmode : NoNul (modeName m) ∧ (modeName m).length + 2 < 2 ^ 64 := by cases m <;> exact ⟨by decide, by decide⟩
    by_cases hkn : (c.caching && es.any fun e => e.key == name) = true
    · rw [if_pos hkn]
      have hany : (es.any fun e => e.key == name) = true := by
        rw [Bool.and_eq_true] at hkn
        exact hkn.2
      obtain ⟨e, hfind⟩ : ∃ e, es.find? (fun e => e.key == name) = some e := by
        cases hfd : es.find? (fun e => e.key == name) with
        | none =>
          rw [List.find?_eq_none] at hfd
          obtain ⟨x, hx, hx'⟩ := List.any_eq_true.1 hany
          exact absurd hx' (hfd x hx)
        | some e => exact ⟨e, rfl⟩
      have hkey : e.key = name := by simpa using List.find?_some hfind
      obtain ⟨content', ct', g1, g2, g3, g4, g5, g6⟩ := hes e (List.mem_of_find?_eq_some hfind)
      rw [hkey, f3] at g2
      injection g2 with g2
      injection g2 with g2
      subst g2
      rw [hkey, t1] at g3
      injection g3 with g3
      subst g3
      rw [hpk] at g4
      injection g4 with g4
      have hin : ct ∈ c.types := by simpa using g4
      have hzl : (Z.all m content).length ≠ 0 := by simpa using (hz m content).2
      have hbody : bodyFromCache (rep es) name { header := H } =
          .ok { header := H, body := some (Z.all m content), bodyLen := (Z.all m content).length, status := 200 } := by
        unfold bodyFromCache
        rw [get_rep, getLength_rep, hfind]
        simp only [Option.bind_some, Option.map_some, Res.ok_bind]
        rw [if_pos (by omega)]
        simp only [g6, written_some, Res.ok_bind, setBinaryBody]
        rw [if_neg (by omega), if_pos (by omega), g5, List.take_length]
        rfl
      rw [hbody]
      simp only [Res.ok_bind]
      obtain ⟨H1, p1, p2⟩ := holds_put hd b!"Content-Encoding" (some (modeName m)) (by decide) (by decide)
        (by intro x hx; cases hx; exact hmode)
      rw [p1]
      simp only [Res.ok_bind]
      obtain ⟨H2, p3, p4⟩ := file_headers hm hh p2 h3f hct hfit
      rw [p3]
      simp only [Res.ok_bind, Res.pure_eq]
      have c1 := coding_put hds (modeName m)
      have c2 := other_put (m := Spec.OMap.put ds b!"Content-Encoding" (some (modeName m))) (v := some ct) hCT
      have c3 := other_each hs (Spec.OMap.put (Spec.OMap.put ds b!"Content-Encoding" (some (modeName m))) b!"Content-Type" (some ct)) hhs
      have hcod : codings (putEach (Spec.OMap.put (Spec.OMap.put ds b!"Content-Encoding" (some (modeName m))) b!"Content-Type" (some ct)) hs)
          = [modeName m] := by rw [c3.2, c2.2, c1.2]
      refine ⟨0, _, k, fs, _, Z.all m content, rfl, ⟨p4, rfl, by simp [bodyOf], by simp⟩, ?_,
        .inr (.inl ⟨rfl, rfl, rfl, rfl, ?_, rfl, ⟨m, a3, ?_, ?_⟩, hin⟩)⟩
      · rw [c3.1, c2.1, c1.1]
      · unfold readBody
        rw [hcod]
        simp [(hz m content).1]
      · rw [hcod, if_neg g1]
      · refine ⟨fun _ _ => ?_, fun _ _ => rfl, fun _ _ h => ?_⟩
        · rw [he, hasKey_rep, hany]
        · rw [he, hasKey_rep, hany] at h
          cases h
    · rw [if_neg hkn]
      have hnew : c.caching = true → UMap.hasKey (k.of m) (some name) = .ok false := by
        intro hcc
        rw [he, hasKey_rep]
        congr 1
        simpa [hcc] using hkn
      unfold loadFile
      simp only [f1, if_true, f3, t1, Res.ok_bind, hpk]
      by_cases hin : c.types.contains ct = true
      · rw [if_pos hin]
        have hin' : ct ∈ c.types := by simpa using hin
        rw [hin] at hpk
        obtain ⟨H', e1, e2⟩ := file_headers hm hh hd h3f hct hfit
        unfold packFile
        rw [e1]
        simp only [Res.ok_bind]
        by_cases h0 : told (.file content) = 0
        · rw [if_pos h0]
          have hc0 : content = [] := List.eq_nil_of_length_eq_zero h0
          refine ⟨0, _, k, fs, _, [], rfl, ⟨e2, rfl, rfl, by intro b hb; cases hb⟩, hw0,
            .inr (.inl ⟨rfl, rfl, rfl, rfl, ?_, rfl, ⟨m, a3, ?_, ?_⟩, hin'⟩)⟩
          · unfold readBody
            rw [codings_absent habs, hc0]
            rfl
          · rw [codings_absent habs, if_pos hc0]
          · exact ⟨fun _ h => absurd hc0 h, fun _ _ => rfl, fun _ h => absurd hc0 h⟩
        · rw [if_neg h0]
          have hcne : content ≠ [] := by rintro rfl; exact h0 rfl
          by_cases hi : Z.init m = true
          · rw [if_pos hi]
            have hw : Compress.w32 content.length = content.length := Nat.mod_eq_of_lt (hsmall _ _ f3).1
            simp only [zipInput, hw, List.take_length, Res.ok_bind]
            rcases zip_loop (Z.fails m content) _ 0 (Z.all m content) [] rfl with hlp | ⟨hlp, n, hn⟩
            · rw [hlp]
              simp only [List.nil_append]
              obtain ⟨H1, p1, p2⟩ := holds_put e2 b!"Content-Encoding" (some (modeName m)) (by decide) (by decide)
                (by intro x hx; cases hx; exact hmode)
              have c1 := coding_put habs (modeName m)
              have hread : readBody undo (Spec.OMap.put (putEach (Spec.OMap.put ds b!"Content-Type" (some ct)) hs) b!"Content-Encoding"
                  (some (modeName m))) (Z.all m content) = some content := by
                unfold readBody
                rw [c1.2]
                simp [(hz m content).1]
              by_cases hcc : c.caching = true
              · obtain ⟨cache, q1, -, ⟨u1, u2, u3⟩, q3⟩ := fits_put hz hsmall hfitk hne hcne f3 t1 hpk (hnew hcc)
                simp only [hcc, if_true, q1, Res.ok_bind, q3, Res.pure_eq, p1]
                refine ⟨0, _, _, fs, _, Z.all m content, rfl, ⟨p2, rfl, by simp [bodyOf], by simp⟩, c1.1,
                  .inr (.inl ⟨rfl, rfl, rfl, rfl, hread, rfl, ⟨m, a3, by rw [c1.2, if_neg hcne], ?_⟩, hin'⟩)⟩
                simp only [Grows, of_set, if_true]
                exact ⟨fun _ _ => u1, u2, fun _ _ _ => u3⟩
              · have hzl : (Z.all m content).length ≠ 0 := by simpa using (hz m content).2
                simp only [hcc, setBinaryBody, if_neg hzl, Nat.le_refl, if_true, List.take_length, Res.ok_bind, Res.pure_eq,
                  Bool.false_eq_true, if_false, p1]
                exact ⟨0, _, _, fs, _, Z.all m content, rfl, ⟨p2, rfl, by simp [bodyOf], by simp⟩, c1.1,
                  .inr (.inl ⟨rfl, rfl, rfl, rfl, hread, rfl, ⟨m, a3, by rw [c1.2, if_neg hcne],
                    fun h => absurd h hcc, fun _ _ => rfl, fun h => absurd h hcc⟩, hin'⟩)⟩
            · rw [hlp]
              exact ⟨4, _, k, fs, _, [], rfl, ⟨e2, rfl, rfl, by intro b hb; cases hb⟩, hw0,
                .inr (.inr ⟨rfl, hcne, hin', m, a3, .inr ⟨n, hn⟩⟩)⟩
          · rw [if_neg hi]
            exact ⟨4, _, k, fs, _, [], rfl, ⟨e2, rfl, rfl, by intro b hb; cases hb⟩, hw0,
              .inr (.inr ⟨rfl, hcne, hin', m, a3, .inl (by simpa using hi)⟩)⟩
      · rw [if_neg hin]
        obtain ⟨r', e1, e2, e3, e4⟩ := plain_site hm hfit hh hd h3f hct hf k (fs ++ [.file content])
        exact ⟨0, r', k, _, _, [], e1, e4, hw0, .inl ⟨rfl, e2, codings_absent habs, ⟨_, e3, by simp⟩,
          .inr (fun h => hin (by simpa using h))⟩⟩

/-- The page, when the caches hold compressed files. -/
theorem page_fits (Z : Zlib) (undo : Bytes → Bytes → Option Bytes) (hz : LosslessZlib Z undo) (d : Disk) (c : Site)
    (hsmall : SmallFiles Z d) {ms hs ds qs : List (Bytes × Option Bytes)} {url name content ct : Bytes}
    (hm : HoldsParams c.mime ms) (hfit : Fit ms) (hh : Headers c.headers hs) (hu : SiteUrl c.base.pfx url name)
    (hf : HasFile d c.base.root name content) (hct : MediaType ms name ct) {header H : UMap} (hq : HoldsParams header qs)
    (ha : Absent qs b!"Accept-Encoding" ∨ ∃ v, Single qs b!"Accept-Encoding" v) (hd : HoldsParams H ds)
    (hds : Absent ds b!"Content-Encoding") (hhs : Absent hs b!"Content-Encoding") {k : Caches} (hk : CachesFit Z d c k) (fs : Files) :
    ∃ ret r' k' fs' hs' body, website Z d c url header 0 { header := H } k fs = .ok (ret, r', k', fs') ∧
      HoldsResp r' hs' [] body ∧ withoutCoding hs' = putEach (Spec.OMap.put ds b!"Content-Type" (some ct)) hs ∧
      (ret = 0 ∧ r'.status = 200 ∧ codings hs' = [] ∧
          (∃ i, r'.stream = some (content.length, 0x4000, i) ∧ fs'[i]? = some (.file content)) ∧
          ((∀ cod, ¬ Wanted (c.gzip = true) (c.deflate = true) qs cod) ∨ ct ∉ c.types) ∨
        ret = 0 ∧ r'.status = 200 ∧ r'.stream = none ∧ r'.bodyLen = body.length ∧ readBody undo hs' body = some content ∧ fs' = fs ∧
          (∃ cod, Wanted (c.gzip = true) (c.deflate = true) qs cod ∧ codings hs' = if content = [] then [] else [cod]) ∧
          ct ∈ c.types ∨
        ret = 4 ∧ content ≠ [] ∧ ct ∈ c.types ∧ ∃ m, Wanted (c.gzip = true) (c.deflate = true) qs (modeName m) ∧
          (Z.init m = false ∨ ∃ n, Z.fails m content n = true)) := by
  obtain ⟨ret, r', k', fs', hs', body, h1, h2, h3, h4⟩ :=
    page_full Z undo hz d c hsmall hm hfit hh hu hf hct hq ha hd hds hhs hk fs
  refine ⟨ret, r', k', fs', hs', body, h1, h2, h3, ?_⟩
  rcases h4 with h | ⟨a1, a2, a3, a4, a5, a6, ⟨m, a7, a8, -⟩, a9⟩ | h
  · exact .inl h
  · exact .inr (.inl ⟨a1, a2, a3, a4, a5, a6, ⟨modeName m, a7, a8⟩, a9⟩)
  · exact .inr (.inr h)

/-- **C158, partial.** On every file system whose files are shorter than 4 GiB, after every series of earlier requests, a request for
a file that may be read is answered by the compressed website callback as follows. If the client and the configuration agree on a
coding and files of this type are compressed: with a body and headers from which a client that undoes the codings named reads the
content of the file, the coding named is the one agreed on (none for an empty file), and the other headers are those of the file;
or with an error, if zlib fails. Otherwise: with a stream of the file, without coding. Whether the file was compressed before,
and for whom, makes no difference. Missing: files that change (`C158_stale_false`), directories (`C158_directory_false`), files of
4 GiB (`C158_long_false`), and the memory the copies take (`C158_growth_false`). -/
theorem C158_page_partial (Z : Zlib) (undo : Bytes → Bytes → Option Bytes) (hz : LosslessZlib Z undo) (d : Disk) (c : Site)
    (hsmall : SmallFiles Z d) {ms hs ds qs : List (Bytes × Option Bytes)} {url name content ct : Bytes}
    (hm : HoldsParams c.mime ms) (hfit : Fit ms) (hh : Headers c.headers hs) (hu : SiteUrl c.base.pfx url name)
    (hf : HasFile d c.base.root name content) (hct : MediaType ms name ct) {header H : UMap} (hq : HoldsParams header qs)
    (ha : Absent qs b!"Accept-Encoding" ∨ ∃ v, Single qs b!"Accept-Encoding" v) (hd : HoldsParams H ds)
    (hds : Absent ds b!"Content-Encoding") (hhs : Absent hs b!"Content-Encoding") {k : Caches} (hk : Visited Z d c k) (fs : Files) :
    ∃ ret r' k' fs' hs' body, website Z d c url header 0 { header := H } k fs = .ok (ret, r', k', fs') ∧
      HoldsResp r' hs' [] body ∧ withoutCoding hs' = putEach (Spec.OMap.put ds b!"Content-Type" (some ct)) hs ∧
      (ret = 0 ∧ r'.status = 200 ∧ codings hs' = [] ∧
          (∃ i, r'.stream = some (content.length, 0x4000, i) ∧ fs'[i]? = some (.file content)) ∧
          ((∀ cod, ¬ Wanted (c.gzip = true) (c.deflate = true) qs cod) ∨ ct ∉ c.types) ∨
        ret = 0 ∧ r'.status = 200 ∧ r'.stream = none ∧ r'.bodyLen = body.length ∧ readBody undo hs' body = some content ∧ fs' = fs ∧
          (∃ cod, Wanted (c.gzip = true) (c.deflate = true) qs cod ∧ codings hs' = if content = [] then [] else [cod]) ∧
          ct ∈ c.types ∨
        ret = 4 ∧ content ≠ [] ∧ ct ∈ c.types ∧ ∃ m, Wanted (c.gzip = true) (c.deflate = true) qs (modeName m) ∧
          (Z.init m = false ∨ ∃ n, Z.fails m content n = true)) :=
  page_fits Z undo hz d c hsmall hm hfit hh hu hf hct hq ha hd hds hhs (visited_fits hz hsmall hk) fs

/-- The callback as the dispatcher calls it; a call that is undefined is given up. -/
def siteCb (Z : Zlib) (d : Disk) (c : Site) (url : Bytes) (header : UMap) : Callback (Caches × Files) := fun pos w =>
  match website Z d c url header pos w.resp w.user.1 w.user.2 with
  | .ok (ret, r, k, fs) => (ret, { w with resp := r, user := (k, fs) })
  | .ub => (Dispatch.cbError, w)

/-- **C158, partial.** From server to client: when zlib does not fail and libmicrohttpd takes all headers, the answer queued for such a
request has status 200 and carries, as a buffer or as a stream that is read to its end, bytes from which a client that undoes the
codings named reads the content of the file. -/
theorem C158_arrives_partial (Z : Zlib) (undo : Bytes → Bytes → Option Bytes) (hz : LosslessZlib Z undo) (hrel : ReliableZlib Z) (d : Disk)
    (c : Site) (hsmall : SmallFiles Z d) {ms hs ds qs : List (Bytes × Option Bytes)} {url name content ct : Bytes}
    (hm : HoldsParams c.mime ms) (hfit : Fit ms) (hh : Headers c.headers hs) (hu : SiteUrl c.base.pfx url name)
    (hf : HasFile d c.base.root name content) (hct : MediaType ms name ct) {header : UMap} (hq : HoldsParams header qs)
    (ha : Absent qs b!"Accept-Encoding" ∨ ∃ v, Single qs b!"Accept-Encoding" v)
    (hds : Absent ds b!"Content-Encoding") (hhs : Absent hs b!"Content-Encoding") {k : Caches} (hk : Visited Z d c k) (fs : Files)
    (cfg : Cfg (Caches × Files)) (hd : Headers cfg.defaults ds) (dflt : Option (Callback (Caches × Files)))
    (ht : ∀ l, Takes cfg.accept [] l) :
    ∃ ans ev hs' body, dispatch cfg [siteCb Z d c url header] dflt (k, fs) = .ok (some ans, [ev]) ∧
      ans.fields = linesOf hs' [] ∧ readBody undo hs' body = some content ∧ Visited Z d c ev.after.user.1 ∧
      (ans.content = .buffer body ∨ ∃ i, ans.content = .stream (content.length, 0x4000, i) ∧
        ev.after.user.2[i]? = some (.file content) ∧
        ∀ out, Completes fileReader (some content.length) 0x4000 (.file content, 0) [] out ↔ out = body) ∧
      Arrives { ans with content := .buffer body } 200 ans.fields body := by
  obtain ⟨H, hH, hHds⟩ := headers_init hd
  obtain ⟨ret, r', k', fs', hs', body, h1, h2, h3, h4⟩ :=
    page_full Z undo hz d c hsmall hm hfit hh hu hf hct hq ha hHds hds hhs (visited_fits hz hsmall hk) fs
  have hcb : siteCb Z d c url header 0 ⟨{ header := H }, false, (k, fs)⟩ = (ret, ⟨r', false, (k', fs')⟩) := by
    simp only [siteCb, h1]
  have hv : Visited Z d c k' := .visit hk h1
  rcases h4 with ⟨a1, a2, a3, ⟨i, a4, a5⟩, -⟩ | ⟨a1, a2, a3, a4, a5, -⟩ | ⟨-, -, -, m, -, h⟩
  · refine ⟨_, _, hs', content, dispatch_stream cfg _ [] dflt (k, fs) hH hcb (by rw [a1]; decide) a4 (by show 0 < 16384; decide) h2 (ht _), rfl, ?_, hv,
      .inr ⟨i, rfl, a5, fun out => read_file _ _ (by decide) _⟩, ?_⟩
    · unfold readBody
      rw [a3]
      rfl
    · have := client_part { status := r'.status, realm := none, fields := linesOf hs' [], content := .buffer content } content rfl
      rw [← a2]
      exact this
  · refine ⟨_, _, hs', body, dispatch_single cfg _ dflt (k, fs) hH hcb (.inl a1) a3 rfl h2 (ht _), rfl, a5, hv, .inl rfl, ?_⟩
    have := client_part { status := r'.status, realm := none, fields := linesOf hs' [], content := .buffer body } body rfl
    rw [← a2]
    exact this
  · rcases h with h | ⟨n, h⟩
    · rw [(hrel m).1] at h; cases h
    · rw [(hrel m).2] at h; cases h

/-! ## A sample, and what is false -/

/-- No file can be opened under the name: no path leads to it, or it may not be read. -/
def NoFile (d : Disk) (root name : Bytes) : Prop :=
  d.real (root ++ b!"/" ++ name) = none ∨ ∃ p, d.real (root ++ b!"/" ++ name) = some p ∧ d.readable p = false

/-- **C158, partial.** Whatever requests came before, a request for a name under which no file can be opened leaves caches and files as they
were; without a configured location the callback leaves the response as it was to the callbacks behind it (and is not counted as an answer),
with one the client is told 302 and the location. -/
theorem C158_missing_partial (Z : Zlib) (undo : Bytes → Bytes → Option Bytes) (hz : LosslessZlib Z undo) (d : Disk) (c : Site)
    (hsmall : SmallFiles Z d) {ds qs : List (Bytes × Option Bytes)} {url name : Bytes} (hu : SiteUrl c.base.pfx url name)
    (hf : NoFile d c.base.root name) {header : UMap} (hq : HoldsParams header qs)
    (ha : Absent qs b!"Accept-Encoding" ∨ ∃ v, Single qs b!"Accept-Encoding" v) (hds : Absent ds b!"Content-Encoding")
    {k : Caches} (hk : Visited Z d c k) (fs : Files) :
    (c.base.redirect = none → ∀ H, HoldsParams H ds → website Z d c url header 0 { header := H } k fs = .ok (1, { header := H }, k, fs)) ∧
    (∀ l, c.base.redirect = some l → NoNul l → l.length + 2 < 2 ^ 64 → ∀ (cfg : Cfg (Caches × Files)) (dflt : Option (Callback (Caches × Files))),
      Headers cfg.defaults ds → Takes cfg.accept [] (linesOf (Spec.OMap.put ds b!"Location" (some l)) []) →
      ∃ ans ev, dispatch cfg [siteCb Z d c url header] dflt (k, fs) = .ok (some ans, [ev]) ∧ ev.after.user = (k, fs) ∧
        Arrives ans 302 (linesOf (Spec.OMap.put ds b!"Location" (some l)) []) []) := by
  have hopen : d.fopen (filePath c.base name) = none := by
    unfold Disk.fopen
    rcases hf with h | ⟨p, h1, h2⟩
    · have h : d.real (filePath c.base name) = none := h
      rw [h]
    · have h1 : d.real (filePath c.base name) = some p := h1
      rw [h1]
      simp only [h2, Bool.false_eq_true, if_false]
  have hfitk := visited_fits hz hsmall hk
  have key : ∀ H, HoldsParams H ds → website Z d c url header 0 { header := H } k fs = goneSite c.toConfig { header := H } k fs := by
    intro H hH
    obtain ⟨accept, o, a1, a2, -⟩ := site_mode (c := c) hq ha
    have hplain : plainFile d c.toConfig name { header := H } k fs = goneSite c.toConfig { header := H } k fs := by
      unfold plainFile
      simp only [hopen]
      split <;> rfl
    unfold website
    rw [if_neg (by decide), requested_site hu]
    simp only [Res.ok_bind, no_coding hH hds, Bool.false_eq_true, if_false, a1, a2]
    cases o with
    | none => exact hplain
    | some m =>
      obtain ⟨es, he, hg, hes⟩ := hfitk m
      simp only
      rw [he, hasKey_rep]
      simp only [Res.ok_bind]
      have hno : (es.any fun e => e.key == name) = false := by
        rw [Bool.eq_false_iff]
        intro h
        obtain ⟨e, h1, h2⟩ := List.any_eq_true.1 h
        obtain ⟨content, ct, -, h3, -⟩ := hes e h1
        rw [eq_of_beq h2, hopen] at h3
        cases h3
      rw [hno, Bool.and_false, if_neg (by decide)]
      unfold loadFile
      simp only [hopen]
      split <;> rfl
  refine ⟨fun hn H hH => ?_, fun l hl hnl hlen cfg dflt hd ht => ?_⟩
  · rw [key H hH]
    unfold goneSite
    rw [hn]
    rfl
  · obtain ⟨H, hH, hHds⟩ := headers_init hd
    obtain ⟨H', e1, e2⟩ := holds_put hHds b!"Location" (some l) (by decide) (by decide) (fun x hx => by cases hx; exact ⟨hnl, hlen⟩)
    have hcb : siteCb Z d c url header 0 ⟨{ header := H }, false, (k, fs)⟩ = (0, ⟨{ header := H', status := 302 }, false, (k, fs)⟩) := by
      simp only [siteCb, key H hHds, goneSite, hl, e1, Res.ok_bind, Res.pure_eq, Dispatch.cbContinue]
    exact ⟨_, _, dispatch_single cfg _ dflt (k, fs) hH hcb (.inl rfl) rfl rfl ⟨e2, rfl, rfl, by intro b hb; cases hb⟩ ht, rfl, client_part _ _ rfl⟩

/-- A file system with one page, `/srv/www/p.html`. -/
def pageDisk (n : Node) : Disk where
  real p := if p = b!"/srv/www/p.html" then some p else none
  node r := if r = b!"/srv/www/p.html" then some n else none
  readable _ := true

def zipSite : Site := { sampleSite with types := [b!"text/html"] }

/-- The headers of a client that accepts gzip. -/
def gzipClient : UMap := match UMap.put UMap.init (some b!"Accept-Encoding") (some b!"gzip") with
  | .ok (_, m) => m
  | .ub => UMap.init

/-- The body a request leaves, and the number of compressed copies. -/
def seen : Res Out → Option (Option Bytes × Nat)
  | .ok (_, r, k, _) => some (r.body, k.gzip.nb)
  | .ub => none

/-- The stream a request leaves, and the open files. -/
def streamed : Res Out → Option (Option (Nat × Nat × Nat) × Files)
  | .ok (_, r, _, fs) => some (r.stream, fs)
  | .ub => none

/-- The caches a request leaves. -/
def left : Res Out → Caches
  | .ok (_, _, k, _) => k
  | .ub => {}

theorem gzipClient_holds : HoldsParams gzipClient [(b!"Accept-Encoding", some b!"gzip")] := by
  obtain ⟨m1, e1, h1⟩ := holds_put holds_init b!"Accept-Encoding" (some b!"gzip") (by decide) (by decide)
    (by intro x hx; cases hx; exact ⟨by decide, by decide⟩)
  simp only [gzipClient, e1]
  exact h1

theorem gzipClient_wants : Wanted True True [(b!"Accept-Encoding", some b!"gzip")] b!"gzip" :=
  .inl ⟨rfl, trivial, b!"gzip", [b!"gzip"], ⟨[], _, [], rfl, rfl, rfl, by simp⟩, (Handshake.items_iff _ _).2 (by decide), by decide⟩

theorem zipSite_types : HoldsParams zipSite.mime [(b!".html", some b!"text/html"), (b!"*", some b!"application/octet-stream")] ∧
    Fit [(b!".html", some b!"text/html"), (b!"*", some b!"application/octet-stream")] := by
  constructor
  · obtain ⟨m1, e1, h1⟩ := holds_put holds_init b!".html" (some b!"text/html") (by decide) (by decide)
      (by intro x hx; cases hx; exact ⟨by decide, by decide⟩)
    obtain ⟨m2, e2, h2⟩ := holds_put h1 b!"*" (some b!"application/octet-stream") (by decide) (by decide)
      (by intro x hx; cases hx; exact ⟨by decide, by decide⟩)
    simp only [zipSite, sampleSite, e1, e2]
    exact h2
  · intro p hp v hv
    simp at hp
    rcases hp with rfl | rfl <;> cases hv <;> decide

example : SmallFiles toyZlib (pageDisk (.file b!"<p>")) ∧ SiteUrl none b!"/p.html?x=1" b!"p.html" ∧
    HasFile (pageDisk (.file b!"<p>")) b!"/srv/www" b!"p.html" b!"<p>" ∧
    MediaType [(b!".html", some b!"text/html"), (b!"*", some b!"application/octet-stream")] b!"p.html" b!"text/html" ∧
    Headers zipSite.headers [] ∧ b!"text/html" ∈ zipSite.types ∧
    Visited toyZlib (pageDisk (.file b!"<p>")) zipSite
      (left (website toyZlib (pageDisk (.file b!"<p>")) zipSite b!"/p.html" gzipClient 0 {} {} [])) := by
  refine ⟨?_, ⟨b!"?x=1", by decide, by decide, by decide, by decide, .inr ⟨b!"x=1", .inl rfl⟩, rfl⟩,
    ⟨b!"/p.html", by decide, by decide, by decide⟩, ⟨b!".html", .inl ⟨b!"p", b!"html", rfl, by decide, by decide, rfl⟩,
      .inl ⟨b!".html", by decide, rfl, by decide⟩⟩, .inl ⟨rfl, rfl⟩, by decide, ?_⟩
  · intro path content h
    simp only [Disk.fopen, pageDisk] at h
    split at h
    · cases h
    · rename_i r hr
      rw [if_pos trivial] at h
      split at h
      · cases h
        exact ⟨by decide, fun m => by cases m <;> decide⟩
      · cases h
  · cases h : website toyZlib (pageDisk (.file b!"<p>")) zipSite b!"/p.html" gzipClient 0 {} {} [] with
    | ub => exact .start
    | ok x => exact .visit .start h

/-- The page is compressed at the first request and taken from the cache at the second. -/
example : seen (website toyZlib (pageDisk (.file b!"<p>")) zipSite b!"/p.html" gzipClient 0 {} {} []) = some (some (0x1f :: b!"<p>"), 1) ∧
    seen (website toyZlib (pageDisk (.file b!"<p>")) zipSite b!"/p.html?x=1" gzipClient 0 {}
      (left (website toyZlib (pageDisk (.file b!"<p>")) zipSite b!"/p.html" gzipClient 0 {} {} [])) []) =
      some (some (0x1f :: b!"<p>"), 1) := by decide +kernel

example : SiteUrl none b!"/no.html" b!"no.html" ∧ NoFile sampleDisk b!"/srv/www" b!"no.html" ∧ NoFile sampleDisk b!"/srv/www" b!"key.pem" :=
  ⟨⟨[], by decide, by decide, by decide, by decide, .inl rfl, rfl⟩, .inl (by decide), .inr ⟨b!"/srv/www/key.pem", by decide, by decide⟩⟩

/-- **C158 is false of the code** for files that change: the page `<p>` is asked for once and then replaced by `<new>`. Clients that
accept gzip get the old page for ever, the others the new one. -/
theorem C158_stale_false :
    seen (website toyZlib (pageDisk (.file b!"<new>")) zipSite b!"/p.html" gzipClient 0 {}
      (left (website toyZlib (pageDisk (.file b!"<p>")) zipSite b!"/p.html" gzipClient 0 {} {} [])) []) = some (some (0x1f :: b!"<p>"), 1) ∧
    toyUndo b!"gzip" (0x1f :: b!"<p>") = some b!"<p>" ∧
    streamed (website toyZlib (pageDisk (.file b!"<new>")) zipSite b!"/p.html" UMap.init 0 {}
      (left (website toyZlib (pageDisk (.file b!"<p>")) zipSite b!"/p.html" gzipClient 0 {} {} [])) []) =
      some (some (5, 0x4000, 0), [.file b!"<new>"]) := by decide +kernel

/-- **C158 is false of the code** when the name is that of a directory for which `ftell` reports a size (which depends on the file
system): the block of this size is compressed and sent without anything having been read into it. -/
theorem C158_directory_false :
    seen (website toyZlib (pageDisk (.dir 40)) zipSite b!"/p.html" gzipClient 0 {} {} []) = none := by decide +kernel

/-- The spellings of one name. -/
inductive Spelling : Bytes → Prop
  | base : Spelling b!"p.html"
  | dot {x} : Spelling x → Spelling (b!"./" ++ x)
  | slash {x} : Spelling x → Spelling (b!".//" ++ x)

open Classical in
/-- A file system with one page and its spellings. -/
noncomputable def onePage : Disk where
  real p := if ∃ x, Spelling x ∧ p = b!"/srv/www/" ++ x then some b!"/srv/www/p.html" else none
  node r := if r = b!"/srv/www/p.html" then some (.file b!"<p>") else none
  readable _ := true

private theorem spelling_fine {x : Bytes} (h : Spelling x) : x ≠ [] ∧ x.head? ≠ some 0x2f ∧ 0x23 ∉ x ∧ 0x3f ∉ x ∧
    ∃ a, a ≠ [] ∧ x = a ++ b!".html" := by
  induction h with
  | base => exact ⟨by decide, by decide, by decide, by decide, b!"p", by decide, rfl⟩
  | dot _ ih =>
    obtain ⟨_, _, h1, h2, a, _, rfl⟩ := ih
    refine ⟨by simp, by simp, by simp at h1 ⊢; exact h1, by simp at h2 ⊢; exact h2, b!"./" ++ a, by simp, by simp⟩
  | slash _ ih =>
    obtain ⟨_, _, h1, h2, a, _, rfl⟩ := ih
    refine ⟨by simp, by simp, by simp at h1 ⊢; exact h1, by simp at h2 ⊢; exact h2, b!".//" ++ a, by simp, by simp⟩

private theorem onePage_file {x : Bytes} (h : Spelling x) : HasFile onePage b!"/srv/www" x b!"<p>" := by
  refine ⟨b!"/p.html", ?_, rfl, rfl⟩
  have : ∃ y, Spelling y ∧ b!"/srv/www" ++ b!"/" ++ x = b!"/srv/www/" ++ y := ⟨x, h, rfl⟩
  simp only [onePage]
  rw [if_pos this]
  rfl

private theorem onePage_small (Z : Zlib) (hs : ∀ m, (Z.all m b!"<p>").length + 1 < 2 ^ 64) : SmallFiles Z onePage := by
  intro path content h
  simp only [Disk.fopen, onePage] at h
  split at h
  · cases h
  · rw [if_pos trivial] at h
    split at h
    · cases h
      exact ⟨by decide, hs⟩
    · cases h

/-- **C158 is false of the code** as far as memory is concerned: there is one page, and for every list of spellings of its name there
are requests that leave one compressed copy for each. There are `2 ^ n` spellings of length at most `3 * n + 6`, and nothing is ever
removed. -/
theorem C158_growth_false (Z : Zlib) (undo : Bytes → Bytes → Option Bytes) (hz : LosslessZlib Z undo) (hrel : ReliableZlib Z)
    (hs : ∀ m, (Z.all m b!"<p>").length + 1 < 2 ^ 64) :
    (∀ names : List Bytes, names.Nodup → (∀ x ∈ names, Spelling x) →
      ∃ k, Visited Z onePage zipSite k ∧ k.gzip.nb = names.length) ∧
    (∀ n, ∃ names : List Bytes, names.Nodup ∧ (∀ x ∈ names, Spelling x ∧ x.length ≤ 3 * n + 6) ∧ names.length = 2 ^ n) ∧
    (∀ path r, onePage.real path = some r → r = b!"/srv/www/p.html") := by
  refine ⟨?_, ?_, ?_⟩
  · intro names hnd hsp
    have key : ∃ k, Visited Z onePage zipSite k ∧ k.gzip.nb = names.length ∧
        ∀ x, x ∉ names → UMap.hasKey k.gzip (some x) = .ok false := by
      induction names with
      | nil => exact ⟨{}, .start, rfl, fun x _ => by show UMap.hasKey (rep []) (some x) = _; rw [hasKey_rep]; rfl⟩
      | cons y t ih =>
        obtain ⟨hy, ht⟩ := List.nodup_cons.1 hnd
        obtain ⟨k, k1, k2, k3⟩ := ih ht (fun x hx => hsp x (by simp [hx]))
        obtain ⟨n1, n2, n3, n4, a, ha, hya⟩ := spelling_fine (hsp y (by simp))
        obtain ⟨z1, z2⟩ := zipSite_types
        have hwant : Wanted (zipSite.gzip = true) (zipSite.deflate = true) [(b!"Accept-Encoding", some b!"gzip")] b!"gzip" := by
          have e : (zipSite.gzip = true) = True := by simp [zipSite]
          have e' : (zipSite.deflate = true) = True := by simp [zipSite]
          rw [e, e']
          exact gzipClient_wants
        obtain ⟨ret, r', k', fs', hs', body, h1, -, -, h4⟩ := page_full Z undo hz onePage zipSite (onePage_small Z hs) z1 z2
          (.inl ⟨rfl, rfl⟩) (url := b!"/" ++ y) (name := y) ⟨[], n1, n2, n3, n4, .inl rfl, by simp [zipSite, sampleSite]⟩
          (onePage_file (hsp y (by simp)))
          (ct := b!"text/html") ⟨b!".html", .inl ⟨a, b!"html", hya, ha, by decide, rfl⟩, .inl ⟨b!".html", by decide, rfl, by decide⟩⟩
          gzipClient_holds (.inr ⟨b!"gzip", [], _, [], rfl, rfl, rfl, by simp⟩) holds_init (by simp [Absent]) (by simp [Absent]) (visited_fits hz (onePage_small Z hs) k1) []
        rcases h4 with ⟨-, -, -, -, h | h⟩ | ⟨-, -, -, -, -, -, ⟨m, a7, -, g1, g2, g3⟩, -⟩ | ⟨-, -, -, m, -, h⟩
        · exact absurd hwant (h _)
        · exact absurd (by decide) h
        · have hm : m = .gzip := by
            rcases a7 with ⟨h, -⟩ | ⟨-, -, -, h⟩
            · cases m
              · rfl
              · cases h
            · rcases hwant with ⟨-, hh⟩ | ⟨hh, -⟩
              · exact absurd hh h
              · cases hh
          subst hm
          refine ⟨k', .visit k1 h1, ?_, ?_⟩
          · have := g3 rfl (by decide) (k3 y hy)
            show (k'.of .gzip).nb = _
            rw [this]
            show k.gzip.nb + 1 = _
            rw [k2]
            rfl
          · intro x hx
            have hx' : x ≠ y ∧ x ∉ t := by simpa using hx
            show UMap.hasKey (k'.of .gzip) (some x) = _
            rw [g2 x hx'.1]
            exact k3 x hx'.2
        · rcases h with h | ⟨n, h⟩
          · rw [(hrel m).1] at h; cases h
          · rw [(hrel m).2] at h; cases h
    obtain ⟨k, k1, k2, -⟩ := key
    exact ⟨k, k1, k2⟩
  · intro n
    induction n with
    | zero => exact ⟨[b!"p.html"], by simp, by intro x hx; simp at hx; subst hx; exact ⟨.base, by decide⟩, rfl⟩
    | succ n ih =>
      obtain ⟨names, h1, h2, h3⟩ := ih
      refine ⟨names.map (b!"./" ++ ·) ++ names.map (b!".//" ++ ·), ?_, ?_, ?_⟩
      · rw [List.nodup_append]
        refine ⟨?_, ?_, ?_⟩
        · exact List.Pairwise.map _ (fun a b hab h => hab (List.append_cancel_left h)) h1
        · exact List.Pairwise.map _ (fun a b hab h => hab (List.append_cancel_left h)) h1
        · intro x hx y hy hxy
          obtain ⟨a, ha, rfl⟩ := List.mem_map.1 hx
          obtain ⟨b, hb, rfl⟩ := List.mem_map.1 hy
          have := (spelling_fine (h2 a ha).1).2.1
          simp at hxy
          rw [hxy] at this
          exact this rfl
      · intro x hx
        rcases List.mem_append.1 hx with hx | hx
        · obtain ⟨a, ha, rfl⟩ := List.mem_map.1 hx
          exact ⟨.dot (h2 a ha).1, by have := (h2 a ha).2; simp; omega⟩
        · obtain ⟨a, ha, rfl⟩ := List.mem_map.1 hx
          exact ⟨.slash (h2 a ha).1, by have := (h2 a ha).2; simp; omega⟩
      · simp [h3, Nat.pow_succ]
        omega
  · intro path r h
    simp only [onePage] at h
    split at h
    · injection h with h
      exact h.symm
    · cases h

/-- **C158 is false of the code** for files of 4 GiB: the length is cast to 32 bits, and a client reads an empty page. -/
theorem C158_long_false (Z : Zlib) (undo : Bytes → Bytes → Option Bytes) (hz : LosslessZlib Z undo) (hrel : ReliableZlib Z)
    (content : Bytes) (hl : content.length = 2 ^ 32) :
    ∃ ret r' k' fs', website Z (pageDisk (.file content)) { zipSite with caching := false } b!"/p.html" gzipClient 0 {} {} [] =
        .ok (ret, r', k', fs') ∧ r'.status = 200 ∧
      ∃ hs' body, HoldsResp r' hs' [] body ∧ codings hs' = [b!"gzip"] ∧ readBody undo hs' body = some [] := by
  have hu : SiteUrl none b!"/p.html" b!"p.html" := ⟨[], by decide, by decide, by decide, by decide, .inl rfl, rfl⟩
  have hf : HasFile (pageDisk (.file content)) b!"/srv/www" b!"p.html" content := ⟨b!"/p.html", rfl, rfl, rfl⟩
  have hct : MediaType [(b!".html", some b!"text/html"), (b!"*", some b!"application/octet-stream")] b!"p.html" b!"text/html" :=
    ⟨b!".html", .inl ⟨b!"p", b!"html", rfl, by decide, by decide, rfl⟩, .inl ⟨b!".html", by decide, rfl, by decide⟩⟩
  obtain ⟨z1, z2⟩ := zipSite_types
  obtain ⟨f1, f2, f3⟩ := fopen_file (c := zipSite.base) hf
  obtain ⟨tb, t1, t2⟩ := type_found z1 (by decide) hct
  have hpk : packs { zipSite with caching := false } (some tb) = .ok true := by
    simp only [packs, t2, Res.ok_bind]
    rfl
  obtain ⟨H', e1, e2⟩ := file_headers (c := zipSite.toConfig) z1 (.inl ⟨rfl, rfl⟩) (holds_init) (by decide) hct z2
  have hreq : requested false zipSite.base b!"/p.html" = .ok b!"p.html" := requested_site hu
  obtain ⟨accept, o, a1, a2, a3⟩ := site_mode (c := { zipSite with caching := false }) gzipClient_holds
    (.inr ⟨b!"gzip", [], _, [], rfl, rfl, rfl, by simp⟩)
  have ho : o = some .gzip := by
    have hg : Accepts [(b!"Accept-Encoding", some b!"gzip")] b!"gzip" := by
      rcases gzipClient_wants with ⟨-, -, h⟩ | ⟨h, -⟩
      · exact h
      · cases h
    cases o with
    | none => exact absurd (.inl ⟨rfl, rfl, hg⟩) (a3 b!"gzip")
    | some m =>
      cases m with
      | gzip => rfl
      | deflate =>
        rcases a3 with ⟨h, -⟩ | ⟨-, -, -, h⟩
        · cases h
        · exact absurd ⟨rfl, hg⟩ h
  subst ho
  have hce : UMap.hasKeyCase UMap.init (some b!"Content-Encoding") = .ok false := no_coding holds_init (by simp [Absent])
  have hhk : UMap.hasKey UMap.init (some b!"p.html") = .ok false := by rw [init_eq, hasKey_rep]; rfl
  have h0 : ¬ told (.file content) = 0 := by simp only [told, hl]; decide
  have hw : Compress.w32 content.length = 0 := by rw [hl]; rfl
  have habs : Absent (putEach (Spec.OMap.put [] b!"Content-Type" (some b!"text/html")) []) b!"Content-Encoding" := by
    intro q hq
    have : q = (b!"Content-Type", some b!"text/html") := by simpa [putEach, Spec.OMap.put] using hq
    subst this
    unfold sameName
    decide
  obtain ⟨H1, p1, p2⟩ := holds_put e2 b!"Content-Encoding" (some b!"gzip") (by decide) (by decide)
    (by intro x hx; cases hx; exact ⟨by decide, by decide⟩)
  have hzl : (Z.all .gzip []).length ≠ 0 := by simpa using (hz .gzip []).2
  have hlp : Compress.loop (Z.fails .gzip []) 0 (Z.all .gzip []) [] = some (Z.all .gzip []) := by
    rcases zip_loop (Z.fails .gzip []) _ 0 (Z.all .gzip []) [] rfl with h | ⟨-, n, h⟩
    · simpa using h
    · rw [(hrel .gzip).2] at h
      cases h
  have c1 := coding_put habs b!"gzip"
  have hrun : website Z (pageDisk (.file content)) { zipSite with caching := false } b!"/p.html" gzipClient 0 {} {} [] =
      .ok (0, { header := H1, body := some (Z.all .gzip []), bodyLen := (Z.all .gzip []).length, status := 200 }, {}, []) := by
    unfold website
    rw [if_neg (by decide), hreq]
    simp only [Res.ok_bind, hce, Bool.false_eq_true, if_false, a1, a2, Bool.false_and, Caches.of, hhk]
    unfold loadFile
    simp only [f1, if_true, f3, t1, Res.ok_bind, hpk]
    unfold packFile
    simp only [e1, Res.ok_bind, if_neg h0, (hrel .gzip).1, if_true, zipInput, hw, List.take_zero, hlp, Bool.false_eq_true, if_false,
      setBinaryBody, if_neg hzl, Nat.le_refl, List.take_length, Res.pure_eq, modeName, p1, Dispatch.cbContinue]
  refine ⟨_, _, _, _, hrun, rfl, _, Z.all .gzip [], ⟨p2, rfl, by simp [bodyOf], by simp⟩, c1.2, ?_⟩
  unfold readBody
  rw [c1.2]
  have := (hz .gzip []).1
  simp only [modeName] at this
  simp [this]

end Verif.Props
