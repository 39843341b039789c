import Verif.Model.StaticFile
import Verif.Spec.Path
import Verif.Lemmas.Segments
/-! # C65, C89, C90: the static file callbacks -/
namespace Verif.Props
open Verif.StaticFile Verif.Spec.Path Verif.Spec.Segments Verif.Strtok

/-- A file system without links: a path leads where its names say. -/
def LinkFree (fs : Fs) : Prop := ∀ p r, fs.real p = some r → r = render (resolve p)

private theorem segs_name {n : Bytes} (h : Name n) : segments n = [n] := fields_none _ _ h.2.1 h.1

private theorem render_cons (n : Bytes) (ns : List Bytes) (h : ns ≠ []) : render (n :: ns) = 0x2f :: n ++ render ns := by
  cases ns with
  | nil => exact absurd rfl h
  | cons m ms => rfl

private theorem segs_render : ∀ ns : List Bytes, (∀ n ∈ ns, Name n) → segments (render ns) = ns := by
  intro ns
  induction ns with
  | nil => intro _; decide +kernel
  | cons n ns ih =>
    intro h
    have hn : Name n := h n (by simp)
    by_cases he : ns = []
    · subst he
      show fields _ _ = _
      rw [show render [n] = 0x2f :: n from rfl, fields_cons_sep]
      exact segs_name hn
    · rw [render_cons n ns he]
      have ih := ih (fun m hm => h m (by simp [hm]))
      have : ∃ t, render ns = 0x2f :: t := by
        cases ns with
        | nil => exact absurd rfl he
        | cons m ms => cases ms <;> exact ⟨_, rfl⟩
      obtain ⟨t, ht⟩ := this
      show fields _ _ = _
      have ih : fields 0x2f (render ns) = ns := ih
      rw [ht, fields_cons_sep] at ih
      rw [ht, List.cons_append, fields_cons_sep, fields_append, ih]
      show segments n ++ ns = _
      rw [segs_name hn]; rfl

private theorem walk_names (ns : List Bytes) (h : ∀ n ∈ ns, Name n) (at_ : List Bytes) : ns.foldl walk at_ = at_ ++ ns := by
  induction ns generalizing at_ with
  | nil => simp
  | cons n ns ih =>
    have hn := h n (by simp)
    rw [List.foldl_cons, ih (fun m hm => h m (by simp [hm]))]
    simp [walk, hn.2.2.1, hn.2.2.2]

private theorem walk_down (ns : List Bytes) (h : b!".." ∉ ns) (at_ : List Bytes) : ∃ more, ns.foldl walk at_ = at_ ++ more := by
  induction ns generalizing at_ with
  | nil => exact ⟨[], by simp⟩
  | cons n ns ih =>
    obtain ⟨more, hm⟩ := ih (fun hh => h (by simp [hh])) (walk at_ n)
    rw [List.foldl_cons, hm]
    by_cases h1 : n = b!"."
    · exact ⟨more, by simp [walk, h1]⟩
    · have h2 : n ≠ b!".." := fun e => h (by simp [e])
      exact ⟨n :: more, by simp [walk, h1, h2]⟩

private theorem resolve_root {ns : List Bytes} (h : ∀ n ∈ ns, Name n) (name : Bytes) :
    resolve (render ns ++ b!"/" ++ name) = (segments name).foldl walk ns := by
  have : segments (render ns ++ b!"/" ++ name) = ns ++ segments name := by
    show fields _ _ = _
    have e : render ns ++ b!"/" ++ name = render ns ++ 0x2f :: name := by simp
    rw [e, fields_append]
    show segments (render ns) ++ _ = _
    rw [segs_render ns h]; rfl
  rw [resolve, this, List.foldl_append, walk_names ns h]
  simp

private theorem cutAt_none {q : UInt8} {s : Bytes} (h : q ∉ s) : cutAt q s = s := by
  induction s with
  | nil => rfl
  | cons a s ih =>
    have ha : a ≠ q := fun e => h (by simp [e])
    have : cutAt q (a :: s) = a :: cutAt q s := by simp [cutAt, ha]
    rw [this, ih (fun hh => h (by simp [hh]))]

private theorem serve_file {fs : Fs} {c : Config} {url r : Bytes} (h : serve fs c url = .ok (.file r)) :
    ∃ name, requested true c url = .ok name ∧ fs.real (filePath c name) = some r ∧ fs.opens (filePath c name) = true ∧
      r.take c.root.length = c.root := by
  simp only [serve] at h
  cases hq : requested true c url with
  | ub => rw [hq, Res.ub_bind] at h; cases h
  | ok name =>
    rw [hq, Res.ok_bind] at h
    refine ⟨name, rfl, ?_⟩
    have hm : missing c ≠ .file r := by unfold missing; cases c.redirect <;> simp
    split at h
    · rename_i hw
      cases hr : fs.real (filePath c name) with
      | none => rw [hr] at h; simp only [Res.ok.injEq] at h; exact absurd h hm
      | some q =>
        rw [hr] at h hw
        simp only [Res.ok.injEq] at h
        split at h
        · rename_i ho
          injection h with h
          subst h
          exact ⟨rfl, ho, by simpa [within] using hw⟩
        · exact absurd h hm
    · simp only [Res.ok.injEq] at h; exact absurd h hm

/-! ## C65 -/

/-- **C65** (partial: the configured directory must end with a slash). On every file system, with links or without, the canonical
path of a file that is served begins with the configured directory. Without a slash at the end this allows siblings of the
directory. -/
theorem C65_prefix_partial {fs : Fs} {c : Config} {url r : Bytes} (h : serve fs c url = .ok (.file r)) :
    ∃ rest, r = c.root ++ rest := by
  obtain ⟨name, _, _, _, ht⟩ := serve_file h
  exact ⟨r.drop c.root.length, by conv => lhs; rw [← List.take_append_drop c.root.length r, ht]⟩

/-- **C65** (partial: a file system without links, and a name without `..`). The file that is served is in the directory. -/
theorem C65_down_partial {fs : Fs} (hf : LinkFree fs) {c : Config} {ns : List Bytes} (hn : ∀ n ∈ ns, Name n)
    (hc : c.root = render ns) {url r name : Bytes} (hq : requested true c url = .ok name) (hd : b!".." ∉ segments name)
    (h : serve fs c url = .ok (.file r)) : ∃ rs, r = render rs ∧ Inside ns rs := by
  obtain ⟨name', hq', hr, _, _⟩ := serve_file h
  rw [hq] at hq'
  injection hq' with hq'
  subst hq'
  refine ⟨_, hf _ _ hr, ?_⟩
  rw [filePath, hc, resolve_root hn]
  exact walk_down _ hd _

/-- **C65**. A file of the directory is served under its name. -/
theorem C65_serves {fs : Fs} {ns more : List Bytes} (hne : ns ≠ []) (hm : more ≠ []) (hns : ∀ n ∈ ns, Name n)
    (hmore : ∀ n ∈ more, Name n ∧ 0x23 ∉ n ∧ 0x3f ∉ n) (c : Config) (hc : c.root = render ns) (hp : c.pfx = none)
    (hr : fs.real (c.root ++ render more) = some (render (ns ++ more))) (ho : fs.opens (c.root ++ render more) = true) :
    serve fs c (render more) = .ok (.file (render (ns ++ more))) := by
  have happ : ∀ a : List Bytes, a ≠ [] → render (a ++ more) = render a ++ render more := by
    intro a
    induction a with
    | nil => intro h; exact absurd rfl h
    | cons n a ih =>
      intro _
      by_cases ha : a = []
      · subst ha
        show render (n :: more) = _
        rw [render_cons n more hm]; rfl
      · rw [List.cons_append, render_cons n _ (by simp [ha]), render_cons n a ha, ih ha]
        simp
  obtain ⟨m, ms, rfl⟩ : ∃ m ms, more = m :: ms := by
    cases more with
    | nil => exact absurd rfl hm
    | cons m ms => exact ⟨m, ms, rfl⟩
  obtain ⟨t, ht, htm⟩ : ∃ t, render (m :: ms) = 0x2f :: t ∧ ∃ u, t = m ++ u := by
    cases ms with
    | nil => exact ⟨m, rfl, [], by simp⟩
    | cons x xs => exact ⟨m ++ render (x :: xs), rfl, _, rfl⟩
  have hmem : ∀ (q : UInt8) (l : List Bytes), q ≠ 0x2f → (∀ n ∈ l, q ∉ n) → q ∉ render l := by
    intro q l hq
    induction l with
    | nil => intro _; simp [render]; exact hq
    | cons n l ih =>
      intro h
      have h1 := h n (by simp)
      by_cases hl : l = []
      · subst hl; simp [render, hq, h1]
      · rw [render_cons n l hl]
        simp [hq, h1, ih (fun x hx => h x (by simp [hx]))]
  have h23 : (0x23 : UInt8) ∉ t := fun h => hmem 0x23 (m :: ms) (by decide) (fun n hn => (hmore n hn).2.1) (by rw [ht]; simp [h])
  have h3f : (0x3f : UInt8) ∉ t := fun h => hmem 0x3f (m :: ms) (by decide) (fun n hn => (hmore n hn).2.2) (by rw [ht]; simp [h])
  obtain ⟨u, hu⟩ := htm
  have hm0 := (hmore m (by simp)).1
  obtain ⟨b, m', hb⟩ : ∃ b m', m = b :: m' := by
    cases m with
    | nil => exact absurd rfl hm0.1
    | cons b m' => exact ⟨b, m', rfl⟩
  have hb2 : b ≠ 0x2f := fun e => hm0.2.1 (by rw [hb, e]; simp)
  have hskip : skipSlashes t = t := by
    rw [hu, hb]; simp [skipSlashes, hb2]
  have hskip' : skipSlashes (0x2f :: t) = t := by
    have : skipSlashes (0x2f :: t) = skipSlashes t := by simp [skipSlashes]
    rw [this, hskip]
  have hcut : ∀ q : UInt8, q ∉ t → cutAt q t = t := by
    intro q hq
    exact cutAt_none hq
  have hreq : requested true c (render (m :: ms)) = .ok t := by
    rw [ht]
    simp only [requested, hp, hskip', if_true, Option.getD_none, List.length_nil, advance, Nat.zero_le, List.drop_zero,
      Res.ok_bind, hskip, hcut _ h23, hcut _ h3f]
    rw [if_neg]
    rw [hu, hb]
    simp [hb2]
  have hpath : filePath c t = c.root ++ render (m :: ms) := by rw [ht]; simp [filePath]
  simp only [serve, hreq, Res.ok_bind, hpath, hr, ho, within]
  rw [if_pos]
  · rfl
  · rw [hc, happ ns hne]; simp

/-- A file system without links that holds the two files `/srv/www/a.html` and `/srv/www-old/b.html`. -/
def twoSites : Fs where
  real p := if resolve p ∈ [[b!"srv", b!"www", b!"a.html"], [b!"srv", b!"www-old", b!"b.html"]] then some (render (resolve p))
    else none
  opens p := resolve p ∈ [[b!"srv", b!"www", b!"a.html"], [b!"srv", b!"www-old", b!"b.html"]]

example : LinkFree twoSites := by
  intro p r h
  simp only [twoSites] at h
  split at h
  · injection h with h; exact h.symm
  · cases h
example : serve twoSites { root := b!"/srv/www" } b!"/a.html?x=1" = .ok (.file b!"/srv/www/a.html") := by decide +kernel
example : serve twoSites { root := b!"/srv/www/" } b!"/../www-old/b.html" = .ok .notFound := by decide +kernel
example : requested true { root := b!"/srv/www" } b!"/a.html?x=1" = .ok b!"a.html" ∧ b!".." ∉ segments b!"a.html" ∧
    b!"/srv/www" = render [b!"srv", b!"www"] := by decide +kernel

/-- **C65** is false: without a slash at the end of the configured directory, as `realpath` gives it in the example programs, the
files of a sibling directory whose name begins with the name of the directory are served. -/
theorem C65_sibling_false : serve twoSites { root := b!"/srv/www" } b!"/../www-old/b.html" = .ok (.file b!"/srv/www-old/b.html") ∧
    ¬ Inside [b!"srv", b!"www"] [b!"srv", b!"www-old", b!"b.html"] := by
  refine ⟨by decide +kernel, ?_⟩
  rintro ⟨more, h⟩
  simp at h

/-- What is held in the caches was served from the configured directory. -/
def CacheFine (c : Config) (k : Cache) : Prop := ∀ p ∈ k.gzip ++ k.deflate, ∃ rest, p.2 = c.root ++ rest

private theorem lookup_mem {l : List (Bytes × Bytes)} {n r : Bytes} (h : l.lookup n = some r) : (n, r) ∈ l := by
  induction l with
  | nil => simp at h
  | cons p l ih =>
    obtain ⟨a, b⟩ := p
    simp only [List.lookup_cons] at h
    split at h
    · rename_i he
      injection h with h
      have : n = a := by simpa using he
      subst this h; simp
    · simp [ih h]

/-- **C65** (partial, as `C65_prefix_partial`). The compressed variant: from caches that are fine, every file that is served begins
with the configured directory, and the caches stay fine. Started with empty caches, all files ever served do. -/
theorem C65_cache_partial {fs : Fs} {c : Config} {caching : Bool} {mode : Mode} {packs : Bytes → Bool} {k k' : Cache}
    {url : Bytes} {a : Ans} (hk : CacheFine c k) (h : serveCompressed fs c caching mode packs k url = .ok (a, k')) :
    CacheFine c k' ∧ ∀ r, a = .file r → ∃ rest, r = c.root ++ rest := by
  simp only [serveCompressed] at h
  cases hq : requested false c url with
  | ub => rw [hq, Res.ub_bind] at h; cases h
  | ok name =>
    rw [hq, Res.ok_bind] at h
    split at h
    · rename_i r hl
      simp only [Res.ok.injEq, Prod.mk.injEq] at h
      obtain ⟨rfl, rfl⟩ := h
      refine ⟨hk, fun r' e => ?_⟩
      injection e with e
      subst e
      cases mode with
      | none => cases hl
      | gzip =>
        cases caching with
        | false => cases hl
        | true => exact hk (name, r) (by simp [lookup_mem (show k.gzip.lookup name = some r from hl)])
      | deflate =>
        cases caching with
        | false => cases hl
        | true => exact hk (name, r) (by simp [lookup_mem (show k.deflate.lookup name = some r from hl)])
    · have hgone : ∀ r, (match c.redirect with | none => Ans.empty | some l => Ans.redirect l) ≠ .file r := by
        intro r; cases c.redirect <;> simp
      split at h
      · rename_i hw
        rw [Bool.and_eq_true] at hw
        cases hr : fs.real (filePath c name) with
        | none =>
          rw [hr] at h
          simp only [Res.ok.injEq, Prod.mk.injEq] at h
          obtain ⟨rfl, rfl⟩ := h
          exact ⟨hk, fun r e => absurd e (hgone r)⟩
        | some q =>
          rw [hr] at h hw
          have hin : ∃ rest, q = c.root ++ rest := by
            have ht : q.take c.root.length = c.root := by simpa [within] using hw.1
            exact ⟨q.drop c.root.length, by conv => lhs; rw [← List.take_append_drop c.root.length q, ht]⟩
          have hans : ∀ r, Ans.file q = .file r → ∃ rest, r = c.root ++ rest := by
            intro r e; injection e with e; exact e ▸ hin
          simp only at h
          split at h
          · simp only [Res.ok.injEq, Prod.mk.injEq] at h
            obtain ⟨rfl, rfl⟩ := h
            exact ⟨hk, hans⟩
          · split at h
            · simp only [Res.ok.injEq, Prod.mk.injEq] at h
              obtain ⟨rfl, rfl⟩ := h
              exact ⟨hk, hans⟩
            · split at h
              · split at h
                all_goals
                  simp only [Res.ok.injEq, Prod.mk.injEq] at h
                  obtain ⟨rfl, rfl⟩ := h
                  refine ⟨?_, hans⟩
                  intro p hp
                  simp only [List.mem_append, List.mem_singleton] at hp
                  have : p ∈ k.gzip ++ k.deflate ∨ p = (name, q) := by
                    rw [List.mem_append]
                    first
                      | (rcases hp with (hp | hp) | hp <;> simp [hp]; done)
                      | (rcases hp with hp | hp | hp <;> simp [hp])
                  rcases this with hp | rfl
                  · exact hk p hp
                  · exact hin
              · simp only [Res.ok.injEq, Prod.mk.injEq] at h
                obtain ⟨rfl, rfl⟩ := h
                exact ⟨hk, hans⟩
      · simp only [Res.ok.injEq, Prod.mk.injEq] at h
        obtain ⟨rfl, rfl⟩ := h
        exact ⟨hk, fun r e => absurd e (hgone r)⟩

example : CacheFine { root := b!"/srv/www" } {} := by intro p hp; simp at hp
example : ∃ k, serveCompressed twoSites { root := b!"/srv/www" } true .gzip (fun _ => true) {} b!"/a.html" =
    .ok (.file b!"/srv/www/a.html", k) ∧ k.gzip = [(b!"a.html", b!"/srv/www/a.html")] :=
  ⟨{ gzip := [(b!"a.html", b!"/srv/www/a.html")] }, by decide +kernel, rfl⟩

/-! ## C89: the prefix -/

/-- **C89** (partial: the URL must be at least as long as the prefix, after the slashes at its begin). The name of the file is read
inside the URL. -/
theorem C89_inside_partial (lead : Bool) (c : Config) (url : Bytes)
    (h : (c.pfx.getD []).length ≤ (if lead then skipSlashes url else url).length) : requested lead c url ≠ .ub := by
  simp only [requested, advance, if_pos h, Res.ok_bind]
  simp

/-- **C89** (partial). With a prefix written without slashes, all that stands behind it is the name of the file. -/
theorem C89_name_partial (c : Config) {p name : Bytes} (hp : c.pfx = some p) (h0 : p.head? ≠ some 0x2f)
    (hn : name ≠ []) (hn0 : name.head? ≠ some 0x2f) (h23 : 0x23 ∉ name) (h3f : 0x3f ∉ name) (hpne : p ≠ []) :
    requested true c (b!"/" ++ p ++ b!"/" ++ name) = .ok name := by
  obtain ⟨a, p', rfl⟩ := List.exists_cons_of_ne_nil hpne
  obtain ⟨b, n', rfl⟩ := List.exists_cons_of_ne_nil hn
  have ha : a ≠ 0x2f := by simpa using h0
  have hb : b ≠ 0x2f := by simpa using hn0
  have hcut : ∀ q : UInt8, q ∉ b :: n' → cutAt q (b :: n') = b :: n' := by
    intro q hq
    exact cutAt_none hq
  have e1 : skipSlashes (b!"/" ++ (a :: p') ++ b!"/" ++ (b :: n')) = (a :: p') ++ (b!"/" ++ (b :: n')) := by
    simp [skipSlashes, ha]
  have e2 : skipSlashes (b!"/" ++ (b :: n')) = b :: n' := by simp [skipSlashes, hb]
  simp only [requested, if_true, e1, hp, Option.getD_some, advance]
  rw [if_pos (by simp), Res.ok_bind, List.drop_left, e2, hcut _ h23, hcut _ h3f, if_neg (by simp [hb])]

example : requested true { root := b!"/srv", pfx := some b!"app" } b!"/app/x/y.css" = .ok b!"x/y.css" := by decide +kernel

/-- **C89** is false: with the prefix `/app` a request for `/app` reads behind the end of the URL; with the prefix of the example
program `sheep_counter` a request for `/` does. -/
theorem C89_prefix_false : requested true { root := b!"/srv", pfx := some b!"/app" } b!"/app" = .ub ∧
    requested false { root := b!"/srv", pfx := some b!"/upload" } b!"/" = .ub := by decide +kernel

/-! ## C90: open files -/

/-- **C90** is false: every request for a file that is not compressed, from a client that accepts compression, leaves a file open. -/
theorem C90_leak_false {fs : Fs} {c : Config} {caching : Bool} {mode : Mode} {packs : Bytes → Bool} {k : Cache}
    {url name r : Bytes} (hm : mode ≠ .none) (hq : requested false c url = .ok name) (hp : packs name = false)
    (hr : fs.real (filePath c name) = some r) (hw : within c (some r) = true) (ho : fs.opens (filePath c name) = true)
    (hg : k.gzip.lookup name = none) (hd : k.deflate.lookup name = none) :
    ∃ k', serveCompressed fs c caching mode packs k url = .ok (.file r, k') ∧ k'.files = k.files + 1 := by
  refine ⟨{ k with files := k.files + 1 }, ?_, rfl⟩
  cases mode with
  | none => exact absurd rfl hm
  | gzip => cases caching <;> simp [serveCompressed, hq, Res.ok_bind, hg, hr, hw, ho, hp]
  | deflate => cases caching <;> simp [serveCompressed, hq, Res.ok_bind, hd, hr, hw, ho, hp]

example : ∃ k, serveCompressed twoSites { root := b!"/srv/www" } true .gzip (fun _ => false) {} b!"/a.html" =
    .ok (.file b!"/srv/www/a.html", k) ∧ k.files = 1 := ⟨{ files := 1 }, by decide +kernel, rfl⟩

/-- **C90** (partial: every file is compressed, or the client does not accept compression). No file is left open. -/
theorem C90_closed_partial {fs : Fs} {c : Config} {caching : Bool} {mode : Mode} {packs : Bytes → Bool} {k k' : Cache}
    {url : Bytes} {a : Ans} (hm : mode = .none ∨ ∀ n, packs n = true)
    (h : serveCompressed fs c caching mode packs k url = .ok (a, k')) : k'.files = k.files := by
  simp only [serveCompressed] at h
  cases hq : requested false c url with
  | ub => rw [hq, Res.ub_bind] at h; cases h
  | ok name =>
    rw [hq, Res.ok_bind] at h
    repeat' split at h
    all_goals try (simp only [Res.ok.injEq, Prod.mk.injEq] at h; obtain ⟨_, rfl⟩ := h; rfl)
    all_goals
      rename_i h1 h2
      rcases hm with hm | hm
      · exact absurd hm h1
      · simp [hm] at h2

end Verif.Props
