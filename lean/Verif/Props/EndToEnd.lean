import Verif.Spec.Arguments
import Verif.Props.Client
import Verif.Props.Upload
import Verif.Props.Routing
/-!
# C147: parameters sent by the HTTP client are shown by the server
-/
namespace Verif.Props
open Verif.UMap Verif.Client Verif.Upload Verif.Spec.Client Verif.Spec.Arguments Verif.Spec.Utf8
open Verif.Endpoint (collect)
open Verif.Spec.Routing (joinComma valuesOf)
open Verif.Spec.OMap (lookup)

private theorem paramText_unique {t : Bytes} {p q : Bytes × Option Bytes} (hp : ParamText t p) (hq : ParamText t q) :
    p = q := by
  obtain ⟨k, v⟩ := p
  obtain ⟨k', v'⟩ := q
  obtain ⟨h1, h2⟩ := hp
  obtain ⟨h3, h4⟩ := hq
  have e1 : k = k' := (UrlCodec.dec_of_pctDecodes h1).2.2.symm.trans (UrlCodec.dec_of_pctDecodes h3).2.2
  have e2 : v = v' := by
    simp only at h2 h4
    cases h : (Spec.UrlParts.pair t).2 with
    | none =>
      rw [h] at h2 h4
      cases v with
      | none => cases v' with
        | none => rfl
        | some _ => exact h4.elim
      | some _ => exact h2.elim
    | some x =>
      rw [h] at h2 h4
      cases v with
      | none => exact h2.elim
      | some w => cases v' with
        | none => exact h4.elim
        | some w' =>
          exact congrArg some ((UrlCodec.dec_of_pctDecodes h2).2.2.symm.trans (UrlCodec.dec_of_pctDecodes h4).2.2)
  rw [e1, e2]

private theorem paramTexts_unique : ∀ {ts : List Bytes} {ps qs : List (Bytes × Option Bytes)},
    ParamTexts ts ps → ParamTexts ts qs → ps = qs
  | [], [], [], _, _ => rfl
  | _ :: _, _ :: _, _ :: _, hp, hq => by rw [paramText_unique hp.1 hq.1, paramTexts_unique hp.2 hq.2]

private theorem paramTexts_append : ∀ {ts us : List Bytes} {ps qs : List (Bytes × Option Bytes)},
    ParamTexts ts ps → ParamTexts us qs → ParamTexts (ts ++ us) (ps ++ qs)
  | [], _, [], _, _, hq => hq
  | _ :: _, _, _ :: _, _, hp, hq => ⟨hp.1, paramTexts_append hp.2 hq⟩

private theorem paramTexts_last : ∀ {ts : List Bytes} {ps : List (Bytes × Option Bytes)},
    ParamTexts ts ps → (∀ p ∈ ps, p.1 ≠ []) → [] ∉ ts
  | [], [], _, _ => by simp
  | t :: ts, p :: ps, h, hk => by
    intro hm
    rcases List.mem_cons.1 hm with e | hm
    · subst e
      have h1 := h.1.1
      have : p.1 = [] := by
        have := (UrlCodec.dec_of_pctDecodes h1).2.2
        rw [← this]
        rfl
      exact hk p (List.mem_cons_self ..) this
    · exact paramTexts_last h.2 (fun q hq => hk q (List.mem_cons_of_mem _ hq)) hm

private theorem params_keys {m : UMap} {ps : List (Bytes × Option Bytes)} (h : HoldsParams m ps) :
    (ps.map (·.1)).Nodup ∧ ∀ p ∈ ps, p.1 ≠ [] := by
  obtain ⟨ks, hk, hn, he, -⟩ := C08_keys_unique m h.1
  rw [h.2.1] at hk
  have hk := Res.ok.inj hk
  subst hk
  refine ⟨hn, fun p hp e => he (List.mem_map.2 ⟨p, hp, e⟩)⟩

/-- What the server must show for a key: nothing, or the values given for it, joined by commas. -/
def shownFor (k : Bytes) (ps : List (Bytes × Option Bytes)) : Option Bytes :=
  match (ps.filter (fun p => p.1 == k)).map (fun p => p.2.getD []) with
  | [] => none
  | v :: t => some (joinComma (v :: t))

private theorem dropWhile_all {p : UInt8 → Bool} : ∀ {l : Bytes}, (∀ x ∈ l, p x = true) → l.dropWhile p = []
  | [], _ => rfl
  | a :: l, h => by
    rw [List.dropWhile_cons_of_pos (h a (List.mem_cons_self ..))]
    exact dropWhile_all (fun x hx => h x (List.mem_cons_of_mem _ hx))

theorem filter_one : ∀ {ps : List (Bytes × Option Bytes)}, (ps.map (·.1)).Nodup →
    ∀ p ∈ ps, ps.filter (fun x => x.1 == p.1) = [p]
  | [], _, _, hp => by cases hp
  | a :: t, hnd, p, hp => by
    simp only [List.map_cons, List.nodup_cons] at hnd
    rcases List.mem_cons.1 hp with rfl | hp
    · rw [List.filter_cons, if_pos (by simp)]
      congr 1
      rw [List.filter_eq_nil_iff]
      intro x hx e
      simp only [beq_iff_eq] at e
      exact hnd.1 (e ▸ List.mem_map.2 ⟨x, hx, rfl⟩)
    · rw [List.filter_cons, if_neg]
      · exact filter_one hnd.2 p hp
      · intro e
        simp only [beq_iff_eq] at e
        exact hnd.1 (e ▸ List.mem_map.2 ⟨p, hp, rfl⟩)

open Classical in
/-- **C147, URL parameters (partial).** For every URL without fragment whose own arguments are `own` (none without a name) and every
parameter map: the server, reading the URL the client asks for, collects in `map_url` exactly the arguments of the URL and the
parameters of the map, those given once with their value, the others joined by commas; with UTF-8 checking on, if all are UTF-8.
Missing: URLs with a fragment (`C42_fragment_false`) and URLs ending in `?` or `&`, see `C147_question_false`. -/
theorem C147_url_partial (url : Bytes) (m : UMap) (ps own : List (Bytes × Option Bytes)) (check : Bool)
    (h : HoldsParams m ps) (hf : (0x23 : UInt8) ∉ url)
    (ho : ParamTexts (queryParams (spaces url)) own) (hn : ∀ p ∈ own, p.1 ≠ [])
    (hu : check = true → ∀ p ∈ own ++ ps, IsUtf8 p.1 ∧ ∀ v, p.2 = some v → IsUtf8 v) :
    ∃ r, requestUrl url m = .ok r ∧ Reported (queryParams r) (own ++ ps) ∧
      ∀ got, Reported (queryParams r) got → ∀ k, lookup (collect check got []) k = (shownFor k (own ++ ps)).map some := by
  obtain ⟨r, ts, hr, -, hq, ht, -⟩ := C42_url_partial url m ps h hf
  have hall := paramTexts_append ho ht
  rw [← hq] at hall
  have hk : ∀ p ∈ own ++ ps, p.1 ≠ [] := by
    intro p hp
    rcases List.mem_append.1 hp with hp | hp
    · exact hn p hp
    · exact (params_keys h).2 p hp
  have hl : (queryParams r).getLast? ≠ some [] := fun e =>
    paramTexts_last hall hk (List.mem_of_getLast? e)
  have hrep : Reported (queryParams r) (own ++ ps) := by
    unfold Reported
    rw [if_neg hl]
    exact hall
  refine ⟨r, hr, hrep, ?_⟩
  intro got hgot k
  have : got = own ++ ps := by
    unfold Reported at hgot
    rw [if_neg hl] at hgot
    exact paramTexts_unique hgot hall
  subst this
  rw [C23_collect_partial check _ hk k]
  have hv : valuesOf (fun p => check = true → IsUtf8 p.1 ∧ ∀ v, p.2 = some v → IsUtf8 v) k (own ++ ps) =
      ((own ++ ps).filter (fun p => p.1 == k)).map (fun p => p.2.getD []) := by
    unfold valuesOf
    congr 1
    refine List.filter_congr ?_
    intro p hp
    by_cases e : p.1 = k
    · rw [decide_eq_true ⟨e, fun hc => hu hc p hp⟩, beq_iff_eq.2 e]
    · rw [decide_eq_false (fun hh => e hh.1)]
      simp [e]
  rw [hv]
  unfold shownFor
  cases ((own ++ ps).filter (fun p => p.1 == k)).map (fun p => p.2.getD []) <;> rfl

/-- **C147, URL parameters:** without arguments in the URL every parameter of the map is shown with its value, and nothing else. -/
theorem C147_value_partial (url : Bytes) (m : UMap) (ps : List (Bytes × Option Bytes)) (check : Bool)
    (h : HoldsParams m ps) (hf : (0x23 : UInt8) ∉ url) (hq : (0x3f : UInt8) ∉ url)
    (hu : check = true → ∀ p ∈ ps, IsUtf8 p.1 ∧ ∀ v, p.2 = some v → IsUtf8 v) :
    ∃ r, requestUrl url m = .ok r ∧ Reported (queryParams r) ps ∧
      ∀ got, Reported (queryParams r) got →
        (∀ p ∈ ps, lookup (collect check got []) p.1 = some (some (p.2.getD []))) ∧
        ∀ k, k ∉ ps.map (·.1) → lookup (collect check got []) k = none := by
  have hq' : queryParams (spaces url) = [] := by
    have hm : (0x3f : UInt8) ∉ spaces url := by
      unfold spaces
      intro hm
      rw [List.mem_flatten] at hm
      obtain ⟨l, hl, hx⟩ := hm
      rw [List.mem_map] at hl
      obtain ⟨c, hc, rfl⟩ := hl
      by_cases e : c = 0x20
      · rw [if_pos e] at hx
        revert hx
        decide
      · rw [if_neg e] at hx
        simp only [List.mem_singleton] at hx
        exact hq (hx ▸ hc)
    have hd : (noFragment (spaces url)).dropWhile (· ≠ 0x3f) = [] := by
      refine dropWhile_all ?_
      intro x hx
      have : x ∈ spaces url := (List.takeWhile_sublist _).mem hx
      simp only [ne_eq, decide_not, Bool.not_eq_eq_eq_not, Bool.not_true, decide_eq_false_iff_not]
      intro e
      exact hm (e ▸ this)
    unfold queryParams queryOf
    rw [hd]
  obtain ⟨r, h1, h2, h3⟩ := C147_url_partial url m ps [] check h hf (by rw [hq']; trivial) (by simp) (by simpa using hu)
  refine ⟨r, h1, by simpa using h2, ?_⟩
  intro got hgot
  have h3 := h3 got hgot
  have hnd := (params_keys h).1
  have one := filter_one hnd
  constructor
  · intro p hp
    rw [h3]
    simp only [List.nil_append, shownFor, one p hp]
    rfl
  · intro k hk
    rw [h3]
    have : ps.filter (fun x => x.1 == k) = [] := by
      rw [List.filter_eq_nil_iff]
      intro x hx e
      simp only [beq_iff_eq] at e
      exact hk (List.mem_map.2 ⟨x, hx, e⟩)
    simp only [List.nil_append, shownFor, this]
    rfl

example : requestUrl b!"http://h/p?x=1" sampleParams = .ok b!"http://h/p?x=1&a%20b=1%262&k" ∧
    ParamTexts (queryParams (spaces b!"http://h/p?x=1")) [(b!"x", some b!"1")] ∧
    shownFor b!"a b" [(b!"x", some b!"1"), (b!"a b", some b!"1&2"), (b!"k", none)] = some b!"1&2" ∧
    shownFor b!"x" [(b!"x", some b!"1"), (b!"x", some b!"2")] = some b!"1,2" := by
  refine ⟨by decide, ?_, by decide, by decide⟩
  have e : queryParams (spaces b!"http://h/p?x=1") = [b!"x=1"] := by decide
  rw [e]
  exact ⟨⟨.plain _ _ _ (by decide) (by decide) (by decide) .nil, .plain _ _ _ (by decide) (by decide) (by decide) .nil⟩, trivial⟩

/-- The fields of a form as they arrive, `ulfius_webservice_dispatcher` with `mhd_iterate_post_data`. -/
def formOf (cfg : Cfg) (got : List (Bytes × List Bytes)) : PostMap :=
  got.foldl (fun m g => deliver cfg g.1 none 0 g.2 m) []

private theorem iterate_none_other (cfg : Cfg) (key c : Bytes) (off : Nat) (m : PostMap) (k : Bytes) (h : k ≠ key) :
    find (iterate cfg m key none c off).2 k = find m k := by
  have e : ∀ m key, withName m key none = m := fun _ _ => rfl
  have hk := Ne.symm h
  unfold iterate
  rw [e]
  split
  · rfl
  split
  · rfl
  split
  · rfl
  dsimp only
  split
  · rfl
  generalize (!List.isEmpty ((find m key).getD [])) = a
  generalize (off != 0) = b
  cases a with
  | false => exact find_append_other _ _ _ _ hk
  | true => cases b with
    | false => exact (find_append_other _ _ _ _ hk).trans (find_append_other _ _ _ _ hk)
    | true => exact find_append_other _ _ _ _ hk

private theorem deliver_none_other (cfg : Cfg) (key : Bytes) : ∀ (cs : List Bytes) (off : Nat) (m : PostMap) (k : Bytes),
    k ≠ key → find (deliver cfg key none off cs m) k = find m k
  | [], _, _, _, _ => rfl
  | c :: t, off, m, k, h => by
    rw [deliver, deliver_none_other cfg key t _ _ k h]
    exact iterate_none_other cfg key c off m k h

private theorem form_other (cfg : Cfg) : ∀ (got : List (Bytes × List Bytes)) (m : PostMap) (k : Bytes),
    (∀ g ∈ got, k ≠ g.1) → find (got.foldl (fun m g => deliver cfg g.1 none 0 g.2 m) m) k = find m k
  | [], _, _, _ => rfl
  | g :: t, m, k, h => by
    rw [List.foldl_cons, form_other cfg t _ k (fun x hx => h x (List.mem_cons_of_mem _ hx))]
    exact deliver_none_other cfg g.1 g.2 0 m k (h g (List.mem_cons_self ..))

private theorem form_value (cfg : Cfg) : ∀ (got : List (Bytes × List Bytes)) (m : PostMap),
    (got.map (·.1)).Nodup → (∀ g ∈ got, g.1 ≠ [] ∧ g.2 ≠ [] ∧ (g.2.length = 1 ∨ ∀ c ∈ g.2, c ≠ [])) →
    (cfg.checkUtf8 = true → ∀ g ∈ got, IsUtf8 g.1 ∧ ∀ c ∈ g.2, IsUtf8 c) → (∀ g ∈ got, find m g.1 = none) →
    ∀ g ∈ got, find (got.foldl (fun m g => deliver cfg g.1 none 0 g.2 m) m) g.1 =
      some (if cfg.maxParam = 0 then g.2.flatten else g.2.flatten.take cfg.maxParam)
  | [], _, _, _, _, _, _, hg => by cases hg
  | a :: t, m, hn, hk, hu, hm, g, hg => by
    simp only [List.map_cons, List.nodup_cons] at hn
    rw [List.foldl_cons]
    rcases List.mem_cons.1 hg with rfl | hg
    · rw [form_other cfg t _ g.1 (fun x hx e => hn.1 (e ▸ List.mem_map.2 ⟨x, hx, rfl⟩))]
      obtain ⟨h1, h2, h3⟩ := hk g (List.mem_cons_self ..)
      obtain ⟨key, cs⟩ := g
      cases cs with
      | nil => exact absurd rfl h2
      | cons c r =>
        have := (C29_value_partial cfg key none c r m h1 (fun h => by cases h)
          (fun hc => ⟨(hu hc _ (List.mem_cons_self ..)).1, (hu hc _ (List.mem_cons_self ..)).2, fun f e => by cases e⟩)
          (by
            rcases h3 with h3 | h3
            · left
              cases r with
              | nil => rfl
              | cons _ _ => simp at h3
            · right
              exact h3 c (List.mem_cons_self ..))).1
        simp only [hm _ (List.mem_cons_self ..), Option.getD_none, if_true] at this
        exact this
    · refine form_value cfg t _ hn.2 (fun x hx => hk x (List.mem_cons_of_mem _ hx))
        (fun hc x hx => hu hc x (List.mem_cons_of_mem _ hx)) ?_ g hg
      intro x hx
      rw [deliver_none_other cfg a.1 a.2 0 m x.1 (fun e => hn.1 (e ▸ List.mem_map.2 ⟨x, hx, rfl⟩))]
      exact hm x (List.mem_cons_of_mem _ hx)

/-- **C147, form fields (partial).** For every map whose parameters all have a value: the body the client sends can be read as that
form, and however libmicrohttpd cuts the values into parts the server shows in `map_post_body` exactly the parameters of the map, each
with its value up to `max_post_param_size`; with UTF-8 checking on, if names and parts are UTF-8.
Missing: parts that cut a character when UTF-8 is checked, see `C147_part_false`. -/
theorem C147_form_partial (m : UMap) (ps : List (Bytes × Bytes)) (cfg : Cfg)
    (h : HoldsParams m (ps.map (fun p => (p.1, some p.2)))) (hne : ps ≠ []) :
    ∃ body, requestForm m = .ok body ∧ FormFields (Spec.Segments.pieces 0x26 body) (ps.map (fun p => (p.1, [p.2]))) ∧
      ∀ got, FormFields (Spec.Segments.pieces 0x26 body) got →
        (cfg.checkUtf8 = true → ∀ g ∈ got, IsUtf8 g.1 ∧ ∀ c ∈ g.2, IsUtf8 c) →
        (∀ p ∈ ps, find (formOf cfg got) p.1 = some (if cfg.maxParam = 0 then p.2 else p.2.take cfg.maxParam)) ∧
        ∀ k, k ∉ ps.map (·.1) → find (formOf cfg got) k = none := by
  obtain ⟨body, hb, ht⟩ := C66_form m _ h (by simpa using hne)
  have hkeys := params_keys h
  refine ⟨body, hb, ⟨by simpa [List.map_map, Function.comp_def] using ht, ?_⟩, ?_⟩
  · intro g hg
    obtain ⟨p, -, rfl⟩ := List.mem_map.1 hg
    exact ⟨by simp, Or.inl rfl⟩
  · intro got hgot hu
    have e : got.map (fun g => (g.1, some g.2.flatten)) = ps.map (fun p => (p.1, some p.2)) := paramTexts_unique hgot.1 ht
    have e1 : got.map (·.1) = ps.map (·.1) := by
      have := congrArg (List.map (·.1)) e
      simpa [List.map_map, Function.comp_def] using this
    have hn : (got.map (·.1)).Nodup := by
      rw [e1]
      have := hkeys.1
      simpa [List.map_map, Function.comp_def] using this
    have hk : ∀ g ∈ got, g.1 ≠ [] := by
      intro g hg
      have : (g.1, some g.2.flatten) ∈ ps.map (fun p => (p.1, some p.2)) := e ▸ List.mem_map.2 ⟨g, hg, rfl⟩
      exact hkeys.2 _ this
    constructor
    · intro p hp
      have : (p.1, some p.2) ∈ got.map (fun g => (g.1, some g.2.flatten)) := e ▸ List.mem_map.2 ⟨p, hp, rfl⟩
      obtain ⟨g, hg, hgp⟩ := List.mem_map.1 this
      have hv := form_value cfg got [] hn (fun g hg => ⟨hk g hg, hgot.2 g hg⟩) hu (fun _ _ => rfl) g hg
      simp only [Prod.mk.injEq, Option.some.injEq] at hgp
      rw [hgp.1, hgp.2] at hv
      exact hv
    · intro k hk'
      unfold formOf
      rw [form_other cfg got [] k]
      · rfl
      · intro g hg e'
        exact hk' (e1 ▸ List.mem_map.2 ⟨g, hg, e'.symm⟩)

/-- The map `{a: "1"}` of the cases below. -/
def oneParam : UMap := match UMap.put UMap.init (some b!"a") (some b!"1") with
  | .ok (_, m) => m
  | .ub => UMap.init

theorem oneParam_holds : HoldsParams oneParam [(b!"a", some b!"1")] := by
  refine ⟨?_, by decide, by decide⟩
  have h1 : ∃ m, UMap.put UMap.init (some b!"a") (some b!"1") = .ok (.ok, m) := ⟨_, rfl⟩
  obtain ⟨m1, h1⟩ := h1
  have r1 : Reach m1 := .put .init (validArgs_str _ (by decide)) h1
  have : oneParam = m1 := by
    unfold oneParam
    rw [h1]
  rw [this]
  exact r1

example : requestForm oneParam = .ok b!"a=1" ∧ find (formOf ⟨true, 0, false⟩ [(b!"a", [b!"1"])]) b!"a" = some b!"1" := by
  decide +kernel

/-- A URL that ends in `?`: the client asks for `/?&a=1`, the server reports first an argument without name, and the parameter is lost. -/
theorem C147_question_false :
    HoldsParams oneParam [(b!"a", some b!"1")] ∧ requestUrl b!"http://h/?" oneParam = .ok b!"http://h/?&a=1" ∧
      Reported (queryParams b!"http://h/?&a=1") [(b!"", none), (b!"a", some b!"1")] ∧
      ∀ check, lookup (collect check [(b!"", none), (b!"a", some b!"1")] []) b!"a" = none := by
  refine ⟨oneParam_holds, by decide +kernel, ?_, by decide⟩
  have e : queryParams b!"http://h/?&a=1" = [b!"", b!"a=1"] := by decide
  rw [e]
  refine ⟨⟨.nil, trivial⟩, ⟨?_, ?_⟩, trivial⟩
  · exact .plain _ _ _ (by decide) (by decide) (by decide) .nil
  · exact .plain _ _ _ (by decide) (by decide) (by decide) .nil

/-- A value whose character is cut by the parts libmicrohttpd hands over is lost when UTF-8 is checked. -/
theorem C147_part_false :
    FormFields [b!"a=%C3%A9"] [(b!"a", [[0xc3, 0xa9]])] ∧ FormFields [b!"a=%C3%A9"] [(b!"a", [[0xc3], [0xa9]])] ∧
    find (formOf ⟨true, 0, false⟩ [(b!"a", [[0xc3, 0xa9]])]) b!"a" = some [0xc3, 0xa9] ∧
    find (formOf ⟨true, 0, false⟩ [(b!"a", [[0xc3], [0xa9]])]) b!"a" = none := by
  have h : ParamTexts [b!"a=%C3%A9"] [(b!"a", some [0xc3, 0xa9])] := by
    refine ⟨⟨?_, ?_⟩, trivial⟩
    · exact .plain _ _ _ (by decide) (by decide) (by decide) .nil
    · exact .pct _ _ 12 3 _ _ (by decide) (by decide) (by decide) (.pct _ _ 10 9 _ _ (by decide) (by decide) (by decide) .nil)
  exact ⟨⟨h, by decide⟩, ⟨h, by decide⟩, by decide +kernel, by decide +kernel⟩

end Verif.Props
