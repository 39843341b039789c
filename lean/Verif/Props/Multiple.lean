import Verif.Model.Multiple
import Verif.Props.Guard
import Verif.Lemmas.Holds
/-!
# C170: the example with several callbacks answers each request with what its path reaches

Full statement: a GET request below `/multiple/zero` is answered with the names of the levels its path goes through, one per line, up to the callback that
completes the request; the block the callbacks share is read while it lives, freed once, never lost; other methods get an empty page there; a path that has
no endpoint gets 404. The endpoints of the example below `/multiple/auth` belong to C169.
-/
namespace Verif.Props
open Verif.UMap Verif.Message Verif.Answer Verif.Multiple
open Verif.Endpoint (Endpoint EndpointMatch matchLoop slashWords formatMatch splitUrl sel)
open Verif.Spec.Segments (segments)
open Verif.Spec.Routing (Null)

/-! ## Specification -/

/-- The levels that a path below `/multiple/zero` goes through. -/
def levelNames (path : List Bytes) : List Bytes :=
  b!"Level zero" ::
    (if path.head? = some b!"one" then
      b!"Level one" :: (if path[1]? = some b!"two" then b!"Level two" :: (if path.drop 2 = [b!"three"] then [b!"Level three"] else []) else [])
    else if path.head? = some b!"onec" then [b!"Level one"] else [])

/-- Lines. -/
def joinLines : List Bytes → Bytes
  | [] => []
  | [x] => x
  | x :: t => x ++ 0x0a :: joinLines t

/-- The answer with the header of the instance. -/
def levelPage (status : Nat) (realm : Option Bytes) (body : Bytes) : Option Ans :=
  some ⟨status, realm, [(b!"Access-Control-Allow-Origin", b!"*")], .buffer body⟩

/-! ## Proofs -/

private def M : UMap := rep [⟨b!"Access-Control-Allow-Origin", strBuf b!"*" ++ [some 0], 2⟩]

private theorem defaults_eq : Multiple.defaults = .ok M := by decide +kernel

private theorem init_eq : initHeaders (some M) = .ok M := by decide +kernel

private theorem M_holds : HoldsParams M [(b!"Access-Control-Allow-Origin", some b!"*")] := by
  obtain ⟨m, e1, e2⟩ := holds_put holds_init b!"Access-Control-Allow-Origin" (some b!"*") (by decide) (by decide)
    (by intro x hx; cases hx; decide)
  have : UMap.put UMap.init (some b!"Access-Control-Allow-Origin") (some b!"*") = .ok (.ok, M) := by decide +kernel
  rw [this] at e1
  injection e1 with e1
  injection e1 with _ e1
  exact e1 ▸ e2

private theorem strict_unique {s : List Endpoint} (hs : s.Pairwise (fun a b => a.priority < b.priority)) {a b : Endpoint} (ha : a ∈ s) (hb : b ∈ s)
    (h : a.priority = b.priority) : a = b := by
  obtain ⟨i, hi, e1⟩ := List.mem_iff_getElem.1 ha
  obtain ⟨j, hj, e2⟩ := List.mem_iff_getElem.1 hb
  rcases Nat.lt_trichotomy i j with hij | hij | hij
  · have := List.pairwise_iff_getElem.1 hs i j hi hj hij
    rw [e1, e2] at this
    omega
  · subst hij
    rw [← e1, e2]
  · have := List.pairwise_iff_getElem.1 hs j i hj hi hij
    rw [e1, e2] at this
    omega

private theorem sorted_iff {l s : List Endpoint} (hp : l.Perm s) (hs : s.Pairwise (fun a b => a.priority < b.priority)) (r : List Endpoint) :
    Endpoint.Sorted l r ↔ r = s := by
  constructor
  · rintro ⟨h1, h2⟩
    have hrs : r.Perm s := h1.symm.trans hp
    refine List.Perm.eq_of_pairwise (le := fun a b => a.priority ≤ b.priority) ?_ h2 (hs.imp (fun h => Nat.le_of_lt h)) hrs
    intro a b ha hb h1 h2
    exact strict_unique hs (hrs.mem_iff.1 ha) hb (Nat.le_antisymm h1 h2)
  · rintro rfl
    exact ⟨hp, hs.imp (fun h => Nat.le_of_lt h)⟩

private abbrev askOf (method url : Bytes) (mhd : Option (Bytes × Bytes)) : Request :=
  Credentials.setCredentials { verb := some method, urlPath := some url } mhd

private abbrev w0 : World Mem := ⟨{ header := M }, false, {}⟩

private theorem serves_of {accept : List Field → Bytes → Bytes → Bool} (hacc : accept [] b!"Access-Control-Allow-Origin" b!"*" = true)
    {method url : Bytes} {mhd : Option (Bytes × Bytes)} {l s : List Endpoint}
    (hl : matchLoop method (slashWords url) endpoints = .ok l) (hp : l.Perm s) (hs : s.Pairwise (fun a b => a.priority < b.priority))
    {ret : Int} {w' : World Mem} (hg : Goes 0 w0 (s.map (fun e => callbackOf (askOf method url mhd) e.callback)) ret w') {body : Bytes}
    (hr : HoldsResp w'.resp [(b!"Access-Control-Allow-Origin", some b!"*")] [] body) (a : Res (Option Ans × Option Mem)) :
    Serves accept method url mhd a ↔
      a = .ok (if ret = 3 then levelPage 401 (w'.resp.realm.or (some b!"default_realm")) body else levelPage w'.resp.status none body, some w'.user) := by
  have hm : ∀ r, EndpointMatch method url endpoints r ↔ r = s := by
    intro r
    rw [← sorted_iff hp hs r]
    constructor
    · rintro ⟨l', h1, h2⟩
      rw [hl] at h1
      injection h1 with h1
      exact h1 ▸ h2
    · exact fun h => ⟨l, hl, h⟩
  have htk : Takes accept [] (linesOf [(b!"Access-Control-Allow-Origin", some b!"*")] []) := by
    intro x f y e
    cases x with
    | nil =>
      injection e with e _
      subst e
      exact hacc
    | cons z t => simp [linesOf] at e
  obtain ⟨tr, h1, h2⟩ := dispatch_goes ⟨accept, fun _ => .failed, some b!"default_realm", some M⟩ (some notFound) {} init_eq hg hr htk
  have key : (do
      let cfg ← instanceOf accept
      let q := askOf method url mhd
      let (ans, evs) ← dispatch cfg (s.map (fun e => callbackOf q e.callback)) (some notFound) {}
      return (ans, evs.getLast?.map (·.after.user)) : Res (Option Ans × Option Mem)) =
      .ok (if ret = 3 then levelPage 401 (w'.resp.realm.or (some b!"default_realm")) body else levelPage w'.resp.status none body, some w'.user) := by
    simp only [instanceOf, defaults_eq, Res.ok_bind, Res.pure_eq, h1]
    have : tr.getLast?.map (·.after.user) = some w'.user := by
      cases hx : tr.getLast? with
      | none => rw [hx] at h2; cases h2
      | some x =>
        rw [hx] at h2
        injection h2 with h2
        rw [← h2]
        rfl
    rw [this]
    by_cases h3 : ret = 3
    · rw [if_pos h3, if_pos h3]; rfl
    · rw [if_neg h3, if_neg h3]; rfl
  constructor
  · rintro ⟨r, h, e⟩
    rw [(hm r).1 h] at e
    rw [e, ← key]
  · rintro rfl
    exact ⟨s, (hm s).2 rfl, key.symm⟩

private theorem serves_default {accept : List Field → Bytes → Bytes → Bool} (hacc : accept [] b!"Access-Control-Allow-Origin" b!"*" = true)
    {method url : Bytes} {mhd : Option (Bytes × Bytes)} (hl : matchLoop method (slashWords url) endpoints = .ok []) (a : Res (Option Ans × Option Mem)) :
    Serves accept method url mhd a ↔ a = .ok (levelPage 404 none b!"Page not found, do what you want", some {}) := by
  have hm : ∀ r, EndpointMatch method url endpoints r ↔ r = [] := by
    intro r
    constructor
    · rintro ⟨l', h1, h2, -⟩
      rw [hl] at h1
      injection h1 with h1
      subst h1
      exact h2.symm.eq_nil
    · rintro rfl
      exact ⟨[], hl, .nil, .nil⟩
  have htk : Takes accept [] (linesOf [(b!"Access-Control-Allow-Origin", some b!"*")] []) := by
    intro x f y e
    cases x with
    | nil =>
      injection e with e _
      subst e
      exact hacc
    | cons z t => simp [linesOf] at e
  have h1 := dispatch_default ⟨accept, fun _ => .failed, some b!"default_realm", some M⟩ notFound {} init_eq (ret := 0) rfl (.inl rfl) rfl rfl
    (hs := [(b!"Access-Control-Allow-Origin", some b!"*")]) (cs := []) (body := b!"Page not found, do what you want")
    ⟨M_holds, rfl, rfl, by intro b hb; injection hb with hb; subst hb; decide⟩ htk
  have key : (do
      let cfg ← instanceOf accept
      let q := askOf method url mhd
      let (ans, evs) ← dispatch cfg (([] : List Endpoint).map (fun e => callbackOf q e.callback)) (some notFound) {}
      return (ans, evs.getLast?.map (·.after.user)) : Res (Option Ans × Option Mem)) =
      .ok (levelPage 404 none b!"Page not found, do what you want", some {}) := by
    simp only [instanceOf, defaults_eq, Res.ok_bind, Res.pure_eq, List.map_nil, h1]
    rfl
  constructor
  · rintro ⟨r, h, e⟩
    rw [(hm r).1 h] at e
    rw [e, ← key]
  · rintro rfl
    exact ⟨[], (hm []).2 rfl, key.symm⟩

private abbrev e0 : Endpoint := ⟨some b!"*", some b!"/multiple", some b!"/zero/*", 99, some 0, 0⟩
private abbrev e1 : Endpoint := ⟨some b!"GET", some b!"/multiple", some b!"/zero/*", 0, some 1, 0⟩
private abbrev e2 : Endpoint := ⟨some b!"GET", some b!"/multiple", some b!"/zero/one/*", 1, some 2, 0⟩
private abbrev e3 : Endpoint := ⟨some b!"GET", some b!"/multiple", some b!"/zero/one/two/*", 2, some 3, 0⟩
private abbrev e4 : Endpoint := ⟨some b!"GET", some b!"/multiple", some b!"/zero/one/two/three/", 3, some 4, 0⟩
private abbrev e5 : Endpoint := ⟨some b!"GET", some b!"/multiple", some b!"/zero/onec/*", 1, some 5, 0⟩
private abbrev e6 : Endpoint := ⟨some b!"GET", some b!"/multiple", some b!"/zero/onec/two/*", 2, some 3, 0⟩
private abbrev e7 : Endpoint := ⟨some b!"GET", some b!"/multiple", some b!"/auth/*", 1, some 6, 0⟩
private abbrev e8 : Endpoint := ⟨some b!"PUT", some b!"/multiple", some b!"/auth/*", 1, some 6, 0⟩
private abbrev e9 : Endpoint := ⟨some b!"*", some b!"/multiple", some b!"/auth/data/", 2, some 7, 0⟩

private def one (b : Bool) (e : Endpoint) : List Endpoint := if b then [e] else []

private theorem loop_eq (method url : Bytes) {ws : List Bytes} (hw : segments url = ws) :
    matchLoop method (slashWords url) endpoints = .ok (
      one (formatMatch ws [b!"multiple", b!"zero", b!"*"]) e0 ++
      (one (eqCase b!"GET" method && formatMatch ws [b!"multiple", b!"zero", b!"*"]) e1 ++
      (one (eqCase b!"GET" method && formatMatch ws [b!"multiple", b!"zero", b!"one", b!"*"]) e2 ++
      (one (eqCase b!"GET" method && formatMatch ws [b!"multiple", b!"zero", b!"one", b!"two", b!"*"]) e3 ++
      (one (eqCase b!"GET" method && formatMatch ws [b!"multiple", b!"zero", b!"one", b!"two", b!"three"]) e4 ++
      (one (eqCase b!"GET" method && formatMatch ws [b!"multiple", b!"zero", b!"onec", b!"*"]) e5 ++
      (one (eqCase b!"GET" method && formatMatch ws [b!"multiple", b!"zero", b!"onec", b!"two", b!"*"]) e6 ++
      (one (eqCase b!"GET" method && formatMatch ws [b!"multiple", b!"auth", b!"*"]) e7 ++
      (one (eqCase b!"PUT" method && formatMatch ws [b!"multiple", b!"auth", b!"*"]) e8 ++
      one (formatMatch ws [b!"multiple", b!"auth", b!"data"]) e9))))))))) := by
  have h := Endpoint.matchLoop_eq method url [e0, e1, e2, e3, e4, e5, e6, e7, e8, e9] [] Endpoint.emptyEndpoint ⟨rfl, rfl, rfl⟩ (by decide)
  have hcons : ∀ (e : Endpoint) (b : Bool) (t : List Endpoint), sel method url e = b → (e :: t).filter (sel method url) = one b e ++ t.filter (sel method url) := by
    intro e b t hb
    rw [List.filter_cons, hb]
    cases b <;> rfl
  have hs : ∀ (m f : Bytes) (p n : Nat) (fs : List Bytes), splitUrl (some b!"/multiple") (some f) = fs →
      sel method url ⟨some m, some b!"/multiple", some f, p, some n, 0⟩ = ((eqCase m method || Endpoint.byte0 m == 0x2a) && formatMatch ws fs) := by
    intro m f p n fs h
    unfold sel
    rw [Endpoint.slashWords_eq, hw]
    show ((eqCase m method || Endpoint.byte0 m == 0x2a) && formatMatch ws (splitUrl (some b!"/multiple") (some f))) = _
    rw [h]
  have hany : ∀ (f : Bytes) (p n : Nat) (fs : List Bytes), splitUrl (some b!"/multiple") (some f) = fs →
      sel method url ⟨some b!"*", some b!"/multiple", some f, p, some n, 0⟩ = formatMatch ws fs := by
    intro f p n fs h
    rw [hs _ f p n fs h, show (Endpoint.byte0 b!"*" == 0x2a) = true from rfl, Bool.or_true, Bool.true_and]
  have hget : ∀ (f : Bytes) (p n : Nat) (fs : List Bytes), splitUrl (some b!"/multiple") (some f) = fs →
      sel method url ⟨some b!"GET", some b!"/multiple", some f, p, some n, 0⟩ = (eqCase b!"GET" method && formatMatch ws fs) := by
    intro f p n fs h
    rw [hs _ f p n fs h, show (Endpoint.byte0 b!"GET" == 0x2a) = false from rfl, Bool.or_false]
  have hput : ∀ (f : Bytes) (p n : Nat) (fs : List Bytes), splitUrl (some b!"/multiple") (some f) = fs →
      sel method url ⟨some b!"PUT", some b!"/multiple", some f, p, some n, 0⟩ = (eqCase b!"PUT" method && formatMatch ws fs) := by
    intro f p n fs h
    rw [hs _ f p n fs h, show (Endpoint.byte0 b!"PUT" == 0x2a) = false from rfl, Bool.or_false]
  refine Eq.trans h (congrArg Res.ok ?_)
  rw [hcons e0 _ _ (hany _ _ _ [b!"multiple", b!"zero", b!"*"] (by decide +kernel)),
    hcons e1 _ _ (hget _ _ _ [b!"multiple", b!"zero", b!"*"] (by decide +kernel)),
    hcons e2 _ _ (hget _ _ _ [b!"multiple", b!"zero", b!"one", b!"*"] (by decide +kernel)),
    hcons e3 _ _ (hget _ _ _ [b!"multiple", b!"zero", b!"one", b!"two", b!"*"] (by decide +kernel)),
    hcons e4 _ _ (hget _ _ _ [b!"multiple", b!"zero", b!"one", b!"two", b!"three"] (by decide +kernel)),
    hcons e5 _ _ (hget _ _ _ [b!"multiple", b!"zero", b!"onec", b!"*"] (by decide +kernel)),
    hcons e6 _ _ (hget _ _ _ [b!"multiple", b!"zero", b!"onec", b!"two", b!"*"] (by decide +kernel)),
    hcons e7 _ _ (hget _ _ _ [b!"multiple", b!"auth", b!"*"] (by decide +kernel)),
    hcons e8 _ _ (hput _ _ _ [b!"multiple", b!"auth", b!"*"] (by decide +kernel)),
    hcons e9 _ _ (hany _ _ _ [b!"multiple", b!"auth", b!"data"] (by decide +kernel))]
  simp

private theorem fm_nil {f : Bytes} {fs : List Bytes} (h : (Endpoint.byte0 f == 0x2a) = false) : formatMatch [] (f :: fs) = false := by
  simp [formatMatch, h]

private theorem fm_cons {f u : Bytes} {us fs : List Bytes} (h1 : (Endpoint.byte0 f == 0x2a) = false) (h2 : (Endpoint.byte0 f == 0x40) = false)
    (h3 : (Endpoint.byte0 f == 0x3a) = false) : formatMatch (u :: us) (f :: fs) = (f == u && formatMatch us fs) := by
  have h2' : (Endpoint.byte0 f != 0x40) = true := by simp [bne, h2]
  have h3' : (Endpoint.byte0 f != 0x3a) = true := by simp [bne, h3]
  simp only [formatMatch, h1, h2', h3', Bool.false_and, Bool.true_and, Bool.false_eq_true, if_false]
  cases f == u <;> rfl

private theorem fm_star (us : List Bytes) : formatMatch us [b!"*"] = true := by cases us <;> rfl

private theorem fm_end (us : List Bytes) : formatMatch us [] = us.isEmpty := by cases us <;> rfl

private theorem ne_beq {a b : Bytes} (h : b ≠ a) : (a == b) = false := by
  rw [beq_eq_false_iff_ne]
  exact fun e => h e.symm

/-- below zero, GET -/
private theorem zero_list (method url : Bytes) {path : List Bytes} (hw : segments url = b!"multiple" :: b!"zero" :: path)
    (hm : eqCase b!"GET" method = true) :
    matchLoop method (slashWords url) endpoints = .ok ([e0, e1] ++ (one (formatMatch path [b!"one", b!"*"]) e2 ++
      (one (formatMatch path [b!"one", b!"two", b!"*"]) e3 ++ (one (formatMatch path [b!"one", b!"two", b!"three"]) e4 ++
      (one (formatMatch path [b!"onec", b!"*"]) e5 ++ one (formatMatch path [b!"onec", b!"two", b!"*"]) e6))))) := by
  rw [loop_eq method url hw, hm]
  have hz : ∀ fs, formatMatch (b!"multiple" :: b!"zero" :: path) (b!"multiple" :: b!"zero" :: fs) = formatMatch path fs := fun _ => rfl
  have ha : ∀ fs, formatMatch (b!"multiple" :: b!"zero" :: path) (b!"multiple" :: b!"auth" :: fs) = false := fun _ => rfl
  simp only [hz, ha, fm_star, Bool.true_and, Bool.and_false, one, if_true, Bool.false_eq_true, if_false, List.append_nil, List.cons_append, List.nil_append]

private def after (body : Bytes) (m : Mem) : World Mem := ⟨{ header := M, body := some (body ++ [0]), bodyLen := body.length, status := 200 }, false, m⟩

private theorem after_holds (body : Bytes) (m : Mem) :
    HoldsResp (after body m).resp [(b!"Access-Control-Allow-Origin", some b!"*")] [] body := by
  refine ⟨M_holds, rfl, by simp [after, bodyOf], ?_⟩
  intro b hb
  injection hb with hb
  subst hb
  simp [after]

/-- **C170, the levels.** Whatever the path of a GET request below `/multiple/zero`, however many slashes are in it and however the method is written:
there is one answer, 200 with the names of the levels the path goes through, one per line; the shared block was read while it lived, freed once and not
lost. -/
theorem C170_levels {accept : List Field → Bytes → Bytes → Bool} (hacc : accept [] b!"Access-Control-Allow-Origin" b!"*" = true)
    {method url : Bytes} (hm : fold method = fold b!"GET") {path : List Bytes} (hw : segments url = b!"multiple" :: b!"zero" :: path)
    (mhd : Option (Bytes × Bytes)) (a : Res (Option Ans × Option Mem)) :
    Serves accept method url mhd a ↔
      a = .ok (levelPage 200 none (joinLines (levelNames path)), some { ptr := .dangling, lost := 0, undef := false }) := by
  have hm' : eqCase b!"GET" method = true := by unfold eqCase; rw [hm]; exact beq_self_eq_true _
  have hl := zero_list method url hw hm'
  have go : ∀ (s : List Endpoint) (l : List Endpoint), matchLoop method (slashWords url) endpoints = .ok l → l.Perm s →
      s.Pairwise (fun a b => a.priority < b.priority) → ∀ body,
      Goes 0 w0 (s.map (fun e => callbackOf (askOf method url mhd) e.callback)) 2 (after body { ptr := .dangling, lost := 0, undef := false }) →
      (Serves accept method url mhd a ↔ a = .ok (levelPage 200 none body, some { ptr := .dangling, lost := 0, undef := false })) := by
    intro s l h1 h2 h3 body h4
    exact serves_of hacc h1 h2 h3 h4 (after_holds _ _) a
  have last : ∀ body pos, Goes pos (after body { ptr := .live, lost := 0, undef := false }) [levelFinal] 2
      (after body { ptr := .dangling, lost := 0, undef := false }) := fun body pos => .stop rfl (.inl rfl) rfl rfl
  have first : ∀ cbs w', cbs ≠ [] → Goes 1 (after b!"Level zero" { ptr := .live, lost := 0, undef := false }) cbs 2 w' → Goes 0 w0 (levelZero :: cbs) 2 w' :=
    fun cbs w' h1 h2 => .next rfl h1 rfl rfl h2
  cases path with
  | nil =>
    exact go [e1, e0] _ hl (.swap _ _ _) (by decide) _ (first _ _ (by simp) (last b!"Level zero" 1))
  | cons x path =>
    by_cases hx : x = b!"one"
    · subst hx
      have h6 : ∀ fs, formatMatch (b!"one" :: path) (b!"onec" :: fs) = false := fun _ => rfl
      have h7 : ∀ fs, formatMatch (b!"one" :: path) (b!"one" :: fs) = formatMatch path fs := fun _ => rfl
      rw [h6, h6, h7, h7, h7, fm_star] at hl
      cases path with
      | nil =>
        exact go [e1, e2, e0] _ hl (by decide) (by decide) _ (first _ _ (by simp) (.next rfl (by simp) rfl rfl (last b!"Level zero\nLevel one" 2)))
      | cons y path =>
        by_cases hy : y = b!"two"
        · subst hy
          have h8 : ∀ fs, formatMatch (b!"two" :: path) (b!"two" :: fs) = formatMatch path fs := fun _ => rfl
          rw [h8, h8, fm_star] at hl
          by_cases hz : path = [b!"three"]
          · subst hz
            exact go [e1, e2, e3, e4, e0] _ hl (by decide) (by decide) _ (first _ _ (by simp) (.next rfl (by simp) rfl rfl
              (.next rfl (by simp) rfl rfl (.next rfl (by simp) rfl rfl (last b!"Level zero\nLevel one\nLevel two\nLevel three" 4)))))
          · have h9 : formatMatch path [b!"three"] = false := by
              cases path with
              | nil => rfl
              | cons z t =>
                rw [fm_cons rfl rfl rfl, fm_end]
                cases t with
                | nil => rw [ne_beq (fun e => hz (by rw [e]))]; rfl
                | cons _ _ => simp
            rw [h9] at hl
            have hn : joinLines (levelNames (b!"one" :: b!"two" :: path)) = b!"Level zero\nLevel one\nLevel two" := by
              have : levelNames (b!"one" :: b!"two" :: path) = [b!"Level zero", b!"Level one", b!"Level two"] := by
                show b!"Level zero" :: b!"Level one" :: b!"Level two" :: (if path = [b!"three"] then [b!"Level three"] else []) = _
                rw [if_neg hz]
              rw [this]
              rfl
            rw [hn]
            exact go [e1, e2, e3, e0] _ hl (by decide) (by decide) _ (first _ _ (by simp) (.next rfl (by simp) rfl rfl
              (.next rfl (by simp) rfl rfl (last b!"Level zero\nLevel one\nLevel two" 3))))
        · have h8 : ∀ fs, formatMatch (y :: path) (b!"two" :: fs) = false := by
            intro fs
            rw [fm_cons rfl rfl rfl, ne_beq hy]
            rfl
          rw [h8, h8] at hl
          have hn : joinLines (levelNames (b!"one" :: y :: path)) = b!"Level zero\nLevel one" := by
            have : levelNames (b!"one" :: y :: path) = [b!"Level zero", b!"Level one"] := by
              show b!"Level zero" :: b!"Level one" :: (if some y = some b!"two" then _ else []) = _
              rw [if_neg (fun e => hy (by injection e))]
            rw [this]
            rfl
          rw [hn]
          exact go [e1, e2, e0] _ hl (by decide) (by decide) _ (first _ _ (by simp) (.next rfl (by simp) rfl rfl (last b!"Level zero\nLevel one" 2)))
    · have h6 : ∀ fs, formatMatch (x :: path) (b!"one" :: fs) = false := by
        intro fs
        rw [fm_cons rfl rfl rfl, ne_beq hx]
        rfl
      rw [h6, h6, h6] at hl
      by_cases hc : x = b!"onec"
      · subst hc
        have h7 : ∀ fs, formatMatch (b!"onec" :: path) (b!"onec" :: fs) = formatMatch path fs := fun _ => rfl
        rw [h7, h7, fm_star] at hl
        have stop : ∀ cbs, Goes 0 w0 (levelZero :: levelOneComplete :: cbs) 2
            (after b!"Level zero\nLevel one" { ptr := .dangling, lost := 0, undef := false }) :=
          fun cbs => first _ _ (by simp) (.stop rfl (.inl rfl) rfl rfl)
        show _ ↔ a = .ok (levelPage 200 none b!"Level zero\nLevel one", _)
        cases hb : formatMatch path [b!"two", b!"*"] with
        | true => rw [hb] at hl; exact go [e1, e5, e6, e0] _ hl (by decide) (by decide) _ (stop _)
        | false => rw [hb] at hl; exact go [e1, e5, e0] _ hl (by decide) (by decide) _ (stop _)
      · have h7 : ∀ fs, formatMatch (x :: path) (b!"onec" :: fs) = false := by
          intro fs
          rw [fm_cons rfl rfl rfl, ne_beq hc]
          rfl
        rw [h7, h7] at hl
        have hn : joinLines (levelNames (x :: path)) = b!"Level zero" := by
          have : levelNames (x :: path) = [b!"Level zero"] := by
            show b!"Level zero" :: (if some x = some b!"one" then _ else if some x = some b!"onec" then _ else []) = _
            rw [if_neg (fun e => hx (by injection e)), if_neg (fun e => hc (by injection e))]
          rw [this]
          rfl
        rw [hn]
        exact go [e1, e0] _ hl (.swap _ _ _) (by decide) _ (first _ _ (by simp) (last b!"Level zero" 1))

/-- A path with everything: repeated slashes, a method in lower case, credentials that nobody asks for. -/
example : fold b!"get" = fold b!"GET" ∧ segments b!"//multiple/zero/one//two/three/" = b!"multiple" :: b!"zero" :: [b!"one", b!"two", b!"three"] ∧
    joinLines (levelNames [b!"one", b!"two", b!"three"]) = b!"Level zero\nLevel one\nLevel two\nLevel three" ∧
    joinLines (levelNames [b!"one", b!"two", b!"four"]) = b!"Level zero\nLevel one\nLevel two" ∧
    joinLines (levelNames [b!"onec", b!"two"]) = b!"Level zero\nLevel one" := by decide +kernel

private theorem blank_holds (m : Mem) :
    HoldsResp ({ header := M } : Response) [(b!"Access-Control-Allow-Origin", some b!"*")] [] [] :=
  ⟨M_holds, rfl, rfl, by intro b hb; cases hb⟩

/-- **C170, other methods.** Any other request below `/multiple/zero` gets 200 with an empty body; there is no shared block. -/
theorem C170_other {accept : List Field → Bytes → Bytes → Bool} (hacc : accept [] b!"Access-Control-Allow-Origin" b!"*" = true)
    {method url : Bytes} (hm : fold method ≠ fold b!"GET") {path : List Bytes} (hw : segments url = b!"multiple" :: b!"zero" :: path)
    (mhd : Option (Bytes × Bytes)) (a : Res (Option Ans × Option Mem)) :
    Serves accept method url mhd a ↔ a = .ok (levelPage 200 none [], some { ptr := .null, lost := 0, undef := false }) := by
  have hm' : eqCase b!"GET" method = false := by
    unfold eqCase
    rw [beq_eq_false_iff_ne]
    exact fun e => hm e.symm
  have hz : ∀ fs, formatMatch (b!"multiple" :: b!"zero" :: path) (b!"multiple" :: b!"zero" :: fs) = formatMatch path fs := fun _ => rfl
  have ha : ∀ fs, formatMatch (b!"multiple" :: b!"zero" :: path) (b!"multiple" :: b!"auth" :: fs) = false := fun _ => rfl
  have hl : matchLoop method (slashWords url) endpoints = .ok [e0] := by
    rw [loop_eq method url hw, hm']
    simp only [hz, ha, fm_star, Bool.false_and, Bool.and_false, one, if_true, Bool.false_eq_true, if_false, List.append_nil]
  exact serves_of hacc hl (.refl _) (by decide) (ret := 2) (w' := ⟨{ header := M }, false, {}⟩) (.stop rfl (.inl rfl) rfl rfl) (blank_holds {}) a

/-- What libmicrohttpd reports is what the example asks for. -/
def Knows (mhd : Option (Bytes × Bytes)) : Prop := mhd = some (b!"test", b!"testpassword")

private theorem check_good {method url : Bytes} {mhd : Option (Bytes × Bytes)} (h : Knows mhd) (pos : Nat) (w : World Mem) :
    authCheck (askOf method url mhd) pos w = (0, w) := by
  unfold Knows at h
  subst h
  rfl

private theorem check_bad {method url : Bytes} {mhd : Option (Bytes × Bytes)} (h : ¬ Knows mhd) (pos : Nat) (w : World Mem) :
    authCheck (askOf method url mhd) pos w = (3, { w with resp := (setStringBody
      (if method = b!"PUT" then { w.resp with realm := some b!"specific_realm" } else w.resp) 401 (some b!"Error authentication")).2 }) := by
  unfold authCheck
  rw [if_neg]
  · have : ((askOf method url mhd).verb == some b!"PUT") = decide (method = b!"PUT") := by
      show (some method == some b!"PUT") = _
      rw [Bool.eq_iff_iff]
      simp
    simp only [this, decide_eq_true_eq]
    rfl
  · cases mhd with
    | none => simp [Credentials.setCredentials]
    | some q =>
      obtain ⟨u, p⟩ := q
      simp only [Credentials.setCredentials, Option.map_some, Option.isSome_some, Bool.and_eq_true, beq_iff_eq, Option.some.injEq]
      intro hh
      exact h (by unfold Knows; rw [hh.1.2, hh.2])

private theorem auth_list (method url : Bytes) {path : List Bytes} (hw : segments url = b!"multiple" :: b!"auth" :: path) :
    matchLoop method (slashWords url) endpoints = .ok (one (eqCase b!"GET" method) e7 ++ (one (eqCase b!"PUT" method) e8 ++
      one (formatMatch path [b!"data"]) e9)) := by
  rw [loop_eq method url hw]
  have hz : ∀ fs, formatMatch (b!"multiple" :: b!"auth" :: path) (b!"multiple" :: b!"zero" :: fs) = false := fun _ => rfl
  have ha : ∀ fs, formatMatch (b!"multiple" :: b!"auth" :: path) (b!"multiple" :: b!"auth" :: fs) = formatMatch path fs := fun _ => rfl
  simp only [hz, ha, fm_star, Bool.and_true, Bool.and_false, one, Bool.false_eq_true, if_false, List.nil_append]

private theorem data_match (path : List Bytes) : formatMatch path [b!"data"] = decide (path = [b!"data"]) := by
  cases path with
  | nil => rfl
  | cons z t =>
    rw [fm_cons rfl rfl rfl, fm_end]
    cases t with
    | nil =>
      rw [Bool.eq_iff_iff]
      simp only [List.isEmpty_nil, Bool.and_true, beq_iff_eq, decide_eq_true_eq, List.cons.injEq, and_true]
      exact eq_comm
    | cons _ _ => simp

private theorem auth_lists {method url : Bytes} (hm : fold method = fold b!"GET" ∨ fold method = fold b!"PUT") {path : List Bytes}
    (hw : segments url = b!"multiple" :: b!"auth" :: path) : ∃ e, (e = e7 ∨ e = e8) ∧
      matchLoop method (slashWords url) endpoints = .ok (if path = [b!"data"] then [e, e9] else [e]) := by
  rw [auth_list method url hw, data_match]
  have hval : ∀ k : Bytes, eqCase k method = (fold k == fold method) := fun _ => rfl
  rw [hval, hval]
  rcases hm with hm | hm
  · refine ⟨e7, .inl rfl, ?_⟩
    rw [hm, show (fold b!"GET" == fold b!"GET") = true from rfl, show (fold b!"PUT" == fold b!"GET") = false by decide]
    by_cases hp : path = [b!"data"]
    · simp [hp, one]
    · simp [hp, one]
  · refine ⟨e8, .inr rfl, ?_⟩
    rw [hm, show (fold b!"PUT" == fold b!"PUT") = true from rfl, show (fold b!"GET" == fold b!"PUT") = false by decide]
    by_cases hp : path = [b!"data"]
    · simp [hp, one]
    · simp [hp, one]

private def refusal (r : Option Bytes) : Response :=
  { header := M, realm := r, body := some (b!"Error authentication" ++ [0]), bodyLen := b!"Error authentication".length, status := 401 }

/-- **C169, the example, partial.** A GET or PUT request below `/multiple/auth`, however its path and its method are written: with the right user and
password it gets the data from `/multiple/auth/data` and an empty page elsewhere; with anything else it gets 401 with the message and the realm, which is the
specific one only when the method is written `PUT`.
Missing: the other methods, which get the data without a check (`C169_methods_false`). -/
theorem C169_example_partial {accept : List Field → Bytes → Bytes → Bool} (hacc : accept [] b!"Access-Control-Allow-Origin" b!"*" = true)
    {method url : Bytes} (hm : fold method = fold b!"GET" ∨ fold method = fold b!"PUT") {path : List Bytes}
    (hw : segments url = b!"multiple" :: b!"auth" :: path) (mhd : Option (Bytes × Bytes)) (a : Res (Option Ans × Option Mem)) :
    (Knows mhd → path = [b!"data"] → (Serves accept method url mhd a ↔ a = .ok (levelPage 200 none b!"Hello World!", some {}))) ∧
    (Knows mhd → path ≠ [b!"data"] → (Serves accept method url mhd a ↔ a = .ok (levelPage 200 none [], some {}))) ∧
    (¬ Knows mhd → (Serves accept method url mhd a ↔
      a = .ok (levelPage 401 (some (if method = b!"PUT" then b!"specific_realm" else b!"default_realm")) b!"Error authentication", some {}))) := by
  obtain ⟨e, he, hl⟩ := auth_lists hm hw
  have hcb : callbackOf (askOf method url mhd) e.callback = authCheck (askOf method url mhd) := by rcases he with rfl | rfl <;> rfl
  have hpr : e.priority = 1 := by rcases he with rfl | rfl <;> rfl
  refine ⟨?_, ?_, ?_⟩
  · intro hk hp
    rw [if_pos hp] at hl
    refine serves_of hacc hl (.refl _) (by simp [hpr]) (ret := 0) (w' := after b!"Hello World!" {}) ?_ (after_holds _ _) a
    simp only [List.map_cons, List.map_nil, hcb]
    exact .next (check_good hk _ _) (by simp) rfl rfl (.stop rfl (.inr (.inr ⟨rfl, rfl⟩)) rfl rfl)
  · intro hk hp
    rw [if_neg hp] at hl
    refine serves_of hacc hl (.refl _) (by simp) (ret := 0) (w' := ⟨{ header := M }, false, {}⟩) ?_ (blank_holds {}) a
    simp only [List.map_cons, List.map_nil, hcb]
    exact .stop (check_good hk _ _) (.inr (.inr ⟨rfl, rfl⟩)) rfl rfl
  · intro hk
    have hs : (if path = [b!"data"] then [e, e9] else [e]).Pairwise (fun a b => a.priority < b.priority) := by
      split <;> simp [hpr]
    have hfin : ∀ (r : Option Bytes), HoldsResp (refusal r) [(b!"Access-Control-Allow-Origin", some b!"*")] []
        b!"Error authentication" := fun r => ⟨M_holds, rfl, rfl, by intro b hb; injection hb with hb; subst hb; simp [refusal]⟩
    have hgo : ∀ cbs, Goes 0 w0 (authCheck (askOf method url mhd) :: cbs) 3
        ⟨refusal (if method = b!"PUT" then some b!"specific_realm" else none), false, {}⟩ := by
      intro cbs
      refine .stop (by rw [check_bad hk]; by_cases hp : method = b!"PUT" <;> simp [hp, setStringBody, refusal]) (.inr (.inl rfl)) rfl rfl
    have hmap : ∃ cbs, (if path = [b!"data"] then [e, e9] else [e]).map (fun e => callbackOf (askOf method url mhd) e.callback) =
        authCheck (askOf method url mhd) :: cbs := by
      split <;> simp [hcb]
    obtain ⟨cbs, hmap⟩ := hmap
    have := serves_of hacc hl (.refl _) hs (by rw [hmap]; exact hgo cbs) (hfin _) a
    rw [this, if_pos rfl]
    by_cases hp : method = b!"PUT" <;> simp [hp, refusal]

example : Knows (some (b!"test", b!"testpassword")) ∧ ¬ Knows (some (b!"test", b!"testpasswor")) ∧ ¬ Knows none ∧
    segments b!"/multiple/auth/data/" = b!"multiple" :: b!"auth" :: [b!"data"] ∧ fold b!"Put" = fold b!"PUT" := by
  unfold Knows
  decide +kernel

/-- **C169, false for the example.** The check is registered for GET and PUT, the data for every method: any other method, POST for instance, gets
the data without user and password. -/
theorem C169_methods_false {accept : List Field → Bytes → Bytes → Bool} (hacc : accept [] b!"Access-Control-Allow-Origin" b!"*" = true)
    {method url : Bytes} (h1 : fold method ≠ fold b!"GET") (h2 : fold method ≠ fold b!"PUT")
    (hw : segments url = [b!"multiple", b!"auth", b!"data"]) (mhd : Option (Bytes × Bytes)) (a : Res (Option Ans × Option Mem)) :
    Serves accept method url mhd a ↔ a = .ok (levelPage 200 none b!"Hello World!", some {}) := by
  have hne : ∀ k : Bytes, fold method ≠ fold k → eqCase k method = false := by
    intro k hk
    unfold eqCase
    rw [beq_eq_false_iff_ne]
    exact fun e => hk e.symm
  have hl : matchLoop method (slashWords url) endpoints = .ok [e9] := by
    rw [auth_list method url hw, hne _ h1, hne _ h2]
    rfl
  exact serves_of hacc hl (.refl _) (by simp) (ret := 0) (w' := after b!"Hello World!" {}) (.stop rfl (.inr (.inr ⟨rfl, rfl⟩)) rfl rfl)
    (after_holds _ _) a

example : fold b!"POST" ≠ fold b!"GET" ∧ fold b!"POST" ≠ fold b!"PUT" ∧ segments b!"/multiple/auth/data" = [b!"multiple", b!"auth", b!"data"] := by
  decide +kernel

/-- **C170, nothing there.** Every other request gets 404 from the default endpoint. -/
theorem C170_nothing {accept : List Field → Bytes → Bytes → Bool} (hacc : accept [] b!"Access-Control-Allow-Origin" b!"*" = true)
    {method url : Bytes} (h0 : (segments url).take 2 ≠ [b!"multiple", b!"zero"])
    (h1 : (segments url).take 2 = [b!"multiple", b!"auth"] → fold method ≠ fold b!"GET" ∧ fold method ≠ fold b!"PUT" ∧
      (segments url).drop 2 ≠ [b!"data"]) (mhd : Option (Bytes × Bytes)) (a : Res (Option Ans × Option Mem)) :
    Serves accept method url mhd a ↔ a = .ok (levelPage 404 none b!"Page not found, do what you want", some {}) := by
  refine serves_default hacc ?_ a
  have hne : ∀ k : Bytes, fold method ≠ fold k → eqCase k method = false := by
    intro k hk
    unfold eqCase
    rw [beq_eq_false_iff_ne]
    exact fun e => hk e.symm
  generalize hw : segments url = ws at h0 h1
  by_cases ha : ws.take 2 = [b!"multiple", b!"auth"]
  · obtain ⟨g1, g2, g3⟩ := h1 ha
    have hws : ws = b!"multiple" :: b!"auth" :: ws.drop 2 := by
      rw [← List.take_append_drop 2 ws, ha]
      rfl
    rw [auth_list method url (hw.trans hws), hne _ g1, hne _ g2, data_match]
    simp [one, g3]
  · rw [loop_eq method url hw]
    have key : ∀ (w : Bytes) (fs : List Bytes), fs ≠ [] → (Endpoint.byte0 w == 0x2a) = false → (Endpoint.byte0 w == 0x40) = false →
        (Endpoint.byte0 w == 0x3a) = false → ws.take 2 ≠ [b!"multiple", w] → formatMatch ws (b!"multiple" :: w :: fs) = false := by
      intro w fs hf k1 k2 k3 hn
      cases ws with
      | nil => exact fm_nil rfl
      | cons x t =>
        rw [fm_cons rfl rfl rfl]
        cases t with
        | nil => rw [fm_nil k1, Bool.and_false]
        | cons y t =>
          rw [fm_cons k1 k2 k3]
          cases hx : (b!"multiple" == x) with
          | false => rfl
          | true =>
            cases hy : (w == y) with
            | false => rfl
            | true =>
              rw [beq_iff_eq] at hx hy
              subst hx hy
              exact absurd rfl hn
    have kz : ∀ fs, fs ≠ [] → formatMatch ws (b!"multiple" :: b!"zero" :: fs) = false := fun fs hf => key _ _ hf rfl rfl rfl h0
    have ka : ∀ fs, fs ≠ [] → formatMatch ws (b!"multiple" :: b!"auth" :: fs) = false := fun fs hf => key _ _ hf rfl rfl rfl ha
    rw [kz _ (by simp), kz _ (by simp), kz _ (by simp), kz _ (by simp), kz _ (by simp), kz _ (by simp), ka _ (by simp), ka _ (by simp)]
    simp only [Bool.and_false]
    rfl

example : (segments b!"/multiple/auth/x").take 2 = [b!"multiple", b!"auth"] ∧ fold b!"DELETE" ≠ fold b!"GET" ∧ fold b!"DELETE" ≠ fold b!"PUT" ∧
    (segments b!"/multiple/auth/x").drop 2 ≠ [b!"data"] ∧ (segments b!"/multiple").take 2 ≠ [b!"multiple", b!"zero"] := by decide +kernel

end Verif.Props
