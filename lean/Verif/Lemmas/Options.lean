import Verif.Lemmas.Holds
import Verif.Model.Options
/-!
# Lemmas: the options of a request
-/
namespace Verif.Props
open Verif.UMap Verif.Message Verif.Options Verif.Printf
open Verif.Spec.OMap (OMap Code)
open Verif.Spec.Options (Arg Opt Ideal given added removed lastOf plain)

theorem holds_remove {m : UMap} {ps : OMap} (h : HoldsParams m ps) (k : Bytes) :
    ∃ m', UMap.removeKey m (some k) = .ok (rcOf (Spec.OMap.step ps (.removeKey k)).1, m') ∧
      HoldsParams m' (Spec.OMap.step ps (.removeKey k)).2 ∧ ((Spec.OMap.step ps (.removeKey k)).1 ≠ .done → m' = m) := by
  obtain ⟨es, rfl, hg, hs⟩ := holds_sim h
  have e1 := removeKey_rep es k
  have ha : es.any (fun e => e.key == k) = ps.any (fun p => p.1 == k) := sim_any hs (fun x => x == k)
  have hl : (Spec.OMap.lookup ps k).isSome = ps.any (fun p => p.1 == k) := by
    unfold Spec.OMap.lookup
    rw [Option.isSome_map, Bool.eq_iff_iff, List.find?_isSome, List.any_eq_true]
  refine ⟨_, ?_, sim_holds (Reach.removeKey h.1 e1) (sim_filter hs (fun x => !(x == k))) ?_, ?_⟩
  · rw [e1, ha]
    simp only [Spec.OMap.step, hl]
    cases ps.any (fun p => p.1 == k) <;> rfl
  · intro p hp
    exact (h.2.2 p ((List.mem_filter.1 hp).1)).2
  · intro hnot
    have hany : ¬ (es.any (fun e => e.key == k) = true) := by
      intro hc
      apply hnot
      simp only [Spec.OMap.step, hl, ← ha, hc, if_true]
    congr 1
    rw [List.filter_eq_self]
    intro a ha
    cases hk : (a.key == k) with
    | false => rfl
    | true => exact absurd (List.any_eq_true.2 ⟨a, ha, hk⟩) hany

/-- A key and a value of a map as the caller gives them. -/
def ValidPair (k v : Option Bytes) : Prop :=
  (∀ x, k = some x → NoNul x) ∧ ∀ x, v = some x → NoNul x ∧ x.length + 2 < 2 ^ 64

theorem holds_added {m : UMap} {ps : OMap} (h : HoldsParams m ps) (k v : Option Bytes) (hv : ValidPair k v) :
    ∃ m', UMap.put m k v = .ok (rcOf (added ps k v).1, m') ∧ HoldsParams m' (added ps k v).2 ∧
      ((added ps k v).1 ≠ .done → m' = m) := by
  cases k with
  | none => exact ⟨m, by cases v <;> rfl, h, fun _ => rfl⟩
  | some k =>
    by_cases hk : k = []
    · subst hk
      exact ⟨m, by cases v <;> rfl, h, fun _ => rfl⟩
    · obtain ⟨m', e1, e2⟩ := holds_put h k v hk (hv.1 k rfl) hv.2
      have hs : added ps (some k) v = (.done, Spec.OMap.put ps k v) := by simp [added, Spec.OMap.step, hk]
      rw [hs]
      exact ⟨m', e1, e2, fun hn => absurd rfl hn⟩

theorem holds_removed {m : UMap} {ps : OMap} (h : HoldsParams m ps) (k : Option Bytes) :
    ∃ m', UMap.removeKey m k = .ok (rcOf (removed ps k).1, m') ∧ HoldsParams m' (removed ps k).2 ∧
      ((removed ps k).1 ≠ .done → m' = m) := by
  cases k with
  | none => exact ⟨m, rfl, h, fun _ => rfl⟩
  | some k => exact holds_remove h k

/-- What a request shows through its fields and the public map functions. -/
structure Describes (r : Request) (i : Ideal) : Prop where
  verb : r.verb = i.verb
  url : r.url = i.url
  proxy : r.proxy = i.proxy
  network : r.network = i.network
  checkServer : r.checkServer = i.checkServer
  serverFlag : r.serverFlag = i.serverFlag
  checkProxy : r.checkProxy = i.checkProxy
  proxyFlag : r.proxyFlag = i.proxyFlag
  follow : r.followRedirect = i.follow
  caPath : r.caPath = i.caPath
  timeout : r.timeout = i.timeout
  user : r.user = i.user
  password : r.password = i.password
  params : HoldsParams r.mapUrl i.params
  headers : HoldsParams r.mapHeader i.headers
  cookies : HoldsParams r.mapCookie i.cookies
  form : HoldsParams r.mapPost i.form
  body : bodyOf r.body r.bodyLen = i.body
  bodyLen : r.bodyLen = i.body.length
  certFile : r.certFile = i.certFile
  keyFile : r.keyFile = i.keyFile
  keyPassword : r.keyPassword = i.keyPassword

/-- The fields no option sets. -/
def SameRest (r r' : Request) : Prop :=
  r'.protocol = r.protocol ∧ r'.urlPath = r.urlPath ∧ r'.clientAddress = r.clientAddress ∧ r'.position = r.position

/-- Arguments of an option: C strings that fit in memory and do not belong to the request, readable blocks, numbers in range. -/
def ValidOpt : Opt → Prop
  | .verb a | .url a | .proxy a | .caPath a | .user a | .password a | .certFile a | .keyFile a | .keyPassword a => a ≠ .own
  | .auth u p => u ≠ .own ∧ p ≠ .own
  | .urlAppend s => s ≠ none
  | .network n => n < 2 ^ 16
  | .timeout n => n < 2 ^ 31
  | .param k v | .header k v | .cookie k v | .form k v => ValidPair k v
  | .binaryBody b n => ∀ x, b = some x → n ≤ x.length
  | _ => True

theorem setText_ok (cur : Option Bytes) (a : Arg) (h : a ≠ .own) : setText cur a = .ok (given cur a) := by
  cases a with
  | null => rfl
  | own => exact absurd rfl h
  | text s => cases s <;> rfl

theorem timeoutValue_ok (n : Nat) (h : n < 2 ^ 31) : timeoutValue n = n := by
  unfold timeoutValue asInt
  have h1 : n % 2 ^ 32 = n := Nat.mod_eq_of_lt (by omega)
  rw [h1, if_pos h]
  omega

theorem option_step {r : Request} {i : Ideal} (h : Describes r i) (o : Opt) (hv : ValidOpt o) :
    ∃ r', setRequestOption r o = .ok (rcOf (i.step o).1, r') ∧ Describes r' (i.step o).2 ∧ SameRest r r' ∧
      ((i.step o).1 ≠ .done → r' = r) := by
  obtain ⟨h1, h2, h3, h4, h5, h6, h7, h8, h9, h10, h11, h12, h13, h14, h15, h16, h17, h18, h19, h20, h21, h22⟩ := h
  have base : Describes r i :=
    ⟨h1, h2, h3, h4, h5, h6, h7, h8, h9, h10, h11, h12, h13, h14, h15, h16, h17, h18, h19, h20, h21, h22⟩
  have hr : SameRest r r := ⟨rfl, rfl, rfl, rfl⟩
  cases o with
  | verb a =>
    refine ⟨{ r with verb := given r.verb a }, by simp only [setRequestOption, setText_ok _ _ hv]; rfl, ?_, hr, fun hn => absurd rfl hn⟩
    rw [h1]; exact { base with verb := rfl }
  | url a =>
    refine ⟨{ r with url := given r.url a }, by simp only [setRequestOption, setText_ok _ _ hv]; rfl, ?_, hr, fun hn => absurd rfl hn⟩
    rw [h2]; exact { base with url := rfl }
  | urlAppend s =>
    cases s with
    | none => exact absurd rfl hv
    | some s =>
      refine ⟨_, rfl, ?_, hr, fun hn => absurd rfl hn⟩
      rw [h2]; exact { base with url := rfl }
  | proxy a =>
    refine ⟨{ r with proxy := given r.proxy a }, by simp only [setRequestOption, setText_ok _ _ hv]; rfl, ?_, hr, fun hn => absurd rfl hn⟩
    rw [h3]; exact { base with proxy := rfl }
  | network n =>
    refine ⟨{ r with network := n }, by simp only [setRequestOption]; rw [Nat.mod_eq_of_lt hv]; rfl, { base with network := rfl }, hr, fun hn => absurd rfl hn⟩
  | checkServer n => exact ⟨_, rfl, { base with checkServer := rfl }, hr, fun hn => absurd rfl hn⟩
  | serverFlag n => exact ⟨_, rfl, { base with serverFlag := rfl }, hr, fun hn => absurd rfl hn⟩
  | checkProxy n => exact ⟨_, rfl, { base with checkProxy := rfl }, hr, fun hn => absurd rfl hn⟩
  | proxyFlag n => exact ⟨_, rfl, { base with proxyFlag := rfl }, hr, fun hn => absurd rfl hn⟩
  | follow n => exact ⟨_, rfl, { base with follow := rfl }, hr, fun hn => absurd rfl hn⟩
  | caPath a =>
    refine ⟨{ r with caPath := given r.caPath a }, by simp only [setRequestOption, setText_ok _ _ hv]; rfl, ?_, hr, fun hn => absurd rfl hn⟩
    rw [h10]; exact { base with caPath := rfl }
  | timeout n =>
    refine ⟨{ r with timeout := n }, by simp only [setRequestOption]; rw [timeoutValue_ok n hv]; rfl, { base with timeout := rfl }, hr, fun hn => absurd rfl hn⟩
  | user a =>
    refine ⟨{ r with user := given r.user a }, by simp only [setRequestOption, setText_ok _ _ hv]; rfl, ?_, hr, fun hn => absurd rfl hn⟩
    rw [h12]; exact { base with user := rfl }
  | password a =>
    refine ⟨{ r with password := given r.password a }, by simp only [setRequestOption, setText_ok _ _ hv]; rfl, ?_, hr, fun hn => absurd rfl hn⟩
    rw [h13]; exact { base with password := rfl }
  | auth u p =>
    refine ⟨{ r with user := given r.user u, password := given r.password p },
      by simp only [setRequestOption, setText_ok _ _ hv.1, setText_ok _ _ hv.2]; rfl, ?_, hr, fun hn => absurd rfl hn⟩
    rw [h12, h13]; exact { base with user := rfl, password := rfl }
  | param k v =>
    obtain ⟨m, e1, e2, e3⟩ := holds_added h14 k v hv
    exact ⟨{ r with mapUrl := m }, by simp only [setRequestOption, e1]; rfl, { base with params := e2 }, hr, fun hn => by rw [e3 hn]⟩
  | header k v =>
    obtain ⟨m, e1, e2, e3⟩ := holds_added h15 k v hv
    exact ⟨{ r with mapHeader := m }, by simp only [setRequestOption, e1]; rfl, { base with headers := e2 }, hr, fun hn => by rw [e3 hn]⟩
  | cookie k v =>
    obtain ⟨m, e1, e2, e3⟩ := holds_added h16 k v hv
    exact ⟨{ r with mapCookie := m }, by simp only [setRequestOption, e1]; rfl, { base with cookies := e2 }, hr, fun hn => by rw [e3 hn]⟩
  | form k v =>
    obtain ⟨m, e1, e2, e3⟩ := holds_added h17 k v hv
    exact ⟨{ r with mapPost := m }, by simp only [setRequestOption, e1]; rfl, { base with form := e2 }, hr, fun hn => by rw [e3 hn]⟩
  | paramRemove k =>
    obtain ⟨m, e1, e2, e3⟩ := holds_removed h14 k
    exact ⟨{ r with mapUrl := m }, by simp only [setRequestOption, e1]; rfl, { base with params := e2 }, hr, fun hn => by rw [e3 hn]⟩
  | headerRemove k =>
    obtain ⟨m, e1, e2, e3⟩ := holds_removed h15 k
    exact ⟨{ r with mapHeader := m }, by simp only [setRequestOption, e1]; rfl, { base with headers := e2 }, hr, fun hn => by rw [e3 hn]⟩
  | cookieRemove k =>
    obtain ⟨m, e1, e2, e3⟩ := holds_removed h16 k
    exact ⟨{ r with mapCookie := m }, by simp only [setRequestOption, e1]; rfl, { base with cookies := e2 }, hr, fun hn => by rw [e3 hn]⟩
  | formRemove k =>
    obtain ⟨m, e1, e2, e3⟩ := holds_removed h17 k
    exact ⟨{ r with mapPost := m }, by simp only [setRequestOption, e1]; rfl, { base with form := e2 }, hr, fun hn => by rw [e3 hn]⟩
  | binaryBody b n =>
    cases b with
    | none => exact ⟨r, rfl, base, hr, fun _ => rfl⟩
    | some b =>
      have hb := hv b rfl
      by_cases hn : n = 0
      · refine ⟨r, ?_, ?_, hr, fun _ => rfl⟩
        · simp only [setRequestOption, setBinaryBodyReq, hn, if_true, Ideal.step]; rfl
        · simp only [Ideal.step, hn, if_true]; exact base
      · refine ⟨{ r with body := some (b.take n), bodyLen := n }, ?_, ?_, hr, ?_⟩
        · simp only [setRequestOption, setBinaryBodyReq, hn, if_false, if_pos hb, Ideal.step]; rfl
        · simp only [Ideal.step, hn, if_false]
          exact { base with body := by simp only [bodyOf, Option.getD_some, List.take_take, Nat.min_self], bodyLen := by simp only [List.length_take]; omega }
        · intro hc; simp only [Ideal.step, hn, if_false] at hc; exact absurd rfl hc
  | stringBody s =>
    cases s with
    | none => exact ⟨r, rfl, base, hr, fun _ => rfl⟩
    | some s =>
      exact ⟨_, rfl, { base with body := by simp [bodyOf, setStringBodyReq, Ideal.step], bodyLen := rfl }, hr, fun hn => absurd rfl hn⟩
  | jsonBody t =>
    cases t with
    | none => exact ⟨r, rfl, base, hr, fun _ => rfl⟩
    | some t =>
      obtain ⟨m, e1, e2⟩ := holds_put h15 b!"Content-Type" (some b!"application/json") (by decide) (by decide)
        (by intro x hx; cases hx; decide)
      exact ⟨{ r with body := some (t ++ [0]), bodyLen := t.length, mapHeader := m },
        by simp only [setRequestOption, setJsonBodyReq, e1]; rfl,
        { base with headers := e2, body := by simp [bodyOf, Ideal.step], bodyLen := rfl }, hr, fun hn => absurd rfl hn⟩
  | certFile a =>
    refine ⟨{ r with certFile := given r.certFile a }, by simp only [setRequestOption, setText_ok _ _ hv]; rfl, ?_, hr, fun hn => absurd rfl hn⟩
    rw [h20]; exact { base with certFile := rfl }
  | keyFile a =>
    refine ⟨{ r with keyFile := given r.keyFile a }, by simp only [setRequestOption, setText_ok _ _ hv]; rfl, ?_, hr, fun hn => absurd rfl hn⟩
    rw [h21]; exact { base with keyFile := rfl }
  | keyPassword a =>
    refine ⟨{ r with keyPassword := given r.keyPassword a }, by simp only [setRequestOption, setText_ok _ _ hv]; rfl, ?_, hr, fun hn => absurd rfl hn⟩
    rw [h22]; exact { base with keyPassword := rfl }
  | other => exact ⟨r, rfl, base, hr, fun _ => rfl⟩

theorem rcOf_ok (c : Code) : rcOf c = .ok ↔ c = .done := by cases c <;> decide

theorem options_run (os : List Opt) : ∀ {r : Request} {i : Ideal}, Describes r i → (∀ o ∈ os, ValidOpt o) →
    ∃ r', setRequestProperties r os = .ok (rcOf (i.set os).1, r') ∧ Describes r' (i.set os).2 ∧ SameRest r r' ∧
      ((i.set os).1 ≠ .done → ∃ done o rest, os = done ++ o :: rest ∧ setRequestProperties r done = .ok (.ok, r')) := by
  induction os with
  | nil => intro r i h _; exact ⟨r, rfl, h, ⟨rfl, rfl, rfl, rfl⟩, fun hn => absurd rfl hn⟩
  | cons o t ih =>
    intro r i h hv
    obtain ⟨r1, e1, e2, e3, e4⟩ := option_step h o (hv o List.mem_cons_self)
    by_cases hd : (i.step o).1 = .done
    · obtain ⟨r2, f1, f2, f3, f4⟩ := ih e2 (fun x hx => hv x (List.mem_cons_of_mem _ hx))
      refine ⟨r2, ?_, ?_, ?_, ?_⟩
      · simp only [setRequestProperties, e1, Res.ok_bind, Ideal.set, hd, if_true]
        rw [if_pos (by rfl), f1]
      · simp only [Ideal.set, hd, if_true]; exact f2
      · exact ⟨f3.1.trans e3.1, f3.2.1.trans e3.2.1, f3.2.2.1.trans e3.2.2.1, f3.2.2.2.trans e3.2.2.2⟩
      · intro hn
        simp only [Ideal.set, hd, if_true] at hn
        obtain ⟨done, o', rest, g1, g2⟩ := f4 hn
        refine ⟨o :: done, o', rest, by rw [g1]; rfl, ?_⟩
        simp only [setRequestProperties, e1, Res.ok_bind, hd]
        rw [if_pos (by rfl), g2]
    · refine ⟨r1, ?_, ?_, e3, ?_⟩
      · simp only [setRequestProperties, e1, Res.ok_bind, Ideal.set, hd, if_false]
        rw [if_neg (by rw [rcOf_ok]; exact hd)]
        rfl
      · simp only [Ideal.set, hd, if_false]; exact e2
      · intro _
        exact ⟨[], o, t, rfl, by rw [e4 hd]; rfl⟩

/-- Induction over a successful list of options. -/
theorem ideal_last {α : Type} (g : Ideal → α) (f : Opt → Option α)
    (hstep : ∀ i o, ValidOpt o → (i.step o).1 = .done → g (i.step o).2 = (f o).getD (g i)) (os : List Opt) :
    ∀ i : Ideal, (∀ o ∈ os, ValidOpt o) → (i.set os).1 = .done → g (i.set os).2 = lastOf f (g i) os := by
  induction os with
  | nil => intro i _ _; rfl
  | cons o t ih =>
    intro i hv h
    by_cases hd : (i.step o).1 = .done
    · simp only [Ideal.set, hd, if_true] at h ⊢
      rw [ih _ (fun x hx => hv x (List.mem_cons_of_mem _ hx)) h, hstep i o (hv o List.mem_cons_self) hd]
      unfold lastOf
      rw [List.filterMap_cons]
      cases f o with
      | none => rfl
      | some v =>
        simp only [Option.getD_some]
        rw [List.getLast?_cons]
        rfl
    · simp only [Ideal.set, hd, if_false] at h

theorem ideal_map (g : Ideal → OMap) (f : Opt → List Spec.OMap.Op)
    (hstep : ∀ i o, (i.step o).1 = .done → g (i.step o).2 = (Spec.OMap.run (g i) (f o)).2) (os : List Opt) :
    ∀ i : Ideal, (i.set os).1 = .done → g (i.set os).2 = (Spec.OMap.run (g i) (os.flatMap f)).2 := by
  have happ : ∀ (a b : List Spec.OMap.Op) (m : OMap),
      (Spec.OMap.run m (a ++ b)).2 = (Spec.OMap.run (Spec.OMap.run m a).2 b).2 := by
    intro a
    induction a with
    | nil => intro b m; rfl
    | cons x t ih => intro b m; simp only [List.cons_append, Spec.OMap.run]; exact ih b _
  induction os with
  | nil => intro i _; rfl
  | cons o t ih =>
    intro i h
    by_cases hd : (i.step o).1 = .done
    · simp only [Ideal.set, hd, if_true] at h ⊢
      rw [ih _ h, hstep i o hd, List.flatMap_cons, happ]
    · simp only [Ideal.set, hd, if_false] at h

/-- What the case-insensitive functions show of a map of strings. -/
theorem holds_case {m : UMap} {hs : OMap} (h : HoldsParams m hs) (k : Bytes) :
    UMap.countKeysCase m (some k) = .ok (hs.countP (fun p => eqCase p.1 k)) ∧
    (match hs.find? (fun p => eqCase p.1 k) with
      | none => UMap.getCase m (some k) = .ok none
      | some p => ∃ b, UMap.getCase m (some k) = .ok (some b) ∧ readStr b = .ok (p.2.getD [])) := by
  obtain ⟨es, rfl, hg, hs'⟩ := holds_sim h
  refine ⟨by rw [countKeysCase_rep, Client.sim_countP hs' (fun x => eqCase x k)], ?_⟩
  rcases sim_find hs' (fun x => eqCase x k) with ⟨f1, f2⟩ | ⟨e, p, f1, f2, f3⟩
  · rw [f2]
    show UMap.getCase (rep es) (some k) = _
    rw [getCase_rep, f1]
    rfl
  · rw [f2]
    refine ⟨e.buf, by rw [getCase_rep, f1]; rfl, ?_⟩
    have hp := (h.2.2 p (List.mem_of_find?_eq_some f2)).2.2
    obtain ⟨_, hbl, hbz, _⟩ := hg.2 e (List.mem_of_find?_eq_some f1)
    have h2 := f3.2
    cases hp2 : p.2 with
    | none =>
      rw [hp2] at h2
      simp only at h2
      rw [h2] at hbl hbz
      match hb : e.buf, hbl, hbz with
      | [x], _, hz =>
        simp only [List.getElem?_cons_zero, Option.some.injEq] at hz
        subst hz
        rfl
    | some v =>
      rw [hp2] at h2
      obtain ⟨_, t, ht⟩ := h2
      rw [ht]
      exact readStr_strBuf v t (hp v hp2)

theorem contains_append (x needle y : Bytes) : contains needle (x ++ needle ++ y) = true := by
  induction x with
  | nil =>
    cases needle with
    | nil => cases y <;> rfl
    | cons c t =>
      simp only [List.nil_append, List.cons_append, contains, Bool.or_eq_true]
      left
      rw [List.isPrefixOf_iff_prefix]
      exact ⟨y, rfl⟩
  | cons c t ih =>
    simp only [List.cons_append, contains, Bool.or_eq_true]
    right
    exact ih

theorem contains_split (needle s : Bytes) (h : contains needle s = true) : ∃ x y, s = x ++ needle ++ y := by
  induction s with
  | nil =>
    simp only [contains, List.isEmpty_iff] at h
    exact ⟨[], [], by rw [h]; rfl⟩
  | cons c t ih =>
    simp only [contains, Bool.or_eq_true] at h
    rcases h with h | h
    · obtain ⟨y, hy⟩ := List.isPrefixOf_iff_prefix.1 h
      exact ⟨[], y, by rw [← hy]; rfl⟩
    · obtain ⟨x, y, hxy⟩ := ih h
      exact ⟨c :: x, y, by rw [hxy]; rfl⟩

end Verif.Props
