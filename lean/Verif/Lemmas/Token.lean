import Verif.Model.Token
import Verif.Spec.Token
import Verif.Lemmas.Handshake
import Verif.Lemmas.Options
import Verif.Lemmas.WsOpen
import Verif.Props.Answer
/-! # Lemmas on the callbacks that check tokens -/
namespace Verif.Token
open Verif.UMap Verif.Message Verif.Handshake Verif.Printf Verif.Props
open Verif.Spec.Json Verif.Spec.Client Verif.Spec.Handshake Verif.Spec.Segments Verif.Spec.Token

theorem getText_mem {m : UMap} {ps : Params} (h : HoldsParams m ps) (k : Bytes) :
    ∃ o, Client.getText m k = .ok o ∧ ∀ v, o = some v ↔ (k, some v) ∈ ps := by
  by_cases hk : ∃ p ∈ ps, p.1 = k
  · obtain ⟨p, hp, rfl⟩ := hk
    refine ⟨p.2, (h.2.2 p hp).1, ?_⟩
    intro v
    constructor
    · intro hv
      rw [← hv]
      exact hp
    · intro hv
      have h1 := (h.2.2 p hp).1
      have h2 := (h.2.2 _ hv).1
      rw [h1] at h2
      injection h2
  · refine ⟨none, ?_, ?_⟩
    · obtain ⟨es, rfl, hg, hs⟩ := holds_sim h
      unfold Client.getText
      rcases sim_find hs (fun x => x == k) with ⟨f1, _⟩ | ⟨e, p, _, f2, _⟩
      · rw [get_rep, f1]
        rfl
      · exact absurd ⟨p, List.mem_of_find?_eq_some f2, by simpa using List.find?_some f2⟩ hk
    · intro v
      constructor
      · intro hv; cases hv
      · intro hv; exact absurd ⟨_, hv, rfl⟩ hk

theorem first_find {ps : Params} {k v : Bytes} :
    First ps k v ↔ ∃ p, ps.find? (fun p => eqCase p.1 k) = some p ∧ p.2.getD [] = v := by
  constructor
  · rintro ⟨a, p, b, rfl, e2, e3, e4⟩
    refine ⟨p, ?_, e3⟩
    rw [List.find?_append, List.find?_eq_none.2 (fun x hx hc => e4 x hx ((WsOpen.same_name _ _).1 hc)), List.find?_cons,
      (WsOpen.same_name _ _).2 e2]
    rfl
  · rintro ⟨p, hf, hv⟩
    obtain ⟨h1, a, b, e1, e2⟩ := List.find?_eq_some_iff_append.1 hf
    exact ⟨a, p, b, e1, (WsOpen.same_name _ _).1 h1, hv, fun q hq hs => by
      have := e2 q hq
      rw [(WsOpen.same_name _ _).2 hs] at this
      cases this⟩

theorem caseText_first {m : UMap} {ps : Params} (h : HoldsParams m ps) (k : Bytes) :
    ∃ o, caseText m k = .ok o ∧ (o = none ↔ Absent ps k) ∧ ∀ v, o = some v ↔ First ps k v := by
  have hc := (holds_case h k).2
  cases hf : ps.find? (fun p => eqCase p.1 k) with
  | none =>
    rw [hf] at hc
    refine ⟨none, by unfold caseText; rw [hc]; rfl, ⟨?_, fun _ => rfl⟩, ?_⟩
    · intro _ q hq hs
      rw [List.find?_eq_none] at hf
      exact hf q hq ((WsOpen.same_name _ _).2 hs)
    · intro v
      rw [first_find, hf]
      simp
  | some p =>
    rw [hf] at hc
    obtain ⟨b, g1, g2⟩ := hc
    refine ⟨some (p.2.getD []), by unfold caseText; rw [g1, Res.ok_bind]; simp only [g2, Res.ok_bind]; rfl, ⟨?_, ?_⟩, ?_⟩
    · intro hn; cases hn
    · intro ha
      exact absurd ((WsOpen.same_name _ _).1 (List.find?_some (p := fun p : Bytes × Option Bytes => eqCase p.1 k) hf)) (ha p (List.mem_of_find?_eq_some hf))
    · intro v
      rw [first_find, hf]
      simp

theorem single_first {ps : Params} {k v : Bytes} (h : Single ps k v) : First ps k v := by
  obtain ⟨a, p, b, e1, e2, e3, e4⟩ := h
  exact ⟨a, p, b, e1, e2, e3, fun q hq => e4 q (by simp [hq])⟩

theorem first_unique {ps : Params} {k v w : Bytes} (h : First ps k v) (h' : First ps k w) : v = w := by
  rw [first_find] at h h'
  obtain ⟨p, e1, rfl⟩ := h
  obtain ⟨q, e2, rfl⟩ := h'
  rw [e1] at e2
  cases e2
  rfl

theorem first_mem {ps : Params} {k v : Bytes} (h : First ps k v) (hv : v ≠ []) : ∃ n, (n, some v) ∈ ps ∧ sameName n k := by
  obtain ⟨a, p, b, rfl, e2, e3, _⟩ := h
  obtain ⟨n, o⟩ := p
  cases o with
  | none => exact absurd e3.symm hv
  | some x => exact ⟨n, by simp [← e3], e2⟩

theorem count_single : ∀ (qs : Params) (k : Bytes) (p : Bytes × Option Bytes),
    qs.countP (fun p => eqCase p.1 k) = 1 → qs.find? (fun p => eqCase p.1 k) = some p → Single qs k (p.2.getD [])
  | [], _, _, h, _ => by simp at h
  | q :: t, k, p, h, hf => by
    rw [List.countP_cons] at h
    by_cases hq : eqCase q.1 k = true
    · rw [List.find?_cons, hq] at hf
      simp only [Option.some.injEq] at hf
      subst hf
      rw [if_pos hq] at h
      refine ⟨[], q, t, rfl, (WsOpen.same_name _ _).1 hq, rfl, ?_⟩
      intro x hx hn
      have h0 : t.countP (fun p => eqCase p.1 k) = 0 := by omega
      exact absurd ((WsOpen.same_name _ _).2 hn) (List.countP_eq_zero.1 h0 x hx)
    · rw [List.find?_cons] at hf
      simp only [hq] at hf
      rw [if_neg hq] at h
      obtain ⟨a, x, b, e1, e2, e3, e4⟩ := count_single t k p h hf
      refine ⟨q :: a, x, b, by rw [e1]; rfl, e2, e3, ?_⟩
      intro y hy
      have hy' : y ∈ q :: (a ++ b) := hy
      rcases List.mem_cons.1 hy' with rfl | hy
      · exact fun hn => hq ((WsOpen.same_name _ _).2 hn)
      · exact e4 y hy

theorem single_count {qs : Params} {k v : Bytes} (h : Single qs k v) :
    qs.countP (fun p => eqCase p.1 k) = 1 := by
  obtain ⟨a, p, b, rfl, e2, e3, e4⟩ := h
  have ha : ∀ x ∈ a, ¬ eqCase x.1 k = true := fun x hx hc => e4 x (by simp [hx]) ((WsOpen.same_name _ _).1 hc)
  have hb : ∀ x ∈ b, ¬ eqCase x.1 k = true := fun x hx hc => e4 x (by simp [hx]) ((WsOpen.same_name _ _).1 hc)
  have hp : eqCase p.1 k = true := (WsOpen.same_name _ _).2 e2
  rw [List.countP_append, List.countP_cons, List.countP_eq_zero.2 ha, List.countP_eq_zero.2 hb, if_pos hp]

/-- The map has exactly one header of the name, with value `v`. -/
theorem single_iff {ps : Params} {k v : Bytes} :
    Single ps k v ↔ ps.countP (fun p => eqCase p.1 k) = 1 ∧ First ps k v := by
  constructor
  · exact fun h => ⟨single_count h, single_first h⟩
  · rintro ⟨h1, h2⟩
    obtain ⟨p, e1, rfl⟩ := first_find.1 h2
    exact count_single ps k p h1 e1

theorem isForm_iff (v : Bytes) : isForm (some v) = true ↔ FormType v := by
  constructor
  · exact fun h => contains_split _ _ h
  · rintro ⟨a, b, rfl⟩
    exact contains_append a _ b

theorem prefix_iff (p v : Bytes) : p.isPrefixOf v = true ↔ ∃ t, v = p ++ t ∧ t = v.drop p.length := by
  rw [List.isPrefixOf_iff_prefix]
  constructor
  · rintro ⟨t, rfl⟩
    exact ⟨t, rfl, by simp⟩
  · rintro ⟨t, rfl, _⟩
    exact ⟨t, rfl⟩

theorem formType_ne {v : Bytes} (h : FormType v) : v ≠ [] := by
  rintro rfl
  obtain ⟨a, b, e⟩ := h
  have := congrArg List.length e
  simp at this

/-- What `bearerToken` finds. -/
theorem bearerToken_spec (any : Bool) (place : Nat) {q : Req} {hs form query : Params} (h1 : HoldsParams q.header hs)
    (h2 : HoldsParams q.postBody form) (h3 : HoldsParams q.url query) :
    ∃ o, bearerToken any place q = .ok o ∧ (∀ t, o = some t → Carries place hs form query b!"Bearer" t) ∧
      (∀ t, CarriesPlainly place hs form query b!"Bearer" t → o = some t) := by
  obtain ⟨ct, c1, c2, c3⟩ := caseText_first h1 b!"Content-Type"
  obtain ⟨gt, g1, g2⟩ := getText_mem h1 b!"Content-Type"
  obtain ⟨ft, f1, f2⟩ := getText_mem h2 b!"access_token"
  obtain ⟨ut, u1, u2⟩ := getText_mem h3 b!"access_token"
  obtain ⟨at', a1, a2, a3⟩ := caseText_first h1 b!"Authorization"
  match place with
  | 0 =>
    unfold bearerToken
    simp only [a1, Res.ok_bind]
    cases at' with
    | none =>
      refine ⟨none, rfl, by simp, ?_⟩
      rintro t (⟨_, h⟩ | ⟨h, _⟩ | ⟨h, _⟩)
      · have := (a3 _).2 (single_first h); cases this
      · cases h
      · cases h
    | some v =>
      have hv := (a3 v).1 rfl
      by_cases hp : (b!"Bearer ").isPrefixOf v = true
      · obtain ⟨t, e1, e2⟩ := (prefix_iff _ _).1 hp
        refine ⟨some (v.drop 7), by simp only [hp, if_true]; rfl, ?_, ?_⟩
        · intro t' ht'
          cases ht'
          refine .inl ⟨rfl, ?_⟩
          have : v = b!"Bearer" ++ b!" " ++ v.drop 7 := by
            rw [show v.drop 7 = t from e2.symm]; exact e1
          rw [← this]
          exact hv
        · rintro t' (⟨_, h⟩ | ⟨h, _⟩ | ⟨h, _⟩)
          · have := first_unique hv (single_first h)
            rw [this]
            rfl
          · cases h
          · cases h
      · refine ⟨none, by simp only [hp]; rfl, by simp, ?_⟩
        rintro t' (⟨_, h⟩ | ⟨h, _⟩ | ⟨h, _⟩)
        · have := first_unique hv (single_first h)
          exact absurd ((prefix_iff _ _).2 ⟨t', this, by rw [this]; rfl⟩) hp
        · cases h
        · cases h
  | 1 =>
    have sel : ∃ o, contentType any q = .ok o ∧
        (∀ v, o = some v → FormType v → ∃ k v, (k, some v) ∈ hs ∧ sameName k b!"Content-Type" ∧ FormType v) ∧
        (∀ v, (b!"Content-Type", some v) ∈ hs → Single hs b!"Content-Type" v → o = some v) := by
      cases any with
      | true =>
        refine ⟨ct, c1, ?_, ?_⟩
        · intro v hv hf
          obtain ⟨n, hn, hs'⟩ := first_mem ((c3 v).1 hv) (formType_ne hf)
          exact ⟨n, v, hn, hs', hf⟩
        · intro v _ hs'
          exact (c3 v).2 (single_first hs')
      | false =>
        refine ⟨gt, g1, ?_, ?_⟩
        · intro v hv hf
          exact ⟨_, v, (g2 v).1 hv, rfl, hf⟩
        · intro v hm _
          exact (g2 v).2 hm
    obtain ⟨o, s1, s2, s3⟩ := sel
    unfold bearerToken
    simp only [s1, Res.ok_bind]
    by_cases hf : isForm o = true
    · rw [if_pos hf, f1]
      refine ⟨ft, rfl, ?_, ?_⟩
      · intro t ht
        cases o with
        | none => cases hf
        | some v => exact .inr (.inl ⟨rfl, s2 v rfl ((isForm_iff v).1 hf), (f2 t).1 ht⟩)
      · rintro t (⟨h, _⟩ | ⟨_, _, h⟩ | ⟨h, _⟩)
        · cases h
        · exact (f2 t).2 h
        · cases h
    · rw [if_neg hf]
      refine ⟨none, rfl, by simp, ?_⟩
      rintro t (⟨h, _⟩ | ⟨_, ⟨v, hm, hsg, hft⟩, _⟩ | ⟨h, _⟩)
      · cases h
      · rw [s3 v hm hsg] at hf
        exact absurd ((isForm_iff v).2 hft) hf
      · cases h
  | 2 =>
    refine ⟨ut, u1, ?_, ?_⟩
    · intro t ht
      exact .inr (.inr ⟨rfl, (u2 t).1 ht⟩)
    · rintro t (⟨h, _⟩ | ⟨h, _⟩ | ⟨_, h⟩)
      · cases h
      · cases h
      · exact (u2 t).2 h
  | n + 3 =>
    refine ⟨none, rfl, by simp, ?_⟩
    rintro t (⟨h, _⟩ | ⟨h, _⟩ | ⟨h, _⟩) <;> simp at h

/-- What `idToken` finds. -/
theorem idToken_spec (place : Nat) {q : Req} {hs form query : Params} (h1 : HoldsParams q.header hs)
    (h2 : HoldsParams q.postBody form) (h3 : HoldsParams q.url query) :
    ∃ o, idToken place q = .ok o ∧ (∀ t b, o = some (t, b) → CarriesOnce place hs form query b t) ∧
      (∀ t b, CarriesPlainly place hs form query (if b then b!"DPoP" else b!"Bearer") t → (b = true → place = 0) → o = some (t, b)) := by
  obtain ⟨gt, g1, g2⟩ := getText_mem h1 b!"Content-Type"
  obtain ⟨ft, f1, f2⟩ := getText_mem h2 b!"access_token"
  obtain ⟨ut, u1, u2⟩ := getText_mem h3 b!"access_token"
  obtain ⟨at', a1, a2, a3⟩ := caseText_first h1 b!"Authorization"
  have hn := (holds_case h1 b!"Authorization").1
  match place with
  | 0 =>
    unfold idToken
    simp only [hn, Res.ok_bind]
    by_cases hc : hs.countP (fun p => eqCase p.1 b!"Authorization") = 1
    · rw [if_pos hc, a1]
      simp only [Res.ok_bind]
      cases at' with
      | none =>
        refine ⟨none, rfl, by simp, ?_⟩
        rintro t b (⟨_, h⟩ | ⟨h, _⟩ | ⟨h, _⟩)
        · have := (a3 _).2 (single_first h); cases this
        · cases h
        · cases h
      | some v =>
        have hv := single_iff.2 ⟨hc, (a3 v).1 rfl⟩
        refine ⟨authToken v, rfl, ?_, ?_⟩
        · intro t b ht
          unfold authToken at ht
          by_cases hp : (b!"Bearer ").isPrefixOf v = true
          · rw [if_pos hp] at ht
            cases ht
            obtain ⟨t, e1, e2⟩ := (prefix_iff _ _).1 hp
            refine .inl ⟨rfl, ?_⟩
            have : v = b!"Bearer" ++ b!" " ++ v.drop 7 := by
              rw [show v.drop 7 = t from e2.symm]; exact e1
            rw [if_neg (by decide), ← this]
            exact hv
          · rw [if_neg hp] at ht
            by_cases hd : (b!"DPoP ").isPrefixOf v = true
            · rw [if_pos hd] at ht
              cases ht
              obtain ⟨t, e1, e2⟩ := (prefix_iff _ _).1 hd
              refine .inl ⟨rfl, ?_⟩
              have : v = b!"DPoP" ++ b!" " ++ v.drop 5 := by
                rw [show v.drop 5 = t from e2.symm]; exact e1
              rw [if_pos rfl, ← this]
              exact hv
            · rw [if_neg hd] at ht
              cases ht
        · rintro t b (⟨_, h⟩ | ⟨h, _⟩ | ⟨h, _⟩) _
          · have := first_unique (single_first hv) (single_first h)
            cases b with
            | false =>
              rw [if_neg (by decide)] at this
              rw [this]
              rfl
            | true =>
              rw [if_pos rfl] at this
              rw [this]
              rfl
          · cases h
          · cases h
    · rw [if_neg hc]
      refine ⟨none, rfl, by simp, ?_⟩
      rintro t b (⟨_, h⟩ | ⟨h, _⟩ | ⟨h, _⟩)
      · exact absurd (single_count h) hc
      · cases h
      · cases h
  | 1 =>
    unfold idToken
    simp only [g1, Res.ok_bind]
    by_cases hf : isForm gt = true
    · rw [if_pos hf, f1]
      refine ⟨_, rfl, ?_, ?_⟩
      · intro t b ht
        cases gt with
        | none => cases hf
        | some v =>
          cases ft with
          | none => cases ht
          | some t' =>
            cases ht
            exact .inr ⟨by decide, rfl, .inr (.inl ⟨rfl, ⟨_, v, (g2 v).1 rfl, rfl, (isForm_iff v).1 hf⟩, (f2 _).1 rfl⟩)⟩
      · rintro t b (⟨h, _⟩ | ⟨_, _, h⟩ | ⟨h, _⟩) hb
        · cases h
        · rw [(f2 t).2 h]
          cases b with
          | false => rfl
          | true => exact absurd (hb rfl) (by decide)
        · cases h
    · rw [if_neg hf]
      refine ⟨none, rfl, by simp, ?_⟩
      rintro t b (⟨h, _⟩ | ⟨_, ⟨v, hm, hsg, hft⟩, _⟩ | ⟨h, _⟩)
      · cases h
      · rw [(g2 v).2 hm] at hf
        exact absurd ((isForm_iff v).2 hft) hf
      · cases h
  | 2 =>
    unfold idToken
    rw [u1]
    refine ⟨_, rfl, ?_, ?_⟩
    · intro t b ht
      cases ut with
      | none => cases ht
      | some t' =>
        cases ht
        exact .inr ⟨by decide, rfl, .inr (.inr ⟨rfl, (u2 _).1 rfl⟩)⟩
    · rintro t b (⟨h, _⟩ | ⟨h, _⟩ | ⟨_, h⟩) hb
      · cases h
      · cases h
      · rw [(u2 t).2 h]
        cases b with
        | false => rfl
        | true => exact absurd (hb rfl) (by decide)
  | n + 3 =>
    refine ⟨none, rfl, by simp, ?_⟩
    rintro t b (⟨h, _⟩ | ⟨h, _⟩ | ⟨h, _⟩) <;> simp at h

/-! ## Scopes -/

/-- The required scopes are separated by single spaces. -/
def TidyScopes (o : Option Bytes) : Prop := o.getD [] = [] ∨ ∀ w ∈ pieces 0x20 (o.getD []), w ≠ []

theorem scopes_nil : scopes [] = [] := rfl

theorem mem_scopes {s w : Bytes} : w ∈ scopes s ↔ w ∈ pieces 0x20 s ∧ w ≠ [] := by
  unfold scopes fields
  rw [List.mem_filter]
  simp

theorem hasValue_iff (l : List Bytes) (x : Bytes) : hasValue l x = true ↔ x ∈ l := by
  unfold hasValue
  rw [List.any_eq_true]
  constructor
  · rintro ⟨v, hv, he⟩
    rw [← show v = x by simpa using he]
    exact hv
  · exact fun h => ⟨x, h, by simp⟩

theorem mem_common {e : Option Bytes} (ht : TidyScopes e) (he : (e.getD []).length ≠ 0) (s w : Bytes) :
    w ∈ commonScopes (splitString 0x20 s) (splitString 0x20 (e.getD [])) ↔ w ∈ scopes (e.getD []) ∧ w ∈ scopes s := by
  have ht' : ∀ w ∈ pieces 0x20 (e.getD []), w ≠ [] := by
    rcases ht with h | h
    · rw [h] at he; exact absurd rfl he
    · exact h
  unfold commonScopes
  rw [List.mem_filter, hasValue_iff, splitString_eq, splitString_eq, mem_scopes, mem_scopes]
  constructor
  · rintro ⟨h1, h2⟩
    exact ⟨⟨h1, ht' w h1⟩, h2, ht' w h1⟩
  · rintro ⟨⟨h1, _⟩, h2, _⟩
    exact ⟨h1, h2⟩

theorem pieces_ne_nil (d : UInt8) (s : Bytes) : pieces d s ≠ [] := by
  cases s with
  | nil => simp [pieces]
  | cons c t =>
    rw [pieces]
    split
    · simp
    · split <;> simp

theorem scopes_ne {e : Option Bytes} (ht : TidyScopes e) (he : (e.getD []).length ≠ 0) : scopes (e.getD []) ≠ [] := by
  rcases ht with h | h
  · rw [h] at he; exact absurd rfl he
  · intro hn
    cases hp : pieces 0x20 (e.getD []) with
    | nil => exact pieces_ne_nil _ _ hp
    | cons w t =>
      have hw : w ∈ pieces 0x20 (e.getD []) := by rw [hp]; simp
      have := mem_scopes.2 ⟨hw, h w hw⟩
      rw [hn] at this
      cases this

theorem common_enough {e : Option Bytes} (ht : TidyScopes e) (he : (e.getD []).length ≠ 0) {claims : Json} {s : Bytes}
    (hs : claimText claims b!"scope" = some s) :
    0 < (commonScopes (splitString 0x20 s) (splitString 0x20 (e.getD []))).length ↔ Enough e claims := by
  rw [List.length_pos_iff_exists_mem]
  constructor
  · rintro ⟨w, hw⟩
    have := (mem_common ht he s w).1 hw
    exact .inr ⟨s, w, hs, this.2, this.1⟩
  · rintro (h | ⟨s', w, h1, h2, h3⟩)
    · exact absurd h (scopes_ne ht he)
    · rw [hs] at h1
      cases h1
      exact ⟨w, (mem_common ht he s w).2 ⟨h3, h2⟩⟩

theorem empty_enough {e : Option Bytes} (he : ¬ (e.getD []).length ≠ 0) (claims : Json) : Enough e claims := by
  left
  have : e.getD [] = [] := by
    cases h : e.getD [] with
    | nil => rfl
    | cons a t => rw [h] at he; simp at he
  rw [this]
  rfl

/-- What `checkScope` finds. -/
theorem checkScope_spec {null : Bool} {free : Option Json} {e : Option Bytes} (ht : TidyScopes e) {claims : Json} {x : ScopeRes}
    (h : checkScope null free e claims = .ok x) :
    match x with
    | .ok j => Enough e claims ∧
        ((e.getD []).length = 0 ∧ free = some j ∨
         ∃ ws : List Bytes, j = .arr (ws.map .str) ∧ ∀ w, w ∈ ws ↔ w ∈ scopes (e.getD []) ∧ ∃ s, claimText claims b!"scope" = some s ∧ w ∈ scopes s)
    | .insufficient => ¬ Enough e claims
    | .internal => claimText claims b!"scope" = none ∨ (e.getD []).length = 0 ∧ free = none := by
  unfold checkScope at h
  cases hs : jstr (jget (some claims) b!"scope") with
  | none =>
    rw [hs] at h
    simp only at h
    split at h
    · split at h
      · cases h
        exact .inl hs
      · rename_i he
        split at h
        · cases h
          exact ⟨empty_enough he claims, .inl ⟨by simpa using he, rfl⟩⟩
        · cases h
          exact .inl hs
    · cases h
  | some s =>
    rw [hs] at h
    simp only at h
    split at h
    · rename_i he
      split at h
      · rename_i hl
        cases h
        refine ⟨(common_enough ht he hs).1 hl, .inr ⟨_, rfl, ?_⟩⟩
        intro w
        rw [mem_common ht he s w]
        constructor
        · exact fun h => ⟨h.1, s, hs, h.2⟩
        · rintro ⟨h1, s', h2, h3⟩
          rw [show claimText claims b!"scope" = some s from hs] at h2
          cases h2
          exact ⟨h1, h3⟩
      · rename_i hl
        cases h
        exact fun hn => hl ((common_enough ht he hs).2 hn)
    · rename_i he
      split at h
      · cases h
        exact ⟨empty_enough he claims, .inl ⟨by simpa using he, rfl⟩⟩
      · rename_i hf
        cases h
        exact .inr ⟨by simpa using he, rfl⟩

theorem checkScope_defined {null : Bool} {free : Option Json} {e : Option Bytes} {claims : Json} {s : Bytes}
    (hs : claimText claims b!"scope" = some s) : ∃ x, checkScope null free e claims = .ok x := by
  unfold checkScope
  rw [show jstr (jget (some claims) b!"scope") = some s from hs]
  simp only
  split
  · split <;> exact ⟨_, rfl⟩
  · split <;> exact ⟨_, rfl⟩

theorem idScope_spec {e : Option Bytes} (ht : TidyScopes e) (claims : Json) :
    match idScope e claims with
    | .ok _ => Enough e claims
    | .insufficient => ¬ Enough e claims
    | .internal => claimText claims b!"scope" = none ∧ ¬ Enough e claims := by
  unfold idScope
  by_cases he : (e.getD []).length ≠ 0
  · rw [if_pos he]
    cases hs : jstr (jget (some claims) b!"scope") with
    | none =>
      refine ⟨hs, ?_⟩
      rintro (h | ⟨s, w, h, _⟩)
      · exact scopes_ne ht he h
      · unfold claimText at h
        rw [hs] at h
        cases h
    | some s =>
      have := common_enough ht he (claims := claims) (s := s) hs
      simp only
      split
      · rename_i x j hx
        split at hx
        · rename_i hl; exact this.1 hl
        · cases hx
      · rename_i x hx
        split at hx
        · cases hx
        · rename_i hl; exact fun hc => hl (this.2 hc)
      · rename_i x hx
        split at hx <;> cases hx
  · rw [if_neg he]
    exact empty_enough he claims

/-! ## Refusals -/

/-- What a refusal leaves. -/
theorem refuse_spec {r : Response} {hs : Params} {cs : List Bytes} {body : Bytes} (hr : HoldsResp r hs cs body)
    (realm : Option Bytes) (e d : Bytes) (hn : NoNul (challenge realm e d)) (hl : (challenge realm e d).length + 2 < 2 ^ 64) :
    ∃ out, refuse realm e d r = .ok out ∧ out.code = 3 ∧ out.shared = none ∧
      HoldsResp out.resp (Spec.OMap.put hs b!"WWW-Authenticate" (some (challenge realm e d))) cs body ∧
      out.resp = { r with header := out.resp.header } := by
  obtain ⟨m', p1, p2⟩ := holds_put hr.1 b!"WWW-Authenticate" (some (challenge realm e d)) (by decide) (by decide)
    (by intro x hx; cases hx; exact ⟨hn, hl⟩)
  unfold refuse
  rw [p1]
  exact ⟨_, rfl, rfl, rfl, ⟨p2, hr.2⟩, rfl⟩

end Verif.Token
