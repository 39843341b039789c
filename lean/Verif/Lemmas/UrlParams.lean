import Verif.Lemmas.Endpoint
/-! # Lemmas on URL parameters and collected pairs -/
namespace Verif.Endpoint
open Verif.Strtok Verif.UrlCodec Verif.Utf8
open Verif.Spec.Segments Verif.Spec.Routing Verif.Spec.Utf8
open Verif.Spec.OMap (OMap lookup put lookup_put_self lookup_put_other)

theorem join_absorb (o w : Bytes) (vs : List Bytes) :
    joinComma ((o ++ b!"," ++ w) :: vs) = joinComma (o :: w :: vs) := by
  cases vs with
  | nil => rfl
  | cons v t => simp [joinComma]

/-- value stored when `w` arrives for a key -/
def addVal (old : Option (Option Bytes)) (w : Bytes) : Bytes :=
  match old with
  | some old => old.getD b!"(null)" ++ b!"," ++ w
  | none => w

theorem merged_addVal (old : Option (Option Bytes)) (w : Bytes) (vs : List Bytes) :
    merged (some (some (addVal old w))) vs = merged old (w :: vs) := by
  cases old with
  | none =>
    cases vs <;> simp [merged, addVal]
    rfl
  | some o =>
    cases vs with
    | nil => simp [merged, addVal, joinComma]
    | cons v t =>
      simp only [merged, addVal, Option.getD_some]
      rw [join_absorb]

open Classical in
theorem paramLoop_eq (check : Bool) (dec : Bytes → Bytes) (fmt url : List Bytes) (m : OMap)
    (hd : ∀ u ∈ url, urlDecode (some u) = .ok (some (dec u)))
    (hf : ∀ f ∈ fmt, f ≠ [0x3a] ∧ f ≠ [0x40]) :
    ∃ m', paramLoop check fmt url m = .ok (.ok, m') ∧ ∀ k, lookup m' k =
      merged (lookup m k) (paramValues dec (fun w => check = true → IsUtf8 w) k fmt url) := by
  induction fmt generalizing url m with
  | nil => exact ⟨m, by simp [paramLoop], fun k => by simp [paramValues, merged]⟩
  | cons f fs ih =>
    cases url with
    | nil => exact ⟨m, by simp [paramLoop], fun k => by simp [paramValues, merged]⟩
    | cons u us =>
      rw [paramLoop, hd u (by simp), Res.ok_bind]
      simp only [Option.getD_some]
      have hf' : ∀ f ∈ fs, f ≠ [0x3a] ∧ f ≠ [0x40] := fun f h => hf f (by simp [h])
      have hd' : ∀ u ∈ us, urlDecode (some u) = .ok (some (dec u)) := fun u h => hd u (by simp [h])
      have hok : (!check || utf8Ok (dec u)) = true ↔ (check = true → IsUtf8 (dec u)) := by
        rw [Bool.or_eq_true, Props.C05_utf8Ok]; cases check <;> simp
      by_cases hc : ((byte0 f == 0x3a || byte0 f == 0x40) && (!check || utf8Ok (dec u))) = true
      · rw [if_pos hc]
        rw [Bool.and_eq_true, Bool.or_eq_true, beq_iff_eq, beq_iff_eq, hok, byte0_eq (by decide),
          byte0_eq (by decide)] at hc
        obtain ⟨hp, hv⟩ := hc
        have hk : f.drop 1 ≠ [] := by
          rcases hp with ⟨t, rfl⟩ | ⟨t, rfl⟩
          · have := (hf _ List.mem_cons_self).1; simpa using this
          · have := (hf _ List.mem_cons_self).2; simpa using this
        rw [if_neg (by simpa using hk)]
        obtain ⟨m', h1, h2⟩ := ih us (put m (f.drop 1) (some (addVal (lookup m (f.drop 1)) (dec u)))) hd' hf'
        refine ⟨m', h1, ?_⟩
        intro k
        rw [h2]
        unfold paramValues
        rw [List.zip_cons_cons, List.filter_cons]
        by_cases hkk : f.drop 1 = k
        · subst hkk
          rw [if_pos, lookup_put_self, List.map_cons, merged_addVal]
          rw [decide_eq_true_iff]
          refine ⟨?_, hv⟩
          rcases hp with ⟨t, rfl⟩ | ⟨t, rfl⟩
          · left; rfl
          · right; rfl
        · rw [if_neg, lookup_put_other _ _ _ _ hkk]
          rw [decide_eq_true_iff]
          rintro ⟨h | h, _⟩ <;> (simp only at h; rw [h] at hkk; exact hkk rfl)
      · rw [if_neg hc]
        obtain ⟨m', h1, h2⟩ := ih us m hd' hf'
        refine ⟨m', h1, ?_⟩
        intro k
        rw [h2]
        unfold paramValues
        rw [List.zip_cons_cons, List.filter_cons, if_neg]
        rw [decide_eq_true_iff]
        rintro ⟨hk, hv⟩
        apply hc
        rw [Bool.and_eq_true, Bool.or_eq_true, beq_iff_eq, beq_iff_eq, hok, byte0_eq (by decide),
          byte0_eq (by decide)]
        refine ⟨?_, hv⟩
        rcases hk with h | h
        · left; exact ⟨k, h⟩
        · right; exact ⟨k, h⟩

theorem skipPrefix_eq (p u : List Bytes) : skipPrefix p u = u.drop p.length := by
  induction p generalizing u with
  | nil => simp [skipPrefix]
  | cons x t ih => cases u <;> simp [skipPrefix, ih]

theorem parseUrl_eq (url : Bytes) (e : Endpoint) (m : OMap) (check : Bool) :
    parseUrl url e m check =
      paramLoop check (segments (e.format.getD [])) ((segments url).drop (segments (e.pfx.getD [])).length) m := by
  unfold parseUrl
  have hnil : segments [] = [] := fields_nil _
  cases e.pfx <;> cases e.format <;> simp [slashWords_eq, skipPrefix_eq, hnil, paramLoop]

theorem foldl_put (q : OMap) (m : OMap) (h : ((m ++ q).map Prod.fst).Nodup) :
    q.foldl (fun m p => put m p.1 p.2) m = m ++ q := by
  induction q generalizing m with
  | nil => simp
  | cons p t ih =>
    rw [List.foldl_cons]
    have hp : put m p.1 p.2 = m ++ [p] := by
      unfold put
      rw [if_neg]
      intro ha
      rw [List.any_eq_true] at ha
      obtain ⟨x, hx, hxp⟩ := ha
      rw [List.map_append, List.nodup_append] at h
      exact h.2.2 x.1 (List.mem_map.2 ⟨x, hx, rfl⟩) p.1 (by simp) (by simpa using hxp)
    rw [hp, ih]
    · simp
    · simpa using h

open Classical in
theorem collect_eq (check : Bool) (ps : List (Bytes × Option Bytes)) (m : OMap) (hk : ∀ p ∈ ps, p.1 ≠ [])
    (hm : ∀ k, lookup m k ≠ some none) (k : Bytes) :
    lookup (collect check ps m) k = merged (lookup m k)
      (valuesOf (fun p => check = true → IsUtf8 p.1 ∧ ∀ v, p.2 = some v → IsUtf8 v) k ps) := by
  induction ps generalizing m with
  | nil => simp [collect, valuesOf, merged]
  | cons p t ih =>
    obtain ⟨key, value⟩ := p
    have hk' : ∀ p ∈ t, p.1 ≠ [] := fun p h => hk p (by simp [h])
    have hkey : key ≠ [] := hk (key, value) (by simp)
    rw [collect, fillMap]
    have hok : (check && !(utf8Ok key && (value.isNone || utf8Ok (value.getD [])))) = true ↔
        ¬ (check = true → IsUtf8 key ∧ ∀ v, value = some v → IsUtf8 v) := by
      have hu : ∀ w, utf8Ok w = true ↔ IsUtf8 w := Props.C05_utf8Ok
      cases value with
      | none => simp [← hu]
      | some v => simp [← hu]; cases utf8Ok key <;> simp
    unfold valuesOf
    rw [List.filter_cons]
    by_cases hc : (check && !(utf8Ok key && (value.isNone || utf8Ok (value.getD [])))) = true
    · rw [if_pos hc]
      rw [hok] at hc
      rw [if_neg (by rw [decide_eq_true_iff]; exact fun h => hc h.2)]
      exact ih m hk' hm
    · rw [if_neg hc]
      rw [hok, not_not] at hc
      rw [if_neg (by simpa using hkey)]
      have hval : appendOld (lookup m key).join (value.getD []) = addVal (lookup m key) (value.getD []) := by
        have := hm key
        cases hl : lookup m key with
        | none => rfl
        | some o =>
          cases o with
          | none => exact absurd hl this
          | some o => rfl
      simp only [hval]
      rw [ih (put m key (some (addVal (lookup m key) (value.getD [])))) hk']
      · by_cases hkk : key = k
        · subst hkk
          rw [if_pos (by rw [decide_eq_true_iff]; exact ⟨rfl, hc⟩), lookup_put_self, List.map_cons, merged_addVal]
          rfl
        · rw [if_neg (by rw [decide_eq_true_iff]; exact fun h => hkk h.1), lookup_put_other _ _ _ _ hkk]
          rfl
      · intro k'
        by_cases h : key = k'
        · subst h; rw [lookup_put_self]; simp
        · rw [lookup_put_other _ _ _ _ h]; exact hm k'

end Verif.Endpoint
