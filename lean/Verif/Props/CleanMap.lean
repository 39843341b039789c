import Verif.Model.CleanMap
import Verif.Props.UMap
namespace Verif.Props
open Verif.UMap
open Verif.Spec.OMap (OMap Op Code)

/-- What a program does with one map: calls of C07, or `u_map_clean` and `u_map_init`. -/
inductive MapUse where
  | call (op : Op)
  | renew

/-- The calls. -/
def useMap (m : UMap) : MapUse → Res UMap
  | .call op => do
    let (_, m') ← callMap m op
    return m'
  | .renew => do
    let _ ← CleanMap.clean m
    return UMap.init

/-- The program. -/
def useMaps (m : UMap) : List MapUse → Res UMap
  | [] => .ok m
  | u :: t => do useMaps (← useMap m u) t

/-- What the program means: to clean and to initialise a map is to forget everything. -/
def mapMeant (a : OMap) : List MapUse → OMap
  | [] => a
  | .call op :: t => mapMeant (Spec.OMap.step a op).2 t
  | .renew :: t => mapMeant [] t

namespace CleanMapHelp

theorem walk_rep (es : List Ent) : ∀ n i, i + n ≤ es.length → CleanMap.walk (rep es) n i = .ok () := by
  intro n
  induction n with
  | zero => intros; rfl
  | succ n ih =>
    intro i hi
    have hlt : i < es.length := by omega
    obtain ⟨e, he⟩ : ∃ e, es[i]? = some e := ⟨es[i], List.getElem?_eq_getElem hlt⟩
    have hk := aget_map (fun e : Ent => Ptr.to e.key) es [.null] i e he
    have hv := aget_map (fun e : Ent => Ptr.to e.buf) es [.null] i e he
    simp only [CleanMap.walk, rep, deref_some, Res.ok_bind, hk, hv, CleanMap.free]
    exact ih (i + 1) (by omega)

theorem clean_rep (es : List Ent) : CleanMap.clean (rep es) = .ok (.ok, UMap.clean (rep es)) := by
  unfold CleanMap.clean
  have : CleanMap.walk (rep es) (rep es).nb 0 = .ok () := walk_rep es _ 0 (by simp [rep])
  rw [this]; rfl

theorem uses (us : List MapUse) : ∀ (es : List Ent) (a : OMap), Good es → Sim es a → (∀ op, .call op ∈ us → ValidOp op) →
    ∃ es', useMaps (rep es) us = .ok (rep es') ∧ Good es' ∧ Sim es' (mapMeant a us) := by
  induction us with
  | nil => intro es a hg hs _; exact ⟨es, rfl, hg, hs⟩
  | cons u us ih =>
    intro es a hg hs hv
    have hv' : ∀ op, .call op ∈ us → ValidOp op := fun op h => hv op (by simp [h])
    cases u with
    | call op =>
      obtain ⟨es1, h1, g1, s1⟩ := UMapSim.step_sim es a hg hs op (hv op (by simp))
      obtain ⟨es2, h2, r⟩ := ih es1 _ g1 s1 hv'
      exact ⟨es2, by simp [useMaps, useMap, h1, h2, Res.pure_eq], r⟩
    | renew =>
      obtain ⟨es2, h2, r⟩ := ih [] [] good_nil sim_nil hv'
      exact ⟨es2, by simp [useMaps, useMap, clean_rep, init_eq, h2, Res.pure_eq], r⟩

theorem noNul (us : List MapUse) : ∀ a : OMap, (∀ p ∈ a, ∀ s, p.2 = some s → NoNul s) → (∀ op, .call op ∈ us → ValidOp op) →
    ∀ p ∈ mapMeant a us, ∀ s, p.2 = some s → NoNul s := by
  induction us with
  | nil => intro a ha _; exact ha
  | cons u us ih =>
    intro a ha hv
    have hv' : ∀ op, .call op ∈ us → ValidOp op := fun op h => hv op (by simp [h])
    cases u with
    | call op =>
      refine ih _ ?_ hv'
      have := UMapSim.noNul_run [op] a ha (fun o ho => by rw [List.mem_singleton.1 ho]; exact hv op (by simp))
      simpa [Spec.OMap.run] using this
    | renew => exact ih [] (by simp) hv'

end CleanMapHelp
open CleanMapHelp

/-- **C204, partial.** A program may clean a map and initialise it again as often as it likes, with any calls between: nothing undefined happens,
and at each moment the map tells, for every key, what was put since. Cleaning it at the end, or `u_map_empty`, is defined, and the copy of a
map that was cleaned is an empty map. Missing: everything else on a map that was cleaned (`C204_used_false`, `C204_twice_false`,
`C204_count_false`). -/
theorem C204_renew_partial (us : List MapUse) (hv : ∀ op, .call op ∈ us → ValidOp op) :
    ∃ m c, useMaps UMap.init us = .ok m ∧ (∀ k, getStr m k = .ok ((Spec.OMap.lookup (mapMeant [] us) k).join)) ∧
      UMap.enumKeys m = .ok ((mapMeant [] us).map (·.1)) ∧ (∀ k, UMap.hasKey m (some k) = .ok (Spec.OMap.lookup (mapMeant [] us) k).isSome) ∧
      UMap.count m = (mapMeant [] us).length ∧
      CleanMap.clean m = .ok (.ok, c) ∧ CleanMap.empty m = .ok (.ok, UMap.init) ∧ UMap.copy c = .ok (some UMap.init) ∧
      ∀ d, UMap.copyInto d c = .ok (.ok, d) := by
  obtain ⟨es, h1, _, hs⟩ := uses us [] [] good_nil sim_nil hv
  have hnn := noNul us [] (by simp) hv
  generalize mapMeant [] us = a at *
  refine ⟨rep es, UMap.clean (rep es), h1, fun k => ?_, by rw [enumKeys_rep, sim_keys hs], fun k => ?_, hs.1, clean_rep es, ?_, rfl, fun _ => rfl⟩
  · simp only [getStr, get_rep]
    rcases sim_find hs (fun x => x == k) with ⟨f1, f2⟩ | ⟨e, p, f1, f2, f3⟩
    · simp [f1, f2, Spec.OMap.lookup]
    · simp only [f1, Spec.OMap.lookup, f2, Option.bind_some, Option.map_some, Option.join_some]
      obtain ⟨g1, g2⟩ := f3
      cases hp : p.2 with
      | none => rw [hp] at g2; simp [g2]
      | some v =>
        rw [hp] at g2
        obtain ⟨g2, t, g3⟩ := g2
        have := readStr_strBuf v t (hnn p (List.mem_of_find?_eq_some f2) v hp)
        simp [g2, g3, this]
  · rw [hasKey_rep, sim_any hs (fun x => x == k)]
    congr 1
    simp only [Spec.OMap.lookup, Option.isSome_map]
    rw [Bool.eq_iff_iff, List.find?_isSome, List.any_eq_true]
  · simp [CleanMap.empty, clean_rep, Res.pure_eq]

/-- **C204 is false**: whatever a map held, once it is cleaned every question about it and every `u_map_put` reads through NULL. -/
theorem C204_used_false (m : UMap) (k : Bytes) (b : UInt8) (v : Option Bytes) (w : Bytes) (oom : Option Nat) :
    UMap.hasKey (UMap.clean m) (some k) = .ub ∧ UMap.hasKeyCase (UMap.clean m) (some k) = .ub ∧
    UMap.hasValue (UMap.clean m) (some w) = .ub ∧ UMap.hasValueCase (UMap.clean m) (some w) = .ub ∧
    UMap.get (UMap.clean m) (some k) = .ub ∧ UMap.getCase (UMap.clean m) (some k) = .ub ∧
    UMap.getLength (UMap.clean m) (some k) = .ub ∧ UMap.getCaseLength (UMap.clean m) (some k) = .ub ∧
    UMap.countKeysCase (UMap.clean m) (some k) = .ub ∧ UMap.enumKeys (UMap.clean m) = .ub ∧
    UMap.put (UMap.clean m) (some (b :: k)) v oom = .ub :=
  ⟨rfl, rfl, rfl, rfl, rfl, rfl, rfl, rfl, rfl, rfl, by cases v <;> rfl⟩

/-- **C204 is false**: a map that held something may not be cleaned or emptied again, and nothing can be removed from it. -/
theorem C204_twice_false (m : UMap) (hm : 0 < m.nb) (k : Bytes) :
    CleanMap.clean (UMap.clean m) = .ub ∧ CleanMap.empty (UMap.clean m) = .ub ∧ UMap.removeKey (UMap.clean m) (some k) = .ub ∧
    UMap.removeAt (UMap.clean m) 0 = .ub := by
  obtain ⟨n, hn⟩ : ∃ n, m.nb = n + 1 := ⟨m.nb - 1, by omega⟩
  have hw : CleanMap.clean (UMap.clean m) = .ub := by
    unfold CleanMap.clean
    have : (UMap.clean m).nb = n + 1 := hn
    rw [this]; rfl
  refine ⟨hw, ?_, ?_, ?_⟩
  · unfold CleanMap.empty; rw [hw]; rfl
  · unfold UMap.removeKey
    have : (UMap.clean m).nb = n + 1 := hn
    simp only [this]; rfl
  · unfold UMap.removeAt
    have : (UMap.clean m).nb = n + 1 := hn
    rw [this]; rfl

/-- **C204 is false**: a map that was cleaned still counts what it held. -/
theorem C204_count_false (m : UMap) : UMap.count (UMap.clean m) = UMap.count m := rfl

/-- A program that fills a map, renews it and fills it again, and one that comes to the second fault. -/
example : ∃ m m', useMaps UMap.init [.call (.put b!"a" (some b!"1")), .renew, .call (.put b!"b" (some b!"2"))] = .ok m ∧
    UMap.hasKey m (some b!"a") = .ok false ∧ UMap.hasKey m (some b!"b") = .ok true ∧
    useMaps UMap.init [.call (.put b!"a" (some b!"1"))] = .ok m' ∧ 0 < m'.nb :=
  ⟨_, _, rfl, rfl, rfl, rfl, by decide⟩

end Verif.Props
