import Verif.Spec.OomRequest
import Verif.Lemmas.Oom
/-! # Lemmas about requests when memory runs out -/
namespace Verif.OomRequest
open Verif.UMap (Rc)
open Verif.Memory (P Own cP cA cL cL_append)
open Verif.Oom (H Map Rep cM cB cS cS_append cS_pick own_need own_touch own_free own_freeAll cA_at)

theorem own_alloc {f : F} (s : Spot) {h : H} {c : Nat → Nat} (o : Own h.mem c) :
    (∃ n h', alloc f s h = (.at n, h') ∧ Own h'.mem (fun k => cA (.at n) k + c k) ∧ h'.failed = h.failed) ∨
    ((∃ n, f n s = true) ∧ ∃ h', alloc f s h = (.null, h') ∧ Own h'.mem c ∧ h'.failed = h.failed + 1) := by
  rcases Oom.own_malloc (f := fun n _ => f n s) .realm o with x | ⟨e, x⟩
  · exact .inl x
  · exact .inr ⟨⟨_, e⟩, x⟩

theorem own_allocOk {f : F} (F : OnlySafe f) (s : Spot) (hs : Safe s = false) {h : H} {c : Nat → Nat} (o : Own h.mem c) :
    ∃ n h', alloc f s h = (.at n, h') ∧ Own h'.mem (fun k => cA (.at n) k + c k) ∧ h'.failed = h.failed := by
  rcases own_alloc (f := f) s o with x | ⟨⟨n, e⟩, -⟩
  · exact x
  · rw [F _ _ e] at hs; cases hs

/-- The blocks of a request that is in order. -/
def cReq (r : Req) (n : Nat) : Nat :=
  cP r.box n + cL r.texts n + cP r.address n + cB r.body r.bodyLen n + cM r.url n + cM r.header n + cM r.cookie n + cM r.post n

/-- The blocks of a connection. -/
def cCon (c : Con) (n : Nat) : Nat := cA c.box n + cM c.initial n + cReq c.request n

theorem own_mapClean {h : H} {c d : Nat → Nat} {m : Map} (o : Own h.mem c) (e : ∀ n, c n = cM m n + d n) :
    ∃ h', Oom.mapClean h m = .ok h' ∧ Own h'.mem (fun n => cP m.box n + d n) ∧ h'.failed = h.failed := by
  obtain ⟨p1, -⟩ := Oom.map_parts d o e
  obtain ⟨h', e', o', x'⟩ := Oom.own_mapCleanFull (m := { m with box := .null }) (d := fun n => cP m.box n + d n) o (by
    intro n; rw [e n]; simp only [cM, cP]; omega)
  refine ⟨h', ?_, o', x'⟩
  have : Oom.mapClean h { m with box := .null } = Oom.mapClean h m := by
    unfold Oom.mapClean
    rw [p1]
    rfl
  rw [← this]
  revert e'
  unfold Oom.mapCleanFull
  rcases Oom.mapClean h { m with box := .null } with h1 | _
  · intro e'; simpa [Oom.free, Memory.free] using e'
  · intro e'; cases e'

/-- A map that could not be initialised. -/
def bare (box : P) : Map := { box := box, keys := .null, values := .null, lengths := .null }

/-- The blocks of a map that is in order, or could not be initialised. -/
def cW (m : Map) (n : Nat) : Nat := if m = bare m.box then cP m.box n else cM m n

/-- The blocks of a request that can be cleaned. -/
def cReqL (r : Req) (n : Nat) : Nat :=
  cP r.box n + cL r.texts n + cP r.address n + cP r.body n + cW r.url n + cW r.header n + cW r.cookie n + cW r.post n

theorem own_cleanW {h : H} {c d : Nat → Nat} {m : Map} (o : Own h.mem c) (e : ∀ n, c n = cW m n + d n) :
    ∃ h', Oom.mapCleanFull h m = .ok h' ∧ Own h'.mem d ∧ h'.failed = h.failed := by
  by_cases hm : m = bare m.box
  · have e' : ∀ n, c n = cP m.box n + d n := by intro n; rw [e n]; unfold cW; rw [if_pos hm]
    have t := own_touch (p := m.box) d o e'
    obtain ⟨h', e1, o1, x1⟩ := own_free (p := m.box) o e'
    refine ⟨h', ?_, o1, x1⟩
    rw [hm]
    simp only [Oom.mapCleanFull, Oom.mapClean, bare, Oom.entryPtrs, List.flatMap_nil, t, Res.ok_bind, if_true]
    simpa [Oom.freeAll, Memory.freeAll, Memory.free] using e1
  · exact Oom.own_mapCleanFull o (by intro n; rw [e n]; unfold cW; rw [if_neg hm])

theorem W_eq {h : H} {c : Nat → Nat} {m : Map} (d : Nat → Nat) (o : Own h.mem c) (e : ∀ n, c n = cM m n + d n) (n : Nat) : cW m n = cM m n := by
  unfold cW
  split
  · rename_i hm
    have := o 0
    have e0 := e 0
    rw [hm] at e0
    simp only [cM, bare, cA] at e0
    omega
  · rfl

theorem L_eq {h : H} {c : Nat → Nat} {r : Req} (d : Nat → Nat) (o : Own h.mem c) (e : ∀ n, c n = cReq r n + d n) (n : Nat) : cReqL r n = cReq r n := by
  have e' : ∀ n, c n = cP r.box n + cL r.texts n + cP r.address n + cB r.body r.bodyLen n + cM r.url n + cM r.header n + cM r.cookie n + cM r.post n + d n := e
  have a1 := W_eq (m := r.url) (fun n => cP r.box n + cL r.texts n + cP r.address n + cB r.body r.bodyLen n + cM r.header n + cM r.cookie n + cM r.post n + d n) o
    (by intro n; rw [e' n]; omega) n
  have a2 := W_eq (m := r.header) (fun n => cP r.box n + cL r.texts n + cP r.address n + cB r.body r.bodyLen n + cM r.url n + cM r.cookie n + cM r.post n + d n) o
    (by intro n; rw [e' n]; omega) n
  have a3 := W_eq (m := r.cookie) (fun n => cP r.box n + cL r.texts n + cP r.address n + cB r.body r.bodyLen n + cM r.url n + cM r.header n + cM r.post n + d n) o
    (by intro n; rw [e' n]; omega) n
  have a4 := W_eq (m := r.post) (fun n => cP r.box n + cL r.texts n + cP r.address n + cB r.body r.bodyLen n + cM r.url n + cM r.header n + cM r.cookie n + d n) o
    (by intro n; rw [e' n]; omega) n
  have bb := Oom.B_eq (p := r.body) (len := r.bodyLen) (fun n => cP r.box n + cL r.texts n + cP r.address n + cM r.url n + cM r.header n + cM r.cookie n + cM r.post n + d n) o
    (by intro n; rw [e' n]; omega) n
  simp only [cReqL, cReq, a1, a2, a3, a4, bb]

theorem own_cleanL {h : H} {c d : Nat → Nat} {r : Req} (o : Own h.mem c) (e : ∀ n, c n = cReqL r n + d n) :
    ∃ h', clean h r = .ok h' ∧ Own h'.mem d ∧ h'.failed = h.failed := by
  obtain ⟨h1, e1, o1, x1⟩ := own_freeAll (d := fun n => cP r.box n + cP r.body n + cW r.url n + cW r.header n + cW r.cookie n + cW r.post n + d n)
    (r.texts ++ [r.address]) o (by intro n; rw [e n, cL_append]; simp only [cReqL, cL]; omega)
  obtain ⟨h2, e2, o2, x2⟩ := own_cleanW (m := r.url)
    (d := fun n => cP r.box n + cP r.body n + cW r.header n + cW r.cookie n + cW r.post n + d n) o1 (by intro n; omega)
  obtain ⟨h3, e3, o3, x3⟩ := own_cleanW (m := r.header)
    (d := fun n => cP r.box n + cP r.body n + cW r.cookie n + cW r.post n + d n) o2 (by intro n; omega)
  obtain ⟨h4, e4, o4, x4⟩ := own_cleanW (m := r.cookie)
    (d := fun n => cP r.box n + cP r.body n + cW r.post n + d n) o3 (by intro n; omega)
  obtain ⟨h5, e5, o5, x5⟩ := own_cleanW (m := r.post)
    (d := fun n => cP r.box n + cP r.body n + d n) o4 (by intro n; omega)
  obtain ⟨h6, e6, o6, x6⟩ := own_freeAll (d := d) [r.body, r.box] o5 (by intro n; simp only [cL]; omega)
  exact ⟨h6, by simp [clean, e1, e2, e3, e4, e5, e6], o6, by omega⟩

theorem own_clean {h : H} {c d : Nat → Nat} {r : Req} (o : Own h.mem c) (e : ∀ n, c n = cReq r n + d n) :
    ∃ h', clean h r = .ok h' ∧ Own h'.mem d ∧ h'.failed = h.failed :=
  own_cleanL o (by intro n; rw [e n, L_eq d o e n])

/-- `u_map_init` where it cannot fail. -/
theorem own_initOk {g : Oom.F} (w : Oom.Place) (hg : ∀ n s, g n s = false) {h : H} {c d : Nat → Nat} (box : P) (o : Own h.mem c)
    (e : ∀ n, c n = cP box n + d n) :
    ∃ m h', Oom.mapInit g w h box = .ok (.ok, m, h') ∧ m.box = box ∧ Own h'.mem (fun n => cM m n + d n) ∧ h'.failed = h.failed := by
  rcases Oom.own_mapInit (f := g) w box o with ⟨m, h', e1, b1, -, x1, o1, l1⟩ | ⟨y, -⟩
  · exact ⟨m, h', e1, b1, o1.congr (by intro n; rw [e n]; have := l1 n; omega), x1⟩
  · rcases y with ⟨n, y⟩ | ⟨n, y⟩ | ⟨n, y⟩ <;> · rw [hg] at y; cases y

theorem never {f : F} (F : OnlySafe f) (k : Oom.Site → Spot) (hk : ∀ s, Safe (k s) = false) : ∀ n s, (fun n s => f n (k s)) n s = false := by
  intro n s
  rcases hx : f n (k s) with _ | _
  · exact hx
  · have := F _ _ hx
    rw [hk] at this; cases this

theorem own_init {f : F} (F : OnlySafe f) {h : H} {c : Nat → Nat} (o : Own h.mem c) (box : P) :
    ∃ r h', init f h box = .ok (.ok, some r, h') ∧ Own h'.mem (fun n => cReq r n - cP box n + c n) ∧ (∀ n, cP box n ≤ cReq r n) ∧
      h'.failed = h.failed ∧ r.box = box ∧ r.texts = List.replicate 11 .null ∧ r.address = .null ∧ r.body = .null ∧ r.bodyLen = 0 := by
  obtain ⟨b1, h1, e1, o1, x1⟩ := own_allocOk F .mapBox rfl o
  obtain ⟨b2, h2, e2, o2, x2⟩ := own_allocOk F .mapBox rfl o1
  obtain ⟨b3, h3, e3, o3, x3⟩ := own_allocOk F .mapBox rfl o2
  obtain ⟨b4, h4, e4, o4, x4⟩ := own_allocOk F .mapBox rfl o3
  have nv := never F .initMap (fun _ => rfl)
  obtain ⟨m1, h5, e5, y5, o5, x5⟩ := own_initOk (g := fun n s => f n (.initMap s)) .call nv (.at b1)
    (d := fun n => cA (.at b2) n + cA (.at b3) n + cA (.at b4) n + c n) o4 (by intro n; simp only [cA_at]; omega)
  obtain ⟨m2, h6, e6, y6, o6, x6⟩ := own_initOk (g := fun n s => f n (.initMap s)) .call nv (.at b2)
    (d := fun n => cM m1 n + cA (.at b3) n + cA (.at b4) n + c n) o5 (by intro n; simp only [cA_at]; omega)
  obtain ⟨m3, h7, e7, y7, o7, x7⟩ := own_initOk (g := fun n s => f n (.initMap s)) .call nv (.at b3)
    (d := fun n => cM m1 n + cM m2 n + cA (.at b4) n + c n) o6 (by intro n; simp only [cA_at]; omega)
  obtain ⟨m4, h8, e8, y8, o8, x8⟩ := own_initOk (g := fun n s => f n (.initMap s)) .call nv (.at b4)
    (d := fun n => cM m1 n + cM m2 n + cM m3 n + c n) o7 (by intro n; simp only [cA_at]; omega)
  refine ⟨{ box := box, texts := List.replicate 11 .null, url := m1, header := m2, cookie := m3, post := m4 }, h8, ?_, o8.congr ?_, ?_, by omega,
    rfl, rfl, rfl, rfl, rfl⟩
  · simp [init, e1, e2, e3, e4, e5, e6, e7, e8]
  · intro n; simp only [cReq, cL, List.replicate, cP, cB, if_true]; omega
  · intro n; simp only [cReq]; omega

theorem own_copyTexts {f : F} (F : OnlySafe f) (l : List P) {h : H} {c : Nat → Nat} (d : Nat → Nat) (o : Own h.mem c) (e : ∀ n, c n = cL l n + d n) :
    ∃ l' h', copyTexts f h l = .ok (l', h') ∧ Own h'.mem (fun n => cL l' n + c n) ∧ h'.failed = h.failed := by
  induction l generalizing h c d with
  | nil => exact ⟨[], h, rfl, o.congr (by intro n; simp [cL]), rfl⟩
  | cons p t ih =>
    have first : ∃ q h1, dupText f .copyText h p = .ok (q, h1) ∧ Own h1.mem (fun n => cP q n + c n) ∧ h1.failed = h.failed := by
      unfold dupText
      split
      · exact ⟨.null, h, rfl, o.congr (by intro n; simp [cP]), rfl⟩
      · rename_i hp
        have nd : Oom.need h p = .ok () := by
          have := own_touch (p := p) (fun n => cL t n + d n) o (by intro n; rw [e n]; simp only [cL]; omega)
          simpa [Oom.touch, hp] using this
        obtain ⟨k, h1, e1, o1, x1⟩ := own_allocOk F .copyText rfl o
        exact ⟨.at k, h1, by simp [nd, e1], o1, x1⟩
    obtain ⟨q, h1, e1, o1, x1⟩ := first
    obtain ⟨l', h2, e2, o2, x2⟩ := ih (fun n => cP q n + cP p n + d n) o1 (by intro n; rw [e n]; simp only [cL]; omega)
    exact ⟨q :: l', h2, by simp [copyTexts, e1, e2], o2.congr (by intro n; simp only [cL]; omega), by omega⟩

theorem onlySafe_copyPut {f : F} (F : OnlySafe f) : Oom.OnlySafe (fun n s => f n (.copyPut s)) := fun n s h => F n (.copyPut s) h
theorem onlySafe_put {f : F} (F : OnlySafe f) : Oom.OnlySafe (fun n s => f n (.put s)) := fun n s h => F n (.put s) h
theorem onlySafe_jsonPut {f : F} (F : OnlySafe f) : Oom.OnlySafe (fun n s => f n (.jsonPut s)) := by
  intro n s h
  have := F n (.jsonPut s) h
  cases this

/-- The map of the fresh request after copying is one that can be cleaned. -/
theorem own_copyMap {f : F} (F : OnlySafe f) {dest src : Map} {h : H} {c d : Nat → Nat} (o : Own h.mem c) (e : ∀ n, c n = cM dest n + (cM src n + d n)) :
    (∃ m h', copyMap f h dest src = .ok (true, m, h') ∧ m.box = dest.box ∧ Own h'.mem (fun n => cM m n + (cM src n + d n)) ∧ h'.failed = h.failed) ∨
    (∃ m h', copyMap f h dest src = .ok (false, m, h') ∧ h.failed < h'.failed ∧
      ((m.box = dest.box ∧ Own h'.mem (fun n => cM m n + (cM src n + d n))) ∨
       (m = bare dest.box ∧ Own h'.mem (fun n => cP dest.box n + (cM src n + d n))))) := by
  obtain ⟨h1, e1, o1, x1⟩ := own_mapClean (m := dest) o e
  rcases Oom.own_mapInit (f := fun n s => f n (.copyInit s)) .copy dest.box o1 with ⟨m, h2, e2, b2, -, x2, o2, l2⟩ | ⟨-, m, h2, e2, x2, o2⟩
  · have o2' : Own h2.mem (fun n => cM m n + (cM src n + d n)) := o2.congr (by intro n; have := l2 n; omega)
    have hr := Oom.own_readMap (m := src) (fun n => cM m n + d n) o2' (by intro n; omega)
    by_cases hk : src.keys = .null
    · refine .inl ⟨m, h2, ?_, b2, o2', by omega⟩
      simp [copyMap, copyInto, e1, e2, hr, hk]
    · obtain ⟨rc, m', h3, e3, b3, o3, p3, r3⟩ := Oom.own_copyEntries (onlySafe_copyPut F) src src.entries (dest := m)
        (fun n => cP src.box n + cA src.keys n + cA src.values n + cA src.lengths n + Oom.cZ src.tailKey n + Oom.cZ src.tailValue n + d n) o2'
        (by intro n; simp only [cM]; omega) (by
          rintro h' ⟨x, ox⟩
          exact own_need (fun n => cM x n + Oom.cE src.entries n + cP src.box n + cA src.keys n + cA src.values n + Oom.cZ src.tailKey n + Oom.cZ src.tailValue n + d n) ox
            (by intro n; omega))
      have o3' : Own h3.mem (fun n => cM m' n + (cM src n + d n)) := o3.congr (by intro n; simp only [cM]; omega)
      rcases r3 with rfl | rfl
      · refine .inl ⟨m', h3, ?_, by rw [b3, b2], o3', by have := p3.ok; omega⟩
        simp [copyMap, copyInto, e1, e2, hr, hk, e3]
      · refine .inr ⟨m', h3, ?_, by have := p3.mem rfl; omega, .inl ⟨by rw [b3, b2], o3'⟩⟩
        simp [copyMap, copyInto, e1, e2, hr, hk, e3]
  · have hm : m = bare dest.box := by
      revert e2
      unfold Oom.mapInit
      rcases Oom.malloc (fun n s => f n (.copyInit s)) (.initKeys .copy) h1 with ⟨k, g1⟩
      dsimp only
      split
      · intro e2; simp only [Res.ok.injEq, Prod.mk.injEq] at e2; exact e2.2.1.symm
      · rcases Oom.malloc (fun n s => f n (.copyInit s)) (.initValues .copy) g1 with ⟨v, g2⟩
        dsimp only
        split
        · rcases Oom.free g2 k with g3 | _
          · intro e2; simp at e2; exact e2.1.symm
          · intro e2; cases e2
        · rcases Oom.malloc (fun n s => f n (.copyInit s)) (.initLengths .copy) g2 with ⟨l, g3⟩
          dsimp only
          split
          · rcases Oom.freeAll g3 [k, v] with g4 | _
            · intro e2; simp at e2; exact e2.1.symm
            · intro e2; cases e2
          · intro e2; simp at e2
    refine .inr ⟨m, h2, ?_, by omega, .inr ⟨hm, o2⟩⟩
    simp [copyMap, e1, e2]

/-- The blocks of the other maps, the texts, the address and the block of a request. -/
def cRest (r : Req) (w : Which) (n : Nat) : Nat :=
  cP r.box n + cL r.texts n + cP r.address n + cB r.body r.bodyLen n +
    (match w with
    | .url => cM r.header n + cM r.cookie n + cM r.post n
    | .header => cM r.url n + cM r.cookie n + cM r.post n
    | .cookie => cM r.url n + cM r.header n + cM r.post n
    | .post => cM r.url n + cM r.header n + cM r.cookie n)

theorem cReq_map (r : Req) (w : Which) (n : Nat) : cReq r n = cM (r.map w) n + cRest r w n := by
  cases w <;> simp only [cReq, Req.map, cRest] <;> omega

theorem cReq_setMap (r : Req) (w : Which) (m : Map) (n : Nat) : cReq (r.setMap w m) n = cM m n + cRest r w n := by
  cases w <;> simp only [cReq, Req.setMap, cRest] <;> omega

/-- What copying leaves: if it went well a request in order, otherwise one that can be cleaned. -/
def Copied (h0 h : H) (ok : Bool) (r : Req) (d : Nat → Nat) : Prop :=
  (ok = true ∧ h.failed = h0.failed ∧ Own h.mem (fun n => cReq r n + d n)) ∨
  (ok = false ∧ h0.failed < h.failed ∧ Own h.mem (fun n => cReqL r n + d n))

theorem own_copyWhich {f : F} (F : OnlySafe f) (w : Which) {h0 h : H} {ok : Bool} {dest src : Req} {d : Nat → Nat}
    (k : Copied h0 h ok dest (fun n => cReq src n + d n)) :
    ∃ ok' dest' h', copyWhich f h ok dest src w = .ok (ok', dest', h') ∧ Copied h0 h' ok' dest' (fun n => cReq src n + d n) ∧
      dest'.body = dest.body ∧ dest'.bodyLen = dest.bodyLen := by
  have sb : ∀ m, (dest.setMap w m).body = dest.body ∧ (dest.setMap w m).bodyLen = dest.bodyLen := by intro m; cases w <;> exact ⟨rfl, rfl⟩
  rcases k with ⟨rfl, x, o⟩ | ⟨rfl, x, o⟩
  · rcases own_copyMap F (dest := dest.map w) (src := src.map w) (d := fun n => cRest dest w n + cRest src w n + d n) o
        (by intro n; dsimp only; rw [cReq_map dest w, cReq_map src w]; omega) with ⟨m, h', e1, -, o1, x1⟩ | ⟨m, h', e1, x1, o1⟩
    · refine ⟨true, dest.setMap w m, h', by simp [copyWhich, e1], .inl ⟨rfl, by omega, o1.congr ?_⟩, sb m⟩
      intro n; dsimp only; rw [cReq_setMap, cReq_map src w]; omega
    · refine ⟨false, dest.setMap w m, h', by simp [copyWhich, e1], .inr ⟨rfl, by omega, ?_⟩, sb m⟩
      rcases o1 with ⟨-, o1⟩ | ⟨rfl, o1⟩
      · have o2 : Own h'.mem (fun n => cReq (dest.setMap w m) n + (cReq src n + d n)) :=
          o1.congr (by intro n; rw [cReq_setMap, cReq_map src w]; omega)
        exact o2.congr (by intro n; rw [L_eq _ o2 (fun _ => rfl)])
      · have o2 : Own h'.mem (fun n => cP (dest.map w).box n + cRest dest w n + (cReq src n + d n)) :=
          o1.congr (by intro n; rw [cReq_map src w]; omega)
        have hb : ∀ b, bare b = bare (bare b).box := fun _ => rfl
        have wb : ∀ b n, cW (bare b) n = cP b n := by intro b n; unfold cW; rw [if_pos (hb b)]; rfl
        have eb := fun (D : Nat → Nat) (e : ∀ n, cP (dest.map w).box n + cRest dest w n + (cReq src n + d n) = cB dest.body dest.bodyLen n + D n) =>
          Oom.B_eq (p := dest.body) (len := dest.bodyLen) D o2 e
        have em := fun (m : Map) (D : Nat → Nat) (e : ∀ n, cP (dest.map w).box n + cRest dest w n + (cReq src n + d n) = cM m n + D n) =>
          W_eq (m := m) D o2 e
        refine o2.congr ?_
        intro n
        cases w with
        | url =>
          have b := eb (fun n => cP dest.url.box n + cP dest.box n + cL dest.texts n + cP dest.address n + cM dest.header n + cM dest.cookie n + cM dest.post n + (cReq src n + d n))
            (by intro n; simp only [Req.map, cRest]; omega) n
          have a1 := em dest.header (fun n => cP dest.url.box n + cP dest.box n + cL dest.texts n + cP dest.address n + cB dest.body dest.bodyLen n + cM dest.cookie n + cM dest.post n + (cReq src n + d n))
            (by intro n; simp only [Req.map, cRest]; omega) n
          have a2 := em dest.cookie (fun n => cP dest.url.box n + cP dest.box n + cL dest.texts n + cP dest.address n + cB dest.body dest.bodyLen n + cM dest.header n + cM dest.post n + (cReq src n + d n))
            (by intro n; simp only [Req.map, cRest]; omega) n
          have a3 := em dest.post (fun n => cP dest.url.box n + cP dest.box n + cL dest.texts n + cP dest.address n + cB dest.body dest.bodyLen n + cM dest.header n + cM dest.cookie n + (cReq src n + d n))
            (by intro n; simp only [Req.map, cRest]; omega) n
          simp only [cReqL, Req.setMap, Req.map, cRest, wb, a1, a2, a3, b]; omega
        | header =>
          have b := eb (fun n => cP dest.header.box n + cP dest.box n + cL dest.texts n + cP dest.address n + cM dest.url n + cM dest.cookie n + cM dest.post n + (cReq src n + d n))
            (by intro n; simp only [Req.map, cRest]; omega) n
          have a1 := em dest.url (fun n => cP dest.header.box n + cP dest.box n + cL dest.texts n + cP dest.address n + cB dest.body dest.bodyLen n + cM dest.cookie n + cM dest.post n + (cReq src n + d n))
            (by intro n; simp only [Req.map, cRest]; omega) n
          have a2 := em dest.cookie (fun n => cP dest.header.box n + cP dest.box n + cL dest.texts n + cP dest.address n + cB dest.body dest.bodyLen n + cM dest.url n + cM dest.post n + (cReq src n + d n))
            (by intro n; simp only [Req.map, cRest]; omega) n
          have a3 := em dest.post (fun n => cP dest.header.box n + cP dest.box n + cL dest.texts n + cP dest.address n + cB dest.body dest.bodyLen n + cM dest.url n + cM dest.cookie n + (cReq src n + d n))
            (by intro n; simp only [Req.map, cRest]; omega) n
          simp only [cReqL, Req.setMap, Req.map, cRest, wb, a1, a2, a3, b]; omega
        | cookie =>
          have b := eb (fun n => cP dest.cookie.box n + cP dest.box n + cL dest.texts n + cP dest.address n + cM dest.url n + cM dest.header n + cM dest.post n + (cReq src n + d n))
            (by intro n; simp only [Req.map, cRest]; omega) n
          have a1 := em dest.url (fun n => cP dest.cookie.box n + cP dest.box n + cL dest.texts n + cP dest.address n + cB dest.body dest.bodyLen n + cM dest.header n + cM dest.post n + (cReq src n + d n))
            (by intro n; simp only [Req.map, cRest]; omega) n
          have a2 := em dest.header (fun n => cP dest.cookie.box n + cP dest.box n + cL dest.texts n + cP dest.address n + cB dest.body dest.bodyLen n + cM dest.url n + cM dest.post n + (cReq src n + d n))
            (by intro n; simp only [Req.map, cRest]; omega) n
          have a3 := em dest.post (fun n => cP dest.cookie.box n + cP dest.box n + cL dest.texts n + cP dest.address n + cB dest.body dest.bodyLen n + cM dest.url n + cM dest.header n + (cReq src n + d n))
            (by intro n; simp only [Req.map, cRest]; omega) n
          simp only [cReqL, Req.setMap, Req.map, cRest, wb, a1, a2, a3, b]; omega
        | post =>
          have b := eb (fun n => cP dest.post.box n + cP dest.box n + cL dest.texts n + cP dest.address n + cM dest.url n + cM dest.header n + cM dest.cookie n + (cReq src n + d n))
            (by intro n; simp only [Req.map, cRest]; omega) n
          have a1 := em dest.url (fun n => cP dest.post.box n + cP dest.box n + cL dest.texts n + cP dest.address n + cB dest.body dest.bodyLen n + cM dest.header n + cM dest.cookie n + (cReq src n + d n))
            (by intro n; simp only [Req.map, cRest]; omega) n
          have a2 := em dest.header (fun n => cP dest.post.box n + cP dest.box n + cL dest.texts n + cP dest.address n + cB dest.body dest.bodyLen n + cM dest.url n + cM dest.cookie n + (cReq src n + d n))
            (by intro n; simp only [Req.map, cRest]; omega) n
          have a3 := em dest.cookie (fun n => cP dest.post.box n + cP dest.box n + cL dest.texts n + cP dest.address n + cB dest.body dest.bodyLen n + cM dest.url n + cM dest.header n + (cReq src n + d n))
            (by intro n; simp only [Req.map, cRest]; omega) n
          simp only [cReqL, Req.setMap, Req.map, cRest, wb, a1, a2, a3, b]; omega
  · exact ⟨false, dest, h, rfl, .inr ⟨rfl, x, o⟩, rfl, rfl⟩

theorem own_copyBody {f : F} {h0 h : H} {ok : Bool} {dest src : Req} {d : Nat → Nat} (hb : dest.body = .null ∧ dest.bodyLen = 0)
    (k : Copied h0 h ok dest (fun n => cReq src n + d n)) :
    ∃ ok' dest' h', copyBody f h ok dest src = .ok (ok', dest', h') ∧ Copied h0 h' ok' dest' (fun n => cReq src n + d n) := by
  rcases k with ⟨rfl, x, o⟩ | ⟨rfl, x, o⟩
  · by_cases hl : src.bodyLen = 0
    · exact ⟨true, dest, h, by simp [copyBody, hl], .inl ⟨rfl, x, o⟩⟩
    · rcases own_alloc (f := f) .copyBody o with ⟨b, h1, e1, o1, x1⟩ | ⟨-, h1, e1, o1, x1⟩
      · have nd : Oom.need h1 src.body = .ok () := own_need
          (fun n => cA (.at b) n + cReq dest n + cP src.box n + cL src.texts n + cP src.address n + cM src.url n + cM src.header n + cM src.cookie n + cM src.post n + d n) o1
          (by intro n; simp only [cReq, cB, hl, if_false]; omega)
        refine ⟨true, { dest with body := .at b, bodyLen := src.bodyLen }, h1, by simp [copyBody, hl, e1, nd], .inl ⟨rfl, by omega, o1.congr ?_⟩⟩
        intro n
        simp only [cReq, cB, hl, if_false, hb.1, hb.2, if_true, cP]; omega
      · refine ⟨false, { dest with body := .null, bodyLen := src.bodyLen }, h1, by simp [copyBody, hl, e1], .inr ⟨rfl, by omega, o1.congr ?_⟩⟩
        intro n
        rw [← L_eq _ o (fun _ => rfl) n]
        simp only [cReqL, hb.1]
  · exact ⟨false, dest, h, by simp [copyBody], .inr ⟨rfl, x, o⟩⟩

theorem own_copy {f : F} (F : OnlySafe f) {h : H} {dest src : Req} {d : Nat → Nat} (o : Own h.mem (fun n => cReq dest n + (cReq src n + d n)))
    (ht : dest.texts = List.replicate 11 .null) (ha : dest.address = .null) (hb : dest.body = .null) (hl : dest.bodyLen = 0) :
    ∃ ok dest' h', copy f h dest src = .ok (ok, dest', h') ∧ Copied h h' ok dest' (fun n => cReq src n + d n) := by
  obtain ⟨ts, h1, e1, o1, x1⟩ := own_copyTexts F src.texts
    (fun n => cReq dest n + cP src.box n + cP src.address n + cB src.body src.bodyLen n + cM src.url n + cM src.header n + cM src.cookie n + cM src.post n + d n) o
    (by intro n; simp only [cReq]; omega)
  have z : ∀ n, cL dest.texts n = 0 := by intro n; rw [ht]; simp [List.replicate, cL, cP]
  have addr : ∃ ok a h2, copyAddress f h1 src = .ok (ok, a, h2) ∧
      Copied h h2 ok { dest with texts := ts, address := a } (fun n => cReq src n + d n) := by
    unfold copyAddress
    split
    · refine ⟨true, .null, h1, rfl, .inl ⟨rfl, x1, o1.congr ?_⟩⟩
      intro n; have := z n; simp only [cReq, ha] at this ⊢; omega
    · rename_i hs
      rcases own_alloc (f := f) .copyAddress o1 with ⟨b, h2, e2, o2, x2⟩ | ⟨-, h2, e2, o2, x2⟩
      · have nd : Oom.need h2 src.address = .ok () := by
          have := own_touch (p := src.address) (fun n => cA (.at b) n + cL ts n + cReq dest n + cP src.box n + cL src.texts n + cB src.body src.bodyLen n + cM src.url n +
            cM src.header n + cM src.cookie n + cM src.post n + d n) o2 (by intro n; simp only [cReq]; omega)
          simpa [Oom.touch, hs] using this
        refine ⟨true, .at b, h2, by simp [e2, nd], .inl ⟨rfl, by omega, o2.congr ?_⟩⟩
        intro n; have := z n; simp only [cReq, ha, cA_at] at this ⊢; simp only [cP]; omega
      · have o3 : Own h2.mem (fun n => cReq { dest with texts := ts, address := .null } n + (cReq src n + d n)) := o2.congr (by
          intro n; have := z n; simp only [cReq, ha] at this ⊢; omega)
        refine ⟨false, .null, h2, by simp [e2], .inr ⟨rfl, by omega, o3.congr ?_⟩⟩
        intro n; rw [L_eq _ o3 (fun _ => rfl) n]
  obtain ⟨ok2, a, h2, e2, k2⟩ := addr
  obtain ⟨ok3, r3, h3, e3, k3, b3, l3⟩ := own_copyWhich F .url k2
  obtain ⟨ok4, r4, h4, e4, k4, b4, l4⟩ := own_copyWhich F .header k3
  obtain ⟨ok5, r5, h5, e5, k5, b5, l5⟩ := own_copyWhich F .cookie k4
  obtain ⟨ok6, r6, h6, e6, k6, b6, l6⟩ := own_copyWhich F .post k5
  obtain ⟨ok7, r7, h7, e7, k7⟩ := own_copyBody (f := f) ⟨by rw [b6, b5, b4, b3]; exact hb, by rw [l6, l5, l4, l3]; exact hl⟩ k6
  exact ⟨ok7, r7, h7, by simp [copy, e1, e2, e3, e4, e5, e6, e7], k7⟩

theorem own_duplicate {f : F} (F : OnlySafe f) {h : H} {c d : Nat → Nat} {src : Req} (o : Own h.mem c) (e : ∀ n, c n = cReq src n + d n) :
    (∃ r h', duplicate f h src = .ok (some r, h') ∧ Own h'.mem (fun n => cReq r n + c n) ∧ h'.failed = h.failed) ∨
    (∃ h', duplicate f h src = .ok (none, h') ∧ Own h'.mem c ∧ h.failed < h'.failed) := by
  rcases own_alloc (f := f) .dupBox o with ⟨b, h1, e1, o1, x1⟩ | ⟨-, h1, e1, o1, x1⟩
  · obtain ⟨r, h2, e2, o2, l2, x2, -, t2, a2, b2, n2⟩ := own_init F o1 (.at b)
    have o2' : Own h2.mem (fun n => cReq r n + (cReq src n + d n)) := o2.congr (by
      intro n; have := l2 n; rw [e n]; simp only [cA_at] at this ⊢; omega)
    obtain ⟨ok, r3, h3, e3, k3⟩ := own_copy F o2' t2 a2 b2 n2
    rcases k3 with ⟨rfl, x3, o3⟩ | ⟨rfl, x3, o3⟩
    · exact .inl ⟨r3, h3, by simp [duplicate, e1, e2, e3], o3.congr (by intro n; rw [e n]), by omega⟩
    · obtain ⟨h4, e4, o4, x4⟩ := own_cleanL (r := r3) (d := c) o3 (by intro n; rw [e n])
      exact .inr ⟨h4, by simp [duplicate, e1, e2, e3, e4], o4, by omega⟩
  · exact .inr ⟨h1, by simp [duplicate, e1], o1, by omega⟩

theorem Kept.refl (r : Req) : Kept r r := ⟨rfl, rfl, fun _ => rfl, .inl ⟨rfl, rfl⟩⟩

theorem cL_pick {l : List P} {i : Nat} {p : P} (h : l[i]? = some p) :
    ∃ rest : Nat → Nat, (∀ n, cL l n = cP p n + rest n) ∧ ∀ q n, cL (l.set i q) n = cP q n + rest n := by
  induction l generalizing i with
  | nil => simp at h
  | cons x t ih =>
    cases i with
    | zero =>
      simp only [List.getElem?_cons_zero, Option.some.injEq] at h
      subst h
      exact ⟨cL t, fun n => rfl, fun q n => rfl⟩
    | succ j =>
      obtain ⟨rest, r1, r2⟩ := ih (by simpa using h)
      refine ⟨fun n => cP x n + rest n, fun n => ?_, fun q n => ?_⟩
      · simp only [cL, r1 n]; omega
      · simp only [List.set_cons_succ, cL, r2 q n]; omega

theorem own_step {f : F} (F : OnlySafe f) (op : Op) {h : H} {c d : Nat → Nat} {r : Req} (o : Own h.mem c) (e : ∀ n, c n = cReq r n + d n) :
    ∃ rc r' h', step f h r op = .ok (rc, r', h') ∧ Own h'.mem (fun n => cReq r' n + d n) ∧ Rep h h' rc ∧ (rc ≠ .ok → Kept r r') := by
  have idle : ∀ rc, rc ≠ .memory → step f h r op = .ok (rc, r, h) →
      ∃ rc r' h', step f h r op = .ok (rc, r', h') ∧ Own h'.mem (fun n => cReq r' n + d n) ∧ Rep h h' rc ∧ (rc ≠ .ok → Kept r r') :=
    fun rc hr hs => ⟨rc, r, h, hs, o.congr e, .same rfl hr, fun _ => .refl r⟩
  have e' : ∀ n, c n = cP r.box n + cL r.texts n + cP r.address n + cB r.body r.bodyLen n + cM r.url n + cM r.header n + cM r.cookie n + cM r.post n + d n := e
  have bb := Oom.B_eq (p := r.body) (len := r.bodyLen)
    (fun n => cP r.box n + cL r.texts n + cP r.address n + cM r.url n + cM r.header n + cM r.cookie n + cM r.post n + d n) o (by intro n; rw [e' n]; omega)
  -- a body replaced by a new one
  obtain ⟨h1, f1, o1, x1⟩ := own_free (p := r.body)
    (d := fun n => cP r.box n + cL r.texts n + cP r.address n + cM r.url n + cM r.header n + cM r.cookie n + cM r.post n + d n) o
    (by intro n; rw [e' n, bb n]; omega)
  have gone : ∀ h2 : H, Own h2.mem (fun n => cP r.box n + cL r.texts n + cP r.address n + cM r.url n + cM r.header n + cM r.cookie n + cM r.post n + d n) →
      Own h2.mem (fun n => cReq { r with body := .null, bodyLen := 0 } n + d n) := fun h2 o2 => o2.congr (by
    intro n; simp only [cReq, cB, if_true, cP]; omega)
  have there : ∀ (h2 : H) (k len : Nat), Own h2.mem (fun n => cA (.at k) n +
      (cP r.box n + cL r.texts n + cP r.address n + cM r.url n + cM r.header n + cM r.cookie n + cM r.post n + d n)) →
      Own h2.mem (fun n => cReq { r with body := .at k, bodyLen := len } n + d n) := fun h2 k len o2 => o2.congr (by
    intro n; simp only [cReq, cB, cA_at, ite_self]; omega)
  cases op with
  | put w k v =>
    obtain ⟨rc, m', h2, e2, -, o2, p2, k2, -⟩ := Oom.own_putBinary (onlySafe_put F) .call (m := r.map w) (d := fun n => cRest r w n + d n) k v.isSome (Oom.valueSize v) o
      (by intro n; rw [e n, cReq_map r w]; omega)
    refine ⟨rc, r.setMap w m', h2, by simp [step, Oom.put, e2], o2.congr ?_, p2, fun hr => ?_⟩
    · intro n; rw [cReq_setMap]; omega
    · rw [k2 hr]
      have : r.setMap w (r.map w) = r := by cases w <;> rfl
      rw [this]; exact .refl r
  | read w =>
    have := Oom.own_readMap (m := r.map w) (fun n => cRest r w n + d n) o (by intro n; rw [e n, cReq_map r w]; omega)
    exact ⟨.ok, r, h, by simp [step, this], o.congr e, .same rfl (by simp), fun x => absurd rfl x⟩
  | text i v =>
    rcases ht : r.texts[i]? with _ | p
    · exact idle .params (by simp) (by simp [step, ht])
    · obtain ⟨rest, r1, r2⟩ := cL_pick ht
      obtain ⟨h2, e2, o2, x2⟩ := own_free (p := p)
        (d := fun n => cP r.box n + rest n + cP r.address n + cB r.body r.bodyLen n + cM r.url n + cM r.header n + cM r.cookie n + cM r.post n + d n) o
        (by intro n; rw [e' n, r1 n]; omega)
      have new : ∀ (q : P) (h3 : H), Own h3.mem (fun n => cP q n +
          (cP r.box n + rest n + cP r.address n + cB r.body r.bodyLen n + cM r.url n + cM r.header n + cM r.cookie n + cM r.post n + d n)) →
          Own h3.mem (fun n => cReq { r with texts := r.texts.set i q } n + d n) := fun q h3 o3 => o3.congr (by
        intro n; simp only [cReq, r2]; omega)
      rcases v with _ | _ | ⟨x, v⟩
      · exact ⟨.ok, { r with texts := r.texts.set i .null }, h2, by simp [step, ht, e2], new _ _ (o2.congr (by intro n; simp [cP])), .same x2 (by simp), fun x => absurd rfl x⟩
      · exact ⟨.ok, { r with texts := r.texts.set i .null }, h2, by simp [step, ht, e2], new _ _ (o2.congr (by intro n; simp [cP])), .same x2 (by simp), fun x => absurd rfl x⟩
      · obtain ⟨k, h3, e3, o3, x3⟩ := own_allocOk F .setText rfl o2
        exact ⟨.ok, { r with texts := r.texts.set i (.at k) }, h3, by simp [step, ht, e2, e3], new _ _ o3, .same (by omega) (by simp), fun x => absurd rfl x⟩
  | stringBody v =>
    rcases v with _ | v
    · exact idle .params (by simp) rfl
    · obtain ⟨k, h2, e2, o2, x2⟩ := own_allocOk F .stringBody rfl o1
      exact ⟨.ok, { r with body := .at k, bodyLen := v.length }, h2, by simp [step, f1, e2], there _ _ _ o2, .same (by omega) (by simp), fun x => absurd rfl x⟩
  | binaryBody v =>
    rcases v with _ | _ | ⟨x, v⟩
    · exact idle .params (by simp) rfl
    · exact idle .params (by simp) rfl
    · rcases own_alloc (f := f) .binaryBody o1 with ⟨k, h2, e2, o2, x2⟩ | ⟨-, h2, e2, o2, x2⟩
      · exact ⟨.ok, { r with body := .at k, bodyLen := (x :: v).length }, h2, by simp [step, f1, e2], there _ _ _ o2, .same (by omega) (by simp), fun x => absurd rfl x⟩
      · exact ⟨.memory, { r with body := .null, bodyLen := 0 }, h2, by simp [step, f1, e2], gone _ o2, .fail (by omega) (by simp),
          fun _ => ⟨rfl, rfl, fun w => by cases w <;> rfl, .inr ⟨rfl, rfl⟩⟩⟩
  | emptyBody =>
    exact ⟨.ok, { r with body := .null, bodyLen := 0 }, h1, by simp [step, f1], gone _ o1, .same x1 (by simp), fun x => absurd rfl x⟩
  | jsonBody v =>
    rcases v with _ | v
    · exact idle .params (by simp) rfl
    · rcases own_alloc (f := f) .jsonBody o1 with ⟨k, h2, e2, o2, x2⟩ | ⟨-, h2, e2, o2, x2⟩
      · obtain ⟨rc, m', h3, e3, -, o3, -, -, n3, -⟩ := Oom.own_putBinary (onlySafe_jsonPut F) .json (m := r.header)
          (d := fun n => cA (.at k) n + cP r.box n + cL r.texts n + cP r.address n + cM r.url n + cM r.cookie n + cM r.post n + d n)
          (some b!"Content-Type") true (Oom.valueSize (some b!"application/json")) o2 (by intro n; omega)
        have x3 := n3 rfl
        refine ⟨.ok, { r with body := .at k, bodyLen := v.length, header := m' }, h3, ?_, o3.congr ?_, .same (by omega) (by simp), fun x => absurd rfl x⟩
        · simp only [step, f1, Res.ok_bind, e2]
          rw [if_neg (by simp)]
          simp only [Oom.put, Option.isSome_some, e3]
          rfl
        · intro n; simp only [cReq, cB, cA_at, ite_self]; omega
      · exact ⟨.memory, { r with body := .null, bodyLen := 0 }, h2, by simp [step, f1, e2], gone _ o2, .fail (by omega) (by simp),
          fun _ => ⟨rfl, rfl, fun w => by cases w <;> rfl, .inr ⟨rfl, rfl⟩⟩⟩

/-- What is always true of a connection: `map_url_initial` is part of it, and before the first call of the dispatcher nothing is set. -/
def CInv (c : Con) : Prop :=
  c.initial.box = .null ∧ (c.fresh = true → c.request.texts[0]? = some .null ∧ c.request.texts[1]? = some .null ∧ c.request.address = .null)

theorem own_connect {f : F} (F : OnlySafe f) {h : H} {c : Nat → Nat} (o : Own h.mem c) :
    (∃ k h', connect f h = .ok (some k, h') ∧ CInv k ∧ Own h'.mem (fun n => cCon k n + c n) ∧ h'.failed = h.failed) ∨
    (∃ h', connect f h = .ok (none, h') ∧ Own h'.mem c ∧ h.failed < h'.failed) := by
  rcases own_alloc (f := f) .conBox o with ⟨b, h1, e1, o1, x1⟩ | ⟨-, h1, e1, o1, x1⟩
  · obtain ⟨m, h2, e2, b2, o2, x2⟩ := own_initOk (g := fun n s => f n (.conMap s)) .call (never F .conMap fun _ => rfl) (d := fun n => cA (.at b) n + c n) .null o1
      (by intro n; simp [cP])
    obtain ⟨q, h3, e3, o3, x3⟩ := own_allocOk F .conRequest rfl o2
    obtain ⟨r, h4, e4, o4, l4, x4, -, t4, a4, b4, n4⟩ := own_init F o3 (.at q)
    obtain ⟨u, h5, e5, o5, x5⟩ := own_allocOk F .uri rfl o4
    obtain ⟨v, h6, e6, o6, x6⟩ := own_allocOk F .uri rfl o5
    refine .inl ⟨_, h6, by simp [connect, e1, e2, e3, e4, e5, e6]; rfl, ⟨b2, fun _ => ?_⟩, o6.congr ?_, by omega⟩
    · simp [t4, a4, List.replicate]
    · intro n
      have l := l4 n
      have z : ∀ x, cL r.texts x = 0 := by intro x; rw [t4]; simp [List.replicate, cL, cP]
      have z1 : cL ((r.texts.set 2 (.at u)).set 3 (.at v)) n = cP (.at u) n + cP (.at v) n := by
        rw [t4]; simp [List.replicate, cL, cP]
      have := z n
      simp only [cCon, cReq, z1, cA_at] at l this ⊢
      omega
  · exact .inr ⟨h1, by simp [connect, e1], o1, by omega⟩

theorem own_first {f : F} (F : OnlySafe f) {h : H} {c d : Nat → Nat} {k : Con} (i : CInv k) (o : Own h.mem c) (e : ∀ n, c n = cCon k n + d n) :
    ∃ rc k' h', first f h k = .ok (rc, k', h') ∧ CInv k' ∧ Own h'.mem (fun n => cCon k' n + d n) ∧ Rep h h' rc ∧
      (k.fresh = false → k' = k) := by
  rcases hf : k.fresh with _ | _
  · exact ⟨.params, k, h, by simp [first, hf], i, o.congr e, .same rfl (by simp), fun _ => rfl⟩
  · obtain ⟨t0, t1, ta⟩ := i.2 hf
    have cnt : ∀ p v a n, cReq { k.request with texts := (k.request.texts.set 0 p).set 1 v, address := a } n = cP p n + cP v n + cP a n + cReq k.request n := by
      intro p v a n
      obtain ⟨rest, r1, r2⟩ := cL_pick t0
      obtain ⟨rest', s1, s2⟩ := cL_pick (l := k.request.texts.set 0 p) (i := 1) (p := .null) (by rw [List.getElem?_set_ne (by simp)]; exact t1)
      have a1 := r1 n; have a2 := r2 p n; have a3 := s1 n; have a4 := s2 v n
      have zz : cP .null n = 0 := rfl
      simp only [cReq, ta, a4]
      omega
    obtain ⟨p, h1, e1, o1, x1⟩ := own_allocOk F .protocol rfl o
    have last : ∀ (v : P) (h2 : H), alloc f .verb h1 = (v, h2) → Own h2.mem (fun n => cP v n + (cA (.at p) n + c n)) →
        (v = .null → h.failed < h2.failed) → (v ≠ .null → h2.failed = h.failed) →
        ∃ rc k' h', first f h k = .ok (rc, k', h') ∧ CInv k' ∧ Own h'.mem (fun n => cCon k' n + d n) ∧ Rep h h' rc ∧ (true = false → k' = k) := by
      intro v h2 e2 o2 n2 m2
      rcases own_alloc (f := f) .address o2 with ⟨a, h3, e3, o3, x3⟩ | ⟨-, h3, e3, o3, x3⟩
      · refine ⟨_, { k with fresh := false, request := { k.request with texts := (k.request.texts.set 0 (.at p)).set 1 v, address := .at a } }, h3,
          by simp only [first, hf, if_true, e1, e2, e3]; rfl, ⟨i.1, fun x => by cases x⟩, o3.congr ?_, ?_, fun x => by cases x⟩
        · intro n; simp only [cCon, cnt, e n, cA_at]; omega
        · by_cases hv : v = .null
          · have := n2 hv
            exact .fail (by omega) (by simp [hv])
          · have := m2 hv
            exact .same (by omega) (by simp [hv])
      · refine ⟨_, { k with fresh := false, request := { k.request with texts := (k.request.texts.set 0 (.at p)).set 1 v, address := .null } }, h3,
          by simp only [first, hf, if_true, e1, e2, e3]; rfl, ⟨i.1, fun x => by cases x⟩, o3.congr ?_, .fail ?_ (by simp), fun x => by cases x⟩
        · intro n
          have zz : cP .null n = 0 := rfl
          simp only [cCon, cnt, e n, cA_at, zz]; omega
        · by_cases hv : v = .null
          · have := n2 hv; omega
          · have := m2 hv; omega
    rcases own_alloc (f := f) .verb o1 with ⟨v, h2, e2, o2, x2⟩ | ⟨-, h2, e2, o2, x2⟩
    · exact last (.at v) h2 e2 o2 (fun x => by cases x) (fun _ => by omega)
    · exact last .null h2 e2 (o2.congr (by intro n; simp [cP])) (fun _ => by omega) (fun x => absurd rfl x)

theorem own_complete {h : H} {c d : Nat → Nat} {k : Con} (i : CInv k) (o : Own h.mem c) (e : ∀ n, c n = cCon k n + d n) :
    ∃ h', complete h k = .ok h' ∧ Own h'.mem d ∧ h'.failed = h.failed := by
  have n0 := Oom.own_need (p := k.box) (fun n => cM k.initial n + cReq k.request n + d n) o (by intro n; rw [e n]; simp only [cCon]; omega)
  obtain ⟨h1, e1, o1, x1⟩ := own_clean (r := k.request) (d := fun n => cA k.box n + cM k.initial n + d n) o (by intro n; rw [e n]; simp only [cCon]; omega)
  obtain ⟨h2, e2, o2, x2⟩ := own_mapClean (m := k.initial) (d := fun n => cA k.box n + d n) o1 (by intro n; omega)
  obtain ⟨h3, e3, o3, x3⟩ := own_free (p := k.box) (d := d) o2 (by
    intro n
    have hb : k.box ≠ .null := by
      intro x
      rw [x] at n0
      simp [Oom.need, Memory.need] at n0
    cases hk : k.box with
    | null => exact absurd hk hb
    | «at» m => simp only [i.1, cA_at]; simp [cP]
    | junk => simp only [i.1, cP, cA]; omega)
  exact ⟨h3, by simp [complete, n0, e1, e2, e3], o3, by omega⟩

theorem Unharmed.refl (s : State) (h : H) : Unharmed s { s with heap := h } :=
  ⟨fun _ r e => ⟨r, e, .refl r⟩, fun _ r e => ⟨r, e⟩, fun _ c e _ => ⟨c, e, .refl _⟩⟩

theorem get_pad {α : Type} {l : List (Option α)} {i : Nat} {a : α} : (l ++ [none])[i]? = some (some a) ↔ l[i]? = some (some a) := by
  have := Oom.pad l i
  constructor
  · intro e; rw [e] at this
    rcases h : l[i]? with _ | _ | b
    · rw [h] at this; cases this
    · rw [h] at this; cases this
    · rw [h] at this; simpa using this.symm
  · intro e; rw [e] at this
    rcases h : (l ++ [none])[i]? with _ | _ | b
    · rw [h] at this; cases this
    · rw [h] at this; cases this
    · rw [h] at this; simpa using this

theorem Unharmed.grow (s : State) (h : H) (b : Bool) :
    Unharmed s (if b then { s with heap := h, reqs := s.reqs ++ [none] } else { s with heap := h, cons := s.cons ++ [none] }) := by
  cases b
  · exact ⟨fun _ r e => ⟨r, e, .refl r⟩, fun _ r e => ⟨r, e⟩, fun _ c e _ => ⟨c, get_pad.2 e, .refl _⟩⟩
  · exact ⟨fun _ r e => ⟨r, get_pad.2 e, .refl r⟩, fun _ r e => ⟨r, get_pad.1 e⟩, fun _ c e _ => ⟨c, e, .refl _⟩⟩

def AllC (s : State) : Prop := ∀ (i : Nat) (c : Con), s.cons[i]? = some (some c) → CInv c

theorem in_range {α : Type} {l : List α} {i : Nat} {a : α} (h : l[i]? = some a) : i < l.length := by
  rcases Nat.lt_or_ge i l.length with x | x
  · exact x
  · rw [List.getElem?_eq_none x] at h; cases h

theorem AllC.set {l : List (Option Con)} (a : ∀ (i : Nat) (c : Con), l[i]? = some (some c) → CInv c) {i : Nat} {c : Con} (k : CInv c) :
    ∀ (j : Nat) (x : Con), (l.set i (some c))[j]? = some (some x) → CInv x := by
  intro j x hx
  rw [List.getElem?_set] at hx
  split at hx
  · split at hx
    · cases hx; exact k
    · cases hx
  · exact a j x hx

theorem AllC.drop {l : List (Option Con)} (a : ∀ (i : Nat) (c : Con), l[i]? = some (some c) → CInv c) {i : Nat} :
    ∀ (j : Nat) (x : Con), (l.set i none)[j]? = some (some x) → CInv x := by
  intro j x hx
  rw [List.getElem?_set] at hx
  split at hx
  · split at hx <;> cases hx
  · exact a j x hx

theorem AllC.add {l : List (Option Con)} (a : ∀ (i : Nat) (c : Con), l[i]? = some (some c) → CInv c) {c : Con} (k : CInv c) :
    ∀ (j : Nat) (x : Con), (l ++ [some c])[j]? = some (some x) → CInv x := by
  intro j x hx
  rw [List.getElem?_append] at hx
  split at hx
  · exact a j x hx
  · rcases hj : j - l.length with _ | q
    · rw [hj] at hx; cases hx; exact k
    · rw [hj] at hx; simp at hx

theorem own_exec {f : F} (F : OnlySafe f) (x : Cmd) {s : State} {d : Nat → Nat} (o : Own s.heap.mem (fun n => cS cReq s.reqs n + cS cCon s.cons n + d n))
    (a : AllC s) :
    ∃ rc s', exec f s x = .ok (rc, s') ∧ Own s'.heap.mem (fun n => cS cReq s'.reqs n + cS cCon s'.cons n + d n) ∧ AllC s' ∧ Rep s.heap s'.heap rc ∧
      (rc ≠ .ok → Unharmed s s') := by
  have idle : exec f s x = .ok (.params, s) →
      ∃ rc s', exec f s x = .ok (rc, s') ∧ Own s'.heap.mem (fun n => cS cReq s'.reqs n + cS cCon s'.cons n + d n) ∧ AllC s' ∧ Rep s.heap s'.heap rc ∧
        (rc ≠ .ok → Unharmed s s') :=
    fun e => ⟨.params, s, e, o, a, .same rfl (by simp), fun _ => .refl s s.heap⟩
  cases x with
  | init =>
    obtain ⟨r, h, e1, o1, l1, x1, -⟩ := own_init F o .null
    refine ⟨.ok, { s with heap := h, reqs := s.reqs ++ [some r] }, by simp [exec, e1], o1.congr ?_, a, .same x1 (by simp), by simp⟩
    intro n; simp only [cS_append, cS, cP]; omega
  | op i v =>
    rcases hm : s.reqs[i]? with _ | _ | r
    · exact idle (by simp [exec, hm])
    · exact idle (by simp [exec, hm])
    · obtain ⟨rest, r1, r2, -⟩ := Oom.cS_pick cReq hm
      obtain ⟨rc, r', h', e1, o1, p1, k1⟩ := own_step F v (r := r) (d := fun n => rest n + cS cCon s.cons n + d n) o (by intro n; rw [r1 n]; omega)
      refine ⟨rc, { s with heap := h', reqs := s.reqs.set i (some r') }, by simp [exec, hm, e1], o1.congr ?_, a, p1, fun hr => ?_⟩
      · intro n; simp only [r2]; omega
      · have il := in_range hm
        refine ⟨fun j q hq => ?_, fun j q hq => ?_, fun _ c e _ => ⟨c, e, .refl _⟩⟩
        · by_cases hj : i = j
          · subst hj
            rw [hm] at hq
            cases hq
            exact ⟨r', by simp [il], k1 hr⟩
          · exact ⟨q, by simp [List.getElem?_set, hj, hq], .refl _⟩
        · by_cases hj : i = j
          · subst hj
            exact ⟨r, hm⟩
          · exact ⟨q, by simpa [List.getElem?_set, hj] using hq⟩
  | duplicate i =>
    have none' : exec f s (.duplicate i) = .ok (.params, { s with reqs := s.reqs ++ [none] }) →
        ∃ rc s', exec f s (.duplicate i) = .ok (rc, s') ∧ Own s'.heap.mem (fun n => cS cReq s'.reqs n + cS cCon s'.cons n + d n) ∧ AllC s' ∧
          Rep s.heap s'.heap rc ∧ (rc ≠ .ok → Unharmed s s') := fun e =>
      ⟨.params, { s with reqs := s.reqs ++ [none] }, e, o.congr (by intro n; simp only [cS_append, cS]; omega), a, .same rfl (by simp),
        fun _ => .grow s s.heap true⟩
    rcases hm : s.reqs[i]? with _ | _ | r
    · exact none' (by simp [exec, hm])
    · exact none' (by simp [exec, hm])
    · obtain ⟨rest, r1, r2, -⟩ := Oom.cS_pick cReq hm
      rcases own_duplicate F (src := r) (d := fun n => rest n + cS cCon s.cons n + d n) o (by intro n; rw [r1 n]; omega) with
        ⟨x, h, e1, o1, x1⟩ | ⟨h, e1, o1, x1⟩
      · refine ⟨.ok, { s with heap := h, reqs := s.reqs ++ [some x] }, by simp [exec, hm, e1], o1.congr ?_, a, .same x1 (by simp), by simp⟩
        intro n; simp only [cS_append, cS]; omega
      · refine ⟨.memory, { s with heap := h, reqs := s.reqs ++ [none] }, by simp [exec, hm, e1], o1.congr ?_, a, .fail x1 (by simp), fun _ => .grow s h true⟩
        intro n; simp only [cS_append, cS]; omega
  | clean i =>
    rcases hm : s.reqs[i]? with _ | _ | r
    · exact idle (by simp [exec, hm])
    · exact idle (by simp [exec, hm])
    · obtain ⟨rest, r1, -, r3⟩ := Oom.cS_pick cReq hm
      obtain ⟨h, e1, o1, x1⟩ := own_clean (r := r) (d := fun n => rest n + cS cCon s.cons n + d n) o (by intro n; rw [r1 n]; omega)
      refine ⟨.ok, { s with heap := h, reqs := s.reqs.set i none }, by simp [exec, hm, e1], o1.congr ?_, a, .same x1 (by simp), by simp⟩
      intro n; simp only [r3]
  | connect =>
    rcases own_connect F o with ⟨k, h, e1, i1, o1, x1⟩ | ⟨h, e1, o1, x1⟩
    · refine ⟨.ok, { s with heap := h, cons := s.cons ++ [some k] }, by simp [exec, e1], o1.congr ?_, AllC.add a i1, .same x1 (by simp), by simp⟩
      intro n; simp only [cS_append, cS]; omega
    · refine ⟨.memory, { s with heap := h, cons := s.cons ++ [none] }, by simp [exec, e1], o1.congr ?_, fun i c e => a i c (get_pad.1 e),
        .fail x1 (by simp), fun _ => .grow s h false⟩
      intro n; simp only [cS_append, cS]; omega
  | first i =>
    rcases hm : s.cons[i]? with _ | _ | k
    · exact idle (by simp [exec, hm])
    · exact idle (by simp [exec, hm])
    · obtain ⟨rest, r1, r2, -⟩ := Oom.cS_pick cCon hm
      obtain ⟨rc, k', h', e1, i1, o1, p1, k1⟩ := own_first F (a i k hm) (d := fun n => cS cReq s.reqs n + rest n + d n) o (by intro n; rw [r1 n]; omega)
      refine ⟨rc, { s with heap := h', cons := s.cons.set i (some k') }, by simp [exec, hm, e1], o1.congr ?_, AllC.set a i1, p1, fun hr => ?_⟩
      · intro n; simp only [r2]; omega
      · have il := in_range hm
        refine ⟨fun _ r e => ⟨r, e, .refl r⟩, fun _ r e => ⟨r, e⟩, fun j q hq hf => ?_⟩
        by_cases hj : i = j
        · subst hj
          rw [hm] at hq
          cases hq
          rw [k1 hf]
          exact ⟨k, by simp [il], .refl _⟩
        · exact ⟨q, by simp [List.getElem?_set, hj, hq], .refl _⟩
  | within i v =>
    rcases hm : s.cons[i]? with _ | _ | k
    · exact idle (by simp [exec, hm])
    · exact idle (by simp [exec, hm])
    · rcases hf : k.fresh with _ | _
      · obtain ⟨rest, r1, r2, -⟩ := Oom.cS_pick cCon hm
        obtain ⟨rc, r', h', e1, o1, p1, k1⟩ := own_step F v (r := k.request)
          (d := fun n => cA k.box n + cM k.initial n + cS cReq s.reqs n + rest n + d n) o (by intro n; rw [r1 n]; simp only [cCon]; omega)
        refine ⟨rc, { s with heap := h', cons := s.cons.set i (some { k with request := r' }) }, by simp [exec, hm, hf, e1], o1.congr ?_,
          AllC.set a ⟨(a i k hm).1, fun x => by simp [hf] at x⟩, p1, fun hr => ?_⟩
        · intro n; simp only [r2]; simp only [cCon]; omega
        · have il := in_range hm
          refine ⟨fun _ r e => ⟨r, e, .refl r⟩, fun _ r e => ⟨r, e⟩, fun j q hq _ => ?_⟩
          by_cases hj : i = j
          · subst hj
            rw [hm] at hq
            cases hq
            exact ⟨{ k with request := r' }, by simp [il], k1 hr⟩
          · exact ⟨q, by simp [List.getElem?_set, hj, hq], .refl _⟩
      · exact idle (by simp [exec, hm, hf])
  | complete i =>
    rcases hm : s.cons[i]? with _ | _ | k
    · exact idle (by simp [exec, hm])
    · exact idle (by simp [exec, hm])
    · obtain ⟨rest, r1, -, r3⟩ := Oom.cS_pick cCon hm
      obtain ⟨h, e1, o1, x1⟩ := own_complete (a i k hm) (d := fun n => cS cReq s.reqs n + rest n + d n) o (by intro n; rw [r1 n]; omega)
      refine ⟨.ok, { s with heap := h, cons := s.cons.set i none }, by simp [exec, hm, e1], o1.congr ?_, AllC.drop a, .same x1 (by simp), by simp⟩
      intro n; simp only [r3]

theorem own_run {f : F} (F : OnlySafe f) (prog : List Cmd) {s : State} {d : Nat → Nat}
    (o : Own s.heap.mem (fun n => cS cReq s.reqs n + cS cCon s.cons n + d n)) (a : AllC s) :
    ∃ out s', run f s prog = .ok (out, s') ∧ Own s'.heap.mem (fun n => cS cReq s'.reqs n + cS cCon s'.cons n + d n) ∧ AllC s' ∧
      ∀ x ∈ out, (0 < x.2 → x.1 ≠ .ok) ∧ (x.1 = .memory → 0 < x.2) := by
  induction prog generalizing s with
  | nil => exact ⟨[], s, rfl, o, a, by simp⟩
  | cons c t ih =>
    obtain ⟨rc, s1, e1, o1, a1, p1, -⟩ := own_exec F c o a
    obtain ⟨out, s2, e2, o2, a2, p2⟩ := ih o1 a1
    refine ⟨_, s2, by simp [run, e1, e2]; rfl, o2, a2, ?_⟩
    intro x hx
    rcases List.mem_cons.1 hx with rfl | hx
    · exact ⟨fun h => p1.bad (by simp at h; omega), fun h => by have := p1.mem h; simp; omega⟩
    · exact p2 x hx

end Verif.OomRequest
