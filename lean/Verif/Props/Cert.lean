import Verif.Model.Cert
/-!
# C166: the certificate of the client

Full statement: a callback finds a certificate in the request exactly when the instance authenticates clients and the client proved to own it; duplicates
of the request have the same one; nothing that is done to a request changes the certificate of another, each certificate object is freed exactly once.
The pointer to a certificate that cannot be imported dangles (`C166_import_false`), duplicating a request and putting another certificate into it leak
objects (`C166_leak_false`, `C166_replace_false`), a text that is no certificate leaves an empty one (`C166_empty_false`).
-/
namespace Verif.Props
open Verif.Cert

/-- The certificate the client proved to own, to an instance that asks for one. -/
def presented (G : Gnutls) (use : Bool) (peer : Peer) : Option Bytes :=
  if use = true ∧ peer.tls = true ∧ peer.verify = 0 ∧ peer.status = 0 then peer.chain.head?.bind G.der else none

/-- What the requests show: no such request any more, no certificate, a certificate. -/
abbrev Shown := List (Option (Option Bytes))

/-- The same, as the user understands it. -/
def shownStep (G : Gnutls) (use : Bool) (l : Shown) : Cert.Act → Shown
  | .admit peer => l ++ [some (presented G use peer)]
  | .duplicate r => match l[r]? with
    | some (some x) => l ++ [some x]
    | _ => l
  | .importPem r t => match l[r]? with
    | some (some _) => l.set r (some (G.unpem t))
    | _ => l
  | .clean r => match l[r]? with
    | some (some _) => l.set r none
    | _ => l

/-- GnuTLS can make objects, and reads what it wrote. -/
structure Reliable (G : Gnutls) : Prop where
  init : ∀ n, G.init n = true
  pem : ∀ c, ∃ t, G.pem c = some t ∧ G.unpem t = some c

/-- The certificates met can be read: those of verified peers, and those put into requests. -/
def ReadableAct (G : Gnutls) : Cert.Act → Prop
  | .admit peer => peer.verify = 0 → peer.status = 0 → ∀ x, peer.chain.head? = some x → (G.der x).isSome = true
  | .importPem _ t => (G.unpem t).isSome = true
  | _ => True

private structure Rel (s : Srv) (l : Shown) : Prop where
  len : s.reqs.length = l.length
  gone : ∀ r : Nat, l[r]? = some none → s.reqs[r]? = some none
  bare : ∀ r : Nat, l[r]? = some (some none) → s.reqs[r]? = some (some none)
  cert : ∀ (r : Nat) (c : Bytes), l[r]? = some (some (some c)) → ∃ i, s.reqs[r]? = some (some (some i)) ∧ s.heap[i]? = some (.holds c)
  apart : ∀ r r' i : Nat, s.reqs[r]? = some (some (some i)) → s.reqs[r']? = some (some (some i)) → r = r'

private theorem rel_at {s : Srv} {l : Shown} (h : Rel s l) (r : Nat) :
    (l[r]? = none ∧ s.reqs[r]? = none) ∨ (l[r]? = some none ∧ s.reqs[r]? = some none) ∨
    (l[r]? = some (some none) ∧ s.reqs[r]? = some (some none)) ∨
    ∃ c i, l[r]? = some (some (some c)) ∧ s.reqs[r]? = some (some (some i)) ∧ s.heap[i]? = some (.holds c) := by
  cases hl : l[r]? with
  | none =>
    refine .inl ⟨rfl, ?_⟩
    rw [List.getElem?_eq_none_iff] at hl ⊢
    rw [h.len]; exact hl
  | some x =>
    cases x with
    | none => exact .inr (.inl ⟨rfl, h.gone r hl⟩)
    | some x =>
      cases x with
      | none => exact .inr (.inr (.inl ⟨rfl, h.bare r hl⟩))
      | some c =>
        obtain ⟨i, h1, h2⟩ := h.cert r c hl
        exact .inr (.inr (.inr ⟨c, i, rfl, h1, h2⟩))

private theorem ptr_lt {s : Srv} {l : Shown} (h : Rel s l) {r i : Nat} (hr : s.reqs[r]? = some (some (some i))) : i < s.heap.length := by
  rcases rel_at h r with ⟨-, e⟩ | ⟨-, e⟩ | ⟨-, e⟩ | ⟨c, j, -, e, e2⟩
  · rw [hr] at e; cases e
  · rw [hr] at e; cases e
  · rw [hr] at e; cases e
  · rw [hr] at e
    injection e with e; injection e with e; injection e with e
    subst e
    exact (List.getElem?_eq_some_iff.1 e2).1

/-- A new request without certificate, or with one in a new object. -/
private theorem rel_new {s : Srv} {l : Shown} (h : Rel s l) (more : Heap) (p : Ptr) (x : Option Bytes)
    (hp : (p = none ∧ x = none) ∨ ∃ k c, p = some (s.heap.length + k) ∧ more[k]? = some (.holds c) ∧ x = some c) :
    Rel ⟨s.heap ++ more, s.reqs ++ [some p]⟩ (l ++ [some x]) := by
  have hold : ∀ {r : Nat} {y : Option Ptr}, s.reqs[r]? = some y → (s.reqs ++ [some p])[r]? = some y := fun {r y} hr => by
    rw [List.getElem?_append_left (List.getElem?_eq_some_iff.1 hr).1, hr]
  have hheap : ∀ {i : Nat} {o : Obj}, s.heap[i]? = some o → (s.heap ++ more)[i]? = some o := fun {i o} hi => by
    rw [List.getElem?_append_left (List.getElem?_eq_some_iff.1 hi).1, hi]
  have split : ∀ {r : Nat} {y : Option (Option Bytes)}, (l ++ [some x])[r]? = some y → (l[r]? = some y) ∨ (r = l.length ∧ y = some x) := by
    intro r y hr
    by_cases hlt : r < l.length
    · rw [List.getElem?_append_left hlt] at hr; exact .inl hr
    · rw [List.getElem?_append_right (by omega)] at hr
      have : r - l.length = 0 := by
        have := (List.getElem?_eq_some_iff.1 hr).1
        simp at this; omega
      rw [this] at hr
      simp at hr
      exact .inr ⟨by omega, hr.symm⟩
  have new : (s.reqs ++ [some p])[l.length]? = some (some p) := by
    rw [← h.len]; simp
  constructor
  · simp [h.len]
  · intro r hr
    rcases split hr with hr | ⟨-, e⟩
    · exact hold (h.gone r hr)
    · cases e
  · intro r hr
    rcases split hr with hr | ⟨rfl, e⟩
    · exact hold (h.bare r hr)
    · injection e with e
      rcases hp with ⟨rfl, -⟩ | ⟨k, c, -, -, e'⟩
      · exact new
      · rw [e'] at e; cases e
  · intro r c hr
    rcases split hr with hr | ⟨rfl, e⟩
    · obtain ⟨i, h1, h2⟩ := h.cert r c hr
      exact ⟨i, hold h1, hheap h2⟩
    · injection e with e
      rcases hp with ⟨-, e'⟩ | ⟨k, c', rfl, hk, e'⟩
      · rw [e'] at e; cases e
      · rw [e'] at e
        injection e with e
        subst e
        exact ⟨s.heap.length + k, new, by rw [List.getElem?_append_right (by omega)]; simpa using hk⟩
  · intro r r' i hr hr'
    have back : ∀ {r : Nat} {y : Option Ptr}, (s.reqs ++ [some p])[r]? = some y → s.reqs[r]? = some y ∨ (r = s.reqs.length ∧ y = some p) := by
      intro r y hr
      by_cases hlt : r < s.reqs.length
      · rw [List.getElem?_append_left hlt] at hr; exact .inl hr
      · rw [List.getElem?_append_right (by omega)] at hr
        have : r - s.reqs.length = 0 := by
          have := (List.getElem?_eq_some_iff.1 hr).1
          simp at this; omega
        rw [this] at hr
        simp at hr
        exact .inr ⟨by omega, hr.symm⟩
    have fresh : ∀ {r : Nat}, s.reqs[r]? = some (some (some i)) → some (some i) ≠ some p := by
      intro r hr e
      injection e with e
      have := ptr_lt h hr
      rcases hp with ⟨rfl, -⟩ | ⟨k, c, rfl, -, -⟩
      · cases e
      · injection e with e; omega
    rcases back hr with h1 | ⟨h1, e1⟩ <;> rcases back hr' with h2 | ⟨h2, e2⟩
    · exact h.apart r r' i h1 h2
    · exact absurd e2 (fresh h1)
    · exact absurd e1 (fresh h2)
    · omega

/-- A request loses its object, or gets a new one. -/
private theorem rel_set {s : Srv} {l : Shown} (h : Rel s l) {r : Nat} {q : Ptr} (hq : s.reqs[r]? = some (some q)) (heap : Heap)
    (p : Option Ptr) (x : Option (Option Bytes))
    (hheap : ∀ i o, s.heap[i]? = some o → some i ≠ q → heap[i]? = some o)
    (hp : (p = none ∧ x = none) ∨ ∃ k c, p = some (some k) ∧ s.heap.length ≤ k ∧ heap[k]? = some (.holds c) ∧ x = some (some c)) :
    Rel ⟨heap, s.reqs.set r p⟩ (l.set r x) := by
  have hlt : r < s.reqs.length := (List.getElem?_eq_some_iff.1 hq).1
  have hlt' : r < l.length := by rw [← h.len]; exact hlt
  have other : ∀ {r' : Nat} {i : Nat}, r' ≠ r → s.reqs[r']? = some (some (some i)) → some i ≠ q := by
    intro r' i hne hr' e
    subst e
    exact hne (h.apart r' r i hr' hq)
  constructor
  · simp [h.len]
  · intro r' hr'
    by_cases he : r' = r
    · subst he
      simp only [List.getElem?_set, hlt', if_true] at hr'
      simp only [List.getElem?_set, hlt, if_true]
      injection hr' with hr'
      rcases hp with ⟨rfl, -⟩ | ⟨k, c, -, -, -, e⟩
      · rfl
      · rw [e] at hr'; cases hr'
    · rw [List.getElem?_set_ne (Ne.symm he)] at hr' ⊢
      exact h.gone r' hr'
  · intro r' hr'
    by_cases he : r' = r
    · subst he
      simp only [List.getElem?_set, hlt', if_true] at hr'
      injection hr' with hr'
      rcases hp with ⟨-, e⟩ | ⟨k, c, -, -, -, e⟩ <;> (rw [e] at hr'; cases hr')
    · rw [List.getElem?_set_ne (Ne.symm he)] at hr' ⊢
      exact h.bare r' hr'
  · intro r' c hr'
    by_cases he : r' = r
    · subst he
      simp only [List.getElem?_set, hlt', if_true] at hr'
      simp only [List.getElem?_set, hlt, if_true]
      injection hr' with hr'
      rcases hp with ⟨-, e⟩ | ⟨k, c', rfl, hk, hh, e⟩
      · rw [e] at hr'; cases hr'
      · rw [e] at hr'
        injection hr' with hr'; injection hr' with hr'
        subst hr'
        exact ⟨k, rfl, hh⟩
    · rw [List.getElem?_set_ne (Ne.symm he)] at hr' ⊢
      obtain ⟨i, h1, h2⟩ := h.cert r' c hr'
      exact ⟨i, h1, hheap i _ h2 (other he h1)⟩
  · have back : ∀ {r' i : Nat}, (s.reqs.set r p)[r']? = some (some (some i)) →
        (r' ≠ r ∧ s.reqs[r']? = some (some (some i))) ∨ (r' = r ∧ s.heap.length ≤ i) := by
      intro r' i hr'
      by_cases he : r' = r
      · subst he
        simp only [List.getElem?_set, hlt, if_true] at hr'
        injection hr' with hr'
        rcases hp with ⟨rfl, -⟩ | ⟨k, c', rfl, hk, -, -⟩
        · cases hr'
        · injection hr' with hr'; injection hr' with hr'
          exact .inr ⟨rfl, by omega⟩
      · rw [List.getElem?_set_ne (Ne.symm he)] at hr'
        exact .inl ⟨he, hr'⟩
    intro r1 r2 i h1 h2
    rcases back h1 with ⟨n1, h1⟩ | ⟨n1, h1⟩ <;> rcases back h2 with ⟨n2, h2⟩ | ⟨n2, h2⟩
    · exact h.apart r1 r2 i h1 h2
    · have := ptr_lt h h1; omega
    · have := ptr_lt h h2; omega
    · omega

private theorem import_ok {G : Gnutls} (hg : Reliable G) (h : Heap) (p : Ptr) {t c : Bytes} (ht : G.unpem t = some c) :
    importPem G h p (some t) = .ok (.ok, h ++ [.holds c], some h.length) := by
  unfold importPem crtInit crtImport
  simp [hg.init, ht]

private theorem admit_ok {G : Gnutls} (hg : Reliable G) (use : Bool) (peer : Peer) (h : Heap) (hp : ReadableAct G (.admit peer)) :
    (presented G use peer = none ∧ admit G use peer h = .ok (h, none)) ∨
    ∃ c, presented G use peer = some c ∧ admit G use peer h = .ok (h ++ [.holds c], some h.length) := by
  have hpres : presented G use peer = if use = true ∧ peer.tls = true ∧ peer.verify = 0 ∧ peer.status = 0 then peer.chain.head?.bind G.der else none := rfl
  generalize presented G use peer = x at hpres ⊢
  unfold admit
  cases htls : peer.tls with
  | false => exact .inl ⟨by simp [hpres, htls], by simp⟩
  | true =>
    cases use with
    | false => exact .inl ⟨by simp [hpres], by simp⟩
    | true =>
      simp only [Bool.and_self, if_true]
      by_cases hv : peer.verify = 0
      · by_cases hs : peer.status = 0
        · rw [if_neg (by simp [hv, hs]), if_pos hv]
          simp only [htls, hv, hs, and_self, if_true] at hpres
          cases hc : peer.chain with
          | nil => exact .inl ⟨by rw [hpres, hc]; rfl, rfl⟩
          | cons y t =>
            have hx := hp hv hs y (by rw [hc]; rfl)
            obtain ⟨c, hc'⟩ := Option.isSome_iff_exists.1 hx
            refine .inr ⟨c, by rw [hpres, hc]; exact hc', ?_⟩
            simp [crtInit, hg.init, crtImport, hc']
        · rw [if_pos (.inr hs)]
          exact .inl ⟨by simp [hpres, hs], rfl⟩
      · refine .inl ⟨by simp [hpres, hv], ?_⟩
        split
        · rfl
        · rfl

private theorem step_rel {G : Gnutls} (hg : Reliable G) (use : Bool) {s : Srv} {l : Shown} (h : Rel s l) (a : Cert.Act) (ha : ReadableAct G a) :
    ∃ s', Cert.step G use s a = .ok s' ∧ Rel s' (shownStep G use l a) := by
  cases a with
  | admit peer =>
    rcases admit_ok hg use peer s.heap ha with ⟨h1, h2⟩ | ⟨c, h1, h2⟩
    · refine ⟨⟨s.heap, s.reqs ++ [some none]⟩, by simp [Cert.step, h2], ?_⟩
      have := rel_new h [] none none (.inl ⟨rfl, rfl⟩)
      simp only [List.append_nil] at this
      simp only [shownStep, h1]
      exact this
    · refine ⟨⟨s.heap ++ [.holds c], s.reqs ++ [some (some s.heap.length)]⟩, by simp [Cert.step, h2], ?_⟩
      simp only [shownStep, h1]
      exact rel_new h [.holds c] _ _ (.inr ⟨0, c, rfl, rfl, rfl⟩)
  | duplicate r =>
    simp only [Cert.step, shownStep]
    rcases rel_at h r with ⟨e1, e2⟩ | ⟨e1, e2⟩ | ⟨e1, e2⟩ | ⟨c, i, e1, e2, e3⟩
    · rw [e1, e2]; exact ⟨s, rfl, h⟩
    · rw [e1, e2]; exact ⟨s, rfl, h⟩
    · rw [e1, e2]
      refine ⟨⟨s.heap, s.reqs ++ [some none]⟩, rfl, ?_⟩
      have := rel_new h [] none none (.inl ⟨rfl, rfl⟩)
      simp only [List.append_nil] at this
      exact this
    · rw [e1, e2]
      obtain ⟨t, t1, t2⟩ := hg.pem c
      have hlt := (List.getElem?_eq_some_iff.1 e3).1
      have he : exportPem G (s.heap ++ [.empty]) (some i) = .ok (some t) := by
        simp only [exportPem, List.getElem?_append_left hlt, e3, t1]
      have hd : duplicate G s.heap (some i) = .ok (s.heap ++ [.empty] ++ [.holds c], some (some (s.heap ++ [Obj.empty]).length)) := by
        simp only [duplicate, copyCert, crtInit, hg.init, if_true, he, Res.ok_bind, import_ok hg _ _ t2, Res.pure_eq]
      refine ⟨⟨s.heap ++ [.empty] ++ [.holds c], s.reqs ++ [some (some (s.heap ++ [Obj.empty]).length)]⟩, by simp only [hd]; rfl, ?_⟩
      rw [List.append_assoc]
      exact rel_new h _ _ _ (.inr ⟨1, c, by simp, rfl, rfl⟩)
  | importPem r t =>
    obtain ⟨c, hc⟩ := Option.isSome_iff_exists.1 ha
    simp only [Cert.step, shownStep, hc]
    have main : ∀ p, s.reqs[r]? = some (some p) → Rel ⟨s.heap ++ [.holds c], s.reqs.set r (some (some s.heap.length))⟩ (l.set r (some (some c))) := by
      intro p hp
      refine rel_set h hp _ _ _ (fun i o hi _ => ?_) (.inr ⟨s.heap.length, c, rfl, Nat.le_refl _, by simp, rfl⟩)
      rw [List.getElem?_append_left (List.getElem?_eq_some_iff.1 hi).1, hi]
    rcases rel_at h r with ⟨e1, e2⟩ | ⟨e1, e2⟩ | ⟨e1, e2⟩ | ⟨c', i, e1, e2, e3⟩
    · rw [e1, e2]; exact ⟨s, rfl, h⟩
    · rw [e1, e2]; exact ⟨s, rfl, h⟩
    · rw [e1, e2]
      exact ⟨_, by simp only [import_ok hg _ _ hc]; rfl, main _ e2⟩
    · rw [e1, e2]
      exact ⟨_, by simp only [import_ok hg _ _ hc]; rfl, main _ e2⟩
  | clean r =>
    simp only [Cert.step, shownStep]
    rcases rel_at h r with ⟨e1, e2⟩ | ⟨e1, e2⟩ | ⟨e1, e2⟩ | ⟨c', i, e1, e2, e3⟩
    · rw [e1, e2]; exact ⟨s, rfl, h⟩
    · rw [e1, e2]; exact ⟨s, rfl, h⟩
    · rw [e1, e2]
      exact ⟨⟨s.heap, s.reqs.set r none⟩, rfl, rel_set h e2 _ _ _ (fun i o hi _ => hi) (.inl ⟨rfl, rfl⟩)⟩
    · rw [e1, e2]
      refine ⟨⟨s.heap.set i .gone, s.reqs.set r none⟩, by simp [Cert.clean, crtDeinit, e3], ?_⟩
      refine rel_set h e2 _ _ _ (fun j o hj hne => ?_) (.inl ⟨rfl, rfl⟩)
      rw [List.getElem?_set_ne (fun e => hne (by rw [e]))]
      exact hj

private theorem exec_rel {G : Gnutls} (hg : Reliable G) (use : Bool) : ∀ (acts : List Cert.Act) {s : Srv} {l : Shown}, Rel s l →
    (∀ a ∈ acts, ReadableAct G a) → ∃ s', Cert.exec G use s acts = .ok s' ∧ Rel s' (acts.foldl (shownStep G use) l)
  | [], s, l, h, _ => ⟨s, rfl, h⟩
  | a :: t, s, l, h, ha => by
    obtain ⟨s1, h1, h2⟩ := step_rel hg use h a (ha a List.mem_cons_self)
    obtain ⟨s2, h3, h4⟩ := exec_rel hg use t h2 (fun b hb => ha b (List.mem_cons_of_mem _ hb))
    exact ⟨s2, by simp only [Cert.exec, h1, Res.ok_bind, h3], h4⟩

/-- **C166, partial.** Whatever requests come in, are duplicated, given certificates and cleaned, in any order: nothing undefined happens, and each
request that was not cleaned shows what it should: the certificate its client proved to own, that of the request it is a duplicate of, or the one put
into it last; a request of a client that proved nothing, or to an instance that does not ask, shows none.
Missing: certificates that cannot be read (`C166_import_false`, `C166_empty_false`), and that every object is freed (`C166_leak_false`,
`C166_replace_false`). -/
theorem C166_shown_partial (G : Gnutls) (hg : Reliable G) (use : Bool) (acts : List Cert.Act) (ha : ∀ a ∈ acts, ReadableAct G a) :
    ∃ s, Cert.exec G use {} acts = .ok s ∧ s.reqs.length = (acts.foldl (shownStep G use) []).length ∧
      ∀ r : Nat, match (acts.foldl (shownStep G use) [])[r]? with
        | some (some x) => ∃ p, s.reqs[r]? = some (some p) ∧ look s.heap p = .ok (x.map some)
        | some none => s.reqs[r]? = some none
        | none => s.reqs[r]? = none := by
  have h0 : Rel {} [] := ⟨rfl, fun _ h => (by cases h), fun _ h => (by cases h), fun _ _ h => (by cases h), fun _ _ _ h => (by cases h)⟩
  obtain ⟨s, h1, h2⟩ := exec_rel hg use acts h0 ha
  refine ⟨s, h1, h2.len, fun r => ?_⟩
  rcases rel_at h2 r with ⟨e1, e2⟩ | ⟨e1, e2⟩ | ⟨e1, e2⟩ | ⟨c', i, e1, e2, e3⟩
  · rw [e1]; exact e2
  · rw [e1]; exact e2
  · rw [e1]; exact ⟨none, e2, rfl⟩
  · rw [e1]; exact ⟨some i, e2, by simp only [look, e3]; rfl⟩

/-- Requests come and go. -/
def ComesOrGoes : Cert.Act → Prop
  | .admit _ => True
  | .clean _ => True
  | _ => False

private def Owned (s : Srv) : Prop := ∀ (i : Nat) (o : Obj), s.heap[i]? = some o → o = .gone ∨ ∃ r : Nat, s.reqs[r]? = some (some (some i))

private theorem step_owned {G : Gnutls} (hg : Reliable G) (use : Bool) {s s' : Srv} {l : Shown} (h : Rel s l) (ho : Owned s) (a : Cert.Act)
    (hc : ComesOrGoes a) (ha : ReadableAct G a) (e : Cert.step G use s a = .ok s') : Owned s' := by
  cases a with
  | admit peer =>
    have hold : ∀ {r : Nat} {p : Option Ptr} {y : Option Ptr}, s.reqs[r]? = some y → (s.reqs ++ [p])[r]? = some y := fun {r p y} hr => by
      rw [List.getElem?_append_left (List.getElem?_eq_some_iff.1 hr).1, hr]
    rcases admit_ok hg use peer s.heap ha with ⟨h1, h2⟩ | ⟨c, h1, h2⟩
    · simp only [Cert.step, h2, Res.ok_bind, Res.pure_eq, Res.ok.injEq] at e
      subst e
      intro i o hi
      rcases ho i o hi with hg | ⟨r, hr⟩
      · exact .inl hg
      · exact .inr ⟨r, hold hr⟩
    · simp only [Cert.step, h2, Res.ok_bind, Res.pure_eq, Res.ok.injEq] at e
      subst e
      intro i o hi
      by_cases hlt : i < s.heap.length
      · rw [List.getElem?_append_left hlt] at hi
        rcases ho i o hi with hg | ⟨r, hr⟩
        · exact .inl hg
        · exact .inr ⟨r, hold hr⟩
      · have := (List.getElem?_eq_some_iff.1 hi).1
        simp at this
        refine .inr ⟨s.reqs.length, ?_⟩
        have : i = s.heap.length := by omega
        subst this
        simp
  | clean r =>
    simp only [Cert.step] at e
    rcases rel_at h r with ⟨e1, e2⟩ | ⟨e1, e2⟩ | ⟨e1, e2⟩ | ⟨c', j, e1, e2, e3⟩
    · rw [e2] at e; cases e; exact ho
    · rw [e2] at e; cases e; exact ho
    · rw [e2] at e
      cases e
      intro i o hi
      rcases ho i o hi with hg | ⟨r', hr⟩
      · exact .inl hg
      · refine .inr ⟨r', ?_⟩
        rw [List.getElem?_set_ne (fun he => by subst he; rw [e2] at hr; cases hr)]
        exact hr
    · rw [e2] at e
      simp only [Cert.clean, crtDeinit, e3, Res.ok_bind, Res.pure_eq, Res.ok.injEq] at e
      subst e
      intro i o hi
      by_cases hij : i = j
      · subst hij
        simp only [List.getElem?_set, (List.getElem?_eq_some_iff.1 e3).1, if_true] at hi
        cases hi
        exact .inl rfl
      · rw [List.getElem?_set_ne (Ne.symm hij)] at hi
        rcases ho i o hi with hg | ⟨r', hr⟩
        · exact .inl hg
        · refine .inr ⟨r', ?_⟩
          have hne : r ≠ r' := by
            intro he
            rw [← he, e2] at hr
            injection hr with hr; injection hr with hr; injection hr with hr
            exact hij hr.symm
          rw [List.getElem?_set_ne hne]
          exact hr
  | duplicate r => exact hc.elim
  | importPem r t => exact hc.elim

private theorem exec_owned {G : Gnutls} (hg : Reliable G) (use : Bool) : ∀ (acts : List Cert.Act) {s s' : Srv} {l : Shown}, Rel s l → Owned s →
    (∀ a ∈ acts, ComesOrGoes a) → (∀ a ∈ acts, ReadableAct G a) → Cert.exec G use s acts = .ok s' → Owned s'
  | [], s, s', l, _, ho, _, _, e => by cases e; exact ho
  | a :: t, s, s', l, h, ho, hc, ha, e => by
    obtain ⟨s1, h1, h2⟩ := step_rel hg use h a (ha a List.mem_cons_self)
    simp only [Cert.exec, h1, Res.ok_bind] at e
    exact exec_owned hg use t h2 (step_owned hg use h ho a (hc a List.mem_cons_self) (ha a List.mem_cons_self) h1)
      (fun b hb => hc b (List.mem_cons_of_mem _ hb)) (fun b hb => ha b (List.mem_cons_of_mem _ hb)) e

/-- **C166, partial.** Requests come and go, and every one is gone in the end: every object was freed (once, as nothing undefined happened).
Missing: duplicates (`C166_leak_false`) and certificates put into a request that has one (`C166_replace_false`). -/
theorem C166_freed_partial (G : Gnutls) (hg : Reliable G) (use : Bool) (acts : List Cert.Act) (ha : ∀ a ∈ acts, ReadableAct G a)
    (hc : ∀ a ∈ acts, ComesOrGoes a) (hend : ∀ x ∈ acts.foldl (shownStep G use) [], x = none) :
    ∃ s, Cert.exec G use {} acts = .ok s ∧ ∀ o ∈ s.heap, o = .gone := by
  have h0 : Rel {} [] := ⟨rfl, fun _ h => (by cases h), fun _ h => (by cases h), fun _ _ h => (by cases h), fun _ _ _ h => (by cases h)⟩
  obtain ⟨s, h1, h2⟩ := exec_rel hg use acts h0 ha
  have ho := exec_owned hg use acts h0 (fun i o h => by cases h) hc ha h1
  refine ⟨s, h1, fun o hm => ?_⟩
  obtain ⟨i, hi⟩ := List.mem_iff_getElem?.1 hm
  rcases ho i o hi with hg | ⟨r, hr⟩
  · exact hg
  · exfalso
    rcases rel_at h2 r with ⟨e1, e2⟩ | ⟨e1, e2⟩ | ⟨e1, e2⟩ | ⟨c', j, e1, e2, e3⟩
    · rw [e2] at hr; cases hr
    · rw [e2] at hr; cases hr
    · rw [e2] at hr; cases hr
    · cases hend _ (List.mem_iff_getElem?.2 ⟨r, e1⟩)

/-- **C166, the example server.** It answers with the names in the certificate to clients that proved to own it, and with an error to all others. -/
theorem C166_example_partial (G : Gnutls) (hg : Reliable G) (use : Bool) (peer : Peer) (hp : ReadableAct G (.admit peer)) (h : Heap)
    (dn issuer : Bytes → Bytes) :
    ∃ h' p r, admit G use peer h = .ok (h', p) ∧ certCallback dn issuer h' p {} = .ok (0, r) ∧
      (∀ c, presented G use peer = some c → r.status = 200 ∧
        r.body.map (·.take r.bodyLen) = some (b!"client dn: '" ++ dn c ++ b!"', ussued by: '" ++ issuer c ++ b!"'")) ∧
      (presented G use peer = none → r.status = 400) := by
  rcases admit_ok hg use peer h hp with ⟨h1, h2⟩ | ⟨c, h1, h2⟩
  · exact ⟨_, _, _, h2, rfl, (fun c hc => by rw [h1] at hc; cases hc), fun _ => rfl⟩
  · refine ⟨_, _, (Message.setStringBody {} 200 (some (b!"client dn: '" ++ dn c ++ b!"', ussued by: '" ++ issuer c ++ b!"'"))).2, h2, ?_, ?_,
      (fun hn => by rw [h1] at hn; cases hn)⟩
    · simp only [certCallback, look, List.getElem?_concat_length]
      rfl
    · intro c' hc
      rw [h1] at hc
      injection hc with hc
      subst hc
      exact ⟨rfl, by simp only [Message.setStringBody, Option.map_some, List.take_left]⟩

/-- A library whose certificates are their own encodings; texts that begin with 0 are none. -/
def plainTls : Gnutls where
  init _ := true
  der x := if x.head? = some 0 then none else some x
  pem c := some (0x2d :: c)
  unpem t := match t with
    | 0x2d :: c => some c
    | _ => none

def joe : Peer := ⟨true, 0, 0, [b!"joe"]⟩

example : Reliable plainTls := ⟨fun _ => rfl, fun c => ⟨0x2d :: c, rfl, rfl⟩⟩

example : [Cert.Act.admit joe, .duplicate 0, .admit ⟨true, -49, 0, []⟩, .importPem 2 b!"-ann", .clean 0, .admit ⟨true, 0, 2, [b!"eve"]⟩].foldl
    (shownStep plainTls true) [] = [none, some (some b!"joe"), some (some b!"ann"), some none] := by decide +kernel

example : (∀ a ∈ [Cert.Act.admit joe, .clean 0], ComesOrGoes a) ∧ (∀ a ∈ [Cert.Act.admit joe, .clean 0], ReadableAct plainTls a) ∧
    ∀ x ∈ [Cert.Act.admit joe, .clean 0].foldl (shownStep plainTls true) [], x = none := by
  refine ⟨?_, ?_, by decide +kernel⟩
  · intro a ha
    simp only [List.mem_cons, List.not_mem_nil, or_false] at ha
    rcases ha with rfl | rfl <;> trivial
  · intro a ha
    simp only [List.mem_cons, List.not_mem_nil, or_false] at ha
    rcases ha with rfl | rfl
    · intro _ _ x hx
      cases hx
      decide +kernel
    · trivial

private def objects : Res Srv → Option (List Obj)
  | .ok s => some s.heap
  | .ub => none

/-- **C166 is false of the code** for a certificate that was verified and cannot be imported: `client_cert` points to a freed object, so that a callback
takes the client for authenticated and uses freed memory, and so does the end of the request. -/
theorem C166_import_false : ∃ h, admit plainTls true ⟨true, 0, 0, [[0]]⟩ [] = .ok (h, some 0) ∧ (look h (some 0) = .ub) ∧
    Cert.clean h (some 0) = .ub := ⟨[.gone], by decide +kernel, by decide +kernel, by decide +kernel⟩

/-- **C166 is false of the code**: a request is duplicated (as for every websocket), both are cleaned, an object is left. -/
theorem C166_leak_false : objects (Cert.exec plainTls true {} [.admit joe, .duplicate 0, .clean 0, .clean 1]) = some [.gone, .empty, .gone] := by
  decide +kernel

/-- **C166 is false of the code**: so it is when a certificate is put into a request that has one. -/
theorem C166_replace_false : objects (Cert.exec plainTls true {} [.admit joe, .importPem 0 b!"-ann", .clean 0]) = some [.holds b!"joe", .gone] := by
  decide +kernel

/-- **C166 is false of the code**: a text that is no certificate is refused, but the request then has a certificate, an empty one. -/
theorem C166_empty_false : ∃ h, importPem plainTls [] none (some b!"junk") = .ok (.error, h, some 0) ∧ look h (some 0) = .ok (some none) :=
  ⟨[.empty], by decide +kernel, by decide +kernel⟩

end Verif.Props
