import Verif.Lemmas.MemoryRequest
/-!
# C128: what requests allocate

Claim: a program may make any number of requests (its own, those of the server, copies), set their options, maps and bodies in any order and any
number of times and clean them in any order: no block is used after it was freed, none is freed twice, and once all requests are cleaned every
block they allocated is freed.
-/
namespace Verif.Props
open Verif Verif.Memory

/-- Specification of the calls the code gets right: which requests got a client certificate is written down, a second certificate is not
imported into one of them, and it is not copied. -/
def OneCertificate (certs : List Bool) : List Cmd → Prop
  | [] => True
  | .init :: t => OneCertificate (certs ++ [false]) t
  | .receive b :: t => OneCertificate (certs ++ [b]) t
  | .op i (.cert (some _)) :: t => certs[i]? ≠ some true ∧ OneCertificate (certs.set i true) t
  | .op _ _ :: t => OneCertificate certs t
  | .duplicate i :: t => certs[i]? ≠ some true ∧ OneCertificate (certs ++ [false]) t
  | .clean _ :: t => OneCertificate certs t

/-- Specification: blocks have one identifier each, those to come are new. -/
def FineHeap (h : Heap) : Prop := h.live.Nodup ∧ ∀ n ∈ h.live, n < h.next

/-- Invariant of programs over requests. -/
structure ReqsInv (s : State) (certs : List Bool) (d : Nat → Nat) : Prop where
  len : s.reqs.length = certs.length
  own : Own s.heap (fun n => cQ s.reqs n + d n)
  body : ∀ (i : Nat) (r : Req), s.reqs[i]? = some (some r) → BodyOk r
  cert : ∀ (i : Nat) (r : Req), s.reqs[i]? = some (some r) → certs[i]? = some false → r.slot .cert = .null

private theorem ReqsInv.snoc {s : State} {certs : List Bool} {d : Nat → Nat} (I : ReqsInv s certs d) (h : Heap) (r : Req) (b : Bool)
    (o : Own h (fun n => cR r n + (cQ s.reqs n + d n))) (hb : BodyOk r) (hc : b = false → r.slot .cert = .null) :
    ReqsInv ⟨h, s.reqs ++ [some r]⟩ (certs ++ [b]) d := by
  refine ⟨by simp [I.len], o.congr (by intro n; rw [cQ_append]; simp only [cQ]; omega), ?_, ?_⟩
  · intro i r' hi
    by_cases h1 : i < s.reqs.length
    · rw [List.getElem?_append_left h1] at hi; exact I.body i r' hi
    · rw [List.getElem?_append_right (by omega)] at hi
      rcases hk : i - s.reqs.length with _ | k
      · rw [hk] at hi; simp at hi; subst hi; exact hb
      · rw [hk] at hi; simp at hi
  · intro i r' hi hf
    by_cases h1 : i < s.reqs.length
    · rw [List.getElem?_append_left h1] at hi
      rw [List.getElem?_append_left (by rw [← I.len]; exact h1)] at hf
      exact I.cert i r' hi hf
    · rw [List.getElem?_append_right (by omega)] at hi
      rw [List.getElem?_append_right (by rw [← I.len]; omega), ← I.len] at hf
      rcases hk : i - s.reqs.length with _ | k
      · rw [hk] at hi hf; simp at hi hf; subst hi; exact hc hf
      · rw [hk] at hi; simp at hi

private theorem ReqsInv.none {s : State} {certs : List Bool} {d : Nat → Nat} (I : ReqsInv s certs d) (h : Heap) (b : Bool)
    (o : Own h (fun n => cQ s.reqs n + d n)) : ReqsInv ⟨h, s.reqs ++ [Option.none]⟩ (certs ++ [b]) d := by
  have hx : ∀ (i : Nat) (r' : Req), (s.reqs ++ [Option.none])[i]? = some (some r') → i < s.reqs.length := by
    intro i r' hi
    by_cases h1 : i < s.reqs.length
    · exact h1
    · rw [List.getElem?_append_right (by omega)] at hi
      rcases hk : i - s.reqs.length with _ | k <;> rw [hk] at hi <;> simp at hi
  refine ⟨by simp [I.len], o.congr (by intro n; rw [cQ_append]; simp [cQ]), ?_, ?_⟩
  · intro i r' hi
    have h1 := hx i r' hi
    rw [List.getElem?_append_left h1] at hi; exact I.body i r' hi
  · intro i r' hi hf
    have h1 := hx i r' hi
    rw [List.getElem?_append_left h1] at hi
    rw [List.getElem?_append_left (by rw [← I.len]; exact h1)] at hf
    exact I.cert i r' hi hf

private theorem ReqsInv.set {s : State} {certs : List Bool} {d : Nat → Nat} (I : ReqsInv s certs d) (h : Heap) (i : Nat) (r r' : Req)
    (hi : s.reqs[i]? = some (some r)) (certs' : List Bool) (hl : certs'.length = certs.length) (hs : ∀ j, j ≠ i → certs'[j]? = certs[j]?)
    (o : Own h (fun n => cR r' n + (cQ (s.reqs.set i Option.none) n + d n))) (hb : BodyOk r')
    (hc : certs'[i]? = some false → r'.slot .cert = .null) : ReqsInv ⟨h, s.reqs.set i (some r')⟩ certs' d := by
  have hlt : i < s.reqs.length := (List.getElem?_eq_some_iff.1 hi).1
  refine ⟨by simp [I.len, hl], o.congr (by intro n; show _ = cQ (s.reqs.set i (some r')) n + d n; rw [cQ_set hlt]; omega), ?_, ?_⟩
  · intro j x hj
    by_cases h1 : i = j
    · subst h1; simp [hlt] at hj; subst hj; exact hb
    · rw [List.getElem?_set_ne h1] at hj; exact I.body j x hj
  · intro j x hj hf
    by_cases h1 : i = j
    · subst h1; simp [hlt] at hj; subst hj; exact hc hf
    · rw [List.getElem?_set_ne h1] at hj
      rw [hs j (Ne.symm h1)] at hf
      exact I.cert j x hj hf

private theorem ReqsInv.drop {s : State} {certs : List Bool} {d : Nat → Nat} (I : ReqsInv s certs d) (h : Heap) (i : Nat)
    (o : Own h (fun n => cQ (s.reqs.set i Option.none) n + d n)) : ReqsInv ⟨h, s.reqs.set i Option.none⟩ certs d := by
  have hx : ∀ (j : Nat) (x : Req), (s.reqs.set i Option.none)[j]? = some (some x) → s.reqs[j]? = some (some x) := by
    intro j x hj
    by_cases h1 : i = j
    · subst h1; rw [List.getElem?_set] at hj; simp at hj
    · rwa [List.getElem?_set_ne h1] at hj
  exact ⟨by simp [I.len], o, fun j x hj => I.body j x (hx j x hj), fun j x hj => I.cert j x (hx j x hj)⟩

/-- What is written down after one call. -/
def certsAfter (certs : List Bool) : Cmd → List Bool
  | .init => certs ++ [false]
  | .receive b => certs ++ [b]
  | .op i (.cert (some _)) => certs.set i true
  | .op _ _ => certs
  | .duplicate _ => certs ++ [false]
  | .clean _ => certs

theorem exec_inv (c : Cmd) {s : State} {certs : List Bool} {d : Nat → Nat} (I : ReqsInv s certs d) (one : OneCertificate certs [c]) :
    ∃ s', exec s c = .ok s' ∧ ReqsInv s' (certsAfter certs c) d := by
  have next : ∀ {s1 : State} {certs1 : List Bool}, exec s c = .ok s1 → ReqsInv s1 certs1 d → certs1 = certsAfter certs c →
      ∃ s', exec s c = .ok s' ∧ ReqsInv s' (certsAfter certs c) d := by
    rintro s1 certs1 e1 I1 rfl
    exact ⟨s1, e1, I1⟩
  cases c with
  | init =>
    obtain ⟨r, h, e1, b1, n1, l1, o1⟩ := own_initRequest (d := fun n => cQ s.reqs n + d n) .null I.own (by intro n; simp [cP])
    exact next (by simp only [exec, e1, Res.ok_bind]; rfl) (I.snoc h r false o1 (fun hx => absurd l1 hx) (fun _ => n1 _)) rfl
  | receive b =>
    obtain ⟨r, h, e1, o1, b1, c1⟩ := own_receive b I.own
    exact next (by simp only [exec, e1, Res.ok_bind]; rfl) (I.snoc h r b o1 b1 c1) rfl
  | duplicate i =>
    rcases hi : s.reqs[i]? with _ | _ | r
    · exact next (by simp only [exec, hi]) (I.none s.heap false I.own) rfl
    · exact next (by simp only [exec, hi]) (I.none s.heap false I.own) rfl
    · have hc : r.slot .cert = .null := by
        refine I.cert i r hi ?_
        have hlt : i < certs.length := by rw [← I.len]; exact (List.getElem?_eq_some_iff.1 hi).1
        have hne := one.1
        rw [List.getElem?_eq_getElem hlt] at hne ⊢
        rcases hb : certs[i] with _ | _
        · rfl
        · rw [hb] at hne; exact absurd rfl hne
      obtain ⟨r', h, e1, o1, b1, c1⟩ := own_duplicateRequest (d := fun n => cQ (s.reqs.set i none) n + d n) (I.body i r hi) hc I.own
        (by intro n; rw [cQ_get hi]; omega)
      exact next (by simp only [exec, hi, e1, Res.ok_bind]; rfl) (I.snoc h r' false o1 b1 (fun _ => c1)) rfl
  | clean i =>
    rcases hi : s.reqs[i]? with _ | _ | r
    · exact next (by simp only [exec, hi]) I rfl
    · exact next (by simp only [exec, hi]) I rfl
    · obtain ⟨h, e1, o1⟩ := own_cleanRequestFull (r := r) (d := fun n => cQ (s.reqs.set i none) n + d n) I.own (by intro n; rw [cQ_get hi]; omega)
      exact next (by simp only [exec, hi, e1, Res.ok_bind]; rfl) (I.drop h i o1) rfl
  | op i o =>
    have gone : (∀ r, s.reqs[i]? ≠ some (some r)) → exec s (.op i o) = .ok s := by
      intro hn
      rcases hi : s.reqs[i]? with _ | _ | r
      · simp only [exec, hi]
      · simp only [exec, hi]
      · exact absurd hi (hn r)
    by_cases ho : ∃ v, o = .cert (some v)
    · obtain ⟨v, rfl⟩ := ho
      by_cases hr : ∃ r, s.reqs[i]? = some (some r)
      · obtain ⟨r, hi⟩ := hr
        have hlt : i < certs.length := by rw [← I.len]; exact (List.getElem?_eq_some_iff.1 hi).1
        have hc : r.slot .cert = .null := by
          refine I.cert i r hi ?_
          have hne := one.1
          rw [List.getElem?_eq_getElem hlt] at hne ⊢
          rcases hb : certs[i] with _ | _
          · rfl
          · rw [hb] at hne; exact absurd rfl hne
        obtain ⟨r', h, e1, o1, b1⟩ := own_cert (d := fun n => cQ (s.reqs.set i none) n + d n) (some v) (I.body i r hi) hc I.own
          (by intro n; rw [cQ_get hi]; omega)
        refine next (certs1 := certs.set i true) (by simp only [exec, hi, e1, Res.ok_bind]; rfl)
          (I.set h i r r' hi _ (by simp) (fun j hj => List.getElem?_set_ne (Ne.symm hj)) o1 b1 ?_) rfl
        intro hf
        simp [hlt] at hf
      · have hn : ∀ r, s.reqs[i]? ≠ some (some r) := fun r hi => hr ⟨r, hi⟩
        refine next (certs1 := certs.set i true) (gone hn) ⟨by simp [I.len], I.own, I.body, ?_⟩ rfl
        intro j x hj hf
        by_cases h1 : i = j
        · subst h1; exact absurd hj (hn x)
        · rw [List.getElem?_set_ne h1] at hf; exact I.cert j x hj hf
    · have one' : certs = certsAfter certs (.op i o) := by
        cases o with
        | cert v =>
          cases v with
          | none => rfl
          | some v => exact absurd ⟨v, rfl⟩ ho
        | _ => rfl
      by_cases hr : ∃ r, s.reqs[i]? = some (some r)
      · obtain ⟨r, hi⟩ := hr
        have st : ∃ r' h', step s.heap r o = .ok (r', h') ∧ Own h' (fun n => cR r' n + (cQ (s.reqs.set i none) n + d n)) ∧ Kept r r' := by
          by_cases hv : o = .cert none
          · subst hv
            exact ⟨r, s.heap, rfl, I.own.congr (by intro n; rw [cQ_get hi]; omega), I.body i r hi, rfl, rfl⟩
          · refine own_step o ?_ (I.body i r hi) I.own (by intro n; rw [cQ_get hi]; omega)
            rintro (_ | v) rfl
            · exact hv rfl
            · exact ho ⟨v, rfl⟩
        obtain ⟨r', h, e1, o1, k1⟩ := st
        exact next (by simp only [exec, hi, e1, Res.ok_bind]; rfl)
          (I.set h i r r' hi certs rfl (fun _ _ => rfl) o1 k1.1 (fun hf => by rw [k1.2.2]; exact I.cert i r hi hf)) one'
      · exact next (gone (fun r hi => hr ⟨r, hi⟩)) I one'

theorem OneCertificate.split {certs : List Bool} {c : Cmd} {t : List Cmd} (h : OneCertificate certs (c :: t)) :
    OneCertificate certs [c] ∧ OneCertificate (certsAfter certs c) t := by
  cases c with
  | op i o =>
    cases o with
    | cert v =>
      cases v with
      | none => exact ⟨trivial, h⟩
      | some v => exact ⟨⟨h.1, trivial⟩, h.2⟩
    | _ => exact ⟨trivial, h⟩
  | duplicate i => exact ⟨⟨h.1, trivial⟩, h.2⟩
  | _ => exact ⟨trivial, h⟩

private theorem run_inv (prog : List Cmd) {s : State} {certs : List Bool} {d : Nat → Nat} (I : ReqsInv s certs d) (one : OneCertificate certs prog) :
    ∃ s' certs', run s prog = .ok s' ∧ ReqsInv s' certs' d := by
  induction prog generalizing s certs with
  | nil => exact ⟨s, certs, rfl, I⟩
  | cons c t ih =>
    obtain ⟨s1, e1, I1⟩ := exec_inv c I one.split.1
    obtain ⟨s', certs', e2, I2⟩ := ih I1 one.split.2
    exact ⟨s', certs', by simp [run, e1, e2], I2⟩

/-- **C128** (partial): for every program in which no request gets a second client certificate or is copied once it has one.
Missing: the other programs, for which it is false (`C128_copy_false`, `C128_import_false`). -/
theorem C128_memory_partial (h0 : Heap) (fine : FineHeap h0) (prog : List Cmd) (one : OneCertificate [] prog) :
    ∃ s, run ⟨h0, []⟩ prog = .ok s ∧ ((∀ r ∈ s.reqs, r = none) → s.heap.live.Perm h0.live) := by
  have o0 : Own h0 (fun n => h0.live.count n) := by
    intro n
    refine ⟨rfl, List.nodup_iff_count.1 fine.1 n, fun hn => List.count_eq_zero.2 (fun hm => ?_)⟩
    have := fine.2 n hm; omega
  obtain ⟨s, certs, e, I⟩ := run_inv (d := fun n => h0.live.count n) prog (s := ⟨h0, []⟩) (certs := [])
    ⟨rfl, o0.congr (by intro n; simp [cQ]), by intro i r hi; simp at hi, by intro i r hi; simp at hi⟩ one
  refine ⟨s, e, fun hall => List.perm_iff_count.2 (fun n => ?_)⟩
  rw [(I.own n).1]; simp [cQ_none hall]

/-- A program: a request with options, a map entry that is replaced and one that is removed, a body, a copy, a request of the server with a
client certificate, an imported certificate; all cleaned. -/
private def sampleProgram : List Cmd :=
  [.init, .op 0 (.text .url (some b!"http://localhost/")), .op 0 (.append (some b!"x")), .op 0 (.put .header (some b!"A") (some b!"1")),
   .op 0 (.put .header (some b!"A") (some b!"long")), .op 0 (.put .post (some b!"p") none), .op 0 (.remove .post (some b!"p")),
   .op 0 (.jsonBody (some b!"{}")), .op 0 (.stringBody (some b!"text")), .duplicate 0, .receive true, .op 1 (.cert (some b!"PEM")),
   .op 0 (.websocket (some b!"http://h/") (some b!"proto") none true), .clean 0, .op 1 (.text .verb (some b!"PUT")), .duplicate 0, .clean 2, .clean 1]

private def outcome : Res State → Option (List Nat × List Bool)
  | .ok s => some (s.heap.live, s.reqs.map Option.isSome)
  | .ub => none

example : OneCertificate [] sampleProgram := by
  refine ⟨by decide, ?_⟩
  show _ ∧ _
  refine ⟨by decide, by decide, trivial⟩

example : outcome (run ⟨⟨[7, 3], 10⟩, []⟩ sampleProgram) = some ([7, 3], [false, false, false, false]) := by decide +kernel

example : FineHeap ⟨[7, 3], 10⟩ := ⟨by decide, by decide⟩

/-- Copying a request with a client certificate allocates two certificates and keeps one: the other is never freed. -/
theorem C128_copy_false : outcome (run ⟨{}, []⟩ [.receive true, .duplicate 0, .clean 0, .clean 1]) ≠ some ([], [false, false]) ∧
    (outcome (run ⟨{}, []⟩ [.receive true, .duplicate 0, .clean 0, .clean 1])).map (fun x => x.1.length) = some 1 := by decide +kernel

/-- Importing two certificates into one request: the first is never freed. -/
theorem C128_import_false :
    (outcome (run ⟨{}, []⟩ [.init, .op 0 (.cert (some b!"PEM")), .op 0 (.cert (some b!"PEM")), .clean 0])).map (fun x => x.1.length) = some 1 := by
  decide +kernel

/-- The request that `prog` leaves at place 0. -/
private def first (prog : List Cmd) : Option (Req × Heap) :=
  match run ⟨{}, []⟩ prog with
  | .ok s => match s.reqs with
    | some r :: _ => some (r, s.heap)
    | _ => none
  | .ub => none

private def isUb {α} : Res α → Bool
  | .ok _ => false
  | .ub => true

/-- `ulfius_clean_request` twice frees the path of a request of the server twice, because the pointer is not reset. -/
theorem C128_twice_false :
    (first [.receive false]).map (fun x => isUb (match cleanRequest x.2 x.1 with | .ok (r, h) => cleanRequest h r | .ub => .ub)) = some true ∧
    -- without path, user, password, certificates it is harmless
    (first [.init, .op 0 (.text .verb (some b!"GET"))]).map
      (fun x => isUb (match cleanRequest x.2 x.1 with | .ok (r, h) => cleanRequest h r | .ub => .ub)) = some false := by decide +kernel

/-- `ulfius_copy_request` into a request that already has a URL: the old URL is never freed. -/
theorem C128_into_false :
    (first [.init, .op 0 (.text .url (some b!"http://a/"))]).map (fun x =>
      match initRequest x.2 .null with
      | .ok (_, s, h) => match copyRequest h x.1 s with
        | .ok (_, d, h) => match cleanRequestFull h d with
          | .ok h => match cleanRequestFull h s with
            | .ok h => some h.live.length
            | .ub => none
          | .ub => none
        | .ub => none
      | .ub => none) = some (some 1) := by decide +kernel

/-- If memory runs out in `ulfius_init_request`, `ulfius_clean_request` reads pointers that were never written. -/
theorem C128_init_false : ∀ h box, initRequest h box true = .ub := by
  intro h box; rfl

end Verif.Props
