import Verif.Model.Sheep
import Verif.Props.Compress
import Verif.Props.Options
import Verif.Props.Routing
/-!
# C168: the sheep counter counts

Full statement: every answer of the sheep counter tells the number of sheep after the request: the number given by a POST request (0 without one), one
more for a PUT request, 0 for a DELETE request; each request counts, from whichever clients they come, at whatever times.
-/
namespace Verif.Props
open Verif.UMap Verif.Message Verif.Answer Verif.Sheep Verif.Compress Verif.Printf
open Verif.Spec.Coding (readBody codings)
open Verif.Spec.Handshake (Absent)

/-! ## Specification -/

/-- The number of sheep after a request. -/
def flock (n : Int) : Verb → Option Int → Int
  | .post, g => g.getD 0
  | .put, _ => n + 1
  | .delete, _ => 0

/-- What a request has: headers, and a body or none. -/
def HasBody (q : Req) : Option Bytes → Prop
  | none => q.body = none
  | some t => ∃ b, q.body = some b ∧ q.bodyLen ≤ b.length ∧ b.take q.bodyLen = t

/-- The number a request brings: that of its body if it is JSON and has one content type that says so, none if it has no body or no content type. -/
def Brings (J : Parser) (q : Req) (g : Option Int) : Prop :=
  ∃ hs t, HoldsParams q.header hs ∧ HasBody q t ∧
    ((∃ k v rest b, t = some b ∧ hs.filter (fun p => eqCase p.1 b!"Content-Type") = [(k, some v)] ∧
        (v = b!"application/json" ∨ v = b!"application/json;" ++ rest) ∧ g = J b) ∨
      ((t = none ∨ hs.filter (fun p => eqCase p.1 b!"Content-Type") = []) ∧ g = none))

/-- Requests one after the other, and the number of sheep after each; no number is too large. -/
inductive Series (J : Parser) : Int → List (Verb × Req) → List Int → Prop
  | nil {n} : Series J n [] []
  | cons {n v q g t ns} : Brings J q g → flock n v g < 2 ^ 63 → Series J (flock n v g) t ns → Series J n ((v, q) :: t) (flock n v g :: ns)

/-- A client that can undo codings reads this number in an answer. -/
def Tells (undo : Bytes → Bytes → Option Bytes) (n : Int) (a : Option Ans) : Prop :=
  ∃ fields body, a = some ⟨200, none, fields, .buffer body⟩ ∧ (fields.filter (fun f => eqCase f.1 b!"Content-Type")).map (·.2) = [b!"application/json"] ∧
    readBody undo (fields.map (fun f => (f.1, some f.2))) body = some (b!"{\"nbsheep\":" ++ decimalInt n ++ b!"}")

/-- Jansson's numbers are numbers of 64 bits. -/
def Bounded (J : Parser) : Prop := ∀ t n, J t = some n → -2 ^ 63 ≤ n ∧ n < 2 ^ 63

/-! ## Proofs -/

private theorem digits_short : ∀ (k f n : Nat), n < 10 ^ (k + 1) → (digits f n).length ≤ k + 1
  | k, 0, n, _ => by simp [digits]
  | 0, f + 1, n, h => by
    unfold digits
    rw [if_pos (by simpa using h)]
    simp
  | k + 1, f + 1, n, h => by
    unfold digits
    split
    · simp
    · have := digits_short k f (n / 10) (by rw [Nat.pow_succ] at h; omega)
      simp only [List.length_append, List.length_cons, List.length_nil]
      omega

private theorem text_short (n : Int) (h1 : -2 ^ 63 ≤ n) (h2 : n < 2 ^ 63) : (text n).length < 2 ^ 32 ∧ text n ≠ [] := by
  refine ⟨?_, by simp [text]⟩
  have hd : (decimalInt n).length ≤ 21 := by
    cases n with
    | ofNat m =>
      have := digits_short 19 m m (by have : (m : Int) < 2 ^ 63 := h2; omega)
      show (digits m m).length ≤ 21
      omega
    | negSucc m =>
      have := digits_short 19 (m + 1) (m + 1) (by omega)
      show (digits (m + 1) (m + 1)).length + 1 ≤ 21
      omega
  simp only [text, List.length_append]
  have e1 : b!"{\"nbsheep\":".length = 11 := rfl
  have e2 : b!"}".length = 1 := rfl
  omega

private theorem json_resp (r : Response) (hr : r.header = UMap.init) (hc : r.cookies = []) (t : Bytes) :
    ∃ r', setJsonBody r 200 t = .ok r' ∧ HoldsResp r' [(b!"Content-Type", some b!"application/json")] [] t ∧ r'.bodyLen = t.length ∧ r'.status = 200 ∧
      r'.stream = r.stream := by
  obtain ⟨m, e1, e2⟩ := holds_put holds_init b!"Content-Type" (some b!"application/json") (by decide) (by decide)
    (by intro x hx; cases hx; decide)
  refine ⟨{ r with body := some (t ++ [0]), bodyLen := t.length, status := 200, header := m }, by simp only [setJsonBody, hr, e1]; rfl,
    ⟨e2, by rw [show ({ r with body := some (t ++ [0]), bodyLen := t.length, status := 200, header := m } : Response).cookies = r.cookies from rfl, hc]; rfl,
      ?_, ?_⟩, rfl, rfl, rfl⟩
  · simp [bodyOf]
  · intro b hb
    injection hb with hb
    subst hb
    simp

private theorem brings_json {J : Parser} {q : Req} {g : Option Int} (h : Brings J q g) :
    ∃ t, Options.getJson q.header q.body q.bodyLen = .ok t ∧ t.bind J = g := by
  obtain ⟨hs, t, hh, hb, hcase⟩ := h
  cases t with
  | none =>
    have hb : q.body = none := hb
    have h0 := (C115_media_partial q.header hs hh (List.replicate q.bodyLen 0) q.bodyLen (by simp)).2.2.1
    rcases hcase with ⟨k, v, rest, b, e, -⟩ | ⟨-, rfl⟩
    · cases e
    · refine ⟨none, ?_, rfl⟩
      rw [hb]
      exact h0
  | some t =>
    obtain ⟨b, e1, e2, e3⟩ := hb
    have C := C115_media_partial q.header hs hh b q.bodyLen e2
    rcases hcase with ⟨k, v, rest, b', e, hv, hj, rfl⟩ | ⟨h0, rfl⟩
    · injection e with e
      subst e
      refine ⟨some t, ?_, rfl⟩
      rw [e1, (C.2.1 k v rest hv hj).2, e3]
    · refine ⟨none, ?_, rfl⟩
      rcases h0 with h0 | h0
      · cases h0
      · rw [e1]
        cases hg : Options.getJson q.header (some b) q.bodyLen with
        | ub => exact absurd hg C.2.2.2
        | ok x =>
          cases x with
          | none => rfl
          | some x =>
            obtain ⟨-, v, hv, -⟩ := C.1 x hg
            rw [h0] at hv
            cases hv

private theorem counter_ok {J : Parser} (hJ : Bounded J) {q : Req} {g : Option Int} (hb : Brings J q g) (n : Int) (hn : -2 ^ 63 ≤ n ∧ n < 2 ^ 63) (v : Verb)
    (hx : flock n v g < 2 ^ 63) :
    (-2 ^ 63 ≤ flock n v g) ∧
    ∃ r', counter J v q n { header := UMap.init } = .ok (0, r', flock n v g) ∧
      HoldsResp r' [(b!"Content-Type", some b!"application/json")] [] (text (flock n v g)) ∧ r'.bodyLen = (text (flock n v g)).length ∧ r'.status = 200 ∧
      r'.stream = none := by
  obtain ⟨t, e1, e2⟩ := brings_json hb
  have hlow : -2 ^ 63 ≤ flock n v g := by
    cases v with
    | post =>
      show -2 ^ 63 ≤ g.getD 0
      cases g with
      | none => decide
      | some x =>
        cases t with
        | none => cases e2
        | some t => exact (hJ t x e2).1
    | put => show -2 ^ 63 ≤ n + 1; omega
    | delete => show (-2 ^ 63 : Int) ≤ 0; decide
  refine ⟨hlow, ?_⟩
  obtain ⟨r', h1, h2, h3, h4, h5⟩ := json_resp { header := UMap.init } rfl rfl (text (flock n v g))
  refine ⟨r', ?_, h2, h3, h4, h5⟩
  cases v with
  | post =>
    simp only [counter, start, e1, Res.ok_bind, e2]
    rw [show setJsonBody { header := UMap.init } 200 (text (g.getD 0)) = .ok r' from h1]
    rfl
  | put =>
    simp only [counter, add]
    rw [if_pos (show n + 1 < 2 ^ 63 from hx)]
    rw [show setJsonBody { header := UMap.init } 200 (text (n + 1)) = .ok r' from h1]
    rfl
  | delete =>
    simp only [counter, reset]
    rw [show setJsonBody { header := UMap.init } 200 (text 0) = .ok r' from h1]
    rfl

/-- The lines of an answer. -/
private theorem serve_ok {cfg : Cfg (Option Int)} (hcfg : cfg.defaults = none) {J : Parser} (hJ : Bounded J) {Z : Zlib} {undo : Bytes → Bytes → Option Bytes}
    (hz : LosslessZlib Z undo) (hrel : ReliableZlib Z)
    (hacc : ∀ extra, extra = [] ∨ extra = [(b!"Content-Encoding", b!"gzip")] ∨ extra = [(b!"Content-Encoding", b!"deflate")] →
      Takes cfg.accept [] ((b!"Content-Type", b!"application/json") :: extra))
    {q : Req} {g : Option Int} (hb : Brings J q g) (n : Int) (hn : -2 ^ 63 ≤ n ∧ n < 2 ^ 63) (v : Verb) (hx : flock n v g < 2 ^ 63) :
    (-2 ^ 63 ≤ flock n v g) ∧ ∃ a, serve cfg J Z n v q = .ok (a, flock n v g) ∧ Tells undo (flock n v g) a := by
  obtain ⟨hlow, r1, h1, h2, h3, h4, h5⟩ := counter_ok hJ hb n hn v hx
  refine ⟨hlow, ?_⟩
  have hb' := hb
  obtain ⟨qs, t, hq, -, -⟩ := hb'
  obtain ⟨hs1, hs2⟩ := text_short _ hlow hx
  obtain ⟨code, r2, hs', body', c1, c2, c3, c4, c5, c6⟩ := C131_compression_partial Z undo none q.header r1 qs _ _ _ hz hq h2 h3 hs1
    (by intro p hp; rw [List.mem_singleton.1 hp]; decide)
  have hcode : code = 1 ∧ (hs' = [(b!"Content-Type", some b!"application/json")] ∨
      hs' = [(b!"Content-Type", some b!"application/json"), (b!"Content-Encoding", some b!"gzip")] ∨
      hs' = [(b!"Content-Type", some b!"application/json"), (b!"Content-Encoding", some b!"deflate")]) := by
    rcases c6 with ⟨e1, -, e2, -⟩ | ⟨-, -, -, -, -, m, -, hf⟩ | ⟨e1, -, c, hw, e2⟩
    · exact ⟨e1, .inl e2⟩
    · rcases hf with hf | ⟨k, hf⟩
      · rw [(hrel m).1] at hf; cases hf
      · rw [(hrel m).2] at hf; cases hf
    · refine ⟨e1, .inr ?_⟩
      rcases hw with ⟨rfl, -⟩ | ⟨rfl, -⟩
      · exact .inl e2
      · exact .inr e2
  obtain ⟨rfl, hhs⟩ := hcode
  have hlines : linesOf hs' [] = (b!"Content-Type", b!"application/json") :: (linesOf hs' []).tail ∧
      ((linesOf hs' []).tail = [] ∨ (linesOf hs' []).tail = [(b!"Content-Encoding", b!"gzip")] ∨
        (linesOf hs' []).tail = [(b!"Content-Encoding", b!"deflate")]) ∧
      (linesOf hs' []).map (fun f => (f.1, some f.2)) = hs' := by
    rcases hhs with rfl | rfl | rfl <;> simp [linesOf]
  obtain ⟨l1, l2, l3⟩ := hlines
  have hcb1 : counterCb J v q 0 ⟨{ header := UMap.init }, false, some n⟩ = (0, ⟨r1, false, some (flock n v g)⟩) := by
    simp only [counterCb, h1]
  have hcb2 : compressCb Z q 1 ⟨r1, false, some (flock n v g)⟩ = (1, ⟨r2, false, some (flock n v g)⟩) := by
    simp only [compressCb, c1]
  have hr2 : r2.stream = none ∧ r2.status = 200 := by
    rw [c4]; exact ⟨h5, h4⟩
  have hd := dispatch_pair cfg (counterCb J v q) (compressCb Z q) none (some n) (by rw [hcfg]; rfl) hcb1 hcb2 (.inr (.inl rfl)) h5 rfl hr2.1 rfl c2
    (by rw [l1]; exact hacc _ l2)
  refine ⟨_, by simp only [serve, hd, Res.ok_bind]; rfl, linesOf hs' [], body', by rw [hr2.2], ?_, by rw [l3, c5]; rfl⟩
  rcases hhs with rfl | rfl | rfl <;> decide

/-! ## C168 -/

/-- **C168, partial.** When the requests come one after the other, every answer tells the number of sheep after its request, whatever the methods, the
headers and the bodies, compressed or not.
Missing: requests at the same time, of which some are not counted (`C168_lost_false`), and the largest number (`C168_overflow_false`). -/
theorem C168_counts_partial {cfg : Cfg (Option Int)} (hcfg : cfg.defaults = none) {J : Parser} (hJ : Bounded J) {Z : Zlib}
    {undo : Bytes → Bytes → Option Bytes} (hz : LosslessZlib Z undo) (hrel : ReliableZlib Z)
    (hacc : ∀ extra, extra = [] ∨ extra = [(b!"Content-Encoding", b!"gzip")] ∨ extra = [(b!"Content-Encoding", b!"deflate")] →
      Takes cfg.accept [] ((b!"Content-Type", b!"application/json") :: extra)) {n : Int} (hn : -2 ^ 63 ≤ n ∧ n < 2 ^ 63)
    {reqs : List (Verb × Req)} {ns : List Int} (h : Series J n reqs ns) :
    ∃ as, serveAll cfg J Z n reqs = .ok (as, ns.getLastD n) ∧ as.length = ns.length ∧ ∀ p ∈ as.zip ns, Tells undo p.2 p.1 := by
  induction h with
  | nil => exact ⟨[], rfl, rfl, by simp⟩
  | cons hb hx hs ih =>
    obtain ⟨hlow, a, h1, h2⟩ := serve_ok hcfg hJ hz hrel hacc hb _ hn _ hx
    obtain ⟨as, i1, i2, i3⟩ := ih ⟨hlow, hx⟩
    refine ⟨a :: as, ?_, by simp [i2], ?_⟩
    · simp only [serveAll, h1, Res.ok_bind, i1, Res.pure_eq]
      rw [List.getLastD_cons]
    · intro p hp
      rw [List.zip_cons_cons, List.mem_cons] at hp
      rcases hp with rfl | hp
      · exact h2
      · exact i3 p hp

/-- A parser that reads one text. -/
private def oneNumber : Parser := fun t => if t = b!"{\"nbsheep\":41}" then some 41 else none

private def plainReq (body : Bytes) : Req :=
  { header := rep [⟨b!"Content-Type", strBuf b!"application/json" ++ [some 0], 17⟩], body := some body, bodyLen := body.length }

/-- A client sets the number 41, another counts one more, a third sends something that is no number. -/
example : Bounded oneNumber ∧ Series oneNumber 0 [(.post, plainReq b!"{\"nbsheep\":41}"), (.put, {}), (.post, {}), (.delete, {})] [41, 42, 0, 0] := by
  refine ⟨?_, ?_⟩
  · intro t n h
    unfold oneNumber at h
    split at h
    · injection h with h; subst h; decide
    · cases h
  · have hno : Brings oneNumber {} none := ⟨[], none, holds_init, rfl, .inr ⟨.inl rfl, rfl⟩⟩
    have hct : HoldsParams (plainReq b!"").header [(b!"Content-Type", some b!"application/json")] := by
      obtain ⟨m, e1, e2⟩ := holds_put holds_init b!"Content-Type" (some b!"application/json") (by decide) (by decide)
        (by intro x hx; cases hx; decide)
      have : UMap.put UMap.init (some b!"Content-Type") (some b!"application/json") = .ok (.ok, (plainReq b!"").header) := by decide +kernel
      rw [this] at e1
      injection e1 with e1
      injection e1 with _ e1
      exact e1 ▸ e2
    have hyes : Brings oneNumber (plainReq b!"{\"nbsheep\":41}") (some 41) :=
      ⟨_, some b!"{\"nbsheep\":41}", hct, ⟨_, rfl, Nat.le_refl _, by decide⟩, .inl ⟨b!"Content-Type", b!"application/json", [], _, rfl, by decide, .inl rfl, by decide⟩⟩
    exact .cons hyes (by decide) (.cons hno (by decide) (.cons hno (by decide) (.cons hno (by decide) .nil)))

/-- How a method is written. -/
def methodName : Verb → Bytes
  | .post => b!"POST"
  | .put => b!"PUT"
  | .delete => b!"DELETE"

/-- The number of the callback of a method. -/
def methodNumber : Verb → Nat
  | .post => 0
  | .put => 1
  | .delete => 2

/-- The endpoint of a method. -/
private def own : Verb → Endpoint.Endpoint
  | .post => ⟨some b!"POST", some b!"/sheep", none, 1, some 0, 0⟩
  | .put => ⟨some b!"PUT", some b!"/sheep", none, 1, some 1, 0⟩
  | .delete => ⟨some b!"DELETE", some b!"/sheep", none, 1, some 2, 0⟩

private def packer : Endpoint.Endpoint := ⟨some b!"*", some b!"/sheep", none, 2, some 3, 0⟩

private theorem two_sorted {x y : Endpoint.Endpoint} (hxy : x.priority < y.priority) {r : List Endpoint.Endpoint} :
    Endpoint.Sorted [x, y] r ↔ r = [x, y] := by
  constructor
  · rintro ⟨hp, hs⟩
    have hl := hp.length_eq
    match r, hl, hp, hs with
    | [a, b], _, hp, hs =>
      have ha : a ∈ [x, y] := hp.mem_iff.2 (by simp)
      simp only [List.mem_cons, List.not_mem_nil, or_false] at ha
      have hab : a.priority ≤ b.priority := by
        rw [List.pairwise_cons] at hs
        exact hs.1 b (by simp)
      rcases ha with rfl | rfl
      · have := (List.perm_cons a).1 hp
        rw [List.perm_singleton.1 this.symm]
      · exfalso
        have hx : x ∈ [a, b] := hp.mem_iff.1 (by simp)
        simp only [List.mem_cons, List.not_mem_nil, or_false] at hx
        rcases hx with rfl | rfl
        · omega
        · omega
  · rintro rfl
    exact ⟨.refl _, by simp; omega⟩

/-- **C168, the calls.** For a request for `/sheep` with one of these methods, in whatever case it is written, the callback of the method is called first,
that of the compression second, and no other. -/
theorem C168_calls_partial (v : Verb) (method : Bytes) (hm : eqCase (methodName v) method = true) (r : List Endpoint.Endpoint) :
    Endpoint.EndpointMatch method b!"/sheep" endpoints r ↔
      r = [⟨some (methodName v), some b!"/sheep", none, 1, some (methodNumber v), 0⟩,
        ⟨some b!"*", some b!"/sheep", none, 2, some 3, 0⟩] := by
  have hf : ∀ a, eqCase a method = eqCase a (methodName v) := by
    intro a
    unfold eqCase at hm ⊢
    rw [eq_of_beq hm]
  have hl : Endpoint.matchLoop method (Endpoint.slashWords b!"/sheep") endpoints = .ok [own v, packer] := by
    simp only [endpoints, Endpoint.matchLoop, hf]
    cases v <;> decide +kernel
  have hown : [⟨some (methodName v), some b!"/sheep", none, 1, some (methodNumber v), 0⟩,
        ⟨some b!"*", some b!"/sheep", none, 2, some 3, 0⟩] = [own v, packer] := by cases v <;> rfl
  rw [hown]
  have hp : (own v).priority < packer.priority := by cases v <;> decide
  constructor
  · rintro ⟨l, h1, h2⟩
    rw [hl] at h1
    injection h1 with h1
    subst h1
    exact (two_sorted hp).1 h2
  · rintro rfl
    exact ⟨_, hl, (two_sorted hp).2 rfl⟩

example : eqCase (methodName .put) b!"Put" = true := by decide

/-! ## At the same time -/

private def wrote : Thread → Bool
  | .stored => true
  | .answered _ => true
  | _ => false

private structure Racing (c : Int) (c' : Int) (ts : List Thread) : Prop where
  low : c ≤ c'
  high : c' ≤ c + ts.countP wrote
  more : 0 < ts.countP wrote → c + 1 ≤ c'
  kinds : ∀ t ∈ ts, t = .put ∨ (∃ v, t = .loaded v ∧ c ≤ v ∧ v ≤ c + ts.countP wrote) ∨ t = .stored ∨
    ∃ n, t = .answered n ∧ c + 1 ≤ n ∧ n ≤ c + ts.countP wrote

private theorem racing_step {c c1 c2 : Int} {a b : List Thread} {t t' : Thread} (h : Racing c c1 (a ++ t :: b)) (s : Step c1 t c2 t') :
    Racing c c2 (a ++ t' :: b) := by
  obtain ⟨h1, h2, h3, h4⟩ := h
  have ht := h4 t (by simp)
  have hcnt : ∀ x, (a ++ x :: b).countP wrote = a.countP wrote + b.countP wrote + (if wrote x then 1 else 0) := by
    intro x
    rw [List.countP_append, List.countP_cons]
    omega
  have hrest : ∀ (n : Nat), (a ++ t :: b).countP wrote ≤ n → ∀ x ∈ a ++ b, x = .put ∨ (∃ v, x = .loaded v ∧ c ≤ v ∧ v ≤ c + n) ∨ x = .stored ∨
      ∃ m, x = .answered m ∧ c + 1 ≤ m ∧ m ≤ c + n := by
    intro n hn x hx
    have hx' : x ∈ a ++ t :: b := by
      rw [List.mem_append] at hx ⊢
      rcases hx with hx | hx
      · exact .inl hx
      · exact .inr (List.mem_cons_of_mem _ hx)
    rcases h4 x hx' with e | ⟨v, e, e1, e2⟩ | e | ⟨m, e, e1, e2⟩
    · exact .inl e
    · exact .inr (.inl ⟨v, e, e1, by omega⟩)
    · exact .inr (.inr (.inl e))
    · exact .inr (.inr (.inr ⟨m, e, e1, by omega⟩))
  have hsplit : ∀ x ∈ a ++ t' :: b, x = t' ∨ x ∈ a ++ b := by
    intro x hx
    rw [List.mem_append, List.mem_cons] at hx
    rcases hx with hx | hx | hx
    · exact .inr (List.mem_append.2 (.inl hx))
    · exact .inl hx
    · exact .inr (List.mem_append.2 (.inr hx))
  cases s with
  | post => rcases ht with e | ⟨v, e, -⟩ | e | ⟨n, e, -⟩ <;> cases e
  | posted => rcases ht with e | ⟨v, e, -⟩ | e | ⟨n, e, -⟩ <;> cases e
  | delete => rcases ht with e | ⟨v, e, -⟩ | e | ⟨n, e, -⟩ <;> cases e
  | put =>
    rw [hcnt] at h2 h3
    have e0 := hcnt .put
    have e1 := hcnt (.loaded c1)
    simp only [wrote, Bool.false_eq_true, if_false] at h2 h3 e0 e1
    refine ⟨h1, by rw [e1]; exact h2, by rw [e1]; exact h3, ?_⟩
    intro x hx
    rcases hsplit x hx with rfl | hx
    · exact .inr (.inl ⟨c1, rfl, h1, by rw [e1]; exact h2⟩)
    · exact hrest _ (by rw [e0, e1]; omega) x hx
  | stored =>
    rw [hcnt] at h2 h3
    have e0 := hcnt .stored
    have e1 := hcnt (.answered c1)
    simp only [wrote, if_true] at h2 h3 e0 e1
    refine ⟨h1, by rw [e1]; exact h2, by rw [e1]; exact h3, ?_⟩
    intro x hx
    rcases hsplit x hx with rfl | hx
    · exact .inr (.inr (.inr ⟨c1, rfl, h3 (by omega), by rw [e1]; exact h2⟩))
    · exact hrest _ (by rw [e0, e1]; omega) x hx
  | @loaded v _ =>
    rcases ht with e | ⟨v', e, l1, l2⟩ | e | ⟨n, e, -⟩
    · cases e
    · injection e with e
      subst e
      have e0 := hcnt (.loaded v)
      have e1 := hcnt .stored
      rw [e0] at l2
      simp only [wrote, if_true, Bool.false_eq_true, if_false] at e0 e1 l2
      refine ⟨by omega, by rw [e1]; omega, fun _ => by omega, ?_⟩
      intro x hx
      rcases hsplit x hx with rfl | hx
      · exact .inr (.inr (.inl rfl))
      · exact hrest _ (by rw [e0, e1]; omega) x hx
    · cases e
    · cases e

private theorem runs_length {s s' : Int × List Thread} (h : Sheep.Runs s s') : s'.2.length = s.2.length := by
  induction h with
  | none => rfl
  | more h st ih => rw [← ih]; simp

/-- **C168, at the same time (partial).** Some PUT requests run at the same time, in any interleaving: no number that is kept or told is more than one for
each request, every answer tells at least one more sheep, and it is there. -/
theorem C168_race_partial {c c' : Int} {k : Nat} {ts : List Thread} (h : Sheep.Runs (c, List.replicate k .put) (c', ts)) :
    ts.length = k ∧ c ≤ c' ∧ c' ≤ c + k ∧ ∀ n, .answered n ∈ ts → c + 1 ≤ n ∧ n ≤ c + k ∧ c + 1 ≤ c' := by
  have hl : ts.length = k := by simpa using runs_length h
  have key : ∀ s, Sheep.Runs (c, List.replicate k .put) s → Racing c s.1 s.2 := by
    intro s hs
    induction hs with
    | none =>
      refine ⟨Int.le_refl _, by omega, fun h0 => ?_, fun t ht => .inl (List.eq_of_mem_replicate ht)⟩
      exfalso
      rw [List.countP_pos_iff] at h0
      obtain ⟨t, ht, hw⟩ := h0
      rw [List.eq_of_mem_replicate ht] at hw
      cases hw
    | more h st ih => exact racing_step ih st
  obtain ⟨h1, h2, h3, h4⟩ := key _ h
  have hle : ts.countP wrote ≤ k := by rw [← hl]; exact List.countP_le_length
  refine ⟨hl, h1, by simp only at h2; omega, ?_⟩
  intro n hn
  have hpos : 0 < ts.countP wrote := List.countP_pos_iff.2 ⟨_, hn, rfl⟩
  rcases h4 _ hn with e | ⟨v, e, -⟩ | e | ⟨m, e, e1, e2⟩
  · cases e
  · cases e
  · cases e
  · injection e with e
    subst e
    exact ⟨e1, by simp only at e2; omega, h3 hpos⟩

/-- **C168, alone (partial).** The steps of one request alone do what its callback does. -/
theorem C168_alone_partial (c v : Int) :
    Sheep.Runs (c, [.post v]) (v, [.answered v]) ∧ (c + 1 < 2 ^ 63 → Sheep.Runs (c, [.put]) (c + 1, [.answered (c + 1)])) ∧
      Sheep.Runs (c, [.delete]) (0, [.answered 0]) :=
  ⟨.more (a := []) (b := []) (.more (a := []) (b := []) .none .post) .posted,
    fun h => .more (a := []) (b := []) (.more (a := []) (b := []) (.more (a := []) (b := []) .none .put) (.loaded h)) .stored,
    .more (a := []) (b := []) .none .delete⟩

/-- **C168 is false of requests at the same time**: two PUT requests count as one, and both are told so. -/
theorem C168_lost_false : Sheep.Runs (0, [.put, .put]) (1, [.answered 1, .answered 1]) := by
  have h1 : Sheep.Runs (0, [.put, .put]) (0, [.loaded 0, .put]) := .more (a := []) (b := [.put]) .none .put
  have h2 : Sheep.Runs (0, [.put, .put]) (0, [.loaded 0, .loaded 0]) := .more (a := [.loaded 0]) (b := []) h1 .put
  have h3 : Sheep.Runs (0, [.put, .put]) (0 + 1, [.stored, .loaded 0]) := .more (a := []) (b := [.loaded 0]) h2 (.loaded (by decide))
  have h4 : Sheep.Runs (0, [.put, .put]) (0 + 1, [.stored, .stored]) := .more (a := [.stored]) (b := []) h3 (.loaded (by decide))
  have h5 : Sheep.Runs (0, [.put, .put]) (1, [.answered 1, .stored]) := .more (a := []) (b := [.stored]) h4 .stored
  exact .more (a := [.answered 1]) (b := []) h5 .stored

/-- **C168 is false of POST requests at the same time**: a client is told the number of another. -/
theorem C168_other_false : Sheep.Runs (0, [.post 5, .post 7]) (7, [.answered 7, .answered 7]) := by
  have h1 : Sheep.Runs (0, [.post 5, .post 7]) (5, [.posted, .post 7]) := .more (a := []) (b := [.post 7]) .none .post
  have h2 : Sheep.Runs (0, [.post 5, .post 7]) (7, [.posted, .posted]) := .more (a := [.posted]) (b := []) h1 .post
  have h3 : Sheep.Runs (0, [.post 5, .post 7]) (7, [.answered 7, .posted]) := .more (a := []) (b := [.posted]) h2 .posted
  exact .more (a := [.answered 7]) (b := []) h3 .posted

/-- **C168 is false of the largest number**: any client can set it, and the next PUT request is undefined behaviour. -/
theorem C168_overflow_false (cfg : Cfg (Option Int)) (hcfg : cfg.defaults = none) (J : Parser) (Z : Zlib) (q : Req) :
    serve cfg J Z (2 ^ 63 - 1) .put q = .ub := by
  have h1 : counterCb J .put q 0 ⟨{ header := UMap.init }, false, some (2 ^ 63 - 1)⟩ = (0, ⟨{ header := UMap.init }, false, none⟩) := rfl
  have h2 : compressCb Z q 1 ⟨{ header := UMap.init }, false, none⟩ = (1, ⟨{ header := UMap.init }, false, none⟩) := rfl
  have hd := dispatch_pair cfg (counterCb J .put q) (compressCb Z q) none (some (2 ^ 63 - 1)) (H := UMap.init) (by rw [hcfg]; rfl) h1 h2 (.inr (.inl rfl))
    rfl rfl rfl rfl (hs := []) (cs := []) (body := []) ⟨holds_init, rfl, rfl, by intro b hb; cases hb⟩ (by intro a f b h; cases a <;> cases h)
  simp only [serve, hd, Res.ok_bind]
  rfl

end Verif.Props
