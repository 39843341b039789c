import Verif.Props.Options
import Verif.Props.AnswerEndToEnd
/-!
# C161: what a callback writes into its response is what the client gets
-/
namespace Verif.Props
open Verif.UMap Verif.Message Verif.Answer Verif.Printf
open Verif.Spec.OMap (OMap Code)
open Verif.Spec.Cookie (nameValue attrOf)
open Verif.Spec.Client (headerValue)
open Verif.Spec.Options (added)

/-! ## Specification -/

/-- A reply as the author of a callback thinks of it: a status, headers, cookies by name, and one content, which is a body or a
stream. -/
structure Reply where
  status : Nat := 200
  headers : OMap := []
  cookies : List (Bytes × CookieArgs) := []
  body : Bytes := []
  stream : Option (Nat × Nat × Nat) := none

/-- One cookie for each name; a known name keeps its place. -/
def Reply.cookie (q : Reply) (k : Bytes) (a : CookieArgs) : Reply :=
  { q with cookies :=
      if q.cookies.any (fun p => p.1 == k) then q.cookies.map (fun p => if p.1 == k then (k, a) else p) else q.cookies ++ [(k, a)] }

/-- The content is this body. -/
def Reply.content (q : Reply) (status : Nat) (b : Bytes) : Reply := { q with status := status, body := b, stream := none }

/-- The header has this value. -/
def Reply.header (q : Reply) (k : Bytes) (v : Option Bytes) : Reply := { q with headers := (Spec.OMap.step q.headers (.put k v)).2 }

/-- What an option that is not refused asks for. -/
def Reply.option (q : Reply) (o : RespOpt) : Reply :=
  let q := { q with status := (statusGiven o).getD q.status, headers := (Spec.OMap.run q.headers (headerGiven o)).2 }
  match bodyGiven o with
  | some b => { q with body := b, stream := none }
  | none => q

/-- Options are followed up to the first that is refused. -/
def Reply.options (q : Reply) : List RespOpt → Reply
  | [] => q
  | o :: t => if resultOf q.headers o = .done then (q.option o).options t else q

/-- What a call asks for; calls with NULL or unknown arguments ask for nothing. -/
def Reply.call (q : Reply) : RespCall → Reply
  | .cookie a => match a.key with
    | some k => if a.sameSite ≤ 3 then q.cookie k a else q
    | none => q
  | .string st (some s) => q.content st s
  | .string _ none => q
  | .binary st (some b) n => if n = 0 then q else q.content st (b.take n)
  | .binary _ none _ => q
  | .empty st => q.content st []
  | .stream st s => { q with status := st, body := [], stream := some s }
  | .json st t => (q.header b!"Content-Type" (some b!"application/json")).content st t
  | .shared _ _ => q
  | .header (some k) (some v) => q.header k (some v)
  | .header _ _ => q
  | .properties os => q.options os

/-- The reply a series of calls describes. -/
def Reply.calls (q : Reply) (cs : List RespCall) : Reply := cs.foldl Reply.call q

/-- The text of a Set-Cookie line tells this name, this value and these attributes. -/
def TellsCookie (text : Bytes) (p : Bytes × CookieArgs) : Prop :=
  nameValue text = some (p.1, some (p.2.value.getD [])) ∧
  attrOf text b!"Expires" = p.2.expires.map some ∧ attrOf text b!"Domain" = p.2.domain.map some ∧
  attrOf text b!"Path" = p.2.path.map some ∧
  ((attrOf text b!"Max-Age").map (Option.map Spec.UrlParts.number) = if p.2.maxAge = 0 then none else some (some p.2.maxAge)) ∧
  (attrOf text b!"Secure" = if p.2.secure then some none else none) ∧
  (attrOf text b!"HttpOnly" = if p.2.httpOnly then some none else none) ∧
  (attrOf text b!"SameSite" = match p.2.sameSite with
    | 0 => none | 1 => some (some b!"Strict") | 2 => some (some b!"Lax") | _ => some (some b!"None"))

/-- Arguments of a call: C strings that fit in memory, readable blocks, statuses in the range of `unsigned int`; cookies without `;`
and with a Max-Age below 2^31 (`C32_max_age_false`). -/
def ValidAsk : RespCall → Prop
  | .cookie a => ∀ k, a.key = some k → Plain a k ∧ a.maxAge < 2 ^ 31
  | .string st _ => st < 2 ^ 32
  | .binary st b n => st < 2 ^ 32 ∧ ∀ x, b = some x → n ≤ x.length
  | .empty st => st < 2 ^ 32
  | .stream st _ => st < 2 ^ 32
  | .json st _ => st < 2 ^ 32
  | .shared _ _ => True
  | .header k v => ValidPair k v
  | .properties os => ∀ o ∈ os, ValidRespOpt o

/-- The call gives a body. -/
def GivesBody : RespCall → Prop
  | .string _ (some _) => True
  | .binary _ (some _) n => n ≠ 0
  | .empty _ => True
  | .json _ _ => True
  | .properties os => ∃ o ∈ os, bodyGiven o ≠ none
  | _ => False

/-- The call gives a stream. -/
def GivesStream : RespCall → Prop
  | .stream _ _ => True
  | _ => False

/-- The calls one after the other. -/
def runProgram (r : Response) : List RespCall → Res Response
  | [] => .ok r
  | c :: t => do
    let r ← respCall r c
    runProgram r t

/-- The callback that makes these calls and returns this code. -/
def programCb {σ : Type} (cs : List RespCall) (ret : Int) : Callback σ := fun _ w =>
  match runProgram w.resp cs with
  | .ok r => (ret, { w with resp := r })
  | .ub => (ret, w)

/-! ## Proofs -/

private theorem upsert_eq (a : CookieArgs) (k : Bytes) : ∀ l : List (Bytes × CookieArgs), (l.map (·.1)).Nodup →
    upsert a k l = if l.any (fun p => p.1 == k) then l.map (fun p => if p.1 == k then (k, a) else p) else l ++ [(k, a)]
  | [], _ => rfl
  | (x, y) :: t, hn => by
    rw [List.map_cons, List.nodup_cons] at hn
    unfold upsert
    by_cases e : x = k
    · subst e
      have ht : t.map (fun p => if p.1 == x then (x, a) else p) = t := by
        conv => rhs; rw [← List.map_id t]
        apply List.map_congr_left
        intro p hp
        rw [if_neg]
        · rfl
        · simp only [beq_iff_eq]
          intro hc
          exact hn.1 (hc ▸ List.mem_map.2 ⟨p, hp, rfl⟩)
      simp only [if_true, List.any_cons, beq_self_eq_true, Bool.true_or, List.map_cons, ht]
    · rw [if_neg e, upsert_eq a k t hn.2]
      have e' : (x == k) = false := by simpa using e
      simp only [List.any_cons, e', Bool.false_or, List.map_cons]
      split <;> simp

private theorem cookie_nodup {q : Reply} (k : Bytes) (a : CookieArgs) (hn : (q.cookies.map (·.1)).Nodup) :
    ((q.cookie k a).cookies.map (·.1)).Nodup := by
  unfold Reply.cookie
  simp only
  split
  · have : (q.cookies.map (fun p => if p.1 == k then (k, a) else p)).map (·.1) = q.cookies.map (·.1) := by
      rw [List.map_map]
      apply List.map_congr_left
      intro p _
      simp only [Function.comp]
      split
      · rename_i h; simpa using (beq_iff_eq.1 h).symm
      · rfl
    rw [this]; exact hn
  · rename_i h
    rw [List.map_append, List.nodup_append]
    refine ⟨hn, by simp, ?_⟩
    intro x hx y hy hxy
    obtain ⟨p, hp, rfl⟩ := List.mem_map.1 hx
    simp only [List.map_cons, List.map_nil, List.mem_singleton] at hy
    exact h (List.any_eq_true.2 ⟨p, hp, by simp [hxy, hy]⟩)

private structure Rep (r : Response) (q : Reply) : Prop where
  status : r.status = q.status
  small : q.status < 2 ^ 32
  headers : HoldsParams r.header q.headers
  cookies : r.cookies = q.cookies.map (fun p => p.2.cookie p.1)
  names : (q.cookies.map (·.1)).Nodup
  plain : ∀ p ∈ q.cookies, Plain p.2 p.1 ∧ p.2.maxAge < 2 ^ 31 ∧ p.2.sameSite ≤ 3
  body : bodyOf r.body r.bodyLen = q.body
  len : r.bodyLen = q.body.length
  stream : r.stream = q.stream

private theorem options_props (os : List RespOpt) : ∀ (q : Reply), (∀ o ∈ os, ValidRespOpt o) → q.status < 2 ^ 32 →
    (q.options os).status < 2 ^ 32 ∧ (q.options os).cookies = q.cookies ∧
    (q.stream = none → (q.options os).stream = none) ∧ ((∀ o ∈ os, bodyGiven o = none) → (q.options os).stream = q.stream) := by
  induction os with
  | nil => intro q _ h; exact ⟨h, rfl, id, fun _ => rfl⟩
  | cons o t ih =>
    intro q hv hs
    unfold Reply.options
    by_cases hd : resultOf q.headers o = .done
    · rw [if_pos hd]
      have h1 : (q.option o).status < 2 ^ 32 := by
        have : (q.option o).status = (statusGiven o).getD q.status := by
          unfold Reply.option; simp only; split <;> rfl
        rw [this]
        have hvo := hv o List.mem_cons_self
        cases o <;> first | exact hvo | exact hs
      have h2 : (q.option o).cookies = q.cookies := by unfold Reply.option; simp only; split <;> rfl
      have h3 : q.stream = none → (q.option o).stream = none := by
        intro e; unfold Reply.option; simp only; split
        · rfl
        · exact e
      have h4 : bodyGiven o = none → (q.option o).stream = q.stream := by
        intro e; unfold Reply.option; simp only; rw [e]
      obtain ⟨g1, g2, g3, g4⟩ := ih (q.option o) (fun x hx => hv x (List.mem_cons_of_mem _ hx)) h1
      exact ⟨g1, g2.trans h2, fun e => g3 (h3 e), fun e => (g4 (fun x hx => e x (List.mem_cons_of_mem _ hx))).trans
        (h4 (e o List.mem_cons_self))⟩
    · rw [if_neg hd]
      exact ⟨hs, rfl, id, fun _ => rfl⟩

private theorem rep_options {q : Reply} (os : List RespOpt) {r : Response} (h : Rep r q) (hv : ∀ o ∈ os, ValidRespOpt o)
    (hb : q.stream = none ∨ ∀ o ∈ os, bodyGiven o = none) :
    ∃ rc r', setProperties r os = .ok (rc, r') ∧ Rep r' (q.options os) := by
  induction os generalizing r q with
  | nil => exact ⟨_, r, rfl, h⟩
  | cons o t ih =>
    have hone := C113_options [o] r q.headers h.headers (by rw [h.status]; exact h.small) (by rw [h.body]; exact h.len)
      (fun x hx => hv x (by simp only [List.mem_singleton] at hx; subst hx; exact List.mem_cons_self))
    obtain ⟨r', e1, e2, e3⟩ := hone
    unfold Reply.options
    by_cases hd : resultOf q.headers o = .done
    · have hf : firstResult q.headers [o] = .done := by simp [firstResult, hd]
      have s := e2 hf
      rw [if_pos hd]
      have p := options_props [o] q (fun x hx => hv x (by simp only [List.mem_singleton] at hx; subst hx; exact List.mem_cons_self))
        h.small
      have hq : q.options [o] = q.option o := by simp [Reply.options, hd]
      rw [hq] at p
      have hl : ∀ {α : Type} (f : RespOpt → Option α) (x : α), Spec.Options.lastOf f x [o] = (f o).getD x := by
        intro α f x
        unfold Spec.Options.lastOf
        cases he : f o <;> simp [he]
      have hst : (q.option o).status = (statusGiven o).getD q.status := by unfold Reply.option; simp only; split <;> rfl
      have hbd : (q.option o).body = (bodyGiven o).getD q.body := by
        unfold Reply.option; simp only; split
        · rename_i b hb'; rw [hb']; rfl
        · rename_i hb'; rw [hb']; rfl
      have hhd : (q.option o).headers = (Spec.OMap.run q.headers (headerGiven o)).2 := by unfold Reply.option; simp only; split <;> rfl
      have hr' : Rep r' (q.option o) := by
        refine ⟨?_, p.1, ?_, ?_, ?_, ?_, ?_, ?_, ?_⟩
        · rw [s.status, hl, h.status, hst]
        · rw [hhd]
          have := s.headers
          simpa using this
        · rw [s.rest.2.1, h.cookies, p.2.1]
        · rw [p.2.1]; exact h.names
        · rw [p.2.1]; exact h.plain
        · rw [s.body, hl, h.body, hbd]
        · rw [s.bodyLen, hl, h.body, hbd]
        · rw [s.rest.2.2.1, h.stream]
          rcases hb with hb | hb
          · rw [hb, p.2.2.1 hb]
          · exact (p.2.2.2 (fun x hx => hb x (by simp only [List.mem_singleton] at hx; subst hx; exact List.mem_cons_self))).symm
      obtain ⟨rc, r2, f1, f2⟩ := ih hr' (fun x hx => hv x (List.mem_cons_of_mem _ hx)) (by
        rcases hb with hb | hb
        · exact .inl (p.2.2.1 hb)
        · exact .inr (fun x hx => hb x (List.mem_cons_of_mem _ hx)))
      refine ⟨rc, r2, ?_, f2⟩
      have e1' : setProperties r [o] = .ok (.ok, r') := by rw [e1, hf]; rfl
      simp only [setProperties] at e1' ⊢
      cases ho : setOption r o with
      | ub => rw [ho] at e1'; cases e1'
      | ok x =>
        obtain ⟨rc1, r1⟩ := x
        rw [ho] at e1'
        simp only [Res.ok_bind] at e1' ⊢
        by_cases hrc : rc1 = .ok
        · rw [if_pos hrc] at e1' ⊢
          injection e1' with e1'
          injection e1' with _ e1'
          rw [e1']; exact f1
        · rw [if_neg hrc] at e1'
          injection e1' with e1'
          injection e1' with e1' _
          exact absurd e1' hrc
    · rw [if_neg hd]
      have hf : firstResult q.headers [o] ≠ .done := by simp [firstResult, hd]
      obtain ⟨done, o', rest, g1, g2, g3⟩ := e3 hf
      have : done = [] := by
        cases done with
        | nil => rfl
        | cons x y => simp at g1
      subst this
      have er : r' = r := by
        simp only [setProperties] at g3
        injection g3 with g3; injection g3 with _ g3; exact g3.symm
      subst er
      refine ⟨rcOf (firstResult q.headers [o]), r', ?_, h⟩
      simp only [setProperties] at e1 ⊢
      cases ho : setOption r' o with
      | ub => rw [ho] at e1; cases e1
      | ok x =>
        obtain ⟨rc1, r1⟩ := x
        rw [ho] at e1
        simp only [Res.ok_bind] at e1 ⊢
        by_cases hrc : rc1 = .ok
        · rw [if_pos hrc] at e1
          injection e1 with e1
          injection e1 with e1 _
          exact absurd ((rcOf_ok _).1 e1.symm) hf
        · rw [if_neg hrc] at e1 ⊢
          exact e1

private theorem rep_call {q : Reply} {r : Response} (h : Rep r q) (c : RespCall) (hv : ValidAsk c) (hb : GivesBody c → q.stream = none) :
    ∃ r', respCall r c = .ok r' ∧ Rep r' (q.call c) := by
  cases c with
  | cookie a =>
    cases hk : a.key with
    | none => exact ⟨r, by simp [respCall, addCookie, hk], by simpa [Reply.call, hk] using h⟩
    | some k =>
      by_cases hs : a.sameSite ≤ 3
      · refine ⟨{ r with cookies := (upsert a k q.cookies).map (fun p => p.2.cookie p.1) }, ?_, ?_⟩
        · simp only [respCall, addCookie, hk, hs, if_true, h.cookies, putCookie_map, Res.ok_bind, Res.pure_eq]
        · have e : q.call (.cookie a) = q.cookie k a := by simp [Reply.call, hk, hs]
          rw [e]
          refine ⟨h.status, h.small, h.headers, ?_, cookie_nodup k a h.names, ?_, h.body, h.len, h.stream⟩
          · simp only
            rw [upsert_eq a k _ h.names]
            rfl
          · intro p hp
            unfold Reply.cookie at hp
            simp only at hp
            have ha := hv k hk
            split at hp
            · obtain ⟨p', hp', rfl⟩ := List.mem_map.1 hp
              split
              · exact ⟨ha.1, ha.2, hs⟩
              · exact h.plain p' hp'
            · rcases List.mem_append.1 hp with hp | hp
              · exact h.plain p hp
              · rw [List.mem_singleton.1 hp]; exact ⟨ha.1, ha.2, hs⟩
      · exact ⟨r, by simp [respCall, addCookie, hk, hs], by simpa [Reply.call, hk, hs] using h⟩
  | string st s =>
    cases s with
    | none => exact ⟨r, rfl, h⟩
    | some s =>
      exact ⟨_, rfl, rfl, hv, h.headers, h.cookies, h.names, h.plain, by simp [setStringBody, bodyOf, Reply.call, Reply.content], rfl,
        h.stream.trans (hb trivial)⟩
  | binary st b n =>
    cases b with
    | none => exact ⟨r, rfl, h⟩
    | some b =>
      by_cases hn : n = 0
      · subst hn
        exact ⟨r, rfl, by simpa [Reply.call] using h⟩
      · have hl := hv.2 b rfl
        have e : q.call (.binary st (some b) n) = q.content st (b.take n) := by simp [Reply.call, hn]
        rw [e]
        refine ⟨{ r with body := some (b.take n), bodyLen := n, status := st }, ?_, rfl, hv.1, h.headers, h.cookies, h.names, h.plain,
          ?_, ?_, h.stream.trans (hb hn)⟩
        · simp only [respCall, setBinaryBody, if_neg hn, if_pos hl, Res.ok_bind, Res.pure_eq]
        · simp [bodyOf, Reply.content, List.take_take]
        · simp [Reply.content]; omega
  | empty st => exact ⟨_, rfl, rfl, hv, h.headers, h.cookies, h.names, h.plain, rfl, rfl, h.stream.trans (hb trivial)⟩
  | stream st s => exact ⟨_, rfl, rfl, hv, h.headers, h.cookies, h.names, h.plain, rfl, rfl, rfl⟩
  | json st t =>
    obtain ⟨m, e1, e2⟩ := holds_put h.headers b!"Content-Type" (some b!"application/json") (by decide) (by decide)
      (fun x hx => by injection hx with hx; subst hx; decide)
    refine ⟨{ r with body := some (t ++ [0]), bodyLen := t.length, status := st, header := m }, ?_, rfl, hv, ?_, h.cookies, h.names,
      h.plain, ?_, rfl, h.stream.trans (hb trivial)⟩
    · simp only [respCall, setJsonBody, e1, Res.ok_bind, Res.pure_eq]
    · exact e2
    · simp [bodyOf, Reply.call, Reply.content]
  | shared d f =>
    cases d with
    | none => exact ⟨r, rfl, h⟩
    | some d => exact ⟨_, rfl, h.status, h.small, h.headers, h.cookies, h.names, h.plain, h.body, h.len, h.stream⟩
  | header k v =>
    cases k with
    | none => exact ⟨r, by cases v <;> rfl, by cases v <;> exact h⟩
    | some k =>
      cases v with
      | none => exact ⟨r, rfl, h⟩
      | some v =>
        obtain ⟨m, e1, e2, e3⟩ := holds_added h.headers (some k) (some v) hv
        have ea : added q.headers (some k) (some v) = Spec.OMap.step q.headers (.put k (some v)) := rfl
        refine ⟨{ r with header := m }, ?_, h.status, h.small, ?_, h.cookies, h.names, h.plain, h.body, h.len, h.stream⟩
        · simp only [respCall, addHeader, e1, Res.ok_bind, Res.pure_eq]
        · exact e2
  | properties os =>
    obtain ⟨rc, r', e1, e2⟩ := rep_options os h hv (by
      by_cases hx : ∃ o ∈ os, bodyGiven o ≠ none
      · exact .inl (hb hx)
      · refine .inr (fun o ho => ?_)
        by_cases e : bodyGiven o = none
        · exact e
        · exact absurd ⟨o, ho, e⟩ hx)
    exact ⟨r', by simp only [respCall, e1, Res.ok_bind, Res.pure_eq], e2⟩

private theorem stream_call (q : Reply) (c : RespCall) (h : q.stream = none) (hc : ¬ GivesStream c) (hv : ValidAsk c)
    (hs : q.status < 2 ^ 32) : (q.call c).stream = none := by
  cases c with
  | cookie a =>
    simp only [Reply.call]
    split
    · split
      · exact h
      · exact h
    · exact h
  | string st s => cases s <;> first | exact h | rfl
  | binary st b n =>
    cases b with
    | none => exact h
    | some b => simp only [Reply.call]; split <;> first | exact h | rfl
  | empty st => rfl
  | stream st s => exact absurd trivial hc
  | json st t => rfl
  | shared d f => exact h
  | header k v => cases k <;> cases v <;> exact h
  | properties os => exact (options_props os q hv hs).2.2.1 h

/-- The calls give no undefined behaviour and leave what they describe, if no body is given after a stream. -/
private theorem rep_run (cs : List RespCall) : ∀ {q : Reply} {r : Response}, Rep r q → (∀ c ∈ cs, ValidAsk c) →
    (∀ a c b, cs = a ++ c :: b → GivesBody c → q.stream = none ∧ ∀ x ∈ a, ¬ GivesStream x) →
    ∃ r', runProgram r cs = .ok r' ∧ Rep r' (q.calls cs) := by
  induction cs with
  | nil => intro q r h _ _; exact ⟨r, rfl, h⟩
  | cons c t ih =>
    intro q r h hv hb
    obtain ⟨r1, e1, h1⟩ := rep_call h c (hv c List.mem_cons_self) (fun hc => (hb [] c t rfl hc).1)
    obtain ⟨r2, e2, h2⟩ := ih h1 (fun x hx => hv x (List.mem_cons_of_mem _ hx)) (by
      intro a x b hab hx
      obtain ⟨g1, g2⟩ := hb (c :: a) x b (by rw [hab]; rfl) hx
      exact ⟨stream_call q c g1 (g2 c List.mem_cons_self) (hv c List.mem_cons_self) h.small, fun y hy => g2 y (List.mem_cons_of_mem _ hy)⟩)
    exact ⟨r2, by simp only [runProgram, e1, Res.ok_bind, e2], h2⟩

private theorem rep_holds {r : Response} {q : Reply} (h : Rep r q) :
    ∃ texts, texts.length = q.cookies.length ∧ (∀ p ∈ texts.zip q.cookies, TellsCookie p.1 p.2) ∧
      HoldsResp r q.headers texts q.body := by
  have key : ∀ l : List (Bytes × CookieArgs), (∀ p ∈ l, Plain p.2 p.1 ∧ p.2.maxAge < 2 ^ 31 ∧ p.2.sameSite ≤ 3) →
      ∃ texts : List Bytes, texts.length = l.length ∧ (∀ p ∈ texts.zip l, TellsCookie p.1 p.2) ∧
        (l.map (fun p => p.2.cookie p.1)).map cookieHeader = texts.map Res.ok := by
    intro l
    induction l with
    | nil => intro _; exact ⟨[], rfl, by simp, rfl⟩
    | cons p t ih =>
      intro hp
      obtain ⟨ts, h1, h2, h3⟩ := ih (fun x hx => hp x (List.mem_cons_of_mem _ hx))
      obtain ⟨a1, a2, a3⟩ := hp p List.mem_cons_self
      obtain ⟨x, hx, hr⟩ := C32_set_cookie_partial p.2 p.1 a1 a3 a2
      refine ⟨x :: ts, by simp [h1], ?_, by simp [hx, h3]⟩
      intro y hy
      rw [List.zip_cons_cons] at hy
      rcases List.mem_cons.1 hy with rfl | hy
      · exact hr
      · exact h2 y hy
  obtain ⟨ts, h1, h2, h3⟩ := key q.cookies h.plain
  refine ⟨ts, h1, h2, h.headers, by rw [h.cookies]; exact h3, h.body, ?_⟩
  intro b hb
  have := h.body
  rw [hb] at this
  have hl := congrArg List.length this
  simp only [bodyOf, Option.getD_some, List.length_take] at hl
  have := h.len
  omega

/-! ## C161 -/

/-- **C161 (partial).** For every series of calls of the response functions in a callback that returns CONTINUE or COMPLETE and gives
no body after a stream: nothing goes wrong in memory, and the answer has the status, the header lines and the body or stream that
the calls describe, each header and each cookie with what was given to it last, one Set-Cookie line for each cookie that tells its
name, value and attributes; a client of the library that receives it reports this status, this body and these values.
Missing: a body given after a stream, which is not sent (`C161_stream_false`); a stream with blocks of size 0, which libmicrohttpd refuses
(C99); refused lines (C98). -/
theorem C161_program_partial {σ : Type} (cfg : Cfg σ) (dflt : Option (Callback σ)) (user : σ) {H : UMap} {ds : OMap}
    (hH : initHeaders cfg.defaults = .ok H) (hHd : HoldsParams H ds) (cs : List RespCall) (hv : ∀ c ∈ cs, ValidAsk c)
    (hb : ∀ a c b, cs = a ++ c :: b → GivesBody c → ∀ x ∈ a, ¬ GivesStream x) (ret : Int) (hret : ret = 0 ∨ ret = 2)
    (hblock : ∀ s, (Reply.calls { headers := ds } cs).stream = some s → 0 < s.2.1)
    (ht : ∀ texts : List Bytes, texts.length = (Reply.calls { headers := ds } cs).cookies.length →
      (∀ p ∈ texts.zip (Reply.calls { headers := ds } cs).cookies, TellsCookie p.1 p.2) →
      Takes cfg.accept [] (linesOf (Reply.calls { headers := ds } cs).headers texts)) :
    ∃ texts ans ev, dispatch cfg [programCb cs ret] dflt user = .ok (some ans, [ev]) ∧
      runProgram { header := H } cs = .ok ev.after.resp ∧
      texts.length = (Reply.calls { headers := ds } cs).cookies.length ∧
      (∀ p ∈ texts.zip (Reply.calls { headers := ds } cs).cookies, TellsCookie p.1 p.2) ∧
      ans = ⟨(Reply.calls { headers := ds } cs).status, none, linesOf (Reply.calls { headers := ds } cs).headers texts,
        match (Reply.calls { headers := ds } cs).stream with
        | some s => .stream s
        | none => .buffer (Reply.calls { headers := ds } cs).body⟩ ∧
      ((Reply.calls { headers := ds } cs).stream = none →
        Arrives ans (Reply.calls { headers := ds } cs).status (linesOf (Reply.calls { headers := ds } cs).headers texts)
          (Reply.calls { headers := ds } cs).body) := by
  have h0 : Rep { header := H } { headers := ds } :=
    ⟨rfl, (by decide : 200 < 2 ^ 32), hHd, rfl, by simp, by simp, rfl, rfl, rfl⟩
  obtain ⟨r, e1, h1⟩ := rep_run cs h0 hv (fun a c b e hc => ⟨rfl, hb a c b e hc⟩)
  obtain ⟨texts, l1, l2, hr⟩ := rep_holds h1
  have hcb : programCb cs ret 0 ⟨{ header := H }, false, user⟩ = (ret, ⟨r, false, user⟩) := by
    simp only [programCb, e1]
  generalize Reply.calls { headers := ds } cs = q at *
  cases hs : q.stream with
  | none =>
    have hd := dispatch_single cfg (programCb cs ret) dflt user hH hcb hret (h1.stream.trans hs) rfl hr (ht texts l1 l2)
    refine ⟨texts, _, _, hd, e1, l1, l2, ?_, fun _ => ?_⟩
    · simp only [h1.status]
    · rw [← h1.status]
      exact client_part _ _ rfl
  | some s =>
    have hd := dispatch_stream cfg (programCb cs ret) [] dflt user hH hcb (by omega) (h1.stream.trans hs) (hblock s hs) hr (ht texts l1 l2)
    refine ⟨texts, _, _, hd, e1, l1, l2, ?_, fun h => by cases h⟩
    simp only [h1.status]

/-- A program: a header, a cookie, a JSON body, a cookie of the same name, a status and a header by options. -/
private def sampleProgram : List RespCall :=
  [.header (some b!"X-Id") (some b!"7"), .cookie ⟨some b!"s", some b!"1", none, 0, none, none, true, false, 0⟩, .string 500 (some b!"wrong"),
   .json 200 b!"[1]", .cookie ⟨some b!"s", some b!"2", none, 0, none, some b!"/", false, true, 2⟩,
   .properties [.status 201, .header (some b!"X-Id") (some b!"8"), .headerRemove (some b!"Y"), .status 404]]

example : (∀ c ∈ sampleProgram, ValidAsk c) ∧ (∀ c ∈ sampleProgram, ¬ GivesStream c) := by
  constructor
  · intro c hc
    simp only [sampleProgram, List.mem_cons, List.not_mem_nil, or_false] at hc
    rcases hc with rfl | rfl | rfl | rfl | rfl | rfl
    · exact ⟨by intro x hx; cases hx; decide, by intro x hx; cases hx; decide⟩
    · intro k hk; cases hk; exact ⟨⟨by decide, by decide, by decide, by decide⟩, by decide⟩
    · exact (by decide : 500 < 2 ^ 32)
    · exact (by decide : 200 < 2 ^ 32)
    · intro k hk; cases hk; exact ⟨⟨by decide, by decide, by decide, by decide⟩, by decide⟩
    · intro o ho
      simp only [List.mem_cons, List.not_mem_nil, or_false] at ho
      rcases ho with rfl | rfl | rfl | rfl
      · exact (by decide : 201 < 2 ^ 32)
      · exact ⟨by intro x hx; cases hx; decide, by intro x hx; cases hx; decide⟩
      · trivial
      · exact (by decide : 404 < 2 ^ 32)
  · intro c hc
    simp only [sampleProgram, List.mem_cons, List.not_mem_nil, or_false] at hc
    rcases hc with rfl | rfl | rfl | rfl | rfl | rfl <;> exact id

example : (Reply.calls {} sampleProgram).status = 201 ∧ (Reply.calls {} sampleProgram).body = b!"[1]" ∧
    (Reply.calls {} sampleProgram).headers = [(b!"X-Id", some b!"8"), (b!"Content-Type", some b!"application/json")] ∧
    (Reply.calls {} sampleProgram).cookies.map (fun p => (p.1, p.2.value)) = [(b!"s", some b!"2")] := by decide +kernel

example : queued (dispatch sampleCfg [programCb sampleProgram 0] none ()) =
    some ⟨201, none, [(b!"X-Id", b!"8"), (b!"Content-Type", b!"application/json"), (b!"Set-Cookie", b!"s=2; Path=/; HttpOnly; SameSite=Lax")],
      .buffer b!"[1]"⟩ := by decide +kernel

/-- **C161 is false of the code**: a callback starts with a stream, then finds something wrong and gives an error with a body instead;
the client gets the stream, with the status of the error. -/
theorem C161_stream_false (size block data : Nat) :
    queued (dispatch sampleCfg [programCb [.stream 200 (size, block + 1, data), .string 500 (some b!"wrong")] 2] none ()) =
      some ⟨500, none, [], .stream (size, block + 1, data)⟩ ∧
    (Reply.calls {} [.stream 200 (size, block + 1, data), .string 500 (some b!"wrong")]).stream = none ∧
    (Reply.calls {} [.stream 200 (size, block + 1, data), .string 500 (some b!"wrong")]).body = b!"wrong" := ⟨rfl, rfl, rfl⟩

end Verif.Props
