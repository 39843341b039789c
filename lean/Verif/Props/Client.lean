import Verif.Lemmas.Client
import Verif.Props.UMap
import Verif.Props.Message
/-! # Properties of the HTTP and SMTP client -/
namespace Verif.Props
open Verif.UMap Verif.Client Verif.Message Verif.Spec.Client Verif.Printf
open Verif.Spec.Segments (pieces fields)

/-! ## C38 -/

/-- C38. Whatever the blocks libcurl delivers, the body kept is the first `limit` bytes of the whole body, or all of it when
`limit` is 0; the response body is left alone exactly when nothing was kept. -/
theorem C38_body_limit (limit : Nat) (chunks : List Bytes) (h : chunks.flatten.length + 1 < 2 ^ 64) :
    received limit chunks =
      let kept := if limit = 0 then chunks.flatten else chunks.flatten.take limit
      if kept = [] then none else some kept := by
  unfold received
  rw [foldl_writeBody chunks _ (by simpa using h) (by simp)]
  simp

example : received 4 [[1, 2], [], [3, 4, 5], [6]] = some [1, 2, 3, 4] := by decide
example : received 0 [[1, 2], [], [3]] = some [1, 2, 3] := by decide

/-! ## C39 -/

/-- What `u_map_get_case` shows for a name. -/
def ShowsCase (m : UMap) (name : Bytes) : Option Bytes → Prop
  | none => UMap.getCase m (some name) = .ok none ∧ UMap.countKeysCase m (some name) = .ok 0
  | some v => (∃ t, UMap.getCase m (some name) = .ok (some (strBuf v ++ t))) ∧ UMap.countKeysCase m (some name) = .ok 1

/-- C39. After any sequence of well-formed header lines and lines without ':', the header map has, for every name, nothing or
one entry (up to case) whose value is the comma-joined list of the values received for that name among the header lines kept
(the first `max`, all when `max` is 0); as many lines are counted as were kept; the protocol is the last status text. -/
theorem C39_headers (max : Nat) (ls : List Line) (hw : ∀ l ∈ ls, l.Wf)
    (hn : (ls.map (fun l => l.text.length)).sum + 4 < 2 ^ 64) :
    ∃ h, writeHeaders max {} (ls.map Line.text) = .ok h ∧
      (∀ name, ShowsCase h.map name (headerValue name (kept max (headersOf ls)))) ∧
      h.counter = (kept max (headersOf ls)).length ∧ (max ≠ 0 → h.counter ≤ max) ∧ h.protocol = protocolOf ls := by
  obtain ⟨es, e1, e2, e3⟩ := writeHeaders_sim max ls hw [] [] good_nil sim_nil 0 0 none (by intro p hp; cases hp) (by omega)
  have hk : keptFrom max 0 (headersOf ls) = kept max (headersOf ls) := rfl
  rw [hk] at e1 e3
  refine ⟨_, e1, ?_, by simp, ?_, ?_⟩
  · intro name
    have hl := lk_foldl (kept max (headersOf ls)) name
    have hc := foldl_unique (kept max (headersOf ls)) name
    have hcount : UMap.countKeysCase (rep es) (some name) =
        .ok (((kept max (headersOf ls)).foldl istep []).countP (fun q => eqCase q.1 name)) := by
      rw [countKeysCase_rep, sim_countP e3 (fun x => eqCase x name)]
    unfold headerValue
    unfold lk at hl
    rcases sim_find e3 (fun x => eqCase x name) with ⟨f1, f2⟩ | ⟨e, p, f1, f2, f3⟩
    · rw [f2] at hl
      have hv : valuesFor name (kept max (headersOf ls)) = [] := by
        cases hv : valuesFor name (kept max (headersOf ls)) with
        | nil => rfl
        | cons x t => rw [hv] at hl; cases hl
      rw [if_pos hv]
      refine ⟨?_, ?_⟩
      · show UMap.getCase (rep es) (some name) = _
        rw [getCase_rep, f1]; rfl
      · show UMap.countKeysCase (rep es) (some name) = _
        rw [hcount, List.countP_eq_zero.2 (List.find?_eq_none.1 f2)]
    · rw [f2] at hl
      have hv : valuesFor name (kept max (headersOf ls)) ≠ [] := by
        intro hv; rw [hv] at hl; cases hl
      rw [if_neg hv]
      have hp2 : p.2 = some (commaJoin (valuesFor name (kept max (headersOf ls)))) := by
        cases hv' : valuesFor name (kept max (headersOf ls)) with
        | nil => exact absurd hv' hv
        | cons x t => rw [hv'] at hl; simpa using hl
      obtain ⟨-, g⟩ := f3
      rw [hp2] at g
      obtain ⟨-, t, g⟩ := g
      refine ⟨⟨t, ?_⟩, ?_⟩
      · show UMap.getCase (rep es) (some name) = _
        rw [getCase_rep, f1, Option.map_some, g]
      · show UMap.countKeysCase (rep es) (some name) = _
        rw [hcount]
        have : 0 < ((kept max (headersOf ls)).foldl istep []).countP (fun q => eqCase q.1 name) :=
          List.countP_pos_iff.2 ⟨p, List.mem_of_find?_eq_some f2, List.find?_some (p := fun q : Bytes × Option Bytes => eqCase q.1 name) f2⟩
        congr 1; omega
  · intro h0
    simp only [kept, h0, if_false, Nat.zero_add, List.length_take]; omega
  · unfold protoFrom; simp

/-- A response with a repeated header. -/
def sampleLines : List Line :=
  [.other b!"HTTP/1.1 200 OK\r\n", .header { name := b!"Vary", value := b!"a" }, .header { name := b!"X", value := [] },
    .header { b1 := [], name := b!"vARY", b2 := [], b3 := [], value := b!"b: c", b4 := [0x0d, 0x0a] }, .other b!"\r\n"]

example : (∀ l ∈ sampleLines, l.Wf) ∧ headerValue b!"VARY" (kept 0 (headersOf sampleLines)) = some b!"a, b: c" ∧
    headerValue b!"VARY" (kept 2 (headersOf sampleLines)) = some b!"a" ∧ protocolOf sampleLines = some b!"HTTP/1.1 200 OK" := by
  refine ⟨?_, by decide, by decide, by decide⟩
  intro l hl
  have hall : sampleLines.all (fun l => match l with
    | .other s => !s.contains 0x3a
    | .header h => h.b1.all isSpace && h.b2.all isSpace && h.b3.all isSpace && h.b4.all isSpace && h.name != [] &&
      !h.name.contains 0x3a && !h.name.contains 0 && !h.value.contains 0 &&
      (h.name.head?.all (fun c => !isSpace c)) && (h.name.getLast?.all (fun c => !isSpace c)) &&
      (h.value.head?.all (fun c => !isSpace c)) && (h.value.getLast?.all (fun c => !isSpace c)) &&
      (h.b3 ++ h.value ++ h.b4) != []) = true := by decide
  have := List.all_eq_true.1 hall l hl
  cases l with
  | other s => simpa [Line.Wf] using this
  | header h =>
    simp only [Bool.and_eq_true, List.all_eq_true, bne_iff_ne, ne_eq, Bool.not_eq_true', List.contains_eq_mem,
      decide_eq_false_iff_not, Option.all_eq_true] at this
    obtain ⟨⟨⟨⟨⟨⟨⟨⟨⟨⟨⟨⟨a1, a2⟩, a3⟩, a4⟩, a5⟩, a6⟩, a7⟩, a8⟩, a9⟩, a10⟩, a11⟩, a12⟩, a13⟩ := this
    exact ⟨a1, a2, a3, a4, ⟨⟨a9, a10⟩, a5, a6, a7⟩, ⟨⟨a11, a12⟩, a8⟩, a13⟩

/-- C39 is false for malformed lines: a line without a name is stored under the name found in its value, and a repeated header
with nothing after the ':' (not even a line end) is stored as "(null)". -/
theorem C39_malformed_false :
    (∃ h, writeHeaders 0 {} [b!":evil\r\n"] = .ok h ∧ UMap.hasKey h.map (some b!"evil") = .ok true) ∧
    (∃ h, writeHeaders 0 {} [b!"K: v\r\n", b!"K:"] = .ok h ∧ getStr h.map b!"K" = .ok (some b!"v, (null)")) := by
  refine ⟨⟨_, rfl, by decide⟩, ⟨_, rfl, by decide⟩⟩

/-! ## C40 -/

/-- The blocks handed out for a sequence of buffer sizes, and the source afterwards. -/
def transfer (p : Payload) : List Nat → List Bytes × Payload
  | [] => ([], p)
  | n :: t => ((payloadSource p n).1 :: (transfer (payloadSource p n).2 t).1, (transfer (payloadSource p n).2 t).2)

/-- C40. For every payload and every sequence of buffer sizes: no block is larger than its buffer; the blocks are, in order, the
first Σ sizes bytes of the payload; once the sizes add up to the payload, all of it has been delivered and every later call
reports 0 bytes. -/
theorem C40_payload (data : Bytes) (sizes : List Nat) :
    let r := transfer { data := data } sizes
    r.1.length = sizes.length ∧ (∀ (i : Nat) b n, r.1[i]? = some b → sizes[i]? = some n → b.length ≤ n) ∧
    r.1.flatten = data.take sizes.sum ∧
    (data.length ≤ sizes.sum → r.1.flatten = data ∧ ∀ n, (payloadSource r.2 n).1 = []) ∧
    (sizes.sum < data.length → ∀ n, 0 < n → (payloadSource r.2 n).1 ≠ []) := by
  have key : ∀ (sizes : List Nat) (p : Payload), p.offset ≤ p.data.length →
      (transfer p sizes).1.length = sizes.length ∧
      (∀ (i : Nat) b n, (transfer p sizes).1[i]? = some b → sizes[i]? = some n → b.length ≤ n) ∧
      (transfer p sizes).1.flatten = (p.data.drop p.offset).take sizes.sum ∧
      (transfer p sizes).2.data = p.data ∧ (transfer p sizes).2.offset = min (p.offset + sizes.sum) p.data.length := by
    intro sizes
    induction sizes with
    | nil => intro p hp; simp [transfer]; omega
    | cons n t ih =>
      intro p hp
      have hoff : (payloadSource p n).2.offset = min (p.offset + n) p.data.length := by
        simp only [payloadSource]; split <;> omega
      have hdat : (payloadSource p n).2.data = p.data := rfl
      have hblk : (payloadSource p n).1 = (p.data.drop p.offset).take n := by
        simp only [payloadSource]
        split
        · rfl
        · rw [List.take_of_length_le (by simp), List.take_of_length_le (by simp; omega)]
      obtain ⟨i1, i2, i3, i4, i5⟩ := ih (payloadSource p n).2 (by rw [hoff, hdat]; omega)
      refine ⟨by simp [transfer, i1], ?_, ?_, by rw [transfer, i4, hdat], ?_⟩
      · intro i b m hb hm
        cases i with
        | zero =>
          simp only [transfer, List.getElem?_cons_zero, Option.some.injEq] at hb hm
          subst hb hm
          rw [hblk, List.length_take]; omega
        | succ i => exact i2 i b m (by simpa [transfer] using hb) (by simpa using hm)
      · rw [transfer, List.flatten_cons, i3, hdat, hoff, hblk, List.sum_cons]
        rw [List.take_add]
        congr 1
        rw [List.drop_drop]
        by_cases hc : p.offset + n ≤ p.data.length
        · rw [Nat.min_eq_left hc]
        · rw [Nat.min_eq_right (by omega), List.drop_length, List.drop_of_length_le (l := p.data) (by omega)]
      · rw [transfer, i5, hdat, hoff, List.sum_cons]; omega
  obtain ⟨k1, k2, k3, k4, k5⟩ := key sizes { data := data } (Nat.zero_le _)
  simp only [List.drop_zero, Nat.zero_add] at k3 k4 k5
  refine ⟨k1, k2, k3, ?_, ?_⟩
  · intro h
    refine ⟨by rw [k3, List.take_of_length_le h], ?_⟩
    intro n
    have : (transfer { data := data } sizes).2.offset = (transfer { data := data } sizes).2.data.length := by
      rw [k5, k4]; omega
    simp [payloadSource, this]
  · intro h n hn
    have ho : (transfer { data := data } sizes).2.offset < (transfer { data := data } sizes).2.data.length := by
      rw [k5, k4]; omega
    intro hx
    have := congrArg List.length hx
    simp only [payloadSource, List.length_take, List.length_drop, List.length_nil] at this
    split at this <;> omega

example : (transfer { data := [1, 2, 3, 4, 5] } [2, 0, 1, 7]).1 = [[1, 2], [], [3], [4, 5]] := by decide

/-! ## C41 -/

/-- The cookie a line stands for, in the code's reading of the format. -/
def argsOf (line : Bytes) : CookieArgs :=
  let f := fields 0x09 line
  { key := f[5]?, value := f[6]?, expires := f[4]?, maxAge := 0, domain := f[0]?, path := f[2]?,
    secure := f[1]? == some b!"TRUE", httpOnly := f[3]? == some b!"TRUE", sameSite := 0 }

/-- How many of the five strings (domain, path, expires, key, value) a line gives. -/
def strings (line : Bytes) : Nat := [0, 2, 4, 5, 6].countP (· < (fields 0x09 line).length)

/-- A pointer after a turn dangles if it was set. -/
private def gone : Ptr Bytes → Ptr Bytes
  | .null => .null
  | _ => .dead

/-- The string behind a pointer. -/
private def opt : Ptr Bytes → Option Bytes
  | .to s => some s
  | _ => none

private theorem useFields_ub (r : Response) (v : Locals)
    (h : v.domain = .dead ∨ v.path = .dead ∨ v.expires = .dead ∨ v.key = .dead ∨ v.value = .dead) : useFields r v = .ub := by
  have hbind : ∀ (α β : Type) (x : Res α) (k : α → Res β), (∀ a, k a = .ub) → (x >>= k) = .ub := by
    intro α β x k hk
    cases x with
    | ok a => exact hk a
    | ub => rfl
  have hrd : Message.read .dead = .ub := rfl
  have hub : ∀ (α β : Type) (k : α → Res β), ((Res.ub : Res α) >>= k) = .ub := fun _ _ _ => rfl
  unfold useFields
  rcases h with h | h | h | h | h
  · refine hbind _ _ _ _ fun _ => hbind _ _ _ _ fun _ => hbind _ _ _ _ fun _ => ?_
    rw [h, hrd]; exact hub _ _ _
  · refine hbind _ _ _ _ fun _ => hbind _ _ _ _ fun _ => hbind _ _ _ _ fun _ => hbind _ _ _ _ fun _ => ?_
    rw [h, hrd]; exact hub _ _ _
  · refine hbind _ _ _ _ fun _ => hbind _ _ _ _ fun _ => ?_
    rw [h, hrd]; exact hub _ _ _
  · rw [h, hrd]; exact hub _ _ _
  · refine hbind _ _ _ _ fun _ => ?_
    rw [h, hrd]; exact hub _ _ _

private theorem useFields_ok (r r' : Response) (v : Locals) (rc : Rc)
    (h : v.domain ≠ .dead ∧ v.path ≠ .dead ∧ v.expires ≠ .dead ∧ v.key ≠ .dead ∧ v.value ≠ .dead)
    (ha : addCookie r ⟨opt v.key, opt v.value, opt v.expires, 0, opt v.domain, opt v.path, v.secure, v.httpOnly, 0⟩ = .ok (rc, r')) :
    useFields r v = .ok (r', { v with
      key := gone v.key, value := gone v.value, domain := gone v.domain, path := gone v.path, expires := gone v.expires }) := by
  have hr : ∀ p, p ≠ Ptr.dead → Message.read p = .ok (opt p) := by
    intro p hp; cases p with
    | null => rfl
    | to _ => rfl
    | dead => exact absurd rfl hp
  have hf : ∀ p, p ≠ Ptr.dead → Client.free p = .ok (gone p) := by
    intro p hp; cases p with
    | null => rfl
    | to _ => rfl
    | dead => exact absurd rfl hp
  obtain ⟨h1, h2, h3, h4, h5⟩ := h
  unfold useFields
  rw [hr _ h1, hr _ h2, hr _ h3, hr _ h4, hr _ h5, hf _ h1, hf _ h2, hf _ h3, hf _ h4, hf _ h5]
  simp only [Res.ok_bind]
  rw [addCookieNoSite, ha]
  rfl

/-- The locals after a turn: the first `n` strings dangle. -/
private structure Stale (n : Nat) (v : Locals) : Prop where
  d : v.domain = if 0 < n then .dead else .null
  p : v.path = if 1 < n then .dead else .null
  e : v.expires = if 2 < n then .dead else .null
  k : v.key = if 3 < n then .dead else .null
  v : v.value = if 4 < n then .dead else .null

/-- The new value of a pointer. -/
private def pick : Option Bytes → Ptr Bytes → Ptr Bytes
  | some x, _ => .to x
  | none, p => p

private theorem setFields_ge (v : Locals) (l : List Bytes) (i : Nat) (h : 7 ≤ i) : setFields v i l = v := by
  induction l generalizing i with
  | nil => rfl
  | cons e t ih =>
    rw [setFields]
    have : setField v i e = v := by
      unfold setField
      split <;> first | omega | rfl
    rw [this, ih (i + 1) (by omega)]

/-- Cookies of a response filled by calls only. -/
private def Clean (r : Response) : Prop := ∃ l : List (Bytes × CookieArgs), r.cookies = l.map (fun p => p.2.cookie p.1)

private theorem addCookie_ok (r : Response) (hr : Clean r) (a : CookieArgs) :
    ∃ rc r', addCookie r a = .ok (rc, r') ∧ Clean r' := by
  unfold addCookie
  split
  · exact ⟨_, r, rfl, hr⟩
  · split
    · obtain ⟨l, hl⟩ := hr
      rw [hl, putCookie_map]; exact ⟨_, _, rfl, _, rfl⟩
    · exact ⟨_, r, rfl, hr⟩

private theorem setFields_eq (v : Locals) (f : List Bytes) :
    let w := setFields v 0 f
    w.domain = pick f[0]? v.domain ∧ w.path = pick f[2]? v.path ∧ w.expires = pick f[4]? v.expires ∧
    w.key = pick f[5]? v.key ∧ w.value = pick f[6]? v.value ∧
    (1 < f.length → w.secure = (f[1]? == some b!"TRUE")) ∧ (3 < f.length → w.httpOnly = (f[3]? == some b!"TRUE")) := by
  match f with
  | [] => simp [setFields, pick]
  | [_] => simp [setFields, setField, pick]
  | [_, _] => simp [setFields, setField, pick]
  | [_, _, _] => simp [setFields, setField, pick]
  | [_, _, _, _] => simp [setFields, setField, pick]
  | [_, _, _, _, _] => simp [setFields, setField, pick]
  | [_, _, _, _, _, _] => simp [setFields, setField, pick]
  | a :: b :: c :: d :: e :: g :: h :: t =>
    simp only [setFields, Nat.zero_add, Nat.reduceAdd]
    rw [setFields_ge _ _ _ (by omega)]
    simp [setField, pick]

/-- One turn: undefined when the line gives fewer strings than an earlier one. -/
private theorem line_step (r : Response) (hr : Clean r) (line : Bytes) (n : Nat) (hn : n ≤ 5) (v : Locals) (hv : Stale n v) :
    (strings line < n → cookieLine r v line = .ub) ∧
    (n ≤ strings line → ∃ rc r' v', addCookie r (argsOf line) = .ok (rc, r') ∧ Clean r' ∧ Stale (strings line) v' ∧
      cookieLine r v line = .ok (r', v')) := by
  obtain ⟨rc, r', hadd, hr'⟩ := addCookie_ok r hr (argsOf line)
  unfold cookieLine strings
  rw [Strtok.words_eq_fields]
  unfold argsOf at hadd ⊢
  generalize fields 0x09 line = f at *
  obtain ⟨w1, w2, w3, w4, w5, w6, w7⟩ := setFields_eq v f
  generalize setFields v 0 f = w at *
  obtain ⟨v1, v2, v3, v4, v5⟩ := hv
  rw [v1] at w1
  rw [v2] at w2
  rw [v3] at w3
  rw [v4] at w4
  rw [v5] at w5
  have hn' : n = 0 ∨ n = 1 ∨ n = 2 ∨ n = 3 ∨ n = 4 ∨ n = 5 := by omega
  match f with
  | [] | [_] | [_, _] | [_, _, _] | [_, _, _, _] | [_, _, _, _, _] =>
    constructor
    · intro hlt
      apply useFields_ub
      rw [w1, w2, w3, w4, w5]
      rcases hn' with rfl | rfl | rfl | rfl | rfl | rfl <;> simp [pick] at hlt ⊢
    · intro hle
      have hkey : addCookie r ⟨opt w.key, opt w.value, opt w.expires, 0, opt w.domain, opt w.path, w.secure, w.httpOnly, 0⟩ =
          .ok (.params, r) := by
        have : opt w.key = none := by
          rw [w4]
          simp only [pick]
          by_cases h : 3 < n <;> simp [h, opt]
        unfold addCookie; rw [this]
      refine ⟨rc, r', { w with
        key := gone w.key, value := gone w.value, domain := gone w.domain, path := gone w.path, expires := gone w.expires },
        hadd, hr', ?_, ?_⟩
      · constructor <;> simp only [w1, w2, w3, w4, w5] <;>
          rcases hn' with rfl | rfl | rfl | rfl | rfl | rfl <;> simp [pick, gone] at hle ⊢
      · have : (rc, r') = (Rc.params, r) := by
          have h2 : (Res.ok (Rc.params, r) : Res (Rc × Response)) = .ok (rc, r') := hadd
          injection h2 with h2
          exact h2.symm
        cases this
        refine useFields_ok r r w .params ?_ hkey
        rw [w1, w2, w3, w4, w5]
        rcases hn' with rfl | rfl | rfl | rfl | rfl | rfl <;> simp [pick] at hle ⊢
  | [a, b, c, d, e, k] =>
    constructor
    · intro hlt
      apply useFields_ub
      rw [w1, w2, w3, w4, w5]
      rcases hn' with rfl | rfl | rfl | rfl | rfl | rfl <;> simp [pick] at hlt ⊢
    · intro hle
      refine ⟨rc, r', { w with
        key := gone w.key, value := gone w.value, domain := gone w.domain, path := gone w.path, expires := gone w.expires },
        hadd, hr', ?_, ?_⟩
      · constructor <;> simp only [w1, w2, w3, w4, w5] <;>
          rcases hn' with rfl | rfl | rfl | rfl | rfl | rfl <;> simp [pick, gone] at hle ⊢
      · refine useFields_ok r r' w rc ?_ ?_
        · rw [w1, w2, w3, w4, w5]
          rcases hn' with rfl | rfl | rfl | rfl | rfl | rfl <;> simp [pick] at hle ⊢
        · rw [w1, w2, w3, w4, w5, w6 (by simp), w7 (by simp), ← hadd]
          rcases hn' with rfl | rfl | rfl | rfl | rfl | rfl <;> first | rfl | (simp at hle; done)
  | a :: b :: c :: d :: e :: k :: x :: t =>
    have h7 : List.countP (fun y => decide (y < (a :: b :: c :: d :: e :: k :: x :: t).length)) [0, 2, 4, 5, 6] = 5 := by
      simp
    constructor
    · intro hlt
      rw [h7] at hlt; omega
    · intro hle
      refine ⟨rc, r', { w with
        key := gone w.key, value := gone w.value, domain := gone w.domain, path := gone w.path, expires := gone w.expires },
        hadd, hr', ?_, ?_⟩
      · rw [h7]
        constructor <;> simp only [w1, w2, w3, w4, w5] <;> rfl
      · refine useFields_ok r r' w rc ?_ ?_
        · rw [w1, w2, w3, w4, w5]
          simp [pick]
        · rw [w1, w2, w3, w4, w5, w6 (by simp), w7 (by simp), ← hadd]
          rfl

private theorem strings_le (line : Bytes) : strings line ≤ 5 := List.countP_le_length

private theorem list_step (lines : List Bytes) : ∀ (r : Response) (_ : Clean r) (n : Nat) (_ : n ≤ 5) (v : Locals) (_ : Stale n v),
    ((n :: lines.map strings).Pairwise (· ≤ ·) → cookieList r v lines = runCookies r (lines.map argsOf)) ∧
    (¬ (n :: lines.map strings).Pairwise (· ≤ ·) → (lines.map strings).Pairwise (· ≤ ·) ∧ lines ≠ [] → cookieList r v lines = .ub) ∧
    (¬ (lines.map strings).Pairwise (· ≤ ·) → cookieList r v lines = .ub) := by
  induction lines with
  | nil => intro r _ n _ v _; exact ⟨fun _ => rfl, fun _ h => absurd rfl h.2, fun h => absurd List.Pairwise.nil h⟩
  | cons l t ih =>
    intro r hr n hn v hv
    obtain ⟨s1, s2⟩ := line_step r hr l n hn v hv
    by_cases hlt : strings l < n
    · have hub : cookieList r v (l :: t) = .ub := by rw [cookieList, s1 hlt]; rfl
      refine ⟨?_, fun _ _ => hub, fun _ => hub⟩
      intro hp
      rw [List.map_cons, List.pairwise_cons] at hp
      have := hp.1 _ List.mem_cons_self
      omega
    · obtain ⟨rc, r', v', a1, a2, a3, a4⟩ := s2 (by omega)
      obtain ⟨i1, i2, i3⟩ := ih r' a2 _ (strings_le l) v' a3
      have hstep : cookieList r v (l :: t) = cookieList r' v' t := by rw [cookieList, a4]; rfl
      have hrun : runCookies r ((l :: t).map argsOf) = runCookies r' (t.map argsOf) := by
        rw [List.map_cons, runCookies, a1]; rfl
      rw [hstep, hrun]
      refine ⟨?_, ?_, ?_⟩
      · intro hp
        rw [List.map_cons, List.pairwise_cons] at hp
        exact i1 hp.2
      · intro hp hq
        exfalso; apply hp
        rw [List.pairwise_cons]
        refine ⟨?_, hq.1⟩
        intro x hx
        rw [List.map_cons] at hx hq
        rcases List.mem_cons.1 hx with rfl | hx
        · omega
        · have := (List.pairwise_cons.1 hq.1).1 x hx
          omega
      · intro hp
        by_cases hq : (t.map strings).Pairwise (· ≤ ·)
        · apply i2 hp
          refine ⟨hq, ?_⟩
          rintro rfl
          exact hp (by simp)
        · exact i3 hq

private theorem stale_init : Stale 0 {} := ⟨rfl, rfl, rfl, rfl, rfl⟩

/-- **C41, partial.** As long as no cookie line gives fewer strings than an earlier one (in particular when every line has all
seven fields), the cookies are stored without touching freed memory, with the effect of one call of
`ulfius_add_cookie_to_response` per line (see C31). Missing: other lists, for which the claim is false
(`C41_use_after_free_false`). -/
theorem C41_cookies_partial (r : Response) (hr : r.cookies = []) (lines : List Bytes)
    (h : (lines.map strings).Pairwise (· ≤ ·)) :
    ∃ r', cookieList r {} lines = .ok r' ∧ runCookies r (lines.map argsOf) = .ok r' := by
  have e := (list_step lines r ⟨[], by simp [hr]⟩ 0 (by omega) {} stale_init).1 (by
    rw [List.pairwise_cons]; exact ⟨fun _ _ => Nat.zero_le _, h⟩)
  obtain ⟨r', hr', -⟩ := C31_cookies (lines.map argsOf) r hr
  exact ⟨r', by rw [e, hr'], hr'⟩

example : ([b!"h\tFALSE\t/\tFALSE\t0\ta\tb", b!"h\tFALSE\t/\tTRUE\t0\tc\td"].map strings).Pairwise (· ≤ ·) ∧
    argsOf b!"h\tFALSE\t/\tTRUE\t0\tc\td" = ⟨some b!"c", some b!"d", some b!"0", 0, some b!"h", some b!"/", false, true, 0⟩ := by
  decide

/-- C41 is false: whenever a line gives fewer strings than some earlier line, freed memory is used. -/
theorem C41_use_after_free_false (r : Response) (hr : r.cookies = []) (lines : List Bytes)
    (h : ¬ (lines.map strings).Pairwise (· ≤ ·)) : cookieList r {} lines = .ub :=
  (list_step lines r ⟨[], by simp [hr]⟩ 0 (by omega) {} stale_init).2.2 h

/-- The case that occurs in practice: a cookie with a value, then one with an empty value. -/
theorem C41_empty_value_false :
    cookieList {} {} [b!"h\tFALSE\t/\tFALSE\t0\ta\tb", b!"h\tFALSE\t/\tFALSE\t0\tc\t"] = .ub :=
  C41_use_after_free_false _ rfl _ (by decide)

/-! ## C42 -/

/-- The map holds these parameters in this order: keys and values are C strings. -/
def HoldsParams (m : UMap) (ps : List (Bytes × Option Bytes)) : Prop :=
  Reach m ∧ UMap.enumKeys m = .ok (ps.map (·.1)) ∧ ∀ p ∈ ps, getStr m p.1 = .ok p.2 ∧ NoNul p.1 ∧ ∀ v, p.2 = some v → NoNul v

private theorem getText_eq (m : UMap) (k : Bytes) : getText m k = getStr m k := rfl

theorem holds_nb {m : UMap} {ps : List (Bytes × Option Bytes)} (h : HoldsParams m ps) : m.nb = ps.length := by
  obtain ⟨es, rfl, -⟩ := reach_wf h.1
  have := h.2.1
  rw [enumKeys_rep] at this
  injection this with this
  have := congrArg List.length this
  simpa [rep] using this

/-- The URL as built, before looking at its parts. -/
private theorem requestUrl_eq (url : Bytes) (m : UMap) (ps : List (Bytes × Option Bytes)) (h : HoldsParams m ps) :
    requestUrl url m = .ok (match ps with
      | [] => spaces url
      | p :: t => spaces url ++ (if (spaces url).contains 0x3f then 0x26 else 0x3f) :: param p.1 p.2 ++
          amps (t.map (fun p => param p.1 p.2))) := by
  unfold requestUrl
  rw [replaceSpaces_eq, holds_nb h, h.2.1]
  cases ps with
  | nil => rfl
  | cons p t =>
    have hp : ∀ p ∈ t, getText m p.1 = .ok p.2 := fun x hx => (h.2.2 x (List.mem_cons_of_mem _ hx)).1
    have h0 : getText m p.1 = .ok p.2 := (h.2.2 p List.mem_cons_self).1
    simp only [List.length_cons, ne_eq, Nat.add_one_ne_zero, not_false_iff, if_true, Res.ok_bind, List.map_cons, addParams, h0]
    rw [addParams_true m t _ hp]
    congr 1
    cases (spaces url).contains 0x3f <;> simp

theorem requestUrl_ok (url : Bytes) (m : UMap) (ps : List (Bytes × Option Bytes)) (h : HoldsParams m ps) :
    ∃ x, requestUrl url m = .ok x := ⟨_, requestUrl_eq url m ps h⟩

/-- **C42, partial.** For every URL without fragment and every parameter map: the part before the query is that of the given
URL (with spaces written as %20), and the query consists of the parameters texts of the given URL followed by exactly one text
per parameter of the map, in order, which splits at '=' and unescapes to its key and value. Missing: URLs with a fragment, for
which the claim is false (`C42_fragment_false`). -/
theorem C42_url_partial (url : Bytes) (m : UMap) (ps : List (Bytes × Option Bytes)) (h : HoldsParams m ps) (hf : (0x23 : UInt8) ∉ url) :
    ∃ r ts, requestUrl url m = .ok r ∧ beforeQuery r = beforeQuery (spaces url) ∧
      queryParams r = queryParams (spaces url) ++ ts ∧ ParamTexts ts ps ∧ (ps = [] → r = spaces url) := by
  refine ⟨_, ps.map (fun p => param p.1 p.2), requestUrl_eq url m ps h, ?_⟩
  have hps : ParamTexts (ps.map (fun p => param p.1 p.2)) ps := paramTexts ps (fun p hp => (h.2.2 p hp).2)
  have hfree := spaces_free url hf
  have hpf : ∀ t ∈ ps.map (fun p => param p.1 p.2), (0x26 : UInt8) ∉ t ∧ (0x23 : UInt8) ∉ t := by
    intro t ht
    obtain ⟨p, -, rfl⟩ := List.mem_map.1 ht
    exact ⟨(param_free p.1 p.2).1, (param_free p.1 p.2).2.1⟩
  cases ps with
  | nil => exact ⟨rfl, by simp, hps, fun _ => rfl⟩
  | cons p t =>
    generalize spaces url = u at *
    simp only [List.map_cons]
    rw [List.map_cons] at hps hpf
    have hpt : ∀ x ∈ t.map (fun p => param p.1 p.2), (0x26 : UInt8) ∉ x ∧ (0x23 : UInt8) ∉ x :=
      fun x hx => hpf x (List.mem_cons_of_mem _ hx)
    have hp0 := hpf _ List.mem_cons_self
    have ha : (0x23 : UInt8) ∉ amps (t.map (fun p => param p.1 p.2)) := amps_free _ _ (by decide) (fun x hx => (hpt x hx).2)
    generalize t.map (fun p => param p.1 p.2) = ts at *
    generalize param p.1 p.2 = t0 at *
    by_cases hq : (0x3f : UInt8) ∈ u
    · obtain ⟨a, q, rfl, hqa⟩ := mem_split _ _ hq
      have hc : (a ++ 0x3f :: q).contains 0x3f = true := by simp
      rw [hc]
      simp only [if_true]
      have e : a ++ 0x3f :: q ++ 0x26 :: t0 ++ amps ts = a ++ 0x3f :: (q ++ amps (t0 :: ts)) := by simp [amps]
      have hfr : (0x23 : UInt8) ∉ a ++ 0x3f :: (q ++ amps (t0 :: ts)) := by
        rw [← e]
        simp only [List.mem_append, List.mem_cons, not_or] at hfree ⊢
        exact ⟨⟨hfree, by decide, hp0.2⟩, ha⟩
      rw [e]
      obtain ⟨q1, q2⟩ := query_some _ _ hqa hfr
      obtain ⟨q3, q4⟩ := query_some _ _ hqa hfree
      refine ⟨by rw [q2, q4], ?_, hps, by simp⟩
      unfold queryParams
      rw [q1, q3]
      simp only
      exact pieces_amps q (t0 :: ts) (fun x hx => (hpf x hx).1)
    · have hc : u.contains 0x3f = false := by simpa using hq
      rw [hc]
      simp only [Bool.false_eq_true, if_false]
      have e : u ++ 0x3f :: t0 ++ amps ts = u ++ 0x3f :: (t0 ++ amps ts) := by simp
      have hfr : (0x23 : UInt8) ∉ u ++ 0x3f :: (t0 ++ amps ts) := by
        rw [← e]
        simp only [List.mem_append, List.mem_cons, not_or] at hfree ⊢
        exact ⟨⟨hfree, by decide, hp0.2⟩, ha⟩
      rw [e]
      obtain ⟨q1, q2⟩ := query_some _ _ hq hfr
      obtain ⟨q3, q4⟩ := query_none _ hq hfree
      refine ⟨by rw [q2, q4], ?_, hps, by simp⟩
      unfold queryParams
      rw [q1, q3]
      simp only
      rw [pieces_amps _ _ (fun x hx => (hpt x hx).1), pieces_free _ _ hp0.1]
      rfl

/-- A map with two parameters. -/
def sampleParams : UMap :=
  match UMap.put UMap.init (some b!"a b") (some b!"1&2") with
  | .ok (_, m) => match UMap.put m (some b!"k") none with
    | .ok (_, m) => m
    | .ub => UMap.init
  | .ub => UMap.init

theorem sampleParams_holds : HoldsParams sampleParams [(b!"a b", some b!"1&2"), (b!"k", none)] := by
  refine ⟨?_, by decide, by decide⟩
  have h1 : ∃ m, UMap.put UMap.init (some b!"a b") (some b!"1&2") = .ok (.ok, m) := ⟨_, rfl⟩
  obtain ⟨m1, h1⟩ := h1
  have r1 : Reach m1 := .put .init (validArgs_str _ (by decide)) h1
  have h2 : ∃ m, UMap.put m1 (some b!"k") none = .ok (.ok, m) := by
    cases h1; exact ⟨_, rfl⟩
  obtain ⟨m2, h2⟩ := h2
  have e : sampleParams = m2 := by unfold sampleParams; rw [h1]; simp only [h2]
  rw [e]
  exact .put r1 (validArgs_str none (by decide)) h2

example : requestUrl b!"http://h/p q?x=1" sampleParams = .ok b!"http://h/p%20q?x=1&a%20b=1%262&k" := by decide

/-- C42 is false for every URL with a fragment: all parameters of the map are lost in the fragment. -/
theorem C42_fragment_false (url : Bytes) (m : UMap) (ps : List (Bytes × Option Bytes)) (h : HoldsParams m ps)
    (hf : (0x23 : UInt8) ∈ url) : ∃ r, requestUrl url m = .ok r ∧ queryParams r = queryParams (spaces url) := by
  refine ⟨_, requestUrl_eq url m ps h, ?_⟩
  have hf' : (0x23 : UInt8) ∈ spaces url := by
    unfold spaces
    simp only [List.mem_flatten, List.mem_map]
    exact ⟨[0x23], ⟨0x23, hf, rfl⟩, by simp⟩
  cases ps with
  | nil => rfl
  | cons p t =>
    simp only
    generalize spaces url = u at *
    obtain ⟨a, b, rfl, ha⟩ := mem_split _ _ hf'
    unfold queryParams queryOf noFragment
    generalize (if (a ++ 0x23 :: b).contains 0x3f = true then (0x26 : UInt8) else 0x3f) = sep
    have e : a ++ 0x23 :: b ++ sep :: param p.1 p.2 ++ amps (t.map (fun p => param p.1 p.2)) =
        a ++ 0x23 :: (b ++ sep :: param p.1 p.2 ++ amps (t.map (fun p => param p.1 p.2))) := by simp
    rw [e, (takeWhile_free _ a _ ha).1, (takeWhile_free _ a _ ha).1]

example : requestUrl b!"http://h/#top" sampleParams = .ok b!"http://h/#top?a%20b=1%262&k" := by decide

/-! ## C66: form body -/

/-- C66. For every non-empty `map_post_body`, the body sent is its entries in order, joined by '&', each splitting at '=' and
unescaping to its key and value. -/
theorem C66_form (m : UMap) (ps : List (Bytes × Option Bytes)) (h : HoldsParams m ps) (hne : ps ≠ []) :
    ∃ body, requestForm m = .ok body ∧ ParamTexts (pieces 0x26 body) ps := by
  have hps : ParamTexts (ps.map (fun p => param p.1 p.2)) ps := paramTexts ps (fun p hp => (h.2.2 p hp).2)
  cases ps with
  | nil => exact absurd rfl hne
  | cons p t =>
    have hp : ∀ p ∈ t, getText m p.1 = .ok p.2 := fun x hx => (h.2.2 x (List.mem_cons_of_mem _ hx)).1
    have h0 : getText m p.1 = .ok p.2 := (h.2.2 p List.mem_cons_self).1
    refine ⟨param p.1 p.2 ++ amps (t.map (fun p => param p.1 p.2)), ?_, ?_⟩
    · unfold requestForm
      rw [h.2.1]
      simp only [Res.ok_bind, List.map_cons, addForm, h0]
      rw [addForm_false m t _ hp]
      simp
    · rw [pieces_amps _ _ (by
        intro x hx
        obtain ⟨q, -, rfl⟩ := List.mem_map.1 hx
        exact (param_free _ _).1), pieces_free _ _ (param_free _ _).1]
      exact hps

example : requestForm sampleParams = .ok b!"a%20b=1%262&k" := by decide

/-! ## C67: flags of received cookies -/

/-- The cookie that is made of a line of libcurl's list. -/
def jarArgs (j : Jar) : CookieArgs :=
  ⟨some j.name, some j.value, some j.expires, 0, some ((if j.httpOnly then b!"#HttpOnly_" else []) ++ j.domain), some j.path, j.subdomains, j.secure, 0⟩

private theorem jar_fields (j : Jar) (hj : j.Wf) (hv : j.value ≠ []) :
    fields 0x09 j.text = [(if j.httpOnly then b!"#HttpOnly_" else []) ++ j.domain, boolText j.subdomains, j.path,
      boolText j.secure, j.expires, j.name, j.value] := by
  have hb : ∀ b, (0x09 : UInt8) ∉ boolText b ∧ boolText b ≠ [] ∧ (boolText b == b!"TRUE") = b := by
    intro b; cases b <;> decide
  have hd : (0x09 : UInt8) ∉ (if j.httpOnly then b!"#HttpOnly_" else []) ++ j.domain := by
    rw [List.mem_append, not_or]
    refine ⟨?_, hj.domain.1⟩
    split <;> decide
  have := pieces_fields 0x09 ((if j.httpOnly then b!"#HttpOnly_" else []) ++ j.domain)
    [boolText j.subdomains, j.path, boolText j.secure, j.expires, j.name, j.value] hd (by
      simp only [List.mem_cons, List.not_mem_nil, or_false, forall_eq_or_imp, forall_eq]
      exact ⟨(hb _).1, hj.path.1, (hb _).1, hj.expires.1, hj.name.1, hj.value⟩)
  have e : j.text = ((if j.httpOnly then b!"#HttpOnly_" else []) ++ j.domain) ++
      (([boolText j.subdomains, j.path, boolText j.secure, j.expires, j.name, j.value].map (fun f => (0x09 : UInt8) :: f)).flatten) := by
    simp [Jar.text]
  unfold fields
  rw [e, this]
  have h1 : (if j.httpOnly then b!"#HttpOnly_" else []) ++ j.domain ≠ [] := by simp [hj.domain.2]
  simp [List.filter_cons, List.isEmpty_iff, (hb _).2.1, hj.path.2, hj.expires.2, hj.name.2, hv, h1, hj.domain.2]

theorem argsOf_jar (j : Jar) (hj : j.Wf) (hv : j.value ≠ []) : argsOf j.text = jarArgs j := by
  unfold argsOf jarArgs
  rw [jar_fields j hj hv]
  have hb' : ∀ b, (some (boolText b) == some b!"TRUE") = b := by intro b; cases b <;> decide
  simp [hb']

theorem strings_jar (j : Jar) (hj : j.Wf) (hv : j.value ≠ []) : strings j.text = 5 := by
  unfold strings
  rw [jar_fields j hj hv]
  rfl

private theorem upsert_new (a : CookieArgs) (k : Bytes) : ∀ l : List (Bytes × CookieArgs), k ∉ l.map (·.1) → upsert a k l = l ++ [(k, a)]
  | [], _ => rfl
  | (x, y) :: t, h => by
    rw [List.map_cons, List.mem_cons, not_or] at h
    unfold upsert
    rw [if_neg (fun e => h.1 e.symm), upsert_new a k t h.2]
    rfl

private theorem upsert_all : ∀ (ps l : List (Bytes × CookieArgs)), (l.map (·.1) ++ ps.map (·.1)).Nodup →
    ps.foldl (fun l p => upsert p.2 p.1 l) l = l ++ ps
  | [], l, _ => by simp
  | p :: t, l, h => by
    have hp : p.1 ∉ l.map (·.1) := by
      intro hm
      exact (List.nodup_append.1 h).2.2 _ hm _ List.mem_cons_self rfl
    rw [List.foldl_cons, upsert_new _ _ _ hp, upsert_all t _ (by simpa using h)]
    simp

/-- The cookies of a list of lines, each of its own name. -/
theorem jars_run (r : Response) (hr : r.cookies = []) (js : List Jar) (hn : (js.map (·.name)).Nodup) :
    runCookies r (js.map jarArgs) = .ok { r with cookies := js.map (fun j => (jarArgs j).cookie j.name) } := by
  rw [runCookies_eq (js.map jarArgs) r [] (by simp [hr])]
  have ha : accepted (js.map jarArgs) = js.map (fun j => (j.name, jarArgs j)) := by
    unfold accepted
    rw [List.filterMap_map]
    clear hn
    induction js with
    | nil => rfl
    | cons j t ih =>
      rw [List.filterMap_cons, List.map_cons, ih]
      rfl
  rw [ha, upsert_all _ [] (by simpa [Function.comp_def] using hn)]
  simp [Function.comp_def]

theorem jars_strings (js : List Jar) (hj : ∀ j ∈ js, j.Wf ∧ j.value ≠ []) : ((js.map Jar.text).map strings).Pairwise (· ≤ ·) := by
  induction js with
  | nil => exact .nil
  | cons j t ih =>
    rw [List.map_cons, List.map_cons, List.pairwise_cons]
    refine ⟨?_, ih (fun x hx => hj x (List.mem_cons_of_mem _ hx))⟩
    intro n hm
    rw [List.map_map] at hm
    obtain ⟨x, hx, rfl⟩ := List.mem_map.1 hm
    rw [Function.comp_apply, strings_jar j (hj j List.mem_cons_self).1 (hj j List.mem_cons_self).2,
      strings_jar x (hj x (List.mem_cons_of_mem _ hx)).1 (hj x (List.mem_cons_of_mem _ hx)).2]
    exact Nat.le_refl _

theorem jars_cookies (r : Response) (hr : r.cookies = []) (js : List Jar) (hj : ∀ j ∈ js, j.Wf ∧ j.value ≠ []) (hn : (js.map (·.name)).Nodup) :
    cookieList r {} (js.map Jar.text) = .ok { r with cookies := js.map (fun j => (jarArgs j).cookie j.name) } := by
  obtain ⟨r', e1, e2⟩ := C41_cookies_partial r hr (js.map Jar.text) (jars_strings js hj)
  have ha : (js.map Jar.text).map argsOf = js.map jarArgs := by
    rw [List.map_map]
    exact List.map_congr_left (fun j h => argsOf_jar j (hj j h).1 (hj j h).2)
  rw [ha, jars_run r hr js hn] at e2
  rw [e1, e2]

private theorem jar_cookie (r : Response) (hr : r.cookies = []) (j : Jar) (hj : j.Wf) (hv : j.value ≠ []) :
    ∃ r', cookieList r {} [j.text] = .ok r' ∧ r'.cookies = [(jarArgs j).cookie j.name] :=
  ⟨_, jars_cookies r hr [j] (by simpa using ⟨hj, hv⟩) (by simp), rfl⟩

/-- **C67, partial.** Any number of cookies of different names, with values: each is stored, in the order reported, with its name, value, path and
expiry, and, if it is not HttpOnly, its domain. Missing: as for one cookie; and cookies of one name for several domains or paths, of which the last
one is kept (C31). -/
theorem C67_list_partial (r : Response) (hr : r.cookies = []) (js : List Jar) (hj : ∀ j ∈ js, j.Wf ∧ j.value ≠ [])
    (hn : (js.map (·.name)).Nodup) :
    ∃ r', cookieList r {} (js.map Jar.text) = .ok r' ∧ r'.cookies.length = js.length ∧
      ∀ p ∈ r'.cookies.zip js, Message.read p.1.key = .ok (some p.2.name) ∧ Message.read p.1.value = .ok (some p.2.value) ∧
        Message.read p.1.path = .ok (some p.2.path) ∧ Message.read p.1.expires = .ok (some p.2.expires) ∧
        (p.2.httpOnly = false → Message.read p.1.domain = .ok (some p.2.domain)) := by
  refine ⟨_, jars_cookies r hr js hj hn, by simp, ?_⟩
  intro p hp
  simp only [List.zip_map_left] at hp
  rw [List.mem_map] at hp
  obtain ⟨x, hx, rfl⟩ := hp
  have hxx : x.1 = x.2 := by
    clear hj hn
    induction js with
    | nil => cases hx
    | cons j t ih =>
      rw [List.zip_cons_cons, List.mem_cons] at hx
      rcases hx with rfl | hx
      · rfl
      · exact ih hx
  simp only [Prod.map, hxx, id_eq]
  exact ⟨rfl, rfl, rfl, rfl, fun h => by simp only [jarArgs, h]; rfl⟩

/-- **C67, partial.** A cookie libcurl reports (with a non-empty value) is stored with its name, value, path and expiry, and, if it is
not HttpOnly, its domain. Missing: Secure, HttpOnly and the domain of HttpOnly cookies (`C67_flags_false`). -/
theorem C67_cookie_partial (r : Response) (hr : r.cookies = []) (j : Jar) (hj : j.Wf) (hv : j.value ≠ []) :
    ∃ r' c, cookieList r {} [j.text] = .ok r' ∧ r'.cookies = [c] ∧ Message.read c.key = .ok (some j.name) ∧
      Message.read c.value = .ok (some j.value) ∧ Message.read c.path = .ok (some j.path) ∧
      Message.read c.expires = .ok (some j.expires) ∧ (j.httpOnly = false → Message.read c.domain = .ok (some j.domain)) := by
  obtain ⟨r', e1, e2⟩ := jar_cookie r hr j hj hv
  exact ⟨r', _, e1, e2, rfl, rfl, rfl, rfl, fun h => by simp only [jarArgs, h]; rfl⟩

/-- An HttpOnly, secure cookie for one host only. -/
def sampleJar : Jar := ⟨b!"h", false, b!"/", true, b!"0", b!"sid", b!"x", true⟩

example : sampleJar.Wf ∧ sampleJar.value ≠ [] :=
  ⟨⟨by decide, by decide, by decide, by decide, by decide⟩, by decide⟩

/-- C67 is false for every cookie: what is stored as Secure is libcurl's "include subdomains" flag, what is stored as HttpOnly is
its Secure flag, and the domain of an HttpOnly cookie starts with "#HttpOnly_". -/
theorem C67_flags_false (r : Response) (hr : r.cookies = []) (j : Jar) (hj : j.Wf) (hv : j.value ≠ []) :
    ∃ r' c, cookieList r {} [j.text] = .ok r' ∧ r'.cookies = [c] ∧ c.secure = j.subdomains ∧ c.httpOnly = j.secure ∧
      (j.httpOnly = true → Message.read c.domain = .ok (some (b!"#HttpOnly_" ++ j.domain))) := by
  obtain ⟨r', e1, e2⟩ := jar_cookie r hr j hj hv
  exact ⟨r', _, e1, e2, rfl, rfl, fun h => by simp only [jarArgs, h]; rfl⟩

/-- The sample is stored as not Secure, HttpOnly by accident, for the domain "#HttpOnly_h". -/
theorem C67_sample_false : ∃ r' c, cookieList {} {} [sampleJar.text] = .ok r' ∧ r'.cookies = [c] ∧
    c.secure ≠ sampleJar.secure ∧ Message.read c.domain ≠ .ok (some sampleJar.domain) := by
  obtain ⟨r', e1, e2⟩ := jar_cookie {} rfl sampleJar ⟨by decide, by decide, by decide, by decide, by decide⟩ (by decide)
  exact ⟨r', _, e1, e2, by decide, by decide⟩

/-! ## C68: mail text -/

/-- No CR. -/
def NoCr (s : Bytes) : Prop := (0x0d : UInt8) ∉ s

instance (s : Bytes) : Decidable (NoCr s) := inferInstanceAs (Decidable (_ ∉ _))

private theorem parse_line (l : Bytes) (cur rest : Bytes) (hl : NoCr l) :
    parseMail cur (l ++ 0x0d :: 0x0a :: rest) = parseMail (cur ++ l) (0x0d :: 0x0a :: rest) := by
  induction l generalizing cur with
  | nil => simp
  | cons c t ih =>
    have hc : ¬ (c = 0x0d) := fun e => hl (by rw [e]; exact List.mem_cons_self)
    have ht : NoCr t := fun h => hl (List.mem_cons_of_mem _ h)
    have := ih (cur ++ [c]) ht
    rw [List.append_assoc] at this
    rw [show cur ++ c :: t = cur ++ ([c] ++ t) by rfl, ← this]
    rw [List.cons_append]
    cases h : t ++ 0x0d :: 0x0a :: rest with
    | nil => simp at h
    | cons d u => rw [parseMail, if_neg (by simp [hc])]

private theorem parse_crlf (cur rest : Bytes) (h : cur ≠ []) :
    parseMail cur (0x0d :: 0x0a :: rest) = (parseMail [] rest).map (fun p => (cur :: p.1, p.2)) := by
  rw [parseMail, if_pos ⟨rfl, rfl⟩, if_neg h]

private theorem parse_step (l rest : Bytes) (hl : NoCr l) (h : l ≠ []) :
    parseMail [] (l ++ 0x0d :: 0x0a :: rest) = (parseMail [] rest).map (fun p => (l :: p.1, p.2)) := by
  rw [parse_line _ _ _ hl, List.nil_append, parse_crlf _ _ h]

/-- **C68, partial.** When no address, subject or content type contains a CR, the text sent for a mail is one header line each for
the date, To, From, Cc (if given), Subject and Content-Type with the given contents, an empty line, and the body. Missing: fields
with CR LF, which add header lines (`C68_injection_false`). -/
theorem C68_mail_partial (date to' from' : Bytes) (cc subject : Option Bytes) (ct body : Bytes) (hd : NoCr date) (hd0 : date ≠ [])
    (ht : NoCr to') (hf : NoCr from') (hc : ∀ c, cc = some c → NoCr c) (hs : ∀ c, subject = some c → NoCr c) (hct : NoCr ct) :
    parseMail [] (mailText date to' from' cc subject (some ct) body) =
      some ([date, b!"To: " ++ to', b!"From: " ++ from'] ++ (cc.toList.map (b!"Cc: " ++ ·)) ++
        [b!"Subject: " ++ subject.getD [], b!"Content-Type: " ++ ct], body ++ b!"\r\n") := by
  have hcr : ∀ (p s : Bytes), NoCr p → NoCr s → NoCr (p ++ s) := by
    intro p s h1 h2 h
    rcases List.mem_append.1 h with h | h
    · exact h1 h
    · exact h2 h
  have hend : ∀ b, parseMail [] (0x0d :: 0x0a :: b) = some ([], b) := fun b => rfl
  have hsub : NoCr (subject.getD []) := by
    cases subject with
    | none => simp [NoCr]
    | some s => exact hs s rfl
  have s2 : ∀ rest, parseMail [] (b!"Subject: " ++ subject.getD [] ++ 0x0d :: 0x0a :: (b!"Content-Type: " ++ ct ++ 0x0d :: 0x0a :: 0x0d :: 0x0a :: rest)) =
      some ([b!"Subject: " ++ subject.getD [], b!"Content-Type: " ++ ct], rest) := by
    intro rest
    rw [parse_step _ _ (hcr _ _ (by decide) hsub) (by simp), parse_step _ _ (hcr _ _ (by decide) hct) (by simp), hend]
    rfl
  have s1 : ∀ (rest : Bytes) (ls : List Bytes) (b : Bytes), parseMail [] rest = some (ls, b) →
      parseMail [] (date ++ 0x0d :: 0x0a :: (b!"To: " ++ to' ++ 0x0d :: 0x0a :: (b!"From: " ++ from' ++ 0x0d :: 0x0a :: rest))) =
        some ([date, b!"To: " ++ to', b!"From: " ++ from'] ++ ls, b) := by
    intro rest ls b h
    rw [parse_step _ _ hd hd0, parse_step _ _ (hcr _ _ (by decide) ht) (by simp), parse_step _ _ (hcr _ _ (by decide) hf) (by simp), h]
    rfl
  cases cc with
  | none =>
    have := s1 _ _ _ (s2 (body ++ b!"\r\n"))
    simp only [mailText, str, Option.toList, List.map_nil, List.append_nil, List.append_assoc, List.cons_append, List.nil_append] at this ⊢
    exact this
  | some c =>
    have h3 : parseMail [] (b!"Cc: " ++ c ++ 0x0d :: 0x0a :: (b!"Subject: " ++ subject.getD [] ++ 0x0d :: 0x0a :: (b!"Content-Type: " ++ ct ++ 0x0d :: 0x0a :: 0x0d :: 0x0a :: (body ++ b!"\r\n")))) =
        some ([b!"Cc: " ++ c] ++ [b!"Subject: " ++ subject.getD [], b!"Content-Type: " ++ ct], body ++ b!"\r\n") := by
      rw [parse_step _ _ (hcr _ _ (by decide) (hc c rfl)) (by simp), s2]
      rfl
    have := s1 _ _ _ h3
    simp only [mailText, str, Option.toList, List.map_nil, List.map_cons, List.append_nil, List.append_assoc, List.cons_append, List.nil_append] at this ⊢
    exact this

example : NoCr b!"Date: x" ∧ parseMail [] (mailText b!"Date: x" b!"a@b" b!"c@d" none (some b!"s") (some b!"text/plain") b!"hi") =
    some ([b!"Date: x", b!"To: a@b", b!"From: c@d", b!"Subject: s", b!"Content-Type: text/plain"], b!"hi\r\n") := by decide +kernel

/-- C68 is false when a field contains CR LF: a subject can add a recipient header (or end the headers). -/
theorem C68_injection_false :
    parseMail [] (mailText b!"Date: x" b!"a@b" b!"c@d" none (some b!"s\r\nBcc: e@f") (some b!"text/plain") b!"hi") =
      some ([b!"Date: x", b!"To: a@b", b!"From: c@d", b!"Subject: s", b!"Bcc: e@f", b!"Content-Type: text/plain"], b!"hi\r\n") := by
  decide +kernel

end Verif.Props
