import Verif.Model.OomCompress
import Verif.Props.Compress
/-!
# C199: the compression callback when memory runs out

Full statement: whatever allocation fails, the callback answers `U_CALLBACK_ERROR`, or the client reads from the response the body that was set before;
and nothing stays allocated.

False of the code in three ways: without memory for the compressed body the response says it is compressed and has no body (`C199_body_false`); without
memory for the header the body is compressed and nothing says so (`C199_header_false`); without memory to enlarge the buffer what was compressed so far
is lost (`C199_leak_false`).
-/
namespace Verif.Props
open Verif.UMap Verif.Message Verif.Handshake
open Verif.Compress (Zlib Mode Config block modeName input)
open Verif.Spec.Client Verif.Spec.Handshake Verif.Spec.Coding Verif.Spec.Segments

namespace OomCompressHelp

/-- zlib, failing also when there is no memory for what it delivers -/
def tight (Z : Zlib) (grow : Nat → Bool) : Zlib := { Z with fails := fun m x n => Z.fails m x n || !grow n }

theorem loop_eq (grow fails : Nat → Bool) : ∀ (n turn : Nat) (pending out : Bytes), pending.length = n →
    (OomCompress.loop grow fails turn pending out).1 = Compress.loop (fun n => fails n || !grow n) turn pending out ∧
    ((∀ n, grow n = true) → (OomCompress.loop grow fails turn pending out).2 = 0) ∧
    ((OomCompress.loop grow fails turn pending out).1 ≠ none → (OomCompress.loop grow fails turn pending out).2 = 0) ∧
    (OomCompress.loop grow fails turn pending out).2 ≤ 1 := by
  intro n
  induction n using Nat.strongRecOn with
  | ind n ih =>
    intro turn pending out hn
    rw [OomCompress.loop, Compress.loop]
    cases hg : grow turn with
    | false =>
      simp only [Bool.not_false, Bool.or_true, if_true]
      refine ⟨rfl, fun h => ?_, fun h => absurd rfl h, ?_⟩
      · rw [h] at hg; cases hg
      · show (if turn = 0 then 0 else 1) ≤ 1
        split <;> omega
    | true =>
      simp only [if_true, Bool.not_true, Bool.or_false]
      cases fails turn with
      | true => exact ⟨rfl, fun _ => rfl, fun _ => rfl, Nat.zero_le _⟩
      | false =>
        simp only [Bool.false_eq_true, if_false, List.length_take]
        by_cases h : block - min block pending.length = 0
        · rw [if_pos h, if_pos h]
          have hb : 0 < block := by simp [block]
          exact ih (pending.drop block).length (by rw [List.length_drop]; omega) _ _ _ rfl
        · rw [if_neg h, if_neg h]
          exact ⟨rfl, fun _ => rfl, fun _ => rfl, Nat.zero_le _⟩

/-- what the callback does without memory, as far as it is done otherwise too -/
def Same (a : Res (Int × Response × Nat)) (b : Res (Int × Response)) (all : Prop) : Prop :=
  (a = .ub ∧ b = .ub) ∨ ∃ c r k, a = .ok (c, r, k) ∧ b = .ok (c, r) ∧ (all → k = 0) ∧ (c ≠ 4 → k = 0) ∧ k ≤ 1

theorem same_ok (c : Int) (r : Response) (all : Prop) : Same (.ok (c, r, 0)) (.ok (c, r)) all :=
  .inr ⟨c, r, 0, rfl, rfl, fun _ => rfl, fun _ => rfl, Nat.zero_le _⟩

theorem compress_same (Z : Zlib) (mem : OomCompress.Mem) (hb : mem.body = true) (hh : mem.header = none) (m : Mode) (r : Response) :
    Same (OomCompress.compress Z mem m r) (Compress.compress (tight Z mem.grow) m r) (∀ n, mem.grow n = true) := by
  unfold OomCompress.compress Compress.compress
  have hi : (tight Z mem.grow).init m = Z.init m := rfl
  rw [hi]
  by_cases h0 : Z.init m = true
  case neg => rw [if_neg h0, if_neg h0]; exact same_ok _ _ _
  rw [if_pos h0, if_pos h0]
  cases input r with
  | ub => exact .inl ⟨rfl, rfl⟩
  | ok x =>
    rw [Res.ok_bind, Res.ok_bind]
    obtain ⟨h1, h2, h3, h4⟩ := loop_eq mem.grow (Z.fails m x) _ 0 (Z.all m x) [] rfl
    show Same _ (match Compress.loop (fun n => Z.fails m x n || !mem.grow n) 0 (Z.all m x) [] with
      | none => _
      | some z => _) _
    rw [← h1]
    generalize OomCompress.loop mem.grow (Z.fails m x) 0 (Z.all m x) [] = l at h1 h2 h3 h4
    obtain ⟨z, k⟩ := l
    cases z with
    | none => exact .inr ⟨_, _, k, rfl, rfl, h2, fun h => absurd rfl h, h4⟩
    | some z =>
      have hk : k = 0 := h3 (by simp)
      subst hk
      simp only [OomCompress.setBody, hb, hh, if_true]
      cases setBinaryBody r r.status (some z) z.length with
      | ub => exact .inl ⟨rfl, rfl⟩
      | ok q =>
        obtain ⟨rc, r1⟩ := q
        simp only [Res.ok_bind]
        cases hp : UMap.put r1.header (some b!"Content-Encoding") (some (modeName m)) with
        | ub => exact .inl ⟨by simp [hp, bind, pure, Res.bind], by simp [bind, Res.bind]⟩
        | ok w =>
          obtain ⟨rc2, h⟩ := w
          refine .inr ⟨_, _, 0, ?_, rfl, fun _ => rfl, fun _ => rfl, Nat.zero_le _⟩
          simp [hp, bind, pure, Res.bind]

theorem callback_same (Z : Zlib) (mem : OomCompress.Mem) (hs : mem.split = true) (hb : mem.body = true) (hh : mem.header = none) (cfg : Option Config)
    (header : UMap) (r : Response) :
    Same (OomCompress.callback Z mem cfg header r) (Compress.callback (tight Z mem.grow) cfg header r) (∀ n, mem.grow n = true) := by
  unfold OomCompress.callback Compress.callback
  by_cases h0 : r.bodyLen = 0
  · rw [if_pos h0, if_pos h0]; exact same_ok _ _ _
  rw [if_neg h0, if_neg h0]
  cases countKeysCase header (some b!"Accept-Encoding") with
  | ub => exact .inl ⟨rfl, rfl⟩
  | ok n =>
    rw [Res.ok_bind, Res.ok_bind]
    by_cases hn : n = 1
    case neg => rw [if_neg hn, if_neg hn]; exact same_ok _ _ _
    rw [if_pos hn, if_pos hn]
    cases getCase header (some b!"Accept-Encoding") with
    | ub => exact .inl ⟨rfl, rfl⟩
    | ok g =>
      rw [Res.ok_bind, Res.ok_bind]
      cases g with
      | none => exact same_ok _ _ _
      | some b =>
        dsimp only
        cases readStr b with
        | ub => exact .inl ⟨rfl, rfl⟩
        | ok v =>
          rw [Res.ok_bind, Res.ok_bind, if_pos hs]
          cases Compress.choose cfg (splitString 0x2c v) with
          | none => exact same_ok _ _ _
          | some m => exact compress_same Z mem hb hh m r

theorem callback_unsplit (Z : Zlib) (mem : OomCompress.Mem) (hs : mem.split = false) (cfg : Option Config) (header : UMap) (qs : List (Bytes × Option Bytes))
    (hq : HoldsParams header qs) (r : Response) : OomCompress.callback Z mem cfg header r = .ok (1, r, 0) := by
  unfold OomCompress.callback
  by_cases h0 : r.bodyLen = 0
  · rw [if_pos h0]; rfl
  rw [if_neg h0]
  obtain ⟨c1, c2⟩ := holds_case hq b!"Accept-Encoding"
  rw [c1, Res.ok_bind]
  by_cases hn : qs.countP (fun p => eqCase p.1 b!"Accept-Encoding") = 1
  case neg => rw [if_neg hn]; rfl
  rw [if_pos hn]
  cases hf : qs.find? (fun p => eqCase p.1 b!"Accept-Encoding") with
  | none =>
    rw [List.find?_eq_none] at hf
    rw [List.countP_eq_zero.2 (by simpa using hf)] at hn
    cases hn
  | some p =>
    rw [hf] at c2
    obtain ⟨b, g1, g2⟩ := c2
    rw [g1, Res.ok_bind]
    simp only [g2, Res.ok_bind, hs]
    rfl

end OomCompressHelp

open OomCompressHelp

/-- **C199** (partial): for the requests and responses of C131, when memory for the compressed body and for the header is there. Whatever else fails, the
client reads the body that was set before, also after an error; the response then is as it was. A buffer can be lost only when it could not be enlarged.
When nothing fails nothing changes. -/
theorem C199_memory_partial (Z : Zlib) (undo : Bytes → Bytes → Option Bytes) (mem : OomCompress.Mem) (hb : mem.body = true) (hh : mem.header = none)
    (cfg : Option Config) (header : UMap) (r : Response) (qs hs : List (Bytes × Option Bytes)) (cs : List Bytes) (body : Bytes)
    (hz : LosslessZlib Z undo) (hq : HoldsParams header qs) (hr : HoldsResp r hs cs body)
    (hl : r.bodyLen = body.length) (h32 : body.length < 2 ^ 32) (hc : Absent hs b!"Content-Encoding") :
    ∃ code r' lost hs' body', OomCompress.callback Z mem cfg header r = .ok (code, r', lost) ∧
      HoldsResp r' hs' cs body' ∧ r'.bodyLen = body'.length ∧ r' = { r with header := r'.header, body := r'.body, bodyLen := r'.bodyLen } ∧
      readBody undo hs' body' = some body ∧ (code = 1 ∨ code = 4 ∧ r' = r) ∧ lost ≤ 1 ∧ (code = 1 → lost = 0) ∧
      ((∀ n, mem.grow n = true) → lost = 0) ∧
      (mem.split = true → (∀ n, mem.grow n = true) → Compress.callback Z cfg header r = .ok (code, r')) := by
  cases hs' : mem.split with
  | false =>
    refine ⟨1, r, 0, hs, body, callback_unsplit Z mem hs' cfg header qs hq r, hr, hl, rfl, ?_, .inl rfl, by omega, fun _ => rfl, fun _ => rfl,
      fun h => by cases h⟩
    unfold readBody
    rw [codings_absent hc]
    rfl
  | true =>
    obtain ⟨code, r', hs1, body', h1, h2, h3, h4, h5, h6⟩ := C131_compression_partial (tight Z mem.grow) undo cfg header r qs hs cs body hz hq hr hl h32 hc
    rcases callback_same Z mem hs' hb hh cfg header r with ⟨_, h⟩ | ⟨c, q, k, e1, e2, e3, e4, e5⟩
    · rw [h] at h1; cases h1
    · rw [e2] at h1
      injection h1 with h1
      injection h1 with ha hb'
      subst ha hb'
      refine ⟨c, q, k, hs1, body', e1, h2, h3, h4, h5, ?_, e5, fun h => e4 (by rw [h]; decide), e3, ?_⟩
      · rcases h6 with h | h | h
        · exact .inl h.1
        · exact .inr ⟨h.1, h.2.1⟩
        · exact .inl h.1
      · intro _ hg
        have : tight Z mem.grow = Z := by
          unfold tight
          simp [hg]
        rw [this] at e2
        exact e2

namespace OomCompressHelp

/-- a request that accepts gzip -/
def gzipOnly : UMap := match UMap.put UMap.init (some b!"Accept-Encoding") (some b!"gzip") with
  | .ok (_, m) => m
  | .ub => UMap.init

theorem gzipOnly_holds : HoldsParams gzipOnly [(b!"Accept-Encoding", some b!"gzip")] := by
  obtain ⟨m, h1, h2⟩ := holds_put holds_init b!"Accept-Encoding" (some b!"gzip") (by decide) (by decide)
    (by intro x hx; cases hx; exact ⟨by decide, by decide⟩)
  have : gzipOnly = m := by
    unfold gzipOnly
    rw [h1]
  rw [this]
  exact h2

theorem callback_gzip (Z : Zlib) (mem : OomCompress.Mem) (hs : mem.split = true) (r : Response) (h0 : r.bodyLen ≠ 0) :
    OomCompress.callback Z mem none gzipOnly r = OomCompress.compress Z mem .gzip r := by
  unfold OomCompress.callback
  have h1 : UMap.countKeysCase gzipOnly (some b!"Accept-Encoding") = .ok 1 := by decide +kernel
  have h2 : UMap.getCase gzipOnly (some b!"Accept-Encoding") = .ok (some (strBuf b!"gzip" ++ [some 0])) := by decide +kernel
  have h3 : readStr (strBuf b!"gzip" ++ [some 0]) = .ok b!"gzip" := by decide +kernel
  have h4 : Compress.choose none (splitString 0x2c b!"gzip") = some .gzip := by
    rw [Handshake.splitString_eq]
    decide +kernel
  rw [if_neg h0, h1, Res.ok_bind, if_pos rfl, h2, Res.ok_bind]
  dsimp only
  rw [h3, Res.ok_bind, if_pos hs, h4]

theorem loop_small (turn : Nat) (p out : Bytes) (h : p.length < block) :
    OomCompress.loop (fun _ => true) (fun _ => false) turn p out = (some (out ++ p), 0) := by
  rw [OomCompress.loop]
  simp only [if_true, Bool.false_eq_true, if_false, List.length_take]
  rw [if_neg (by omega), List.take_of_length_le (by omega)]

end OomCompressHelp

/-- The body of the response before. -/
private def abc : Response := { body := some b!"abc", bodyLen := 3 }

/-- It fails when there is no memory for the compressed body: the callback answers as if all went well, the response is said to be gzip and has no
body. -/
theorem C199_body_false : ∃ r', OomCompress.callback toyZlib { body := false } none gzipOnly abc = .ok (1, r', 0) ∧ HoldsResp abc [] [] b!"abc" ∧
    r'.status = 200 ∧ bodyOf r'.body r'.bodyLen = [] ∧ HoldsParams r'.header [(b!"Content-Encoding", some b!"gzip")] ∧
    readBody toyUndo [(b!"Content-Encoding", some b!"gzip")] [] = none := by
  rw [callback_gzip _ _ rfl _ (by decide)]
  unfold OomCompress.compress
  rw [if_pos (show toyZlib.init .gzip = true from rfl)]
  have h1 : input abc = .ok b!"abc" := by decide
  rw [h1, Res.ok_bind]
  have h2 : OomCompress.loop (fun _ => true) (toyZlib.fails .gzip b!"abc") 0 (toyZlib.all .gzip b!"abc") [] = (some (0x1f :: b!"abc"), 0) :=
    loop_small 0 _ _ (by decide)
  simp only [h2]
  obtain ⟨m, h3, h4⟩ := holds_put holds_init b!"Content-Encoding" (some b!"gzip") (by decide) (by decide)
    (by intro x hx; cases hx; exact ⟨by decide, by decide⟩)
  refine ⟨{ abc with body := none, bodyLen := 0, header := m }, ?_, ⟨holds_init, rfl, by decide, by simp [abc]⟩, rfl, rfl, h4,
    by decide +kernel⟩
  show (do
    let (_, h) ← UMap.put UMap.init (some b!"Content-Encoding") (some b!"gzip")
    return ((1 : Int), { abc with body := none, bodyLen := 0, header := h }, 0)) = _
  rw [h3]
  rfl

/-- It fails when there is no memory for the header: the callback answers as if all went well, and the client takes the compressed body for the page. -/
theorem C199_header_false : ∃ r', OomCompress.callback toyZlib { header := some 0 } none gzipOnly abc = .ok (1, r', 0) ∧ HoldsResp abc [] [] b!"abc" ∧
    HoldsResp r' [] [] (0x1f :: b!"abc") ∧ readBody toyUndo [] (0x1f :: b!"abc") ≠ some b!"abc" := by
  rw [callback_gzip _ _ rfl _ (by decide)]
  unfold OomCompress.compress
  rw [if_pos (show toyZlib.init .gzip = true from rfl)]
  have h1 : input abc = .ok b!"abc" := by decide
  rw [h1, Res.ok_bind]
  have h2 : OomCompress.loop (fun _ => true) (toyZlib.fails .gzip b!"abc") 0 (toyZlib.all .gzip b!"abc") [] = (some (0x1f :: b!"abc"), 0) :=
    loop_small 0 _ _ (by decide)
  simp only [h2]
  exact ⟨{ abc with body := some (0x1f :: b!"abc"), bodyLen := 4 }, by decide +kernel, ⟨holds_init, rfl, by decide, by simp [abc]⟩,
    ⟨holds_init, rfl, by decide +kernel, by intro b hb; injection hb with hb; subst hb; decide⟩, by decide +kernel⟩

/-- It fails when the buffer cannot be enlarged: what was compressed so far stays allocated. -/
theorem C199_leak_false : OomCompress.callback toyZlib { grow := fun n => n == 0 } none gzipOnly
      { body := some (List.replicate 300 0x61), bodyLen := 300 } =
    .ok (4, { body := some (List.replicate 300 0x61), bodyLen := 300 }, 1) := by
  rw [callback_gzip _ _ rfl _ (by decide)]
  unfold OomCompress.compress
  rw [if_pos (show toyZlib.init .gzip = true from rfl)]
  have h1 : input { body := some (List.replicate 300 0x61), bodyLen := 300 } = .ok (List.replicate 300 0x61) := by decide +kernel
  rw [h1, Res.ok_bind]
  have h2 : OomCompress.loop (fun n => n == 0) (toyZlib.fails .gzip (List.replicate 300 0x61)) 0 (toyZlib.all .gzip (List.replicate 300 0x61)) [] =
      (none, 1) := by
    have h3 : OomCompress.loop (fun n => n == 0) (toyZlib.fails .gzip (List.replicate 300 0x61)) (0 + 1)
        ((toyZlib.all .gzip (List.replicate 300 0x61)).drop block) ([] ++ (toyZlib.all .gzip (List.replicate 300 0x61)).take block) = (none, 1) := by
      rw [OomCompress.loop]
      rfl
    rw [OomCompress.loop]
    dsimp only
    rw [h3]
    decide +kernel
  simp only [h2]
  rfl

example : LosslessZlib toyZlib toyUndo ∧ HoldsParams gzipOnly [(b!"Accept-Encoding", some b!"gzip")] ∧ HoldsResp abc [] [] b!"abc" ∧
    Absent [] b!"Content-Encoding" :=
  ⟨fun _ _ => ⟨rfl, by simp [toyZlib]⟩, gzipOnly_holds, ⟨holds_init, rfl, by decide, by simp [abc]⟩, by simp [Absent]⟩

end Verif.Props
