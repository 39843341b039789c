import Verif.Model.FileUpload
import Verif.Props.EndToEnd
/-!
# C148: files handed to the upload callback
-/
namespace Verif.Props
open Verif.Upload

/-! ## Specification -/

/-- The blocks are given to the callback one after the other, the state of the program going along; either all are accepted (U_OK), or
the last one is not. -/
inductive UserRun {σ : Type} (f : σ → Block → σ × Int) : σ → List Block → σ → Bool → Prop where
  | done (s : σ) : UserRun f s [] s true
  | ok (s s' s'' : σ) (b : Block) (bs : List Block) (r : Bool) (h : f s b = (s', 0)) :
      UserRun f s' bs s'' r → UserRun f s (b :: bs) s'' r
  | refused (s s' : σ) (b : Block) (c : Int) (h : f s b = (s', c)) (hc : c ≠ 0) : UserRun f s [b] s' false

/-- The blocks of the files among what was found in the body. -/
def fileBlocks : List Call → List Block
  | [] => []
  | c :: t => match c.filename with
    | some fn => ⟨c.key, fn, c.contentType, c.encoding, c.data, c.off, c.data.length⟩ :: fileBlocks t
    | none => fileBlocks t

/-- The parts of one field. -/
def fieldCalls (key : Bytes) : Nat → List Bytes → List Call
  | _, [] => []
  | off, c :: t => ⟨key, none, none, none, c, off⟩ :: fieldCalls key (off + c.length) t

/-- The parts of fields, as name, data and offset. -/
def partsOf (cs : List Call) : List (Bytes × Bytes × Nat) := cs.map (fun c => (c.key, c.data, c.off))

/-! ## Proofs -/

theorem iterate_named (cfg : Cfg) (m : PostMap) (key : Bytes) (fn : Option Bytes) (d : Bytes) (off : Nat) (h : key ≠ []) :
    (iterate cfg m key fn d off).1 = true := by
  have hk : key.isEmpty = false := by cases key <;> simp_all
  unfold iterate
  split
  · rfl
  split
  · rfl
  split
  · rfl
  dsimp only
  rw [if_neg (by simp [hk])]
  split
  · split <;> rfl
  · rfl

theorem postProcess_append {σ : Type} (cfg : Cfg) (cb : Option (σ → Block → σ × Int)) : ∀ (a b : List Call) (s : Conn σ),
    postProcess cfg cb s (a ++ b) = postProcess cfg cb (postProcess cfg cb s a) b
  | [], _, _ => rfl
  | c :: t, b, s => by
    rw [List.cons_append, postProcess, postProcess]
    by_cases e : s.error = true
    · rw [if_pos e, if_pos e]
      cases b with
      | nil => rfl
      | cons _ _ => rw [postProcess, if_pos e]
    · rw [if_neg e, if_neg e]
      exact postProcess_append cfg cb t b _

private theorem iterateCb_body {σ : Type} (cfg : Cfg) (cb : Option (σ → Block → σ × Int)) (s : Conn σ) (b : Bytes) (c : Call) :
    iterateCb cfg cb { s with body := b } c = { iterateCb cfg cb s c with body := b } := by
  unfold iterateCb
  split <;> rfl

private theorem postProcess_body {σ : Type} (cfg : Cfg) (cb : Option (σ → Block → σ × Int)) : ∀ (cs : List Call) (s : Conn σ) (b : Bytes),
    postProcess cfg cb { s with body := b } cs = { postProcess cfg cb s cs with body := b }
  | [], _, _ => rfl
  | c :: t, s, b => by
    rw [postProcess, postProcess]
    by_cases e : s.error = true
    · rw [if_pos e, if_pos e]
    · rw [if_neg e, if_neg e, iterateCb_body]
      exact postProcess_body cfg cb t _ b

theorem upload_eq {σ : Type} (cfg : Cfg) (max : Nat) (cb : Option (σ → Block → σ × Int)) :
    ∀ (us : List (Bytes × List Call)) (s : Conn σ) (b : Bytes), receive max s.body (us.map (·.1)) = .ok b →
    upload cfg max cb s us = .ok { postProcess cfg cb s (us.map (·.2)).flatten with body := b }
  | [], s, b, h => by
    simp only [List.map_nil, receive] at h
    cases h
    rfl
  | u :: t, s, b, h => by
    rw [List.map_cons, receive] at h
    rw [upload, part]
    cases hb : bodyChunk max s.body u.1 with
    | ub => rw [hb] at h; cases h
    | ok b1 =>
      rw [hb] at h
      simp only [Res.ok_bind, Res.pure_eq] at h ⊢
      rw [upload_eq cfg max cb t _ b (by rw [postProcess_body]; exact h)]
      rw [List.map_cons, List.flatten_cons, postProcess_append]
      have e1 := postProcess_body cfg cb u.2 s b1
      have e2 := postProcess_body cfg cb (t.map (·.2)).flatten (postProcess cfg cb s u.2) b1
      rw [e1, e2]

private theorem process_run {σ : Type} (cfg : Cfg) (f : σ → Block → σ × Int) : ∀ (cs : List Call) (s : Conn σ), s.error = false →
    (∀ c ∈ cs, c.filename = none → c.key ≠ []) →
    ∃ used rest r, cs = used ++ rest ∧ UserRun f s.user (fileBlocks used) (postProcess cfg (some f) s cs).user r ∧
      (postProcess cfg (some f) s cs).blocks = s.blocks ++ fileBlocks used ∧
      (postProcess cfg (some f) s cs).map = (used.filter (fun c => c.filename.isNone)).foldl
        (fun m c => (iterate { cfg with uploadCb := false } m c.key none c.data c.off).2) s.map ∧
      (r = true → rest = []) ∧ (r = false → ∃ c, used.getLast? = some c ∧ c.filename.isSome = true)
  | [], s, _, _ => ⟨[], [], true, rfl, .done _, by simp [postProcess, fileBlocks], rfl, fun _ => rfl, fun h => by cases h⟩
  | c :: t, s, he, hk => by
    have hk' : ∀ c ∈ t, c.filename = none → c.key ≠ [] := fun x hx => hk x (List.mem_cons_of_mem _ hx)
    rw [postProcess, if_neg (by simp [he])]
    cases hf : c.filename with
    | none =>
      have e : iterateCb cfg (some f) s c = { s with
          map := (iterate { cfg with uploadCb := false } s.map c.key none c.data c.off).2, error := false } := by
        unfold iterateCb
        rw [hf]
        simp only [iterate_named _ s.map c.key none c.data c.off (hk c (List.mem_cons_self ..) hf)]
        rfl
      rw [e]
      obtain ⟨used, rest, r, h1, h2, h3, h4, h5, h6⟩ := process_run cfg f t { s with
          map := (iterate { cfg with uploadCb := false } s.map c.key none c.data c.off).2, error := false } rfl hk'
      refine ⟨c :: used, rest, r, by rw [h1]; rfl, ?_, ?_, ?_, h5, ?_⟩
      · simpa only [fileBlocks, hf] using h2
      · simpa only [fileBlocks, hf] using h3
      · rw [List.filter_cons, if_pos (by rw [hf]; rfl), List.foldl_cons]
        exact h4
      · intro hr
        obtain ⟨x, hx, hxs⟩ := h6 hr
        refine ⟨x, ?_, hxs⟩
        rw [List.getLast?_cons, hx]
        rfl
    | some fn =>
      rcases hc : f s.user ⟨c.key, fn, c.contentType, c.encoding, c.data, c.off, c.data.length⟩ with ⟨s', code⟩
      have e : iterateCb cfg (some f) s c = { s with
          user := s', blocks := s.blocks ++ [⟨c.key, fn, c.contentType, c.encoding, c.data, c.off, c.data.length⟩],
          error := decide (code ≠ 0) } := by
        unfold iterateCb
        rw [hf]
        simp only [hc]
      rw [e]
      by_cases h0 : code = 0
      · subst h0
        obtain ⟨used, rest, r, h1, h2, h3, h4, h5, h6⟩ := process_run cfg f t { s with
          user := s', blocks := s.blocks ++ [⟨c.key, fn, c.contentType, c.encoding, c.data, c.off, c.data.length⟩],
          error := decide ((0 : Int) ≠ 0) } (by simp) hk'
        refine ⟨c :: used, rest, r, by rw [h1]; rfl, ?_, ?_, ?_, h5, ?_⟩
        · simp only [fileBlocks, hf]
          exact .ok _ _ _ _ _ _ hc h2
        · simp only [fileBlocks, hf]
          rw [h3, List.append_assoc]
          rfl
        · rw [List.filter_cons, if_neg (by simp [hf])]
          exact h4
        · intro hr
          obtain ⟨x, hx, hxs⟩ := h6 hr
          refine ⟨x, ?_, hxs⟩
          rw [List.getLast?_cons, hx]
          rfl
      · have stop : ∀ s2 : Conn σ, s2.error = true → postProcess cfg (some f) s2 t = s2 := by
          intro s2 h2
          cases t with
          | nil => rfl
          | cons _ _ => rw [postProcess, if_pos h2]
        rw [stop _ (by simp [h0])]
        refine ⟨[c], t, false, rfl, ?_, ?_, ?_, (fun h => by cases h), fun _ => ⟨c, rfl, by rw [hf]; rfl⟩⟩
        · simp only [fileBlocks, hf]
          exact .refused _ _ _ _ hc h0
        · simp only [fileBlocks, hf]
        · rw [List.filter_cons, if_neg (by simp [hf])]
          rfl

private theorem deliver_calls (cfg : Cfg) (key : Bytes) : ∀ (cs : List Bytes) (off : Nat) (m : PostMap),
    deliver cfg key none off cs m = (fieldCalls key off cs).foldl (fun m c => (iterate cfg m c.key none c.data c.off).2) m
  | [], _, _ => rfl
  | c :: t, off, m => by
    rw [deliver, deliver_calls cfg key t]
    rfl

private theorem form_calls (cfg : Cfg) : ∀ (got : List (Bytes × List Bytes)) (m : PostMap),
    got.foldl (fun m g => deliver cfg g.1 none 0 g.2 m) m =
      (got.map (fun g => fieldCalls g.1 0 g.2)).flatten.foldl (fun m c => (iterate cfg m c.key none c.data c.off).2) m
  | [], _ => rfl
  | g :: t, m => by
    rw [List.foldl_cons, form_calls cfg t, List.map_cons, List.flatten_cons, List.foldl_append, deliver_calls]

private theorem fold_parts (cfg : Cfg) : ∀ (a b : List Call) (m : PostMap), partsOf a = partsOf b →
    a.foldl (fun m c => (iterate cfg m c.key none c.data c.off).2) m =
    b.foldl (fun m c => (iterate cfg m c.key none c.data c.off).2) m
  | [], [], _, _ => rfl
  | [], _ :: _, _, h => by cases h
  | _ :: _, [], _, h => by cases h
  | x :: a, y :: b, m, h => by
    simp only [partsOf, List.map_cons, List.cons.injEq, Prod.mk.injEq] at h
    rw [List.foldl_cons, List.foldl_cons, h.1.1, h.1.2.1, h.1.2.2]
    exact fold_parts cfg a b _ h.2

/-- **C148, partial.** For every callback, every upload in parts and whatever libmicrohttpd finds in them, as long as no field is
nameless: there is a point up to which the form is read, the end or the first block the callback refused. Up to it, every block of
every file is handed to the callback once, in order, with its name, type, offset and size; the fields, and only they, are stored in
`map_post_body` as if no file had been sent. After it nothing is handed over or stored. The upload itself is taken to its end.
Missing: nameless fields, see `C148_nameless_false`; and the body keeps the files, see `C148_body_false`. -/
theorem C148_files_partial {σ : Type} (cfg : Cfg) (max : Nat) (f : σ → Block → σ × Int) (u0 : σ) (us : List (Bytes × List Call))
    (hm : max < 2 ^ 64) (hl : (us.map (·.1)).flatten.length < 2 ^ 64)
    (hk : ∀ u ∈ us, ∀ c ∈ u.2, c.filename = none → c.key ≠ []) :
    ∃ s used rest r, upload cfg max (some f) { user := u0 } us = .ok s ∧ (us.map (·.2)).flatten = used ++ rest ∧
      s.blocks = fileBlocks used ∧ UserRun f u0 (fileBlocks used) s.user r ∧
      (r = true → rest = []) ∧ (r = false → ∃ c, used.getLast? = some c ∧ c.filename.isSome = true) ∧
      ∀ got, partsOf (used.filter (fun c => c.filename.isNone)) = partsOf (got.map (fun g => fieldCalls g.1 0 g.2)).flatten →
        s.map = formOf { cfg with uploadCb := false } got := by
  have hr := C28_body max hm (us.map (·.1)) hl
  have hu := upload_eq cfg max (some f) us { user := u0 } _ hr
  obtain ⟨used, rest, r, h1, h2, h3, h4, h5, h6⟩ := process_run cfg f (us.map (·.2)).flatten { user := u0 } rfl (by
    intro c hc
    obtain ⟨l, hl, hcl⟩ := List.mem_flatten.1 hc
    obtain ⟨u, hu, rfl⟩ := List.mem_map.1 hl
    exact hk u hu c hcl)
  refine ⟨_, used, rest, r, hu, h1, ?_, h2, h5, h6, ?_⟩
  · rw [h3]
    rfl
  · intro got hg
    show (postProcess _ _ _ _).map = _
    rw [h4, fold_parts _ _ _ _ hg, ← form_calls]
    rfl

/-- **C148, setting the callback.** It is set, or the call is refused and nothing changes: in particular it cannot be removed. -/
theorem C148_set {α : Type} (i : Bool) (cur new : Option α) :
    (setCallback i cur new = (0, new) ∧ i = true ∧ new.isSome = true) ∨
    (setCallback i cur new = (3, cur) ∧ (i = false ∨ new = none)) := by
  cases i <;> cases new <;> simp [setCallback]

/-- A field without a name ends the reading of the form: the fields and files behind it are lost, with and without a callback, and
the callbacks of the endpoints are not told. -/
theorem C148_nameless_false (cfg : Cfg) (cb : Option (Nat → Block → Nat × Int)) (v : Bytes) (t : List Call) (hc : cfg.checkUtf8 = false) :
    (postProcess cfg cb { user := 0 } (⟨b!"", none, none, none, v, 0⟩ :: t)).map = [] ∧
    (postProcess cfg cb { user := 0 } (⟨b!"", none, none, none, v, 0⟩ :: t)).blocks = [] := by
  have h : iterateCb cfg cb { user := 0 } ⟨b!"", none, none, none, v, 0⟩ = { user := 0, error := true } := by
    unfold iterateCb
    cases cb <;> simp [iterate, hc, withName]
  rw [postProcess, if_neg (by simp), h]
  cases t with
  | nil => exact ⟨rfl, rfl⟩
  | cons c t => rw [postProcess, if_pos rfl]; exact ⟨rfl, rfl⟩

/-- The documentation says that uploaded files are "no longer available in the struct _u_request" once a callback is set: whatever
the callback does, even when it refuses, `binary_body` holds all that was uploaded up to `max_post_body_size`. -/
theorem C148_body_false {σ : Type} (cfg : Cfg) (max : Nat) (f : σ → Block → σ × Int) (u0 : σ) (us : List (Bytes × List Call))
    (hm : max < 2 ^ 64) (hl : (us.map (·.1)).flatten.length < 2 ^ 64) :
    ∃ s, upload cfg max (some f) { user := u0 } us = .ok s ∧
      s.body = if max = 0 then (us.map (·.1)).flatten else (us.map (·.1)).flatten.take max :=
  ⟨_, upload_eq cfg max (some f) us { user := u0 } _ (C28_body max hm (us.map (·.1)) hl), rfl⟩

/-- A callback that writes at most four bytes. -/
private def small (n : Nat) (b : Block) : Nat × Int := if n + b.size ≤ 4 then (n + b.size, 0) else (n, 1)

private def demo : List (Bytes × List Call) :=
  [(b!"...", [⟨b!"a", none, none, none, b!"1", 0⟩, ⟨b!"f", some b!"x.txt", none, none, b!"ab", 0⟩]),
   (b!"...", [⟨b!"f", some b!"x.txt", none, none, b!"cd", 2⟩, ⟨b!"b", none, none, none, b!"2", 0⟩,
     ⟨b!"f", some b!"x.txt", none, none, b!"e", 4⟩]),
   (b!"...", [⟨b!"c", none, none, none, b!"3", 0⟩])]

example : (∀ u ∈ demo, ∀ c ∈ u.2, c.filename = none → c.key ≠ []) ∧
    (match upload ⟨true, 0, true⟩ 0 (some small) { user := 0 } demo with
      | .ok s => (s.map, s.blocks.map (fun b => (b.data, b.off)), s.user, s.body)
      | .ub => ([], [], 0, [])) =
    ([(b!"a", b!"1"), (b!"b", b!"2")], [(b!"ab", 0), (b!"cd", 2), (b!"e", 4)], 4, b!".........") := by
  decide +kernel

end Verif.Props
