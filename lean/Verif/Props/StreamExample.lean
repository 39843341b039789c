import Verif.Model.StreamExample
import Verif.Props.Answer
import Verif.Lemmas.Endpoint
import Verif.Lemmas.Holds
/-!
# C172: the stream example sends its streams

Full statement: GET /stream is answered 200 with a text that is the same whatever buffers libmicrohttpd offers; GET /stream/audio is answered 200 with the
bytes of the file, or with an error status when the file cannot be served; everything else with 404. False: the text depends on the buffers when they are
small (`C172_buffer_false`), buffers of one byte never end (`C172_stuck_false`); what is not a regular file is answered 200 and empty
(`C172_directory_false`); a file that changes is sent mixed (`C172_changed_false`) or never completely (`C172_shrunk_false`).
-/
namespace Verif.Props
open Verif.UMap Verif.Message Verif.Answer Verif.StreamExample
open Verif.Endpoint (Endpoint EndpointMatch matchLoop slashWords formatMatch splitUrl sel)
open Verif.Spec.Segments (segments)
open Verif.Spec.Stream
open Verif.Website (Disk Node)

/-! ## Specification -/

/-- The text of the stream. -/
def streamText : Bytes :=
  b!"stream test 0\nstream test 14\nstream test 29\nstream test 44\nstream test 59\nstream test 74\nstream test 89\n"

private def cors : Field := (b!"Access-Control-Allow-Origin", b!"*")

/-! ## The readers -/

private def part (k : Nat) : Bytes :=
  [b!"stream test 0\n", b!"stream test 14\n", b!"stream test 29\n", b!"stream test 44\n", b!"stream test 59\n", b!"stream test 74\n",
    b!"stream test 89\n"].take k |>.flatten

private theorem part_step (max : Nat) (h : 17 ≤ max) (k : Nat) (hk : k < 7) :
    ∃ d, streamData b!"stream test" () (part k).length max = (.data d, ()) ∧ part k ++ d = part (k + 1) := by
  have go : ∀ pos, pos ≤ 100 → ∀ d : Bytes, d ≠ [] → b!"stream test" ++ b!" " ++ Printf.decimal pos ++ b!"\n" = d → d.length ≤ 16 →
      streamData b!"stream test" () pos max = (.data d, ()) := by
    intro pos hp d hd e hl
    unfold streamData
    rw [if_pos hp, e, List.take_of_length_le (by omega)]
    cases d with
    | nil => exact absurd rfl hd
    | cons _ _ => rfl
  match k, hk with
  | 0, _ => exact ⟨b!"stream test 0\n", go _ (by decide) _ (by decide) (by decide) (by decide), by decide⟩
  | 1, _ => exact ⟨b!"stream test 14\n", go _ (by decide) _ (by decide) (by decide) (by decide), by decide⟩
  | 2, _ => exact ⟨b!"stream test 29\n", go _ (by decide) _ (by decide) (by decide) (by decide), by decide⟩
  | 3, _ => exact ⟨b!"stream test 44\n", go _ (by decide) _ (by decide) (by decide) (by decide), by decide⟩
  | 4, _ => exact ⟨b!"stream test 59\n", go _ (by decide) _ (by decide) (by decide) (by decide), by decide⟩
  | 5, _ => exact ⟨b!"stream test 74\n", go _ (by decide) _ (by decide) (by decide) (by decide), by decide⟩
  | 6, _ => exact ⟨b!"stream test 89\n", go _ (by decide) _ (by decide) (by decide) (by decide), by decide⟩

private theorem part_end (max : Nat) : streamData b!"stream test" () (part 7).length max = (.theEnd, ()) := by
  unfold streamData
  rw [if_neg (by decide)]

/-- **C172, the text.** Whatever buffers of at least 17 bytes libmicrohttpd offers, the body of the stream is the text with the seven positions, and it is brought
to its end. Missing: smaller buffers, see `C172_buffer_false` and `C172_stuck_false`. -/
theorem C172_text_partial (block : Nat) (hb : 17 ≤ block) (out : Bytes) :
    CompletesIn (17 ≤ ·) (streamData b!"stream test") none block () [] out ↔ out = streamText := by
  have h7 : part 7 = streamText := by decide
  constructor
  · intro h
    have key : ∀ (st : Unit) (sent out : Bytes), CompletesIn (17 ≤ ·) (streamData b!"stream test") none block st sent out →
        (∃ k ≤ 7, sent = part k) → out = part 7 := by
      intro st sent out h
      induction h with
      | full h => cases h
      | @more st st' sent out d max h1 h2 h3 _ _ _ ih =>
        rintro ⟨k, hk, rfl⟩
        rcases Nat.lt_or_eq_of_le hk with hk | rfl
        · obtain ⟨d', e1, e2⟩ := part_step max h2 k hk
          rw [e1] at h3
          injection h3 with h3
          injection h3 with h3
          exact ih ⟨k + 1, hk, by rw [← h3, e2]⟩
        · rw [part_end] at h3
          cases h3
      | wait _ _ _ _ ih => exact ih
      | @theEnd st st' sent max _ _ h2 h3 =>
        rintro ⟨k, hk, rfl⟩
        rcases Nat.lt_or_eq_of_le hk with hk | rfl
        · obtain ⟨d', e1, e2⟩ := part_step max h2 k hk
          rw [e1] at h3
          cases h3
        · rfl
    rw [← h7]
    exact key _ _ _ h ⟨0, by omega, rfl⟩
  · rintro rfl
    rw [← h7]
    have go : ∀ n k, k + n = 7 → CompletesIn (17 ≤ ·) (streamData b!"stream test") none block () (part k) (part 7) := by
      intro n
      induction n with
      | zero =>
        intro k hk
        have : k = 7 := by omega
        subst this
        exact .theEnd (max := 17) rfl ⟨by omega, hb, fun s h => by cases h⟩ (Nat.le_refl _) (part_end 17)
      | succ n ih =>
        intro k hk
        obtain ⟨d, e1, e2⟩ := part_step 17 (Nat.le_refl _) k (by omega)
        have hd : d ≠ [] ∧ d.length ≤ 17 := by
          unfold streamData at e1
          split at e1
          · split at e1
            · cases e1
            · rename_i b hne
              injection e1 with e1
              injection e1 with e1
              subst e1
              refine ⟨hne, ?_⟩
              exact Nat.le_trans (List.length_take_le _ _) (by omega)
          · cases e1
        exact .more ⟨by omega, hb, fun s h => by cases h⟩ (Nat.le_refl _) e1 hd.1 hd.2 (by rw [e2]; exact ih (k + 1) (by omega))
    exact go 7 0 rfl

/-- **C172 is false of the code**: with buffers of five bytes another text arrives, because the reader writes the line anew at each position. -/
theorem C172_buffer_false : ∃ out, CompletesIn (· = 5) (streamData b!"stream test") none 32768 () [] out ∧ out ≠ streamText ∧ out.take 8 = b!"strestre" := by
  have go : ∀ n k, k + n = 26 → CompletesIn (· = 5) (streamData b!"stream test") none 32768 () (List.replicate k b!"stre").flatten
      (List.replicate 26 b!"stre").flatten := by
    intro n
    induction n with
    | zero =>
      intro k hk
      have : k = 26 := by omega
      subst this
      exact .theEnd (max := 5) rfl ⟨by omega, by omega, fun s h => by cases h⟩ rfl rfl
    | succ n ih =>
      intro k hk
      have hl : (List.replicate k b!"stre").flatten.length = 4 * k := by
        rw [List.length_flatten, List.map_replicate, List.sum_replicate_nat]
        show k * 4 = _
        omega
      refine .more (max := 5) (d := b!"stre") (st' := ()) ⟨by omega, by omega, fun s h => by cases h⟩ rfl ?_ (by decide) (by decide) ?_
      · unfold streamData
        rw [if_pos (by omega)]
        rfl
      · have : (List.replicate k b!"stre").flatten ++ b!"stre" = (List.replicate (k + 1) b!"stre").flatten := by
          rw [List.replicate_succ', List.flatten_append]
          rfl
        rw [this]
        exact ih (k + 1) (by omega)
  exact ⟨_, go 26 0 rfl, by decide, by decide⟩

/-- **C172 is false of the code**: with buffers of one byte, which only take the NUL of `snprintf`, the stream never ends. -/
theorem C172_stuck_false (block : Nat) (out : Bytes) : ¬ CompletesIn (· = 1) (streamData b!"stream test") none block () [] out := by
  have hrd : ∀ max, max = 1 → streamData b!"stream test" () 0 max = (.notYet, ()) := by
    intro max h
    subst h
    rfl
  have key : ∀ (st : Unit) (sent out : Bytes), CompletesIn (· = 1) (streamData b!"stream test") none block st sent out → sent = [] → False := by
    intro st sent out h
    induction h with
    | full h => cases h
    | more _ h2 h3 _ _ _ _ =>
      rintro rfl
      rw [show ([] : Bytes).length = 0 from rfl, hrd _ h2] at h3
      cases h3
    | wait _ _ _ _ ih => exact ih
    | theEnd _ _ h2 h3 =>
      rintro rfl
      rw [show ([] : Bytes).length = 0 from rfl, hrd _ h2] at h3
      cases h3
  exact fun h => key _ _ _ h rfl

/-- **C172, the file.** Whatever buffers libmicrohttpd offers: while the first bytes of the file, as many as it had when it was opened, stay the same, the body is
these bytes, and it is brought to its end. What is appended meanwhile is not sent. Missing: files that change, see `C172_changed_false` and
`C172_shrunk_false`. -/
theorem C172_file_partial (content : Nat → Bytes) (c : Bytes) (hc : ∀ t, (content t).take c.length = c) (block : Nat) (hb : 0 < block) (out : Bytes) :
    Completes (audioFile content) (some c.length) block 0 [] out ↔ out = c := by
  have hread : ∀ t pos max, pos + max ≤ c.length → ((content t).drop pos).take max = (c.drop pos).take max := by
    intro t pos max h
    have h1 : (c.drop pos).take max = (((content t).take c.length).drop pos).take max := by rw [hc t]
    rw [h1, List.drop_take, List.take_take, Nat.min_eq_left (by omega)]
  constructor
  · intro h
    have key : ∀ (st : Nat) (sent out : Bytes), Completes (audioFile content) (some c.length) block st sent out →
        sent = c.take sent.length → out = c := by
      intro st sent out h
      induction h with
      | full hf =>
        intro hs
        injection hf with hf
        rw [hs, ← hf, List.take_of_length_le (Nat.le_refl _)]
      | @more st0 st' sent out d max hr hrd hne hle _ ih =>
        intro hs
        simp only [audioFile] at hrd
        rw [hread _ _ _ (hr.2.2 _ rfl)] at hrd
        cases hp : (c.drop sent.length).take max with
        | nil => rw [hp] at hrd; cases hrd
        | cons x t =>
          rw [hp] at hrd
          simp only [Prod.mk.injEq, Piece.data.injEq] at hrd
          refine ih ?_
          rw [List.length_append, List.take_add, ← hs]
          congr 1
          rw [hrd.1] at hp
          exact List.prefix_iff_eq_take.1 (hp ▸ List.take_prefix _ _)
      | wait _ _ _ ih => exact ih
      | theEnd h => cases h
    exact key _ _ _ h rfl
  · rintro rfl
    have go : ∀ (n k : Nat), out.length - k = n → k ≤ out.length → ∀ t,
        Completes (audioFile content) (some out.length) block t (out.take k) out := by
      intro n
      induction n with
      | zero =>
        intro k hn hk t
        have : k = out.length := by omega
        subst this
        rw [List.take_of_length_le (Nat.le_refl _)]
        exact .full rfl
      | succ n ih =>
        intro k hn hk t
        have hl : (out.take k).length = k := by rw [List.length_take]; omega
        have hlt : k < out.length := by omega
        have hp : (out.drop k).take 1 = [out[k]] := by
          rw [List.drop_eq_getElem_cons hlt]; rfl
        have hnext : out.take k ++ [out[k]] = out.take (k + 1) := by
          rw [List.take_succ_eq_append_getElem hlt]
        refine .more (d := [out[k]]) (max := 1) (st' := t + 1) ⟨by omega, hb, ?_⟩ ?_ (by simp) (by simp) ?_
        · intro s hs
          injection hs with hs
          omega
        · rw [hl]
          simp only [audioFile]
          rw [hread _ _ _ (by omega), hp]
        · rw [hnext]
          exact ih (k + 1) (by omega) (by omega) (t + 1)
    exact go out.length 0 (by omega) (by omega) 0

example : ∃ content : Nat → Bytes, (∀ t, (content t).take 3 = b!"abc") ∧ content 0 ≠ content 1 :=
  ⟨fun t => b!"abc" ++ List.replicate t 0x64, fun t => rfl, by decide⟩

/-- **C172 is false of the code**: a file that is written while it is sent arrives as a mixture of both contents. -/
theorem C172_changed_false : Completes (audioFile (fun t => if t = 0 then b!"ab" else b!"cd")) (some 2) 32768 0 [] b!"ad" :=
  .more (d := b!"a") (max := 1) (st' := 1) ⟨by omega, by omega, by intro s h; cases h; decide⟩ rfl (by decide) (by decide)
    (.more (d := b!"d") (max := 1) (st' := 2) ⟨by omega, by omega, by intro s h; cases h; decide⟩ rfl (by decide) (by decide) (.full rfl))

/-- **C172 is false of the code**: a file that is emptied after it was opened is never sent to its end; the client waits. -/
theorem C172_shrunk_false (n : Nat) (hn : 0 < n) (block : Nat) (out : Bytes) : ¬ Completes (audioFile (fun _ => [])) (some n) block 0 [] out := by
  have hrd : ∀ t pos max, audioFile (fun _ => []) t pos max = (.notYet, t + 1) := by
    intro t pos max
    simp [audioFile]
  have key : ∀ (st : Nat) (sent out : Bytes), Completes (audioFile (fun _ => [])) (some n) block st sent out → sent = [] → False := by
    intro st sent out h
    induction h with
    | full hf =>
      rintro rfl
      injection hf with hf
      simp at hf
      omega
    | more _ h3 _ _ _ _ =>
      rw [hrd] at h3
      cases h3
    | wait _ _ _ ih => exact ih
    | theEnd h => cases h
  exact fun h => key _ _ _ h rfl

/-! ## The answers -/

private abbrev e0 : Endpoint := ⟨some b!"GET", some b!"/stream", none, 0, some 0, 0⟩
private abbrev e1 : Endpoint := ⟨some b!"GET", some b!"/stream", some b!"/audio", 0, some 1, 0⟩

private def one (b : Bool) (e : Endpoint) : List Endpoint := if b then [e] else []

private theorem loop_eq (method url : Bytes) {ws : List Bytes} (hw : segments url = ws) :
    matchLoop method (slashWords url) endpoints = .ok (
      one (eqCase b!"GET" method && formatMatch ws [b!"stream"]) e0 ++ one (eqCase b!"GET" method && formatMatch ws [b!"stream", b!"audio"]) e1) := by
  have h := Endpoint.matchLoop_eq method url [e0, e1] [] Endpoint.emptyEndpoint ⟨rfl, rfl, rfl⟩ (by decide)
  have hcons : ∀ (e : Endpoint) (b : Bool) (t : List Endpoint), sel method url e = b → (e :: t).filter (sel method url) = one b e ++ t.filter (sel method url) := by
    intro e b t hb
    rw [List.filter_cons, hb]
    cases b <;> rfl
  have hs : ∀ (f : Option Bytes) (n : Nat) (fs : List Bytes), splitUrl (some b!"/stream") f = fs →
      sel method url ⟨some b!"GET", some b!"/stream", f, 0, some n, 0⟩ = (eqCase b!"GET" method && formatMatch ws fs) := by
    intro f n fs h
    unfold sel
    rw [Endpoint.slashWords_eq, hw]
    show ((eqCase b!"GET" method || Endpoint.byte0 b!"GET" == 0x2a) && formatMatch ws (splitUrl (some b!"/stream") f)) = _
    rw [h, show (Endpoint.byte0 b!"GET" == 0x2a) = false from rfl, Bool.or_false]
  refine Eq.trans h (congrArg Res.ok ?_)
  rw [hcons e0 _ _ (hs _ _ [b!"stream"] (by decide +kernel)), hcons e1 _ _ (hs _ _ [b!"stream", b!"audio"] (by decide +kernel))]
  simp

private theorem match_one {method url : Bytes} {l : List Endpoint} (hl : matchLoop method (slashWords url) endpoints = .ok l) (h1 : l.length ≤ 1)
    (r : List Endpoint) : EndpointMatch method url endpoints r ↔ r = l := by
  constructor
  · rintro ⟨l', h1', h2, -⟩
    rw [hl] at h1'
    injection h1' with h1'
    subst h1'
    match l, h1 with
    | [], _ => exact h2.symm.eq_nil
    | [x], _ => exact h2.symm.eq_singleton
  · rintro rfl
    refine ⟨_, hl, .refl _, ?_⟩
    match r, h1 with
    | [], _ => exact .nil
    | [x], _ => exact List.pairwise_singleton _ _

private def M : UMap := rep [⟨b!"Access-Control-Allow-Origin", strBuf b!"*" ++ [some 0], 2⟩]

private theorem defaults_eq : StreamExample.defaults = .ok M := by decide +kernel

private theorem init_eq : initHeaders (some M) = .ok M := by decide +kernel

private theorem M_holds : HoldsParams M [(b!"Access-Control-Allow-Origin", some b!"*")] := by
  obtain ⟨m, e1, e2⟩ := holds_put holds_init b!"Access-Control-Allow-Origin" (some b!"*") (by decide) (by decide)
    (by intro x hx; cases hx; decide)
  have : UMap.put UMap.init (some b!"Access-Control-Allow-Origin") (some b!"*") = .ok (.ok, M) := by decide +kernel
  rw [this] at e1
  injection e1 with e1
  injection e1 with _ e1
  exact e1 ▸ e2

private theorem takes1 {accept : List Field → Bytes → Bytes → Bool} (hacc : accept [] b!"Access-Control-Allow-Origin" b!"*" = true) :
    Takes accept [] (linesOf [(b!"Access-Control-Allow-Origin", some b!"*")] []) := by
  intro x f y e
  cases x with
  | nil =>
    injection e with e _
    subst e
    exact hacc
  | cons z t => simp [linesOf] at e

private theorem serves_eq {accept : List Field → Bytes → Bytes → Bool} {d : Disk} {path method url : Bytes} {l : List Endpoint}
    (hl : matchLoop method (slashWords url) endpoints = .ok l) (h1 : l.length ≤ 1) {ans : Option Ans} {evs : List (Ev Sources)}
    (hd : dispatch ⟨accept, fun _ => .failed, none, some M⟩ (l.map (StreamExample.callbackOf d path)) none [] = .ok (ans, evs))
    (a : Res (Option Ans × Option Sources)) :
    StreamExample.Serves accept d path method url a ↔ a = .ok (ans, evs.getLast?.map (·.after.user)) := by
  have key : (do
      let cfg ← StreamExample.instanceOf accept
      let (ans, evs) ← dispatch cfg (l.map (StreamExample.callbackOf d path)) none []
      return (ans, evs.getLast?.map (·.after.user)) : Res (Option Ans × Option Sources)) = .ok (ans, evs.getLast?.map (·.after.user)) := by
    simp only [StreamExample.instanceOf, defaults_eq, Res.ok_bind, Res.pure_eq, hd]
  unfold StreamExample.Serves
  constructor
  · rintro ⟨r, h, e⟩
    rw [match_one hl h1] at h
    subst h
    rw [e, ← key]
  · rintro rfl
    exact ⟨l, (match_one hl h1 l).2 rfl, key.symm⟩

private theorem get_case {method : Bytes} (hm : fold method = fold b!"GET") : eqCase b!"GET" method = true := by
  unfold eqCase
  rw [hm]
  exact beq_self_eq_true _

/-- **C172, GET /stream.** 200 with the default header and a stream of unknown size of the text "stream test". -/
theorem C172_stream {accept : List Field → Bytes → Bytes → Bool} (hacc : accept [] b!"Access-Control-Allow-Origin" b!"*" = true) (d : Disk)
    (path : Bytes) {method url : Bytes} (hm : fold method = fold b!"GET") (hu : segments url = [b!"stream"]) (a : Res (Option Ans × Option Sources)) :
    StreamExample.Serves accept d path method url a ↔
      a = .ok (some ⟨200, none, [cors], .stream (2 ^ 64 - 1, 32768, 0)⟩, some [.text b!"stream test"]) := by
  have hl : matchLoop method (slashWords url) endpoints = .ok [e0] := by
    rw [loop_eq method url hu, get_case hm]
    rfl
  exact serves_eq hl (by decide) (dispatch_stream _ _ _ _ _ init_eq (ret := 0) rfl (by decide) rfl (by decide)
    (hs := [(b!"Access-Control-Allow-Origin", some b!"*")]) (cs := []) (body := []) ⟨M_holds, rfl, rfl, fun b hb => by cases hb⟩ (takes1 hacc)) a

private theorem audio_list {method url : Bytes} (hm : fold method = fold b!"GET") (hu : segments url = [b!"stream", b!"audio"]) :
    matchLoop method (slashWords url) endpoints = .ok [e1] := by
  rw [loop_eq method url hu, get_case hm]
  rfl

/-- **C172, GET /stream/audio.** When the path given to the program leads to a regular file that may be opened: 200, the media type, and a stream that has the size
of the file (its bytes: `C172_file_partial`). -/
theorem C172_audio_partial {accept : List Field → Bytes → Bytes → Bool} (hacc : accept [] b!"Access-Control-Allow-Origin" b!"*" = true)
    (hacc' : accept [cors] b!"Content-Type" b!"audio/mpeg" = true) (d : Disk)
    (path : Bytes) {c : Bytes} (hf : d.fopen path = some (.file c)) {method url : Bytes} (hm : fold method = fold b!"GET")
    (hu : segments url = [b!"stream", b!"audio"]) (a : Res (Option Ans × Option Sources)) :
    StreamExample.Serves accept d path method url a ↔
      a = .ok (some ⟨200, none, [cors, (b!"Content-Type", b!"audio/mpeg")], .stream (c.length, 32768, 0)⟩, some [.file path]) := by
  obtain ⟨H, h1, h2⟩ := holds_put M_holds b!"Content-Type" (some b!"audio/mpeg") (by decide) (by decide) (by intro x hx; cases hx; decide)
  have hcb : getAudio d path 0 ⟨{ header := M }, false, []⟩ =
      (0, ⟨setStream { header := H } 200 (c.length, 32768, 0), false, [.file path]⟩) := by
    simp only [getAudio, audioStream, hf, h1, Res.ok_bind, Res.pure_eq, Dispatch.cbContinue]
    rfl
  have ht : Takes accept [] (linesOf [(b!"Access-Control-Allow-Origin", some b!"*"), (b!"Content-Type", some b!"audio/mpeg")] []) := by
    intro x f y e
    match x with
    | [] =>
      injection e with e _
      subst e
      exact hacc
    | [z] =>
      injection e with e1 e
      injection e with e2 _
      subst e1 e2
      exact hacc'
    | _ :: _ :: t => simp [linesOf] at e
  exact serves_eq (audio_list hm hu) (by decide) (dispatch_stream _ _ _ _ _ init_eq hcb (by decide) rfl (by show 0 < 32768; decide)
    (hs := [(b!"Access-Control-Allow-Origin", some b!"*"), (b!"Content-Type", some b!"audio/mpeg")]) (cs := []) (body := [])
    ⟨h2, rfl, rfl, fun b hb => by cases hb⟩ ht) a

/-- **C172, a file that cannot be opened.** 500 with the error text. -/
theorem C172_missing {accept : List Field → Bytes → Bytes → Bool} (d : Disk) (path : Bytes) (hf : d.fopen path = none) {method url : Bytes}
    (hm : fold method = fold b!"GET") (hu : segments url = [b!"stream", b!"audio"]) (a : Res (Option Ans × Option Sources)) :
    StreamExample.Serves accept d path method url a ↔ a = .ok (some ⟨500, none, [], .buffer b!"Server Error"⟩, some []) := by
  have hcb : getAudio d path 0 ⟨{ header := M }, false, []⟩ = (4, ⟨{ header := M }, false, []⟩) := by
    simp only [getAudio, audioStream, hf, Dispatch.cbError]
  exact serves_eq (audio_list hm hu) (by decide) (dispatch_failed _ _ _ _ init_eq hcb (by decide) rfl rfl) a

/-- **C172 is false of the code**: for what is not a regular file (a directory, a pipe) the callback returns `U_ERROR`, which is `U_CALLBACK_IGNORE`: the client
gets 200 and an empty body instead of an error. -/
theorem C172_directory_false {accept : List Field → Bytes → Bytes → Bool} (hacc : accept [] b!"Access-Control-Allow-Origin" b!"*" = true) (d : Disk)
    (path : Bytes) {n : Nat} (hf : d.fopen path = some (.dir n)) {method url : Bytes} (hm : fold method = fold b!"GET")
    (hu : segments url = [b!"stream", b!"audio"]) (a : Res (Option Ans × Option Sources)) :
    StreamExample.Serves accept d path method url a ↔ a = .ok (some ⟨200, none, [cors], .buffer []⟩, some []) := by
  have hcb : getAudio d path 0 ⟨{ header := M }, false, []⟩ = (1, ⟨{ header := M }, false, []⟩) := by
    simp only [getAudio, audioStream, hf, uError]
  exact serves_eq (audio_list hm hu) (by decide) (dispatch_ignored _ _ _ init_eq hcb rfl rfl
    (hs := [(b!"Access-Control-Allow-Origin", some b!"*")]) (cs := []) (body := []) ⟨M_holds, rfl, rfl, fun b hb => by cases hb⟩ (takes1 hacc)) a

/-- **C172, everything else.** Another method or path gets 404 and the text of the library, and no stream is made. -/
theorem C172_else {accept : List Field → Bytes → Bytes → Bool} (d : Disk) (path : Bytes) {method url : Bytes}
    (hn : fold method ≠ fold b!"GET" ∨ segments url ≠ [b!"stream"] ∧ segments url ≠ [b!"stream", b!"audio"]) (a : Res (Option Ans × Option Sources)) :
    StreamExample.Serves accept d path method url a ↔ a = .ok (some ⟨404, none, [], .buffer b!"Resource not found"⟩, none) := by
  have hl : matchLoop method (slashWords url) endpoints = .ok [] := by
    rw [loop_eq method url rfl]
    rcases hn with hn | hn
    · have : eqCase b!"GET" method = false := by
        unfold eqCase
        rw [beq_eq_false_iff_ne]
        exact fun e => hn e.symm
      rw [this]
      rfl
    · have h0 : formatMatch (segments url) [b!"stream"] = false := by
        generalize segments url = ws at hn
        match ws with
        | [] => rfl
        | x :: t =>
          by_cases hx : x = b!"stream"
          · subst hx
            cases t with
            | nil => exact absurd rfl hn.1
            | cons _ _ => rfl
          · have : (b!"stream" == x) = false := by rw [beq_eq_false_iff_ne]; exact fun e => hx e.symm
            simp [formatMatch, this, Endpoint.byte0]
      have h1 : formatMatch (segments url) [b!"stream", b!"audio"] = false := by
        generalize segments url = ws at hn
        match ws with
        | [] => rfl
        | x :: t =>
          by_cases hx : x = b!"stream"
          · subst hx
            match t with
            | [] => rfl
            | y :: u =>
              by_cases hy : y = b!"audio"
              · subst hy
                cases u with
                | nil => exact absurd rfl hn.2
                | cons _ _ => rfl
              · have : (b!"audio" == y) = false := by rw [beq_eq_false_iff_ne]; exact fun e => hy e.symm
                simp [formatMatch, this, Endpoint.byte0]
          · have : (b!"stream" == x) = false := by rw [beq_eq_false_iff_ne]; exact fun e => hx e.symm
            simp [formatMatch, this, Endpoint.byte0]
      rw [h0, h1]
      cases eqCase b!"GET" method <;> rfl
  exact serves_eq hl (by decide) (ans := some ⟨404, none, [], .buffer b!"Resource not found"⟩) (evs := []) rfl a

/-! ## Instances -/

private def audioDisk : Disk where
  real := fun p => some p
  node := fun p => if p = b!"/a.mp3" then some (.file b!"ID3") else if p = b!"/music" then some (.dir 4096) else none
  readable := fun _ => true

example : audioDisk.fopen b!"/a.mp3" = some (.file b!"ID3") ∧ audioDisk.fopen b!"/music" = some (.dir 4096) ∧ audioDisk.fopen b!"/b" = none ∧
    segments b!"//stream/audio/" = [b!"stream", b!"audio"] ∧ fold b!"get" = fold b!"GET" := by decide +kernel

end Verif.Props
