import Verif.Model.StreamClient
import Verif.Props.Send
/-!
# C205: the function given to `ulfius_send_http_streaming_request` gets the body of the answer, with the pointer given with it

Manual, include/ulfius.h:729–739: "write_body_function a pointer to a function that will be used to receive response body in chunks",
"write_body_data a user-defined pointer that will be passed in parameter to write_body_function".
-/
namespace Verif.Props
open Verif.Spec.Curl (Opt)
open Verif.StreamClient
open Verif.UMap (Buf strBuf readStr)

namespace StreamClient

theorem mem_first (req copy : Message.Request) (a : Option (Option Bytes)) :
    Opt.writeFunction ∉ Send.firstOptions req copy a ∧ Opt.writeData ∉ Send.firstOptions req copy a := by
  unfold Send.firstOptions Send.acceptOptions Send.authOptions Send.certOptions Send.proxyOptions Send.familyOptions
  constructor <;>
  · simp only [List.mem_append, not_or]
    refine ⟨⟨⟨⟨⟨⟨⟨?_, ?_⟩, ?_⟩, ?_⟩, ?_⟩, ?_⟩, ?_⟩, ?_⟩ <;> (repeat' split) <;> simp

theorem mem_last (copy : Message.Request) (url : Option Bytes) (lines : List Bytes) (s : Send.Sink) (resp : Bool) :
    (Opt.writeFunction ∈ Send.lastOptions copy url lines s resp ↔ s.function = true) ∧
    (Opt.writeData ∈ Send.lastOptions copy url lines s resp ↔ s.data = true) := by
  have hv : ∀ (o : Opt) (a b : Nat) (p q : Bool → Opt), o ≠ p false → o ≠ q false → o ∉ Send.verifyOptions a b p q := by
    intro o a b p q h1 h2
    unfold Send.verifyOptions
    repeat' split
    all_goals simp [h1, h2]
  have hc : ∀ (o : Opt) (p : Option Bytes), (∀ x, o ≠ .caPath x) → o ∉ Send.caOptions p := by
    intro o p h
    cases p <;> simp [Send.caOptions, h]
  constructor
  · unfold Send.lastOptions
    have h1 := hv .writeFunction copy.checkServer copy.serverFlag .verifyPeer .verifyHost (by simp) (by simp)
    have h2 := hv .writeFunction copy.checkProxy copy.proxyFlag .proxyVerifyPeer .proxyVerifyHost (by simp) (by simp)
    have h3 := hc .writeFunction copy.caPath (by simp)
    simp only [List.mem_append, h1, h2, h3]
    cases s.function <;> cases s.data <;> cases resp <;> by_cases ht : copy.timeout = 0 <;> simp [ht]
  · unfold Send.lastOptions
    have h1 := hv .writeData copy.checkServer copy.serverFlag .verifyPeer .verifyHost (by simp) (by simp)
    have h2 := hv .writeData copy.checkProxy copy.proxyFlag .proxyVerifyPeer .proxyVerifyHost (by simp) (by simp)
    have h3 := hc .writeData copy.caPath (by simp)
    simp only [List.mem_append, h1, h2, h3]
    cases s.function <;> cases s.data <;> cases resp <;> by_cases ht : copy.timeout = 0 <;> simp [ht]

theorem mem_prepare (c : Send.Curl) (req copy : Message.Request) (s : Send.Sink) (resp : Bool) (opts : List Opt)
    (h : Send.prepare c req copy s resp = .ok (some opts)) :
    (Opt.writeFunction ∈ opts ↔ s.function = true) ∧ (Opt.writeData ∈ opts ↔ s.data = true) := by
  unfold Send.prepare at h
  cases ha : Send.acceptValue copy.mapHeader with
  | ub => rw [ha] at h; cases h
  | ok a =>
  rw [ha] at h; simp only [Res.ok_bind] at h
  cases h1 : Send.setAll c [] (Send.firstOptions req copy a) with
  | none => rw [h1] at h; cases h
  | some d1 =>
  rw [h1] at h; simp only at h
  cases hu : Send.urlValue copy with
  | ub => rw [hu] at h; cases h
  | ok u =>
  rw [hu] at h; simp only [Res.ok_bind] at h
  cases hf : Send.formStep copy with
  | ub => rw [hf] at h; cases h
  | ok f =>
  rw [hf] at h; simp only [Res.ok_bind] at h
  cases f with
  | none => cases h
  | some cp =>
  simp only at h
  cases h2 : Send.setAll c d1 (Send.bodyOptions cp) with
  | none => rw [h2] at h; cases h
  | some d2 =>
  rw [h2] at h; simp only at h
  cases hl : Send.headerValues cp.mapHeader with
  | ub => rw [hl] at h; cases h
  | ok ls =>
  rw [hl] at h; simp only [Res.ok_bind] at h
  cases hk : Send.cookieValue cp.mapCookie with
  | ub => rw [hk] at h; cases h
  | ok ck =>
  rw [hk] at h; simp only [Res.ok_bind] at h
  cases h3 : Send.setCookie c d2 ck with
  | ub => rw [h3] at h; cases h
  | ok d3 =>
  rw [h3] at h; simp only [Res.ok_bind] at h
  have h4 : Send.setAll c d3 (Send.lastOptions cp u ls s resp) = some opts := by
    injection h
  have e1 := Send.setAll_eq c _ _ _ h1
  have e2 := Send.setAll_eq c _ _ _ h2
  have e4 := Send.setAll_eq c _ _ _ h4
  obtain ⟨f1, f2⟩ := mem_first req copy a
  have b1 : Opt.writeFunction ∉ Send.bodyOptions cp ∧ Opt.writeData ∉ Send.bodyOptions cp := by
    unfold Send.bodyOptions
    constructor <;> (repeat' split) <;> simp
  have e3 : Opt.writeFunction ∉ d3 ∧ Opt.writeData ∉ d3 := by
    unfold Send.setCookie at h3
    cases ck with
    | none =>
      simp only at h3
      injection h3 with h3
      rw [← h3, e2, e1]
      simp [f1, f2, b1.1, b1.2]
    | some t =>
      simp only at h3
      split at h3
      · injection h3 with h3
        rw [← h3, e2, e1]
        simp [f1, f2, b1.1, b1.2]
      · cases h3
  obtain ⟨m1, m2⟩ := mem_last cp u ls s resp
  rw [e4]
  simp only [List.mem_append, e3.1, e3.2, false_or]
  exact ⟨m1, m2⟩

theorem perform_chunks (c : Send.Curl) (opts : List Opt) (max : Nat) (resp : Option Message.Response) (o : Send.Outcome)
    (h : Send.perform c opts max resp = .ok o) : o.performed = some opts ∧ o.chunks = (c.perform opts).chunks := by
  unfold Send.perform at h
  cases resp with
  | none => simp only at h; injection h with h; rw [← h]; exact ⟨rfl, rfl⟩
  | some r =>
    simp only at h
    cases hw : Client.writeHeaders max { map := r.header, protocol := r.protocol, counter := 0 } (c.perform opts).lines with
    | ub => rw [hw] at h; cases h
    | ok hd =>
      rw [hw] at h
      simp only [Res.ok_bind] at h
      cases hs : (c.perform opts).status with
      | none => rw [hs] at h; simp only [Res.pure_eq] at h; injection h with h; rw [← h]; exact ⟨rfl, rfl⟩
      | some st =>
        rw [hs] at h
        simp only at h
        cases hk : (c.perform opts).cookies with
        | none => rw [hk] at h; simp only [Res.pure_eq] at h; injection h with h; rw [← h]; exact ⟨rfl, rfl⟩
        | some ls =>
          rw [hk] at h
          simp only at h
          generalize Client.cookieList _ _ ls = q at h
          cases q with
          | ub => cases h
          | ok q => simp only [Res.ok_bind, Res.pure_eq] at h; injection h with h; rw [← h]; exact ⟨rfl, rfl⟩

theorem send_options (c : Send.Curl) (request : Option Message.Request) (resp : Option Message.Response) (s : Send.Sink) (max : Nat)
    (o : Send.Outcome) (opts : List Opt) (h : Send.sendStreaming c request resp s max = .ok o) (hp : o.performed = some opts) :
    (Opt.writeFunction ∈ opts ↔ s.function = true) ∧ (Opt.writeData ∈ opts ↔ s.data = true) ∧
    o.chunks = (c.perform opts).chunks := by
  unfold Send.sendStreaming at h
  cases request with
  | none => simp only at h; injection h with h; rw [← h] at hp; cases hp
  | some req =>
    simp only at h
    cases hd : Message.duplicateRequest req with
    | ub => rw [hd] at h; cases h
    | ok cp =>
      rw [hd] at h; simp only [Res.ok_bind] at h
      cases cp with
      | none => simp only [Res.pure_eq] at h; injection h with h; rw [← h] at hp; cases hp
      | some cp =>
        simp only at h
        split at h
        · cases hq : Send.prepare c req cp s resp.isSome with
          | ub => rw [hq] at h; cases h
          | ok q =>
            rw [hq] at h; simp only [Res.ok_bind] at h
            cases q with
            | none => simp only [Res.pure_eq] at h; injection h with h; rw [← h] at hp; cases hp
            | some op =>
              simp only at h
              obtain ⟨p1, p2⟩ := perform_chunks c op max resp o h
              rw [p1] at hp
              injection hp with hp
              subst hp
              exact ⟨(mem_prepare c req cp s _ _ hq).1, (mem_prepare c req cp s _ _ hq).2, p2⟩
        · simp only [Res.pure_eq] at h; injection h with h; rw [← h] at hp; cases hp

theorem stream_calls (c : Send.Curl) (request : Option Message.Request) (resp : Option Message.Response) (f : Bool) (d : Data) (max : Nat)
    (o : Send.Outcome) (calls : List (Target × Bytes)) (opts : List Opt) (h : stream c request resp f d max = .ok (o, calls))
    (hp : o.performed = some opts) :
    calls = (c.perform opts).chunks.map (fun b =>
      (if f = true then Target.function (if d = .null then .stdout else d) else .file (if d = .null then .stdout else d), b)) := by
  unfold stream at h
  cases hs : Send.sendStreaming c request resp (sink f d) max with
  | ub => rw [hs] at h; cases h
  | ok o' =>
    rw [hs] at h
    simp only [Res.ok_bind, Res.pure_eq] at h
    injection h with h
    injection h with ho hc
    subst ho
    rw [hp] at hc
    simp only at hc
    obtain ⟨m1, m2, m3⟩ := send_options c request resp _ max o' opts hs hp
    rw [← hc, m3]
    apply List.map_congr_left
    intro b _
    simp only [target, m1, m2, sink, decide_eq_true_eq]
    by_cases hd : d = .null <;> cases f <;> simp [hd]

/-- The server answers in two pieces. -/
def sampleServer : Send.Curl := answering ⟨[], [b!"he", b!"llo"], some 200, some []⟩

/-- Where the pieces of the sample answer go. -/
def bodyCalls (f : Bool) (d : Data) : List (Target × Bytes) :=
  match stream sampleServer (some sampleRequest) (some {}) f d 0 with
  | .ok (_, l) => l
  | .ub => []

end StreamClient
open StreamClient

/-! ## C205 -/

/-- C205: in any transfer that libcurl makes for any request, the function gets all the pieces of the body libcurl received, in their order, each
with the pointer that was given with it — a pointer that is not NULL. -/
theorem C205_function_partial (c : Send.Curl) (request : Option Message.Request) (resp : Option Message.Response) (d : Data) (max : Nat)
    (o : Send.Outcome) (calls : List (Target × Bytes)) (opts : List Opt) (hd : d ≠ .null)
    (h : stream c request resp true d max = .ok (o, calls)) (hp : o.performed = some opts) :
    calls = (c.perform opts).chunks.map (fun b => (Target.function d, b)) := by
  rw [stream_calls c request resp true d max o calls opts h hp]
  simp [hd]

example : bodyCalls true (.own 7) = [(.function (.own 7), b!"he"), (.function (.own 7), b!"llo")] := by decide +kernel

/-- C205: it is called for nothing else: when no transfer was made it is not called. -/
theorem C205_none (c : Send.Curl) (request : Option Message.Request) (resp : Option Message.Response) (f : Bool) (d : Data) (max : Nat)
    (o : Send.Outcome) (calls : List (Target × Bytes))
    (h : stream c request resp f d max = .ok (o, calls)) (hp : o.performed = none) : calls = [] := by
  unfold stream at h
  cases hs : Send.sendStreaming c request resp (sink f d) max with
  | ub => rw [hs] at h; cases h
  | ok o' =>
    rw [hs] at h
    simp only [Res.ok_bind, Res.pure_eq] at h
    injection h with h
    injection h with ho hc
    subst ho
    rw [hp] at hc
    exact hc.symm

example : ∃ o, stream { sampleServer with init := false } (some sampleRequest) (some {}) true .null 0 = .ok (o, []) ∧ o.performed = none := by
  have : (match stream { sampleServer with init := false } (some sampleRequest) (some {}) true .null 0 with
    | .ok (o, l) => decide (l = [] ∧ o.performed = none) | .ub => false) = true := by decide +kernel
  split at this
  · rename_i o l h
    simp only [decide_eq_true_eq] at this
    exact ⟨o, by rw [h, this.1], this.2⟩
  · cases this

/-- C205 is false of NULL: the pointer is not handed on, and in every transfer the function gets the one libcurl has by default, the standard output.
A function that takes NULL to mean that it has no data takes a `FILE` for its data. -/
theorem C205_null_false :
    (∀ (c : Send.Curl) (request : Option Message.Request) (resp : Option Message.Response) (max : Nat)
      (o : Send.Outcome) (calls : List (Target × Bytes)) (opts : List Opt),
      stream c request resp true .null max = .ok (o, calls) → o.performed = some opts →
      calls = (c.perform opts).chunks.map (fun b => (Target.function .stdout, b))) ∧
    bodyCalls true .null = [(.function .stdout, b!"he"), (.function .stdout, b!"llo")] := by
  refine ⟨fun c request resp max o calls opts h hp => ?_, by decide +kernel⟩
  rw [stream_calls c request resp true .null max o calls opts h hp]
  simp

/-- C205: without a function the pointer given is used all the same, as a file to write to; without either the body is printed on the standard
output. -/
theorem C205_nofunction_false :
    (∀ (c : Send.Curl) (request : Option Message.Request) (resp : Option Message.Response) (d : Data) (max : Nat)
      (o : Send.Outcome) (calls : List (Target × Bytes)) (opts : List Opt),
      stream c request resp false d max = .ok (o, calls) → o.performed = some opts →
      calls = (c.perform opts).chunks.map (fun b => (Target.file (if d = .null then .stdout else d), b))) ∧
    bodyCalls false (.own 7) = [(.file (.own 7), b!"he"), (.file (.own 7), b!"llo")] ∧
    bodyCalls false .null = [(.file .stdout, b!"he"), (.file .stdout, b!"llo")] := by
  refine ⟨fun c request resp d max o calls opts h hp => ?_, by decide +kernel, by decide +kernel⟩
  rw [stream_calls c request resp false d max o calls opts h hp]
  simp

/-- C205, the example client: when every piece is text and a NUL happens to follow each, it prints each of them behind `got `, and takes all. -/
theorem C205_print_partial (l : List (Bytes × Buf)) (hl : ∀ p ∈ l, NoNul p.1) :
    handAll writeBody (l.map (fun p => ⟨p.1, some 0 :: p.2⟩)) = .ok ((l.map (fun p => b!"got " ++ p.1)).flatten, true) := by
  induction l with
  | nil => rfl
  | cons p t ih =>
    have hr : readStr (p.1.map some ++ some 0 :: p.2) = .ok p.1 := by
      have := UMap.readStr_strBuf p.1 p.2 (hl p (by simp))
      simpa [strBuf] using this
    rw [List.map_cons, handAll]
    simp only [writeBody, hr, Res.ok_bind, Res.pure_eq, Nat.one_mul, if_true]
    rw [ih (fun q hq => hl q (List.mem_cons_of_mem _ hq))]
    simp

example : handAll writeBody [⟨b!"he", [some 0, none]⟩, ⟨b!"llo", [some 0]⟩] = .ok (b!"got hegot llo", true) := by decide

/-- C205, the other function of the example: it says how large each piece was and takes all, whatever they hold and whatever follows them. -/
theorem C205_sizes (l : List Piece) :
    handAll writeMeta l =
      .ok ((l.map (fun p => b!"got 1 " ++ Printf.decimal p.data.length ++ b!"\n")).flatten, true) := by
  induction l with
  | nil => rfl
  | cons p t ih =>
    rw [handAll]
    simp only [writeMeta, Res.ok_bind, Res.pure_eq, Nat.one_mul, if_true]
    rw [ih]
    have hd : Printf.decimal 1 = b!"1" := by decide
    simp [hd]

example : handAll writeMeta [⟨b!"hello", []⟩] = .ok (b!"got 1 5\n", true) := by decide

/-- C205 is false of the example client: it reads a piece as a text with a NUL at its end. Whatever the piece — text — and whatever text follows it
in the buffer of libcurl, say from an earlier piece, that is printed as well. -/
theorem C205_behind_false :
    (∀ (b s : Bytes) (t : Buf), NoNul b → NoNul s →
      handAll writeBody [⟨b, s.map some ++ some 0 :: t⟩] = .ok (b!"got " ++ b ++ s, true)) ∧
    handAll writeBody [⟨b!"10", b!" apples".map some ++ [some 0]⟩] = .ok (b!"got 10 apples", true) := by
  refine ⟨fun b s t hb hs => ?_, by decide⟩
  have hr : readStr (b.map some ++ (s.map some ++ some 0 :: t)) = .ok (b ++ s) := by
    have := UMap.readStr_strBuf (b ++ s) t (by
      intro hm
      rcases List.mem_append.1 hm with h | h
      · exact hb h
      · exact hs h)
    simpa [strBuf] using this
  simp [handAll, writeBody, hr]

/-- C205 is false of the example client: when no NUL follows a piece of text, it reads on past what it may read. -/
theorem C205_overread_false (b s : Bytes) (hb : NoNul b) (hs : NoNul s) (t : List Piece) :
    handAll writeBody (⟨b, s.map some⟩ :: t) = .ub := by
  have hr : ∀ x : Bytes, NoNul x → readStr (x.map some) = .ub := by
    intro x
    induction x with
    | nil => intro _; rfl
    | cons a x ih =>
      intro h
      have ha : a ≠ 0 := by intro ha; apply h; simp [ha]
      have := ih (fun hm => h (List.mem_cons_of_mem _ hm))
      simp only [List.map_cons, readStr]
      rw [if_neg (by simpa using ha), this]
      rfl
  have := hr (b ++ s) (by
      intro hm
      rcases List.mem_append.1 hm with h | h
      · exact hb h
      · exact hs h)
  rw [List.map_append] at this
  simp only [handAll, writeBody, this]
  rfl

example : handAll writeBody [⟨b!"hello", []⟩] = .ub := C205_overread_false b!"hello" [] (by decide) (by decide) []

/-- C205 is false of the example client: of a piece with a NUL in it only what comes before is printed, and all of it is reported as taken. -/
theorem C205_binary_false :
    (∀ (a b : Bytes) (t : Buf), NoNul a → handAll writeBody [⟨a ++ 0 :: b, t⟩] = .ok (b!"got " ++ a, true)) ∧
    handAll writeBody [⟨[0x50, 0x4b, 0, 0x41], []⟩] = .ok (b!"got PK", true) := by
  refine ⟨fun a b t ha => ?_, by decide⟩
  have hr : readStr ((a ++ 0 :: b).map some ++ t) = .ok a := by
    have := UMap.readStr_strBuf a (b.map some ++ t) ha
    simpa [strBuf] using this
  simp only [handAll, writeBody, hr, Res.ok_bind, Res.pure_eq, Nat.one_mul, if_true]
  simp

end Verif.Props
