import Verif.Props.Answer
import Verif.Props.Send
/-!
# C150: the answer of a callback arrives at a client of the library
-/
namespace Verif.Props
open Verif.UMap Verif.Answer Verif.Send
open Verif.Spec.Client (Line headersOf valuesFor headerValue sameName)

/-! ## Specification -/

/-- What HTTP carries from the server to the client: the status, the header lines of the answer (those of each name in their order,
between lines of other names that libmicrohttpd adds), the body in any blocks. -/
structure Delivered (ans : Ans) (st : Nat) (ls : List Line) (chunks : List Bytes) : Prop where
  status : st = ans.status
  wf : ∀ x ∈ ls, x.Wf
  lines : ∀ f ∈ ans.fields, valuesFor f.1 (headersOf ls) = valuesFor f.1 ans.fields
  body : ans.content = .buffer chunks.flatten
  small : (ls.map (fun x => x.text.length)).sum + 4 < 2 ^ 64 ∧ chunks.flatten.length + 1 < 2 ^ 64

/-- A client of the library that sends any request with an empty response receives this status, this body and, for each of these
lines, the values of its name: whenever HTTP delivers the answer, and the callbacks of libcurl get what HTTP delivers. -/
def Arrives (ans : Ans) (status : Nat) (lines : List (Bytes × Bytes)) (body : Bytes) : Prop :=
  ∀ (c : Curl) (r : Message.Request) (l : Lists) (st : Nat) (ls : List Line) (chunks cs : List Bytes), c.init = true →
    (∀ done o, c.accepts done o = true) → Wants r l → Delivered ans st ls chunks → (cs.map strings).Pairwise (· ≤ ·) →
    (∀ opts, c.perform opts = ⟨ls.map Line.text, chunks, some st, some cs⟩) →
    ∃ o r', sendLimit c (some r) (some {}) 0 0 = .ok o ∧ o.code = .ok ∧ o.response = some r' ∧ r'.status = status ∧
      bodyOf r'.body r'.bodyLen = body ∧ r'.bodyLen = body.length ∧ ∀ f ∈ lines, ShowsCase r'.header f.1 (headerValue f.1 lines)

/-- What the client is to receive, by the value the last callback returned, from what its response holds. -/
def expected (ret : Int) (status : Nat) (lines : List (Bytes × Bytes)) (body : Bytes) : Nat × List (Bytes × Bytes) × Bytes :=
  if ret = 0 ∨ ret = 1 ∨ ret = 2 then (status, lines, body)
  else if ret = 3 then (401, lines, body)
  else (500, [], b!"Server Error")

theorem client_part (ans : Ans) (body : Bytes) (hb : ans.content = .buffer body) : Arrives ans ans.status ans.fields body := by
  intro c r l st ls chunks cs hi ha w hd hs hrep
  have hbody : chunks.flatten = body := by
    have := hd.body
    rw [hb] at this
    injection this with this
    exact this.symm
  obtain ⟨o, r', h1, h2, h3, h4, h5, -, h7, -, -⟩ := C110_response_partial c hi ha w {} ⟨rfl, rfl, rfl⟩ 0 0 ls hd.wf hd.small.1 chunks
    hd.small.2 st cs hs hrep
  refine ⟨o, r', h1, h2, h3, h4.trans hd.status, ?_, ?_, ?_⟩
  · simp only [if_true] at h7
    by_cases e : chunks.flatten = []
    · obtain ⟨b1, b2⟩ := h7.2 e
      rw [b1, b2, ← hbody, e]
      rfl
    · rw [(h7.1 e).2, hbody]
  · simp only [if_true] at h7
    by_cases e : chunks.flatten = []
    · rw [(h7.2 e).2, ← hbody, e]
      rfl
    · rw [(h7.1 e).1, hbody]
  · intro f hf
    have := h5 f.1
    unfold headerValue at this ⊢
    rw [Spec.Client.kept, if_pos rfl, hd.lines f hf] at this
    exact this

/-- **C150, partial.** For every chain of callbacks that leave readable responses, neither stream nor websocket, whose lines
libmicrohttpd takes: a client of the library that receives the answer, its body in any blocks, its lines between others of
libmicrohttpd, reports U_OK and shows the status (401 after UNAUTHORIZED), exactly the body, and for every header and for the
Set-Cookie lines the values of this name, in order, joined by commas; status 500 and a text after ERROR, 404 and a text without
callbacks.
Missing: values with blanks around them, which do not get through HTTP (`C150_blank_false`), responses that were used before
(`C110_stale_false`), cookies beyond their lines (`C67_flags_false`). -/
theorem C150_arrives_partial {σ : Type} (cfg : Cfg σ) (eps : List (Callback σ)) (dflt : Option (Callback σ)) (user : σ)
    (hd : ∀ d, cfg.defaults = some d → ∃ ps, HoldsParams d ps) (hk : ∀ cb ∈ eps, Keeps cb) (hkd : ∀ d, dflt = some d → Keeps d) :
    ∃ a tr, dispatch cfg eps dflt user = .ok (a, tr) ∧
      (eps = [] → dflt = none → ∃ ans, a = some ans ∧ Arrives ans 404 [] b!"Resource not found") ∧
      (¬ (eps = [] ∧ dflt = none) → ∃ e, tr.getLast? = some e ∧ (∃ hs cs body, HoldsResp e.after.resp hs cs body) ∧
        ∀ hs cs body, HoldsResp e.after.resp hs cs body → (∀ x ∈ tr, x.after.resp.stream = none ∧ x.after.ws = false) →
          (e.who = .dflt → (0 ≤ e.ret ∧ e.ret ≤ 4) ∨ tr.length = 1) → (0 ≤ e.ret ∧ e.ret ≤ 3 → Takes cfg.accept [] (linesOf hs cs)) →
          ∃ ans, a = some ans ∧
            Arrives ans (expected e.ret e.after.resp.status (linesOf hs cs) body).1
              (expected e.ret e.after.resp.status (linesOf hs cs) body).2.1
              (expected e.ret e.after.resp.status (linesOf hs cs) body).2.2) := by
  obtain ⟨a, tr, h1, h0, h2⟩ := C97_answer_partial cfg eps dflt user hd hk hkd
  refine ⟨a, tr, h1, fun x y => ⟨_, (h0 x y).2, client_part _ _ rfl⟩, fun hne => ?_⟩
  obtain ⟨e, h3, hx, h4⟩ := h2 hne
  refine ⟨e, h3, hx, ?_⟩
  intro hs cs body hh hp hdf ht
  obtain ⟨g1, g2, g3⟩ := h4 hs cs body hh hp hdf
  unfold expected
  by_cases e0 : e.ret = 0 ∨ e.ret = 1 ∨ e.ret = 2
  · rw [if_pos e0]
    exact ⟨_, g1 e0 (ht (by omega)), client_part _ _ rfl⟩
  · by_cases e3 : e.ret = 3
    · rw [if_neg e0, if_pos e3]
      obtain ⟨realm, ha, -, -⟩ := g2 e3 (ht (by omega))
      exact ⟨_, ha, client_part _ _ rfl⟩
    · rw [if_neg e0, if_neg e3]
      exact ⟨_, g3 (by omega), client_part _ _ rfl⟩

private theorem values_absent {k : Bytes} : ∀ {hs : List (Bytes × Option Bytes)}, (∀ p ∈ hs, ¬ sameName p.1 k) →
    valuesFor k (hs.filterMap (fun h => h.2.map (fun v => (h.1, v)))) = []
  | [], _ => rfl
  | (x, none) :: t, h => by
    rw [List.filterMap_cons_none rfl]
    exact values_absent (fun p hp => h p (List.mem_cons_of_mem _ hp))
  | (x, some w) :: t, h => by
    rw [List.filterMap_cons_some (f := fun h : Bytes × Option Bytes => h.2.map (fun v => (h.1, v))) (b := (x, w)) rfl]
    unfold valuesFor
    rw [List.filter_cons, if_neg (by simpa using h _ (List.mem_cons_self ..))]
    exact values_absent (fun p hp => h p (List.mem_cons_of_mem _ hp))

private theorem values_one {k v : Bytes} : ∀ {hs : List (Bytes × Option Bytes)}, (hs.map (·.1)).Nodup → (k, some v) ∈ hs →
    (∀ p ∈ hs, sameName p.1 k → p.1 = k) → valuesFor k (hs.filterMap (fun h => h.2.map (fun v => (h.1, v)))) = [v]
  | [], _, h, _ => by cases h
  | (x, o) :: t, hn, h, hs => by
    rw [List.map_cons, List.nodup_cons] at hn
    by_cases e : x = k
    · subst e
      have : o = some v := by
        rcases List.mem_cons.1 h with h | h
        · injection h with _ h2
          exact h2.symm
        · exact absurd (List.mem_map.2 ⟨_, h, rfl⟩) hn.1
      subst this
      have rest := values_absent (k := x) (hs := t) (fun p hp hc => hn.1 (hs p (List.mem_cons_of_mem _ hp) hc ▸ List.mem_map.2 ⟨p, hp, rfl⟩))
      rw [List.filterMap_cons_some (f := fun h : Bytes × Option Bytes => h.2.map (fun v => (h.1, v))) (b := (x, v)) rfl]
      unfold valuesFor at rest ⊢
      rw [List.filter_cons, if_pos (by simp [sameName]), List.map_cons, rest]
    · have hk : ¬ sameName x k := fun hc => e (hs _ (List.mem_cons_self ..) hc)
      have ht : (k, some v) ∈ t := by
        rcases List.mem_cons.1 h with h | h
        · injection h with h1 _
          exact absurd h1.symm e
        · exact h
      have ih := values_one hn.2 ht (fun p hp => hs p (List.mem_cons_of_mem _ hp))
      cases o with
      | none => rw [List.filterMap_cons_none rfl]; exact ih
      | some w =>
        rw [List.filterMap_cons_some (f := fun h : Bytes × Option Bytes => h.2.map (fun v => (h.1, v))) (b := (x, w)) rfl]
        unfold valuesFor at ih ⊢
        rw [List.filter_cons, if_neg (by simpa using hk)]
        exact ih

/-- What the last theorem shows for a header whose name no other line has, in any case: its value. -/
theorem C150_value {hs : List (Bytes × Option Bytes)} {m : UMap} (cs : List Bytes) (hm : HoldsParams m hs) {k v : Bytes}
    (h : (k, some v) ∈ hs) (ho : ∀ p ∈ hs, sameName p.1 k → p.1 = k) (hc : ¬ sameName b!"Set-Cookie" k) :
    (k, v) ∈ linesOf hs cs ∧ headerValue k (linesOf hs cs) = some v := by
  have h1 := values_one (holds_nodup hm) h ho
  have h2 : valuesFor k (cs.map (fun c => (b!"Set-Cookie", c))) = [] := by
    unfold valuesFor
    rw [List.filter_eq_nil_iff.2 (fun p hp => by
      obtain ⟨x, -, rfl⟩ := List.mem_map.1 hp
      simpa using hc)]
    rfl
  refine ⟨List.mem_append_left _ (List.mem_filterMap.2 ⟨_, h, rfl⟩), ?_⟩
  have e : valuesFor k (linesOf hs cs) = [v] := by
    unfold linesOf valuesFor
    rw [List.filter_append, List.map_append]
    unfold valuesFor at h1 h2
    rw [h1, h2]
    rfl
  unfold headerValue
  rw [e]
  rfl

example : Delivered ⟨200, none, [(b!"X-Id", b!"7"), (b!"Set-Cookie", b!"a=b"), (b!"Set-Cookie", b!"c=d")], .buffer b!"body"⟩ 200
    [.other b!"HTTP/1.1 200 OK\r\n", .header { name := b!"Date", value := b!"now" }, .header { name := b!"X-Id", value := b!"7" },
     .header { name := b!"Set-Cookie", value := b!"a=b" }, .header { name := b!"Content-Length", value := b!"4" },
     .header { name := b!"set-cookie", value := b!"c=d" }] [b!"bo", b!"dy"] where
  status := rfl
  wf := by
    have B : ∀ l : Bytes, l.all isSpace = true → Spec.Client.Blank l := fun l h c hc => List.all_eq_true.1 h c hc
    intro x hx
    simp only [List.mem_cons, List.not_mem_nil, or_false] at hx
    rcases hx with rfl | rfl | rfl | rfl | rfl | rfl
    · exact (by decide : (0x3a : UInt8) ∉ b!"HTTP/1.1 200 OK\r\n")
    all_goals exact ⟨B _ (by decide), B _ (by decide), B _ (by decide), B _ (by decide),
      ⟨⟨by simp; decide, by simp; decide⟩, by decide, by decide, by decide⟩, ⟨⟨by simp; decide, by simp; decide⟩, by decide⟩, by decide⟩
  lines := by decide
  body := rfl
  small := by decide

/-- A value that begins with a blank arrives without it: the line `K:  x` means the value `x`. -/
theorem C150_blank_false :
    (∃ h, Client.writeHeaders 0 {} [b!"K" ++ b!": " ++ b!" x" ++ b!"\r\n"] = .ok h ∧ getStr h.map b!"K" = .ok (some b!"x")) := by
  refine ⟨_, rfl, by decide +kernel⟩

end Verif.Props
