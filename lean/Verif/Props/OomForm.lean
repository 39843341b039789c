import Verif.Lemmas.OomForm
import Verif.Props.FileUpload
/-!
# C186: forms when memory runs out
-/
namespace Verif.Props
open Verif.OomForm Verif.UMap
open Verif.Upload (Cfg Call find)
open Verif.Spec.OomForm

namespace OomForm

private theorem mild_none : Mild {} := ⟨⟨by simp, by simp, by simp⟩, ⟨by simp, by simp, by simp⟩, ⟨by simp, by simp, by simp⟩⟩

/-- With memory enough, a call does on the structure what it does on the list of parameters, nameless parts included. -/
private theorem iterate_same {m : UMap} {pm : Upload.PostMap} {w : Nat} (h : Stands m pm w) (cfg : Cfg) (c : Call)
    (hw : w + weight c < 2 ^ 64) :
    ∃ m', iterateU cfg {} m c = .ok ((Upload.iterate { cfg with uploadCb := false } pm c.key c.filename c.data c.off).1, m') ∧
      Stands m' (Upload.iterate { cfg with uploadCb := false } pm c.key c.filename c.data c.off).2 (w + weight c) := by
  by_cases hk : c.key = []
  · rw [iterate_eq, iterateU]
    split
    · exact ⟨m, rfl, h.mono (by omega)⟩
    · split
      · exact ⟨m, rfl, h.mono (by omega)⟩
      · simp only [hk, List.isEmpty_nil, if_true]
        have hnil : ∀ (m1 : UMap) (pm1 : Upload.PostMap) (w1 n : Nat), Stands m1 pm1 w1 →
            store {} m1 [] c.data c.off n = .ok (false, m1) := by
          intro m1 pm1 w1 n h1
          have hf : find pm1 [] = none := by
            rw [find]
            have : pm1.find? (fun p => p.1 == []) = none := by
              rw [List.find?_eq_none]
              intro p hp e
              exact h1.keys p hp (by simpa using e)
            rw [this]
            rfl
          rw [store, get_stands h1, hf]
          rfl
        cases hf : c.filename with
        | none =>
          simp only [Res.ok_bind]
          refine ⟨m, ?_, ?_⟩
          · rw [hnil m pm w _ h]
          · exact h.mono (by omega)
        | some fn =>
          simp only [Res.ok_bind]
          have hfl : weight c = c.data.length + fn.length + 4 := by rw [weight, hf]; rfl
          obtain ⟨pm', m', e, hst, hcase⟩ := note_stands h {} [] fn (by omega) mild_none.1
          rcases hcase with rfl | ⟨-, hx⟩
          · rw [e]
            simp only [Res.ok_bind]
            refine ⟨m', ?_, ?_⟩
            · rw [hnil m' _ _ _ hst]
            · exact hst.mono (by omega)
          · simp at hx
  · rcases iterate_stands h cfg {} c hk hw mild_none with ⟨m', fn, e, hst, hfn⟩ | ⟨hne, -⟩
    · rcases hfn with rfl | ⟨-, hx, -⟩
      · refine ⟨m', ?_, hst⟩
        rw [e, iterate_named _ _ _ _ _ _ hk]
      · exact absurd rfl hx
    · exact absurd rfl hne

private theorem post_same {σ : Type} (cfg : Cfg) : ∀ (cs : List Call) (s : Conn) (t : Upload.Conn σ) (w : Nat), s.error = t.error →
    Stands s.map t.map w → w + weights cs < 2 ^ 64 →
    ∃ s', post cfg (fun _ => {}) s cs = .ok s' ∧ s'.error = (Upload.postProcess cfg none t cs).error ∧
      Stands s'.map (Upload.postProcess cfg none t cs).map (w + weights cs)
  | [], s, t, w, he, h, _ => ⟨s, rfl, he, h⟩
  | c :: cs, s, t, w, he, h, hw => by
    rw [weights, List.map_cons, List.sum_cons] at hw
    rw [post, Upload.postProcess, he]
    by_cases hx : t.error = true
    · rw [if_pos hx, if_pos hx]
      exact ⟨s, rfl, he, h.mono (by omega)⟩
    · rw [if_neg hx, if_neg hx]
      obtain ⟨m', e, hst⟩ := iterate_same h cfg c (by omega)
      rw [e]
      simp only [Res.ok_bind]
      have hi : Upload.iterateCb cfg none t c = { t with
          map := (Upload.iterate { cfg with uploadCb := false } t.map c.key c.filename c.data c.off).2,
          error := !(Upload.iterate { cfg with uploadCb := false } t.map c.key c.filename c.data c.off).1 } := by
        rw [Upload.iterateCb.eq_def]
        cases hcf : c.filename <;> rfl
      rw [hi]
      obtain ⟨s', h1, h2, h3⟩ := post_same cfg cs { s with
          map := m',
          error := !(Upload.iterate { cfg with uploadCb := false } t.map c.key c.filename c.data c.off).1, n := s.n + 1 }
        { t with
          map := (Upload.iterate { cfg with uploadCb := false } t.map c.key c.filename c.data c.off).2,
          error := !(Upload.iterate { cfg with uploadCb := false } t.map c.key c.filename c.data c.off).1 } (w + weight c) rfl hst
        (by rw [weights]; omega)
      refine ⟨s', h1, h2, ?_⟩
      rw [weights, List.map_cons, List.sum_cons, ← Nat.add_assoc]
      exact h3

end OomForm
open OomForm

/-- **C186, partial.** For every upload in parts, whatever libmicrohttpd finds in them, no part being nameless, and whatever allocations
fail except those of the three arrays of the map: nothing is undefined. Either the body could not grow and the connection is closed, or
the endpoints are called with the whole body (up to its limit) and with the form up to some point: the value of every parameter is the
one made of the blocks before this point, only the parameter of the block at this point may have no value instead. The point is the
end, unless memory ran out there. (Parameters under which a file name is noted are left to C180 and `C186_enough`.)
Missing: the form is not always whole (`C186_cut_false`), a value already received is lost (`C186_value_false`), the name of a file is
missing (`C186_name_false`), and a failing array is undefined behaviour (`C186_array_false`). -/
theorem C186_partial (cfg : Cfg) (max : Nat) (noBody : Nat → Bool) (fails : Nat → Fails) (us : List (Bytes × List Call))
    (hm : max < 2 ^ 64) (hl : (us.map (·.1)).flatten.length < 2 ^ 64)
    (hc : (((us.map (·.2)).flatten).map (fun c => c.data.length + (c.filename.getD []).length + 4)).sum < 2 ^ 64)
    (hk : ∀ c ∈ (us.map (·.2)).flatten, c.key ≠ [])
    (ho : ∀ i, ∀ o ∈ [(fails i).note, (fails i).first, (fails i).second], o ≠ some 2 ∧ o ≠ some 3 ∧ o ≠ some 4) :
    (upload cfg max noBody fails 0 {} us = .ok none ∧ ∃ i, i < us.length ∧ noBody i = true) ∨
    ∃ s used rest, upload cfg max noBody fails 0 {} us = .ok (some s) ∧
      s.body = (if max = 0 then (us.map (·.1)).flatten else (us.map (·.1)).flatten.take max) ∧
      (us.map (·.2)).flatten = used ++ rest ∧ (rest ≠ [] → fails used.length ≠ {}) ∧
      ∀ k, (∀ c ∈ (us.map (·.2)).flatten, c.filename.isSome = true → k ≠ c.key ++ b!"_filename") →
        UMap.get s.map (some k) = .ok (match valueOf cfg.checkUtf8 cfg.maxParam k used with
          | [] => none
          | v => some (v.map some ++ [some 0])) ∨
        (rest.head?.map (·.key) = some k ∧ UMap.get s.map (some k) = .ok none) := by
  have hmild : ∀ i, Mild (fails i) := fun i =>
    ⟨ho i _ (by simp), ho i _ (by simp), ho i _ (by simp)⟩
  obtain ⟨s', used, rest, h1, h2, h3, h4, h5⟩ := post_stands cfg fails (us.map (·.2)).flatten {} [] 0 rfl stands_init
    (by rw [Nat.zero_add]; exact hc) hk hmild
  have hb := C28_body max hm (us.map (·.1)) hl
  rcases upload_post cfg max noBody fails us 0 {} s' _ hb h1 with e | ⟨e, j, hj, hj'⟩
  · right
    refine ⟨_, used, rest, e, rfl, h2, ?_, ?_⟩
    · intro hr
      cases hs : s'.error with
      | false => exact absurd (h3 hs) hr
      | true =>
        have := (h4 hs).2
        simpa using this
    · intro k hkn
      rcases h5 k hkn with ⟨-, a, b⟩ | hv
      · exact .inr ⟨a, b⟩
      · left
        have hv : UMap.get s'.map (some k) = .ok (if valueOf cfg.checkUtf8 cfg.maxParam k used = [] then none
            else some ((valueOf cfg.checkUtf8 cfg.maxParam k used).map some ++ [some 0])) := hv
        simp only [hv]
        cases valueOf cfg.checkUtf8 cfg.maxParam k used with
        | nil => rfl
        | cons _ _ => rfl
  · left
    exact ⟨e, j, hj, by simpa using hj'⟩

/-- **C186, with memory enough.** Whatever is uploaded, nameless parts and file names included: the endpoints are called, the body is
the one of Model/FileUpload.lean, and `map_post_body` has exactly the parameters of the form of that model, in order, with these
values and lengths, each value followed by a NUL. (So what C29, C147, C148 and C180 say about forms holds of the structure that
u_map.c builds.) -/
theorem C186_enough (cfg : Cfg) (max : Nat) (us : List (Bytes × List Call))
    (hm : max < 2 ^ 64) (hl : (us.map (·.1)).flatten.length < 2 ^ 64)
    (hc : (((us.map (·.2)).flatten).map (fun c => c.data.length + (c.filename.getD []).length + 4)).sum < 2 ^ 64) :
    ∃ s t, upload cfg max (fun _ => false) (fun _ => {}) 0 {} us = .ok (some s) ∧
      Upload.upload cfg max none ({ user := () } : Upload.Conn Unit) us = .ok t ∧ s.body = t.body ∧
      UMap.enumKeys s.map = .ok (t.map.map (·.1)) ∧
      ∀ k, getLength s.map (some k) = .ok ((find t.map k).map List.length) ∧
        UMap.get s.map (some k) = .ok (match find t.map k with
          | none => none
          | some [] => none
          | some v => some (v.map some ++ [some 0])) := by
  have hb := C28_body max hm (us.map (·.1)) hl
  obtain ⟨s', h1, h2, h3⟩ := post_same (σ := Unit) cfg (us.map (·.2)).flatten {} { user := () } 0 rfl stands_init
    (by rw [Nat.zero_add]; exact hc)
  have hu := upload_eq (σ := Unit) cfg max none us { user := () } _ hb
  rcases upload_post cfg max (fun _ => false) (fun _ => {}) us 0 {} s' _ hb h1 with e | ⟨-, j, -, hj⟩
  · refine ⟨_, _, e, hu, rfl, ?_, ?_⟩
    · show UMap.enumKeys s'.map = _
      rw [h3.eq, enumKeys_rep, List.map_map]
      rfl
    · intro k
      refine ⟨getLength_stands h3 k, ?_⟩
      show UMap.get s'.map (some k) = _
      rw [get_stands h3]
      cases find (Upload.postProcess cfg none ({ user := () } : Upload.Conn Unit) (us.map (·.2)).flatten).map k with
      | none => rfl
      | some v => cases v <;> rfl
  · cases hj

/-- Two parts with three fields, one of them of two values. -/
private def form : List (Bytes × List Call) :=
  [(b!"..", [⟨b!"a", none, none, none, b!"1", 0⟩, ⟨b!"b", none, none, none, b!"2", 0⟩]),
   (b!"..", [⟨b!"a", none, none, none, b!"3", 0⟩, ⟨b!"c", none, none, none, b!"4", 0⟩])]

/-- What a program finds under these names after the upload; `none`: it is not called. -/
private def found (cfg : Cfg) (noBody : Nat → Bool) (fails : Nat → Fails) (us : List (Bytes × List Call)) (ks : List Bytes) :
    Option (List (Res (Option Buf))) :=
  match upload cfg 0 noBody fails 0 {} us with
  | .ok (some s) => some (ks.map (fun k => UMap.get s.map (some k)))
  | _ => none

private def text (v : Bytes) : Res (Option Buf) := .ok (some (v.map some ++ [some 0]))

example : found ⟨true, 0, false⟩ (fun _ => false) (fun _ => {}) form [b!"a", b!"b", b!"c"] =
    some [text b!"1,3", text b!"2", text b!"4"] := by decide +kernel

example : (∀ c ∈ (form.map (·.2)).flatten, c.key ≠ []) ∧ (form.map (·.1)).flatten.length < 2 ^ 64 ∧
    (((form.map (·.2)).flatten).map (fun c => c.data.length + (c.filename.getD []).length + 4)).sum < 2 ^ 64 := by decide

example : upload ⟨true, 0, false⟩ 0 (fun i => i == 1) (fun _ => {}) 0 {} form = .ok none := rfl

/-- **C186 is false of the code**: memory runs out for the second field; the endpoints are called with the first one alone, as if the
rest of the form had not been sent. -/
theorem C186_cut_false : found ⟨true, 0, false⟩ (fun _ => false) (fun n => { first := if n = 1 then some 0 else none }) form
    [b!"a", b!"b", b!"c"] = some [text b!"1", .ok none, .ok none] := by decide +kernel

/-- **C186 is false of the code**: memory runs out for the second value of a field; the first, already received, is lost too, and the
map still says that it is one byte long, or two if the comma could be stored. -/
theorem C186_value_false :
    found ⟨true, 0, false⟩ (fun _ => false) (fun n => { first := if n = 2 then some 0 else none }) form
      [b!"a", b!"b", b!"c"] = some [.ok none, text b!"2", .ok none] ∧
    (match upload ⟨true, 0, false⟩ 0 (fun _ => false) (fun n => { first := if n = 2 then some 0 else none }) 0 {} form with
      | .ok (some s) => getLength s.map (some b!"a") | _ => .ub) = .ok (some 1) ∧
    (match upload ⟨true, 0, false⟩ 0 (fun _ => false) (fun n => { second := if n = 2 then some 0 else none }) 0 {} form with
      | .ok (some s) => getLength s.map (some b!"a") | _ => .ub) = .ok (some 2) := by decide +kernel

/-- **C186 is false of the code**: memory runs out for the name of a file; the contents arrive, the name does not. -/
theorem C186_name_false :
    found ⟨true, 0, false⟩ (fun _ => false) (fun _ => { name := true }) [(b!".", [⟨b!"f", some b!"x.txt", none, none, b!"ab", 0⟩])]
      [b!"f", b!"f_filename"] = some [text b!"ab", .ok none] ∧
    found ⟨true, 0, false⟩ (fun _ => false) (fun _ => { note := some 1 }) [(b!".", [⟨b!"f", some b!"x.txt", none, none, b!"ab", 0⟩])]
      [b!"f", b!"f_filename"] = some [text b!"ab", .ok none] ∧
    found ⟨true, 0, false⟩ (fun _ => false) (fun _ => {}) [(b!".", [⟨b!"f", some b!"x.txt", none, none, b!"ab", 0⟩])]
      [b!"f", b!"f_filename"] = some [text b!"ab", text (b!"x.txt" ++ [0])] := by
  refine ⟨by decide +kernel, by decide +kernel, by decide +kernel⟩

/-- **C186 is false of the code**: an array of the map cannot grow; the endpoints are called all the same, and whatever name a program
asks for, or whatever new name the next block has, is looked up through a NULL pointer or among freed strings. -/
theorem C186_array_false :
    found ⟨true, 0, false⟩ (fun _ => false) (fun n => { first := if n = 1 then some 2 else none }) form [b!"a", b!"x"] =
      some [.ub, .ub] ∧
    found ⟨true, 0, false⟩ (fun _ => false) (fun n => { first := if n = 1 then some 3 else none }) form [b!"a", b!"x"] =
      some [.ub, .ub] ∧
    upload ⟨true, 0, false⟩ 0 (fun _ => false) (fun _ => { note := some 2 }) 0 {}
      [(b!".", [⟨b!"f", some b!"x.txt", none, none, b!"ab", 0⟩])] = .ub := by
  refine ⟨by decide +kernel, by decide +kernel, rfl⟩

end Verif.Props
