import Verif.Model.PutFile
import Verif.Props.UMap
import Verif.Props.ReadFile
/-!
# C207: a file put into a map is found there, under its name and whole
-/
namespace Verif.Props
open Verif.PutFile
open Verif.ReadFile (File sizeT fread longMax)
open Verif.UMap (UMap Buf)

namespace PutFile

theorem fread_all (n : Nat) (c : Bytes) (hc : n ≤ c.length) : fread (List.replicate n none) n c = .ok ((c.take n).map some) := by
  have hl : (c.take n).length = n := by rw [List.length_take]; omega
  unfold fread
  simp only [List.length_replicate]
  rw [if_pos (by omega), hl]
  simp

theorem mk_src (k : Bytes) (src : Buf) (o : Nat) :
    UMap.mk k (some src) o src.length = ⟨k, List.replicate o none ++ src ++ [some 0], o + src.length⟩ := by
  simp only [UMap.mk, UMap.Ent.mk.injEq, true_and, and_true, UMap.copyAt, List.take_length]
  have h1 : (List.replicate (o + src.length + 1) (none : Option UInt8)).take o = List.replicate o none := by
    rw [List.take_replicate, Nat.min_eq_left (by omega)]
  have h2 : (List.replicate (o + src.length + 1) (none : Option UInt8)).drop (o + src.length) = [none] := by simp
  rw [h1, h2]
  have : o + src.length = (List.replicate o (none : Option UInt8) ++ src).length := by simp
  conv => lhs; arg 2; rw [this]
  exact UMap.set_last _ _ _

/-- A block put at an offset under a new name, in any map. -/
theorem put_new (m : UMap) (h : Reach m) (path : Bytes) (hp : path ≠ []) (hnew : UMap.hasKey m (some path) = .ok false) (src : Buf) (o : Nat)
    (hb : o + src.length + 1 < 2 ^ 64) (hpos : 0 < o + src.length) :
    ∃ m', UMap.putBinary m (some path) (some src) o src.length = .ok (.ok, m') ∧
      UMap.getLength m' (some path) = .ok (some (o + src.length)) ∧
      UMap.get m' (some path) = .ok (some (List.replicate o none ++ src ++ [some 0])) := by
  have hv : UMap.ValidArgs (some src) o src.length := ⟨hb, by intro s hs; cases hs; omega, by simp⟩
  obtain ⟨es, rfl, hg⟩ := reach_wf h
  rw [UMap.hasKey_rep] at hnew
  have hany : es.any (fun e => e.key == path) = false := by simpa using hnew
  have hnone : es.find? (fun e => e.key == path) = none := by
    rw [List.find?_eq_none]; rw [List.any_eq_false] at hany; exact hany
  have hf := UMap.find?_eput es path path (some src) o src.length
  rw [if_pos rfl, hnone] at hf
  simp only [mk_src] at hf
  refine ⟨_, UMap.putBinary_rep es path _ _ _ hp hg hv, ?_, ?_⟩
  · rw [UMap.getLength_rep, hf]; rfl
  · rw [UMap.get_rep, hf]
    simp only [Option.bind_some]
    rw [if_pos (by omega)]

theorem fread_some (n : Nat) (c : Bytes) :
    fread (List.replicate n none) n c = .ok ((c.take n).map some ++ List.replicate (n - c.length) none) := by
  have hl : (c.take n).length = min n c.length := List.length_take ..
  unfold fread
  simp only [List.length_replicate]
  rw [if_pos (by omega), hl, List.drop_replicate, show n - min n c.length = n - c.length by omega]

end PutFile
open PutFile

/-! ## C207 -/

/-- C207: a file whose length is told — one that grows while it is read among them — put under a new name into any map is found there: as many bytes
as were told, NULs among them, with a NUL behind them. -/
theorem C207_found_partial (alloc : Nat → Bool) (m : UMap) (h : Reach m) (path : Bytes) (hp : path ≠ [])
    (hnew : UMap.hasKey m (some path) = .ok false) (n : Nat) (c : Bytes) (hn : (n : Int) ≤ longMax) (hc : n ≤ c.length) (ha : alloc n = true) :
    ∃ m', putFile alloc m path (some ⟨n, c⟩) 0 = .ok (.map .ok, m') ∧ Reach m' ∧ UMap.getLength m' (some path) = .ok (some n) ∧
      (0 < n → UMap.get m' (some path) = .ok (some ((c.take n).map some ++ [some 0]))) := by
  have hl : (c.take n).length = n := by rw [List.length_take]; omega
  have hb : n + 1 < 2 ^ 64 := by unfold longMax at hn; omega
  obtain ⟨m', h1, h2, -, h4⟩ := C10_blocks_concatenate m h path hp hnew (c.take n) [] (by simpa [hl] using hb)
  have hv : UMap.ValidArgs (some ((c.take n).map some)) 0 n := ⟨by omega, by intro src hs; cases hs; simp; omega, by simp⟩
  obtain ⟨es, hes, hg⟩ := reach_wf h
  have hput := UMap.putBinary_rep es path (some ((c.take n).map some)) 0 n hp hg hv
  rw [← hes] at hput
  simp only [putBlocks, hl, hput, Res.ok_bind] at h1
  injection h1 with h1
  rw [h1] at hput
  have hs : sizeT (n : Int) = n := ReadFile.sizeT_nat n hn
  refine ⟨m', ?_, Reach.putBinary h hv hput, by simpa [hl] using h2, fun hn0 => by simpa [hl] using h4 (by simpa [hl] using hn0)⟩
  unfold putFile
  simp only [hs, ha, if_true, fread_all n c hc, Res.ok_bind, hput]
  rfl

example : ∃ m', putFile (fun _ => true) UMap.init b!"a.bin" (some ⟨3, [1, 0, 2]⟩) 0 = .ok (.map .ok, m') ∧
    UMap.get m' (some b!"a.bin") = .ok (some [some 1, some 0, some 2, some 0]) := ⟨_, rfl, by decide +kernel⟩

/-- C207: a file that cannot be opened, one for which there is no memory, and a pipe — for which more memory is asked than any machine has — leave
the map as it is, and this is told. -/
theorem C207_unread (alloc : Nat → Bool) (m : UMap) (path : Bytes) (offset : Nat) (f : File) (hf : alloc (sizeT f.told) = false) (c : Bytes)
    (hmax : alloc (2 ^ 64 - 1) = false) :
    putFile alloc m path none offset = .ok (.params, m) ∧ putFile alloc m path (some f) offset = .ok (.error, m) ∧
    putFile alloc m path (some ⟨-1, c⟩) offset = .ok (.error, m) := by
  have h1 : sizeT (-1) = 2 ^ 64 - 1 := by decide
  refine ⟨rfl, ?_, ?_⟩
  · simp [putFile, hf]
  · unfold putFile
    simp only [h1, hmax]
    rfl

example : putFile (fun n => decide (n < 100)) UMap.init b!"fifo" (some ⟨-1, b!"data"⟩) 0 = .ok (.error, UMap.init) :=
  (C207_unread (fun n => decide (n < 100)) UMap.init b!"fifo" 0 ⟨-1, []⟩ (by decide) b!"data" (by decide)).2.2

/-- C207 is false of a name that is in the map: a file that is not longer than what the map holds under its name, put again into any map, replaces only
its beginning. The end of what it held before stays, and the old length. -/
theorem C207_again_false :
    (∀ (alloc : Nat → Bool) (m : UMap) (path : Bytes) (old : Buf) (len n : Nat) (c : Bytes), Reach m → path ≠ [] →
      UMap.get m (some path) = .ok (some old) → UMap.getLength m (some path) = .ok (some len) → n ≤ len → (n : Int) ≤ longMax → n ≤ c.length →
      alloc n = true →
      ∃ m', putFile alloc m path (some ⟨n, c⟩) 0 = .ok (.map .ok, m') ∧ UMap.getLength m' (some path) = .ok (some len) ∧
        UMap.get m' (some path) = .ok (some ((c.take n).map some ++ old.drop n))) ∧
    ∃ m1 m2,
      putFile (fun _ => true) UMap.init b!"f" (some ⟨5, b!"hello"⟩) 0 = .ok (.map .ok, m1) ∧
      putFile (fun _ => true) m1 b!"f" (some ⟨2, b!"by"⟩) 0 = .ok (.map .ok, m2) ∧
      UMap.getLength m2 (some b!"f") = .ok (some 5) ∧ UMap.get m2 (some b!"f") = .ok (some (UMap.strBuf b!"byllo")) := by
  refine ⟨?_, _, _, rfl, rfl, by decide +kernel, by decide +kernel⟩
  intro alloc m path old len n c h hp hget hlen hle hn hc ha
  have hl : (c.take n).length = n := by rw [List.length_take]; omega
  have hb : n + 1 < 2 ^ 64 := by unfold longMax at hn; omega
  have hv : UMap.ValidArgs (some ((c.take n).map some)) 0 n := ⟨by omega, by intro src hs; cases hs; simp; omega, by simp⟩
  obtain ⟨es, rfl, hg⟩ := reach_wf h
  have hput := UMap.putBinary_rep es path (some ((c.take n).map some)) 0 n hp hg hv
  have hs : sizeT (n : Int) = n := ReadFile.sizeT_nat n hn
  rw [UMap.get_rep] at hget
  rw [UMap.getLength_rep] at hlen
  cases hf : es.find? (fun e => e.key == path) with
  | none => rw [hf] at hlen; simp at hlen
  | some e =>
    rw [hf] at hget hlen
    simp only [Option.map_some, Res.ok.injEq, Option.some.injEq] at hlen
    simp only [Option.bind_some, Res.ok.injEq] at hget
    split at hget
    · rename_i hpos
      injection hget with hget
      have hu : UMap.upd e (some ((c.take n).map some)) 0 n = { e with buf := (c.take n).map some ++ old.drop n } := by
        unfold UMap.upd
        simp only
        rw [if_neg (by omega)]
        simp only [UMap.copyAt, hget, Nat.zero_add, List.take_zero, List.nil_append]
        rw [List.take_of_length_le (by rw [List.length_map]; omega)]
      have hf' := UMap.find?_eput es path path (some ((c.take n).map some)) 0 n
      rw [if_pos rfl, hf] at hf'
      simp only [hu] at hf'
      refine ⟨UMap.rep (UMap.eput es path (some ((c.take n).map some)) 0 n), ?_, ?_, ?_⟩
      · unfold putFile
        simp only [hs, ha, if_true, fread_all n c hc, Res.ok_bind, hput]
        rfl
      · rw [UMap.getLength_rep, hf']
        simp [hlen]
      · rw [UMap.get_rep, hf']
        simp [hpos]
    · cases hget

/-- C207 is false of an offset under a new name, in every map: what comes before it was never written. -/
theorem C207_offset_false :
    (∀ (alloc : Nat → Bool) (m : UMap) (path : Bytes) (o n : Nat) (c : Bytes), Reach m → path ≠ [] → UMap.hasKey m (some path) = .ok false →
      (n : Int) ≤ longMax → o + n + 1 < 2 ^ 64 → 0 < o → n ≤ c.length → alloc n = true →
      ∃ m', putFile alloc m path (some ⟨n, c⟩) o = .ok (.map .ok, m') ∧
        UMap.get m' (some path) = .ok (some (List.replicate o none ++ (c.take n).map some ++ [some 0]))) ∧
    ∃ m, putFile (fun _ => true) UMap.init b!"f" (some ⟨2, b!"by"⟩) 2 = .ok (.map .ok, m) ∧
      UMap.get m (some b!"f") = .ok (some [none, none, some 0x62, some 0x79, some 0]) := by
  refine ⟨?_, _, rfl, by decide +kernel⟩
  intro alloc m path o n c h hp hnew hn hb ho hc ha
  have hl : ((c.take n).map some).length = n := by rw [List.length_map, List.length_take]; omega
  obtain ⟨m', h1, -, h3⟩ := put_new m h path hp hnew ((c.take n).map some) o (by rw [hl]; exact hb) (by omega)
  rw [hl] at h1
  refine ⟨m', ?_, h3⟩
  unfold putFile
  simp only [ReadFile.sizeT_nat n hn, ha, if_true, fread_all n c hc, Res.ok_bind, h1]
  rfl

/-- C207 is false of a file that becomes shorter while it is read, in every map: the map says that it holds all that was told, and the bytes that were
not read were never written. -/
theorem C207_short_false :
    (∀ (alloc : Nat → Bool) (m : UMap) (path : Bytes) (n : Nat) (c : Bytes), Reach m → path ≠ [] → UMap.hasKey m (some path) = .ok false →
      (n : Int) ≤ longMax → c.length < n → alloc n = true →
      ∃ m', putFile alloc m path (some ⟨n, c⟩) 0 = .ok (.map .ok, m') ∧ UMap.getLength m' (some path) = .ok (some n) ∧
        UMap.get m' (some path) = .ok (some (c.map some ++ List.replicate (n - c.length) none ++ [some 0]))) ∧
    ∃ m, putFile (fun _ => true) UMap.init b!"f" (some ⟨4, b!"by"⟩) 0 = .ok (.map .ok, m) ∧
      UMap.getLength m (some b!"f") = .ok (some 4) ∧ UMap.get m (some b!"f") = .ok (some [some 0x62, some 0x79, none, none, some 0]) := by
  refine ⟨?_, _, rfl, by decide +kernel, by decide +kernel⟩
  intro alloc m path n c h hp hnew hn hc ha
  have hb : n + 1 < 2 ^ 64 := by unfold longMax at hn; omega
  have hl : (c.map some ++ List.replicate (n - c.length) (none : Option UInt8)).length = n := by simp; omega
  obtain ⟨m', h1, h2, h3⟩ := put_new m h path hp hnew (c.map some ++ List.replicate (n - c.length) none) 0 (by rw [hl]; omega) (by omega)
  rw [hl] at h1 h2
  refine ⟨m', ?_, by simpa using h2, by simpa using h3⟩
  have ht : c.take n = c := List.take_of_length_le (by omega)
  have hf := fread_some n c
  rw [ht] at hf
  unfold putFile
  simp only [ReadFile.sizeT_nat n hn, ha, if_true, hf, Res.ok_bind, h1]
  rfl

end Verif.Props
