import Verif.Model.ReadFile
import Verif.Lemmas.UMap
import Verif.Props.Instance
/-!
# C206: an example server told to use TLS uses it, with the key and the certificate in the files named

example_programs/simple_example/README.md:21: "If you want this program to listen to a secure (https) connection, create a certificate with its
certificate and private keys in to separate files, and run the program with the options `-secure <key_file> <cert_file>`." The name may be that
of any file, `/dev/stdin` or `<(…)` of the shell among them.
-/
namespace Verif.Props
open Verif.ReadFile
open Verif.Instance (Instance Mhd Opt)
open Verif.UMap (Buf strBuf readStr)

namespace ReadFile

theorem sizeT_nat (n : Nat) (h : (n : Int) ≤ longMax) : sizeT n = n := by
  unfold sizeT
  unfold longMax at h
  rw [Int.emod_eq_of_lt (by omega) (by omega)]
  simp

theorem read_eq (alloc : Nat → Bool) (n : Nat) (c : Bytes) (hn : (n : Int) < longMax) (ha : alloc (n + 1) = true) :
    readFile alloc true (some ⟨n, c⟩) =
      .ok (some (((c.take n).map some ++ List.replicate (n + 1 - (c.take n).length) none).set n (some 0))) := by
  have h1 : sizeT ((n : Int) + 1) = n + 1 := by
    have := sizeT_nat (n + 1) (by push_cast; omega)
    simpa using this
  have h2 : sizeT (n : Int) = n := sizeT_nat n (by omega)
  have h3 : (c.take n).length ≤ n := List.length_take_le ..
  have hlt : ¬ ((n : Int) + 1 > longMax) := by omega
  have hf : fread (List.replicate (n + 1) none) n c =
      .ok ((c.take n).map some ++ List.replicate (n + 1 - (c.take n).length) none) := by
    unfold fread
    simp only [List.length_replicate]
    rw [if_pos (by omega)]
    simp
  have hs : ∀ b : Buf, b.length = n + 1 → store0 b n = .ok (b.set n (some 0)) := by
    intro b hb
    unfold store0
    rw [if_pos ⟨by omega, by omega⟩]
    simp
  unfold readFile
  simp only [if_true, if_neg hlt, h1, h2, ha, hf, Res.ok_bind]
  rw [hs _ (by
    rw [List.length_append, List.length_map, List.length_replicate]
    omega)]
  rfl

end ReadFile
open ReadFile

/-! ## C206 -/

/-- C206: of any file whose length is told — one that grows while it is read among them — the block holds the first bytes, as many as were told,
and a NUL. -/
theorem C206_read_partial (alloc : Nat → Bool) (n : Nat) (c : Bytes) (hn : (n : Int) < longMax) (hc : n ≤ c.length) (ha : alloc (n + 1) = true) :
    readFile alloc true (some ⟨n, c⟩) = .ok (some (strBuf (c.take n))) := by
  rw [read_eq alloc n c hn ha]
  have hl : (c.take n).length = n := by rw [List.length_take]; omega
  rw [hl, show n + 1 - n = 1 by omega, List.set_append_right _ _ (by rw [List.length_map]; omega)]
  simp [strBuf, hc]

/-- C206: a file of text is read whole, by whoever reads the block as a text. -/
theorem C206_text_partial (alloc : Nat → Bool) (c : Bytes) (hn : (c.length : Int) < longMax) (hz : NoNul c) (ha : alloc (c.length + 1) = true) :
    ∃ b, readFile alloc true (some ⟨c.length, c⟩) = .ok (some b) ∧ readStr b = .ok c := by
  refine ⟨strBuf c, ?_, ?_⟩
  · rw [C206_read_partial alloc c.length c hn (Nat.le_refl _) ha, List.take_length]
  · have := UMap.readStr_strBuf c [] hz
    simpa using this

example : readFile (fun _ => true) true (some ⟨3, b!"key"⟩) = .ok (some [some 0x6b, some 0x65, some 0x79, some 0]) := by decide

example : ∃ b, readFile (fun _ => true) true (some ⟨3, b!"key"⟩) = .ok (some b) ∧ readStr b = .ok b!"key" :=
  C206_text_partial _ b!"key" (by decide) (by decide) rfl

/-- C206: without a name, without a file, or without memory for a file whose length is told, there is no text. -/
theorem C206_none (alloc : Nat → Bool) (file : Option File) (n : Nat) (c : Bytes) (hn : (n : Int) < longMax) (ha : alloc (n + 1) = false) :
    readFile alloc false file = .ok none ∧ readFile alloc true none = .ok none ∧ readFile alloc true (some ⟨n, c⟩) = .ok none := by
  refine ⟨rfl, rfl, ?_⟩
  have h1 : sizeT ((n : Int) + 1) = n + 1 := by
    have := sizeT_nat (n + 1) (by push_cast; omega)
    simpa using this
  have hlt : ¬ ((n : Int) + 1 > longMax) := by omega
  unfold readFile
  simp [if_neg hlt, h1, ha]

example : readFile (fun n => decide (n < 4)) true (some ⟨3, b!"key"⟩) = .ok none := by decide

/-- C206 is false of a file that becomes shorter between `ftell` and `fread`, or that cannot be read to its end: what `fread` returns is not looked
at. The bytes that were not read are those the memory had before, and whoever reads the text reads them. -/
theorem C206_short_false (alloc : Nat → Bool) (n : Nat) (c : Bytes) (hn : (n : Int) < longMax) (hc : c.length < n) (hz : NoNul c)
    (ha : alloc (n + 1) = true) :
    ∃ b, readFile alloc true (some ⟨n, c⟩) = .ok (some b) ∧ b[c.length]? = some none ∧ readStr b = .ub := by
  have ht : c.take n = c := List.take_of_length_le (by omega)
  obtain ⟨k, hk⟩ : ∃ k, n = c.length + k + 1 := ⟨n - c.length - 1, by omega⟩
  have he : ((c.take n).map some ++ List.replicate (n + 1 - (c.take n).length) none).set n (some 0) =
      c.map some ++ none :: (List.replicate (k + 1) none).set k (some 0) := by
    rw [ht, List.set_append_right _ _ (by simp; omega)]
    have : n + 1 - c.length = k + 2 := by omega
    rw [this, List.length_map, show n - c.length = k + 1 by omega, List.replicate_succ, List.set_cons_succ]
  refine ⟨_, read_eq alloc n c hn ha, ?_, ?_⟩
  · rw [he, List.getElem?_append_right (by simp)]
    simp
  · rw [he]
    generalize (List.replicate (k + 1) (none : Option UInt8)).set k (some 0) = t
    clear he ht hk hc
    induction c with
    | nil => rfl
    | cons a c ih =>
      have h0 : a ≠ 0 := by intro h0; apply hz; simp [h0]
      have := ih (fun hm => hz (List.mem_cons_of_mem _ hm))
      simp only [List.map_cons, List.cons_append, readStr]
      rw [if_neg (by simpa using h0), this]
      rfl

example : ∃ b, readFile (fun _ => true) true (some ⟨5, b!"key"⟩) = .ok (some b) ∧ b[3]? = some none ∧ readStr b = .ub :=
  C206_short_false _ 5 b!"key" (by decide) (by decide) (by decide) rfl

/-- C206 is false of pipes, `/dev/stdin` and `<(…)` of the shell: `ftell` says -1, so the block has 0 bytes; all that comes through the pipe is
stored past its end, and the NUL before its start — whatever comes, nothing among it. -/
theorem C206_pipe_false (alloc : Nat → Bool) (ha : alloc 0 = true) (c : Bytes) : readFile alloc true (some ⟨-1, c⟩) = .ub := by
  have h1 : sizeT (-1 + 1) = 0 := by decide
  have hlt : ¬ ((-1 : Int) + 1 > longMax) := by decide
  unfold readFile
  simp only [if_true, if_neg hlt, h1, ha]
  have hs : ∀ b : Buf, store0 b (-1) = .ub := by
    intro b
    unfold store0
    rw [if_neg (by omega)]
  cases hf : fread (List.replicate 0 none) (sizeT (-1)) c with
  | ub => rfl
  | ok b => simp only [Res.ok_bind, hs]; rfl

/-- C206, the same: it is not only the NUL. As soon as one byte comes through the pipe, `fread` itself writes past the block. -/
theorem C206_overflow_false (a : UInt8) (c : Bytes) : fread (List.replicate (sizeT (-1 + 1)) none) (sizeT (-1)) (a :: c) = .ub := by
  have h1 : sizeT (-1 + 1) = 0 := by decide
  have h2 : sizeT (-1) = (2 ^ 64 - 2) + 1 := by decide
  unfold fread
  rw [h1, h2, List.take_succ_cons]
  simp

example : readFile (fun _ => true) true (some ⟨-1, b!"-----BEGIN"⟩) = .ub := C206_pipe_false _ rfl _

/-- C206 is false of a directory on a file system where the end of a directory is at the largest `long`: the addition overflows. -/
theorem C206_directory_false (alloc : Nat → Bool) (c : Bytes) : readFile alloc true (some ⟨longMax, c⟩) = .ub := by
  unfold readFile
  simp only [if_true]
  rw [if_pos (by decide)]

/-- C206: the three servers start with the texts of the files. -/
theorem C206_start_partial (alloc : Nat → Bool) (ha : ∀ n, alloc n = true) (k c a : Bytes) (hk : (k.length : Int) < longMax)
    (hc : (c.length : Int) < longMax) (hl : (a.length : Int) < longMax) (zk : NoNul k) (zc : NoNul c) (za : NoNul a)
    (u : Option Instance) (m : Mhd) (up : Bool) :
    simple alloc (some ⟨k.length, k⟩) (some ⟨c.length, c⟩) u m up = Instance.startSecure u m (some k) (some c) up ∧
    websocket alloc (some ⟨k.length, k⟩) (some ⟨c.length, c⟩) u m up = Instance.startSecure u m (some k) (some c) up ∧
    auth alloc (some ⟨k.length, k⟩) (some ⟨c.length, c⟩) (some ⟨a.length, a⟩) u m up = Instance.startSecureCa u m (some k) (some c) (some a) up := by
  obtain ⟨b1, h1, t1⟩ := C206_text_partial alloc k hk zk (ha _)
  obtain ⟨b2, h2, t2⟩ := C206_text_partial alloc c hc zc (ha _)
  obtain ⟨b3, h3, t3⟩ := C206_text_partial alloc a hl za (ha _)
  refine ⟨?_, ?_, ?_⟩
  · simp [simple, h1, h2, text, t1, t2]
  · simp [websocket, h1, h2, text, t1, t2]
  · simp [auth, h1, h2, h3, text, t1, t2, t3]

example : ∃ i m, auth (fun _ => true) (some ⟨1, b!"k"⟩) (some ⟨1, b!"c"⟩) (some ⟨1, b!"a"⟩) (some sampleInst) {} true = .ok (.ok, some i, m) ∧
    i.certAuth = true ∧ m.run.length = 1 := ⟨_, _, rfl, rfl, rfl⟩

/-- C206: whatever the files are, when `websocket_server -https` says that it started, the server speaks TLS. -/
theorem C206_https (alloc : Nat → Bool) (key cert : Option File) (u u' : Option Instance) (m m' : Mhd) (up : Bool)
    (h : websocket alloc key cert u m up = .ok (.ok, u', m')) :
    ∃ i d, u' = some i ∧ m'.run = m.run ++ [(m.fresh, d)] ∧ i.daemon = some m.fresh ∧ d.flags.ssl = true := by
  unfold websocket at h
  cases hk : readFile alloc true key with
  | ub => rw [hk] at h; cases h
  | ok k =>
  rw [hk] at h; simp only [Res.ok_bind] at h
  cases hc : readFile alloc true cert with
  | ub => rw [hc] at h; cases h
  | ok c =>
  rw [hc] at h; simp only [Res.ok_bind] at h
  cases k with
  | none => simp at h
  | some k =>
  cases c with
  | none => simp at h
  | some c =>
  simp only [Option.isNone_some, Bool.or_self, Bool.false_eq_true, if_false, text] at h
  cases tk : readStr k with
  | ub => rw [tk] at h; cases h
  | ok tk' =>
  rw [tk] at h; simp only [Res.ok_bind, Res.pure_eq] at h
  cases tc : readStr c with
  | ub => rw [tc] at h; cases h
  | ok tc' =>
  rw [tc] at h; simp only [Res.ok_bind] at h
  obtain ⟨-, i, d, h1, h2, h3, -, h5, -⟩ := C63_others.1 h
  exact ⟨i, d, h1, h2, h3, h5.2 (by simp)⟩

example : ∃ i m, websocket (fun _ => true) (some ⟨1, b!"k"⟩) (some ⟨1, b!"c"⟩) (some sampleInst) {} true = .ok (.ok, some i, m) := ⟨_, _, rfl⟩

/-- C206: when one of the two files could be read — whatever is in it, whatever the other file is — and `simple_example -secure` says that it started,
the server speaks TLS. -/
theorem C206_secure_partial (alloc : Nat → Bool) (key cert : Option File) (u u' : Option Instance) (m m' : Mhd) (up : Bool) (b : Buf)
    (hr : readFile alloc true key = .ok (some b) ∨ readFile alloc true cert = .ok (some b))
    (h : simple alloc key cert u m up = .ok (.ok, u', m')) :
    ∃ i d, u' = some i ∧ m'.run = m.run ++ [(m.fresh, d)] ∧ i.daemon = some m.fresh ∧ d.flags.ssl = true := by
  unfold simple at h
  cases hk : readFile alloc true key with
  | ub => rw [hk] at h; cases h
  | ok k =>
  rw [hk] at h hr; simp only [Res.ok_bind] at h
  cases hc : readFile alloc true cert with
  | ub => rw [hc] at h; cases h
  | ok c =>
  rw [hc] at h hr; simp only [Res.ok_bind] at h
  cases tk : text k with
  | ub => rw [tk] at h; cases h
  | ok tk' =>
  rw [tk] at h; simp only [Res.ok_bind] at h
  cases tc : text c with
  | ub => rw [tc] at h; cases h
  | ok tc' =>
  rw [tc] at h; simp only [Res.ok_bind] at h
  have some_text : ∀ (x : Buf) (t : Option Bytes), text (some x) = .ok t → t ≠ none := by
    intro x t ht
    unfold text at ht
    simp only at ht
    cases hx : readStr x with
    | ub => rw [hx] at ht; cases ht
    | ok s => rw [hx] at ht; simp only [Res.ok_bind, Res.pure_eq] at ht; injection ht with ht; rw [← ht]; simp
  obtain ⟨hkc, i, d, h1, h2, h3, -, h5, -⟩ := C63_others.1 h
  refine ⟨i, d, h1, h2, h3, h5.2 ?_⟩
  rcases hr with hr | hr
  · injection hr with hr
    rw [hr] at tk
    exact some_text b tk' tk
  · injection hr with hr
    rw [hr] at tc
    exact fun hn => some_text b tc' tc (hkc.1 hn)

example : ∃ i m, simple (fun _ => true) (some ⟨1, b!"k"⟩) (some ⟨1, b!"c"⟩) (some sampleInst) {} true = .ok (.ok, some i, m) := ⟨_, _, rfl⟩

/-- C206: when the file of the authority could be read and `auth_server` says that it started, the server speaks TLS and verifies clients against what
is in that file. -/
theorem C206_clients_partial (alloc : Nat → Bool) (key cert ca : Option File) (u u' : Option Instance) (m m' : Mhd) (up : Bool) (b : Buf) (a : Bytes)
    (hr : readFile alloc true ca = .ok (some b)) (ht : readStr b = .ok a) (h : auth alloc key cert ca u m up = .ok (.ok, u', m')) :
    ∃ i d, u' = some i ∧ m'.run = m.run ++ [(m.fresh, d)] ∧ d.flags.ssl = true ∧ i.certAuth = true ∧ Opt.trust a ∈ d.ops := by
  unfold auth at h
  cases hk : readFile alloc true key with
  | ub => rw [hk] at h; cases h
  | ok k =>
  rw [hk] at h; simp only [Res.ok_bind] at h
  cases hc : readFile alloc true cert with
  | ub => rw [hc] at h; cases h
  | ok c =>
  rw [hc] at h
  simp only [Res.ok_bind, hr] at h
  cases tk : text k with
  | ub => rw [tk] at h; cases h
  | ok tk' =>
  rw [tk] at h; simp only [Res.ok_bind] at h
  cases tc : text c with
  | ub => rw [tc] at h; cases h
  | ok tc' =>
  rw [tc] at h
  have hn : text (some b) = .ok (some a) := by simp [text, ht]
  simp only [Res.ok_bind, hn] at h
  obtain ⟨hkeys, i, d, h1, h2, -, h4, h5, -, -, h8⟩ := C63_tls h
  refine ⟨i, d, h1, h2, h4.2 ?_, h5.2 (by simp), (h8 a).2 rfl⟩
  cases tk' <;> simp_all [KeysFine]

example : readFile (fun _ => true) true (some ⟨1, b!"a"⟩) = .ok (some (strBuf b!"a")) ∧
    ∃ i m, auth (fun _ => true) (some ⟨1, b!"k"⟩) (some ⟨1, b!"c"⟩) (some ⟨1, b!"a"⟩) (some sampleInst) {} true = .ok (.ok, some i, m) :=
  ⟨by decide, _, _, rfl⟩

/-- C206 is false of `simple_example -secure`: when neither file can be opened it starts all the same, on the same port and without TLS, whatever the
instance, and it then says "Start secure framework". `auth_server` does so when none of its three files can be opened. -/
theorem C206_plain_false :
    (∀ (alloc : Nat → Bool) (u : Option Instance) (m : Mhd) (up : Bool),
      simple alloc none none u m up = Instance.start u m up ∧ auth alloc none none none u m up = Instance.start u m up) ∧
    (∀ (alloc : Nat → Bool) (u u' : Option Instance) (m m' : Mhd) (up : Bool), simple alloc none none u m up = .ok (.ok, u', m') →
      ∃ i d, u' = some i ∧ m'.run = m.run ++ [(m.fresh, d)] ∧ i.daemon = some m.fresh ∧ d.flags.ssl = false) ∧
    ∃ i m', simple (fun _ => true) none none (some sampleInst) {} true = .ok (.ok, some i, m') ∧ m'.run.length = 1 := by
  refine ⟨fun alloc u m up => ⟨rfl, rfl⟩, fun alloc u u' m m' up h => ?_, _, _, rfl, rfl⟩
  obtain ⟨i, d, h1, h2, h3, -, h5⟩ := (C63_others (key := none) (cert := none) (u := u) (up := up)).2 h
  exact ⟨i, d, h1, h2, h3, h5⟩

/-- C206 is false of `auth_server`: when the file of the authority cannot be opened it starts all the same, whatever the other files, as if no
authority had been named: it verifies no client certificate. -/
theorem C206_clients_false :
    (∀ (alloc : Nat → Bool) (key cert : Option File) (u u' : Option Instance) (m m' : Mhd) (up : Bool),
      auth alloc key cert none u m up = .ok (.ok, u', m') →
      ∃ i d, u' = some i ∧ m'.run = m.run ++ [(m.fresh, d)] ∧ i.certAuth = false ∧ ∀ a, Opt.trust a ∉ d.ops) ∧
    ∃ i m', auth (fun _ => true) (some ⟨1, b!"k"⟩) (some ⟨1, b!"c"⟩) none (some sampleInst) {} true = .ok (.ok, some i, m') ∧ m'.run.length = 1 := by
  refine ⟨fun alloc key cert u u' m m' up h => ?_, _, _, rfl, rfl⟩
  unfold auth at h
  cases hk : readFile alloc true key with
  | ub => rw [hk] at h; cases h
  | ok k =>
  rw [hk] at h; simp only [Res.ok_bind] at h
  cases hc : readFile alloc true cert with
  | ub => rw [hc] at h; cases h
  | ok c =>
  rw [hc] at h
  have ha : readFile alloc true none = .ok none := rfl
  simp only [Res.ok_bind, ha] at h
  cases tk : text k with
  | ub => rw [tk] at h; cases h
  | ok tk' =>
  rw [tk] at h; simp only [Res.ok_bind] at h
  cases tc : text c with
  | ub => rw [tc] at h; cases h
  | ok tc' =>
  rw [tc] at h
  have hn : text none = .ok none := rfl
  simp only [Res.ok_bind, hn] at h
  obtain ⟨-, i, d, h1, h2, -, -, h5, -, -, h8⟩ := C63_tls h
  refine ⟨i, d, h1, h2, ?_, fun a hm => ?_⟩
  · cases hc : i.certAuth with
    | false => rfl
    | true => exact absurd rfl (h5.1 hc)
  · have := (h8 a).1 hm
    cases this

end Verif.Props
