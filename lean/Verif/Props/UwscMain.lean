import Verif.Model.UwscMain
import Mathlib.Data.List.Induction
/-!
# C146: the options of uwsc
-/
namespace Verif.Props
open Verif.UwscMain
open Verif.Spec.OMap (OMap lookup put lookup_put_self lookup_put_other)

/-- The options of the help text (README.md of uwsc): letter, name, whether a value goes with it. -/
def helpText : List (UInt8 × Bytes × Bool) :=
  [(0x6f, b!"output-log-file", true), (0x78, b!"add-header", true), (0x62, b!"send-binary-file", true),
   (0x74, b!"send-text-file", true), (0x69, b!"non-interactive-send", false), (0x6c, b!"non-listening", false),
   (0x66, b!"fragmentation", true), (0x70, b!"protocol", true), (0x65, b!"extensions", true),
   (0x73, b!"non-secure", false), (0x71, b!"quiet", false), (0x76, b!"version", false), (0x68, b!"help", false)]

/-- How an option of the help text is written on a command line: `-c`, `--name`, `-cVALUE`, `-c VALUE`, `--name=VALUE`,
`--name VALUE`. The form `-e VALUE` is left out, see `C146_extension_false`. -/
inductive WrittenOption : UInt8 → Option Bytes → List Bytes → Prop
  | flag {c n} : (c, n, false) ∈ helpText → WrittenOption c none [[0x2d, c]]
  | flagName {c n} : (c, n, false) ∈ helpText → WrittenOption c none [b!"--" ++ n]
  | attached {c n} (v) : (c, n, true) ∈ helpText → v ≠ [] → WrittenOption c (some v) [0x2d :: c :: v]
  | separate {c n} (v) : (c, n, true) ∈ helpText → c ≠ 0x65 → WrittenOption c (some v) [[0x2d, c], v]
  | nameEq {c n} (v) : (c, n, true) ∈ helpText → WrittenOption c (some v) [b!"--" ++ n ++ b!"=" ++ v]
  | nameSep {c n} (v) : (c, n, true) ∈ helpText → WrittenOption c (some v) [b!"--" ++ n, v]

/-- A command line: options in any of the ways they can be written, with operands (the URL) anywhere between them. -/
inductive CommandLine : List (UInt8 × Option Bytes) → List Bytes → List Bytes → Prop
  | nil : CommandLine [] [] []
  | option {c v ws os us args} : WrittenOption c v ws → CommandLine os us args →
      CommandLine ((c, v) :: os) us (ws ++ args)
  | operand {u os us args} : u.head? ≠ some 0x2d → CommandLine os us args → CommandLine os (u :: us) (u :: args)

private theorem take_until (a b : Bytes) (c : UInt8) (h : c ∉ a) :
    (a ++ c :: b).takeWhile (· != c) = a ∧ (a ++ c :: b).dropWhile (· != c) = c :: b := by
  induction a with
  | nil => simp
  | cons x t ih =>
    have hx : x ≠ c := fun e => h (e ▸ List.mem_cons_self ..)
    obtain ⟨i1, i2⟩ := ih (fun e => h (List.mem_cons_of_mem _ e))
    constructor
    · simp [List.takeWhile_cons, hx, i1]
    · simp [List.dropWhile_cons, hx, i2]

private theorem take_all (a : Bytes) (c : UInt8) (h : c ∉ a) :
    a.takeWhile (· != c) = a ∧ a.dropWhile (· != c) = [] := by
  induction a with
  | nil => simp
  | cons x t ih =>
    have hx : x ≠ c := fun e => h (e ▸ List.mem_cons_self ..)
    obtain ⟨i1, i2⟩ := ih (fun e => h (List.mem_cons_of_mem _ e))
    constructor
    · simp [List.takeWhile_cons, hx, i1]
    · simp [List.dropWhile_cons, hx, i2]

private theorem flags_known : ∀ x ∈ helpText, x.2.2 = false →
    shortKind x.1 = some .optional ∧ findLong x.2.1 = some (.no, x.1) ∧ 0x3d ∉ x.2.1 ∧ x.1 ≠ 0x2d ∧ x.2.1 ≠ [] := by
  decide +kernel

private theorem values_known : ∀ x ∈ helpText, x.2.2 = true →
    shortKind x.1 = some (if x.1 = 0x65 then .optional else .required) ∧ findLong x.2.1 = some (.required, x.1) ∧
      0x3d ∉ x.2.1 ∧ x.1 ≠ 0x2d ∧ x.2.1 ≠ [] := by
  decide +kernel

private theorem classify_short (c : UInt8) (s : Bytes) (h : c ≠ 0x2d) :
    classify (0x2d :: c :: s) = some (cluster (c :: s)) := by
  unfold classify
  split
  · rename_i heq
    simp only [List.cons.injEq, true_and] at heq
    exact absurd heq.1 h
  · rename_i heq
    simp only [List.cons.injEq, true_and] at heq
    rw [heq.1, heq.2]
  · rename_i h1 h2
    exact absurd rfl (h2 c s)

private theorem getopt_some (a : Bytes) (t : List Bytes) (os : List Opt) (p : Option UInt8)
    (h1 : a ≠ b!"--") (h : classify a = some (os, p)) :
    getopt none (a :: t) = (os ++ (getopt p t).1, (getopt p t).2) := by
  rw [getopt, if_neg h1, h]

private theorem getopt_short (c : UInt8) (s : Bytes) (t : List Bytes) (os : List Opt) (p : Option UInt8)
    (hc : c ≠ 0x2d) (h : cluster (c :: s) = (os, p)) :
    getopt none ((0x2d :: c :: s) :: t) = (os ++ (getopt p t).1, (getopt p t).2) := by
  refine getopt_some _ _ _ _ ?_ (by rw [classify_short c s hc, h])
  intro e
  simp only [List.cons.injEq, true_and] at e
  exact hc e.1

private theorem getopt_long (s : Bytes) (t : List Bytes) (os : List Opt) (p : Option UInt8)
    (hs : s ≠ []) (h : long s = (os, p)) :
    getopt none ((b!"--" ++ s) :: t) = (os ++ (getopt p t).1, (getopt p t).2) := by
  refine getopt_some _ _ _ _ ?_ (by show some (long s) = _; rw [h])
  intro e
  simp only [List.cons_append, List.nil_append, List.cons.injEq, true_and] at e
  exact hs e

private theorem getopt_written {c : UInt8} {v : Option Bytes} {ws : List Bytes} (h : WrittenOption c v ws) (t : List Bytes) :
    getopt none (ws ++ t) = ((c, v) :: (getopt none t).1, (getopt none t).2) := by
  cases h with
  | @flag n hm =>
    obtain ⟨h1, -, -, h4, -⟩ := flags_known _ hm rfl
    have : cluster [c] = ([(c, none)], none) := by simp only [cluster]; rw [h1]; rfl
    exact getopt_short c [] t _ _ h4 this
  | @flagName n hm =>
    obtain ⟨-, h2, h3, -, h5⟩ := flags_known _ hm rfl
    have : long n = ([(c, none)], none) := by
      unfold long
      simp only [(take_all n 0x3d h3).1, (take_all n 0x3d h3).2]
      rw [h2]
      rfl
    exact getopt_long n t _ _ h5 this
  | @attached n v hm hv =>
    obtain ⟨h1, -, -, h4, -⟩ := values_known _ hm rfl
    have : cluster (c :: v) = ([(c, some v)], none) := by
      simp only [cluster]
      rw [h1]
      by_cases hc : c = 0x65
      · simp [hc, hv]
      · simp [hc, hv]
    exact getopt_short c v t _ _ h4 this
  | @separate n v hm hc =>
    obtain ⟨h1, -, -, h4, -⟩ := values_known _ hm rfl
    have : cluster [c] = ([], some c) := by
      simp only [cluster]
      rw [h1]
      simp [hc]
    exact getopt_short c [] (v :: t) _ _ h4 this
  | @nameEq n v hm =>
    obtain ⟨-, h2, h3, -, h5⟩ := values_known _ hm rfl
    have : long (n ++ 0x3d :: v) = ([(c, some v)], none) := by
      unfold long
      simp only [(take_until n v 0x3d h3).1, (take_until n v 0x3d h3).2]
      rw [h2]
    have hne : n ++ 0x3d :: v ≠ [] := by simp
    have := getopt_long (n ++ 0x3d :: v) t _ _ hne this
    simpa using this
  | @nameSep n v hm =>
    obtain ⟨-, h2, h3, -, h5⟩ := values_known _ hm rfl
    have : long n = ([], some c) := by
      unfold long
      simp only [(take_all n 0x3d h3).1, (take_all n 0x3d h3).2]
      rw [h2]
    exact getopt_long n (v :: t) _ _ h5 this

private theorem getopt_line {os : List (UInt8 × Option Bytes)} {us args : List Bytes} (h : CommandLine os us args) :
    getopt none args = (os, us) := by
  induction h with
  | nil => rfl
  | @option c v ws os us args hw _ ih => rw [getopt_written hw, ih]
  | @operand u os us args hu _ ih =>
    have h1 : u ≠ b!"--" := fun e => by subst e; exact hu rfl
    have h2 : classify u = none := by
      unfold classify
      split
      · exact absurd rfl hu
      · exact absurd rfl hu
      · rfl
    rw [getopt, if_neg h1, h2, ih]

/-- The value given last for the letter `c`. -/
def lastValue (c : UInt8) (os : List (UInt8 × Option Bytes)) : Option Bytes :=
  ((os.filter (fun o => o.1 == c)).getLast?).bind (·.2)

/-- The value of the header `k` as given last by an option `-x k:value`. -/
def lastHeader (k : Bytes) (os : List (UInt8 × Option Bytes)) : Option Bytes :=
  (os.filterMap (fun o => if o.1 = 0x78 then
    o.2.bind (fun s => if (k ++ [0x3a]).isPrefixOf s then some (s.drop (k.length + 1)) else none) else none)).getLast?

/-- The configuration is what the options say: the value given last for each, a flag when it was given. -/
structure ConfigFrom (os : List (UInt8 × Option Bytes)) (c : Cfg) : Prop where
  log : c.log = lastValue 0x6f os
  binary : c.binary = lastValue 0x62 os
  text : c.text = lastValue 0x74 os
  protocol : c.protocol = lastValue 0x70 os
  extensions : c.extensions = lastValue 0x65 os
  nonInteractive : c.nonInteractive = true ↔ ∃ v, (0x69, v) ∈ os
  nonListening : c.nonListening = true ↔ ∃ v, (0x6c, v) ∈ os
  quiet : c.quiet = true ↔ ∃ v, (0x71, v) ∈ os
  checkCert : c.checkCert = false ↔ ∃ v, (0x73, v) ∈ os
  headers : ∀ k, k ≠ [] → 0x3a ∉ k → lookup c.headers k = (lastHeader k os).map some

private theorem lastValue_append (c : UInt8) (os : List (UInt8 × Option Bytes)) (o : UInt8 × Option Bytes) :
    lastValue c (os ++ [o]) = if o.1 = c then o.2 else lastValue c os := by
  unfold lastValue
  by_cases h : o.1 = c
  · simp [List.filter_append, h]
  · simp [List.filter_append, h]

private theorem lastHeader_append (k : Bytes) (os : List (UInt8 × Option Bytes)) (o : UInt8 × Option Bytes)
    (h : o.1 ≠ 0x78) : lastHeader k (os ++ [o]) = lastHeader k os := by
  unfold lastHeader
  simp [List.filterMap_append, h]

private theorem lastValue_absent (c : UInt8) (os : List (UInt8 × Option Bytes)) (h : ∀ v, (c, v) ∉ os) :
    lastValue c os = none := by
  unfold lastValue
  have : os.filter (fun o => o.1 == c) = [] := by
    refine List.filter_eq_nil_iff.2 ?_
    rintro ⟨d, v⟩ ho hd
    simp only [beq_iff_eq] at hd
    exact h v (hd ▸ ho)
  rw [this]
  rfl

private theorem prefix_header (k k' v : Bytes) (hk : 0x3a ∉ k) (hk' : 0x3a ∉ k') :
    (k ++ [0x3a]).isPrefixOf (k' ++ 0x3a :: v) = true ↔ k = k' := by
  rw [List.isPrefixOf_iff_prefix]
  constructor
  · rintro ⟨r, hr⟩
    have e : k ++ 0x3a :: r = k' ++ 0x3a :: v := by simpa using hr
    rw [← (take_until k r 0x3a hk).1, e, (take_until k' v 0x3a hk').1]
  · rintro rfl
    exact ⟨v, by simp⟩

private theorem lastHeader_x (k k' v : Bytes) (os : List (UInt8 × Option Bytes)) (hk : 0x3a ∉ k) (hk' : 0x3a ∉ k') :
    lastHeader k (os ++ [(0x78, some (k' ++ 0x3a :: v))]) = if k = k' then some v else lastHeader k os := by
  unfold lastHeader
  rw [List.filterMap_append]
  by_cases e : k = k'
  · subst e
    have := (prefix_header k k v hk hk).2 rfl
    simp [this]
  · have : (k ++ [0x3a]).isPrefixOf (k' ++ 0x3a :: v) = false := by
      cases h : (k ++ [0x3a]).isPrefixOf (k' ++ 0x3a :: v)
      · rfl
      · exact absurd ((prefix_header k k' v hk hk').1 h) e
    have this' : ¬ k ++ [0x3a] <+: k' ++ 0x3a :: v := by
      rw [← List.isPrefixOf_iff_prefix, this]
      exact Bool.false_ne_true
    simp [this', e]

private theorem config_nil : ConfigFrom [] {} where
  log := rfl
  binary := rfl
  text := rfl
  protocol := rfl
  extensions := rfl
  nonInteractive := by simp
  nonListening := by simp
  quiet := by simp
  checkCert := by simp
  headers := fun k _ _ => rfl

private theorem config_step (os : List (UInt8 × Option Bytes)) (c : Cfg) (o : UInt8 × Option Bytes)
    (hc : ConfigFrom os c) (hl : o.1 ∈ helpText.map (·.1)) (hv : o.1 ≠ 0x76) (hh : o.1 ≠ 0x68)
    (hx : o.1 = 0x78 → ∃ k v, k ≠ [] ∧ 0x3a ∉ k ∧ o.2 = some (k ++ 0x3a :: v))
    (hb : o.1 = 0x62 → ∀ v, (0x74, v) ∉ os) (ht : o.1 = 0x74 → ∀ v, (0x62, v) ∉ os) :
    ∃ c', step c o = .ok c' ∧ ConfigFrom (os ++ [o]) c' := by
  obtain ⟨d, v⟩ := o
  obtain ⟨h1, h2, h3, h4, h5, h6, h7, h8, h9, h10⟩ := hc
  simp only [helpText, List.map_cons, List.map_nil, List.mem_cons, List.not_mem_nil, or_false] at hl
  rcases hl with rfl | rfl | rfl | rfl | rfl | rfl | rfl | rfl | rfl | rfl | rfl | rfl | rfl
  case inr.inl =>
    obtain ⟨k, w, hk, hk', rfl⟩ := hx rfl
    have ha : addHeader c (k ++ 0x3a :: w) = some { c with headers := put c.headers k (some w) } := by
      unfold addHeader
      simp only [(take_until k w 0x3a hk').1, (take_until k w 0x3a hk').2, if_neg hk]
    refine ⟨{ c with headers := put c.headers k (some w) }, by simp [step, ha], ?_⟩
    constructor <;> simp_all [lastValue_append]
    intro k2 hk2 hk2'
    rw [lastHeader_x k2 k w os hk2' hk']
    by_cases e : k2 = k
    · subst e
      simp [lookup_put_self]
    · rw [lookup_put_other _ _ _ _ (Ne.symm e), if_neg e]
      exact h10 k2 hk2 hk2'
  case inr.inr.inl =>
    have hn : c.text = none := by rw [h3]; exact lastValue_absent _ _ (hb rfl)
    refine ⟨{ c with binary := v }, by simp [step, hn], ?_⟩
    constructor <;> simp_all [lastValue_append, lastHeader_append]
  case inr.inr.inr.inl =>
    have hn : c.binary = none := by rw [h2]; exact lastValue_absent _ _ (ht rfl)
    refine ⟨{ c with text := v }, by simp [step, hn], ?_⟩
    constructor <;> simp_all [lastValue_append, lastHeader_append]
  all_goals first
    | exact absurd rfl hv
    | exact absurd rfl hh
    | (refine ⟨_, rfl, ?_⟩
       constructor <;> simp_all [lastValue_append, lastHeader_append])

private theorem steps_append (c : Cfg) (os : List Opt) (o : Opt) (c' : Cfg) (h : steps c os = .ok c') :
    steps c (os ++ [o]) = match step c' o with | .ok x => .ok x | .error n => .error n := by
  induction os generalizing c with
  | nil => cases h; show steps c' [o] = _; cases hs : step c' o <;> simp [steps, hs]
  | cons a t ih =>
    simp only [List.cons_append, steps] at h ⊢
    cases hs : step c a with
    | error n => rw [hs] at h; cases h
    | ok x => rw [hs] at h; exact ih x h

private theorem config_all (os : List (UInt8 × Option Bytes)) (hl : ∀ o ∈ os, o.1 ∈ helpText.map (·.1))
    (hv : ∀ v, (0x76, v) ∉ os) (hh : ∀ v, (0x68, v) ∉ os)
    (hx : ∀ v, (0x78, v) ∈ os → ∃ k w, k ≠ [] ∧ 0x3a ∉ k ∧ v = some (k ++ 0x3a :: w))
    (hbt : ∀ v w, (0x62, v) ∈ os → (0x74, w) ∉ os) :
    ∃ c, steps {} os = .ok c ∧ ConfigFrom os c := by
  induction os using List.reverseRecOn with
  | nil => exact ⟨{}, rfl, config_nil⟩
  | append_singleton os o ih =>
    have m : ∀ {x}, x ∈ os → x ∈ os ++ [o] := fun h => List.mem_append_left _ h
    have mo : o ∈ os ++ [o] := by simp
    obtain ⟨c, h1, h2⟩ := ih (fun x hx => hl x (m hx)) (fun v h => hv v (m h)) (fun v h => hh v (m h))
      (fun v h => hx v (m h)) (fun v w h h' => hbt v w (m h) (m h'))
    obtain ⟨d, v⟩ := o
    obtain ⟨c', h3, h4⟩ := config_step os c (d, v) h2 (hl _ mo) (fun e => hv v (by simp at e; rw [← e]; exact mo))
      (fun e => hh v (by simp at e; rw [← e]; exact mo)) (fun e => by simp at e; subst e; exact hx v mo)
      (fun e w h => by simp at e; subst e; exact hbt v w mo (m h))
      (fun e w h => by simp at e; subst e; exact hbt w v (m h) mo)
    exact ⟨c', by rw [steps_append _ _ _ _ h1, h3], h4⟩

private theorem letters {os : List (UInt8 × Option Bytes)} {us args : List Bytes} (h : CommandLine os us args) :
    ∀ o ∈ os, o.1 ∈ helpText.map (·.1) := by
  induction h with
  | nil => simp
  | @option c v ws os us args hw _ ih =>
    intro o ho
    rcases List.mem_cons.1 ho with rfl | ho
    · cases hw <;> exact List.mem_map.2 ⟨_, by assumption, rfl⟩
    · exact ih o ho
  | operand _ _ ih => exact ih

/-- **C146 (partial).** With options written in any of the usual ways in any order, and the URL anywhere between them: uwsc
connects to the URL with exactly these settings, the last value counting, and offers the given extensions and
permessage-deflate; as long as neither `-v` nor `-h` is given, every `-x` has a name and a colon, and not both `-b` and
`-t` are given. Missing for the full property: `-e VALUE`, several letters behind one `-`, the length of fragments
(`C142_fragment_false`); see `C146_extension_false` and `C146_cluster_false`. -/
theorem C146_options_partial (os : List (UInt8 × Option Bytes)) (url : Bytes) (us args : List Bytes)
    (h : CommandLine os (url :: us) args) (hv : ∀ v, (0x76, v) ∉ os) (hh : ∀ v, (0x68, v) ∉ os)
    (hx : ∀ v, (0x78, v) ∈ os → ∃ k w, k ≠ [] ∧ 0x3a ∉ k ∧ v = some (k ++ 0x3a :: w))
    (hbt : ∀ v w, (0x62, v) ∈ os → (0x74, w) ∉ os) :
    ∃ cfg ext, start args = .connect cfg url ext ∧ ConfigFrom os cfg ∧
      ext = (match lastValue 0x65 os with
        | some (e :: es) => e :: es ++ b!",permessage-deflate"
        | _ => b!"permessage-deflate") := by
  obtain ⟨c, h1, h2⟩ := config_all os (letters h) hv hh hx hbt
  refine ⟨c, _, ?_, h2, rfl⟩
  unfold start
  rw [getopt_line h]
  simp only [h1]
  rw [h2.extensions]
  cases lastValue 0x65 os with
  | none => rfl
  | some e => cases e <;> rfl

private theorem step_error (c : Cfg) (o : Opt) (n : Nat) (hv : o.1 ≠ 0x76) (hh : o.1 ≠ 0x68)
    (h : step c o = .error n) : n = 1 := by
  unfold step at h
  by_cases e : o.1 = 0x6f
  · rw [if_pos e] at h
    cases h
  rw [if_neg e] at h
  clear e
  by_cases e : o.1 = 0x78
  · rw [if_pos e] at h
    cases ha : addHeader c (o.2.getD []) with
    | none => rw [ha] at h; cases h; rfl
    | some y => rw [ha] at h; cases h
  rw [if_neg e] at h
  clear e
  by_cases e : o.1 = 0x62
  · rw [if_pos e] at h
    by_cases e2 : c.text.isSome = true
    · rw [if_pos e2] at h; cases h; rfl
    · rw [if_neg e2] at h; cases h
  rw [if_neg e] at h
  clear e
  by_cases e : o.1 = 0x74
  · rw [if_pos e] at h
    by_cases e2 : c.binary.isSome = true
    · rw [if_pos e2] at h; cases h; rfl
    · rw [if_neg e2] at h; cases h
  rw [if_neg e] at h
  clear e
  by_cases e : o.1 = 0x69
  · rw [if_pos e] at h
    cases h
  rw [if_neg e] at h
  clear e
  by_cases e : o.1 = 0x6c
  · rw [if_pos e] at h
    cases h
  rw [if_neg e] at h
  clear e
  by_cases e : o.1 = 0x66
  · rw [if_pos e] at h
    cases h
  rw [if_neg e] at h
  clear e
  by_cases e : o.1 = 0x70
  · rw [if_pos e] at h
    cases h
  rw [if_neg e] at h
  clear e
  by_cases e : o.1 = 0x65
  · rw [if_pos e] at h
    cases h
  rw [if_neg e] at h
  clear e
  by_cases e : o.1 = 0x73
  · rw [if_pos e] at h
    cases h
  rw [if_neg e] at h
  clear e
  by_cases e : o.1 = 0x71
  · rw [if_pos e] at h
    cases h
  rw [if_neg e] at h
  clear e
  by_cases e : o.1 = 0x76
  · rw [if_pos e] at h
    exact absurd e hv
  rw [if_neg e] at h
  clear e
  by_cases e : o.1 = 0x68
  · rw [if_pos e] at h
    exact absurd e hh
  rw [if_neg e] at h
  clear e
  cases h

private theorem steps_error (os : List Opt) (c : Cfg) (n : Nat) (hv : ∀ v, (0x76, v) ∉ os) (hh : ∀ v, (0x68, v) ∉ os)
    (h : steps c os = .error n) : n = 1 := by
  induction os generalizing c with
  | nil => cases h
  | cons o t ih =>
    simp only [steps] at h
    cases hs : step c o with
    | error m =>
      rw [hs] at h
      cases h
      refine step_error c o n ?_ ?_ hs
      · intro e; exact hv o.2 (by rw [← e]; exact List.mem_cons_self ..)
      · intro e; exact hh o.2 (by rw [← e]; exact List.mem_cons_self ..)
    | ok x =>
      rw [hs] at h
      exact ih x (fun v hm => hv v (List.mem_cons_of_mem _ hm)) (fun v hm => hh v (List.mem_cons_of_mem _ hm)) h

private theorem steps_header (os : List Opt) (c c' : Cfg) (h : steps c os = .ok c') (v : Bytes)
    (hm : (0x78, some v) ∈ os) : 0x3a ∈ v := by
  induction os generalizing c with
  | nil => cases hm
  | cons o t ih =>
    simp only [steps] at h
    cases hs : step c o with
    | error m => rw [hs] at h; cases h
    | ok x =>
      rw [hs] at h
      rcases List.mem_cons.1 hm with rfl | hm
      · refine Classical.byContradiction (fun hn => ?_)
        have : addHeader c v = none := by
          unfold addHeader
          rw [(take_all v 0x3a hn).2]
        simp [step, this] at hs
      · exact ih x h hm

private theorem step_files (c x : Cfg) (o : Opt) (h : step c o = .ok x)
    (hb : o.1 = 0x62 → o.2.isSome) (ht : o.1 = 0x74 → o.2.isSome) :
    (c.text.isSome → o.1 ≠ 0x62 ∧ x.text.isSome) ∧ (c.binary.isSome → o.1 ≠ 0x74 ∧ x.binary.isSome) ∧
    (o.1 = 0x62 → x.binary.isSome) ∧ (o.1 = 0x74 → x.text.isSome) := by
  have hadd : ∀ s y, addHeader c s = some y → y.text = c.text ∧ y.binary = c.binary := by
    intro s y hy
    unfold addHeader at hy
    split at hy
    · cases hy
    · cases hy
      split <;> exact ⟨rfl, rfl⟩
  unfold step at h
  by_cases q0 : o.1 = 0x6f
  · rw [if_pos q0] at h
    cases h; simp_all
  rw [if_neg q0] at h
  by_cases q1 : o.1 = 0x78
  · rw [if_pos q1] at h
    cases ha : addHeader c (o.2.getD []) with
    | none => rw [ha] at h; cases h
    | some y =>
      rw [ha] at h
      cases h
      obtain ⟨e1, e2⟩ := hadd _ _ ha
      rw [e1, e2, q1]
      simp
  rw [if_neg q1] at h
  by_cases q2 : o.1 = 0x62
  · rw [if_pos q2] at h
    by_cases e2 : c.text.isSome = true
    · rw [if_pos e2] at h; cases h
    · rw [if_neg e2] at h
      cases h
      have := hb q2
      simp_all
  rw [if_neg q2] at h
  by_cases q3 : o.1 = 0x74
  · rw [if_pos q3] at h
    by_cases e2 : c.binary.isSome = true
    · rw [if_pos e2] at h; cases h
    · rw [if_neg e2] at h
      cases h
      have := ht q3
      simp_all
  rw [if_neg q3] at h
  by_cases q4 : o.1 = 0x69
  · rw [if_pos q4] at h
    cases h; simp_all
  rw [if_neg q4] at h
  by_cases q5 : o.1 = 0x6c
  · rw [if_pos q5] at h
    cases h; simp_all
  rw [if_neg q5] at h
  by_cases q6 : o.1 = 0x66
  · rw [if_pos q6] at h
    cases h; simp_all
  rw [if_neg q6] at h
  by_cases q7 : o.1 = 0x70
  · rw [if_pos q7] at h
    cases h; simp_all
  rw [if_neg q7] at h
  by_cases q8 : o.1 = 0x65
  · rw [if_pos q8] at h
    cases h; simp_all
  rw [if_neg q8] at h
  by_cases q9 : o.1 = 0x73
  · rw [if_pos q9] at h
    cases h; simp_all
  rw [if_neg q9] at h
  by_cases q10 : o.1 = 0x71
  · rw [if_pos q10] at h
    cases h; simp_all
  rw [if_neg q10] at h
  by_cases q11 : o.1 = 0x76
  · rw [if_pos q11] at h
    cases h
  rw [if_neg q11] at h
  by_cases q12 : o.1 = 0x68
  · rw [if_pos q12] at h
    cases h
  rw [if_neg q12] at h
  cases h; simp_all

private theorem steps_files (os : List Opt) (c c' : Cfg) (h : steps c os = .ok c')
    (hb : ∀ v, (0x62, v) ∈ os → v.isSome) (ht : ∀ v, (0x74, v) ∈ os → v.isSome) :
    (c.text.isSome → ∀ v, (0x62, v) ∉ os) ∧ (c.binary.isSome → ∀ v, (0x74, v) ∉ os) ∧
    ∀ v w, (0x62, v) ∈ os → (0x74, w) ∈ os → False := by
  induction os generalizing c with
  | nil => simp
  | cons o t ih =>
    simp only [steps] at h
    cases hs : step c o with
    | error m => rw [hs] at h; cases h
    | ok x =>
      rw [hs] at h
      obtain ⟨d, v0⟩ := o
      obtain ⟨i1, i2, i3⟩ := ih x h (fun v hm => hb v (List.mem_cons_of_mem _ hm))
        (fun v hm => ht v (List.mem_cons_of_mem _ hm))
      obtain ⟨s1, s2, s3, s4⟩ := step_files c x (d, v0) hs (fun e => hb v0 (by simp at e; subst e; exact List.mem_cons_self ..))
        (fun e => ht v0 (by simp at e; subst e; exact List.mem_cons_self ..))
      refine ⟨?_, ?_, ?_⟩
      · intro hc v hm
        rcases List.mem_cons.1 hm with e | hm
        · cases e; exact (s1 hc).1 rfl
        · exact i1 (s1 hc).2 v hm
      · intro hc v hm
        rcases List.mem_cons.1 hm with e | hm
        · cases e; exact (s2 hc).1 rfl
        · exact i2 (s2 hc).2 v hm
      · intro v w hm hm'
        rcases List.mem_cons.1 hm with e | hm2
        · cases e
          rcases List.mem_cons.1 hm' with e | hm'
          · cases e
          · exact i2 (s3 rfl) w hm'
        · rcases List.mem_cons.1 hm' with e | hm'
          · cases e; exact i1 (s4 rfl) v hm2
          · exact i3 v w hm2 hm'

private theorem values_some {os : List (UInt8 × Option Bytes)} {us args : List Bytes} (h : CommandLine os us args) :
    ∀ c v, (c, v) ∈ os → (c = 0x62 ∨ c = 0x74) → v.isSome := by
  have key : ∀ x ∈ helpText, x.2.2 = false → x.1 ≠ 0x62 ∧ x.1 ≠ 0x74 := by decide +kernel
  induction h with
  | nil => simp
  | @option c v ws os us args hw _ ih =>
    intro d w hm hd
    rcases List.mem_cons.1 hm with e | hm
    · cases e
      cases hw with
      | @flag n hf => exact hd.elim (fun h => absurd h (key _ hf rfl).1) (fun h => absurd h (key _ hf rfl).2)
      | @flagName n hf => exact hd.elim (fun h => absurd h (key _ hf rfl).1) (fun h => absurd h (key _ hf rfl).2)
      | attached => rfl
      | separate => rfl
      | nameEq => rfl
      | nameSep => rfl
    · exact ih d w hm hd
  | operand _ _ ih => exact ih

/-- **C146, refusals.** Without a URL, with both files, or with a header without a colon, uwsc ends with 1 and does not
connect. -/
theorem C146_refused (os : List (UInt8 × Option Bytes)) (us args : List Bytes) (h : CommandLine os us args)
    (hv : ∀ v, (0x76, v) ∉ os) (hh : ∀ v, (0x68, v) ∉ os)
    (hbad : us = [] ∨ (∃ v w, (0x62, v) ∈ os ∧ (0x74, w) ∈ os) ∨ ∃ v, (0x78, some v) ∈ os ∧ 0x3a ∉ v) :
    start args = .exit 1 := by
  unfold start
  rw [getopt_line h]
  cases hs : steps {} os with
  | error n =>
    rw [steps_error os _ n hv hh hs]
  | ok c =>
    rcases hbad with rfl | ⟨v, w, hb, ht⟩ | ⟨v, hm, hn⟩
    · rfl
    · exact ((steps_files os _ c hs (fun v hm => values_some h _ v hm (.inl rfl))
        (fun v hm => values_some h _ v hm (.inr rfl))).2.2 v w hb ht).elim
    · exact absurd (steps_header os _ c hs v hm) hn

/-- `uwsc -x a:b ws://h --protocol=p --add-header c:d:e -i` -/
example : CommandLine [(0x78, some b!"a:b"), (0x70, some b!"p"), (0x78, some b!"c:d:e"), (0x69, none)] [b!"ws://h"]
      [b!"-x", b!"a:b", b!"ws://h", b!"--protocol=p", b!"--add-header", b!"c:d:e", b!"-i"] ∧
    start [b!"-x", b!"a:b", b!"ws://h", b!"--protocol=p", b!"--add-header", b!"c:d:e", b!"-i"] =
      .connect { nonInteractive := true, protocol := some b!"p",
                 headers := [(b!"a", some b!"b"), (b!"c", some b!"d:e")] } b!"ws://h" b!"permessage-deflate" := by
  refine ⟨?_, by decide +kernel⟩
  refine .option (ws := [b!"-x", b!"a:b"]) (.separate (n := b!"add-header") _ (by decide) (by decide)) ?_
  refine .operand (by decide) ?_
  refine .option (ws := [b!"--protocol=p"]) (.nameEq (n := b!"protocol") _ (by decide)) ?_
  refine .option (ws := [b!"--add-header", b!"c:d:e"]) (.nameSep (n := b!"add-header") _ (by decide)) ?_
  exact .option (ws := [b!"-i"]) (.flag (n := b!"non-interactive-send") (by decide)) .nil

/-- **C146 is false of the code**: `-e` takes its value only when it is attached (`e::`), so that `uwsc -e myext ws://h`
connects to the URL `myext` without the extension. -/
theorem C146_extension_false :
    start [b!"-e", b!"myext", b!"ws://h"] = .connect {} b!"myext" b!"permessage-deflate" ∧
    start [b!"-p", b!"myproto", b!"ws://h"] =
      .connect { protocol := some b!"myproto" } b!"ws://h" b!"permessage-deflate" := by decide +kernel

/-- **C146 is false of the code**: the flags take an optional value (`i::`, `s::`, …), so that of several letters behind one
`-` only the first counts: `uwsc -iq ws://h` is not quiet. -/
theorem C146_cluster_false :
    start [b!"-iq", b!"ws://h"] = .connect { nonInteractive := true } b!"ws://h" b!"permessage-deflate" := by
  decide +kernel

end Verif.Props
