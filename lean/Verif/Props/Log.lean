import Verif.Model.Log
/-!
# C145: messages of libmicrohttpd are logged
-/
namespace Verif.Props
open Verif.Log

/-- What the C standard says of vsnprintf apart from the conversions: text without `%` is copied, and what stands in front
of the first `%` is copied to the front, up to INT_MAX bytes. -/
structure CopiesText (v : Vsn) : Prop where
  plain : ∀ a args, 0x25 ∉ a → NoNul a → a.length < 2 ^ 31 → v a args = .ok (some a)
  front : ∀ a b args t, 0x25 ∉ a → NoNul a → v b args = .ok (some t) → a.length + t.length < 2 ^ 31 →
    v (a ++ b) args = .ok (some (a ++ t))

private theorem cstr_plain {s : Bytes} (h : NoNul s) : cstr s = s := by
  induction s with
  | nil => rfl
  | cons c t ih =>
    have hc : c ≠ 0 := fun e => h (e ▸ List.mem_cons_self ..)
    have := ih (fun e => h (List.mem_cons_of_mem _ e))
    simp_all [cstr, List.takeWhile_cons]

/-- **C145 (partial).** For every vsnprintf, format and arguments: a message that contains no `%` once formatted is
written to the log as it is, behind `MHD - `. Missing for the full property: messages with a `%`, see
`C145_percent_false`. -/
theorem C145_logged_partial (v : Vsn) (hv : CopiesText v) (fmt : Bytes) (args : List Arg) (t : Bytes)
    (ht : v fmt args = .ok (some t)) (hp : 0x25 ∉ t) (hn : NoNul t) (hl : t.length + 6 < 2 ^ 31) :
    redirectLog v fmt args = .ok [b!"MHD - " ++ t] := by
  have h6 : (b!"MHD - ").length = 6 := by decide
  have hN : NoNul (b!"MHD - ") := by decide
  have h1 := hv.front b!"MHD - " fmt args t (by decide) hN ht (by omega)
  have hpt : 0x25 ∉ b!"MHD - " ++ t := by
    intro h
    rcases List.mem_append.1 h with h | h
    · exact absurd h (by decide)
    · exact hp h
  have hnt : NoNul (b!"MHD - " ++ t) := by
    intro hc
    rcases List.mem_append.1 hc with h | h
    · exact hN h
    · exact hn h
  have h2 := hv.plain (b!"MHD - " ++ t) [] hpt hnt (by rw [List.length_append]; omega)
  unfold redirectLog
  rw [h1]
  simp only [Res.ok_bind]
  unfold logMessage
  rw [cstr_plain hnt, h2]
  simp only [Res.ok_bind, cstr_plain hnt]
  rfl

private theorem format_front (a b : Bytes) (args : List Arg) (ha : 0x25 ∉ a) :
    format (a ++ b) args = (format b args).bind (fun t => .ok (a ++ t)) := by
  induction a with
  | nil =>
    show format b args = _
    cases h : format b args <;> rfl
  | cons c a ih =>
    have hc : c ≠ 0x25 := fun h => ha (h ▸ List.mem_cons_self ..)
    have ih := ih (fun h => ha (List.mem_cons_of_mem _ h))
    have hstep : format (c :: (a ++ b)) args = (format (a ++ b) args).bind (fun t => .ok (c :: t)) := by
      rw [format]
      · rfl
      · intro h; exact absurd h hc
      · intro k t h; exact absurd h hc
    show format (c :: (a ++ b)) args = _
    rw [hstep, ih]
    cases h : format b args <;> rfl

/-- The instance of the model copies text. -/
theorem vsn_copies : CopiesText vsn := by
  refine ⟨?_, ?_⟩
  · intro a args ha _ hl
    have h := format_front a [] args ha
    rw [List.append_nil] at h
    show (format a args).bind _ = _
    rw [h]
    show Res.ok (if (a ++ []).length < 2 ^ 31 then some (a ++ []) else none) = _
    rw [List.append_nil, if_pos hl]
  · intro a b args t ha _ hb hl
    have h := format_front a b args ha
    have hb' : format b args = .ok t := by
      cases hf : format b args with
      | ub => simp [vsn, hf] at hb
      | ok x =>
        have hb2 : Res.ok (if x.length < 2 ^ 31 then some x else none) = Res.ok (some t) := by
          rw [← hb]; show _ = (format b args).bind _; rw [hf]; rfl
        have hb3 := Res.ok.inj hb2
        split at hb3
        · rw [Option.some.inj hb3]
        · cases hb3
    show (format (a ++ b) args).bind _ = _
    rw [h, hb']
    show Res.ok (if (a ++ t).length < 2 ^ 31 then some (a ++ t) else none) = _
    rw [List.length_append, if_pos hl]

/-- A message with arguments. -/
example : CopiesText vsn ∧ vsn b!"port %u: %s" [.uint 80, .str b!"in use"] = .ok (some b!"port 80: in use") ∧
    redirectLog vsn b!"port %u: %s" [.uint 80, .str b!"in use"] = .ok [b!"MHD - port 80: in use"] :=
  ⟨vsn_copies, by decide +kernel, by decide +kernel⟩

/-- **C145 is false of the code**: the formatted message is used as a format again. `%s` in a message (in a text that came
from a client, for instance) is undefined behaviour although libmicrohttpd's call is fine; `%%` is logged as `%`. -/
theorem C145_percent_false :
    (vsn b!"header %s" [.str b!"a%sb"] = .ok (some b!"header a%sb") ∧
      redirectLog vsn b!"header %s" [.str b!"a%sb"] = .ub) ∧
    (vsn b!"header %s" [.str b!"50%%"] = .ok (some b!"header 50%%") ∧
      redirectLog vsn b!"header %s" [.str b!"50%%"] = .ok [b!"MHD - header 50%"]) ∧
    (vsn b!"100%%" [] = .ok (some b!"100%") ∧ redirectLog vsn b!"100%%" [] = .ub) := by decide +kernel

end Verif.Props
