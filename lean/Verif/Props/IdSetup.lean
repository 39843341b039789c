import Verif.Model.IdSetup
import Verif.Props.Token
/-!
# C196: a token check that was set up while memory runs out is the one asked for
-/
namespace Verif.Props
open Verif.Token Verif.IdSetup
open Verif.Message (Response)
open Verif.Spec.Json

/-- The check the program asks for. -/
def askedCheck (L : IdSetup.Lib) (a : IdSetup.Asked) : IdConfig :=
  { method := a.method, scope := a.scope, realm := a.realm, root := a.root, locks := true, verify := L.verify a.aud, proof := L.proof a.maxIat }

private theorem refuse_code {realm : Option Bytes} {e d : Bytes} {r : Response} {out : Out} (h : refuse realm e d r = .ok out) : out.code = 3 := by
  unfold refuse at h
  cases hp : UMap.put r.header (some b!"WWW-Authenticate") (some (challenge realm e d)) with
  | ub => rw [hp] at h; cases h
  | ok v => rw [hp] at h; cases h; rfl

/-- The realm has no part in letting a request through. -/
private theorem through_realm (c : IdConfig) (realm : Option Bytes) (q : Req) (r : Response) (out : Out) (h : iddawc (some c) q r = .ok out)
    (h0 : out.code = 0) : iddawc (some { c with realm := realm }) q r = .ok out := by
  unfold iddawc at h ⊢
  cases hd : caseText q.header b!"DPoP" with
  | ub => rw [hd] at h; cases h
  | ok dpop =>
    rw [hd] at h
    simp only [Res.ok_bind] at h ⊢
    cases hn : UMap.countKeysCase q.header (some b!"DPoP") with
    | ub => rw [hn] at h; cases h
    | ok n =>
      rw [hn] at h
      simp only [Res.ok_bind] at h ⊢
      cases ht : idToken c.method q with
      | ub => rw [ht] at h; cases h
      | ok t =>
        rw [ht] at h
        simp only [Res.ok_bind] at h ⊢
        have no : ∀ {e d : Bytes}, refuse c.realm e d r = .ok out → False := fun hr => by
          have := refuse_code hr
          rw [h0] at this
          cases this
        cases t with
        | none => exact (no h).elim
        | some t =>
          obtain ⟨t, isDpop⟩ := t
          simp only at h ⊢
          split at h
          · exact (no h).elim
          rename_i h1
          rw [if_neg h1]
          by_cases h2 : c.locks = true
          case neg => rw [if_neg h2] at h; exact (no h).elim
          rw [if_pos h2] at h ⊢
          cases hv : c.verify t with
          | none => rw [hv] at h; exact (no h).elim
          | some claims =>
            rw [hv] at h
            simp only at h ⊢
            cases hs : idScope c.scope claims with
            | insufficient => rw [hs] at h; exact (no h).elim
            | internal => rw [hs] at h; exact (no h).elim
            | ok j =>
              rw [hs] at h
              simp only at h ⊢
              split at h
              · rename_i h3
                rw [if_pos h3]
                cases hp : pathTail q.urlPath with
                | ub => rw [hp] at h; cases h
                | ok tail =>
                  rw [hp] at h
                  simp only [Res.ok_bind] at h ⊢
                  split at h
                  · rename_i h4
                    rw [if_pos h4]
                    exact h
                  · exact (no h).elim
              · rename_i h3
                rw [if_neg h3]
                exact h

/-- **C196, partial.** Whatever fails but the copies of the audience, of the scopes and of the root of the URLs: the setup says whether it failed, and a check
it does set up lets through just the requests the check asked for lets through, and hands on the same claims. Missing: these three copies, for which it
is false, below. -/
theorem C196_setup_partial (mem : IdSetup.Mem) (a : IdSetup.Asked) (ha : mem.aud = true ∨ a.aud = none) (hs : mem.scope = true ∨ a.scope = none)
    (hr : mem.root = true ∨ a.root = none) (L : IdSetup.Lib) (q : Req) (r : Response) :
    (serve mem L a q r = none ↔ ¬ (mem.session = true ∧ mem.start = true ∧ mem.mutex = true)) ∧
    (∀ res, serve mem L a q r = some res → ∀ out : Out, out.code = 0 → (res = .ok out ↔ iddawc (some (askedCheck L a)) q r = .ok out)) := by
  have hdup : ∀ (ok : Bool) (s : Option Bytes), ok = true ∨ s = none → dup ok s = s := by
    intro ok s h
    rcases h with h | h <;> simp [dup, h]
  have hview : ∀ x, view L ⟨a.method, x, dup mem.aud a.aud, dup mem.scope a.scope, dup mem.root a.root, a.maxIat⟩ = { askedCheck L a with realm := x } := by
    intro x
    simp only [view, askedCheck, hdup _ _ ha, hdup _ _ hs, hdup _ _ hr]
  have hi : serve mem L a q r = if mem.session = true ∧ mem.start = true ∧ mem.mutex = true then
      some (iddawc (some { askedCheck L a with realm := dup mem.realm a.realm }) q r) else none := by
    unfold serve IdSetup.init
    cases mem.session <;> cases mem.start <;> cases mem.mutex <;> simp [hview]
  rw [hi]
  constructor
  · split <;> simp_all
  · intro res h out h0
    split at h
    · cases h
      constructor
      · intro h
        exact through_realm _ a.realm q r out h h0
      · intro h
        exact through_realm _ _ q r out h h0
    · cases h

/-- iddawc for tokens of the audience "b": a token for another audience is valid if no audience is asked for. -/
def audienceLib : IdSetup.Lib :=
  { verify := fun aud t => if aud = none ∨ aud = some b!"b" then (if t = b!"abc" then some (.obj [(b!"scope", .str b!"read")]) else none) else none,
    proof := fun _ _ _ _ _ _ => false }

/-- A program asks for tokens of the audience "a". -/
def askedAudience : IdSetup.Asked := { method := 0, realm := some b!"home", aud := some b!"a", scope := none, root := none, maxIat := 60 }

/-- A program asks for tokens of the audience "b" that may write. -/
def askedScope : IdSetup.Asked := { method := 0, realm := some b!"home", aud := some b!"b", scope := some b!"write", root := none, maxIat := 60 }

/-- The request is let through. -/
def letsThrough : Option (Res Out) → Bool
  | some (.ok out) => out.code == 0
  | _ => false

/-- The request is refused. -/
def turnsAway : Option (Res Out) → Bool
  | some (.ok out) => out.code == 3
  | _ => false

example : letsThrough (serve { realm := false } audienceLib { askedScope with scope := some b!"read write" } (headerReq withToken) {}) = true := by
  simp only [serve, iddawc, idScope, Handshake.splitString_eq]
  decide +kernel

/-- **C196 is false** for the audience: when it cannot be copied, the setup says nothing, and tokens for everybody else are let through. -/
theorem C196_audience_false : letsThrough (serve { aud := false } audienceLib askedAudience (headerReq withToken) {}) = true ∧
    turnsAway (some (iddawc (some (askedCheck audienceLib askedAudience)) (headerReq withToken) {})) = true := by
  simp only [serve, iddawc, idScope, Handshake.splitString_eq]
  decide +kernel

/-- **C196 is false** for the scopes: when they cannot be copied, the setup says nothing, and tokens that may do something else are let through. -/
theorem C196_scope_false : letsThrough (serve { scope := false } audienceLib askedScope (headerReq withToken) {}) = true ∧
    turnsAway (some (iddawc (some (askedCheck audienceLib askedScope)) (headerReq withToken) {})) = true := by
  simp only [serve, iddawc, idScope, Handshake.splitString_eq]
  decide +kernel

/-- iddawc with one proof, made for the URL "http://h/a". -/
def proofLibFor (htu : Bytes) : IdSetup.Lib :=
  { verify := fun _ _ => some boundClaims, proof := fun _ v _ u _ _ => v == some b!"p" && u == htu }

/-- A request with a token that is bound to a key, and a proof. -/
def provenReq : Req := headerReq [(b!"Authorization", some b!"DPoP abc"), (b!"DPoP", some b!"p")]

/-- **C196 is false** for the root of the URLs: when it cannot be copied, the setup says nothing; a proof made for the URL of the request is refused, and one made for
the URL "(null)a" is not. -/
theorem C196_root_false :
    turnsAway (serve { root := false } (proofLibFor b!"http://h/a") { askedAudience with root := some b!"http://h/" } provenReq {}) = true ∧
    letsThrough (serve {} (proofLibFor b!"http://h/a") { askedAudience with root := some b!"http://h/" } provenReq {}) = true ∧
    letsThrough (serve { root := false } (proofLibFor b!"(null)a") { askedAudience with root := some b!"http://h/" } provenReq {}) = true := by
  simp only [serve, iddawc, idScope, Handshake.splitString_eq]
  decide +kernel

end Verif.Props
