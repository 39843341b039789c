import Verif.Model.OomMail
import Verif.Spec.OomMail
/-!
# C185: a mail that cannot be made for want of memory is not sent

The full claim is false at one place, `ccText`: `C185_text_false`. Missing in the partial theorem: that place.
-/
namespace Verif.Props
open Verif.OomMail Verif.Spec.OomMail
open Verif.Mail (Curl Outcome setAll options)
open Verif.Spec.Mail (Opt Args mailOf)

namespace OomMail

/-- What a program sees: whether the answer is `U_OK`, and the options of the transfer. -/
def seen (o : Outcome) : Bool × Option (List Opt) := (decide (o.code = .ok), o.performed)

theorem setAll_append (c : Curl) : ∀ (l l' done : List Opt), setAll c done (l ++ l') = (setAll c done l).bind (fun d => setAll c d l')
  | [], _, _ => rfl
  | o :: t, l', done => by
    rw [List.cons_append, setAll, setAll]
    split
    · exact setAll_append c t l' _
    · rfl

theorem setAll_all (c : Curl) : ∀ (os done r : List Opt), setAll c done os = some r → r = done ++ os
  | [], done, r, h => by cases h; simp
  | o :: t, done, r, h => by
    rw [setAll] at h
    split at h
    · rw [setAll_all c t _ r h]; simp
    · cases h

theorem options_split (date : Bytes) (a : Args) (host from' to' body : Bytes) :
    options date a host from' to' body = firstOptions a host from' ++ ([.mailRcpt (Mail.recipients to' a.cc a.bcc)]
      ++ [.readFunction, .readData (Client.mailText date to' from' a.cc a.subject a.contentType body), .upload]) := by
  cases h1 : a.user <;> cases h2 : a.password <;> simp [options, firstOptions, h1, h2]

theorem text_eq {f : F} (h : f .ccText = false) (ht : f .text = false) (date to' from' : Bytes) (cc subject ct : Option Bytes) (body : Bytes) :
    mailText f date to' from' cc subject ct body = some (Client.mailText date to' from' cc subject ct body) := by
  unfold mailText ccLine Client.mailText
  rw [h, ht]
  cases cc <;> simp [Printf.str]

theorem same {f : F} (h : f .ccText = false) (c : Curl) (date : Bytes) (a : Args) :
    sendRich f c date a = Mail.sendRich c date a ∨ (∃ p, f p = true) ∧ (sendRich f c date a).code ≠ .ok ∧ (sendRich f c date a).performed = none := by
  unfold sendRich Mail.sendRich
  split
  · rename_i host from' to' body e1 e2 e3 e4
    simp only [e1, e2, e3, e4]
    split
    · split
      · rename_i hu
        exact .inr ⟨⟨_, hu⟩, by simp, rfl⟩
      · rw [options_split, setAll_append]
        cases hs : setAll c [] (firstOptions a host from') with
        | none => exact .inl rfl
        | some done =>
          simp only [Option.bind_some]
          by_cases h1 : f .toList = true
          · simp only [rcpt, h1, if_true]; exact .inr ⟨⟨_, h1⟩, by simp, by simp⟩
          by_cases h2 : (a.cc.isSome && f .ccList) = true
          · simp only [rcpt, h1, h2, if_true]; exact .inr ⟨⟨_, (Bool.and_eq_true _ _ ▸ h2).2⟩, by simp, by simp⟩
          by_cases h3 : (a.bcc.isSome && f .bccList) = true
          · simp only [rcpt, h1, h2, h3, if_true]; exact .inr ⟨⟨_, (Bool.and_eq_true _ _ ▸ h3).2⟩, by simp, by simp⟩
          have hr : rcpt f to' a.cc a.bcc = some (Mail.recipients to' a.cc a.bcc) := by
            unfold rcpt; rw [if_neg h1, if_neg h2, if_neg h3]
          rw [hr, setAll_append]
          simp only
          cases hs2 : setAll c done [.mailRcpt (Mail.recipients to' a.cc a.bcc)] with
          | none => exact .inl rfl
          | some done2 =>
            simp only [Option.bind_some]
            by_cases h4 : f .text = true
            · simp only [mailText, h4, if_true]; exact .inr ⟨⟨_, h4⟩, by simp, by simp⟩
            · rw [text_eq h (by simpa using h4)]
              exact .inl rfl
    · exact .inl rfl
  · rename_i hx
    left
    split
    · rename_i e1 e2 e3 e4; exact absurd e4 (hx _ _ _ _ e1 e2 e3)
    · rfl

end OomMail
open OomMail

/-- Whatever fails, in any combination, unless it is the line with the copies: the mail is sent as it is or not at all, and `U_OK` means it was. -/
theorem C185_partial {f : F} (h : f .ccText = false) (c : Curl) (date : Bytes) (a : Args) :
    Honest (seen (Mail.sendRich c date a)) (seen (sendRich f c date a)) := by
  rcases same h c date a with e | ⟨_, e1, e2⟩
  · rw [e]; exact ⟨fun _ => rfl, fun l h => ⟨l, h, rfl⟩⟩
  · refine ⟨fun hk => absurd (by simpa [seen] using hk) e1, fun l hl => ?_⟩
    simp only [seen, e2] at hl
    cases hl

/-- With memory enough the call is the one of `Model/Mail`. -/
theorem C185_enough (c : Curl) (date : Bytes) (a : Args) : sendRich (fun _ => false) c date a = Mail.sendRich c date a := by
  rcases same (f := fun _ => false) rfl c date a with e | ⟨⟨_, e⟩, _⟩
  · exact e
  · cases e

/-- Whatever fails: a mail that is sent goes to the recipients asked for, from the sender, over the connection, with the credentials asked for; only its text may differ. -/
theorem C185_envelope (f : F) (c : Curl) (date : Bytes) (a : Args) {os : List Opt} (h : (sendRich f c date a).performed = some os) :
    ∃ host from' to' body, a.host = some host ∧ a.from' = some from' ∧ a.to' = some to' ∧ a.body = some body ∧
      SameEnvelope (mailOf os) (mailOf (options date a host from' to' body)) := by
  unfold sendRich at h
  split at h
  · rename_i host from' to' body e1 e2 e3 e4
    refine ⟨host, from', to', body, e1, e2, e3, e4, ?_⟩
    split at h
    · split at h
      · cases h
      · split at h
        · cases h
        · rename_i done hs
          split at h
          · cases h
          · rename_i l hl
            have hl' : l = Mail.recipients to' a.cc a.bcc := by
              unfold rcpt at hl
              repeat' split at hl
              all_goals cases hl
              rfl
            subst hl'
            split at h
            · cases h
            · rename_i done2 hs2
              split at h
              · cases h
              · rename_i t ht
                split at h
                · cases h
                · rename_i os' hs3
                  simp only [Option.some.injEq] at h
                  subst h
                  rw [setAll_all c _ _ _ hs3, setAll_all c _ _ _ hs2, setAll_all c _ _ _ hs, options_split]
                  simp [SameEnvelope, mailOf, List.foldl_append, Spec.Mail.Mail.set]
    · cases h
  · cases h

/-- A mail, with this blind copy. -/
private def mail (bcc : Option Bytes) : Args :=
  { host := some b!"h", port := 0, useTls := false, verifyCertificate := false, user := none, password := none, from' := some b!"f", to' := some b!"t", cc := none,
    bcc := bcc, contentType := some b!"c", subject := some b!"s", body := some b!"b" }

/-- The line with the copies cannot be made: the mail is sent with "(null)" in front of its subject line, `U_OK`. -/
theorem C185_text_false :
    (sendRich (fun p => decide (p = .ccText)) {} b!"Date: x" (mail none)).code = .ok ∧
      (sendRich (fun p => decide (p = .ccText)) {} b!"Date: x" (mail none)).performed.map (fun os => (mailOf os).text) =
        some (some b!"Date: x\r\nTo: t\r\nFrom: f\r\n(null)Subject: s\r\nContent-Type: c\r\n\r\nb\r\n") := by
  constructor <;> decide

/-- A list of recipients that loses its second entry: nothing is sent. -/
example : sendRich (fun p => decide (p = .bccList)) {} b!"Date: x" (mail (some b!"x")) = ⟨.libcurl, none⟩ := rfl

/-- Without a blind copy that allocation is not made: the mail is sent. -/
example : (sendRich (fun p => decide (p = .bccList)) {} b!"Date: x" (mail none)).code = .ok := rfl

end Verif.Props
