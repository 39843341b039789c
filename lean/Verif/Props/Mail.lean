import Verif.Model.Mail
import Verif.Props.Client
/-! # Properties of sending mail -/
namespace Verif.Props
open Verif.Client Verif.Mail Verif.Printf
open Verif.Spec.Mail (Opt Args mailOf)

private theorem setAll_all (c : Curl) : ∀ (os done r : List Opt), Mail.setAll c done os = some r → r = done ++ os
  | [], done, r, h => by cases h; simp
  | o :: t, done, r, h => by
    rw [Mail.setAll] at h
    split at h
    · rw [setAll_all c t _ r h]; simp
    · cases h

private theorem performed_options {c : Curl} {date : Bytes} {a : Args} {os : List Opt}
    (h : (sendRich c date a).performed = some os) :
    ∃ host from' to' body, a.host = some host ∧ a.from' = some from' ∧ a.to' = some to' ∧ a.body = some body ∧
      os = options date a host from' to' body := by
  unfold sendRich at h
  split at h
  · rename_i host from' to' body e1 e2 e3 e4
    split at h
    · split at h
      · cases h
      · rename_i os' hs
        simp only [Option.some.injEq] at h
        subst h
        exact ⟨host, from', to', body, e1, e2, e3, e4, by rw [setAll_all c _ _ _ hs]; rfl⟩
    · cases h
  · cases h

private theorem mailOf_options (date : Bytes) (a : Args) (host from' to' body : Bytes) :
    mailOf (options date a host from' to' body) =
      { url := some (smtpUrl host a.port a.useTls), useSsl := a.useTls, verifyPeer := !(a.useTls && !a.verifyCertificate),
        verifyHost := !(a.useTls && !a.verifyCertificate),
        user := if a.password.isSome then a.user else none, password := if a.user.isSome then a.password else none,
        sender := some from', recipients := [to'] ++ a.cc.toList ++ a.bcc.toList, source := true,
        text := some (mailText date to' from' a.cc a.subject a.contentType body), upload := true } := by
  obtain ⟨h, p, tls, v, u, pw, f, t, cc, bcc, ct, s, b⟩ := a
  cases tls <;> cases v <;> cases u <;> cases pw <;> cases cc <;> cases bcc <;> rfl

private theorem encrypted_url (host : Bytes) (port : Int) (tls : Bool) :
    b!"smtps://".isPrefixOf (smtpUrl host port tls) = tls := by
  cases tls with
  | false => rfl
  | true =>
    rw [List.isPrefixOf_iff_prefix]
    exact ⟨host ++ b!":" ++ decimalInt (mailPort port true), by simp [smtpUrl]⟩

/-! ## C117 -/

/-- **C117, partial.** Every mail transfer goes to the host and port given (port 0: 25, or 587 with TLS), is encrypted exactly when
TLS was asked for, and then checks the certificate and the host name of the server exactly when `verify_certificate` is true; it
authenticates exactly when both a user and a password are given, with these. Missing: the documented meaning of
`verify_certificate`, which is the opposite (`C117_documented_false`), and a user without password (`C117_user_false`). -/
theorem C117_connection_partial (c : Curl) (date : Bytes) (a : Args) (os : List Opt) (h : (sendRich c date a).performed = some os) :
    (∃ host, a.host = some host ∧ (mailOf os).url = some ((if a.useTls then b!"smtps://" else b!"smtp://") ++ host ++ b!":" ++
      decimalInt (if a.port = 0 then (if a.useTls then 587 else 25) else a.port))) ∧
    (mailOf os).encrypted = a.useTls ∧ (mailOf os).useSsl = a.useTls ∧
    (mailOf os).checked = (a.useTls && a.verifyCertificate) ∧
    (∀ u p, a.user = some u → a.password = some p → (mailOf os).user = some u ∧ (mailOf os).password = some p) ∧
    (a.user = none ∨ a.password = none → (mailOf os).user = none ∧ (mailOf os).password = none) := by
  obtain ⟨host, from', to', body, e1, _, _, _, rfl⟩ := performed_options h
  rw [mailOf_options]
  have henc : ∀ m : Spec.Mail.Mail, m.url = some (smtpUrl host a.port a.useTls) → m.encrypted = a.useTls := by
    intro m hm
    unfold Spec.Mail.Mail.encrypted
    rw [hm]
    exact encrypted_url host a.port a.useTls
  refine ⟨⟨host, e1, ?_⟩, henc _ rfl, rfl, ?_, ?_, ?_⟩
  · have hp : mailPort a.port a.useTls = if a.port = 0 then (if a.useTls then 587 else 25) else a.port := by
      unfold mailPort
      by_cases h0 : a.port = 0 <;> cases a.useTls <;> simp [h0]
    simp only [smtpUrl, hp]
    cases a.useTls <;> simp
  · unfold Spec.Mail.Mail.checked
    rw [henc _ rfl]
    cases a.useTls <;> cases a.verifyCertificate <;> rfl
  · intro u p hu hp
    simp [hu, hp]
  · intro hn
    rcases hn with hn | hn <;> simp only [hn, Option.isSome_none] <;> split <;> simp_all

/-- a mail with everything given -/
private def sampleMail : Args :=
  { host := some b!"h", port := 0, useTls := true, verifyCertificate := true, user := some b!"u", password := some b!"p",
    from' := some b!"a@x", to' := some b!"b@x", cc := some b!"c@x", bcc := some b!"d@x", contentType := some b!"text/plain",
    subject := some b!"s", body := some b!"hi" }

example : ∃ os, (sendRich {} b!"Date: x" sampleMail) = ⟨.ok, some os⟩ ∧ (mailOf os).url = some b!"smtps://h:587" ∧
    (mailOf os).checked = true ∧ (mailOf os).user = some b!"u" ∧ (mailOf os).recipients = [b!"b@x", b!"c@x", b!"d@x"] :=
  ⟨_, rfl, by decide +kernel, by decide +kernel, by decide +kernel, by decide +kernel⟩

/-- C117 is false of the documented meaning of `verify_certificate` ("true if you want to disable the certificate verification"),
for every TLS mail: who leaves the verification enabled as documented (false) gets none. -/
theorem C117_documented_false (c : Curl) (date : Bytes) (a : Args) (os : List Opt) (h : (sendRich c date a).performed = some os)
    (ht : a.useTls = true) : (mailOf os).checked ≠ !a.verifyCertificate := by
  rw [(C117_connection_partial c date a os h).2.2.2.1, ht]
  cases a.verifyCertificate <;> decide

/-- C117: with `verify_certificate` false a TLS mail is sent without any check. -/
theorem C117_unchecked_false :
    ∃ os, sendRich {} b!"Date: x" { sampleMail with verifyCertificate := false } = ⟨.ok, some os⟩ ∧ (mailOf os).encrypted = true ∧
      (mailOf os).verifyPeer = false ∧ (mailOf os).verifyHost = false :=
  ⟨_, rfl, by decide +kernel, by decide +kernel, by decide +kernel⟩

/-- C117 is false of a user name without password: the mail is sent without it. -/
theorem C117_user_false :
    ∃ os, sendRich {} b!"Date: x" { sampleMail with password := none } = ⟨.ok, some os⟩ ∧ (mailOf os).user = none :=
  ⟨_, rfl, by decide +kernel⟩

/-! ## C118 -/

/-- **C118.** Every mail transfer has the given sender and, as recipients, exactly the addresses given as to, cc and bcc; the text
is uploaded by the read function of the client, is the text of C68, and is the same whatever the bcc address is. -/
theorem C118_recipients (c : Curl) (date : Bytes) (a : Args) (os : List Opt) (h : (sendRich c date a).performed = some os) :
    (mailOf os).sender = a.from' ∧ (mailOf os).recipients = a.to'.toList ++ a.cc.toList ++ a.bcc.toList ∧
    (mailOf os).upload = true ∧ (mailOf os).source = true ∧
    (∃ from' to' body, a.from' = some from' ∧ a.to' = some to' ∧ a.body = some body ∧
      (mailOf os).text = some (mailText date to' from' a.cc a.subject a.contentType body)) ∧
    ∀ c' b os', (sendRich c' date { a with bcc := b }).performed = some os' → (mailOf os').text = (mailOf os).text := by
  obtain ⟨host, from', to', body, _, e2, e3, e4, rfl⟩ := performed_options h
  rw [mailOf_options]
  refine ⟨e2.symm, by rw [e3]; rfl, rfl, rfl, ⟨from', to', body, e2, e3, e4, rfl⟩, ?_⟩
  intro c' b os' h'
  obtain ⟨host', from'', to'', body', _, f2, f3, f4, rfl⟩ := performed_options h'
  rw [mailOf_options]
  rw [e2] at f2; rw [e3] at f3; rw [e4] at f4
  cases f2; cases f3; cases f4
  rfl

/-! ## C119 -/

/-- **C119, partial.** Success means that libcurl accepted every option and made the transfer without error; no transfer is made
unless libcurl accepted every option; a missing host, sender, recipient or body is reported as `U_ERROR_PARAMS`, without transfer, and nothing
else is. `ulfius_send_smtp_email` sends plain UTF-8 text. Missing: the subject and the content type, which are documented as
mandatory too (`C119_subject_false`, `C119_type_false`). -/
theorem C119_result_partial (c : Curl) (date : Bytes) (a : Args) :
    ((sendRich c date a).code = .ok ↔ ∃ os, (sendRich c date a).performed = some os ∧ c.perform os = true) ∧
    (∀ os, (sendRich c date a).performed = some os → c.init = true ∧ ∀ x o y, os = x ++ o :: y → c.accepts x o = true) ∧
    ((sendRich c date a).code = .params ↔ a.host = none ∨ a.from' = none ∨ a.to' = none ∨ a.body = none) ∧
    ((sendRich c date a).code = .params → (sendRich c date a).performed = none) ∧
    (∀ os, (sendPlain c date a).performed = some os → ∃ head body, a.body = some body ∧
      (mailOf os).text = some (head ++ b!"\r\nContent-Type: text/plain; charset=utf-8\r\n\r\n" ++ body ++ b!"\r\n")) := by
  have hacc : ∀ (os done r : List Opt), Mail.setAll c done os = some r →
      ∀ x o y, os = x ++ o :: y → c.accepts (done ++ x) o = true := by
    intro os
    induction os with
    | nil => intro done r _ x o y hx; simp at hx
    | cons p t ih =>
      intro done r h x o y hx
      rw [Mail.setAll] at h
      split at h
      · rename_i hp
        cases x with
        | nil => simp only [List.nil_append, List.cons.injEq] at hx; rw [← hx.1]; simpa using hp
        | cons q x' =>
          simp only [List.cons_append, List.cons.injEq] at hx
          have := ih (done ++ [p]) r h x' o y hx.2
          rw [← hx.1]
          simpa using this
      · cases h
  refine ⟨?_, ?_, ?_, ?_, ?_⟩
  rotate_right
  · intro os h
    obtain ⟨host, from', to', body, _, _, _, e4, rfl⟩ := performed_options h
    rw [mailOf_options]
    exact ⟨date ++ b!"\r\nTo: " ++ to' ++ b!"\r\nFrom: " ++ from' ++ b!"\r\n"
      ++ (match a.cc with | some c => b!"Cc: " ++ c ++ b!"\r\n" | none => []) ++ b!"Subject: " ++ a.subject.getD [],
      body, e4, by cases hcc : a.cc <;> simp [mailText, str, hcc]⟩
  · unfold sendRich
    split
    · split
      · split
        · simp
        · rename_i os _
          cases hp : c.perform os <;> simp [hp]
      · simp
    · simp
  · intro os h
    unfold sendRich at h
    split at h
    · split at h
      · rename_i hi
        split at h
        · cases h
        · rename_i os' hs
          simp only [Option.some.injEq] at h
          subst h
          refine ⟨hi, ?_⟩
          have hall := setAll_all c _ _ _ hs
          rw [List.nil_append] at hall
          intro x o y hx
          have := hacc _ _ _ hs x o y (by rw [← hall, hx])
          simpa using this
      · cases h
    · cases h
  · unfold sendRich
    cases h1 : a.host <;> cases h2 : a.from' <;> cases h3 : a.to' <;> cases h4 : a.body <;> simp
    split
    · split
      · simp
      · split <;> simp
    · simp
  · unfold sendRich
    split
    · split
      · split
        · simp
        · simp only; split <;> simp
      · simp
    · simp

/-- libcurl that refuses the upload option -/
example : sendRich { accepts := fun _ o => o != .upload } b!"Date: x" sampleMail = ⟨.libcurl, none⟩ ∧
    sendRich {} b!"Date: x" { sampleMail with to' := none } = ⟨.params, none⟩ := by decide +kernel

/-- C119 is false of the subject: it is documented as mandatory, and a mail without it is sent. -/
theorem C119_subject_false : (sendRich {} b!"Date: x" { sampleMail with subject := none }).code = .ok := by decide +kernel

/-- C119 is false of the content type: a mail without it is sent with the content type "(null)". -/
theorem C119_type_false : ∃ os, sendRich {} b!"Date: x" { sampleMail with contentType := none } = ⟨.ok, some os⟩ ∧
    (mailOf os).text = some b!"Date: x\r\nTo: b@x\r\nFrom: a@x\r\nCc: c@x\r\nSubject: s\r\nContent-Type: (null)\r\n\r\nhi\r\n" :=
  ⟨_, rfl, by decide +kernel⟩

end Verif.Props
