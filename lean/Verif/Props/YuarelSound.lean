import Verif.Lemmas.Yuarel
/-! # C92: what the URL parser accepts -/
namespace Verif.Props
open Verif.Yuarel Verif.Spec.UrlParts

private theorem cut_text (c : UInt8) (s a : Bytes) (o : Option Bytes) (h : cut c s = (a, o)) : s = a ++ opt c o := by
  obtain ⟨_, h2, h3⟩ := cut_spec c s
  rw [h] at h2 h3
  cases o with
  | none => simpa [opt] using h3 rfl
  | some r => exact h2 r rfl

private theorem cut_clean (c : UInt8) (s a : Bytes) (o : Option Bytes) (h : cut c s = (a, o)) : c ∉ a := by
  have := (cut_spec c s).1
  rw [h] at this
  exact this

private theorem host_some (url y : Url) (host : Bytes) (h : hostPart url host = .ok (some y)) :
    ∃ hst port, host = hst ++ opt 0x3a port ∧ 0x3a ∉ hst ∧ hst ≠ [] ∧ port ≠ some [] ∧ y = { url with host := some hst, port := y.port } ∧
      (port = none → y.port = url.port) := by
  unfold hostPart at h
  split at h
  · cases h
  · rename_i hne
    split at h
    · rename_i hst p heq
      split at h
      · cases h
      · rename_i hp
        have ht := cut_text _ _ _ _ heq
        have key : ∀ z : Res Int, (do
            let port ← z
            if hst = [] then return none
            return some { url with host := some hst, port := port } : Res (Option Url)) = .ok (some y) →
            hst ≠ [] ∧ y = { url with host := some hst, port := y.port } := by
          intro z hz
          cases z with
          | ub => cases hz
          | ok z =>
            rw [Res.ok_bind] at hz
            split at hz
            · cases hz
            · rename_i hn; cases hz; exact ⟨hn, rfl⟩
        have hk : hst ≠ [] ∧ y = { url with host := some hst, port := y.port } := by
          simp only at h
          split at h
          · exact key _ h
          · exact key _ h
        obtain ⟨k1, k2⟩ := hk
        exact ⟨hst, some p, ht, cut_clean _ _ _ _ heq, k1, by simpa using hp, k2, by simp⟩
    · rename_i hst heq
      have ht := cut_text _ _ _ _ heq
      cases h
      refine ⟨hst, none, ht, cut_clean _ _ _ _ heq, ?_, by simp, rfl, fun _ => rfl⟩
      intro e; apply hne; rw [ht, e]; rfl

private theorem mem_opt {c d : UInt8} {o : Option Bytes} {t : Bytes} (ho : o = some t) (h : d ∈ t) : d ∈ opt c o := by
  subst ho; exact List.mem_cons_of_mem _ h

/-- **C92, partial.** For every text the parser accepts: it begins with '/' and is path, query and fragment of the result, or it
is scheme://[user:password@]host[:port][/path][?query][#fragment] for the components of the result, each of which ends at the first
delimiter that can end it (`C92_unique`: only one way of reading has this property), with a scheme, a host and, behind a ':', a port
that are not empty. Nothing of the text is lost or invented. Missing: that a port is a number and that a host contains no '@', which
are false (`C92_port_false`, `C92_host_false`). -/
theorem C92_accepted_partial (s after : Bytes) (y : Url) (h : parse s = .ok (some y, after)) :
    (∃ path, s = 0x2f :: path ++ opt 0x3f y.query ++ opt 0x23 y.fragment ∧
      Free b!"?#" path ∧ (∀ q, y.query = some q → Free b!"#" q) ∧
      y = { path := some path, query := y.query, fragment := y.fragment }) ∨
    (∃ p : Parts, s = render p ∧ Split p ∧ (p.port = none → y.port = 0) ∧
      y = { scheme := some p.scheme, username := p.cred.map (·.1), password := p.cred.map (·.2), host := some p.host,
            port := y.port, path := p.path, query := p.query, fragment := p.fragment }) := by
  unfold parse at h
  rcases h1 : cut 0x23 s with ⟨s1, f⟩
  rw [h1] at h
  simp only at h
  rcases h2 : cut 0x3f s1 with ⟨s2, q⟩
  rw [h2] at h
  simp only at h
  have t1 := cut_text _ _ _ _ h1
  have t2 := cut_text _ _ _ _ h2
  have c1 := cut_clean _ _ _ _ h1
  have c2 := cut_clean _ _ _ _ h2
  subst t2
  have c1s : (0x23 : UInt8) ∉ s2 := fun m => c1 (List.mem_append_left _ m)
  have c1q : ∀ t, q = some t → Free b!"#" t := by
    intro t ht d hd
    obtain rfl : d = 0x23 := by simpa using hd
    exact fun m => c1 (List.mem_append_right _ (mem_opt ht m))
  have two : ∀ x : Bytes, (∀ d, d ∈ x → d ∈ s2) → (0x3f : UInt8) ∉ x ∧ (0x23 : UInt8) ∉ x :=
    fun x hx => ⟨fun m => c2 (hx _ m), fun m => c1s (hx _ m)⟩
  split at h
  · rename_i t
    cases h
    refine .inl ⟨t, t1, ?_, c1q, rfl⟩
    have := two t (fun d hd => List.mem_cons_of_mem _ hd)
    intro d hd
    rcases (show d = 0x3f ∨ d = 0x23 by simpa using hd) with rfl | rfl
    · exact this.1
    · exact this.2
  · rename_i hsl
    split at h
    · rename_i scheme rest heq
      have t3 := cut_text _ _ _ _ heq
      have c3 := cut_clean _ _ _ _ heq
      split at h
      · cases h
      · rename_i hsch
        split at h
        · cases h
        · rcases h4 : cut 0x2f rest with ⟨auth, path⟩
          rw [h4] at h
          simp only at h
          have t4 := cut_text _ _ _ _ h4
          have c4 := cut_clean _ _ _ _ h4
          have inrest : ∀ d, d ∈ rest → d ∈ s2 := by
            intro d hd; rw [t3]; exact List.mem_append_right _ (by simp [opt, hd])
          have inauth : ∀ d, d ∈ auth → d ∈ s2 := by
            intro d hd; exact inrest d (by rw [t4]; exact List.mem_append_left _ hd)
          have fsch : Free b!":?#" scheme ∧ scheme ≠ [] ∧ scheme.head? ≠ some 0x2f := by
            have := two scheme (fun d hd => by rw [t3]; exact List.mem_append_left _ hd)
            refine ⟨?_, hsch, ?_⟩
            · intro d hd
              rcases (show d = 0x3a ∨ d = 0x3f ∨ d = 0x23 by simpa using hd) with rfl | rfl | rfl
              · exact c3
              · exact this.1
              · exact this.2
            · intro e
              cases scheme with
              | nil => exact hsch rfl
              | cons x t =>
                rw [List.head?_cons] at e
                injection e with e
                subst e
                exact hsl (t ++ opt 0x3a (some (0x2f :: 0x2f :: rest))) t3
          have fpath : ∀ t, path = some t → Free b!"?#" t := by
            intro t ht
            have := two t (fun d hd => inrest d (by rw [t4]; exact List.mem_append_right _ (mem_opt ht hd)))
            intro d hd
            rcases (show d = 0x3f ∨ d = 0x23 by simpa using hd) with rfl | rfl
            · exact this.1
            · exact this.2
          have three : ∀ x : Bytes, (∀ d, d ∈ x → d ∈ auth) → Free b!"/?#" x := by
            intro x hx d hd
            rcases (show d = 0x2f ∨ d = 0x3f ∨ d = 0x23 by simpa using hd) with rfl | rfl | rfl
            · exact fun m => c4 (hx _ m)
            · exact (two x (fun d hd => inauth d (hx d hd))).1
            · exact (two x (fun d hd => inauth d (hx d hd))).2
          right
          split at h
          · rename_i cred host h5
            have t5 := cut_text _ _ _ _ h5
            have c5 := cut_clean _ _ _ _ h5
            split at h
            · cases h
            · split at h
              · rename_i user pass h6
                have t6 := cut_text _ _ _ _ h6
                have c6 := cut_clean _ _ _ _ h6
                cases hx : hostPart _ host with
                | ub => rw [hx] at h; cases h
                | ok z =>
                  rw [hx] at h
                  cases h
                  obtain ⟨hst, port, k1, k0, k2, k3, k4, k5⟩ := host_some _ _ _ hx
                  refine ⟨⟨after, some (user, pass), hst, port, path, q, f⟩, ?_, ⟨fsch, ?_, nofun, ⟨?_, k2⟩, ?_, fpath, c1q⟩, k5, k4⟩
                  · rw [t1, t3, t4, t5, t6, k1]
                    simp [render, credText, opt]
                  · intro u w hw
                    cases hw
                    have f1 := three user (fun d hd => by rw [t5, t6]; simp [hd])
                    have f2 := three pass (fun d hd => by rw [t5, t6]; simp [hd, opt])
                    have g1 : (0x40 : UInt8) ∉ user := fun m => c5 (by rw [t6]; simp [m])
                    have g2 : (0x40 : UInt8) ∉ pass := fun m => c5 (by rw [t6]; simp [m, opt])
                    constructor
                    · intro d hd
                      rcases (show d = 0x3a ∨ d = 0x40 ∨ d ∈ b!"/?#" by simpa using hd) with rfl | rfl | hd
                      · exact c6
                      · exact g1
                      · exact f1 d hd
                    · intro d hd
                      rcases (show d = 0x40 ∨ d ∈ b!"/?#" by simpa using hd) with rfl | hd
                      · exact g2
                      · exact f2 d hd
                  · have f1 := three hst (fun d hd => by rw [t5, k1]; simp [hd, opt])
                    intro d hd
                    rcases (show d = 0x3a ∨ d ∈ b!"/?#" by simpa using hd) with rfl | hd
                    · exact k0
                    · exact f1 d hd
                  · intro t ht
                    cases ht
                    exact ⟨three t (fun d hd => by rw [t5, k1]; simp [hd, opt]), fun e => k3 (by rw [e])⟩
              · cases h
          · rename_i host h5
            have t5 := cut_text _ _ _ _ h5
            have c5 := cut_clean _ _ _ _ h5
            cases hx : hostPart _ host with
            | ub => rw [hx] at h; cases h
            | ok z =>
              rw [hx] at h
              cases h
              obtain ⟨hst, port, k1, k0, k2, k3, k4, k5⟩ := host_some _ _ _ hx
              refine ⟨⟨after, none, hst, port, path, q, f⟩, ?_, ⟨fsch, nofun, fun _ => ⟨?_, ?_⟩, ⟨?_, k2⟩, ?_, fpath, c1q⟩, k5, k4⟩
              · rw [t1, t3, t4, t5, k1]
                simp [render, credText, opt]
              · intro d hd
                obtain rfl : d = 0x40 := by simpa using hd
                exact fun m => c5 (by rw [k1]; exact List.mem_append_left _ m)
              · intro t ht d hd
                obtain rfl : d = 0x40 := by simpa using hd
                exact fun m => c5 (by rw [k1]; exact List.mem_append_right _ (mem_opt ht m))
              · have f1 := three hst (fun d hd => by rw [t5, k1]; simp [hd])
                intro d hd
                rcases (show d = 0x3a ∨ d ∈ b!"/?#" by simpa using hd) with rfl | hd
                · exact k0
                · exact f1 d hd
              · intro t ht
                cases ht
                exact ⟨three t (fun d hd => by rw [t5, k1]; simp [hd, opt]), fun e => k3 (by rw [e])⟩
    · cases h

private theorem opt_unique {c : UInt8} {a a' : Bytes} {o o' : Option Bytes} (h : c ∉ a) (h' : c ∉ a') (e : a ++ opt c o = a' ++ opt c o') :
    a = a' ∧ o = o' := by
  have ev : ∀ (x : Bytes) (z : Option Bytes), c ∉ x → cut c (x ++ opt c z) = (x, z) := by
    intro x z hx
    cases z with
    | none => rw [opt, List.append_nil]; exact cut_none _ _ hx
    | some r => exact cut_found _ _ _ hx
  have := ev a o h
  rw [e, ev a' o' h'] at this
  injection this with e1 e2
  exact ⟨e1.symm, e2.symm⟩

private theorem not_opt {c d : UInt8} {o : Option Bytes} (hc : d ≠ c) (h : ∀ t, o = some t → d ∉ t) : d ∉ opt c o := by
  cases o with
  | none => simp [opt]
  | some t => simp [opt, hc, h t rfl]

private theorem not_app {d : UInt8} {a b : Bytes} (h1 : d ∉ a) (h2 : d ∉ b) : d ∉ a ++ b := by
  intro h; rcases List.mem_append.1 h with h | h
  · exact h1 h
  · exact h2 h

/-- user:password@host:port -/
private def authText (p : Parts) : Bytes := credText p.cred ++ (p.host ++ opt 0x3a p.port)

private theorem not_auth {p : Parts} (h : Split p) {d : UInt8} (hd : d ∈ b!"/?#") : d ∉ authText p := by
  have ne : d ≠ 0x3a ∧ d ≠ 0x40 := by revert d; decide
  refine not_app ?_ (not_app ?_ (not_opt ne.1 (fun t ht => (h.port t ht).1 d hd)))
  · cases hc : p.cred with
    | none => simp [credText]
    | some c =>
      have := h.cred c.1 c.2 hc
      simp only [credText, List.mem_append, List.mem_singleton, not_or]
      exact ⟨⟨⟨this.1 d (by revert d; decide), ne.1⟩, this.2 d (by revert d; decide)⟩, ne.2⟩
  · exact h.host.1 d (by revert d; decide)

/-- **C92, there is only one way to read a URL** such that each component ends at the first delimiter that can end it. -/
theorem C92_unique (p q : Parts) (hp : Split p) (hq : Split q) (h : render p = render q) : p = q := by
  have e : ∀ x : Parts, render x = (((x.scheme ++ opt 0x3a (some (0x2f :: 0x2f :: (authText x ++ opt 0x2f x.path)))) ++ opt 0x3f x.query) ++
      opt 0x23 x.fragment) := by
    intro x; simp [render, authText, opt]
  rw [e, e] at h
  have n1 : ∀ x : Parts, Split x → ∀ d ∈ b!"?#", d ∉ x.scheme ++ opt 0x3a (some (0x2f :: 0x2f :: (authText x ++ opt 0x2f x.path))) := by
    intro x hx d hd
    refine not_app (hx.scheme.1 d (by revert d; decide)) (not_opt (by revert d; decide) ?_)
    intro t ht
    cases ht
    have ne : d ≠ 0x2f := by revert d; decide
    have : d ∉ authText x ++ opt 0x2f x.path :=
      not_app (not_auth hx (by revert d; decide)) (not_opt (by revert d; decide) (fun t ht => hx.path t ht d (by revert d; decide)))
    simp only [List.mem_cons, not_or]
    exact ⟨ne, ne, this⟩
  have n2 : ∀ x : Parts, Split x → 0x23 ∉ (x.scheme ++ opt 0x3a (some (0x2f :: 0x2f :: (authText x ++ opt 0x2f x.path)))) ++ opt 0x3f x.query :=
    fun x hx => not_app (n1 x hx _ (by decide)) (not_opt (by decide) (fun t ht => hx.query t ht _ (by decide)))
  obtain ⟨h, ef⟩ := opt_unique (n2 p hp) (n2 q hq) h
  obtain ⟨h, eq⟩ := opt_unique (n1 p hp _ (by decide)) (n1 q hq _ (by decide)) h
  obtain ⟨es, h⟩ := opt_unique (hp.scheme.1 0x3a (by decide)) (hq.scheme.1 0x3a (by decide)) h
  injection h with h
  injection h with _ h
  injection h with _ h
  obtain ⟨h, epath⟩ := opt_unique (not_auth hp (by decide)) (not_auth hq (by decide)) h
  have n3 : ∀ x : Parts, Split x → x.cred = none → 0x40 ∉ x.host ++ opt 0x3a x.port := fun x hx hc =>
    not_app ((hx.bare hc).1 _ (by decide)) (not_opt (by decide) (fun t ht => (hx.bare hc).2 t ht _ (by decide)))
  have n4 : ∀ x : Parts, Split x → ∀ u w, x.cred = some (u, w) → 0x40 ∉ u ++ opt 0x3a (some w) := fun x hx u w hc =>
    not_app ((hx.cred u w hc).1 _ (by decide)) (not_opt (by decide) (fun t ht => by cases ht; exact (hx.cred u w hc).2 _ (by decide)))
  have key : p.cred = q.cred ∧ p.host ++ opt 0x3a p.port = q.host ++ opt 0x3a q.port := by
    unfold authText at h
    have g : ∀ (u w r : Bytes), credText (some (u, w)) ++ r = (u ++ opt 0x3a (some w)) ++ opt 0x40 (some r) := by
      intro u w r; simp [credText, opt]
    have g0 : ∀ r : Bytes, credText none ++ r = r ++ opt 0x40 none := by intro r; simp [credText, opt]
    cases hc : p.cred with
    | none =>
      cases hc' : q.cred with
      | none => rw [hc, hc'] at h; exact ⟨rfl, h⟩
      | some c =>
        rw [hc, hc', g0, g] at h
        cases (opt_unique (n3 p hp hc) (n4 q hq _ _ hc') h).2
    | some c =>
      cases hc' : q.cred with
      | none =>
        rw [hc, hc', g0, g] at h
        cases (opt_unique (n4 p hp _ _ hc) (n3 q hq hc') h).2
      | some c' =>
        rw [hc, hc', g, g] at h
        obtain ⟨h1, h2⟩ := opt_unique (n4 p hp _ _ hc) (n4 q hq _ _ hc') h
        obtain ⟨h3, h4⟩ := opt_unique ((hp.cred _ _ hc).1 0x3a (by decide)) ((hq.cred _ _ hc').1 0x3a (by decide)) h1
        injection h2 with h2
        injection h4 with h4
        exact ⟨by rw [show c = (c.1, c.2) from rfl, show c' = (c'.1, c'.2) from rfl, h3, h4], h2⟩
  obtain ⟨ec, h⟩ := key
  obtain ⟨eh, ep⟩ := opt_unique (hp.host.1 0x3a (by decide)) (hq.host.1 0x3a (by decide)) h
  cases p; cases q
  simp only at es ec eh ep epath eq ef
  subst es ec eh ep epath eq ef
  rfl

/-- Texts that are accepted and texts that are refused. -/
example : (∃ y a, parse b!"ws://u:p@h:80/x?q#f" = .ok (some y, a) ∧ y.host = some b!"h" ∧ y.port = 80) ∧
    parse b!"http://" = .ok (none, b!"http") ∧ parse b!"http://:80/" = .ok (none, b!"http") ∧
    parse b!"http://h:/" = .ok (none, b!"http") ∧ parse b!"http://u@h/" = .ok (none, b!"http") ∧
    parse b!"://h" = .ok (none, b!"://h") ∧ parse b!"h/p" = .ok (none, b!"h/p") :=
  ⟨⟨_, _, rfl, by decide, by decide⟩, by decide, by decide, by decide, by decide, by decide, by decide⟩

/-- C92 is false for ports: letters are accepted, as a number that depends on whether a path follows; without a path a sign is
accepted too. -/
theorem C92_port_false :
    (∃ y a, parse b!"http://h:x/" = .ok (some y, a) ∧ y.port = 72) ∧
    (∃ y a, parse b!"http://h:x" = .ok (some y, a) ∧ y.port = 0) ∧
    (∃ y a, parse b!"http://h:-1" = .ok (some y, a) ∧ y.port = -1) :=
  ⟨⟨_, _, rfl, by decide⟩, ⟨_, _, rfl, by decide⟩, ⟨_, _, rfl, by decide⟩⟩

/-- C92 is false for hosts: a second '@' of the authority becomes part of the host. -/
theorem C92_host_false : ∃ y a, parse b!"http://u:p@h@x/" = .ok (some y, a) ∧ y.host = some b!"h@x" := ⟨_, _, rfl, by decide⟩

/-- Components that meet the hypotheses of `C92_unique`. -/
example : Split ⟨b!"ws", some (b!"u", b!"p"), b!"h", some b!"80", some b!"x", some b!"q", some b!"f"⟩ :=
  ⟨by decide, by intro u w e; cases e; decide, nofun, by decide, by intro t e; cases e; decide, by intro t e; cases e; decide,
    by intro t e; cases e; decide⟩

end Verif.Props
