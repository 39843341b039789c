import Verif.Lemmas.Yuarel
/-! # Properties C36–C37: URL decomposition (src/yuarel.c) -/
namespace Verif.Props
open Verif.Yuarel Verif.Spec.UrlParts Verif.Spec.Segments

/-- **C36, partial.** Missing: port numbers of 2^31 or more (`C36_port_overflow_false`, `C36_port_wrap_false`). Parsing the
text of a URL gives back each component; the caller's buffer then holds only
the scheme. -/
theorem C36_absolute_partial (p : Parts) (h : Wf p) (hp : ∀ t, p.port = some t → number t < 2 ^ 31) :
    parse (render p) = .ok (some {
      scheme := some p.scheme, username := p.cred.map (·.1), password := p.cred.map (·.2), host := some p.host,
      port := ((p.port.map number).getD 0 : Nat), path := p.path, query := p.query, fragment := p.fragment }, p.scheme) := by
  obtain ⟨sch, cred, host, port, path, query, fragment⟩ := p
  obtain ⟨⟨hs1, hs2, hs3⟩, hc, ⟨hh1, hh2⟩, hpo, hpa, hq⟩ := h
  simp only at hs1 hs2 hs3 hc hh1 hh2 hpo hpa hq hp
  -- where the delimiters cannot be
  have fp : ∀ d : UInt8, (d < 0x30 ∨ 0x3a < d) → d ≠ 0x3a → d ∉ opt 0x3a port := by
    intro d hd hne
    refine opt_free d _ _ hne (fun t ht hm => ?_)
    have := (hpo t ht).2 d hm
    rcases hd with hd | hd
    · exact absurd this.1 (UInt8.not_le.2 hd)
    · have h2 := this.2
      rw [UInt8.lt_iff_toNat_lt] at hd
      rw [UInt8.le_iff_toNat_le] at h2
      have e1 : (0x3a : UInt8).toNat = 58 := rfl
      have e2 : (0x39 : UInt8).toNat = 57 := rfl
      omega
  have fc : ∀ d ∈ b!"/?#", d ∉ credText cred := by
    intro d hd
    cases cred with
    | none => simp [credText]
    | some uw =>
      obtain ⟨u, w⟩ := uw
      have hin : ∀ d ∈ b!"/?#", d ∈ b!":@/?#" ∧ d ∈ b!"@/?#" ∧ d ≠ 0x3a ∧ d ≠ 0x40 := by decide
      have h1 := (hc u w rfl).1 d (hin d hd).1
      have h2 := (hc u w rfl).2 d (hin d hd).2.1
      have h3 := (hin d hd).2.2
      simp [credText, h1, h2, h3]
  have fh : ∀ d ∈ b!":@/?#", d ∉ host := hh1
  have e1 := cut_opt 0x23
    (sch ++ [0x3a, 0x2f, 0x2f] ++ credText cred ++ host ++ opt 0x3a port ++ opt 0x2f path ++ opt 0x3f query) fragment (by
    simp only [List.mem_append, not_or]
    exact ⟨⟨⟨⟨⟨⟨hs1 _ (by decide), by decide⟩, fc _ (by decide)⟩, fh _ (by decide)⟩, fp _ (by decide) (by decide)⟩,
      opt_free _ _ _ (by decide) (fun t ht => hpa t ht _ (by decide))⟩,
      opt_free _ _ _ (by decide) (fun t ht => hq t ht _ (by decide))⟩)
  have e2 := cut_opt 0x3f (sch ++ [0x3a, 0x2f, 0x2f] ++ credText cred ++ host ++ opt 0x3a port ++ opt 0x2f path) query (by
    simp only [List.mem_append, not_or]
    exact ⟨⟨⟨⟨⟨hs1 _ (by decide), by decide⟩, fc _ (by decide)⟩, fh _ (by decide)⟩, fp _ (by decide) (by decide)⟩,
      opt_free _ _ _ (by decide) (fun t ht => hpa t ht _ (by decide))⟩)
  have e3 : cut 0x3a (sch ++ [0x3a, 0x2f, 0x2f] ++ credText cred ++ host ++ opt 0x3a port ++ opt 0x2f path) =
      (sch, some (0x2f :: 0x2f :: (credText cred ++ host ++ opt 0x3a port ++ opt 0x2f path))) := by
    have := cut_found 0x3a sch (0x2f :: 0x2f :: (credText cred ++ host ++ opt 0x3a port ++ opt 0x2f path)) (hs1 _ (by decide))
    rw [← this]; congr 1; simp
  have e6 := cut_opt 0x2f (credText cred ++ host ++ opt 0x3a port) path (by
    simp only [List.mem_append, not_or]
    exact ⟨⟨fc _ (by decide), fh _ (by decide)⟩, fp _ (by decide) (by decide)⟩)
  have hd2 : (sch ++ [0x3a, 0x2f, 0x2f] ++ credText cred ++ host ++ opt 0x3a port ++ opt 0x2f path).head? ≠ some 0x2f := by
    cases sch with
    | nil => exact absurd rfl hs2
    | cons x t => simpa using hs3
  have hd1 : (render ⟨sch, cred, host, port, path, query, fragment⟩).head? ≠ some 0x2f := by
    cases sch with
    | nil => exact absurd rfl hs2
    | cons x t => simpa [render] using hs3
  rw [parse_absolute _ hd1 sch _ fragment query _ _ e1 e2 hd2 e3 hs2 (by simp [hh2]) _ path e6]
  have hports : ∀ t, port = some t → t ≠ [] ∧ (∀ c ∈ t, 0x30 ≤ c ∧ c ≤ 0x39) ∧ number t < 2 ^ 31 :=
    fun t ht => ⟨(hpo t ht).1, (hpo t ht).2, hp t ht⟩
  cases cred with
  | none =>
    have e4 : cut 0x40 (credText none ++ host ++ opt 0x3a port) = (host ++ opt 0x3a port, none) := by
      rw [credText, List.nil_append]
      apply cut_none
      simp only [List.mem_append, not_or]
      exact ⟨fh _ (by decide), fp _ (by decide) (by decide)⟩
    rw [e4]
    simp only
    rw [hostPart_eq _ host port (fh _ (by decide)) hh2 hports rfl]
    rfl
  | some uw =>
    obtain ⟨u, w⟩ := uw
    have h1 := (hc u w rfl).1
    have h2 := (hc u w rfl).2
    have e4 : cut 0x40 (credText (some (u, w)) ++ host ++ opt 0x3a port) = (u ++ 0x3a :: w, some (host ++ opt 0x3a port)) := by
      rw [← cut_found 0x40 (u ++ 0x3a :: w) (host ++ opt 0x3a port) (by
        simp only [List.mem_append, List.mem_cons, not_or]
        exact ⟨h1 _ (by decide), by decide, h2 _ (by decide)⟩)]
      simp [credText]
    rw [e4]
    simp only [show u ++ 0x3a :: w ≠ [] by simp, if_false, cut_found 0x3a u w (h1 _ (by decide))]
    rw [hostPart_eq _ host port (fh _ (by decide)) hh2 hports rfl]
    rfl

/-- A URL with every component. -/
def sampleUrl : Parts :=
  ⟨b!"http", some (b!"me", b!"p:w"), b!"example.org", some b!"8080", some b!"a/b", some b!"x=1?", some b!"t?p#q"⟩

example : Wf sampleUrl ∧ render sampleUrl = b!"http://me:p:w@example.org:8080/a/b?x=1?#t?p#q" := by
  refine ⟨⟨by decide, ?_, by decide, ?_, ?_, ?_⟩, by decide⟩ <;> (unfold sampleUrl; simp; try decide)

/-- C36 for a relative URL. -/
theorem C36_relative (path : Bytes) (query fragment : Option Bytes) (h1 : Free b!"?#" path)
    (h2 : ∀ t, query = some t → Free b!"#" t) :
    parse (0x2f :: path ++ opt 0x3f query ++ opt 0x23 fragment) =
      .ok (some { path := some path, query := query, fragment := fragment }, []) := by
  have e1 := cut_opt 0x23 (0x2f :: path ++ opt 0x3f query) fragment (by
    simp only [List.mem_append, List.mem_cons, not_or]
    exact ⟨⟨by decide, h1 _ (by decide)⟩, opt_free _ _ _ (by decide) (fun t ht => h2 t ht _ (by decide))⟩)
  have e2 := cut_opt 0x3f (0x2f :: path) query (by
    simp only [List.mem_cons, not_or]
    exact ⟨by decide, h1 _ (by decide)⟩)
  unfold parse
  rw [e1]; simp only; rw [e2]; rfl

example : parse b!"/a/b?x=1#f" = .ok (some { path := some b!"a/b", query := some b!"x=1", fragment := some b!"f" }, []) := by
  decide

/-- C36 needs the bound on the port: without a path, `atoi` overflows, which C leaves undefined. -/
theorem C36_port_overflow_false : parse b!"http://h:2147483648" = .ub := by decide

/-- With a path the port wraps silently: 4294967376 is read as 80. -/
theorem C36_port_wrap_false :
    parse b!"http://h:4294967376/" = parse b!"http://h:80/" := by decide

/-- C37. For an array of at least one element, `yuarel_split_path` stores the first non-empty segments in order and stays in
the array. -/
theorem C37_split_path_partial (path : Bytes) (max : Nat) (h : path ≠ []) (hm : 1 ≤ max) :
    splitPath path max = .ok (some ((segments path).take max)) := by
  unfold splitPath
  rw [if_neg h, splitLoop_eq max _ path [] (by omega) (by simp; omega)]
  simp [segments, Res.ok_bind]

example : splitPath b!"//a//b/c/" 2 = .ok (some [b!"a", b!"b"]) := by decide

/-- C37 is false for an empty array: the first element is written anyway. -/
theorem C37_split_zero_false : splitPath b!"a" 0 = .ub ∧ parseQuery b!"a" 0x26 0 = .ub := by decide

/-- C37 is false for a query with more parameters than the array: the last value swallows the rest. -/
theorem C37_query_truncated_false :
    parseQuery b!"a=1&b=2" 0x26 1 = .ok (some [(b!"a", some b!"1&b=2")]) ∧ pair b!"a=1" = (b!"a", some b!"1") := by decide

/-- C37 partial, for queries: the parameters in order, as many as fit; each is exact except the last one of a truncated
query (`C37_query_truncated_false`). -/
theorem C37_query_partial (query : Bytes) (d : UInt8) (max : Nat) (h : query ≠ []) (hm : 1 ≤ max) :
    ∃ l, parseQuery query d max = .ok (some l) ∧ l.length = min (pieces d query).length max ∧
      (∀ i, i + 1 < max → l[i]? = ((pieces d query).map pair)[i]?) ∧
      ((pieces d query).length ≤ max → l = (pieces d query).map pair) := by
  unfold parseQuery
  rw [if_neg h, if_neg (by omega)]
  obtain ⟨l, l1, l2, l3, l4⟩ := queryLoop_eq d max (query.length + 1) query [] (by omega) (by simp; omega)
  exact ⟨l, by rw [l1]; rfl, l2, l3, l4⟩

example : parseQuery b!"a=1&b&=c=" 0x26 5 = .ok (some [(b!"a", some b!"1"), (b!"b", none), (b!"", some b!"c=")]) := by
  decide

end Verif.Props
