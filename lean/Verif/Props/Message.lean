import Verif.Lemmas.Message
/-! # Properties C30–C35: bodies, cookies, duplication and export of messages -/
namespace Verif.Props
open Verif.Message Verif.UMap Verif.Spec.Cookie Verif.Spec.UrlParts Verif.Printf

/-! ## C30 -/

/-- The body an observer reads: the first `binary_body_length` bytes of `binary_body`. -/
def bodyOf (body : Option Bytes) (len : Nat) : Bytes := (body.getD []).take len

/-- C30, responses. Whatever was there before: the stored body is the given one, the length its length and the status the
given one; nothing else changes. -/
theorem C30_response (r : Response) (status : Nat) (s b : Bytes) (hb : b ≠ []) (extra : Bytes) :
    (let r' := (setStringBody r status (some s)).2
     (setStringBody r status (some s)).1 = .ok ∧ bodyOf r'.body r'.bodyLen = s ∧ r'.bodyLen = s.length ∧ r'.status = status ∧
       { r' with body := r.body, bodyLen := r.bodyLen, status := r.status } = r) ∧
    (∃ r', setBinaryBody r status (some (b ++ extra)) b.length = .ok (.ok, r') ∧ bodyOf r'.body r'.bodyLen = b ∧
       r'.bodyLen = b.length ∧ r'.status = status ∧
       { r' with body := r.body, bodyLen := r.bodyLen, status := r.status } = r) ∧
    (let r' := setEmptyBody r status
     bodyOf r'.body r'.bodyLen = [] ∧ r'.bodyLen = 0 ∧ r'.status = status ∧
       { r' with body := r.body, bodyLen := r.bodyLen, status := r.status } = r) := by
  refine ⟨⟨rfl, ?_, rfl, rfl, rfl⟩, ?_, ⟨rfl, rfl, rfl, rfl⟩⟩
  · simp [setStringBody, bodyOf]
  · have h0 : b.length ≠ 0 := by simpa using hb
    refine ⟨{ r with body := some b, bodyLen := b.length, status := status }, ?_, ?_, rfl, rfl, rfl⟩
    · simp only [setBinaryBody]
      rw [if_neg h0, if_pos (by simp)]
      simp
    · simp [bodyOf]

/-- C30, refused arguments (NULL body, zero length) leave the response as it was. -/
theorem C30_response_refused (r : Response) (status : Nat) (b : Option Bytes) (n : Nat) :
    setStringBody r status none = (.params, r) ∧ setBinaryBody r status none n = .ok (.params, r) ∧
    setBinaryBody r status b 0 = .ok (.params, r) := by
  refine ⟨rfl, rfl, ?_⟩
  cases b <;> rfl

/-- C30, streams: the stream is the given one with its size, block size and data, the status the given one, the former body is gone;
nothing else changes. -/
theorem C30_stream (r : Response) (status size block data : Nat) :
    let r' := setStream r status (size, block, data)
    r'.stream = some (size, block, data) ∧ r'.status = status ∧ bodyOf r'.body r'.bodyLen = [] ∧ r'.bodyLen = 0 ∧
      { r' with body := r.body, bodyLen := r.bodyLen, status := r.status, stream := r.stream } = r :=
  ⟨rfl, rfl, rfl, rfl, rfl⟩

/-- C30, requests. -/
theorem C30_request (r : Request) (s b : Bytes) (hb : b ≠ []) (extra : Bytes) :
    (let r' := (setStringBodyReq r (some s)).2
     (setStringBodyReq r (some s)).1 = .ok ∧ bodyOf r'.body r'.bodyLen = s ∧ r'.bodyLen = s.length ∧
       { r' with body := r.body, bodyLen := r.bodyLen } = r) ∧
    (∃ r', setBinaryBodyReq r (some (b ++ extra)) b.length = .ok (.ok, r') ∧ bodyOf r'.body r'.bodyLen = b ∧
       r'.bodyLen = b.length ∧ { r' with body := r.body, bodyLen := r.bodyLen } = r) ∧
    (let r' := setEmptyBodyReq r
     bodyOf r'.body r'.bodyLen = [] ∧ r'.bodyLen = 0 ∧ { r' with body := r.body, bodyLen := r.bodyLen } = r) ∧
    setStringBodyReq r none = (.params, r) ∧ (∀ n, setBinaryBodyReq r none n = .ok (.params, r)) ∧
    ∀ b, setBinaryBodyReq r b 0 = .ok (.params, r) := by
  refine ⟨⟨rfl, ?_, rfl, rfl⟩, ?_, ⟨rfl, rfl, rfl⟩, rfl, fun _ => rfl, fun b => by cases b <;> rfl⟩
  · simp [setStringBodyReq, bodyOf]
  · have h0 : b.length ≠ 0 := by simpa using hb
    refine ⟨{ r with body := some b, bodyLen := b.length }, ?_, ?_, rfl, rfl⟩
    · simp only [setBinaryBodyReq]
      rw [if_neg h0, if_pos (by simp)]
      simp
    · simp [bodyOf]

example : ([1, 0, 2] : Bytes) ≠ [] := by decide

/-! ## C31 -/

/-- The call is accepted: a key and a known SameSite value. -/
def Accepted (a : CookieArgs) : Prop := a.key ≠ none ∧ a.sameSite ≤ 3

/-- The stored cookie shows the attributes of the call; a NULL value is stored as the empty string. -/
def Shows (c : Cookie) (a : CookieArgs) : Prop :=
  (∃ k, a.key = some k ∧ read c.key = .ok (some k)) ∧ read c.value = .ok (some (a.value.getD [])) ∧
  read c.expires = .ok a.expires ∧ c.maxAge = a.maxAge ∧ read c.domain = .ok a.domain ∧ read c.path = .ok a.path ∧
  c.secure = a.secure ∧ c.httpOnly = a.httpOnly ∧ c.sameSite = a.sameSite

/-- C31. After any history of calls on a response without cookies: one cookie per key, keys in order of first accepted
insertion, each cookie showing the last accepted call with its key; nothing else of the response changes. -/
theorem C31_cookies (h : List CookieArgs) (r : Response) (hr : r.cookies = []) :
    ∃ r', runCookies r h = .ok r' ∧ { r' with cookies := [] } = r ∧
      ∃ ks : List Bytes, r'.cookies.map (·.key) = ks.map Ptr.to ∧ ks.Nodup ∧
        ks = firsts (h.filterMap (fun a => if a.sameSite ≤ 3 then a.key else none)) ∧
        ∀ c ∈ r'.cookies, ∃ before a after, h = before ++ a :: after ∧ Accepted a ∧ Shows c a ∧
          ∀ a' ∈ after, Accepted a' → a'.key ≠ a.key := by
  refine ⟨_, runCookies_eq h r [] (by simp [hr]), ?_, ?_⟩
  · cases r; simp only at hr; subst hr; rfl
  · obtain ⟨f1, f2⟩ := foldl_upsert (accepted h)
    generalize hl : (accepted h).foldl (fun l p => upsert p.2 p.1 l) [] = l at f1 f2
    have hk : (accepted h).map (·.1) = h.filterMap (fun a => if a.sameSite ≤ 3 then a.key else none) := by
      unfold accepted
      rw [List.map_filterMap]
      congr 1; funext a
      by_cases hs : a.sameSite ≤ 3
      · cases a.key <;> simp [hs]
      · simp [hs]
    refine ⟨l.map (·.1), ?_, ?_, by rw [f1, hk], ?_⟩
    · simp only [List.map_map]; rfl
    · rw [f1]; exact firsts_nodup _
    · intro c hc
      simp only [List.mem_map] at hc
      obtain ⟨⟨k, a⟩, hp, rfl⟩ := hc
      -- the entry is the last accepted call with its key
      have hnd : (l.map (·.1)).Nodup := by rw [f1]; exact firsts_nodup _
      have hfind : l.find? (fun p => p.1 == k) = some (k, a) := by
        clear f1 f2 hl
        induction l with
        | nil => simp at hp
        | cons q t ih =>
          rw [List.map_cons, List.nodup_cons] at hnd
          rw [List.find?_cons]
          rcases List.mem_cons.1 hp with e | hm
          · subst e; simp
          · have : (q.1 == k) = false := by
              have : q.1 ≠ k := fun e => hnd.1 (e ▸ List.mem_map.2 ⟨(k, a), hm, rfl⟩)
              simpa using this
            simp only [this]; exact ih hm hnd.2
      rw [f2] at hfind
      have key : ∀ h : List CookieArgs, (accepted h).reverse.find? (fun p => p.1 == k) = some (k, a) →
          ∃ before after, h = before ++ a :: after ∧ (a.key = some k ∧ a.sameSite ≤ 3) ∧
            ∀ a' ∈ after, Accepted a' → a'.key ≠ a.key := by
        intro h
        induction h with
        | nil => simp [accepted]
        | cons x t ih =>
          intro hf
          have hacc : accepted (x :: t) = accepted [x] ++ accepted t := by
            unfold accepted; rw [← List.filterMap_append]; rfl
          rw [hacc, List.reverse_append, List.find?_append] at hf
          cases hft : (accepted t).reverse.find? (fun p => p.1 == k) with
          | some q =>
            rw [hft] at hf
            simp only [Option.some_or, Option.some.injEq] at hf
            rw [hf] at hft
            obtain ⟨b, af, h1, h2, h3⟩ := ih hft
            exact ⟨x :: b, af, by rw [h1]; rfl, h2, h3⟩
          | none =>
            rw [hft, Option.none_or] at hf
            have hx : a = x ∧ a.key = some k ∧ a.sameSite ≤ 3 := by
              by_cases hs : x.sameSite ≤ 3
              · cases hxk : x.key with
                | none => simp [accepted, hs, hxk] at hf
                | some kx =>
                  simp [accepted, hs, hxk] at hf
                  obtain ⟨e1, e2⟩ := hf
                  subst e1; subst e2
                  exact ⟨rfl, hxk, hs⟩
              · simp [accepted, hs] at hf
            refine ⟨[], t, by rw [hx.1]; rfl, hx.2, ?_⟩
            intro a' ha' hacc' heq
            rw [hx.2.1] at heq
            rw [List.find?_eq_none] at hft
            refine hft (k, a') ?_ (by simp)
            rw [List.mem_reverse]
            unfold accepted
            rw [List.mem_filterMap]
            exact ⟨a', ha', by simp [hacc'.2, heq]⟩
      obtain ⟨b, af, h1, ⟨h2, h2'⟩, h3⟩ := key h hfind
      refine ⟨b, a, af, h1, ⟨by simp [h2], h2'⟩, ?_, h3⟩
      have hrd : ∀ o, read (dup o) = .ok o := by intro o; cases o <;> rfl
      exact ⟨⟨k, h2, rfl⟩, rfl, hrd _, rfl, hrd _, hrd _, rfl, rfl, rfl⟩

/-- Sample calls: two keys, one replaced, one call refused. -/
def sampleCalls : List CookieArgs :=
  [⟨some b!"a", some b!"1", none, 0, none, some b!"/", true, false, 1⟩,
   ⟨some b!"b", none, none, 10, none, none, false, true, 0⟩,
   ⟨some b!"a", some b!"2", some b!"x", 0, none, none, false, false, 3⟩,
   ⟨some b!"b", some b!"no", none, 0, none, none, false, false, 4⟩]

example : ∃ r, runCookies {} sampleCalls = .ok r ∧ r.cookies.map (·.key) = [.to b!"a", .to b!"b"] ∧
    r.cookies.map (·.value) = [.to b!"2", .to b!""] := ⟨_, rfl, by decide, by decide⟩

/-- A call of one of the two functions; the plain one ignores the `sameSite` of its arguments, which it does not have. -/
inductive CookieCall where
  | plain (a : CookieArgs)
  | site (a : CookieArgs)

/-- The attributes a call asks for: without SameSite for the plain function. -/
def CookieCall.wants : CookieCall → CookieArgs
  | .plain a => ⟨a.key, a.value, a.expires, a.maxAge, a.domain, a.path, a.secure, a.httpOnly, 0⟩
  | .site a => a

/-- A history of calls of both functions. -/
def runCalls : Response → List CookieCall → Res Response
  | r, [] => .ok r
  | r, .plain a :: t => do
    let (_, r') ← addCookieNoSite r a
    runCalls r' t
  | r, .site a :: t => do
    let (_, r') ← addCookie r a
    runCalls r' t

private theorem runCalls_eq (h : List CookieCall) (r : Response) : runCalls r h = runCookies r (h.map CookieCall.wants) := by
  induction h generalizing r with
  | nil => rfl
  | cons c t ih =>
    cases c with
    | plain a =>
      have e : addCookieNoSite r a = addCookie r (CookieCall.wants (.plain a)) := rfl
      rw [runCalls, List.map_cons, runCookies, e]
      cases addCookie r (CookieCall.wants (.plain a)) with
      | ub => rfl
      | ok p => exact ih p.2
    | site a =>
      rw [runCalls, List.map_cons, runCookies]
      show _ = addCookie r a >>= _
      cases addCookie r a with
      | ub => rfl
      | ok p => exact ih p.2

/-- C31 with both functions: as `C31_cookies`, for histories that mix the call with and the call without SameSite. -/
theorem C31_both (h : List CookieCall) (r : Response) (hr : r.cookies = []) :
    ∃ r', runCalls r h = .ok r' ∧ { r' with cookies := [] } = r ∧
      ∃ ks : List Bytes, r'.cookies.map (·.key) = ks.map Ptr.to ∧ ks.Nodup ∧
        ks = firsts (h.filterMap (fun c => if c.wants.sameSite ≤ 3 then c.wants.key else none)) ∧
        ∀ c ∈ r'.cookies, ∃ before a after, h.map CookieCall.wants = before ++ a :: after ∧ Accepted a ∧ Shows c a ∧
          ∀ a' ∈ after, Accepted a' → a'.key ≠ a.key := by
  obtain ⟨r', h1, h2, ks, h3, h4, h5, h6⟩ := C31_cookies (h.map CookieCall.wants) r hr
  refine ⟨r', by rw [runCalls_eq, h1], h2, ks, h3, h4, ?_, h6⟩
  rw [h5, List.filterMap_map]; rfl

example : ∃ r, runCalls {} [.site ⟨some b!"a", some b!"1", none, 0, none, none, false, false, 2⟩,
      .plain ⟨some b!"b", none, none, 0, none, none, true, false, 2⟩] = .ok r ∧ r.cookies.map (·.sameSite) = [2, 0] :=
  ⟨_, rfl, by decide⟩

/-! ## C32 -/

/-- No ';' in any text of the cookie, no '=' in its name, no leading space in its name. -/
def Plain (a : CookieArgs) (k : Bytes) : Prop :=
  (0x3b : UInt8) ∉ k ∧ (0x3d : UInt8) ∉ k ∧ k.head? ≠ some 0x20 ∧
  ∀ o ∈ [a.value, a.expires, a.domain, a.path], ∀ s, o = some s → (0x3b : UInt8) ∉ s

/-- **C32, partial.** Missing: a Max-Age of 2^31 or more (`C32_max_age_false`). Reading the Set-Cookie text of a cookie gives back its name, its value and every attribute. -/
theorem C32_set_cookie_partial (a : CookieArgs) (k : Bytes) (hp : Plain a k) (hs : a.sameSite ≤ 3) (hm : a.maxAge < 2 ^ 31) :
    ∃ h, cookieHeader (a.cookie k) = .ok h ∧ nameValue h = some (k, some (a.value.getD [])) ∧
      attrOf h b!"Expires" = a.expires.map some ∧ attrOf h b!"Domain" = a.domain.map some ∧
      attrOf h b!"Path" = a.path.map some ∧
      ((attrOf h b!"Max-Age").map (Option.map number) = if a.maxAge = 0 then none else some (some a.maxAge)) ∧
      (attrOf h b!"Secure" = if a.secure then some none else none) ∧
      (attrOf h b!"HttpOnly" = if a.httpOnly then some none else none) ∧
      (attrOf h b!"SameSite" = match a.sameSite with
        | 0 => none | 1 => some (some b!"Strict") | 2 => some (some b!"Lax") | _ => some (some b!"None")) := by
  obtain ⟨hk1, hk2, hk3, hv⟩ := hp
  refine ⟨_, cookieHeader_eq a k, ?_⟩
  have hmax : (0 < a.maxAge → decimalInt (asInt a.maxAge) = decimal a.maxAge) := by
    intro _
    have : a.maxAge % 2 ^ 32 = a.maxAge := Nat.mod_eq_of_lt (by omega)
    unfold asInt
    rw [this, if_pos hm]; rfl
  have hdig : ∀ n, (0x3b : UInt8) ∉ decimal n := by
    intro n hc; have := decimal_digit n _ hc; revert this; decide
  have hfree : ∀ f ∈ headerFields a.expires a.maxAge a.domain a.path a.secure a.httpOnly a.sameSite, (0x3b : UInt8) ∉ f := by
    intro f hf
    have hfield : ∀ (name : Bytes) (o : Option Bytes), (0x3b : UInt8) ∉ name → (∀ s, o = some s → (0x3b : UInt8) ∉ s) →
        f ∈ field name o → (0x3b : UInt8) ∉ f := by
      intro name o hn ho hmem
      cases o with
      | none => simp [field] at hmem
      | some s =>
        simp only [field, Option.toList_some, List.map_cons, List.map_nil, List.mem_singleton] at hmem
        subst hmem
        simp [hn, ho s rfl]
    unfold headerFields at hf
    simp only [List.mem_append] at hf
    rcases hf with (((((hf | hf) | hf) | hf) | hf) | hf) | hf
    · exact hfield _ _ (by decide) (hv _ (by simp)) hf
    · refine hfield _ _ (by decide) ?_ hf
      intro s hs'
      unfold maxAgeText at hs'
      split at hs'
      · rename_i h0
        rw [hmax h0] at hs'
        cases hs'; exact hdig _
      · cases hs'
    · exact hfield _ _ (by decide) (hv _ (by simp)) hf
    · exact hfield _ _ (by decide) (hv _ (by simp)) hf
    · simp at hf; obtain ⟨_, rfl⟩ := hf; decide
    · simp at hf; obtain ⟨_, rfl⟩ := hf; decide
    · refine hfield _ _ (by decide) ?_ hf
      intro s hs'
      unfold sameSiteName at hs'
      split at hs'
      · cases hs'; decide
      · split at hs'
        · cases hs'; decide
        · split at hs' <;> cases hs'; decide
  have hval : (0x3b : UInt8) ∉ a.value.getD [] := by
    cases hx : a.value with
    | none => simp
    | some s => exact hv _ (by simp) s hx
  have hnv : (0x3b : UInt8) ∉ k ++ 0x3d :: a.value.getD [] := by
    simp only [List.mem_append, List.mem_cons, not_or]
    exact ⟨hk1, by decide, hval⟩
  have hparse := congrArg (List.map (fun f => pair (unspace f))) (pieces_fields 0x3b _ _ hnv hfree)
  rw [List.map_cons] at hparse
  have hun : unspace (k ++ 0x3d :: a.value.getD []) = k ++ 0x3d :: a.value.getD [] := by
    cases k with
    | nil => rfl
    | cons c t =>
      have : c ≠ 0x20 := by simpa using hk3
      unfold unspace
      split
      · rename_i e; simp only [List.cons_append, List.cons.injEq] at e; exact absurd e.1 this
      · rfl
  rw [hun, pair_eq _ _ hk2] at hparse
  generalize hH : (k ++ 0x3d :: a.value.getD []) ++
    ((headerFields a.expires a.maxAge a.domain a.path a.secure a.httpOnly a.sameSite).map (fun f => 0x3b :: f)).flatten = H
  rw [hH] at hparse
  have hnvp : nameValue H = some (k, some (a.value.getD [])) := by
    unfold nameValue parse; rw [hparse]; rfl
  refine ⟨hnvp, ?_⟩
  -- the attribute list
  have hattr : ∀ name, attrOf H name = ((headerFields a.expires a.maxAge a.domain a.path a.secure a.httpOnly a.sameSite).map
      (fun f => pair (unspace f)) |>.find? (fun p => p.1 == name)).map (·.2) := by
    intro name
    unfold attrOf parse; rw [hparse]; rfl
  have hmapf : ∀ (name : Bytes) (o : Option Bytes), (0x3d : UInt8) ∉ name →
      (field name o).map (fun f => pair (unspace f)) = o.toList.map (fun v => (name, some v)) := by
    intro name o hn
    cases o with
    | none => rfl
    | some v =>
      simp only [field, Option.toList_some, List.map_cons, List.map_nil]
      rw [show (0x20 :: name ++ 0x3d :: v) = 0x20 :: (name ++ 0x3d :: v) from rfl]
      simp only [unspace]
      rw [pair_eq _ _ hn]
  have hlist : (headerFields a.expires a.maxAge a.domain a.path a.secure a.httpOnly a.sameSite).map (fun f => pair (unspace f)) =
      a.expires.toList.map (fun v => (b!"Expires", some v)) ++ (maxAgeText a.maxAge).toList.map (fun v => (b!"Max-Age", some v)) ++
      a.domain.toList.map (fun v => (b!"Domain", some v)) ++ a.path.toList.map (fun v => (b!"Path", some v)) ++
      (if a.secure then [(b!"Secure", none)] else []) ++ (if a.httpOnly then [(b!"HttpOnly", none)] else []) ++
      (sameSiteName a.sameSite).toList.map (fun v => (b!"SameSite", some v)) := by
    unfold headerFields
    simp only [List.map_append, hmapf _ _ (show (0x3d : UInt8) ∉ b!"Expires" by decide),
      hmapf _ _ (show (0x3d : UInt8) ∉ b!"Max-Age" by decide), hmapf _ _ (show (0x3d : UInt8) ∉ b!"Domain" by decide),
      hmapf _ _ (show (0x3d : UInt8) ∉ b!"Path" by decide), hmapf _ _ (show (0x3d : UInt8) ∉ b!"SameSite" by decide)]
    congr 2
    · congr 1
      cases a.secure <;> rfl
    · cases a.httpOnly <;> rfl
  -- searching one name
  have hseg : ∀ (name n : Bytes) (o : Option Bytes), (o.toList.map (fun v => (n, some v))).find? (fun p => p.1 == name) =
      if n = name then o.map (fun v => (n, some v)) else none := by
    intro name n o
    cases o with
    | none => simp
    | some v =>
      by_cases h : n = name
      · simp [h]
      · simp [h]
  have hflag : ∀ (name n : Bytes) (b : Bool), ((if b then [(n, (none : Option Bytes))] else [])).find? (fun p => p.1 == name) =
      if n = name then (if b then some (n, none) else none) else none := by
    intro name n b
    cases b
    · simp
    · by_cases h : n = name
      · simp [h]
      · simp [h]
  have hgen : ∀ name, attrOf H name = ((((((((if b!"Expires" = name then a.expires.map (fun v => (b!"Expires", some v)) else none).or
      (if b!"Max-Age" = name then (maxAgeText a.maxAge).map (fun v => (b!"Max-Age", some v)) else none)).or
      (if b!"Domain" = name then a.domain.map (fun v => (b!"Domain", some v)) else none)).or
      (if b!"Path" = name then a.path.map (fun v => (b!"Path", some v)) else none)).or
      (if b!"Secure" = name then (if a.secure then some (b!"Secure", none) else none) else none)).or
      (if b!"HttpOnly" = name then (if a.httpOnly then some (b!"HttpOnly", none) else none) else none)).or
      (if b!"SameSite" = name then (sameSiteName a.sameSite).map (fun v => (b!"SameSite", some v)) else none)) : Option (Bytes × Option Bytes)).map (·.2) := by
    intro name
    rw [hattr, hlist]
    simp only [List.find?_append, hseg, hflag]
  refine ⟨?_, ?_, ?_, ?_, ?_, ?_, ?_⟩
  · rw [hgen]; cases a.expires <;> simp
  · rw [hgen]; cases a.domain <;> simp
  · rw [hgen]; cases a.path <;> simp
  · rw [hgen]
    by_cases h0 : a.maxAge = 0
    · simp [maxAgeText, h0]
    · have hpos : 0 < a.maxAge := by omega
      simp only [maxAgeText, hpos, if_true, hmax hpos, h0, if_false]
      simp
      exact ofDecimal_decimal a.maxAge
  · rw [hgen]; cases a.secure <;> simp
  · rw [hgen]; cases a.httpOnly <;> simp
  · rw [hgen]
    have : a.sameSite = 0 ∨ a.sameSite = 1 ∨ a.sameSite = 2 ∨ a.sameSite = 3 := by omega
    rcases this with h | h | h | h <;> simp [h, sameSiteName]

example : Plain ⟨some b!"sid", some b!"a=b c", some b!"Wed, 21 Oct 2026", 3600, some b!"ex.org", none, true, true, 2⟩ b!"sid" ∧
    cookieHeader (CookieArgs.cookie ⟨some b!"sid", some b!"a=b c", some b!"Wed, 21 Oct 2026", 3600, some b!"ex.org", none, true, true, 2⟩ b!"sid")
      = .ok b!"sid=a=b c; Expires=Wed, 21 Oct 2026; Max-Age=3600; Domain=ex.org; Secure; HttpOnly; SameSite=Lax" := by
  refine ⟨⟨by decide, by decide, by decide, ?_⟩, by decide +kernel⟩
  intro o ho s hs
  simp only [List.mem_cons, List.not_mem_nil, or_false] at ho
  rcases ho with rfl | rfl | rfl | rfl <;> cases hs <;> decide

/-- C32 needs the bound: a Max-Age of 2^31 or more (the field is unsigned) is written as a negative number, which expires
the cookie at once. -/
theorem C32_max_age_false :
    cookieHeader (CookieArgs.cookie ⟨some b!"a", some b!"b", none, 4294967295, none, none, false, false, 0⟩ b!"a")
      = .ok b!"a=b; Max-Age=-1" := by decide +kernel

/-! ## C33 -/

/-- A call of one of the public functions that modify a response. -/
inductive RespCall where
  | cookie (a : CookieArgs)
  | string (status : Nat) (s : Option Bytes)
  | binary (status : Nat) (b : Option Bytes) (n : Nat)
  | empty (status : Nat)
  | stream (status : Nat) (s : Nat × Nat × Nat)
  | json (status : Nat) (text : Bytes)
  | shared (d free : Option Nat)
  | header (k v : Option Bytes)
  | properties (os : List RespOpt)
  deriving DecidableEq, Repr

/-- The response after the call. -/
def respCall (r : Response) : RespCall → Res Response
  | .cookie a => do let x ← addCookie r a; return x.2
  | .string st s => .ok (setStringBody r st s).2
  | .binary st b n => do let x ← setBinaryBody r st b n; return x.2
  | .empty st => .ok (setEmptyBody r st)
  | .stream st s => .ok (setStream r st s)
  | .json st t => setJsonBody r st t
  | .shared d f => .ok (setShared r d f).2
  | .header k v => do let x ← addHeader r k v; return x.2
  | .properties os => do let x ← setProperties r os; return x.2

/-- Strings fit in memory. -/
def fits (v : Option Bytes) : Prop := (v.getD []).length + 2 < 2 ^ 64

/-- Header values fit in memory. -/
def ValidRespCall : RespCall → Prop
  | .header _ v => fits v
  | .properties os => ∀ o ∈ os, ∀ k v, o = .header k v → fits v
  | _ => True

/-- The responses a program can build. -/
inductive RespReach : Response → Prop
  | init : RespReach {}
  | call {r r' c} : RespReach r → ValidRespCall c → respCall r c = .ok r' → RespReach r'

private theorem fits_valid {v : Option Bytes} (h : fits v) : ValidArgs (valOf v) 0 (lenOf v) := by
  apply validArgs_str
  cases v with
  | none => simp [lenOf]
  | some s => simpa [lenOf, fits] using h

/-- what every built response satisfies -/
def RespInv (r : Response) : Prop :=
  r.protocol = none ∧ Reach r.header ∧ (∀ b, r.body = some b → r.bodyLen ≤ b.length) ∧ (r.body = none → r.bodyLen = 0) ∧
  ∀ c ∈ r.cookies, ∃ k v e d p, c.key = .to k ∧ c.value = .to v ∧ c.expires = dup e ∧ c.domain = dup d ∧ c.path = dup p

private theorem inv_binary {r r' : Response} {st : Nat} {b : Option Bytes} {n : Nat} {rc : Rc} (h : RespInv r)
    (e : setBinaryBody r st b n = .ok (rc, r')) : RespInv r' := by
  unfold setBinaryBody at e
  split at e
  · cases e; exact h
  · split at e
    · cases e; exact h
    · split at e
      · cases e
        rename_i hl
        exact ⟨h.1, h.2.1, by intro b' hb; cases hb; simp; omega, by simp, h.2.2.2.2⟩
      · cases e

private theorem inv_string {r : Response} {st : Nat} {s : Option Bytes} (h : RespInv r) : RespInv (setStringBody r st s).2 := by
  cases s with
  | none => exact h
  | some s => exact ⟨h.1, h.2.1, by intro b' hb; cases hb; simp [setStringBody], by simp [setStringBody], h.2.2.2.2⟩

private theorem inv_json {r r' : Response} {st : Nat} {t : Bytes} (h : RespInv r) (e : setJsonBody r st t = .ok r') : RespInv r' := by
  unfold setJsonBody at e
  cases hp : UMap.put r.header (some b!"Content-Type") (some b!"application/json") with
  | ub => rw [hp] at e; cases e
  | ok x =>
    obtain ⟨rc, hd⟩ := x
    rw [hp, Res.ok_bind] at e
    cases e
    exact ⟨h.1, Reach.put h.2.1 (validArgs_str _ (by decide)) hp, by intro b' hb; cases hb; simp, by simp, h.2.2.2.2⟩

private theorem inv_option {r r' : Response} {o : RespOpt} {rc : Rc} (h : RespInv r)
    (ho : ∀ k v, o = .header k v → fits v) (e : setOption r o = .ok (rc, r')) : RespInv r' := by
  cases o with
  | status n => cases e; exact h
  | header k v =>
    simp only [setOption] at e
    cases hp : UMap.put r.header k v with
    | ub => rw [hp] at e; cases e
    | ok x =>
      obtain ⟨rc', hd⟩ := x
      rw [hp, Res.ok_bind] at e
      cases e
      exact ⟨h.1, Reach.put h.2.1 (fits_valid (ho k v rfl)) hp, h.2.2⟩
  | headerRemove k =>
    simp only [setOption] at e
    cases hp : UMap.removeKey r.header k with
    | ub => rw [hp] at e; cases e
    | ok x =>
      obtain ⟨rc', hd⟩ := x
      rw [hp, Res.ok_bind] at e
      cases e
      exact ⟨h.1, Reach.removeKey h.2.1 hp, h.2.2⟩
  | realm v => cases e; exact h
  | binaryBody b n => exact inv_binary h e
  | stringBody s =>
    simp only [setOption, Res.ok.injEq] at e
    have := inv_string (st := r.status % 2 ^ 32) (s := s) h
    rw [e] at this; exact this
  | jsonBody t =>
    cases t with
    | none => cases e; exact h
    | some t =>
      simp only [setOption] at e
      cases hp : setJsonBody r (r.status % 2 ^ 32) t with
      | ub => rw [hp] at e; cases e
      | ok x => rw [hp, Res.ok_bind] at e; cases e; exact inv_json h hp
  | shared d => cases e; exact h
  | timeout n => cases e; exact h
  | other => cases e; exact h

private theorem inv_properties {os : List RespOpt} {r r' : Response} {rc : Rc} (h : RespInv r)
    (ho : ∀ o ∈ os, ∀ k v, o = .header k v → fits v) (e : setProperties r os = .ok (rc, r')) : RespInv r' := by
  induction os generalizing r with
  | nil => cases e; exact h
  | cons o t ih =>
    rw [setProperties] at e
    cases hp : setOption r o with
    | ub => rw [hp] at e; cases e
    | ok x =>
      obtain ⟨rc', r1⟩ := x
      rw [hp, Res.ok_bind] at e
      have h1 := inv_option h (ho o List.mem_cons_self) hp
      simp only at e
      split at e
      · exact ih h1 (fun o' h' => ho o' (List.mem_cons_of_mem _ h')) e
      · cases e; exact h1

private theorem inv_put (a : CookieArgs) (key : Bytes) (cs cs' : List Cookie)
    (h : ∀ c ∈ cs, ∃ k v e d p, c.key = .to k ∧ c.value = .to v ∧ c.expires = dup e ∧ c.domain = dup d ∧ c.path = dup p)
    (e : putCookie a key cs = .ok cs') :
    ∀ c ∈ cs', ∃ k v e d p, c.key = .to k ∧ c.value = .to v ∧ c.expires = dup e ∧ c.domain = dup d ∧ c.path = dup p := by
  induction cs generalizing cs' with
  | nil =>
    cases e
    intro c hc
    rw [List.mem_singleton] at hc
    subst hc
    exact ⟨_, _, _, _, _, rfl, rfl, rfl, rfl, rfl⟩
  | cons c t ih =>
    rw [putCookie] at e
    obtain ⟨k, v, ex, d, p, h1, h2, h3, h4, h5⟩ := h c List.mem_cons_self
    rw [h1] at e
    simp only [Message.read, Res.ok_bind] at e
    split at e
    · cases e
      intro c' hc'
      rcases List.mem_cons.1 hc' with rfl | hc'
      · exact ⟨k, _, _, _, _, rfl, rfl, rfl, rfl, rfl⟩
      · exact h c' (List.mem_cons_of_mem _ hc')
    · cases hp : putCookie a key t with
      | ub => rw [hp] at e; cases e
      | ok t' =>
        rw [hp, Res.ok_bind] at e
        cases e
        intro c' hc'
        rcases List.mem_cons.1 hc' with rfl | hc'
        · exact h _ List.mem_cons_self
        · exact ih t' (fun x hx => h x (List.mem_cons_of_mem _ hx)) hp c' hc'

theorem respReach_inv {r : Response} (h : RespReach r) : RespInv r := by
  induction h with
  | init => exact ⟨rfl, Reach.init, by simp, by simp, by simp⟩
  | @call r r' c _ hv e ih =>
    cases c with
    | cookie a =>
      simp only [respCall, addCookie] at e
      cases hk : a.key with
      | none => rw [hk] at e; cases e; exact ih
      | some k =>
        rw [hk] at e
        simp only at e
        split at e
        · cases hp : putCookie a k r.cookies with
          | ub => rw [hp] at e; cases e
          | ok cs =>
            rw [hp] at e
            cases e
            exact ⟨ih.1, ih.2.1, ih.2.2.1, ih.2.2.2.1, inv_put a k _ _ ih.2.2.2.2 hp⟩
        · cases e; exact ih
    | string st s => cases e; exact inv_string ih
    | binary st b n =>
      simp only [respCall] at e
      cases hp : setBinaryBody r st b n with
      | ub => rw [hp] at e; cases e
      | ok x => obtain ⟨rc, r1⟩ := x; rw [hp] at e; cases e; exact inv_binary ih hp
    | empty st => cases e; exact ⟨ih.1, ih.2.1, by simp [setEmptyBody], by simp [setEmptyBody], ih.2.2.2.2⟩
    | stream st s => cases e; exact ⟨ih.1, ih.2.1, by simp [setStream], by simp [setStream], ih.2.2.2.2⟩
    | json st t => exact inv_json ih e
    | shared d f => cases e; cases d <;> exact ih
    | header k v =>
      simp only [respCall, addHeader] at e
      cases k with
      | none => cases e; exact ih
      | some k =>
        cases v with
        | none => cases e; exact ih
        | some v =>
          simp only at e
          cases hp : UMap.put r.header (some k) (some v) with
          | ub => rw [hp] at e; cases e
          | ok x =>
            obtain ⟨rc, hd⟩ := x
            rw [hp] at e
            cases e
            exact ⟨ih.1, Reach.put ih.2.1 (fits_valid hv) hp, ih.2.2⟩
    | properties os =>
      simp only [respCall] at e
      cases hp : setProperties r os with
      | ub => rw [hp] at e; cases e
      | ok x => obtain ⟨rc, r1⟩ := x; rw [hp] at e; cases e; exact inv_properties ih hv hp

/-- C33 is false of the code, for every response: no public function sets `protocol`, and the copy is refused without it.
`ulfius_duplicate_response` returns NULL for every response a program can build. -/
theorem C33_duplicate_false (r : Response) (h : RespReach r) : duplicateResponse r = .ok none := by
  have := (respReach_inv h).1
  unfold duplicateResponse copyResponse
  rw [this]

/-- A response with a header, a cookie and a body. -/
def sampleResp : Response :=
  { status := 201, cookies := [CookieArgs.cookie ⟨some b!"a", some b!"1", none, 0, none, none, false, false, 0⟩ b!"a"],
    body := some b!"hi\x00", bodyLen := 2 }

theorem sampleResp_reach : RespReach sampleResp :=
  .call (c := .cookie ⟨some b!"a", some b!"1", none, 0, none, none, false, false, 0⟩)
    (.call (c := .string 201 (some b!"hi")) .init trivial rfl) trivial (by decide +kernel)

example : RespReach sampleResp ∧ duplicateResponse sampleResp = .ok none := ⟨sampleResp_reach, by decide +kernel⟩

/-- All attributes of the cookie are given. -/
def Full (c : Cookie) : Prop := c.expires ≠ .null ∧ c.domain ≠ .null ∧ c.path ≠ .null

private theorem copyCookies_full (cs : List Cookie)
    (h : ∀ c ∈ cs, ∃ k v e d p, c.key = .to k ∧ c.value = .to v ∧ c.expires = dup e ∧ c.domain = dup d ∧ c.path = dup p)
    (hf : ∀ c ∈ cs, Full c) : copyCookies cs = .ok cs := by
  induction cs with
  | nil => rfl
  | cons c t ih =>
    obtain ⟨k, v, e, d, p, h1, h2, h3, h4, h5⟩ := h c List.mem_cons_self
    obtain ⟨f1, f2, f3⟩ := hf c List.mem_cons_self
    rw [h3] at f1; rw [h4] at f2; rw [h5] at f3
    obtain ⟨e, rfl⟩ : ∃ x, e = some x := by cases e with | none => exact absurd rfl f1 | some x => exact ⟨x, rfl⟩
    obtain ⟨d, rfl⟩ : ∃ x, d = some x := by cases d with | none => exact absurd rfl f2 | some x => exact ⟨x, rfl⟩
    obtain ⟨p, rfl⟩ : ∃ x, p = some x := by cases p with | none => exact absurd rfl f3 | some x => exact ⟨x, rfl⟩
    have hc : copyCookie c = .ok (.ok, c) := by
      unfold copyCookie
      rw [h1, h2, h3, h4, h5]
      cases c
      simp only at h1 h2 h3 h4 h5
      subst h1; subst h2; subst h3; subst h4; subst h5
      rfl
    rw [copyCookies, hc, Res.ok_bind]
    simp only [ih (fun x hx => h x (List.mem_cons_of_mem _ hx)) (fun x hx => hf x (List.mem_cons_of_mem _ hx)), Res.ok_bind]
    rfl

/-- **C33, partial.** A response built by the public functions whose `protocol` field was then set by hand, and all of
whose cookies have an expiry, a domain and a path, is duplicated: same status, headers, realm, cookies, body, stream,
timeout and shared data. Missing: the other responses, for which the claim is false (`C33_duplicate_false`,
`C33_cookie_false`). -/
theorem C33_duplicate_partial (r : Response) (h : RespReach r) (p : Bytes) (hf : ∀ c ∈ r.cookies, Full c) :
    ∃ d, duplicateResponse { r with protocol := some p } = .ok (some d) ∧ d.status = r.status ∧ d.header = r.header ∧
      d.realm = r.realm ∧ d.cookies = r.cookies ∧ bodyOf d.body d.bodyLen = bodyOf r.body r.bodyLen ∧
      d.bodyLen = r.bodyLen ∧ d.stream = r.stream ∧ d.timeout = r.timeout ∧ d.shared = r.shared := by
  obtain ⟨_, h2, h3, h4, h5⟩ := respReach_inv h
  have hcb : ∃ b, copyBody r.body r.bodyLen = .ok b ∧ bodyOf b (if b.isSome then r.bodyLen else 0) = bodyOf r.body r.bodyLen ∧
      (if b.isSome then r.bodyLen else 0) = r.bodyLen := by
    unfold copyBody
    cases hb : r.body with
    | none => exact ⟨none, rfl, by simp [bodyOf], by simp [h4 hb]⟩
    | some b =>
      simp only
      by_cases h0 : r.bodyLen = 0
      · exact ⟨none, by rw [if_pos h0], by simp [bodyOf, h0], by simp [h0]⟩
      · refine ⟨some (b.take r.bodyLen), by rw [if_neg h0, if_pos (h3 b hb)], ?_, by simp⟩
        simp [bodyOf, List.take_take]
  obtain ⟨b, hb1, hb2, hb3⟩ := hcb
  refine ⟨{
      status := r.status, protocol := some p, realm := r.realm, header := r.header, cookies := r.cookies,
      body := b, bodyLen := (if b.isSome then r.bodyLen else 0), stream := r.stream, shared := r.shared, freeShared := none,
      timeout := r.timeout,
      ws := { protocol := r.ws.protocol, extensions := r.ws.extensions, callbacks := r.ws.callbacks } }, ?_, rfl, rfl, rfl, rfl, hb2, hb3, rfl, rfl, rfl⟩
  unfold duplicateResponse copyResponse
  simp only [C13_copy_exact r.header h2, Res.ok_bind, copyCookies_full r.cookies h5 hf, hb1]
  rfl

example : RespReach { cookies := [CookieArgs.cookie ⟨some b!"a", none, some b!"e", 0, some b!"d", some b!"/", false, false, 0⟩ b!"a"] } :=
  .call (c := .cookie ⟨some b!"a", none, some b!"e", 0, some b!"d", some b!"/", false, false, 0⟩) .init trivial (by decide +kernel)

/-- C33 is false even with a protocol: when a cookie lacks an expiry, a domain or a path (as most do), its copy holds a
pointer to freed memory as value, and sending or exporting the duplicate reads it. -/
theorem C33_cookie_false (r : Response) (h : RespReach r) (p : Bytes) (c : Cookie) (hc : c ∈ r.cookies) (hn : ¬ Full c)
    (d : Response) (hd : duplicateResponse { r with protocol := some p } = .ok (some d)) :
    ∃ c' ∈ d.cookies, c'.key = c.key ∧ cookieHeader c' = .ub := by
  obtain ⟨_, h2, _, _, h5⟩ := respReach_inv h
  unfold duplicateResponse copyResponse at hd
  simp only [C13_copy_exact r.header h2, Res.ok_bind] at hd
  cases hcs : copyCookies r.cookies with
  | ub => rw [hcs] at hd; cases hd
  | ok cs =>
    cases hb : copyBody r.body r.bodyLen with
    | ub => rw [hcs, hb] at hd; cases hd
    | ok b =>
      rw [hcs, hb] at hd
      cases hd
      simp only
      clear hb
      have h5' : ∀ c ∈ r.cookies, ∃ k v e d p, c.key = .to k ∧ c.value = .to v ∧ c.expires = dup e ∧ c.domain = dup d ∧ c.path = dup p := h5
      clear h5 h h2
      generalize r.cookies = l at *
      induction l generalizing cs with
      | nil => simp at hc
      | cons x t ih =>
        rw [copyCookies] at hcs
        obtain ⟨k, v, e, d, q, h1, h2, h3, h4, h5⟩ := h5' x List.mem_cons_self
        cases hx : copyCookie x with
        | ub => rw [hx] at hcs; cases hcs
        | ok y =>
          obtain ⟨rc, y⟩ := y
          rw [hx] at hcs
          cases ht : copyCookies t with
          | ub => rw [ht] at hcs; cases hcs
          | ok ds =>
            rw [ht] at hcs
            cases hcs
            rcases List.mem_cons.1 hc with rfl | hc
            · refine ⟨y, List.mem_cons_self, ?_⟩
              unfold copyCookie at hx
              have hrd : ∀ o, read (dup o) = .ok o := by intro o; cases o <;> rfl
              have hrt : ∀ s, Message.read (.to s) = .ok (some s) := fun _ => rfl
              simp only [h1, h2, h3, h4, h5, hrd, hrt, Res.ok_bind] at hx
              have hnone : q = none ∨ d = none ∨ e = none ∨ (some v : Option Bytes) = none := by
                unfold Full at hn
                rw [h3, h4, h5] at hn
                cases q <;> cases d <;> cases e <;> simp_all [dup]
              rw [if_pos hnone] at hx
              cases hx
              exact ⟨by rw [h1]; rfl, rfl⟩
            · obtain ⟨c', m1, m2⟩ := ih ds hc ht (fun x hx => h5' x (List.mem_cons_of_mem _ hx))
              exact ⟨c', List.mem_cons_of_mem _ m1, m2⟩

example : ∃ d, duplicateResponse { sampleResp with protocol := some b!"HTTP/1.1" } = .ok (some d) ∧
    ∃ c ∈ sampleResp.cookies, ¬ Full c := ⟨_, rfl, _, List.mem_cons_self, by simp [Full, CookieArgs.cookie, dup]⟩

/-! ## C34 -/

/-- Every value of the map is a C string (or NULL). -/
def StrMap (m : UMap) : Prop :=
  Reach m ∧ ∀ k b, UMap.get m (some k) = .ok (some b) → ∃ v t, b = strBuf v ++ t ∧ NoNul v ∧ v.length + 2 < 2 ^ 64

/-- Same keys and same strings. -/
def SameMap (d m : UMap) : Prop :=
  ∀ k, (UMap.hasKey m (some k) = .ok true → UMap.hasKey d (some k) = .ok true ∧ getStr d k = getStr m k) ∧
    (UMap.hasKey m (some k) = .ok false → UMap.get d (some k) = .ok none ∧ UMap.getLength d (some k) = .ok none)

/-- **C34, partial.** A request whose parameters, headers, cookies and form values are strings, and whose client address
fits in 16 bytes, is duplicated: the maps hold the same strings, the body is the same, and every other field is equal.
Missing: binary values and IPv6 addresses, for which the claim is false (`C34_binary_false`, `C34_address_false`). -/
theorem C34_duplicate_partial (r : Request) (h1 : StrMap r.mapUrl) (h2 : StrMap r.mapHeader) (h3 : StrMap r.mapCookie)
    (h4 : StrMap r.mapPost) (hb : r.bodyLen ≤ (r.body.getD []).length)
    (ha : ∀ a, r.clientAddress = some a → a.length = 16) :
    ∃ d, duplicateRequest r = .ok (some d) ∧ SameMap d.mapUrl r.mapUrl ∧ SameMap d.mapHeader r.mapHeader ∧
      SameMap d.mapCookie r.mapCookie ∧ SameMap d.mapPost r.mapPost ∧
      bodyOf d.body d.bodyLen = bodyOf r.body r.bodyLen ∧
      { d with mapUrl := r.mapUrl, mapHeader := r.mapHeader, mapCookie := r.mapCookie, mapPost := r.mapPost, body := r.body } = r := by
  have hsame : ∀ m : UMap, StrMap m → ∃ d, UMap.copyInto UMap.init m = .ok (.ok, d) ∧ SameMap d m := by
    intro m hm
    obtain ⟨d, e1, e2⟩ := C14_copy_into_partial UMap.init m Reach.init hm.1 hm.2
    exact ⟨d, e1, fun k => ⟨(e2 k).1, fun hk => by
      obtain ⟨a, b⟩ := (e2 k).2 hk
      exact ⟨a.trans rfl, b.trans rfl⟩⟩⟩
  obtain ⟨d1, a1, b1⟩ := hsame _ h1
  obtain ⟨d2, a2, b2⟩ := hsame _ h2
  obtain ⟨d3, a3, b3⟩ := hsame _ h3
  obtain ⟨d4, a4, b4⟩ := hsame _ h4
  have haddr : copyAddress r.clientAddress = .ok r.clientAddress := by
    cases hx : r.clientAddress with
    | none => rfl
    | some a =>
      have := ha a hx
      have h16 : sockaddrSize ≤ a.length := by rw [this]; decide
      have ht : a.take sockaddrSize = a := by rw [show sockaddrSize = a.length from this.symm, List.take_length]
      simp only [copyAddress]
      rw [if_pos h16, ht]
  have hbody : ∃ b, copyBodyReq r.body r.bodyLen = .ok b ∧ bodyOf b r.bodyLen = bodyOf r.body r.bodyLen := by
    unfold copyBodyReq
    by_cases h0 : r.bodyLen = 0
    · exact ⟨none, by rw [if_pos h0], by simp [bodyOf, h0]⟩
    · cases hx : r.body with
      | none => rw [hx] at hb; simp at hb; omega
      | some b =>
        rw [hx] at hb
        refine ⟨some (b.take r.bodyLen), by rw [if_neg h0]; simp only; rw [if_pos (by simpa using hb)], by simp [bodyOf, List.take_take]⟩
  obtain ⟨b, c1, c2⟩ := hbody
  refine ⟨{ r with clientAddress := r.clientAddress, mapUrl := d1, mapHeader := d2, mapCookie := d3, mapPost := d4, body := b }, ?_,
    b1, b2, b3, b4, c2, rfl⟩
  unfold duplicateRequest copyRequest
  simp only [haddr, a1, a2, a3, a4, c1, Res.ok_bind, ne_eq, not_true, if_false]
  rfl

/-- Sample request: two parameters and a binary body. -/
def sampleReq : Request :=
  { verb := some b!"POST", url := some b!"http://h:80/p?q", bodyLen := 3, body := some [1, 0, 2],
    clientAddress := some (List.replicate 16 7) }

example : StrMap sampleReq.mapUrl ∧ sampleReq.bodyLen ≤ (sampleReq.body.getD []).length ∧
    ∃ d, duplicateRequest sampleReq = .ok (some d) ∧ d.body = some [1, 0, 2] := by
  refine ⟨⟨Reach.init, ?_⟩, by decide, _, rfl, by decide⟩
  intro k b hk
  have : UMap.get UMap.init (some k) = .ok none := rfl
  rw [show sampleReq.mapUrl = UMap.init from rfl, this] at hk
  cases hk

/-- C34 is false for binary form values: three bytes 1,0,2 (a posted file) become one byte. -/
theorem C34_binary_false : ∃ r d, Reach r.mapPost ∧ duplicateRequest r = .ok (some d) ∧
    UMap.getLength r.mapPost (some b!"Bin") = .ok (some 3) ∧
    UMap.get d.mapPost (some b!"Bin") = .ok (some [some 1, some 0, some 0]) :=
  ⟨{ mapPost := sampleMap }, _, sampleMap_reach, rfl, by decide +kernel, by decide +kernel⟩

/-- C34 is false for the address of an IPv6 client (28 bytes): only 16 bytes are copied. -/
theorem C34_address_false : ∃ r d, r.clientAddress = some (List.replicate 28 1) ∧ duplicateRequest r = .ok (some d) ∧
    d.clientAddress = some (List.replicate 16 1) :=
  ⟨{ clientAddress := some (List.replicate 28 1) }, _, rfl, rfl, rfl⟩

/-! ## C35 -/

private theorem cut_again (c : UInt8) (s a : Bytes) (o : Option Bytes) (h : Yuarel.cut c s = (a, o)) : Yuarel.cut c a = (a, none) := by
  have := (Yuarel.cut_spec c s).1
  rw [h] at this
  exact Yuarel.cut_none c a this

private theorem parse_stuck (s : Bytes) (h1 : (0x23 : UInt8) ∉ s) (h2 : (0x3f : UInt8) ∉ s) (h3 : s.head? ≠ some 0x2f)
    (h4 : ∀ sch rest, Yuarel.cut 0x3a s = (sch, some (0x2f :: 0x2f :: rest)) → sch = []) : Yuarel.parse s = .ok (none, s) := by
  unfold Yuarel.parse
  rw [Yuarel.cut_none _ _ h1]
  simp only
  rw [Yuarel.cut_none _ _ h2]
  simp only
  split
  · simp at h3
  · split
    · rename_i sch rest heq
      rw [if_pos (h4 sch rest heq)]
    · rfl

private theorem cut_sub (c d : UInt8) (s : Bytes) (h : d ∉ s) : d ∉ (Yuarel.cut c s).1 := by
  obtain ⟨_, a2, a3⟩ := Yuarel.cut_spec c s
  cases e : (Yuarel.cut c s).2 with
  | none => rw [← a3 e]; exact h
  | some r => intro hm; apply h; rw [a2 r e]; simp [hm]

private theorem parse_twice (u a : Bytes) (y : Option Yuarel.Url) (h : Yuarel.parse u = .ok (y, a)) :
    Yuarel.parse a = .ok (none, a) := by
  have hempty : Yuarel.parse [] = .ok (none, []) := rfl
  unfold Yuarel.parse at h
  rcases h1 : Yuarel.cut 0x23 u with ⟨s1, f⟩
  rw [h1] at h
  simp only at h
  rcases h2 : Yuarel.cut 0x3f s1 with ⟨s2, q⟩
  rw [h2] at h
  simp only at h
  have n1 : (0x23 : UInt8) ∉ s1 := by have := (Yuarel.cut_spec 0x23 u).1; rw [h1] at this; exact this
  have n2 : (0x3f : UInt8) ∉ s2 := by have := (Yuarel.cut_spec 0x3f s1).1; rw [h2] at this; exact this
  have n1' : (0x23 : UInt8) ∉ s2 := by have := cut_sub 0x3f 0x23 s1 n1; rw [h2] at this; exact this
  split at h
  · cases h; exact hempty
  · rename_i hhead
    have hh : s2.head? ≠ some 0x2f := by
      intro hc
      cases s2 with
      | nil => simp at hc
      | cons x t => simp at hc; exact hhead t (by rw [hc])
    split at h
    · rename_i scheme rest heq
      have hscheme : Yuarel.parse scheme = .ok (none, scheme) := by
        have m : (0x3a : UInt8) ∉ scheme := by have := (Yuarel.cut_spec 0x3a s2).1; rw [heq] at this; exact this
        have m1 : (0x23 : UInt8) ∉ scheme := by have := cut_sub 0x3a 0x23 s2 n1'; rw [heq] at this; exact this
        have m2 : (0x3f : UInt8) ∉ scheme := by have := cut_sub 0x3a 0x3f s2 n2; rw [heq] at this; exact this
        refine parse_stuck scheme m1 m2 ?_ ?_
        · have := (Yuarel.cut_spec 0x3a s2).2.1 (0x2f :: 0x2f :: rest) (by rw [heq])
          rw [heq] at this
          simp only at this
          cases scheme with
          | nil => simp
          | cons x t => rw [this] at hh; simpa using hh
        · intro sch r' e; rw [Yuarel.cut_none _ _ m] at e; cases e
      split at h
      · rename_i hs0
        cases h
        exact parse_stuck _ n1' n2 hh (fun sch r' e => by rw [heq] at e; cases e; exact hs0)
      · split at h
        · cases h; exact hscheme
        · split at h
          · split at h
            · cases h; exact hscheme
            · split at h
              · revert h
                generalize Yuarel.hostPart _ _ = x
                cases x with
                | ub => intro h; cases h
                | ok x => intro h; cases h; exact hscheme
              · cases h; exact hscheme
          · revert h
            generalize Yuarel.hostPart _ _ = x
            cases x with
            | ub => intro h; cases h
            | ok x => intro h; cases h; exact hscheme
    · rename_i hno
      cases h
      exact parse_stuck _ n1' n2 hh (fun sch r' e => absurd e (hno sch r'))

private theorem export_after (b64 : Bytes → Bytes) (r r' : Request) (x : Option Bytes) (h : exportRequest b64 r = .ok (x, r')) :
    (r.url = none ∧ r' = r ∧ x = none) ∨
    ∃ u a y, r.url = some u ∧ Yuarel.parse u = .ok (y, a) ∧ r' = { r with url := some a } := by
  unfold exportRequest at h
  cases hu : r.url with
  | none => rw [hu] at h; cases h; exact Or.inl ⟨rfl, rfl, rfl⟩
  | some u =>
    right
    rw [hu] at h
    simp only at h
    cases hp : Yuarel.parse u with
    | ub => rw [hp] at h; cases h
    | ok p =>
      obtain ⟨y, a⟩ := p
      refine ⟨u, a, y, rfl, hp, ?_⟩
      rw [hp, Res.ok_bind] at h
      simp only at h
      cases y with
      | none => cases h; rfl
      | some y =>
        simp only at h
        have hfin : ∀ z : Res (Option Bytes), (do
            let url ← z
            let rest ← exportRest b64 r y.host y.port
            return (some ((r.verb.getD b!"GET") ++ b!" /" ++ str url ++ b!" HTTP/1.1\r\n" ++ rest),
              { r with url := some a }) : Res (Option Bytes × Request)) = .ok (x, r') → r' = { r with url := some a } := by
          intro z
          cases z with
          | ub => intro h; cases h
          | ok z =>
            simp only [Res.ok_bind]
            generalize exportRest b64 r y.host y.port = w
            cases w with
            | ub => intro h; cases h
            | ok w => intro h; cases h; rfl
        split at h
        · exact hfin _ h
        · exact hfin (.ok _) h

/-- C35 is false of the code, for every request: once a request was exported, every further export returns NULL — the
first one has cut the URL of the `const` request after its scheme. -/
theorem C35_second_export_false (b64 : Bytes → Bytes) (r r' : Request) (x : Option Bytes)
    (h : exportRequest b64 r = .ok (x, r')) : exportRequest b64 r' = .ok (none, r') := by
  rcases export_after b64 r r' x h with ⟨h1, h2, _⟩ | ⟨u, a, y, h1, h2, h3⟩
  · subst h2
    unfold exportRequest
    rw [h1]
  · subst h3
    have := parse_twice u a y h2
    unfold exportRequest
    simp only [this, Res.ok_bind]
    rfl

example : ∃ t r', exportRequest id sampleReq = .ok (some t, r') ∧ r'.url = some b!"http" :=
  ⟨b!"POST /p?q HTTP/1.1\r\nHost: h:80\r\nContent-Length: 3\r\n\r\n\x01\r\n",
    { sampleReq with url := some b!"http" }, by decide +kernel, rfl⟩

/-- **C35, partial.** An export changes nothing but the URL, and an URL the parser refuses gives NULL both times. Missing:
the text of the second export, see `C35_second_export_false`. -/
theorem C35_export_partial (b64 : Bytes → Bytes) (r r' : Request) (x : Option Bytes) (h : exportRequest b64 r = .ok (x, r')) :
    { r' with url := r.url } = r := by
  rcases export_after b64 r r' x h with ⟨_, h2, _⟩ | ⟨u, a, y, h1, _, h3⟩
  · subst h2; rfl
  · subst h3; cases r; simp only at h1; subst h1; rfl

end Verif.Props
