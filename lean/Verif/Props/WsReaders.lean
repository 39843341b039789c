import Verif.Lemmas.WsReaders
/-!
# C152: a websocket that is closed while messages come in
-/
namespace Verif.Props
open Verif.Ws Verif.WsReaders
open Verif.Spec.Ws (Frame wire wires Received)

/-- What the calls of `ulfius_read_incoming_message` returned, in order. -/
private def results (s : Sys) : List (Option InMsg) := s.log.map (·.2)

/-- The messages of the first `k` frames. -/
private def firsts (fs : List Frame) (k : Nat) : List (Option InMsg) := (fs.take k).map (fun f => some (toIn f))

/-- A call that has read `pre` of the stream that is left. -/
private def Midst (sv : Bool) (left : List Frame) (sock : Bytes) (call : Call) : Prop :=
  call.pc = .done none ∨ ∃ pre, wires left = pre ++ sock ∧ call = feeds sv {} pre ∧
    (∀ f t, left = f :: t → ∃ b, wire f = pre ++ b) ∧ (left = [] → pre = [])

private structure Sound (c : Cfg) (fs : List Frame) (s : Sys) (k : Nat) : Prop where
  res : results s = firsts fs k
  le : k ≤ fs.length
  free : s.lock = none → s.sock = wires (fs.drop k)
  held : ∀ i call, (s.th i).at_ = .reading call → Midst c.server (fs.drop k) s.sock call

private structure Inv (c : Cfg) (fs : List Frame) (s : Sys) : Prop where
  lock : ∀ i call, (s.th i).at_ = .reading call → s.lock = some i
  prog : ∃ k, Sound c fs s k ∨ ∃ rest, results s = firsts fs k ++ none :: rest

private theorem set_same (s : Sys) (i : Nat) (t : Thread) : (WsReaders.set s i t).th i = t := by simp [WsReaders.set]

private theorem set_other (s : Sys) {i k : Nat} (t : Thread) (h : k ≠ i) : (WsReaders.set s i t).th k = s.th k := by simp [WsReaders.set, h]

/-- A thread that is not reading moves to a place where it is not reading; the socket, the lock and the log stay. -/
private theorem inv_quiet {c : Cfg} {fs : List Frame} {s s' : Sys} (h : Inv c fs s) (i : Nat) (hs : s'.sock = s.sock)
    (hl : s'.lock = s.lock) (hg : s'.log = s.log) (ho : ∀ k, k ≠ i → s'.th k = s.th k) (hi : ∀ call, (s'.th i).at_ ≠ .reading call) :
    Inv c fs s' := by
  have back : ∀ j call, (s'.th j).at_ = .reading call → (s.th j).at_ = .reading call := by
    intro j call hj
    by_cases e : j = i
    · subst e; exact absurd hj (hi call)
    · rw [ho j e] at hj; exact hj
  refine ⟨fun j call hj => hl.trans (h.lock j call (back j call hj)), ?_⟩
  obtain ⟨k, h1 | ⟨rest, h1⟩⟩ := h.prog
  · refine ⟨k, .inl ⟨by rw [← h1.res]; simp [results, hg], h1.le, fun hn => by rw [hs]; exact h1.free (hl ▸ hn), ?_⟩⟩
    intro j call hj
    rw [hs]
    exact h1.held j call (back j call hj)
  · exact ⟨k, .inr ⟨rest, by rw [← h1]; simp [results, hg]⟩⟩

private theorem again_sock (s : Sys) (i n : Nat) : (again s i n).sock = s.sock ∧ (again s i n).lock = s.lock ∧ (again s i n).log = s.log ∧
    (∀ k, k ≠ i → (again s i n).th k = s.th k) ∧ ∀ call, ((again s i n).th i).at_ ≠ .reading call := by
  unfold again
  split
  · exact ⟨rfl, rfl, rfl, fun k hk => set_other _ _ hk, fun call h => by rw [set_same] at h; cases h⟩
  · exact ⟨rfl, rfl, rfl, fun k hk => set_other _ _ hk, fun call h => by rw [set_same] at h; cases h⟩

private theorem inv_again {c : Cfg} {fs : List Frame} {s s' : Sys} (h : Inv c fs s) (i n : Nat) (hs : s'.sock = s.sock)
    (hl : s'.lock = s.lock) (hg : s'.log = s.log) (ho : s'.th = s.th) : Inv c fs (again s' i n) := by
  obtain ⟨a1, a2, a3, a4, a5⟩ := again_sock s' i n
  exact inv_quiet h i (a1.trans hs) (a2.trans hl) (a3.trans hg) (fun k hk => by rw [a4 k hk, ho]) a5

private theorem firsts_succ {fs : List Frame} {k : Nat} {f : Frame} {t : List Frame} (h : fs.drop k = f :: t) :
    firsts fs (k + 1) = firsts fs k ++ [some (toIn f)] ∧ fs.drop (k + 1) = t ∧ k + 1 ≤ fs.length := by
  have hk : k < fs.length := by
    rcases Nat.lt_or_ge k fs.length with hk | hk
    · exact hk
    · rw [List.drop_of_length_le hk] at h
      cases h
  have e := List.drop_eq_getElem_cons hk
  rw [h] at e
  injection e with e1 e2
  refine ⟨?_, e2.symm, hk⟩
  unfold firsts
  rw [List.take_succ_eq_append_getElem hk, List.map_append, e1]
  rfl

private theorem inv_step {c : Cfg} {fs : List Frame} (hok : Ok c fs) {s : Sys} (h : Inv c fs s) (i : Nat) (ok : Bool) :
    Inv c fs (step c s i ok) := by
  unfold step
  cases ha : (s.th i).at_ with
  | ended => exact h
  | loop =>
    simp only
    cases hr : (s.th i).role with
    | socket =>
      simp only
      split
      · split
        · exact inv_quiet h i rfl rfl rfl (fun k hk => set_other _ _ hk) (fun call hc => by rw [set_same] at hc; cases hc)
        · exact h
      · exact inv_quiet h i rfl rfl rfl (fun k hk => set_other _ _ hk) (fun call hc => by rw [set_same] at hc; cases hc)
    | closer n =>
      simp only
      split
      · exact inv_quiet h i rfl rfl rfl (fun k hk => set_other _ _ hk) (fun call hc => by rw [set_same] at hc; cases hc)
      · exact inv_again h i n rfl rfl rfl rfl
  | locking =>
    simp only
    split
    · rename_i hl
      have none_reads : ∀ j call, (s.th j).at_ ≠ .reading call := fun j call hj => by
        rw [h.lock j call hj] at hl; cases hl
      refine ⟨?_, ?_⟩
      · intro j call hj
        by_cases e : j = i
        · subst e; rfl
        · rw [set_other _ _ e] at hj; exact absurd hj (none_reads j call)
      · obtain ⟨k, h1 | ⟨rest, h1⟩⟩ := h.prog
        · refine ⟨k, .inl ⟨h1.res, h1.le, (fun hn => by cases hn), ?_⟩⟩
          intro j call hj
          by_cases e : j = i
          · subst e
            rw [set_same] at hj
            injection hj with hj
            subst hj
            exact .inr ⟨[], (h1.free hl).symm, rfl, fun f t _ => ⟨wire f, rfl⟩, fun _ => rfl⟩
          · rw [set_other _ _ e] at hj; exact absurd hj (none_reads j call)
        · exact ⟨k, .inr ⟨rest, h1⟩⟩
    · exact h
  | reading call =>
    simp only
    have hli := h.lock i call ha
    have alone : ∀ j call', j ≠ i → (s.th j).at_ ≠ .reading call' := fun j call' e hj => by
      have := h.lock j call' hj
      rw [hli] at this
      injection this with this
      exact e this.symm
    by_cases hd : ∃ r, call.pc = .done r
    · obtain ⟨r, hd⟩ := hd
      simp only [hd]
      refine ⟨?_, ?_⟩
      · intro j call' hj
        by_cases e : j = i
        · subst e; rw [set_same] at hj; cases hj
        · rw [set_other _ _ e] at hj; exact absurd hj (alone j call' e)
      · obtain ⟨k, h1 | ⟨rest, h1⟩⟩ := h.prog
        · have hres : results (WsReaders.set { s with lock := none, log := s.log ++ [(i, r)] } i ⟨(s.th i).role, .got r⟩) = firsts fs k ++ [r] := by
            rw [← h1.res]; simp [results, WsReaders.set]
          rcases h1.held i call ha with hn | ⟨pre, p1, p2, p3, p4⟩
          · rw [hd] at hn
            injection hn with hn
            subst hn
            exact ⟨k, .inr ⟨[], hres⟩⟩
          · cases hl : fs.drop k with
            | nil =>
              have := p4 hl
              subst this
              rw [p2] at hd
              cases hd
            | cons f t =>
              obtain ⟨b, hb⟩ := p3 f t hl
              obtain ⟨hf, hn⟩ := hok f (List.mem_of_mem_drop (i := k) (by rw [hl]; exact List.mem_cons_self ..))
              obtain ⟨q1, q2⟩ := feeds_prefix c.server f hf hn pre b hb r (by rw [← p2]; exact hd)
              subst q1
              subst q2
              obtain ⟨f1, f2, f3⟩ := firsts_succ hl
              refine ⟨k + 1, .inl ⟨hres.trans f1.symm, f3, fun _ => ?_, ?_⟩⟩
              · rw [f2]
                rw [hl, wires_cons, hb, List.append_nil] at p1
                exact (List.append_cancel_left p1).symm
              · intro j call' hj
                by_cases e : j = i
                · subst e; rw [set_same] at hj; cases hj
                · rw [set_other _ _ e] at hj; exact absurd hj (alone j call' e)
        · exact ⟨k, .inr ⟨rest ++ [r], by
            have : results (WsReaders.set { s with lock := none, log := s.log ++ [(i, r)] } i ⟨(s.th i).role, .got r⟩) = results s ++ [r] := by
              simp [results, WsReaders.set]
            rw [this, h1]; simp⟩⟩
    · split
      · rename_i r hr; exact absurd ⟨r, hr⟩ hd
      unfold readByte
      have abort : Inv c fs (if s.connected then s else WsReaders.set s i ⟨(s.th i).role, .reading ⟨.done none, []⟩⟩) := by
        split
        · exact h
        · refine ⟨?_, ?_⟩
          · intro j call' hj
            by_cases e : j = i
            · subst e; exact hli
            · rw [set_other _ _ e] at hj; exact absurd hj (alone j call' e)
          · obtain ⟨k, h1 | ⟨rest, h1⟩⟩ := h.prog
            · refine ⟨k, .inl ⟨h1.res, h1.le, (fun hn => by rw [show (WsReaders.set s i ⟨(s.th i).role, .reading ⟨.done none, []⟩⟩).lock = s.lock from rfl, hli] at hn; cases hn), ?_⟩⟩
              intro j call' hj
              by_cases e : j = i
              · subst e
                rw [set_same] at hj
                injection hj with hj
                subst hj
                exact .inl rfl
              · rw [set_other _ _ e] at hj; exact absurd hj (alone j call' e)
            · exact ⟨k, .inr ⟨rest, h1⟩⟩
      cases ok with
      | false => exact abort
      | true =>
        cases hsk : s.sock with
        | nil => exact abort
        | cons b t =>
          simp only
          refine ⟨?_, ?_⟩
          · intro j call' hj
            by_cases e : j = i
            · subst e; exact hli
            · rw [set_other _ _ e] at hj; exact absurd hj (alone j call' e)
          · obtain ⟨k, h1 | ⟨rest, h1⟩⟩ := h.prog
            · refine ⟨k, .inl ⟨h1.res, h1.le, (fun hn => by rw [show (WsReaders.set { s with sock := t } i ⟨(s.th i).role, .reading (feed c.server call b)⟩).lock = s.lock from rfl, hli] at hn; cases hn), ?_⟩⟩
              intro j call' hj
              by_cases e : j = i
              · subst e
                rw [set_same] at hj
                injection hj with hj
                subst hj
                rcases h1.held j call ha with hn | ⟨pre, p1, p2, p3, p4⟩
                · exact absurd ⟨_, hn⟩ hd
                · right
                  rw [hsk] at p1
                  refine ⟨pre ++ [b], by rw [p1]; simp [WsReaders.set], ?_, ?_, ?_⟩
                  · rw [feeds_append, ← p2]; rfl
                  · intro f u hu
                    obtain ⟨x, hx⟩ := p3 f u hu
                    cases x with
                    | nil =>
                      obtain ⟨hf, hn⟩ := hok f (List.mem_of_mem_drop (i := k) (by rw [hu]; exact List.mem_cons_self ..))
                      rw [List.append_nil] at hx
                      rw [p2, ← hx, feeds_wire c.server f hf hn] at hd
                      exact absurd ⟨_, rfl⟩ hd
                    | cons y x =>
                      rw [hu, wires_cons, hx, List.append_assoc] at p1
                      have := List.append_cancel_left p1
                      rw [List.cons_append] at this
                      injection this with e1 _
                      subst e1
                      exact ⟨x, by rw [hx]; simp⟩
                  · intro hu
                    rw [hu] at p1
                    have := congrArg List.length p1
                    simp [wires] at this
              · rw [set_other _ _ e] at hj; exact absurd hj (alone j call' e)
            · exact ⟨k, .inr ⟨rest, h1⟩⟩
  | got r =>
    simp only
    cases hr : (s.th i).role with
    | socket =>
      cases r with
      | none => exact inv_quiet h i rfl rfl rfl (fun k hk => set_other _ _ hk) (fun call hc => by rw [set_same] at hc; cases hc)
      | some m => exact inv_quiet h i rfl rfl rfl (fun k hk => set_other _ _ hk) (fun call hc => by rw [set_same] at hc; cases hc)
    | closer n =>
      cases r with
      | none => exact inv_again h i n rfl rfl rfl rfl
      | some m =>
        simp only
        split
        · exact inv_again h i n rfl rfl rfl rfl
        · exact inv_again h i n rfl rfl rfl rfl

private theorem takeWhile_all {α : Type} {p : α → Bool} : ∀ {l : List α}, (∀ x ∈ l, p x = true) → l.takeWhile p = l
  | [], _ => rfl
  | a :: l, h => by
    rw [List.takeWhile_cons_of_pos (h a (List.mem_cons_self ..)), takeWhile_all (fun x hx => h x (List.mem_cons_of_mem _ hx))]

private theorem inv_exec {c : Cfg} {fs : List Frame} (hok : Ok c fs) (acts : List (Nat × Bool)) : ∀ {s : Sys}, Inv c fs s → Inv c fs (WsReaders.exec c s acts) := by
  induction acts with
  | nil => exact fun h => h
  | cons a t ih => exact fun h => ih (inv_step hok h a.1 a.2)

private theorem inv_start (c : Cfg) (fs : List Frame) : Inv c fs (WsReaders.start (wires fs)) := by
  have nr : ∀ i call, ((WsReaders.start (wires fs)).th i).at_ ≠ .reading call := fun i call h => by cases h
  exact ⟨fun i call h => absurd h (nr i call), 0, .inl ⟨rfl, Nat.zero_le _, fun _ => rfl, fun i call h => absurd h (nr i call)⟩⟩

/-- **C152, frames.** Whatever threads read from a websocket at the same time, its own and any number that close it, in whatever
order they run: up to the first call that fails, the calls of `ulfius_read_incoming_message` return exactly the frames the peer sent,
in order, each whole and to one thread. -/
theorem C152_frames (c : Cfg) (fs : List Frame) (hok : Ok c fs) (acts : List (Nat × Bool)) :
    ∃ k ≤ fs.length, ((WsReaders.exec c (WsReaders.start (wires fs)) acts).log.map (·.2)).takeWhile (·.isSome) =
      (fs.take k).map (fun f => some (toIn f)) := by
  have h := inv_exec hok acts (inv_start c fs)
  obtain ⟨k, h1 | ⟨rest, h1⟩⟩ := h.prog
  · refine ⟨k, h1.le, ?_⟩
    have e := h1.res
    unfold results firsts at e
    rw [e, takeWhile_all]
    intro x hx
    obtain ⟨f, -, rfl⟩ := List.mem_map.1 hx
    rfl
  · refine ⟨min k fs.length, Nat.min_le_right .., ?_⟩
    unfold results firsts at h1
    rw [h1, List.takeWhile_append_of_pos (by
      intro x hx
      obtain ⟨f, -, rfl⟩ := List.mem_map.1 hx
      rfl)]
    rw [List.takeWhile_cons_of_neg (by simp), List.append_nil]
    congr 1
    rw [Nat.min_def]
    split
    · rfl
    · rw [List.take_of_length_le (by omega), List.take_of_length_le (by omega)]

/-! ## What is delivered -/

/-- The thread of the websocket, given these messages. -/
private def tell (c : Cfg) : Option InMsg → List InMsg → List Out × Option InMsg × Bool
  | prev, [] => ([], prev, true)
  | prev, m :: t =>
    if (handle c prev m).2.2 then ((handle c prev m).1 ++ (tell c (handle c prev m).2.1 t).1, (tell c (handle c prev m).2.1 t).2)
    else handle c prev m

private theorem tell_snoc (c : Cfg) (ms : List InMsg) (m : InMsg) : ∀ (prev : Option InMsg), (tell c prev ms).2.2 = true →
    tell c prev (ms ++ [m]) = ((tell c prev ms).1 ++ (handle c (tell c prev ms).2.1 m).1, (handle c (tell c prev ms).2.1 m).2) := by
  induction ms with
  | nil =>
    intro prev _
    simp only [List.nil_append, tell]
    split
    · rename_i h
      rw [List.append_nil, ← h]
    · rfl
  | cons x t ih =>
    intro prev h
    rw [List.cons_append]
    rw [tell] at h ⊢
    by_cases hx : (handle c prev x).2.2 = true
    · rw [if_pos hx] at h ⊢
      rw [ih _ h, tell, if_pos hx]
      simp
    · rw [if_neg hx] at h
      exact absurd h hx

private theorem run_tell (c : Cfg) (gs : List Frame) : ∀ (prev : Option InMsg), Ok c gs →
    run c none prev [.seg (wires gs)] = (tell c prev (gs.map toIn)).1 := by
  induction gs with
  | nil =>
    intro prev _
    simp [wires, run, tell]
  | cons f t ih =>
    intro prev hok
    rw [wires_cons, run_wire c none prev (by simp) f hok.head.1 hok.head.2, List.map_cons, tell]
    unfold after
    split
    · simp only [Option.map_none]
      rw [ih _ (fun g hg => hok g (List.mem_cons_of_mem _ hg))]
    · simp

/-- The messages the thread of the websocket has read. -/
private def own (s : Sys) : List (Option InMsg) := (s.log.filter (fun e => e.1 == 0)).map (·.2)

private def pending : At → List (Option InMsg)
  | .got r => [r]
  | _ => []

private structure Told (c : Cfg) (s : Sys) : Prop where
  zero : (s.th 0).role = .socket
  others : ∀ i, i ≠ 0 → ∃ n, (s.th i).role = .closer n
  told : none ∉ results s → ∃ ms : List InMsg, own s = ms.map some ++ pending (s.th 0).at_ ∧ (tell c none ms).1 = s.outs ∧
    (tell c none ms).2.1 = s.prev ∧ ((tell c none ms).2.2 = false → s.connected = false ∧ ((s.th 0).at_ = .loop ∨ (s.th 0).at_ = .ended))

private theorem told_keep {c : Cfg} {s s' : Sys} (h : Told c s) (hl : s'.log = s.log) (ho : s'.outs = s.outs) (hp : s'.prev = s.prev)
    (hc : s.connected = false → s'.connected = false) (h0 : (s'.th 0).role = .socket)
    (hi : ∀ i, i ≠ 0 → ∃ n, (s'.th i).role = .closer n) (hq : pending (s'.th 0).at_ = pending (s.th 0).at_)
    (hw : s.connected = false → (s.th 0).at_ = .loop ∨ (s.th 0).at_ = .ended → (s'.th 0).at_ = .loop ∨ (s'.th 0).at_ = .ended) : Told c s' := by
  refine ⟨h0, hi, fun hn => ?_⟩
  obtain ⟨ms, m1, m2, m3, m4⟩ := h.told (by simpa [results, hl] using hn)
  refine ⟨ms, by rw [hq, ← m1]; simp [own, hl], by rw [m2, ho], by rw [m3, hp], fun e => ?_⟩
  exact ⟨hc (m4 e).1, hw (m4 e).1 (m4 e).2⟩

private theorem told_other {c : Cfg} {s s' : Sys} (h : Told c s) (i : Nat) (hi : i ≠ 0) (t : Thread) (n : Nat) (ht : t.role = .closer n)
    (e : s'.th = fun k => if k = i then t else s.th k) (hl : s'.log = s.log) (ho : s'.outs = s.outs) (hp : s'.prev = s.prev)
    (hc : s.connected = false → s'.connected = false) : Told c s' := by
  have z : s'.th 0 = s.th 0 := by rw [e]; simp [Ne.symm hi]
  refine told_keep h hl ho hp hc (by rw [z]; exact h.zero) ?_ (by rw [z]) (by rw [z]; exact fun _ h => h)
  intro j hj
  rw [e]
  simp only
  split
  · exact ⟨n, ht⟩
  · exact h.others j hj

private theorem told_again {c : Cfg} {s s' : Sys} (h : Told c s) (i n : Nat) (hi : i ≠ 0) (e : s'.th = s.th) (hl : s'.log = s.log)
    (ho : s'.outs = s.outs) (hp : s'.prev = s.prev) (hc : s.connected = false → s'.connected = false) : Told c (again s' i n) := by
  unfold again
  split
  · rename_i m _
    exact told_other h i hi ⟨.closer m, .loop⟩ m rfl (by rw [← e]; rfl) hl ho hp hc
  · exact told_other h i hi ⟨.closer 0, .ended⟩ 0 rfl (by rw [← e]; rfl) hl ho hp (fun _ => rfl)

private theorem told_step {c : Cfg} {s : Sys} (h : Told c s) (i : Nat) (ok : Bool) : Told c (step c s i ok) := by
  unfold step
  by_cases hi : i = 0
  · subst hi
    have oth : ∀ (t : Thread) (s' : Sys), s'.th = (fun k => if k = 0 then t else s.th k) → ∀ j, j ≠ 0 → ∃ n, (s'.th j).role = .closer n := by
      intro t s' e j hj
      rw [e]
      simp only [hj, if_false]
      exact h.others j hj
    cases ha : (s.th 0).at_ with
    | ended => exact h
    | loop =>
      simp only [h.zero]
      split
      · rename_i hcn
        split
        · exact told_keep h rfl rfl rfl (fun x => x) rfl (oth _ _ rfl) (by rw [ha]; rfl) (fun x => by rw [hcn] at x; cases x)
        · exact h
      · exact told_keep h rfl rfl rfl (fun x => x) rfl (oth _ _ rfl) (by rw [ha]; rfl) (fun _ _ => .inr rfl)
    | locking =>
      simp only [h.zero]
      split
      · exact told_keep h rfl rfl rfl (fun x => x) rfl (oth _ _ rfl) (by rw [ha]; rfl) (fun _ x => by rw [ha] at x; rcases x with x | x <;> cases x)
      · exact h
    | reading call =>
      simp only [h.zero]
      split
      · rename_i r hr
        refine ⟨rfl, oth _ _ rfl, fun hn => ?_⟩
        have hn' : none ∉ results s := fun x => hn (by
          simp only [results, WsReaders.set, List.map_append, List.mem_append]
          exact .inl x)
        obtain ⟨ms, m1, m2, m3, m4⟩ := h.told hn'
        refine ⟨ms, ?_, m2, m3, fun e => ?_⟩
        · rw [ha] at m1
          have : own (WsReaders.set { s with lock := none, log := s.log ++ [(0, r)] } 0 ⟨.socket, .got r⟩) = own s ++ [r] := by
            simp [own, WsReaders.set, List.filter_append]
          rw [this, m1]
          simp [pending, WsReaders.set]
        · have := (m4 e).2
          rw [ha] at this
          rcases this with x | x <;> cases x
      · unfold readByte
        split
        · exact told_keep h rfl rfl rfl (fun x => x) h.zero (oth _ _ rfl) (by rw [ha]; rfl) (fun _ x => by rw [ha] at x; rcases x with x | x <;> cases x)
        · split
          · exact h
          · exact told_keep h rfl rfl rfl (fun x => x) h.zero (oth _ _ rfl) (by rw [ha]; rfl) (fun _ x => by rw [ha] at x; rcases x with x | x <;> cases x)
    | got r =>
      simp only [h.zero]
      cases r with
      | none =>
        refine ⟨rfl, oth _ _ rfl, fun hn => ?_⟩
        obtain ⟨ms, m1, -⟩ := h.told hn
        rw [ha] at m1
        have : none ∈ own s := by rw [m1]; simp [pending]
        unfold own at this
        obtain ⟨x, hx, hx2⟩ := List.mem_map.1 this
        exact absurd (List.mem_map.2 ⟨x, (List.mem_filter.1 hx).1, hx2⟩) hn
      | some m =>
        refine ⟨rfl, oth _ _ rfl, fun hn => ?_⟩
        obtain ⟨ms, m1, m2, m3, m4⟩ := h.told hn
        have hopen : (tell c none ms).2.2 = true := by
          cases e : (tell c none ms).2.2 with
          | true => rfl
          | false =>
            have := (m4 e).2
            rw [ha] at this
            rcases this with x | x <;> cases x
        have e := tell_snoc c ms m none hopen
        rw [m2, m3] at e
        refine ⟨ms ++ [m], ?_, by rw [e]; rfl, by rw [e]; rfl, ?_⟩
        · rw [ha] at m1
          change own s = _
          rw [m1]
          simp [pending, WsReaders.set]
        · intro hf
          rw [e] at hf
          refine ⟨?_, .inl rfl⟩
          simp only [WsReaders.set]
          simp only at hf
          rw [hf, Bool.and_false]
  · obtain ⟨n, hn⟩ := h.others i hi
    cases ha : (s.th i).at_ with
    | ended => exact h
    | loop =>
      simp only [hn]
      split
      · exact told_other h i hi _ n rfl rfl rfl rfl rfl (fun x => x)
      · exact told_again h i n hi rfl rfl rfl rfl (fun x => x)
    | locking =>
      simp only [hn]
      split
      · exact told_other h i hi _ n rfl rfl rfl rfl rfl (fun x => x)
      · exact h
    | reading call =>
      simp only [hn]
      split
      · rename_i r hr
        have z : (WsReaders.set { s with lock := none, log := s.log ++ [(i, r)] } i ⟨.closer n, .got r⟩).th 0 = s.th 0 := set_other _ _ (Ne.symm hi)
        refine ⟨by rw [z]; exact h.zero, ?_, fun hno => ?_⟩
        · intro j hj
          by_cases e : j = i
          · subst e; rw [set_same]; exact ⟨n, rfl⟩
          · rw [set_other _ _ e]; exact h.others j hj
        · have hn' : none ∉ results s := fun x => hno (by
            simp only [results, WsReaders.set, List.map_append, List.mem_append]
            exact .inl x)
          obtain ⟨ms, m1, m2, m3, m4⟩ := h.told hn'
          refine ⟨ms, ?_, m2, m3, by rw [z]; exact m4⟩
          rw [z, ← m1]
          simp [own, WsReaders.set, List.filter_append, hi]
      · unfold readByte
        split
        · refine told_other h i hi _ n ?_ rfl rfl rfl rfl (fun x => x); exact hn
        · split
          · exact h
          · refine told_other h i hi _ n ?_ rfl rfl rfl rfl (fun x => x); exact hn
    | got r =>
      simp only [hn]
      cases r with
      | none => exact told_again h i n hi rfl rfl rfl rfl (fun _ => rfl)
      | some m =>
        simp only
        split
        · exact told_again h i n hi rfl rfl rfl rfl (fun _ => rfl)
        · exact told_again h i n hi rfl rfl rfl rfl (fun x => x)

private theorem told_exec {c : Cfg} (acts : List (Nat × Bool)) : ∀ {s : Sys}, Told c s → Told c (WsReaders.exec c s acts) := by
  induction acts with
  | nil => exact fun h => h
  | cons a t ih => exact fun h => ih (told_step h a.1 a.2)

private theorem told_start (c : Cfg) (b : Bytes) : Told c (WsReaders.start b) :=
  ⟨rfl, fun i hi => ⟨10, by simp [WsReaders.start, hi]⟩, fun _ => ⟨[], rfl, rfl, rfl, fun h => by cases h⟩⟩

/-- **C152, effects.** As long as no read fails, the thread of the websocket does exactly what it would do if only some of the frames
had arrived, in the same order: those the closing threads did not read. -/
theorem C152_effects (c : Cfg) (fs : List Frame) (hok : Ok c fs) (acts : List (Nat × Bool))
    (hn : ∀ e ∈ (WsReaders.exec c (WsReaders.start (wires fs)) acts).log, e.2 ≠ none) :
    ∃ gs, gs.Sublist fs ∧ (WsReaders.exec c (WsReaders.start (wires fs)) acts).outs = run c none none [.seg (wires gs)] := by
  have h := inv_exec hok acts (inv_start c fs)
  have ht := told_exec acts (told_start c (wires fs))
  generalize WsReaders.exec c (WsReaders.start (wires fs)) acts = s at *
  have hno : none ∉ results s := fun hx => by
    obtain ⟨e, he, he2⟩ := List.mem_map.1 hx
    exact hn e he he2
  obtain ⟨ms, m1, m2, -, -⟩ := ht.told hno
  obtain ⟨k, h1 | ⟨rest, h1⟩⟩ := h.prog
  · have s1 : (ms.map some).Sublist (firsts fs k) := by
      rw [← h1.res]
      refine List.Sublist.trans (l₂ := own s) (by rw [m1]; exact List.sublist_append_left ..) ?_
      exact List.Sublist.map _ List.filter_sublist
    unfold firsts at s1
    obtain ⟨gs, g1, g2⟩ := List.sublist_map_iff.1 s1
    have g3 : gs.Sublist fs := g1.trans (List.take_sublist ..)
    have : ms = gs.map toIn := by
      have g2 : ms.map some = (gs.map toIn).map some := by rw [g2, List.map_map]; rfl
      have g2 := congrArg (List.filterMap id) g2
      simpa [List.filterMap_map] using g2
    refine ⟨gs, g3, ?_⟩
    rw [run_tell c gs none (fun g hg => hok g (g3.subset hg)), ← this, m2]
  · exact absurd (by rw [h1]; simp) hno

/-- The messages among frames that are messages of their own. -/
def wholeMessages (fs : List Frame) : List (UInt8 × Bytes) :=
  fs.filterMap (fun f => if f.opcode = 1 ∨ f.opcode = 2 then some (f.opcode, f.payload) else none)

/-- The messages given to the callback. -/
def givenTo (l : List Out) : List (UInt8 × Bytes) :=
  l.filterMap (fun
    | .deliver op _ d => some (op, d)
    | _ => none)

private theorem handle_fin (c : Cfg) (hc : Plain c) (f : Frame) (hf : f.fin = true) :
    (givenTo (handle c none (toIn f)).1).Sublist (wholeMessages [f]) ∧ (handle c none (toIn f)).2.1 = none := by
  have hm : (complete c (toIn f)).1 = [] ∨ (complete c (toIn f)).1 = [.deliver f.opcode f.rsv f.payload] := by
    unfold complete
    rw [hc.ext]
    simp only
    split
    · split
      · exact .inr rfl
      · exact .inl rfl
    · exact .inl rfl
  unfold handle
  simp only [toIn, hf, and_true, if_true]
  by_cases h8 : f.opcode = 8
  · rw [if_pos h8]
    refine ⟨?_, rfl⟩
    split <;> simp [givenTo]
  rw [if_neg h8]
  by_cases h9 : f.opcode = 9
  · rw [if_pos h9]
    split <;> exact ⟨by simp [givenTo], rfl⟩
  rw [if_neg h9]
  by_cases h10 : f.opcode = 10
  · rw [if_pos h10]
    exact ⟨by simp [givenTo], rfl⟩
  rw [if_neg h10]
  by_cases h0 : f.opcode = 0
  · simp [h0, givenTo]
  by_cases h12 : f.opcode = 1 ∨ f.opcode = 2
  · have h120 : f.opcode = 1 ∨ f.opcode = 2 ∨ f.opcode = 0 := by
      rcases h12 with h | h
      · exact .inl h
      · exact .inr (.inl h)
    rw [if_pos h120]
    simp only [h0, and_false, true_and, false_and, if_false]
    refine ⟨?_, trivial⟩
    have e : toIn f = ⟨f.opcode, f.rsv, true, f.mask.isSome, f.payload, 0⟩ := by simp [toIn, hf]
    rw [e] at hm
    rcases hm with h | h <;> rw [h] <;> simp [givenTo, wholeMessages, h12]
  · have h120 : ¬ (f.opcode = 1 ∨ f.opcode = 2 ∨ f.opcode = 0) := by
      intro h
      rcases h with h | h | h
      · exact h12 (.inl h)
      · exact h12 (.inr h)
      · exact h0 h
    rw [if_neg h120]
    exact ⟨by simp [givenTo], rfl⟩

private theorem tell_fin (c : Cfg) (hc : Plain c) : ∀ (gs : List Frame), (∀ f ∈ gs, f.fin = true) →
    (givenTo (tell c none (gs.map toIn)).1).Sublist (wholeMessages gs)
  | [], _ => List.Sublist.refl _
  | f :: t, h => by
    obtain ⟨h1, h2⟩ := handle_fin c hc f (h f (List.mem_cons_self ..))
    have ih := tell_fin c hc t (fun g hg => h g (List.mem_cons_of_mem _ hg))
    have split_whole : wholeMessages (f :: t) = wholeMessages [f] ++ wholeMessages t := by
      rw [show f :: t = [f] ++ t from rfl]
      exact List.filterMap_append ..
    rw [List.map_cons, tell, split_whole]
    split
    · rw [h2]
      simp only [givenTo, List.filterMap_append]
      exact List.Sublist.append h1 ih
    · exact h1.trans (List.sublist_append_left ..)

/-- **C152, messages (partial).** When the peer does not send fragments: whatever threads close the websocket meanwhile and however
they run, as long as no read fails the callback gets messages of the peer only, each whole and as it was sent, in order.
Missing: messages in fragments, see `C152_fragment_false`. -/
theorem C152_messages_partial (c : Cfg) (hc : Plain c) (fs : List Frame) (hok : Ok c fs) (hf : ∀ f ∈ fs, f.fin = true)
    (acts : List (Nat × Bool)) (hn : ∀ e ∈ (WsReaders.exec c (WsReaders.start (wires fs)) acts).log, e.2 ≠ none) :
    (givenTo (WsReaders.exec c (WsReaders.start (wires fs)) acts).outs).Sublist (wholeMessages fs) := by
  obtain ⟨gs, g1, g2⟩ := C152_effects c fs hok acts hn
  rw [g2, run_tell c gs none (fun g hg => hok g (g1.subset hg))]
  exact (tell_fin c hc gs (fun g hg => hf g (g1.subset hg))).trans (List.Sublist.filterMap _ g1)

/-- A closing thread reads the second of three messages, the callback gets the first and the third. -/
example : (WsReaders.exec { server := false } (WsReaders.start (wires [⟨true, 0, 1, none, b!"a"⟩, ⟨true, 0, 1, none, b!"b"⟩, ⟨true, 0, 2, none, b!"c"⟩]))
    (List.replicate 7 (0, true) ++ List.replicate 7 (1, true) ++ List.replicate 7 (0, true))).outs = [.deliver 1 0 b!"a", .deliver 2 0 b!"c"] := by
  decide +kernel

/-- A call that waits for the lock while another thread reads. -/
example : (WsReaders.exec { server := false } (WsReaders.start (wires [⟨true, 0, 1, none, b!"a"⟩, ⟨true, 0, 1, none, b!"b"⟩]))
    (List.replicate 4 (0, true) ++ List.replicate 5 (1, true) ++ List.replicate 3 (0, true) ++ List.replicate 6 (1, true))).log =
      [(0, some ⟨1, 0, true, false, b!"a", 0⟩), (1, some ⟨1, 0, true, false, b!"b", 0⟩)] := by
  decide +kernel

/-- **C152 is false of the code** for a message in fragments: a thread that closes the websocket reads the middle fragment and drops
it, and the callback gets a message nobody sent, the first fragment with the last. -/
theorem C152_fragment_false :
    (WsReaders.exec { server := false }
      (WsReaders.start (wires [⟨false, 0, 1, none, b!"pay 1"⟩, ⟨false, 0, 0, none, b!"00"⟩, ⟨true, 0, 0, none, b!" EUR"⟩]))
      (List.replicate 11 (0, true) ++ List.replicate 8 (1, true) ++ List.replicate 10 (0, true))).outs = [.deliver 1 0 b!"pay 1 EUR"] ∧
    run { server := false } none none
      [.seg (wires [⟨false, 0, 1, none, b!"pay 1"⟩, ⟨false, 0, 0, none, b!"00"⟩, ⟨true, 0, 0, none, b!" EUR"⟩])] = [.deliver 1 0 b!"pay 100 EUR"] := by
  decide +kernel

end Verif.Props
