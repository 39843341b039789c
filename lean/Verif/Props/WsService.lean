import Verif.Model.WsService
import Verif.Props.WsPair
/-!
# An endpoint whose callback for incoming messages sends messages, property C163
-/
namespace Verif.Props
open Verif.Ws Verif.WsPair Verif.WsService
open Verif.Spec.Ws hiding Act
open Pair

/-! ## Specification -/

/-- The answers to a list of messages: those to the first, then those to the second, … -/
def answers {σ : Type} (svc : Service σ) : σ → List (UInt8 × Bytes) → List (UInt8 × Bytes)
  | _, [] => []
  | s, m :: t => (svc.reply s m.1 m.2).2 ++ answers svc (svc.reply s m.1 m.2).1 t

/-- A message that can be sent: binary, or text that is UTF-8, which the extensions take and make no longer than 4 GiB. -/
def Utterance (exts : List Ext) (m : UInt8 × Bytes) : Prop :=
  (m.1 = 1 ∨ m.1 = 2) ∧ (m.1 = 1 → Spec.Utf8.IsUtf8 m.2) ∧ ∃ r d, applyOut m.1 exts 0 m.2 = some (r, d) ∧ d.length < 2 ^ 32

/-- Messages that can be sent are answered with such messages. -/
def Sound {σ : Type} (exts : List Ext) (svc : Service σ) : Prop :=
  ∀ s m, Utterance exts m → ∀ a ∈ (svc.reply s m.1 m.2).2, Utterance exts a

/-- What the program of `me` sends besides the answers: pings at most. The peer sends what it likes. -/
def Fair (exts : List Ext) (me : Bool) : Move → Prop
  | .answer k => k.length = 4
  | .act a => Civil exts a ∧ ∀ op d k, a = .say me op d k → op = 9

/-! ## Proof -/

namespace Serve

def after {σ : Type} (svc : Service σ) : σ → List (UInt8 × Bytes) → σ
  | s, [] => s
  | s, m :: t => after svc (svc.reply s m.1 m.2).1 t

theorem after_append {σ : Type} (svc : Service σ) (s : σ) (a b : List (UInt8 × Bytes)) : after svc s (a ++ b) = after svc (after svc s a) b := by
  induction a generalizing s with
  | nil => rfl
  | cons m t ih => exact ih _

theorem answers_append {σ : Type} (svc : Service σ) (s : σ) (a b : List (UInt8 × Bytes)) :
    answers svc s (a ++ b) = answers svc s a ++ answers svc (after svc s a) b := by
  induction a generalizing s with
  | nil => rfl
  | cons m t ih => simp only [List.cons_append, answers, after, ih, List.append_assoc]

theorem answers_prefix {σ : Type} (svc : Service σ) (s : σ) {a b : List (UInt8 × Bytes)} (h : a <+: b) : answers svc s a <+: answers svc s b := by
  obtain ⟨t, rfl⟩ := h
  rw [answers_append]
  exact List.prefix_append _ _

theorem mem_spoken {w : Bool} {log : List Event} {m : UInt8 × Bytes} (h : m ∈ spoken w log) : .said w m.1 m.2 ∈ log ∧ (m.1 = 1 ∨ m.1 = 2) := by
  unfold spoken at h
  obtain ⟨e, he, hm⟩ := List.mem_filterMap.1 h
  have he' : e ∈ log := (List.takeWhile_sublist _).subset he
  cases e with
  | said x op d =>
    simp only at hm
    split at hm
    · rename_i hx
      cases hm
      rw [← hx.1]
      exact ⟨he', hx.2⟩
    · cases hm
  | _ => cases hm

theorem spoken_other (w : Bool) (l : List Event) (e : Event) (h : ∀ op d, e = .said w op d → op = 9) : spoken w (l ++ [e]) = spoken w l := by
  by_cases hc : .closing w ∈ l
  · exact spoken_closed _ _ _ hc
  · rw [spoken_snoc _ _ _ hc]
    cases e with
    | said x op d =>
      have : ¬ (x = w ∧ (op = 1 ∨ op = 2)) := by
        rintro ⟨rfl, ho⟩
        rw [h op d rfl] at ho
        exact absurd ho (by decide)
      simp [this]
    | _ => simp

theorem heard_other (w : Bool) (l : List Event) (e : Event) (h : ∀ op d, e ≠ .got w op d) : heard w (l ++ [e]) = heard w l := by
  rw [heard_snoc]
  cases e with
  | got x op d =>
    have : x ≠ w := fun hx => h op d (by rw [hx])
    simp [this]
  | _ => simp

structure Inv' {σ : Type} (exts : List Ext) (svc : Service σ) (me : Bool) (v : Serving σ) : Prop where
  inv : Inv exts v.sys
  said : ∀ w op d, .said w op d ∈ v.sys.log → (op = 1 ∨ op = 2) → Utterance exts (op, d)
  todo : ∀ m ∈ v.todo, Utterance exts m
  state : v.state = after svc svc.start (heard me v.sys.log)
  sent : spoken me v.sys.log ++ v.todo = answers svc svc.start (heard me v.sys.log)
  busy : v.todo ≠ [] → (v.sys.party me).phase = .loop

theorem civil_sendable {exts : List Ext} {who : Bool} {op : UInt8} {d k : Bytes} (h : Utterance exts (op, d)) (hk : k.length = 4) : Civil exts (.say who op d k) := by
  obtain ⟨h1, h2, r, d', h3, h4⟩ := h
  refine ⟨hk, ?_, h2, ?_, ?_⟩
  · rcases h1 with h | h
    · exact .inl h
    · exact .inr (.inl h)
  · intro h9
    rcases h1 with h | h <;> simp only at h <;> rw [h] at h9 <;> exact absurd h9 (by decide)
  · intro r' x hx
    rw [h3] at hx
    cases hx
    exact h4

/-- A message the extensions take is sent. -/
theorem say_sent {exts : List Ext} (ha : Agreed exts) {y : Sys} (hi : Inv exts y) (who : Bool) (op : UInt8) (d k : Bytes) (hk : k.length = 4)
    (hf : Utterance exts (op, d)) (hp : (y.party who).phase = .loop) :
    ∃ y', step exts y (.say who op d k) = .ok y' ∧ Inv exts y' ∧ y'.log = y.log ++ [.said who op d] ∧ y'.party who = y.party who ∧
      (y'.party (!who)).phase = (y.party (!who)).phase ∧ (y'.party (!who)).flag = (y.party (!who)).flag := by
  obtain ⟨y', e, hi'⟩ := say_inv ha hi who op d k (civil_sendable hf hk)
  refine ⟨y', e, hi', ?_⟩
  have hcon : connected (y.party who) = true := by simp [connected, hp]
  simp only [step, if_pos hcon] at e
  rcases say_ok ha who op d k (civil_sendable hf hk) with ⟨-, e'⟩ | ⟨f, m, e', -, -, -, -⟩
  · obtain ⟨-, -, r, d', h3, -⟩ := hf
    simp only at h3
    rw [h3] at e'
    cases e'
  · rw [e'] at e
    simp only [Res.ok_bind, written, Res.pure_eq] at e
    cases e
    rw [note_log, post_log, note_party, post_same, note_party, post_other]
    exact ⟨rfl, rfl, rfl, rfl⟩

theorem called_none {σ : Type} (svc : Service σ) (me : Bool) (v : Serving σ) (es : List Event) (h : ∀ op d, .got me op d ∉ es) : called svc me v es = v := by
  induction es with
  | nil => rfl
  | cons e t ih =>
    have := ih (fun op d hx => h op d (List.mem_cons_of_mem _ hx))
    cases e with
    | got w op d =>
      have hw : w ≠ me := fun hw => h op d (by rw [hw]; exact List.mem_cons_self)
      simp only [called, if_neg hw, this]
    | _ => simpa only [called] using this

/-- What a step adds to what can be seen. -/
theorem step_log {exts : List Ext} (ha : Agreed exts) {y : Sys} (hi : Inv exts y) (a : Act) (hc : Civil exts a) :
    ∃ y', step exts y a = .ok y' ∧ Inv exts y' ∧ (y'.log = y.log ∨ ∃ e, y'.log = y.log ++ [e] ∧
      match e with
      | .said w op d => (op = 1 ∨ op = 2 → Utterance exts (op, d)) ∧ ∃ k, a = .say w op d k
      | .got w _ _ => (∃ p k, a = .turn w p k) ∧ (y'.party w).phase = .loop
      | _ => True) := by
  obtain ⟨y', e, hi'⟩ := step_inv ha hi a hc
  refine ⟨y', e, hi', ?_⟩
  cases a with
  | signal w =>
    simp only [step] at e
    cases e
    exact .inl rfl
  | say w op d k =>
    simp only [step] at e
    split at e
    · rcases say_ok ha w op d k hc with ⟨e', -⟩ | ⟨f, m, e', -, -, -, hap⟩
      · rw [e'] at e; cases e; exact .inl rfl
      · rw [e'] at e
        simp only [Res.ok_bind, written, Res.pure_eq] at e
        cases e
        refine .inr ⟨_, rfl, ?_, k, rfl⟩
        intro h
        obtain ⟨⟨r, x⟩, hx⟩ := hap h
        exact ⟨h, hc.2.2.1, r, x, hx, hc.2.2.2.2 r x hx⟩
    · cases e; exact .inl rfl
  | turn w p k =>
    obtain ⟨y1, e1, -, hl, -⟩ := turn_log hi w p k hc
    simp only [step] at e
    rw [e] at e1
    cases e1
    rcases hl with hl | hl | hl | ⟨op, d, hl, hp⟩
    · exact .inl hl
    · exact .inr ⟨_, hl, trivial⟩
    · exact .inr ⟨_, hl, trivial⟩
    · exact .inr ⟨_, hl, ⟨p, k, rfl⟩, hp⟩

theorem move_inv {σ : Type} {exts : List Ext} (ha : Agreed exts) {svc : Service σ} (hs : Sound exts svc) {me : Bool} {v : Serving σ}
    (hi : Inv' exts svc me v) (m : Move) (hf : Fair exts me m) : ∃ v', move exts svc me v m = .ok v' ∧ Inv' exts svc me v' := by
  cases m with
  | answer k =>
    cases ht : v.todo with
    | nil => exact ⟨v, by simp only [move, ht], hi⟩
    | cons m t =>
      obtain ⟨op, d⟩ := m
      have hfine : Utterance exts (op, d) := hi.todo _ (by rw [ht]; exact List.mem_cons_self)
      have hp := hi.busy (by rw [ht]; exact fun h => by cases h)
      obtain ⟨y', e, hi', hl, hpar, -, -⟩ := say_sent ha hi.inv me op d k hf hfine hp
      refine ⟨{ v with sys := y', todo := t }, by simp only [move, ht, e, Res.ok_bind, Res.pure_eq], ?_⟩
      have hh : heard me y'.log = heard me v.sys.log := by rw [hl]; exact heard_other _ _ _ (fun _ _ h => by cases h)
      have hcl : .closing me ∉ v.sys.log := (hi.inv me).2.loop hp
      refine ⟨hi', ?_, ?_, ?_, ?_, ?_⟩
      · intro w op' d' hm h12
        simp only [hl, List.mem_append, List.mem_singleton] at hm
        rcases hm with hm | hm
        · exact hi.said w op' d' hm h12
        · cases hm; exact hfine
      · exact fun m hm => hi.todo m (by rw [ht]; exact List.mem_cons_of_mem _ hm)
      · simp only [hh]; exact hi.state
      · have := hi.sent
        rw [ht] at this
        simp only [hh, ← this]
        rw [hl, spoken_snoc _ _ _ hcl]
        simp only [true_and, if_pos hfine.1, List.append_assoc, List.singleton_append]
      · intro _
        simp only [hpar]; exact hp
  | act a =>
    simp only [move]
    by_cases hb : (ownTurn me a && v.todo != []) = true
    · rw [if_pos hb]; exact ⟨v, rfl, hi⟩
    · rw [if_neg hb]
      obtain ⟨y', e, hi', hl⟩ := step_log ha hi.inv a hf.1
      simp only [e, Res.ok_bind, Res.pure_eq]
      refine ⟨_, rfl, ?_⟩
      have hbusy : v.todo ≠ [] → (y'.party me).phase = .loop := by
        intro hn
        have : ∀ p k, a ≠ .turn me p k := by
          rintro p k rfl
          apply hb
          simp [ownTurn, hn]
        exact (step_other e me this).1.trans (hi.busy hn)
      rcases hl with hl | ⟨ev, hl, hev⟩
      · rw [hl, List.drop_length]
        simp only [called]
        exact ⟨hi', by simp only [hl]; exact hi.said, hi.todo, by simp only [hl]; exact hi.state, by simp only [hl]; exact hi.sent, hbusy⟩
      · rw [hl, List.drop_left]
        by_cases hg : ∃ op d, ev = .got me op d
        · obtain ⟨op, d, rfl⟩ := hg
          obtain ⟨⟨p, k, rfl⟩, hp⟩ := hev
          have ht : v.todo = [] := by
            by_cases h : v.todo = []
            · exact h
            · exact absurd (by simp [ownTurn, h]) hb
          have hh : heard me y'.log = heard me v.sys.log ++ [(op, d)] := by rw [hl, heard_snoc]; simp
          have hsaid : ∀ w op d, .said w op d ∈ y'.log → (op = 1 ∨ op = 2) → Utterance exts (op, d) := by
            intro w op' d' hm
            rw [hl] at hm
            exact hi.said w op' d' (by simpa using hm)
          have hfine : Utterance exts (op, d) := by
            obtain ⟨-, ⟨fs, hw⟩, -, -⟩ := hi'.split me
            have hm : (op, d) ∈ heard me y'.log := by rw [hh]; simp
            obtain ⟨h1, h2⟩ := mem_spoken (hw.always.subset hm)
            exact hsaid _ _ _ h1 h2
          simp only [called, if_true, ht, List.nil_append]
          refine ⟨hi', hsaid, ?_, ?_, ?_, fun _ => hp⟩
          · exact hs _ (op, d) hfine
          · simp only [hh, after_append, after, ← hi.state]
          · have := hi.sent
            rw [ht, List.append_nil] at this
            simp only [hh, answers_append, ← this, ← hi.state, answers, List.append_nil]
            rw [hl, spoken_other _ _ _ (fun _ _ h => by cases h)]
        · have hn : ∀ op d, ev ≠ .got me op d := fun op d h => hg ⟨op, d, h⟩
          rw [called_none _ _ _ _ (fun op d h => hn op d (List.mem_singleton.1 h).symm)]
          have hh : heard me y'.log = heard me v.sys.log := by rw [hl]; exact heard_other _ _ _ hn
          refine ⟨hi', ?_, hi.todo, by simp only [hh]; exact hi.state, ?_, hbusy⟩
          · intro w op d hm h12
            simp only [hl, List.mem_append, List.mem_singleton] at hm
            rcases hm with hm | hm
            · exact hi.said w op d hm h12
            · subst hm; exact hev.1 h12
          · simp only [hh, ← hi.sent]
            rw [hl, spoken_other]
            intro op d h
            subst h
            obtain ⟨-, k, rfl⟩ := hev
            exact hf.2 op d k rfl

theorem serve_inv {σ : Type} {exts : List Ext} (ha : Agreed exts) {svc : Service σ} (hs : Sound exts svc) {me : Bool} (ms : List Move) {v : Serving σ}
    (hi : Inv' exts svc me v) (hf : ∀ m ∈ ms, Fair exts me m) : ∃ v', serve exts svc me v ms = .ok v' ∧ Inv' exts svc me v' := by
  induction ms generalizing v with
  | nil => exact ⟨v, rfl, hi⟩
  | cons m t ih =>
    obtain ⟨v1, e1, h1⟩ := move_inv ha hs hi m (hf m List.mem_cons_self)
    obtain ⟨v2, e2, h2⟩ := ih h1 (fun x hx => hf x (List.mem_cons_of_mem _ hx))
    exact ⟨v2, by simp only [serve, e1, Res.ok_bind]; exact e2, h2⟩

theorem start_inv {σ : Type} (exts : List Ext) (svc : Service σ) (me : Bool) : Inv' exts svc me { state := svc.start } :=
  ⟨init_inv exts, fun _ _ _ h => (by cases h), fun _ h => (by cases h), rfl, rfl, fun h => absurd rfl h⟩

theorem called_sys {σ : Type} (svc : Service σ) (me : Bool) (es : List Event) (u : Serving σ) : (called svc me u es).sys = u.sys := by
  induction es generalizing u with
  | nil => rfl
  | cons x t ih =>
    cases x with
    | got w op d =>
      simp only [called]
      split
      · rw [ih]
      · rw [ih]
    | _ => simp only [called]; rw [ih]

/-- Nobody asks for the close. -/
theorem move_calm {σ : Type} {exts : List Ext} (ha : Agreed exts) {svc : Service σ} {me : Bool} {v v' : Serving σ}
    (hi : Inv' exts svc me v) (hq : Calm v.sys) (m : Move) (hf : Fair exts me m) (hn : ∀ w, m ≠ .act (.signal w))
    (e : move exts svc me v m = .ok v') : Calm v'.sys := by
  cases m with
  | answer k =>
    simp only [move] at e
    cases ht : v.todo with
    | nil => rw [ht] at e; cases e; exact hq
    | cons m t =>
      obtain ⟨op, d⟩ := m
      rw [ht] at e
      simp only at e
      obtain ⟨y, e1, -, hy⟩ := step_calm ha hi.inv hq (.say me op d k)
        (civil_sendable (hi.todo _ (by rw [ht]; exact List.mem_cons_self)) hf) (fun w h => by cases h)
      rw [e1] at e
      cases e
      exact hy
  | act a =>
    simp only [move] at e
    split at e
    · cases e; exact hq
    · obtain ⟨y, e1, -, hy⟩ := step_calm ha hi.inv hq a hf.1 (fun w h => hn w (by rw [h]))
      rw [e1] at e
      cases e
      rw [called_sys]
      exact hy

theorem serve_calm {σ : Type} {exts : List Ext} (ha : Agreed exts) {svc : Service σ} (hs : Sound exts svc) {me : Bool} (ms : List Move) {v : Serving σ}
    (hi : Inv' exts svc me v) (hq : Calm v.sys) (hf : ∀ m ∈ ms, Fair exts me m) (hn : ∀ w, .act (.signal w) ∉ ms) :
    ∃ v', serve exts svc me v ms = .ok v' ∧ Inv' exts svc me v' ∧ Calm v'.sys := by
  induction ms generalizing v with
  | nil => exact ⟨v, rfl, hi, hq⟩
  | cons m t ih =>
    obtain ⟨v1, e1, h1⟩ := move_inv ha hs hi m (hf m List.mem_cons_self)
    have q1 := move_calm ha hi hq m (hf m List.mem_cons_self) (fun w h => hn w (by rw [h]; exact List.mem_cons_self)) e1
    obtain ⟨v2, e2, h2, q2⟩ := ih h1 q1 (fun x hx => hf x (List.mem_cons_of_mem _ hx)) (fun w h => hn w (List.mem_cons_of_mem _ h))
    exact ⟨v2, by simp only [serve, e1, Res.ok_bind]; exact e2, h2, q2⟩

theorem serve_append {σ : Type} (exts : List Ext) (svc : Service σ) (me : Bool) (v : Serving σ) (a b : List Move) :
    serve exts svc me v (a ++ b) = (serve exts svc me v a).bind (fun v => serve exts svc me v b) := by
  induction a generalizing v with
  | nil => rfl
  | cons x t ih =>
    simp only [List.cons_append, serve]
    cases move exts svc me v x with
    | ub => rfl
    | ok v1 => simp only [Res.ok_bind]; exact ih v1

/-- The callback sends what it has to send. -/
theorem drain {σ : Type} {exts : List Ext} (ha : Agreed exts) {svc : Service σ} (hs : Sound exts svc) {me : Bool} (k : Bytes) (hk : k.length = 4) (n : Nat)
    {v : Serving σ} (hi : Inv' exts svc me v) (hq : Calm v.sys) (hn : v.todo.length = n) :
    ∃ v', serve exts svc me v (List.replicate n (.answer k)) = .ok v' ∧ Inv' exts svc me v' ∧ Calm v'.sys ∧ v'.todo = [] ∧
      v'.sys.party me = v.sys.party me ∧ spoken (!me) v'.sys.log = spoken (!me) v.sys.log := by
  induction n generalizing v with
  | zero => exact ⟨v, rfl, hi, hq, List.length_eq_zero_iff.1 hn, rfl, rfl⟩
  | succ n ih =>
    cases ht : v.todo with
    | nil => rw [ht] at hn; cases hn
    | cons m t =>
      obtain ⟨op, d⟩ := m
      have hfine : Utterance exts (op, d) := hi.todo _ (by rw [ht]; exact List.mem_cons_self)
      obtain ⟨y', e, -, hl, hpar, -, -⟩ := say_sent ha hi.inv me op d k hk hfine (hq me).1
      obtain ⟨v1, e1, h1⟩ := move_inv ha hs hi (.answer k) hk
      have q1 := move_calm ha hi hq (.answer k) hk (fun w h => by cases h) e1
      have e1' := e1
      simp only [move, ht, e, Res.ok_bind, Res.pure_eq] at e1
      cases e1
      obtain ⟨v2, e2, h2, q2, t2, p2, s2⟩ := ih h1 q1 (by rw [ht] at hn; simpa using hn)
      refine ⟨v2, ?_, h2, q2, t2, p2.trans hpar, s2.trans ?_⟩
      · simp only [List.replicate_succ, serve, e1', Res.ok_bind]; exact e2
      · simp only [hl]
        exact spoken_other _ _ _ (fun _ _ h => absurd (Event.said.inj h).1 (ne_not me))

/-- The rounds that bring everything to its end. -/
def Helps (k : Bytes) (m : Move) : Prop := m = .answer k ∨ ∃ w, m = .act (.turn w .ready k)

theorem helps_fair {exts : List Ext} {me : Bool} {k : Bytes} (hk : k.length = 4) {m : Move} (h : Helps k m) : Fair exts me m ∧ ∀ w, m ≠ .act (.signal w) := by
  rcases h with rfl | ⟨w, rfl⟩
  · exact ⟨hk, fun w h => by cases h⟩
  · exact ⟨⟨hk, fun _ _ _ h => by cases h⟩, fun w h => by cases h⟩

/-- The loop reads what arrived, the callback answers. -/
theorem answer_all {σ : Type} {exts : List Ext} (ha : Agreed exts) {svc : Service σ} (hs : Sound exts svc) {me : Bool} (k : Bytes) (hk : k.length = 4) (n : Nat)
    {v : Serving σ} (hi : Inv' exts svc me v) (hq : Calm v.sys) (ht : v.todo = []) (hn : (v.sys.party me).inbox.length ≤ n) :
    ∃ ms v', (∀ m ∈ ms, Helps k m) ∧ serve exts svc me v ms = .ok v' ∧ Inv' exts svc me v' ∧ Calm v'.sys ∧ v'.todo = [] ∧
      spoken (!me) v'.sys.log = spoken (!me) v.sys.log ∧ heard me v'.sys.log = spoken (!me) v.sys.log := by
  induction n generalizing v with
  | zero =>
    have hb : (v.sys.party me).inbox = [] := List.length_eq_zero_iff.1 (by omega)
    obtain ⟨-, ⟨fi, wi⟩, -, -⟩ := hi.inv.split me
    have hfi : fi = [] := by
      cases fi with
      | nil => rfl
      | cons f t =>
        have := wi.inbox
        rw [hb, wires_cons, wire] at this
        cases this
    subst hfi
    refine ⟨[], v, fun _ h => (by cases h), rfl, hi, hq, ht, rfl, ?_⟩
    have := wi.open_ (hq me).1
    rwa [coming, List.append_nil] at this
  | succ n ih =>
    by_cases hb : (v.sys.party me).inbox = []
    · exact ih hi hq ht (by rw [hb]; exact Nat.zero_le _)
    · obtain ⟨y1, e1, -, -, hl1, hs1, -⟩ := read_round hi.inv me k hk (hq me).1 (hq me).2.1 hb
      have hf : Fair exts me (.act (.turn me .ready k)) := ⟨hk, fun _ _ _ h => by cases h⟩
      obtain ⟨v1, em, h1⟩ := move_inv ha hs hi _ hf
      have q1 := move_calm ha hi hq _ hf (fun w h => by cases h) em
      have hv1 : v1.sys = y1 := by
        have em' := em
        simp only [move, step] at em'
        rw [if_neg (by simp [ht]), e1] at em'
        cases em'
        rw [called_sys]
      obtain ⟨v2, e2, h2, q2, t2, p2, s2⟩ := drain ha hs k hk v1.todo.length h1 q1 rfl
      obtain ⟨ms, v3, hm, e3, h3, q3, t3, s3, hh⟩ := ih h2 q2 t2 (by rw [p2, hv1]; omega)
      have s1 : spoken (!me) v2.sys.log = spoken (!me) v.sys.log := by rw [s2, hv1, hs1]
      refine ⟨.act (.turn me .ready k) :: (List.replicate v1.todo.length (.answer k) ++ ms), v3, ?_, ?_, h3, q3, t3, s3.trans s1, hh.trans s1⟩
      · intro m hmem
        rcases List.mem_cons.1 hmem with rfl | hmem
        · exact .inr ⟨me, rfl⟩
        · rcases List.mem_append.1 hmem with hmem | hmem
          · exact .inl (List.eq_of_mem_replicate hmem)
          · exact hm m hmem
      · simp only [serve, em, Res.ok_bind, serve_append, e2]
        exact e3

/-- Rounds of the peer. -/
theorem peer_turns {σ : Type} {exts : List Ext} {svc : Service σ} {me : Bool} (k : Bytes) (hk : k.length = 4) (n : Nat)
    {v : Serving σ} (hi : Inv exts v.sys) {y : Sys} (e : exec exts v.sys (List.replicate n (.turn (!me) .ready k)) = .ok y) :
    serve exts svc me v (List.replicate n (.act (.turn (!me) .ready k))) = .ok { v with sys := y } := by
  induction n generalizing v with
  | zero => cases e; rfl
  | succ n ih =>
    obtain ⟨y1, e1, hi1, hl, -⟩ := turn_log hi (!me) .ready k hk
    simp only [List.replicate_succ, exec, step, e1, Res.ok_bind] at e
    have hmove : move exts svc me v (.act (.turn (!me) .ready k)) = .ok { v with sys := y1 } := by
      simp only [move, step]
      rw [if_neg (by simp [ownTurn])]
      simp only [e1, Res.ok_bind, Res.pure_eq]
      congr 1
      apply called_none
      intro op d hm
      rcases hl with hl | hl | hl | ⟨op', d', hl, -⟩ <;> rw [hl] at hm <;> simp at hm
    have := ih (v := { v with sys := y1 }) hi1 e
    simp only [List.replicate_succ, serve, hmove, Res.ok_bind, this]

end Serve
open Serve

/-- **C163**, what the peer gets: for every callback that answers messages with messages, whatever the peer sends, whatever threads, loops and network
do in between: nothing is undefined, and the peer gets answers to the messages it sent, in the order of the messages, unchanged, each once, none left
out in between. -/
theorem C163_replies {σ : Type} (exts : List Ext) (ha : Agreed exts) (svc : Service σ) (hs : Sound exts svc) (me : Bool) (ms : List Move)
    (hf : ∀ m ∈ ms, Fair exts me m) :
    ∃ v, serve exts svc me { state := svc.start } ms = .ok v ∧ heard (!me) v.sys.log <+: answers svc svc.start (spoken (!me) v.sys.log) := by
  obtain ⟨v, e, hi⟩ := serve_inv ha hs ms (start_inv exts svc me) hf
  refine ⟨v, e, ?_⟩
  obtain ⟨⟨fo, wo⟩, ⟨fi, wi⟩, -, -⟩ := hi.inv.split me
  have h1 : spoken me v.sys.log <+: answers svc svc.start (heard me v.sys.log) := by rw [← hi.sent]; exact List.prefix_append _ _
  exact (wo.always.trans h1).trans (answers_prefix svc svc.start wi.always)

/-- **C163**, all of them: at any moment, as long as no program asked for the close, the peer gets the answers to all messages it sent so far, if the
two loops and the callback are given enough rounds. -/
theorem C163_all {σ : Type} (exts : List Ext) (ha : Agreed exts) (svc : Service σ) (hs : Sound exts svc) (me : Bool) (ms : List Move)
    (hf : ∀ m ∈ ms, Fair exts me m) (hn : ∀ w, .act (.signal w) ∉ ms) (v : Serving σ) (h : serve exts svc me { state := svc.start } ms = .ok v)
    (k : Bytes) (hk : k.length = 4) :
    ∃ more v', (∀ m ∈ more, m = .answer k ∨ ∃ w, m = .act (.turn w .ready k)) ∧ serve exts svc me v more = .ok v' ∧
      heard (!me) v'.sys.log = answers svc svc.start (spoken (!me) v.sys.log) := by
  obtain ⟨v0, e, hi, hq⟩ := serve_calm ha hs ms (start_inv exts svc me) calm_start hf hn
  rw [h] at e
  cases e
  obtain ⟨v1, e1, h1, q1, t1, -, s1⟩ := drain ha hs k hk v.todo.length hi hq rfl
  obtain ⟨ms2, v2, hm2, e2, h2, q2, t2, s2, hh2⟩ := answer_all ha hs k hk _ h1 q1 t1 (Nat.le_refl _)
  obtain ⟨n, y, ey, hy⟩ := read_all _ h2.inv (!me) k hk (q2 (!me)).1 (q2 (!me)).2.1 (Nat.le_refl _)
  rw [Bool.not_not] at hy
  refine ⟨List.replicate v.todo.length (.answer k) ++ (ms2 ++ List.replicate n (.act (.turn (!me) .ready k))), { v2 with sys := y }, ?_, ?_, ?_⟩
  · intro m hm
    rcases List.mem_append.1 hm with hm | hm
    · exact .inl (List.eq_of_mem_replicate hm)
    · rcases List.mem_append.1 hm with hm | hm
      · exact hm2 m hm
      · exact .inr ⟨!me, List.eq_of_mem_replicate hm⟩
  · rw [serve_append, e1]
    show serve exts svc me v1 _ = _
    rw [serve_append, e2]
    exact peer_turns k hk n h2.inv ey
  · show heard (!me) y.log = _
    rw [hy]
    have := h2.sent
    rw [t2, List.append_nil] at this
    rw [this, hh2, s1]

/-- **C163**, closing: an end that closes because its peer did has sent the answers to all messages of the peer before. -/
theorem C163_before {σ : Type} (exts : List Ext) (ha : Agreed exts) (svc : Service σ) (hs : Sound exts svc) (me : Bool) (ms : List Move)
    (hf : ∀ m ∈ ms, Fair exts me m) (hn : .act (.signal me) ∉ ms) (v : Serving σ) (h : serve exts svc me { state := svc.start } ms = .ok v)
    (hc : .closing me ∈ v.sys.log) : spoken me v.sys.log = answers svc svc.start (spoken (!me) v.sys.log) := by
  obtain ⟨v0, e, hi⟩ := serve_inv ha hs ms (start_inv exts svc me) hf
  rw [h] at e
  cases e
  have hflag : ∀ (ms : List Move) (u u' : Serving σ), .act (.signal me) ∉ ms → serve exts svc me u ms = .ok u' →
      (u'.sys.party me).flag = (u.sys.party me).flag := by
    intro ms
    induction ms with
    | nil => intro u u' _ h; cases h; rfl
    | cons m t ih =>
      intro u u' hm h
      simp only [serve] at h
      cases hs1 : move exts svc me u m with
      | ub => rw [hs1] at h; cases h
      | ok u1 =>
        rw [hs1] at h
        refine (ih u1 u' (fun hx => hm (List.mem_cons_of_mem _ hx)) h).trans ?_
        cases m with
        | answer k =>
          simp only [move] at hs1
          split at hs1
          · cases hs1; rfl
          · rename_i op d t' ht
            cases hst : step exts u.sys (.say me op d k) with
            | ub => rw [hst] at hs1; cases hs1
            | ok y =>
              rw [hst] at hs1
              cases hs1
              exact step_flag hst me (fun h => by cases h)
        | act a =>
          simp only [move] at hs1
          split at hs1
          · cases hs1; rfl
          · cases hst : step exts u.sys a with
            | ub => rw [hst] at hs1; cases hs1
            | ok y =>
              rw [hst] at hs1
              cases hs1
              rw [called_sys]
              exact step_flag hst me (fun h => hm (by rw [h]; exact List.mem_cons_self))
  have hfl := hflag ms _ _ hn h
  obtain ⟨-, ⟨fi, wi⟩, own, -⟩ := hi.inv.split me
  have ht : v.todo = [] := by
    by_cases ht : v.todo = []
    · exact ht
    · exact absurd hc (own.loop (hi.busy ht))
  have := hi.sent
  rw [ht, List.append_nil] at this
  rw [this, (wi.answered hfl hc).1]

/-- **C163**, the echo: the peer of `websocket_echo_message_callback` gets back the messages it sent, unchanged, in order, each once, none left out in
between. -/
theorem C163_echo (exts : List Ext) (ha : Agreed exts) (me : Bool) (ms : List Move) (hf : ∀ m ∈ ms, Fair exts me m) :
    ∃ v, serve exts echo me { state := echo.start } ms = .ok v ∧ heard (!me) v.sys.log <+: spoken (!me) v.sys.log := by
  obtain ⟨v, e, h⟩ := C163_replies exts ha echo (fun _ m hm a hh => by rw [List.mem_singleton.1 hh]; exact hm) me ms hf
  refine ⟨v, e, ?_⟩
  have : ∀ l : List (UInt8 × Bytes), answers echo () l = l := by
    intro l
    induction l with
    | nil => rfl
    | cons m t ih => simp only [answers, echo, List.singleton_append, List.cons.injEq, true_and]; exact ih
  rwa [this] at h

/-! ### Conversations -/

private def key4 : Bytes := [1, 2, 3, 4]

private def seenBy {σ : Type} (r : Res (Serving σ)) : Option (List Event) :=
  match r with
  | .ok v => some v.sys.log
  | .ub => none

/-- A client says two things to an echo server, one while the callback answers the other. -/
def echoed : List Move :=
  [.act (.say false 1 b!"hi" key4), .act (.turn true .ready key4), .act (.say false 2 [0, 255] key4), .act (.turn true .ready key4),
    .answer key4, .act (.turn true .ready key4), .act (.turn false .ready key4), .answer key4, .act (.turn false .ready key4)]

example : seenBy (serve [backwards] echo true { state := () } echoed) = some
    [.said false 1 b!"hi", .got true 1 b!"hi", .said false 2 [0, 255], .said true 1 b!"hi", .got true 2 [0, 255], .got false 1 b!"hi",
      .said true 2 [0, 255], .got false 2 [0, 255]] := by decide +kernel

/-- A callback that answers each message with its number among them, twice for binary messages. -/
def counting : Service Nat where
  start := 0
  reply := fun n op _ => (n + 1, if op = 1 then [(2, [UInt8.ofNat n])] else [(2, [UInt8.ofNat n]), (2, [UInt8.ofNat n])])

example : Agreed [] ∧ Sound [] counting ∧ (∀ m ∈ echoed, Fair [] true m) ∧ (∀ w, .act (.signal w) ∉ echoed) ∧
    answers counting 0 [(1, b!"hi"), (2, [0, 255])] = [(2, [0]), (2, [1]), (2, [1])] := by
  refine ⟨⟨trivial, fun _ h => (by cases h), fun _ h => (by cases h)⟩, ?_, ?_, by decide, by decide⟩
  · intro s m hm a ha
    have : a = (2, [UInt8.ofNat s]) := by
      simp only [counting] at ha
      split at ha <;> simp at ha <;> exact ha
    rw [this]
    exact ⟨.inr rfl, fun h => absurd (show (2 : UInt8) = 1 from h) (by decide), 0, [UInt8.ofNat s], rfl, show 1 < 2 ^ 32 by decide⟩
  · have hu : ∀ d : Bytes, Utf8.utf8Ok d = true → Spec.Utf8.IsUtf8 d := fun d h => (C05_utf8Ok d).mp h
    intro m hm
    simp only [echoed, List.mem_cons, List.mem_nil_iff, or_false] at hm
    rcases hm with rfl | rfl | rfl | rfl | rfl | rfl | rfl | rfl | rfl <;>
      first
      | exact rfl
      | exact ⟨rfl, fun _ _ _ h => by cases h⟩
      | exact ⟨⟨rfl, by decide, fun h => (by first | exact hu _ (by decide) | exact absurd h (by decide)), by decide,
          fun r d' h => by cases h; decide⟩, fun _ _ _ h => by cases h⟩

/-- **C163**, all answers also when the peer closes (false): a client that says something to an echo server and then asks for the close never gets
the echo, although the server sent it before the close frame. -/
theorem C163_closed_false :
    seenBy (serve [] echo true { state := () } [.act (.say false 1 b!"hi" key4), .act (.signal false), .act (.turn false .nothing key4),
      .act (.turn true .ready key4), .answer key4, .act (.turn true .ready key4), .act (.turn true .nothing key4), .act (.turn false .ready key4),
      .act (.turn false .ready key4), .act (.turn false .nothing key4)]) =
    some [.said false 1 b!"hi", .closing false, .got true 1 b!"hi", .said true 1 b!"hi", .closing true, .ended true, .ended false] := by decide +kernel

end Verif.Props
