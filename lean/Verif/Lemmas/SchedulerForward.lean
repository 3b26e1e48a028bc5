import Verif.Lemmas.Timed

/-!
# Histories in which time does not go back, and invariants of the operator's state alone
-/

namespace Rx.Sched
namespace Solo
variable {c : Client}

/-- Steps in which ticks do not go back in time. -/
inductive FSteps : Solo c → Solo c → Prop where
  | refl (s : Solo c) : FSteps s s
  | tail {a b d : Solo c} : FSteps a b → Step b d → (∀ t, b.tick = none → d.tick = some t → b.clock ≤ t) → FSteps a d

theorem FSteps.trans {a b d : Solo c} (h : FSteps a b) (h' : FSteps b d) : FSteps a d := by
  induction h' with
  | refl => exact h
  | tail _ hs ht ih => exact ih.tail hs ht

theorem Inner.fsteps {a b : Solo c} (h : Inner a b) : FSteps a b := by
  induction h with
  | refl => exact .refl _
  | tail _ hs ht ih =>
    refine ih.tail hs (fun t h1 h2 => ?_)
    rw [ht, h1] at h2
    cases h2

/-- In a tick the clock is the time of the tick, or later. -/
theorem tick_le {s s' : Solo c} (h : Steps s s') (h0 : ∀ t, s.tick = some t → t ≤ s.clock) :
    ∀ t, s'.tick = some t → t ≤ s'.clock := by
  induction h with
  | refl => exact h0
  | tail _ hs ih =>
    intro t ht
    cases hs with
    | input i =>
      obtain ⟨_, h2, h3⟩ := input_keep i _
      rw [h2] at ht; rw [h3]; exact ih t ht
    | start t' h1 =>
      cases ht
      show _ ≤ updateTick _ _
      rw [updateTick_max]; omega
    | work s' t' pre post w w' res h1 h2 h3 h4 =>
      have hk := tickWork_own h4
      show t ≤ s'.clock
      rw [hk.clock]
      exact ih t (hk.tick.symm.trans ht)
    | pass t' h1 h2 =>
      show _ ≤ updateTick _ _
      have := ih t ht
      rw [updateTick_max]; omega
    | finish t' h1 h2 h3 => cases ht

/-- What the state alone keeps. -/
structure Stable (c : Client) (ok : Nat → Nat → Prop) (P : Nat → c.St → Prop) : Prop where
  mono : ∀ k k' s, k ≤ k' → P k s → P k' s
  exec : ∀ b t now s, ok t now → P now s → P now (c.exec b t now s).2.1
  input : ∀ i now s, P now s → P now (c.input i now s).1

theorem Stable.work {ok : Nat → Nat → Prop} {P : Nat → c.St → Prop} (h : Stable c ok P) {s : Solo c} {t : Nat}
    (ht : ok t s.clock) {w : Work c.B} {y} (hp : P s.clock s.st) (hy : tickWork t s w = some y) :
    P y.2.1.clock y.2.1.st := by
  have := tickWork_keeps (P := fun x => x.clock = s.clock ∧ P x.clock x.st) ?_ ⟨rfl, hp⟩ hy
  · exact this.2
  · intro b x ⟨hx, hpx⟩
    have h1 : (runBody t b x).2.1.st = (c.exec b t x.clock x.st).2.1 := (requests_keep _ _).2.2.2
    have h2 : (runBody t b x).2.1.clock = x.clock := (runBody_keeps _ _ _).clock
    refine ⟨h2.trans hx, ?_⟩
    rw [h1, h2]
    exact h.exec b t x.clock x.st (by rw [hx]; exact ht) hpx

theorem Stable.step {ok : Nat → Nat → Prop} {P : Nat → c.St → Prop} (h : Stable c ok P) {s s' : Solo c}
    (hs : Step s s') (ht : ∀ t, s.tick = some t → ok t s.clock) (hp : P s.clock s.st) : P s'.clock s'.st := by
  cases hs with
  | input i =>
    have h1 : (s.input i).st = (c.input i s.clock s.st).1 := (requests_keep _ _).2.2.2
    rw [h1, (input_keep i s).2.2]
    exact h.input i _ _ hp
  | start t' h1 =>
    refine h.mono _ _ _ ?_ hp
    show s.clock ≤ updateTick s.clock _
    rw [updateTick_max]; omega
  | work s' t' pre post w w' res h1 h2 h3 h4 => exact h.work (ht t' h1) hp h4
  | pass t' h1 h2 =>
    refine h.mono _ _ _ ?_ hp
    show s.clock ≤ updateTick _ _
    rw [updateTick_max]; omega
  | finish t' h1 h2 h3 => exact hp

/-- An invariant of the state alone. -/
theorem Stable.reach {P : Nat → c.St → Prop} (h : Stable c (· ≤ ·) P) {st : c.St} (h0 : P 0 st) {s : Solo c}
    (hr : Reachable st s) : P s.clock s.st := by
  have key : ∀ {a b : Solo c}, Steps a b → a.tick = none → P a.clock a.st → P b.clock b.st := by
    intro a b hs ha hp
    induction hs with
    | refl => exact hp
    | tail h1 h2 ih => exact h.step h2 (tick_le h1 (by rw [ha]; intro t ht; cases ht)) ih
  exact key hr rfl h0

/-- In a tick the clock is the time of the tick. -/
theorem tick_eq {s s' : Solo c} (h : FSteps s s') (h0 : ∀ t, s.tick = some t → t = s.clock) :
    ∀ t, s'.tick = some t → t = s'.clock := by
  induction h with
  | refl => exact h0
  | tail _ hs hf ih =>
    intro t ht
    cases hs with
    | input i =>
      obtain ⟨_, h2, h3⟩ := input_keep i _
      rw [h2] at ht; rw [h3]; exact ih t ht
    | start t' h1 =>
      have h3 := hf t h1 ht
      cases ht
      refine Eq.trans ?_ (updateTick_max _ _).symm
      dsimp only
      omega
    | work s' t' pre post w w' res h1 h2 h3 h4 =>
      have hk := tickWork_own h4
      show t = s'.clock
      rw [hk.clock]
      exact ih t (hk.tick.symm.trans ht)
    | pass t' h1 h2 =>
      show _ = updateTick _ _
      have h5 := ih t ht
      have h6 := ih t' h1
      rw [updateTick_max]; omega
    | finish t' h1 h2 h3 => cases ht

theorem Stable.freach {P : Nat → c.St → Prop} (h : Stable c (· = ·) P) {st : c.St} (h0 : P 0 st) {s : Solo c}
    (hr : FSteps { st := st } s) : P s.clock s.st := by
  have key : ∀ {a b : Solo c}, FSteps a b → a.tick = none → P a.clock a.st → P b.clock b.st := by
    intro a b hs ha hp
    induction hs with
    | refl => exact hp
    | tail h1 h2 _ ih => exact h.step h2 (tick_eq h1 (by rw [ha]; intro t ht; cases ht)) ih
  exact key hr rfl h0

/-- A request, as it is put in the queue. -/
def onQueue (clock : Nat) : Req c.B → Req c.B
  | .schedule w => .schedule (w.onScheduled clock)
  | .cancel => .cancel

theorem requests_queue (rs : List (Req c.B)) (s : Solo c) :
    (rs.foldl request s).queue = s.queue ++ rs.map (onQueue s.clock) := by
  induction rs generalizing s with
  | nil => simp
  | cons r rs ih =>
    rw [List.foldl_cons, ih]
    cases r <;> simp [request, onQueue]

theorem input_queue (i : c.In) (s : Solo c) :
    (s.input i).queue = s.queue ++ (c.input i s.clock s.st).2.map (onQueue s.clock) := requests_queue _ _

theorem input_st (i : c.In) (s : Solo c) : (s.input i).st = (c.input i s.clock s.st).1 := (requests_keep _ _).2.2.2

theorem runBody_queue (t : Nat) (b : c.B) (s : Solo c) :
    (runBody t b s).2.1.queue = s.queue ++ (c.exec b t s.clock s.st).2.2.1.map (onQueue s.clock) := requests_queue _ _

theorem runBody_st (t : Nat) (b : c.B) (s : Solo c) : (runBody t b s).2.1.st = (c.exec b t s.clock s.st).2.1 :=
  (requests_keep _ _).2.2.2

theorem process_length {a a' : List (Work c.B × Bool)} (h : a.length = a'.length) (q : List (Req c.B)) :
    (q.foldl process a).length = (q.foldl process a').length := by
  induction q generalizing a a' with
  | nil => exact h
  | cons r q ih =>
    rw [List.foldl_cons, List.foldl_cons]
    apply ih
    cases r with
    | schedule w => simp [process, h]
    | cancel => rfl

end Solo

variable {c : Client} {R : Rest c}

/-- An invariant that ticks keep if the state changes as `good` says. -/
theorem EView.during {J : Solo c → Prop} {good : c.St → c.St → Prop}
    (hact : ∀ s s', J s → s.tick = none → Solo.Inner s s' → J s')
    (htick : ∀ s t s1, J s → s.tick = none →
      Solo.Inner (Solo.drain t { s with tick := some t, active := s.active.map fun p => (p.1, false) }) s1 →
      s1.tick = some t → s1.allTicked → s1.queue = [] → good s.st s1.st → J { s1 with tick := none }) :
    ∀ (ops : List R.Op) {e e' : Exec R.env} {s : Solo c}, EView e s → s.tick = none → e.invoked = [] → J s →
    R.During good e ops → R.run e ops = .ok e' →
    ∃ s', J s' ∧ s'.tick = none ∧ EView e' s' ∧ e'.invoked = [] := by
  intro ops
  induction ops with
  | nil => intro e e' s h ht hi hj _ he; cases he; exact ⟨s, hj, ht, h, hi⟩
  | cons op ops ih =>
    intro e e' s h ht hi hj hd he
    simp only [Rest.run] at he
    split at he
    · rename_i e1 h1
      obtain ⟨hg, hd'⟩ := hd e1 h1
      have tk : ∀ t, good e.world.ctx.1 e1.world.ctx.1 → e.tickTo t = .ok e1 →
          ∃ s', J s' ∧ s'.tick = none ∧ EView e1 s' ∧ e1.invoked = [] := by
        intro t hg he
        obtain ⟨s1, k1, k2, k3, k4, k5, k6⟩ := h.tickTo hi he
        refine ⟨_, htick s t s1 hj ht k1 k2 k3 k4 ?_, rfl, k5, k6⟩
        have a1 : e.world.ctx.1 = s.st := h.world.st
        have a2 : e1.world.ctx.1 = s1.st := k5.world.st
        rw [← a1, ← a2]
        exact hg
      have key : ∃ s', J s' ∧ s'.tick = none ∧ EView e1 s' ∧ e1.invoked = [] := by
        cases op with
        | act a =>
          cases h1
          obtain ⟨s', h1, h2, h3⟩ := WView.perform (R := R) [a] (w := e.world) (x := e.world.ctx) (sc := e.world.sched)
            h.world.sched.clock h.world.st h.world.sched
          refine ⟨s', hact s s' hj ht h1, h2.tick.trans ht, ⟨h3, ?_⟩, hi⟩
          rw [h2.active]
          exact ⟨h.tables.active, h.tables.sorted, h.tables.disjoint, h.tables.bound,
            ⟨h.tables.tables.sorted, h.tables.tables.bound, h.tables.tables.already⟩, h.tables.invokable⟩
        | tickTo t => exact tk t hg h1
        | tick d => exact tk _ hg h1
      obtain ⟨s1, k1, k2, k3, k4⟩ := key
      exact ih k3 k2 k4 k1 hd' he
    · rename_i hx
      exact absurd he (hx e')

theorem EView.fstep {e e' : Exec R.env} {s : Solo c} (h : EView e s) (ht : s.tick = none) (hi : e.invoked = [])
    {op : R.Op} {ops : List R.Op} (hf : R.Forward e (op :: ops)) (he : R.step e op = .ok e') :
    ∃ s', Solo.FSteps s s' ∧ s'.tick = none ∧ EView e' s' ∧ e'.invoked = [] := by
  have tk : ∀ t, e.world.sched.currentTick ≤ t → e.tickTo t = .ok e' →
      ∃ s', Solo.FSteps s s' ∧ s'.tick = none ∧ EView e' s' ∧ e'.invoked = [] := by
    intro t hle he
    obtain ⟨s1, k1, k2, k3, k4, k5, k6⟩ := h.tickTo hi he
    refine ⟨_, ((Solo.FSteps.refl s).tail (.start s t ht) ?_ |>.trans k1.fsteps).tail (.finish s1 t k2 k3 k4) ?_, rfl, k5,
      k6⟩
    · intro t' _ h2
      cases h2
      rw [← h.world.sched.clock]
      exact hle
    · intro t' h1
      rw [k2] at h1
      cases h1
  cases op with
  | act a =>
    cases he
    obtain ⟨s', h1, h2, h3⟩ := WView.perform (R := R) [a] (w := e.world) (x := e.world.ctx) (sc := e.world.sched)
      h.world.sched.clock h.world.st h.world.sched
    refine ⟨s', h1.fsteps, h2.tick.trans ht, ⟨h3, ?_⟩, hi⟩
    rw [h2.active]
    exact ⟨h.tables.active, h.tables.sorted, h.tables.disjoint, h.tables.bound,
      ⟨h.tables.tables.sorted, h.tables.tables.bound, h.tables.tables.already⟩, h.tables.invokable⟩
  | tickTo t => exact tk t hf.1 he
  | tick d => exact tk _ hf.1 he

theorem EView.frun : ∀ (ops : List R.Op) {e e' : Exec R.env} {s : Solo c}, EView e s → s.tick = none →
    e.invoked = [] → R.Forward e ops → R.run e ops = .ok e' →
    ∃ s', Solo.FSteps s s' ∧ s'.tick = none ∧ EView e' s' ∧ e'.invoked = [] := by
  intro ops
  induction ops with
  | nil => intro e e' s h ht hi _ he; cases he; exact ⟨s, .refl s, ht, h, hi⟩
  | cons op ops ih =>
    intro e e' s h ht hi hf he
    simp only [Rest.run] at he
    split at he
    · rename_i e1 h1
      obtain ⟨s1, k1, k2, k3, k4⟩ := h.fstep ht hi hf h1
      obtain ⟨s2, l1, l2, l3, l4⟩ := ih k3 k2 k4 (hf.2 _ h1) he
      exact ⟨s2, k1.trans l1, l2, l3, l4⟩
    · rename_i hx
      exact absurd he (hx e')

/-- A history in which time does not go back. -/
theorem solo_of_forward {st : c.St} {x : R.Ctx} {n : Nat} {ops : List R.Op} {e : Exec R.env}
    (hf : R.Forward (R.start st x n) ops) (h : R.run (R.start st x n) ops = .ok e) :
    ∃ s, Solo.FSteps { st := st } s ∧ s.tick = none ∧ s.st = e.world.ctx.1 ∧ s.clock = e.world.sched.currentTick := by
  obtain ⟨h1, h2⟩ := EView.start R st x n
  obtain ⟨s, k1, k2, k3, _⟩ := EView.frun ops h1 rfl h2 hf h
  exact ⟨s, k1, k2, k3.world.st.symm, k3.world.sched.clock.symm⟩

end Rx.Sched
