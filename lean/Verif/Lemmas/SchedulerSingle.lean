import Verif.Lemmas.SchedulerForward

/-!
# Operators with at most one scheduled work

An invariant of such an operator is given by three predicates: `idle` (no work), `busy` (with the work, and whether it
is still in the queue, or active, and then whether it was ticked in this tick), and `dead` (the destination is closed, and nothing is said about work).
-/

namespace Rx.Sched.Solo

/-- Where the work is. -/
inductive Phase where
  | queued
  /-- in a tick to `t`, not ticked yet -/
  | due (t : Nat)
  | ticked

variable {c : Client} {dead idle : Nat → c.St → Prop} {busy : Nat → Phase → Work c.B → c.St → Prop}

/-- The invariant. -/
inductive Holds (dead idle : Nat → c.St → Prop) (busy : Nat → Phase → Work c.B → c.St → Prop) (s : Solo c) : Prop where
  | dead : dead s.clock s.st → Holds dead idle busy s
  | idle : idle s.clock s.st → s.active = [] → s.queue = [] → Holds dead idle busy s
  | queued (w : Work c.B) : busy s.clock .queued w s.st → s.active = [] → s.queue = [.schedule w] → Holds dead idle busy s
  | due (t : Nat) (w : Work c.B) : s.tick = some t → busy s.clock (.due t) w s.st → s.active = [(w, false)] →
      s.queue = [] → Holds dead idle busy s
  | ticked (w : Work c.B) : busy s.clock .ticked w s.st → s.active = [(w, true)] → s.queue = [] → Holds dead idle busy s

/-- What keeps it while the clock stands still. -/
structure Single (c : Client) (dead idle : Nat → c.St → Prop) (busy : Nat → Phase → Work c.B → c.St → Prop) : Prop where
  dead_exec : ∀ b t now s, t ≤ now → dead now s → dead now (c.exec b t now s).2.1
  dead_input : ∀ i now s, dead now s → dead now (c.input i now s).1
  idle_input : ∀ i now s, idle now s → dead now (c.input i now s).1 ∨
    ((c.input i now s).2 = [] ∧ idle now (c.input i now s).1) ∨
    ∃ w, (c.input i now s).2 = [.schedule w] ∧ busy now .queued (w.onScheduled now) (c.input i now s).1
  busy_input : ∀ i now f w s, busy now f w s → dead now (c.input i now s).1 ∨
    ((c.input i now s).2 = [] ∧ busy now f w (c.input i now s).1)
  work : ∀ (t : Nat) (s : Solo c) w w' s' res, t ≤ s.clock → busy s.clock (.due t) w s.st →
    tickWork t s w = some (w', s', res) → dead s.clock s'.st ∨
    (s'.queue = s.queue ∧ ((res = .done ∧ idle s.clock s'.st) ∨ (res ≠ .done ∧ busy s.clock .ticked w' s'.st)))
  pass : ∀ t now w s, t ≤ now → busy now .queued w s → busy now (.due t) w s

/-- What keeps it when the clock goes on. -/
structure Mono (dead idle : Nat → c.St → Prop) (busy : Nat → Phase → Work c.B → c.St → Prop) : Prop where
  dead : ∀ k k' s, k ≤ k' → dead k s → dead k' s
  idle : ∀ k k' s, k ≤ k' → idle k s → idle k' s
  busy : ∀ t k f w s, (∀ t', f ≠ .due t') → busy k f w s → busy (max k t) (.due t) w s

theorem drain_clock {t : Nat} {s : Solo c} (h : t ≤ s.clock) : (s.drain t).clock = s.clock := by
  show updateTick s.clock t = s.clock
  rw [updateTick_max]; omega

theorem Single.step (h : Single c dead idle busy) {s s' : Solo c} (hs : Step s s') (ht : ∀ t, s.tick = some t → t ≤ s.clock)
    (hk : s'.tick = s.tick) (hh : Holds dead idle busy s) : Holds dead idle busy s' := by
  cases hs with
  | input i =>
    obtain ⟨ka, kt, kc⟩ := input_keep i s
    have kst := input_st i s
    have kq := input_queue i s
    cases hh with
    | dead hd => exact .dead (by rw [kc, kst]; exact h.dead_input _ _ _ hd)
    | idle hi ha hq =>
      rcases h.idle_input i _ _ hi with h1 | ⟨h1, h2⟩ | ⟨w, h1, h2⟩
      · exact .dead (by rw [kc, kst]; exact h1)
      · exact .idle (by rw [kc, kst]; exact h2) (ka.trans ha) (by rw [kq, h1, hq]; rfl)
      · exact .queued _ (by rw [kc, kst]; exact h2) (ka.trans ha) (by rw [kq, h1, hq]; rfl)
    | queued w hb ha hq =>
      rcases h.busy_input i _ _ _ _ hb with h1 | ⟨h1, h2⟩
      · exact .dead (by rw [kc, kst]; exact h1)
      · exact .queued w (by rw [kc, kst]; exact h2) (ka.trans ha) (by rw [kq, h1, hq]; rfl)
    | due t w hk hb ha hq =>
      rcases h.busy_input i _ _ _ _ hb with h1 | ⟨h1, h2⟩
      · exact .dead (by rw [kc, kst]; exact h1)
      · exact .due t w (kt.trans hk) (by rw [kc, kst]; exact h2) (ka.trans ha) (by rw [kq, h1, hq]; rfl)
    | ticked w hb ha hq =>
      rcases h.busy_input i _ _ _ _ hb with h1 | ⟨h1, h2⟩
      · exact .dead (by rw [kc, kst]; exact h1)
      · exact .ticked w (by rw [kc, kst]; exact h2) (ka.trans ha) (by rw [kq, h1, hq]; rfl)
  | start t h0 => rw [h0] at hk; cases hk
  | work s1 t pre post w w' res h1 h2 h3 h4 =>
    have hc := (tickWork_own h4).clock
    cases hh with
    | dead hd =>
      refine .dead ?_
      have := tickWork_keeps (P := fun x => x.clock = s.clock ∧ dead s.clock x.st) ?_ ⟨rfl, hd⟩ h4
      · dsimp only
        rw [hc]; exact this.2
      · intro b x ⟨hx, hdx⟩
        refine ⟨(runBody_keeps _ _ _).clock.trans hx, ?_⟩
        rw [runBody_st, hx]
        exact h.dead_exec _ _ _ _ (ht t h1) hdx
    | idle _ ha _ => rw [ha] at h2; simp at h2
    | queued _ _ ha _ => rw [ha] at h2; simp at h2
    | ticked v hb ha hq =>
      rw [ha] at h2
      cases pre with
      | nil => simp at h2
      | cons p pre =>
        have := congrArg List.length h2
        simp at this
    | due t' v hk' hb ha hq =>
      have htt : t' = t := by rw [h1] at hk'; cases hk'; rfl
      subst htt
      have hpre : pre = [] ∧ post = [] ∧ v = w := by
        rw [ha] at h2
        cases pre with
        | nil =>
          simp only [List.nil_append, List.cons.injEq, Prod.mk.injEq] at h2
          exact ⟨rfl, h2.2.symm, h2.1.1⟩
        | cons p pre =>
          have := congrArg List.length h2
          simp at this
      obtain ⟨rfl, rfl, rfl⟩ := hpre
      rcases h.work t' s v w' s1 res (ht t' h1) hb h4 with g | ⟨g1, ⟨g2, g3⟩ | ⟨g2, g3⟩⟩
      · exact .dead (by dsimp only; rw [hc]; exact g)
      · exact .idle (by dsimp only; rw [hc]; exact g3) (by simp [g2]) (g1.trans hq)
      · exact .ticked w' (by dsimp only; rw [hc]; exact g3) (by simp [g2]) (g1.trans hq)
  | pass t h1 h2 =>
    have hc := drain_clock (c := c) (ht t h1)
    cases hh with
    | dead hd => exact .dead (by rw [hc]; exact hd)
    | idle hi ha hq => exact .idle (by rw [hc]; exact hi) (by simp [drain, ha, hq]) rfl
    | queued w hb ha hq =>
      exact .due t w h1 (by rw [hc]; exact h.pass _ _ _ _ (ht t h1) hb) (by simp [drain, ha, hq, process]) rfl
    | due t' w hk' hb ha hq => exact .due t' w hk' (by rw [hc]; exact hb) (by simp [drain, ha, hq]) rfl
    | ticked w hb ha hq => exact .ticked w (by rw [hc]; exact hb) (by simp [drain, ha, hq]) rfl
  | finish t h1 h2 h3 => rw [h1] at hk; cases hk

theorem Single.inner (h : Single c dead idle busy) {s s' : Solo c} (hs : Inner s s')
    (ht : ∀ t, s.tick = some t → t ≤ s.clock) (hh : Holds dead idle busy s) : Holds dead idle busy s' := by
  induction hs with
  | refl => exact hh
  | tail h1 h2 h3 ih => exact h.step h2 (tick_le h1.steps ht) h3 ih

/-- The start of a tick, with another invariant. -/
theorem Holds.start {dead' idle' : Nat → c.St → Prop} {busy' : Nat → Phase → Work c.B → c.St → Prop} {s : Solo c} {t : Nat}
    (hd : dead s.clock s.st → dead' (max s.clock t) s.st) (hi : idle s.clock s.st → idle' (max s.clock t) s.st)
    (hb : ∀ f w, (∀ t', f ≠ .due t') → busy s.clock f w s.st → busy' (max s.clock t) (.due t) w s.st)
    (ht : s.tick = none) (hh : Holds dead idle busy s) :
    Holds dead' idle' busy' (drain t { s with tick := some t, active := s.active.map fun p => (p.1, false) }) := by
  have hc : (drain t { s with tick := some t, active := s.active.map fun p => (p.1, false) }).clock = max s.clock t :=
    updateTick_max _ _
  cases hh with
  | dead h => exact .dead (by rw [hc]; exact hd h)
  | idle h ha hq => exact .idle (by rw [hc]; exact hi h) (by simp [drain, ha, hq]) rfl
  | queued w h ha hq =>
    exact .due t w rfl (by rw [hc]; exact hb _ _ (by simp) h) (by simp [drain, ha, hq, process]) rfl
  | due t' w hk h ha hq => rw [ht] at hk; cases hk
  | ticked w h ha hq => exact .due t w rfl (by rw [hc]; exact hb _ _ (by simp) h) (by simp [drain, ha, hq]) rfl

theorem Holds.finish {s : Solo c} (ha : s.allTicked) (hh : Holds dead idle busy s) : Holds dead idle busy { s with tick := none } := by
  cases hh with
  | dead h => exact .dead h
  | idle h ha hq => exact .idle h ha hq
  | queued w h ha hq => exact .queued w h ha hq
  | due t w hk h ha' hq =>
    have := ha (w, false) (by rw [ha']; simp)
    cases this
  | ticked w h ha hq => exact .ticked w h ha hq

theorem Single.reach (h : Single c dead idle busy) (hm : Mono dead idle busy) {st : c.St} {s : Solo c}
    (h0 : idle 0 st) (hr : Reachable st s) : Holds dead idle busy s := by
  have key : ∀ {a b : Solo c}, Steps a b → a.tick = none → Holds dead idle busy a → Holds dead idle busy b := by
    intro a b hs ha hp
    induction hs with
    | refl => exact hp
    | tail h1 h2 ih =>
      have ht := tick_le h1 (by rw [ha]; intro t ht; cases ht)
      cases h2 with
      | input i => exact h.step (.input _ i) ht (input_keep i _).2.1 ih
      | start t h0 =>
        exact ih.start (hm.dead _ _ _ (Nat.le_max_left ..)) (hm.idle _ _ _ (Nat.le_max_left ..))
          (fun f w hf => hm.busy _ _ f w _ hf) h0
      | work s' t pre post w w' res k1 k2 k3 k4 =>
        exact h.step (.work _ s' t pre post w w' res k1 k2 k3 k4) ht (tickWork_own k4).tick ih
      | pass t k1 k2 => exact h.step (.pass _ t k1 k2) ht rfl ih
      | finish t k1 k2 k3 => exact ih.finish k2
  exact key hr rfl (.idle h0 rfl rfl)

/-- At the end of a tick. -/
inductive Ended (dead idle : Nat → c.St → Prop) (busy : Nat → Phase → Work c.B → c.St → Prop) (s : Solo c) : Prop where
  | dead : dead s.clock s.st → Ended dead idle busy s
  | idle : idle s.clock s.st → s.active = [] → Ended dead idle busy s
  | busy (w : Work c.B) : busy s.clock .ticked w s.st → s.active = [(w, true)] → Ended dead idle busy s

theorem Holds.ended {s : Solo c} (hh : Holds dead idle busy s) (ha : s.allTicked) (hq : s.queue = []) :
    Ended dead idle busy s := by
  cases hh with
  | dead h => exact .dead h
  | idle h ha hq => exact .idle h ha
  | queued w h ha' hq' => rw [hq] at hq'; cases hq'
  | due t w hk h ha' hq' =>
    have := ha (w, false) (by rw [ha']; simp)
    cases this
  | ticked w h ha' hq' => exact .busy w h ha'

/-- Between ticks, no work is due. -/
theorem no_due {st : c.St} {s : Solo c} (hr : Reachable st s) (ht : s.tick = none) : ∀ p ∈ s.active, p.2 = true := by
  have key : ∀ {a b : Solo c}, Steps a b → (a.tick = none → a.allTicked) → b.tick = none → b.allTicked := by
    intro a b hs
    induction hs with
    | refl => intro h; exact h
    | tail h1 h2 ih =>
      intro h hb
      cases h2 with
      | input i =>
        obtain ⟨ka, kt, _⟩ := input_keep i _
        rw [kt] at hb
        intro p hp
        rw [ka] at hp
        exact ih h hb p hp
      | start t h0 => cases hb
      | work s' t pre post w w' res k1 k2 k3 k4 =>
        have : s'.tick = none := hb
        rw [(tickWork_own k4).tick, k1] at this
        cases this
      | pass t k1 k2 =>
        exact absurd (k1.symm.trans hb) (by simp)
      | finish t k1 k2 k3 => exact k2
  exact key hr (fun _ p hp => by cases hp) ht

end Rx.Sched.Solo
