import Verif.Lemmas.TimedSubscribeOn
import Verif.Props.IntervalTimer

/-!
# C54: subscribe_on

See `Verif.Props.Timed` for what a history is. `begun` is when `subscribe_on` was subscribed, `started` the times at
which it subscribed its source, `source` whether the subscription of the source is open. The source notifies with `sync`
while it is being subscribed, and later with whatever the history says.
-/

namespace Rx.Timed.Props
open Rx.Sched Rx.Timed
open Rx.HigherOrder (Closes Patient)

variable {S I E : Type} {s : S} {d : Nat} {D : Sub S I E} {sync : List (SubscriberNotification I E)}
  {R : Rest (subscribeOn D sync d)} {x : R.Ctx} {n : Nat} {ops : List R.Op} {e0 e : Exec R.env}

/-- C54. The source is subscribed at most once, not earlier than `d` after the subscription. -/
theorem C54_once (hD : Closes D) (h : R.run (R.start { port := { dest := s } } x n) ops = .ok e) :
    e.world.ctx.1.started.length ≤ 1 ∧
    ∀ j ∈ e.world.ctx.1.started, ∃ k, e.world.ctx.1.begun = some k ∧ k + d ≤ j := by
  obtain ⟨y, h1, h2, h3, h4⟩ := solo_of_run h
  rw [← h3]
  obtain ⟨_, hs, _⟩ := SubscribeOn.always (SubscribeOn.holds hD h1)
  exact ⟨hs.once, fun j hj => (hs.time j hj).2⟩

/-- C54. It is subscribed by the first tick at or after its time, if the destination is then still open; its subscription
stays open. -/
theorem C54_prompt (hD : Closes D) (h0 : R.run (R.start { port := { dest := s } } x n) ops = .ok e0) {t k : Nat}
    (h1 : e0.tickTo t = .ok e) (hb : e.world.ctx.1.begun = some k) (hk : k + d ≤ e.world.sched.currentTick)
    (ho : D.isClosed e.world.ctx.1.port.dest = false) :
    e.world.ctx.1.started ≠ [] ∧ e.world.ctx.1.source = true := by
  obtain ⟨s0, y, k1, k2, k3, k4, k5, k6, k7, k8, k9, k10⟩ := solo_of_tick h0 h1
  rw [← k9] at hb ho ⊢
  rw [← k10] at hk
  exact SubscribeOn.prompt hD k1 k2 k5 k7 k8 hb hk ho

/-- C54. Once the destination is closed, which is what unsubscribing does, the source is not subscribed any more, and if it
was, it is unsubscribed. -/
theorem C54_closed (hD : Closes D) (h0 : R.run (R.start { port := { dest := s } } x n) ops = .ok e0)
    (hc : D.isClosed e0.world.ctx.1.port.dest = true) {ops' : List R.Op}
    (h : R.run (R.start { port := { dest := s } } x n) (ops ++ ops') = .ok e) :
    D.isClosed e.world.ctx.1.port.dest = true ∧ e.world.ctx.1.started = e0.world.ctx.1.started ∧
    e.world.ctx.1.source = false := by
  have hsrc : ∀ (ops : List R.Op) (e : Exec R.env), R.run (R.start { port := { dest := s } } x n) ops = .ok e →
      D.isClosed e.world.ctx.1.port.dest = true → e.world.ctx.1.source = false := by
    intro ops e h hc
    obtain ⟨y, h1, h2, h3, h4⟩ := solo_of_run h
    rw [← h3] at hc ⊢
    obtain ⟨_, _, hs⟩ := SubscribeOn.always (SubscribeOn.holds hD h1)
    cases hx : y.st.source with
    | false => rfl
    | true => rw [(hs hx).1] at hc; cases hc
  suffices h' : D.isClosed e.world.ctx.1.port.dest = true ∧ e.world.ctx.1.started = e0.world.ctx.1.started from
    ⟨h'.1, h'.2, hsrc _ e h h'.1⟩
  clear hsrc
  induction ops' using Rx.snoc_induction generalizing e with
  | nil =>
    rw [List.append_nil, h0] at h
    cases h
    exact ⟨hc, rfl⟩
  | snoc ops' op ih =>
    rw [← List.append_assoc] at h
    obtain ⟨e1, g1, g2⟩ := Rest.run_append _ op h
    obtain ⟨i1, i2⟩ := ih g1
    have dead : ∀ {y0 : Solo (subscribeOn D sync d)}, Solo.Reachable (c := subscribeOn D sync d) { port := { dest := s } } y0 →
        D.isClosed y0.st.port.dest = true → SubscribeOn.Dead D s d y0.clock y0.st := by
      intro y0 hy hc
      obtain ⟨a1, a2, a3⟩ := SubscribeOn.always (SubscribeOn.holds hD hy)
      refine ⟨hc, a1, a2, ?_⟩
      cases hx : y0.st.source with
      | false => rfl
      | true => rw [(a3 hx).1] at hc; cases hc
    have tk : ∀ t, e1.tickTo t = .ok e → D.isClosed e.world.ctx.1.port.dest = true ∧
        e.world.ctx.1.started = e0.world.ctx.1.started := by
      intro t ht
      obtain ⟨y0, y, k1, k2, k3, k4, k5, k6, k7, k8, k9, k10⟩ := solo_of_tick g1 ht
      rw [← k3] at i1 i2
      have hd := dead k1 i1
      have hcl : y0.clock ≤ (Solo.drain t { y0 with tick := some t, active := y0.active.map fun p => (p.1, false) }).clock := by
        show _ ≤ updateTick _ _
        rw [updateTick_max]; exact Nat.le_max_left ..
      obtain ⟨j1, j2⟩ := SubscribeOn.closed_inner hD k5 (by
        intro t' ht'
        cases ht'
        show _ ≤ updateTick _ _
        rw [updateTick_max]; omega) (SubscribeOn.mono.dead (c := subscribeOn D sync d) _ _ _ hcl hd)
      rw [← k9]
      exact ⟨j1.closed, j2.trans i2⟩
    cases op with
    | act a =>
      cases g2
      obtain ⟨y0, y, k1, k2, k3, k4, k5, k6, k7, k8⟩ := solo_of_act (a := a) g1
      dsimp only
      rw [← k6]
      rw [← k3] at i1 i2
      obtain ⟨j1, j2⟩ := SubscribeOn.closed_inner hD k5 (by rw [k2]; intro t ht; cases ht) (dead k1 i1)
      exact ⟨j1.closed, j2.trans i2⟩
    | tickTo t => exact tk t g2
    | tick t => exact tk _ g2

/-- C54. Apart from that, nothing is changed: what the source notifies is given at once and in order, and nothing else is.
What the destination has got is what the record says. -/
theorem C54_passed_on (hD : Closes D) (h : R.run (R.start { port := { dest := s } } x n) ops = .ok e) :
    Throughout (SubscribeOn.Allowed D s) e.world.ctx.1.port.trace ∧
    e.world.ctx.1.port.dest = fed D s e.world.ctx.1.port.trace := by
  obtain ⟨y, h1, h2, h3, h4⟩ := solo_of_run h
  rw [← h3]
  have := (SubscribeOn.always (SubscribeOn.holds hD h1)).1.fits
  exact ⟨this.all, this.right.fed⟩

/-! ### Concrete cases -/

/-- A source that gives two values when it is subscribed; later it gives one more, and is completed. -/
example : (after (c := subscribeOn obs [.next 1, .next 2] 3) { port := { dest := .new } }
    [.tickTo 2, .act (.input .subscribe), .tickTo 4, .act (.input (.note (.next 9))), .tickTo 7, .act (.input (.note (.next 3))),
     .tickTo 20, .act (.input (.note .complete))]).map (fun s => (s.port.trace, s.begun, s.started, s.source)) =
      some ([(.arrived (.next 1), 7), (.out (.next 1), 7), (.arrived (.next 2), 7), (.out (.next 2), 7),
        (.arrived (.next 3), 7), (.out (.next 3), 7), (.arrived .complete, 20), (.out .complete, 20)], some 2, [7], false) := by
  decide +kernel

/-- One that is unsubscribed in time. -/
example : (after (c := subscribeOn obs [.next 1, .next 2] 3) { port := { dest := .new } }
    [.act (.input .subscribe), .tickTo 2, .act (.input .close), .tickTo 20]).map
      (fun s => (s.port.trace, s.started, s.source)) = some ([(.closed, 2)], [], false) := by
  decide +kernel

/-- A source that completes while it is subscribed. -/
example : (after (c := subscribeOn obs [.next 1, .complete, .next 2] 0) { port := { dest := .new } }
    [.act (.input .subscribe), .tickTo 2]).map
      (fun s => (s.port.trace, s.started, s.source)) =
      some ([(.arrived (.next 1), 2), (.out (.next 1), 2), (.arrived .complete, 2), (.out .complete, 2),
        (.arrived (.next 2), 2)], [2], false) := by
  decide +kernel

end Rx.Timed.Props
