import Verif.Lemmas.ReleasedSources
import Verif.Props.Timed

/-!
# C65: no work is left behind

`R` is the rest of the program, with its own works on the same executor; `e0` is any state that a history leads to, and `e` is the
executor after one more tick. `Released R e` says that the executor holds no work of the operator (or source).
-/

namespace Rx.Timed.Props
open Rx.Sched Rx.Timed
open Rx.HigherOrder (Patient)

variable {S I O E : Type} {s : S} {d t fuel : Nat}

/-! ### The ones that cancel their work when the destination closes -/

/-- C65, interval: once its destination is closed, whoever closed it, the executor holds nothing of it at the end of the tick. -/
theorem C65_interval {D : Sub S Nat E} {start : Bool} {max : Nat} {R : Rest (interval D d start max)} {x : R.Ctx} {ops : List R.Op}
    {e0 e : Exec R.env} (h0 : R.run (R.start { port := { dest := s } } x fuel) ops = .ok e0) (h : e0.tickTo t = .ok e)
    (hc : D.isClosed e.world.ctx.1.port.dest = true) : Released R e :=
  interval_tidy.released trivial h0 h (.inl hc)

/-- C65, subscribe_on. -/
theorem C65_subscribe_on {D : Sub S I E} {sync : List (SubscriberNotification I E)} {R : Rest (subscribeOn D sync d)} {x : R.Ctx}
    {ops : List R.Op} {e0 e : Exec R.env} (h0 : R.run (R.start { port := { dest := s } } x fuel) ops = .ok e0)
    (h : e0.tickTo t = .ok e) (hc : D.isClosed e.world.ctx.1.port.dest = true) : Released R e :=
  subscribeOn_tidy.released trivial h0 h (.inl hc)

/-- C65, the sources that look at the world of Bevy (ResourceObservable, KeyboardObservable, MessageObservable). -/
theorem C65_bevy_sources {D : Sub S O E} {P : Poll.Poll O} {R : Rest (Poll.poll D P)} {x : R.Ctx} {ops : List R.Op}
    {e0 e : Exec R.env} (h0 : R.run (R.start { port := { dest := s } } x fuel) ops = .ok e0) (h : e0.tickTo t = .ok e)
    (hc : D.isClosed e.world.ctx.1.port.dest = true) : Released R e :=
  Poll.poll_tidy.released trivial h0 h (.inl hc)

/-- C65, delay, for an upstream that sends no values once the destination is closed. -/
theorem C65_delay {D : Sub S I E} {R : Rest (delay D d)} {x : R.Ctx} {ops : List R.Op} {e0 e : Exec R.env}
    (h0 : R.run (R.start { port := { dest := s } } x fuel) ops = .ok e0) (h : e0.tickTo t = .ok e)
    (hc : D.isClosed e.world.ctx.1.port.dest = true) (hu : Throughout (Considerate D s) e.world.ctx.1.port.trace) :
    Released R e := (delay_tidy (s0 := s)).released rfl h0 h ⟨hc, hu⟩

/-- C65, delay, for any upstream: work is kept only for values that are not due yet. -/
theorem C65_delay_due {D : Sub S I E} {R : Rest (delay D d)} {x : R.Ctx} {ops : List R.Op} {e0 e : Exec R.env}
    (h0 : R.run (R.start { port := { dest := s } } x fuel) ops = .ok e0) (h : e0.tickTo t = .ok e)
    (hd : ∀ a ∈ arrivals e.world.ctx.1.port.trace, a.2 + d ≤ t) : Released R e :=
  (delay_quits D d t).released (delay_kinds D d) h0 h trivial fun ⟨p, hp, hlt⟩ => by
    have := hd p hp
    omega

/-- C65, debounce_time. -/
theorem C65_debounce {D : Sub S I E} {R : Rest (debounce D d)} {x : R.Ctx} {ops : List R.Op} {e0 e : Exec R.env}
    (h0 : R.run (R.start { port := { dest := s } } x fuel) ops = .ok e0) (h : e0.tickTo t = .ok e)
    (hc : D.isClosed e.world.ctx.1.port.dest = true) (hu : Throughout (Considerate D s) e.world.ctx.1.port.trace) :
    Released R e := (debounce_tidy (s0 := s)).released rfl h0 h ⟨hc, hu⟩

/-- C65, debounce_time, for any upstream. -/
theorem C65_debounce_due {D : Sub S I E} {R : Rest (debounce D d)} {x : R.Ctx} {ops : List R.Op} {e0 e : Exec R.env}
    (h0 : R.run (R.start { port := { dest := s } } x fuel) ops = .ok e0) (h : e0.tickTo t = .ok e)
    (hd : ∀ a ∈ arrivals e.world.ctx.1.port.trace, a.2 + d ≤ t) : Released R e :=
  (debounce_quits D d t).released (debounce_kinds D d) h0 h trivial fun ⟨p, hp, hlt⟩ => by
    have := hd p hp
    omega

/-! ### The ones whose work finds out -/

/-- C65, observe_on: at the end of a tick it has no work at all. -/
theorem C65_observe_on {D : Sub S I E} {R : Rest (observeOn D)} {x : R.Ctx} {ops : List R.Op} {e0 e : Exec R.env}
    (h0 : R.run (R.start { port := { dest := s } } x fuel) ops = .ok e0) (h : e0.tickTo t = .ok e) : Released R e :=
  (observeOn_quits D t).released (observeOn_kinds D) h0 h trivial id

/-- C65, iterator_on_tick: if the destination was closed before the tick. -/
theorem C65_iterator {D : Sub S O E} {f : Nat → Option O} {n : Nat} {start : Bool} {R : Rest (iteratorOnTick D f n start)}
    {x : R.Ctx} {ops : List R.Op} {e0 e : Exec R.env} (h0 : R.run (R.start { port := { dest := s } } x fuel) ops = .ok e0)
    (h : e0.tickTo t = .ok e) (hc : D.isClosed e0.world.ctx.1.port.dest = true) : Released R e :=
  (iterator_quits D f n start t).released (iterator_kinds D f n start) h0 h hc id

open Rx.Adsr in
/-- C65, adsr: if the destination was closed before the tick. -/
theorem C65_adsr {N : Num} {D : Sub S (Signal N) E} {o : Adsr.Options} {st : (adsr D o).St} {R : Rest (adsr D o)} {x : R.Ctx}
    {ops : List R.Op} {e0 e : Exec R.env} (h0 : R.run (R.start st x fuel) ops = .ok e0)
    (h : e0.tickTo t = .ok e) (hc : D.isClosed e0.world.ctx.1.port.dest = true) : Released R e :=
  (adsr_quits D o t).released (adsr_kinds D o) h0 h hc id

/-! ### timer -/

/-- C65, timer: if its subscription was unsubscribed. -/
theorem C65_timer_partial {D : Sub S Unit E} {R : Rest (timer D d)} {x : R.Ctx} {ops : List R.Op} {e0 e : Exec R.env}
    (h0 : R.run (R.start { port := { dest := s } } x fuel) ops = .ok e0) (h : e0.tickTo t = .ok e)
    (hu : Arrived .unsubscribe e.world.ctx.1.port.trace) : Released R e :=
  timer_tidy.released ⟨fun h => by simp at h, fun _ ⟨k, hk⟩ => by cases hk⟩ h0 h hu

/-- C65, timer: in any case once it is due. -/
theorem C65_timer_due {D : Sub S Unit E} {R : Rest (timer D d)} {x : R.Ctx} {ops : List R.Op} {e0 e : Exec R.env}
    (h0 : R.run (R.start { port := { dest := s } } x fuel) ops = .ok e0) (h : e0.tickTo t = .ok e)
    (hd : ∀ b, e.world.ctx.1.begun = some b → b + d ≤ t) : Released R e :=
  (timer_quits D d t).released (timer_kinds D d) h0 h trivial fun ⟨b, hb, hlt⟩ => by
    have := hd b hb
    omega

/-! ### throttle_time -/

/-- C65, throttle_time, for an upstream that sends no values once the destination is closed, if the destination does not close on
a leading value. -/
theorem C65_throttle_partial {D : Sub S I E} {o : Throttle.Output} {R : Rest (throttle D o d)} {x : R.Ctx} {ops : List R.Op}
    {e0 e : Exec R.env} (hp : o = .trailingOnly ∨ Patient D)
    (h0 : R.run (R.start { port := { dest := s } } x fuel) ops = .ok e0) (h : e0.tickTo t = .ok e)
    (hc : D.isClosed e.world.ctx.1.port.dest = true) (hu : Throughout (Considerate D s) e.world.ctx.1.port.trace) :
    Released R e :=
  (Throttle.tidy (s0 := s) (hp.imp (fun h => by rw [h]; rfl) id)).released rfl h0 h ⟨hc, hu⟩

/-- C65, throttle_time, in any case: if the destination was closed before the tick, and no value arrived less than `d` ago. -/
theorem C65_throttle_due {D : Sub S I E} {o : Throttle.Output} {R : Rest (throttle D o d)} {x : R.Ctx} {ops : List R.Op}
    {e0 e : Exec R.env} (h0 : R.run (R.start { port := { dest := s } } x fuel) ops = .ok e0) (h : e0.tickTo t = .ok e)
    (hc : D.isClosed e0.world.ctx.1.port.dest = true) (hd : ∀ a ∈ arrivals e.world.ctx.1.port.trace, a.2 + d ≤ t) :
    Released R e := by
  refine (Throttle.quits D o d t).released (Throttle.kinds D o d) h0 h ⟨hc, ?_⟩ fun ⟨p, hp, hlt⟩ => by
    have := hd p hp
    omega
  obtain ⟨y, k1, k2, k3, k4⟩ := solo_of_run h0
  rw [← k3, ← k4]
  exact (Throttle.windowed_stable.reach ⟨Nat.le_refl _, fun dl h => by cases h⟩ k1).mono (Nat.le_max_left ..)

/-! ### fallback_when_silent -/

/-- C65, fallback_when_silent: once upstream has ended, or was unsubscribed. -/
theorem C65_fallback_partial {D : Sub S I E} {fb : Nat → Nat → I} {R : Rest (fallback D fb)} {x : R.Ctx} {ops : List R.Op}
    {e0 e : Exec R.env} (h0 : R.run (R.start { port := { dest := s } } x fuel) ops = .ok e0) (h : e0.tickTo t = .ok e)
    {n : SubscriberNotification I E} (hn : Final n) (hu : Arrived n e.world.ctx.1.port.trace) : Released R e :=
  fallback_tidy.released (fun ⟨n, _, k, hk⟩ => by cases hk) h0 h ⟨n, hn, hu⟩

/-- The full claim of C65 fails for fallback_when_silent: until upstream has ended, its work is never released, though the
destination may be closed for any time. -/
theorem C65_fallback_kept {D : Sub S I E} {fb : Nat → Nat → I} {R : Rest (fallback D fb)} {x : R.Ctx} {ops : List R.Op}
    {e0 e : Exec R.env} (h0 : R.run (R.start { port := { dest := s } } x fuel) ops = .ok e0) (h : e0.tickTo t = .ok e)
    (hb : e.world.ctx.1.begun.isSome = true) (hu : ∀ n, Final n → ¬ Arrived n e.world.ctx.1.port.trace) : ¬ Released R e := by
  obtain ⟨k1, k2⟩ := EView.start R { port := { dest := s } } x fuel
  obtain ⟨s0, l1, l2, l3, l4⟩ := EView.run ops k1 rfl k2 h0
  obtain ⟨y, m1, m2, m3, m4, m5, _⟩ := l3.tickTo l4 h
  have hk : FallbackKept y := FallbackKept.steps ⟨fun h => (by cases h), fun _ => ⟨rfl, rfl⟩⟩
    ((l1.trans (Solo.Steps.one (.start s0 t l2))).trans m1.steps)
  have hst : e.world.ctx.1 = y.st := m5.world.st
  rw [hst] at hb hu
  refine m5.not_released ?_
  rcases hk.kept hb (fun ⟨n, hn, ha⟩ => hu n hn ha) with ⟨l, b, f, g1, g2⟩ | ⟨l, b, g1, g2⟩
  · dsimp only; rw [g1]; simp
  · rw [m4] at g2; cases g2

/-! ### Concrete cases -/

/-- Whether the operator's destination is closed after a history, and how many active works are under its cancellation id. -/
def heldAfter {c : Client} (closed : c.St → Bool) (st : c.St) (ops : List (feeder c).Op) : Option (Bool × Nat) :=
  match (feeder c).run ((feeder c).start st () 10) ops with
  | .ok e => some (closed e.world.ctx.1, (e.active.filter fun p => (e.cancellationMap ownCid).contains p.1).length)
  | _ => none

theorem heldAfter_some {c : Client} {closed : c.St → Bool} {st : c.St} {ops : List (feeder c).Op} {b : Bool} {n : Nat}
    (h : heldAfter closed st ops = some (b, n + 1)) :
    ∃ e, (feeder c).run ((feeder c).start st () 10) ops = .ok e ∧ closed e.world.ctx.1 = b ∧ ¬ Released (feeder c) e := by
  unfold heldAfter at h
  split at h
  · rename_i e he
    simp only [Option.some.injEq, Prod.mk.injEq] at h
    refine ⟨e, he, h.1, fun hr => ?_⟩
    cases hl : e.active.filter fun p => (e.cancellationMap ownCid).contains p.1 with
    | nil => rw [hl] at h; cases h.2
    | cons p l =>
      have hp : p ∈ e.active.filter fun p => (e.cancellationMap ownCid).contains p.1 := by rw [hl]; simp
      rw [List.mem_filter] at hp
      exact (hr.active p hp.1).1 (by simpa using hp.2)
  · cases h

/-- A destination that closes on the first value. -/
abbrev once : Sub Bool Nat Nat where
  next _ _ := true
  error _ _ := true
  complete _ := true
  unsubscribe _ := true
  isClosed b := b
  addTeardown b _ := b

/-- The full claim of C65 fails for throttle_time, if the destination closes on a leading value: the work is scheduled after it
was cancelled, and stays until the end of the window. -/
theorem C65_throttle_kept : ∃ e, (feeder (throttle once .leadingAndTrailing 5)).run
      ((feeder (throttle once .leadingAndTrailing 5)).start { port := { dest := false } } () 10)
      [.act (.input (.note (.next 1))), .tickTo 1, .tickTo 4] = .ok e ∧
    once.isClosed e.world.ctx.1.port.dest = true ∧ ¬ Released _ e := by
  refine heldAfter_some (c := throttle once .leadingAndTrailing 5) (closed := fun s => once.isClosed s.port.dest) (n := 0) ?_
  decide +kernel

example : heldAfter (c := throttle once .leadingAndTrailing 5) (fun s => once.isClosed s.port.dest) { port := { dest := false } }
    [.act (.input (.note (.next 1))), .tickTo 1, .tickTo 5] = some (true, 0) := by decide +kernel

/-- The full claim of C65 fails for timer, if the destination is closed by somebody else: the work stays until it is due. -/
theorem C65_timer_kept : ∃ e, (feeder (timer (observerSubscriber Unit Nat) 5)).run
      ((feeder (timer (observerSubscriber Unit Nat) 5)).start { port := { dest := .new } } () 10)
      [.act (.input .subscribe), .act (.input .close), .tickTo 1, .tickTo 4] = .ok e ∧
    (observerSubscriber Unit Nat).isClosed e.world.ctx.1.port.dest = true ∧ ¬ Released _ e := by
  refine heldAfter_some (c := timer (observerSubscriber Unit Nat) 5)
    (closed := fun s => (observerSubscriber Unit Nat).isClosed s.port.dest) (n := 0) ?_
  decide +kernel

/-- The full claim of C65 fails for delay, if a value arrives when the destination is closed: the work stays until it is due. -/
theorem C65_delay_kept : ∃ e, (feeder (delay obs 5)).run ((feeder (delay obs 5)).start { port := { dest := .new } } () 10)
      [.act (.input .close), .act (.input (.note (.next 1))), .tickTo 1, .tickTo 4] = .ok e ∧
    obs.isClosed e.world.ctx.1.port.dest = true ∧ ¬ Released _ e := by
  refine heldAfter_some (c := delay obs 5) (closed := fun s => obs.isClosed s.port.dest) (n := 0) ?_
  decide +kernel

/-- Work is held, and released when the destination closes, for each of the others. -/
example : heldAfter (c := interval obs 2 false 1) (fun s => obs.isClosed s.port.dest) { port := { dest := .new } }
      [.act (.input .subscribe), .tickTo 1] = some (false, 1) ∧
    heldAfter (c := interval obs 2 false 1) (fun s => obs.isClosed s.port.dest) { port := { dest := .new } }
      [.act (.input .subscribe), .tickTo 1, .act (.input .close), .tickTo 2] = some (true, 0) := by decide +kernel

example : heldAfter (c := interval once 2 false 1) (fun s => once.isClosed s.port.dest) { port := { dest := false } }
    [.act (.input .subscribe), .tickTo 1, .tickTo 2] = some (true, 0) := by decide +kernel

example : heldAfter (c := delay obs 5) (fun s => obs.isClosed s.port.dest) { port := { dest := .new } }
      [.act (.input (.note (.next 1))), .tickTo 1] = some (false, 1) ∧
    heldAfter (c := delay obs 5) (fun s => obs.isClosed s.port.dest) { port := { dest := .new } }
      [.act (.input (.note (.next 1))), .tickTo 1, .act (.input (.note (.error 1))), .tickTo 2] = some (true, 0) := by
  decide +kernel

example : heldAfter (c := iteratorOnTick obs (fun i => some i) 2 false) (fun s => obs.isClosed s.port.dest)
      { port := { dest := .new } } [.act (.input .subscribe), .tickTo 1] = some (false, 1) ∧
    heldAfter (c := iteratorOnTick obs (fun i => some i) 2 false) (fun s => obs.isClosed s.port.dest)
      { port := { dest := .new } } [.act (.input .subscribe), .tickTo 1, .act (.input .close), .tickTo 2] = some (true, 0) := by
  decide +kernel

/-- The destination of fallback_when_silent is closed, its work stays. -/
example : heldAfter (c := fallback obs (fun _ i => i)) (fun s => obs.isClosed s.port.dest) { port := { dest := .new } }
    [.act (.input .subscribe), .act (.input .close), .tickTo 1, .tickTo 2, .tickTo 3] = some (true, 1) := by decide +kernel

end Rx.Timed.Props
