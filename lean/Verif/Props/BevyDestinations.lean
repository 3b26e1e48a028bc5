import Verif.Lemmas.BevyDestinations

/-!
# C66: EntityDestination, ResourceDestination

`R` is the rest of the program, with its own works on the same executor, which notify the destination and change the world, also
in the middle of a tick. `write` is the writer of the resource, or the triggering of events on the entity.
-/

namespace Rx.Deliver.Props
open Rx.Sched

variable {W T N : Type} {write : W → T → N → W × T} {w : W} {target : Option T} {R : Rest (destination write)} {x : R.Ctx}
  {fuel t : Nat} {ops : List R.Op} {e0 e : Exec R.env}

/-- C66. Notifications come to their turn in the order in which they were sent, none twice, none is skipped. -/
theorem C66_order (h : R.run (R.start ⟨w, target, []⟩ x fuel) ops = .ok e) :
    ran e.world.ctx.1.trace <+: sent e.world.ctx.1.trace := by
  obtain ⟨s, k1, _, k3, _⟩ := solo_of_run h
  obtain ⟨act, q, hi⟩ := Inv.reach k1
  rw [← k3, hi.pending, List.append_assoc]
  exact List.prefix_append ..

/-- C66. After a tick, the turn of everything that was sent has come: also of what was sent during the tick. -/
theorem C66_prompt (h0 : R.run (R.start ⟨w, target, []⟩ x fuel) ops = .ok e0) (h1 : e0.tickTo t = .ok e) :
    ran e.world.ctx.1.trace = sent e.world.ctx.1.trace := by
  obtain ⟨s0, y, k1, k2, _, _, k5, _, k7, k8, k9, _⟩ := solo_of_tick h0 h1
  obtain ⟨act, q, hi⟩ := Inv.steps (k5.steps) (Inv.step (.start s0 t k2) (Inv.reach k1))
  have hq : q = [] := by
    have := hi.queue
    rw [k8] at this
    simpa using this.symm
  have ha : act = [] := by
    cases act with
    | nil => rfl
    | cons b act =>
      have := k7 (.immediate (some b), false) (by rw [hi.active]; simp)
      cases this
  rw [← k9, hi.pending, ha, hq]
  simp

/-- C66. Between ticks nothing happens to writer and target: notifying the destination only notes what was sent. -/
theorem C66_between (n : N) (y : World R.env) :
    (R.act (.input (.note n)) y).ctx.1 = { y.ctx.1 with trace := y.ctx.1.trace ++ [(.sent n, y.sched.currentTick)] } :=
  Rest.act_input_st _ _

/-- C66. Writer and target are what their history makes of them: a notification whose turn has come is written if the target
exists at that time, and does nothing otherwise. -/
theorem C66_outcome (h : R.run (R.start ⟨w, target, []⟩ x fuel) ops = .ok e) :
    (e.world.ctx.1.writer, e.world.ctx.1.target) = outcome write (w, target) e.world.ctx.1.trace := by
  obtain ⟨s, k1, _, k3, _⟩ := solo_of_run h
  rw [← k3]
  exact (Solo.Stable.reach ⟨(told_stable (w, target)).mono, fun b t now s _ => (told_stable (w, target)).exec b t now s trivial,
    (told_stable (w, target)).input⟩ (P := fun now s => Told write (w, target) now s) ⟨rfl, .nil, fun _ h => by cases h⟩ k1).outcome.symm

/-- C66. The timeline is in order of time. -/
theorem C66_time (h : R.run (R.start ⟨w, target, []⟩ x fuel) ops = .ok e) :
    e.world.ctx.1.trace.Pairwise fun a b => a.2 ≤ b.2 := by
  obtain ⟨s, k1, _, k3, _⟩ := solo_of_run h
  rw [← k3]
  exact (Solo.Stable.reach ⟨(told_stable (w, target)).mono, fun b t now s _ => (told_stable (w, target)).exec b t now s trivial,
    (told_stable (w, target)).input⟩ (P := fun now s => Told write (w, target) now s) ⟨rfl, .nil, fun _ h => by cases h⟩ k1).sorted

/-- C66. What was handled is what was sent, in order, without what came to its turn when there was no target. -/
theorem C66_handled (h : R.run (R.start ⟨w, target, []⟩ x fuel) ops = .ok e) :
    (handled target.isSome e.world.ctx.1.trace).Sublist (sent e.world.ctx.1.trace) :=
  (handled_sublist _ _).trans (C66_order h).sublist

/-- C66. If the target is never removed, then after a tick everything that was sent has been handled. -/
theorem C66_handled_all (ht : target.isSome = true) (h0 : R.run (R.start ⟨w, target, []⟩ x fuel) ops = .ok e0)
    (h1 : e0.tickTo t = .ok e) (hw : ∀ k, (.world none, k) ∉ e.world.ctx.1.trace) :
    handled target.isSome e.world.ctx.1.trace = sent e.world.ctx.1.trace := by
  rw [ht, handled_all _ hw, C66_prompt h0 h1]

/-- C66, ResourceDestination. If nobody else writes the resource, then after a tick it is what the writer has made of it, called
once for each notification, in order. -/
theorem C66_resource {Res I E : Type} {writer : W → Res → ObserverNotification I E → W × Res} {r : Res}
    {R : Rest (resourceDestination writer)} {x : R.Ctx} {ops : List R.Op} {e0 e : Exec R.env}
    (h0 : R.run (R.start ⟨w, some r, []⟩ x fuel) ops = .ok e0) (h1 : e0.tickTo t = .ok e)
    (hw : ∀ u k, (.world u, k) ∉ e.world.ctx.1.trace) :
    e.world.ctx.1.target = some ((sent e.world.ctx.1.trace).foldl (fun x n => writer x.1 x.2 n) (w, r)).2 := by
  have hr : R.run (R.start ⟨w, some r, []⟩ x fuel) (ops ++ [.tickTo t]) = .ok e := by
    rw [Rest.run_snoc, h0]; exact h1
  have := C66_outcome hr
  rw [outcome_alone _ _ _ hw, C66_prompt h0 h1] at this
  exact (Prod.mk.inj this).2

/-- C66, EntityDestination. As long as the entity exists, it has got, after a tick, exactly what was sent, in order. (An entity
that was despawned does not come back.) -/
theorem C66_entity {I E : Type} {R : Rest (entityDestination I E)} {x : R.Ctx} {ops : List R.Op} {e0 e : Exec R.env}
    (h0 : R.run (R.start ⟨(), some [], []⟩ x fuel) ops = .ok e0) (h1 : e0.tickTo t = .ok e)
    (hw : ∀ u k, (.world (some u), k) ∉ e.world.ctx.1.trace) {seen : List (ObserverNotification I E)}
    (hs : e.world.ctx.1.target = some seen) : seen = sent e.world.ctx.1.trace := by
  have hr : R.run (R.start ⟨(), some [], []⟩ x fuel) (ops ++ [.tickTo t]) = .ok e := by
    rw [Rest.run_snoc, h0]; exact h1
  have := (Prod.mk.inj (C66_outcome hr)).2
  rw [← C66_prompt h0 h1]
  rw [hs] at this
  rcases (outcome_entity [] _ hw).2 with h2 | h2
  · cases this.trans h2
  · cases this.trans h2; simp

/-- C66. Nothing is left on the executor after a tick. -/
theorem C66_released (h0 : R.run (R.start ⟨w, target, []⟩ x fuel) ops = .ok e0) (h : e0.tickTo t = .ok e) : Released R e :=
  (quits write t).released (kinds write) h0 h trivial id

/-! ### Concrete cases -/

/-- The rest of the program: a work that sends 7, then is done. -/
def sender (write : W → T → Nat → W × T) : Rest (destination write) where
  Ctx := Unit
  B := Unit
  exec b _ _ x _ := (b, x, [.input (.note 7)], .done)
  react _ _ x _ := (x, [])

/-- A resource that is the sum, and a writer that counts its calls. -/
abbrev sum : Nat → Nat → Nat → Nat × Nat := fun w r n => (w + 1, r + n)

def after (target : Option Nat) (ops : List (sender sum).Op) : Option (State Nat Nat Nat) :=
  match (sender sum).run ((sender sum).start ⟨0, target, []⟩ () 10) ops with
  | .ok e => some e.world.ctx.1
  | _ => none

/-- Sent before the tick, and during the tick. -/
example : (after (some 1) [.act (.input (.note 2)), .act (.call (.scheduleWork (.newImmediate ()) 5)), .tickTo 3]).map
      (fun s => (s.writer, s.target)) = some (2, some 10) ∧
    (after (some 1) [.act (.input (.note 2)), .act (.call (.scheduleWork (.newImmediate ()) 5)), .tickTo 3]).map (·.trace) =
    some [(.sent 2, 0), (.ran 2, 3), (.sent 7, 3), (.ran 7, 3)] := by decide +kernel

/-- The resource is missing for a while. -/
example : (after none [.act (.input (.note 2)), .tickTo 1, .act (.input (.world (some 5))), .act (.input (.note 3)), .tickTo 2]).map
      (fun s => (s.writer, s.target, handled false s.trace)) = some (1, some 8, [3]) := by decide +kernel

end Rx.Deliver.Props
