import Verif.Lemmas.TimedFallback
import Verif.Props.IntervalTimer

/-!
# C51: fallback_when_silent

See `Verif.Props.Timed` for what a history is. `recent τ` is what arrived since the last value was given; as a value is given
in each tick, that is what arrived since the operator had its turn in the previous tick.
-/

namespace Rx.Timed.Props
open Rx.Sched Rx.Timed
open Rx.HigherOrder (Closes Patient)

variable {S I E : Type} {s : S} {D : Sub S I E} {fb : (tick index : Nat) → I}
  {R : Rest (fallback D fb)} {x : R.Ctx} {n : Nat} {ops : List R.Op} {e0 e : Exec R.env}

/-- C51. Whatever happens: a value given is the newest that arrived since the last was given, or, if none did, the fallback for
its index; an end is given when it arrives, and at once. What the destination has got is what the record says. -/
theorem C51_allowed (hD : Closes D) (h : R.run (R.start { port := { dest := s } } x n) ops = .ok e) :
    Throughout (Fallback.Allowed D s fb) e.world.ctx.1.port.trace ∧
    e.world.ctx.1.port.dest = fed D s e.world.ctx.1.port.trace := by
  obtain ⟨y, h1, h2, h3, h4⟩ := solo_of_run h
  rw [← h3]
  have := (Fallback.always (Fallback.holds hD h1)).fits
  exact ⟨this.all, this.right.fed⟩

/-- C51. In each tick `t` after the subscription exactly one value is given, if the destination is still open at its end: the
newest that arrived since the last one, or, if none did, the fallback. -/
theorem C51_tick (hD : Closes D) (h0 : R.run (R.start { port := { dest := s } } x n) ops = .ok e0) {t : Nat}
    (h1 : e0.tickTo t = .ok e) (hb : e0.world.ctx.1.begun.isSome = true)
    (ho : D.isClosed e.world.ctx.1.port.dest = false) :
    ∃ past v rest, e.world.ctx.1.port.trace = past ++ (.out (.next v), e.world.sched.currentTick) :: rest ∧
      outs past = outs e0.world.ctx.1.port.trace ∧ outs rest = [] ∧
      ((recent past).getLast? = some v ∨ (recent past = [] ∧ v = fb t (outs past).length)) := by
  obtain ⟨s0, y, k1, k2, k3, k4, k5, k6, k7, k8, k9, k10⟩ := solo_of_tick h0 h1
  rw [← k3] at hb
  rw [← k9] at ho
  rw [← k3, ← k9, ← k10]
  rcases Fallback.tick hD k1 k2 k5 k7 k8 hb with ⟨h, _⟩ | ⟨_, h⟩
  · rw [h] at ho; cases ho
  · exact h

/-- C51. If the destination is closed at its end, by the value or otherwise, not more than one is given. -/
theorem C51_at_most_one (hD : Closes D) (h0 : R.run (R.start { port := { dest := s } } x n) ops = .ok e0) {t : Nat}
    (h1 : e0.tickTo t = .ok e) (hb : e0.world.ctx.1.begun.isSome = true) :
    (outs e.world.ctx.1.port.trace).length ≤ (outs e0.world.ctx.1.port.trace).length + 1 := by
  obtain ⟨s0, y, k1, k2, k3, k4, k5, k6, k7, k8, k9, k10⟩ := solo_of_tick h0 h1
  rw [← k3] at hb
  rw [← k3, ← k9]
  rcases Fallback.tick hD k1 k2 k5 k7 k8 hb with ⟨_, h⟩ | ⟨_, h⟩
  · exact h _ rfl
  · exact Nat.le_of_eq h.count

/-- C51. Between ticks, no value is given, whatever arrives. -/
theorem C51_between (h0 : R.run (R.start { port := { dest := s } } x n) ops = .ok e0) (a : Act (fallback D fb) R.B) :
    outs (R.act a e0.world).ctx.1.port.trace = outs e0.world.ctx.1.port.trace := by
  obtain ⟨y0, y, k1, k2, k3, k4, k5, k6, k7, k8⟩ := solo_of_act (a := a) h0
  rw [← k3, ← k6]
  exact (Fallback.between k5 k2).outs

/-! ### Concrete cases -/

/-- Values of which some come in the same tick, silence, and values from inside a tick, before and after the turn of the
operator. -/
example : (after (c := fallback obs fun t i => 100 * t + i) { port := { dest := .new } }
    [.act (.input (.note (.next 9))), .act (.input .subscribe), .act (.input (.note (.next 1))), .tickTo 1, .tickTo 2,
     .act (.input (.note (.next 2))), .act (.input (.note (.next 3))), .tickTo 3, .tickTo 3,
     .act (.call (.scheduleWork (.newImmediate [.note (.next 4)]) 7)), .tickTo 5, .tickTo 6,
     .act (.input (.note .complete)), .tickTo 7]).map (fun s => (s.port.trace)) =
      some ([(.arrived (.next 1), 0), (.out (.next 1), 1), (.out (.next 201), 2), (.arrived (.next 2), 2),
        (.arrived (.next 3), 2), (.out (.next 3), 3), (.out (.next 303), 3), (.out (.next 504), 5), (.arrived (.next 4), 5),
        (.out (.next 4), 6), (.arrived .complete, 6), (.out .complete, 6)]) := by
  decide +kernel

/-- The value that arrived since the last tick is lost when the source completes: completion is given at once. -/
theorem C51_lost_at_completion : (after (c := fallback obs fun _ _ => 0) { port := { dest := .new } }
    [.act (.input .subscribe), .tickTo 1, .act (.input (.note (.next 5))), .act (.input (.note .complete)), .tickTo 2]).map
      (fun s => s.port.dest.seen) = some [.next 0, .complete] := by
  decide +kernel

end Rx.Timed.Props
