import Verif.Model.SchedulerClient
import Verif.Model.Signals

/-!
# EntityDestination, ResourceDestination

Models `crates/rx_bevy_common/src/observer/{entity,resource}_destination.rs` on the executor (`Verif.Model.SchedulerClient`).
Both are observers that schedule one immediate work for each notification; the work then looks whether its target (an entity, or
a resource) exists.

Simplifications, on top of those of `Verif.Model.SchedulerClient`: the target is part of the state, and everybody else sets it;
an event is triggered by a command (rx_bevy_context.rs:44-55), here it happens when the work is run: commands are applied in the
order in which they were queued. The clones of a `ResourceDestination` share writer, cancellation id and scheduler
(resource_destination.rs:13-27), so they are one destination.
-/

namespace Rx.Deliver
open Rx.Sched

variable {W T N : Type}

/-- What happens at a destination. -/
inductive Mark (T N : Type) where
  /-- it is notified -/
  | sent (n : N)
  /-- the work of a notification is run -/
  | ran (n : N)
  /-- somebody else inserts, changes, or removes the target -/
  | world (t : Option T)
deriving DecidableEq, Repr

/-- What can be done to it. -/
inductive Input (T N : Type) where
  | note (n : N)
  | world (t : Option T)

/-- resource_destination.rs:16-27, entity_destination.rs:23-35. The target, if it exists; what the writer captured (it is a
`FnMut`). Ghost: what happened, and when. -/
structure State (W T N : Type) where
  writer : W
  target : Option T
  trace : List (Mark T N × Nat) := []

/-- A destination that writes by `write`. A closure is the notification it captured. -/
@[reducible] def destination (write : W → T → N → W × T) : Client where
  St := State W T N
  B := N
  In := Input T N
  -- resource_destination.rs:60-66, 76-82, 91-97; entity_destination.rs:60-67, 77-84, 94-101
  exec n _ now s :=
    let trace := s.trace ++ [(.ran n, now)]
    match s.target with
    | some t => (n, { writer := (write s.writer t n).1, target := some (write s.writer t n).2, trace := trace }, [], .done)
    | none => (n, { s with trace := trace }, [], .done)
  input i now s :=
    match i with
    -- resource_destination.rs:57-99, entity_destination.rs:57-103
    | .note n => ({ s with trace := s.trace ++ [(.sent n, now)] }, [.schedule (.newImmediate n)])
    | .world t => ({ s with target := t, trace := s.trace ++ [(.world t, now)] }, [])

/-- `ResourceDestination`: the writer gets the resource and the notification. -/
@[reducible] def resourceDestination {R I E : Type} (writer : W → R → ObserverNotification I E → W × R) : Client :=
  destination writer

/-- `EntityDestination`: the events that were triggered on the entity (`RxSignal`, notification_event_observer.rs:7-17). -/
@[reducible] def entityDestination (I E : Type) : Client :=
  destination (W := Unit) (T := List (ObserverNotification I E)) fun _ seen n => ((), seen ++ [n])

end Rx.Deliver
