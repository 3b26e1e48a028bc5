import Verif.Model.CachingSubjects
import Verif.Model.SubjectThreads

/-!
# Subjects that remember values, used by several threads

Models `crates/rx_core_subject_behavior/src/behavior_subject.rs` and
`crates/rx_core_subject_replay/src/replay_subject.rs`, over the publish subject of `Verif.Model.SubjectThreads`
(`Crowd`). The mutex of what is remembered is only held within a step (behavior_subject.rs:65, 100,
replay_subject.rs:65, 101); it never waits for anything.

Simplifications.
* The same as in `Verif.Model.SubjectThreads`; in particular subscribers do not call back, also not while values
  are replayed to them (C29 and C30 are about that).
* What a thread does on its own is put together with the next step it takes on something shared: `next` writes the
  value and begins `next` of the publish subject in one step; `subscribe`, which asks first whether there was an
  error, copies the values, replays them to the new subscriber, which nobody else knows of yet, and begins `subscribe`
  of the publish subject in one step.
-/

namespace Rx.Keeping

open Closing (Dest)
open Caching (Memory)

/-- What can be seen: what can be seen of the publish subject; that `subscribe` is called; that the new subscriber
`i` is called with a remembered value; and what `value` or `values` answers. -/
inductive Mark (I E : Type) where
  | core (m : Crowd.Mark I E)
  | enter (t : Nat)
  | replay (i : Nat) (v : I)
  | read (t : Nat) (vs : List I)
deriving DecidableEq

/-- A publish subject and what is remembered next to it, behavior_subject.rs:18-26, replay_subject.rs:18-27. -/
structure State (V S I E : Type) where
  core : Crowd.State S I E
  memory : V
  /-- threads inside `subscribe` that have found no error, and are about to copy the values -/
  asked : Nat → Bool := fun _ => false
  trace : List (Mark I E) := []

/-- What a thread does next, as for a publish subject; or it asks for the remembered values. -/
inductive Turn (I E : Type) where
  | core (a : Crowd.Turn I E)
  | read
deriving DecidableEq

variable {V S I E : Type}

/-- The publish subject moves on; what can be seen of that is seen. -/
def State.moves (x : State V S I E) (y : Crowd.State S I E) : State V S I E :=
  { x with core := y, trace := x.trace ++ (y.trace.drop x.core.trace.length).map .core }

variable (M : Memory V I) (D : Dest S I E) (debug : Bool)

/-- The values are given to the subscriber that the next call of `subscribe` will bring along,
behavior_subject.rs:101, replay_subject.rs:103-105. -/
def State.replay (x : State V S I E) (vs : List I) : State V S I E :=
  { x with
    core := { x.core with dests := fun i =>
      if i = x.core.calls then vs.foldl (fun s v => D.push s (.next v)) (x.core.dests i) else x.core.dests i }
    trace := x.trace ++ vs.map (.replay x.core.calls) }

/-- The publish subject takes a turn of thread `t`. -/
def State.turn (x : State V S I E) (t : Nat) (a : Crowd.Turn I E) : State V S I E :=
  x.moves (Crowd.step D debug x.core t a)

/-- One turn of thread `t`. -/
def step (x : State V S I E) (t : Nat) (a : Turn I E) : State V S I E :=
  if x.asked t then
    -- `subscribe`, behavior_subject.rs:100-104, replay_subject.rs:101-108
    State.turn D debug (({ x with asked := fun u => if u = t then false else x.asked u }).replay D (M.read x.memory))
      t (.call .subscribe)
  else if (x.core.pc t).isIdle then
    match a with
    -- `next`, behavior_subject.rs:64-67, replay_subject.rs:64-68
    | .core (.call (.next v)) =>
      State.turn D debug { x with memory := M.write x.memory v } t (.call (.next v))
    -- `subscribe`, behavior_subject.rs:99, replay_subject.rs:100
    | .core (.call .subscribe) =>
      let x : State V S I E := { x with trace := x.trace ++ [Mark.enter t] }
      if x.core.error.isSome then x.turn D debug t (.call .subscribe)
      else { x with asked := fun u => if u = t then true else x.asked u }
    -- `error`, `complete`, behavior_subject.rs:69-77, replay_subject.rs:70-78; the rest is delegated
    | .core a => x.turn D debug t a
    -- `value`, behavior_subject.rs:54-56, `values`, replay_subject.rs:41-43
    | .read => { x with trace := x.trace ++ [.read t (M.read x.memory)] }
  else x.turn D debug t .go

/-- Any schedule. -/
def run (x : State V S I E) (l : List (Nat × Turn I E)) : State V S I E :=
  l.foldl (fun x a => step M D debug x a.1 a.2) x

end Rx.Keeping
