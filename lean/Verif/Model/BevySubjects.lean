import Verif.Model.Signals

/-!
# Subjects on entities

Models `crates/rx_bevy_common/src/subject/{subject_component,signal_observer_satellite,subject_as_component_extension}.rs`: a
`SubjectComponent` on an entity is pushed the `RxSignal` events that are triggered on that entity.

What is assumed of Bevy (not part of the repository):

* Commands are applied one after the other, and the commands queued by hooks and observers while a command is applied are
  applied directly after it. So inserting a component, with what its hooks do, is one step here.
* An entity has at most one component of a type. Inserting another one drops the old one; `on_remove` is not run then, but
  `on_insert` is.
* `try_despawn` does nothing for an entity that does not exist. Inserting into an entity that does not exist drops the component.
* A one-to-one relationship keeps its newest source: the reference on the target is to the entity inserted last, and the
  entity that was the source before loses its relationship but not its other components.
* `on_remove` hooks are run before the component is removed, also when its entity is despawned.
* An entity that is observed only on a despawned entity is despawned with it. Entity ids are not used again.
* An event is given to all observers of its type on its entity, in an arbitrary order.

Simplifications:

* Entities that users spawn, satellites, and subjects are numbered separately, in the order in which they come up. No subject
  is inserted into a satellite, and satellites are not despawned by others.
* A subject is the calls it gets. What it does then is in `Verif.Model.PublishSubject` and `Verif.Model.CachingSubjects`.
* Subscribing to a `SubjectComponent` is as subscribing to an `ObservableComponent`, in `Verif.Model.BevyCommands`; the satellite
  for that is not modelled here.
-/

namespace Rx.BevySubjects

/-- A call to a subject. -/
inductive Call (I E : Type) where
  | note (n : ObserverNotification I E)
  | unsubscribe
deriving DecidableEq, Repr

/-- What the rest of the program decides. -/
structure Cfg where
  /-- the input types of a type of subjects -/
  inp : Nat → Nat
  /-- the order in which observers are run -/
  ord : List (Nat × Nat × Nat) → List (Nat × Nat × Nat)

structure World (I E : Type) where
  /-- how many entities were spawned -/
  spawned : Nat := 0
  alive : Nat → Bool := fun _ => false
  /-- how many subjects were inserted -/
  subjects : Nat := 0
  /-- where the `k`-th subject is: the entity, and which type of `SubjectComponent`, subject_component.rs:38-55 -/
  place : Nat → Option (Nat × Nat) := fun _ => none
  calls : Nat → List (Call I E) := fun _ => []
  /-- `SignalObserverSatelliteBundle`, signal_observer_satellite.rs:18-51: its number, the entity it observes, and the type of
  subjects -/
  satellites : List (Nat × Nat × Nat) := []
  nextSatellite : Nat := 0
  /-- `SignalObserverRef`, signal_observer_satellite.rs:70-81 -/
  ref : Nat → Nat → Option Nat := fun _ _ => none

namespace World

variable {I E : Type}

/-- The entity has a `SubjectComponent` of this type. -/
def has (w : World I E) (e o : Nat) : Bool := (List.range w.subjects).any fun k => w.place k == some (e, o)

/-- `insert(SubjectComponent)`, with subject_on_insert, subject_component.rs:112-126. -/
def insert (w : World I E) (e o : Nat) : World I E :=
  if w.alive e then
    { w with
      subjects := w.subjects + 1
      place := fun k => if k = w.subjects then some (e, o) else if w.place k = some (e, o) then none else w.place k
      satellites := w.satellites ++ [(w.nextSatellite, e, o)]
      nextSatellite := w.nextSatellite + 1
      ref := fun e' o' => if e' = e ∧ o' = o then some w.nextSatellite else w.ref e' o' }
  else { w with subjects := w.subjects + 1 }

/-- The subjects for which `p` says so are called. -/
def call (w : World I E) (p : Nat → Bool) (x : Call I E) : World I E :=
  { w with calls := fun k => if p k then w.calls k ++ [x] else w.calls k }

/-- `try_despawn` of the satellite to which the reference is. -/
def despawnRef (w : World I E) (e o : Nat) : World I E :=
  { w with
    satellites := w.satellites.filter fun s => w.ref e o != some s.1
    ref := fun e' o' => if e' = e ∧ o' = o then none else w.ref e' o' }

/-- `remove::<SubjectComponent>()`, with subject_on_remove, subject_component.rs:128-166. -/
def remove (w : World I E) (e o : Nat) : World I E :=
  if w.has e o then
    let w := w.call (fun k => w.place k == some (e, o)) .unsubscribe
    let w := w.despawnRef e o
    { w with place := fun k => if w.place k = some (e, o) then none else w.place k }
  else w

/-- Whether the `k`-th subject is on this entity. -/
def isOn (w : World I E) (e k : Nat) : Bool :=
  match w.place k with
  | some (e', _) => e' == e
  | none => false

/-- `despawn`: subject_on_remove is run for each subject of the entity; its satellites are despawned. -/
def despawn (w : World I E) (e : Nat) : World I E :=
  let w := w.call (fun k => w.isOn e k) .unsubscribe
  { w with
    alive := fun e' => if e' = e then false else w.alive e'
    place := fun k => if w.isOn e k then none else w.place k
    satellites := w.satellites.filter fun s => s.2.1 != e
    ref := fun e' o' => if e' = e then none else w.ref e' o' }

/-- push_signal_observer, signal_observer_satellite.rs:53-68: one satellite. -/
def push (n : ObserverNotification I E) (w : World I E) (s : Nat × Nat × Nat) : World I E :=
  w.call (fun k => w.place k == some s.2) (.note n)

/-- `trigger(RxSignal)`: the observers for these types on this entity are run. -/
def signal (c : Cfg) (w : World I E) (e types : Nat) (n : ObserverNotification I E) : World I E :=
  (c.ord (w.satellites.filter fun s => s.2.1 == e && c.inp s.2.2 == types)).foldl (push n) w

end World

/-- What can happen. -/
inductive Op (I E : Type) where
  | spawn
  | insert (e o : Nat)
  | remove (e o : Nat)
  | despawn (e : Nat)
  | signal (e types : Nat) (n : ObserverNotification I E)
  /-- somebody who has a clone of the `k`-th subject, or queries its component, calls it -/
  | direct (k : Nat) (x : Call I E)

namespace World

variable {I E : Type}

def step (c : Cfg) (w : World I E) : Op I E → World I E
  | .spawn => { w with spawned := w.spawned + 1, alive := fun e => if e = w.spawned then true else w.alive e }
  | .insert e o => w.insert e o
  | .remove e o => w.remove e o
  | .despawn e => w.despawn e
  | .signal e y n => w.signal c e y n
  | .direct k x => w.call (fun k' => k' == k) x

/-- A history, from the start of the application. -/
def run (c : Cfg) (ops : List (Op I E)) : World I E := ops.foldl (step c) {}

end World
end Rx.BevySubjects
