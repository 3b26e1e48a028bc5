import Verif.Model.Panics

/-!
# What keeps a `PublishSubject` alive, and what happens when that is dropped

`crates/rx_core_subject_publish/src/publish_subject.rs`, `multicast.rs`, `multicast_subscription.rs`. Debug assertions are on.
The clones of the subject and the subscriptions to it share its state. Simplifications: as in `Verif.Model.Panics`
(`Subject`), subscribers do not call back, and so they hold neither clones nor subscriptions.
-/

namespace Rx.SubjectDrops

open Rx.Panics (Fragile Out)
open Rx.Panics.Subject (cancel)

variable {S I E : Type}

/-- What is shared (publish_subject.rs:65-66, multicast_subscription.rs:20-23), how many clones of the subject there are, and which
subscriptions their owners still have. Ghost: how often the shared state was dropped, and whether
`debug_assert!(!self.is_dirty())` (multicast.rs:369) failed then. -/
structure State (S I E : Type) where
  core : Panics.Subject.State S I E
  subjects : Nat := 1
  subs : List Nat := []
  freed : Nat := 0
  asserted : Bool := false

def State.new (s : S) : State S I E := { core := Panics.Subject.init s }

/-- What users do. -/
inductive Op (S I E : Type) where
  | clone
  | call (op : Publish.Op S I E)
  | dropSubject
  | dropSub (i : Nat)

/-- The shared state is dropped with the last of its owners, multicast.rs:360-371. -/
def State.release (x : State S I E) : State S I E :=
  if x.subjects = 0 ∧ x.subs = [] then { x with freed := x.freed + 1, asserted := !x.core.pub.queue.isEmpty } else x

/-- One of these, if what it is done with still exists. A subject that is dropped (publish_subject.rs:289-299) applies what is
deferred if it can lock its subscribers: there is nothing, or it cannot. A subscription that is dropped
(multicast_subscription.rs:110-118) unsubscribes. `subscribe` returns no subscription if it panics. -/
def step (D : Fragile S I E) (ord : Nat → List Nat → List Nat) (x : State S I E) : Op S I E → Out (State S I E)
  | .clone => if x.subjects = 0 then ⟨x, false⟩ else ⟨{ x with subjects := x.subjects + 1 }, false⟩
  | .call (.note n) =>
    if x.subjects = 0 then ⟨x, false⟩
    else
      let r := Panics.Subject.note D ord x.core n
      ⟨{ x with core := r.st }, r.panicked⟩
  | .call (.subscribe s) =>
    if x.subjects = 0 then ⟨x, false⟩
    else
      let r := Panics.Subject.subscribe D ord x.core s
      ⟨{ x with core := r.st, subs := if r.panicked then x.subs else x.subs ++ [x.core.pub.count] }, r.panicked⟩
  | .call (.cancel i) =>
    if i ∈ x.subs then
      let r := cancel D ord x.core i
      ⟨{ x with core := r.st }, r.panicked⟩
    else ⟨x, false⟩
  | .dropSubject =>
    if x.subjects = 0 then ⟨x, false⟩
    else
      let y := State.release { x with subjects := x.subjects - 1 }
      ⟨y, y.asserted⟩
  | .dropSub i =>
    if i ∈ x.subs then
      let r := cancel D ord x.core i
      let y := State.release { x with core := r.st, subs := x.subs.filter (· != i) }
      ⟨y, r.panicked || y.asserted⟩
    else ⟨x, false⟩

/-- One after the other, going on after a panic. -/
def run (D : Fragile S I E) (ord : Nat → List Nat → List Nat) (x : State S I E) (ops : List (Op S I E)) : State S I E :=
  ops.foldl (fun x op => (step D ord x op).st) x

end Rx.SubjectDrops
