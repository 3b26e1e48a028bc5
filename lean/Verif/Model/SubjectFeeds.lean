import Verif.Model.CachingSubjects

/-!
# A subject as the destination of subscriptions

A clone of a subject passed to `subscribe` is upgraded to an `ObserverSubscriber` around it
(derive_observer.rs:59-75 and 168-183 in `crates/rx_core_macro_common/src`, used by
`crates/rx_core_macro_subject_derive/src/lib.rs`; none of publish_subject.rs, behavior_subject.rs, replay_subject.rs,
async_subject.rs and provenance_subject.rs opts out). Any number of
observables may be subscribed that way; each has an `ObserverSubscriber` of its own
(`crates/rx_core_common/src/subscribers/subscriber_observer.rs`), and all of them one subject.

What kind of subject it is does not matter: `st` is what its operations do, see `Verif.Model.PublishSubject` and
`Verif.Model.CachingSubjects` for them and their simplifications. Other simplifications: subscribers of the subject may call the subject, but
not the inputs; dropping an `ObserverSubscriber` is unsubscribing it (subscription_data.rs:85-89); a fault in the subject ends
the history.
-/

namespace Rx.Feeds

open Rx.Publish (Fault)

variable {X S I E : Type}

/-- An `ObserverSubscriber` around a subject, subscriber_observer.rs:13-21, without the subject. Ghost: `tornDown`, the
teardowns that were called. -/
structure Input where
  teardown : SubscriptionData
  tornDown : List Nat
deriving DecidableEq, Repr

/-- `ObserverSubscriber::new`, subscriber_observer.rs:27-32. -/
def Input.new : Input := ⟨.default, []⟩

/-- `is_closed`, subscriber_observer.rs:68-70. -/
def Input.isClosed (a : Input) : Bool := a.teardown.isClosed

/-- `unsubscribe`, subscriber_observer.rs:73-75. -/
def Input.unsubscribe (a : Input) : Input :=
  let r := a.teardown.unsubscribe
  ⟨r.1, a.tornDown ++ r.2⟩

/-- `add_teardown`, subscriber_observer.rs:83-85. -/
def Input.addTeardown (a : Input) (t : Nat) : Input :=
  let r := a.teardown.addTeardown (some t)
  ⟨r.1, a.tornDown ++ r.2⟩

/-- The subject and its inputs, in the order in which they were made. -/
structure State (X : Type) where
  subject : X
  inputs : List Input

/-- What can be done from outside. -/
inductive Op (S I E : Type) where
  /-- something is done to the subject itself or to a subscription to it -/
  | direct (op : Publish.Op S I E)
  /-- the subject becomes the destination of one more subscription -/
  | connect
  /-- the `j`-th such destination is notified -/
  | push (j : Nat) (n : SubscriberNotification I E)
  | addTeardown (j : Nat) (t : Nat)

/-- `next`, `error`, `complete` (subscriber_observer.rs:40-60) and `unsubscribe` (73-75) of one of them. -/
def State.push (st : X → Publish.Op S I E → Except Fault X) (x : State X) (j : Nat) (a : Input)
    (n : SubscriberNotification I E) : Except Fault (State X) :=
  match n with
  | .unsubscribe => .ok { x with inputs := x.inputs.set j a.unsubscribe }
  | .next v =>
    if !a.isClosed then
      match st x.subject (.note (.next v)) with
      | .ok s => .ok { x with subject := s }
      | .error f => .error f
    else .ok x
  | .error e =>
    if !a.isClosed then
      match st x.subject (.note (.error e)) with
      | .ok s => .ok { subject := s, inputs := x.inputs.set j a.unsubscribe }
      | .error f => .error f
    else .ok x
  | .complete =>
    if !a.isClosed then
      match st x.subject (.note .complete) with
      | .ok s => .ok { subject := s, inputs := x.inputs.set j a.unsubscribe }
      | .error f => .error f
    else .ok x

/-- One operation. What there is not cannot be notified. -/
def step (st : X → Publish.Op S I E → Except Fault X) (x : State X) : Op S I E → Except Fault (State X)
  | .direct op =>
    match st x.subject op with
    | .ok s => .ok { x with subject := s }
    | .error f => .error f
  | .connect => .ok { x with inputs := x.inputs ++ [.new] }
  | .push j n =>
    match x.inputs[j]? with
    | some a => x.push st j a n
    | none => .ok x
  | .addTeardown j t =>
    match x.inputs[j]? with
    | some a => .ok { x with inputs := x.inputs.set j (a.addTeardown t) }
    | none => .ok x

/-- A subject that is nobody's destination yet. -/
def init (s : X) : State X := ⟨s, []⟩

/-- A history. -/
def run (st : X → Publish.Op S I E → Except Fault X) (x : State X) : List (Op S I E) → Except Fault (State X)
  | [] => .ok x
  | op :: ops =>
    match step st x op with
    | .ok x => run st x ops
    | .error f => .error f

end Rx.Feeds
