import Verif.Model.BevyEvents
import Verif.Spec.SharedClosing

/-!
# What a subscriber of the events of an entity is to hear
-/

namespace Rx.Events

open Rx.Closing (Dest)

/-- What the `k`-th destination is given, in order. -/
def given (k : Nat) (tr : List (Mark I E)) : List (SubscriberNotification I E) :=
  tr.filterMap fun m => match m with | .give j n => if j = k then some n else none | _ => none

/-- The events triggered on `e`, in order. -/
def eventsOf (e : Nat) (tr : List (Mark I E)) : List I :=
  tr.filterMap fun m => match m with | .triggered f v => if f = e then some v else none | _ => none

/-- What is to be offered to a subscriber, as one thing after the other happens. -/
structure Seen (I E : Type) where
  /-- its satellite has been spawned -/
  started : Bool := false
  /-- the entity it observes exists -/
  alive : Bool := false
  offers : List (SubscriberNotification I E) := []

/-- The `k`-th subscriber observes the entity `e`: once it has started, it is offered every event triggered on `e`, and the
completion when `e` is despawned, or at the start if `e` does not exist then, or when its satellite is despawned. -/
def Seen.see (k e : Nat) (x : Seen I E) : Mark I E → Seen I E
  | .spawned f => if f = e then { x with alive := true } else x
  | .despawned f =>
    if f = e then { x with alive := false, offers := x.offers ++ (if x.started then [.complete] else []) } else x
  | .triggered f v => if f = e ∧ x.started then { x with offers := x.offers ++ [.next v] } else x
  | .started j =>
    if j = k then { x with started := true, offers := x.offers ++ (if x.alive then [] else [.complete]) } else x
  | .gone j => if j = k then { x with offers := x.offers ++ [.complete] } else x
  | .unsubscribed j => if j = k then { x with offers := x.offers ++ [.unsubscribe] } else x
  | .subscribed _ _ => x
  | .give _ _ => x

def seen (k e : Nat) (tr : List (Mark I E)) : Seen I E := tr.foldl (Seen.see k e) {}

/-- What is offered to the `k`-th subscriber, in order. -/
def offers (k e : Nat) (tr : List (Mark I E)) : List (SubscriberNotification I E) := (seen k e tr).offers

/-- A destination takes what it is offered until it is closed: what it takes, and what becomes of it. -/
def takes (D : Dest S I E) (s : S) : List (SubscriberNotification I E) → List (SubscriberNotification I E) × S
  | [] => ([], s)
  | n :: r => if D.isClosed s then ([], s) else
    let x := takes D (D.push s n) r
    (n :: x.1, x.2)

/-- Whether the action is about the `k`-th subscription. -/
def Act.of (k : Nat) (a : Act) : Bool := match a with | .add j | .addInvoked j | .invoke j | .cancel j => j = k

/-- Whether the command is about the `k`-th subscription. -/
def Cmd.of (k : Nat) (c : Cmd) : Bool := match c with | .spawn j | .despawn j => j = k

/-- Nothing is left of the `k`-th subscription: no satellite, and nothing that is waiting to be done for it. -/
structure World.Clean (w : World S I E) (k : Nat) : Prop where
  sat : k ∉ w.sats
  active : k ∉ w.active
  invokable : k ∉ w.invokable
  invoked : k ∉ w.invoked
  queue : ∀ a ∈ w.queue, a.of k = false
  cmds : ∀ c ∈ w.cmds, c.of k = false

end Rx.Events
