import Verif.Model.Operators

/-!
# Sources that do all they do when they are subscribed

A source that is subscribed runs a program (`Prog`) against the subscriber it is given, and returns a subscription.
-/

namespace Rx.Sources
variable {S O E : Type}

/-- The kinds of subscription these sources return: `InertSubscription` (inert_subscription.rs:10), and one that delegates to
the destination: `Subscription` (rx_core_common, subscriptions/subscription.rs:5-17), or, for `create`, the destination
itself behind a `SharedSubscription`, whose own behaviour is in `Verif.Model.SharedSubscription`. -/
inductive Handle where
  | inert
  | live
deriving DecidableEq, Repr

/-- `is_closed` (inert_subscription.rs:23-25; derive_subscription.rs:44-73). -/
def Handle.isClosed (D : Sub S O E) (s : S) : Handle → Bool
  | .inert => true
  | .live => D.isClosed s

/-- `unsubscribe` (inert_subscription.rs:27-29; derive_subscription.rs:44-73). -/
def Handle.unsubscribe (D : Sub S O E) (s : S) : Handle → S
  | .inert => s
  | .live => D.unsubscribe s

/-- `add_teardown`, and the teardowns it runs itself (inert_subscription.rs:32-37;
derive_teardown_collection.rs:40-53). -/
def Handle.addTeardown (D : Sub S O E) (s : S) (t : Teardown) : Handle → S × List Nat
  | .inert => (s, t.execute)
  | .live => (D.addTeardown s t, [])

/-- `InertSubscription::new(destination)`, inert_subscription.rs:13-19. -/
def inert : Prog O E Handle :=
  .query fun closed => if !closed then .call (.note .unsubscribe) (.ret .inert) else .ret .inert

/-- An observable: `ob` is the state it is made with; `subscribe` is what it does with the subscriber, and how its own state
changes (`&mut self`). -/
structure Cold (O E : Type) where
  Ob : Type
  ob : Ob
  subscribe : Ob → Prog O E Handle × Ob

/-- `JustObservable`, just_observable.rs:36-48. The value is cloned: a clone is taken to be equal. -/
@[reducible] def just (v : O) : Cold O E where
  Ob := O
  ob := v
  subscribe value := (.call (.note (.next value)) (.call (.note .complete) inert), value)

/-- `EmptyObservable`, empty_observable.rs:19-30. -/
@[reducible] def empty : Cold O E where
  Ob := Unit
  ob := ()
  subscribe _ := (.call (.note .complete) inert, ())

/-- `ThrowObservable`, throw_observable.rs:33-43. -/
@[reducible] def throw (e : E) : Cold O E where
  Ob := E
  ob := e
  subscribe error := (.call (.note (.error error)) inert, error)

/-- `NeverObservable`, never_observable.rs:17-26. -/
@[reducible] def never : Cold O E where
  Ob := Unit
  ob := ()
  subscribe _ := (.ret .live, ())

/-- `ClosedObservable`, closed_observable.rs:25-34. -/
@[reducible] def closed : Cold O E where
  Ob := Unit
  ob := ()
  subscribe _ := (inert, ())

/-- What follows a program. -/
def _root_.Rx.Prog.bind {I E α β : Type} : Prog I E α → (α → Prog I E β) → Prog I E β
  | .ret a, k => k a
  | .call c p, k => .call c (p.bind k)
  | .query p, k => .query fun b => (p b).bind k

/-- `CreateObservable`, create_observable.rs:51-62. The producer is a program; its clones do the same (a producer can only
differ from call to call by state that it shares with its clones, which is not modelled). -/
@[reducible] def create (producer : Prog O E Unit) : Cold O E where
  Ob := Prog O E Unit
  ob := producer
  subscribe p := (p.bind fun _ => .ret .live, p)

/-- `DeferredObservable`, deferred_observable.rs:42-52: the closure (`FnMut`) makes a source, which is subscribed, and
dropped. -/
@[reducible] def deferred {F : Type} (creator : F → Cold O E × F) (f : F) : Cold O E where
  Ob := F
  ob := f
  subscribe f :=
    let (source, f') := creator f
    ((source.subscribe source.ob).1, f')

/-- Subscribing an observable again and again, each time with another destination. -/
def Cold.subscribeAll (c : Cold O E) (D : Sub S O E) : c.Ob → List S → List (Handle × S)
  | _, [] => []
  | ob, s :: ss => ((c.subscribe ob).1.run D s) :: c.subscribeAll D (c.subscribe ob).2 ss

/-- The loop of `IteratorObservable`, iterator_observable.rs:47-52. The iterator is `f`: its items in order, up to the first
`none`. It may have no end, so that the loop may not end: `Loop D f i s n t` says that with `i` items taken and destination
`s`, it ends, with `n` items taken and destination `t`. -/
inductive Loop (D : Sub S O E) (f : Nat → Option O) : Nat → S → Nat → S → Prop where
  | exhausted {i s} : f i = none → Loop D f i s i s
  | closed {i s v} : f i = some v → D.isClosed s = true → Loop D f i s (i + 1) s
  | item {i s v n t} : f i = some v → D.isClosed s = false → Loop D f (i + 1) (D.next s v) n t → Loop D f i s n t

/-- `IteratorObservable::subscribe`, iterator_observable.rs:39-58: `Iterates D f s n h t` says that with destination `s` it
returns, having taken `n` items, with subscription `h`, and destination `t`. -/
def Iterates (D : Sub S O E) (f : Nat → Option O) (s : S) (n : Nat) (h : Handle) (t : S) : Prop :=
  ∃ u, Loop D f 0 s n u ∧ (h, t) = inert.run D (if !D.isClosed u then D.complete u else u)

end Rx.Sources
