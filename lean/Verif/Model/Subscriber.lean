import Verif.Model.Subscription

/-!
# Subscribers

`Sub S I E` models the trait bundle `Subscriber = RxObserver + SubscriptionLike +
TeardownCollection` (`crates/rx_core_common/src/{observer,subscriber}.rs`,
`subscriptions/{subscription_like,teardown_collection}.rs`) of a subscriber with state type `S`:
each `&mut self` function is a state transformer. Calls on a destination are calls on the
destination component of the state, so a destination is *any* value of `Sub`.
-/

namespace Rx

/-- The functions of the `Subscriber` trait for a subscriber with state `S`. -/
structure Sub (S I E : Type) where
  next : S → I → S
  error : S → E → S
  complete : S → S
  unsubscribe : S → S
  isClosed : S → Bool
  addTeardown : S → Teardown → S

/-- Calls that can be made on a subscriber. -/
inductive Call (I E : Type) where
  | note (n : SubscriberNotification I E)
  | addTeardown (t : Teardown)
deriving DecidableEq, Repr

namespace Sub
variable {S I E : Type}

/-- `SubscriberPushNotificationExtention::push`, notification_subscriber.rs:97-104. -/
def push (D : Sub S I E) (s : S) : SubscriberNotification I E → S
  | .next v => D.next s v
  | .error e => D.error s e
  | .complete => D.complete s
  | .unsubscribe => D.unsubscribe s

/-- `ObserverPushObserverNotificationExtention::push`, notification_observer.rs:74-80. -/
def pushObserver (D : Sub S I E) (s : S) : ObserverNotification I E → S
  | .next v => D.next s v
  | .error e => D.error s e
  | .complete => D.complete s

/-- `ObserverPushObserverTerminalNotificationExtention::push`,
notification_observer_terminal.rs:92-97. -/
def pushTerminal (D : Sub S I E) (s : S) : ObserverTerminalNotification E → S
  | .error e => D.error s e
  | .complete => D.complete s

/-- `SubscriptionLikePushNotificationExtention::push`, notification_subscription.rs:60-64. -/
def pushSubscription (D : Sub S I E) (s : S) : SubscriptionNotification → S
  | .unsubscribe => D.unsubscribe s

/-- A call. -/
def call (D : Sub S I E) (s : S) : Call I E → S
  | .note n => D.push s n
  | .addTeardown t => D.addTeardown s t

/-- A sequence of calls. -/
def calls (D : Sub S I E) (s : S) (cs : List (Call I E)) : S := cs.foldl D.call s

/-- A sequence of notifications. -/
def run (D : Sub S I E) (s : S) (ns : List (SubscriberNotification I E)) : S := ns.foldl D.push s

end Sub

/-! ## `ObserverSubscriber` -/

/-- Something the outside world sees at the bottom of a pipeline. -/
inductive Event (I E : Type) where
  /-- the observer's `next`/`error`/`complete` was called -/
  | seen (n : ObserverNotification I E)
  /-- a teardown closure was called -/
  | tornDown (t : Nat)
deriving DecidableEq, Repr

/-- The notification of an event, if it is one. -/
def Event.asSeen {I E : Type} : Event I E → Option (ObserverNotification I E)
  | .seen n => some n
  | .tornDown _ => none

/-- The teardown of an event, if it is one. -/
def Event.asTornDown {I E : Type} : Event I E → Option Nat
  | .seen _ => none
  | .tornDown t => some t

/-- State of `ObserverSubscriber<Destination>`, subscriber_observer.rs:13-21. The wrapped
`RxObserver` is represented by the log of the calls made on it (together with the executed
teardowns, to keep their relative order). -/
structure ObsState (I E : Type) where
  teardown : SubscriptionData
  log : List (Event I E)
deriving DecidableEq, Repr

namespace ObsState
variable {I E : Type}

/-- `ObserverSubscriber::new`, subscriber_observer.rs:27-32. -/
def new : ObsState I E := ⟨.default, []⟩

/-- The observer's view: the calls made on it. -/
def seen (s : ObsState I E) : List (ObserverNotification I E) :=
  s.log.filterMap Event.asSeen

/-- The executed teardowns. -/
def tornDown (s : ObsState I E) : List Nat :=
  s.log.filterMap Event.asTornDown

/-- `unsubscribe`, subscriber_observer.rs:73-75. -/
def unsubscribe (s : ObsState I E) : ObsState I E :=
  let r := s.teardown.unsubscribe
  ⟨r.1, s.log ++ r.2.map .tornDown⟩

end ObsState

/-- `ObserverSubscriber<Destination>`, subscriber_observer.rs:35-86. -/
def observerSubscriber (I E : Type) : Sub (ObsState I E) I E where
  -- lines 40-44
  next s v := if !s.teardown.isClosed then { s with log := s.log ++ [.seen (.next v)] } else s
  -- lines 47-52
  error s e :=
    if !s.teardown.isClosed then
      ({ s with log := s.log ++ [.seen (.error e)] } : ObsState I E).unsubscribe
    else s
  -- lines 55-60
  complete s :=
    if !s.teardown.isClosed then
      ({ s with log := s.log ++ [.seen .complete] } : ObsState I E).unsubscribe
    else s
  -- lines 73-75
  unsubscribe s := s.unsubscribe
  -- lines 68-70
  isClosed s := s.teardown.isClosed
  -- lines 83-85
  addTeardown s t :=
    let r := s.teardown.addTeardown t
    ⟨r.1, s.log ++ r.2.map .tornDown⟩

end Rx
