/-!
# Notifications

Models `crates/rx_core_common/src/signals/`.
-/

namespace Rx

/-- `ObserverNotification<In, InError>`, notification_observer.rs:16-24. -/
inductive ObserverNotification (I E : Type) where
  | next (v : I)
  | error (e : E)
  | complete
deriving DecidableEq, Repr

/-- `ObserverTerminalNotification<InError>`, notification_observer_terminal.rs:17-23. -/
inductive ObserverTerminalNotification (E : Type) where
  | error (e : E)
  | complete
deriving DecidableEq, Repr

/-- `SubscriberNotification<In, InError>`, notification_subscriber.rs:19-28. -/
inductive SubscriberNotification (I E : Type) where
  | next (v : I)
  | error (e : E)
  | complete
  | unsubscribe
deriving DecidableEq, Repr

/-- `SubscriptionNotification`, notification_subscription.rs:15-17. -/
inductive SubscriptionNotification where
  | unsubscribe
deriving DecidableEq, Repr

/-- `SubscriberNotification::is_terminal`, notification_subscriber.rs:36-41. -/
def SubscriberNotification.isTerminal {I E : Type} : SubscriberNotification I E → Bool
  | .complete => true
  | .error _ => true
  | _ => false

/-- `SubscriberNotification::is_closing`, notification_subscriber.rs:44-46. -/
def SubscriberNotification.isClosing {I E : Type} (n : SubscriberNotification I E) : Bool :=
  n.isTerminal || (match n with | .unsubscribe => true | _ => false)

/-! ## Conversions (`From` / `TryFrom`) -/

/-- The conversion error of notification_observer.rs:61-64. -/
inductive SubscriberToObserverError where
  | cannotReceiveUnsubscribe
deriving DecidableEq, Repr

/-- The conversion error of notification_observer_terminal.rs:26-29. -/
inductive ObserverToTerminalError where
  | cannotReceiveNext
deriving DecidableEq, Repr

/-- The conversion error of notification_observer_terminal.rs:53-58. -/
inductive SubscriberToTerminalError where
  | cannotReceiveNext
  | cannotReceiveUnsubscribe
deriving DecidableEq, Repr

/-- The conversion error of notification_subscription.rs:20-27. -/
inductive SubscriberToSubscriptionError where
  | cannotReceiveNext
  | cannotReceiveError
  | cannotReceiveComplete
deriving DecidableEq, Repr

/-- `From<ObserverTerminalNotification> for ObserverNotification`, notification_observer.rs:31-36. -/
def ObserverNotification.ofTerminal {I E : Type} : ObserverTerminalNotification E → ObserverNotification I E
  | .complete => .complete
  | .error e => .error e

/-- `TryFrom<SubscriberNotification> for ObserverNotification`, notification_observer.rs:46-57. -/
def ObserverNotification.tryOfSubscriber {I E : Type} :
    SubscriberNotification I E → Except SubscriberToObserverError (ObserverNotification I E)
  | .next v => .ok (.next v)
  | .error e => .ok (.error e)
  | .complete => .ok .complete
  | .unsubscribe => .error .cannotReceiveUnsubscribe

/-- `TryFrom<ObserverNotification> for ObserverTerminalNotification`,
notification_observer_terminal.rs:39-49. -/
def ObserverTerminalNotification.tryOfObserver {I E : Type} :
    ObserverNotification I E → Except ObserverToTerminalError (ObserverTerminalNotification E)
  | .next _ => .error .cannotReceiveNext
  | .error e => .ok (.error e)
  | .complete => .ok .complete

/-- `TryFrom<SubscriberNotification> for ObserverTerminalNotification`,
notification_observer_terminal.rs:68-81. -/
def ObserverTerminalNotification.tryOfSubscriber {I E : Type} :
    SubscriberNotification I E → Except SubscriberToTerminalError (ObserverTerminalNotification E)
  | .next _ => .error .cannotReceiveNext
  | .error e => .ok (.error e)
  | .complete => .ok .complete
  | .unsubscribe => .error .cannotReceiveUnsubscribe

/-- `From<ObserverNotification> for SubscriberNotification`, notification_subscriber.rs:54-60. -/
def SubscriberNotification.ofObserver {I E : Type} : ObserverNotification I E → SubscriberNotification I E
  | .next v => .next v
  | .error e => .error e
  | .complete => .complete

/-- `From<ObserverTerminalNotification> for SubscriberNotification`,
notification_subscriber.rs:69-74. -/
def SubscriberNotification.ofTerminal {I E : Type} :
    ObserverTerminalNotification E → SubscriberNotification I E
  | .error e => .error e
  | .complete => .complete

/-- `From<SubscriptionNotification> for SubscriberNotification`, notification_subscriber.rs:82-86. -/
def SubscriberNotification.ofSubscription {I E : Type} :
    SubscriptionNotification → SubscriberNotification I E
  | .unsubscribe => .unsubscribe

/-- `TryFrom<SubscriberNotification> for SubscriptionNotification`,
notification_subscription.rs:36-49. -/
def SubscriptionNotification.tryOfSubscriber {I E : Type} :
    SubscriberNotification I E → Except SubscriberToSubscriptionError SubscriptionNotification
  | .unsubscribe => .ok .unsubscribe
  | .next _ => .error .cannotReceiveNext
  | .error _ => .error .cannotReceiveError
  | .complete => .error .cannotReceiveComplete

end Rx
