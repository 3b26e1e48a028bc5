import Verif.Model.Signals

/-!
# `SubscriberState`

Models `crates/rx_core_common/src/subscribers/subscriber_state.rs`. The five bit flags are five
Booleans. Functions guarded by a `debug_assert!` return `none` when the assertion fails (a panic in
debug builds).
-/

namespace Rx

/-- `SubscriberStateBits` / `SubscriberState`, subscriber_state.rs:4-33. -/
structure SubscriberState where
  waiting : Bool
  primed : Bool
  completed : Bool
  errored : Bool
  unsubscribed : Bool
deriving DecidableEq, Repr

namespace SubscriberState

/-- `Default`: only WAITING is set, subscriber_state.rs:15-20. -/
def default : SubscriberState := ⟨true, false, false, false, false⟩

/-- subscriber_state.rs:41-43 -/
def isWaiting (s : SubscriberState) : Bool := s.waiting
/-- subscriber_state.rs:49-51 -/
def isPrimed (s : SubscriberState) : Bool := s.primed
/-- subscriber_state.rs:59-61 -/
def isCompleted (s : SubscriberState) : Bool := s.completed
/-- subscriber_state.rs:65-67 -/
def isCompletedButNotPrimed (s : SubscriberState) : Bool := s.isCompleted && !s.isPrimed
/-- subscriber_state.rs:75-77 -/
def isErrored (s : SubscriberState) : Bool := s.errored
/-- subscriber_state.rs:85-87 -/
def isUnsubscribed (s : SubscriberState) : Bool := s.unsubscribed
/-- subscriber_state.rs:102-104 -/
def isFinished (s : SubscriberState) : Bool := s.isCompleted || s.isErrored
/-- subscriber_state.rs:94-96 -/
def isClosed (s : SubscriberState) : Bool := s.isUnsubscribed || s.isFinished
/-- subscriber_state.rs:109-111 -/
def isClosedButPrimed (s : SubscriberState) : Bool := s.isClosed && s.isPrimed
/-- subscriber_state.rs:117-119 -/
def isClosedButNotPrimed (s : SubscriberState) : Bool := s.isClosed && !s.isPrimed
/-- subscriber_state.rs:122-124 -/
def isClosedButNotPrimedAndNotCompleted (s : SubscriberState) : Bool :=
  s.isClosed && !s.isPrimed && !s.isCompleted
/-- subscriber_state.rs:127-129 -/
def isClosedButNotCompleted (s : SubscriberState) : Bool :=
  (s.isUnsubscribed || s.isErrored) && !s.isCompleted
/-- subscriber_state.rs:132-134 -/
def isClosedButNotErrored (s : SubscriberState) : Bool :=
  (s.isUnsubscribed || s.isCompleted) && !s.isErrored
/-- subscriber_state.rs:137-139 -/
def isClosedButNotCompletedAndPrimed (s : SubscriberState) : Bool :=
  s.isClosedButNotCompleted && s.isPrimed

/-- `next`, subscriber_state.rs:145-153. `none` = failed debug assertion. -/
def next (s : SubscriberState) : Option SubscriberState :=
  if s.isClosed then none else some { s with waiting := false, primed := true }

/-- `complete`, subscriber_state.rs:159-167. -/
def complete (s : SubscriberState) : Option SubscriberState :=
  if s.isClosed then none else some { s with waiting := false, completed := true }

/-- `error`, subscriber_state.rs:173-181. -/
def error (s : SubscriberState) : Option SubscriberState :=
  if s.isClosed then none else some { s with waiting := false, errored := true }

/-- `unsubscribe`, subscriber_state.rs:188-196. -/
def unsubscribe (s : SubscriberState) : Option SubscriberState :=
  if s.isUnsubscribed then none else some { s with waiting := false, unsubscribed := true }

/-- `unsubscribe_if_not_already`, subscriber_state.rs:212-215. -/
def unsubscribeIfNotAlready (s : SubscriberState) : SubscriberState :=
  { s with waiting := false, unsubscribed := true }

/-- `update_with_notification`, subscriber_state.rs:220-233. -/
def updateWithNotification {I E : Type} (s : SubscriberState) :
    SubscriberNotification I E → Option SubscriberState
  | .unsubscribe => s.unsubscribe
  | .complete => s.complete
  | .error _ => s.error
  | .next _ => s.next

/-- `notification_matches_state`, subscriber_state.rs:244-258. -/
def notificationMatchesState {I E : Type} (s : SubscriberState) :
    SubscriberNotification I E → Bool
  | .unsubscribe => s.isUnsubscribed
  | .complete => s.isCompleted
  | .error _ => s.isErrored
  | .next _ => s.isPrimed

/-- `update_with_notification_would_be_invalid`, subscriber_state.rs:280-294. -/
def updateWouldBeInvalid {I E : Type} (s : SubscriberState) :
    SubscriberNotification I E → Bool
  | .unsubscribe => s.isUnsubscribed
  | .complete => s.isClosed
  | .error _ => s.isClosed
  | .next _ => s.isClosed

/-- Feeding a whole sequence, stopping at the first failed assertion. -/
def feed {I E : Type} (s : SubscriberState) :
    List (SubscriberNotification I E) → Option SubscriberState
  | [] => some s
  | n :: ns => (s.updateWithNotification n).bind (fun s' => feed s' ns)

end SubscriberState
end Rx
