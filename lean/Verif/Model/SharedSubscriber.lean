import Verif.Model.Signals

/-!
# `SharedSubscriber`, used from one thread

Models `crates/rx_core_common/src/subscribers/subscriber_shared.rs`. The destination may call back into
the shared subscriber it belongs to while it handles a notification; the mutex around the destination
is then locked, so `try_lock` fails. A panic is `none`.

Not modelled: poisoned locks, `add_teardown` (it locks the destination, and deadlocks when called from
inside it), `access`, `lock`. Several threads are in `Verif.Model.SharedThreads`.
-/

namespace Rx

/-- What a destination does while it handles a notification: it may call the shared subscriber, and ask
whether that is closed, before it is done. -/
inductive React (S I E : Type) where
  | done (s : S)
  | call (n : SubscriberNotification I E) (k : React S I E)
  | isClosed (k : Bool → React S I E)

/-- A destination that may call back. -/
structure ReDest (S I E : Type) where
  push : S → SubscriberNotification I E → React S I E
  isClosed : S → Bool

/-- `SubscriberDeferredState`, subscriber_shared.rs:36-53. -/
structure Deferred (I E : Type) where
  queue : List (SubscriberNotification I E)
  closedFlag : Bool
  observedUnsubscribe : Bool
  observedCompletion : Bool
  observedError : Bool

namespace Deferred
variable {I E : Type}

/-- `default`, subscriber_shared.rs:115-129. -/
def default : Deferred I E := ⟨[], false, false, false, false⟩

/-- `is_closed`, subscriber_shared.rs:88-93. -/
def isClosed (d : Deferred I E) : Bool :=
  d.closedFlag || d.observedCompletion || d.observedUnsubscribe || d.observedError

/-- `is_dirty`, subscriber_shared.rs:80-82. -/
def isDirty (d : Deferred I E) : Bool := !d.queue.isEmpty

/-- `defer_notification`, subscriber_shared.rs:60-71. -/
def defer (d : Deferred I E) (n : SubscriberNotification I E) : Deferred I E :=
  let isFirstUnsubscribe := (match n with | .unsubscribe => true | _ => false) && !d.observedUnsubscribe
  if d.closedFlag && !isFirstUnsubscribe then d else { d with queue := d.queue ++ [n] }

/-- A call while the destination is locked by the caller itself: `is_closed` (368-375) only sees the
deferred state, `try_next` etc. (247-306) fail, the notification is deferred, and `try_apply_deferred`
(192-201) does nothing. `next` 325-335, `error` 337-348, `complete` 350-361, `unsubscribe` 377-392. -/
def call (d : Deferred I E) : SubscriberNotification I E → Deferred I E
  | .next v => if d.isClosed then d else d.defer (.next v)
  | .error e => if d.isClosed then d else { d with observedError := true }.defer (.error e)
  | .complete => if d.isClosed then d else { d with observedCompletion := true }.defer .complete
  | .unsubscribe =>
    if d.observedUnsubscribe then d else { d with observedUnsubscribe := true }.defer .unsubscribe

/-- The destination, locked, handles a notification. -/
def runLocked {S : Type} (d : Deferred I E) : React S I E → S × Deferred I E
  | .done s => (s, d)
  | .call n k => (d.call n).runLocked k
  | .isClosed k => d.runLocked (k d.isClosed)

end Deferred

namespace Shared
variable {S I E : Type}

/-- The `for` over drained notifications, subscriber_shared.rs:231-242. -/
def deliverAll (R : ReDest S I E) : List (SubscriberNotification I E) → S × Deferred I E → S × Deferred I E
  | [], x => x
  | n :: ns, x =>
    let y := if x.2.closedFlag then x else x.2.runLocked (R.push x.1 n)
    let d := if n.isClosing then { y.2 with closedFlag := true } else y.2
    deliverAll R ns (y.1, d)

/-- `SUBSCRIBER_MAX_RECURSION_DEPTH`, subscriber_shared.rs:11. -/
def maxRecursionDepth : Nat := 10

/-- `apply_notification_queue`, subscriber_shared.rs:202-244, with `k` turns left before the panic. -/
def applyQueue (R : ReDest S I E) : Nat → S × Deferred I E → Option (S × Deferred I E)
  | 0, _ => none
  | k + 1, x =>
    if x.2.queue.isEmpty then some x
    else applyQueue R k (deliverAll R x.2.queue (x.1, { x.2 with queue := [] }))

/-- `try_apply_deferred`, subscriber_shared.rs:192-200, the destination not being locked. -/
def tryApplyDeferred (R : ReDest S I E) (x : S × Deferred I E) : Option (S × Deferred I E) :=
  if x.2.isDirty then applyQueue R maxRecursionDepth x else some x

/-- `is_closed`, subscriber_shared.rs:368-375, the destination not being locked. -/
def isClosed (R : ReDest S I E) (x : S × Deferred I E) : Bool := x.2.isClosed || R.isClosed x.1

/-- A call from outside, the destination not being locked: `next` 325-335 with `try_next` 247-261,
`error` 337-348 with `try_error` 263-277, `complete` 350-361 with `try_complete` 279-289, `unsubscribe`
377-392 with `try_unsubscribe` 291-306. -/
def call (R : ReDest S I E) (x : S × Deferred I E) (n : SubscriberNotification I E) :
    Option (S × Deferred I E) := do
  let x ← match n with
    | .next v =>
      if isClosed R x then some x
      else do
        let x ← applyQueue R maxRecursionDepth x
        pure (x.2.runLocked (R.push x.1 (.next v)))
    | .error e =>
      if isClosed R x then some x
      else do
        let x ← applyQueue R maxRecursionDepth (x.1, { x.2 with observedError := true })
        pure (x.2.runLocked (R.push x.1 (.error e)))
    | .complete =>
      if isClosed R x then some x
      else do
        let x ← applyQueue R maxRecursionDepth (x.1, { x.2 with observedCompletion := true })
        pure (x.2.runLocked (R.push x.1 .complete))
    | .unsubscribe =>
      if x.2.observedUnsubscribe then some x
      else do
        let x ← applyQueue R maxRecursionDepth (x.1, { x.2 with observedUnsubscribe := true })
        let d := { x.2 with closedFlag := true }
        pure (if R.isClosed x.1 then (x.1, d) else d.runLocked (R.push x.1 .unsubscribe))
  tryApplyDeferred R x

/-- Calls one after the other. -/
def run (R : ReDest S I E) (x : S × Deferred I E) (ns : List (SubscriberNotification I E)) :
    Option (S × Deferred I E) :=
  ns.foldlM (call R) x

/-- `SharedSubscriber::new`, subscriber_shared.rs:165-170. -/
def new (s : S) : S × Deferred I E := (s, .default)

end Shared

end Rx
