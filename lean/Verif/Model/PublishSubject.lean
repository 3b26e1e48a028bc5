import Verif.Model.Subscriber

/-!
# `PublishSubject`

Models `crates/rx_core_subject_publish/src/{publish_subject,multicast,multicast_subscription}.rs`, used
from one thread. While a subscriber handles a notification it may call the subject, subscribe others to
it and cancel subscriptions; the mutex around the set of subscribers is then locked, so `try_lock` fails
and the call is deferred.

Simplifications. Subscribers, subscriptions and map keys are all numbered by the order of the `subscribe`
calls. The order in which the `HashMap` is iterated is a parameter (`ord`). Every subscriber has a state
in `S`. Calls made by a subscriber that is being unsubscribed because it was subscribed to an unsubscribed
subject are left out and end in `Fault.unmodelled`. So are `add_teardown` and `is_closed` of a subscription
(which block if the subscriber is in use), poisoning and several threads.

Ghost state, not in the code: `calls` (all calls so far), `log` (all notifications given to subscribers)
and the numbers of calls in `queue` and `log`.
-/

namespace Rx.Publish

variable {S I E : Type}

/-- What goes wrong. -/
inductive Fault where
  | panic
  | deadlock
  | unmodelled
deriving DecidableEq, Repr

/-- What a subscriber does while it handles a notification, before it is done: call `next`, `error`,
`complete` or `unsubscribe` of the subject; subscribe a subscriber (with state `s`), which gives it the
number of the subscription; unsubscribe a subscription; ask whether the subject is closed. -/
inductive Act (S I E : Type) where
  | done (s : S)
  | note (n : SubscriberNotification I E) (k : Act S I E)
  | subscribe (s : S) (k : Nat → Act S I E)
  | cancel (i : Nat) (k : Act S I E)
  | isClosed (k : Bool → Act S I E)

/-- How subscribers behave. -/
structure Dest (S I E : Type) where
  push : S → SubscriberNotification I E → Act S I E
  isClosed : S → Bool

/-- Subscribers that do not call the subject while they handle a notification. -/
def passive (D : Sub S I E) : Dest S I E := ⟨fun s n => .done (D.push s n), D.isClosed⟩

/-- `MulticastNotification`, multicast_notification.rs:6-18. -/
inductive Deferred (I E : Type) where
  | note (n : SubscriberNotification I E)
  | cancel (i : Nat)
  | add (i : Nat)
deriving DecidableEq, Repr

/-- A call made on the subject or one of its subscriptions, from inside or outside. -/
inductive Call (I E : Type) where
  | note (n : SubscriberNotification I E)
  | subscribe (i : Nat)
  | cancel (i : Nat)
deriving DecidableEq, Repr

/-- `MulticastDeferredState` (multicast.rs:291-306) and `Subscribers` (multicast.rs:21-29), the
subscribers, and whether a `MulticastSubscription` still has its `subscriber`
(multicast_subscription.rs:15-24). -/
structure State (S I E : Type) where
  queue : List (Nat × Deferred I E)
  closedFlag : Bool
  completed : Bool
  unsubscribed : Bool
  observedError : Option E
  members : List Nat
  dest : Nat → S
  held : Nat → Bool
  count : Nat
  calls : List (Call I E)
  log : List (Nat × Nat × SubscriberNotification I E)

namespace State

/-- `is_closed`, multicast.rs:347-352 and publish_subject.rs:250-252. -/
def isClosed (x : State S I E) : Bool :=
  x.closedFlag || x.completed || x.unsubscribed || x.observedError.isSome

/-- Ghost: the call is made. -/
def record (x : State S I E) (c : Call I E) : State S I E := { x with calls := x.calls ++ [c] }

/-- Ghost: the number of the call being made. -/
def now (x : State S I E) : Nat := x.calls.length - 1

def setDest (x : State S I E) (j : Nat) (s : S) : State S I E :=
  { x with dest := fun i => if i = j then s else x.dest i }

/-- `defer_notification`, multicast.rs:313-329. It is called with `Unsubscribe` only after
`observed_state` was set (publish_subject.rs:255-266), so `is_first_unsubscribe` is false; and with `Add`
only when not closed (publish_subject.rs:129-143), so the branch that unsubscribes a subscriber is not
taken. -/
def defer (x : State S I E) (d : Deferred I E) : State S I E :=
  if x.closedFlag then x else { x with queue := x.queue ++ [(x.now, d)] }

/-- `next`, `error`, `complete`, `unsubscribe` (publish_subject.rs:172-213, 254-269) while locked. -/
def noteLocked (x : State S I E) (n : SubscriberNotification I E) : State S I E :=
  let x := x.record (.note n)
  match n with
  | .next v => if x.isClosed then x else x.defer (.note (.next v))
  | .error e => if x.isClosed then x else { x with observedError := some e }.defer (.note (.error e))
  | .complete => if x.isClosed then x else { x with completed := true }.defer (.note .complete)
  | .unsubscribe =>
    if x.unsubscribed then x else { x with unsubscribed := true }.defer (.note .unsubscribe)

/-- The subscriber is notified while a lock is held that every call back needs. -/
def pushQuiet (f : Fault) : Act S I E → Except Fault S
  | .done s => .ok s
  | _ => .error f

/-- Subscriber `i` is told how the subject ended, publish_subject.rs:118-127. The deferred state is
locked, so calling back deadlocks. -/
def replay (R : Dest S I E) (x : State S I E) (i : Nat) (s : S) : Except Fault (S × State S I E) :=
  match x.observedError with
  | some e => do
    let s ← pushQuiet .deadlock (R.push s (.error e))
    pure (s, { x with log := x.log ++ [(x.now, i, .error e)] })
  | none =>
    if x.completed then do
      let s ← pushQuiet .deadlock (R.push s .complete)
      pure (s, { x with log := x.log ++ [(x.now, i, .complete)] })
    else pure (s, x)

/-- The part of `subscribe` common to open and closed subjects, publish_subject.rs:118-134. -/
def greet (R : Dest S I E) (x : State S I E) (s : S) : Except Fault (State S I E) := do
  let i := x.count
  let (s, x) ← { x with count := i + 1 }.replay R i s
  if x.isClosed && !R.isClosed s then do
    let s ← pushQuiet .unmodelled (R.push s .unsubscribe)
    pure (setDest { x with log := x.log ++ [(x.now, i, .unsubscribe)] } i s)
  else pure (x.setDest i s)

/-- `subscribe`, publish_subject.rs:108-164, while locked. -/
def subscribeLocked (R : Dest S I E) (x : State S I E) (s : S) : Except Fault (State S I E) := do
  let x := x.record (.subscribe x.count)
  let i := x.count
  let x ← x.greet R s
  if x.isClosed then pure x
  else pure ({ x with held := fun k => if k = i then true else x.held k }.defer (.add i))

/-- `MulticastSubscription::unsubscribe`, multicast_subscription.rs:82-93, while locked; `j` is the
subscriber whose mutex is locked as well. -/
def cancelLocked (R : Dest S I E) (x : State S I E) (j i : Nat) : State S I E :=
  let x := x.record (.cancel i)
  let isClosed := !x.held i || (i != j && R.isClosed (x.dest i))
  let x := if isClosed then x else x.defer (.cancel i)
  { x with held := fun k => if k = i then false else x.held k }

/-- Subscriber `j` handles a notification; everything is locked. -/
def react (R : Dest S I E) (j : Nat) : Act S I E → State S I E → Except Fault (S × State S I E)
  | .done s, x => .ok (s, x)
  | .note n k, x => react R j k (x.noteLocked n)
  | .subscribe s k, x =>
    match x.subscribeLocked R s with
    | .ok y => react R j (k x.count) y
    | .error f => .error f
  | .cancel i k, x => react R j k (x.cancelLocked R j i)
  | .isClosed k, x => react R j (k x.isClosed) x

/-- A subscriber is given a notification if it is not closed, multicast.rs:65-67 and the like. -/
def give (R : Dest S I E) (c : Nat) (n : SubscriberNotification I E) (x : State S I E) (j : Nat) :
    Except Fault (State S I E) :=
  if R.isClosed (x.dest j) then .ok x
  else do
    let (s, x) ← react R j (R.push (x.dest j) n) { x with log := x.log ++ [(c, j, n)] }
    pure (x.setDest j s)

/-- `Subscribers::apply`, multicast.rs:50-101. -/
def apply (R : Dest S I E) (ord : Nat → List Nat → List Nat) (c : Nat) (x : State S I E) :
    Deferred I E → Except Fault (State S I E)
  | .note .unsubscribe => (ord c x.members).foldlM (give R c .unsubscribe) { x with members := [] }
  | .note n => (ord c x.members).foldlM (give R c n) x
  | .cancel i =>
    if i ∈ x.members then give R c .unsubscribe { x with members := x.members.filter (· != i) } i
    else .ok x
  | .add i => .ok { x with members := x.members.filter (· != i) ++ [i] }

def isTerminal : Deferred I E → Bool
  | .note n => n.isTerminal
  | _ => false

def isClosing : Deferred I E → Bool
  | .note n => n.isClosing
  | _ => false

/-- multicast.rs:182-184. -/
def applyUnlessClosed (R : Dest S I E) (ord : Nat → List Nat → List Nat) (c : Nat) (d : Deferred I E)
    (x : State S I E) : Except Fault (State S I E) :=
  if x.closedFlag then .ok x else x.apply R ord c d

/-- multicast.rs:186-188. -/
def drainAfter (R : Dest S I E) (ord : Nat → List Nat → List Nat) (c : Nat) (d : Deferred I E)
    (x : State S I E) : Except Fault (State S I E) :=
  if isTerminal d then x.apply R ord c (.note .unsubscribe) else .ok x

/-- Second half of the loop body of `apply_notification_queue`, multicast.rs:173-192. -/
def applyChecked (R : Dest S I E) (ord : Nat → List Nat → List Nat) (c : Nat) (d : Deferred I E)
    (x : State S I E) : Except Fault (State S I E) := do
  let x ← x.applyUnlessClosed R ord c d
  let x ← x.drainAfter R ord c d
  pure (if isClosing d then { x with closedFlag := true } else x)

/-- The loop body of `apply_notification_queue`, multicast.rs:160-193. -/
def applyOne (R : Dest S I E) (ord : Nat → List Nat → List Nat) (x : State S I E)
    (d : Nat × Deferred I E) : Except Fault (State S I E) :=
  match d.2 with
  | .add i =>
    if R.isClosed (x.dest i) then .ok x
    else if x.closedFlag then give R d.1 .unsubscribe x i
    else applyChecked R ord d.1 d.2 x
  | _ => applyChecked R ord d.1 d.2 x

/-- `clean`, multicast.rs:37-40. -/
def clean (R : Dest S I E) (x : State S I E) : State S I E :=
  { x with members := x.members.filter fun i => !R.isClosed (x.dest i) }

/-- `apply_notification_queue`, multicast.rs:132-197, with `k` turns left before the panic. -/
def applyQueue (R : Dest S I E) (ord : Nat → List Nat → List Nat) :
    Nat → State S I E → Except Fault (State S I E)
  | 0, _ => .error .panic
  | k + 1, x =>
    if x.queue.isEmpty then .ok x
    else
      match x.queue.foldlM (applyOne R ord) { x with queue := [] } with
      | .ok y => applyQueue R ord k (y.clean R)
      | .error f => .error f

/-- `MULTICAST_MAX_RECURSION_DEPTH`, multicast.rs:18. -/
def maxRecursionDepth : Nat := 10

/-- `try_apply_deferred`, publish_subject.rs:74-83, not locked. -/
def tryApplyDeferred (R : Dest S I E) (ord : Nat → List Nat → List Nat) (x : State S I E) :
    Except Fault (State S I E) :=
  if x.queue.isEmpty then .ok x else applyQueue R ord maxRecursionDepth x

/-- `try_next`, `try_error`, `try_complete`, `try_unsubscribe`, multicast.rs:217-271, not locked. -/
def tryNote (R : Dest S I E) (ord : Nat → List Nat → List Nat) (x : State S I E)
    (n : SubscriberNotification I E) : Except Fault (State S I E) :=
  match applyQueue R ord maxRecursionDepth x with
  | .error f => .error f
  | .ok y =>
    match n with
    | .unsubscribe => { y with closedFlag := true }.apply R ord x.now (.note .unsubscribe)
    | n => y.apply R ord x.now (.note n)

/-- `next`, `error`, `complete`, `unsubscribe` (publish_subject.rs:172-213, 254-269) before deferred
notifications are applied, not locked. -/
def noteDirect (R : Dest S I E) (ord : Nat → List Nat → List Nat) (x : State S I E)
    (n : SubscriberNotification I E) : Except Fault (State S I E) :=
  match n with
  | .next v => if x.isClosed then .ok x else x.tryNote R ord (.next v)
  | .error e => if x.isClosed then .ok x else { x with observedError := some e }.tryNote R ord (.error e)
  | .complete => if x.isClosed then .ok x else { x with completed := true }.tryNote R ord .complete
  | .unsubscribe => if x.unsubscribed then .ok x else { x with unsubscribed := true }.tryNote R ord .unsubscribe

/-- `next`, `error`, `complete`, `unsubscribe` (publish_subject.rs:172-213, 254-269), not locked. -/
def note (R : Dest S I E) (ord : Nat → List Nat → List Nat) (x : State S I E)
    (n : SubscriberNotification I E) : Except Fault (State S I E) :=
  match (x.record (.note n)).noteDirect R ord n with
  | .ok y => y.tryApplyDeferred R ord
  | .error f => .error f

/-- `try_add_subscriber`, multicast.rs:199-215, not locked, and what follows, publish_subject.rs:145-163. -/
def tryAdd (R : Dest S I E) (ord : Nat → List Nat → List Nat) (x : State S I E) (i : Nat) :
    Except Fault (State S I E) :=
  match applyQueue R ord maxRecursionDepth { x with held := fun k => if k = i then true else x.held k } with
  | .error f => .error f
  | .ok y =>
    match y.apply R ord x.now (.add i) with
    | .error f => .error f
    | .ok z => z.tryApplyDeferred R ord

/-- `subscribe`, publish_subject.rs:108-164, not locked. -/
def subscribe (R : Dest S I E) (ord : Nat → List Nat → List Nat) (x : State S I E) (s : S) :
    Except Fault (State S I E) :=
  match x.tryApplyDeferred R ord with
  | .error f => .error f
  | .ok y =>
    match (y.record (.subscribe y.count)).greet R s with
    | .error f => .error f
    | .ok z => if z.isClosed then .ok z else z.tryAdd R ord y.count

/-- `try_unsubscribe_by_id`, multicast.rs:273-287, not locked, if the subscription is not closed. -/
def tryCancel (R : Dest S I E) (ord : Nat → List Nat → List Nat) (x : State S I E) (i : Nat) :
    Except Fault (State S I E) :=
  if !x.held i || R.isClosed (x.dest i) then .ok x
  else
    match applyQueue R ord maxRecursionDepth x with
    | .error f => .error f
    | .ok y => y.apply R ord x.now (.cancel i)

/-- `MulticastSubscription::unsubscribe`, multicast_subscription.rs:82-93, not locked. -/
def cancel (R : Dest S I E) (ord : Nat → List Nat → List Nat) (x : State S I E) (i : Nat) :
    Except Fault (State S I E) :=
  match (x.record (.cancel i)).tryCancel R ord i with
  | .error f => .error f
  | .ok y => .ok { y with held := fun k => if k = i then false else y.held k }

/-- A subject nobody has used. -/
def init (s : S) : State S I E := ⟨[], false, false, false, none, [], fun _ => s, fun _ => false, 0, [], []⟩

end State

/-- What users do from outside. -/
inductive Op (S I E : Type) where
  | note (n : SubscriberNotification I E)
  | subscribe (s : S)
  | cancel (i : Nat)

def step (R : Dest S I E) (ord : Nat → List Nat → List Nat) (x : State S I E) :
    Op S I E → Except Fault (State S I E)
  | .note n => x.note R ord n
  | .subscribe s => x.subscribe R ord s
  | .cancel i => x.cancel R ord i

def run (R : Dest S I E) (ord : Nat → List Nat → List Nat) (x : State S I E) (ops : List (Op S I E)) :
    Except Fault (State S I E) :=
  ops.foldlM (step R ord) x

end Rx.Publish
