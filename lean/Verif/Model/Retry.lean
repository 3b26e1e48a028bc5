import Verif.Model.Subscriber

/-!
# retry

Models `crates/rx_core_operator_retry/src`: `RetryObservable::subscribe` and `RetrySubscriber`.

Simplifications.
* The source is what it emits while it is subscribed for the `k`-th time (from 0), for each `k`; what it emits
  later is part of the history. Once it has completed, failed or been unsubscribed it emits nothing, and its
  subscription is closed; the same once it finds its subscriber closed after having emitted.
* The destination does not call back. It is held by a `SharedSubscriber`, which then does nothing but ignore calls
  once the destination is closed (property C25).
* `caught_error`, `source` and `last_subscription` are shared by the subscribers of all attempts.
  `finished_with` is read by `finish`, which is called next, and by `unsubscribe`, which is called after that only if
  the attempt has ended.
* A subscription that is unsubscribed while its subscriber handles a notification defers that; in `RetrySubscriber`
  it then has no effect, because the subscriber has `finish`ed or has `finished_with` an error. This is what `busy`
  is for.
-/

namespace Rx.Retry

variable {S I E : Type}

/-- What the source does when it is subscribed. -/
abbrev Source (I E : Type) := Nat → List (SubscriberNotification I E)

/-- Ghost: a log. -/
inductive Log (I E : Type) where
  /-- the source is subscribed -/
  | sub (k : Nat)
  /-- it has ended or was unsubscribed -/
  | done (k : Nat)
  /-- the destination is notified -/
  | out (n : SubscriberNotification I E)
deriving DecidableEq, Repr

/-- What the subscribers share, retry_subscriber.rs:16-30, retry_observable.rs:56-63. -/
structure State (S I E : Type) where
  dest : S
  /-- `source` is `None`, somebody is subscribing to it -/
  stolen : Bool := false
  caught : Option E := none
  last : Option Nat := none
  outerClosed : Bool := false
  /-- `last_subscription` has been added to `outer_subscription` -/
  added : Bool := false
  /-- `RetrySubscriber::retries` of each attempt -/
  retries : Nat → Nat := fun _ => 0
  /-- attempts that have not ended -/
  opened : List Nat := []
  /-- the attempt handling a notification or being subscribed -/
  busy : List Nat := []
  /-- number of subscriptions of the source -/
  count : Nat := 0
  log : List (Log I E) := []

variable (D : Sub S I E) (max : Nat) (src : Source I E)

/-- The destination is notified. -/
def give (n : SubscriberNotification I E) (x : State S I E) : State S I E :=
  if D.isClosed x.dest then x else { x with dest := D.push x.dest n, log := x.log ++ [.out n] }

/-- The attempt has ended. -/
def ended (a : Nat) (x : State S I E) : State S I E :=
  if a ∈ x.opened then { x with opened := x.opened.erase a, log := x.log ++ [.done a] } else x

/-- `SharedSubscription::unsubscribe` of an attempt, and `RetrySubscriber::unsubscribe` (retry_subscriber.rs:158-162)
if `outer_subscription` is closed. -/
def cancelShut (a : Nat) (x : State S I E) : State S I E :=
  if a ∈ x.opened then
    let x := ended a x
    if a ∈ x.busy || x.caught.isSome then x else give D .unsubscribe x
  else x

/-- `outer_subscription.unsubscribe()`. -/
def outerUnsubscribe (x : State S I E) : State S I E :=
  if x.outerClosed then x
  else
    let x := { x with outerClosed := true }
    match x.last with
    | some a => if x.added then cancelShut D a x else x
    | none => x

/-- `finish`, retry_subscriber.rs:69-78. -/
def finish (n : Option (SubscriberNotification I E)) (x : State S I E) : State S I E :=
  let x := match n with
    | some n => give D n x
    | none => x
  give D .unsubscribe (outerUnsubscribe D x)

/-- `unsubscribe`, retry_subscriber.rs:158-162. -/
def unsubscribe (x : State S I E) : State S I E := if x.caught.isSome then x else finish D none x

/-- `SharedSubscription::unsubscribe` of an attempt. -/
def cancel (a : Nat) (x : State S I E) : State S I E :=
  if a ∈ x.opened then
    let x := ended a x
    if a ∈ x.busy then x else unsubscribe D x
  else x

/-- What an attempt does while it is being subscribed; errors are caught, retry_subscriber.rs:98-101. -/
def during (a : Nat) (x : State S I E) (n : SubscriberNotification I E) : State S I E :=
  if a ∈ x.opened then
    match n with
    -- lines 87-93
    | .next v =>
      let x := give D (.next v) x
      if D.isClosed x.dest then ended a (unsubscribe D x) else x
    | .error e => ended a { x with caught := some e }
    -- lines 142-145
    | .complete => finish D (some .complete) (ended a x)
    | .unsubscribe => unsubscribe D (ended a x)
  else x

/-- `stolen_source.subscribe(RetrySubscriber::new(…, retries, …))`, the source being stolen. -/
def attempt (retries : Nat) (x : State S I E) : State S I E :=
  let k := x.count
  let y := (src k).foldl (during D k) { x with
    stolen := true
    count := k + 1
    opened := x.opened ++ [k]
    busy := k :: x.busy
    retries := fun b => if b = k then retries else x.retries b
    log := x.log ++ [.sub k] }
  let y := { y with stolen := false, busy := x.busy }
  if k ∈ y.opened then { y with last := some k } else y

/-- `last_subscription.take()` and unsubscribe it. -/
def cancelLast (x : State S I E) : State S I E :=
  match x.last with
  | some a => cancel D a { x with last := none }
  | none => x

/-- `outer_subscription.add(last_subscription)`. -/
def addLast (x : State S I E) : State S I E :=
  if x.outerClosed then
    match x.last with
    | some a => cancelShut D a x
    | none => x
  else { x with added := true }

/-- The loop of `subscribe`, retry_observable.rs:65-99; `i` is `immediate_retries`, `fuel` what is left of it. -/
def subscribeLoop : (fuel i : Nat) → State S I E → Nat × State S I E
  | 0, i, x => (i, x)
  | fuel + 1, i, x =>
    let x := attempt D src i { x with caught := none }
    if x.caught.isSome then subscribeLoop fuel (i + 1) (cancelLast D x)
    else if D.isClosed x.dest then (i + 1, x)
    else (i + 1, addLast D x)

/-- `RetryObservable::subscribe`, retry_observable.rs:48-110. -/
def subscribe (s : S) : State S I E :=
  let (i, x) := subscribeLoop D src (max + 1) 0 { dest := s }
  if i > max then
    let x := match x.caught with
      | some e => give D (.error e) { x with caught := none }
      | none => x
    outerUnsubscribe D (give D .unsubscribe x)
  else x

/-- The loop of `error`, retry_subscriber.rs:103-132; `r` is `self.retries`, `fuel` what is left of it. -/
def errorLoop : (fuel r : Nat) → State S I E → Nat × State S I E
  | 0, r, x => (r, x)
  | fuel + 1, r, x =>
    -- `reset`, lines 57-67
    let x := { cancelLast D { x with stolen := true } with caught := none }
    let x := attempt D src (r + 1) x
    if x.caught.isSome then errorLoop fuel (r + 1) x else (r + 1, addLast D x)

/-- `error` when nobody is subscribing to the source, retry_subscriber.rs:95-139. -/
def error (a : Nat) (e : E) (x : State S I E) : State S I E :=
  let (r, x) := errorLoop D src (max + 1 - x.retries a) (x.retries a) x
  if r > max then finish D (some (.error e)) x else x

/-- An attempt notifies its subscriber later. -/
def later (a : Nat) (n : SubscriberNotification I E) (x : State S I E) : State S I E :=
  if a ∈ x.opened then
    let y := match n with
      | .next v =>
        let y := give D (.next v) { x with busy := a :: x.busy }
        if D.isClosed y.dest then ended a (unsubscribe D y) else y
      | .error e => error D max src a e (ended a { x with busy := a :: x.busy })
      | .complete => finish D (some .complete) (ended a { x with busy := a :: x.busy })
      | .unsubscribe => unsubscribe D (ended a { x with busy := a :: x.busy })
    { y with busy := x.busy }
  else x

/-- What happens after subscribing. -/
inductive Event (I E : Type) where
  | source (a : Nat) (n : SubscriberNotification I E)
  /-- the subscription returned is unsubscribed -/
  | unsubscribe

def step (x : State S I E) : Event I E → State S I E
  | .source a n => later D max src a n x
  | .unsubscribe => outerUnsubscribe D x

/-- `retry(max)` is subscribed, and a history follows. -/
def run (s : S) (es : List (Event I E)) : State S I E := es.foldl (step D max src) (subscribe D max src s)

end Rx.Retry
