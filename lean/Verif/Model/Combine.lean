import Verif.Model.SubscriberState
import Verif.Model.Subscriber

/-!
# Notification stores and combination observables

Models `crates/rx_core_notification_store/src/{notification_queue,notification_state}.rs`,
`crates/rx_core_notification_variadics/src/*.rs`, the subscribers of `zip`, `combine_latest`,
`combine_changes` and `join`, and `with_latest_from`.

Functions that may fail a `debug_assert!` return `none` then (a panic in debug builds).
-/

namespace Rx

/-! ## `NotificationQueue` -/

/-- `QueueOverflowBehavior`, queue_overflow_options.rs:1-8. -/
inductive QueueOverflowBehavior where
  | dropOldest
  | ignoreNext
deriving DecidableEq, Repr

/-- `QueueOverflowOptions`, queue_overflow_options.rs:10-24. -/
structure QueueOverflowOptions where
  maxQueueLength : Nat := 100
  overflowBehavior : QueueOverflowBehavior := .dropOldest
deriving DecidableEq, Repr

/-- `NotificationQueue`, notification_queue.rs:12-28. -/
structure NotificationQueue (I E : Type) where
  queue : List (SubscriberNotification I E)
  err : Option E
  state : SubscriberState
  options : QueueOverflowOptions
deriving DecidableEq, Repr

/-- `matches!(notification, SubscriberNotification::Next(_))`. -/
def SubscriberNotification.isNext {I E : Type} : SubscriberNotification I E → Bool
  | .next _ => true
  | _ => false

namespace NotificationQueue
variable {I E : Type}

/-- `new`, notification_queue.rs:35-42. -/
def new (options : QueueOverflowOptions) : NotificationQueue I E := ⟨[], none, .default, options⟩

/-- `count_nexts`, notification_queue.rs:140-145. -/
def countNexts (q : NotificationQueue I E) : Nat := (q.queue.filter (·.isNext)).length

/-- `has_next`, notification_queue.rs:147-151. -/
def hasNext (q : NotificationQueue I E) : Bool := q.queue.any (·.isNext)

/-- `is_empty`, notification_queue.rs:154-156. -/
def isEmpty (q : NotificationQueue I E) : Bool := q.queue.isEmpty

/-- `drop_oldest`, notification_queue.rs:103-113: the index is counted from the back, but removed
from the front. -/
def dropOldest (q : NotificationQueue I E) : NotificationQueue I E :=
  match q.queue.reverse.findIdx? (·.isNext) with
  | some i => { q with queue := q.queue.eraseIdx i }
  | none => q

/-- `push`, notification_queue.rs:82-101. -/
def push (q : NotificationQueue I E) (n : SubscriberNotification I E) :
    Option (NotificationQueue I E) :=
  let full := decide (q.options.maxQueueLength ≤ q.countNexts) && n.isNext
  if full && q.options.overflowBehavior == .ignoreNext then some q
  else
    let q := if full then q.dropOldest else q
    match n with
    | .error e => (q.state.error).map fun s => { q with err := some e, state := s }
    | n =>
      if q.queue.isEmpty then
        (q.state.updateWithNotification n).map fun s => { q with queue := q.queue ++ [n], state := s }
      else some { q with queue := q.queue ++ [n] }

/-- `update_with_front_notification`, notification_queue.rs:158-162. -/
def updateWithFront (q : NotificationQueue I E) : Option (NotificationQueue I E) :=
  match q.queue with
  | n :: _ => (q.state.updateWithNotification n).map fun s => { q with state := s }
  | [] => some q

/-- `pop_next_if_in_front`, notification_queue.rs:115-128. -/
def popNextIfInFront (q : NotificationQueue I E) : Option (NotificationQueue I E × Option I) :=
  match q.queue with
  | .next v :: rest => ({ q with queue := rest }.updateWithFront).map fun q => (q, some v)
  | _ => some (q, none)

/-- `take_error`, notification_queue.rs:165-167. -/
def takeError (q : NotificationQueue I E) : NotificationQueue I E × Option E :=
  ({ q with err := none }, q.err)

end NotificationQueue

/-! ## `NotificationState` -/

/-- `NotificationState`, notification_state.rs:9-19. -/
structure NotificationState (I E : Type) where
  value : Option I
  err : Option E
  state : SubscriberState
deriving DecidableEq, Repr

namespace NotificationState
variable {I E : Type}

/-- `default`, notification_state.rs:27-33. -/
def default : NotificationState I E := ⟨none, none, .default⟩

/-- `push`, notification_state.rs:115-122, with `next` 57-60, `error` 86-89, `complete` 104-106 and
`unsubscribe` 109-113. -/
def push (s : NotificationState I E) : SubscriberNotification I E → Option (NotificationState I E)
  | .next v => s.state.next.map fun st => { s with state := st, value := some v }
  | .error e => s.state.error.map fun st => { s with state := st, err := some e }
  | .complete => s.state.complete.map fun st => { s with state := st }
  | .unsubscribe =>
    if !s.state.isUnsubscribed then s.state.unsubscribe.map fun st => { s with state := st }
    else some s

/-- `take_error`, notification_state.rs:99-101. -/
def takeError (s : NotificationState I E) : NotificationState I E × Option E :=
  ({ s with err := none }, s.err)

end NotificationState

/-! ## Two inputs, one subscriber -/

/-- `EitherObservableNotification2`, either_observable_notification_2.rs:3-11. -/
inductive Either2 (A E₁ B E₂ : Type) where
  | o1 (n : SubscriberNotification A E₁)
  | o2 (n : SubscriberNotification B E₂)
deriving DecidableEq, Repr

/-- A subscriber over two inputs: `next` is its `RxObserver::next` given an
`EitherObservableNotification2` (the other functions are unreachable: `EitherSubscriber2` turns every
notification into `next`, either_subscriber_2.rs:57-96). Its `is_closed` is that of the destination. -/
structure Combiner (A E₁ B E₂ O F : Type) where
  St : Type
  init : St
  next : {S : Type} → Sub S O F → St × S → Either2 A E₁ B E₂ → Option (St × S)

namespace Combiner
variable {A E₁ B E₂ O F S : Type}

/-- The two inputs share the subscriber through a `SharedSubscriber`, whose `next` does nothing when
closed (subscriber_shared.rs:325-335; nobody calls the `SharedSubscriber`'s own
`complete`/`error`/`unsubscribe` here, so it is closed iff the destination is).
Notifications that arrive while another is being processed are deferred until after it
(property C25), so the inputs are an interleaving. -/
def step (C : Combiner A E₁ B E₂ O F) (D : Sub S O F) (x : C.St × S) (n : Either2 A E₁ B E₂) :
    Option (C.St × S) :=
  if D.isClosed x.2 then some x else C.next D x n

def run (C : Combiner A E₁ B E₂ O F) (D : Sub S O F) (x : C.St × S)
    (es : List (Either2 A E₁ B E₂)) : Option (C.St × S) :=
  es.foldlM (C.step D) x

end Combiner

section
variable {A E₁ B E₂ F : Type}

/-- `ZipSubscriber`, zip_subscriber.rs:51-167. `i₁`, `i₂` are the `Into` conversions of the errors. -/
def zipCombiner (options : QueueOverflowOptions) (i₁ : E₁ → F) (i₂ : E₂ → F) :
    Combiner A E₁ B E₂ (A × B) F where
  St := NotificationQueue A E₁ × NotificationQueue B E₂
  init := (.new options, .new options)
  next D x n := do
    -- lines 109-120
    let (q₁, q₂, eitherWasNext) ← match n with
      | .o1 n => (x.1.1.push n).map fun q => (q, x.1.2, n.isNext)
      | .o2 n => (x.1.2.push n).map fun q => (x.1.1, q, n.isNext)
    let s := x.2
    -- take_either_error, lines 70-75; `or_else` does not touch the second if the first has one
    let (q₁, r₁) := q₁.takeError
    match r₁ with
    | some e => some ((q₁, q₂), D.error s (i₁ e))
    | none =>
      let (q₂, r₂) := q₂.takeError
      match r₂ with
      | some e => some ((q₁, q₂), D.error s (i₂ e))
      | none =>
        -- lines 127-132, get_next 59-68
        let (q₁, q₂, s) ←
          if eitherWasNext && !D.isClosed s && (q₁.hasNext && q₂.hasNext) then do
            let (q₁, v₁) ← q₁.popNextIfInFront
            let (q₂, v₂) ← q₂.popNextIfInFront
            match v₁, v₂ with
            | some v₁, some v₂ => pure (q₁, q₂, D.next s (v₁, v₂))
            | _, _ => pure (q₁, q₂, s)
          else pure (q₁, q₂, s)
        -- try_complete, lines 77-85
        let s := if !D.isClosed s &&
            ((q₁.state.isCompleted && q₂.state.isCompleted) || (q₁.state.isCompleted && q₂.isEmpty) ||
              (q₁.isEmpty && q₂.state.isCompleted))
          then D.complete s else s
        -- try_unsubscribe, lines 87-95
        let s := if !D.isClosed s &&
            ((q₁.state.isClosed && q₂.state.isClosed) || (q₁.isEmpty && q₂.state.isClosed) ||
              (q₁.state.isClosed && q₂.isEmpty))
          then D.unsubscribe s else s
        pure ((q₁, q₂), s)

/-- `CombineLatestSubscriber`, combine_latest_subscriber.rs:49-159. -/
def combineLatestCombiner (i₁ : E₁ → F) (i₂ : E₂ → F) : Combiner A E₁ B E₂ (A × B) F where
  St := NotificationState A E₁ × NotificationState B E₂
  init := (.default, .default)
  next D x n := do
    -- lines 103-114
    let (s₁, s₂, eitherWasNext) ← match n with
      | .o1 n => (x.1.1.push n).map fun q => (q, x.1.2, n.isNext)
      | .o2 n => (x.1.2.push n).map fun q => (x.1.1, q, n.isNext)
    let s := x.2
    -- take_either_error, lines 64-69
    let (s₁, r₁) := s₁.takeError
    match r₁ with
    | some e => some ((s₁, s₂), D.error s (i₁ e))
    | none =>
      let (s₂, r₂) := s₂.takeError
      match r₂ with
      | some e => some ((s₁, s₂), D.error s (i₂ e))
      | none =>
        -- try_complete, lines 71-79
        let s := if !D.isClosed s &&
            ((s₁.state.isCompleted && s₂.state.isCompleted) ||
              (s₁.state.isPrimed && s₂.state.isCompletedButNotPrimed) ||
              (s₁.state.isCompletedButNotPrimed && s₂.state.isPrimed))
          then D.complete s else s
        -- try_unsubscribe, lines 81-89
        let s := if !D.isClosed s &&
            ((s₁.state.isClosed && s₂.state.isClosed) ||
              (s₁.state.isWaiting && s₂.state.isClosedButNotPrimed) ||
              (s₁.state.isClosedButNotPrimed && s₂.state.isWaiting))
          then D.unsubscribe s else s
        -- lines 124-129, get_next 57-62
        let s := if eitherWasNext && !D.isClosed s then
            match s₁.value, s₂.value with
            | some v₁, some v₂ => D.next s (v₁, v₂)
            | _, _ => s
          else s
        pure ((s₁, s₂), s)

/-- `Change`, change.rs:1-6. -/
inductive Change (T : Type) where
  | justUpdated (v : T)
  | latest (v : T)
  | none
deriving DecidableEq, Repr

/-- combine_changes_subscriber.rs:115-125 (and 127-137). -/
def Change.of {T : Type} (justNexted : Bool) : Option T → Change T
  | some v => if justNexted then .justUpdated v else .latest v
  | .none => .none

/-- `CombineChangesSubscriber`, combine_changes_subscriber.rs:51-170. -/
def combineChangesCombiner (i₁ : E₁ → F) (i₂ : E₂ → F) :
    Combiner A E₁ B E₂ (Change A × Change B) F where
  St := NotificationState A E₁ × NotificationState B E₂
  init := (.default, .default)
  next D x n := do
    -- lines 93-104
    let (s₁, s₂, n₁, n₂) ← match n with
      | .o1 n => (x.1.1.push n).map fun q => (q, x.1.2, n.isNext, false)
      | .o2 n => (x.1.2.push n).map fun q => (x.1.1, q, false, n.isNext)
    let s := x.2
    -- take_either_error, lines 59-64
    let (s₁, r₁) := s₁.takeError
    match r₁ with
    | some e => some ((s₁, s₂), D.error s (i₁ e))
    | none =>
      let (s₂, r₂) := s₂.takeError
      match r₂ with
      | some e => some ((s₁, s₂), D.error s (i₂ e))
      | none =>
        -- try_complete, lines 66-72
        let s := if !D.isClosed s && (s₁.state.isCompleted && s₂.state.isCompleted)
          then D.complete s else s
        -- try_unsubscribe, lines 74-79
        let s := if !D.isClosed s && (s₁.state.isClosed && s₂.state.isClosed)
          then D.unsubscribe s else s
        -- lines 114-140
        let s := if !D.isClosed s && (n₁ || n₂)
          then D.next s (.of n₁ s₁.value, .of n₂ s₂.value) else s
        pure ((s₁, s₂), s)

/-- `JoinSubscriber`, join_subscriber.rs:51-159. -/
def joinCombiner (i₁ : E₁ → F) (i₂ : E₂ → F) : Combiner A E₁ B E₂ (A × B) F where
  St := NotificationState A E₁ × NotificationState B E₂
  init := (.default, .default)
  next D x n := do
    -- lines 104-121
    let (s₁, s₂) ← match n with
      | .o1 n => if !x.1.1.state.updateWouldBeInvalid n
          then (x.1.1.push n).map fun q => (q, x.1.2) else some x.1
      | .o2 n => if !x.1.2.state.updateWouldBeInvalid n
          then (x.1.2.push n).map fun q => (x.1.1, q) else some x.1
    let s := x.2
    -- take_either_error, lines 66-71
    let (s₁, r₁) := s₁.takeError
    match r₁ with
    | some e => some ((s₁, s₂), D.error s (i₁ e))
    | none =>
      let (s₂, r₂) := s₂.takeError
      match r₂ with
      | some e => some ((s₁, s₂), D.error s (i₂ e))
      | none =>
        -- try_complete, lines 73-83, get_next 59-64
        let s := if !D.isClosed s && (s₁.state.isCompleted && s₂.state.isCompleted) then
            D.complete (match s₁.value, s₂.value with
              | some v₁, some v₂ => D.next s (v₁, v₂)
              | _, _ => s)
          else s
        -- try_unsubscribe, lines 85-90
        let s := if !D.isClosed s && (s₁.state.isClosed && s₂.state.isClosed)
          then D.unsubscribe s else s
        pure ((s₁, s₂), s)

end

/-! ## `with_latest_from` -/

/-- `WithLatestFromInnerDestinationState`, with_latest_from_inner_destination.rs:7-15. -/
structure LatestState (B : Type) where
  latest : Option B
  error : Bool
  completed : Bool
deriving DecidableEq, Repr

/-- `is_finished`, with_latest_from_inner_destination.rs:22-24. -/
def LatestState.isFinished {B : Type} (s : LatestState B) : Bool := s.completed || s.error

/-- `WithLatestFromSubscriber` (with_latest_from_subscriber.rs:42-104) for source notifications
`o1`, and for notifications `o2` of the inner observable its `WithLatestFromInnerDestination`
(with_latest_from_inner_destination.rs:30-105), which is wrapped in an `ObserverSubscriber`
(`open` says whether that is still open: it closes on the inner's terminal notification and when
`WithLatestFromSubscriber::unsubscribe` unsubscribes the inner subscription). The destination is
behind a `SharedSubscriber`: closed means inert, so every call on it is guarded. -/
structure WithLatestSt (B : Type) where
  inner : LatestState B
  isOpen : Bool
deriving DecidableEq, Repr

def withLatestInit {B : Type} : WithLatestSt B := ⟨⟨none, false, false⟩, true⟩

/-- A call on the `SharedSubscriber` in front of the destination (subscriber_shared.rs:325-393
without concurrency). -/
def Sub.guarded {S I E : Type} (D : Sub S I E) (s : S) (n : SubscriberNotification I E) : S :=
  if D.isClosed s then s else D.push s n

def withLatestStep {A B F S : Type} (D : Sub S (A × B) F) (x : WithLatestSt B × S) :
    Either2 A F B F → WithLatestSt B × S
  -- with_latest_from_subscriber.rs:68-74
  | .o1 (.next v) =>
    match x.1.inner.latest with
    | some l => (x.1, D.guarded x.2 (.next (v, l)))
    | none => x
  -- lines 77-79
  | .o1 (.error e) => (x.1, D.guarded x.2 (.error e))
  -- lines 82-84
  | .o1 .complete => (x.1, D.guarded x.2 .complete)
  -- lines 100-103
  | .o1 .unsubscribe => ({ x.1 with isOpen := false }, D.guarded x.2 .unsubscribe)
  | .o2 n =>
    if x.1.isOpen then
      match n with
      -- with_latest_from_inner_destination.rs:30-34, 87-89
      | .next v => if !x.1.inner.isFinished
          then ({ x.1 with inner := { x.1.inner with latest := some v } }, x.2) else x
      -- lines 36-40, 92-95
      | .error e =>
        (⟨if !x.1.inner.isFinished then { x.1.inner with error := true } else x.1.inner, false⟩,
          D.guarded x.2 (.error e))
      -- lines 42-46, 98-104
      | .complete =>
        (⟨if !x.1.inner.isFinished then { x.1.inner with completed := true } else x.1.inner, false⟩,
          if x.1.inner.latest.isNone then D.guarded x.2 .complete else x.2)
      | .unsubscribe => ({ x.1 with isOpen := false }, x.2)
    else x

def withLatestRun {A B F S : Type} (D : Sub S (A × B) F) (x : WithLatestSt B × S)
    (es : List (Either2 A F B F)) : WithLatestSt B × S :=
  es.foldl (withLatestStep D) x

end Rx
