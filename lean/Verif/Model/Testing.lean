import Verif.Model.Subscription

/-!
# What tests are written with

Models `crates/rx_core_testing/src/`: `notification_collector.rs`, `mock_observer.rs`, `multi_round_notification_collector.rs`,
`tracked_iterator.rs`, and of `harness/test_harness.rs` `HarnessDestination` and `assert_terminal_notification`.

An assertion is `true` if it passes, and `false` if it panics. Messages, printing and `Debug` are left out. A collector is used by
one thread at a time: it is behind a mutex whose poison is ignored, so what an assertion that panics leaves behind is what it
found.
-/

namespace Rx.Testing

variable {I E : Type}

/-- `NotificationCollectorState`, notification_collector.rs:48-56, 431-443. -/
structure Collector (I E : Type) where
  observed : List (SubscriberNotification I E) := []
  afterClose : List (SubscriberNotification I E) := []
  closed : Bool := false

namespace Collector

def isUnsubscribe : SubscriberNotification I E → Bool
  | .unsubscribe => true
  | _ => false

def isNext : SubscriberNotification I E → Bool
  | .next _ => true
  | _ => false

def isError : SubscriberNotification I E → Bool
  | .error _ => true
  | _ => false

def isComplete : SubscriberNotification I E → Bool
  | .complete => true
  | _ => false

/-- `push`, lines 75-85. -/
def push (c : Collector I E) (n : SubscriberNotification I E) : Collector I E :=
  if !c.closed then { c with closed := c.closed || isUnsubscribe n, observed := c.observed ++ [n] }
  else { c with afterClose := c.afterClose ++ [n] }

/-- `is_empty`, lines 87-89. -/
def isEmpty (c : Collector I E) : Bool := c.observed.isEmpty && c.afterClose.isEmpty

/-- `len`, lines 91-93. -/
def len (c : Collector I E) : Nat := c.observed.length + c.afterClose.length

/-- `try_nth_notification`, lines 117-124. -/
def tryNth (c : Collector I E) (n : Nat) : Option (SubscriberNotification I E) :=
  if n < c.observed.length then c.observed[n]? else c.afterClose[n - c.observed.length]?

/-- `nth_notification_exists`, lines 126-133. -/
def nthExists (c : Collector I E) (n : Nat) : Bool :=
  if n < c.observed.length then c.observed[n]?.isSome else c.afterClose[n - c.observed.length]?.isSome

/-- `nth_notification_as_next`, lines 95-114. `none` is a panic. -/
def nthAsNext (c : Collector I E) (n : Nat) : Option I :=
  match c.tryNth n with
  | some (.next v) => some v
  | _ => none

/-- `nothing_happened_after_closed`, lines 140-142. -/
def nothingAfterClosed (c : Collector I E) : Bool := c.afterClose.isEmpty

/-- `all_observed_notifications`, lines 147-157. -/
def all (c : Collector I E) : List (SubscriberNotification I E) := c.observed ++ c.afterClose

/-- `all_observed_values`, lines 161-175. -/
def values (c : Collector I E) : List I := c.all.filterMap fun n => match n with | .next v => some v | _ => none

/-- `all_observed_errors`, lines 180-194. -/
def errors (c : Collector I E) : List E := c.all.filterMap fun n => match n with | .error e => some e | _ => none

/-- `count_observed_nexts`, `_errors`, `_completes`, `_unsubscribes`, lines 199-204, 226-231, 253-258, 282-287. -/
def count (p : SubscriberNotification I E → Bool) (c : Collector I E) : Nat := (c.observed.filter p).length

/-- `count_observed_nexts_after_close`, and so on, lines 209-214, 236-241, 263-268, 292-297. -/
def countAfter (p : SubscriberNotification I E → Bool) (c : Collector I E) : Nat := (c.afterClose.filter p).length

/-- `count_all_observed_nexts`, and so on, lines 219-221, 246-248, 273-275, 301-303. -/
def countAll (p : SubscriberNotification I E → Bool) (c : Collector I E) : Nat := c.count p + c.countAfter p

/-- `assert_is_empty`, lines 307-320. -/
def assertEmpty (c : Collector I E) : Bool := c.isEmpty

/-- `assert_nth_notification_is_last`, lines 329-351. -/
def assertNthIsLast (c : Collector I E) (i : Nat) : Bool := (c.tryNth i).isSome && (c.tryNth (i + 1)).isNone

variable [DecidableEq I] [DecidableEq E]

/-- `assert_nth_notification`, lines 354-371. -/
def assertNth (c : Collector I E) (i : Nat) (n : SubscriberNotification I E) : Bool :=
  match c.tryNth i with
  | some a => a == n
  | none => false

/-- `assert_last_notification`, lines 376-398. -/
def assertLast (c : Collector I E) (n : SubscriberNotification I E) : Bool :=
  decide (0 < c.len) && c.assertNth (c.len - 1) n && (c.tryNth c.len).isNone

/-- `assert_notifications`, lines 404-428. -/
def assertAll (c : Collector I E) (offset : Nat) : List (SubscriberNotification I E) → Bool → Bool
  | [], noMore => !noMore || (c.tryNth offset).isNone
  | n :: ns, noMore => c.assertNth offset n && assertAll c (offset + 1) ns noMore

end Collector

/-! ## `MockObserver` -/

/-- A `MockObserver` and its clones: they share the collector, and each has teardowns of its own, mock_observer.rs:14-28. -/
structure Mocks (I E : Type) where
  collector : Collector I E := {}
  data : Nat → SubscriptionData := fun _ => .default
  /-- the teardowns that were called, by which of them -/
  ran : List (Nat × Nat) := []

/-- What is done with the `i`-th. -/
inductive MockOp (I E : Type) where
  | note (i : Nat) (n : SubscriberNotification I E)
  | addTeardown (i : Nat) (t : Teardown)
  | drop (i : Nat)

namespace Mocks

/-- The teardowns of the `i`-th become `r`. -/
def put (m : Mocks I E) (i : Nat) (r : SubscriptionData × List Nat) : Mocks I E :=
  { m with data := fun k => if k = i then r.1 else m.data k, ran := m.ran ++ r.2.map fun t => (i, t) }

def record (m : Mocks I E) (n : SubscriberNotification I E) : Mocks I E := { m with collector := m.collector.push n }

/-- `next`, `error`, `complete`, mock_observer.rs:53-75; `unsubscribe`, lines 88-96. -/
def note (m : Mocks I E) (i : Nat) : SubscriberNotification I E → Mocks I E
  | .next v => m.record (.next v)
  | .error e => (m.record (.error e)).put i (m.data i).unsubscribe
  | .complete => (m.record .complete).put i (m.data i).unsubscribe
  | .unsubscribe => (m.put i (m.data i).unsubscribe).record .unsubscribe

/-- `add_teardown`, lines 105-107, and `Drop`, lines 115-119. -/
def step (m : Mocks I E) : MockOp I E → Mocks I E
  | .note i n => m.note i n
  | .addTeardown i t => m.put i ((m.data i).addTeardown t)
  | .drop i => if !(m.data i).isClosed then m.note i .unsubscribe else m

def run (m : Mocks I E) (l : List (MockOp I E)) : Mocks I E := l.foldl step m

end Mocks

/-! ## The destination of the harness -/

/-- `HarnessDestination`, test_harness.rs:290-326: the only observer of its collector, and how many values it still takes. -/
structure Harness (I E : Type) where
  mock : Mocks I E := {}
  takes : Option Nat := none

/-- test_harness.rs:332-357; `unsubscribe` is that of the observer. -/
def Harness.note (h : Harness I E) : SubscriberNotification I E → Harness I E
  | .next v =>
    match h.takes with
    | some k =>
      if 0 < k then
        let m := h.mock.note 0 (.next v)
        { mock := if k - 1 = 0 ∧ !(m.data 0).isClosed then m.note 0 .complete else m, takes := some (k - 1) }
      else h
    | none => { h with mock := h.mock.note 0 (.next v) }
  | .error e => { h with mock := h.mock.note 0 (.error e) }
  | .complete => { h with mock := h.mock.note 0 .complete }
  | .unsubscribe => { h with mock := h.mock.note 0 .unsubscribe }

def Harness.run (h : Harness I E) (l : List (SubscriberNotification I E)) : Harness I E := l.foldl Harness.note h

/-- `assert_terminal_notification`, test_harness.rs:165-216: `closed` is what `is_closed` of the subscription says; `up`, `down` and `sub`
are the trackers (`none` if there is none, else whether the teardown ran). -/
def assertTerminal [DecidableEq I] [DecidableEq E] (c : Collector I E) (closed : Bool) (up down sub : Option Bool)
    (n : SubscriberNotification I E) : Bool :=
  if c.len = 0 then false
  else match n with
    | .next _ => false
    | n => c.assertAll (c.len - 1) [n] true && closed && up == some true && down == some true && sub == some true

/-! ## Rounds -/

/-- `get_round`, multi_round_notification_collector.rs:49-56: collectors are the numbers in which they were made. `none` is a panic:
`Vec::insert` panics if the index is greater than the length. -/
def getRound (rounds : List Nat) (made : Nat) (round : Nat) : Option (Nat × List Nat) :=
  match rounds[round]? with
  | some c => some (c, rounds)
  | none => if round ≤ rounds.length then some (made, rounds.insertIdx round made) else none

/-- `has_round`, lines 59-61. -/
def hasRound (rounds : List Nat) (round : Nat) : Bool := rounds[round]?.isSome

/-- Rounds asked for, one after the other; which collectors were returned. -/
def getRounds (rounds : List Nat) (made : Nat) : List Nat → Option (List Nat × List Nat)
  | [] => some ([], rounds)
  | r :: rs => do
    let (c, rounds) ← getRound rounds made r
    let (cs, rounds) ← getRounds rounds (made + 1) rs
    pure (c :: cs, rounds)

/-! ## Tracked iterators -/

/-- `IteratorTrackingData`, tracked_iterator.rs:64-83, 115-150, with, for each instance, what is left of its iterator. -/
structure Tracking (α : Type) where
  instances : List (List α × Nat × Bool) := []

inductive TrackOp (α : Type) where
  /-- `into_iter` of it or a clone; the iterator's items are given -/
  | iter (items : List α)
  /-- `next` on the `i`-th -/
  | next (i : Nat)

/-- `TrackedIntoIter::next`, tracked_iterator.rs:100-112, for an iterator that gives its items and then nothing. -/
def Tracking.step (t : Tracking α) : TrackOp α → Tracking α × Option α
  | .iter items => (⟨t.instances ++ [(items, 0, false)]⟩, none)
  | .next i =>
    match t.instances[i]? with
    | some (x :: xs, n, f) => (⟨t.instances.set i (xs, n + 1, f)⟩, some x)
    | some ([], n, _) => (⟨t.instances.set i ([], n, true)⟩, none)
    | none => (t, none)

def Tracking.run (t : Tracking α) (l : List (TrackOp α)) : Tracking α := l.foldl (fun t op => (t.step op).1) t

end Rx.Testing
