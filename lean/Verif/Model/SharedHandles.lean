/-!
# `SharedSubscription` used by several threads

Models `unsubscribe`, `is_closed`, `add_teardown` and `drop` of
`crates/rx_core_common/src/subscriptions/subscription_shared.rs`, and the `SubscriptionData`
(subscription_data.rs) it shares, at lock granularity: a step is what one thread does between two
operations on the two mutexes, and running a teardown is a step of its own. The mutex of the deferred
state is only held within a step; the mutex of the subscription is `lock`, which `unsubscribe`,
`is_closed` and `drop` take with `try_lock`, while `add_teardown` waits for it.

Simplifications: teardowns do not call back (C04 is about that) and do not panic (C75); what
`add_teardown` does when the mutex is poisoned is left out, it waits for good (`C84_no_panic` shows that
this does not come up); in `is_closed` and `add_teardown` the release of the lock is one step with what
is done under it.
-/

namespace Rx.Handles

/-- Whose call of `apply_notification_queue` it is: that of `try_apply_deferred` at the start (193) or at
the end (208) of `unsubscribe`, that of `try_unsubscribe` (167), that of `drop` (215). -/
inductive Why where
  | start
  | own
  | finish
  | drop
deriving DecidableEq

/-- Where a thread is. Line numbers are of subscription_shared.rs. -/
inductive PC where
  | idle
  /-- `unsubscribe`: `try_apply_deferred` is about to look at the queue (193, 111) -/
  | start
  /-- and about to `try_lock` (112) -/
  | startApply
  /-- about to note that an unsubscribe was seen (195-200) -/
  | observe
  /-- `try_unsubscribe`, about to `try_lock` (165) -/
  | attempt
  /-- about to defer (203-205) -/
  | deferring
  /-- `try_apply_deferred` is about to look at the queue (208, 111) -/
  | finish
  /-- and about to `try_lock` (112) -/
  | finishApply
  /-- at the top of the loop of `apply_notification_queue` (125), holding the lock -/
  | top (w : Why) (depth : Nat)
  /-- at the top of the loop over the drained notifications (149), `n` of which are left; all of them are
  `Unsubscribe`, notification_subscription.rs:15-17 -/
  | deliver (w : Why) (depth n : Nat)
  /-- in `SubscriptionData::unsubscribe` (subscription_data.rs:54-56), called in 154 -/
  | running (w : Why) (depth n : Nat)
  /-- about to close the flag (157-159) -/
  | marking (w : Why) (depth n : Nat)
  /-- `try_unsubscribe`, about to close the flag (169) -/
  | sealing
  /-- `try_unsubscribe`, about to look whether the subscription is closed (171) -/
  | closing
  /-- in `SubscriptionData::unsubscribe` (subscription_data.rs:54-56), called in 172 -/
  | ownRunning
  /-- about to release the lock -/
  | unlock (w : Why)
  /-- `add_teardown`, waiting for the lock (subscriber_arc_mutex.rs:105) -/
  | adding (td : Nat)
  /-- `add_teardown`, holding the lock (subscriber_arc_mutex.rs:107) -/
  | addHeld (td : Nat)
  /-- `is_closed`: 184, 187 and 188 -/
  | query
  | queryAsk
  | queryHeld
  /-- `drop`: `try_apply_deferred` is about to look at the queue (215, 111) -/
  | dropping
  /-- and about to `try_lock` (112) -/
  | dropApply
  /-- the clone is about to be gone -/
  | leaving
  /-- has panicked in `apply_notification_queue` (131) -/
  | panicked
deriving DecidableEq

/-- What can be seen. -/
inductive Mark where
  /-- `unsubscribe` is called, and returns -/
  | unsub (t : Nat)
  | unsubRet (t : Nat)
  /-- `add_teardown` has taken a teardown in -/
  | added (td : Nat)
  /-- a teardown runs -/
  | ran (td : Nat)
  /-- `is_closed` is called, and answers -/
  | ask (t : Nat)
  | answer (t : Nat) (b : Bool)
  /-- the last clone is gone -/
  | gone
  /-- "SubscriptionDeferredState was dropped dirty!" (72-75) -/
  | dirty
  /-- "Notification queue depth have exceeded" (131-133) -/
  | panic
deriving DecidableEq

/-- All threads, both mutexes and what they protect. -/
structure State where
  pc : Nat → PC
  /-- who holds the mutex of the subscription, and whether it is poisoned -/
  lock : Option Nat
  poisoned : Bool
  /-- `SubscriptionDeferredState`, 17-26; of the queue the length -/
  queue : Nat
  flag : Bool
  observed : Bool
  /-- `SubscriptionData`, subscription_data.rs:17-20 -/
  closed : Bool
  finalizers : List Nat
  /-- one entry for each clone: the thread that owns it -/
  handles : List Nat
  trace : List Mark

/-- `default`, 89, and clones of it given to the threads `owners`. -/
def init (owners : List Nat) : State :=
  ⟨fun _ => .idle, none, false, 0, false, false, false, [], owners, []⟩

namespace State

/-- Thread `t` moves on. -/
def goto (x : State) (t : Nat) (p : PC) : State :=
  { x with pc := fun u => if u = t then p else x.pc u }

/-- Something to be seen happens. -/
def note (x : State) (m : Mark) : State := { x with trace := x.trace ++ [m] }

/-- `try_lock` succeeds. -/
def free (x : State) : Bool := x.lock.isNone && !x.poisoned

/-- The lock is taken. -/
def take (x : State) (t : Nat) : State := { x with lock := some t }

/-- The lock is released. -/
def release (x : State) : State := { x with lock := none }

/-- The last clone is gone: `SubscriptionData::drop` (subscription_data.rs:85-89) unsubscribes, then the
deferred state is dropped (67-77). -/
def last (x : State) : State :=
  { x with
    closed := true
    flag := true
    finalizers := []
    trace := x.trace ++ (if x.closed then [] else x.finalizers.map .ran) ++
      (if x.queue = 0 then [] else [.dirty]) ++ [.gone] }

end State

/-- SUBSCRIPTION_MAX_RECURSION_DEPTH, 11. -/
def maxDepth : Nat := 10

/-- A busy thread goes on. -/
def advance (x : State) (t : Nat) : State :=
  match x.pc t with
  | .idle | .panicked => x
  | .start => x.goto t (if x.queue = 0 then .observe else .startApply)
  | .startApply => if x.free then (x.take t).goto t (.top .start 0) else x.goto t .observe
  | .observe => { x with observed := true }.goto t (if x.observed then .finish else .attempt)
  | .attempt => if x.free then (x.take t).goto t (.top .own 0) else x.goto t .deferring
  | .deferring =>
    -- `defer_notification`, 29-39
    let isFirstUnsubscribe := !x.observed
    (if x.flag && !isFirstUnsubscribe then x else { x with queue := x.queue + 1 }).goto t .finish
  | .finish => if x.queue = 0 then (x.note (.unsubRet t)).goto t .idle else x.goto t .finishApply
  | .finishApply =>
    if x.free then (x.take t).goto t (.top .finish 0) else (x.note (.unsubRet t)).goto t .idle
  | .top w depth =>
    if depth = maxDepth then
      ({ x with lock := none, poisoned := true }.note .panic).goto t .panicked
    else if x.queue = 0 then x.goto t (match w with | .own => .sealing | w => .unlock w)
    else { x with queue := 0 }.goto t (.deliver w depth x.queue)
  | .deliver w depth 0 => x.goto t (.top w (depth + 1))
  | .deliver w depth (n + 1) =>
    if x.flag || x.closed then x.goto t (.marking w depth n)
    else { x with closed := true }.goto t (.running w depth n)
  | .running w depth n =>
    match x.finalizers with
    | [] => x.goto t (.marking w depth n)
    | td :: rest => { x with finalizers := rest }.note (.ran td)
  | .marking w depth n => { x with flag := true }.goto t (.deliver w depth n)
  | .sealing => { x with flag := true }.goto t .closing
  | .closing =>
    if x.closed then x.goto t (.unlock .own) else { x with closed := true }.goto t .ownRunning
  | .ownRunning =>
    match x.finalizers with
    | [] => x.goto t (.unlock .own)
    | td :: rest => { x with finalizers := rest }.note (.ran td)
  | .unlock .start => x.release.goto t .observe
  | .unlock .own => x.release.goto t .finish
  | .unlock .finish => (x.release.note (.unsubRet t)).goto t .idle
  | .unlock .drop => x.release.goto t .leaving
  | .adding td => if x.free then (x.take t).goto t (.addHeld td) else x
  | .addHeld td =>
    -- `add_teardown`, subscription_data.rs:62-70
    (if x.closed then (x.note (.added td)).note (.ran td)
     else { x with finalizers := x.finalizers ++ [td] }.note (.added td)).release.goto t .idle
  | .query =>
    if x.flag || x.observed then (x.note (.answer t true)).goto t .idle else x.goto t .queryAsk
  | .queryAsk =>
    if x.free then (x.take t).goto t .queryHeld else (x.note (.answer t false)).goto t .idle
  | .queryHeld => (x.note (.answer t x.closed)).release.goto t .idle
  | .dropping => x.goto t (if x.queue = 0 then .leaving else .dropApply)
  | .dropApply => if x.free then (x.take t).goto t (.top .drop 0) else x.goto t .leaving
  | .leaving =>
    let y := { x with handles := x.handles.erase t }.goto t .idle
    if y.handles.isEmpty then y.last else y

/-- What a thread does next: go on with what it is doing, or, being idle and owning a clone, call
`unsubscribe`, `add_teardown` or `is_closed`, drop the clone, make another one, or pass it on to another
thread that is idle. -/
inductive Turn where
  | go
  | unsubscribe
  | add (td : Nat)
  | ask
  | drop
  | clone
  | pass (u : Nat)
deriving DecidableEq

/-- One turn of thread `t`. A thread that is busy only goes on; one that owns no clone does nothing. -/
def step (x : State) (t : Nat) (a : Turn) : State :=
  if x.pc t = .idle then
    if t ∈ x.handles then
      match a with
      | .go => x
      | .unsubscribe => (x.note (.unsub t)).goto t .start
      | .add td => x.goto t (.adding td)
      | .ask => (x.note (.ask t)).goto t .query
      | .drop => x.goto t .dropping
      | .clone => { x with handles := t :: x.handles }
      | .pass u => if x.pc u = .idle then { x with handles := u :: x.handles.erase t } else x
    else x
  else advance x t

/-- Any schedule: any number of threads taking turns in any order. -/
def run (x : State) (l : List (Nat × Turn)) : State := l.foldl (fun x a => step x a.1 a.2) x

end Rx.Handles
