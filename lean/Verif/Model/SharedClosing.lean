import Verif.Model.Signals

/-!
# `SharedSubscriber` closed by several threads

Models the whole of `next`, `error`, `complete`, `unsubscribe`, `is_closed` and `drop` of
`crates/rx_core_common/src/subscribers/subscriber_shared.rs` at lock granularity: a step is what one thread
does between two operations on the two mutexes. The mutex of the deferred state is only held within a step
(all its uses are `lock_ignore_poison` or `lock_clear_poison` on a temporary); the mutex of the destination
is `lock`, only ever taken with `try_lock`, which also fails when the mutex is poisoned.

`Verif.Model.SharedThreads` models values only, without the limit on the rounds of
`apply_notification_queue`. Here all notifications are sent, and the limit is there.

Simplifications: the destination does not call back (C25 is about that); in the loop over the drained
notifications (231-243) the check of the flag and the `push` are one step (the flag is only set by the
holder of the lock); `lock`, `access` and `add_teardown`, which wait for the lock, are left out.
-/

namespace Rx.Closing

/-- The destination: what a notification does to it, and `is_closed`. -/
structure Dest (S I E : Type) where
  push : S → SubscriberNotification I E → S
  isClosed : S → Bool

/-- A call of one of the four methods, numbered. -/
structure Call (I E : Type) where
  id : Nat
  n : SubscriberNotification I E
deriving DecidableEq

/-- Whose call of `apply_notification_queue` it is: that of `try_next` etc. (254, 270, 283, 294), or that
of `try_apply_deferred` (195) at the end of a call, or of the drop of a clone (422). -/
inductive Why (I E : Type) where
  | own (c : Call I E)
  | after (o : Option (Call I E))
deriving DecidableEq

/-- Where a thread is. Line numbers are of subscriber_shared.rs. -/
inductive PC (I E : Type) where
  | idle
  /-- `next`, `error`, `complete`: `is_closed` is about to look at the deferred state (369) -/
  | check (c : Call I E)
  /-- `is_closed`, about to `try_lock` (370-372) -/
  | asking (c : Call I E)
  /-- `is_closed`, holding the lock (373) -/
  | askHeld (c : Call I E)
  /-- about to note that the call was seen: 339, 352, 378-383 (nothing to note for `next`) -/
  | observe (c : Call I E)
  /-- about to `try_lock` in `try_next` etc. (251, 267, 280, 292) -/
  | attempt (c : Call I E)
  /-- at the top of the loop of `apply_notification_queue` (209), holding the lock -/
  | top (w : Why I E) (depth : Nat)
  /-- at the top of the loop over the drained notifications (231), holding the lock -/
  | deliver (w : Why I E) (depth : Nat)
  /-- after `push`, about to close the flag if the notification is a closing one (240-242) -/
  | marking (w : Why I E) (depth : Nat) (c : Call I E)
  /-- `try_unsubscribe`, about to close the flag (296), holding the lock -/
  | sealing (c : Call I E)
  /-- about to call the destination (256, 272, 285, 298-300), holding the lock -/
  | give (c : Call I E)
  /-- about to release the lock -/
  | unlock (w : Why I E)
  /-- about to defer the notification (329-331, 342-344, 355-357, 387-389) -/
  | deferring (c : Call I E)
  /-- `try_apply_deferred`, about to look at the queue (192) -/
  | recheck (o : Option (Call I E))
  /-- `try_apply_deferred`, about to `try_lock` (193) -/
  | apply (o : Option (Call I E))
  /-- `is_closed` on its own: 369, 370-372 and 373 -/
  | query
  | queryAsk
  | queryHeld
  /-- the thread has panicked in `apply_notification_queue` (214-216) -/
  | panicked (w : Why I E)
deriving DecidableEq

/-- What can be seen: calls, calls of the destination, returns; questions and answers of `is_closed`. -/
inductive Mark (I E : Type) where
  | call (id : Nat) (t : Nat) (n : SubscriberNotification I E)
  | give (id : Nat) (n : SubscriberNotification I E)
  | ret (id : Nat)
  | ask (t : Nat)
  | answer (t : Nat) (b : Bool)
deriving DecidableEq

/-- All threads, both mutexes and what they protect. -/
structure State (S I E : Type) where
  pc : Nat → PC I E
  /-- who holds the mutex of the destination, and whether it is poisoned -/
  lock : Option Nat
  poisoned : Bool
  /-- `notifications` (210-228), a local variable of the holder of the lock: drained, not yet handled -/
  rest : List (Call I E)
  /-- `SubscriberDeferredState`, 34-53 -/
  queue : List (Call I E)
  closed : Bool
  observedUnsubscribe : Bool
  observedCompletion : Bool
  observedError : Bool
  dest : S
  calls : Nat
  trace : List (Mark I E)

variable {S I E : Type}

/-- `new`, 165-170. -/
def init (s : S) : State S I E :=
  ⟨fun _ => .idle, none, false, [], [], false, false, false, false, s, 0, []⟩

namespace State

/-- Thread `t` moves on. -/
def goto (x : State S I E) (t : Nat) (p : PC I E) : State S I E :=
  { x with pc := fun u => if u = t then p else x.pc u }

/-- `SubscriberDeferredState::is_closed`, 88-93. -/
def shut (x : State S I E) : Bool :=
  x.closed || x.observedCompletion || x.observedUnsubscribe || x.observedError

/-- `try_lock` succeeds. -/
def free (x : State S I E) : Bool := x.lock.isNone && !x.poisoned

/-- Something to be seen happens. -/
def note (x : State S I E) (m : Mark I E) : State S I E := { x with trace := x.trace ++ [m] }

/-- The thread returns from its call (or from dropping a clone). -/
def ret (x : State S I E) (t : Nat) : Option (Call I E) → State S I E
  | some c => (x.note (.ret c.id)).goto t .idle
  | none => x.goto t .idle

/-- The destination is called. -/
def given (D : Dest S I E) (x : State S I E) (c : Call I E) : State S I E :=
  { x with dest := D.push x.dest c.n }.note (.give c.id c.n)

end State

def isUnsubscribe : SubscriberNotification I E → Bool
  | .unsubscribe => true
  | _ => false

/-- SUBSCRIBER_MAX_RECURSION_DEPTH, 11. -/
def maxDepth : Nat := 10

/-- A busy thread goes on. There is one way: `try_lock` does not wait. -/
def advance (D : Dest S I E) (x : State S I E) (t : Nat) : State S I E :=
  match x.pc t with
  | .idle | .panicked _ => x
  | .check c => x.goto t (if x.shut then .recheck (some c) else .asking c)
  | .asking c =>
    -- `unwrap_or(false)` (374) when the lock is not to be had
    if x.free then { x with lock := some t }.goto t (.askHeld c) else x.goto t (.observe c)
  | .askHeld c =>
    { x with lock := none }.goto t (if D.isClosed x.dest then .recheck (some c) else .observe c)
  | .observe c =>
    match c.n with
    | .next _ => x.goto t (.attempt c)
    | .error _ => { x with observedError := true }.goto t (.attempt c)
    | .complete => { x with observedCompletion := true }.goto t (.attempt c)
    | .unsubscribe => { x with observedUnsubscribe := true }.goto t
        (if x.observedUnsubscribe then .recheck (some c) else .attempt c)
  | .attempt c =>
    if x.free then { x with lock := some t }.goto t (.top (.own c) 0) else x.goto t (.deferring c)
  | .top w depth =>
    if depth = maxDepth then { x with lock := none, poisoned := true }.goto t (.panicked w)
    else if x.queue.isEmpty then
      x.goto t (match w with
        | .own c => if isUnsubscribe c.n then .sealing c else .give c
        | .after o => .unlock (.after o))
    else { x with rest := x.queue, queue := [] }.goto t (.deliver w depth)
  | .deliver w depth =>
    match x.rest with
    | [] => x.goto t (.top w (depth + 1))
    | c :: rest =>
      (if x.closed then { x with rest := rest } else { x with rest := rest }.given D c).goto t
        (.marking w depth c)
  | .marking w depth c => { x with closed := x.closed || c.n.isClosing }.goto t (.deliver w depth)
  | .sealing c => { x with closed := true }.goto t (.give c)
  | .give c =>
    (if isUnsubscribe c.n && D.isClosed x.dest then x else x.given D c).goto t (.unlock (.own c))
  | .unlock (.own c) => { x with lock := none }.goto t (.recheck (some c))
  | .unlock (.after o) => { x with lock := none }.ret t o
  | .deferring c =>
    -- `defer_notification`, 60-71
    let isFirstUnsubscribe := isUnsubscribe c.n && !x.observedUnsubscribe
    (if x.closed && !isFirstUnsubscribe then x else { x with queue := x.queue ++ [c] }).goto t
      (.recheck (some c))
  | .recheck o => if x.queue.isEmpty then x.ret t o else x.goto t (.apply o)
  | .apply o => if x.free then { x with lock := some t }.goto t (.top (.after o) 0) else x.ret t o
  | .query =>
    if x.shut then (x.note (.answer t true)).goto t .idle else x.goto t .queryAsk
  | .queryAsk =>
    if x.free then { x with lock := some t }.goto t .queryHeld
    else (x.note (.answer t false)).goto t .idle
  | .queryHeld =>
    ({ x with lock := none }.note (.answer t (D.isClosed x.dest))).goto t .idle

/-- What a thread does next: go on with what it is doing, or, being idle, call a method of the shared
subscriber, ask `is_closed`, or drop a clone. -/
inductive Turn (I E : Type) where
  | go
  | call (n : SubscriberNotification I E)
  | ask
  | drop

/-- The thread is idle. -/
def PC.isIdle : PC I E → Bool
  | .idle => true
  | _ => false

/-- One turn of thread `t`. A thread that is busy only goes on. `next` 325, `error` 337, `complete` 350,
`unsubscribe` 377, `is_closed` 368, `drop` 420. -/
def step (D : Dest S I E) (x : State S I E) (t : Nat) (a : Turn I E) : State S I E :=
  if (x.pc t).isIdle then
    match a with
    | .go => x
    | .call n =>
      let c : Call I E := ⟨x.calls, n⟩
      ({ x with calls := x.calls + 1 }.note (.call c.id t n)).goto t
        (if isUnsubscribe n then .observe c else .check c)
    | .ask => (x.note (.ask t)).goto t .query
    | .drop => x.goto t (.recheck none)
  else advance D x t

/-- Any schedule: any number of threads taking turns in any order. -/
def run (D : Dest S I E) (x : State S I E) (l : List (Nat × Turn I E)) : State S I E :=
  l.foldl (fun x a => step D x a.1 a.2) x

end Rx.Closing
