import Verif.Model.SharedClosing

/-!
# A publish subject used by several threads

Models `crates/rx_core_subject_publish/src/publish_subject.rs`, `multicast.rs` and `multicast_subscription.rs`
at lock granularity: a step is what one thread does between two operations on the mutexes of the deferred
state and of the set of subscribers. The former is only held within a step; the latter is `lock`, only ever
taken with `try_lock`, which also fails when it is poisoned.

Simplifications.
* Subscribers do not call back into the subject (C56 is about that).
* A subscriber is behind a mutex of its own. It is called by the holder of `lock`, or, before it is added, by
  the thread that subscribes it. `unsubscribe` of a subscription asks it with `try_lock` whether it is closed,
  and takes no for an answer while it is being called (multicast_subscription.rs:57-66); that is as if it had
  asked before. So calling all subscribers in a loop is one step.
* The order of the `HashMap` of subscribers is that in which they were added.
* A subscriber is known by the number of the call of `subscribe` (`MulticastSubscriberId`, which is numbered
  separately, only ever identifies it).
* Handling one drained notification is one step, apart from setting the flag (the flag is only set by the
  holder of `lock`).
* `is_closed` and `add_teardown` of a subscription, which wait for the mutex of the subscriber, are left out.
-/

namespace Rx.Crowd

open Closing (Dest)

/-- What a thread can call. -/
inductive Op (I E : Type) where
  | next (v : I)
  | error (e : E)
  | complete
  | unsubscribe
  | subscribe
  /-- `unsubscribe` (or the drop) of the subscription that call `k` of `subscribe` returned -/
  | cancel (k : Nat)
deriving DecidableEq

/-- A call, numbered. -/
structure Call (I E : Type) where
  id : Nat
  op : Op I E
deriving DecidableEq

/-- Whose call of `apply_notification_queue` it is: that of `try_next` etc. (multicast.rs:199-287), that of
`try_apply_deferred` at the beginning of `subscribe` (publish_subject.rs:116), or that of `try_apply_deferred`
at the end of a call (155, 181, 195, 212, 268), or of the drop of a clone (297). -/
inductive Why (I E : Type) where
  | own (c : Call I E)
  | pre (c : Call I E)
  | after (o : Option (Call I E))
deriving DecidableEq

/-- Where a thread is. Line numbers of publish_subject.rs, and of multicast.rs where marked (m). -/
inductive PC (I E : Type) where
  | idle
  /-- `subscribe`: `try_apply_deferred` (116) is about to look at the queue (75) -/
  | pre (c : Call I E)
  /-- `subscribe`: `try_apply_deferred` is about to `try_lock` (76) -/
  | preApply (c : Call I E)
  /-- `subscribe`, about to tell the new subscriber how the subject has ended (120-127) -/
  | greet (c : Call I E)
  /-- about to ask `is_closed` (129, 173, 185, 199) -/
  | check (c : Call I E)
  /-- `subscribe` found the subject closed (130-134) -/
  | refuse (c : Call I E)
  /-- about to return -/
  | leaving (c : Call I E)
  /-- about to note that the call was seen: 186, 200-203, 255-260 -/
  | observe (c : Call I E)
  /-- `unsubscribe` of a subscription, about to look whether the subscriber is closed
  (multicast_subscription.rs:83) -/
  | look (c : Call I E)
  /-- about to `try_lock` in `try_next` etc. (m 205, 218, 234, 247, 259, 277) -/
  | attempt (c : Call I E)
  /-- at the top of the loop of `apply_notification_queue` (m 136), holding the lock -/
  | top (w : Why I E) (depth : Nat)
  /-- at the top of the loop over the drained notifications (m 160), holding the lock -/
  | deliver (w : Why I E) (depth : Nat)
  /-- a notification was handled, about to close the flag if it is a closing one (m 190-192) -/
  | marking (w : Why I E) (depth : Nat) (c : Call I E)
  /-- `try_unsubscribe`, about to close the flag (m 263), holding the lock -/
  | sealing (c : Call I E)
  /-- about to do what is to be done, holding the lock (m 209, 222, 238, 251, 265, 281) -/
  | give (c : Call I E)
  /-- about to release the lock -/
  | unlock (w : Why I E)
  /-- about to defer (142-150, 176-178, 189-191, 206-208, 263-265, multicast_subscription.rs:87-89) -/
  | deferring (c : Call I E)
  /-- `try_apply_deferred`, about to look at the queue (75) -/
  | recheck (o : Option (Call I E))
  /-- `try_apply_deferred`, about to `try_lock` (76) -/
  | apply (o : Option (Call I E))
  /-- the thread has panicked -/
  | panicked (w : Why I E)
deriving DecidableEq

/-- What can be seen: calls, calls of subscriber `dst` on behalf of a call, returns, and answers of
`is_closed` of the subject. -/
inductive Mark (I E : Type) where
  | call (id : Nat) (t : Nat) (op : Op I E)
  | give (id : Nat) (dst : Nat) (n : SubscriberNotification I E)
  | ret (id : Nat)
  | answer (t : Nat) (b : Bool)
deriving DecidableEq

/-- All threads, both mutexes and what they protect. -/
structure State (S I E : Type) where
  pc : Nat → PC I E := fun _ => .idle
  /-- who holds the mutex of the set of subscribers, and whether it is poisoned -/
  lock : Option Nat := none
  poisoned : Bool := false
  /-- `Subscribers`, m 20-29 -/
  members : List Nat := []
  /-- the subscribers, also those not added, or removed -/
  dests : Nat → S
  /-- `notifications` (m 137-155), a local variable of the holder of the lock: drained, not yet handled -/
  rest : List (Call I E) := []
  /-- `MulticastDeferredState`, m 290-306 -/
  queue : List (Call I E) := []
  closed : Bool := false
  completed : Bool := false
  unsubscribed : Bool := false
  error : Option E := none
  /-- subscriptions that were returned, and not yet unsubscribed -/
  handles : List Nat := []
  calls : Nat := 0
  /-- Ghost: the calls handled so far, in order. -/
  done : List (Call I E) := []
  trace : List (Mark I E) := []

variable {S I E : Type}

namespace State

/-- Thread `t` moves on. -/
def goto (x : State S I E) (t : Nat) (p : PC I E) : State S I E :=
  { x with pc := fun u => if u = t then p else x.pc u }

/-- `is_closed`, m 347-352. -/
def shut (x : State S I E) : Bool := x.closed || x.completed || x.unsubscribed || x.error.isSome

/-- `try_lock` succeeds. -/
def free (x : State S I E) : Bool := x.lock.isNone && !x.poisoned

def note (x : State S I E) (m : Mark I E) : State S I E := { x with trace := x.trace ++ [m] }

/-- The thread returns from its call (or from dropping a clone). -/
def ret (x : State S I E) (t : Nat) : Option (Call I E) → State S I E
  | some c => ({ x with handles := if c.op matches .subscribe then x.handles ++ [c.id] else x.handles }.note
      (.ret c.id)).goto t .idle
  | none => x.goto t .idle

variable (D : Dest S I E)

/-- A subscriber is called, if it is not closed (m 65-67, 73-75, 81-83, 89-91, 97-100). -/
def tell (id : Nat) (n : SubscriberNotification I E) (x : State S I E) (dst : Nat) : State S I E :=
  if D.isClosed (x.dests dst) then x
  else { x with
    dests := fun i => if i = dst then D.push (x.dests dst) n else x.dests i
    trace := x.trace ++ [.give id dst n] }

/-- `next`, `error`, `complete`, m 63-85. -/
def tellAll (id : Nat) (n : SubscriberNotification I E) (x : State S I E) : State S I E :=
  x.members.foldl (tell D id n) x

/-- `unsubscribe`, m 87-93. -/
def dropAll (id : Nat) (x : State S I E) : State S I E := { tellAll D id .unsubscribe x with members := [] }

/-- `unsubscribe_by_id`, m 95-101. -/
def remove (id : Nat) (k : Nat) (x : State S I E) : State S I E :=
  if k ∈ x.members then tell D id .unsubscribe { x with members := x.members.erase k } k else x

/-- `clean`, m 37-40. -/
def clean (x : State S I E) : State S I E :=
  { x with members := x.members.filter fun k => !D.isClosed (x.dests k) }

/-- A drained notification is handled, m 160-188. -/
def handle (x : State S I E) (c : Call I E) : State S I E :=
  match c.op with
  | .subscribe =>
    if D.isClosed (x.dests c.id) then x
    else if x.closed then tell D c.id .unsubscribe x c.id
    else { x with members := x.members ++ [c.id] }
  | .next v => if x.closed then x else tellAll D c.id (.next v) x
  | .error e => dropAll D c.id (if x.closed then x else tellAll D c.id (.error e) x)
  | .complete => dropAll D c.id (if x.closed then x else tellAll D c.id .complete x)
  | .unsubscribe => if x.closed then x else dropAll D c.id x
  | .cancel k => if x.closed then x else remove D c.id k x

/-- What is done after the queue has been emptied, m 209, 222, 238, 251, 265, 281. -/
def act (x : State S I E) (c : Call I E) : State S I E :=
  match c.op with
  | .subscribe => { x with members := x.members ++ [c.id] }
  | .next v => tellAll D c.id (.next v) x
  | .error e => tellAll D c.id (.error e) x
  | .complete => tellAll D c.id .complete x
  | .unsubscribe => dropAll D c.id x
  | .cancel k => remove D c.id k x

end State

namespace Op

def isSubscribe : Op I E → Bool
  | .subscribe => true
  | _ => false

def isUnsubscribe : Op I E → Bool
  | .unsubscribe => true
  | _ => false

def isCancel : Op I E → Bool
  | .cancel _ => true
  | _ => false

/-- Ends the subject. -/
def isClosing : Op I E → Bool
  | .error _ | .complete | .unsubscribe => true
  | _ => false

end Op

/-- MULTICAST_MAX_RECURSION_DEPTH, m 18. -/
def maxDepth : Nat := 10

variable (D : Dest S I E) (debug : Bool)

/-- A busy thread goes on. There is one way: `try_lock` does not wait. `debug`: debug assertions are checked. -/
def advance (x : State S I E) (t : Nat) : State S I E :=
  match x.pc t with
  | .idle | .panicked _ => x
  | .pre c => x.goto t (if x.queue.isEmpty then .greet c else .preApply c)
  | .preApply c =>
    if x.free then { x with lock := some t }.goto t (.top (.pre c) 0) else x.goto t (.greet c)
  | .greet c =>
    (match x.error with
      | some e => x.tell D c.id (.error e) c.id
      | none => if x.completed then x.tell D c.id .complete c.id else x).goto t (.check c)
  | .check c =>
    x.goto t (if x.shut then if c.op.isSubscribe then .refuse c else .recheck (some c)
      else if c.op.isClosing then .observe c else .attempt c)
  | .refuse c => (x.tell D c.id .unsubscribe c.id).goto t (.leaving c)
  | .leaving c => (x.note (.ret c.id)).goto t .idle
  | .observe c =>
    match c.op with
    | .error e => { x with error := some e }.goto t (.attempt c)
    | .complete =>
      -- the debug assertion of `SubscriberState::complete`
      if debug && (x.completed || x.unsubscribed) then x.goto t (.panicked (.own c))
      else { x with completed := true }.goto t (.attempt c)
    | .unsubscribe => { x with unsubscribed := true }.goto t
        (if x.unsubscribed then .recheck (some c) else .attempt c)
    | _ => x.goto t (.attempt c)
  | .look c =>
    match c.op with
    | .cancel k => if D.isClosed (x.dests k) then x.goto t (.leaving c) else x.goto t (.attempt c)
    | _ => x.goto t (.attempt c)
  | .attempt c =>
    if x.free then { x with lock := some t }.goto t (.top (.own c) 0) else x.goto t (.deferring c)
  | .top w depth =>
    if depth = maxDepth then { x with lock := none, poisoned := true }.goto t (.panicked w)
    else if x.queue.isEmpty then
      x.goto t (match w with
        | .own c => if c.op.isUnsubscribe then .sealing c else .give c
        | w => .unlock w)
    else { x with rest := x.queue, queue := [] }.goto t (.deliver w depth)
  | .deliver w depth =>
    match x.rest with
    | [] => (x.clean D).goto t (.top w (depth + 1))
    | c :: rest => ({ x with rest := rest, done := x.done ++ [c] }.handle D c).goto t (.marking w depth c)
  | .marking w depth c => { x with closed := x.closed || c.op.isClosing }.goto t (.deliver w depth)
  | .sealing c => { x with closed := true }.goto t (.give c)
  | .give c => ({ x with done := x.done ++ [c] }.act D c).goto t (.unlock (.own c))
  | .unlock (.own c) => { x with lock := none }.goto t (if c.op.isCancel then .leaving c else .recheck (some c))
  | .unlock (.pre c) => { x with lock := none }.goto t (.greet c)
  | .unlock (.after o) => { x with lock := none }.ret t o
  | .deferring c =>
    -- `defer_notification`, m 313-329
    let isFirstUnsubscribe := c.op.isUnsubscribe && !x.unsubscribed
    (if x.closed && !isFirstUnsubscribe then
      if c.op.isSubscribe then x.tell D c.id .unsubscribe c.id else x
    else { x with queue := x.queue ++ [c] }).goto t (if c.op.isCancel then .leaving c else .recheck (some c))
  | .recheck o => if x.queue.isEmpty then x.ret t o else x.goto t (.apply o)
  | .apply o => if x.free then { x with lock := some t }.goto t (.top (.after o) 0) else x.ret t o

/-- What a thread does next: go on with what it is doing, or, being idle, call something, ask `is_closed` of the
subject, or drop a clone of it. -/
inductive Turn (I E : Type) where
  | go
  | call (op : Op I E)
  | ask
  | drop
deriving DecidableEq

/-- The thread is idle. -/
def PC.isIdle : PC I E → Bool
  | .idle => true
  | _ => false

/-- Where a call begins: `subscribe` 108, `next` 172, `error` 184, `complete` 198, `unsubscribe` 254,
multicast_subscription.rs:82. -/
def entry (c : Call I E) : PC I E :=
  match c.op with
  | .subscribe => .pre c
  | .unsubscribe => .observe c
  | .cancel _ => .look c
  | _ => .check c

/-- Does nothing: a subscription there is not, or one that was unsubscribed (multicast_subscription.rs:57-66, 92). -/
def Op.void (op : Op I E) (handles : List Nat) : Bool :=
  match op with
  | .cancel k => !handles.contains k
  | _ => false

/-- The subscription is used up. -/
def Op.used (op : Op I E) (handles : List Nat) : List Nat :=
  match op with
  | .cancel k => handles.erase k
  | _ => handles

/-- One turn of thread `t`. A thread that is busy only goes on. -/
def step (x : State S I E) (t : Nat) (a : Turn I E) : State S I E :=
  if (x.pc t).isIdle then
    match a with
    | .go => x
    | .call op =>
      if op.void x.handles then x
      else
        let c : Call I E := ⟨x.calls, op⟩
        ({ x with calls := x.calls + 1, handles := op.used x.handles }.note (.call c.id t op)).goto t (entry c)
    | .ask => x.note (.answer t x.shut)
    | .drop => x.goto t (.recheck none)
  else advance D debug x t

/-- Any schedule: any number of threads taking turns in any order. -/
def run (x : State S I E) (l : List (Nat × Turn I E)) : State S I E :=
  l.foldl (fun x a => step D debug x a.1 a.2) x

end Rx.Crowd
