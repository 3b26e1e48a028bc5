import Verif.Model.SharedSubscriber
import Verif.Model.PublishSubject

/-!
# Callbacks that panic

What is left behind when a callback of the user (a teardown, or a subscriber handling a notification) panics, and the caller
catches the panic (`catch_unwind`, or it happened in a thread that ended) and goes on using what it holds. One thread at a
time. Unwinding itself runs no callbacks here: values that are dropped by it have been closed or are held by others too.
-/

namespace Rx.Panics

/-- What a call leaves: the state, and whether it came back or panicked. -/
structure Out (σ : Type) where
  st : σ
  panicked : Bool := false
deriving DecidableEq, Repr

/-- What comes next happens only if there was no panic. -/
def Out.andThen {σ τ : Type} (x : Out σ) (f : σ → Out τ) (g : σ → τ) : Out τ :=
  if x.panicked then ⟨g x.st, true⟩ else f x.st

/-! ## Subscriptions -/

/-- `SubscriptionData`; ghost: the teardowns that were called, and those that were dropped without being called. -/
structure Data where
  data : SubscriptionData := .default
  ran : List Nat := []
  dropped : List Nat := []
deriving DecidableEq, Repr

/-- `for teardown in self.finalizers.drain(..) { (teardown)(); }`, subscription_data.rs:54-56: what is called, and what `Drain`
drops if one panics (`bad`). -/
def callAll (bad : Nat → Bool) : List Nat → List Nat × List Nat × Bool
  | [] => ([], [], false)
  | t :: ts =>
    if bad t then ([t], ts, true)
    else
      let r := callAll bad ts
      (t :: r.1, r.2.1, r.2.2)

/-- `unsubscribe`, subscription_data.rs:50-58. -/
def Data.unsubscribe (bad : Nat → Bool) (x : Data) : Out Data :=
  if !x.data.isClosed then
    let r := callAll bad x.data.finalizers
    ⟨⟨⟨true, []⟩, x.ran ++ r.1, x.dropped ++ r.2.1⟩, r.2.2⟩
  else ⟨x, false⟩

/-- `add_teardown`, subscription_data.rs:62-70. -/
def Data.addTeardown (bad : Nat → Bool) (x : Data) (t : Teardown) : Out Data :=
  if x.data.isClosed then ⟨{ x with ran := x.ran ++ t.execute }, t.execute.any bad⟩
  else match t.take with
    | some f => ⟨{ x with data := { x.data with finalizers := x.data.finalizers ++ [f] } }, false⟩
    | none => ⟨x, false⟩

/-- `Drop`, subscription_data.rs:85-89. -/
def Data.drop (bad : Nat → Bool) (x : Data) : Out Data :=
  if !x.data.isClosed then x.unsubscribe bad else ⟨x, false⟩

def Data.step (bad : Nat → Bool) (x : Data) : SubscriptionOp → Out Data
  | .add t => x.addTeardown bad t
  | .unsubscribe => x.unsubscribe bad
  | .drop => x.drop bad

/-- Calls one after the other, going on after a panic; which of them panicked. -/
def Data.run (bad : Nat → Bool) (x : Data) : List SubscriptionOp → Data × List Bool
  | [] => (x, [])
  | op :: ops =>
    let y := x.step bad op
    let r := y.st.run bad ops
    (r.1, y.panicked :: r.2)

/-! ## Subscribers behind a lock -/

/-- A subscriber whose functions may panic. -/
structure Fragile (S I E : Type) where
  push : S → SubscriberNotification I E → Out S
  addTeardown : S → Teardown → Out S
  isClosed : S → Bool

/-- `Arc<Mutex<D>>`, `Arc<RwLock<D>>` and `Weak<Mutex<D>>`: the destination, whether the lock is poisoned, and whether the
destination still exists. Ghost: the calls that reached the destination, and the teardowns that were called here. -/
structure Lock (S I E : Type) where
  dest : S
  poisoned : Bool := false
  alive : Bool := true
  reached : List (Call I E) := []
  ran : List Nat := []

namespace Lock
variable {S I E : Type}

/-- The destination is called with the lock held: a panic poisons it. -/
def give (D : Fragile S I E) (x : Lock S I E) (c : Call I E) : Out (Lock S I E) :=
  let r := match c with
    | .note n => D.push x.dest n
    | .addTeardown t => D.addTeardown x.dest t
  ⟨{ x with dest := r.st, poisoned := x.poisoned || r.panicked, reached := x.reached ++ [c] }, r.panicked⟩

/-- `next`, `error`, `complete`: subscriber_arc_mutex.rs:55-74, subscriber_arc_rw_lock.rs:55-74,
subscriber_arc_weak_mutex.rs:60-91. `unsubscribe`: subscriber_arc_mutex.rs:91-95, subscriber_arc_rw_lock.rs:91-95,
subscriber_arc_weak_mutex.rs:113-122. -/
def push (D : Fragile S I E) (x : Lock S I E) (n : SubscriberNotification I E) : Out (Lock S I E) :=
  if !x.alive then ⟨x, false⟩
  else match n with
    | .unsubscribe => x.give D (.note .unsubscribe)
    | n => if x.poisoned then x.give D (.note .unsubscribe) else x.give D (.note n)

/-- `is_closed`: subscriber_arc_mutex.rs:82-86, subscriber_arc_rw_lock.rs:82-86, subscriber_arc_weak_mutex.rs:99-108. -/
def isClosed (D : Fragile S I E) (x : Lock S I E) : Bool := !x.alive || D.isClosed x.dest

/-- `teardown.execute()`; `bad` says which teardowns panic. -/
def execute (bad : Nat → Bool) (x : Lock S I E) (t : Teardown) : Out (Lock S I E) :=
  ⟨{ x with ran := x.ran ++ t.execute }, t.execute.any bad⟩

/-- `add_teardown`: subscriber_arc_mutex.rs:102-112, subscriber_arc_rw_lock.rs:102-112,
subscriber_arc_weak_mutex.rs:129-144. -/
def addTeardown (D : Fragile S I E) (bad : Nat → Bool) (x : Lock S I E) (t : Teardown) : Out (Lock S I E) :=
  if !x.alive then x.execute bad t
  else if x.poisoned then (x.execute bad t).andThen (fun x => x.give D (.note .unsubscribe)) id
  else x.give D (.addTeardown t)

/-- What users do: calls, and, for the weak kind, dropping the last reference that kept the destination (what the
destination does when it is dropped is left out). -/
inductive Op (I E : Type) where
  | call (c : Call I E)
  | free
deriving DecidableEq, Repr

def step (D : Fragile S I E) (bad : Nat → Bool) (x : Lock S I E) : Op I E → Out (Lock S I E)
  | .call (.note n) => x.push D n
  | .call (.addTeardown t) => x.addTeardown D bad t
  | .free => ⟨{ x with alive := false }, false⟩

/-- Calls one after the other, going on after a panic. -/
def run (D : Fragile S I E) (bad : Nat → Bool) (x : Lock S I E) (ops : List (Op I E)) : Lock S I E :=
  ops.foldl (fun x op => (x.step D bad op).st) x

end Lock

/-! ## `SharedSubscriber` -/

/-- What a destination does while it handles a notification: as `React`, but it may panic, leaving the state `s`. -/
inductive Handling (S I E : Type) where
  | done (s : S)
  | panic (s : S)
  | call (n : SubscriberNotification I E) (k : Handling S I E)
  | isClosed (k : Bool → Handling S I E)

/-- A destination that may call back, and panic. -/
structure Touchy (S I E : Type) where
  push : S → SubscriberNotification I E → Handling S I E
  addTeardown : S → Teardown → Handling S I E
  isClosed : S → Bool

namespace Shared
variable {S I E : Type}

/-- The destination, handling a notification with its mutex locked. -/
def runLocked (d : Deferred I E) : Handling S I E → Out (S × Deferred I E)
  | .done s => ⟨(s, d), false⟩
  | .panic s => ⟨(s, d), true⟩
  | .call n k => runLocked (d.call n) k
  | .isClosed k => runLocked d (k d.isClosed)

/-- The `for` over drained notifications, subscriber_shared.rs:231-242. The notifications behind one that panics are dropped. -/
def deliverAll (R : Touchy S I E) : List (SubscriberNotification I E) → S × Deferred I E → Out (S × Deferred I E)
  | [], x => ⟨x, false⟩
  | n :: ns, x =>
    let y : Out (S × Deferred I E) := if x.2.closedFlag then ⟨x, false⟩ else runLocked x.2 (R.push x.1 n)
    y.andThen (fun y => deliverAll R ns (y.1, if n.isClosing then { y.2 with closedFlag := true } else y.2)) id

/-- `apply_notification_queue`, subscriber_shared.rs:202-244, with `k` turns left before it panics itself. -/
def applyQueue (R : Touchy S I E) : Nat → S × Deferred I E → Out (S × Deferred I E)
  | 0, x => ⟨x, true⟩
  | k + 1, x =>
    if x.2.queue.isEmpty then ⟨x, false⟩
    else (deliverAll R x.2.queue (x.1, { x.2 with queue := [] })).andThen (applyQueue R k) id

/-- A `SharedSubscriber`; `poisoned` is of the mutex around the destination. Ghost: teardowns called here. -/
structure State (S I E : Type) where
  dest : S
  deferred : Deferred I E := .default
  poisoned : Bool := false
  ran : List Nat := []

/-- What was done with the mutex locked: a panic poisons it. -/
def State.locked (x : State S I E) (r : Out (S × Deferred I E)) : Out (State S I E) :=
  ⟨{ x with dest := r.st.1, deferred := r.st.2, poisoned := x.poisoned || r.panicked }, r.panicked⟩

/-- `try_apply_deferred`, subscriber_shared.rs:192-200: `try_lock` also fails if the mutex is poisoned. -/
def tryApplyDeferred (R : Touchy S I E) (x : State S I E) : Out (State S I E) :=
  if x.deferred.isDirty && !x.poisoned then x.locked (applyQueue R Rx.Shared.maxRecursionDepth (x.dest, x.deferred))
  else ⟨x, false⟩

/-- `is_closed`, subscriber_shared.rs:368-375: `try_lock` fails if the mutex is poisoned, and `unwrap_or(false)`. -/
def State.isClosed (R : Touchy S I E) (x : State S I E) : Bool :=
  x.deferred.isClosed || (!x.poisoned && R.isClosed x.dest)

/-- `try_next`, `try_error`, `try_complete`, `try_unsubscribe`, subscriber_shared.rs:247-306, not poisoned. -/
def tryPush (R : Touchy S I E) (n : SubscriberNotification I E) (x : State S I E) : Out (State S I E) :=
  x.locked ((applyQueue R Rx.Shared.maxRecursionDepth (x.dest, x.deferred)).andThen (fun y =>
    match n with
    | .unsubscribe =>
      let d := { y.2 with closedFlag := true }
      if R.isClosed y.1 then ⟨(y.1, d), false⟩ else runLocked d (R.push y.1 .unsubscribe)
    | n => runLocked y.2 (R.push y.1 n)) id)

/-- `next` 325-335, `error` 337-348, `complete` 350-361, `unsubscribe` 377-392, before `try_apply_deferred`. -/
def callDirect (R : Touchy S I E) (x : State S I E) (n : SubscriberNotification I E) : Out (State S I E) :=
  match n with
  | .next v =>
    if x.isClosed R then ⟨x, false⟩
    else if x.poisoned then ⟨{ x with deferred := x.deferred.defer (.next v) }, false⟩
    else tryPush R (.next v) x
  | .error e =>
    if x.isClosed R then ⟨x, false⟩
    else
      let d := { x.deferred with observedError := true }
      if x.poisoned then ⟨{ x with deferred := d.defer (.error e) }, false⟩
      else tryPush R (.error e) { x with deferred := d }
  | .complete =>
    if x.isClosed R then ⟨x, false⟩
    else
      let d := { x.deferred with observedCompletion := true }
      if x.poisoned then ⟨{ x with deferred := d.defer .complete }, false⟩
      else tryPush R .complete { x with deferred := d }
  | .unsubscribe =>
    if x.deferred.observedUnsubscribe then ⟨x, false⟩
    else
      let d := { x.deferred with observedUnsubscribe := true }
      if x.poisoned then ⟨{ x with deferred := d.defer .unsubscribe }, false⟩
      else tryPush R .unsubscribe { x with deferred := d }

/-- The same, with `try_apply_deferred`. -/
def call (R : Touchy S I E) (x : State S I E) (n : SubscriberNotification I E) : Out (State S I E) :=
  (callDirect R x n).andThen (tryApplyDeferred R) id

/-- `add_teardown`, delegated to the `Arc<Mutex<D>>` (subscriber_shared.rs:151-153; subscriber_arc_mutex.rs:102-112). -/
def addTeardown (R : Touchy S I E) (bad : Nat → Bool) (x : State S I E) (t : Teardown) : Out (State S I E) :=
  if x.poisoned then
    (⟨{ x with ran := x.ran ++ t.execute }, t.execute.any bad⟩ : Out (State S I E)).andThen
      (fun x => x.locked (runLocked x.deferred (R.push x.dest .unsubscribe))) id
  else x.locked (runLocked x.deferred (R.addTeardown x.dest t))

def step (R : Touchy S I E) (bad : Nat → Bool) (x : State S I E) : Call I E → Out (State S I E)
  | .note n => call R x n
  | .addTeardown t => addTeardown R bad x t

/-- Calls one after the other, going on after a panic. -/
def run (R : Touchy S I E) (bad : Nat → Bool) (x : State S I E) (cs : List (Call I E)) : State S I E :=
  cs.foldl (fun x c => (step R bad x c).st) x

end Shared

/-! ## `PublishSubject` -/

namespace Subject
variable {S I E : Type}

/-- A `PublishSubject`, as in `Verif.Model.PublishSubject`; `poisoned` says whether the mutex around the set of subscribers is
poisoned, and by which subscriber, whose own mutex then is poisoned too. The subscribers do not call back, so nothing is
deferred until then; after it `try_lock` fails for good, and what is deferred is never applied: `apply_notification_queue` is
left out. -/
structure State (S I E : Type) where
  pub : Publish.State S I E
  poisoned : Option Nat := none

/-- One subscriber after the other, multicast.rs:62-98; those behind one that panics are not reached. Returns who panicked. -/
def giveAll (D : Fragile S I E) (c : Nat) (n : SubscriberNotification I E) :
    List Nat → Publish.State S I E → Publish.State S I E × Option Nat
  | [], x => (x, none)
  | j :: js, x =>
    if D.isClosed (x.dest j) then giveAll D c n js x
    else
      let r := D.push (x.dest j) n
      let x := { x with log := x.log ++ [(c, j, n)] }.setDest j r.st
      if r.panicked then (x, some j) else giveAll D c n js x

/-- `Subscribers::apply`, multicast.rs:50-101. -/
def apply (D : Fragile S I E) (ord : Nat → List Nat → List Nat) (c : Nat) (x : Publish.State S I E) :
    Publish.Deferred I E → Publish.State S I E × Option Nat
  | .note .unsubscribe => giveAll D c .unsubscribe (ord c x.members) { x with members := [] }
  | .note n => giveAll D c n (ord c x.members) x
  | .cancel i =>
    if i ∈ x.members then giveAll D c .unsubscribe [i] { x with members := x.members.filter (· != i) }
    else (x, none)
  | .add i => ({ x with members := x.members.filter (· != i) ++ [i] }, none)

/-- What was done with the mutex locked: a panic poisons it. -/
def locked (r : Publish.State S I E × Option Nat) : Out (State S I E) := ⟨⟨r.1, r.2⟩, r.2.isSome⟩

/-- `next`, `error`, `complete`, `unsubscribe` (publish_subject.rs:172-213, 254-269; multicast.rs:217-271). While poisoned they
do what they do while the mutex is locked: `noteLocked`. -/
def note (D : Fragile S I E) (ord : Nat → List Nat → List Nat) (x : State S I E) (n : SubscriberNotification I E) :
    Out (State S I E) :=
  if x.poisoned.isSome then ⟨{ x with pub := x.pub.noteLocked n }, false⟩
  else
    let p := x.pub.record (.note n)
    match n with
    | .next v => if p.isClosed then ⟨⟨p, none⟩, false⟩ else locked (apply D ord p.now p (.note (.next v)))
    | .error e =>
      if p.isClosed then ⟨⟨p, none⟩, false⟩
      else locked (apply D ord p.now { p with observedError := some e } (.note (.error e)))
    | .complete =>
      if p.isClosed then ⟨⟨p, none⟩, false⟩
      else locked (apply D ord p.now { p with completed := true } (.note .complete))
    | .unsubscribe =>
      if p.unsubscribed then ⟨⟨p, none⟩, false⟩
      else locked (apply D ord p.now { p with unsubscribed := true, closedFlag := true } (.note .unsubscribe))

/-- What subscriber in state `s` is told of how the subject ended, publish_subject.rs:120-126. -/
def told (x : Publish.State S I E) : List (SubscriberNotification I E) :=
  match x.observedError with
  | some e => [.error e]
  | none => if x.completed then [.complete] else []

/-- Subscriber `i` (in state `s`) is told how the subject ended, and is unsubscribed, publish_subject.rs:118-134. A panic
poisons the mutex around the deferred state, which is ignored everywhere; the subscriber is lost. -/
def greet (D : Fragile S I E) (x : Publish.State S I E) (s : S) : Out (Publish.State S I E) :=
  let i := x.count
  let r : Out S := match told x with
    | n :: _ => D.push s n
    | [] => ⟨s, false⟩
  let x : Publish.State S I E := { x with count := i + 1, log := x.log ++ (told x).map fun n => (x.now, i, n) }
  if r.panicked then ⟨x.setDest i r.st, true⟩
  else if x.isClosed && !D.isClosed r.st then
    let u := D.push r.st .unsubscribe
    ⟨Publish.State.setDest { x with log := x.log ++ [(x.now, i, .unsubscribe)] } i u.st, u.panicked⟩
  else ⟨x.setDest i r.st, false⟩

/-- `subscribe`, publish_subject.rs:108-164; multicast.rs:199-215. -/
def subscribe (D : Fragile S I E) (ord : Nat → List Nat → List Nat) (x : State S I E) (s : S) : Out (State S I E) :=
  let i := x.pub.count
  (greet D (x.pub.record (.subscribe i)) s).andThen (fun p =>
    if p.isClosed then ⟨⟨p, x.poisoned⟩, false⟩
    else
      let p := { p with held := fun k => if k = i then true else p.held k }
      if x.poisoned.isSome then ⟨⟨p.defer (.add i), x.poisoned⟩, false⟩
      else locked (apply D ord p.now p (.add i))) fun p => ⟨p, x.poisoned⟩

/-- `self.subscriber.take()`, multicast_subscription.rs:92. -/
def release (i : Nat) (p : Publish.State S I E) : Publish.State S I E :=
  { p with held := fun k => if k = i then false else p.held k }

/-- `MulticastSubscription::unsubscribe`, multicast_subscription.rs:82-93; multicast.rs:273-287; `try_check_is_closed`
(lines 57-66) says no of a subscriber whose mutex is poisoned. A panic comes before `take`. -/
def cancel (D : Fragile S I E) (ord : Nat → List Nat → List Nat) (x : State S I E) (i : Nat) : Out (State S I E) :=
  let p := x.pub.record (.cancel i)
  if !p.held i || (x.poisoned != some i && D.isClosed (p.dest i)) then ⟨⟨release i p, x.poisoned⟩, false⟩
  else if x.poisoned.isSome then ⟨⟨release i (p.defer (.cancel i)), x.poisoned⟩, false⟩
  else (locked (apply D ord p.now p (.cancel i))).andThen (fun y => ⟨{ y with pub := release i y.pub }, false⟩) id

def step (D : Fragile S I E) (ord : Nat → List Nat → List Nat) (x : State S I E) : Publish.Op S I E → Out (State S I E)
  | .note n => note D ord x n
  | .subscribe s => subscribe D ord x s
  | .cancel i => cancel D ord x i

/-- Calls one after the other, going on after a panic; which of them panicked. -/
def run (D : Fragile S I E) (ord : Nat → List Nat → List Nat) (x : State S I E) :
    List (Publish.Op S I E) → State S I E × List Bool
  | [] => (x, [])
  | op :: ops =>
    let y := step D ord x op
    let r := run D ord y.st ops
    (r.1, y.panicked :: r.2)

def init (s : S) : State S I E := ⟨.init s, none⟩

end Subject

end Rx.Panics
