import Verif.Model.Panics

/-!
# Handles of a `SharedSubscription` whose teardowns may panic

`crates/rx_core_common/src/subscriptions/subscription_shared.rs`. Debug assertions are on. Simplifications: one thread;
teardowns do not call back (C04 has those that do) and hold no handles; handles are not dropped while the thread unwinds from
another panic.
-/

namespace Rx.SubscriptionDrops

open Rx.Panics (Data Out)

/-- What the handles share (89-97, 16-26), and how many of them there are: the subscription, whether its lock is poisoned, how
many unsubscriptions are deferred, the two flags. Ghost: whether `debug_assert!(!self.is_dirty())` (72) failed. -/
structure State where
  data : Data := {}
  poisoned : Bool := false
  queue : Nat := 0
  closedFlag : Bool := false
  observed : Bool := false
  handles : Nat := 1
  asserted : Bool := false
deriving DecidableEq, Repr

namespace State

/-- The subscription is unsubscribed with the lock held: a panic poisons it. -/
def give (bad : Nat → Bool) (x : State) : Out State :=
  let r := x.data.unsubscribe bad
  ⟨{ x with data := r.st, poisoned := x.poisoned || r.panicked }, r.panicked⟩

/-- What was drained, subscription_shared.rs:149-160: a panic drops the rest of it. -/
def applyAll (bad : Nat → Bool) : Nat → State → Out State
  | 0, x => ⟨x, false⟩
  | n + 1, x =>
    (if !x.closedFlag then x.give bad else ⟨x, false⟩).andThen (fun x => applyAll bad n { x with closedFlag := true }) id

/-- `apply_notification_queue`, subscription_shared.rs:121-162. Teardowns do not call back, so that the second turn finds the
queue empty. -/
def applyQueue (bad : Nat → Bool) (x : State) : Out State := applyAll bad x.queue { x with queue := 0 }

/-- `try_apply_deferred`, subscription_shared.rs:110-119. -/
def tryApplyDeferred (bad : Nat → Bool) (x : State) : Out State :=
  if x.queue != 0 && !x.poisoned then x.applyQueue bad else ⟨x, false⟩

/-- `defer_notification`, subscription_shared.rs:29-39, of an unsubscription. -/
def defer (x : State) : State := if x.closedFlag && x.observed then x else { x with queue := x.queue + 1 }

/-- `try_unsubscribe`, subscription_shared.rs:164-179, when the lock can be had. -/
def tryUnsubscribe (bad : Nat → Bool) (x : State) : Out State :=
  (x.applyQueue bad).andThen (fun x =>
    let x := { x with closedFlag := true }
    if !x.data.data.isClosed then x.give bad else ⟨x, false⟩) id

/-- `unsubscribe`, subscription_shared.rs:192-209. -/
def unsubscribe (bad : Nat → Bool) (x : State) : Out State :=
  (x.tryApplyDeferred bad).andThen (fun x =>
    let was := x.observed
    let x := { x with observed := true }
    (if !was then (if x.poisoned then ⟨x.defer, false⟩ else x.tryUnsubscribe bad) else ⟨x, false⟩).andThen
      (fun x => x.tryApplyDeferred bad) id) id

/-- `is_closed`, subscription_shared.rs:183-190. -/
def isClosed (x : State) : Bool := (x.closedFlag || x.observed) || (!x.poisoned && x.data.data.isClosed)

/-- `add_teardown` is delegated to the lock (91, 94): subscriber_arc_mutex.rs:104-114. -/
def addTeardown (bad : Nat → Bool) (x : State) (t : Teardown) : Out State :=
  if x.poisoned then
    (⟨{ x with data := { x.data with ran := x.data.ran ++ t.execute } }, t.execute.any bad⟩ : Out State).andThen
      (fun x => x.give bad) id
  else
    let r := x.data.addTeardown bad t
    ⟨{ x with data := r.st, poisoned := r.panicked }, r.panicked⟩

/-- `drop` of a handle, subscription_shared.rs:212-217, and then of its two fields: with the last handle go the subscription
(subscription_data.rs:85-89) and the deferred state (67-77), the latter also if the former panics. -/
def drop (bad : Nat → Bool) (x : State) : Out State :=
  let r := x.tryApplyDeferred bad
  if x.handles = 1 then
    let d := r.st.data.drop bad
    let dirty := r.st.queue != 0
    ⟨{ r.st with data := d.st, closedFlag := true, handles := 0, asserted := dirty }, r.panicked || d.panicked || dirty⟩
  else ⟨{ r.st with handles := x.handles - 1 }, r.panicked⟩

end State

/-- What users do with their handles. -/
inductive Op where
  | clone
  | add (t : Teardown)
  | unsubscribe
  | drop
deriving DecidableEq, Repr

/-- One of these; without a handle nothing can be done. -/
def step (bad : Nat → Bool) (x : State) (op : Op) : Out State :=
  if x.handles = 0 then ⟨x, false⟩
  else match op with
    | .clone => ⟨{ x with handles := x.handles + 1 }, false⟩
    | .add t => x.addTeardown bad t
    | .unsubscribe => x.unsubscribe bad
    | .drop => x.drop bad

/-- One after the other, going on after a panic; which of them panicked. -/
def run (bad : Nat → Bool) (x : State) : List Op → State × List Bool
  | [] => (x, [])
  | op :: ops =>
    let y := step bad x op
    let r := run bad y.st ops
    (r.1, y.panicked :: r.2)

end Rx.SubscriptionDrops
