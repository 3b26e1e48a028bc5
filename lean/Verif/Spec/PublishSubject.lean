import Verif.Model.PublishSubject
import Verif.Model.Subscriber

/-!
# What a publish subject must do
-/

namespace Rx.Publish

variable {S I E : Type}

/-- How a subject looks to subscriber `k`: how it ended (if it did), whether `k` is subscribed, and what
`k` should have been given so far. -/
structure View (I E : Type) where
  ended : Option (SubscriberNotification I E)
  member : Bool
  out : List (SubscriberNotification I E)

/-- The effect of a call, if calls are made one at a time. -/
def View.step (k : Nat) (e : View I E) : Call I E → View I E
  | .note n =>
    if e.ended.isSome then e
    else { e with
      ended := if n.isClosing then some n else none
      out := if e.member then e.out ++ [n] else e.out }
  | .subscribe i =>
    if i ≠ k then e
    else
      match e.ended with
      | none => { e with member := true }
      | some n => { e with out := e.out ++ [n] }
  | .cancel i =>
    if i = k ∧ e.member = true ∧ e.ended = none then
      { e with member := false, out := e.out ++ [.unsubscribe] }
    else e

def view (k : Nat) (calls : List (Call I E)) : View I E :=
  calls.foldl (View.step k) ⟨none, false, []⟩

/-- What subscriber `k` should be given when these calls are made one at a time: everything sent between
its subscription and its cancellation, up to the end of the subject; after that, how it ended. -/
def expected (k : Nat) (calls : List (Call I E)) : List (SubscriberNotification I E) :=
  (view k calls).out

/-- What subscriber `k` was given. -/
def received (k : Nat) (x : State S I E) : List (SubscriberNotification I E) :=
  x.log.filterMap fun l => if l.2.1 = k then some l.2.2 else none

/-- However the handling goes, the subscriber is closed in the end. -/
def EndsClosed (R : Dest S I E) : Act S I E → Prop
  | .done s => R.isClosed s = true
  | .note _ k => EndsClosed R k
  | .subscribe _ k => ∀ i, EndsClosed R (k i)
  | .cancel _ k => EndsClosed R k
  | .isClosed k => ∀ b, EndsClosed R (k b)

/-- Subscribers that close on error, complete and unsubscribe. -/
def Closes (R : Dest S I E) : Prop :=
  ∀ s (n : SubscriberNotification I E), n.isClosing = true → EndsClosed R (R.push s n)

/-- Subscribers that do not call the subject when they are unsubscribed. -/
def Quiet (R : Dest S I E) : Prop := ∀ s, ∃ s', R.push s .unsubscribe = .done s'

/-- Call number `c` subscribed someone. -/
def isGreeting (calls : List (Call I E)) (c : Nat) : Bool :=
  match calls[c]? with
  | some (.subscribe _) => true
  | _ => false

/-- The call a subscriber was given this notification for. (A subscriber that did not close although the
subject errored or completed is unsubscribed.) -/
def Justified (calls : List (Call I E)) (l : Nat × Nat × SubscriberNotification I E) : Prop :=
  (∃ n, calls[l.1]? = some (.note n) ∧ (l.2.2 = n ∨ n.isTerminal = true ∧ l.2.2 = .unsubscribe)) ∨
  (calls[l.1]? = some (.cancel l.2.1) ∧ l.2.2 = .unsubscribe) ∨
  calls[l.1]? = some (.subscribe l.2.1)

/-- What subscribers were given, other than how the subject had ended before they subscribed: the number
of the call, the subscriber, and the notification. -/
def rounds (x : State S I E) : List (Nat × Nat × SubscriberNotification I E) :=
  x.log.filter fun l => !isGreeting x.calls l.1

/-! ## Subscribers that do not call the subject -/

/-- The calls users make; subscribers are numbered from `i`. -/
def callsFrom : Nat → List (Op S I E) → List (Call I E)
  | _, [] => []
  | i, .note n :: ops => .note n :: callsFrom i ops
  | i, .subscribe _ :: ops => .subscribe i :: callsFrom (i + 1) ops
  | i, .cancel k :: ops => .cancel k :: callsFrom i ops

def callsOf (ops : List (Op S I E)) : List (Call I E) := callsFrom 0 ops

def Op.subscriber : Op S I E → Option S
  | .subscribe s => some s
  | _ => none

def Op.sent : Op S I E → Option (SubscriberNotification I E)
  | .note n => some n
  | _ => none

/-- The subscribers, in the order of subscription, as they were when they were subscribed. -/
def startsOf (ops : List (Op S I E)) : List S :=
  ops.filterMap Op.subscriber

/-- How the subject ended, if it did. -/
def endOf (ops : List (Op S I E)) : Option (SubscriberNotification I E) :=
  (ops.filterMap Op.sent).find? (·.isClosing)

/-- What is sent up to the cancellation of subscription `k` or the end of the subject. -/
def window (k : Nat) : List (Op S I E) → List (SubscriberNotification I E)
  | [] => []
  | .note n :: ops => if n.isClosing then [n] else n :: window k ops
  | .cancel i :: ops => if i = k then [.unsubscribe] else window k ops
  | .subscribe _ :: ops => window k ops

/-- What an observer sees of a notification. -/
def asObserved : SubscriberNotification I E → Option (ObserverNotification I E)
  | .next v => some (.next v)
  | .error e => some (.error e)
  | .complete => some .complete
  | .unsubscribe => none

end Rx.Publish
