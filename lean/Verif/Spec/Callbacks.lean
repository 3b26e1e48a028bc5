import Verif.Model.Callbacks

/-!
# What the callbacks of an observer are to be called with
-/

namespace Rx.Callbacks

variable {I E : Type}

/-- What a subscription delivers: up to the first end, or until it is unsubscribed. -/
def heard : List (Call I E) → List (ObserverNotification I E)
  | [] => []
  | .note (.next v) :: r => .next v :: heard r
  | .note (.error e) :: _ => [.error e]
  | .note .complete :: _ => [.complete]
  | .note .unsubscribe :: _ => []
  | .addTeardown _ :: r => heard r

/-- It has ended, or was unsubscribed. -/
def over : List (Call I E) → Bool
  | [] => false
  | .note (.next _) :: r => over r
  | .addTeardown _ :: r => over r
  | .note _ :: _ => true

/-- The teardowns handed over. -/
def added : List (Call I E) → List Nat
  | [] => []
  | .addTeardown (some t) :: r => t :: added r
  | _ :: r => added r

/-- The notifications among the calls. -/
def notes : List (Call I E) → List (ObserverNotification I E)
  | [] => []
  | .note (.next v) :: r => .next v :: notes r
  | .note (.error e) :: r => .error e :: notes r
  | .note .complete :: r => .complete :: notes r
  | _ :: r => notes r

/-- There is a callback for this. -/
def holds (x : Obs I E) : ObserverNotification I E → Bool
  | .next _ => x.onNext
  | .error _ => x.onError
  | .complete => x.onComplete

/-- An observer as it is made. -/
inductive Made : Obs I E → Prop where
  | fn : Made .newFn
  | dyn (next error complete : Bool) : Made (.newDyn next error complete)
  | noop (debug : Bool) : Made (.newNoop debug)
  | none : Made .newNone

/-- An error for which there is no callback is a panic: but `NoopObserver` says nothing in release builds, and `FnObserver`
always has one. -/
def strict (x : Obs I E) : Bool :=
  match x.kind with
  | .fn => false
  | .dyn => true
  | .noop debug => debug
  | .none => true

/-- Whether handling this is a panic. -/
def panics (bad : ObserverNotification I E → Bool) (x : Obs I E) (n : ObserverNotification I E) : Bool :=
  if holds x n then bad n else
    match n with
    | .error _ => strict x
    | _ => false

def isError : ObserverNotification I E → Bool
  | .error _ => true
  | _ => false

def isComplete : ObserverNotification I E → Bool
  | .complete => true
  | _ => false

end Rx.Callbacks
