import Verif.Model.Subscriber
import Verif.Model.Panics

/-!
# Observers made of callbacks

Models `FnObserver` and `DynFnObserver` (`crates/rx_core_observer_fn/src/{fn_observer,dyn_fn_observer}.rs`), `NoopObserver`
(`crates/rx_core_observer_noop/src/noop_observer.rs`) and `None` as an observer
(`crates/rx_core_common/src/subscribers/subscriber_option.rs`; `Some` is what it contains), subscribed: wrapped in an
`ObserverSubscriber` (`crates/rx_core_common/src/subscribers/subscriber_observer.rs`).

Callbacks may panic, and so do some of the observers by themselves; the history goes on after a panic. Teardowns do not panic (C75).
Callbacks do not call back into the subscriber that runs them: it is borrowed mutably.
-/

namespace Rx.Callbacks

open Rx.Panics (Out)

inductive Kind where
  | fn
  | dyn
  | noop (debug : Bool)
  | none
deriving DecidableEq, Repr

/-- An observer: the callbacks it holds. Ghost: the callbacks that were run, with what. -/
structure Obs (I E : Type) where
  kind : Kind
  onNext : Bool := false
  onError : Bool := false
  onComplete : Bool := false
  ran : List (ObserverNotification I E) := []
deriving DecidableEq, Repr

namespace Obs
variable {I E : Type}

/-- `FnObserver::new`, fn_observer.rs:33-40. -/
def newFn : Obs I E := { kind := .fn, onNext := true, onError := true, onComplete := true }

/-- `DynFnObserver::default` with some of `with_next`, `with_error`, `with_complete`, dyn_fn_observer.rs:23-43, 71-83. -/
def newDyn (next error complete : Bool) : Obs I E :=
  { kind := .dyn, onNext := next, onError := error, onComplete := complete }

/-- `NoopObserver::default`, noop_observer.rs:9-18, in builds with and without `debug_assertions`. -/
def newNoop (debug : Bool) : Obs I E := { kind := .noop debug }

/-- `None`, subscriber_option.rs:11-37. -/
def newNone : Obs I E := { kind := .none }

/-- A callback is run. -/
def call (bad : ObserverNotification I E → Bool) (x : Obs I E) (n : ObserverNotification I E) : Out (Obs I E) :=
  ⟨{ x with ran := x.ran ++ [n] }, bad n⟩

def push (bad : ObserverNotification I E → Bool) (x : Obs I E) (n : ObserverNotification I E) : Out (Obs I E) :=
  match x.kind, n with
  -- fn_observer.rs:52-54
  | .fn, .next v => x.call bad (.next v)
  -- fn_observer.rs:56-60
  | .fn, .error e => if x.onError then { x with onError := false }.call bad (.error e) else ⟨x, false⟩
  -- fn_observer.rs:62-66
  | .fn, .complete => if x.onComplete then { x with onComplete := false }.call bad .complete else ⟨x, false⟩
  -- dyn_fn_observer.rs:50-54
  | .dyn, .next v => if x.onNext then x.call bad (.next v) else ⟨x, false⟩
  -- dyn_fn_observer.rs:56-62
  | .dyn, .error e => if x.onError then { x with onError := false }.call bad (.error e) else ⟨x, true⟩
  -- dyn_fn_observer.rs:64-68
  | .dyn, .complete => if x.onComplete then { x with onComplete := false }.call bad .complete else ⟨x, false⟩
  -- noop_observer.rs:26-34
  | .noop _, .next _ => ⟨x, false⟩
  | .noop debug, .error _ => ⟨x, debug⟩
  | .noop _, .complete => ⟨x, false⟩
  -- subscriber_option.rs:15-36
  | .none, .next _ => ⟨x, false⟩
  | .none, .error _ => ⟨x, true⟩
  | .none, .complete => ⟨x, false⟩

end Obs

/-- `ObserverSubscriber`, subscriber_observer.rs:13-21. Ghost: the teardowns that were called. -/
structure State (I E : Type) where
  obs : Obs I E
  data : SubscriptionData := .default
  tornDown : List Nat := []
deriving DecidableEq, Repr

namespace State
variable {I E : Type}

/-- `unsubscribe`, subscriber_observer.rs:73-75. -/
def unsubscribe (s : State I E) : State I E :=
  { s with data := s.data.unsubscribe.1, tornDown := s.tornDown ++ s.data.unsubscribe.2 }

/-- The observer is called. -/
def give (bad : ObserverNotification I E → Bool) (s : State I E) (n : ObserverNotification I E) : Out (State I E) :=
  ⟨{ s with obs := (s.obs.push bad n).st }, (s.obs.push bad n).panicked⟩

/-- A call: subscriber_observer.rs:40-86. What comes after a panic is not done. -/
def step (bad : ObserverNotification I E → Bool) (s : State I E) : Call I E → Out (State I E)
  | .note (.next v) => if !s.data.isClosed then s.give bad (.next v) else ⟨s, false⟩
  | .note (.error e) =>
    if !s.data.isClosed then (s.give bad (.error e)).andThen (fun s => ⟨s.unsubscribe, false⟩) id else ⟨s, false⟩
  | .note .complete =>
    if !s.data.isClosed then (s.give bad .complete).andThen (fun s => ⟨s.unsubscribe, false⟩) id else ⟨s, false⟩
  | .note .unsubscribe => ⟨s.unsubscribe, false⟩
  | .addTeardown t =>
    ⟨{ s with data := (s.data.addTeardown t).1, tornDown := s.tornDown ++ (s.data.addTeardown t).2 }, false⟩

/-- Calls one after the other, going on after a panic; which of them panicked. -/
def run (bad : ObserverNotification I E → Bool) (s : State I E) : List (Call I E) → State I E × List Bool
  | [] => (s, [])
  | c :: cs =>
    let r := (s.step bad c).st.run bad cs
    (r.1, (s.step bad c).panicked :: r.2)

end State
end Rx.Callbacks
