import Verif.Model.HigherOrder

/-!
# The observables `merge` and `concat`

Models `crates/rx_core_observable_merge/src/merge_observable.rs` and
`crates/rx_core_observable_concat/src/concat_observable.rs`. Subscribing hands the inputs, one after the other,
to the subscriber of merge_all (`Verif.Model.HigherOrder`), and completes it. The subscription returned is made
after that; unsubscribing it unsubscribes the subscriber (merge_observable.rs:74-77, concat_observable.rs:69-72).
The error mapper is never called, there are no upstream errors. Simplifications are those of
`Verif.Model.HigherOrder`.
-/

namespace Rx.HigherOrder

variable {S I E : Type}

/-- The loop and the completion, merge_observable.rs:69-72, concat_observable.rs:64-67. -/
def handOver (inputs : List (Src I E)) : List (Event I E) :=
  inputs.map (fun src => .outer (.next src)) ++ [.outer .complete]

/-- What can happen after `subscribe`: an input notifies its subscriber, or the subscription is unsubscribed. -/
inductive After (I E : Type) where
  | input (a : Nat) (n : SubscriberNotification I E)
  | unsubscribe

def After.event : After I E → Event I E
  | .input a n => .inner a n
  | .unsubscribe => .outer .unsubscribe

/-- `merge(inputs, limit).subscribe(…)`, merge_observable.rs:30-39, 52-78, and what happens then. A limit of
zero is taken for one (36). -/
def merge (D : Sub S I E) (s : S) (limit : Nat) (inputs : List (Src I E)) (l : List (After I E)) :
    Except Fault (State S I E) :=
  Concurrent.run D (if limit = 0 then 1 else limit) { dest := s } (handOver inputs ++ l.map After.event)

/-- `concat(inputs).subscribe(…)`, concat_observable.rs:47-73, and what happens then. -/
def concat (D : Sub S I E) (s : S) (inputs : List (Src I E)) (l : List (After I E)) :
    Except Fault (State S I E) :=
  Concurrent.run D 1 { dest := s } (handOver inputs ++ l.map After.event)

end Rx.HigherOrder
