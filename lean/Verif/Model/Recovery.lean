import Verif.Model.HigherOrder

/-!
# catch

Models `crates/rx_core_operator_catch/src`. The recovery observable is subscribed with the inner subscriber of
the higher-order operators, so this builds on `Verif.Model.HigherOrder`, with its simplifications.
-/

namespace Rx.Catch
open Rx.HigherOrder

variable {S I E F : Type}

/-- `CatchSubscriber`, catch_subscriber.rs:15-30. The recovery observable has number 0. -/
structure State (S I F : Type) where
  higher : HigherOrder.State S I F
  /-- `error_mapper` has not been taken -/
  mapper : Bool := true

/-- What happens: the source notifies the subscriber (`unsubscribe` is also what happens when the subscription
is unsubscribed), or the recovery observable, once subscribed, notifies its subscriber. -/
inductive Event (I E F : Type) where
  | source (n : SubscriberNotification I E)
  | recovery (n : SubscriberNotification I F)

variable (D : Sub S I F) (f : E → Src I F)

/-- `unsubscribe`, catch_subscriber.rs:173-182. -/
def unsubscribe (x : State S I F) : Except Fault (State S I F) :=
  if x.higher.outerClosed then .ok x
  else do
    let h ← Single.cancelCurrent D x.higher
    let h ← give D .ok none .unsubscribe { h with outerClosed := true }
    pure { x with higher := h }

/-- `next`, catch_subscriber.rs:63-69. -/
def next (v : I) (x : State S I F) : Except Fault (State S I F) := do
  let h ← give D .ok none (.next v) x.higher
  let x := { x with higher := h }
  if D.isClosed h.dest then unsubscribe D x else pure x

/-- `error`, catch_subscriber.rs:72-125. The mapper is called in line 89. -/
def error (e : E) (x : State S I F) : Except Fault (State S I F) :=
  if !x.higher.outerClosed && x.mapper then do
    let h ← Single.cancelCurrent D x.higher.reserve
    -- lines 107-112
    let up ← HigherOrder.State.check h.up.complete
    let up ← HigherOrder.State.check up.unsubscribe
    -- lines 89, 114-119; the callbacks in 95-104 are those of switch and exhaust
    let h ← Single.subscribe D 0 (f e) { h with up := up }
    let x := { x with higher := h, mapper := false }
    if D.isClosed h.dest then unsubscribe D x else pure x
  else .ok x

/-- `complete`, catch_subscriber.rs:128-138. -/
def complete (x : State S I F) : Except Fault (State S I F) :=
  if x.higher.outerClosed then .ok x
  else do
    let h ← x.higher.upstreamCompleted
    if h.canComplete then do
      let h ← give D .ok none .complete h
      unsubscribe D { x with higher := h }
    else pure { x with higher := h }

def step (x : State S I F) : Event I E F → Except Fault (State S I F)
  | .source (.next v) => next D v x
  | .source (.error e) => error D f e x
  | .source .complete => complete D x
  | .source .unsubscribe => unsubscribe D x
  | .recovery n => do
    let h ← Single.inner D 0 n x.higher
    pure { x with higher := h }

/-- A history, from the subscription on. -/
def run (s : S) (es : List (Event I E F)) : Except Fault (State S I F) :=
  es.foldlM (step D f) { higher := { dest := s } }

end Rx.Catch
