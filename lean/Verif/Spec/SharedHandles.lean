import Verif.Model.SharedHandles

/-!
# What users of a shared subscription see
-/

namespace Rx.Spec.Handles

open Rx.Handles

/-- How often a teardown has run. -/
def timesRan (l : List Mark) (td : Nat) : Nat := l.count (.ran td)

/-- How often a teardown was added. -/
def timesAdded (l : List Mark) (td : Nat) : Nat := l.count (.added td)

/-- Every teardown that was added has run, once for each time it was added. -/
def AllRan (l : List Mark) : Prop := ∀ td, timesRan l td = timesAdded l td

/-- Somebody has called `unsubscribe`. -/
def Asked (l : List Mark) : Prop := ∃ t, Mark.unsub t ∈ l

/-- Some call of `unsubscribe` has returned. -/
def Returned (l : List Mark) : Prop := ∃ t, Mark.unsubRet t ∈ l

/-- No call is going on. -/
def Quiet (x : State) : Prop := ∀ t, x.pc t = .idle

/-- Thread `t` makes a call, and goes on until it has returned from it, while all others rest. -/
def Alone (x : State) (t : Nat) (a : Turn) (y : State) : Prop :=
  ∃ k, y = run x ((t, a) :: List.replicate k (t, .go)) ∧ y.pc t = .idle

/-- A thread that is here is in a call of `unsubscribe`. -/
def unsubscribing : PC → Bool
  | .start | .startApply | .observe | .attempt | .deferring | .finish | .finishApply | .sealing | .closing | .ownRunning => true
  | .top w _ | .deliver w _ _ | .running w _ _ | .marking w _ _ | .unlock w => w != .drop
  | _ => false

/-- A thread that is here is in a call of `add_teardown` or `is_closed`. -/
def looking : PC → Bool
  | .adding _ | .addHeld _ | .query | .queryAsk | .queryHeld => true
  | _ => false

/-- No thread is in a call of `unsubscribe` while another is in a call of `add_teardown` or `is_closed`. -/
def Apart (x : State) : Prop := ∀ t u, ¬ (unsubscribing (x.pc t) = true ∧ looking (x.pc u) = true)

/-- What somebody remembers who listens to everything that is to be seen. -/
structure Listener where
  /-- somebody has called `unsubscribe` -/
  asked : Bool := false
  /-- some call of `unsubscribe` has returned -/
  returned : Bool := false
  /-- some call of `unsubscribe` had returned when this thread last called `is_closed` -/
  sure : Nat → Bool := fun _ => false
  /-- `is_closed` has answered wrongly -/
  lie : Bool := false

/-- An answer is wrong if it is no, although an `unsubscribe` had returned when the question was asked; or
if it is yes, although nobody has called `unsubscribe`. -/
def Listener.hear (h : Listener) : Mark → Listener
  | .unsub _ => { h with asked := true }
  | .unsubRet _ => { h with returned := true }
  | .ask t => { h with sure := fun u => if u = t then h.returned else h.sure u }
  | .answer t b => { h with lie := h.lie || (h.sure t && !b) || (b && !h.asked) }
  | _ => h

/-- After all of it. -/
def heard (l : List Mark) : Listener := l.foldl .hear {}

end Rx.Spec.Handles
