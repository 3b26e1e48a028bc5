import Verif.Spec.SubjectThreads
import Verif.Model.AsyncThreads

/-!
# Reading runs of several threads that share an async subject
-/

namespace Rx.Awaiting

open Closing (Dest)

variable {S I E : Type}

/-- What can be seen of the publish subject inside. -/
def inner (tr : List (Mark I E)) : List (Crowd.Mark I E) :=
  tr.filterMap fun m => match m with | .core m => some m | _ => none

/-- What subscriber `i` was called with, in order. -/
def heardBy (i : Nat) (tr : List (Mark I E)) : List (SubscriberNotification I E) :=
  tr.filterMap fun m => match m with
    | .replay j v => if j = i then some (.next v) else none
    | .core (.give _ j n) => if j = i then some n else none
    | _ => none

/-- The values among them. -/
def valuesOf (l : List (SubscriberNotification I E)) : List I :=
  l.filterMap fun n => match n with | .next v => some v | _ => none

/-- The values subscriber `i` was called with before it was subscribed to the publish subject. -/
def replaysTo (i : Nat) (tr : List (Mark I E)) : List I :=
  tr.filterMap fun m => match m with | .replay j v => if j = i then some v else none | _ => none

/-- The values that `next` was called with, in that order. -/
def stored (tr : List (Mark I E)) : List I :=
  tr.filterMap fun m => match m with | .store _ v => some v | _ => none

/-- The result: all values combined, in the order in which `next` was called. -/
def result (f : I → I → I) (tr : List (Mark I E)) : Option I :=
  match stored tr with
  | [] => none
  | v :: vs => some (vs.foldl f v)

/-- How often `complete` was called. -/
def finishes (tr : List (Mark I E)) : Nat := tr.countP fun m => match m with | .finish _ => true | _ => false

/-- Thread `t` called nothing meanwhile. -/
def Silent (t : Nat) (tr : List (Mark I E)) : Prop :=
  .enter t ∉ tr ∧ .finish t ∉ tr ∧ (∀ v, .store t v ∉ tr) ∧ ∀ k op, .core (.call k t op) ∉ tr

/-- No thread is inside a call. -/
def AtRest (x : State S I E) : Prop := ∀ t, (x.core.pc t).isIdle = true ∧ x.stage t = .out

/-- A new async subject, and the subscribers that may be subscribed to it. -/
def init (s : Nat → S) : State S I E := { core := Crowd.init s }

end Rx.Awaiting
