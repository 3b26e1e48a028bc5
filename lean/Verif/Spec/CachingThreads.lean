import Verif.Spec.CachingSubjects
import Verif.Spec.SubjectThreads
import Verif.Model.CachingThreads

/-!
# Reading runs of several threads that share a subject that remembers values
-/

namespace Rx.Keeping

open Closing (Dest)
open Caching (Memory)

variable {V S I E : Type}

/-- What can be seen of the publish subject. -/
def inner (tr : List (Mark I E)) : List (Crowd.Mark I E) :=
  tr.filterMap fun m => match m with | .core m => some m | _ => none

/-- What subscriber `i` was called with, in order. -/
def heardBy (i : Nat) (tr : List (Mark I E)) : List (SubscriberNotification I E) :=
  tr.filterMap fun m => match m with
    | .replay j v => if j = i then some (.next v) else none
    | .core (.give _ j n) => if j = i then some n else none
    | _ => none

/-- The remembered values subscriber `i` was called with. -/
def replaysTo (i : Nat) (tr : List (Mark I E)) : List I :=
  tr.filterMap fun m => match m with | .replay j v => if j = i then some v else none | _ => none

/-- The values sent, in the order in which `next` was called, with the numbers of the calls. -/
def sent (tr : List (Mark I E)) : List (Nat × I) :=
  tr.filterMap fun m => match m with | .core (.call k _ (.next v)) => some (k, v) | _ => none

/-- What should be remembered: the values sent, in the order in which `next` was called. -/
def recall (M : Memory V I) (m : V) (tr : List (Mark I E)) : V := ((sent tr).map Prod.snd).foldl M.write m

/-- No call of `error` has returned, as long as the subject was not ended otherwise. -/
def Unfailed (tr : List (Crowd.Mark I E)) : Prop :=
  (∀ j u op, .call j u op ∈ tr → op.isClosing = true → ∃ e, op = .error e) → ¬ Crowd.Ended tr

/-- Thread `t` called nothing meanwhile. -/
def Silent (t : Nat) (tr : List (Mark I E)) : Prop := .enter t ∉ tr ∧ ∀ k op, .core (.call k t op) ∉ tr

/-- No thread is inside a call. -/
def AtRest (x : State V S I E) : Prop := ∀ t, (x.core.pc t).isIdle = true ∧ x.asked t = false

/-- A new subject that remembers `m`, and the subscribers that may be subscribed to it. -/
def init (m : V) (s : Nat → S) : State V S I E := { core := Crowd.init s, memory := m }

/-- No two calls of `next` overlap, and none overlaps with call `i`. -/
def Orderly (tr : List (Crowd.Mark I E)) (i : Nat) : Prop :=
  (∀ j k t u v w, .call j t (.next v) ∈ tr → .call k u (.next w) ∈ tr → j ≠ k →
    Crowd.Before tr j k ∨ Crowd.Before tr k j) ∧
  ∀ k u v, .call k u (.next v) ∈ tr → Crowd.Before tr k i ∨ Crowd.Before tr i k

end Rx.Keeping
