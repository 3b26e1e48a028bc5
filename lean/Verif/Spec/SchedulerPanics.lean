import Verif.Spec.Scheduler

/-!
# What is told of scheduled work when work panics

As in `Verif.Spec.Scheduler`, everything is read off the log.
-/

namespace Rx.Sched.Spec

open Rx.Sched

variable {B : Type}

/-- The runs of the closure of the `u`-th scheduled work, each with the tick it was given. -/
def runsOf (u : Nat) (log : List (Ev B)) : List Nat :=
  log.filterMap fun
    | .run src t => if src = .work u then some t else none
    | _ => none

/-- The work answered that it is done before its last run. -/
def runsAfterDone (u : Nat) (log : List (Ev B)) : Prop :=
  ∃ pre post t, log = pre ++ .done (.work u) :: post ∧ .run (.work u) t ∈ post

/-- Work made for invocations is registered under `i`: since it last was, it was not cancelled and did not answer that it
is done. -/
def registered (i : Nat) (log : List (Ev B)) : Bool :=
  log.foldl (fun r e => match e with
    | .addInvoked j wk => if j = i then (match wk with | .invoked _ => true | _ => false) else r
    | .cancelInvoked j => if j = i then false else r
    | .done src => if src = .invoked i then false else r
    | _ => r) false

end Rx.Sched.Spec
