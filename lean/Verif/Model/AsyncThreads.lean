import Verif.Model.SubjectThreads

/-!
# An async subject used by several threads

Models `crates/rx_core_subject_async/src/async_subject.rs`, over the publish subject of `Verif.Model.SubjectThreads`
(`Crowd`). The mutex of the value is only held within a step (async_subject.rs:77, 88-96, 106, 137); it never waits for
anything.

Simplifications.
* The same as in `Verif.Model.SubjectThreads`; in particular subscribers do not call back, also not while the result
  is replayed to them (C31 is about that).
* The reducer is a function (in the code every clone of the subject has its own, which may have a state).
* What a thread does on its own is put together with the next step it takes on something shared: `complete` copies
  the value and begins `next` (or `complete`) of the publish subject in one step; `subscribe` asks whether there was an
  error, replays the value that it copied to the new subscriber, which nobody else knows of yet, and begins `subscribe`
  of the publish subject in one step.
-/

namespace Rx.Awaiting

open Closing (Dest)

/-- What can be seen: what can be seen of the publish subject inside; that `next`, `complete` or `subscribe` of the
async subject is called; that the new subscriber `i` is called with the result; and what `value` answers. -/
inductive Mark (I E : Type) where
  | core (m : Crowd.Mark I E)
  | store (t : Nat) (v : I)
  | finish (t : Nat)
  | enter (t : Nat)
  | replay (i : Nat) (v : I)
  | read (t : Nat) (o : Option I)
deriving DecidableEq

/-- Where a thread is, outside of the publish subject. -/
inductive Stage (I : Type) where
  /-- in none of these; it may be inside a call of the publish subject -/
  | out
  /-- `complete`: inside `next` of the publish subject, or back from it (async_subject.rs:109-112) -/
  | finishing
  /-- `subscribe`: the publish subject is closed, about to copy the value (async_subject.rs:137) -/
  | found
  /-- `subscribe`: has copied the value, about to ask whether there was an error (async_subject.rs:139) -/
  | copied (o : Option I)
deriving DecidableEq

/-- A publish subject and the value, async_subject.rs:33-43. -/
structure State (S I E : Type) where
  core : Crowd.State S I E
  value : Option I := none
  stage : Nat → Stage I := fun _ => .out
  trace : List (Mark I E) := []

/-- What a thread does next, as for a publish subject; or it asks for the value. -/
inductive Turn (I E : Type) where
  | core (a : Crowd.Turn I E)
  | read
deriving DecidableEq

variable {S I E : Type}

def State.note (x : State S I E) (m : Mark I E) : State S I E := { x with trace := x.trace ++ [m] }

/-- Thread `t` moves on. -/
def State.goto (x : State S I E) (t : Nat) (p : Stage I) : State S I E :=
  { x with stage := fun u => if u = t then p else x.stage u }

/-- The publish subject moves on; what can be seen of that is seen. -/
def State.moves (x : State S I E) (y : Crowd.State S I E) : State S I E :=
  { x with core := y, trace := x.trace ++ (y.trace.drop x.core.trace.length).map .core }

variable (f : I → I → I) (D : Dest S I E) (debug : Bool)

/-- The value is given to the subscriber that the next call of `subscribe` will bring along, async_subject.rs:142. -/
def State.replay (x : State S I E) (v : I) : State S I E :=
  { x with
    core := { x.core with dests := fun i =>
      if i = x.core.calls then D.push (x.core.dests i) (.next v) else x.core.dests i }
    trace := x.trace ++ [.replay x.core.calls v] }

/-- The publish subject takes a turn of thread `t`. -/
def State.turn (x : State S I E) (t : Nat) (a : Crowd.Turn I E) : State S I E :=
  x.moves (Crowd.step D debug x.core t a)

/-- What `next` makes of the value, async_subject.rs:90-96. -/
def store (o : Option I) (v : I) : Option I :=
  match o with
  | some u => some (f u v)
  | none => some v

/-- One turn of thread `t`. -/
def step (x : State S I E) (t : Nat) (a : Turn I E) : State S I E :=
  match x.stage t with
  | .finishing =>
    -- `complete`, async_subject.rs:109-112
    if (x.core.pc t).isIdle then (x.goto t .out).turn D debug t (.call .complete)
    else x.turn D debug t .go
  -- `subscribe`, async_subject.rs:137
  | .found => x.goto t (.copied x.value)
  | .copied o =>
    -- `subscribe`, async_subject.rs:139-143, 151
    let x := x.goto t .out
    (match o with
      | some v => if x.core.error.isNone then x.replay D v else x
      | none => x).turn D debug t (.call .subscribe)
  | .out =>
    if (x.core.pc t).isIdle then
      match a with
      -- `next`, async_subject.rs:87-97
      | .core (.call (.next v)) => { x with value := store f x.value v }.note (.store t v)
      -- `complete`, async_subject.rs:105-113
      | .core (.call .complete) =>
        let x := x.note (.finish t)
        match x.value with
        | some v => (x.goto t .finishing).turn D debug t (.call (.next v))
        | none => x.turn D debug t (.call .complete)
      -- `subscribe`, async_subject.rs:136
      | .core (.call .subscribe) =>
        let x := x.note (.enter t)
        if x.core.shut then x.goto t .found else x.turn D debug t (.call .subscribe)
      -- `error`, async_subject.rs:99-102; the rest is delegated
      | .core a => x.turn D debug t a
      -- `value`, async_subject.rs:76-78
      | .read => x.note (.read t x.value)
    else x.turn D debug t .go

/-- Any schedule. -/
def run (x : State S I E) (l : List (Nat × Turn I E)) : State S I E :=
  l.foldl (fun x a => step f D debug x a.1 a.2) x

end Rx.Awaiting
