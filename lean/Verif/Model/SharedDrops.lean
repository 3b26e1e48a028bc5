import Verif.Model.Panics

/-!
# Handles of a `SharedSubscriber`: cloning and dropping them

`crates/rx_core_common/src/subscribers/subscriber_shared.rs`. Debug assertions are on. Simplifications: handles are held only
by users, not by the destination, and are not dropped while the thread unwinds from another panic; what the destination does
when it is dropped is left out.
-/

namespace Rx.Drops

open Rx.Panics (Touchy Out)

variable {S I E : Type}

/-- What the handles share (152-159), and how many of them there are. Ghost: how often the destination was dropped; whether
`debug_assert!(!self.is_dirty())` (110) failed; whether it did so while unwinding, which aborts the program. -/
structure State (S I E : Type) where
  core : Panics.Shared.State S I E
  handles : Nat := 1
  freed : Nat := 0
  asserted : Bool := false
  aborted : Bool := false

/-- `SharedSubscriber::new`, subscriber_shared.rs:165-170. -/
def State.new (s : S) : State S I E := { core := { dest := s } }

/-- What users do with their handles. -/
inductive Op (I E : Type) where
  /-- `clone`, 313-318 -/
  | clone
  | call (c : Call I E)
  | drop
deriving DecidableEq, Repr

/-- `drop` of a handle, 416-424, and then of its two fields: with the last handle go the destination and the deferred
state, whose `drop` (101-112) closes the flag and asserts that nothing is pending. -/
def State.drop (R : Touchy S I E) (x : State S I E) : Out (State S I E) :=
  let r := Panics.Shared.tryApplyDeferred R x.core
  if x.handles = 1 then
    let dirty := r.st.deferred.isDirty
    ⟨{ core := { r.st with deferred := { r.st.deferred with closedFlag := true } }, handles := 0, freed := x.freed + 1,
       asserted := dirty, aborted := dirty && r.panicked }, r.panicked || dirty⟩
  else ⟨{ x with core := r.st, handles := x.handles - 1 }, r.panicked⟩

/-- One of these; without a handle nothing can be done. -/
def step (R : Touchy S I E) (bad : Nat → Bool) (x : State S I E) (op : Op I E) : Out (State S I E) :=
  if x.handles = 0 then ⟨x, false⟩
  else match op with
    | .clone => ⟨{ x with handles := x.handles + 1 }, false⟩
    | .call c =>
      let r := Panics.Shared.step R bad x.core c
      ⟨{ x with core := r.st }, r.panicked⟩
    | .drop => x.drop R

/-- One after the other, going on after a panic. -/
def run (R : Touchy S I E) (bad : Nat → Bool) (x : State S I E) (ops : List (Op I E)) : State S I E :=
  ops.foldl (fun x op => (step R bad x op).st) x

end Rx.Drops
