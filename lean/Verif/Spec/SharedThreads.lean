import Verif.Model.SharedThreads

/-!
# Reading runs of several threads
-/

namespace Rx.Threads

variable {I : Type}

/-- The values of one thread. -/
def mine (t : Nat) (l : List (Nat × I)) : List I := l.filterMap fun x => if x.1 = t then some x.2 else none

/-- A run of thread `t` alone while it is busy. -/
inductive Busy (t : Nat) : State I → State I → Prop
  | refl (x) : Busy t x x
  | step {x y z : State I} : x.pc t ≠ .idle → Step x t y → Busy t y z → Busy t x z

/-- The thread holds the lock. -/
def PC.holds : PC I → Bool
  | .askHeld _ | .own _ | .ownDeliver _ _ | .give _ | .unlock1 | .applying | .applyDeliver _ | .unlock2
  | .queryHeld => true
  | _ => false

end Rx.Threads
