import Verif.Model.SharedClosing

/-!
# Reading runs of several threads that may close a shared subscriber
-/

namespace Rx.Closing

variable {S I E : Type}

/-- What the destinations of the library do: closed, they ignore everything; a closing notification
closes them. They may close on a value too. -/
structure Dest.Contract (D : Dest S I E) : Prop where
  inert : ∀ s n, D.isClosed s = true → D.push s n = s
  closes : ∀ s n, n.isClosing = true → D.isClosed (D.push s n) = true

/-- The notifications the destination was called with, in order, with the numbers of the calls. -/
def gives (tr : List (Mark I E)) : List (Call I E) :=
  tr.filterMap fun m => match m with | .give k n => some ⟨k, n⟩ | _ => none

/-- The destination after all that. -/
def Dest.after (D : Dest S I E) (s : S) (tr : List (Mark I E)) : S :=
  (gives tr).foldl (fun s c => D.push s c.n) s

/-- Call `j` had returned when call `k` had not begun. -/
def Before (tr : List (Mark I E)) (j k : Nat) : Prop :=
  ∃ a b, tr = a ++ b ∧ .ret j ∈ a ∧ ∀ t n, .call k t n ∉ a

/-- Another call, a closing one, had begun, or the destination had closed, when call `k` had not returned. -/
def Excused (D : Dest S I E) (s : S) (tr : List (Mark I E)) (k : Nat) : Prop :=
  ∃ a b, tr = a ++ b ∧ .ret k ∉ a ∧
    ((∃ j t n, j ≠ k ∧ .call j t n ∈ a ∧ n.isClosing = true) ∨ D.isClosed (D.after s a) = true)

/-- Call `k` began after a closing call had returned. -/
def Late (tr : List (Mark I E)) (k : Nat) : Prop :=
  ∃ j t n, .call j t n ∈ tr ∧ n.isClosing = true ∧ Before tr j k

/-- A closing call has returned. -/
def Shut (tr : List (Mark I E)) : Prop := ∃ j t n, .call j t n ∈ tr ∧ n.isClosing = true ∧ .ret j ∈ tr

/-- The thread is inside the destination, or about to be or just was, holding its mutex. -/
def PC.holds : PC I E → Bool
  | .askHeld _ | .top _ _ | .deliver _ _ | .marking _ _ _ | .sealing _ | .give _ | .unlock _
  | .queryHeld => true
  | _ => false

/-- No thread is inside a call. -/
def AtRest (x : State S I E) : Prop := ∀ t, (x.pc t).isIdle = true

end Rx.Closing
