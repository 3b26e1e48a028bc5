import Verif.Model.SubjectFeeds
import Verif.Spec.PublishSubject

/-!
# What the inputs of a subject should let through
-/

namespace Rx.Feeds

variable {S I E : Type}

/-- How many inputs were made in a history. -/
def made (h : List (Op S I E)) : Nat := (h.filter fun | .connect => true | _ => false).length

/-- Input `j` has been told the end, or was unsubscribed, in a history. -/
def Over (j : Nat) (h : List (Op S I E)) : Prop :=
  ∃ pre n post, h = pre ++ .push j n :: post ∧ j < made pre ∧ n.isClosing = true

/-- The teardowns added to input `j` in a history. -/
def addedTo (j : Nat) : (before : Nat) → List (Op S I E) → List Nat
  | _, [] => []
  | n, .connect :: h => addedTo j (n + 1) h
  | n, .addTeardown k t :: h => if k = j ∧ j < n then t :: addedTo j n h else addedTo j n h
  | n, _ :: h => addedTo j n h

/-- What the subject is told by an operation, after history `h`: what is done to it directly, and what an input that is not
over gives it. It is not told to unsubscribe by its inputs. -/
inductive Tells (h : List (Op S I E)) : Op S I E → List (Publish.Op S I E) → Prop where
  | direct (op) : Tells h (.direct op) [op]
  | value (j n) : j < made h → ¬ Over j h → n ≠ .unsubscribe → Tells h (.push j n) [.note n]
  | unsubscribe (j) : Tells h (.push j .unsubscribe) []
  | over (j n) : Over j h → Tells h (.push j n) []
  | unknown (j n) : made h ≤ j → Tells h (.push j n) []
  | connect : Tells h .connect []
  | addTeardown (j t) : Tells h (.addTeardown j t) []

/-- What the subject is told by a history, after history `h`. -/
inductive Told : List (Op S I E) → List (Op S I E) → List (Publish.Op S I E) → Prop where
  | nil (h) : Told h [] []
  | cons {h op ops a b} : Tells h op a → Told (h ++ [op]) ops b → Told h (op :: ops) (a ++ b)

end Rx.Feeds
