import Verif.Model.SharedDrops

/-!
# Handles: what histories say
-/

namespace Rx.Drops

variable {S I E : Type}

/-- How many handles there are after a history that starts with `k`. -/
def held : Nat → List (Op I E) → Nat
  | k, [] => k
  | 0, _ :: _ => 0
  | k + 1, .clone :: ops => held (k + 2) ops
  | k + 1, .call _ :: ops => held (k + 1) ops
  | k + 1, .drop :: ops => held k ops

/-- The calls made in a history that starts with `k` handles, while there were any. -/
def callsOf : Nat → List (Op I E) → List (Call I E)
  | _, [] => []
  | 0, _ :: _ => []
  | k + 1, .clone :: ops => callsOf (k + 2) ops
  | k + 1, .call c :: ops => c :: callsOf (k + 1) ops
  | k + 1, .drop :: ops => callsOf k ops

/-- No teardowns are handed over. -/
def NotesOnly (ops : List (Op I E)) : Prop := ∀ t, Op.call (.addTeardown t) ∉ ops

end Rx.Drops
