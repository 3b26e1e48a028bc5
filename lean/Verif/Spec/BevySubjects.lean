import Verif.Model.BevySubjects

/-!
# What a subject on an entity is to be told
-/

namespace Rx.BevySubjects

variable {I E : Type}

/-- What others tell the `k`-th subject. -/
def directly (k : Nat) : List (Op I E) → List (Call I E)
  | [] => []
  | .direct k' x :: r => if k' = k then x :: directly k r else directly k r
  | _ :: r => directly k r

/-- What the `k`-th subject, of type `o`, is told, from when it was inserted into the entity `e`: each signal for its types that
is triggered on `e`, `m` times, until the component is removed or the entity despawned, which unsubscribes it, or another one of
its type is inserted in its place; and what others tell it. -/
def told (c : Cfg) (e o k m : Nat) : List (Op I E) → List (Call I E)
  | [] => []
  | .signal e' y n :: r =>
    if e' = e ∧ y = c.inp o then List.replicate m (.note n) ++ told c e o k m r else told c e o k m r
  | .remove e' o' :: r => if e' = e ∧ o' = o then .unsubscribe :: directly k r else told c e o k m r
  | .despawn e' :: r => if e' = e then .unsubscribe :: directly k r else told c e o k m r
  | .insert e' o' :: r => if e' = e ∧ o' = o then directly k r else told c e o k m r
  | .direct k' x :: r => if k' = k then x :: told c e o k m r else told c e o k m r
  | .spawn :: r => told c e o k m r

/-- How many subjects were inserted. -/
def insertions : List (Op I E) → Nat
  | [] => 0
  | .insert _ _ :: r => insertions r + 1
  | _ :: r => insertions r

/-- Whether an entity exists, and whether it has a subject of that type, and how often one was inserted when there was one. -/
structure Seen where
  spawned : Nat := 0
  alive : Bool := false
  here : Bool := false
  again : Nat := 0

def Seen.see (e o : Nat) (x : Seen) : Op I E → Seen
  | .spawn => { x with spawned := x.spawned + 1, alive := x.alive || x.spawned == e }
  | .insert e' o' =>
    if e' = e ∧ o' = o ∧ x.alive then { x with here := true, again := if x.here then x.again + 1 else x.again } else x
  | .remove e' o' => if e' = e ∧ o' = o then { x with here := false } else x
  | .despawn e' => if e' = e then { x with alive := false, here := false } else x
  | _ => x

def seen (e o : Nat) (l : List (Op I E)) : Seen := l.foldl (Seen.see e o) {}

end Rx.BevySubjects
