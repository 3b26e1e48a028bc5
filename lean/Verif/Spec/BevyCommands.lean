import Verif.Model.BevyCommands

/-!
# What subscribing through commands is about

In terms of what an application can see: entities, components, destinations, subscriptions.
-/

namespace Rx.Bevy.World

/-- The entity that the `k`-th `Commands::subscribe` returned. -/
def IsEntityOf (w : World) (k e : Nat) : Prop := ∃ cmd, w.issued k = some cmd ∧ cmd.reserved = e

/-- There is such an entity. -/
def Alive (w : World) (e : Nat) : Prop := w.ent e ≠ none

/-- It has the subscription `k`. -/
def Holds (w : World) (e k : Nat) : Prop := ∃ x, w.ent e = some x ∧ x.subscription = some k

/-- It has an observable of type `o`. -/
def HasObservable (w : World) (e o : Nat) : Prop := ∃ x, w.ent e = some x ∧ o ∈ x.observables

/-- The `k`-th destination was subscribed to an observable, at some point. -/
def Subscribed (w : World) (k : Nat) : Prop := w.made k ≠ []

/-- It still is. -/
def Open (w : World) (k : Nat) : Prop := w.Subscribed k ∧ w.closed k = false

/-- The `k`-th subscribe command is going to be tried again. -/
def Waiting (w : World) (k : Nat) : Prop := ∃ cmd ∈ w.pending, cmd.k = k

/-- An observable is inserted only where there is none of its type, and satellites are not despawned by hand. -/
def Proper (w : World) : Op → Prop
  | .insertObservable e o => ¬ w.HasObservable e o
  | .despawn e => ∀ x, w.ent e = some x → x.watches = none
  | _ => True

/-- A history of such operations. -/
def ProperHistory (c : Cfg) : World → List Op → Prop
  | _, [] => True
  | w, op :: ops => w.Proper op ∧ ProperHistory c (w.step c op) ops

/-- Retrying in `First`. -/
def retries (ops : List Op) : Nat := ops.countP fun op => match op with | .retry => true | _ => false

end Rx.Bevy.World
