import Verif.Model.BevyProxy
import Verif.Spec.BevyEvents

/-!
# What a subscription that lives on an entity is to be like
-/

namespace Rx.Proxy

open Rx.Closing (Dest)

/-- What the destination is given, in order. -/
def given (tr : List (Mark I E)) : List (SubscriberNotification I E) :=
  tr.filterMap fun m => match m with | .gave n => some n | _ => none

/-- What is to be offered to the destination, as one thing after the other happens. -/
structure Seen (I E : Type) where
  /-- the observable has been subscribed to, and the subscription has not been closed -/
  connected : Bool := false
  offers : List (SubscriberNotification I E) := []

/-- The destination is offered what the observable has for its subscribers while it is subscribed to, and is unsubscribed when
the subscription to the observable is closed, when the handle is unsubscribed, and when there is no observable. -/
def Seen.see (x : Seen I E) : Mark I E → Seen I E
  | .joined => { x with connected := true }
  | .emitted n => if x.connected then { x with offers := x.offers ++ [n] } else x
  | .ended => { x with connected := false, offers := x.offers ++ [.unsubscribe] }
  | .unsubscribed => { x with offers := x.offers ++ [.unsubscribe] }
  | .missed => { x with offers := x.offers ++ [.unsubscribe] }
  | .gave _ => x

def seen (tr : List (Mark I E)) : Seen I E := tr.foldl Seen.see {}

/-- What is offered to the destination, in order. -/
def offers (tr : List (Mark I E)) : List (SubscriberNotification I E) := (seen tr).offers

/-- How often the observable was subscribed to. -/
def joins (tr : List (Mark I E)) : Nat := tr.countP fun m => match m with | .joined => true | _ => false

/-- The commands of the system that subscribes are applied before the executor has finished a tick. `ProxyObservable` has none. -/
def Timely (K : Kind) (l : List (Op I E)) : Prop :=
  K = .proxy ∨ ∃ a b, l = a ++ .flushMine :: b ∧ ∀ o ∈ a, o ≠ .reap ∧ o ≠ .last

/-- The subscription entity exists. -/
def Ent.alive : Ent → Prop
  | .none => False
  | .unfinished => True
  | .attached => True
  | .bare => True
  | .gone => False

/-- Neither the entity nor the subscription to the observable is left. -/
structure World.Over (w : World S I E) : Prop where
  ent : ¬ w.ent.alive
  source : w.source ≠ .open

/-- Nothing is waiting to be done by the executor. -/
structure World.Idle (w : World S I E) : Prop where
  queue : w.queue = []
  active : w.active = 0
  invokable : w.invokable = 0
  invoked : w.invoked = 0
  cmds : w.cmds = []

end Rx.Proxy
