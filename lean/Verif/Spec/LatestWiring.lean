import Verif.Spec.CombineWiring

/-!
# What the two inputs of with_latest_from say
-/

namespace Rx.Spec

open Rx Rx.Wiring

variable {A B F : Type}

/-- What the inputs have said after an action. Unsubscribing the handle, closing the destination and dropping the
subscriber count as the source having been unsubscribed. -/
def heardLatest (h : List (Either2 A F B F)) : Act A F B F → List (Either2 A F B F)
  | .send1 n => hear h (.o1 n)
  | .send2 n => hear h (.o2 n)
  | .unsubscribe => hear h (.o1 .unsubscribe)
  | .shut => hear h (.o1 .unsubscribe)
  | .drop => hear h (.o1 .unsubscribe)

/-- What the inputs say: first the second one while it is subscribed to, then the source, then according to the actions. -/
def saidLatest (l2 : List (SubscriberNotification B F)) (l1 : List (SubscriberNotification A F)) (acts : List (Act A F B F)) :
    List (Either2 A F B F) :=
  acts.foldl heardLatest ((l1.map .o1).foldl hear ((l2.map .o2).foldl hear []))

end Rx.Spec
