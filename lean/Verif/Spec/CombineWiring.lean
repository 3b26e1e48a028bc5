import Verif.Model.CombineWiring
import Verif.Spec.Combine

/-!
# What subscribers to combinations may rely on
-/

namespace Rx.Spec

open Rx Rx.Wiring

variable {A E₁ B E₂ O F S α : Type}

/-- An input sends something; what is against the grammar it does not send. -/
def hear (h : List (Either2 A E₁ B E₂)) (e : Either2 A E₁ B E₂) : List (Either2 A E₁ B E₂) :=
  if allows2 h e then h ++ [e] else h

/-- What the inputs have said after an action; the flag says that the destination was unsubscribed by
somebody else, after which nothing matters. Unsubscribing the handle makes both inputs say that they
are unsubscribed. -/
def heardBy : List (Either2 A E₁ B E₂) × Bool → Act A E₁ B E₂ → List (Either2 A E₁ B E₂) × Bool
  | (h, true), _ => (h, true)
  | (h, false), .send1 n => (hear h (.o1 n), false)
  | (h, false), .send2 n => (hear h (.o2 n), false)
  | (h, false), .unsubscribe => (hear (hear h (.o1 .unsubscribe)) (.o2 .unsubscribe), false)
  | (h, false), .shut => (h, true)
  | (h, false), .drop => (h, false)

/-- What the inputs say: first the first one while it is subscribed to, then the second one, then
according to the actions. -/
def said (l1 : List (SubscriberNotification A E₁)) (l2 : List (SubscriberNotification B E₂))
    (acts : List (Act A E₁ B E₂)) : List (Either2 A E₁ B E₂) × Bool :=
  acts.foldl heardBy ((l2.map .o2).foldl hear ((l1.map .o1).foldl hear []), false)

/-- What the destination is told. -/
def toldTo (R : Rule A E₁ B E₂ O F) (x : List (Either2 A E₁ B E₂) × Bool) : List (SubscriberNotification O F) :=
  R.deliver x.1 ++ if x.2 then [.unsubscribe] else []

/-- How many values the first input sends. -/
def values1 (l1 : List (SubscriberNotification A E₁)) (acts : List (Act A E₁ B E₂)) : Nat :=
  (l1.filter (·.isNext)).length + (acts.filter fun | .send1 n => n.isNext | _ => false).length

/-- How many values the second input sends. -/
def values2 (l2 : List (SubscriberNotification B E₂)) (acts : List (Act A E₁ B E₂)) : Nat :=
  (l2.filter (·.isNext)).length + (acts.filter fun | .send2 n => n.isNext | _ => false).length

/-- Both inputs are unsubscribed, and so is the handle. -/
def Released {C : Combiner A E₁ B E₂ O F} (w : World C S) : Prop :=
  w.p1 = .gone ∧ w.p2 = .gone ∧ w.closed = true

/-- What is true after a combination was subscribed to and `acts` have happened. -/
structure Outcome {C : Combiner A E₁ B E₂ O F} (R : Rule A E₁ B E₂ O F) (D : Sub S O F) (obs : S → α) (asks : S → Bool) (s : S)
    (l1 : List (SubscriberNotification A E₁)) (l2 : List (SubscriberNotification B E₂))
    (acts : List (Act A E₁ B E₂)) (w : World C S) : Prop where
  /-- when the destination is closed, for whatever reason, nothing is held on to -/
  ended : D.isClosed w.s = true → Released w
  /-- when the handle was unsubscribed, by an action or by an observer, nothing is held on to -/
  unsubscribed : Act.unsubscribe ∈ acts ∨ w.asked = true → Released w
  /-- the inputs are not let go for any other reason -/
  held : w.closed = true → D.isClosed w.s = true ∨ Act.unsubscribe ∈ acts ∨ ∃ s, asks s = true
  /-- the destination is told what the rule says -/
  told : (∀ s, asks s = false) → obs w.s = obs (D.run s (toldTo R (said l1 l2 acts))) ∧
    D.isClosed w.s = D.isClosed (D.run s (toldTo R (said l1 l2 acts)))
  /-- while the destination is open, the inputs that are unsubscribed are the ones that said so -/
  own : (∀ s, asks s = false) → D.isClosed w.s = false →
    (w.p1 = .gone ↔ Spec.unsubscribed (left (said l1 l2 acts).1) = true) ∧
    (w.p2 = .gone ↔ Spec.unsubscribed (right (said l1 l2 acts).1) = true)
  /-- nothing is left in the queue -/
  clean : w.queue = []

end Rx.Spec
