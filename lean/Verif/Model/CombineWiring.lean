import Verif.Model.Combine

/-!
# How combination observables hold on to their inputs

`subscribe` is the same code for `zip` (zip_observable.rs), `combine_latest`
(combine_latest_observable.rs), `combine_changes` (combine_changes_observable.rs) and `join`
(join_observable.rs:67-97): both inputs get an `EitherSubscriber2` on clones of one
`SharedSubscriber`, both subscriptions are teardowns of one `SharedSubscription`, and that is a
teardown of the destination and the handle that is returned.

What an input is made of is not modelled: it is something that sends notifications while it is
subscribed, and `Unsubscribe` at once when its subscription is unsubscribed for the first time.
-/

namespace Rx.Wiring

open Rx

variable {A E₁ B E₂ O F S : Type}

/-- Where an input is. -/
inductive Phase where
  /-- `subscribe` was not called yet -/
  | waiting
  /-- subscribed -/
  | live
  /-- has sent its error or completion -/
  | ended
  /-- is unsubscribed -/
  | gone
deriving DecidableEq, Repr

/-- The state of one subscribed combination. -/
structure World (C : Combiner A E₁ B E₂ O F) (S : Type) where
  /-- the state of `ZipSubscriber`, `JoinSubscriber`, …; subscriber_shared.rs:157 -/
  st : C.St
  /-- the destination -/
  s : S
  /-- `deferred_notifications_queue`, subscriber_shared.rs:41 -/
  queue : List (Either2 A E₁ B E₂) := []
  p1 : Phase := .waiting
  p2 : Phase := .waiting
  /-- the destination owns a clone of the handle, and the handle owns the inputs -/
  linked : Bool := false
  /-- the handle is closed, subscription_shared.rs:183-190 -/
  closed : Bool := false
  /-- ghost: somebody unsubscribed the handle -/
  asked : Bool := false
  /-- ghost: somebody unsubscribed the destination -/
  shut : Bool := false
  /-- ghost: what the destination's subscriber was given while the destination was open -/
  hist : List (Either2 A E₁ B E₂) := []

variable {C : Combiner A E₁ B E₂ O F}

/-- `unsubscribe` of the handle while the `SharedSubscriber` is locked by this very thread:
subscription_shared.rs:164-180 runs the teardowns, which unsubscribe the inputs; each that was not
unsubscribed sends `Unsubscribe` (either_subscriber_2.rs:93-96), which is deferred
(subscriber_shared.rs:325-332). Simplification: an input that is itself in the middle of sending
would defer its own unsubscription until it is done. -/
def World.releaseLocked (w : World C S) : World C S :=
  if w.closed then w
  else { w with
    closed := true
    queue := w.queue ++ (if w.p1 = .gone then [] else [.o1 .unsubscribe]) ++
      (if w.p2 = .gone then [] else [.o2 .unsubscribe])
    p1 := .gone
    p2 := .gone }

/-- The combination's subscriber is given a notification (subscriber_shared.rs:255 and 237). If that closes the
destination then its teardowns run, among them the handle. `asks` are the states of the destination
in which an observer, having just been called, unsubscribes the handle. -/
def World.process (D : Sub S O F) (asks : S → Bool) (w : World C S) (n : Either2 A E₁ B E₂) :
    Option (World C S) :=
  (C.next D (w.st, w.s) n).map fun x =>
    let w' : World C S := { w with
      st := x.1, s := x.2
      hist := if D.isClosed w.s then w.hist else w.hist ++ [n] }
    let asked := w.linked && asks x.2
    let w' := if asked then { w' with asked := true } else w'
    if w.linked && (D.isClosed x.2 || asks x.2) then w'.releaseLocked else w'

/-- `apply_notification_queue`, subscriber_shared.rs:202-245; `closed_flag` is never set, because
everything in the queue is a `Next`. `fuel` is `SUBSCRIBER_MAX_RECURSION_DEPTH`. -/
def World.drain (D : Sub S O F) (asks : S → Bool) : Nat → World C S → Option (World C S)
  | 0, _ => none
  | fuel + 1, w =>
    if w.queue.isEmpty then some w
    else (w.queue.foldlM (World.process D asks) { w with queue := [] }).bind (World.drain D asks fuel)

/-- `next` of the `SharedSubscriber`, when it is not locked, subscriber_shared.rs:325-335, 247-261. -/
def World.give (D : Sub S O F) (asks : S → Bool) (w : World C S) (n : Either2 A E₁ B E₂) :
    Option (World C S) :=
  if D.isClosed w.s then some w
  else (w.process D asks n).bind (World.drain D asks 10)

/-- Where an input is after it has sent something. -/
def Phase.after {I E : Type} : SubscriberNotification I E → Phase
  | .next _ => .live
  | .error _ => .ended
  | .complete => .ended
  | .unsubscribe => .gone

/-- An input may send this: it keeps to the grammar, which is C06's concern. -/
def Phase.may {I E : Type} (p : Phase) : SubscriberNotification I E → Bool
  | .unsubscribe => p == .live || p == .ended
  | _ => p == .live

/-- The first input sends something, either_subscriber_2.rs:57-96. -/
def World.send1 (D : Sub S O F) (asks : S → Bool) (w : World C S) (n : SubscriberNotification A E₁) :
    Option (World C S) :=
  if w.p1.may n then { w with p1 := .after n }.give D asks (.o1 n) else some w

/-- The second input sends something. -/
def World.send2 (D : Sub S O F) (asks : S → Bool) (w : World C S) (n : SubscriberNotification B E₂) :
    Option (World C S) :=
  if w.p2.may n then { w with p2 := .after n }.give D asks (.o2 n) else some w

/-- The first input's subscription is unsubscribed, when the `SharedSubscriber` is not locked. -/
def World.drop1 (D : Sub S O F) (asks : S → Bool) (w : World C S) : Option (World C S) :=
  if w.p1 = .gone then some w else { w with p1 := .gone }.give D asks (.o1 .unsubscribe)

/-- The second input's subscription is unsubscribed, when the `SharedSubscriber` is not locked. -/
def World.drop2 (D : Sub S O F) (asks : S → Bool) (w : World C S) : Option (World C S) :=
  if w.p2 = .gone then some w else { w with p2 := .gone }.give D asks (.o2 .unsubscribe)

/-- `unsubscribe` of the handle, subscription_shared.rs:192-209: its teardowns are the inputs, in the
order they were added. -/
def World.release (D : Sub S O F) (asks : S → Bool) (w : World C S) : Option (World C S) :=
  if w.closed then some w
  else (World.drop1 D asks { w with closed := true }).bind (World.drop2 D asks)

/-- join_observable.rs:93-96: the handle becomes a teardown of the destination, which runs at once
if that is closed; then the inputs become teardowns of the handle, which run at once if that is
closed. -/
def World.link (D : Sub S O F) (asks : S → Bool) (w : World C S) : Option (World C S) :=
  if D.isClosed w.s then
    (World.drop1 D asks { w with linked := true, closed := true }).bind (World.drop2 D asks)
  else some { w with linked := true }

/-- `subscribe`, join_observable.rs:67-97 (zip_observable.rs, combine_latest_observable.rs and
combine_changes_observable.rs are alike); `l1` and `l2` are what the inputs send while they are being
subscribed to. -/
def World.subscribe (D : Sub S O F) (asks : S → Bool) (s : S)
    (l1 : List (SubscriberNotification A E₁)) (l2 : List (SubscriberNotification B E₂)) :
    Option (World C S) :=
  (l1.foldlM (World.send1 D asks) ({ st := C.init, s := s, p1 := .live } : World C S)).bind fun w =>
    (l2.foldlM (World.send2 D asks) { w with p2 := .live }).bind (World.link D asks)

/-- What happens to a combination after it was subscribed to. -/
inductive Act (A E₁ B E₂ : Type) where
  | send1 (n : SubscriberNotification A E₁)
  | send2 (n : SubscriberNotification B E₂)
  /-- the handle is unsubscribed -/
  | unsubscribe
  /-- the destination is unsubscribed by somebody else -/
  | shut
  /-- the handle goes out of scope, subscription_shared.rs:212-217: nothing is deferred -/
  | drop

/-- One of these. When the destination is unsubscribed from outside, its teardown unsubscribes the
handle. -/
def World.act (D : Sub S O F) (asks : S → Bool) (w : World C S) : Act A E₁ B E₂ → Option (World C S)
  | .send1 n => w.send1 D asks n
  | .send2 n => w.send2 D asks n
  | .unsubscribe => { w with asked := true }.release D asks
  | .shut =>
    if D.isClosed w.s then some w
    else World.release D asks { w with s := D.unsubscribe w.s, shut := true }
  | .drop => some w

/-- Subscribing, and what happens afterwards. -/
def run (C : Combiner A E₁ B E₂ O F) (D : Sub S O F) (asks : S → Bool) (s : S)
    (l1 : List (SubscriberNotification A E₁)) (l2 : List (SubscriberNotification B E₂))
    (acts : List (Act A E₁ B E₂)) : Option (World C S) :=
  (World.subscribe D asks s l1 l2).bind fun w => acts.foldlM (World.act D asks) w

end Rx.Wiring
