import Verif.Model.CombineWiring

/-!
# How with_latest_from holds on to its second input

`WithLatestFromSubscriber::new` (with_latest_from_subscriber.rs:42-57) subscribes to the inner observable
while the operator is being subscribed to, and keeps the inner subscription in a field. It is not a
teardown of the destination. The field is unsubscribed by `unsubscribe` (100-103), and dropped with the
subscriber.

What the source and the inner observable are made of is not modelled: they send notifications
while they are subscribed (`Wiring.Phase`), and of the subscriptions they return there are two kinds each, see
`Kind`. Simplifications: the destination does not call back, so the `SharedSubscriber` in front of it
(subscriber_shared.rs) only guards it (`Sub.guarded`); `is_closed` of the subscriber is that of the destination (95-98).
-/

namespace Rx.LatestWiring

open Rx Rx.Wiring

variable {A B F S : Type}

/-- The kinds of source and inner observable. -/
structure Kind where
  /-- The source asks its subscriber whether it is closed before it unsubscribes it. Those that do:
  multicast_subscription.rs:82-93 (every subject) and multicast.rs:95-101, inert_subscription.rs:13-19,
  interval_subscription.rs:93-98. -/
  asksFirst : Bool
  /-- The inner subscription unsubscribes when it is dropped, as generated for `RxSubscription`
  (derive_subscription.rs:82-90). A `SharedSubscription`, which is what combinations return, does not
  (subscription_shared.rs:212-217). -/
  letsGo : Bool
deriving DecidableEq, Repr

/-- The state of one subscribed with_latest_from. -/
structure World (B S : Type) where
  /-- the latest value of the inner observable, and whether its `ObserverSubscriber` is open -/
  st : WithLatestSt B
  /-- the destination -/
  s : S
  /-- the source -/
  p1 : Phase
  /-- the inner observable -/
  p2 : Phase
  /-- the subscriber was dropped by the source -/
  dropped : Bool

/-- `unsubscribe` of the subscriber, with_latest_from_subscriber.rs:100-103. -/
def World.leave (D : Sub S (A × B) F) (w : World B S) : World B S :=
  let x := withLatestStep D (w.st, w.s) (.o1 .unsubscribe)
  { w with st := x.1, s := x.2, p2 := .gone }

/-- The source unsubscribes its subscriber. -/
def World.release (k : Kind) (D : Sub S (A × B) F) (w : World B S) : World B S :=
  if k.asksFirst && D.isClosed w.s then { w with p1 := .gone } else { w.leave D with p1 := .gone }

/-- The source sends something; sending `unsubscribe` is unsubscribing its subscriber of its own accord. -/
def World.send1 (k : Kind) (D : Sub S (A × B) F) (w : World B S) (n : SubscriberNotification A F) : World B S :=
  if w.p1.may n then
    match n with
    | .unsubscribe => w.release k D
    | n =>
      let x := withLatestStep D (w.st, w.s) (.o1 n)
      { w with st := x.1, s := x.2, p1 := .after n }
  else w

/-- The inner observable sends something. -/
def World.send2 (D : Sub S (A × B) F) (w : World B S) (n : SubscriberNotification B F) : World B S :=
  if w.p2.may n then
    let x := withLatestStep D (w.st, w.s) (.o2 n)
    { w with st := x.1, s := x.2, p2 := .after n }
  else w

/-- `new`, 42-57, `l2` being what the inner observable sends while it is subscribed to; then the source is
subscribed to and sends `l1`. -/
def World.subscribe (k : Kind) (D : Sub S (A × B) F) (s : S) (l2 : List (SubscriberNotification B F))
    (l1 : List (SubscriberNotification A F)) : World B S :=
  let w : World B S := l2.foldl (World.send2 D) ⟨withLatestInit, s, .waiting, .live, false⟩
  l1.foldl (World.send1 k D) { w with p1 := .live }

/-- What happens afterwards: `unsubscribe` is the handle the source returned being unsubscribed, `shut` the
destination being unsubscribed by somebody else, `drop` the subscriber being dropped, by the source and by
whoever has the handle: the generated `drop` unsubscribes if it is not closed (derive_subscription.rs:82-90), then the fields
are dropped. -/
def World.act (k : Kind) (D : Sub S (A × B) F) (w : World B S) : Act A F B F → World B S
  | .send1 n => w.send1 k D n
  | .send2 n => w.send2 D n
  | .unsubscribe => if w.p1 = .gone then w else w.release k D
  | .shut => { w with s := D.guarded w.s .unsubscribe }
  | .drop =>
    if w.dropped then w
    else
      let w := if D.isClosed w.s then w else w.leave D
      { w with p1 := .gone, dropped := true, p2 := if k.letsGo then .gone else w.p2 }

/-- Subscribing, and what happens afterwards. -/
def run (k : Kind) (D : Sub S (A × B) F) (s : S) (l2 : List (SubscriberNotification B F))
    (l1 : List (SubscriberNotification A F)) (acts : List (Act A F B F)) : World B S :=
  acts.foldl (World.act k D) (World.subscribe k D s l2 l1)

end Rx.LatestWiring
