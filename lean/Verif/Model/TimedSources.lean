import Verif.Model.Timed

/-!
# timer, interval, iterator_on_tick, subscribe_on, fallback_when_silent

Models `crates/rx_core_observable_{timer,interval,iterator_on_tick}/src/*_subscription.rs`,
`crates/rx_core_operator_subscribe_on/src/subscribe_on_subscription.rs` and
`crates/rx_core_operator_fallback_when_silent/src/fallback_when_silent_subscriber.rs` on the executor
(`Verif.Model.SchedulerClient`).

One subscription each: an input subscribes (constructs the subscription, or the subscriber). Simplifications: those of
`Verif.Model.Timed`; the counters (`usize`) do not overflow. The closures of timer, interval and iterator_on_tick lock the
shared destination and notify what is inside without asking whether it is closed; a closed destination ignores this
(C01), so they are modelled with `Port.give`, which does not notify a closed destination.
-/

namespace Rx.Timed
open Rx.Sched

/-- What can be done to the subscription of a source. -/
inductive Source.Input where
  /-- the source is subscribed (only the first one counts) -/
  | subscribe
  /-- the subscription is unsubscribed -/
  | unsubscribe
  /-- the destination is closed by somebody else -/
  | close

/-- The subscription of a source: its destination, and when it was subscribed (ghost). Upstream of a source there is
nothing, so the only arrival is `unsubscribe`. -/
structure Source.State (S O E : Type) where
  port : Port S Empty O E
  begun : Option Nat := none

variable {S O E : Type}

/-- The subscription of a timer, timer_subscription.rs:12-20, also with `cancellation_id.is_some()`. -/
structure Timer.State (S E : Type) extends Source.State S Unit E where
  id : Bool := false

/-- `timer(d)`. -/
@[reducible] def timer (D : Sub S Unit E) (d : Nat) : Client where
  St := Timer.State S E
  B := Unit
  In := Source.Input
  -- timer_subscription.rs:40-46
  exec _ _ now s := ((), { s with port := (s.port.give D (.next ()) now).give D .complete now }, [], .done)
  input i now s :=
    match i with
    -- timer_subscription.rs:27-59
    | .subscribe =>
      if s.begun.isSome then (s, []) else ({ s with begun := some now, id := true }, [.schedule (.newDelayed () d)])
    -- timer_subscription.rs:71-79
    | .unsubscribe =>
      if s.begun.isNone then (s, [])
      else ({ s with port := (s.port.mark (.arrived .unsubscribe) now).give D .unsubscribe now, id := false },
        if s.id then [.cancel] else [])
    | .close => ({ s with port := s.port.close D now }, [])

/-- `interval` with period `d`, `start_on_subscribe`, and `max_emissions_per_tick`. A closure is its `count`. -/
@[reducible] def interval (D : Sub S Nat E) (d : Nat) (start : Bool) (max : Nat) : Client where
  St := Source.State S Nat E
  B := Nat
  In := Source.Input
  -- interval_subscription.rs:50-61
  exec count _ now s :=
    if D.isClosed s.port.dest then (count, s, [], .done)
    else
      let s1 := { s with port := s.port.give D (.next count) now }
      (count + 1, s1, s.port.teardown D s1.port, .pending)
  input i now s :=
    match i with
    -- interval_subscription.rs:27-81; the teardown (71-74) is run at once if the destination is closed already
    | .subscribe =>
      if s.begun.isSome then (s, [])
      else
        let p := if start then s.port.give D (.next 0) now else s.port
        ({ s with port := p, begun := some now },
          .schedule (.newRepeating (if start then 1 else 0) d false max) :: if D.isClosed p.dest then [.cancel] else [])
    -- interval_subscription.rs:93-98
    | .unsubscribe =>
      if s.begun.isNone then (s, [])
      else
        let s1 := { s with port := (s.port.mark (.arrived .unsubscribe) now).give D .unsubscribe now }
        (s1, .cancel :: s.port.teardown D s1.port)
    | .close =>
      let s1 := { s with port := s.port.close D now }
      (s1, if s.begun.isSome then s.port.teardown D s1.port else [])

/-- The subscription of `iterator_on_tick`, iterator_on_tick_subscription.rs:26-39. Ghost: how often its work was run. -/
structure IteratorOnTick.State (S O E : Type) extends Source.State S O E where
  ticks : Nat := 0

/-- `iterator_on_tick` for `n = emit_at_every_nth_tick`, with `start_on_subscribe`. The iterator is `f`: its items in order, then `none`. A closure is its `observed_ticks`, and how many
items were taken. -/
@[reducible] def iteratorOnTick (D : Sub S O E) (f : Nat → Option O) (n : Nat) (start : Bool) : Client where
  St := IteratorOnTick.State S O E
  B := Nat × Nat
  In := Source.Input
  -- iterator_on_tick_subscription.rs:85-108
  exec b _ now s :=
    let s := { s with ticks := s.ticks + 1 }
    if D.isClosed s.port.dest then ((b.1 + 1, b.2), s, [], .done)
    else if (b.1 + 1) % n = 0 then
      match f b.2 with
      | some v =>
        if (f (b.2 + 1)).isNone then
          ((0, b.2 + 1), { s with port := (s.port.give D (.next v) now).give D .complete now }, [], .done)
        else ((0, b.2 + 1), { s with port := s.port.give D (.next v) now }, [], .pending)
      | none => ((b.1 + 1, b.2), s, [], .pending)
    else ((b.1 + 1, b.2), s, [], .pending)
  input i now s :=
    match i with
    -- iterator_on_tick_subscription.rs:48-122; 61-68 for `n = 0`
    | .subscribe =>
      if s.begun.isSome then (s, [])
      else if n = 0 then ({ s with begun := some now }, [])
      else
        match (if start then f 0 else none) with
        | some v =>
          ({ s with port := s.port.give D (.next v) now, begun := some now }, [.schedule (.newContinuous (0, 1))])
        | none => ({ s with begun := some now }, [.schedule (.newContinuous (0, 0))])
    -- iterator_on_tick_subscription.rs:137-142
    | .unsubscribe =>
      if s.begun.isNone then (s, [])
      else ({ s with port := (s.port.mark (.arrived .unsubscribe) now).give D .unsubscribe now },
        if n = 0 then [] else [.cancel])
    | .close => ({ s with port := s.port.close D now }, [])

/-- What can be done to `subscribe_on`. -/
inductive SubscribeOn.Input (I E : Type) where
  | subscribe
  /-- the destination is closed by somebody else; this is also what unsubscribing the subscription does
  (`#[rx_delegate_subscription_like_to_destination]`, subscribe_on_subscription.rs:20) -/
  | close
  /-- the source notifies its destination; only the source that was subscribed can, while it is not unsubscribed -/
  | note (n : SubscriberNotification I E)

/-- The subscription of `subscribe_on`, subscribe_on_subscription.rs:18-28. Ghosts: when it was subscribed, when its source
was, and whether the subscription of the source is open. -/
structure SubscribeOn.State (S I E : Type) where
  port : Port S I I E
  begun : Option Nat := none
  started : List Nat := []
  source : Bool := false

variable {I : Type}

/-- The source notifies the destination (SharedSubscriber, which checks `is_closed`). -/
def SubscribeOn.State.feed (D : Sub S I E) (n : SubscriberNotification I E) (now : Nat) (s : SubscribeOn.State S I E) :
    SubscribeOn.State S I E :=
  { s with port := (s.port.mark (.arrived n) now).give D n now }

/-- The teardown of the destination, subscribe_on_subscription.rs:77-78: the source is unsubscribed, the work cancelled. -/
def SubscribeOn.State.torn (D : Sub S I E) (s : SubscribeOn.State S I E) : SubscribeOn.State S I E :=
  if D.isClosed s.port.dest then { s with source := false } else s

/-- `subscribe_on(d)`, for a source that notifies with `sync` while it is being subscribed. -/
@[reducible] def subscribeOn (D : Sub S I E) (sync : List (SubscriberNotification I E)) (d : Nat) : Client where
  St := SubscribeOn.State S I E
  B := Unit
  In := SubscribeOn.Input I E
  -- subscribe_on_subscription.rs:53-69
  exec _ _ now s :=
    if D.isClosed s.port.dest then ((), s, [], .done)
    else
      let s1 := sync.foldl (fun s n => s.feed D n now) { s with started := s.started ++ [now] }
      let s2 := { s1 with source := !D.isClosed s1.port.dest }
      ((), s2, s.port.teardown D s2.port, .done)
  input i now s :=
    match i with
    -- subscribe_on_subscription.rs:35-84
    | .subscribe =>
      if s.begun.isSome then (s, [])
      else ({ s with begun := some now },
        .schedule (.newDelayed () d) :: if D.isClosed s.port.dest then [.cancel] else [])
    | .close =>
      let s1 := { s with port := s.port.close D now }.torn D
      (s1, if s.begun.isSome then s.port.teardown D s1.port else [])
    | .note n =>
      if s.source then
        let s1 := (s.feed D n now).torn D
        (s1, s.port.teardown D s1.port)
      else (s, [])

/-- What can be done to `fallback_when_silent`. -/
inductive Fallback.Input (I E : Type) where
  /-- it is constructed -/
  | subscribe
  | note (n : SubscriberNotification I E)
  | close

/-- `FallbackWhenSilentSubscriberState` and the subscriber, fallback_when_silent_subscriber.rs:11-36. -/
structure Fallback.State (S I E : Type) where
  port : Port S I I E
  begun : Option Nat := none
  observed : Option I := none

/-- `unsubscribe`, fallback_when_silent_subscriber.rs:145-148, without the cancellation. -/
def Fallback.State.unsubscribe (D : Sub S I E) (now : Nat) (s : Fallback.State S I E) : Fallback.State S I E :=
  { s with port := s.port.give D .unsubscribe now }

/-- `fallback_when_silent`. The fallback gets the tick and the index; it also gets the context, on which it may depend:
in a history, that is a dependence on the index. A closure is its `index`. -/
@[reducible] def fallback (D : Sub S I E) (fb : (tick index : Nat) → I) : Client where
  St := Fallback.State S I E
  B := Nat
  In := Fallback.Input I E
  -- fallback_when_silent_subscriber.rs:69-80
  exec index t now s :=
    let v := match s.observed with
      | some v => v
      | none => fb t index
    (index + 1, { s with observed := none, port := s.port.give D (.next v) now }, [], .pending)
  input i now s :=
    match i with
    -- fallback_when_silent_subscriber.rs:49-91
    | .subscribe => if s.begun.isSome then (s, []) else ({ s with begun := some now }, [.schedule (.newContinuous 0)])
    | .note n =>
      if s.begun.isNone then (s, [])
      else
        let s := { s with port := s.port.mark (.arrived n) now }
        match n with
        -- fallback_when_silent_subscriber.rs:107-113
        | .next v => ({ s with observed := some v }, [])
        -- fallback_when_silent_subscriber.rs:116-119
        | .error e => ({ s with port := s.port.give D (.error e) now }.unsubscribe D now, [.cancel])
        -- fallback_when_silent_subscriber.rs:122-125
        | .complete => ({ s with port := s.port.give D .complete now }.unsubscribe D now, [.cancel])
        -- fallback_when_silent_subscriber.rs:145-148
        | .unsubscribe => (s.unsubscribe D now, [.cancel])
    | .close => ({ s with port := s.port.close D now }, [])

end Rx.Timed
