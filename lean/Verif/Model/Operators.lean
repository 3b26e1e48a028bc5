import Verif.Model.Subscriber

/-!
# Composable operators

Each `…Op` below models one operator crate: `init` is `ComposableOperator::operator_subscribe`
(what happens to the destination while subscribing), `sub` is the operator's subscriber, written
after its Rust `impl` for an arbitrary destination.

Simplifications that hold for the whole file: closures are total Lean functions (`FnMut` closures
carry an explicit state), `usize` counters incremented with `+= 1` are unbounded, those with
`saturating_add` saturate at `usizeMax`; `Drop` of a subscriber (derived:
`if !is_closed { unsubscribe }`, derive_subscription.rs:76-91) is a call to `unsubscribe`; an error
channel of type `Never` is `Empty`.
-/

namespace Rx

/-- `usize::MAX` on a 64 bit target. -/
def usizeMax : Nat := 2 ^ 64 - 1

/-- `n.saturating_add(1)` -/
def satSucc (n : Nat) : Nat := min (n + 1) usizeMax

/-- A program run by user code against a `&mut dyn Subscriber`: it can make calls and look at
`is_closed()`. Used for user closures that receive the subscriber and for source observables. -/
inductive Prog (I E α : Type) where
  | ret (a : α)
  | call (c : Call I E) (k : Prog I E α)
  | query (k : Bool → Prog I E α)

/-- Running a program against a subscriber. -/
def Prog.run {S I E α : Type} (D : Sub S I E) : Prog I E α → S → α × S
  | .ret a, s => (a, s)
  | .call c k, s => k.run D (D.call s c)
  | .query k, s => (k (D.isClosed s)).run D s

/-- A composable operator: `St` is the state of its subscriber besides the destination. -/
structure OpImpl (I E O F : Type) where
  St : Type
  /-- `operator_subscribe` -/
  init : {S : Type} → Sub S O F → S → St × S
  /-- the subscriber -/
  sub : {S : Type} → Sub S O F → Sub (St × S) I E

/-- A subscriber deriving `#[rx_delegate_subscription_like_to_destination]` and
`#[rx_delegate_teardown_collection]`: `is_closed`, `unsubscribe` (derive_subscription.rs:44-73) and
`add_teardown` (derive_teardown_collection.rs:40-53) are those of the destination. -/
def mkSub {St S I E O F : Type} (D : Sub S O F) (next : St × S → I → St × S)
    (error : St × S → E → St × S) (complete : St × S → St × S) : Sub (St × S) I E where
  next := next
  error := error
  complete := complete
  unsubscribe x := (x.1, D.unsubscribe x.2)
  isClosed x := D.isClosed x.2
  addTeardown x t := (x.1, D.addTeardown x.2 t)

variable {I E O F : Type}

/-! ## Element-wise -/

/-- map: map_operator.rs, map_subscriber.rs:55-66 -/
def mapOp (f : I → O) : OpImpl I E O E where
  St := Unit
  init _ s := ((), s)
  sub D := mkSub D
    (fun (st, s) v => (st, D.next s (f v)))
    (fun (st, s) e => (st, D.error s e))
    (fun (st, s) => (st, D.complete s))

/-- map_error: map_error_subscriber.rs:56-73. `error_mapper: Option<FnOnce>` is the state: the
mapper is taken at most once. -/
def mapErrorOp (f : E → F) : OpImpl I E I F where
  St := Option (E → F)
  init _ s := (some f, s)
  sub D := mkSub D
    (fun (st, s) v => (st, D.next s v))
    (fun (st, s) e =>
      if !D.isClosed s then
        match st with
        | some g => (none, D.error s (g e))
        | none => (none, s)
      else (st, s))
    (fun (st, s) => (st, D.complete s))

/-- map_into: map_into_subscriber.rs:51-62, `into` conversions as functions -/
def mapIntoOp (f : I → O) (g : E → F) : OpImpl I E O F where
  St := Unit
  init _ s := ((), s)
  sub D := mkSub D
    (fun (st, s) v => (st, D.next s (f v)))
    (fun (st, s) e => (st, D.error s (g e)))
    (fun (st, s) => (st, D.complete s))

/-- map_never_error and error_boundary: map_never_error_subscriber.rs:30-41,
error_boundary_subscriber.rs:32-42 -/
def mapNeverErrorOp (F : Type) : OpImpl I Empty I F where
  St := Unit
  init _ s := ((), s)
  sub D := mkSub D
    (fun (st, s) v => (st, D.next s v))
    (fun _ e => nomatch e)
    (fun (st, s) => (st, D.complete s))

/-- map_never_next: map_never_next_subscriber.rs:30-41 -/
def mapNeverNextOp (O : Type) : OpImpl Empty E O E where
  St := Unit
  init _ s := ((), s)
  sub D := mkSub D
    (fun _ v => nomatch v)
    (fun (st, s) e => (st, D.error s e))
    (fun (st, s) => (st, D.complete s))

/-- map_never_both: map_never_both_subscriber.rs:30-41 -/
def mapNeverBothOp (O F : Type) : OpImpl Empty Empty O F where
  St := Unit
  init _ s := ((), s)
  sub D := mkSub D
    (fun _ v => nomatch v)
    (fun _ e => nomatch e)
    (fun (st, s) => (st, D.complete s))

/-- filter: filter_subscriber.rs:40-55; the state is `index` -/
def filterOp (p : I → Nat → Bool) : OpImpl I E I E where
  St := Nat
  init _ s := (0, s)
  sub D := mkSub D
    (fun (st, s) v => (satSucc st, if p v st then D.next s v else s))
    (fun (st, s) e => (st, D.error s e))
    (fun (st, s) => (st, D.complete s))

/-- lift_option: lift_option_subscriber.rs:31-45 -/
def liftOptionOp : OpImpl (Option I) E I E where
  St := Unit
  init _ s := ((), s)
  sub D := mkSub D
    (fun (st, s) v => match v with | some v => (st, D.next s v) | none => (st, s))
    (fun (st, s) e => (st, D.error s e))
    (fun (st, s) => (st, D.complete s))

/-- tap_next: tap_next_subscriber.rs:49-62; `σ` is the state of the `FnMut` callback -/
def tapNextOp {σ : Type} (f : σ → I → σ) (c : σ) : OpImpl I E I E where
  St := σ
  init _ s := (c, s)
  sub D := mkSub D
    (fun (st, s) v => (f st v, D.next s v))
    (fun (st, s) e => (st, D.error s e))
    (fun (st, s) => (st, D.complete s))

/-- on_next: on_next_subscriber.rs:59-74; the callback runs an arbitrary program against the
destination -/
def onNextOp {σ : Type} (f : σ → I → Prog I E (Bool × σ)) (c : σ) : OpImpl I E I E where
  St := σ
  init _ s := (c, s)
  sub D := mkSub D
    (fun (st, s) v =>
      let r := (f st v).run D s
      (r.1.2, if r.1.1 && !D.isClosed r.2 then D.next r.2 v else r.2))
    (fun (st, s) e => (st, D.error s e))
    (fun (st, s) => (st, D.complete s))

/-- identity: identity_subscriber.rs:4-16 (everything delegated) -/
def identityOp : OpImpl I E I E where
  St := Unit
  init _ s := ((), s)
  sub D := mkSub D
    (fun (st, s) v => (st, D.next s v))
    (fun (st, s) e => (st, D.error s e))
    (fun (st, s) => (st, D.complete s))

/-! ## take / skip -/

/-- State of `TakeSubscriber`, take_subscriber.rs:9-18 -/
structure TakeSt where
  count : Nat
  closed : Bool

/-- take: take_subscriber.rs:24-93 -/
def takeOp (n : Nat) : OpImpl I E I E where
  St := TakeSt
  -- lines 24-36
  init D s :=
    let s := if n == 0 && !D.isClosed s then D.complete s else s
    (⟨n, D.isClosed s⟩, s)
  sub D := {
    -- lines 43-52
    next := fun (st, s) v =>
      if st.count > 0 then
        let count := st.count - 1
        let s := D.next s v
        if count == 0 && !(st.closed || D.isClosed s) then (⟨count, true⟩, D.complete s)
        else (⟨count, st.closed⟩, s)
      else (st, s)
    -- lines 55-58
    error := fun (st, s) e => ({ st with closed := true }, D.error s e)
    -- lines 61-64
    complete := fun (st, s) => ({ st with closed := true }, D.complete s)
    -- lines 77-82
    unsubscribe := fun (st, s) =>
      ({ st with closed := true }, if !(st.closed || D.isClosed s) then D.unsubscribe s else s)
    -- lines 72-74
    isClosed := fun (st, s) => st.closed || D.isClosed s
    addTeardown := fun (st, s) t => (st, D.addTeardown s t) }

/-- skip: skip_subscriber.rs:32-48 -/
def skipOp (n : Nat) : OpImpl I E I E where
  St := Nat
  init _ s := (n, s)
  sub D := mkSub D
    (fun (st, s) v => if st == 0 then (st, D.next s v) else (st - 1, s))
    (fun (st, s) e => (st, D.error s e))
    (fun (st, s) => (st, D.complete s))

/-! ## Folds -/

/-- scan: scan_subscriber.rs:56-69 -/
def scanOp (f : O → I → O) (seed : O) : OpImpl I E O E where
  St := O
  init _ s := (seed, s)
  sub D := mkSub D
    (fun (st, s) v => (f st v, D.next s (f st v)))
    (fun (st, s) e => (st, D.error s e))
    (fun (st, s) => (st, D.complete s))

/-- reduce: reduce_subscriber.rs:57-70 -/
def reduceOp (f : O → I → O) (seed : O) : OpImpl I E O E where
  St := O
  init _ s := (seed, s)
  sub D := mkSub D
    (fun (st, s) v => (f st v, s))
    (fun (st, s) e => (st, D.error s e))
    (fun (st, s) => (st, D.complete (D.next s st)))

/-- count: count_subscriber.rs:49-62 -/
def countOp : OpImpl I E Nat E where
  St := Nat
  init _ s := (0, s)
  sub D := mkSub D
    (fun (st, s) _ => (st + 1, s))
    (fun (st, s) e => (st, D.error s e))
    (fun (st, s) => (st, D.complete (D.next s st)))

/-! ## Grouping -/

/-- enumerate: enumerate_subscriber.rs:42-56 -/
def enumerateOp : OpImpl I E (I × Nat) E where
  St := Nat
  init _ s := (0, s)
  sub D := mkSub D
    (fun (st, s) v => (satSucc st, D.next s (v, st)))
    (fun (st, s) e => (st, D.error s e))
    (fun (st, s) => (st, D.complete s))

/-- pairwise: pairwise_subscriber.rs:42-56; `[In; 2]` is a pair -/
def pairwiseOp : OpImpl I E (I × I) E where
  St := Option I
  init _ s := (none, s)
  sub D := mkSub D
    (fun (st, s) v => (some v, match st with | some last => D.next s (last, v) | none => s))
    (fun (st, s) e => (st, D.error s e))
    (fun (st, s) => (st, D.complete s))

/-- buffer_count: buffer_count_subscriber.rs:41-75; `n` is the `NonZero` buffer size -/
def bufferCountOp (n : Nat) : OpImpl I E (List I) E where
  St := Option (List I)
  init _ s := (none, s)
  sub D := mkSub D
    -- lines 54-64, eject_buffer inlined
    (fun (st, s) v =>
      let buffer := st.getD [] ++ [v]
      if buffer.length == n then (none, D.next s buffer) else (some buffer, s))
    (fun (st, s) e => (st, D.error s e))
    -- lines 72-75, eject_buffer (41-45) inlined
    (fun (st, s) => match st with
      | some buffer => (none, D.complete (D.next s buffer))
      | none => (none, D.complete s))

/-! ## Searching -/

/-- first_operator_error.rs -/
inductive FirstError (E : Type) where
  | upstream (e : E)
  | noNextObservedBeforeComplete
deriving DecidableEq, Repr

/-- first: first_subscriber.rs:54-73; state `first_observed` -/
def firstOp : OpImpl I E I (FirstError E) where
  St := Bool
  init _ s := (false, s)
  sub D := mkSub D
    (fun (st, s) v => if !st then (true, D.complete (D.next s v)) else (st, s))
    (fun (st, s) e => (st, D.error s (.upstream e)))
    (fun (st, s) => if !st then (st, D.error s .noNextObservedBeforeComplete) else (st, s))

/-- find_operator_error.rs / find_index_operator_error.rs -/
inductive FindError (E : Type) where
  | upstream (e : E)
  | noNextObservedBeforeComplete
  | noMatchObserved
deriving DecidableEq, Repr

/-- State of `FindSubscriber` -/
structure FindSt where
  nextObserved : Bool
  matchObserved : Bool

/-- find: find_subscriber.rs:51-73 -/
def findOp (p : I → Bool) : OpImpl I E I (FindError E) where
  St := FindSt
  init _ s := (⟨false, false⟩, s)
  sub D := mkSub D
    (fun (st, s) v =>
      if !st.matchObserved && p v then (⟨true, true⟩, D.complete (D.next s v))
      else (⟨true, st.matchObserved⟩, s))
    (fun (st, s) e => (st, D.error s (.upstream e)))
    (fun (st, s) =>
      if !st.nextObserved then (st, D.error s .noNextObservedBeforeComplete)
      else if !st.matchObserved then (st, D.error s .noMatchObserved)
      else (st, s))

/-- State of `FindIndexSubscriber` -/
structure FindIndexSt where
  nextsObserved : Nat
  matchObserved : Bool

/-- find_index: find_index_subscriber.rs:58-85 -/
def findIndexOp (p : I → Bool) : OpImpl I E Nat (FindError E) where
  St := FindIndexSt
  init _ s := (⟨0, false⟩, s)
  sub D := mkSub D
    (fun (st, s) v =>
      if !st.matchObserved && p v then
        (⟨st.nextsObserved + 1, true⟩, D.complete (D.next s st.nextsObserved))
      else (⟨st.nextsObserved + 1, st.matchObserved⟩, s))
    (fun (st, s) e => (st, D.error s (.upstream e)))
    (fun (st, s) =>
      if st.nextsObserved == 0 then (st, D.error s .noNextObservedBeforeComplete)
      else if !st.matchObserved then (st, D.error s .noMatchObserved)
      else (st, s))

/-- element_at_operator_error.rs -/
inductive ElementAtError (E : Type) where
  | upstream (e : E)
  | indexOutOfRange (requestedIndex observedNexts : Nat)
deriving DecidableEq, Repr

/-- State of `ElementAtSubscriber`, element_at_subscriber.rs:21-34 -/
structure ElementAtSt where
  nextsObserved : Nat
  closed : Bool

/-- element_at: element_at_subscriber.rs:43-142; `dflt` is the value the default provider returns
(providers are called at most once per subscription) -/
def elementAtOp (index : Nat) (dflt : Option I) : OpImpl I E I (ElementAtError E) where
  St := ElementAtSt
  -- lines 43-57
  init D s := (⟨0, D.isClosed s⟩, s)
  sub D := {
    -- lines 67-80
    next := fun (st, s) v =>
      if st.closed || D.isClosed s then (st, s)
      else if st.nextsObserved == index then ({ st with closed := true }, D.complete (D.next s v))
      else ({ st with nextsObserved := st.nextsObserved + 1 }, s)
    -- lines 83-90
    error := fun (st, s) e =>
      if st.closed || D.isClosed s then (st, s)
      else ({ st with closed := true }, D.error s (.upstream e))
    -- lines 93-109
    complete := fun (st, s) =>
      if st.closed || D.isClosed s then (st, s)
      else match dflt with
        | some v => ({ st with closed := true }, D.complete (D.next s v))
        | none => ({ st with closed := true }, D.error s (.indexOutOfRange index st.nextsObserved))
    -- lines 124-129
    unsubscribe := fun (st, s) =>
      ({ st with closed := true }, if !(st.closed || D.isClosed s) then D.unsubscribe s else s)
    -- lines 119-121
    isClosed := fun (st, s) => st.closed || D.isClosed s
    addTeardown := fun (st, s) t => (st, D.addTeardown s t) }

/-- is_empty: is_empty_subscriber.rs:40-58 -/
def isEmptyOp : OpImpl I E Bool E where
  St := Unit
  init _ s := ((), s)
  sub D := mkSub D
    (fun (st, s) _ =>
      let s := D.next s false
      (st, if !D.isClosed s then D.complete s else s))
    (fun (st, s) e => (st, D.error s e))
    (fun (st, s) =>
      let s := D.next s true
      (st, if !D.isClosed s then D.complete s else s))

/-! ## Around the subscription -/

/-- start_with: start_with_operator.rs:46-55; the subscriber is the destination itself -/
def startWithOp (v : I) : OpImpl I E I E where
  St := Unit
  init D s := ((), D.next s v)
  sub D := identityOp.sub D

/-- end_with: end_with_subscriber.rs:38-53 -/
def endWithOp (v : I) : OpImpl I E I E where
  St := Option I
  init _ s := (some v, s)
  sub D := mkSub D
    (fun (st, s) v => (st, D.next s v))
    (fun (st, s) e => (st, D.error s e))
    (fun (st, s) => match st with
      | some last => (none, D.complete (D.next s last))
      | none => (none, D.complete s))

/-- finalize: finalize_operator.rs:49-58; the subscriber is the destination itself, the callback is
the teardown closure `cb` -/
def finalizeOp (cb : Nat) : OpImpl I E I E where
  St := Unit
  init D s := ((), D.addTeardown s (some cb))
  sub D := identityOp.sub D

/-- on_subscribe: on_subscribe_operator.rs:49-58 -/
def onSubscribeOp (p : Prog I E Unit) : OpImpl I E I E where
  St := Unit
  init D s := p.run D s
  sub D := identityOp.sub D

/-! ## Side observer -/

/-- tap: tap_subscriber.rs:46-60. The side observer is a
`SharedSubscriber<ObserverSubscriber<TapDestination>>` cloned into every subscription
(tap_operator.rs:37, 60); `side` is its state at the moment of subscribing. Single-threaded and
without re-entrancy the shared subscriber forwards to the observer subscriber. -/
def tapOp (side : ObsState I E) : OpImpl I E I E where
  St := ObsState I E
  init _ s := (side, s)
  sub D := mkSub D
    (fun (st, s) v => ((observerSubscriber I E).next st v, D.next s v))
    (fun (st, s) e => ((observerSubscriber I E).error st e, D.error s e))
    (fun (st, s) => ((observerSubscriber I E).complete st, D.complete s))

/-- The same subscriber (tap_subscriber.rs:46-60) when side observer `T` and destination `D` act on
a common state, which makes the order of their calls visible. `tapOp` is the case where they act on
separate components of a pair (`tapOp_eq_tapShared`). -/
def tapShared {G : Type} (T D : Sub G I E) : Sub G I E where
  next g v := D.next (T.next g v) v
  error g e := D.error (T.error g e) e
  complete g := D.complete (T.complete g)
  unsubscribe := D.unsubscribe
  isClosed := D.isClosed
  addTeardown := D.addTeardown

/-! ## Channel changing -/

/-- materialize: materialize_subscriber.rs:37-51 -/
def materializeOp : OpImpl I E (ObserverNotification I E) Empty where
  St := Unit
  init _ s := ((), s)
  sub D := mkSub D
    (fun (st, s) v => (st, D.next s (.next v)))
    (fun (st, s) e => (st, D.complete (D.next s (.error e))))
    (fun (st, s) => (st, D.complete (D.next s .complete)))

/-- dematerialize: dematerialize_subscriber.rs:31-56 -/
def dematerializeOp : OpImpl (ObserverNotification I E) Empty I E where
  St := Unit
  init _ s := ((), s)
  sub D := mkSub D
    (fun (st, s) n => match n with
      | .next v => (st, if !D.isClosed s then D.next s v else s)
      | .error e => (st, if !D.isClosed s then D.error s e else s)
      | .complete => (st, if !D.isClosed s then D.complete s else s))
    (fun _ e => nomatch e)
    (fun (st, s) => (st, if !D.isClosed s then D.complete s else s))

/-- into_result: into_result_subscriber.rs:43-55; the error type of the destination is `Never` -/
def intoResultOp : OpImpl I E (Except E I) Empty where
  St := Unit
  init _ s := ((), s)
  sub D := mkSub D
    (fun (st, s) v => (st, D.next s (.ok v)))
    (fun (st, s) e => (st, D.next s (.error e)))
    (fun (st, s) => (st, D.complete s))

/-- lift_result: lift_result_subscriber.rs:48-64 -/
def liftResultOp : OpImpl (Except E I) Empty I E where
  St := Unit
  init _ s := ((), s)
  sub D := mkSub D
    (fun (st, s) v => match v with
      | .ok v => (st, D.next s v)
      | .error e => (st, D.error s e))
    (fun _ e => nomatch e)
    (fun (st, s) => (st, D.complete s))

/-! ## Composition -/

/-- Moving a subscriber along a renaming of its state (no Rust counterpart: nested structs are
nested pairs). -/
def Sub.transport {S T I E : Type} (to : S → T) (from_ : T → S) (D : Sub S I E) : Sub T I E where
  next t v := to (D.next (from_ t) v)
  error t e := to (D.error (from_ t) e)
  complete t := to (D.complete (from_ t))
  unsubscribe t := to (D.unsubscribe (from_ t))
  isClosed t := D.isClosed (from_ t)
  addTeardown t x := to (D.addTeardown (from_ t) x)

/-- composite: composite_operator.rs:42-55 (`CompositeSubscriber` delegates everything,
composite_subscriber.rs:7-22). Also what `Pipe` does with two operators
(pipe_observable.rs:43-54). -/
def compositeOp {I E M G O F : Type} (prev : OpImpl I E M G) (op : OpImpl M G O F) :
    OpImpl I E O F where
  St := prev.St × op.St
  init D s :=
    let r := prev.init (op.sub D) (op.init D s)
    ((r.1, r.2.1), r.2.2)
  sub D := (prev.sub (op.sub D)).transport
    (fun x => ((x.1, x.2.1), x.2.2)) (fun x => (x.1.1, (x.1.2, x.2)))

/-- filter_map: filter_map_operator.rs:60-70, a `MapSubscriber` over a `LiftOptionSubscriber` -/
def filterMapOp (f : I → Option O) : OpImpl I E O E :=
  compositeOp (mapOp f) liftOptionOp

/-- `Option<Operator>` as an operator: option_operator.rs:21-32, option_subscriber.rs:18-92 -/
def optionOp (op : Option (OpImpl I E I E)) : OpImpl I E I E :=
  match op with
  | some op => op
  | none => identityOp

end Rx
