import Verif.Model.Subscriber

/-!
# `ConnectableObservable` and `share`

Models `crates/rx_core_observable_connectable/src/*.rs`, `internal/*.rs` and
`crates/rx_core_operator_share/src/share_observable.rs`, used from one thread, with a `PublishSubject` as the connector.

Simplifications. Subscribers, connectors and subscriptions to the source are numbered. The connector is what
`Verif.Props.Subjects` shows of a `PublishSubject` whose subscribers do not call it: a notification is given to all open
subscribers, in an order that is a parameter (`ord`). Subscribers do not call the shared observable while they handle a
notification. A teardown added to a subscription runs as soon as the subscriber is closed. A subscription to the source is
closed when the `ConnectionSubscriber` is. Locks are not modelled but for one: while a source such as `PublishSubject` gives a
notification, the mutex of that subscriber is locked, and `is_closed` of the subscription blocks
(multicast_subscription.rs:74-80, subscriber_arc_mutex.rs:84-88); such sources have `blocks`.
-/

namespace Rx.Share

variable {S I E : Type}

/-- What goes wrong. -/
inductive Fault where
  | deadlock
deriving DecidableEq, Repr

/-- `ConnectableOptions`, connectable_observable_options.rs:4-18; the source; the order in which a connector notifies. -/
structure Cfg (S I E : Type) where
  D : Sub S I E
  ord : List Nat → List Nat
  /-- `disconnect_when_ref_count_zero` -/
  refCount : Bool
  resetOnDisconnect : Bool
  resetOnError : Bool
  resetOnComplete : Bool
  /-- What the source gives, while it is being subscribed to, to its subscriber of that number. -/
  script : Nat → List (SubscriberNotification I E)
  blocks : Bool

/-- `ConnectorState` (connector_state.rs:13-35), `ConnectionState` (connection_state.rs:9-14), `Connection` (connection.rs:6-12),
the connectors, the `ConnectionSubscriber`s, the subscribers, and the `connection` of each clone of a `ShareObservable`
(share_observable.rs:13-35). -/
structure State (S I E : Type) where
  /-- subscribers: how many, their states, their connectors, whether the connector has them, whether the teardown that
  decrements the count is yet to be run -/
  size : Nat := 0
  dest : Nat → S
  conn : Nat → Nat := fun _ => 0
  member : Nat → Bool := fun _ => false
  counted : Nat → Bool := fun _ => false
  /-- connectors: how many, and how they ended -/
  connectors : Nat := 0
  ended : Nat → Option (SubscriberNotification I E) := fun _ => none
  /-- `ConnectorState::connector` -/
  current : Option Nat := none
  /-- subscriptions to the source: how many, their connectors, and whether the teardown of the `ConnectionSubscriber` is closed -/
  sources : Nat := 0
  target : Nat → Nat := fun _ => 0
  torn : Nat → Bool := fun _ => false
  /-- `Connection::connection` -/
  connection : Option Nat := none
  handle : Nat → Option Nat := fun _ => none
  count : Nat := 0
  errored : Bool := false
  completed : Bool := false

/-- `f` with `v` at `i`. -/
def set {α : Type} (f : Nat → α) (i : Nat) (v : α) : Nat → α := fun k => if k = i then v else f k

namespace State

/-- `ConnectionSubscriber::is_closed`, connection_subscriber.rs:90-93. -/
def isClosed (x : State S I E) (j : Nat) : Bool := x.torn j || (x.ended (x.target j)).isSome

/-- `ConnectionSubscriber::unsubscribe`, connection_subscriber.rs:95-108, with `on_unsubscribe`, connector_state.rs:100-107. -/
def unsubscribeSource (c : Cfg S I E) (x : State S I E) (j : Nat) : State S I E :=
  if x.isClosed j then x
  else
    let x := if c.resetOnDisconnect then { x with current := none } else x
    { x with torn := set x.torn j true }

/-- `decrement_subscriber_count`, connection_state.rs:54-62. -/
def decrement (c : Cfg S I E) (x : State S I E) : State S I E × Bool :=
  let x := { x with count := x.count - 1 }
  (x, c.refCount && x.count == 0 && !x.errored && !x.completed)

/-- The teardown that is added to a subscription, connectable_observable.rs:97-117. `em` is the subscription the source is
giving a notification to. -/
def leave (c : Cfg S I E) (em : Option Nat) (x : State S I E) (i : Nat) : Except Fault (State S I E) :=
  if x.counted i then
    let r := { x with counted := set x.counted i false }.decrement c
    if r.2 then
      let x := { r.1 with connection := none }
      match r.1.connection with
      | some j => if c.blocks && em == some j then .error .deadlock else .ok (x.unsubscribeSource c j)
      | none => .ok x
    else .ok r.1
  else .ok x

/-- A subscriber is given a notification, multicast.rs:64-90; if that closes it, its teardown is run. -/
def give (c : Cfg S I E) (em : Option Nat) (n : SubscriberNotification I E) (x : State S I E) (i : Nat) :
    Except Fault (State S I E) :=
  if c.D.isClosed (x.dest i) then .ok x
  else
    let x := { x with dest := set x.dest i (c.D.push (x.dest i) n) }
    if c.D.isClosed (x.dest i) then x.leave c em i else .ok x

/-- The subscribers of connector `k`. -/
def members (x : State S I E) (k : Nat) : List Nat := (List.range x.size).filter fun i => x.member i && x.conn i == k

/-- All subscribers of a connector are notified. -/
def tell (c : Cfg S I E) (em : Option Nat) (n : SubscriberNotification I E) (k : Nat) (x : State S I E) :
    Except Fault (State S I E) :=
  (c.ord (x.members k)).foldlM (give c em n) x

/-- The source notifies its subscriber `j`: `ConnectionSubscriber::next` and so on, connection_subscriber.rs:44-76, 95-108, with
`on_complete` and `on_error`, connector_state.rs:84-99. -/
def emit (c : Cfg S I E) (j : Nat) (n : SubscriberNotification I E) (x : State S I E) : Except Fault (State S I E) :=
  if x.isClosed j then .ok x
  else
    let k := x.target j
    match n with
    | .next v => x.tell c (some j) (.next v) k
    | .error e =>
      let x := if c.resetOnError then { x with current := none, completed := false, errored := false } else x
      let x := { x with errored := true, ended := set x.ended k (some (.error e)) }
      match x.tell c (some j) (.error e) k with
      | .ok x => .ok { x with torn := set x.torn j true }
      | .error f => .error f
    | .complete =>
      let x := if c.resetOnComplete then { x with current := none, completed := false, errored := false } else x
      let x := { x with completed := true, ended := set x.ended k (some .complete) }
      match x.tell c (some j) .complete k with
      | .ok x => .ok { x with torn := set x.torn j true }
      | .error f => .error f
    | .unsubscribe => .ok (x.unsubscribeSource c j)

/-- `get_connector`, connector_state.rs:62-67. -/
def getConnector (x : State S I E) : State S I E × Nat :=
  match x.current with
  | some k => (x, k)
  | none => ({ x with current := some x.connectors, connectors := x.connectors + 1 }, x.connectors)

/-- `Connection::disconnect`, connection.rs:18-27, and `ConnectorState::disconnect`, connector_state.rs:133-136. -/
def disconnect (c : Cfg S I E) (x : State S I E) : State S I E :=
  match x.connection with
  | some j => { x with connection := none }.unsubscribeSource c j
  | none => x

/-- `get_active_connection`, connection.rs:51-56. -/
def active (x : State S I E) : Option Nat :=
  match x.connection with
  | some j => if x.isClosed j then none else some j
  | none => none

/-- `create_connection` (connector_state.rs:69-111) and `register_connection` (connector_state.rs:113-120, connection.rs:37-45). -/
def createConnection (c : Cfg S I E) (x : State S I E) : Except Fault (State S I E) := do
  let r := x.getConnector
  let j := r.1.sources
  let x := { r.1 with sources := j + 1, target := set r.1.target j r.2, torn := set r.1.torn j false }
  let x ← (c.script j).foldlM (fun x n => x.emit c j n) x
  let x := x.disconnect c
  pure { x with connection := some j }

/-- `ConnectorState::connect`, connector_state.rs:122-131. -/
def connect (c : Cfg S I E) (x : State S I E) : Except Fault (State S I E) :=
  match x.active with
  | some _ => .ok x
  | none => x.createConnection c

/-- `ConnectorState::reset`, connector_state.rs:138-141. -/
def reset (c : Cfg S I E) (x : State S I E) : State S I E := { x.disconnect c with current := none }

/-- `ConnectableObservable::subscribe`, connectable_observable.rs:78-123, with `PublishSubject::subscribe`,
publish_subject.rs:108-164. -/
def attach (c : Cfg S I E) (s : S) (x : State S I E) : State S I E :=
  let r := x.getConnector
  let x := r.1
  let i := x.size
  match x.ended r.2 with
  | some n =>
    let s := c.D.push s n
    let s := if c.D.isClosed s then s else c.D.push s .unsubscribe
    { x with size := i + 1, dest := set x.dest i s, conn := set x.conn i r.2, member := set x.member i false,
             counted := set x.counted i false }
  | none =>
    let x := { x with size := i + 1, dest := set x.dest i s, conn := set x.conn i r.2, member := set x.member i true,
                      counted := set x.counted i false }
    if c.D.isClosed s then x else { x with count := x.count + 1, counted := set x.counted i true }

/-- `ShareObservable::connect`, share_observable.rs:56-70, of the clone `k`. After `ConnectorState::connect` there is always
a connection. -/
def shareConnect (c : Cfg S I E) (k : Nat) (x : State S I E) : Except Fault (State S I E) :=
  let fresh := match x.handle k with
    | some j => x.isClosed j
    | none => true
  if fresh then
    match x.connect c with
    | .ok x => .ok { x with handle := set x.handle k x.connection }
    | .error f => .error f
  else .ok x

/-- `ShareObservable::disconnect`, share_observable.rs:72-81. -/
def shareDisconnect (c : Cfg S I E) (k : Nat) (x : State S I E) : State S I E :=
  match x.handle k with
  | some j => { x with handle := set x.handle k none }.unsubscribeSource c j
  | none => x

/-- The subscription of a subscriber is unsubscribed, multicast_subscription.rs:82-93. -/
def unsubscribe (c : Cfg S I E) (i : Nat) (x : State S I E) : Except Fault (State S I E) :=
  if x.member i then { x with member := set x.member i false }.give c none .unsubscribe i else .ok x

end State

/-- What may happen: to a `ShareObservable`, of which `k` is a clone, its subscriptions, and the source; to a
`ConnectableObservable` (`attach`, `link`, `unlink`, `reset`). -/
inductive Op (S I E : Type) where
  | subscribe (k : Nat) (s : S)
  | unsubscribe (i : Nat)
  | emit (j : Nat) (n : SubscriberNotification I E)
  | connect (k : Nat)
  | disconnect (k : Nat)
  | attach (s : S)
  | link
  | unlink
  | reset

namespace State

/-- One of them. -/
def step (c : Cfg S I E) (x : State S I E) : Op S I E → Except Fault (State S I E)
  -- share_observable.rs:97-112
  | .subscribe k s => (x.attach c s).shareConnect c k
  | .unsubscribe i => if i < x.size then x.unsubscribe c i else .ok x
  | .emit j n => if j < x.sources then x.emit c j n else .ok x
  | .connect k => x.shareConnect c k
  | .disconnect k => .ok (x.shareDisconnect c k)
  | .attach s => .ok (x.attach c s)
  | .link => x.connect c
  | .unlink => .ok (x.disconnect c)
  | .reset => .ok (x.reset c)

/-- Nobody has subscribed; `s` is of no importance. -/
def start (s : S) : State S I E := { dest := fun _ => s }

def run (c : Cfg S I E) (x : State S I E) (ops : List (Op S I E)) : Except Fault (State S I E) := ops.foldlM (step c) x

end State

end Rx.Share
