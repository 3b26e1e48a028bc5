import Verif.Model.PublishSubject
import Verif.Model.Pipeline

/-!
# Subjects that remember values

`BehaviorSubject`, `ReplaySubject`, `AsyncSubject` and `ProvenanceSubject`. Each wraps a
`PublishSubject` (`Publish.State`).

Simplifications. Subscribers (`D`) do not call the subject while they are notified. While a remembered
value is replayed to it, before it is subscribed, a subscriber may call `next`, `error`, `complete` and
`unsubscribe` of behavior and replay subjects (`answer`); other calls are left out. The mutex around the
remembered values is never contended from one thread, since it is released before anyone is called. The
reducer of an async subject is a pure function.
-/

namespace Rx.Caching

open Rx.Publish (State Fault passive)

variable {V S I E : Type}

/-- A `PublishSubject` and what is remembered next to it. -/
structure Wrapped (V S I E : Type) where
  subject : State S I E
  memory : V

/-- How values are remembered and replayed. -/
structure Memory (V I : Type) where
  write : V → I → V
  read : V → List I

/-- `BehaviorSubject::value`: behavior_subject.rs:65 and 100-101. -/
def latest : Memory I I := ⟨fun _ v => v, fun v => [v]⟩

/-- `ConstGenericRingBuffer::enqueue` (crate `ringbuffer`): a full buffer drops its oldest value. -/
def enqueue (cap : Nat) (vs : List I) (v : I) : List I :=
  (if vs.length < cap then vs else vs.drop 1) ++ [v]

/-- `ReplaySubject::values`: replay_subject.rs:65 and 101-105. -/
def ring (cap : Nat) : Memory (List I) I := ⟨enqueue cap, id⟩

/-- What subscribers do while a remembered value is replayed to them: they send notifications. -/
abbrev Answer (S I E : Type) := S → I → List (SubscriberNotification I E)

/-- Nothing. -/
def noAnswer : Answer S I E := fun _ _ => []

section Replaying
variable (M : Memory V I) (D : Sub S I E) (ord : Nat → List Nat → List Nat) (answer : Answer S I E)

/-- `next`, `error`, `complete` (behavior_subject.rs:64-77, replay_subject.rs:64-78) and `unsubscribe`, which
is delegated to `subject` (`rx_delegate_subscription_like_to_destination`). -/
def note (w : Wrapped V S I E) (n : SubscriberNotification I E) : Except Fault (Wrapped V S I E) := do
  let memory := match n with
    | .next v => M.write w.memory v
    | _ => w.memory
  let x ← w.subject.note (passive D) ord n
  pure ⟨x, memory⟩

/-- The subscriber is given one remembered value, and may answer. -/
def replayOne (ws : Wrapped V S I E × S) (v : I) : Except Fault (Wrapped V S I E × S) := do
  let w ← (answer ws.2 v).foldlM (note M D ord) ws.1
  pure (w, D.next ws.2 v)

/-- `if !self.subject.is_errored() { … }`, behavior_subject.rs:99-102, replay_subject.rs:100-106. The values
are cloned before the first is replayed. -/
def replay (w : Wrapped V S I E) (s : S) : Except Fault (Wrapped V S I E × S) :=
  if w.subject.observedError.isSome then .ok (w, s)
  else (M.read w.memory).foldlM (replayOne M D ord answer) (w, s)

/-- `subscribe`, behavior_subject.rs:90-104, replay_subject.rs:91-108. -/
def subscribe (w : Wrapped V S I E) (s : S) : Except Fault (Wrapped V S I E) := do
  let (w, s) ← replay M D ord answer w s
  let x ← w.subject.subscribe (passive D) ord s
  pure { w with subject := x }

/-- A subscription of these is the subscription of the publish subject. -/
def cancel (w : Wrapped V S I E) (i : Nat) : Except Fault (Wrapped V S I E) := do
  let x ← w.subject.cancel (passive D) ord i
  pure { w with subject := x }

def step (w : Wrapped V S I E) : Publish.Op S I E → Except Fault (Wrapped V S I E)
  | .note n => note M D ord w n
  | .subscribe s => subscribe M D ord answer w s
  | .cancel i => cancel D ord w i

def run (w : Wrapped V S I E) (ops : List (Publish.Op S I E)) : Except Fault (Wrapped V S I E) :=
  ops.foldlM (step M D ord answer) w

end Replaying

/-! ## `AsyncSubject` -/

namespace Async
variable (f : I → I → I) (D : Sub S I E) (ord : Nat → List Nat → List Nat)

/-- `next`, async_subject.rs:87-97. -/
def next (w : Wrapped (Option I) S I E) (v : I) : Wrapped (Option I) S I E :=
  { w with memory := some (match w.memory with
      | some u => f u v
      | none => v) }

/-- async_subject.rs:106-110. -/
def release (w : Wrapped (Option I) S I E) : Except Fault (State S I E) :=
  match w.memory with
  | some v => w.subject.note (passive D) ord (.next v)
  | none => .ok w.subject

/-- `complete`, async_subject.rs:105-113. -/
def complete (w : Wrapped (Option I) S I E) : Except Fault (Wrapped (Option I) S I E) := do
  let x ← release D ord w
  let x ← x.note (passive D) ord .complete
  pure { w with subject := x }

/-- `error`, async_subject.rs:99-102, and `unsubscribe`, which is delegated. -/
def pass (w : Wrapped (Option I) S I E) (n : SubscriberNotification I E) :
    Except Fault (Wrapped (Option I) S I E) := do
  let x ← w.subject.note (passive D) ord n
  pure { w with subject := x }

/-- async_subject.rs:136-149 -/
def replay (w : Wrapped (Option I) S I E) (s : S) : S :=
  if w.subject.isClosed then
    if !w.subject.observedError.isSome then
      match w.memory with
      | some v => D.next s v
      | none => s
    else s
  else s

/-- `subscribe`, async_subject.rs:127-152. -/
def subscribe (w : Wrapped (Option I) S I E) (s : S) : Except Fault (Wrapped (Option I) S I E) := do
  let x ← w.subject.subscribe (passive D) ord (replay D w s)
  pure { w with subject := x }

def step (w : Wrapped (Option I) S I E) : Publish.Op S I E → Except Fault (Wrapped (Option I) S I E)
  | .note (.next v) => .ok (next f w v)
  | .note .complete => complete D ord w
  | .note n => pass D ord w n
  | .subscribe s => subscribe D ord w s
  | .cancel i => Caching.cancel D ord w i

def run (w : Wrapped (Option I) S I E) (ops : List (Publish.Op S I E)) : Except Fault (Wrapped (Option I) S I E) :=
  ops.foldlM (step f D ord) w

end Async

/-! ## `ProvenanceSubject` -/

namespace Provenance
variable {P : Type} [DecidableEq P]

/-- The ways to subscribe. -/
inductive Kind (P : Type) where
  | direct
  | all
  | only (p : P)
  | replayThen (p : P)

/-- `strip_provenance`, provenance_subject.rs:194-196. -/
def strip (v : I × P) : I := v.1

/-- `create_provenance_filter`, provenance_subject.rs:198-205. -/
def byProvenance (p : P) (v : I × P) (_ : Nat) : Bool := v.2 == p

/-- `create_provenance_filter_always_replay`, provenance_subject.rs:207-214. -/
def alwaysReplay (p : P) (v : I × P) (i : Nat) : Bool := i == 0 || v.2 == p

/-- What observers get. -/
def Out (P I : Type) : Kind P → Type
  | .direct => I × P
  | _ => I

/-- The operators between the `BehaviorSubject` and the observer: `all` (provenance_subject.rs:76-86),
`only_by_provenance` (122-147), `replay_then_by_provenance` (90-117). An observer subscribed directly
(183-191) also gets the provenance. -/
def pipe (I E : Type) : (k : Kind P) → Pipeline (I × P) E (Out P I k) E
  | .direct => .nil
  | .all => .cons (.map strip) .nil
  | .only p => .cons (.filter (byProvenance p)) (.cons (.map strip) .nil)
  | .replayThen p => .cons (.filter (alwaysReplay p)) (.cons (.map strip) .nil)

end Provenance

/-- Subscribers of different kinds. -/
def mixed {ι : Type} {T : ι → Type} (D : (i : ι) → Sub (T i) I E) : Sub ((i : ι) × T i) I E where
  next s v := ⟨s.1, (D s.1).next s.2 v⟩
  error s e := ⟨s.1, (D s.1).error s.2 e⟩
  complete s := ⟨s.1, (D s.1).complete s.2⟩
  unsubscribe s := ⟨s.1, (D s.1).unsubscribe s.2⟩
  isClosed s := (D s.1).isClosed s.2
  addTeardown s t := ⟨s.1, (D s.1).addTeardown s.2 t⟩

end Rx.Caching
