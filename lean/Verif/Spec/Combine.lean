import Verif.Model.Combine
import Verif.Spec.Grammar

/-!
# What combination observables must deliver

A history is the interleaving of what the two inputs sent. A rule says, for every history, what its
last event makes the combination emit, and whether the combination has ended.
-/

namespace Rx.Spec

open Rx

variable {A E₁ B E₂ O F I E : Type}

/-! ## Reading histories -/

/-- What the first input sent. -/
def left (h : List (Either2 A E₁ B E₂)) : List (SubscriberNotification A E₁) :=
  h.filterMap fun | .o1 n => some n | .o2 _ => none

/-- What the second input sent. -/
def right (h : List (Either2 A E₁ B E₂)) : List (SubscriberNotification B E₂) :=
  h.filterMap fun | .o1 _ => none | .o2 n => some n

/-- Both inputs keep to the Rx grammar. -/
def Conforming (h : List (Either2 A E₁ B E₂)) : Prop := RxGrammar (left h) ∧ RxGrammar (right h)

/-- The values of one input. -/
def valsOf (ns : List (SubscriberNotification I E)) : List I :=
  ns.filterMap fun | .next v => some v | _ => none

/-- The error of one input. -/
def errorOf (ns : List (SubscriberNotification I E)) : Option E :=
  ns.findSome? fun | .error e => some e | _ => none

def completed (ns : List (SubscriberNotification I E)) : Bool :=
  ns.any fun | .complete => true | _ => false

def unsubscribed (ns : List (SubscriberNotification I E)) : Bool :=
  ns.any fun | .unsubscribe => true | _ => false

/-- An input that will send no more values. -/
def finished (ns : List (SubscriberNotification I E)) : Bool :=
  completed ns || unsubscribed ns || (errorOf ns).isSome

/-! ## Rules -/

/-- A rule; see the module comment. -/
structure Rule (A E₁ B E₂ O F : Type) where
  /-- what the last event of the history makes it emit -/
  emits : List (Either2 A E₁ B E₂) → List O
  /-- how a combination with this history has ended, if it has -/
  ends : List (Either2 A E₁ B E₂) → Option (SubscriberNotification O F)

/-- What is delivered downstream for the events `es` after the history `pre`: emissions, until it
ends. -/
def Rule.deliverFrom (R : Rule A E₁ B E₂ O F) (pre : List (Either2 A E₁ B E₂)) :
    List (Either2 A E₁ B E₂) → List (SubscriberNotification O F)
  | [] => []
  | e :: es =>
    (R.emits (pre ++ [e])).map .next ++
      match R.ends (pre ++ [e]) with
      | some t => [t]
      | none => R.deliverFrom (pre ++ [e]) es

def Rule.deliver (R : Rule A E₁ B E₂ O F) (es : List (Either2 A E₁ B E₂)) :
    List (SubscriberNotification O F) :=
  R.deliverFrom [] es

/-- The error that ends a combination: that of whichever input had one. -/
def anyError (i₁ : E₁ → F) (i₂ : E₂ → F) (h : List (Either2 A E₁ B E₂)) : Option F :=
  ((errorOf (left h)).map i₁).or ((errorOf (right h)).map i₂)

/-- The last event is a value. -/
def lastIsValue (h : List (Either2 A E₁ B E₂)) : Bool :=
  match h.getLast? with
  | some (.o1 (.next _)) => true
  | some (.o2 (.next _)) => true
  | _ => false

/-- The last event is a value of the first input. -/
def lastIsLeft (h : List (Either2 A E₁ B E₂)) : Bool :=
  match h.getLast? with
  | some (.o1 (.next _)) => true
  | _ => false

/-- The last event is a value of the second input. -/
def lastIsRight (h : List (Either2 A E₁ B E₂)) : Bool :=
  match h.getLast? with
  | some (.o2 (.next _)) => true
  | _ => false

/-! ### zip -/

/-- The pairs of the i-th values. -/
def pairs (h : List (Either2 A E₁ B E₂)) : List (A × B) := (valsOf (left h)).zip (valsOf (right h))

/-- The pairs that the last event made possible. -/
def newPairs (h : List (Either2 A E₁ B E₂)) : List (A × B) :=
  (pairs h).drop (pairs h.dropLast).length

/-- No input ever is more than `n` values ahead of the other. -/
def WithinLimit (n : Nat) (h : List (Either2 A E₁ B E₂)) : Prop :=
  ∀ p, p <+: h → (valsOf (left p)).length ≤ (valsOf (right p)).length + n ∧
    (valsOf (right p)).length ≤ (valsOf (left p)).length + n

/-- What zip should do: end with an error at once, and complete as soon as one input completed and
all its values were paired. -/
def zipRule (i₁ : E₁ → F) (i₂ : E₂ → F) : Rule A E₁ B E₂ (A × B) F where
  emits := newPairs
  ends h :=
    match anyError i₁ i₂ h with
    | some e => some (.error e)
    | none =>
      let n₁ := (valsOf (left h)).length
      let n₂ := (valsOf (right h)).length
      if (completed (left h) ∧ n₁ ≤ n₂) ∨ (completed (right h) ∧ n₂ ≤ n₁) then some .complete
      else if (unsubscribed (left h) ∧ n₁ ≤ n₂) ∨ (unsubscribed (right h) ∧ n₂ ≤ n₁)
        then some .unsubscribe
      else none

/-- What zip does: it only ends when the inputs have sent equally many values. -/
def zipActualRule (i₁ : E₁ → F) (i₂ : E₂ → F) : Rule A E₁ B E₂ (A × B) F where
  emits := newPairs
  ends h :=
    match anyError i₁ i₂ h with
    | some e => some (.error e)
    | none =>
      if (valsOf (left h)).length = (valsOf (right h)).length ∧ (finished (left h) || finished (right h)) then
        if (completed (left h) && (completed (right h) || !finished (right h))) ||
            (completed (right h) && !finished (left h)) then some .complete
        else some .unsubscribe
      else none

/-! ### combine_latest -/

/-- The latest values of both inputs, if both have emitted. -/
def latestPair (h : List (Either2 A E₁ B E₂)) : Option (A × B) :=
  match (valsOf (left h)).getLast?, (valsOf (right h)).getLast? with
  | some a, some b => some (a, b)
  | _, _ => none

/-- An input that will never send a value. -/
def hopeless (ns : List (SubscriberNotification I E)) : Bool := finished ns && (valsOf ns).isEmpty

/-- What combine_latest should do: complete when both inputs completed, or when one completed
without ever emitting; unsubscribe when both are finished otherwise, or when one was unsubscribed
without ever emitting. -/
def combineLatestRule (i₁ : E₁ → F) (i₂ : E₂ → F) : Rule A E₁ B E₂ (A × B) F where
  emits h := if lastIsValue h then (latestPair h).toList else []
  ends h :=
    match anyError i₁ i₂ h with
    | some e => some (.error e)
    | none =>
      if completed (left h) && completed (right h) then some .complete
      else if (completed (left h) && hopeless (left h)) || (completed (right h) && hopeless (right h))
        then some .complete
      else if finished (left h) && finished (right h) then some .unsubscribe
      else if hopeless (left h) || hopeless (right h) then some .unsubscribe
      else none

/-- What combine_latest does: completion of an input that never emitted completes it only if the
other input has emitted, and unsubscribes it otherwise; unsubscription of an input that never
emitted ends it only if the other input has not sent anything yet. -/
def combineLatestActualRule (i₁ : E₁ → F) (i₂ : E₂ → F) : Rule A E₁ B E₂ (A × B) F where
  emits h := if lastIsValue h then (latestPair h).toList else []
  ends h :=
    match anyError i₁ i₂ h with
    | some e => some (.error e)
    | none =>
      if completed (left h) && completed (right h) then some .complete
      else if (completed (left h) && hopeless (left h) && !(valsOf (right h)).isEmpty) ||
          (completed (right h) && hopeless (right h) && !(valsOf (left h)).isEmpty)
        then some .complete
      else if finished (left h) && finished (right h) then some .unsubscribe
      else if (hopeless (left h) && (right h).isEmpty) || (hopeless (right h) && (left h).isEmpty)
        then some .unsubscribe
      else none

/-! ### combine_changes -/

/-- One side of an emission. -/
def change {T : Type} (changed : Bool) : Option T → Change T
  | some v => if changed then .justUpdated v else .latest v
  | none => .none

/-- combine_changes emits on every value, and ends when both inputs have finished. -/
def combineChangesRule (i₁ : E₁ → F) (i₂ : E₂ → F) : Rule A E₁ B E₂ (Change A × Change B) F where
  emits h :=
    if lastIsValue h then
      [(change (lastIsLeft h) (valsOf (left h)).getLast?,
        change (lastIsRight h) (valsOf (right h)).getLast?)]
    else []
  ends h :=
    match anyError i₁ i₂ h with
    | some e => some (.error e)
    | none =>
      if completed (left h) && completed (right h) then some .complete
      else if finished (left h) && finished (right h) then some .unsubscribe
      else none

/-! ### join -/

/-- join emits the pair of last values when both inputs have completed. -/
def joinRule (i₁ : E₁ → F) (i₂ : E₂ → F) : Rule A E₁ B E₂ (A × B) F where
  emits h :=
    if completed (left h) && completed (right h) && (anyError i₁ i₂ h).isNone
      then (latestPair h).toList else []
  ends h :=
    match anyError i₁ i₂ h with
    | some e => some (.error e)
    | none =>
      if completed (left h) && completed (right h) then some .complete
      else if finished (left h) && finished (right h) then some .unsubscribe
      else none

/-! ### Inputs that do not keep to the grammar -/

/-- After this, the Rx grammar allows the notification: nothing comes after an end, but one `unsubscribe`. -/
def allows (ns : List (SubscriberNotification I E)) : SubscriberNotification I E → Bool
  | .unsubscribe => !unsubscribed ns
  | _ => !finished ns

/-- After this history, the grammar allows its input to send this. -/
def allows2 (h : List (Either2 A E₁ B E₂)) : Either2 A E₁ B E₂ → Bool
  | .o1 n => allows (left h) n
  | .o2 n => allows (right h) n

/-- What is left of the events `es`, after the history `h`, without those that the grammar does not allow. -/
def lawfulFrom (h : List (Either2 A E₁ B E₂)) : List (Either2 A E₁ B E₂) → List (Either2 A E₁ B E₂)
  | [] => []
  | e :: es => if allows2 h e then e :: lawfulFrom (h ++ [e]) es else lawfulFrom h es

/-! ### with_latest_from -/

/-- with_latest_from emits on every value of the source once the inner observable has emitted, and
ends with the source, with an error of the inner observable, or when that completes without a
value. -/
def withLatestRule : Rule A F B F (A × B) F where
  emits h := if lastIsLeft h then (latestPair h).toList else []
  ends h :=
    match anyError id id h with
    | some e => some (.error e)
    | none =>
      if completed (left h) then some .complete
      else if unsubscribed (left h) then some .unsubscribe
      else if completed (right h) && (valsOf (right h)).isEmpty then some .complete
      else none

/-! ### Observing a combination -/

/-- Subscribe a combination to a fresh observer, let the inputs send `es`: what the observer was called
with, and whether the subscription is closed (`none`: a debug assertion failed). -/
def observe2 (C : Combiner A E₁ B E₂ O F) (es : List (Either2 A E₁ B E₂)) :
    Option (List (ObserverNotification O F) × Bool) :=
  (C.run (observerSubscriber O F) (C.init, ObsState.new) es).map fun x =>
    (x.2.seen, (observerSubscriber O F).isClosed x.2)

/-- Inputs are not unsubscribed on their own. -/
def NoUnsubscribe (es : List (Either2 A E₁ B E₂)) : Prop :=
  unsubscribed (left es) = false ∧ unsubscribed (right es) = false

/-- An input only completes when the other is not ahead of it. -/
def NeverAhead (es : List (Either2 A E₁ B E₂)) : Prop :=
  ∀ p, p <+: es →
    (completed (left p) = true → (valsOf (right p)).length ≤ (valsOf (left p)).length) ∧
    (completed (right p) = true → (valsOf (left p)).length ≤ (valsOf (right p)).length)

/-- An input only completes without having emitted when the other has emitted. -/
def OtherEmitted (es : List (Either2 A E₁ B E₂)) : Prop :=
  ∀ p, p <+: es →
    (completed (left p) = true → valsOf (left p) = [] → valsOf (right p) ≠ []) ∧
    (completed (right p) = true → valsOf (right p) = [] → valsOf (left p) ≠ [])

/-! ### The notification queue -/

/-- Using a queue. -/
inductive QOp (I E : Type) where
  | push (n : SubscriberNotification I E)
  | pop

/-- What was pushed. -/
def pushed (ops : List (QOp I E)) : List (SubscriberNotification I E) :=
  ops.filterMap fun | .push n => some n | .pop => none

/-- The last `n` elements. -/
def lastN {T : Type} (n : Nat) (l : List T) : List T := l.drop (l.length - n)

/-- The values waiting in a queue that never holds more than the limit, after one operation, and what
the operation returned. -/
def waiting (o : QueueOverflowOptions) (vals : List I) : QOp I E → List I × List (Option I)
  | .push (.next v) =>
    (match o.overflowBehavior with
      | .dropOldest => lastN o.maxQueueLength (vals ++ [v])
      | .ignoreNext => (vals ++ [v]).take o.maxQueueLength, [])
  | .push _ => (vals, [])
  | .pop => (vals.tail, [vals.head?])

/-- The same for a list of operations. -/
def waitings (o : QueueOverflowOptions) (vals : List I) : List (QOp I E) → List I × List (Option I)
  | [] => (vals, [])
  | op :: ops =>
    let (vals, r) := waiting o vals op
    let (vals, rs) := waitings o vals ops
    (vals, r ++ rs)

/-- Running operations on the queue of the code: the queue and what the pops returned. -/
def queueRun (q : NotificationQueue I E) : List (QOp I E) → Option (NotificationQueue I E × List (Option I))
  | [] => some (q, [])
  | .push n :: ops => (q.push n).bind fun q => queueRun q ops
  | .pop :: ops => q.popNextIfInFront.bind fun (q, v) =>
    (queueRun q ops).map fun (q, vs) => (q, v :: vs)

end Rx.Spec
