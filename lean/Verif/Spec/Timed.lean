import Verif.Model.Throttle

/-!
# What operators that use time may do, in terms of their timelines

A timeline records what arrived at an operator, what it gave to its destination, and when (by the clock of the
scheduler, that is the time of the latest tick).
-/

namespace Rx.Timed

variable {S I O E : Type}

/-- A timeline. -/
abbrev Line (I O E : Type) := List (Mark I O E × Nat)

/-- The values that arrived, with their times. -/
def arrivals (τ : Line I O E) : List (I × Nat) :=
  τ.filterMap fun m => match m with | (.arrived (.next v), k) => some (v, k) | _ => none

/-- The values that were given to the destination, with their times. -/
def outs (τ : Line I O E) : List (O × Nat) :=
  τ.filterMap fun m => match m with | (.out (.next v), k) => some (v, k) | _ => none

/-- `n` has arrived. -/
def Arrived (n : SubscriberNotification I E) (τ : Line I O E) : Prop := ∃ k, (.arrived n, k) ∈ τ

/-- The destination was given `n`. -/
def Gave (n : SubscriberNotification O E) (τ : Line I O E) : Prop := ∃ k, (.out n, k) ∈ τ

/-- The destination after a timeline. -/
def fed (D : Sub S O E) (s : S) (τ : Line I O E) : S :=
  τ.foldl (fun s m => match m.1 with | .arrived _ => s | .out n => D.push s n | .closed => D.unsubscribe s) s

/-- At each point of the timeline, `P` holds of what came before and what happens. -/
def Throughout (P : Line I O E → Mark I O E × Nat → Prop) (τ : Line I O E) : Prop :=
  ∀ past m rest, τ = past ++ m :: rest → P past m

/-- The destination is given something only while it is open, and is closed by others only once; time does
not go back. -/
structure Orderly (D : Sub S O E) (s : S) (past : Line I O E) (m : Mark I O E × Nat) : Prop where
  live : (∀ n, m.1 ≠ .arrived n) → D.isClosed (fed D s past) = false
  time : ∀ x ∈ past, x.2 ≤ m.2

/-- What `delay(d)` may do after `past`. -/
structure Delay.Allowed (D : Sub S I E) (s : S) (d : Nat) (past : Line I I E) (m : Mark I I E × Nat) : Prop where
  orderly : Orderly D s past m
  /-- a value is given if it is the first one that arrived and was not given yet, and its time has come -/
  value : ∀ v, m.1 = .out (.next v) → ∃ a, (arrivals past)[(outs past).length]? = some (v, a) ∧ a + d ≤ m.2
  /-- completion is given if it has arrived, and all values were given -/
  complete : m.1 = .out .complete → Arrived .complete past ∧ (outs past).length = (arrivals past).length
  /-- so is `unsubscribe` -/
  unsubscribe : m.1 = .out .unsubscribe → Arrived .unsubscribe past ∧ (outs past).length = (arrivals past).length
  /-- an error is given when it arrives, -/
  error : ∀ e, m.1 = .out (.error e) → past.getLast? = some (.arrived (.error e), m.2)
  /-- and at once -/
  atOnce : ∀ e k, past.getLast? = some (.arrived (.error e), k) → D.isClosed (fed D s past) = false →
    m = (.out (.error e), k)

/-- The last value that arrived, if any, was given since. -/
def LastGiven (τ : Line I I E) : Prop :=
  ∀ p v a r, τ = p ++ (.arrived (.next v), a) :: r → arrivals r = [] → Gave (.next v) r

/-- What `debounce_time(d)` may do after `past`. -/
structure Debounce.Allowed (D : Sub S I E) (s : S) (d : Nat) (past : Line I I E) (m : Mark I I E × Nat) : Prop where
  orderly : Orderly D s past m
  /-- a value is given if its time has come, no newer one arrived earlier than right now, and neither it nor a newer
  one was given yet -/
  value : ∀ v, m.1 = .out (.next v) → ∃ before a after, arrivals past = before ++ (v, a) :: after ∧ a + d ≤ m.2 ∧
    (∀ p ∈ after, p.2 = m.2) ∧ ((outs past).map (·.1)).Sublist (before.map (·.1))
  /-- completion is given if it has arrived -/
  complete : m.1 = .out .complete → Arrived .complete past
  unsubscribe : m.1 = .out .unsubscribe → Arrived .unsubscribe past
  /-- an error is given when it arrives, -/
  error : ∀ e, m.1 = .out (.error e) → past.getLast? = some (.arrived (.error e), m.2)
  /-- and at once -/
  atOnce : ∀ e k, past.getLast? = some (.arrived (.error e), k) → D.isClosed (fed D s past) = false →
    m = (.out (.error e), k)

/-- A value that is given is the last that arrived. -/
def Debounce.Newest (past : Line I I E) (m : Mark I I E × Nat) : Prop :=
  ∀ v, m.1 = .out (.next v) → ∃ a, (arrivals past).getLast? = some (v, a)

/-- Completion (or unsubscription) is given after the last value. -/
def Debounce.Settled (past : Line I I E) (m : Mark I I E × Nat) : Prop :=
  m.1 = .out .complete ∨ m.1 = .out .unsubscribe → LastGiven past

/-- A value does not arrive after completion. -/
def Polite (past : Line I O E) (m : Mark I O E × Nat) : Prop :=
  ∀ v, m.1 = .arrived (.next v) → ¬ Arrived .complete past

/-- What `observe_on` may do after `past`. -/
structure ObserveOn.Allowed (D : Sub S I E) (s : S) (past : Line I I E) (m : Mark I I E × Nat) : Prop where
  orderly : Orderly D s past m
  /-- a value is given if it is the first one that arrived and was not given yet -/
  value : ∀ v, m.1 = .out (.next v) → ∃ a, (arrivals past)[(outs past).length]? = some (v, a)
  /-- completion is given if it has arrived; and all values were given, if none arrived after completion -/
  complete : m.1 = .out .complete → Arrived .complete past ∧
    (Throughout Polite past → (outs past).length = (arrivals past).length)
  /-- so is `unsubscribe` -/
  unsubscribe : m.1 = .out .unsubscribe → Arrived .unsubscribe past ∧
    (Throughout Polite past → (outs past).length = (arrivals past).length)
  /-- an error is given when it arrives, -/
  error : ∀ e, m.1 = .out (.error e) → past.getLast? = some (.arrived (.error e), m.2)
  /-- and at once -/
  atOnce : ∀ e k, past.getLast? = some (.arrived (.error e), k) → D.isClosed (fed D s past) = false →
    m = (.out (.error e), k)

/-- What `throttle_time` may do after `past`. -/
structure Throttle.Allowed (D : Sub S I E) (s : S) (o : Throttle.Output) (past : Line I I E) (m : Mark I I E × Nat) :
    Prop where
  orderly : Orderly D s past m
  /-- a value is given when it arrives, if leading values are, or later, if trailing values are -/
  value : ∀ v, m.1 = .out (.next v) → (o ≠ .trailingOnly ∧ past.getLast? = some (.arrived (.next v), m.2)) ∨
    (o ≠ .leadingOnly ∧ Arrived (.next v) past)
  /-- if only trailing values are given, then it is the newest one -/
  newest : ∀ v, o = .trailingOnly → m.1 = .out (.next v) → ∃ a, (arrivals past).getLast? = some (v, a)
  /-- completion is given if it has arrived -/
  complete : m.1 = .out .complete → Arrived .complete past
  unsubscribe : m.1 = .out .unsubscribe → Arrived .unsubscribe past
  /-- an error is given when it arrives, -/
  error : ∀ e, m.1 = .out (.error e) → past.getLast? = some (.arrived (.error e), m.2)
  /-- and at once -/
  atOnce : ∀ e k, past.getLast? = some (.arrived (.error e), k) → D.isClosed (fed D s past) = false →
    m = (.out (.error e), k)

/-- Completion, an error, or unsubscription. -/
def Final (n : SubscriberNotification I E) : Prop := ∀ v, n ≠ .next v

/-- Nothing but unsubscription arrives after an end: this is how an upstream behaves (C01). -/
def Throttle.Once (past : Line I O E) (m : Mark I O E × Nat) : Prop :=
  ∀ n, m.1 = .arrived n → n ≠ .unsubscribe → ∀ n', Final n' → ¬ Arrived n' past

/-- Since `base`, only values arrived; or unsubscription, when the destination was closed already. -/
def Throttle.Mild (D : Sub S O E) (s : S) (base τ : Line I O E) : Prop :=
  ∀ past m rest, τ = past ++ m :: rest → base.length ≤ past.length → ∀ n, m.1 = .arrived n → Final n →
    n = .unsubscribe ∧ D.isClosed (fed D s past) = true

/-- Of the deliveries `L`, the `k`-th next one is at least `d` later. -/
def Throttle.Apart (d k : Nat) (L : List (I × Nat)) : Prop :=
  ∀ i a b, L[i]? = some a → L[i + k]? = some b → a.2 + d ≤ b.2

end Rx.Timed
