import Verif.Spec.Timed
import Verif.Model.TimedSources

/-!
# What sources and operators that use time may do, in terms of their timelines
-/

namespace Rx.Timed
variable {S I O E : Type}

/-- In each step of a history, the clock advances by at most `a`. -/
def Paced {c : Sched.Client} {R : Sched.Rest c} (a : Nat) (e : Sched.Exec R.env) : List R.Op → Prop
  | [] => True
  | op :: ops => ∀ e', R.step e op = .ok e' →
    e'.world.sched.currentTick ≤ e.world.sched.currentTick + a ∧ Paced a e' ops

/-- What a source may do that is subscribed, and never fails: it may be unsubscribed. -/
structure Source.Plain (D : Sub S O E) (s : S) (past : Line I O E) (m : Mark I O E × Nat) : Prop where
  orderly : Orderly D s past m
  /-- upstream there is nothing -/
  arrived : ∀ n, m.1 = .arrived n → n = .unsubscribe
  error : ∀ e, m.1 ≠ .out (.error e)
  /-- unsubscription is passed on when it arrives -/
  unsubscribe : m.1 = .out .unsubscribe → past.getLast? = some (.arrived .unsubscribe, m.2)

/-- What `timer(d)`, subscribed at `begun`, may do after `past`. -/
structure Timer.Allowed (D : Sub S Unit E) (s : S) (d : Nat) (begun : Option Nat) (past : Line Empty Unit E)
    (m : Mark Empty Unit E × Nat) : Prop extends Source.Plain D s past m where
  /-- the value is given once, when the time is over, -/
  value : m.1 = .out (.next ()) → outs past = [] ∧ ∃ k, begun = some k ∧ k + d ≤ m.2
  /-- completion is given right after it, -/
  complete : m.1 = .out .complete → past.getLast? = some (.out (.next ()), m.2)
  /-- and at once -/
  atOnce : ∀ k, past.getLast? = some (.out (.next ()), k) → D.isClosed (fed D s past) = false → m = (.out .complete, k)

/-- What `interval(d)`, subscribed at `begun`, may do after `past`: it counts, and value `v` is not given before its time
(which is `d` earlier if it starts on subscription). -/
structure Interval.Allowed (D : Sub S Nat E) (s : S) (d : Nat) (start : Bool) (begun : Option Nat) (past : Line Empty Nat E)
    (m : Mark Empty Nat E × Nat) : Prop extends Source.Plain D s past m where
  value : ∀ v, m.1 = .out (.next v) → v = (outs past).length ∧
    ∃ k, begun = some k ∧ k + (v + if start then 0 else 1) * d ≤ m.2
  complete : m.1 ≠ .out .complete

/-- What `iterator_on_tick` may do after `past`: it gives the items in order, and completes right after the last one (with
the exception in `atOnce`). -/
structure IteratorOnTick.Allowed (D : Sub S O E) (s : S) (f : Nat → Option O) (start : Bool) (past : Line Empty O E)
    (m : Mark Empty O E × Nat) : Prop extends Source.Plain D s past m where
  value : ∀ v, m.1 = .out (.next v) → f (outs past).length = some v
  complete : m.1 = .out .complete → f (outs past).length = none ∧ (∃ v, past.getLast? = some (.out (.next v), m.2)) ∧
    (start = false ∨ 1 < (outs past).length)
  /-- not if the only item was given when it was subscribed -/
  atOnce : ∀ v k, past.getLast? = some (.out (.next v), k) → D.isClosed (fed D s past) = false →
    f (outs past).length = none → (start = false ∨ 1 < (outs past).length) → m = (.out .complete, k)

/-- What `subscribe_on` may do after `past`: it gives what arrives, at once. -/
structure SubscribeOn.Allowed (D : Sub S I E) (s : S) (past : Line I I E) (m : Mark I I E × Nat) : Prop where
  orderly : Orderly D s past m
  given : ∀ n, m.1 = .out n → past.getLast? = some (.arrived n, m.2)
  atOnce : ∀ n k, past.getLast? = some (.arrived n, k) → D.isClosed (fed D s past) = false → m = (.out n, k)

/-- The values that arrived since the last value was given. -/
def recent (τ : Line I O E) : List I :=
  τ.foldl (fun l m => match m.1 with | .arrived (.next v) => l ++ [v] | .out (.next _) => [] | _ => l) []

/-- What `fallback_when_silent` may do after `past`. -/
structure Fallback.Allowed (D : Sub S I E) (s : S) (fb : (tick index : Nat) → I) (past : Line I I E)
    (m : Mark I I E × Nat) : Prop where
  orderly : Orderly D s past m
  /-- a value is the newest one since the last was given, or, if there is none, a fallback -/
  value : ∀ v, m.1 = .out (.next v) → (recent past).getLast? = some v ∨
    (recent past = [] ∧ ∃ t, t ≤ m.2 ∧ v = fb t (outs past).length)
  /-- the end is given when it arrives, -/
  final : ∀ n, m.1 = .out n → Final n → past.getLast? = some (.arrived n, m.2)
  /-- and at once -/
  atOnce : ∀ n k, past.getLast? = some (.arrived n, k) → Final n → D.isClosed (fed D s past) = false → m = (.out n, k)

end Rx.Timed
