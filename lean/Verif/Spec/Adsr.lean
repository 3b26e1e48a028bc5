import Verif.Model.Adsr
import Verif.Spec.TimedSources

/-!
# What an envelope is

The operator samples its input once in a tick. Each sample gives a signal; the signals are functions of the samples.
-/

namespace Rx.Adsr

variable {N : Num}

/-- The signals for samples that follow on `b`. -/
def signalsFrom (b : Nat × EnvState N) : List (Sample N) → List (Signal N)
  | [] => []
  | x :: xs =>
    let v := b.2.calculate x.env x.active (x.now - b.1)
    v.lastOutput :: signalsFrom (x.now, v) xs

/-- The signals for some samples, one for each. -/
def signals (l : List (Sample N)) : List (Signal N) := signalsFrom (0, .default) l

/-- The order of the phases. -/
def Phase.rank : Phase → Nat
  | .off => 0
  | .attack => 1
  | .decay => 2
  | .sustain => 3
  | .release => 4

/-- The last phase; before the first signal, it is off. -/
def lastPhase (l : List (Signal N)) : Phase := match l.getLast? with | some x => x.phase | none => .off

/-- What must be reported between two signals. -/
structure Reports (old new : Phase) (f : Flags) : Prop where
  /-- something, if and only if the phase changes -/
  changed : f ≠ {} ↔ old ≠ new
  /-- it starts -/
  start : f.start = true ↔ old = .off ∧ new ≠ .off
  /-- the attack was passed -/
  fire : f.fire = true ↔ (old = .off ∨ old = .attack) ∧ Phase.attack.rank < new.rank
  sustain : f.sustain = true ↔ new = .sustain ∧ old.rank < new.rank
  release : f.release = true ↔ new = .release ∧ old ≠ .release
  /-- it ends, or ended to start again, -/
  stop : f.stop = true ↔ new.rank < old.rank
  /-- in which case this is reported, too -/
  restart : f.restart = true ↔ new.rank < old.rank ∧ new ≠ .off

/-- The value at `T` in a phase that takes `len`. -/
def curve (f : Option (Easing N)) (v w : N.V) (T len : Nat) : N.V := N.clamp ((f.getD N.linear) v w (pos T 0 len))

/-- An envelope, `T` after it was activated. -/
def held (e : Envelope N) (T : Nat) : N.V × Phase :=
  if T < e.attackTime then (curve e.attackEasing N.zero N.one T e.attackTime, .attack)
  else if T < e.attackTime + e.decayTime then
    (curve e.decayEasing N.one (N.clamp e.sustainVolume) (T - e.attackTime) e.decayTime, .decay)
  else (N.clamp e.sustainVolume, .sustain)

/-- An envelope, `T` after it was last active, with value `v`. -/
def faded (e : Envelope N) (v : N.V) (T : Nat) : N.V × Phase :=
  if T < e.releaseTime then (curve e.releaseEasing v N.zero T e.releaseTime, .release) else (N.zero, .off)

/-- Which phase may follow on which, given the input. -/
def Legal (active : Bool) (old new : Phase) : Prop :=
  if active then new = .attack ∨ new = .decay ∨ new = .sustain
  else new = .off ∨ (new = .release ∧ old ≠ .off)

/-- What is emitted: a signal that it is off is left out if it follows on another one, unless `always`. -/
def emittedFrom (always : Bool) : (wasOff : Bool) → List (Signal N) → List (Signal N)
  | _, [] => []
  | wasOff, x :: xs =>
    if always = true ∨ x.phase ≠ .off ∨ wasOff = false then x :: emittedFrom always (x.phase == .off) xs
    else emittedFrom always (x.phase == .off) xs

def emitted (always : Bool) (l : List (Signal N)) : List (Signal N) := emittedFrom always false l

/-- The envelope after triggers. -/
def envelopeAfter (e : Envelope N) (trs : List (Trigger N)) : Envelope N :=
  trs.foldl (fun e t => match t.changes with | some c => e.apply c | none => e) e

/-- The input after triggers. -/
def inputAfter (trs : List (Trigger N)) : Bool :=
  match trs.getLast? with | some t => t.activated | none => false

/-- The sample `x` is right, for the triggers `trs` that arrived, of which `before` had arrived at the sample before it: it uses
all changes of the envelope so far, and the newest trigger; with `reset_input_on_tick`, the newest since the last sample. -/
structure Right (o : Options) (e : Envelope N) (trs : List (Trigger N)) (before : Nat) (x : Sample N) : Prop where
  order : before ≤ x.heard ∧ x.heard ≤ trs.length
  env : x.env = envelopeAfter e (trs.take x.heard)
  active : x.active = inputAfter (if o.resetInputOnTick = true then (trs.take x.heard).drop before else trs.take x.heard)

/-- All samples are right, and in the order of time. -/
def AllRight (o : Options) (e : Envelope N) (trs : List (Trigger N)) (l : List (Sample N)) : Prop :=
  (∀ past x rest, l = past ++ x :: rest → Right o e trs (match past.getLast? with | some y => y.heard | none => 0) x) ∧
  l.Pairwise (fun x y => x.now ≤ y.now)

/-- What is needed of the numbers. -/
structure Num.Laws (N : Num) : Prop where
  zero_zero : N.lt N.zero N.zero = false
  one_one : N.lt N.one N.one = false
  one_zero : N.lt N.one N.zero = false

/-- The numbers that are not NaN: quotients by a duration and easing do not make NaN. -/
structure Num.Proper (N : Num) (p : N.V → Prop) : Prop where
  zero : p N.zero
  one : p N.one
  div : ∀ a b, p (N.div (N.secs a) (N.max (N.secs b) N.eps))
  linear : ∀ a b c, p a → p b → p c → p (N.linear a b c)

/-- An envelope without NaN. -/
structure Envelope.Proper (e : Envelope N) (p : N.V → Prop) : Prop where
  volume : p e.sustainVolume
  attack : ∀ f, e.attackEasing = some f → ∀ a b c, p a → p b → p c → p (f a b c)
  decay : ∀ f, e.decayEasing = some f → ∀ a b c, p a → p b → p c → p (f a b c)
  release : ∀ f, e.releaseEasing = some f → ∀ a b c, p a → p b → p c → p (f a b c)

end Rx.Adsr

namespace Rx.Timed

variable {S I O E : Type}

/-- The same end. -/
inductive SameEnd : SubscriberNotification I E → SubscriberNotification O E → Prop where
  | error (e : E) : SameEnd (.error e) (.error e)
  | complete : SameEnd .complete .complete
  | unsubscribe : SameEnd .unsubscribe .unsubscribe

/-- What an operator may do that gives the end when it arrives, and at once. -/
structure Ends (D : Sub S O E) (s : S) (past : Line I O E) (m : Mark I O E × Nat) : Prop where
  orderly : Orderly D s past m
  final : ∀ n, m.1 = .out n → Final n → ∃ n', past.getLast? = some (.arrived n', m.2) ∧ SameEnd n' n
  atOnce : ∀ n n' k, past.getLast? = some (.arrived n', k) → SameEnd n' n → D.isClosed (fed D s past) = false → m = (.out n, k)

end Rx.Timed
