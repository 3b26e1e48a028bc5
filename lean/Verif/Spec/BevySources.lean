import Verif.Spec.TimedSources
import Verif.Model.BevySources

/-!
# What the sources that look at a resource of the Bevy world may do, in terms of their timelines

What happened to the world is part of the timeline, and so are the looks. What is to be given at a look is said by a
function `found` of what happened before.
-/

namespace Rx.Poll
open Rx.Timed

variable {S O E Ω : Type}

/-- What is to be given, with the times: at each look, what is found. -/
def due (found : List (Event Ω) → List O) : List (Event Ω × Nat) → List (O × Nat) :=
  go []
where
  /-- after `past` -/
  go (past : List (Event Ω)) : List (Event Ω × Nat) → List (O × Nat)
    | [] => []
    | (.look, k) :: es => (found past).map (·, k) ++ go (past ++ [.look]) es
    | (.world o, _) :: es => go (past ++ [.world o]) es

/-- What a source that gives what is `found` may do after `past`. -/
structure Allowed (D : Sub S O E) (s : S) (found : List (Event Ω) → List O) (past : Line (Event Ω) O E)
    (m : Mark (Event Ω) O E × Nat) : Prop where
  orderly : Orderly D s past m
  /-- what arrives is what happens to the world, or unsubscription -/
  arrived : ∀ n, m.1 = .arrived n → (∃ x, n = .next x) ∨ n = .unsubscribe
  /-- a value is given if it is the next one that is to be given, -/
  value : ∀ v, m.1 = .out (.next v) → outs past ++ [(v, m.2)] <+: due found (arrivals past)
  /-- and before anything else happens -/
  atOnce : outs past ≠ due found (arrivals past) → D.isClosed (fed D s past) = false → ∃ v, m.1 = .out (.next v)
  complete : m.1 ≠ .out .complete
  error : ∀ e, m.1 ≠ .out (.error e)
  /-- unsubscription is passed on when it arrives -/
  unsubscribe : m.1 = .out .unsubscribe → past.getLast? = some (.arrived .unsubscribe, m.2)

/-- The destination is given what is `found` at the looks. -/
structure Follows (D : Sub S O E) (s : S) (found : List (Event Ω) → List O) (p : Port S (Event Ω) O E) : Prop where
  allowed : Throughout (Allowed D s found) p.trace
  /-- the timeline is all that the destination was given -/
  fed : p.dest = fed D s p.trace
  /-- nothing else is given, -/
  only : outs p.trace <+: due found (arrivals p.trace)
  /-- and all of it, as long as the destination is open -/
  all : D.isClosed p.dest = false → outs p.trace = due found (arrivals p.trace)

/-- How often it has looked. -/
def looks (τ : Line (Event Ω) O E) : Nat :=
  (arrivals τ).countP fun e => match e.1 with | .look => true | .world _ => false

/-! ### A resource -/

namespace Resource
variable {V : Type}

/-- The value of the resource after `es`: the one last written, unless it was removed since. -/
def current (es : List (Event (Op V))) : Option V :=
  es.foldl (fun v e => match e with | .world (.write v) => some v | .world .remove => none | _ => v) none

/-- Since the last run of the system that ticks, it was written. -/
def Written (es : List (Event (Op V))) : Prop :=
  ∃ a v b, es = a ++ .world (.write v) :: b ∧ .world .ran ∉ b

/-- It was there at the last look (there may be none). -/
def WasThere (es : List (Event (Op V))) : Prop :=
  ∃ a b, es = a ++ .look :: b ∧ .look ∉ b ∧ (current a).isSome

/-- A look after `es` gives the value: it is new since the last look, or not but was written. -/
def Shows (opt : Options) (es : List (Event (Op V))) : Prop :=
  (opt.added = true ∧ ¬ WasThere es) ∨ (opt.changed = true ∧ WasThere es ∧ Written es)

open Classical in
/-- What a look after `es` gives. -/
noncomputable def found (opt : Options) (reader : V → O) (es : List (Event (Op V))) : List O :=
  if Shows opt es then ((current es).map reader).toList else []

end Resource

/-! ### The keyboard -/

namespace Keyboard
variable {K : Type}

/-- `k` is down after `es`: it was pressed, and not released since. -/
def Down (k : K) (es : List (Event (Op K))) : Prop :=
  ∃ a b, es = a ++ .world (.press k) :: b ∧ .world (.release k) ∉ b ∧ .world .releaseAll ∉ b

/-- `k` was pressed since the last clear, when it was not down. -/
def Pressed (k : K) (es : List (Event (Op K))) : Prop :=
  ∃ a b, es = a ++ .world (.press k) :: b ∧ ¬ Down k a ∧ .world .clear ∉ b

/-- `k` was released since the last clear, when it was down. -/
def Released (k : K) (es : List (Event (Op K))) : Prop :=
  ∃ a x b, es = a ++ .world x :: b ∧ (x = .release k ∨ x = .releaseAll) ∧ Down k a ∧ .world .clear ∉ b

/-- Whether `k` is to be given by a look after `es`. -/
def Wanted (k : K) (es : List (Event (Op K))) : Emit → Prop
  | .justPressed => Pressed k es
  | .justReleased => Released k es
  | .whilePressed => Down k es

end Keyboard

/-! ### Messages -/

namespace Message
variable {M : Type}

/-- A message that was written before `es` is still to be given after `es`: it was not looked at, nor thrown away, by a clear
or by two updates. -/
def Kept (es : List (Event (Op M))) : Prop :=
  .look ∉ es ∧ .world .clear ∉ es ∧ es.countP (fun e => match e with | .world .update => true | _ => false) ≤ 1

open Classical in
/-- What a look after `es` gives: the messages that are still to be given. -/
noncomputable def found : List (Event (Op M)) → List M
  | [] => []
  | .world (.write m) :: es => if Kept es then m :: found es else found es
  | _ :: es => found es

/-- All messages written. -/
def written (es : List (Event (Op M))) : List M :=
  es.filterMap fun e => match e with | .world (.write m) => some m | _ => none

/-- Between two looks, there is at most one update, and no clear. -/
def Prompt (es : List (Event (Op M))) : Prop :=
  ∀ a b c, es = a ++ b ++ c → .look ∉ b →
    b.countP (fun e => match e with | .world .update => true | _ => false) ≤ 1 ∧ .world .clear ∉ b

end Message

end Rx.Poll
