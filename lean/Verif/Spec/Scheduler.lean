import Verif.Model.Scheduler

/-!
# What a user expects of the scheduler, read off the log

The log is the chronological list of everything observable: ticks, calls of the scheduler API,
runs of closures.
-/

namespace Rx.Sched.Spec

open Rx.Sched

/-- What the log says about one scheduled work. -/
structure Rec (B : Type) where
  /-- the cancellation id it was scheduled under -/
  cid : Nat
  /-- the scheduler's clock when it was scheduled -/
  now : Nat
  /-- the work as it was passed to the scheduler -/
  work : Work B
  /-- the ticks (arguments of `tick_to`) that began since, and the one it was scheduled in, if any -/
  ticks : List Nat
  /-- the runs of its closure (each with the tick it was given) -/
  runs : List Nat
  /-- whether `cancel` was called for its id since -/
  cancelled : Bool
  /-- whether it reported `Done` -/
  done : Bool

structure Track (B : Type) where
  inTick : Option Nat := none
  seen : Option (Rec B) := none

variable {B : Type}

/-- Reading one event, following the `u`-th scheduled work. -/
def Track.step (u : Nat) (T : Track B) : Ev B → Track B
  | .tickStart t =>
    { inTick := some t, seen := T.seen.map fun r => { r with ticks := r.ticks ++ [t] } }
  | .tickEnd => { T with inTick := none }
  | .scheduled v cid now work =>
    if v = u then
      { T with seen := some ⟨cid, now, work, T.inTick.toList, [], false, false⟩ }
    else T
  | .cancel c =>
    { T with seen := T.seen.map fun r => if r.cid = c then { r with cancelled := true } else r }
  | .run src t =>
    if src = .work u then { T with seen := T.seen.map fun r => { r with runs := r.runs ++ [t] } }
    else T
  | .done src =>
    if src = .work u then { T with seen := T.seen.map fun r => { r with done := true } }
    else T
  | _ => T

/-- What a log says about the `u`-th scheduled work (`none` before it is scheduled). -/
def track (u : Nat) (log : List (Ev B)) : Track B := log.foldl (Track.step u) {}

/-- When work with a delay, scheduled at clock `s`, must run, given the ticks since: once, on the
first tick that brings the clock to `s + d` or later. -/
def delayedRuns (s d : Nat) (ticks : List Nat) : List Nat :=
  (ticks.find? (fun t => decide (s + d ≤ max s t))).toList

/-- When immediate work must run: once, on the first tick. -/
def immediateRuns (ticks : List Nat) : List Nat := ticks.take 1

/-- When repeated work must run, given the ticks since it was scheduled at clock `s`: in a tick that
moves the clock from `c` to `c'`, as many times as there are multiples of the interval (counted from
`s`) in `(c, c']`, but at most `m` times. With `start`, one more in the first tick. -/
def repeatedRuns (s i m : Nat) : (start : Bool) → (clock : Nat) → (ticks : List Nat) → List Nat
  | _, _, [] => []
  | start, clock, t :: ts =>
    let clock' := max clock t
    let due := (clock' - s) / i - (clock - s) / i + if start then 1 else 0
    List.replicate (min m due) t ++ repeatedRuns s i m false clock' ts

end Rx.Sched.Spec

namespace Rx.Sched.Spec

open Rx.Sched

variable {B : Type}

/-- The works ticked in each tick, in the order they were ticked; the latest tick first. -/
def tickBatches (log : List (Ev B)) : List (List Nat) :=
  log.foldl (fun bs e =>
    match e with
    | .tickStart _ => [] :: bs
    | .ticked u _ =>
      match bs with
      | b :: bs => (b ++ [u]) :: bs
      | [] => []
    | _ => bs) []

/-- The time: the latest tick so far. -/
def clock (log : List (Ev B)) : Nat :=
  log.foldl (fun c e => match e with | .tickStart t => max c t | _ => c) 0

/-- Following the cancellation of the `u`-th scheduled work. -/
structure CTrack where
  /-- the cancellation id it was scheduled under -/
  cid : Option Nat := none
  /-- `cancel` was called for that id after the work was scheduled -/
  cancelled : Bool := false
  /-- a pass of the executor began since -/
  drained : Bool := false
  /-- runs of the work after that -/
  late : List Nat := []

def CTrack.step (u : Nat) (T : CTrack) : Ev B → CTrack
  | .scheduled v cid _ _ => if v = u then { cid := some cid } else T
  | .cancel c => if T.cid = some c then { T with cancelled := true } else T
  | .drained => if T.cancelled then { T with drained := true } else T
  | .run src t =>
    if src = .work u ∧ T.drained = true then { T with late := T.late ++ [t] } else T
  | _ => T

def ctrack (u : Nat) (log : List (Ev B)) : CTrack := log.foldl (CTrack.step u) {}

/-- Following work registered under the invoke id `i`. -/
structure ITrack where
  /-- how often work was registered under `i` -/
  added : Nat := 0
  /-- all of it was `TickedInvokedWork` -/
  plain : Bool := true
  /-- whether `i` was invoked before anything was registered -/
  early : Bool := false
  /-- number of calls of `invoke i` -/
  invokes : Nat := 0
  /-- number of runs -/
  runs : Nat := 0
  /-- whether a run answered `Done` -/
  done : Bool := false
  /-- whether `cancel_invoked i` was called -/
  cancelled : Bool := false
  /-- number of calls of `invoke i` since a pass of the executor last began -/
  fresh : Nat := 0
  /-- whether `cancel_invoked` (of any id) was ever called while there were such calls -/
  disturbed : Bool := false

def ITrack.step (i : Nat) (T : ITrack) : Ev B → ITrack
  | .addInvoked j wk =>
    if j = i then
      { T with
        added := T.added + 1
        plain := T.plain && (match wk with | .invoked _ => true | _ => false) }
    else T
  | .invoke j =>
    if j = i then
      { T with
        invokes := T.invokes + 1
        fresh := T.fresh + 1
        early := T.early || T.added == 0 }
    else T
  | .cancelInvoked j =>
    { T with
      cancelled := T.cancelled || j == i
      disturbed := T.disturbed || T.fresh != 0 }
  | .drained => { T with fresh := 0 }
  | .run src _ => if src = .invoked i then { T with runs := T.runs + 1 } else T
  | .done src => if src = .invoked i then { T with done := true } else T
  | _ => T

def itrack (i : Nat) (log : List (Ev B)) : ITrack := log.foldl (ITrack.step i) {}

/-- Following the cancellation of work registered under the invoke id `i`. -/
structure ICTrack where
  /-- `cancel_invoked i` was called and nothing was registered under `i` since -/
  cancelled : Bool := false
  /-- a pass of the executor began since -/
  drained : Bool := false
  /-- runs after that -/
  late : Nat := 0

def ICTrack.step (i : Nat) (T : ICTrack) : Ev B → ICTrack
  | .addInvoked j _ => if j = i then { T with cancelled := false, drained := false } else T
  | .cancelInvoked j => if j = i then { T with cancelled := true } else T
  | .drained => if T.cancelled then { T with drained := true } else T
  | .run src _ => if src = .invoked i ∧ T.drained = true then { T with late := T.late + 1 } else T
  | _ => T

def ictrack (i : Nat) (log : List (Ev B)) : ICTrack := log.foldl (ICTrack.step i) {}

/-- The situation in which every invocation of `i` must lead to a run: `i` was registered at most once, before
it was invoked, with plain invoked work; it was not cancelled, and nothing else was cancelled while
invocations of `i` were waiting. -/
structure Undisturbed (T : ITrack) : Prop where
  cancelled : T.cancelled = false
  disturbed : T.disturbed = false
  early : T.early = false
  plain : T.plain = true
  added : T.added ≤ 1

end Rx.Sched.Spec

namespace Rx.Sched

/-- The cancellation ids handed out. -/
def Ev.newCid? {B : Type} : Ev B → Option Nat
  | .newCancellationId c => some c
  | _ => none

/-- The invoke ids handed out. -/
def Ev.newIid? {B : Type} : Ev B → Option Nat
  | .newInvokeId c => some c
  | _ => none

/-- The works scheduled. -/
def Ev.scheduled? {B : Type} : Ev B → Option Nat
  | .scheduled u _ _ _ => some u
  | _ => none

/-- The number of runs of `src` recorded in a log. -/
def runCount {B : Type} (src : Src) (log : List (Ev B)) : Nat :=
  log.countP fun | .run s _ => s == src | _ => false

/-- Not repeating with interval zero. -/
def Work.positive {B : Type} : Work B → Prop
  | .repeating _ _ _ i _ _ => 0 < i
  | _ => True

def Call.positive {B : Type} : Call B → Prop
  | .scheduleWork wk _ => wk.positive
  | .scheduleInvokedWork wk _ => wk.positive
  | _ => True

def Action.positive {B : Type} : Action B → Prop
  | .activate _ _ wk => wk.positive
  | .addInvoked _ wk => wk.positive
  | _ => True

def Op.positive {B : Type} : Op B → Prop
  | .call c => c.positive
  | _ => True

/-- No closure schedules repeating work with interval zero. -/
def Env.positive (env : Env) : Prop :=
  ∀ b t c s, ∀ call ∈ (env.exec b t c s).2.2.1, call.positive

end Rx.Sched
