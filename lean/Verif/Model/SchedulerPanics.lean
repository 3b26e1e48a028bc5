import Verif.Model.Scheduler

/-!
# Scheduled work that panics

The ticking executor (ticking_executor.rs) with closures that may panic, and an owner who catches the
panic and goes on using executor and scheduler. The functions here are those of `Verif.Model.Scheduler`
that run closures, again, with what they leave behind when they are left by a panic; the others are reused.

Simplifications, besides those of `Verif.Model.Scheduler`: a closure that panics has done what `exec` says it
does, also to what it captured, before it panics. Closures do not hold the lock of the scheduler when they panic; it
would be cleared of poison (scheduler_handle.rs:38-44).
-/

namespace Rx.Sched

variable {env : Env}

/-- Which runs of which closures panic. -/
abbrev Panics (env : Env) := env.B → Nat → env.Ctx → Scheduler env.B → Bool

/-- How running a closure ends. -/
inductive Answer where
  | said (r : WorkResult)
  | panicked
deriving DecidableEq, Repr

/-- Running a closure. -/
def runBodyP (P : Panics env) (src : Src) (b : env.B) (t : Nat) (w : World env) : env.B × World env × Answer :=
  let x := runBody src b t w
  (x.1, x.2.1, if P b t w.ctx w.sched then .panicked else .said x.2.2)

/-- The loop of `TickedRepeatingWork::tick`, ticked_work_repeating.rs:81-96; neither `start_immediately` nor
`consumed_until` were changed yet when the closure panics. -/
def repLoopP (P : Panics env) (src : Src) (t : Nat) (cur interval maxW : Nat) :
    (fuel : Nat) → (start : Bool) → (consumed : Nat) → (executions : Nat) → (res : WorkResult) →
      env.B → World env → Option (Bool × Nat × env.B × World env × Answer)
  | 0, _, _, _, _, _, _ => none
  | fuel + 1, start, consumed, executions, res, b, w =>
    if (consumed + interval ≤ cur ∧ res ≠ .done) ∨ start = true then
      let consumed' := if start then consumed else consumed + interval
      if executions < maxW then
        let x := runBodyP P src b t w
        match x.2.2 with
        | .panicked => some (start, consumed, x.1, x.2.1, .panicked)
        | .said r => repLoopP P src t cur interval maxW fuel false consumed' (executions + 1) (res.addAssign r) x.1 x.2.1
      else repLoopP P src t cur interval maxW fuel false consumed' (executions + 1) res b w
    else some (start, consumed, b, w, .said res)

/-- Once work answers `Done` whatever its closure answers, unless that panics. -/
def Answer.once : Answer → Answer
  | .said _ => .said .done
  | .panicked => .panicked

/-- `ScheduledWork::tick` of each kind (see `Work.tick`): once work has been taken out before it is run
(ticked_work_once_delayed.rs:76, ticked_work_once_immediate.rs:59). -/
def Work.tickP (P : Panics env) (src : Src) (t : Nat) (w : World env) :
    Work env.B → Option (Work env.B × World env × Answer)
  | .delayed work s c d =>
    let c := updateTick c t
    if s + d ≤ c then
      match work with
      | some b => let x := runBodyP P src b t w; some (.delayed none s c d, x.2.1, x.2.2.once)
      | none => some (.delayed none s c d, w, .said .done)
    else some (.delayed work s c d, w, .said .pending)
  | .immediate work =>
    match work with
    | some b => let x := runBodyP P src b t w; some (.immediate none, x.2.1, x.2.2.once)
    | none => some (.immediate none, w, .said .done)
  | .repeating si cu c i m b =>
    let c := updateTick c t
    match repLoopP P src t c i m (repFuel c m) si cu 0 .pending b w with
    | some (si, cu, b, w, a) => some (.repeating si cu c i m b, w, a)
    | none => none
  | .continuous l b =>
    let l := updateTick l t
    let x := runBodyP P src b t w
    some (.continuous l x.1, x.2.1, x.2.2)
  | .invoked b =>
    let x := runBodyP P src b t w
    some (.invoked x.1, x.2.1, x.2.2)

/-- The first loop of `tick_scheduled`, ticking_executor.rs:198-210, up to the first panic; the flag tells that there was one.
The work behind the one that panics is as it was. -/
def tickPassP (P : Panics env) (already : Nat → Bool) (t : Nat) :
    List (Nat × Work env.B) → World env →
      Option (List (Nat × Work env.B × Option WorkResult) × World env × Bool)
  | [], w => some ([], w, false)
  | (id, work) :: rest, w =>
    if already id then
      match tickPassP P already t rest w with
      | some (out, w, p) => some ((id, work, none) :: out, w, p)
      | none => none
    else
      match work.tickP P (.work id) t (w.emit (.ticked id t)) with
      | none => none
      | some (work, w, .panicked) => some ((id, work, none) :: rest.map (fun p => (p.1, p.2, none)), w, true)
      | some (work, w, .said res) =>
        let w := if res = .done then w.emit (.done (.work id)) else w
        match tickPassP P already t rest w with
        | some (out, w, p) => some ((id, work, some res) :: out, w, p)
        | none => none

/-- `tick_scheduled`, ticking_executor.rs:191-223; nothing for a panic, with which `work_ticked` and
`work_finished_this_tick` are lost: nothing is removed and nothing marked as ticked. -/
def Exec.tickScheduledP (P : Panics env) (e : Exec env) (t : Nat) : Option (Exec env × Option Bool) :=
  match tickPassP P e.alreadyTicked t e.active e.world with
  | none => none
  | some (out, w, true) => some ({ e with world := w, active := out.map (fun p => (p.1, p.2.1)) }, none)
  | some (out, w, false) =>
    let ticked := (out.filter (fun p => p.2.2.isSome)).map (·.1)
    let finished := (out.filter (fun p => p.2.2 == some .done)).map (·.1)
    some ({ e with
      world := w
      active := finished.foldl imRemove (out.map (fun p => (p.1, p.2.1)))
      alreadyTicked := fun id => e.alreadyTicked id || ticked.contains id }, some ticked.isEmpty)

/-- The loop of `execute_invoked`, ticking_executor.rs:142-149, up to the first panic. -/
def execInvokedP (P : Panics env) (t : Nat) : List Nat → (Nat → Option (Work env.B)) → World env →
    Option ((Nat → Option (Work env.B)) × World env × Bool)
  | [], inv, w => some (inv, w, false)
  | i :: rest, inv, w =>
    match inv i with
    | none => execInvokedP P t rest inv w
    | some work =>
      match work.tickP P (.invoked i) t w with
      | none => none
      | some (work, w, .panicked) => some (fset inv i (some work), w, true)
      | some (work, w, .said res) =>
        if res = .done then execInvokedP P t rest (fset inv i none) (w.emit (.done (.invoked i)))
        else execInvokedP P t rest (fset inv i (some work)) w

/-- `execute_invoked`, ticking_executor.rs:141-150; the flag tells a panic. `drain(..)` empties `invoked` also when it
is dropped by a panic. -/
def Exec.executeInvokedP (P : Panics env) (e : Exec env) (t : Nat) : Option (Exec env × Bool) :=
  match execInvokedP P t e.invoked e.invokable e.world with
  | none => none
  | some (inv, w, p) => some ({ e with invokable := inv, invoked := [], world := w }, p)

/-- One iteration of the loop of `tick_to`, ticking_executor.rs:120-126: the `break` condition, or nothing for a panic. -/
def Exec.passP (P : Panics env) (e : Exec env) (t : Nat) : Option (Exec env × Option Bool) :=
  let d := e.drain t
  match d.1.tickScheduledP P t with
  | none => none
  | some (e, none) => some (e, none)
  | some (e, some noWorkTicked) =>
    match e.executeInvokedP P t with
    | none => none
    | some (e, true) => some (e, none)
    | some (e, false) => some (e, some (noWorkTicked && !d.2))

/-- The loop of `tick_to`, ticking_executor.rs:119-133. -/
def Exec.loopP (P : Panics env) (t : Nat) : (n : Nat) → Exec env → Outcome (Exec env)
  | n, e =>
    match e.passP P t with
    | none => .diverges
    | some (e, none) => .panic e
    | some (e, some quiet) =>
      if quiet then .ok e
      else match n with
        | 0 => .panic e
        | n + 1 => Exec.loopP P t n e

/-- What `tick_to` does first, ticking_executor.rs:114-115. -/
def Exec.beginTick (e : Exec env) (t : Nat) : Exec env :=
  { e with
    currentTick := updateTick e.currentTick t
    alreadyTicked := fun _ => false
    world := e.world.emit (.tickStart t) }

/-- `tick_to`, ticking_executor.rs:113-134. -/
def Exec.tickToP (P : Panics env) (e : Exec env) (t : Nat) : Outcome (Exec env) :=
  match Exec.loopP P t e.maxDepth (e.beginTick t) with
  | .ok e => .ok { e with world := e.world.emit .tickEnd }
  | r => r

/-- One operation of the owner. -/
def Exec.stepP (P : Panics env) (e : Exec env) : Op env.B → Outcome (Exec env)
  | .call c => .ok { e with world := e.world.call c }
  | .tickTo t => e.tickToP P t
  | .tick d => e.tickToP P (e.currentTick + d)

/-- A history of operations, going on after panics; nothing if a tick never returns. -/
def Exec.runP (P : Panics env) (e : Exec env) : List (Op env.B) → Option (Exec env)
  | [] => some e
  | op :: ops =>
    match e.stepP P op with
    | .ok e => e.runP P ops
    | .panic e => e.runP P ops
    | .diverges => none

end Rx.Sched
