/-!
# The ticking scheduler and its executor

Models `crates/rx_core_scheduler_ticking/src/{tick,work_id,ticking_scheduler,ticking_executor}.rs`,
the five kinds of work in `work/ticked_work_*.rs`, and the scheduling front end in
`crates/rx_core_common/src/scheduling/{scheduler,scheduled_work,work_cancellation_id,work_invoke_id}.rs`.

Simplifications:

* A `Duration`/`Tick` is a `Nat` (any unit). Overflow of `Duration` addition (a panic in Rust) and
  wrap-around of the `usize` id counters are not modelled.
* `HashMap`/`HashSet` are functions from keys: the code never iterates over them.
  `IndexMap` is an association list in insertion order.
* Work is one of the five kinds the crate provides. User-written implementations of the
  `ScheduledWork` trait are not modelled (the kind `continuous` is an arbitrary function of the tick).
* The scheduler is used from one thread: by the user between ticks, and by bodies of work while
  they run (the executor does not hold the scheduler lock then, ticking_executor.rs:152-189 releases
  it before any work is ticked).
* `log` is a ghost: it records what happens, and no modelled function reads it. The `uid` in an
  `Activate` action is also a ghost: the index of that `schedule_work` call.
-/

namespace Rx.Sched

/-- `WorkResult`, scheduled_work.rs:17-23. -/
inductive WorkResult where
  | done
  | pending
deriving DecidableEq, Repr

/-- `AddAssign for WorkResult`, scheduled_work.rs:25-39. -/
def WorkResult.addAssign : WorkResult → WorkResult → WorkResult
  | .pending, rhs => rhs
  | .done, .pending => .done
  | .done, rhs => rhs

/-- `Tick::update`, tick.rs:19-23. -/
def updateTick (now tick : Nat) : Nat := if now < tick then tick else now

/-- The five kinds of scheduled work. `B` is the type of closures (an `FnMut` closure together with
its captured state; running it yields the next state of the closure). -/
inductive Work (B : Type) where
  /-- `TickedDelayedOnceWork`, ticked_work_once_delayed.rs:43-59. -/
  | delayed (work : Option B) (scheduledOn currentTick delay : Nat)
  /-- `TickedImmediateOnceWork`, ticked_work_once_immediate.rs:39-51. -/
  | immediate (work : Option B)
  /-- `TickedRepeatingWork`, ticked_work_repeating.rs:48-68. -/
  | repeating (startImmediately : Bool) (consumedUntil currentTick interval maxWorkPerTick : Nat)
      (work : B)
  /-- `TickedContinuousWork`, ticked_work_continuous.rs:39-53. -/
  | continuous (lastTick : Nat) (work : B)
  /-- `TickedInvokedWork`, ticked_work_invoked.rs:38-51. -/
  | invoked (work : B)

/-- `DelayedWorkFactory::new`, ticked_work_once_delayed.rs:28-40. -/
def Work.newDelayed {B : Type} (b : B) (delay : Nat) : Work B := .delayed (some b) 0 0 delay

/-- `ImmediateTaskFactory::new`, ticked_work_once_immediate.rs:28-36. -/
def Work.newImmediate {B : Type} (b : B) : Work B := .immediate (some b)

/-- `schedule_repeated_work` (scheduler.rs:93-113, a limit of 0 becomes 1) with
`RepeatedTaskFactory::new`, ticked_work_repeating.rs:28-46. -/
def Work.newRepeating {B : Type} (b : B) (interval : Nat) (startImmediately : Bool)
    (maxWorkPerTick : Nat) : Work B :=
  .repeating startImmediately 0 0 interval (if maxWorkPerTick = 0 then 1 else maxWorkPerTick) b

/-- `ContinuousTaskFactory::new`, ticked_work_continuous.rs:28-37. -/
def Work.newContinuous {B : Type} (b : B) : Work B := .continuous 0 b

/-- `InvokedTaskFactory::new`, ticked_work_invoked.rs:28-36. -/
def Work.newInvoked {B : Type} (b : B) : Work B := .invoked b

/-- `ScheduledWork::on_scheduled_hook` of each kind: ticked_work_once_delayed.rs:85-88,
ticked_work_repeating.rs:100-103; no-ops at ticked_work_once_immediate.rs:65,
ticked_work_continuous.rs:65, ticked_work_invoked.rs:63. -/
def Work.onScheduled {B : Type} (tick : Nat) : Work B → Work B
  | .delayed w s c d => .delayed w (updateTick s tick) (updateTick c tick) d
  | .immediate w => .immediate w
  | .repeating si cu c i m w => .repeating si (updateTick cu tick) (updateTick c tick) i m w
  | .continuous l w => .continuous l w
  | .invoked w => .invoked w

/-- `ScheduledWorkAction`, scheduler.rs:46-69. The `uid` of `activate` is a ghost. -/
inductive Action (B : Type) where
  | activate (cid uid : Nat) (work : Work B)
  | cancel (cid : Nat)
  | addInvoked (iid : Nat) (work : Work B)
  | invoke (iid : Nat)
  | cancelInvoked (iid : Nat)

/-- `TickingScheduler`, ticking_scheduler.rs:17-26, with the ghost counter `nextUid` of
`schedule_work` calls. -/
structure Scheduler (B : Type) where
  nextCancel : Nat := 0
  nextInvoke : Nat := 0
  currentTick : Nat := 0
  queue : List (Action B) := []
  nextUid : Nat := 0

/-- The calls of the `Scheduler` trait (scheduler.rs:13-44). -/
inductive Call (B : Type) where
  | scheduleWork (work : Work B) (cid : Nat)
  | scheduleInvokedWork (work : Work B) (iid : Nat)
  | cancel (cid : Nat)
  | invoke (iid : Nat)
  | cancelInvoked (iid : Nat)
  | generateCancellationId
  | generateInvokeId

/-- Who runs a closure: scheduled work (by the index of its `schedule_work` call) or invoked work
(by its invoke id). -/
inductive Src where
  | work (uid : Nat)
  | invoked (iid : Nat)
deriving DecidableEq, Repr

/-- What the ghost log records. -/
inductive Ev (B : Type) where
  /-- `tick_to(t)` starts. -/
  | tickStart (t : Nat)
  /-- `tick_to` returns. -/
  | tickEnd
  /-- a pass of `tick_to` begins: the action queue was processed. -/
  | drained
  /-- the `uid`-th call of `schedule_work`, with the scheduler's clock and the work as queued. -/
  | scheduled (uid cid now : Nat) (work : Work B)
  | cancel (cid : Nat)
  | addInvoked (iid : Nat) (work : Work B)
  | invoke (iid : Nat)
  | cancelInvoked (iid : Nat)
  | newCancellationId (cid : Nat)
  | newInvokeId (iid : Nat)
  /-- the executor calls `tick` of a work. -/
  | ticked (uid t : Nat)
  /-- a closure is run with tick `t`. -/
  | run (src : Src) (t : Nat)
  /-- a work answered `Done` (it is removed). -/
  | done (src : Src)

/-- The user's program: closures, the context they are run with, and what running them does.
A closure may use the scheduler any number of times (`List (Call B)`), and its choice of calls may
depend on everything, including the ids the scheduler will generate. -/
structure Env where
  Ctx : Type
  B : Type
  exec : B → Nat → Ctx → Scheduler B → B × Ctx × List (Call B) × WorkResult

/-- What closures can reach: context and scheduler; plus the ghost log. -/
structure World (env : Env) where
  ctx : env.Ctx
  sched : Scheduler env.B
  log : List (Ev env.B)

variable {env : Env}

/-- Ghost. -/
def World.emit (w : World env) (e : Ev env.B) : World env := { w with log := w.log ++ [e] }

/-- One call into the scheduler:
`schedule_work` ticking_scheduler.rs:58-68, `schedule_invoked_work` 70-81, `invoke` 83-86,
`cancel_invoked` 89-92, `cancel` 94-97, `generate_cancellation_id` 99-101,
`generate_invoke_id` 103-105. -/
def World.call (w : World env) : Call env.B → World env
  | .scheduleWork work cid =>
    { w with
      sched := { w.sched with
        queue := w.sched.queue ++
          [.activate cid w.sched.nextUid (work.onScheduled w.sched.currentTick)]
        nextUid := w.sched.nextUid + 1 }
      log := w.log ++ [.scheduled w.sched.nextUid cid w.sched.currentTick work] }
  | .scheduleInvokedWork work iid =>
    { w with
      sched := { w.sched with
        queue := w.sched.queue ++ [.addInvoked iid (work.onScheduled w.sched.currentTick)] }
      log := w.log ++ [.addInvoked iid work] }
  | .invoke iid =>
    { w with
      sched := { w.sched with queue := w.sched.queue ++ [.invoke iid] }
      log := w.log ++ [.invoke iid] }
  | .cancelInvoked iid =>
    { w with
      sched := { w.sched with queue := w.sched.queue ++ [.cancelInvoked iid] }
      log := w.log ++ [.cancelInvoked iid] }
  | .cancel cid =>
    { w with
      sched := { w.sched with queue := w.sched.queue ++ [.cancel cid] }
      log := w.log ++ [.cancel cid] }
  | .generateCancellationId =>
    { w with
      sched := { w.sched with nextCancel := w.sched.nextCancel + 1 }
      log := w.log ++ [.newCancellationId w.sched.nextCancel] }
  | .generateInvokeId =>
    { w with
      sched := { w.sched with nextInvoke := w.sched.nextInvoke + 1 }
      log := w.log ++ [.newInvokeId w.sched.nextInvoke] }

/-- Running a closure: `(self.work)(tick, context)`. -/
def runBody (src : Src) (b : env.B) (t : Nat) (w : World env) : env.B × World env × WorkResult :=
  let w := w.emit (.run src t)
  let r := env.exec b t w.ctx w.sched
  (r.1, r.2.2.1.foldl World.call { w with ctx := r.2.1 }, r.2.2.2)

/-- The `while` loop of `TickedRepeatingWork::tick`, ticked_work_repeating.rs:81-96. `fuel` bounds
the number of iterations; `none` when it runs out. -/
def repLoop (src : Src) (t : Nat) (cur interval maxW : Nat) :
    (fuel : Nat) → (start : Bool) → (consumed : Nat) → (executions : Nat) → (res : WorkResult) →
      env.B → World env → Option (Nat × env.B × World env × WorkResult)
  | 0, _, _, _, _, _, _ => none
  | fuel + 1, start, consumed, executions, res, b, w =>
    if (consumed + interval ≤ cur ∧ res ≠ .done) ∨ start = true then
      let r := if executions < maxW then
          let x := runBody src b t w
          (x.1, x.2.1, res.addAssign x.2.2)
        else (b, w, res)
      let consumed := if start then consumed else consumed + interval
      repLoop src t cur interval maxW fuel false consumed (executions + 1) r.2.2 r.1 r.2.1
    else some (consumed, b, w, res)

/-- The fuel that decides whether the loop ends (`Verif.Lemmas.Scheduler` proves that if it does
not end within this many iterations then it never does). -/
def repFuel (cur maxW : Nat) : Nat := cur + maxW + 3

/-- `ScheduledWork::tick` of each kind; `none` means that the call never returns.
ticked_work_once_delayed.rs:73-83, ticked_work_once_immediate.rs:58-63,
ticked_work_repeating.rs:75-98, ticked_work_continuous.rs:60-63, ticked_work_invoked.rs:59-61. -/
def Work.tick (src : Src) (t : Nat) (w : World env) :
    Work env.B → Option (Work env.B × World env × WorkResult)
  | .delayed work s c d =>
    let c := updateTick c t
    if s + d ≤ c then
      match work with
      | some b => some (.delayed none s c d, (runBody src b t w).2.1, .done)
      | none => some (.delayed none s c d, w, .done)
    else some (.delayed work s c d, w, .pending)
  | .immediate work =>
    match work with
    | some b => some (.immediate none, (runBody src b t w).2.1, .done)
    | none => some (.immediate none, w, .done)
  | .repeating si cu c i m b =>
    let c := updateTick c t
    match repLoop src t c i m (repFuel c m) si cu 0 .pending b w with
    | some (cu, b, w, res) => some (.repeating false cu c i m b, w, res)
    | none => none
  | .continuous l b =>
    let l := updateTick l t
    let x := runBody src b t w
    some (.continuous l x.1, x.2.1, x.2.2)
  | .invoked b =>
    let x := runBody src b t w
    some (.invoked x.1, x.2.1, x.2.2)

/-- `TickingSchedulerExecutor`, ticking_executor.rs:32-53. -/
structure Exec (env : Env) where
  world : World env
  currentTick : Nat := 0
  nextWorkId : Nat := 0
  active : List (Nat × Work env.B) := []
  cancellationMap : Nat → List Nat := fun _ => []
  invokable : Nat → Option (Work env.B) := fun _ => none
  invoked : List Nat := []
  alreadyTicked : Nat → Bool := fun _ => false
  maxDepth : Nat := 100

/-- `TickingSchedulerExecutor::new` and `with_max_single_tick_recursion_depth`,
ticking_executor.rs:60-97. -/
def Exec.new (ctx : env.Ctx) (maxDepth : Nat := 100) : Exec env :=
  { world := { ctx := ctx, sched := {}, log := [] }, maxDepth := maxDepth }

/-- `now`, ticking_executor.rs:100-102. -/
def Exec.now (e : Exec env) : Nat := e.currentTick

/-- `IndexMap::insert`: replaces the value of an existing key in place, else appends. -/
def imInsert {α : Type} (m : List (Nat × α)) (k : Nat) (v : α) : List (Nat × α) :=
  if m.any (fun p => p.1 == k) then m.map (fun p => if p.1 == k then (k, v) else p)
  else m ++ [(k, v)]

/-- `IndexMap::shift_remove`: removes the key, keeps the order of the others. -/
def imRemove {α : Type} (m : List (Nat × α)) (k : Nat) : List (Nat × α) :=
  m.filter (fun p => !(p.1 == k))

/-- Update of a function model of a `HashMap`. -/
def fset {α : Type} (f : Nat → α) (k : Nat) (v : α) : Nat → α := fun j => if j = k then v else f j

/-- The body of the `for` loop of `drain_scheduler_queue`, ticking_executor.rs:158-185. -/
def Exec.processAction (e : Exec env) : Action env.B → Exec env
  | .activate cid _ work =>
    { e with
      active := imInsert e.active e.nextWorkId work
      cancellationMap := fset e.cancellationMap cid (e.cancellationMap cid ++ [e.nextWorkId])
      nextWorkId := e.nextWorkId + 1 }
  | .addInvoked iid work => { e with invokable := fset e.invokable iid (some work) }
  | .invoke iid => { e with invoked := e.invoked ++ [iid] }
  | .cancelInvoked iid =>
    { e with
      invokable := fset e.invokable iid none
      invoked := e.invoked.filter (fun i => i == iid) }
  | .cancel cid =>
    { e with
      active := (e.cancellationMap cid).foldl imRemove e.active
      cancellationMap := fset e.cancellationMap cid [] }

/-- `drain_scheduler_queue`, ticking_executor.rs:152-189. -/
def Exec.drain (e : Exec env) (t : Nat) : Exec env × Bool :=
  let hadActions := !e.world.sched.queue.isEmpty
  let actions := e.world.sched.queue
  let e := { e with world := { e.world with
    sched := { e.world.sched with
      currentTick := updateTick e.world.sched.currentTick t, queue := [] }
    log := e.world.log ++ [.drained] } }
  (actions.foldl Exec.processAction e, hadActions)

/-- The first loop of `tick_scheduled`, ticking_executor.rs:198-210: every work with the result of
its tick, or `none` when the filter skipped it. -/
def tickPass (already : Nat → Bool) (t : Nat) :
    List (Nat × Work env.B) → World env →
      Option (List (Nat × Work env.B × Option WorkResult) × World env)
  | [], w => some ([], w)
  | (id, work) :: rest, w =>
    if already id then
      match tickPass already t rest w with
      | some (out, w) => some ((id, work, none) :: out, w)
      | none => none
    else
      match work.tick (.work id) t (w.emit (.ticked id t)) with
      | none => none
      | some (work, w, res) =>
        let w := if res = .done then w.emit (.done (.work id)) else w
        match tickPass already t rest w with
        | some (out, w) => some ((id, work, some res) :: out, w)
        | none => none

/-- `tick_scheduled`, ticking_executor.rs:191-223. -/
def Exec.tickScheduled (e : Exec env) (t : Nat) : Option (Exec env × Bool) :=
  match tickPass e.alreadyTicked t e.active e.world with
  | none => none
  | some (out, w) =>
    let ticked := (out.filter (fun p => p.2.2.isSome)).map (·.1)
    let finished := (out.filter (fun p => p.2.2 == some .done)).map (·.1)
    some ({ e with
      world := w
      active := finished.foldl imRemove (out.map (fun p => (p.1, p.2.1)))
      alreadyTicked := fun id => e.alreadyTicked id || ticked.contains id }, ticked.isEmpty)

/-- The loop of `execute_invoked`, ticking_executor.rs:142-149. -/
def execInvoked (t : Nat) : List Nat → (Nat → Option (Work env.B)) → World env →
    Option ((Nat → Option (Work env.B)) × World env)
  | [], inv, w => some (inv, w)
  | i :: rest, inv, w =>
    match inv i with
    | none => execInvoked t rest inv w
    | some work =>
      match work.tick (.invoked i) t w with
      | none => none
      | some (work, w, res) =>
        if res = .done then execInvoked t rest (fset inv i none) (w.emit (.done (.invoked i)))
        else execInvoked t rest (fset inv i (some work)) w

/-- `execute_invoked`, ticking_executor.rs:141-150. -/
def Exec.executeInvoked (e : Exec env) (t : Nat) : Option (Exec env) :=
  match execInvoked t e.invoked e.invokable e.world with
  | none => none
  | some (inv, w) => some { e with invokable := inv, invoked := [], world := w }

/-- One iteration of the loop of `tick_to`, ticking_executor.rs:120-126; the flag is the `break`
condition. -/
def Exec.pass (e : Exec env) (t : Nat) : Option (Exec env × Bool) :=
  let d := e.drain t
  match d.1.tickScheduled t with
  | none => none
  | some (e, noWorkTicked) =>
    match e.executeInvoked t with
    | none => none
    | some e => some (e, noWorkTicked && !d.2)

/-- How a call of `tick_to` ends. -/
inductive Outcome (α : Type) where
  | ok (a : α)
  /-- the panic of ticking_executor.rs:130-132, with the state it leaves behind -/
  | panic (a : α)
  /-- the call never returns -/
  | diverges

/-- The loop of `tick_to`, ticking_executor.rs:119-133, with `n` iterations left after this one. -/
def Exec.loop (t : Nat) : (n : Nat) → Exec env → Outcome (Exec env)
  | n, e =>
    match e.pass t with
    | none => .diverges
    | some (e, quiet) =>
      if quiet then .ok e
      else match n with
        | 0 => .panic e
        | n + 1 => Exec.loop t n e

/-- `tick_to`, ticking_executor.rs:113-134. -/
def Exec.tickTo (e : Exec env) (t : Nat) : Outcome (Exec env) :=
  let e := { e with
    currentTick := updateTick e.currentTick t
    alreadyTicked := fun _ => false
    world := e.world.emit (.tickStart t) }
  match Exec.loop t e.maxDepth e with
  | .ok e => .ok { e with world := e.world.emit .tickEnd }
  | r => r

/-- `tick`, ticking_executor.rs:136-139. -/
def Exec.tick (e : Exec env) (delta : Nat) : Outcome (Exec env) := e.tickTo (e.currentTick + delta)

/-- What the owner of an executor does: uses the scheduler handle between ticks, or ticks. -/
inductive Op (B : Type) where
  | call (c : Call B)
  | tickTo (t : Nat)
  | tick (delta : Nat)

/-- One such operation. -/
def Exec.step (e : Exec env) : Op env.B → Outcome (Exec env)
  | .call c => .ok { e with world := e.world.call c }
  | .tickTo t => e.tickTo t
  | .tick d => e.tick d

/-- A history of operations; it stops at a panic or a tick that never returns. -/
def Exec.run (e : Exec env) : List (Op env.B) → Outcome (Exec env)
  | [] => .ok e
  | op :: ops =>
    match e.step op with
    | .ok e => e.run ops
    | r => r

end Rx.Sched
