import Verif.Model.Scheduler

/-!
# Operators that use a scheduler

An operator like `delay` schedules its work under one cancellation id of its own, on a scheduler that it shares
with the rest of the program. This file puts such an operator (`Client`) on the executor of
`Verif.Model.Scheduler`, together with everything else (`Rest`): other work on the same scheduler may do
anything, including feeding the operator from inside a tick, except use the operator's cancellation id (an id is
obtained from `generate_cancellation_id`, work_cancellation_id.rs:5-16, and the operators keep theirs private).

`Solo` is a smaller machine: only the operator's own work and queue, with everything else reduced to the moments
at which the operator is fed. `Verif.Lemmas.SchedulerClient` proves that every history on the executor is a
history of the small machine (`solo_of_run`), so that operators can be verified on the small one.

Simplification: the destination of an operator may use the scheduler (`Rest.react`), but does not feed the
operator while it is being notified.
-/

namespace Rx.Sched

/-- The same work with other closures. -/
def Work.map {A B : Type} (f : A → B) : Work A → Work B
  | .delayed w s c d => .delayed (w.map f) s c d
  | .immediate w => .immediate (w.map f)
  | .repeating si cu c i m w => .repeating si cu c i m (f w)
  | .continuous l w => .continuous l (f w)
  | .invoked w => .invoked (f w)

/-- What an operator asks of the scheduler, under its own cancellation id. -/
inductive Req (B : Type) where
  | schedule (work : Work B)
  | cancel

/-- An operator that uses a scheduler: its state (with its destination), its closures, what running a closure
does, and what being called does. `now` is the clock of the scheduler; it is for ghost records only. -/
structure Client where
  St : Type
  B : Type
  In : Type
  exec : B → (tick now : Nat) → St → B × St × List (Req B) × WorkResult
  input : In → (now : Nat) → St → St × List (Req B)

/-- What the rest of the program does: it calls the operator, or the scheduler. -/
inductive Act (c : Client) (B : Type) where
  | input (i : c.In)
  | call (k : Call B)

/-- The rest of the program: its own closures, and what it does when the operator's state has changed (the
destination of the operator was notified, and may have used the scheduler). -/
structure Rest (c : Client) where
  Ctx : Type
  B : Type
  exec : B → Nat → c.St → Ctx → Scheduler (c.B ⊕ B) → B × Ctx × List (Act c B) × WorkResult
  react : (before after : c.St) → Ctx → Scheduler (c.B ⊕ B) → Ctx × List (Call B)

/-- The cancellation id of the operator: the first one generated. -/
def ownCid : Nat := 0

/-- A request of the operator is a call of the scheduler. -/
def Req.toCall {A B : Type} : Req A → Call (A ⊕ B)
  | .schedule w => .scheduleWork (w.map .inl) ownCid
  | .cancel => .cancel ownCid

/-- A call of the rest of the program. It cannot use the operator's cancellation id. -/
def Call.foreign {A B : Type} : Call B → Option (Call (A ⊕ B))
  | .scheduleWork w cid => if cid = ownCid then none else some (.scheduleWork (w.map .inr) cid)
  | .scheduleInvokedWork w iid => some (.scheduleInvokedWork (w.map .inr) iid)
  | .cancel cid => if cid = ownCid then none else some (.cancel cid)
  | .invoke iid => some (.invoke iid)
  | .cancelInvoked iid => some (.cancelInvoked iid)
  | .generateCancellationId => some .generateCancellationId
  | .generateInvokeId => some .generateInvokeId

namespace Rest
variable {c : Client}

/-- A sequence of acts: the context after it, and the calls of the scheduler made. -/
def perform (R : Rest c) (sc : Scheduler (c.B ⊕ R.B)) :
    List (Act c R.B) → (c.St × R.Ctx) → (c.St × R.Ctx) × List (Call (c.B ⊕ R.B))
  | [], x => (x, [])
  | .input i :: as, x =>
    let r := c.input i sc.currentTick x.1
    let k := R.react x.1 r.1 x.2 sc
    let y := R.perform sc as (r.1, k.1)
    (y.1, r.2.map Req.toCall ++ k.2.filterMap Call.foreign ++ y.2)
  | .call k :: as, x =>
    let y := R.perform sc as x
    (y.1, k.foreign.toList ++ y.2)

/-- The operator and the rest of the program as one program for the executor. -/
@[reducible] def env (R : Rest c) : Env where
  Ctx := c.St × R.Ctx
  B := c.B ⊕ R.B
  exec b t x sc :=
    match b with
    | .inl b =>
      let r := c.exec b t sc.currentTick x.1
      let k := R.react x.1 r.2.1 x.2 sc
      (.inl r.1, (r.2.1, k.1), r.2.2.1.map Req.toCall ++ k.2.filterMap Call.foreign, r.2.2.2)
    | .inr b =>
      let r := R.exec b t x.1 x.2 sc
      let y := R.perform sc r.2.2.1 (x.1, r.2.1)
      (.inr r.1, y.1, y.2, r.2.2.2)

/-- What happens between ticks: acts of the rest of the program; and ticks. -/
inductive Op (R : Rest c) where
  | act (a : Act c R.B)
  | tickTo (t : Nat)
  | tick (delta : Nat)

/-- Acts between ticks. -/
def act (R : Rest c) (a : Act c R.B) (w : World R.env) : World R.env :=
  let r := R.perform w.sched [a] w.ctx
  r.2.foldl World.call { w with ctx := r.1 }

def step (R : Rest c) (e : Exec R.env) : R.Op → Outcome (Exec R.env)
  | .act a => .ok { e with world := R.act a e.world }
  | .tickTo t => e.tickTo t
  | .tick d => e.tick d

/-- A history. It stops at a panic or a tick that never returns. -/
def run (R : Rest c) (e : Exec R.env) : List R.Op → Outcome (Exec R.env)
  | [] => .ok e
  | op :: ops =>
    match R.step e op with
    | .ok e => R.run e ops
    | r => r

/-- Ticks do not go back in time. -/
def Forward (R : Rest c) (e : Exec R.env) : List R.Op → Prop
  | [] => True
  | op :: ops =>
    (match op with
      | .act _ => True
      | .tickTo t => e.world.sched.currentTick ≤ t
      | .tick d => e.world.sched.currentTick ≤ e.currentTick + d) ∧
    ∀ e', R.step e op = .ok e' → R.Forward e' ops

/-- In every tick, the state of the operator changes as `good` says. -/
def During (R : Rest c) (good : c.St → c.St → Prop) (e : Exec R.env) : List R.Op → Prop
  | [] => True
  | op :: ops => ∀ e', R.step e op = .ok e' →
    (match op with | .act _ => True | _ => good e.world.ctx.1 e'.world.ctx.1) ∧ R.During good e' ops

/-- The start: a new executor, and the operator has got its cancellation id. -/
def start (R : Rest c) (st : c.St) (x : R.Ctx) (maxDepth : Nat := 100) : Exec R.env :=
  let e : Exec R.env := Exec.new (st, x) maxDepth
  { e with world := e.world.call .generateCancellationId }

end Rest

/-! ## The small machine -/

/-- The operator's own part of the executor: its state, the clock, its requests in the queue, its active work
(with a flag: already ticked in this tick), and the tick in progress. -/
structure Solo (c : Client) where
  st : c.St
  clock : Nat := 0
  queue : List (Req c.B) := []
  active : List (Work c.B × Bool) := []
  tick : Option Nat := none

namespace Solo
variable {c : Client}

/-- `schedule_work` and `cancel`, ticking_scheduler.rs:58-68, 94-97. -/
def request (s : Solo c) : Req c.B → Solo c
  | .schedule w => { s with queue := s.queue ++ [.schedule (w.onScheduled s.clock)] }
  | .cancel => { s with queue := s.queue ++ [.cancel] }

/-- The operator is called. -/
def input (i : c.In) (s : Solo c) : Solo c :=
  let r := c.input i s.clock s.st
  r.2.foldl request { s with st := r.1 }

/-- A closure is run with tick `t`. -/
def runBody (t : Nat) (b : c.B) (s : Solo c) : c.B × Solo c × WorkResult :=
  let r := c.exec b t s.clock s.st
  (r.1, r.2.2.1.foldl request { s with st := r.2.1 }, r.2.2.2)

/-- As `Rx.Sched.repLoop`. -/
def repLoop (t : Nat) (cur interval maxW : Nat) :
    (fuel : Nat) → (start : Bool) → (consumed : Nat) → (executions : Nat) → (res : WorkResult) →
      c.B → Solo c → Option (Nat × c.B × Solo c × WorkResult)
  | 0, _, _, _, _, _, _ => none
  | fuel + 1, start, consumed, executions, res, b, s =>
    if (consumed + interval ≤ cur ∧ res ≠ .done) ∨ start = true then
      let r := if executions < maxW then
          let x := runBody t b s
          (x.1, x.2.1, res.addAssign x.2.2)
        else (b, s, res)
      let consumed := if start then consumed else consumed + interval
      repLoop t cur interval maxW fuel false consumed (executions + 1) r.2.2 r.1 r.2.1
    else some (consumed, b, s, res)

/-- As `Rx.Sched.Work.tick`. -/
def tickWork (t : Nat) (s : Solo c) : Work c.B → Option (Work c.B × Solo c × WorkResult)
  | .delayed work sch cu d =>
    let cu := updateTick cu t
    if sch + d ≤ cu then
      match work with
      | some b => some (.delayed none sch cu d, (runBody t b s).2.1, .done)
      | none => some (.delayed none sch cu d, s, .done)
    else some (.delayed work sch cu d, s, .pending)
  | .immediate work =>
    match work with
    | some b => some (.immediate none, (runBody t b s).2.1, .done)
    | none => some (.immediate none, s, .done)
  | .repeating si cu cur i m b =>
    let cur := updateTick cur t
    match repLoop t cur i m (repFuel cur m) si cu 0 .pending b s with
    | some (cu, b, s, res) => some (.repeating false cu cur i m b, s, res)
    | none => none
  | .continuous l b =>
    let l := updateTick l t
    let x := runBody t b s
    some (.continuous l x.1, x.2.1, x.2.2)
  | .invoked b =>
    let x := runBody t b s
    some (.invoked x.1, x.2.1, x.2.2)

/-- One action of the queue. -/
def process (active : List (Work c.B × Bool)) : Req c.B → List (Work c.B × Bool)
  | .schedule w => active ++ [(w, false)]
  | .cancel => []

/-- The queue is processed, and the clock is set. -/
def drain (t : Nat) (s : Solo c) : Solo c :=
  { s with clock := updateTick s.clock t, queue := [], active := s.queue.foldl process s.active }

/-- Every active work was ticked. -/
def allTicked (s : Solo c) : Prop := ∀ p ∈ s.active, p.2 = true

/-- What can happen. -/
inductive Step : Solo c → Solo c → Prop where
  /-- The operator is called, at any time. -/
  | input (s : Solo c) (i : c.In) : Step s (s.input i)
  /-- `tick_to(t)` starts with its first pass. -/
  | start (s : Solo c) (t : Nat) : s.tick = none →
      Step s (drain t { s with tick := some t, active := s.active.map fun p => (p.1, false) })
  /-- The next active work is ticked. Work that is done is removed. -/
  | work (s s' : Solo c) (t : Nat) (pre post : List (Work c.B × Bool)) (w w' : Work c.B) (res : WorkResult) :
      s.tick = some t → s.active = pre ++ (w, false) :: post → (∀ p ∈ pre, p.2 = true) →
      tickWork t s w = some (w', s', res) →
      Step s { s' with active := pre ++ (if res = .done then [] else [(w', true)]) ++ post }
  /-- The next pass of the same tick. -/
  | pass (s : Solo c) (t : Nat) : s.tick = some t → s.allTicked → Step s (s.drain t)
  /-- `tick_to` returns. -/
  | finish (s : Solo c) (t : Nat) : s.tick = some t → s.allTicked → s.queue = [] → Step s { s with tick := none }

/-- Any number of steps. -/
inductive Steps : Solo c → Solo c → Prop where
  | refl (s : Solo c) : Steps s s
  | tail {a b d : Solo c} : Steps a b → Step b d → Steps a d

/-- Some history leads to this state. -/
def Reachable (st : c.St) (s : Solo c) : Prop := Steps { st := st } s

end Solo
end Rx.Sched
