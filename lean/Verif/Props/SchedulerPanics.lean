import Verif.Lemmas.SchedulerPanicsDone
import Verif.Lemmas.SchedulerPanicsInvoke

/-!
# C86: scheduled work that panics
-/

namespace Rx.Sched

open Spec

variable {env : Env} {P : Panics env}

namespace PanicDemo

/-- Closures by number: 0 answers `Pending`, 1 `Done`, 2 always panics, 3 panics at tick 10 and answers `Pending` else. -/
abbrev demo : Env where
  Ctx := Unit
  B := Nat
  exec := fun b _ _ _ => (b, (), [], if b = 1 then .done else .pending)

def panics : Panics demo := fun b t _ _ => b == 2 || (b == 3 && t == 10)

def run (ops : List (Op Nat)) : Option (Exec demo) := (Exec.new (env := demo) () 100).runP panics ops

/-- The runs of the `u`-th scheduled work in a history. -/
def runs (u : Nat) (ops : List (Op Nat)) : Option (List Nat) := (run ops).map (fun e => runsOf u e.world.log)

/-- The runs of the work registered under `i`. -/
def invokedRuns (i : Nat) (ops : List (Op Nat)) : Option Nat :=
  (run ops).map (fun e => runCount (.invoked i) e.world.log)

/-- Whether the last of these operations panicked. -/
def panicked (ops : List (Op Nat)) (op : Op Nat) : Option Bool :=
  (run ops).map (fun e => match e.stepP panics op with | .panic _ => true | _ => false)

/-- What the log says about work `u`: the runs, whether it was cancelled, whether it is done. -/
def seen (u : Nat) (ops : List (Op Nat)) : Option (List Nat × Bool × Bool) :=
  (run ops).bind fun e => (track u e.world.log).seen.map fun r => (r.runs, r.cancelled, r.done)

/-- Work that works, then work that panics at 10, then work with a delay. -/
def mixed : List (Op Nat) :=
  [.call (.scheduleWork (.newContinuous 0) 7), .call (.scheduleWork (.newContinuous 3) 8),
    .call (.scheduleWork (.newDelayed 0 5) 9)]

/-- After the first tick: work that always panics, in front of immediate work. -/
def Stuck (e : Exec demo) : Prop :=
  e.world.sched.queue = [] ∧ runsOf 1 e.world.log = [] ∧
    ∃ l, e.active = [(0, .continuous l 2), (1, .immediate (some 0))]

theorem Stuck.tickTo {e : Exec demo} (h : Stuck e) (t : Nat) : ∃ e', e.tickToP panics t = .panic e' ∧ Stuck e' := by
  obtain ⟨h1, h2, l, h3⟩ := h
  have hp : ∃ e', (e.beginTick t).passP panics t = some (e', none) ∧ Stuck e' := by
    refine ⟨_, by simp only [Exec.passP, Exec.beginTick, Exec.drain, World.emit, h1, h3, List.foldl_nil, Exec.tickScheduledP,
      tickPassP, Bool.false_eq_true, if_false, Work.tickP, runBodyP, runBody, panics, beq_self_eq_true, Bool.true_or, if_true,
      List.map_cons, List.map_nil]; rfl, ?_⟩
    refine ⟨rfl, ?_, updateTick l t, rfl⟩
    simp only [List.foldl_nil]
    repeat rw [runsOf_snoc (by intro _ h; cases h)]
    exact h2
  obtain ⟨e', he, hs⟩ := hp
  refine ⟨e', ?_, hs⟩
  unfold Exec.tickToP Exec.loopP
  rw [he]

/-- The two were scheduled. -/
def start : Exec demo :=
  { world := {
      ctx := ()
      sched := { queue := [.activate 7 0 (.continuous 0 2), .activate 8 1 (.immediate (some 0))], nextUid := 2 }
      log := [.scheduled 0 7 0 (.continuous 0 2), .scheduled 1 8 0 (.immediate (some 0))] } }

theorem start_tickTo (t : Nat) : ∃ e', start.tickToP panics t = .panic e' ∧ Stuck e' := by
  have hp : ∃ e', (start.beginTick t).passP panics t = some (e', none) ∧ Stuck e' := by
    refine ⟨_, by simp only [Exec.passP, Exec.beginTick, start, Exec.drain, World.emit, List.foldl_cons, List.foldl_nil,
      Exec.processAction, imInsert, List.any_nil, List.any_cons, Bool.false_eq_true, if_false, List.nil_append, List.cons_append,
      show ((0 : Nat) == 0 + 1) = false from rfl, Bool.or_false,
      Exec.tickScheduledP, tickPassP, Work.tickP, runBodyP, runBody, panics, beq_self_eq_true, Bool.true_or, if_true,
      List.map_cons, List.map_nil]; rfl, ?_⟩
    exact ⟨rfl, rfl, _, rfl⟩
  obtain ⟨e', he, hs⟩ := hp
  refine ⟨e', ?_, hs⟩
  unfold Exec.tickToP Exec.loopP
  rw [he]

theorem starved (ts : List Nat) :
    runs 1 ([.call (.scheduleWork (.newContinuous 2) 7), .call (.scheduleWork (.newImmediate 0) 8)] ++ ts.map Op.tickTo) = some [] := by
  have go : ∀ (ts : List Nat) (e : Exec demo), Stuck e →
      ∃ e', e.runP panics (ts.map Op.tickTo) = some e' ∧ runsOf 1 e'.world.log = [] := by
    intro ts
    induction ts with
    | nil => intro e h; exact ⟨e, rfl, h.2.1⟩
    | cons t ts ih =>
      intro e h
      obtain ⟨e', he, hs⟩ := h.tickTo t
      obtain ⟨e2, h2, h3⟩ := ih e' hs
      refine ⟨e2, ?_, h3⟩
      simp only [List.map_cons, Exec.runP, Exec.stepP, he]
      exact h2
  have h0 : run [.call (.scheduleWork (.newContinuous 2) 7), .call (.scheduleWork (.newImmediate 0) 8)] = some start := rfl
  have hrun : ∀ ops, run ([.call (.scheduleWork (.newContinuous 2) 7), .call (.scheduleWork (.newImmediate 0) 8)] ++ ops) =
      start.runP panics ops := fun ops => runP_append h0
  cases ts with
  | nil => rw [runs, hrun]; rfl
  | cons t ts =>
    obtain ⟨e', he, hs⟩ := start_tickTo t
    obtain ⟨e2, h2, h3⟩ := go ts e' hs
    rw [runs, hrun]
    simp only [List.map_cons, Exec.runP, Exec.stepP, he, h2, Option.map_some, h3]

end PanicDemo

/-- C86. As long as nothing panics, every operation does what it does in the model of C19 to C24, whose theorems are
therefore about these executions. -/
theorem C86_no_panics (hP : ∀ b t c s, P b t c s = false) (e : Exec env) (op : Op env.B) :
    e.stepP P op = e.step op :=
  stepP_same hP e op

example : ∀ b t c s, (fun _ _ _ _ => false : Panics PanicDemo.demo) b t c s = false := fun _ _ _ _ => rfl

/-- C86. Whatever panicked before: scheduled work of any kind that is neither cancelled nor done is ticked by every tick
that does not panic itself. -/
theorem C86_not_lost {ctx : env.Ctx} {n : Nat} {ops : List (Op env.B)} {e e' : Exec env}
    (h : (Exec.new ctx n).runP P ops = some e) {u t : Nat} {r : Rec env.B}
    (hr : (track u e.world.log).seen = some r) (hc : r.cancelled = false) (hd : r.done = false)
    (ht : e.tickToP P t = .ok e') :
    ∃ ext, e'.world.log = e.world.log ++ ext ∧ .ticked u t ∈ ext :=
  ((Whole.run (noLaws P u) ops (Whole.init ctx n) h).tickTo_ok (noLaws P u) ht ⟨r, hr, hc, hd⟩).1

/-- Not in the tick that panics, but in the next one. -/
example : PanicDemo.panicked PanicDemo.mixed (.tickTo 10) = some true ∧
    PanicDemo.seen 2 (PanicDemo.mixed ++ [.tickTo 10]) = some ([], false, false) ∧
    PanicDemo.panicked (PanicDemo.mixed ++ [.tickTo 10]) (.tickTo 11) = some false ∧
    PanicDemo.runs 2 (PanicDemo.mixed ++ [.tickTo 10, .tickTo 11]) = some [11] := by
  refine ⟨?_, ?_, ?_, ?_⟩ <;> decide +kernel

/-- C86. Whatever panics, also the closure itself: the closure of work with a delay is run at most once and not before
its time, and as soon as a tick at or after its time does not panic, it has been run, unless it was cancelled. -/
theorem C86_delayed {ctx : env.Ctx} {n : Nat} {ops : List (Op env.B)} {e : Exec env}
    (h : (Exec.new ctx n).runP P ops = some e) {u : Nat} {r : Rec env.B}
    (hr : (track u e.world.log).seen = some r) {b : env.B} {d : Nat} (hw : r.work = Work.newDelayed b d) :
    (runsOf u e.world.log).length ≤ 1 ∧ (∀ x ∈ runsOf u e.world.log, r.now + d ≤ max r.now x) ∧
      ∀ t e', r.cancelled = false → r.now + d ≤ t → e.tickToP P t = .ok e' → (runsOf u e'.world.log).length = 1 := by
  have hW := Whole.run (delayedLaws P u) ops (Whole.init ctx n) h
  have hg := hW.snd.good r hr b d hw
  refine ⟨hg.1, hg.2.1, ?_⟩
  intro t e' hc hle ht
  have hW' := hW.tickTo (delayedLaws P u) (e' := e') (by rw [ht]; rfl)
  have hx := Whole.tickTo_ext (delayedLaws P u) hW (e' := e') (by rw [ht]; rfl)
  have hlt : u < e.world.sched.nextUid := by
    rcases Nat.lt_or_ge u e.world.sched.nextUid with h | h
    · exact h
    · rw [hW.tab.known.fresh h] at hr; cases hr
  -- what is known of the record stays known
  have hf : Fact u (fun now work _ _ => now = r.now ∧ work = r.work) e'.world :=
    hx.2 _ (fun _ _ _ _ _ _ _ h => h) ⟨hlt, fun r' hr' => by rw [hr] at hr'; cases hr'; exact ⟨rfl, rfl⟩⟩
  obtain ⟨r', hr', _⟩ := hW'.tab.known.known hf.1
  obtain ⟨h1, h2⟩ := hf.2 r' hr'
  have hg' := (hW'.snd.good r' hr' b d (by rw [h2, hw])).1
  have hne : runsOf u e'.world.log ≠ [] := by
    cases hd : r.done with
    | true => exact hx.1.runs (hg.2.2 hd)
    | false =>
      have := (hW.tickTo_ok (delayedLaws P u) ht ⟨r, hr, hc, hd⟩).2.2 r' hr'
      exact this ⟨b, d, by rw [h2, hw], by rw [h1]; exact hle⟩
  have := List.length_pos_iff.2 hne
  omega

/-- A delayed closure that panics in its only run. -/
example : PanicDemo.panicked [.call (.scheduleWork (.newDelayed 2 5) 9)] (.tickTo 7) = some true ∧
    PanicDemo.runs 0 [.call (.scheduleWork (.newDelayed 2 5) 9), .tickTo 4, .tickTo 7, .tickTo 8, .tickTo 20] = some [7] := by
  refine ⟨?_, ?_⟩ <;> decide +kernel

/-- C86. The same of work that is to run immediately. -/
theorem C86_immediate {ctx : env.Ctx} {n : Nat} {ops : List (Op env.B)} {e : Exec env}
    (h : (Exec.new ctx n).runP P ops = some e) {u : Nat} {r : Rec env.B}
    (hr : (track u e.world.log).seen = some r) {b : env.B} (hw : r.work = Work.newImmediate b) :
    (runsOf u e.world.log).length ≤ 1 ∧
      ∀ t e', r.cancelled = false → e.tickToP P t = .ok e' → (runsOf u e'.world.log).length = 1 := by
  have hW := Whole.run (immediateLaws P u) ops (Whole.init ctx n) h
  have hg := hW.snd.good r hr b hw
  refine ⟨hg.1, ?_⟩
  intro t e' hc ht
  have hW' := hW.tickTo (immediateLaws P u) (e' := e') (by rw [ht]; rfl)
  have hx := Whole.tickTo_ext (immediateLaws P u) hW (e' := e') (by rw [ht]; rfl)
  have hlt : u < e.world.sched.nextUid := by
    rcases Nat.lt_or_ge u e.world.sched.nextUid with h | h
    · exact h
    · rw [hW.tab.known.fresh h] at hr; cases hr
  have hf : Fact u (fun now work _ _ => now = r.now ∧ work = r.work) e'.world :=
    hx.2 _ (fun _ _ _ _ _ _ _ h => h) ⟨hlt, fun r' hr' => by rw [hr] at hr'; cases hr'; exact ⟨rfl, rfl⟩⟩
  obtain ⟨r', hr', _⟩ := hW'.tab.known.known hf.1
  obtain ⟨h1, h2⟩ := hf.2 r' hr'
  have hg' := (hW'.snd.good r' hr' b (by rw [h2, hw])).1
  have hne : runsOf u e'.world.log ≠ [] := by
    cases hd : r.done with
    | true => exact hx.1.runs (hg.2 hd)
    | false =>
      have := (hW.tickTo_ok (immediateLaws P u) ht ⟨r, hr, hc, hd⟩).2.2 r' hr'
      exact this ⟨b, by rw [h2, hw]⟩
  have := List.length_pos_iff.2 hne
  omega

/-- Immediate work behind work that panics at 10 runs at the next tick, once. -/
example : PanicDemo.runs 1 [.call (.scheduleWork (.newContinuous 3) 8), .call (.scheduleWork (.newImmediate 0) 9), .tickTo 10,
    .tickTo 11, .tickTo 12] = some [11] := by decide +kernel

/-- C86. Whatever panicked before or panics later: once work of any kind is cancelled between ticks, it does not run again. -/
theorem C86_cancelled {ctx : env.Ctx} {n : Nat} {ops ops' : List (Op env.B)} {e e' : Exec env}
    (h : (Exec.new ctx n).runP P ops = some e) {u : Nat} {r : Rec env.B} (hr : (track u e.world.log).seen = some r)
    (h' : e.runP P (.call (.cancel r.cid) :: ops') = some e') :
    runsOf u e'.world.log = runsOf u e.world.log := by
  have hT := Whole.run (noLaws P u) ops (Whole.init ctx n) h
  have hlt : u < e.world.sched.nextUid := by
    rcases Nat.lt_or_ge u e.world.sched.nextUid with h | h
    · exact h
    · rw [hT.tab.known.fresh h] at hr; cases hr
  have hrec := rec_steps (src := .invoked 0) (t := 0) hlt (Steps.one (.call _ (.cancel r.cid)))
  have hD : Doomed u r.cid { e with world := e.world.call (.cancel r.cid) } := by
    refine ⟨hlt, fun r' hr' => ?_, e.world.sched.queue, [], rfl, (fun a ha => by cases ha)⟩
    obtain ⟨r0, hr0, hs, _⟩ := hrec.2 r' hr'
    rw [hr] at hr0
    cases hr0
    exact hs.cid
  exact Doomed.run (runsOf_steady _) ops' (hT.step (noLaws P u) (op := .call (.cancel r.cid)) rfl) hD
    (runsOf_call u e.world (.cancel r.cid)) h'

/-- Work that answered `Done` in a tick that panicked and would run again, is cancelled. -/
example : PanicDemo.seen 0 [.call (.scheduleWork (.newContinuous 1) 7), .call (.scheduleWork (.newImmediate 2) 8), .tickTo 1] =
      some ([1], false, true) ∧
    PanicDemo.runs 0 [.call (.scheduleWork (.newContinuous 1) 7), .call (.scheduleWork (.newImmediate 2) 8), .tickTo 1,
      .call (.cancel 7), .tickTo 2] = some [1] := by
  refine ⟨?_, ?_⟩ <;> decide +kernel

/-- C86. Whatever panicked before, also that work itself: work registered for invocations stays registered until it is
cancelled or says that it is done, and an invocation after the last tick is followed by a run in the next tick, if that
does not panic and no registration (not even another one, C23) is cancelled behind the invocation. -/
theorem C86_invoked {ctx : env.Ctx} {n : Nat} {ops : List (Op env.B)} {cs : List (Call env.B)} {e e' : Exec env} {i t : Nat}
    (h : (Exec.new ctx n).runP P (ops ++ .call (.invoke i) :: cs.map Op.call) = some e)
    (hc : ∀ c ∈ cs, ∀ j, c ≠ .cancelInvoked j) (hr : registered i e.world.log = true)
    (ht : e.tickToP P t = .ok e') :
    ∃ ext, e'.world.log = e.world.log ++ ext ∧ .run (.invoked i) t ∈ ext := by
  refine (KeptE.run _ (KeptE.init i ctx n) h).tickTo_ok ht hr ?_
  cases h0 : (Exec.new ctx n).runP P ops with
  | none =>
    exfalso
    have : ∀ (ops ops' : List (Op env.B)) (a : Exec env), a.runP P ops = none → a.runP P (ops ++ ops') = none := by
      intro ops ops'
      induction ops with
      | nil => intro a h; cases h
      | cons op ops ih =>
        intro a h
        simp only [List.cons_append, Exec.runP] at h ⊢
        split at h
        · exact ih _ h
        · exact ih _ h
        · rfl
    rw [this _ _ _ h0] at h
    cases h
  | some a =>
    rw [runP_append h0] at h
    simp only [Exec.runP, Exec.stepP] at h
    obtain ⟨_, q, h2, h3⟩ := runP_calls cs hc _ _ h
    exact drain_invoked (q1 := a.world.sched.queue) (q2 := q) (by rw [h2]; simp [World.call]) h3

/-- Work that panicked at its first invocation, at 10, and is invoked again. -/
example :
    PanicDemo.panicked [.call (.scheduleInvokedWork (.newInvoked 3) 0), .call (.invoke 0)] (.tickTo 10) = some true ∧
    (PanicDemo.run [.call (.scheduleInvokedWork (.newInvoked 3) 0), .call (.invoke 0), .tickTo 10, .call (.invoke 0)]).map
      (fun e => registered 0 e.world.log) = some true ∧
    PanicDemo.invokedRuns 0 [.call (.scheduleInvokedWork (.newInvoked 3) 0), .call (.invoke 0), .tickTo 10, .call (.invoke 0),
      .tickTo 11] = some 2 := by
  refine ⟨?_, ?_, ?_⟩ <;> decide +kernel

/-- C86. The clocks do not mind panics: however a tick ends, the executor's time is the later one of what it was and the
tick's, and so is the time from which the delays of what is scheduled next are counted. -/
theorem C86_clock {e e' : Exec env} {t : Nat} (ht : e.tickToP P t = .ok e' ∨ e.tickToP P t = .panic e') :
    e'.now = max e.now t ∧
      ∀ work cid r, (track e'.world.sched.nextUid (e'.world.call (.scheduleWork work cid)).log).seen = some r →
        r.now = max e.world.sched.currentTick t := by
  have hs : (e.tickToP P t).state = some e' := by rcases ht with h | h <;> rw [h] <;> rfl
  obtain ⟨h1, h2⟩ := Clocks.tickTo hs
  refine ⟨h1, fun work cid r hr => ?_⟩
  simp only [World.call, track_snoc, Track.step, if_true] at hr
  cases hr
  exact h2

/-- Work scheduled after a tick to 10 that panicked, with a delay of 5, runs at 15. -/
example : PanicDemo.panicked [.call (.scheduleWork (.newContinuous 3) 8)] (.tickTo 10) = some true ∧
    PanicDemo.runs 1 [.call (.scheduleWork (.newContinuous 3) 8), .tickTo 10, .call (.scheduleWork (.newDelayed 0 5) 9),
      .tickTo 14, .tickTo 15, .tickTo 16] = some [15] := by
  refine ⟨?_, ?_⟩ <;> decide +kernel

/-- The statement in full, of work of any kind: what said that it is done does not run again. -/
def DoneIsFinal (env : Env) (P : Panics env) : Prop :=
  ∀ (ctx : env.Ctx) (n : Nat) (ops : List (Op env.B)) (e : Exec env) (u : Nat),
    (Exec.new ctx n).runP P ops = some e → ¬ runsAfterDone u e.world.log

/-- C86, the part that holds: work that answered `Done` in a tick that did not panic never runs again, whatever panics
later. Missing, and false (`C86_done_counterexample`): the same when that tick panicked after the answer. -/
theorem C86_done_partial {ctx : env.Ctx} {n : Nat} {ops ops' : List (Op env.B)} {e e' e'' : Exec env} {u t : Nat}
    (h : (Exec.new ctx n).runP P ops = some e) (ht : e.tickToP P t = .ok e') {ext : List (Ev env.B)}
    (hx : e'.world.log = e.world.log ++ ext) (hd : .done (.work u) ∈ ext) (h' : e'.runP P ops' = some e'')
    {x y : List (Ev env.B)} (hy : e''.world.log = e.world.log ++ (x ++ .done (.work u) :: y)) :
    runsOf u y = [] := by
  have hT := Whole.run (noLaws P u) ops (Whole.init ctx n) h
  rcases Settled.tickTo hT ht with ⟨s, h1, h2⟩ | hL
  · rw [hx] at h1
    exact absurd (List.append_cancel_left h1 ▸ hd) h2
  · obtain ⟨_, s, h1, h2⟩ := Left.run Quiet.steady ops' hL h'
    rw [hy] at h1
    exact h2 x y (List.append_cancel_left h1).symm

/-- Continuous work that answers `Done` in a tick of its own, before another work is scheduled and panics. -/
example : PanicDemo.panicked [.call (.scheduleWork (.newContinuous 1) 7)] (.tickTo 1) = some false ∧
    PanicDemo.seen 0 [.call (.scheduleWork (.newContinuous 1) 7), .tickTo 1] = some ([1], false, true) ∧
    PanicDemo.runs 0 [.call (.scheduleWork (.newContinuous 1) 7), .tickTo 1, .call (.scheduleWork (.newImmediate 2) 8),
      .tickTo 2, .tickTo 3] = some [1] := by
  refine ⟨?_, ?_, ?_⟩ <;> decide +kernel

/-- Work that answered `Done` in a tick that a later work ended with a panic is run again by the next tick. -/
theorem C86_done_counterexample : ¬ DoneIsFinal PanicDemo.demo PanicDemo.panics := by
  intro h
  have key : (PanicDemo.run [.call (.scheduleWork (.newContinuous 1) 7), .call (.scheduleWork (.newImmediate 2) 8),
      .tickTo 1, .tickTo 2]).map (fun e => ranAfterDone 0 e.world.log) = some true := by decide +kernel
  cases hr : PanicDemo.run [.call (.scheduleWork (.newContinuous 1) 7), .call (.scheduleWork (.newImmediate 2) 8),
      .tickTo 1, .tickTo 2] with
  | none => rw [hr] at key; cases key
  | some e =>
    rw [hr] at key
    exact h () 100 _ e 0 hr (runsAfterDone_of (Option.some.inj key))

/-- Work that always panics keeps all work that was scheduled after it from running, whatever is ticked. -/
theorem C86_starved_counterexample (ts : List Nat) :
    PanicDemo.runs 1 ([.call (.scheduleWork (.newContinuous 2) 7), .call (.scheduleWork (.newImmediate 0) 8)] ++
      ts.map Op.tickTo) = some [] :=
  PanicDemo.starved ts

/-- What was invoked is forgotten when work that was invoked before it panics. -/
theorem C86_invoked_counterexample :
    PanicDemo.invokedRuns 1 [.call (.scheduleInvokedWork (.newInvoked 2) 0), .call (.scheduleInvokedWork (.newInvoked 0) 1),
      .call (.invoke 0), .call (.invoke 1), .tickTo 1, .tickTo 2, .tickTo 3] = some 0 ∧
    PanicDemo.invokedRuns 1 [.call (.scheduleInvokedWork (.newInvoked 2) 0), .call (.scheduleInvokedWork (.newInvoked 0) 1),
      .call (.invoke 1), .call (.invoke 0), .tickTo 1, .tickTo 2, .tickTo 3] = some 1 := by
  refine ⟨?_, ?_⟩ <;> decide +kernel

/-- Repeated work that panics runs again for the same period: twice although only one interval has passed; and it starts
immediately again. -/
theorem C86_repeated_counterexample :
    PanicDemo.runs 0 [.call (.scheduleWork (.newRepeating 3 10 false 5) 7), .tickTo 10, .tickTo 11] = some [10, 11] ∧
    PanicDemo.runs 0 [.call (.scheduleWork (.newRepeating 0 10 false 5) 7), .tickTo 10, .tickTo 11] = some [10] ∧
    PanicDemo.runs 0 [.call (.scheduleWork (.newRepeating 3 10 true 5) 7), .tickTo 10, .tickTo 11] = some [10, 11, 11] ∧
    PanicDemo.runs 0 [.call (.scheduleWork (.newRepeating 0 10 true 5) 7), .tickTo 10, .tickTo 11] = some [10, 10] := by
  refine ⟨?_, ?_, ?_, ?_⟩ <;> decide +kernel

end Rx.Sched
