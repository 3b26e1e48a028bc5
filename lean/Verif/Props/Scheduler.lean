import Verif.Lemmas.SchedulerClock

/-!
# C19–C24, C58: the ticking scheduler

A history is a list of operations of the owner of the executor: calls of the scheduler between
ticks, and ticks. Closures run inside ticks may call the scheduler too, and are arbitrary
(`env.exec`). All theorems are about any such history from a new executor that does not panic (the
recursion limit) and whose ticks return; `C20_terminates` says when they do.

The log of a history records, in order, all of these calls, ticks and runs; `Spec/Scheduler.lean`
reads it.
-/

namespace Rx.Sched.Props

open Rx.Sched Rx.Sched.Spec

/-! ## A small program for the examples -/

namespace Demo

/-- Closures: `0` stays pending, `1` is done, `2` cancels id 11, `3` schedules closure `1` under
id 9. The context records who ran when. -/
abbrev prog : Env where
  Ctx := List (Nat × Nat)
  B := Nat
  exec b t ctx _ :=
    let ctx := ctx ++ [(b, t)]
    match b with
    | 0 => (b, ctx, [], .pending)
    | 2 => (b, ctx, [.cancel 11], .done)
    | 3 => (b, ctx, [.scheduleWork (.newImmediate 1) 9], .done)
    | _ => (b, ctx, [], .done)

def run (ops : List (Op Nat)) : Outcome (Exec prog) := (Exec.new (env := prog) []).run ops

/-- The runs (closure, tick) of a history. -/
def runs (ops : List (Op Nat)) : Option (List (Nat × Nat)) :=
  match run ops with
  | .ok e => some e.world.ctx
  | _ => none

/-- What the log of a history says about work `u`. -/
def seen (u : Nat) (ops : List (Op Nat)) : Option (List Nat × List Nat × Bool × Bool) :=
  match run ops with
  | .ok e => (track u e.world.log).seen.map fun r => (r.ticks, r.runs, r.cancelled, r.done)
  | _ => none

end Demo

variable {env : Env}

/-! ## C19 -/

/-- C19. Work with a delay runs exactly when `delayedRuns` says: once, on the first tick that brings
the clock to the deadline, and never before. (`r` is what the log says about the `u`-th scheduled
work.) -/
theorem C19_delayed_once {ctx : env.Ctx} {n : Nat} {ops : List (Op env.B)} {e : Exec env}
    (h : (Exec.new ctx n).run ops = .ok e) {u : Nat} {r : Rec env.B}
    (hr : (track u e.world.log).seen = some r) (hc : r.cancelled = false) {b : env.B} {d : Nat}
    (hw : r.work = Work.newDelayed b d) :
    r.runs = delayedRuns r.now d r.ticks := by
  have hw' : r.stamped = .delayed (some b) r.now r.now d := by
    rw [Rec.stamped, hw]; simp [Work.newDelayed, Work.onScheduled, updateTick_eq]
  rcases work_history (delayed_laws u b r.now d) h hr hc rfl hw' with
    ⟨_, wk, c, seen, h1, _, h2, _, _, h3⟩ | ⟨_, t, h1, h2⟩
  · simp only [if_true] at h1
    rw [h2, delayedRuns, h1, h3]; rfl
  · rw [h2, delayedRuns, h1]; rfl

/-- C19. The clock that delays are counted from is the time: the latest tick so far (also the one
that is running). -/
theorem C19_scheduled_at_the_time {ctx : env.Ctx} {n : Nat} {ops : List (Op env.B)} {e : Exec env}
    (h : (Exec.new ctx n).run ops = .ok e) {pre post : List (Ev env.B)} {u c now : Nat}
    {wk : Work env.B} (hl : e.world.log = pre ++ .scheduled u c now wk :: post) :
    now = clock pre :=
  (Sync.run (e := Exec.new ctx n) ⟨rfl, Nat.zero_le _, by
    intro pre u c now wk post h; simp [Exec.new] at h⟩ h).stamped _ _ _ _ _ _ hl

/-- C19, consequence: a run never happens while the clock is before the deadline. -/
theorem C19_never_early {ctx : env.Ctx} {n : Nat} {ops : List (Op env.B)} {e : Exec env}
    (h : (Exec.new ctx n).run ops = .ok e) {u : Nat} {r : Rec env.B}
    (hr : (track u e.world.log).seen = some r) (hc : r.cancelled = false) {b : env.B} {d : Nat}
    (hw : r.work = Work.newDelayed b d) :
    r.runs.length ≤ 1 ∧ ∀ t ∈ r.runs, r.now + d ≤ max r.now t := by
  rw [C19_delayed_once h hr hc hw, delayedRuns]
  cases hf : r.ticks.find? (fun t => decide (r.now + d ≤ max r.now t)) with
  | none => simp
  | some t =>
    have := List.find?_some hf
    simp only [decide_eq_true_eq] at this
    simp [this]

/-- C19, consequence: as soon as a tick reached the deadline, it has run. -/
theorem C19_has_run {ctx : env.Ctx} {n : Nat} {ops : List (Op env.B)} {e : Exec env}
    (h : (Exec.new ctx n).run ops = .ok e) {u : Nat} {r : Rec env.B}
    (hr : (track u e.world.log).seen = some r) (hc : r.cancelled = false) {b : env.B} {d : Nat}
    (hw : r.work = Work.newDelayed b d) {t : Nat} (ht : t ∈ r.ticks)
    (hd : r.now + d ≤ t) : r.runs.length = 1 := by
  rw [C19_delayed_once h hr hc hw, delayedRuns]
  cases hf : r.ticks.find? (fun t => decide (r.now + d ≤ max r.now t)) with
  | none =>
    have := List.find?_eq_none.1 hf t ht
    simp only [decide_eq_true_eq] at this
    omega
  | some t => rfl

/-- Work with delay 10 scheduled at clock 5, with ticks at 5, 12, 15, 20: runs at 15 only. -/
example : Demo.seen 0 [.tickTo 5, .call (.scheduleWork (.newDelayed 1 10) 7), .tickTo 5, .tickTo 12,
    .tickTo 15, .tickTo 20] = some ([5, 12, 15, 20], [15], false, true) := by decide +kernel

/-! ## C20 -/

/-- C20. Repeated work runs exactly when `repeatedRuns` says, as long as it is not `Done`. -/
theorem C20_repeated_runs {ctx : env.Ctx} {n : Nat} {ops : List (Op env.B)} {e : Exec env}
    (h : (Exec.new ctx n).run ops = .ok e) {u : Nat} {r : Rec env.B}
    (hr : (track u e.world.log).seen = some r) (hc : r.cancelled = false) {b : env.B}
    {i m : Nat} {start : Bool} (hi : 0 < i)
    (hw : r.work = Work.newRepeating b i start m) :
    (r.done = false → r.runs = repeatedRuns r.now i (max 1 m) start r.now r.ticks) ∧
    (r.done = true → r.runs <+: repeatedRuns r.now i (max 1 m) start r.now r.ticks) := by
  have hm : (if m = 0 then 1 else m) = max 1 m := by split <;> omega
  have hw' : r.stamped = .repeating start r.now r.now i (max 1 m) b := by
    rw [Rec.stamped, hw]; simp [Work.newRepeating, Work.onScheduled, updateTick_eq, hm]
  rcases work_history (repeating_laws u r.now i (max 1 m) hi start b) h hr hc rfl hw' with
    ⟨h1, wk, seen, cu, c, b', h2, _, _, _, h3⟩ | ⟨h1, h2⟩
  · simp only [if_true] at h2
    refine ⟨fun _ => by rw [h3, h2], fun h => by rw [h1] at h; cases h⟩
  · exact ⟨fun h => (by rw [h1] at h; cases h), fun _ => h2⟩

/-- No tick brings more than `m` multiples of the interval (counting the immediate start). -/
def Fits (s i m : Nat) : Bool → Nat → List Nat → Prop
  | _, _, [] => True
  | start, clock, t :: ts =>
    (max clock t - s) / i - (clock - s) / i + (if start then 1 else 0) ≤ m ∧
      Fits s i m false (max clock t) ts

theorem repeatedRuns_length {s i m : Nat} (ts : List Nat) : ∀ (start : Bool) (clock : Nat),
    s ≤ clock → Fits s i m start clock ts →
    (repeatedRuns s i m start clock ts).length =
      (ts.foldl max clock - s) / i - (clock - s) / i + (if start && !ts.isEmpty then 1 else 0) := by
  induction ts with
  | nil => intro start clock _ _; simp [repeatedRuns]
  | cons t ts ih =>
    intro start clock hs hf
    obtain ⟨h1, h2⟩ := hf
    have := ih false (max clock t) (by omega) h2
    simp only [repeatedRuns, List.length_append, List.length_replicate, this, List.foldl_cons]
    have hmono1 : (clock - s) / i ≤ (max clock t - s) / i := Nat.div_le_div_right (by omega)
    have hmono2 : (max clock t - s) / i ≤ (ts.foldl max (max clock t) - s) / i :=
      Nat.div_le_div_right (by have := foldl_max_ge ts (max clock t); omega)
    generalize (clock - s) / i = a at *
    generalize (max clock t - s) / i = b at *
    generalize (ts.foldl max (max clock t) - s) / i = c at *
    cases start <;> simp at h1 ⊢ <;> omega

/-- C20, no drift: however the time was cut into ticks, as long as no tick exceeded the limit the
number of runs is the number of whole intervals since the work was scheduled (plus the immediate
one). -/
theorem C20_no_drift {ctx : env.Ctx} {n : Nat} {ops : List (Op env.B)} {e : Exec env}
    (h : (Exec.new ctx n).run ops = .ok e) {u : Nat} {r : Rec env.B}
    (hr : (track u e.world.log).seen = some r) (hc : r.cancelled = false) (hd : r.done = false)
    {b : env.B} {i m : Nat} {start : Bool} (hi : 0 < i)
    (hw : r.work = Work.newRepeating b i start m)
    (hf : Fits r.now i (max 1 m) start r.now r.ticks) :
    r.runs.length = (r.ticks.foldl max r.now - r.now) / i +
      (if start && !r.ticks.isEmpty then 1 else 0) := by
  rw [(C20_repeated_runs h hr hc hi hw).1 hd, repeatedRuns_length _ _ _ (Nat.le_refl _) hf]
  simp

/-- C20: one tick of repeated work runs its closure at most as often as the limit says. -/
theorem C20_bounded_per_tick {src : Src} {t : Nat} {w w' : World env} {start : Bool}
    {cu c i m : Nat} {b : env.B} {wk' : Work env.B} {res : WorkResult} (hi : 0 < i)
    (hcu : cu ≤ max c t)
    (h : (Work.repeating start cu c i m b).tick src t w = some (wk', w', res)) :
    runCount src w'.log ≤ runCount src w.log + m := by
  simp only [Work.tick] at h
  split at h
  · rename_i cu' b' w1 res1 heq
    cases h
    obtain ⟨k, h1, h2, _⟩ := rep_result hi _ _ _ _ _ _ _ _ (by rw [updateTick_eq]; exact hcu) heq
    simp only at h1
    omega
  · cases h

/-- C20: a history in which nobody schedules repeated work with interval zero never hangs. -/
theorem C20_terminates (hp : env.positive) (ctx : env.Ctx) (n : Nat) (ops : List (Op env.B))
    (ho : ∀ op ∈ ops, op.positive) : (Exec.new ctx n).run ops ≠ .diverges :=
  EPos.run hp ops (EPos.init ctx n) ho

/-- C20 (soundness of the model): where the model says that ticking repeated work never returns,
the loop indeed runs for any number of iterations. -/
theorem C20_never_returns {src : Src} {t : Nat} {w : World env} {start : Bool}
    {cu c i m : Nat} {b : env.B} (hcu : cu ≤ max c t)
    (h : (Work.repeating start cu c i m b).tick src t w = none) (k : Nat) :
    repLoop src t (updateTick c t) i m k start cu 0 .pending b w = none := by
  simp only [Work.tick] at h
  split at h
  · cases h
  · rename_i heq
    exact rep_fuel_exact (by rw [updateTick_eq]; exact hcu) heq k

/-- C20 fails for interval zero: a tick never returns. -/
theorem C20_zero_interval_hangs :
    Demo.run [.call (.scheduleWork (.newRepeating 0 0 false 5) 7), .tickTo 1] = .diverges := by
  with_unfolding_all rfl

/-- Interval 10, limit 2, scheduled at 5; ticks at 14, 16, 60: nothing, once (15), twice (of four). -/
example : Demo.seen 0 [.tickTo 5, .call (.scheduleWork (.newRepeating 0 10 false 2) 7), .tickTo 14,
    .tickTo 16, .tickTo 60, .tickTo 64, .tickTo 65] =
    some ([14, 16, 60, 64, 65], [16, 60, 60, 65], false, false) := by decide +kernel

example : repeatedRuns 5 10 2 false 5 [14, 16, 60, 64, 65] = [16, 60, 60, 65] := by decide

example : Fits 5 10 5 true 5 [14, 16, 60, 64, 65] := by simp [Fits]

/-! ## C21 -/

/-- C21. In every tick, the works that are ticked are ticked in the order in which they were
scheduled, each at most once (the list of indices is strictly increasing). -/
theorem C21_once_in_order {ctx : env.Ctx} {n : Nat} {ops : List (Op env.B)} {e : Exec env}
    (h : (Exec.new ctx n).run ops = .ok e) :
    ∀ b ∈ tickBatches e.world.log, b.Pairwise (· < ·) :=
  (OOut.run (OOut.init ctx n) h).batch

/-- C21. Work that answered `Done` is not ticked again. -/
theorem C21_done_not_ticked {ctx : env.Ctx} {n : Nat} {ops : List (Op env.B)} {e : Exec env}
    (h : (Exec.new ctx n).run ops = .ok e) {u : Nat} {pre post : List (Ev env.B)}
    (hl : e.world.log = pre ++ .done (.work u) :: post) (t : Nat) : .ticked u t ∉ post :=
  (OOut.run (OOut.init ctx n) h).noTick u pre post hl t

theorem all_ticked {ctx : env.Ctx} {n : Nat} {ops : List (Op env.B)} {e e' : Exec env}
    (h : (Exec.new ctx n).run ops = .ok e) {t : Nat} (ht : e.tickTo t = .ok e') {u : Nat}
    {r : Rec env.B} (hr : (track u e'.world.log).seen = some r) (hc : r.cancelled = false)
    (hd : r.done = false) : ∃ b bs, tickBatches e'.world.log = b :: bs ∧ u ∈ b := by
  have hB : Outside (triv u r.now r.stamped) e :=
    Outside.run _ ops (Outside.init (triv u r.now r.stamped) ctx n) h
  have hq := (tickTo_quiet (run_invoked rfl h) ht).1
  have hinv := (hB.tickTo ht).inv r hr hc rfl rfl
  obtain ⟨_, b, bs, h1, h2⟩ := (OOut.run (OOut.init ctx n) h).tickTo ht
  refine ⟨b, bs, h1, ?_⟩
  unfold statusOf at hinv
  split at hinv
  · obtain ⟨pre, post, h3, _⟩ := hinv
    rw [hq] at h3; simp at h3
  · cases hf : imFind u e'.active with
    | some wk => exact h2 (u, wk) (imFind_mem hf)
    | none =>
      rw [hf] at hinv
      have : r.done = true := hinv.1
      rw [hd] at this; cases this

/-- C21. When a tick returns, every work that was scheduled (also during that tick), is not cancelled
and not done, was ticked in it. -/
theorem C21_all_ticked {ctx : env.Ctx} {n : Nat} {ops : List (Op env.B)} {e e' : Exec env}
    (h : (Exec.new ctx n).run ops = .ok e) {t : Nat} (ht : e.tickTo t = .ok e') {u : Nat}
    {r : Rec env.B} (hr : (track u e'.world.log).seen = some r) (hc : r.cancelled = false)
    (hd : r.done = false) : ∃ b bs, tickBatches e'.world.log = b :: bs ∧ u ∈ b :=
  all_ticked h ht hr hc hd

/-- Closure `3` (work 0) schedules closure `1` (work 2) in the first tick: it is ticked in the same
tick, after work 1. In the second tick only work 1 is left. -/
example : (match Demo.run [.call (.scheduleWork (.newImmediate 3) 7),
      .call (.scheduleWork (.newContinuous 0) 8), .tickTo 1, .tickTo 2] with
    | .ok e => tickBatches e.world.log
    | _ => []) = [[1], [0, 1, 2]] := by decide +kernel

/-! ## C22 -/

/-- C22, the part that holds for all points of cancellation: once a cancellation was requested and a
pass of the executor began after it, the work does not run any more. Missing: the rest of the pass in
which the request is made, see `C22_same_pass_counterexample`. -/
theorem C22_cancelled_does_not_run_partial {ctx : env.Ctx} {n : Nat} {ops : List (Op env.B)}
    {e : Exec env} (h : (Exec.new ctx n).run ops = .ok e) (u : Nat) :
    (ctrack u e.world.log).late = [] :=
  (COut.run (COut.init u ctx n) h).q.world.late

/-- C22 for cancellations requested between ticks: from then on the work does not run. -/
theorem C22_cancel_between_ticks {ctx : env.Ctx} {n : Nat} {ops ops' : List (Op env.B)}
    {e e' : Exec env} (h : (Exec.new ctx n).run ops = .ok e) {u c now : Nat} {wk : Work env.B}
    (hs : .scheduled u c now wk ∈ e.world.log)
    (h' : e.run (.call (.cancel c) :: ops') = .ok e') :
    runCount (.work u) e'.world.log = runCount (.work u) e.world.log := by
  have hids : Ids e.world := ids_laws.run (e := Exec.new ctx n) ⟨rfl, rfl, rfl⟩ h
  have hcid := ctrack_cid_of_mem hids hs
  have h0 := COut.run (COut.init u ctx n) h
  simp only [Exec.run, Exec.step] at h'
  have h1 : StoppedOut u (runCount (.work u) e.world.log)
      { e with world := e.world.call (.cancel c) } := by
    refine ⟨h0.call _, ?_, ?_⟩
    · simp only [World.call]; rw [ctrack_snoc]; simp only [CTrack.step]; rw [if_pos hcid]
    · simp only; rw [runCount_call]
  exact (h1.run h').2.2

/-- C22. Work that is not cancelled is not affected by the cancellation of other work: it is still
ticked in every tick until it is done. -/
theorem C22_others_unaffected {ctx : env.Ctx} {n : Nat} {ops : List (Op env.B)} {e e' : Exec env}
    (h : (Exec.new ctx n).run ops = .ok e) {t : Nat} (ht : e.tickTo t = .ok e') {u : Nat}
    {r : Rec env.B} (hr : (track u e'.world.log).seen = some r) (hc : r.cancelled = false)
    (hd : r.done = false) : ∃ b bs, tickBatches e'.world.log = b :: bs ∧ u ∈ b :=
  all_ticked h ht hr hc hd

/-- C22 fails within a pass: work 0 (closure `2`) cancels id 11, under which work 1 was scheduled,
and yet work 1 (closure `1`) runs afterwards in the same tick. -/
theorem C22_same_pass_counterexample :
    Demo.runs [.call (.scheduleWork (.newImmediate 2) 10), .call (.scheduleWork (.newImmediate 1) 11),
      .tickTo 1] = some [(2, 1), (1, 1)] ∧
    (match Demo.run [.call (.scheduleWork (.newImmediate 2) 10),
        .call (.scheduleWork (.newImmediate 1) 11), .tickTo 1] with
      | .ok e => e.world.log.filterMap fun
          | .cancel c => some (Sum.inl c)
          | .run src _ => some (Sum.inr src)
          | _ => none
      | _ => []) = [.inr (.work 0), .inl 11, .inr (.work 1)] := by decide +kernel

/-- Continuous work under id 11 runs in tick 1 only; it is cancelled from inside tick 1 by closure `2`,
the other continuous work goes on. -/
example : Demo.runs [.call (.scheduleWork (.newContinuous 0) 11),
    .call (.scheduleWork (.newContinuous 0) 12), .call (.scheduleWork (.newImmediate 2) 10),
    .tickTo 1, .tickTo 2] = some [(0, 1), (0, 1), (2, 1), (0, 2)] := by decide +kernel

/-! ## C23 -/

/-- C23, upper bound: plain invoked work never runs more often than it was invoked, whatever is
registered, cancelled and invoked. -/
theorem C23_at_most_once {ctx : env.Ctx} {n : Nat} {ops : List (Op env.B)} {e : Exec env}
    (h : (Exec.new ctx n).run ops = .ok e) (i : Nat) (hp : (itrack i e.world.log).plain = true) :
    (itrack i e.world.log).runs ≤ (itrack i e.world.log).invokes := by
  have := ((IP.init (atMost_laws i) ctx n).run (atMost_laws i) h).2 hp
  omega

/-- C23, the part that holds: if work was registered under `i` once, before `i` was invoked, was not
cancelled and is not done, and if no other invoked work was cancelled while invocations of `i` were
waiting, then after every tick it has run exactly as often as it was invoked. Missing: the condition
about the cancellation of other work (`C23_cancel_drops_others_counterexample`). -/
theorem C23_exactly_once_partial {ctx : env.Ctx} {n : Nat} {ops : List (Op env.B)} {e e' : Exec env}
    (h : (Exec.new ctx n).run ops = .ok e) {t : Nat} (ht : e.tickTo t = .ok e') (i : Nat)
    (hu : Undisturbed (itrack i e'.world.log)) (ha : (itrack i e'.world.log).added = 1)
    (hd : (itrack i e'.world.log).done = false) :
    (itrack i e'.world.log).runs = (itrack i e'.world.log).invokes := by
  have hq := (tickTo_quiet (run_invoked rfl h) ht).1
  obtain ⟨h1, -, -⟩ :=
    (((IP.init (exactly_laws i) ctx n).run (exactly_laws i) h).tickTo (exactly_laws i) ht).2.ok hu
  rw [hq] at h1
  cases h1 with
  | unborn k1 => omega
  | queued pre post b k1 k2 => simp at k2
  | registered b k1 k2 k3 k4 k5 => simp at k5; omega
  | done k1 k2 k3 => rw [hd] at k3; cases k3

/-- C23: once `cancel_invoked i` was requested and a pass of the executor began after it, the work
registered under `i` before does not run any more. -/
theorem C23_cancelled_does_not_run_partial {ctx : env.Ctx} {n : Nat} {ops : List (Op env.B)}
    {e : Exec env} (h : (Exec.new ctx n).run ops = .ok e) (i : Nat) :
    (ictrack i e.world.log).late = 0 :=
  (KP.run (KP.init i ctx n) h).world.late

/-- C23 fails: cancelling invoked work 1 removes the pending invocation of work 2, which never
runs. -/
theorem C23_cancel_drops_others_counterexample :
    Demo.runs [.call (.scheduleInvokedWork (.newInvoked 0) 1),
      .call (.scheduleInvokedWork (.newInvoked 0) 2), .tickTo 1,
      .call (.invoke 2), .call (.cancelInvoked 1), .tickTo 2, .tickTo 3] = some [] := by decide +kernel

/-- C23 fails: cancelling invoked work 1 keeps its own pending invocation, and it runs the work
registered under the same id afterwards, although that was never invoked. -/
theorem C23_cancel_keeps_own_counterexample :
    Demo.runs [.call (.scheduleInvokedWork (.newInvoked 0) 1), .tickTo 1,
      .call (.invoke 1), .call (.cancelInvoked 1),
      .call (.scheduleInvokedWork (.newInvoked 4) 1), .tickTo 2] = some [(4, 2)] := by decide +kernel

/-- Two invocations in one tick, one in the next; another id is cancelled in between. -/
example : Demo.runs [.call (.scheduleInvokedWork (.newInvoked 0) 1), .call (.invoke 1),
    .call (.invoke 1), .tickTo 1, .call (.cancelInvoked 2), .call (.invoke 1), .tickTo 2] =
    some [(0, 1), (0, 1), (0, 2)] := by decide +kernel

example : Undisturbed (itrack (B := Nat) 1 [.addInvoked 1 (.invoked 0), .invoke 1, .drained,
    .run (.invoked 1) 1, .cancelInvoked 2, .invoke 1]) := ⟨rfl, rfl, rfl, rfl, by decide⟩

/-! ## C24 -/

/-- C24. A tick moves the clock to the later of its old value and the tick; it never goes back. -/
theorem C24_clock_monotone {e e' : Exec env} {t : Nat} (h : e.tickTo t = .ok e') :
    e'.now = max e.now t := tickTo_clock h

/-- C24. `tick` advances the clock by exactly its argument. -/
theorem C24_tick_advances {e e' : Exec env} {d : Nat} (h : e.tick d = .ok e') :
    e'.now = e.now + d := by
  have := C24_clock_monotone h
  simp only [Exec.now] at this ⊢
  omega

/-- C24. Over whole histories the clock is the latest tick so far. -/
theorem C24_clock_never_back {ops : List (Op env.B)} {e e' : Exec env} (h : e.run ops = .ok e') :
    e.now ≤ e'.now :=
  run_inv (P := fun x => e.now ≤ x.now) (fun _ _ h => h)
    (fun _ _ _ h ht => Nat.le_trans h (by rw [C24_clock_monotone ht]; omega)) ops
    (Nat.le_refl _) h

/-- C24. When a tick returns, no action is waiting, neither in the scheduler's queue nor among the
invocations. -/
theorem C24_quiescent {ctx : env.Ctx} {n : Nat} {ops : List (Op env.B)} {e e' : Exec env}
    (h : (Exec.new ctx n).run ops = .ok e) {t : Nat} (ht : e.tickTo t = .ok e') :
    e'.world.sched.queue = [] ∧ e'.invoked = [] :=
  tickTo_quiet (run_invoked rfl h) ht

/-- C24. When a tick returns, every work that is still active was ticked in it. -/
theorem C24_active_was_ticked {ctx : env.Ctx} {n : Nat} {ops : List (Op env.B)} {e e' : Exec env}
    (h : (Exec.new ctx n).run ops = .ok e) {t : Nat} (ht : e.tickTo t = .ok e') :
    ∃ b bs, tickBatches e'.world.log = b :: bs ∧ ∀ p ∈ e'.active, p.1 ∈ b :=
  ((OOut.run (OOut.init ctx n) h).tickTo ht).2

/-- C24. Cancellation ids and invoke ids are handed out in increasing order, none twice. -/
theorem C24_ids_never_reused {ctx : env.Ctx} {n : Nat} {ops : List (Op env.B)} {e : Exec env}
    (h : (Exec.new ctx n).run ops = .ok e) :
    (e.world.log.filterMap Ev.newCid?).Pairwise (· < ·) ∧
    (e.world.log.filterMap Ev.newIid?).Pairwise (· < ·) := by
  have hids : Ids e.world := ids_laws.run (e := Exec.new ctx n) ⟨rfl, rfl, rfl⟩ h
  rw [hids.cids, hids.iids]
  exact ⟨List.pairwise_lt_range, List.pairwise_lt_range⟩

example : (match Demo.run [.call .generateCancellationId, .tickTo 5, .call .generateCancellationId,
      .call .generateInvokeId, .tickTo 3, .call (.scheduleWork (.newContinuous 0) 1), .tick 2] with
    | .ok e => (e.now, e.world.log.filterMap Ev.newCid?, e.active.map (·.1), tickBatches e.world.log)
    | _ => (0, [], [], [])) = (7, [0, 1], [0], [[0], [], []]) := by decide +kernel

/-! ## C58 -/

/-- C58. Immediate work runs exactly once, on the first tick since it was scheduled (which may be the
one it was scheduled in). -/
theorem C58_immediate_once {ctx : env.Ctx} {n : Nat} {ops : List (Op env.B)} {e : Exec env}
    (h : (Exec.new ctx n).run ops = .ok e) {u : Nat} {r : Rec env.B}
    (hr : (track u e.world.log).seen = some r) (hc : r.cancelled = false) {b : env.B}
    (hw : r.work = Work.newImmediate b) :
    r.runs = immediateRuns r.ticks := by
  rcases work_history (immediate_laws u r.now b) h hr hc rfl (by rw [Rec.stamped, hw]; rfl) with
    ⟨_, wk, h1, _, h2⟩ | ⟨_, _, h2⟩
  · simp only [if_true] at h1
    rw [h2, h1]; rfl
  · exact h2

/-- C58. Continuous work runs exactly once in every tick since it was scheduled, until it answers
`Done`. -/
theorem C58_continuous_every_tick {ctx : env.Ctx} {n : Nat} {ops : List (Op env.B)} {e : Exec env}
    (h : (Exec.new ctx n).run ops = .ok e) {u : Nat} {r : Rec env.B}
    (hr : (track u e.world.log).seen = some r) (hc : r.cancelled = false) {b : env.B}
    (hw : r.work = Work.newContinuous b) :
    (r.done = false → r.runs = r.ticks) ∧ (r.done = true → r.runs <+: r.ticks) := by
  rcases work_history (continuous_laws u r.now 0 b) h hr hc rfl (by rw [Rec.stamped, hw]; rfl) with
    ⟨h1, wk, h2, _⟩ | ⟨h1, h2⟩
  · simp only [if_true] at h2
    exact ⟨fun _ => h2.symm, fun h => by rw [h1] at h; cases h⟩
  · exact ⟨fun h => (by rw [h1] at h; cases h), fun _ => h2⟩

/-- Work 1 (closure `1`) is scheduled by work 0 (closure `3`) inside tick 4. -/
example : Demo.seen 1 [.call (.scheduleWork (.newImmediate 3) 7), .tickTo 4, .tickTo 6] =
    some ([4, 6], [4], false, true) := by decide +kernel

example : Demo.seen 0 [.call (.scheduleWork (.newContinuous 0) 7), .tickTo 4, .tickTo 3] =
    some ([4, 3], [4, 3], false, false) := by decide +kernel

end Rx.Sched.Props
