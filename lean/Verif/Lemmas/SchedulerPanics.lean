import Verif.Model.SchedulerPanics
import Verif.Spec.SchedulerPanics
import Verif.Lemmas.SchedulerExec

/-!
# What panics leave of the scheduler
-/

namespace Rx.Sched

open Spec

variable {env : Env} {P : Panics env}

/-! ## Without panics -/

theorem repLoopP_same (hP : ∀ b t c s, P b t c s = false) (src : Src) (t cur interval maxW : Nat) :
    ∀ (fuel : Nat) (start : Bool) (consumed ex : Nat) (res : WorkResult) (b : env.B) (w : World env),
    repLoopP P src t cur interval maxW fuel start consumed ex res b w =
      (repLoop src t cur interval maxW fuel start consumed ex res b w).map
        (fun r => (false, r.1, r.2.1, r.2.2.1, .said r.2.2.2)) := by
  intro fuel
  induction fuel with
  | zero => intros; rfl
  | succ n ih =>
    intro start consumed ex res b w
    unfold repLoopP repLoop
    by_cases hc : (consumed + interval ≤ cur ∧ res ≠ .done) ∨ start = true
    · rw [if_pos hc, if_pos hc]
      by_cases hx : ex < maxW
      · simp only [hx, if_true, runBodyP, hP, Bool.false_eq_true, if_false]
        exact ih _ _ _ _ _ _
      · simp only [hx, if_false]
        exact ih _ _ _ _ _ _
    · rw [if_neg hc, if_neg hc]
      have : start = false := by
        cases start
        · rfl
        · exact absurd (.inr rfl) hc
      subst this
      rfl

theorem tickP_same (hP : ∀ b t c s, P b t c s = false) (src : Src) (t : Nat) (w : World env) (wk : Work env.B) :
    wk.tickP P src t w = (wk.tick src t w).map (fun r => (r.1, r.2.1, .said r.2.2)) := by
  cases wk with
  | delayed work s c d =>
    simp only [Work.tickP, Work.tick]
    by_cases h : s + d ≤ updateTick c t
    · rw [if_pos h, if_pos h]
      cases work <;> simp [runBodyP, hP, Answer.once]
    · rw [if_neg h, if_neg h]; rfl
  | immediate work => cases work <;> simp [Work.tickP, Work.tick, runBodyP, hP, Answer.once]
  | repeating si cu c i m b =>
    simp only [Work.tickP, Work.tick, repLoopP_same hP]
    cases repLoop src t (updateTick c t) i m (repFuel (updateTick c t) m) si cu 0 .pending b w <;> rfl
  | continuous l b => simp [Work.tickP, Work.tick, runBodyP, hP]
  | invoked b => simp [Work.tickP, Work.tick, runBodyP, hP]

theorem tickPassP_same (hP : ∀ b t c s, P b t c s = false) (already : Nat → Bool) (t : Nat) :
    ∀ (l : List (Nat × Work env.B)) (w : World env),
    tickPassP P already t l w = (tickPass already t l w).map (fun r => (r.1, r.2, false)) := by
  intro l
  induction l with
  | nil => intro w; rfl
  | cons p l ih =>
    obtain ⟨id, wk⟩ := p
    intro w
    unfold tickPassP tickPass
    by_cases ha : already id = true
    · rw [if_pos ha, if_pos ha, ih]
      cases tickPass already t l w <;> rfl
    · rw [if_neg ha, if_neg ha, tickP_same hP]
      cases wk.tick (.work id) t (w.emit (.ticked id t)) with
      | none => rfl
      | some r =>
        obtain ⟨wk', w', res⟩ := r
        simp only [Option.map_some, ih]
        cases tickPass already t l (if res = .done then w'.emit (.done (.work id)) else w') <;> rfl

theorem execInvokedP_same (hP : ∀ b t c s, P b t c s = false) (t : Nat) :
    ∀ (l : List Nat) (inv : Nat → Option (Work env.B)) (w : World env),
    execInvokedP P t l inv w = (execInvoked t l inv w).map (fun r => (r.1, r.2, false)) := by
  intro l
  induction l with
  | nil => intro inv w; rfl
  | cons i l ih =>
    intro inv w
    unfold execInvokedP execInvoked
    cases inv i with
    | none => exact ih _ _
    | some wk =>
      simp only [tickP_same hP]
      cases wk.tick (.invoked i) t w with
      | none => rfl
      | some r =>
        obtain ⟨wk', w', res⟩ := r
        simp only [Option.map_some]
        by_cases hd : res = .done
        · rw [if_pos hd, if_pos hd]; exact ih _ _
        · rw [if_neg hd, if_neg hd]; exact ih _ _

theorem passP_same (hP : ∀ b t c s, P b t c s = false) (e : Exec env) (t : Nat) :
    e.passP P t = (e.pass t).map (fun r => (r.1, some r.2)) := by
  simp only [Exec.passP, Exec.pass, Exec.tickScheduledP, Exec.tickScheduled, tickPassP_same hP]
  cases tickPass (e.drain t).1.alreadyTicked t (e.drain t).1.active (e.drain t).1.world with
  | none => rfl
  | some r =>
    obtain ⟨out, w⟩ := r
    simp only [Option.map_some, Exec.executeInvokedP, Exec.executeInvoked, execInvokedP_same hP]
    cases execInvoked t (e.drain t).1.invoked (e.drain t).1.invokable w with
    | none => rfl
    | some r => rfl

theorem loopP_same (hP : ∀ b t c s, P b t c s = false) (t : Nat) : ∀ (n : Nat) (e : Exec env),
    Exec.loopP P t n e = Exec.loop t n e := by
  intro n
  induction n with
  | zero =>
    intro e
    unfold Exec.loopP Exec.loop
    rw [passP_same hP]
    cases e.pass t with
    | none => rfl
    | some r => rfl
  | succ n ih =>
    intro e
    unfold Exec.loopP Exec.loop
    rw [passP_same hP]
    cases e.pass t with
    | none => rfl
    | some r => simp only [Option.map_some, ih]

theorem tickToP_same (hP : ∀ b t c s, P b t c s = false) (e : Exec env) (t : Nat) :
    e.tickToP P t = e.tickTo t := by
  unfold Exec.tickToP Exec.tickTo
  rw [loopP_same hP]
  rfl

theorem stepP_same (hP : ∀ b t c s, P b t c s = false) (e : Exec env) (op : Op env.B) :
    e.stepP P op = e.step op := by
  cases op with
  | call c => rfl
  | tickTo t => exact tickToP_same hP e t
  | tick d => exact tickToP_same hP e _

/-! ## Elementary effects -/

theorem runBodyP_steps {src : Src} {t : Nat} (b : env.B) (w : World env) :
    Steps src t w (runBodyP P src b t w).2.1 := Steps.body b w

theorem repLoopP_steps {src : Src} {t cur interval maxW : Nat} : ∀ (fuel : Nat) (start : Bool) (consumed ex : Nat)
    (res : WorkResult) (b : env.B) (w : World env) (r),
    repLoopP P src t cur interval maxW fuel start consumed ex res b w = some r →
    Steps src t w r.2.2.2.1 := by
  intro fuel
  induction fuel with
  | zero => intro _ _ _ _ _ _ _ h; simp [repLoopP] at h
  | succ n ih =>
    intro start consumed ex res b w r h
    unfold repLoopP at h
    split at h
    · dsimp only at h
      split at h
      · split at h
        · cases h; exact runBodyP_steps (P := P) b w
        · exact (runBodyP_steps (P := P) b w).trans (ih _ _ _ _ _ _ _ h)
      · exact ih _ _ _ _ _ _ _ h
    · cases h; exact .refl _

theorem tickP_steps {src : Src} {t : Nat} {wk : Work env.B} {w : World env} {r}
    (h : wk.tickP P src t w = some r) : Steps src t w r.2.1 := by
  cases wk with
  | delayed work s c d =>
    simp only [Work.tickP] at h
    split at h
    · cases work <;> (cases h; first | exact runBodyP_steps (P := P) _ _ | exact .refl _)
    · cases h; exact .refl _
  | immediate work =>
    cases work <;> (simp only [Work.tickP] at h; cases h; first | exact runBodyP_steps (P := P) _ _ | exact .refl _)
  | repeating si cu c i m b =>
    simp only [Work.tickP] at h
    split at h
    · rename_i heq; cases h; exact repLoopP_steps _ _ _ _ _ _ _ _ heq
    · cases h
  | continuous l b => simp only [Work.tickP] at h; cases h; exact runBodyP_steps (P := P) _ _
  | invoked b => simp only [Work.tickP] at h; cases h; exact runBodyP_steps (P := P) _ _

/-! ## The log -/

theorem runsOf_append {B : Type} (u : Nat) (a b : List (Ev B)) :
    runsOf u (a ++ b) = runsOf u a ++ runsOf u b := by
  simp [runsOf]

theorem runsOf_snoc {B : Type} {u : Nat} {log : List (Ev B)} {e : Ev B} (he : ∀ t, e ≠ .run (.work u) t) :
    runsOf u (log ++ [e]) = runsOf u log := by
  rw [runsOf_append]
  have : runsOf u [e] = [] := by
    cases e with
    | run src t =>
      have : src ≠ .work u := fun h => he t (by rw [h])
      simp [runsOf, this]
    | _ => rfl
  rw [this, List.append_nil]

theorem runsOf_call (u : Nat) (w : World env) (c : Call env.B) : runsOf u (w.call c).log = runsOf u w.log := by
  cases c <;> exact runsOf_snoc (by intro t h; cases h)

theorem runsOf_calls (u : Nat) (cs : List (Call env.B)) (w : World env) :
    runsOf u (cs.foldl World.call w).log = runsOf u w.log := by
  induction cs generalizing w with
  | nil => rfl
  | cons c cs ih => rw [List.foldl_cons, ih, runsOf_call]

theorem runsOf_body (u : Nat) (b : env.B) (t : Nat) (w : World env) :
    runsOf u (runBodyP P (.work u) b t w).2.1.log = runsOf u w.log ++ [t] := by
  simp only [runBodyP, runBody, runsOf_calls, World.emit, runsOf_append]
  simp [runsOf]

/-- What never changes of a record, and what is never undone. -/
structure Same {B : Type} (r r' : Rec B) : Prop where
  cid : r'.cid = r.cid
  now : r'.now = r.now
  work : r'.work = r.work
  cancelled : r'.cancelled = false → r.cancelled = false
  done : r'.done = false → r.done = false

theorem rec_snoc {B : Type} {u : Nat} {log : List (Ev B)} {e : Ev B} (he : ∀ c now wk, e ≠ .scheduled u c now wk)
    {r' : Rec B} (h : (track u (log ++ [e])).seen = some r') :
    ∃ r, (track u log).seen = some r ∧ Same r r' ∧ (e = .cancel r.cid → r'.cancelled = true) ∧
      (e = .done (.work u) → r'.done = true) ∧ (e ≠ .done (.work u) → r'.done = r.done) := by
  rw [track_snoc] at h
  cases hs : (track u log).seen with
  | none =>
    exfalso
    cases e with
    | scheduled v c now wk =>
      have : v ≠ u := fun hv => he c now wk (by rw [hv])
      simp [Track.step, this, hs] at h
    | run src t =>
      simp only [Track.step] at h; split at h <;> simp [hs] at h
    | done src =>
      simp only [Track.step] at h; split at h <;> simp [hs] at h
    | _ => simp [Track.step, hs] at h
  | some r =>
    refine ⟨r, rfl, ?_⟩
    cases e with
    | scheduled v c now wk =>
      have : v ≠ u := fun hv => he c now wk (by rw [hv])
      simp only [Track.step, this, if_false, hs, Option.some.injEq] at h
      subst h
      exact ⟨⟨rfl, rfl, rfl, id, id⟩, (fun h => by cases h), (fun h => by cases h), fun _ => rfl⟩
    | run src t =>
      simp only [Track.step] at h
      split at h <;> simp only [hs, Option.map_some, Option.some.injEq] at h <;> subst h <;>
      exact ⟨⟨rfl, rfl, rfl, id, id⟩, (fun h => by cases h), (fun h => by cases h), fun _ => rfl⟩
    | done src =>
      simp only [Track.step] at h
      split at h
      · simp only [hs, Option.map_some, Option.some.injEq] at h
        subst h
        rename_i hsrc
        subst hsrc
        exact ⟨⟨rfl, rfl, rfl, id, (fun h => by cases h)⟩, (fun h => by cases h), fun _ => rfl, fun h => absurd rfl h⟩
      · rename_i hsrc
        simp only [hs, Option.some.injEq] at h
        subst h
        exact ⟨⟨rfl, rfl, rfl, id, id⟩, (fun h => by cases h), (fun h => by cases h; exact absurd rfl hsrc), fun _ => rfl⟩
    | cancel c =>
      simp only [Track.step, hs, Option.map_some, Option.some.injEq] at h
      split at h
      · subst h
        exact ⟨⟨rfl, rfl, rfl, (fun h => by cases h), id⟩, fun _ => rfl, (fun h => by cases h), fun _ => rfl⟩
      · rename_i hc
        subst h
        exact ⟨⟨rfl, rfl, rfl, id, id⟩, (fun h => by cases h; exact absurd rfl hc), (fun h => by cases h), fun _ => rfl⟩
    | tickStart t =>
      simp only [Track.step, hs, Option.map_some, Option.some.injEq] at h
      subst h
      exact ⟨⟨rfl, rfl, rfl, id, id⟩, (fun h => by cases h), (fun h => by cases h), fun _ => rfl⟩
    | _ =>
      simp only [Track.step, hs, Option.some.injEq] at h
      subst h
      exact ⟨⟨rfl, rfl, rfl, id, id⟩, (fun h => by cases h), (fun h => by cases h), fun _ => rfl⟩

/-! ## What is true of the `u`-th scheduled work at any time -/

/-- Where it is, if it is not cancelled and not done: with the executor, or waiting in the queue, and not about to be
cancelled. -/
def Present {B : Type} (u c : Nat) (keys : List Nat) (q : List (Action B)) : Prop :=
  (u ∈ keys ∧ Action.cancel c ∉ q) ∨
    ∃ q1 wk q2, q = q1 ++ .activate c u wk :: q2 ∧ Action.cancel c ∉ q2

theorem Present.queue {B : Type} {u c : Nat} {keys : List Nat} {q : List (Action B)} (h : Present u c keys q)
    {a : Action B} (ha : a ≠ .cancel c) : Present u c keys (q ++ [a]) := by
  rcases h with ⟨h1, h2⟩ | ⟨q1, wk, q2, h1, h2⟩
  · refine .inl ⟨h1, ?_⟩
    intro h
    rcases List.mem_append.1 h with h | h
    · exact h2 h
    · exact ha (List.mem_singleton.1 h).symm
  · refine .inr ⟨q1, wk, q2 ++ [a], by simp [h1], ?_⟩
    intro h
    rcases List.mem_append.1 h with h | h
    · exact h2 h
    · exact ha (List.mem_singleton.1 h).symm

/-- The tables of executor and scheduler, as far as they concern `u`. -/
structure Tab (u : Nat) (keys : List Nat) (nw : Nat) (cm : Nat → List Nat) (w : World env) : Prop where
  sorted : keys.Pairwise (· < ·)
  bound : ∀ k ∈ keys, k < nw
  cmap : ∀ c, u ∈ cm c → u < nw ∧ ∀ r, (track u w.log).seen = some r → r.cid = c
  uids : Uids nw w.sched
  known : Known u w
  present : ∀ r, (track u w.log).seen = some r → r.cancelled = false → r.done = false →
    Present u r.cid keys w.sched.queue
  held : ∀ r, (track u w.log).seen = some r → u ∈ keys → u ∈ cm r.cid

section

variable {u : Nat} {keys : List Nat} {nw : Nat} {cm : Nat → List Nat} {w : World env}

theorem Tab.emit (h : Tab u keys nw cm w) (e : Ev env.B) (he : ∀ v c now wk, e ≠ .scheduled v c now wk) :
    Tab u keys nw cm (w.emit e) := by
  refine ⟨h.sorted, h.bound, ?_, h.uids, h.known.emit e (by first | exact he | (intros; exact he _ _ _ _)), ?_, ?_⟩
  · intro c hc
    refine ⟨(h.cmap c hc).1, fun r' hr' => ?_⟩
    obtain ⟨r, hr, hs, _⟩ := rec_snoc (fun c now wk => he u c now wk) hr'
    rw [hs.cid]
    exact (h.cmap c hc).2 r hr
  · intro r' hr' hc hd
    obtain ⟨r, hr, hs, _⟩ := rec_snoc (fun c now wk => he u c now wk) hr'
    rw [hs.cid]
    exact h.present r hr (hs.cancelled hc) (hs.done hd)
  · intro r' hr' hm
    obtain ⟨r, hr, hs, _⟩ := rec_snoc (fun c now wk => he u c now wk) hr'
    rw [hs.cid]
    exact h.held r hr hm

theorem Tab.call (h : Tab u keys nw cm w) (c : Call env.B) : Tab u keys nw cm (w.call c) := by
  have hk := h.known.call h.uids c
  have hu := h.uids.call c
  cases c with
  | scheduleWork work cid =>
    by_cases hv : w.sched.nextUid = u
    · -- `u` is scheduled by this call
      have hnew : ∀ r, (track u (w.call (.scheduleWork work cid)).log).seen = some r → r.cid = cid := by
        intro r hr
        simp only [World.call] at hr
        rw [track_snoc] at hr
        simp only [Track.step, hv, if_true, Option.some.injEq] at hr
        rw [← hr]
      refine ⟨h.sorted, h.bound, ?_, hu, hk, ?_, ?_⟩
      · intro c hc
        have h1 := (h.cmap c hc).1
        have h2 := h.uids.le
        omega
      · intro r hr _ _
        rw [hnew r hr]
        refine .inr ⟨w.sched.queue, work.onScheduled w.sched.currentTick, [], ?_, by simp⟩
        simp only [World.call, hv]
      · intro r _ hm
        have h1 := h.bound u hm
        have h2 := h.uids.le
        omega
    · have hne : ∀ c now wk, (Ev.scheduled w.sched.nextUid cid w.sched.currentTick work : Ev env.B) ≠ .scheduled u c now wk := by
        intro c now wk he
        cases he
        exact hv rfl
      refine ⟨h.sorted, h.bound, ?_, hu, hk, ?_, ?_⟩
      · intro c hc
        refine ⟨(h.cmap c hc).1, fun r' hr' => ?_⟩
        obtain ⟨r, hr, hs, _⟩ := rec_snoc hne hr'
        rw [hs.cid]
        exact (h.cmap c hc).2 r hr
      · intro r' hr' hc hd
        obtain ⟨r, hr, hs, _⟩ := rec_snoc hne hr'
        rw [hs.cid]
        exact (h.present r hr (hs.cancelled hc) (hs.done hd)).queue (by intro h; cases h)
      · intro r' hr' hm
        obtain ⟨r, hr, hs, _⟩ := rec_snoc hne hr'
        rw [hs.cid]
        exact h.held r hr hm
  | cancel cid =>
    refine ⟨h.sorted, h.bound, ?_, hu, hk, ?_, ?_⟩
    · intro c hc
      refine ⟨(h.cmap c hc).1, fun r' hr' => ?_⟩
      obtain ⟨r, hr, hs, _⟩ := rec_snoc (by intro c now wk h; cases h) hr'
      rw [hs.cid]
      exact (h.cmap c hc).2 r hr
    · intro r' hr' hc hd
      obtain ⟨r, hr, hs, hcan, _⟩ := rec_snoc (by intro c now wk h; cases h) hr'
      rw [hs.cid]
      refine (h.present r hr (hs.cancelled hc) (hs.done hd)).queue ?_
      intro he
      cases he
      rw [hcan rfl] at hc
      cases hc
    · intro r' hr' hm
      obtain ⟨r, hr, hs, _⟩ := rec_snoc (by intro c now wk h; cases h) hr'
      rw [hs.cid]
      exact h.held r hr hm
  | _ =>
    refine ⟨h.sorted, h.bound, ?_, hu, hk, ?_, ?_⟩
    · intro c hc
      refine ⟨(h.cmap c hc).1, fun r' hr' => ?_⟩
      obtain ⟨r, hr, hs, _⟩ := rec_snoc (by intro c now wk h; cases h) hr'
      rw [hs.cid]
      exact (h.cmap c hc).2 r hr
    · intro r' hr' hc hd
      obtain ⟨r, hr, hs, _⟩ := rec_snoc (by intro c now wk h; cases h) hr'
      rw [hs.cid]
      have hp := h.present r hr (hs.cancelled hc) (hs.done hd)
      first
        | exact hp
        | exact hp.queue (by intro h; cases h)
    · intro r' hr' hm
      obtain ⟨r, hr, hs, _⟩ := rec_snoc (by intro c now wk h; cases h) hr'
      rw [hs.cid]
      exact h.held r hr hm

theorem Tab.steps {src : Src} {t : Nat} {w' : World env} (h : Tab u keys nw cm w) (hs : Steps src t w w') :
    Tab u keys nw cm w' := by
  refine hs.inv (P := fun w => Tab u keys nw cm w) ?_ h
  intro a b hab ha
  cases hab with
  | run => exact ha.emit _ (by intro _ _ _ _ h; cases h)
  | ctx => exact ⟨ha.1, ha.2, ha.3, ha.4, ⟨ha.5.1, ha.5.2⟩, ha.6, ha.7⟩
  | call c => exact ha.call c

/-- Once it was scheduled, its record keeps what it has. -/
theorem rec_steps {src : Src} {t : Nat} {w' : World env} (hlt : u < w.sched.nextUid) (hs : Steps src t w w') :
    u < w'.sched.nextUid ∧ ∀ r', (track u w'.log).seen = some r' →
      ∃ r, (track u w.log).seen = some r ∧ Same r r' ∧ r'.done = r.done := by
  refine hs.inv (P := fun w' => u < w'.sched.nextUid ∧ ∀ r', (track u w'.log).seen = some r' →
      ∃ r, (track u w.log).seen = some r ∧ Same r r' ∧ r'.done = r.done) ?_
    ⟨hlt, fun r' hr' => ⟨r', hr', ⟨rfl, rfl, rfl, id, id⟩, rfl⟩⟩
  rintro a b hab ⟨h1, h2⟩
  have key : ∀ (ev : Ev env.B), (∀ c now wk, ev ≠ .scheduled u c now wk) → ev ≠ .done (.work u) →
      ∀ r', (track u (a.log ++ [ev])).seen = some r' →
      ∃ r, (track u w.log).seen = some r ∧ Same r r' ∧ r'.done = r.done := by
    intro ev hev hd r' hr'
    obtain ⟨r1, hr1, hs1, _, _, hd1⟩ := rec_snoc hev hr'
    obtain ⟨r, hr, hs, hd0⟩ := h2 r1 hr1
    exact ⟨r, hr, ⟨hs1.cid.trans hs.cid, hs1.now.trans hs.now, hs1.work.trans hs.work,
      fun h => hs.cancelled (hs1.cancelled h), fun h => hs.done (hs1.done h)⟩, (hd1 hd).trans hd0⟩
  cases hab with
  | run => exact ⟨h1, key _ (by intro _ _ _ h; cases h) (by intro h; cases h)⟩
  | ctx => exact ⟨h1, h2⟩
  | call c =>
    cases c with
    | scheduleWork work cid =>
      refine ⟨by simp only [World.call]; omega, key _ ?_ (by intro h; cases h)⟩
      intro c now wk he
      cases he
      omega
    | _ => exact ⟨h1, key _ (by intro _ _ _ h; cases h) (by intro h; cases h)⟩

end

/-! ## What the work itself keeps true -/

/-- `M now work wk runs`: the work `wk`, scheduled as `work` at `now`, has run in these ticks. `G` is what follows of it also
when the work is gone; `Due` tells the ticks by which it must have run. -/
structure KeepLaws (P : Panics env) (u : Nat) (M : Nat → Work env.B → Work env.B → List Nat → Prop)
    (G : Nat → Work env.B → Bool → List Nat → Prop) (Due : Nat → Work env.B → Nat → Prop) : Prop where
  start : ∀ now work, M now work (work.onScheduled now) []
  fresh : ∀ now work, G now work false []
  tick : ∀ now work wk dn t w wk' w' a, M now work wk (runsOf u w.log) → G now work dn (runsOf u w.log) →
    wk.tickP P (.work u) t w = some (wk', w', a) →
    M now work wk' (runsOf u w'.log) ∧ G now work dn (runsOf u w'.log) ∧
      (a = .said .done → G now work true (runsOf u w'.log)) ∧ (Due now work t → runsOf u w'.log ≠ [])

variable {u : Nat} {M : Nat → Work env.B → Work env.B → List Nat → Prop}
  {G : Nat → Work env.B → Bool → List Nat → Prop} {Due : Nat → Work env.B → Nat → Prop}

/-- What is known of the runs of `u`. -/
structure Snd (u : Nat) (M : Nat → Work env.B → Work env.B → List Nat → Prop)
    (G : Nat → Work env.B → Bool → List Nat → Prop) (act : List (Nat × Work env.B)) (nw : Nat) (w : World env) : Prop where
  norun : nw ≤ u → runsOf u w.log = []
  act : ∀ wk r, (u, wk) ∈ act → (track u w.log).seen = some r → M r.now r.work wk (runsOf u w.log)
  good : ∀ r, (track u w.log).seen = some r → G r.now r.work r.done (runsOf u w.log)

section

variable {act : List (Nat × Work env.B)} {nw : Nat} {w : World env} (L : KeepLaws P u M G Due)

theorem Snd.emit (h : Snd u M G act nw w) (e : Ev env.B) (he : ∀ v c now wk, e ≠ .scheduled v c now wk)
    (hr : ∀ t, e ≠ .run (.work u) t) (hd : e ≠ .done (.work u)) : Snd u M G act nw (w.emit e) := by
  have hrun : runsOf u (w.emit e).log = runsOf u w.log := runsOf_snoc hr
  refine ⟨fun hn => by rw [hrun]; exact h.norun hn, ?_, ?_⟩
  · intro wk r' hm hr'
    obtain ⟨r, hr, hs, _⟩ := rec_snoc (fun c now wk => he u c now wk) hr'
    rw [hrun, hs.now, hs.work]
    exact h.act wk r hm hr
  · intro r' hr'
    obtain ⟨r, hr, hs, _, _, hd'⟩ := rec_snoc (fun c now wk => he u c now wk) hr'
    rw [hrun, hs.now, hs.work, hd' hd]
    exact h.good r hr

include L in
theorem Snd.call (h : Snd u M G act nw w) (hb : ∀ p ∈ act, p.1 < nw) (hu : nw ≤ w.sched.nextUid) (c : Call env.B) :
    Snd u M G act nw (w.call c) := by
  have gen : ∀ (ev : Ev env.B), (∀ c now wk, ev ≠ .scheduled u c now wk) → ev ≠ .done (.work u) →
      (∀ t, ev ≠ .run (.work u) t) →
      Snd u M G act nw ({ w with log := w.log ++ [ev] } : World env) := by
    intro ev hev hd hr
    have hrun : runsOf u (w.log ++ [ev]) = runsOf u w.log := runsOf_snoc hr
    refine ⟨fun hn => by dsimp only; rw [hrun]; exact h.norun hn, ?_, ?_⟩
    · intro wk r' hm hr'
      obtain ⟨r, hr, hs, _⟩ := rec_snoc hev hr'
      dsimp only
      rw [hrun, hs.now, hs.work]
      exact h.act wk r hm hr
    · intro r' hr'
      obtain ⟨r, hr, hs, _, _, hd'⟩ := rec_snoc hev hr'
      dsimp only
      rw [hrun, hs.now, hs.work, hd' hd]
      exact h.good r hr
  cases c with
  | scheduleWork work cid =>
    by_cases hv : w.sched.nextUid = u
    · have hnew : ∀ r, (track u (w.call (.scheduleWork work cid)).log).seen = some r → r.done = false := by
        intro r hr
        simp only [World.call] at hr
        rw [track_snoc] at hr
        simp only [Track.step, hv, if_true, Option.some.injEq] at hr
        rw [← hr]
      have hrun : runsOf u (w.call (.scheduleWork work cid)).log = [] := by
        rw [runsOf_call]; exact h.norun (by omega)
      refine ⟨fun _ => hrun, ?_, ?_⟩
      · intro wk r hm _
        have := hb _ hm
        simp only at this
        omega
      · intro r hr
        rw [hrun, hnew r hr]
        exact L.fresh _ _
    · have := gen (.scheduled w.sched.nextUid cid w.sched.currentTick work)
        (by intro c now wk he; cases he; exact hv rfl) (by intro h; cases h) (by intro t h; cases h)
      exact ⟨this.1, this.2, this.3⟩
  | cancel cid =>
    have := gen (.cancel cid) (by intro c now wk h; cases h) (by intro h; cases h) (by intro t h; cases h)
    exact ⟨this.1, this.2, this.3⟩
  | scheduleInvokedWork work iid =>
    have := gen (.addInvoked iid work) (by intro c now wk h; cases h) (by intro h; cases h) (by intro t h; cases h)
    exact ⟨this.1, this.2, this.3⟩
  | invoke iid =>
    have := gen (.invoke iid) (by intro c now wk h; cases h) (by intro h; cases h) (by intro t h; cases h)
    exact ⟨this.1, this.2, this.3⟩
  | cancelInvoked iid =>
    have := gen (.cancelInvoked iid) (by intro c now wk h; cases h) (by intro h; cases h) (by intro t h; cases h)
    exact ⟨this.1, this.2, this.3⟩
  | generateCancellationId =>
    have := gen (.newCancellationId w.sched.nextCancel) (by intro c now wk h; cases h) (by intro h; cases h) (by intro t h; cases h)
    exact ⟨this.1, this.2, this.3⟩
  | generateInvokeId =>
    have := gen (.newInvokeId w.sched.nextInvoke) (by intro c now wk h; cases h) (by intro h; cases h) (by intro t h; cases h)
    exact ⟨this.1, this.2, this.3⟩

include L in
/-- Closures of other work. -/
theorem Snd.steps {src : Src} {t : Nat} {w' : World env} (hsrc : src ≠ .work u) (h : Snd u M G act nw w)
    (hb : ∀ p ∈ act, p.1 < nw) (hu : Uids nw w.sched) (hs : Steps src t w w') : Snd u M G act nw w' := by
  refine (hs.inv (P := fun w => Uids nw w.sched ∧ Snd u M G act nw w) ?_ ⟨hu, h⟩).2
  rintro a b hab ⟨h1, h2⟩
  cases hab with
  | run =>
    exact ⟨h1, h2.emit _ (by intro _ _ _ _ h; cases h) (by intro t h; cases h; exact hsrc rfl) (by intro h; cases h)⟩
  | ctx => exact ⟨h1, ⟨h2.1, h2.2, h2.3⟩⟩
  | call c => exact ⟨h1.call c, h2.call L hb h1.le c⟩

end

end Rx.Sched
