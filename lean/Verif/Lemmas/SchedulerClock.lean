import Verif.Lemmas.SchedulerInvoke

/-!
# Clock, quiescence, ids, termination
-/

namespace Rx.Sched

open Spec

variable {env : Env}

/-! ## Clock -/

theorem tickScheduled_clock {e e' : Exec env} {t : Nat} {q : Bool}
    (h : e.tickScheduled t = some (e', q)) : e'.currentTick = e.currentTick := by
  unfold Exec.tickScheduled at h
  split at h
  · cases h
  · cases h; rfl

theorem processAll_clock (q : List (Action env.B)) (e : Exec env) :
    (q.foldl Exec.processAction e).currentTick = e.currentTick := by
  induction q generalizing e with
  | nil => rfl
  | cons a q ih => rw [List.foldl_cons, ih]; cases a <;> rfl

theorem pass_clock {e e' : Exec env} {t : Nat} {q : Bool} (h : e.pass t = some (e', q)) :
    e'.currentTick = e.currentTick := by
  unfold Exec.pass at h
  simp only at h
  split at h
  · cases h
  · rename_i e1 nw heq
    split at h
    · cases h
    · rename_i e2 heq2
      cases h
      unfold Exec.executeInvoked at heq2
      split at heq2
      · cases heq2
      · cases heq2
        simp only
        rw [tickScheduled_clock heq, Exec.drain, processAll_clock]

theorem tickTo_clock {e e' : Exec env} {t : Nat} (h : e.tickTo t = .ok e') :
    e'.currentTick = max e.currentTick t := by
  obtain ⟨e1, hl, rfl⟩ := tickTo_ok h
  have := loop_inv (P := fun e1 => e1.currentTick = (e.begin t).currentTick)
    (fun _ _ _ h hp => (pass_clock hp).trans h) _ rfl hl
  simp only at this ⊢
  rw [this]
  simp only [Exec.begin, updateTick_eq]

/-! ## Quiescence -/

theorem tickPass_quiet {already : Nat → Bool} {t : Nat} : ∀ (l : List (Nat × Work env.B))
    (w : World env) (r), tickPass already t l w = some r →
    (r.1.filter (fun p => p.2.2.isSome)) = [] → r.2 = w := by
  intro l
  induction l with
  | nil => intro w r h _; simp only [tickPass] at h; cases h; rfl
  | cons p l ih =>
    obtain ⟨id, wk⟩ := p
    intro w r h hq
    simp only [tickPass] at h
    split at h
    · split at h
      · rename_i heq
        cases h
        have := ih _ _ heq (by simpa using hq)
        exact this
      · cases h
    · split at h
      · cases h
      · split at h
        · cases h; simp at hq
        · cases h

theorem pass_quiet {e e' : Exec env} {t : Nat} (hi : e.invoked = [])
    (h : e.pass t = some (e', true)) : e'.world.sched.queue = [] := by
  unfold Exec.pass at h
  simp only at h
  split at h
  · cases h
  · rename_i e1 nw heq
    split at h
    · cases h
    · rename_i e2 heq2
      simp only [Option.some.injEq, Prod.mk.injEq, Bool.and_eq_true] at h
      obtain ⟨rfl, hnw, hq⟩ := h
      have hqe : e.world.sched.queue = [] := by
        simp only [Exec.drain, Bool.not_not, List.isEmpty_iff] at hq
        exact hq
      unfold Exec.tickScheduled at heq
      split at heq
      · cases heq
      · rename_i out w heq3
        simp only [Option.some.injEq, Prod.mk.injEq] at heq
        obtain ⟨rfl, hnw'⟩ := heq
        rw [← hnw'] at hnw
        simp only [List.isEmpty_iff, List.map_eq_nil_iff] at hnw
        have hw := tickPass_quiet _ _ _ heq3 hnw
        simp only at hw
        unfold Exec.executeInvoked at heq2
        have hinv : (e.drain t).1.invoked = [] := drain_invoked_nil hqe hi
        simp only [hinv, execInvoked] at heq2
        cases heq2
        simp only
        rw [hw]
        simp only [Exec.drain, processAll_world]

theorem pass_invoked {e e' : Exec env} {t : Nat} {q : Bool} (h : e.pass t = some (e', q)) :
    e'.invoked = [] := by
  unfold Exec.pass at h
  simp only at h
  split at h
  · cases h
  · split at h
    · cases h
    · rename_i e2 heq2
      cases h
      unfold Exec.executeInvoked at heq2
      split at heq2
      · cases heq2
      · cases heq2; rfl

theorem loop_quiet {t : Nat} : ∀ (n : Nat) {e e' : Exec env}, e.invoked = [] →
    Exec.loop t n e = .ok e' → e'.world.sched.queue = [] ∧ e'.invoked = [] := by
  intro n
  induction n with
  | zero =>
    intro e e' hi hl
    unfold Exec.loop at hl
    split at hl
    · cases hl
    · rename_i e1 q heq
      split at hl
      · rename_i hq; cases hl; subst hq; exact ⟨pass_quiet hi heq, pass_invoked heq⟩
      · cases hl
  | succ n ih =>
    intro e e' hi hl
    unfold Exec.loop at hl
    split at hl
    · cases hl
    · rename_i e1 q heq
      split at hl
      · rename_i hq; cases hl; subst hq; exact ⟨pass_quiet hi heq, pass_invoked heq⟩
      · exact ih (pass_invoked heq) hl

theorem tickTo_quiet {e e' : Exec env} {t : Nat} (hi : e.invoked = []) (h : e.tickTo t = .ok e') :
    e'.world.sched.queue = [] ∧ e'.invoked = [] := by
  obtain ⟨e1, hl, rfl⟩ := tickTo_ok h
  have := loop_quiet e.maxDepth (e := e.begin t) hi hl
  exact this

theorem run_invoked {ops : List (Op env.B)} {e e' : Exec env} (hi : e.invoked = [])
    (h : e.run ops = .ok e') : e'.invoked = [] :=
  run_inv (P := fun e => e.invoked = []) (fun _ _ h => h) (fun _ _ _ h ht => (tickTo_quiet h ht).2)
    ops hi h

/-! ## Facts about worlds -/

/-- What an invariant of the world must satisfy to hold throughout. -/
structure GLaws (P : World env → Prop) : Prop where
  step : ∀ src t a b, WStep src t a b → P a → P b
  emit : ∀ w e, (∀ x : Ev env.B, e = x → x.isBody = false) → P w → P (w.emit e)
  drain : ∀ w t, P w → P { w with sched := { w.sched with currentTick := t, queue := [] } }

theorem GLaws.pass {P : World env → Prop} (laws : GLaws P) {e e' : Exec env} {t : Nat} {q : Bool}
    (h : P e.world) (hp : e.pass t = some (e', q)) : P e'.world := by
  have hem : ∀ (w : World env) (ev : Ev env.B), ev.isBody = false → P w → P (w.emit ev) :=
    fun w ev he hw => laws.emit w ev (by rintro x rfl; exact he) hw
  unfold Exec.pass at hp
  simp only at hp
  split at hp
  · cases hp
  · rename_i e1 nw heq
    split at hp
    · cases hp
    · rename_i e2 heq2
      cases hp
      have h1 : P (e.drain t).1.world := by
        simp only [Exec.drain, processAll_world]
        have := laws.drain _ (updateTick e.world.sched.currentTick t) (hem e.world .drained rfl h)
        exact this
      have h2 : P e1.world := by
        unfold Exec.tickScheduled at heq
        split at heq
        · cases heq
        · rename_i out w heq3
          cases heq
          exact tickPass_inv laws.step (fun v x w hw => hem _ _ rfl hw) (fun s w hw => hem _ _ rfl hw)
            _ _ _ heq3 h1
      unfold Exec.executeInvoked at heq2
      split at heq2
      · cases heq2
      · rename_i inv w heq4
        cases heq2
        exact execInvoked_inv (fun i => laws.step (.invoked i)) (fun i w hw => hem _ _ rfl hw)
          _ _ _ _ heq4 h2

theorem GLaws.tickTo {P : World env → Prop} (laws : GLaws P) {e e' : Exec env} {t : Nat}
    (h : P e.world) (ht : e.tickTo t = .ok e') : P e'.world := by
  obtain ⟨e1, hl, rfl⟩ := tickTo_ok ht
  have hb : P (e.begin t).world := laws.emit _ (.tickStart t) (by rintro x rfl; rfl) h
  have := loop_inv (P := fun e => P e.world) (fun e e' b h hp => laws.pass h hp) _ hb hl
  exact laws.emit _ .tickEnd (by rintro x rfl; rfl) this

theorem GLaws.run {P : World env → Prop} (laws : GLaws P) {ops : List (Op env.B)} {e e' : Exec env}
    (h : P e.world) (hr : e.run ops = .ok e') : P e'.world :=
  run_inv (P := fun e => P e.world)
    (fun _ c h => laws.step (.work 0) 0 _ _ (.call _ c) h) (fun _ _ _ h ht => laws.tickTo h ht)
    ops h hr

/-! ## Ids -/

structure Ids (w : World env) : Prop where
  cids : w.log.filterMap Ev.newCid? = List.range w.sched.nextCancel
  iids : w.log.filterMap Ev.newIid? = List.range w.sched.nextInvoke
  uids : w.log.filterMap Ev.scheduled? = List.range w.sched.nextUid

theorem ids_laws : GLaws (env := env) Ids where
  step := by
    rintro src t a b h ⟨h1, h2, h3⟩
    cases h with
    | run => exact ⟨by simp [World.emit, h1, Ev.newCid?], by simp [World.emit, h2, Ev.newIid?],
        by simp [World.emit, h3, Ev.scheduled?]⟩
    | ctx => exact ⟨h1, h2, h3⟩
    | call c =>
      cases c <;> refine ⟨?_, ?_, ?_⟩ <;> simp only [World.call, List.filterMap_append, h1, h2, h3] <;>
        simp [Ev.newCid?, Ev.newIid?, Ev.scheduled?, List.range_succ]
  emit := by
    rintro w e he ⟨h1, h2, h3⟩
    have hb := he e rfl
    refine ⟨?_, ?_, ?_⟩ <;> simp only [World.emit, List.filterMap_append, h1, h2, h3] <;>
      cases e <;> simp_all [Ev.newCid?, Ev.newIid?, Ev.scheduled?, Ev.isBody]
  drain := by
    rintro w t ⟨h1, h2, h3⟩
    exact ⟨h1, h2, h3⟩

/-! ## The clock work is stamped with -/

/-- Every `schedule_work` was stamped with the time. -/
def Stamped (log : List (Ev env.B)) : Prop :=
  ∀ pre u c now wk post, log = pre ++ .scheduled u c now wk :: post → now = clock pre

theorem Stamped.snoc {log : List (Ev env.B)} (h : Stamped log) (e : Ev env.B)
    (he : ∀ u c now wk, e = .scheduled u c now wk → now = clock log) : Stamped (log ++ [e]) := by
  intro pre u c now wk post hl
  rcases List.eq_nil_or_concat post with rfl | ⟨post', x, rfl⟩
  · have := List.append_inj' hl rfl
    obtain ⟨rfl, h2⟩ := this
    exact he u c now wk (by simpa using h2)
  · rw [List.concat_eq_append, ← List.cons_append, ← List.append_assoc] at hl
    exact h pre u c now wk post' (List.append_inj' hl rfl).1

theorem clock_snoc (log : List (Ev env.B)) (e : Ev env.B) :
    clock (log ++ [e]) = match e with | .tickStart t => max (clock log) t | _ => clock log := by
  cases e <;> simp [clock, List.foldl_append]

/-- The scheduler's clock is the time, which is at least `t`. -/
structure Sync (t : Nat) (w : World env) : Prop where
  now : w.sched.currentTick = clock w.log
  ge : t ≤ w.sched.currentTick
  stamped : Stamped w.log

theorem Sync.emit {t : Nat} {w : World env} (h : Sync t w) (e : Ev env.B)
    (h1 : ∀ t, e ≠ .tickStart t) (h2 : ∀ u c now wk, e ≠ .scheduled u c now wk) :
    Sync t (w.emit e) := by
  refine ⟨?_, h.ge, h.stamped.snoc e fun u c now wk he => absurd he (h2 u c now wk)⟩
  simp only [World.emit, clock_snoc]
  cases e <;> first | exact h.now | exact absurd rfl (h1 _)

theorem Sync.call {t : Nat} {w : World env} (h : Sync t w) (c : Call env.B) : Sync t (w.call c) := by
  cases c <;> refine ⟨?_, h.ge, ?_⟩ <;> simp only [World.call, clock_snoc] <;>
    first
    | exact h.now
    | (refine h.stamped.snoc _ fun u c now wk he => ?_
       first | cases he; done | (cases he; exact h.now))

theorem Sync.step {t : Nat} {src : Src} {x : Nat} {a b : World env} (hs : WStep src x a b)
    (h : Sync t a) : Sync t b := by
  cases hs with
  | run => exact h.emit _ (by simp) (by simp)
  | ctx => exact ⟨h.1, h.2, h.3⟩
  | call c => exact h.call c

/-- At the beginning of a tick the scheduler's clock may be behind. -/
structure Lag (t : Nat) (w : World env) : Prop where
  now : max w.sched.currentTick t = clock w.log
  stamped : Stamped w.log

theorem Sync.lag {t : Nat} {w : World env} (h : Sync t w) : Lag t w :=
  ⟨by rw [← h.now]; have := h.ge; omega, h.stamped⟩

theorem Lag.pass {e e' : Exec env} {t : Nat} {q : Bool}
    (h : Lag t e.world) (hp : e.pass t = some (e', q)) : Sync t e'.world := by
  unfold Exec.pass at hp
  simp only at hp
  split at hp
  · cases hp
  · rename_i e1 nw heq
    split at hp
    · cases hp
    · rename_i e2 heq2
      cases hp
      have h1 : Sync t (e.drain t).1.world := by
        simp only [Exec.drain, processAll_world]
        refine ⟨?_, ?_, h.stamped.snoc _ (by simp)⟩
        · simp only [clock_snoc, updateTick_eq]; exact h.now
        · simp only [updateTick_eq]; omega
      have h2 : Sync t e1.world := by
        unfold Exec.tickScheduled at heq
        split at heq
        · cases heq
        · rename_i out w heq3
          cases heq
          exact tickPass_inv (fun _ _ _ _ => Sync.step) (fun v x w hw => hw.emit _ (by simp) (by simp))
            (fun s w hw => hw.emit _ (by simp) (by simp)) _ _ _ heq3 h1
      unfold Exec.executeInvoked at heq2
      split at heq2
      · cases heq2
      · rename_i inv w heq4
        cases heq2
        exact execInvoked_inv (fun i _ _ _ => Sync.step)
          (fun i w hw => hw.emit _ (by simp) (by simp)) _ _ _ _ heq4 h2

theorem Sync.tickTo {e e' : Exec env} {t : Nat} (h : Sync 0 e.world) (ht : e.tickTo t = .ok e') :
    Sync 0 e'.world := by
  obtain ⟨e1, hl, rfl⟩ := tickTo_ok ht
  have hb : Lag t (e.begin t).world := by
    refine ⟨?_, h.stamped.snoc _ (by simp)⟩
    simp only [Exec.begin, World.emit, clock_snoc, ← h.now]
  have := loop_sync hb hl
  exact Sync.emit ⟨this.1, Nat.zero_le _, this.3⟩ _ (by simp) (by simp)
where
  loop_sync {t : Nat} {n : Nat} {e e' : Exec env} (h : Lag t e.world)
      (hl : Exec.loop t n e = .ok e') : Sync t e'.world := by
    cases n with
    | zero =>
      unfold Exec.loop at hl
      split at hl
      · cases hl
      · rename_i e1 q heq
        split at hl
        · cases hl; exact h.pass heq
        · cases hl
    | succ n =>
      unfold Exec.loop at hl
      split at hl
      · cases hl
      · rename_i e1 q heq
        split at hl
        · cases hl; exact h.pass heq
        · exact loop_inv (P := fun e => Sync t e.world) (fun e e' b h hp => h.lag.pass hp) _
            (h.pass heq) hl

theorem Sync.run {ops : List (Op env.B)} {e e' : Exec env} (h : Sync 0 e.world)
    (hr : e.run ops = .ok e') : Sync 0 e'.world :=
  run_inv (P := fun e => Sync 0 e.world) (fun _ c h => h.call c) (fun _ _ _ h ht => h.tickTo ht)
    ops h hr

/-! ## Termination -/

theorem Work.positive_onScheduled {B : Type} {wk : Work B} (h : wk.positive) (t : Nat) :
    (wk.onScheduled t).positive := by
  cases wk <;> exact h

def QPos (w : World env) : Prop := ∀ a ∈ w.sched.queue, a.positive

theorem QPos.call {w : World env} (h : QPos w) (c : Call env.B) (hc : c.positive) :
    QPos (w.call c) := by
  intro a ha
  cases c with
  | scheduleWork wk cid =>
    simp only [World.call, List.mem_append, List.mem_singleton] at ha
    rcases ha with ha | rfl
    · exact h a ha
    · exact Work.positive_onScheduled hc _
  | scheduleInvokedWork wk cid =>
    simp only [World.call, List.mem_append, List.mem_singleton] at ha
    rcases ha with ha | rfl
    · exact h a ha
    · exact Work.positive_onScheduled hc _
  | cancel cid =>
    simp only [World.call, List.mem_append, List.mem_singleton] at ha
    rcases ha with ha | rfl
    · exact h a ha
    · trivial
  | invoke cid =>
    simp only [World.call, List.mem_append, List.mem_singleton] at ha
    rcases ha with ha | rfl
    · exact h a ha
    · trivial
  | cancelInvoked cid =>
    simp only [World.call, List.mem_append, List.mem_singleton] at ha
    rcases ha with ha | rfl
    · exact h a ha
    · trivial
  | generateCancellationId => exact h a ha
  | generateInvokeId => exact h a ha

theorem QPos.body (hp : env.positive) {src : Src} {b : env.B} {t : Nat} {w : World env}
    (h : QPos w) : QPos (runBody src b t w).2.1 := by
  simp only [runBody]
  have : ∀ (cs : List (Call env.B)) (w : World env), (∀ c ∈ cs, c.positive) → QPos w →
      QPos (cs.foldl World.call w) := by
    intro cs
    induction cs with
    | nil => intro w _ h; exact h
    | cons c cs ih =>
      intro w hc h
      exact ih _ (fun c hm => hc c (List.mem_cons_of_mem _ hm)) (h.call c (hc c (by simp)))
  exact this _ _ (hp _ _ _ _) h

theorem QPos.rep (hp : env.positive) {src : Src} {t cur i m : Nat} : ∀ (fuel : Nat) (start : Bool)
    (consumed ex : Nat) (res : WorkResult) (b : env.B) (w : World env) (r), QPos w →
    repLoop src t cur i m fuel start consumed ex res b w = some r → QPos r.2.2.1 := by
  intro fuel
  induction fuel with
  | zero => intro _ _ _ _ _ _ _ _ h; simp [repLoop] at h
  | succ fuel ih =>
    intro start consumed ex res b w r hw h
    unfold repLoop at h
    split at h
    · refine ih _ _ _ _ _ _ _ ?_ h
      split
      · exact hw.body hp
      · exact hw
    · cases h; exact hw

/-- Ticking work that is not repeating with interval zero returns. -/
theorem Work.tick_returns (hp : env.positive) {src : Src} {t : Nat} {w : World env}
    {wk : Work env.B} (h : wk.positive) (hw : QPos w) :
    ∃ wk' w' res, wk.tick src t w = some (wk', w', res) ∧ wk'.positive ∧ QPos w' := by
  cases wk with
  | delayed work s c d =>
    simp only [Work.tick]
    split
    · cases work with
      | none => exact ⟨_, _, _, rfl, trivial, hw⟩
      | some b => exact ⟨_, _, _, rfl, trivial, hw.body hp⟩
    · exact ⟨_, _, _, rfl, trivial, hw⟩
  | immediate work =>
    cases work with
    | none => exact ⟨_, _, _, rfl, trivial, hw⟩
    | some b => exact ⟨_, _, _, rfl, trivial, hw.body hp⟩
  | repeating si cu c i m b =>
    simp only [Work.tick]
    obtain ⟨r, hr⟩ := rep_terminates (src := src) (t := t) (cur := updateTick c t) (m := m)
      (i := i) h (repFuel (updateTick c t) m) si cu 0 .pending b w
      (by unfold repFuel; split <;> omega)
    obtain ⟨cu', b', w', res⟩ := r
    rw [hr]
    exact ⟨_, _, _, rfl, h, QPos.rep hp _ _ _ _ _ _ _ _ hw hr⟩
  | continuous l b => exact ⟨_, _, _, rfl, trivial, hw.body hp⟩
  | invoked b => exact ⟨_, _, _, rfl, trivial, hw.body hp⟩

theorem tickPass_returns (hp : env.positive) {already : Nat → Bool} {t : Nat} :
    ∀ (l : List (Nat × Work env.B)) (w : World env), (∀ p ∈ l, p.2.positive) → QPos w →
    ∃ out w', tickPass already t l w = some (out, w') ∧ (∀ p ∈ out, p.2.1.positive) ∧ QPos w' := by
  intro l
  induction l with
  | nil => intro w _ hw; exact ⟨_, _, rfl, by simp, hw⟩
  | cons p l ih =>
    obtain ⟨id, wk⟩ := p
    intro w hl hw
    have hl' : ∀ p ∈ l, p.2.positive := fun p hm => hl p (List.mem_cons_of_mem _ hm)
    have hwk : wk.positive := hl (id, wk) (by simp)
    simp only [tickPass]
    split
    · obtain ⟨out, w', h1, h2, h3⟩ := ih w hl' hw
      rw [h1]
      refine ⟨_, _, rfl, ?_, h3⟩
      intro p hm
      rcases List.mem_cons.1 hm with rfl | hm
      · exact hwk
      · exact h2 p hm
    · obtain ⟨wk', w1, res, h1, h2, h3⟩ := Work.tick_returns hp (src := .work id) (t := t)
        (w := w.emit (.ticked id t)) hwk hw
      rw [h1]
      simp only
      obtain ⟨out, w', k1, k2, k3⟩ := ih
        (if res = WorkResult.done then w1.emit (Ev.done (Src.work id)) else w1) hl'
        (by split <;> exact h3)
      rw [k1]
      refine ⟨_, _, rfl, ?_, k3⟩
      intro p hm
      rcases List.mem_cons.1 hm with rfl | hm
      · exact h2
      · exact k2 p hm

theorem execInvoked_returns (hp : env.positive) {t : Nat} : ∀ (l : List Nat)
    (inv : Nat → Option (Work env.B)) (w : World env), (∀ i wk, inv i = some wk → wk.positive) →
    QPos w → ∃ inv' w', execInvoked t l inv w = some (inv', w') ∧
      (∀ i wk, inv' i = some wk → wk.positive) ∧ QPos w' := by
  intro l
  induction l with
  | nil => intro inv w hi hw; exact ⟨_, _, rfl, hi, hw⟩
  | cons j l ih =>
    intro inv w hi hw
    simp only [execInvoked]
    split
    · exact ih _ _ hi hw
    · rename_i wk hj
      obtain ⟨wk', w1, res, h1, h2, h3⟩ := Work.tick_returns hp (src := .invoked j) (t := t)
        (w := w) (hi j wk hj) hw
      rw [h1]
      simp only
      split
      · refine ih _ _ ?_ h3
        intro i wk'' hh
        simp only [fset] at hh
        split at hh
        · cases hh
        · exact hi _ _ hh
      · refine ih _ _ ?_ h3
        intro i wk'' hh
        simp only [fset] at hh
        split at hh
        · cases hh; exact h2
        · exact hi _ _ hh

/-- Everything the executor holds is positive. -/
structure EPos (e : Exec env) : Prop where
  active : ∀ p ∈ e.active, p.2.positive
  invokable : ∀ i wk, e.invokable i = some wk → wk.positive
  queue : QPos e.world

theorem imInsert_mem {α : Type} {m : List (Nat × α)} {k : Nat} {v : α} {p : Nat × α}
    (h : p ∈ imInsert m k v) : p ∈ m ∨ p.2 = v := by
  unfold imInsert at h
  split at h
  · obtain ⟨q, hq, rfl⟩ := List.mem_map.1 h
    split
    · exact .inr rfl
    · exact .inl hq
  · rcases List.mem_append.1 h with h | h
    · exact .inl h
    · simp only [List.mem_singleton] at h; subst h; exact .inr rfl

theorem EPos.process {e : Exec env} (h : EPos e) (a : Action env.B) (ha : a.positive) :
    EPos (e.processAction a) := by
  obtain ⟨h1, h2, h3⟩ := h
  cases a with
  | activate c v wk =>
    refine ⟨fun p hm => ?_, h2, h3⟩
    rcases imInsert_mem hm with hm | hm
    · exact h1 p hm
    · rw [hm]; exact ha
  | cancel c => exact ⟨fun p hm => h1 p ((imRemoves_sublist _ _).mem hm), h2, h3⟩
  | addInvoked j wk =>
    refine ⟨h1, fun i wk' hh => ?_, h3⟩
    simp only [Exec.processAction, fset] at hh
    split at hh
    · cases hh; exact ha
    · exact h2 _ _ hh
  | invoke j => exact ⟨h1, h2, h3⟩
  | cancelInvoked j =>
    refine ⟨h1, fun i wk' hh => ?_, h3⟩
    simp only [Exec.processAction, fset] at hh
    split at hh
    · cases hh
    · exact h2 _ _ hh

theorem EPos.pass (hp : env.positive) {e : Exec env} (h : EPos e) (t : Nat) :
    ∃ e' q, e.pass t = some (e', q) ∧ EPos e' := by
  have hd : EPos (e.drain t).1 := by
    unfold Exec.drain
    have : ∀ (q : List (Action env.B)) (e : Exec env), (∀ a ∈ q, a.positive) → EPos e →
        EPos (q.foldl Exec.processAction e) := by
      intro q
      induction q with
      | nil => intro e _ h; exact h
      | cons a q ih =>
        intro e ha h
        exact ih _ (fun a hm => ha a (List.mem_cons_of_mem _ hm)) (h.process a (ha a (by simp)))
    exact this _ _ h.queue ⟨h.active, h.invokable, by intro a ha; cases ha⟩
  unfold Exec.pass
  simp only
  obtain ⟨out, w', h1, h2, h3⟩ := tickPass_returns hp (already := (e.drain t).1.alreadyTicked)
    (t := t) (e.drain t).1.active (e.drain t).1.world hd.active hd.queue
  unfold Exec.tickScheduled
  rw [h1]
  simp only
  unfold Exec.executeInvoked
  simp only
  obtain ⟨inv, w'', k1, k2, k3⟩ := execInvoked_returns hp (t := t) (e.drain t).1.invoked
    (e.drain t).1.invokable w' hd.invokable h3
  rw [k1]
  refine ⟨_, _, rfl, ?_, k2, k3⟩
  intro p hm
  obtain ⟨x, hx, hxe⟩ := List.mem_map.1 ((imRemoves_sublist _ _).mem hm)
  rw [← hxe]
  exact h2 x hx

theorem EPos.loop (hp : env.positive) {t : Nat} : ∀ (n : Nat) {e : Exec env}, EPos e →
    Exec.loop t n e ≠ .diverges ∧ ∀ e', Exec.loop t n e = .ok e' → EPos e' := by
  intro n
  induction n with
  | zero =>
    intro e h
    obtain ⟨e1, q, h1, h2⟩ := h.pass hp t
    unfold Exec.loop
    rw [h1]
    cases q with
    | true => exact ⟨by simp, fun e' he => by cases he; exact h2⟩
    | false => exact ⟨by simp, fun e' he => by simp at he⟩
  | succ n ih =>
    intro e h
    obtain ⟨e1, q, h1, h2⟩ := h.pass hp t
    unfold Exec.loop
    rw [h1]
    cases q with
    | true => exact ⟨by simp, fun e' he => by cases he; exact h2⟩
    | false => exact ih h2

theorem EPos.tickTo (hp : env.positive) {e : Exec env} (h : EPos e) (t : Nat) :
    e.tickTo t ≠ .diverges ∧ ∀ e', e.tickTo t = .ok e' → EPos e' := by
  have hl := EPos.loop hp (t := t) e.maxDepth (e := e.begin t) ⟨h.active, h.invokable, h.queue⟩
  constructor
  · unfold Exec.tickTo
    simp only
    intro hd
    refine hl.1 ?_
    simp only [Exec.begin]
    split at hd
    · cases hd
    · exact hd
  · intro e' he
    obtain ⟨e1, h1, rfl⟩ := tickTo_ok he
    have := hl.2 e1 h1
    exact ⟨this.1, this.2, this.3⟩

theorem EPos.run (hp : env.positive) : ∀ (ops : List (Op env.B)) {e : Exec env}, EPos e →
    (∀ op ∈ ops, op.positive) → e.run ops ≠ .diverges := by
  intro ops
  induction ops with
  | nil => intro e _ _; simp [Exec.run]
  | cons op ops ih =>
    intro e h ho
    have ho' : ∀ op ∈ ops, op.positive := fun op hm => ho op (List.mem_cons_of_mem _ hm)
    simp only [Exec.run]
    cases op with
    | call c =>
      exact ih (e := { e with world := e.world.call c })
        ⟨h.active, h.invokable, h.queue.call c (ho (.call c) (by simp))⟩ ho'
    | tickTo t =>
      simp only [Exec.step]
      obtain ⟨h1, h2⟩ := h.tickTo hp t
      cases ht : e.tickTo t with
      | ok e' => exact ih (h2 e' ht) ho'
      | panic e' => simp
      | diverges => exact absurd ht h1
    | tick d =>
      simp only [Exec.step, Exec.tick]
      obtain ⟨h1, h2⟩ := h.tickTo hp (e.currentTick + d)
      cases ht : e.tickTo (e.currentTick + d) with
      | ok e' => exact ih (h2 e' ht) ho'
      | panic e' => simp
      | diverges => exact absurd ht h1

theorem EPos.init (ctx : env.Ctx) (n : Nat) : EPos (Exec.new (env := env) ctx n) :=
  ⟨by simp [Exec.new], by simp [Exec.new], by intro a ha; cases ha⟩

/-! ## Cancelling between ticks -/

theorem ctrack_cancelled_call {u : Nat} {w : World env} {gen : Nat} {act : Prop}
    (h : CWorld u gen act w) (hc : (ctrack u w.log).cancelled = true) (c : Call env.B) :
    (ctrack u (w.call c).log).cancelled = true := by
  cases c with
  | scheduleWork work cid =>
    simp only [World.call]; rw [ctrack_snoc]; simp only [CTrack.step]
    split
    · rename_i hu
      rw [h.unborn (by omega)] at hc; cases hc
    · exact hc
  | cancel cid =>
    simp only [World.call]; rw [ctrack_snoc]; simp only [CTrack.step]; split
    · rfl
    · exact hc
  | _ => simp only [World.call]; rw [ctrack_snoc]; exact hc

theorem runCount_snoc {B : Type} (src : Src) (log : List (Ev B)) (e : Ev B)
    (he : ∀ t, e ≠ .run src t) : runCount src (log ++ [e]) = runCount src log := by
  unfold runCount
  rw [List.countP_append]
  cases e with
  | run s t =>
    have : s ≠ src := by rintro rfl; exact he t rfl
    simp [this]
  | _ => simp

/-- What is preserved while work other than `u` runs. -/
def StillCancelled (u k : Nat) (w : World env) : Prop :=
  (∃ gen act, CWorld u gen act w) ∧ (ctrack u w.log).cancelled = true ∧
    runCount (.work u) w.log = k

theorem StillCancelled.step {u k : Nat} {src : Src} {t : Nat} {a b : World env}
    (hs : WStep src t a b) (hsrc : src ≠ .work u) (h : StillCancelled u k a) :
    StillCancelled u k b := by
  obtain ⟨⟨gen, act, h1⟩, h2, h3⟩ := h
  have h4 := (CWorld.step hs h1 (fun he => absurd he hsrc)).1
  refine ⟨⟨_, _, h4⟩, ?_, ?_⟩
  · cases hs with
    | run =>
      simp only [World.emit]; rw [ctrack_snoc]; simp only [CTrack.step]
      split <;> exact h2
    | ctx => exact h2
    | call c => exact ctrack_cancelled_call h1 h2 c
  · cases hs with
    | run =>
      simp only [World.emit]
      rw [runCount_snoc _ _ _ (by intro t he; cases he; exact hsrc rfl)]; exact h3
    | ctx => exact h3
    | call c => rw [runCount_call]; exact h3

theorem StillCancelled.emit {u k : Nat} {w : World env} (h : StillCancelled u k w) (e : Ev env.B)
    (h1 : ctrack u (w.log ++ [e]) = ctrack u w.log) (h2 : ∀ t, e ≠ .run (.work u) t) :
    StillCancelled u k (w.emit e) := by
  obtain ⟨⟨gen, act, k1⟩, k2, k3⟩ := h
  refine ⟨⟨_, _, k1.keep e h1⟩, ?_, ?_⟩ <;> simp only [World.emit]
  · rw [h1]; exact k2
  · rw [runCount_snoc _ _ _ h2]; exact k3

theorem StillCancelled.tickPass {u k : Nat} {already : Nat → Bool} {t : Nat} :
    ∀ (l : List (Nat × Work env.B)) (w : World env) (r), tickPass already t l w = some r →
    (∀ p ∈ l, p.1 ≠ u) → StillCancelled u k w → StillCancelled u k r.2 := by
  intro l
  induction l with
  | nil => intro w r h _ hw; simp only [Rx.Sched.tickPass] at h; cases h; exact hw
  | cons p l ih =>
    obtain ⟨id, wk⟩ := p
    intro w r h hl hw
    have hid : Src.work id ≠ .work u := by
      intro he; cases he; exact hl (u, wk) (by simp) rfl
    have hl' : ∀ p ∈ l, p.1 ≠ u := fun p hm => hl p (List.mem_cons_of_mem _ hm)
    simp only [Rx.Sched.tickPass] at h
    split at h
    · split at h
      · rename_i heq
        cases h
        have := ih _ _ heq hl' hw
        exact this
      · cases h
    · split at h
      · cases h
      · rename_i wk' w1 res hk
        split at h
        · rename_i out w2 heq
          cases h
          have k1 : StillCancelled u k w1 := (Steps.tick hk).inv (P := StillCancelled u k)
            (fun a b hs ha => StillCancelled.step hs hid ha)
            (hw.emit _ (by rw [ctrack_snoc]; rfl) (by simp))
          have k2 : StillCancelled u k
              (if res = .done then w1.emit (.done (.work id)) else w1) := by
            split
            · exact k1.emit _ (by rw [ctrack_snoc]; rfl) (by simp)
            · exact k1
          have := ih _ _ heq hl' k2
          exact this
        · cases h

/-- Between passes: the cancellation of `u` was requested, and `u` ran `k` times. -/
def Stopped (u k : Nat) (e : Exec env) : Prop :=
  CP u e ∧ (ctrack u e.world.log).cancelled = true ∧ runCount (.work u) e.world.log = k

theorem Stopped.pass {u k : Nat} {e e' : Exec env} {t : Nat} {q : Bool} (h : Stopped u k e)
    (hp : e.pass t = some (e', q)) : Stopped u k e' := by
  obtain ⟨h1, h2, h3⟩ := h
  refine ⟨h1.pass hp, ?_⟩
  have hd := h1.drain t
  have hlog : (e.drain t).1.world.log = e.world.log ++ [.drained] := by
    simp only [Exec.drain, processAll_world]
  have hdr : (ctrack u (e.drain t).1.world.log).drained = true := by
    rw [hlog, ctrack_snoc]; simp only [CTrack.step]; rw [if_pos h2]
  have hS : StillCancelled u k (e.drain t).1.world := by
    refine ⟨⟨_, _, hd.q.world⟩, hd.q.world.drained hdr, ?_⟩
    rw [hlog, runCount_snoc _ _ _ (by simp)]; exact h3
  have hgone := (hd.gone hdr).2
  unfold Exec.pass at hp
  simp only at hp
  split at hp
  · cases hp
  · rename_i e1 nw heq
    split at hp
    · cases hp
    · rename_i e2 heq2
      cases hp
      unfold Exec.tickScheduled at heq
      split at heq
      · cases heq
      · rename_i out w heq3
        cases heq
        have hS1 := StillCancelled.tickPass _ _ _ heq3 hgone hS
        unfold Exec.executeInvoked at heq2
        split at heq2
        · cases heq2
        · rename_i inv w2 heq4
          cases heq2
          have := execInvoked_inv (P := StillCancelled u k)
            (fun i x a b hs ha => StillCancelled.step hs (by simp) ha)
            (fun i w hw => hw.emit _ (by rw [ctrack_snoc]; rfl) (by simp)) _ _ _ _ heq4 hS1
          exact this.2

/-- The same between ticks. -/
def StoppedOut (u k : Nat) (e : Exec env) : Prop :=
  COut u e ∧ (ctrack u e.world.log).cancelled = true ∧ runCount (.work u) e.world.log = k

theorem StoppedOut.tickTo {u k : Nat} {e e' : Exec env} {t : Nat} (h : StoppedOut u k e)
    (ht : e.tickTo t = .ok e') : StoppedOut u k e' := by
  obtain ⟨h1, h2, h3⟩ := h
  refine ⟨h1.tickTo ht, ?_⟩
  obtain ⟨e1, hl, rfl⟩ := tickTo_ok ht
  have hb : Stopped u k (e.begin t) := by
    have k1 : CP u { { e with alreadyTicked := fun _ => false } with
        world := e.world.emit (.tickStart t) } := CP.emit h1 _ (by rw [ctrack_snoc]; rfl)
    obtain ⟨⟨⟨hs, hb, hal⟩, m2, m3, m4⟩, m5⟩ := k1
    refine ⟨⟨⟨⟨hs, hb, hal⟩, m2, m3, m4⟩, m5⟩, ?_, ?_⟩ <;> simp only [Exec.begin, World.emit]
    · rw [ctrack_snoc]; exact h2
    · rw [runCount_snoc _ _ _ (by simp)]; exact h3
  have := loop_inv (P := Stopped u k) (fun e e' b h hp => h.pass hp) _ hb hl
  refine ⟨?_, ?_⟩ <;> simp only [World.emit]
  · rw [ctrack_snoc]; exact this.2.1
  · rw [runCount_snoc _ _ _ (by simp)]; exact this.2.2

theorem StoppedOut.call {u k : Nat} {e : Exec env} (h : StoppedOut u k e) (c : Call env.B) :
    StoppedOut u k { e with world := e.world.call c } :=
  ⟨h.1.call c, ctrack_cancelled_call h.1.q.world h.2.1 c, by
    simp only; rw [runCount_call]; exact h.2.2⟩

theorem StoppedOut.run {u k : Nat} {ops : List (Op env.B)} {e e' : Exec env}
    (h : StoppedOut u k e) (hr : e.run ops = .ok e') : StoppedOut u k e' :=
  run_inv (P := StoppedOut u k) (fun _ c h => h.call c) (fun _ _ _ h ht => h.tickTo ht) ops h hr

/-- The id under which `u` was scheduled, found in the log. -/
theorem ctrack_cid_of_mem {u c now : Nat} {wk : Work env.B} {w : World env} (hids : Ids w)
    (hm : Ev.scheduled u c now wk ∈ w.log) : (ctrack u w.log).cid = some c := by
  have hnd : (w.log.filterMap Ev.scheduled?).Nodup := by rw [hids.uids]; exact List.nodup_range
  obtain ⟨pre, post, hl⟩ := List.append_of_mem hm
  rw [hl] at hnd ⊢
  rw [List.filterMap_append, List.filterMap_cons] at hnd
  simp only [Ev.scheduled?] at hnd
  have hpost : ∀ v c' n' wk', Ev.scheduled v c' n' wk' ∈ post → v ≠ u := by
    rintro v c' n' wk' hm' rfl
    have h2 := (List.nodup_append.1 hnd).2.1
    exact (List.nodup_cons.1 h2).1 (List.mem_filterMap.2 ⟨_, hm', rfl⟩)
  have key : ∀ (l : List (Ev env.B)) (T : CTrack), T.cid = some c →
      (∀ v c' n' wk', Ev.scheduled v c' n' wk' ∈ l → v ≠ u) →
      (l.foldl (CTrack.step u) T).cid = some c := by
    intro l
    induction l with
    | nil => intro T h _; exact h
    | cons e l ih =>
      intro T h hne
      refine ih _ ?_ fun v c' n' wk' hm => hne v c' n' wk' (List.mem_cons_of_mem _ hm)
      cases e with
      | scheduled v c' n' wk' =>
        simp only [CTrack.step]
        rw [if_neg (hne v c' n' wk' (by simp))]; exact h
      | cancel c' => simp only [CTrack.step]; split <;> exact h
      | drained => simp only [CTrack.step]; split <;> exact h
      | run s t => simp only [CTrack.step]; split <;> exact h
      | _ => exact h
  unfold ctrack
  rw [List.foldl_append, List.foldl_cons]
  exact key _ _ (by simp [CTrack.step]) hpost

end Rx.Sched
