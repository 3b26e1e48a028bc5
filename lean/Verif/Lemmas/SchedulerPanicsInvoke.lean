import Verif.Lemmas.SchedulerPanicsRun

/-!
# What panics leave of work registered for invocations, and of the clocks
-/

namespace Rx.Sched

open Spec

variable {env : Env} {P : Panics env}

/-- What will be registered under `i` when the queue has been processed. -/
def afterQueue {B : Type} (i : Nat) (q : List (Action B)) (x : Option (Work B)) : Option (Work B) :=
  q.foldl (fun x a => match a with
    | .addInvoked j wk => if j = i then some wk else x
    | .cancelInvoked j => if j = i then none else x
    | _ => x) x

theorem afterQueue_const {B : Type} (i : Nat) (q : List (Action B)) :
    (∀ x, afterQueue i q x = x) ∨ ∃ y, ∀ x, afterQueue i q x = y := by
  induction q with
  | nil => exact .inl fun _ => rfl
  | cons a q ih =>
    cases a with
    | addInvoked j wk =>
      by_cases hj : j = i
      · refine .inr ⟨afterQueue i q (some wk), fun x => ?_⟩
        simp [afterQueue, hj]
      · simpa [afterQueue, hj] using ih
    | cancelInvoked j =>
      by_cases hj : j = i
      · refine .inr ⟨afterQueue i q none, fun x => ?_⟩
        simp [afterQueue, hj]
      · simpa [afterQueue, hj] using ih
    | _ => simpa [afterQueue] using ih

theorem processAll_invokable (i : Nat) (q : List (Action env.B)) (e : Exec env) :
    (q.foldl Exec.processAction e).invokable i = afterQueue i q (e.invokable i) := by
  induction q generalizing e with
  | nil => rfl
  | cons a q ih =>
    rw [List.foldl_cons, ih]
    unfold afterQueue
    rw [List.foldl_cons]
    congr 1
    cases a with
    | addInvoked j wk => simp [Exec.processAction, fset, eq_comm]
    | cancelInvoked j => simp [Exec.processAction, fset, eq_comm]
    | _ => rfl

/-- Processing the queue keeps an invocation in front of which nothing is cancelled. -/
theorem processAll_invoked (i : Nat) (q : List (Action env.B)) (hq : ∀ a ∈ q, ∀ j, a ≠ .cancelInvoked j) (e : Exec env)
    (h : i ∈ e.invoked) : i ∈ (q.foldl Exec.processAction e).invoked := by
  induction q generalizing e with
  | nil => exact h
  | cons a q ih =>
    rw [List.foldl_cons]
    refine ih (fun a ha => hq a (List.mem_cons_of_mem _ ha)) _ ?_
    have := hq a (by simp)
    cases a with
    | invoke j => exact List.mem_append_left _ h
    | cancelInvoked j => exact absurd rfl (this j)
    | _ => exact h

/-- What is registered, as far as the log says so. `x` is what the executor has. -/
def Kept (i : Nat) (x : Option (Work env.B)) (w : World env) : Prop :=
  registered i w.log = true → ∃ b, afterQueue i w.sched.queue x = some (.invoked b)

theorem Kept.emit {i : Nat} {x : Option (Work env.B)} {w : World env} (h : Kept i x w) (e : Ev env.B)
    (he : ∀ j wk, e ≠ .addInvoked j wk) : Kept i x (w.emit e) := by
  intro hr
  refine h ?_
  simp only [registered, World.emit, List.foldl_append, List.foldl_cons, List.foldl_nil] at hr ⊢
  cases e with
  | addInvoked j wk => exact absurd rfl (he j wk)
  | cancelInvoked j =>
    by_cases hj : j = i
    · simp [hj] at hr
    · simpa [hj] using hr
  | done src =>
    by_cases hj : src = .invoked i
    · simp [hj] at hr
    · simpa [hj] using hr
  | _ => exact hr

theorem Kept.call {i : Nat} {x : Option (Work env.B)} {w : World env} (h : Kept i x w) (c : Call env.B) :
    Kept i x (w.call c) := by
  intro hr
  simp only [Kept, registered, afterQueue] at h
  cases c with
  | scheduleInvokedWork wk j =>
    simp only [registered, World.call, List.foldl_append, List.foldl_cons, List.foldl_nil, afterQueue] at hr ⊢
    by_cases hj : j = i
    · simp only [hj, if_true] at hr ⊢
      cases wk with
      | invoked b => exact ⟨b, rfl⟩
      | _ => cases hr
    · simp only [hj, if_false] at hr ⊢
      exact h hr
  | cancelInvoked j =>
    simp only [registered, World.call, List.foldl_append, List.foldl_cons, List.foldl_nil, afterQueue] at hr ⊢
    by_cases hj : j = i
    · simp [hj] at hr
    · simp only [hj, if_false] at hr ⊢
      exact h hr
  | _ =>
    simp only [registered, World.call, List.foldl_append, List.foldl_cons, List.foldl_nil, afterQueue] at hr ⊢
    exact h hr

theorem Kept.wstep {i : Nat} {x : Option (Work env.B)} (src : Src) (t : Nat) (a b : World env) (hs : WStep src t a b)
    (h : Kept i x a) : Kept i x b := by
  cases hs with
  | run => exact h.emit _ (by intro _ _ h; cases h)
  | ctx => exact h
  | call c => exact h.call c

/-- Work made for invocations stays that. -/
theorem tickP_invoked {src : Src} {t : Nat} {b : env.B} {w : World env} {r}
    (h : (Work.invoked b).tickP P src t w = some r) : ∃ b', r.1 = .invoked b' := by
  simp only [Work.tickP] at h
  cases h
  exact ⟨_, rfl⟩

/-- What the executor has is replaced by what it is after a run. -/
theorem Kept.replace {i : Nat} {wk wk' : Work env.B} {w : World env} (h : Kept i (some wk) w)
    (hw : ∀ b, wk = .invoked b → ∃ b', wk' = .invoked b') : Kept i (some wk') w := by
  intro hr
  obtain ⟨b, hb⟩ := h hr
  rcases afterQueue_const i w.sched.queue with hc | ⟨y, hy⟩
  · rw [hc] at hb ⊢
    obtain ⟨b', hb'⟩ := hw b (Option.some.inj hb)
    exact ⟨b', by rw [hb']⟩
  · rw [hy] at hb ⊢
    exact ⟨b, hb⟩

theorem registered_done {B : Type} (i : Nat) (log : List (Ev B)) : registered i (log ++ [.done (.invoked i)]) = false := by
  simp [registered]

/-- Invocations: what is registered stays so, panic or not. -/
theorem Kept.invoked {i t : Nat} : ∀ (l : List Nat) (inv : Nat → Option (Work env.B)) (w : World env) (r),
    execInvokedP P t l inv w = some r → Kept i (inv i) w → Kept i (r.1 i) r.2.1 := by
  intro l
  induction l with
  | nil => intro inv w r h hw; simp only [execInvokedP] at h; cases h; exact hw
  | cons j l ih =>
    intro inv w r h hw
    simp only [execInvokedP] at h
    split at h
    · exact ih _ _ _ h hw
    · rename_i wk hj
      have hset : ∀ (wk' : Work env.B) (w1 : World env) (a : Answer), wk.tickP P (.invoked j) t w = some (wk', w1, a) →
          Kept i (fset inv j (some wk') i) w1 := by
        intro wk' w1 a hk
        have h1 : Kept i (inv i) w1 := (tickP_steps hk).inv (P := fun w => Kept i (inv i) w) (Kept.wstep _ _) hw
        by_cases hij : i = j
        · subst hij
          rw [hj] at h1
          simp only [fset, if_true]
          refine h1.replace ?_
          intro b hb
          subst hb
          exact tickP_invoked hk
        · simp only [fset, hij, if_false]; exact h1
      split at h
      · cases h
      · rename_i wk' w1 hk
        cases h
        exact hset _ _ _ hk
      · rename_i wk' w1 res hk
        split at h
        · refine ih _ _ _ h ?_
          by_cases hij : i = j
          · subst hij
            intro hr
            rw [World.emit, registered_done] at hr
            cases hr
          · have h2 := hset _ _ _ hk
            simp only [fset, hij, if_false] at h2 ⊢
            exact h2.emit _ (by intro _ _ h; cases h)
        · exact ih _ _ _ h (hset _ _ _ hk)

/-- The work registered under `i` was run between two moments. -/
def RanIn (i t : Nat) (a b : World env) : Prop := ∃ ext, b.log = a.log ++ ext ∧ .run (.invoked i) t ∈ ext

theorem RanIn.mono {i t : Nat} {a b c d : World env} (h1 : Ext a b) (h : RanIn i t b c) (h2 : Ext c d) : RanIn i t a d := by
  obtain ⟨x, hx⟩ := h1
  obtain ⟨y, hy, hm⟩ := h
  obtain ⟨z, hz⟩ := h2
  exact ⟨x ++ y ++ z, by rw [hz, hy, hx]; simp, by simp [hm]⟩

theorem runBodyP_ranIn (i t : Nat) (b : env.B) (w : World env) : RanIn i t w (runBodyP P (.invoked i) b t w).2.1 := by
  have h0 : RanIn i t w (w.emit (.run (.invoked i) t)) := ⟨[.run (.invoked i) t], rfl, by simp⟩
  refine RanIn.mono (Ext.refl _) h0 ?_
  simp only [runBodyP, runBody]
  obtain ⟨x, hx⟩ := Ext.steps (Steps.calls (src := .invoked i) (t := t)
    (env.exec b t (w.emit (.run (.invoked i) t)).ctx (w.emit (.run (.invoked i) t)).sched).2.2.1
    { w.emit (.run (.invoked i) t) with
      ctx := (env.exec b t (w.emit (.run (.invoked i) t)).ctx (w.emit (.run (.invoked i) t)).sched).2.1 })
  exact ⟨x, hx⟩

/-- Invocations without a panic run what is registered. -/
theorem execInvokedP_runs {i t : Nat} : ∀ (l : List Nat) (inv : Nat → Option (Work env.B)) (w : World env) (r),
    execInvokedP P t l inv w = some r → r.2.2 = false → i ∈ l → (∃ b, inv i = some (.invoked b)) → RanIn i t w r.2.1 := by
  intro l
  induction l with
  | nil => intro _ _ _ _ _ hm; cases hm
  | cons j l ih =>
    intro inv w r h hp hm hb
    obtain ⟨b, hb⟩ := hb
    by_cases hij : j = i
    · subst hij
      have hk : (Work.invoked b).tickP P (.invoked j) t w = some (.invoked (runBodyP P (.invoked j) b t w).1,
          (runBodyP P (.invoked j) b t w).2.1, (runBodyP P (.invoked j) b t w).2.2) := rfl
      have hran := runBodyP_ranIn (P := P) j t b w
      generalize runBodyP P (.invoked j) b t w = x at hk hran
      simp only [execInvokedP, hb, hk] at h
      obtain ⟨x1, x2, x3⟩ := x
      split at h
      · rename_i heq; cases heq
      · rename_i heq; cases heq; cases h; cases hp
      · rename_i heq
        cases heq
        split at h
        · exact RanIn.mono (Ext.refl _) hran ((Ext.emit _ _).trans (execInvokedP_ext h))
        · exact RanIn.mono (Ext.refl _) hran (execInvokedP_ext h)
    · have hm : i ∈ l := by
        rcases List.mem_cons.1 hm with h | h
        · exact absurd h.symm hij
        · exact h
      have hji : i ≠ j := fun h => hij h.symm
      simp only [execInvokedP] at h
      split at h
      · exact ih _ _ _ h hp hm ⟨b, hb⟩
      · split at h
        · cases h
        · cases h; cases hp
        · rename_i wk' w1 res hk
          have hx := Ext.steps (tickP_steps hk)
          split at h
          · exact RanIn.mono (hx.trans (Ext.emit _ _)) (ih _ _ _ h hp hm ⟨b, by simp [fset, hji, hb]⟩) (Ext.refl _)
          · exact RanIn.mono hx (ih _ _ _ h hp hm ⟨b, by simp [fset, hji, hb]⟩) (Ext.refl _)

/-! ## A pass, a tick, a history -/

def KeptE (i : Nat) (e : Exec env) : Prop := Kept i (e.invokable i) e.world

theorem KeptE.drain {i : Nat} {e : Exec env} (h : KeptE i e) (t : Nat) : KeptE i (e.drain t).1 := by
  intro hr
  have hl := drain_log e t
  have hq := drain_queue e t
  rw [hl] at hr
  have h' := (Kept.emit h .drained (by intro _ _ h; cases h)) hr
  rw [hq]
  simp only [Exec.drain]
  rw [processAll_invokable]
  exact h'

theorem KeptE.tickScheduled {i t : Nat} {e e' : Exec env} {b : Option Bool} (h : KeptE i e)
    (he : e.tickScheduledP P t = some (e', b)) :
    KeptE i e' ∧ e'.invokable = e.invokable ∧ e'.invoked = e.invoked ∧ Ext e.world e'.world := by
  have hi : ∀ r, tickPassP P e.alreadyTicked t e.active e.world = some r → Kept i (e.invokable i) r.2.1 := fun r hr =>
    tickPassP_inv (I := fun w => Kept i (e.invokable i) w) Kept.wstep (fun _ _ _ h => h.emit _ (by intro _ _ h; cases h))
      (fun _ _ h => h.emit _ (by intro _ _ h; cases h)) _ _ _ hr h
  simp only [Exec.tickScheduledP] at he
  split at he
  · cases he
  · rename_i heq; cases he; exact ⟨hi _ heq, rfl, rfl, tickPassP_ext heq⟩
  · rename_i heq; cases he; exact ⟨hi _ heq, rfl, rfl, tickPassP_ext heq⟩

theorem KeptE.executeInvoked {i t : Nat} {e e' : Exec env} {b : Bool} (h : KeptE i e)
    (he : e.executeInvokedP P t = some (e', b)) : KeptE i e' ∧ Ext e.world e'.world := by
  simp only [Exec.executeInvokedP] at he
  split at he
  · cases he
  · rename_i heq; cases he
    exact ⟨Kept.invoked _ _ _ _ heq h, execInvokedP_ext heq⟩

theorem KeptE.pass {i t : Nat} {e e' : Exec env} {b : Option Bool} (h : KeptE i e)
    (he : e.passP P t = some (e', b)) : KeptE i e' ∧ Ext e.world e'.world := by
  have hd : KeptE i (e.drain t).1 ∧ Ext e.world (e.drain t).1.world := ⟨h.drain t, ⟨[.drained], drain_log e t⟩⟩
  simp only [Exec.passP] at he
  split at he
  · cases he
  · rename_i heq
    cases he
    obtain ⟨a1, _, _, a4⟩ := hd.1.tickScheduled heq
    exact ⟨a1, hd.2.trans a4⟩
  · rename_i heq
    obtain ⟨a1, _, _, a4⟩ := hd.1.tickScheduled heq
    split at he
    · cases he
    · rename_i heq2; cases he
      obtain ⟨b1, b2⟩ := a1.executeInvoked heq2
      exact ⟨b1, hd.2.trans (a4.trans b2)⟩
    · rename_i heq2; cases he
      obtain ⟨b1, b2⟩ := a1.executeInvoked heq2
      exact ⟨b1, hd.2.trans (a4.trans b2)⟩

/-- A pass that does not panic runs what was invoked. -/
theorem KeptE.pass_runs {i t : Nat} {e e' : Exec env} {q : Bool} (h : KeptE i e)
    (he : e.passP P t = some (e', some q)) (hr : registered i e.world.log = true) (hi : i ∈ (e.drain t).1.invoked) :
    RanIn i t e.world e'.world := by
  have hd : KeptE i (e.drain t).1 ∧ Ext e.world (e.drain t).1.world := ⟨h.drain t, ⟨[.drained], drain_log e t⟩⟩
  have hb : ∃ b, (e.drain t).1.invokable i = some (.invoked b) := by
    have := h hr
    simp only [Exec.drain]
    rw [processAll_invokable]
    exact this
  simp only [Exec.passP] at he
  split at he
  · cases he
  · cases he
  · rename_i e1 nw heq
    obtain ⟨_, a2, a3, a4⟩ := hd.1.tickScheduled heq
    split at he
    · cases he
    · cases he
    · rename_i heq2; cases he
      simp only [Exec.executeInvokedP] at heq2
      split at heq2
      · cases heq2
      · rename_i heq3
        cases heq2
        refine RanIn.mono (hd.2.trans a4) (execInvokedP_runs _ _ _ _ heq3 rfl ?_ ?_) (Ext.refl _)
        · rw [a3]; exact hi
        · rw [a2]; exact hb

theorem KeptE.loop {i t : Nat} : ∀ (n : Nat) {e e' : Exec env}, KeptE i e →
    (Exec.loopP P t n e).state = some e' → KeptE i e' ∧ Ext e.world e'.world := by
  intro n
  induction n with
  | zero =>
    intro e e' h he
    unfold Exec.loopP at he
    split at he
    · cases he
    · rename_i heq; cases he; exact h.pass heq
    · rename_i heq
      split at he <;> (cases he; exact h.pass heq)
  | succ n ih =>
    intro e e' h he
    unfold Exec.loopP at he
    split at he
    · cases he
    · rename_i heq; cases he; exact h.pass heq
    · rename_i heq
      obtain ⟨a1, a2⟩ := h.pass heq
      split at he
      · cases he; exact ⟨a1, a2⟩
      · obtain ⟨b1, b2⟩ := ih a1 he
        exact ⟨b1, a2.trans b2⟩

theorem KeptE.begin {i : Nat} {e : Exec env} (h : KeptE i e) (t : Nat) : KeptE i (e.beginTick t) :=
  Kept.emit h (.tickStart t) (by intro _ _ h; cases h)

theorem KeptE.tickTo {i t : Nat} {e e' : Exec env} (h : KeptE i e) (he : (e.tickToP P t).state = some e') :
    KeptE i e' := by
  unfold Exec.tickToP at he
  split at he
  · rename_i e1 heq
    cases he
    exact Kept.emit (KeptE.loop _ (h.begin t) (e' := e1) (by rw [heq]; rfl)).1 .tickEnd (by intro _ _ h; cases h)
  · exact (KeptE.loop _ (h.begin t) he).1

theorem KeptE.tickTo_ok {i t : Nat} {e e' : Exec env} (h : KeptE i e) (he : e.tickToP P t = .ok e')
    (hr : registered i e.world.log = true) (hi : i ∈ (e.drain t).1.invoked) : RanIn i t e.world e'.world := by
  have hr0 : registered i (e.beginTick t).world.log = true := by
    simpa [registered, Exec.beginTick, World.emit] using hr
  have hi0 : i ∈ ((e.beginTick t).drain t).1.invoked := by
    have : ∀ (q : List (Action env.B)) (a b : Exec env), a.invoked = b.invoked →
        (q.foldl Exec.processAction a).invoked = (q.foldl Exec.processAction b).invoked := by
      intro q
      induction q with
      | nil => intro a b h; exact h
      | cons x q ih =>
        intro a b h
        rw [List.foldl_cons, List.foldl_cons]
        refine ih _ _ ?_
        cases x <;> simp [Exec.processAction, h]
    have h3 : ((e.beginTick t).drain t).1.invoked = (e.drain t).1.invoked := this e.world.sched.queue _ _ rfl
    rw [h3]
    exact hi
  have hx0 : Ext e.world (e.beginTick t).world := Ext.emit _ _
  unfold Exec.tickToP at he
  split at he
  · rename_i e1 heq
    cases he
    refine RanIn.mono hx0 (b := (e.beginTick t).world) (c := e1.world) ?_ (Ext.emit _ _)
    unfold Exec.loopP at heq
    split at heq
    · cases heq
    · cases heq
    · rename_i e2 q hp
      have hrun := (h.begin t).pass_runs hp hr0 hi0
      have hk := (h.begin t).pass hp
      split at heq
      · cases heq; exact hrun
      · split at heq
        · cases heq
        · exact RanIn.mono (Ext.refl _) hrun (KeptE.loop _ hk.1 (by rw [heq]; rfl)).2
  · rename_i hne
    exact absurd he (hne e')

theorem KeptE.step {i : Nat} {e e' : Exec env} {op : Op env.B} (h : KeptE i e)
    (he : (e.stepP P op).state = some e') : KeptE i e' := by
  cases op with
  | call c => cases he; exact Kept.call h c
  | tickTo t => exact h.tickTo he
  | tick d => exact h.tickTo he

theorem KeptE.run {i : Nat} : ∀ (ops : List (Op env.B)) {e e' : Exec env}, KeptE i e → e.runP P ops = some e' → KeptE i e' := by
  intro ops
  induction ops with
  | nil => intro e e' h he; cases he; exact h
  | cons op ops ih =>
    intro e e' h he
    unfold Exec.runP at he
    split at he
    · rename_i heq; exact ih (h.step (by rw [heq]; rfl)) he
    · rename_i heq; exact ih (h.step (by rw [heq]; rfl)) he
    · cases he

theorem KeptE.init (i : Nat) (ctx : env.Ctx) (n : Nat) : KeptE (env := env) i (Exec.new ctx n) := by
  intro h
  cases h

/-- Calls between ticks append to the queue. -/
theorem runP_calls (cs : List (Call env.B)) (hc : ∀ c ∈ cs, ∀ j, c ≠ .cancelInvoked j) : ∀ (e e' : Exec env),
    e.runP P (cs.map Op.call) = some e' →
    e'.invoked = e.invoked ∧ ∃ q, e'.world.sched.queue = e.world.sched.queue ++ q ∧ ∀ a ∈ q, ∀ j, a ≠ .cancelInvoked j := by
  induction cs with
  | nil => intro e e' h; cases h; exact ⟨rfl, [], by simp, fun _ h => by cases h⟩
  | cons c cs ih =>
    intro e e' h
    simp only [List.map_cons, Exec.runP, Exec.stepP] at h
    obtain ⟨h1, q, h2, h3⟩ := ih (fun c hm => hc c (List.mem_cons_of_mem _ hm)) _ _ h
    refine ⟨h1, ?_⟩
    have hcc := hc c (by simp)
    have : ∃ q0, (e.world.call c).sched.queue = e.world.sched.queue ++ q0 ∧ ∀ a ∈ q0, ∀ j, a ≠ Action.cancelInvoked j := by
      cases c with
      | cancelInvoked j => exact absurd rfl (hcc j)
      | generateCancellationId => exact ⟨[], by simp [World.call], fun _ h => by cases h⟩
      | generateInvokeId => exact ⟨[], by simp [World.call], fun _ h => by cases h⟩
      | _ => exact ⟨_, rfl, fun a ha j => by rw [List.mem_singleton.1 ha]; intro h; cases h⟩
    obtain ⟨q0, k1, k2⟩ := this
    refine ⟨q0 ++ q, by rw [h2, k1, List.append_assoc], ?_⟩
    intro a ha
    rcases List.mem_append.1 ha with h | h
    · exact k2 a h
    · exact h3 a h

theorem drain_invoked {i t : Nat} {e : Exec env} {q1 q2 : List (Action env.B)}
    (hq : e.world.sched.queue = q1 ++ .invoke i :: q2) (h2 : ∀ a ∈ q2, ∀ j, a ≠ .cancelInvoked j) :
    i ∈ (e.drain t).1.invoked := by
  simp only [Exec.drain, hq, List.foldl_append, List.foldl_cons]
  refine processAll_invoked i q2 h2 _ ?_
  simp [Exec.processAction]

/-! ## The clocks -/

theorem sched_tick_wstep {T : Nat} (src : Src) (t : Nat) (a b : World env) (hs : WStep src t a b)
    (h : a.sched.currentTick = T) : b.sched.currentTick = T := by
  cases hs with
  | run => exact h
  | ctx => exact h
  | call c => cases c <;> exact h

/-- Both clocks are kept. -/
def Clocks (n m : Nat) (e : Exec env) : Prop := e.currentTick = n ∧ e.world.sched.currentTick = m

theorem Clocks.pass {n m t : Nat} {e e' : Exec env} {b : Option Bool} (h : Clocks n m e)
    (he : e.passP P t = some (e', b)) : Clocks n (max m t) e' := by
  have hd : Clocks n (max m t) (e.drain t).1 := by
    have hc : ∀ (q : List (Action env.B)) (a : Exec env), (q.foldl Exec.processAction a).currentTick = a.currentTick := by
      intro q
      induction q with
      | nil => intro a; rfl
      | cons x q ih => intro a; rw [List.foldl_cons, ih]; cases x <;> rfl
    refine ⟨?_, ?_⟩
    · simp only [Exec.drain]; rw [hc]; exact h.1
    · simp only [Exec.drain, processAll_world]
      rw [h.2, updateTick_eq]
  have hts : ∀ {e1 e2 : Exec env} {b : Option Bool}, Clocks n (max m t) e1 → e1.tickScheduledP P t = some (e2, b) →
      Clocks n (max m t) e2 := by
    intro e1 e2 b h1 h2
    have hi : ∀ r, tickPassP P e1.alreadyTicked t e1.active e1.world = some r → r.2.1.sched.currentTick = max m t := fun r hr =>
      tickPassP_inv (I := fun w => w.sched.currentTick = max m t) sched_tick_wstep (fun _ _ _ h => h) (fun _ _ h => h) _ _ _ hr h1.2
    simp only [Exec.tickScheduledP] at h2
    split at h2
    · cases h2
    · rename_i heq; cases h2; exact ⟨h1.1, hi _ heq⟩
    · rename_i heq; cases h2; exact ⟨h1.1, hi _ heq⟩
  have hei : ∀ {e1 e2 : Exec env} {b : Bool}, Clocks n (max m t) e1 → e1.executeInvokedP P t = some (e2, b) →
      Clocks n (max m t) e2 := by
    intro e1 e2 b h1 h2
    simp only [Exec.executeInvokedP] at h2
    split at h2
    · cases h2
    · rename_i heq; cases h2
      exact ⟨h1.1, execInvokedP_inv (I := fun w => w.sched.currentTick = max m t) (fun _ => sched_tick_wstep _) (fun _ _ h => h)
        _ _ _ _ heq h1.2⟩
  simp only [Exec.passP] at he
  split at he
  · cases he
  · rename_i heq; cases he; exact hts hd heq
  · rename_i heq
    split at he
    · cases he
    · rename_i heq2; cases he; exact hei (hts hd heq) heq2
    · rename_i heq2; cases he; exact hei (hts hd heq) heq2

theorem Clocks.loop {n t : Nat} : ∀ (k m : Nat) {e e' : Exec env}, Clocks n m e →
    (Exec.loopP P t k e).state = some e' → Clocks n (max m t) e' := by
  intro k
  induction k with
  | zero =>
    intro m e e' h he
    unfold Exec.loopP at he
    split at he
    · cases he
    · rename_i heq; cases he; exact h.pass heq
    · rename_i heq
      split at he <;> (cases he; exact h.pass heq)
  | succ k ih =>
    intro m e e' h he
    unfold Exec.loopP at he
    split at he
    · cases he
    · rename_i heq; cases he; exact h.pass heq
    · rename_i heq
      split at he
      · cases he; exact h.pass heq
      · have := ih _ (h.pass heq) he
        rwa [show max (max m t) t = max m t by omega] at this

theorem Clocks.tickTo {t : Nat} {e e' : Exec env} (he : (e.tickToP P t).state = some e') :
    Clocks (max e.currentTick t) (max e.world.sched.currentTick t) e' := by
  have h0 : Clocks (max e.currentTick t) e.world.sched.currentTick (e.beginTick t) := ⟨updateTick_eq _ _, rfl⟩
  unfold Exec.tickToP at he
  split at he
  · rename_i e1 heq
    cases he
    exact Clocks.loop _ _ h0 (e' := e1) (by rw [heq]; rfl)
  · exact Clocks.loop _ _ h0 he

end Rx.Sched
