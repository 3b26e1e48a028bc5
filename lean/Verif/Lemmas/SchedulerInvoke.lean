import Verif.Lemmas.SchedulerCancel

/-!
# Invoked work
-/

namespace Rx.Sched

open Spec

variable {env : Env}

/-! ## Cancelled invoked work -/

/-- The actions that touch what is registered under `i`, as far as they matter here. -/
def Action.adds {B : Type} (i : Nat) : Action B → Bool
  | .addInvoked j _ => j == i
  | _ => false

/-- What the queue and `invokable` know about the cancellation of `i`. -/
structure KWorld (i : Nat) (reg : Prop) (w : World env) : Prop where
  effective : (ictrack i w.log).cancelled = true →
    (¬ reg ∧ ∀ a ∈ w.sched.queue, a.adds i = false) ∨
    ∃ pre post, w.sched.queue = pre ++ .cancelInvoked i :: post ∧ ∀ a ∈ post, a.adds i = false
  drained : (ictrack i w.log).drained = true → (ictrack i w.log).cancelled = true
  late : (ictrack i w.log).late = 0

/-- Between the drains, additionally: -/
def KGone (i : Nat) (reg : Prop) (w : World env) : Prop :=
  (ictrack i w.log).drained = true → ¬ reg ∧ ∀ a ∈ w.sched.queue, a.adds i = false

theorem KWorld.keep {i : Nat} {reg : Prop} {w : World env} (h : KWorld i reg w) (e : Ev env.B)
    (he : ictrack i (w.log ++ [e]) = ictrack i w.log) : KWorld i reg (w.emit e) := by
  obtain ⟨h1, h2, h3⟩ := h
  refine ⟨?_, ?_, ?_⟩ <;> simp only [World.emit] <;> rw [he] <;> assumption

theorem KGone.keep {i : Nat} {reg : Prop} {w : World env} (h : KGone i reg w) (e : Ev env.B)
    (he : ictrack i (w.log ++ [e]) = ictrack i w.log) : KGone i reg (w.emit e) := by
  unfold KGone at *
  simp only [World.emit]; rw [he]; exact h

/-- Appending an action that registers nothing under `i`. -/
theorem KWorld.append {i : Nat} {reg : Prop} {w w' : World env} (h : KWorld i reg w)
    (a : Action env.B) (ha : a.adds i = false) (hq : w'.sched.queue = w.sched.queue ++ [a])
    (ht : ictrack i w'.log = ictrack i w.log) : KWorld i reg w' := by
  obtain ⟨h1, h2, h3⟩ := h
  refine ⟨?_, ?_, ?_⟩ <;> rw [ht]
  · intro hc
    rw [hq]
    rcases h1 hc with ⟨h, h'⟩ | ⟨pre, post, h, h'⟩
    · refine .inl ⟨h, fun x hx => ?_⟩
      rcases List.mem_append.1 hx with hx | hx
      · exact h' x hx
      · simp only [List.mem_singleton] at hx; rw [hx]; exact ha
    · refine .inr ⟨pre, post ++ [a], by rw [h]; simp, fun x hx => ?_⟩
      rcases List.mem_append.1 hx with hx | hx
      · exact h' x hx
      · simp only [List.mem_singleton] at hx; rw [hx]; exact ha
  · exact h2
  · exact h3

theorem KGone.append {i : Nat} {reg : Prop} {w w' : World env} (h : KGone i reg w)
    (a : Action env.B) (ha : a.adds i = false) (hq : w'.sched.queue = w.sched.queue ++ [a])
    (ht : (ictrack i w'.log).drained = (ictrack i w.log).drained) : KGone i reg w' := by
  intro hd
  rw [ht] at hd
  refine ⟨(h hd).1, fun x hx => ?_⟩
  rw [hq] at hx
  rcases List.mem_append.1 hx with hx | hx
  · exact (h hd).2 x hx
  · simp only [List.mem_singleton] at hx; rw [hx]; exact ha

theorem KWorld.call {i : Nat} {reg : Prop} {w : World env} (h : KWorld i reg w) (g : KGone i reg w)
    (c : Call env.B) : KWorld i reg (w.call c) ∧ KGone i reg (w.call c) := by
  cases c with
  | scheduleWork work cid =>
    have ht : ictrack i (w.call (.scheduleWork work cid)).log = ictrack i w.log := by
      simp only [World.call]; rw [ictrack_snoc]; rfl
    exact ⟨h.append _ rfl rfl ht, g.append _ rfl rfl (by rw [ht])⟩
  | cancel cid =>
    have ht : ictrack i (w.call (.cancel cid)).log = ictrack i w.log := by
      simp only [World.call]; rw [ictrack_snoc]; rfl
    exact ⟨h.append _ rfl rfl ht, g.append _ rfl rfl (by rw [ht])⟩
  | invoke j =>
    have ht : ictrack i (w.call (.invoke j)).log = ictrack i w.log := by
      simp only [World.call]; rw [ictrack_snoc]; rfl
    exact ⟨h.append _ rfl rfl ht, g.append _ rfl rfl (by rw [ht])⟩
  | generateCancellationId =>
    have ht : ictrack i (w.log ++ [.newCancellationId w.sched.nextCancel]) = ictrack i w.log := by
      rw [ictrack_snoc]; rfl
    have a := h.keep _ ht
    have b := g.keep _ ht
    exact ⟨⟨a.1, a.2, a.3⟩, b⟩
  | generateInvokeId =>
    have ht : ictrack i (w.log ++ [.newInvokeId w.sched.nextInvoke]) = ictrack i w.log := by
      rw [ictrack_snoc]; rfl
    have a := h.keep _ ht
    have b := g.keep _ ht
    exact ⟨⟨a.1, a.2, a.3⟩, b⟩
  | cancelInvoked j =>
    by_cases hj : j = i
    · subst hj
      have ht : ictrack j (w.call (.cancelInvoked j)).log =
          { ictrack j w.log with cancelled := true } := by
        simp only [World.call]; rw [ictrack_snoc]; simp [ICTrack.step]
      refine ⟨⟨?_, ?_, ?_⟩, g.append (.cancelInvoked j) rfl rfl (by rw [ht])⟩
      · intro _
        exact .inr ⟨w.sched.queue, [], rfl, by simp⟩
      · intro _; rw [ht]
      · rw [ht]; exact h.late
    · have ht : ictrack i (w.call (.cancelInvoked j)).log = ictrack i w.log := by
        simp only [World.call]; rw [ictrack_snoc]; simp [ICTrack.step, hj]
      exact ⟨h.append _ rfl rfl ht, g.append _ rfl rfl (by rw [ht])⟩
  | scheduleInvokedWork work j =>
    by_cases hj : j = i
    · subst hj
      have ht : ictrack j (w.call (.scheduleInvokedWork work j)).log =
          { ictrack j w.log with cancelled := false, drained := false } := by
        simp only [World.call]; rw [ictrack_snoc]; simp [ICTrack.step]
      refine ⟨⟨?_, ?_, ?_⟩, ?_⟩
      · rw [ht]; intro h; cases h
      · rw [ht]; intro h; cases h
      · rw [ht]; exact h.late
      · unfold KGone; rw [ht]; intro h; cases h
    · have ht : ictrack i (w.call (.scheduleInvokedWork work j)).log = ictrack i w.log := by
        simp only [World.call]; rw [ictrack_snoc]; simp [ICTrack.step, hj]
      exact ⟨h.append _ (by simp [Action.adds, hj]) rfl ht,
        g.append _ (by simp [Action.adds, hj]) rfl (by rw [ht])⟩

theorem KWorld.step {i : Nat} {reg : Prop} {a b : World env} {src : Src} {t : Nat}
    (hs : WStep src t a b) (h : KWorld i reg a ∧ KGone i reg a) (hsrc : src = .invoked i → reg) :
    KWorld i reg b ∧ KGone i reg b := by
  cases hs with
  | run =>
    have ht : ictrack i (a.log ++ [.run src t]) = ictrack i a.log := by
      rw [ictrack_snoc]; simp only [ICTrack.step]
      rw [if_neg]
      rintro ⟨h1, h2⟩
      exact (h.2 h2).1 (hsrc h1)
    exact ⟨h.1.keep _ ht, h.2.keep _ ht⟩
  | ctx => exact ⟨⟨h.1.1, h.1.2, h.1.3⟩, h.2⟩
  | call c => exact h.1.call h.2 c

theorem KWorld.steps {i : Nat} {reg : Prop} {a b : World env} {src : Src} {t : Nat}
    (hs : Steps src t a b) (hsrc : src = .invoked i → reg) (h : KWorld i reg a ∧ KGone i reg a) :
    KWorld i reg b ∧ KGone i reg b :=
  hs.inv (P := fun w => KWorld i reg w ∧ KGone i reg w) (fun _ _ hs h => KWorld.step hs h hsrc) h

theorem KWorld.weaken {i : Nat} {reg reg' : Prop} {w : World env}
    (h : KWorld i reg w ∧ KGone i reg w) (hr : reg' → reg) :
    KWorld i reg' w ∧ KGone i reg' w := by
  obtain ⟨⟨h1, h2, h3⟩, g⟩ := h
  refine ⟨⟨fun hc => ?_, h2, h3⟩, fun hd => ⟨fun hh => (g hd).1 (hr hh), (g hd).2⟩⟩
  rcases h1 hc with ⟨h, h'⟩ | h
  · exact .inl ⟨fun hh => h (hr hh), h'⟩
  · exact .inr h

/-- The invariant about the cancellation of invoked work, at the boundaries of passes. -/
structure KP (i : Nat) (e : Exec env) : Prop where
  world : KWorld i (∃ wk, e.invokable i = some wk) e.world
  gone : KGone i (∃ wk, e.invokable i = some wk) e.world

theorem KP.processAll {i : Nat} (q : List (Action env.B)) {e : Exec env}
    (h : KWorld i (∃ wk, e.invokable i = some wk) (e.withQueue q).world) :
    KWorld i (∃ wk, (q.foldl Exec.processAction e).invokable i = some wk)
      ((q.foldl Exec.processAction e).withQueue []).world := by
  induction q generalizing e with
  | nil => exact h
  | cons a q ih =>
    refine ih ?_
    obtain ⟨h1, h2, h3⟩ := h
    refine ⟨?_, by simp only [Exec.withQueue, processAction_world]; exact h2,
      by simp only [Exec.withQueue, processAction_world]; exact h3⟩
    simp only [Exec.withQueue, processAction_world] at h1 ⊢
    intro hc
    rcases h1 hc with ⟨h, h'⟩ | ⟨pre, post, h, h'⟩
    · left
      refine ⟨?_, fun x hx => h' x (List.mem_cons_of_mem _ hx)⟩
      cases a with
      | addInvoked j wk =>
        have := h' _ List.mem_cons_self
        simp only [Action.adds, beq_eq_false_iff_ne] at this
        simp only [Exec.processAction, fset, if_neg (Ne.symm this)]
        exact h
      | cancelInvoked j =>
        simp only [Exec.processAction, fset]
        split
        · simp
        · exact h
      | _ => exact h
    · cases pre with
      | nil =>
        simp only [List.nil_append, List.cons.injEq] at h
        obtain ⟨rfl, rfl⟩ := h
        left
        simp only [Exec.processAction, fset, if_pos]
        exact ⟨by simp, h'⟩
      | cons x pre =>
        simp only [List.cons_append, List.cons.injEq] at h
        exact .inr ⟨pre, post, h.2, h'⟩

theorem KP.drain {i : Nat} {e : Exec env} (h : KP i e) (t : Nat) : KP i (e.drain t).1 := by
  have hw : (e.drain t).1.world = { e.world with
      sched := { e.world.sched with
        currentTick := updateTick e.world.sched.currentTick t, queue := [] }
      log := e.world.log ++ [.drained] } := by
    simp only [Exec.drain, processAll_world]
  have key : KWorld i (∃ wk, (e.drain t).1.invokable i = some wk)
      ((e.drain t).1.withQueue []).world := by
    unfold Exec.drain
    refine KP.processAll _ ?_
    obtain ⟨⟨h1, h2, h3⟩, g⟩ := h
    have hcan : (ictrack i (e.world.log ++ [.drained])).cancelled =
        (ictrack i e.world.log).cancelled := by
      rw [ictrack_snoc]; simp only [ICTrack.step]; split <;> rfl
    refine ⟨?_, ?_, ?_⟩ <;> simp only [Exec.withQueue]
    · rw [hcan]; exact h1
    · rw [hcan, ictrack_snoc]; simp only [ICTrack.step]
      intro hd
      split at hd
      · rename_i hc; exact hc
      · exact h2 hd
    · rw [ictrack_snoc]; simp only [ICTrack.step]; split <;> exact h3
  have hself : (e.drain t).1.withQueue [] = (e.drain t).1 := by
    have := Exec.withQueue_self (e.drain t).1
    rw [hw] at this; exact this
  rw [hself] at key
  refine ⟨key, fun hd => ?_⟩
  have hq : (e.drain t).1.world.sched.queue = [] := by rw [hw]
  rcases key.effective (key.drained hd) with h | ⟨pre, post, h, _⟩
  · exact h
  · rw [hq] at h; simp at h

theorem KP.tickScheduled {i : Nat} {e e' : Exec env} {t : Nat} {q : Bool} (h : KP i e)
    (ht : e.tickScheduled t = some (e', q)) : KP i e' := by
  unfold Exec.tickScheduled at ht
  split at ht
  · cases ht
  · rename_i out w heq
    have key : ∀ (l : List (Nat × Work env.B)) (w : World env) (r),
        tickPass e.alreadyTicked t l w = some r →
        (KWorld i (∃ wk, e.invokable i = some wk) w ∧ KGone i (∃ wk, e.invokable i = some wk) w) →
        (KWorld i (∃ wk, e.invokable i = some wk) r.2 ∧
          KGone i (∃ wk, e.invokable i = some wk) r.2) := by
      intro l
      induction l with
      | nil => intro w r h hw; simp only [tickPass] at h; cases h; exact hw
      | cons p l ih =>
        obtain ⟨id, wk⟩ := p
        intro w r h hw
        simp only [tickPass] at h
        split at h
        · split at h
          · rename_i heq
            cases h
            have := ih _ _ heq hw
            exact this
          · cases h
        · split at h
          · cases h
          · rename_i wk' w1 res hk
            split at h
            · rename_i out w2 heq
              cases h
              have ht0 : ictrack i (w.log ++ [.ticked id t]) = ictrack i w.log := by
                rw [ictrack_snoc]; rfl
              have k1 := KWorld.steps (Steps.tick hk) (by simp)
                ⟨hw.1.keep (.ticked id t) ht0, hw.2.keep (.ticked id t) ht0⟩
              simp only at k1
              have k2 : (KWorld i (∃ wk, e.invokable i = some wk)
                    (if res = .done then w1.emit (.done (.work id)) else w1) ∧
                  KGone i (∃ wk, e.invokable i = some wk)
                    (if res = .done then w1.emit (.done (.work id)) else w1)) := by
                split
                · have hte : ictrack i (w1.log ++ [.done (.work id)]) = ictrack i w1.log := by
                    rw [ictrack_snoc]; rfl
                  exact ⟨k1.1.keep _ hte, k1.2.keep _ hte⟩
                · exact k1
              have := ih _ _ heq k2
              exact this
            · cases h
    have := key _ _ _ heq ⟨h.world, h.gone⟩
    cases ht
    exact ⟨this.1, this.2⟩

theorem KP.execInvoked {i : Nat} {t : Nat} : ∀ (l : List Nat) (inv : Nat → Option (Work env.B))
    (w : World env) (r), execInvoked t l inv w = some r →
    (KWorld i (∃ wk, inv i = some wk) w ∧ KGone i (∃ wk, inv i = some wk) w) →
    (KWorld i (∃ wk, r.1 i = some wk) r.2 ∧ KGone i (∃ wk, r.1 i = some wk) r.2) := by
  intro l
  induction l with
  | nil => intro inv w r h hw; simp only [Rx.Sched.execInvoked] at h; cases h; exact hw
  | cons j l ih =>
    intro inv w r h hw
    simp only [Rx.Sched.execInvoked] at h
    split at h
    · exact ih _ _ _ h hw
    · rename_i wk hj
      split at h
      · cases h
      · rename_i wk' w1 res hk
        have k1 := KWorld.steps (Steps.tick hk) (by intro he; cases he; exact ⟨wk, hj⟩) hw
        simp only at k1
        split at h
        · refine ih _ _ _ h (KWorld.weaken (reg := ∃ wk, inv i = some wk) ?_ ?_)
          · have hte : ictrack i (w1.log ++ [.done (.invoked j)]) = ictrack i w1.log := by
              rw [ictrack_snoc]; rfl
            exact ⟨k1.1.keep _ hte, k1.2.keep _ hte⟩
          · simp only [fset]
            split
            · simp
            · exact id
        · refine ih _ _ _ h (KWorld.weaken k1 ?_)
          simp only [fset]
          split
          · rename_i hij; intro _; rw [hij]; exact ⟨wk, hj⟩
          · exact id

theorem KP.executeInvoked {i : Nat} {e e' : Exec env} {t : Nat} (h : KP i e)
    (he : e.executeInvoked t = some e') : KP i e' := by
  unfold Exec.executeInvoked at he
  split at he
  · cases he
  · rename_i inv w heq
    cases he
    have := KP.execInvoked _ _ _ _ heq ⟨h.world, h.gone⟩
    exact ⟨this.1, this.2⟩

theorem KP.pass {i : Nat} {e e' : Exec env} {t : Nat} {q : Bool} (h : KP i e)
    (hp : e.pass t = some (e', q)) : KP i e' := by
  unfold Exec.pass at hp
  simp only at hp
  split at hp
  · cases hp
  · rename_i e1 nw heq
    split at hp
    · cases hp
    · rename_i e2 heq2
      cases hp
      exact ((h.drain t).tickScheduled heq).executeInvoked heq2

theorem KP.emit {i : Nat} {e : Exec env} (h : KP i e) (ev : Ev env.B)
    (he : ictrack i (e.world.log ++ [ev]) = ictrack i e.world.log) :
    KP i { e with world := e.world.emit ev } :=
  ⟨h.world.keep _ he, h.gone.keep _ he⟩

theorem KP.tickTo {i : Nat} {e e' : Exec env} {t : Nat} (h : KP i e) (ht : e.tickTo t = .ok e') :
    KP i e' := by
  obtain ⟨e1, hl, rfl⟩ := tickTo_ok ht
  have hb : KP i (e.begin t) :=
    have := h.emit (.tickStart t) (by rw [ictrack_snoc]; rfl)
    ⟨this.1, this.2⟩
  have := loop_inv (P := KP i) (fun e e' b h hp => h.pass hp) _ hb hl
  exact this.emit _ (by rw [ictrack_snoc]; rfl)

theorem KP.call {i : Nat} {e : Exec env} (h : KP i e) (c : Call env.B) :
    KP i { e with world := e.world.call c } :=
  have := h.world.call h.gone c
  ⟨this.1, this.2⟩

theorem KP.init (i : Nat) (ctx : env.Ctx) (n : Nat) : KP i (Exec.new (env := env) ctx n) := by
  refine ⟨⟨?_, ?_, ?_⟩, ?_⟩ <;> simp [Exec.new, ictrack, KGone]

theorem KP.run {i : Nat} {ops : List (Op env.B)} {e e' : Exec env} (h : KP i e)
    (hr : e.run ops = .ok e') : KP i e' :=
  run_inv (P := KP i) (fun _ c h => h.call c) (fun _ _ _ h ht => h.tickTo ht) ops h hr

/-! ## Counting invocations -/

/-- What an invariant about the work registered under `i` has to satisfy. It may depend on what is
registered, on how often `i` occurs in the executor's list of invocations, and on the world. -/
structure ILaws (i : Nat) (W : Option (Work env.B) → Nat → World env → Prop) : Prop where
  init : ∀ ctx, W none 0 { ctx := ctx, sched := {}, log := [] }
  ctx : ∀ reg cl (w : World env) c, W reg cl w → W reg cl { w with ctx := c }
  call : ∀ reg cl w c, W reg cl w → W reg cl (w.call c)
  other : ∀ reg cl (w : World env) e, itrack i (w.log ++ [e]) = itrack i w.log →
    W reg cl w → W reg cl (w.emit e)
  own : ∀ wk cl t w wk' w' res, W (some wk) (cl + 1) w →
    wk.tick (.invoked i) t w = some (wk', w', res) →
    W (if res = .done then none else some wk') cl
      (if res = .done then w'.emit (.done (.invoked i)) else w')
  skip : ∀ cl w, W none (cl + 1) w → W none cl w
  drain : ∀ (e : Exec env) t, e.invoked = [] → W (e.invokable i) 0 e.world →
    W ((e.drain t).1.invokable i) ((e.drain t).1.invoked.count i) (e.drain t).1.world

section

variable {i : Nat} {W : Option (Work env.B) → Nat → World env → Prop}

theorem ILaws.step (laws : ILaws i W) {reg : Option (Work env.B)} {cl : Nat} {src : Src} {t : Nat}
    {a b : World env} (h : WStep src t a b) (hsrc : src ≠ .invoked i) (ha : W reg cl a) :
    W reg cl b := by
  cases h with
  | run => exact laws.other _ _ _ _ (by rw [itrack_snoc]; simp [ITrack.step, hsrc]) ha
  | ctx c => exact laws.ctx _ _ _ _ ha
  | call c => exact laws.call _ _ _ _ ha

theorem ILaws.tickPass (laws : ILaws i W) {reg : Option (Work env.B)} {cl : Nat}
    {already : Nat → Bool} {t : Nat} : ∀ (l : List (Nat × Work env.B)) (w : World env) (r),
      tickPass already t l w = some r → W reg cl w → W reg cl r.2 := by
  intro l
  induction l with
  | nil => intro w r h hw; simp only [Rx.Sched.tickPass] at h; cases h; exact hw
  | cons p l ih =>
    obtain ⟨id, wk⟩ := p
    intro w r h hw
    simp only [Rx.Sched.tickPass] at h
    split at h
    · split at h
      · rename_i heq
        cases h
        have := ih _ _ heq hw
        exact this
      · cases h
    · split at h
      · cases h
      · rename_i wk' w1 res hk
        split at h
        · rename_i out w2 heq
          cases h
          have k1 : W reg cl w1 := (Steps.tick hk).inv (P := W reg cl)
            (fun a b hs ha => laws.step hs (by simp) ha)
            (laws.other _ _ _ _ (by rw [itrack_snoc]; rfl) hw)
          have k2 : W reg cl (if res = .done then w1.emit (.done (.work id)) else w1) := by
            split
            · exact laws.other _ _ _ _ (by rw [itrack_snoc]; simp [ITrack.step]) k1
            · exact k1
          have := ih _ _ heq k2
          exact this
        · cases h

theorem ILaws.execInvoked (laws : ILaws i W) {t : Nat} : ∀ (l : List Nat)
    (inv : Nat → Option (Work env.B)) (w : World env) (r), execInvoked t l inv w = some r →
    W (inv i) (l.count i) w → W (r.1 i) 0 r.2 := by
  intro l
  induction l with
  | nil => intro inv w r h hw; simp only [Rx.Sched.execInvoked] at h; cases h; simpa using hw
  | cons j l ih =>
    intro inv w r h hw
    simp only [Rx.Sched.execInvoked] at h
    by_cases hji : j = i
    · subst hji
      rw [List.count_cons_self] at hw
      split at h
      · rename_i hn
        rw [hn] at hw
        exact ih _ _ _ h (by rw [hn]; exact laws.skip _ _ hw)
      · rename_i wk hj
        rw [hj] at hw
        split at h
        · cases h
        · rename_i wk' w1 res hk
          have := laws.own _ _ _ _ _ _ _ hw hk
          split at h
          · rename_i hres
            rw [if_pos hres, if_pos hres] at this
            exact ih _ _ _ h (by simp only [fset, if_pos]; exact this)
          · rename_i hres
            rw [if_neg hres, if_neg hres] at this
            exact ih _ _ _ h (by simp only [fset, if_pos]; exact this)
    · rw [List.count_cons_of_ne hji] at hw
      have hij : ¬ i = j := fun h => hji h.symm
      split at h
      · exact ih _ _ _ h hw
      · rename_i wk hj
        split at h
        · cases h
        · rename_i wk' w1 res hk
          have k1 : W (inv i) (l.count i) w1 := (Steps.tick hk).inv (P := W (inv i) (l.count i))
            (fun a b hs ha => laws.step hs (by intro h; cases h; exact hji rfl) ha) hw
          split at h
          · refine ih _ _ _ h ?_
            simp only [fset, if_neg hij]
            exact laws.other _ _ _ _ (by rw [itrack_snoc]; simp [ITrack.step, hji]) k1
          · refine ih _ _ _ h ?_
            simp only [fset, if_neg hij]
            exact k1

/-- The invariant at the boundaries of passes. -/
def IP (i : Nat) (W : Option (Work env.B) → Nat → World env → Prop) (e : Exec env) : Prop :=
  e.invoked = [] ∧ W (e.invokable i) 0 e.world

theorem IP.pass (laws : ILaws i W) {e e' : Exec env} {t : Nat} {q : Bool} (h : IP i W e)
    (hp : e.pass t = some (e', q)) : IP i W e' := by
  have h1 := laws.drain e t h.1 h.2
  unfold Exec.pass at hp
  simp only at hp
  split at hp
  · cases hp
  · rename_i e1 nw heq
    unfold Exec.tickScheduled at heq
    split at heq
    · cases heq
    · rename_i out w heq3
      cases heq
      have h2 := laws.tickPass _ _ _ heq3 h1
      split at hp
      · cases hp
      · rename_i e2 heq2
        cases hp
        unfold Exec.executeInvoked at heq2
        split at heq2
        · cases heq2
        · rename_i inv w2 heq4
          cases heq2
          exact ⟨rfl, laws.execInvoked _ _ _ _ heq4 h2⟩

theorem IP.tickTo (laws : ILaws i W) {e e' : Exec env} {t : Nat} (h : IP i W e)
    (ht : e.tickTo t = .ok e') : IP i W e' := by
  obtain ⟨e1, hl, rfl⟩ := tickTo_ok ht
  have hb : IP i W (e.begin t) := ⟨h.1, laws.other _ _ _ _ (by rw [itrack_snoc]; rfl) h.2⟩
  have := loop_inv (P := IP i W) (fun e e' b h hp => h.pass laws hp) _ hb hl
  exact ⟨this.1, laws.other _ _ _ _ (by rw [itrack_snoc]; rfl) this.2⟩

theorem IP.call (laws : ILaws i W) {e : Exec env} (h : IP i W e) (c : Call env.B) :
    IP i W { e with world := e.world.call c } := ⟨h.1, laws.call _ _ _ _ h.2⟩

theorem IP.run (laws : ILaws i W) {ops : List (Op env.B)} {e e' : Exec env} (h : IP i W e)
    (hr : e.run ops = .ok e') : IP i W e' :=
  run_inv (P := IP i W) (fun _ c h => h.call laws c) (fun _ _ _ h ht => h.tickTo laws ht) ops h hr

theorem IP.init (laws : ILaws i W) (ctx : env.Ctx) (n : Nat) : IP i W (Exec.new ctx n) :=
  ⟨rfl, laws.init ctx⟩

end

/-! ### At most one run per invocation -/

/-- Is this plain `TickedInvokedWork`? -/
def Work.isInvoked {B : Type} : Work B → Bool
  | .invoked _ => true
  | _ => false

def Action.invokes {B : Type} (i : Nat) : Action B → Bool
  | .invoke j => j == i
  | _ => false

/-- As long as only plain invoked work was registered: every invocation is accounted for. -/
def AtMost (i : Nat) (reg : Option (Work env.B)) (cl : Nat) (w : World env) : Prop :=
  (itrack i w.log).plain = true →
    (∀ wk, reg = some wk → wk.isInvoked = true) ∧
    (∀ wk, Action.addInvoked i wk ∈ w.sched.queue → wk.isInvoked = true) ∧
    (itrack i w.log).runs + cl + w.sched.queue.countP (Action.invokes i) ≤
      (itrack i w.log).invokes

theorem AtMost.append {i : Nat} {reg : Option (Work env.B)} {cl : Nat} {w w' : World env}
    (a : Action env.B) (h : AtMost i reg cl w) (hq : w'.sched.queue = w.sched.queue ++ [a])
    (ha1 : a.adds i = false) (ha2 : a.invokes i = false)
    (hp : (itrack i w'.log).plain = (itrack i w.log).plain)
    (hr : (itrack i w'.log).runs = (itrack i w.log).runs)
    (hi : (itrack i w'.log).invokes = (itrack i w.log).invokes) : AtMost i reg cl w' := by
  intro hpl
  obtain ⟨h1, h2, h3⟩ := h (hp ▸ hpl)
  refine ⟨h1, ?_, ?_⟩
  · intro wk hm
    rw [hq] at hm
    simp only [List.mem_append, List.mem_singleton] at hm
    rcases hm with hm | hm
    · exact h2 wk hm
    · subst hm; simp [Action.adds] at ha1
  · rw [hq, hr, hi, List.countP_append]
    simp [ha2]; exact h3

theorem AtMost.call {i : Nat} {reg : Option (Work env.B)} {cl : Nat} {w : World env} (c : Call env.B)
    (h : AtMost i reg cl w) : AtMost i reg cl (w.call c) := by
  cases c with
  | scheduleWork work cid =>
    exact h.append _ rfl rfl rfl (by simp only [World.call]; rw [itrack_snoc]; rfl)
      (by simp only [World.call]; rw [itrack_snoc]; rfl)
      (by simp only [World.call]; rw [itrack_snoc]; rfl)
  | cancel cid =>
    exact h.append _ rfl rfl rfl (by simp only [World.call]; rw [itrack_snoc]; rfl)
      (by simp only [World.call]; rw [itrack_snoc]; rfl)
      (by simp only [World.call]; rw [itrack_snoc]; rfl)
  | cancelInvoked j =>
    exact h.append _ rfl rfl rfl (by simp only [World.call]; rw [itrack_snoc]; rfl)
      (by simp only [World.call]; rw [itrack_snoc]; rfl)
      (by simp only [World.call]; rw [itrack_snoc]; rfl)
  | generateCancellationId =>
    intro hp; simp only [World.call] at hp ⊢; rw [itrack_snoc] at hp ⊢; exact h hp
  | generateInvokeId =>
    intro hp; simp only [World.call] at hp ⊢; rw [itrack_snoc] at hp ⊢; exact h hp
  | invoke j =>
    by_cases hj : j = i
    · subst hj
      have ht : itrack j (w.call (.invoke j)).log = (itrack j w.log).step (B := env.B) j (.invoke j) := by
        simp only [World.call]; rw [itrack_snoc]
      intro hp
      rw [ht] at hp ⊢
      simp only [ITrack.step, if_pos] at hp ⊢
      obtain ⟨h1, h2, h3⟩ := h hp
      refine ⟨h1, ?_, ?_⟩
      · intro wk hm
        simp only [World.call, List.mem_append, List.mem_singleton] at hm
        rcases hm with hm | hm
        · exact h2 wk hm
        · cases hm
      · simp only [World.call, List.countP_append]
        simp [Action.invokes]; omega
    · have ht : itrack i (w.call (.invoke j)).log = itrack i w.log := by
        simp only [World.call]; rw [itrack_snoc]; simp [ITrack.step, hj]
      exact h.append _ rfl rfl (by simp [Action.invokes, hj]) (by rw [ht]) (by rw [ht]) (by rw [ht])
  | scheduleInvokedWork work j =>
    by_cases hj : j = i
    · subst hj
      have ht : itrack j (w.call (.scheduleInvokedWork work j)).log =
          (itrack j w.log).step j (.addInvoked j work) := by
        simp only [World.call]; rw [itrack_snoc]
      intro hp
      rw [ht] at hp ⊢
      simp only [ITrack.step, if_pos, Bool.and_eq_true] at hp ⊢
      obtain ⟨h1, h2, h3⟩ := h hp.1
      refine ⟨h1, ?_, ?_⟩
      · intro wk hm
        simp only [World.call, List.mem_append, List.mem_singleton] at hm
        rcases hm with hm | hm
        · exact h2 wk hm
        · cases hm
          have := hp.2
          cases work <;> simp_all [Work.isInvoked, Work.onScheduled]
      · simp only [World.call, List.countP_append]
        simp [Action.invokes]; omega
    · have ht : itrack i (w.call (.scheduleInvokedWork work j)).log = itrack i w.log := by
        simp only [World.call]; rw [itrack_snoc]; simp [ITrack.step, hj]
      exact h.append _ rfl (by simp [Action.adds, hj]) rfl (by rw [ht]) (by rw [ht]) (by rw [ht])

theorem AtMost.processAll {i : Nat} (q : List (Action env.B)) {e : Exec env}
    (h : AtMost i (e.invokable i) (e.invoked.count i) (e.withQueue q).world) :
    AtMost i ((q.foldl Exec.processAction e).invokable i)
      ((q.foldl Exec.processAction e).invoked.count i)
      ((q.foldl Exec.processAction e).withQueue []).world := by
  induction q generalizing e with
  | nil => exact h
  | cons a q ih =>
    refine ih ?_
    intro hp
    simp only [Exec.withQueue, processAction_world] at hp ⊢
    obtain ⟨h1, h2, h3⟩ := h hp
    simp only [Exec.withQueue] at h1 h2 h3
    rw [List.countP_cons] at h3
    have h2' : ∀ wk, Action.addInvoked i wk ∈ q → wk.isInvoked = true := fun wk hm =>
      h2 wk (List.mem_cons_of_mem _ hm)
    cases a with
    | addInvoked j wk =>
      refine ⟨?_, h2', ?_⟩
      · simp only [Exec.processAction, fset]
        split
        · rename_i hij
          intro wk' hw; cases hw
          exact h2 wk (by rw [hij]; simp)
        · exact h1
      · simp [Action.invokes] at h3; exact h3
    | invoke j =>
      refine ⟨h1, h2', ?_⟩
      simp only [Exec.processAction, List.count_append]
      by_cases hj : j = i
      · subst hj; simp [Action.invokes] at h3 ⊢; omega
      · simp [Action.invokes, hj] at h3 ⊢
        exact h3
    | cancelInvoked j =>
      refine ⟨?_, h2', ?_⟩
      · simp only [Exec.processAction, fset]
        split
        · intro wk' hw; cases hw
        · exact h1
      · have : (e.invoked.filter (fun k => k == j)).count i ≤ e.invoked.count i :=
          List.filter_sublist.count_le _
        simp only [Exec.processAction]
        simp [Action.invokes] at h3; omega
    | cancel c => exact ⟨h1, h2', by simp [Action.invokes] at h3; exact h3⟩
    | activate c v wk => exact ⟨h1, h2', by simp [Action.invokes] at h3; exact h3⟩

theorem atMost_laws (i : Nat) : ILaws (env := env) i (AtMost i) where
  init ctx := by
    intro _
    exact ⟨by simp, by simp, by simp [itrack]⟩
  ctx _ _ _ _ h := h
  call _ _ _ c h := h.call c
  other reg cl w e he h := by
    intro hp
    simp only [World.emit] at hp ⊢
    rw [he] at hp ⊢; exact h hp
  own wk cl t w wk' w' res h hk := by
    have hns : ∀ w : World env, AtMost i (if res = .done then none else some wk') cl w →
        AtMost i (if res = .done then none else some wk') cl
          (if res = .done then w.emit (.done (.invoked i)) else w) := by
      intro w hw
      split
      · rename_i hr
        rw [if_pos hr] at hw
        intro hp
        simp only [World.emit] at hp ⊢
        rw [itrack_snoc] at hp ⊢
        simp only [ITrack.step, if_pos] at hp ⊢
        exact hw hp
      · rename_i hr
        rw [if_neg hr] at hw
        exact hw
    refine hns _ ?_
    by_cases hwk : wk.isInvoked = true
    · cases wk with
      | invoked b =>
        simp only [Work.tick] at hk
        cases hk
        simp only [runBody]
        have h0 : AtMost i (if (env.exec b t w.ctx w.sched).2.2.2 = .done then none
            else some (.invoked (env.exec b t w.ctx w.sched).1)) cl (w.emit (.run (.invoked i) t)) := by
          intro hp
          simp only [World.emit] at hp ⊢
          rw [itrack_snoc] at hp ⊢
          simp only [ITrack.step, if_pos] at hp ⊢
          obtain ⟨h1, h2, h3⟩ := h hp
          refine ⟨?_, h2, by omega⟩
          split
          · intro wk hw; cases hw
          · intro wk hw; cases hw; rfl
        have h1 : ∀ (cs : List (Call env.B)) (w : World env) reg, AtMost i reg cl w →
            AtMost i reg cl (cs.foldl World.call w) := by
          intro cs
          induction cs with
          | nil => intro w _ h; exact h
          | cons c cs ih => intro w _ h; exact ih _ _ (h.call c)
        exact h1 _ _ _ h0
      | _ => simp [Work.isInvoked] at hwk
    · have hbad : (itrack i w.log).plain = false := by
        cases hp : (itrack i w.log).plain with
        | false => rfl
        | true => exact absurd ((h hp).1 wk rfl) hwk
      have : (itrack i w'.log).plain = false := by
        refine (Steps.tick hk).inv (P := fun w => (itrack i w.log).plain = false) ?_ hbad
        intro a b hs ha
        cases hs with
        | run =>
          simp only [World.emit]; rw [itrack_snoc]; simp only [ITrack.step]
          split <;> exact ha
        | ctx => exact ha
        | call c =>
          cases c <;> simp only [World.call] <;> rw [itrack_snoc] <;> simp only [ITrack.step] <;>
            first
              | exact ha
              | (split <;> simp [ha])
      intro hp
      rw [this] at hp; cases hp
  skip cl w h := by
    intro hp
    obtain ⟨h1, h2, h3⟩ := h hp
    exact ⟨h1, h2, by omega⟩
  drain e t hn h := by
    have hw : (e.drain t).1.world = { e.world with
        sched := { e.world.sched with
          currentTick := updateTick e.world.sched.currentTick t, queue := [] }
        log := e.world.log ++ [.drained] } := by
      simp only [Exec.drain, processAll_world]
    have hself : (e.drain t).1.withQueue [] = (e.drain t).1 := by
      have := Exec.withQueue_self (e.drain t).1
      rw [hw] at this; exact this
    rw [← hself]
    unfold Exec.drain
    refine AtMost.processAll _ ?_
    intro hp
    simp only [Exec.withQueue] at hp ⊢
    rw [itrack_snoc] at hp ⊢
    simp only [ITrack.step] at hp ⊢
    have := h hp
    rw [hn]; exact this

/-! ### Exactly one run per invocation -/

/-- Where the work registered under `i` is, and where its invocations are. -/
inductive Phase (i : Nat) (reg : Option (Work env.B)) (cl : Nat) (q : List (Action env.B))
    (T : ITrack) : Prop where
  | unborn : T.added = 0 → (∀ a ∈ q, a.adds i = false) → reg = none →
      q.countP (Action.invokes i) = 0 → cl = 0 → T.runs = 0 → T.invokes = 0 → T.done = false →
      Phase i reg cl q T
  | queued (pre post) (b : env.B) : T.added = 1 → q = pre ++ .addInvoked i (.invoked b) :: post →
      (∀ a ∈ pre, a.adds i = false) → (∀ a ∈ post, a.adds i = false) →
      pre.countP (Action.invokes i) = 0 → cl = 0 → T.runs = 0 → T.done = false →
      T.invokes = post.countP (Action.invokes i) → Phase i reg cl q T
  | registered (b : env.B) : T.added = 1 → (∀ a ∈ q, a.adds i = false) → T.done = false →
      reg = some (.invoked b) → T.invokes = T.runs + cl + q.countP (Action.invokes i) →
      Phase i reg cl q T
  | done : T.added = 1 → (∀ a ∈ q, a.adds i = false) → T.done = true → reg = none →
      Phase i reg cl q T

/-- No `cancel_invoked` behind an invocation of `i`. -/
def NoCancelAfter (i : Nat) (q : List (Action env.B)) : Prop :=
  ∀ pre j post, q = pre ++ .cancelInvoked j :: post → pre.countP (Action.invokes i) = 0

/-- While undisturbed, every invocation is accounted for. -/
structure Exactly (i : Nat) (reg : Option (Work env.B)) (cl : Nat) (w : World env) : Prop where
  fresh : (itrack i w.log).fresh = w.sched.queue.countP (Action.invokes i)
  ok : Undisturbed (itrack i w.log) →
    Phase i reg cl w.sched.queue (itrack i w.log) ∧ .cancelInvoked i ∉ w.sched.queue ∧
      NoCancelAfter i w.sched.queue

theorem Phase.append {i : Nat} {reg : Option (Work env.B)} {cl : Nat} {q : List (Action env.B)}
    {T : ITrack} (h : Phase i reg cl q T) (a : Action env.B) (ha1 : a.adds i = false)
    (ha2 : a.invokes i = false) : Phase i reg cl (q ++ [a]) T := by
  have hadd : ∀ l : List (Action env.B), (∀ x ∈ l, x.adds i = false) →
      ∀ x ∈ l ++ [a], x.adds i = false := by
    intro l hl x hx
    rcases List.mem_append.1 hx with hx | hx
    · exact hl x hx
    · simp only [List.mem_singleton] at hx; rw [hx]; exact ha1
  have hcnt : ∀ l : List (Action env.B), (l ++ [a]).countP (Action.invokes i) =
      l.countP (Action.invokes i) := by
    intro l; simp [List.countP_append, ha2]
  cases h with
  | unborn h1 h2 h3 h4 h5 h6 h7 h8 =>
    exact .unborn h1 (hadd _ h2) h3 (by rw [hcnt]; exact h4) h5 h6 h7 h8
  | queued pre post b h1 h2 h3 h4 h5 h6 h7 h8 h9 =>
    exact .queued pre (post ++ [a]) b h1 (by rw [h2]; simp) h3 (hadd _ h4) h5 h6 h7 h8
      (by rw [hcnt]; exact h9)
  | registered b h1 h2 h3 h4 h5 => exact .registered b h1 (hadd _ h2) h3 h4 (by rw [hcnt]; exact h5)
  | done h1 h2 h3 h4 => exact .done h1 (hadd _ h2) h3 h4

theorem NoCancelAfter.append {i : Nat} {q : List (Action env.B)} (h : NoCancelAfter i q)
    (a : Action env.B) (ha : ∀ j, a = .cancelInvoked j → q.countP (Action.invokes i) = 0) :
    NoCancelAfter i (q ++ [a]) := by
  intro pre j post heq
  rcases append_cons_snoc heq with ⟨_, h1, rfl⟩ | ⟨post', _, hl⟩
  · exact ha j h1
  · exact h pre j post' hl

/-- A call that is not about `i`. -/
theorem Exactly.append {i : Nat} {reg : Option (Work env.B)} {cl : Nat} {w w' : World env}
    (a : Action env.B) (h : Exactly i reg cl w) (hq : w'.sched.queue = w.sched.queue ++ [a])
    (ha1 : a.adds i = false) (ha2 : a.invokes i = false) (ha3 : ∀ j, a ≠ .cancelInvoked j)
    (ht : itrack i w'.log = itrack i w.log) : Exactly i reg cl w' := by
  refine ⟨?_, ?_⟩
  · rw [ht, hq, h.fresh]; simp [List.countP_append, ha2]
  · rw [ht, hq]
    intro hu
    obtain ⟨h1, h2, h3⟩ := h.ok hu
    refine ⟨h1.append a ha1 ha2, ?_, h3.append a fun j hj => absurd hj (ha3 j)⟩
    intro hm
    rcases List.mem_append.1 hm with hm | hm
    · exact h2 hm
    · simp only [List.mem_singleton] at hm; exact ha3 i hm.symm

theorem Exactly.call {i : Nat} {reg : Option (Work env.B)} {cl : Nat} {w : World env}
    (c : Call env.B) (h : Exactly i reg cl w) : Exactly i reg cl (w.call c) := by
  cases c with
  | scheduleWork work cid =>
    exact h.append _ rfl rfl rfl (by simp) (by simp only [World.call]; rw [itrack_snoc]; rfl)
  | cancel cid =>
    exact h.append _ rfl rfl rfl (by simp) (by simp only [World.call]; rw [itrack_snoc]; rfl)
  | generateCancellationId =>
    have ht : itrack i (w.log ++ [.newCancellationId w.sched.nextCancel]) = itrack i w.log := by
      rw [itrack_snoc]; rfl
    exact ⟨by simp only [World.call]; rw [ht]; exact h.fresh,
      by simp only [World.call]; rw [ht]; exact h.ok⟩
  | generateInvokeId =>
    have ht : itrack i (w.log ++ [.newInvokeId w.sched.nextInvoke]) = itrack i w.log := by
      rw [itrack_snoc]; rfl
    exact ⟨by simp only [World.call]; rw [ht]; exact h.fresh,
      by simp only [World.call]; rw [ht]; exact h.ok⟩
  | cancelInvoked j =>
    have ht : itrack i (w.call (.cancelInvoked j)).log =
        (itrack i w.log).step (B := env.B) i (.cancelInvoked j) := by
      simp only [World.call]; rw [itrack_snoc]
    have hq : (w.call (.cancelInvoked j)).sched.queue = w.sched.queue ++ [.cancelInvoked j] := rfl
    refine ⟨?_, ?_⟩
    · rw [ht, hq]; simp only [ITrack.step]; rw [h.fresh]; simp [List.countP_append, Action.invokes]
    · rw [ht, hq]
      rintro ⟨u1, u2, u3, u4, u5⟩
      simp only [ITrack.step, Bool.or_eq_false_iff, beq_eq_false_iff_ne, bne_eq_false_iff_eq]
        at u1 u2 u3 u4 u5
      obtain ⟨h1, h2, h3⟩ := h.ok ⟨u1.1, u2.1, u3, u4, u5⟩
      refine ⟨?_, ?_, h3.append _ fun k hk => ?_⟩
      · have := h1.append (.cancelInvoked j) rfl rfl
        cases this with
        | unborn k1 k2 k3 k4 k5 k6 k7 k8 => exact .unborn k1 k2 k3 k4 k5 k6 k7 k8
        | queued pre post b k1 k2 k3 k4 k5 k6 k7 k8 k9 =>
          exact .queued pre post b k1 k2 k3 k4 k5 k6 k7 k8 k9
        | registered b k1 k2 k3 k4 k5 => exact .registered b k1 k2 k3 k4 k5
        | done k1 k2 k3 k4 => exact .done k1 k2 k3 k4
      · intro hm
        rcases List.mem_append.1 hm with hm | hm
        · exact h2 hm
        · simp only [List.mem_singleton] at hm; cases hm; exact u1.2 rfl
      · rw [← h.fresh]; exact u2.2
  | invoke j =>
    by_cases hj : j = i
    · subst hj
      have ht : itrack j (w.call (.invoke j)).log = (itrack j w.log).step (B := env.B) j (.invoke j) := by
        simp only [World.call]; rw [itrack_snoc]
      have hq : (w.call (.invoke j)).sched.queue = w.sched.queue ++ [.invoke j] := rfl
      have hcnt : ∀ l : List (Action env.B), (l ++ [Action.invoke j]).countP (Action.invokes j) =
          l.countP (Action.invokes j) + 1 := by
        intro l; simp [List.countP_append, Action.invokes]
      have hadd : ∀ l : List (Action env.B), (∀ x ∈ l, x.adds j = false) →
          ∀ x ∈ l ++ [.invoke j], x.adds j = false := by
        intro l hl x hx
        rcases List.mem_append.1 hx with hx | hx
        · exact hl x hx
        · simp only [List.mem_singleton] at hx; rw [hx]; rfl
      refine ⟨?_, ?_⟩
      · rw [ht, hq, hcnt]; simp only [ITrack.step, if_pos]; rw [h.fresh]
      · rw [ht, hq]
        rintro ⟨u1, u2, u3, u4, u5⟩
        simp only [ITrack.step, if_pos, Bool.or_eq_false_iff, beq_eq_false_iff_ne]
          at u1 u2 u3 u4 u5
        obtain ⟨h1, h2, h3⟩ := h.ok ⟨u1, u2, u3.1, u4, u5⟩
        refine ⟨?_, ?_, h3.append _ fun k hk => by cases hk⟩
        · simp only [ITrack.step, if_pos]
          cases h1 with
          | unborn k1 k2 k3 k4 k5 k6 k7 k8 => exact absurd k1 u3.2
          | queued pre post b k1 k2 k3 k4 k5 k6 k7 k8 k9 =>
            exact .queued pre (post ++ [.invoke j]) b k1 (by rw [k2]; simp) k3 (hadd _ k4) k5 k6 k7 k8
              (by rw [hcnt]; simp only; omega)
          | registered b k1 k2 k3 k4 k5 =>
            exact .registered b k1 (hadd _ k2) k3 k4 (by rw [hcnt]; simp only; omega)
          | done k1 k2 k3 k4 => exact .done k1 (hadd _ k2) k3 k4
        · intro hm
          rcases List.mem_append.1 hm with hm | hm
          · exact h2 hm
          · simp at hm
    · have ht : itrack i (w.call (.invoke j)).log = itrack i w.log := by
        simp only [World.call]; rw [itrack_snoc]; simp [ITrack.step, hj]
      exact h.append _ rfl rfl (by simp [Action.invokes, hj]) (by simp) ht
  | scheduleInvokedWork work j =>
    by_cases hj : j = i
    · subst hj
      have ht : itrack j (w.call (.scheduleInvokedWork work j)).log =
          (itrack j w.log).step j (.addInvoked j work) := by
        simp only [World.call]; rw [itrack_snoc]
      have hq : (w.call (.scheduleInvokedWork work j)).sched.queue = w.sched.queue ++
          [.addInvoked j (work.onScheduled w.sched.currentTick)] := rfl
      refine ⟨?_, ?_⟩
      · rw [ht, hq]; simp only [ITrack.step, if_pos]; rw [h.fresh]
        simp [List.countP_append, Action.invokes]
      · rw [ht, hq]
        rintro ⟨u1, u2, u3, u4, u5⟩
        simp only [ITrack.step, if_pos, Bool.and_eq_true] at u1 u2 u3 u4 u5
        obtain ⟨h1, h2, h3⟩ := h.ok ⟨u1, u2, u3, u4.1, by omega⟩
        obtain ⟨b, hb⟩ : ∃ b, work = .invoked b := by
          have := u4.2
          cases work <;> simp_all [Work.onScheduled]
        subst hb
        refine ⟨?_, ?_, h3.append _ fun k hk => by cases hk⟩
        · simp only [ITrack.step, if_pos]
          cases h1 with
          | unborn k1 k2 k3 k4 k5 k6 k7 k8 =>
            exact .queued w.sched.queue [] b (by simp only; omega) rfl k2 (by simp) k4 k5 k6 k8
              (by simp only; rw [k7]; rfl)
          | queued pre post b k1 k2 k3 k4 k5 k6 k7 k8 k9 => omega
          | registered b k1 k2 k3 k4 k5 => omega
          | done k1 k2 k3 k4 => omega
        · intro hm
          rcases List.mem_append.1 hm with hm | hm
          · exact h2 hm
          · simp at hm
    · have ht : itrack i (w.call (.scheduleInvokedWork work j)).log = itrack i w.log := by
        simp only [World.call]; rw [itrack_snoc]; simp [ITrack.step, hj]
      exact h.append _ rfl (by simp [Action.adds, hj]) rfl (by simp) ht

/-- The invariant while the queue is processed. -/
def Processing (i : Nat) (e : Exec env) (q : List (Action env.B)) : Prop :=
  Phase i (e.invokable i) (e.invoked.count i) q (itrack i e.world.log) ∧ .cancelInvoked i ∉ q ∧
    NoCancelAfter i q ∧ ((∃ j, .cancelInvoked j ∈ q) → e.invoked.count i = 0)

/-- Taking an action that is not about `i` from the queue. -/
theorem Phase.pop {i : Nat} {reg : Option (Work env.B)} {cl : Nat} {q : List (Action env.B)}
    {T : ITrack} {a : Action env.B} (h : Phase i reg cl (a :: q) T) (ha1 : a.adds i = false)
    (ha2 : a.invokes i = false) : Phase i reg cl q T := by
  have hc : (a :: q).countP (Action.invokes i) = q.countP (Action.invokes i) := by
    rw [List.countP_cons]; simp [ha2]
  cases h with
  | unborn h1 h2 h3 h4 h5 h6 h7 h8 =>
    exact .unborn h1 (fun x hx => h2 x (List.mem_cons_of_mem _ hx)) h3 (by rw [← hc]; exact h4)
      h5 h6 h7 h8
  | queued pre post b h1 h2 h3 h4 h5 h6 h7 h8 h9 =>
    cases pre with
    | nil =>
      simp only [List.nil_append, List.cons.injEq] at h2
      rw [h2.1] at ha1; simp [Action.adds] at ha1
    | cons x pre =>
      simp only [List.cons_append, List.cons.injEq] at h2
      obtain ⟨rfl, h2⟩ := h2
      rw [List.countP_cons] at h5
      exact .queued pre post b h1 h2 (fun x hx => h3 x (List.mem_cons_of_mem _ hx)) h4 (by omega)
        h6 h7 h8 h9
  | registered b h1 h2 h3 h4 h5 =>
    exact .registered b h1 (fun x hx => h2 x (List.mem_cons_of_mem _ hx)) h3 h4
      (by rw [← hc]; exact h5)
  | done h1 h2 h3 h4 => exact .done h1 (fun x hx => h2 x (List.mem_cons_of_mem _ hx)) h3 h4

theorem NoCancelAfter.pop {i : Nat} {q : List (Action env.B)} {a : Action env.B}
    (h : NoCancelAfter i (a :: q)) : NoCancelAfter i q := by
  intro pre j post heq
  have := h (a :: pre) j post (by rw [heq]; rfl)
  rw [List.countP_cons] at this
  omega

theorem Processing.step {i : Nat} {e : Exec env} {a : Action env.B} {q : List (Action env.B)}
    (h : Processing i e (a :: q)) : Processing i (e.processAction a) q := by
  obtain ⟨h1, h2, h3, h4⟩ := h
  have h2' : Action.cancelInvoked i ∉ q := fun hm => h2 (List.mem_cons_of_mem _ hm)
  have h3' := h3.pop
  have h4' : (∃ j, Action.cancelInvoked j ∈ q) → e.invoked.count i = 0 := by
    rintro ⟨j, hj⟩; exact h4 ⟨j, List.mem_cons_of_mem _ hj⟩
  cases a with
  | addInvoked j wk =>
    by_cases hj : j = i
    · subst hj
      have hadd : (Action.addInvoked j wk).adds j = true := by simp [Action.adds]
      refine ⟨?_, h2', h3', h4'⟩
      simp only [Exec.processAction, fset, if_pos]
      cases h1 with
      | unborn k1 k2 => rw [k2 _ List.mem_cons_self] at hadd; cases hadd
      | registered b k1 k2 => rw [k2 _ List.mem_cons_self] at hadd; cases hadd
      | done k1 k2 => rw [k2 _ List.mem_cons_self] at hadd; cases hadd
      | queued pre post b k1 k2 k3 k4 k5 k6 k7 k8 k9 =>
        cases pre with
        | nil =>
          simp only [List.nil_append, List.cons.injEq, Action.addInvoked.injEq] at k2
          obtain ⟨⟨-, rfl⟩, rfl⟩ := k2
          exact .registered b k1 k4 k8 rfl (by omega)
        | cons x pre =>
          simp only [List.cons_append, List.cons.injEq] at k2
          obtain ⟨rfl, k2⟩ := k2
          rw [k3 _ List.mem_cons_self] at hadd; cases hadd
    · refine ⟨?_, h2', h3', h4'⟩
      simp only [Exec.processAction, fset, if_neg (Ne.symm hj)]
      exact h1.pop (by simp [Action.adds, hj]) rfl
  | invoke j =>
    by_cases hj : j = i
    · subst hj
      have hinv : (Action.invoke (B := env.B) j).invokes j = true := by simp [Action.invokes]
      have hno : ¬ ∃ k, Action.cancelInvoked k ∈ q := by
        rintro ⟨k, hk⟩
        obtain ⟨pre, post, hq⟩ := List.append_of_mem hk
        have := h3 (.invoke j :: pre) k post (by rw [hq]; rfl)
        rw [List.countP_cons, hinv] at this
        simp at this
      refine ⟨?_, h2', h3', fun hh => absurd hh hno⟩
      simp only [Exec.processAction, List.count_append, List.count_singleton_self]
      cases h1 with
      | unborn k1 k2 k3 k4 => rw [List.countP_cons, hinv] at k4; simp at k4
      | queued pre post b k1 k2 k3 k4 k5 k6 k7 k8 k9 =>
        cases pre with
        | nil => simp at k2
        | cons x pre =>
          simp only [List.cons_append, List.cons.injEq] at k2
          obtain ⟨rfl, k2⟩ := k2
          rw [List.countP_cons, hinv] at k5; simp at k5
      | registered b k1 k2 k3 k4 k5 =>
        rw [List.countP_cons, hinv] at k5
        simp only [if_true] at k5
        exact .registered b k1 (fun x hx => k2 x (List.mem_cons_of_mem _ hx)) k3 k4 (by omega)
      | done k1 k2 k3 k4 => exact .done k1 (fun x hx => k2 x (List.mem_cons_of_mem _ hx)) k3 k4
    · have hc : (e.invoked ++ [j]).count i = e.invoked.count i := by
        rw [List.count_append, List.count_eq_zero_of_not_mem (l := [j]) (by simpa using Ne.symm hj)]
        rfl
      have hp := h1.pop rfl (by simp [Action.invokes, hj])
      refine ⟨?_, h2', h3', ?_⟩
      · simp only [Exec.processAction, hc]; exact hp
      · simp only [Exec.processAction, hc]; exact h4'
  | cancelInvoked j =>
    have hj : i ≠ j := by rintro rfl; exact h2 List.mem_cons_self
    have hz := h4 ⟨j, List.mem_cons_self⟩
    have hc : (e.invoked.filter (fun k => k == j)).count i = 0 := by
      have : (e.invoked.filter (fun k => k == j)).count i ≤ e.invoked.count i :=
        List.filter_sublist.count_le _
      omega
    have hp := h1.pop rfl rfl
    refine ⟨?_, h2', h3', fun _ => hc⟩
    simp only [Exec.processAction, fset, if_neg hj, hc]
    rw [hz] at hp; exact hp
  | cancel c => exact ⟨h1.pop rfl rfl, h2', h3', h4'⟩
  | activate c v wk => exact ⟨h1.pop rfl rfl, h2', h3', h4'⟩

theorem Processing.all {i : Nat} (q : List (Action env.B)) {e : Exec env} (h : Processing i e q) :
    Processing i (q.foldl Exec.processAction e) [] := by
  induction q generalizing e with
  | nil => exact h
  | cons a q ih => exact ih h.step

/-- What does not concern the situation of `i`. -/
theorem undisturbed_of_step {i : Nat} {T : ITrack} {e : Ev env.B}
    (h : Undisturbed (T.step i e)) : Undisturbed T := by
  obtain ⟨u1, u2, u3, u4, u5⟩ := h
  cases e with
  | addInvoked j wk =>
    by_cases hj : j = i
    · simp only [ITrack.step, if_pos hj, Bool.and_eq_true] at u1 u2 u3 u4 u5
      exact ⟨u1, u2, u3, u4.1, by omega⟩
    · simp only [ITrack.step, if_neg hj] at u1 u2 u3 u4 u5
      exact ⟨u1, u2, u3, u4, u5⟩
  | invoke j =>
    by_cases hj : j = i
    · simp only [ITrack.step, if_pos hj, Bool.or_eq_false_iff] at u1 u2 u3 u4 u5
      exact ⟨u1, u2, u3.1, u4, u5⟩
    · simp only [ITrack.step, if_neg hj] at u1 u2 u3 u4 u5
      exact ⟨u1, u2, u3, u4, u5⟩
  | cancelInvoked j =>
    simp only [ITrack.step, Bool.or_eq_false_iff] at u1 u2 u3 u4 u5
    exact ⟨u1.1, u2.1, u3, u4, u5⟩
  | run src t =>
    by_cases hj : src = .invoked i
    · simp only [ITrack.step, if_pos hj] at u1 u2 u3 u4 u5
      exact ⟨u1, u2, u3, u4, u5⟩
    · simp only [ITrack.step, if_neg hj] at u1 u2 u3 u4 u5
      exact ⟨u1, u2, u3, u4, u5⟩
  | done src =>
    by_cases hj : src = .invoked i
    · simp only [ITrack.step, if_pos hj] at u1 u2 u3 u4 u5
      exact ⟨u1, u2, u3, u4, u5⟩
    · simp only [ITrack.step, if_neg hj] at u1 u2 u3 u4 u5
      exact ⟨u1, u2, u3, u4, u5⟩
  | _ => exact ⟨u1, u2, u3, u4, u5⟩

theorem call_log (w : World env) (c : Call env.B) : ∃ e, (w.call c).log = w.log ++ [e] := by
  cases c <;> exact ⟨_, rfl⟩

theorem Exactly.own {i : Nat} {wk : Work env.B} {cl t : Nat} {w w' : World env} {wk' : Work env.B}
    {res : WorkResult} (h : Exactly i (some wk) (cl + 1) w)
    (hk : wk.tick (.invoked i) t w = some (wk', w', res)) :
    Exactly i (if res = .done then none else some wk') cl
      (if res = .done then w'.emit (.done (.invoked i)) else w') := by
  by_cases hu : Undisturbed (itrack i w.log)
  · obtain ⟨h1, h2, h3⟩ := h.ok hu
    cases h1 with
    | unborn k1 k2 k3 k4 k5 k6 k7 k8 => omega
    | queued pre post b k1 k2 k3 k4 k5 k6 k7 k8 k9 => omega
    | done k1 k2 k3 k4 => cases k4
    | registered b k1 k2 k3 k4 k5 =>
      cases k4
      simp only [Work.tick, Option.some.injEq, Prod.mk.injEq] at hk
      obtain ⟨rfl, hw', rfl⟩ := hk
      have h0 : ∀ b', Exactly i (some (.invoked b')) cl (w.emit (.run (.invoked i) t)) := by
        intro b'
        have ht : itrack i (w.log ++ [.run (.invoked i) t]) =
            { itrack i w.log with runs := (itrack i w.log).runs + 1 } := by
          rw [itrack_snoc]; simp [ITrack.step]
        refine ⟨?_, fun _ => ⟨?_, h2, h3⟩⟩ <;> simp only [World.emit] <;> rw [ht]
        · exact h.fresh
        · exact .registered b' k1 k2 k3 rfl (by simp only; omega)
      have hcs : ∀ (cs : List (Call env.B)) (w : World env) reg, Exactly i reg cl w →
          Exactly i reg cl (cs.foldl World.call w) := by
        intro cs
        induction cs with
        | nil => intro w _ h; exact h
        | cons c cs ih => intro w _ h; exact ih _ _ (h.call c)
      have h1 : Exactly i (some (.invoked (runBody (.invoked i) b t w).1)) cl w' := by
        rw [← hw']
        simp only [runBody]
        refine hcs _ _ _ ?_
        have := h0 (runBody (.invoked i) b t w).1
        exact ⟨this.1, this.2⟩
      split
      · have ht : itrack i (w'.log ++ [.done (.invoked i)]) =
            { itrack i w'.log with done := true } := by
          rw [itrack_snoc]; simp [ITrack.step]
        refine ⟨?_, fun hu' => ?_⟩
        · simp only [World.emit]; rw [ht]; exact h1.fresh
        · simp only [World.emit] at hu' ⊢
          have hu1 := undisturbed_of_step (by rw [← itrack_snoc]; exact hu')
          obtain ⟨m1, m2, m3⟩ := h1.ok hu1
          refine ⟨?_, m2, m3⟩
          rw [ht]
          cases m1 with
          | unborn k1 k2 k3 k4 k5 k6 k7 k8 => cases k3
          | queued pre post b n1 n2 n3 n4 n5 n6 n7 n8 n9 =>
            exfalso
            have hr := (runCount_body (.invoked i) b t w)
            have hpos : (itrack i w'.log).added = 1 ∧ 0 < (itrack i w'.log).runs := by
              rw [← hw']
              simp only [runBody]
              have key : ∀ (cs : List (Call env.B)) (w : World env), 0 < (itrack i w.log).runs →
                  0 < (itrack i (cs.foldl World.call w).log).runs := by
                intro cs
                induction cs with
                | nil => intro w h; exact h
                | cons c cs ih =>
                  intro w h
                  refine ih _ ?_
                  cases c <;> simp only [World.call] <;> rw [itrack_snoc] <;>
                    simp only [ITrack.step] <;> first | exact h | (split <;> exact h)
              refine ⟨?_, key _ _ ?_⟩
              · rw [← hw'] at n1; exact n1
              · simp only [World.emit]; rw [itrack_snoc]; simp [ITrack.step]
            omega
          | registered b k1 k2 k3 k4 k5 => exact .done k1 k2 rfl rfl
          | done k1 k2 k3 k4 => cases k4
      · exact h1
  · have key : (itrack i w'.log).fresh = w'.sched.queue.countP (Action.invokes i) ∧
        ¬ Undisturbed (itrack i w'.log) := by
      have := (Steps.tick hk).inv (P := fun w => Exactly i (some wk) (cl + 1) w ∧
        ¬ Undisturbed (itrack i w.log)) ?_ ⟨h, hu⟩
      · exact ⟨this.1.fresh, this.2⟩
      rintro a b hs ⟨ha1, ha2⟩
      cases hs with
      | run =>
        have hn : ¬ Undisturbed (itrack i (a.log ++ [.run (.invoked i) t])) := fun hu' =>
          ha2 (undisturbed_of_step (by rw [← itrack_snoc]; exact hu'))
        refine ⟨⟨?_, fun hu' => absurd hu' hn⟩, hn⟩
        simp only [World.emit]; rw [itrack_snoc]; simp only [ITrack.step, if_pos]
        exact ha1.fresh
      | ctx => exact ⟨⟨ha1.1, ha1.2⟩, ha2⟩
      | call c =>
        refine ⟨ha1.call c, fun hu' => ha2 ?_⟩
        obtain ⟨e, he⟩ := call_log a c
        rw [he] at hu'
        exact undisturbed_of_step (by rw [← itrack_snoc]; exact hu')
    have hn : ∀ w'' : World env, w'' = (if res = .done then w'.emit (.done (.invoked i)) else w') →
        (itrack i w''.log).fresh = w''.sched.queue.countP (Action.invokes i) ∧
        ¬ Undisturbed (itrack i w''.log) := by
      rintro w'' rfl
      split
      · refine ⟨?_, fun hu' => key.2 (undisturbed_of_step (by rw [← itrack_snoc]; exact hu'))⟩
        simp only [World.emit]; rw [itrack_snoc]; simp only [ITrack.step, if_pos]
        exact key.1
      · exact key
    exact ⟨(hn _ rfl).1, fun hu' => absurd hu' (hn _ rfl).2⟩

theorem exactly_laws (i : Nat) : ILaws (env := env) i (Exactly i) where
  init ctx := by
    refine ⟨rfl, fun _ => ⟨.unborn rfl (by simp) rfl rfl rfl rfl rfl rfl, by simp, ?_⟩⟩
    intro pre j post h; simp at h
  ctx _ _ _ _ h := ⟨h.1, h.2⟩
  call _ _ _ c h := h.call c
  other reg cl w e he h := by
    refine ⟨?_, ?_⟩ <;> simp only [World.emit] <;> rw [he]
    · exact h.fresh
    · exact h.ok
  own _ _ _ _ _ _ _ h hk := h.own hk
  skip cl w h := by
    refine ⟨h.fresh, fun hu => ?_⟩
    obtain ⟨h1, h2, h3⟩ := h.ok hu
    refine ⟨?_, h2, h3⟩
    cases h1 with
    | unborn k1 k2 k3 k4 k5 k6 k7 k8 => omega
    | queued pre post b k1 k2 k3 k4 k5 k6 k7 k8 k9 => omega
    | registered b k1 k2 k3 k4 k5 => cases k4
    | done k1 k2 k3 k4 => exact .done k1 k2 k3 k4
  drain e t hn h := by
    have hw : (e.drain t).1.world = { e.world with
        sched := { e.world.sched with
          currentTick := updateTick e.world.sched.currentTick t, queue := [] }
        log := e.world.log ++ [.drained] } := by
      simp only [Exec.drain, processAll_world]
    have ht : itrack i (e.world.log ++ [.drained]) = { itrack i e.world.log with fresh := 0 } := by
      rw [itrack_snoc]; rfl
    refine ⟨?_, ?_⟩
    · rw [hw]; simp only; rw [ht]; rfl
    · intro hu
      have hu' : Undisturbed (itrack i e.world.log) := by
        rw [hw] at hu; simp only at hu; rw [ht] at hu
        exact ⟨hu.1, hu.2, hu.3, hu.4, hu.5⟩
      obtain ⟨h1, h2, h3⟩ := h.ok hu'
      have hq : (e.drain t).1.world.sched.queue = [] := by rw [hw]
      rw [hq]
      refine ⟨?_, by simp, by intro pre j post h; simp at h⟩
      have key : Processing i (e.drain t).1 [] := by
        unfold Exec.drain
        refine Processing.all _ ⟨?_, h2, h3, ?_⟩
        · simp only; rw [ht, hn]
          cases h1 with
          | unborn k1 k2 k3 k4 k5 k6 k7 k8 => exact .unborn k1 k2 k3 k4 k5 k6 k7 k8
          | queued pre post b k1 k2 k3 k4 k5 k6 k7 k8 k9 =>
            exact .queued pre post b k1 k2 k3 k4 k5 k6 k7 k8 k9
          | registered b k1 k2 k3 k4 k5 => exact .registered b k1 k2 k3 k4 k5
          | done k1 k2 k3 k4 => exact .done k1 k2 k3 k4
        · intro _; simp only; rw [hn]; rfl
      exact key.1

end Rx.Sched
