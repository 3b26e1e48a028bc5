import Verif.Lemmas.SchedulerSteps

/-!
# The invariant that follows one scheduled work through every execution
-/

namespace Rx.Sched

open Spec

variable {env : Env}

/-- What has to be shown about one kind of work: an invariant `J` of it between ticks (the flag says
whether it was already ticked in the current tick) and a property `G` of it once done. -/
structure WorkLaws (u s0 : Nat) (wk0 : Work env.B)
    (J : Bool → List Nat → Work env.B → List Nat → Prop) (G : List Nat → List Nat → Prop) :
    Prop where
  initOut : J true [] wk0 []
  initIn : ∀ t, t ≤ s0 → J false [t] wk0 []
  begin : ∀ ts wk rs t, J true ts wk rs → J false (ts ++ [t]) wk rs
  tick : ∀ ts t wk rs (w : World env) wk' w' res, J false (ts ++ [t]) wk rs →
    wk.tick (.work u) t w = some (wk', w', res) →
    ∃ n, runCount (.work u) w'.log = runCount (.work u) w.log + n ∧
      match res with
      | .pending => J true (ts ++ [t]) wk' (rs ++ List.replicate n t)
      | .done => G (ts ++ [t]) (rs ++ List.replicate n t)
  finished : ∀ ts rs t, G ts rs → G (ts ++ [t]) rs

/-- The uid of an action that activates work. -/
def Action.uid? {B : Type} : Action B → Option Nat
  | .activate _ v _ => some v
  | _ => none

/-- The queue activates exactly the works scheduled and not yet given to the executor, in order. -/
structure Uids (gen : Nat) (s : Scheduler env.B) : Prop where
  le : gen ≤ s.nextUid
  uids : s.queue.filterMap Action.uid? = List.range' gen (s.nextUid - gen)

theorem Uids.call {gen : Nat} {w : World env} (h : Uids gen w.sched) (c : Call env.B) :
    Uids gen (w.call c).sched := by
  obtain ⟨h1, h2⟩ := h
  cases c <;> refine ⟨by simp [World.call]; omega, ?_⟩ <;>
    simp only [World.call, List.filterMap_append, h2] <;>
    simp [Action.uid?]
  rw [show w.sched.nextUid + 1 - gen = (w.sched.nextUid - gen) + 1 by omega, List.range'_concat]
  simp; omega

theorem Uids.step {gen : Nat} {src : Src} {t : Nat} {a b : World env} (h : WStep src t a b) :
    Uids gen a.sched → Uids gen b.sched := by
  intro ha
  cases h with
  | run => exact ha
  | ctx => exact ha
  | call c => exact ha.call c

/-- The work as it is when scheduled. -/
def Spec.Rec.stamped {B : Type} (r : Rec B) : Work B := r.work.onScheduled r.now

/-- The record of `u` exists exactly when `u` was scheduled, and the queue agrees with it. -/
structure Known (u : Nat) (w : World env) : Prop where
  fresh : w.sched.nextUid ≤ u → (track u w.log).seen = none
  known : u < w.sched.nextUid → ∃ r, (track u w.log).seen = some r ∧
    ∀ cid wk, Action.activate cid u wk ∈ w.sched.queue → cid = r.cid ∧ wk = r.stamped

theorem Known.call {u : Nat} {w : World env} {gen : Nat} (hu : Uids gen w.sched) (h : Known u w)
    (c : Call env.B) :
    Known u (w.call c) := by
  obtain ⟨h1, h2⟩ := h
  cases c with
  | scheduleWork work cid =>
    constructor
    · intro hu
      simp only [World.call] at hu ⊢
      rw [track_snoc]; simp only [Track.step]
      rw [if_neg (by omega)]
      exact h1 (by omega)
    · intro hlt
      simp only [World.call] at hlt ⊢
      rw [track_snoc]; simp only [Track.step]
      by_cases he : w.sched.nextUid = u
      · rw [if_pos he]
        refine ⟨_, rfl, ?_⟩
        intro cid' wk' hm
        simp only [List.mem_append, List.mem_singleton, Action.activate.injEq] at hm
        rcases hm with hm | hm
        · exfalso
          have : u ∈ w.sched.queue.filterMap Action.uid? :=
            List.mem_filterMap.2 ⟨_, hm, rfl⟩
          rw [hu.uids, List.mem_range'] at this
          obtain ⟨i, hi, hiu⟩ := this
          have := hu.le
          omega
        · exact ⟨hm.1, hm.2.2⟩
      · rw [if_neg he]
        obtain ⟨r, hr, hq⟩ := h2 (by omega)
        refine ⟨r, hr, ?_⟩
        intro cid' wk' hm
        simp only [List.mem_append, List.mem_singleton, Action.activate.injEq] at hm
        rcases hm with hm | hm
        · exact hq _ _ hm
        · exact absurd hm.2.1.symm he
  | cancel c =>
    constructor
    · intro hu
      simp only [World.call] at hu ⊢
      rw [track_snoc]; simp [Track.step, h1 hu]
    · intro hlt
      obtain ⟨r, hr, hq⟩ := h2 hlt
      simp only [World.call]
      rw [track_snoc]; simp only [Track.step, hr, Option.map_some]
      refine ⟨_, rfl, ?_⟩
      intro cid' wk' hm
      simp only [List.mem_append, List.mem_singleton, reduceCtorEq, or_false] at hm
      split <;> exact hq _ _ hm
  | _ =>
    constructor
    · intro hu
      simp only [World.call] at hu ⊢
      rw [track_snoc]; simp [Track.step, h1 hu]
    · intro hlt
      obtain ⟨r, hr, hq⟩ := h2 hlt
      simp only [World.call]
      rw [track_snoc]; simp only [Track.step, hr]
      refine ⟨_, rfl, ?_⟩
      intro cid' wk' hm
      first
        | exact hq _ _ hm
        | (simp only [List.mem_append, List.mem_singleton, reduceCtorEq, or_false] at hm
           exact hq _ _ hm)

/-- Emitting an event that neither schedules nor is about the queue keeps `Known`. -/
theorem Known.emit {u : Nat} {w : World env} (h : Known u w) (e : Ev env.B)
    (he : ∀ v cid now wk, e ≠ .scheduled v cid now wk) : Known u (w.emit e) := by
  obtain ⟨h1, h2⟩ := h
  constructor
  · intro hu
    simp only [World.emit] at hu ⊢
    rw [track_snoc]
    have := h1 hu
    cases e with
    | scheduled v cid now wk => exact absurd rfl (he _ _ _ _)
    | run src t => simp only [Track.step]; split <;> simp [this]
    | done src => simp only [Track.step]; split <;> simp [this]
    | _ => simp [Track.step, this]
  · intro hlt
    obtain ⟨r, hr, hq⟩ := h2 hlt
    simp only [World.emit]
    rw [track_snoc]
    cases e with
    | scheduled v cid now wk => exact absurd rfl (he _ _ _ _)
    | tickStart t =>
      simp only [Track.step, hr, Option.map_some]
      exact ⟨_, rfl, hq⟩
    | cancel c =>
      simp only [Track.step, hr, Option.map_some]
      refine ⟨_, rfl, ?_⟩
      intro cid wk hm
      split <;> exact hq _ _ hm
    | run src t =>
      simp only [Track.step]
      split
      · simp only [hr, Option.map_some]
        exact ⟨_, rfl, hq⟩
      · exact ⟨r, hr, hq⟩
    | done src =>
      simp only [Track.step]
      split
      · simp only [hr, Option.map_some]
        exact ⟨_, rfl, hq⟩
      · exact ⟨r, hr, hq⟩
    | _ => exact ⟨r, hr, hq⟩

theorem Known.step {u gen : Nat} {src : Src} {t : Nat} {a b : World env} (h : WStep src t a b)
    (hu : Uids gen a.sched) : Known u a → Known u b := by
  intro ha
  cases h with
  | run => exact ha.emit _ (by intros; simp)
  | ctx => exact ⟨ha.1, ha.2⟩
  | call c => exact ha.call hu c

/-- In the middle of a tick `t`. -/
structure InTick (u t : Nat) (w : World env) : Prop where
  inTick : (track u w.log).inTick = some t
  last : ∀ r, (track u w.log).seen = some r → ∃ pre, r.ticks = pre ++ [t]

theorem InTick.call {u t : Nat} {w : World env} (h : InTick u t w) (c : Call env.B) :
    InTick u t (w.call c) := by
  obtain ⟨h1, h2⟩ := h
  cases c with
  | scheduleWork work cid =>
    constructor
    · simp only [World.call]; rw [track_snoc]; simp only [Track.step]; split <;> exact h1
    · intro r hr
      simp only [World.call] at hr; rw [track_snoc] at hr; simp only [Track.step] at hr
      split at hr
      · simp only [Option.some.injEq] at hr; subst hr
        exact ⟨[], by simp [h1]⟩
      · exact h2 r hr
  | cancel c =>
    constructor
    · simp only [World.call]; rw [track_snoc]; simp only [Track.step]; exact h1
    · intro r hr
      simp only [World.call] at hr; rw [track_snoc] at hr; simp only [Track.step] at hr
      cases hs : (track u w.log).seen with
      | none => simp [hs] at hr
      | some r0 =>
        simp only [hs, Option.map_some, Option.some.injEq] at hr
        subst hr
        split <;> exact h2 r0 hs
  | _ =>
    constructor
    · simp only [World.call]; rw [track_snoc]; simp only [Track.step]; exact h1
    · intro r hr
      simp only [World.call] at hr; rw [track_snoc] at hr; simp only [Track.step] at hr
      exact h2 r hr

theorem InTick.emit {u t : Nat} {w : World env} (h : InTick u t w) (e : Ev env.B)
    (he : (∃ s x, e = .run s x) ∨ (∃ s, e = .done s) ∨ (∃ v x, e = .ticked v x) ∨ e = .drained) :
    InTick u t (w.emit e) := by
  obtain ⟨h1, h2⟩ := h
  rcases he with ⟨s, x, rfl⟩ | ⟨s, rfl⟩ | ⟨v, x, rfl⟩ | rfl
  · constructor
    · simp only [World.emit]; rw [track_snoc]; simp only [Track.step]; split <;> exact h1
    · intro r hr
      simp only [World.emit] at hr; rw [track_snoc] at hr; simp only [Track.step] at hr
      split at hr
      · cases hs : (track u w.log).seen with
        | none => simp [hs] at hr
        | some r0 =>
          simp only [hs, Option.map_some, Option.some.injEq] at hr
          subst hr; exact h2 r0 hs
      · exact h2 r hr
  · constructor
    · simp only [World.emit]; rw [track_snoc]; simp only [Track.step]; split <;> exact h1
    · intro r hr
      simp only [World.emit] at hr; rw [track_snoc] at hr; simp only [Track.step] at hr
      split at hr
      · cases hs : (track u w.log).seen with
        | none => simp [hs] at hr
        | some r0 =>
          simp only [hs, Option.map_some, Option.some.injEq] at hr
          subst hr; exact h2 r0 hs
      · exact h2 r hr
  · exact ⟨by simp only [World.emit]; rw [track_snoc]; exact h1, by
      intro r hr; simp only [World.emit] at hr; rw [track_snoc] at hr; exact h2 r hr⟩
  · exact ⟨by simp only [World.emit]; rw [track_snoc]; exact h1, by
      intro r hr; simp only [World.emit] at hr; rw [track_snoc] at hr; exact h2 r hr⟩

theorem InTick.step {u t x : Nat} {src : Src} {a b : World env} (h : WStep src x a b) :
    InTick u t a → InTick u t b := by
  intro ha
  cases h with
  | run => exact ha.emit _ (.inl ⟨_, _, rfl⟩)
  | ctx => exact ⟨ha.1, ha.2⟩
  | call c => exact ha.call c

/-- Where the `u`-th work is. -/
inductive Status (B : Type) where
  | queued (tk : Bool)
  | active (tk : Bool) (wk : Work B)
  | finished

section

variable (u s0 : Nat) (wk0 : Work env.B)
  (J : Bool → List Nat → Work env.B → List Nat → Prop) (G : List Nat → List Nat → Prop)

/-- What is known about an uncancelled work, by where it is. -/
def Holds (queue : List (Action env.B)) (r : Rec env.B) : Status env.B → Prop
  | .queued tk => ∃ pre post, queue = pre ++ .activate r.cid u r.stamped :: post ∧
      .cancel r.cid ∉ post ∧ r.done = false ∧ r.runs = [] ∧ J tk r.ticks r.stamped []
  | .active tk wk => .cancel r.cid ∉ queue ∧ r.done = false ∧ J tk r.ticks wk r.runs
  | .finished => r.done = true ∧ G r.ticks r.runs

/-- The same, in a world. -/
def UInv (st : Status env.B) (w : World env) : Prop :=
  ∀ r, (track u w.log).seen = some r →
    r.cancelled = false → r.now = s0 → r.stamped = wk0 → Holds u J G w.sched.queue r st

variable {u s0 wk0 J G}

theorem Holds.append {q : List (Action env.B)} {r : Rec env.B} {st : Status env.B}
    (h : Holds u J G q r st) (a : Action env.B) (ha : a ≠ .cancel r.cid) :
    Holds u J G (q ++ [a]) r st := by
  cases st with
  | queued tk =>
    obtain ⟨pre, post, h1, h2, h3⟩ := h
    refine ⟨pre, post ++ [a], by simp [h1], ?_, h3⟩
    simp only [List.mem_append, List.mem_singleton, not_or]
    exact ⟨h2, fun h => ha h.symm⟩
  | active tk wk =>
    obtain ⟨h1, h2⟩ := h
    refine ⟨?_, h2⟩
    simp only [List.mem_append, List.mem_singleton, not_or]
    exact ⟨h1, fun h => ha h.symm⟩
  | finished => exact h

/-- The status, from what the executor holds. -/
def statusOf (u gen : Nat) (qtk : Bool) (act : Option (Bool × Work env.B)) : Status env.B :=
  if gen ≤ u then .queued qtk
  else match act with
    | some (tk, wk) => .active tk wk
    | none => .finished

/-- A scheduler call keeps the invariant (inside a tick). -/
theorem UInv.call (laws : WorkLaws u s0 wk0 J G) {gen t : Nat} {act : Option (Bool × Work env.B)}
    {w : World env} (hu : Uids gen w.sched) (ht : InTick u t w)
    (hc : t ≤ w.sched.currentTick) (h : UInv u s0 wk0 J G (statusOf u gen false act) w)
    (c : Call env.B) : UInv u s0 wk0 J G (statusOf u gen false act) (w.call c) := by
  cases c with
  | scheduleWork work cid =>
    intro r hr hcan hnow hwk
    simp only [World.call] at hr ⊢; rw [track_snoc] at hr; simp only [Track.step] at hr
    split at hr
    · rename_i he
      simp only [Option.some.injEq] at hr
      have hle := hu.le
      unfold statusOf
      rw [if_pos (by omega)]
      subst hr
      simp only at hnow hwk
      refine ⟨w.sched.queue, [], by simp [he, Rec.stamped], by simp, rfl, rfl, ?_⟩
      rw [hwk]
      simp only [ht.inTick, Option.toList_some]
      exact laws.initIn t (by omega)
    · exact (h r hr hcan hnow hwk).append _ (by simp)
  | cancel c =>
    intro r hr hcan hnow hwk
    simp only [World.call] at hr ⊢; rw [track_snoc] at hr; simp only [Track.step] at hr
    cases hs : (track u w.log).seen with
    | none => simp [hs] at hr
    | some r0 =>
      simp only [hs, Option.map_some, Option.some.injEq] at hr
      split at hr
      · subst hr; simp at hcan
      · subst hr
        rename_i hne
        exact (h r0 hs hcan hnow hwk).append _ (by intro he; cases he; exact hne rfl)
  | generateCancellationId =>
    intro r hr hcan hnow hwk
    simp only [World.call] at hr ⊢; rw [track_snoc] at hr; exact h r hr hcan hnow hwk
  | generateInvokeId =>
    intro r hr hcan hnow hwk
    simp only [World.call] at hr ⊢; rw [track_snoc] at hr; exact h r hr hcan hnow hwk
  | scheduleInvokedWork work iid =>
    intro r hr hcan hnow hwk
    simp only [World.call] at hr ⊢; rw [track_snoc] at hr
    exact (h r hr hcan hnow hwk).append _ (by simp)
  | invoke iid =>
    intro r hr hcan hnow hwk
    simp only [World.call] at hr ⊢; rw [track_snoc] at hr
    exact (h r hr hcan hnow hwk).append _ (by simp)
  | cancelInvoked iid =>
    intro r hr hcan hnow hwk
    simp only [World.call] at hr ⊢; rw [track_snoc] at hr
    exact (h r hr hcan hnow hwk).append _ (by simp)

/-- Everything known in the middle of a tick. -/
structure Mid (laws : WorkLaws u s0 wk0 J G) (gen t : Nat) (act : Option (Bool × Work env.B))
    (w : World env) : Prop where
  uids : Uids gen w.sched
  known : Known u w
  inTick : InTick u t w
  clock : t ≤ w.sched.currentTick
  inv : UInv u s0 wk0 J G (statusOf u gen false act) w

theorem Mid.step {laws : WorkLaws u s0 wk0 J G} {gen t : Nat} {act : Option (Bool × Work env.B)}
    {a b : World env} {src : Src} {x : Nat} (hsrc : src ≠ .work u) (h : WStep src x a b)
    (m : Mid laws gen t act a) : Mid laws gen t act b := by
  refine ⟨Uids.step h m.uids, Known.step h m.uids m.known, InTick.step h m.inTick, ?_, ?_⟩
  · rw [(Steps.one h).frame.clock]; exact m.clock
  · cases h with
    | run =>
      intro r hr
      simp only [World.emit] at hr ⊢; rw [track_snoc] at hr
      simp only [Track.step, if_neg hsrc] at hr
      exact m.inv r hr
    | ctx => exact m.inv
    | call c => exact m.inv.call laws m.uids m.inTick m.clock c

theorem Mid.steps {laws : WorkLaws u s0 wk0 J G} {gen t : Nat} {act : Option (Bool × Work env.B)}
    {a b : World env} {src : Src} {x : Nat} (hsrc : src ≠ .work u) (h : Steps src x a b)
    (m : Mid laws gen t act a) : Mid laws gen t act b :=
  h.inv (P := Mid laws gen t act) (fun _ _ h m => m.step hsrc h) m

/-- Emitting an event about another work keeps everything. -/
theorem Mid.emit {laws : WorkLaws u s0 wk0 J G} {gen t : Nat} {act : Option (Bool × Work env.B)}
    {w : World env} (m : Mid laws gen t act w) (e : Ev env.B)
    (he : (∃ s, s ≠ .work u ∧ e = .done s) ∨ (∃ v x, e = .ticked v x) ∨ e = .drained) :
    Mid laws gen t act (w.emit e) := by
  refine ⟨m.uids, m.known.emit e ?_, m.inTick.emit e ?_, m.clock, ?_⟩
  · intros; rcases he with ⟨s, _, rfl⟩ | ⟨v, x, rfl⟩ | rfl <;> simp
  · rcases he with ⟨s, _, rfl⟩ | ⟨v, x, rfl⟩ | rfl <;> simp
  · intro r hr
    simp only [World.emit] at hr ⊢; rw [track_snoc] at hr
    refine m.inv r ?_
    rcases he with ⟨s, hs, rfl⟩ | ⟨v, x, rfl⟩ | rfl
    · simpa only [Track.step, if_neg hs] using hr
    · exact hr
    · exact hr

/-- The effect of the work's own closure on its record. -/
theorem own_steps {t : Nat} {a b : World env} (h : Steps (.work u) t a b)
    (hlt : u < a.sched.nextUid) {r : Rec env.B} (hr : (track u a.log).seen = some r) :
    ∃ n r', (track u b.log).seen = some r' ∧ u < b.sched.nextUid ∧
      runCount (.work u) b.log = runCount (.work u) a.log + n ∧
      r'.cid = r.cid ∧ r'.now = r.now ∧ r'.work = r.work ∧ r'.ticks = r.ticks ∧ r'.done = r.done ∧
      r'.runs = r.runs ++ List.replicate n t ∧
      (r'.cancelled = false → r.cancelled = false ∧
        (.cancel r.cid ∉ a.sched.queue → .cancel r.cid ∉ b.sched.queue)) := by
  induction h with
  | refl => exact ⟨0, r, hr, hlt, rfl, rfl, rfl, rfl, rfl, rfl, by simp, fun h => ⟨h, id⟩⟩
  | tail _ hs ih =>
    obtain ⟨n, r', h1, h2, h3, h4, h5, h6, h7, h8, h9, h10⟩ := ih
    cases hs with
    | run =>
      refine ⟨n + 1, { r' with runs := r'.runs ++ [t] }, ?_, h2, ?_, h4, h5, h6, h7, h8, ?_, h10⟩
      · simp only [World.emit]; rw [track_snoc]; simp [Track.step, h1]
      · simp only [World.emit, runCount, List.countP_append]
        simp only [runCount] at h3
        rw [h3]; simp; omega
      · simp [h9, List.replicate_succ']
    | ctx => exact ⟨n, r', h1, h2, h3, h4, h5, h6, h7, h8, h9, h10⟩
    | call c =>
      rename_i x _
      have hcnt := runCount_call (.work u) x c
      cases c with
      | scheduleWork work cid =>
        refine ⟨n, r', ?_, by simp [World.call]; omega, by rw [hcnt, h3], h4, h5, h6, h7, h8, h9, ?_⟩
        · simp only [World.call]; rw [track_snoc]
          simp only [Track.step]; rw [if_neg (by omega)]; exact h1
        · intro hc
          refine ⟨(h10 hc).1, fun ha => ?_⟩
          simpa [World.call] using (h10 hc).2 ha
      | cancel c =>
        by_cases hcc : r'.cid = c
        · refine ⟨n, { r' with cancelled := true }, ?_, h2, by rw [hcnt, h3], h4, h5, h6, h7, h8, h9,
            by simp⟩
          simp only [World.call]; rw [track_snoc]; simp [Track.step, h1, hcc]
        · refine ⟨n, r', ?_, h2, by rw [hcnt, h3], h4, h5, h6, h7, h8, h9, ?_⟩
          · simp only [World.call]; rw [track_snoc]; simp [Track.step, h1, hcc]
          · intro hc
            refine ⟨(h10 hc).1, fun ha => ?_⟩
            have := (h10 hc).2 ha
            simp only [World.call, List.mem_append, List.mem_singleton, not_or]
            refine ⟨this, fun h => ?_⟩
            cases h; exact hcc h4
      | _ =>
        refine ⟨n, r', ?_, h2, by rw [hcnt, h3], h4, h5, h6, h7, h8, h9, ?_⟩
        · simp only [World.call]; rw [track_snoc]; exact h1
        · intro hc
          refine ⟨(h10 hc).1, fun ha => ?_⟩
          simpa [World.call] using (h10 hc).2 ha

/-- What is left of the work after its own tick. -/
def afterTick (wk : Work env.B) : WorkResult → Option (Bool × Work env.B)
  | .pending => some (true, wk)
  | .done => none

/-- Ticking the work itself. -/
theorem Mid.own {laws : WorkLaws u s0 wk0 J G} {gen t : Nat} {wk wk' : Work env.B}
    {w w' : World env} {res : WorkResult} (hgen : u < gen) (m : Mid laws gen t (some (false, wk)) w)
    (h : wk.tick (.work u) t w = some (wk', w', res)) :
    Mid laws gen t (afterTick wk' res)
      (if res = .done then w'.emit (.done (.work u)) else w') := by
  have hs := Steps.tick h
  simp only at hs
  have huids : Uids gen w'.sched := hs.inv (P := fun w => Uids gen w.sched)
    (fun _ _ h => Uids.step h) m.uids
  have hkn : Uids gen w'.sched ∧ Known u w' := hs.inv (P := fun w => Uids gen w.sched ∧ Known u w)
    (fun _ _ h k => ⟨Uids.step h k.1, Known.step h k.1 k.2⟩) ⟨m.uids, m.known⟩
  have hin : InTick u t w' := hs.inv (P := InTick u t) (fun _ _ h => InTick.step h) m.inTick
  have hcl : t ≤ w'.sched.currentTick := by rw [hs.frame.clock]; exact m.clock
  have hlt : u < w.sched.nextUid := by have := m.uids.le; omega
  obtain ⟨r, hr, _⟩ := m.known.known hlt
  obtain ⟨n, r', h1, h2, h3, h4, h5, h6, h7, h8, h9, h10⟩ := own_steps hs hlt hr
  have hst : ∀ a, statusOf u gen false a =
      match a with | some (tk, wk) => Status.active (B := env.B) tk wk | none => .finished := by
    intro a; unfold statusOf; rw [if_neg (by omega)]
  obtain ⟨pre, hpre⟩ := m.inTick.last r hr
  have key : r'.cancelled = false → r'.now = s0 → r'.stamped = wk0 →
      .cancel r.cid ∉ w'.sched.queue ∧ r.done = false ∧
      match res with
      | .pending => J true r'.ticks wk' r'.runs
      | .done => G r'.ticks r'.runs := by
    intro hc hn hw
    have hi := m.inv r hr (h10 hc).1 (h5 ▸ hn) (by rw [← hw, Rec.stamped, Rec.stamped, h5, h6])
    rw [hst] at hi
    obtain ⟨hq, hd, hJ⟩ := hi
    refine ⟨(h10 hc).2 hq, hd, ?_⟩
    rw [hpre] at hJ
    obtain ⟨n', hn', hres⟩ := laws.tick pre t wk r.runs w wk' w' res hJ h
    have : n' = n := by omega
    subst this
    rw [h7, h9, hpre]
    cases res <;> exact hres
  cases res with
  | pending =>
    simp only [reduceCtorEq, if_false]
    refine ⟨huids, hkn.2, hin, hcl, ?_⟩
    rw [afterTick, hst]
    intro q hq hc hn hw
    rw [h1] at hq; cases hq
    obtain ⟨k1, k2, k3⟩ := key hc hn hw
    exact ⟨h4 ▸ k1, h8 ▸ k2, k3⟩
  | done =>
    simp only [if_true]
    refine ⟨huids, hkn.2.emit _ (by simp), hin.emit _ (by simp), hcl, ?_⟩
    rw [afterTick, hst]
    intro q hq hc hn hw
    simp only [World.emit] at hq; rw [track_snoc] at hq
    simp only [Track.step, if_true, h1, Option.map_some, Option.some.injEq] at hq
    subst hq
    obtain ⟨k1, k2, k3⟩ := key hc hn hw
    exact ⟨rfl, k3⟩

end

end Rx.Sched
