import Verif.Lemmas.SchedulerPanicsRun

/-!
# Work that said that it is done, in a tick that did not panic
-/

namespace Rx.Sched

open Spec

variable {env : Env} {P : Panics env} {u : Nat} {base : List (Ev env.B)}

/-- Since `base` was the log, the work has not answered `Done`. -/
def Calm (u : Nat) (base : List (Ev env.B)) (w : World env) : Prop :=
  ∃ s, w.log = base ++ s ∧ .done (.work u) ∉ s

/-- Since `base` was the log, it has not run after having answered `Done`. -/
def Quiet (u : Nat) (base : List (Ev env.B)) (log : List (Ev env.B)) : Prop :=
  ∃ s, log = base ++ s ∧ ∀ x y, s = x ++ .done (.work u) :: y → runsOf u y = []

theorem Calm.quiet {w : World env} (h : Calm u base w) : Quiet u base w.log := by
  obtain ⟨s, h1, h2⟩ := h
  exact ⟨s, h1, fun x y hs => absurd (by rw [hs]; simp) h2⟩

/-- Something about the log that only runs of `u` can change. -/
def Steady (u : Nat) (I : List (Ev env.B) → Prop) : Prop :=
  ∀ log e, (∀ t, e ≠ .run (.work u) t) → I log → I (log ++ [e])

theorem Quiet.steady : Steady u (Quiet u base) := by
  intro log e he h
  obtain ⟨s, h1, h2⟩ := h
  refine ⟨s ++ [e], by rw [h1, List.append_assoc], ?_⟩
  intro x y hs
  rcases List.eq_nil_or_concat y with rfl | ⟨y', e', rfl⟩
  · rfl
  · rw [List.concat_eq_append, ← List.cons_append, ← List.append_assoc] at hs
    obtain ⟨k1, k2⟩ := List.append_inj' hs rfl
    cases k2
    rw [List.concat_eq_append, runsOf_snoc he]
    exact h2 x y' k1

theorem runsOf_steady (R : List Nat) : Steady (env := env) u (fun log => runsOf u log = R) := by
  intro log e he h
  rw [runsOf_snoc he]
  exact h

variable {I : List (Ev env.B) → Prop}

theorem Calm.snoc {w w' : World env} {e : Ev env.B} (h : Calm u base w) (hl : w'.log = w.log ++ [e])
    (he : e ≠ .done (.work u)) : Calm u base w' := by
  obtain ⟨s, h1, h2⟩ := h
  refine ⟨s ++ [e], by rw [hl, h1, List.append_assoc], ?_⟩
  intro hm
  rcases List.mem_append.1 hm with hm | hm
  · exact h2 hm
  · exact he (List.mem_singleton.1 hm).symm

theorem Calm.wstep {src : Src} {t : Nat} {a b : World env} (hab : WStep src t a b) (h : Calm u base a) : Calm u base b := by
  cases hab with
  | run => exact h.snoc rfl (by intro h; cases h)
  | ctx => exact h
  | call c => cases c <;> exact h.snoc rfl (by intro h; cases h)

theorem Steady.wstep (hI : Steady u I) {src : Src} {t : Nat} (hsrc : src ≠ .work u) {a b : World env} (hab : WStep src t a b)
    (h : I a.log) : I b.log := by
  cases hab with
  | run => exact hI _ _ (by intro _ h; cases h; exact hsrc rfl) h
  | ctx => exact h
  | call c => cases c <;> exact hI _ _ (by intro _ h; cases h) h

/-- A pass over work that is not `u`. -/
theorem Steady.pass (hI : Steady u I) {already : Nat → Bool} {t : Nat} : ∀ (l : List (Nat × Work env.B)) (w : World env) (r),
    tickPassP P already t l w = some r → u ∉ l.map (·.1) → I w.log → I r.2.1.log := by
  intro l
  induction l with
  | nil => intro w r h _ hw; simp only [tickPassP] at h; cases h; exact hw
  | cons p l ih =>
    obtain ⟨id, wk⟩ := p
    intro w r h hu hw
    simp only [List.map_cons, List.mem_cons, not_or] at hu
    have hsrc : Src.work id ≠ .work u := by intro h; cases h; exact hu.1 rfl
    have h0 : I (w.emit (.ticked id t)).log := hI _ _ (by intro _ h; cases h) hw
    simp only [tickPassP] at h
    split at h
    · split at h
      · rename_i heq; cases h; have := ih _ _ heq hu.2 hw; exact this
      · cases h
    · split at h
      · cases h
      · rename_i hk
        cases h
        exact (tickP_steps hk).inv (P := fun w => I w.log) (fun _ _ => hI.wstep hsrc) h0
      · rename_i wk1 w1 res hk
        have h1 : I w1.log := (tickP_steps hk).inv (P := fun w => I w.log) (fun _ _ => hI.wstep hsrc) h0
        split at h
        · rename_i heq
          cases h
          have := ih _ _ heq hu.2 (by
            split
            · exact hI _ _ (by intro _ h; cases h) h1
            · exact h1)
          exact this
        · cases h

/-- A pass over all work. -/
theorem Calm.pass {already : Nat → Bool} {t : Nat} : ∀ (l : List (Nat × Work env.B)) (w : World env) (out w' p),
    tickPassP P already t l w = some (out, w', p) → (l.map (·.1)).Pairwise (· < ·) → Calm u base w →
    Quiet u base w'.log ∧ ((∀ wk, (u, wk, some .done) ∉ out) → Calm u base w') := by
  intro l
  induction l with
  | nil =>
    intro w out w' p h _ hw
    simp only [tickPassP, Option.some.injEq, Prod.mk.injEq] at h
    obtain ⟨rfl, rfl, rfl⟩ := h
    exact ⟨hw.quiet, fun _ => hw⟩
  | cons q l ih =>
    obtain ⟨id, wk⟩ := q
    intro w out w' p h hs hw
    simp only [List.map_cons, List.pairwise_cons] at hs
    have h0 : Calm u base (w.emit (.ticked id t)) := hw.snoc rfl (by intro h; cases h)
    simp only [tickPassP] at h
    split at h
    · split at h
      · rename_i heq
        simp only [Option.some.injEq, Prod.mk.injEq] at h
        obtain ⟨rfl, rfl, rfl⟩ := h
        obtain ⟨a1, a2⟩ := ih _ _ _ _ heq hs.2 hw
        exact ⟨a1, fun hn => a2 fun wk hm => hn wk (List.mem_cons_of_mem _ hm)⟩
      · cases h
    · split at h
      · cases h
      · rename_i hk
        simp only [Option.some.injEq, Prod.mk.injEq] at h
        obtain ⟨rfl, rfl, rfl⟩ := h
        have := (tickP_steps hk).inv (fun _ _ => Calm.wstep) h0
        exact ⟨this.quiet, fun _ => this⟩
      · rename_i wk1 w1 res hk
        have h1 : Calm u base w1 := (tickP_steps hk).inv (fun _ _ => Calm.wstep) h0
        split at h
        · rename_i out1 w2 p1 heq
          simp only [Option.some.injEq, Prod.mk.injEq] at h
          obtain ⟨rfl, rfl, rfl⟩ := h
          by_cases hc : res = .done ∧ id = u
          · obtain ⟨rfl, rfl⟩ := hc
            rw [if_pos rfl] at heq
            have hq : Quiet id base (w1.emit (.done (.work id))).log := Quiet.steady _ _ (by intro _ h; cases h) h1.quiet
            refine ⟨Quiet.steady.pass _ _ _ heq (fun hm => ?_) hq, fun hn => absurd (List.mem_cons_self ..) (hn wk1)⟩
            have := hs.1 _ hm
            omega
          · have h2 : Calm u base (if res = .done then w1.emit (.done (.work id)) else w1) := by
              split
              · rename_i hd
                exact h1.snoc rfl (by intro h; cases h; exact hc ⟨hd, rfl⟩)
              · exact h1
            obtain ⟨a1, a2⟩ := ih _ _ _ _ heq hs.2 h2
            exact ⟨a1, fun hn => a2 fun wk hm => hn wk (List.mem_cons_of_mem _ hm)⟩
        · cases h

/-- The executor does not have it any more. -/
def Gone (u : Nat) (e : Exec env) : Prop := u < e.nextWorkId ∧ u ∉ e.active.map (·.1)

theorem Gone.process {e : Exec env} (h : Gone u e) (a : Action env.B) : Gone u (e.processAction a) := by
  obtain ⟨h1, h2⟩ := h
  cases a with
  | activate c v wk =>
    refine ⟨by simp only [Exec.processAction]; omega, ?_⟩
    simp only [Exec.processAction]
    intro hm
    obtain ⟨p, hp, rfl⟩ := List.mem_map.1 hm
    unfold imInsert at hp
    split at hp
    · obtain ⟨q, hq, hqe⟩ := List.mem_map.1 hp
      split at hqe
      · subst hqe; simp only at h1; omega
      · subst hqe; exact h2 (List.mem_map_of_mem hq)
    · rcases List.mem_append.1 hp with hp | hp
      · exact h2 (List.mem_map_of_mem hp)
      · rw [List.mem_singleton.1 hp] at h1; simp only at h1; omega
  | cancel c =>
    refine ⟨h1, ?_⟩
    simp only [Exec.processAction]
    exact fun hm => h2 (((imRemoves_sublist _ _).map _).subset hm)
  | _ => exact ⟨h1, h2⟩

theorem Gone.drain {e : Exec env} (h : Gone u e) (t : Nat) : Gone u (e.drain t).1 := by
  have go : ∀ (q : List (Action env.B)) (e : Exec env), Gone u e → Gone u (q.foldl Exec.processAction e) := by
    intro q
    induction q with
    | nil => intro e h; exact h
    | cons a q ih => intro e h; exact ih _ (h.process a)
  simp only [Exec.drain]
  exact go _ _ h

/-- It has left the executor, and this is true of the log. -/
def Left (u : Nat) (I : List (Ev env.B) → Prop) (e : Exec env) : Prop := Gone u e ∧ I e.world.log

theorem tickPassP_keys {already : Nat → Bool} {t : Nat} : ∀ (l : List (Nat × Work env.B)) (w : World env) (r),
    tickPassP P already t l w = some r → r.1.map (·.1) = l.map (·.1) := by
  intro l
  induction l with
  | nil => intro w r h; simp only [tickPassP] at h; cases h; rfl
  | cons p l ih =>
    obtain ⟨id, wk⟩ := p
    intro w r h
    simp only [tickPassP] at h
    split at h
    · split at h
      · rename_i heq; cases h; simpa using ih _ _ heq
      · cases h
    · split at h
      · cases h
      · cases h; simp
      · split at h
        · rename_i heq; cases h; simpa using ih _ _ heq
        · cases h

theorem Left.tickScheduled (hI : Steady u I) {e e' : Exec env} {t : Nat} {b : Option Bool} (h : Left u I e)
    (he : e.tickScheduledP P t = some (e', b)) : Left u I e' := by
  obtain ⟨⟨h1, h2⟩, h3⟩ := h
  unfold Exec.tickScheduledP at he
  split at he
  · cases he
  · rename_i out w heq
    cases he
    have hk := tickPassP_keys _ _ _ heq
    have hk' : (out.map (fun p => (p.1, p.2.1))).map (·.1) = e.active.map (·.1) := by rw [← hk]; simp
    exact ⟨⟨h1, by simp only [hk']; exact h2⟩, hI.pass _ _ _ heq h2 h3⟩
  · rename_i out w heq
    cases he
    have hk := tickPassP_keys _ _ _ heq
    have hk' : (out.map (fun p => (p.1, p.2.1))).map (·.1) = e.active.map (·.1) := by rw [← hk]; simp
    refine ⟨⟨h1, fun hm => h2 ?_⟩, hI.pass _ _ _ heq h2 h3⟩
    rw [← hk']
    exact ((imRemoves_sublist _ _).map _).subset hm

theorem executeInvokedP_inv {I : World env → Prop}
    (hP : ∀ i x a b, WStep (.invoked i) x a b → I a → I b)
    (hd : ∀ i w, I w → I (w.emit (.done (.invoked i)))) {e e' : Exec env} {t : Nat} {b : Bool} (h : I e.world)
    (he : e.executeInvokedP P t = some (e', b)) :
    I e'.world ∧ e'.active = e.active ∧ e'.nextWorkId = e.nextWorkId := by
  unfold Exec.executeInvokedP at he
  split at he
  · cases he
  · rename_i heq
    cases he
    exact ⟨execInvokedP_inv hP hd _ _ _ _ heq h, rfl, rfl⟩

theorem Left.executeInvoked (hI : Steady u I) {e e' : Exec env} {t : Nat} {b : Bool} (h : Left u I e)
    (he : e.executeInvokedP P t = some (e', b)) : Left u I e' := by
  obtain ⟨a1, a2, a3⟩ := executeInvokedP_inv (I := fun w => I w.log) (fun _ _ _ _ => hI.wstep (by intro h; cases h))
    (fun _ _ h => hI _ _ (by intro _ h; cases h) h) h.2 he
  exact ⟨⟨by rw [a3]; exact h.1.1, by rw [a2]; exact h.1.2⟩, a1⟩

theorem Left.drain (hI : Steady u I) {e : Exec env} (h : Left u I e) (t : Nat) : Left u I (e.drain t).1 :=
  ⟨h.1.drain t, by rw [drain_log]; exact hI _ _ (by intro _ h; cases h) h.2⟩

theorem Left.passD (hI : Steady u I) {e e' : Exec env} {t : Nat} {b : Option Bool} (h : Left u I (e.drain t).1)
    (he : e.passP P t = some (e', b)) : Left u I e' := by
  unfold Exec.passP at he
  dsimp only at he
  split at he
  · cases he
  · rename_i heq; cases he; exact h.tickScheduled hI heq
  · rename_i heq
    split at he
    · cases he
    · rename_i heq2; cases he; exact (h.tickScheduled hI heq).executeInvoked hI heq2
    · rename_i heq2; cases he; exact (h.tickScheduled hI heq).executeInvoked hI heq2

theorem Left.pass (hI : Steady u I) {e e' : Exec env} {t : Nat} {b : Option Bool} (h : Left u I e)
    (he : e.passP P t = some (e', b)) : Left u I e' := (h.drain hI t).passD hI he

theorem Left.loop (hI : Steady u I) {t : Nat} : ∀ (n : Nat) {e e' : Exec env}, Left u I e →
    (Exec.loopP P t n e).state = some e' → Left u I e' := by
  intro n
  induction n with
  | zero =>
    intro e e' h he
    unfold Exec.loopP at he
    split at he
    · cases he
    · rename_i heq; cases he; exact h.pass hI heq
    · rename_i heq; split at he <;> (cases he; exact h.pass hI heq)
  | succ n ih =>
    intro e e' h he
    unfold Exec.loopP at he
    split at he
    · cases he
    · rename_i heq; cases he; exact h.pass hI heq
    · rename_i heq
      split at he
      · cases he; exact h.pass hI heq
      · exact ih (h.pass hI heq) he

theorem Left.emit (hI : Steady u I) {e : Exec env} (h : Left u I e) (ev : Ev env.B) (he : ∀ t, ev ≠ .run (.work u) t) :
    Left u I { e with world := e.world.emit ev } := ⟨h.1, hI _ _ he h.2⟩

theorem Left.tickTo (hI : Steady u I) {t : Nat} {e e' : Exec env} (h : Left u I e) (he : (e.tickToP P t).state = some e') :
    Left u I e' := by
  have h0 : Left u I (e.beginTick t) := h.emit hI (.tickStart t) (by intro _ h; cases h)
  unfold Exec.tickToP at he
  split at he
  · rename_i e1 heq
    cases he
    exact (Left.loop hI _ h0 (by rw [heq]; rfl)).emit hI _ (by intro _ h; cases h)
  · exact Left.loop hI _ h0 he

theorem Left.run (hI : Steady u I) : ∀ (ops : List (Op env.B)) {e e' : Exec env}, Left u I e → e.runP P ops = some e' → Left u I e' := by
  intro ops
  induction ops with
  | nil => intro e e' h he; cases he; exact h
  | cons op ops ih =>
    have step : ∀ {e e' : Exec env}, Left u I e → (e.stepP P op).state = some e' → Left u I e' := by
      intro e e' h he
      cases op with
      | call c => cases he; exact ⟨h.1, hI.wstep (t := 0) (src := .invoked 0) (by intro h; cases h) (.call _ c) h.2⟩
      | tickTo t => exact h.tickTo hI he
      | tick d => exact h.tickTo hI he
    intro e e' h he
    unfold Exec.runP at he
    split at he
    · rename_i heq; exact ih (step h (by rw [heq]; rfl)) he
    · rename_i heq; exact ih (step h (by rw [heq]; rfl)) he
    · cases he

/-- In a tick that does not panic: it did not answer `Done`, or it is gone. -/
def Settled (u : Nat) (base : List (Ev env.B)) (e : Exec env) : Prop := Calm u base e.world ∨ Left u (Quiet u base) e

abbrev Tabs (u : Nat) (e : Exec env) : Prop := Whole u (fun _ _ _ _ => True) (fun _ _ _ _ => True) e

theorem Settled.pass {e e' : Exec env} {t : Nat} {q : Bool} (hT : Tabs u e) (h : Settled u base e)
    (he : e.passP P t = some (e', some q)) : Settled u base e' := by
  rcases h with h | h
  · have hd : Calm u base (e.drain t).1.world := h.snoc (drain_log e t) (by intro h; cases h)
    have hW := hT.drain (noLaws P u) t
    unfold Exec.passP at he
    dsimp only at he
    split at he
    · cases he
    · cases he
    · rename_i e1 nw heq
      have h1 : Settled u base e1 := by
        unfold Exec.tickScheduledP at heq
        split at heq
        · cases heq
        · cases heq
        · rename_i out w hp
          cases heq
          obtain ⟨a1, a2⟩ := Calm.pass _ _ _ _ _ hp hW.tab.sorted hd
          by_cases hn : ∀ wk, (u, wk, some WorkResult.done) ∉ out
          · exact .inl (a2 hn)
          · right
            have hex : ∃ wk, (u, wk, some WorkResult.done) ∈ out := Classical.byContradiction fun hno =>
              hn fun wk hm => hno ⟨wk, hm⟩
            obtain ⟨wk, hm⟩ := hex
            have hk := tickPassP_keys _ _ _ hp
            refine ⟨⟨hW.tab.bound u (by rw [← hk]; exact List.mem_map.2 ⟨_, hm, rfl⟩), ?_⟩, a1⟩
            intro hmem
            obtain ⟨⟨k, x⟩, hx, hke⟩ := List.mem_map.1 hmem
            simp only at hke
            subst hke
            obtain ⟨y, hy⟩ := imFind_some_of_mem hx
            simp only at hy
            rw [imFind_removes, if_pos (List.mem_map.2 ⟨(k, wk, some .done), List.mem_filter.2 ⟨hm, by simp⟩, rfl⟩)] at hy
            cases hy
      split at he
      · cases he
      · cases he
      · rename_i heq2
        cases he
        rcases h1 with h1 | h1
        · exact .inl (executeInvokedP_inv (I := Calm u base) (fun _ _ _ _ => Calm.wstep)
            (fun _ _ h => h.snoc rfl (by intro h; cases h)) h1 heq2).1
        · exact .inr (h1.executeInvoked Quiet.steady heq2)
  · exact .inr (h.pass Quiet.steady he)

theorem Settled.loop {t : Nat} : ∀ (n : Nat) {e e' : Exec env}, Tabs u e → Settled u base e →
    Exec.loopP P t n e = .ok e' → Settled u base e' := by
  intro n
  induction n with
  | zero =>
    intro e e' hT h he
    unfold Exec.loopP at he
    split at he
    · cases he
    · cases he
    · rename_i heq
      split at he
      · cases he; exact h.pass hT heq
      · cases he
  | succ n ih =>
    intro e e' hT h he
    unfold Exec.loopP at he
    split at he
    · cases he
    · cases he
    · rename_i heq
      split at he
      · cases he; exact h.pass hT heq
      · exact ih (hT.pass (noLaws P u) heq).1 (h.pass hT heq) he

theorem Settled.tickTo {t : Nat} {e e' : Exec env} (hT : Tabs u e) (he : e.tickToP P t = .ok e') :
    Settled u e.world.log e' := by
  have h0 : Settled u e.world.log (e.beginTick t) := .inl ⟨[.tickStart t], rfl, by simp⟩
  have hT0 : Tabs u (e.beginTick t) :=
    hT.emit (.tickStart t) (by intro _ _ _ _ h; cases h) (by intro _ h; cases h) (by intro h; cases h)
  unfold Exec.tickToP at he
  split at he
  · rename_i e1 heq
    cases he
    rcases Settled.loop _ hT0 h0 heq with h | h
    · exact .inl (h.snoc rfl (by intro h; cases h))
    · exact .inr (h.emit Quiet.steady _ (by intro _ h; cases h))
  · rename_i hne
    exact absurd he (hne e')

/-! ## Cancelling -/

/-- It will be cancelled when the queue is processed. -/
def Doomed (u c : Nat) (e : Exec env) : Prop :=
  u < e.world.sched.nextUid ∧ (∀ r, (track u e.world.log).seen = some r → r.cid = c) ∧
    ∃ q1 q2, e.world.sched.queue = q1 ++ .cancel c :: q2 ∧ ∀ a ∈ q2, a.uid? ≠ some u

theorem Doomed.process {c : Nat} {e : Exec env} {a : Action env.B} {rest : List (Action env.B)}
    (hT : Tabs u (e.withQueue (a :: rest))) (h : Doomed u c (e.withQueue (a :: rest))) :
    Gone u (e.processAction a) ∨ Doomed u c ((e.processAction a).withQueue rest) := by
  obtain ⟨h1, h2, q1, q2, h3, h4⟩ := h
  simp only [Exec.withQueue] at h1 h2 h3
  cases q1 with
  | nil =>
    left
    simp only [List.nil_append, List.cons.injEq] at h3
    obtain ⟨rfl, rfl⟩ := h3
    have hu := hT.tab.uids
    simp only [Exec.withQueue] at hu
    have hlt : u < e.nextWorkId := by
      rcases Nat.lt_or_ge u e.nextWorkId with h | h
      · exact h
      · have hm : u ∈ List.range' e.nextWorkId (e.world.sched.nextUid - e.nextWorkId) := by
          rw [List.mem_range']
          exact ⟨u - e.nextWorkId, by omega, by omega⟩
        have := hu.uids
        simp only at this
        rw [← this] at hm
        obtain ⟨a, ha, hau⟩ := List.mem_filterMap.1 hm
        rcases List.mem_cons.1 ha with rfl | ha
        · cases hau
        · exact absurd hau (h4 a ha)
    refine ⟨hlt, ?_⟩
    simp only [Exec.processAction]
    intro hm
    obtain ⟨r, hr, _⟩ := hT.tab.known.known h1
    have hin := hT.tab.held r hr (((imRemoves_sublist _ _).map _).subset hm)
    rw [h2 r hr] at hin
    simp only [Exec.withQueue] at hin
    obtain ⟨⟨k, x⟩, hx, hke⟩ := List.mem_map.1 hm
    simp only at hke
    subst hke
    obtain ⟨y, hy⟩ := imFind_some_of_mem hx
    rw [imFind_removes, if_pos hin] at hy
    cases hy
  | cons a' q1 =>
    right
    simp only [List.cons_append, List.cons.injEq] at h3
    obtain ⟨rfl, rfl⟩ := h3
    refine ⟨?_, ?_, q1, q2, rfl, h4⟩
    · simp only [Exec.withQueue, processAction_world]; exact h1
    · simp only [Exec.withQueue, processAction_world]; exact h2

theorem Doomed.processAll {c : Nat} : ∀ (q : List (Action env.B)) {e : Exec env}, Tabs u (e.withQueue q) →
    Doomed u c (e.withQueue q) → Gone u (q.foldl Exec.processAction e) := by
  intro q
  induction q with
  | nil =>
    intro e _ h
    obtain ⟨_, _, q1, q2, h3, _⟩ := h
    simp [Exec.withQueue] at h3
  | cons a q ih =>
    intro e hT h
    rcases h.process hT with hg | hd
    · have go : ∀ (q : List (Action env.B)) (e : Exec env), Gone u e → Gone u (q.foldl Exec.processAction e) := by
        intro q
        induction q with
        | nil => intro e h; exact h
        | cons a q ih => intro e h; exact ih _ (h.process a)
      exact go q _ hg
    · exact ih (Whole.process (noLaws (fun _ _ _ _ => false) u) hT) hd

theorem Doomed.drain {c : Nat} {e : Exec env} (hT : Tabs u e) (h : Doomed u c e) (t : Nat) : Gone u (e.drain t).1 := by
  have hseen : (track u (e.world.log ++ [.drained])) = track u e.world.log := by
    rw [track_snoc]; rfl
  simp only [Exec.drain]
  refine Doomed.processAll (c := c) e.world.sched.queue ?_ ?_
  · obtain ⟨⟨hs, hb, hcm, hu, hk, hp, hh⟩, ⟨hn, ha, hg⟩, hsub⟩ := hT
    refine ⟨⟨hs, hb, ?_, ⟨hu.1, hu.2⟩, ⟨?_, ?_⟩, ?_, ?_⟩, ⟨?_, fun _ _ _ _ => trivial, fun _ _ => trivial⟩, hsub⟩ <;>
      simp only [Exec.withQueue, hseen]
    · exact hcm
    · exact hk.fresh
    · exact hk.known
    · exact hp
    · exact hh
    · intro hle
      rw [runsOf_snoc (by intro _ h; cases h)]
      exact hn hle
  · obtain ⟨h1, h2, h3⟩ := h
    exact ⟨h1, by simp only [Exec.withQueue, hseen]; exact h2, h3⟩

theorem Left.loopD (hI : Steady u I) {t : Nat} (n : Nat) {e e' : Exec env} (h : Left u I (e.drain t).1)
    (he : (Exec.loopP P t n e).state = some e') : Left u I e' := by
  unfold Exec.loopP at he
  split at he
  · cases he
  · rename_i heq; cases he; exact h.passD hI heq
  · rename_i heq
    split at he
    · cases he; exact h.passD hI heq
    · split at he
      · cases he; exact h.passD hI heq
      · exact Left.loop hI _ (h.passD hI heq) he

theorem Doomed.tickTo (hI : Steady u I) {c t : Nat} {e e' : Exec env} (hT : Tabs u e) (h : Doomed u c e)
    (hl : I e.world.log) (he : (e.tickToP P t).state = some e') : Left u I e' := by
  have hT0 : Tabs u (e.beginTick t) :=
    hT.emit (.tickStart t) (by intro _ _ _ _ h; cases h) (by intro _ h; cases h) (by intro h; cases h)
  have h0 : Doomed u c (e.beginTick t) := by
    refine ⟨h.1, fun r' hr' => ?_, h.2.2⟩
    obtain ⟨r, hr, hs, _⟩ := rec_snoc (by intro _ _ _ h; cases h) hr'
    rw [hs.cid]
    exact h.2.1 r hr
  have hD : Left u I ((e.beginTick t).drain t).1 := by
    refine ⟨h0.drain hT0 t, ?_⟩
    rw [drain_log]
    exact hI _ _ (by intro _ h; cases h) (hI _ _ (by intro _ h; cases h) hl)
  unfold Exec.tickToP at he
  split at he
  · rename_i e1 heq
    cases he
    exact (Left.loopD hI _ hD (by rw [heq]; rfl)).emit hI _ (by intro _ h; cases h)
  · exact Left.loopD hI _ hD he

theorem Doomed.call {c : Nat} {e : Exec env} (h : Doomed u c e) (k : Call env.B) :
    Doomed u c { e with world := e.world.call k } := by
  obtain ⟨h1, h2, q1, q2, h3, h4⟩ := h
  have hrec := rec_steps (src := .invoked 0) (t := 0) h1 (Steps.one (.call _ k))
  refine ⟨hrec.1, ?_, ?_⟩
  · intro r' hr'
    obtain ⟨r, hr, hs, _⟩ := hrec.2 r' hr'
    rw [hs.cid]
    exact h2 r hr
  · have app : ∀ a : Action env.B, a.uid? ≠ some u →
        ∃ q1' q2', e.world.sched.queue ++ [a] = q1' ++ .cancel c :: q2' ∧ ∀ a ∈ q2', a.uid? ≠ some u := by
      intro a ha
      refine ⟨q1, q2 ++ [a], by rw [h3]; simp, ?_⟩
      intro x hx
      rcases List.mem_append.1 hx with hx | hx
      · exact h4 x hx
      · rw [List.mem_singleton.1 hx]; exact ha
    cases k with
    | scheduleWork work cid => exact app _ (by simp [Action.uid?]; omega)
    | generateCancellationId => exact ⟨q1, q2, h3, h4⟩
    | generateInvokeId => exact ⟨q1, q2, h3, h4⟩
    | _ => exact app _ (by simp [Action.uid?])

theorem Doomed.run (hI : Steady u I) {c : Nat} : ∀ (ops : List (Op env.B)) {e e' : Exec env}, Tabs u e → Doomed u c e →
    I e.world.log → e.runP P ops = some e' → I e'.world.log := by
  intro ops
  induction ops with
  | nil => intro e e' _ _ hl he; cases he; exact hl
  | cons op ops ih =>
    intro e e' hT h hl he
    have tick : ∀ t, e.stepP P op = e.tickToP P t → I e'.world.log := by
      intro t hop
      unfold Exec.runP at he
      rw [hop] at he
      split at he
      · rename_i heq; exact (Left.run hI ops (h.tickTo hI hT hl (by rw [heq]; rfl)) he).2
      · rename_i heq; exact (Left.run hI ops (h.tickTo hI hT hl (by rw [heq]; rfl)) he).2
      · cases he
    cases op with
    | call k =>
      simp only [Exec.runP, Exec.stepP] at he
      exact ih (hT.step (noLaws P u) (op := .call k) rfl) (h.call k)
        (hI.wstep (t := 0) (src := .invoked 0) (by intro h; cases h) (.call _ k) hl) he
    | tickTo t => exact tick t rfl
    | tick d => exact tick _ rfl

end Rx.Sched
