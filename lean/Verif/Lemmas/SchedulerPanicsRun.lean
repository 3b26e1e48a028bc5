import Verif.Lemmas.SchedulerPanicsPass

/-!
# Through a history with panics
-/

namespace Rx.Sched

open Spec

variable {env : Env} {P : Panics env}
variable {u : Nat} {M : Nat → Work env.B → Work env.B → List Nat → Prop}
  {G : Nat → Work env.B → Bool → List Nat → Prop} {Due : Nat → Work env.B → Nat → Prop}

/-- The invariant, for an executor. -/
def Whole (u : Nat) (M : Nat → Work env.B → Work env.B → List Nat → Prop)
    (G : Nat → Work env.B → Bool → List Nat → Prop) (e : Exec env) : Prop :=
  Part u M G (e.active.map (·.1)) e.nextWorkId e.cancellationMap e.active e.world

theorem mem_removes {α : Type} {ks : List Nat} {l : List (Nat × α)} {k : Nat} (h : k ∈ l.map (·.1)) (hk : k ∉ ks) :
    k ∈ (ks.foldl imRemove l).map (·.1) := by
  obtain ⟨⟨k', x⟩, hm, rfl⟩ := List.mem_map.1 h
  obtain ⟨y, hy⟩ := imFind_some_of_mem hm
  have : imFind k' (ks.foldl imRemove l) = some y := by
    rw [imFind_removes, if_neg hk, hy]
  exact List.mem_map.2 ⟨_, imFind_mem this, rfl⟩

/-- One action of the queue. -/
theorem Whole.process (L : KeepLaws P u M G Due) {e : Exec env} {a : Action env.B} {rest : List (Action env.B)}
    (h : Whole u M G (e.withQueue (a :: rest))) : Whole u M G ((e.processAction a).withQueue rest) := by
  obtain ⟨⟨hs, hb, hcm, hu, hk, hp, hh⟩, ⟨hn, ha, hg⟩, _⟩ := h
  simp only [Exec.withQueue] at *
  have hsub : ∀ x, x ∈ rest → x ∈ a :: rest := fun x h => List.mem_cons_of_mem _ h
  have hk' : Known u { e.world with sched := { e.world.sched with queue := rest } } :=
    ⟨hk.fresh, fun hlt => by
      obtain ⟨r, h1, h2⟩ := hk.known hlt
      exact ⟨r, h1, fun cid wk hm => h2 cid wk (hsub _ hm)⟩⟩
  have huids : a.uid? = none → Uids e.nextWorkId { e.world.sched with queue := rest } := by
    intro ha
    refine ⟨hu.le, ?_⟩
    have := hu.uids
    simpa [List.filterMap_cons, ha] using this
  -- the queue shrinks
  have shrink : ∀ c, a.uid? ≠ some u → Present u c (e.active.map (·.1)) (a :: rest) →
      Present u c (e.active.map (·.1)) rest := by
    intro c ha hpr
    rcases hpr with ⟨h1, h2⟩ | ⟨q1, wk, q2, h1, h2⟩
    · exact .inl ⟨h1, fun hm => h2 (hsub _ hm)⟩
    · obtain ⟨pre', hp'⟩ := Uids.not_head (s := { e.world.sched with queue := a :: rest }) rfl h1 ha
      exact .inr ⟨pre', wk, q2, hp', h2⟩
  cases a with
  | activate c v wk =>
    obtain ⟨hv, hlt, hu'⟩ := hu.head rfl
    subst hv
    have hfresh : ∀ p ∈ e.active, p.1 ≠ e.nextWorkId := fun p hp => by
      have := hb p.1 (List.mem_map_of_mem hp); omega
    simp only [Whole, Exec.processAction, imInsert_fresh hfresh]
    refine ⟨⟨?_, ?_, ?_, hu', hk', ?_, ?_⟩, ⟨?_, ?_, hg⟩, List.Sublist.refl _⟩
    · rw [List.map_append, List.pairwise_append]
      refine ⟨hs, by simp, ?_⟩
      intro p hp q hq
      simp only [List.map_cons, List.map_nil, List.mem_singleton] at hq
      subst hq; exact hb p hp
    · intro k hk
      rw [List.map_append] at hk
      rcases List.mem_append.1 hk with hk | hk
      · have := hb k hk; omega
      · simp only [List.map_cons, List.map_nil, List.mem_singleton] at hk; omega
    · intro c' hc'
      simp only [fset] at hc'
      split at hc'
      · rename_i he
        subst he
        rcases List.mem_append.1 hc' with h | h
        · have := hcm _ h; exact ⟨by omega, this.2⟩
        · simp only [List.mem_singleton] at h
          subst h
          refine ⟨by omega, fun r hr => ?_⟩
          obtain ⟨r', hr', hq⟩ := hk.known hlt
          rw [hr] at hr'; cases hr'
          exact (hq c' wk (by simp)).1.symm
      · have := hcm _ hc'; exact ⟨by omega, this.2⟩
    · intro r hr hc hd
      have hpr := hp r hr hc hd
      by_cases hv : e.nextWorkId = u
      · subst hv
        rcases hpr with ⟨h1, _⟩ | ⟨q1, wk', q2, h1, h2⟩
        · exact absurd (hb _ h1) (by omega)
        · obtain ⟨k1, k2, k3⟩ := hu.is_head rfl h1
          subst k1
          exact .inl ⟨by simp, h2⟩
      · rcases shrink _ (by simp [Action.uid?]; exact hv) hpr with ⟨h1, h2⟩ | h1
        · exact .inl ⟨by simp only [List.map_append, List.mem_append]; exact .inl h1, h2⟩
        · exact .inr h1
    · intro r hr hm
      rw [List.map_append] at hm
      simp only [fset]
      rcases List.mem_append.1 hm with hm | hm
      · have := hh r hr hm
        split
        · rename_i he; rw [he] at this; simp [this]
        · exact this
      · simp only [List.map_cons, List.map_nil, List.mem_singleton] at hm
        subst hm
        obtain ⟨r', hr', hq⟩ := hk.known hlt
        have hr2 := hr
        simp only at hr2
        rw [hr'] at hr2
        cases hr2
        rw [if_pos (hq c wk (by simp)).1.symm]
        simp
    · intro hle; exact hn (by omega)
    · intro x r hx hr
      rcases List.mem_append.1 hx with hx | hx
      · exact ha x r hx hr
      · simp only [List.mem_singleton, Prod.mk.injEq] at hx
        obtain ⟨h1, rfl⟩ := hx
        subst h1
        obtain ⟨r', hr', hq⟩ := hk.known hlt
        have hr2 := hr
        simp only at hr2
        rw [hr'] at hr2
        cases hr2
        rw [(hq c x (by simp)).2]
        simp only
        rw [hn (by omega)]
        exact L.start _ _
  | cancel c =>
    simp only [Whole, Exec.processAction]
    have hsl := imRemoves_sublist (e.cancellationMap c) e.active
    refine ⟨⟨hs.sublist (hsl.map _), fun k hk => hb k ((hsl.map _).subset hk), ?_, huids rfl, hk', ?_, ?_⟩,
      ⟨hn, fun x r hx hr => ha x r (hsl.subset hx) hr, hg⟩, List.Sublist.refl _⟩
    · intro c' hc'
      simp only [fset] at hc'
      split at hc'
      · cases hc'
      · exact hcm _ hc'
    · intro r hr hc hd
      have hpr := hp r hr hc hd
      rcases hpr with ⟨h1, h2⟩ | ⟨q1, wk, q2, h1, h2⟩
      · refine .inl ⟨mem_removes h1 ?_, fun hm => h2 (hsub _ hm)⟩
        intro hm
        have := (hcm c hm).2 r hr
        rw [this] at h2
        exact h2 (List.mem_cons_self ..)
      · obtain ⟨pre', hp'⟩ := Uids.not_head (s := { e.world.sched with queue := .cancel c :: rest }) rfl h1
          (by simp [Action.uid?])
        exact .inr ⟨pre', wk, q2, hp', h2⟩
    · intro r hr hm
      have hin := hh r hr ((hsl.map _).subset hm)
      simp only [fset]
      split
      · rename_i hc
        rw [hc] at hin
        obtain ⟨⟨k, x⟩, hx, hke⟩ := List.mem_map.1 hm
        simp only at hke
        subst hke
        obtain ⟨y, hy⟩ := imFind_some_of_mem hx
        rw [imFind_removes, if_pos hin] at hy
        cases hy
      · exact hin
  | _ =>
    simp only [Whole, Exec.processAction]
    exact ⟨⟨hs, hb, hcm, huids rfl, hk', fun r hr hc hd => shrink _ (by simp [Action.uid?]) (hp r hr hc hd), hh⟩,
      ⟨hn, ha, hg⟩, List.Sublist.refl _⟩

theorem Whole.processAll (L : KeepLaws P u M G Due) (q : List (Action env.B)) {e : Exec env}
    (h : Whole u M G (e.withQueue q)) : Whole u M G ((q.foldl Exec.processAction e).withQueue []) := by
  induction q generalizing e with
  | nil => exact h
  | cons a q ih => exact ih (Whole.process L h)

theorem processAll_already (q : List (Action env.B)) (e : Exec env) :
    (q.foldl Exec.processAction e).alreadyTicked = e.alreadyTicked := by
  induction q generalizing e with
  | nil => rfl
  | cons a q ih =>
    rw [List.foldl_cons, ih]
    cases a <;> rfl

theorem drain_queue (e : Exec env) (t : Nat) : (e.drain t).1.world.sched.queue = [] := by
  simp only [Exec.drain, processAll_world]

theorem drain_log (e : Exec env) (t : Nat) : (e.drain t).1.world.log = e.world.log ++ [.drained] := by
  simp only [Exec.drain, processAll_world]

theorem drain_already (e : Exec env) (t : Nat) : (e.drain t).1.alreadyTicked = e.alreadyTicked := by
  simp only [Exec.drain, processAll_already]

theorem Whole.drain (L : KeepLaws P u M G Due) {e : Exec env} (h : Whole u M G e) (t : Nat) :
    Whole u M G (e.drain t).1 := by
  have hseen : (track u (e.world.log ++ [.drained])) = track u e.world.log := by
    rw [track_snoc]; rfl
  have hrun : runsOf u (e.world.log ++ [.drained]) = runsOf u e.world.log := runsOf_snoc (by intro _ h; cases h)
  have key : Whole u M G ((e.drain t).1.withQueue []) := by
    simp only [Exec.drain]
    refine Whole.processAll L e.world.sched.queue ?_
    obtain ⟨⟨hs, hb, hcm, hu, hk, hp, hh⟩, ⟨hn, ha, hg⟩, hsub⟩ := h
    refine ⟨⟨hs, hb, ?_, ⟨hu.1, hu.2⟩, ⟨?_, ?_⟩, ?_, ?_⟩, ⟨?_, ?_, ?_⟩, hsub⟩ <;>
      simp only [Exec.withQueue, hseen, hrun]
    · exact hcm
    · exact hk.fresh
    · exact hk.known
    · exact hp
    · exact hh
    · exact hn
    · exact ha
    · exact hg
  rw [show (e.drain t).1 = (e.drain t).1.withQueue [] by
    rw [← drain_queue e t, Exec.withQueue_self]]
  exact key

/-- `tick_scheduled`. -/
theorem Whole.tickScheduled (L : KeepLaws P u M G Due) {e e' : Exec env} {t : Nat} {b : Option Bool} (h : Whole u M G e)
    (he : e.tickScheduledP P t = some (e', b)) :
    Whole u M G e' ∧ Ext e.world e'.world ∧
      (b ≠ none → e.alreadyTicked u = false → u ∈ e.active.map (·.1) →
        TickedIn u t e.world e'.world ∧ Fact u (hasRun Due t) e'.world) := by
  unfold Exec.tickScheduledP at he
  split at he
  · cases he
  · rename_i out w heq
    cases he
    obtain ⟨a1, a2, _, _⟩ := Part.pass L e.active [] _ _ _ _ heq h
    refine ⟨?_, tickPassP_ext heq, fun hb => absurd rfl hb⟩
    have hk : (out.map (fun p => (p.1, p.2.1))).map (·.1) = e.active.map (·.1) := by rw [← a2]; simp
    simp only [Whole, hk]
    exact a1
  · rename_i out w heq
    cases he
    obtain ⟨a1, a2, a3, a4⟩ := Part.pass L e.active [] _ _ _ _ heq h
    refine ⟨?_, tickPassP_ext heq, fun _ => a4 rfl⟩
    have hk : (out.map (fun p => (p.1, p.2.1))).map (·.1) = e.active.map (·.1) := by rw [← a2]; simp
    have hsl := imRemoves_sublist ((out.filter (fun p => p.2.2 == some .done)).map (·.1)) (out.map (fun p => (p.1, p.2.1)))
    have hslk := hsl.map (·.1)
    obtain ⟨⟨hs, hb, hcm, hu, hkn, hp, hh⟩, ⟨hn, ha, hg⟩, _⟩ := a1
    refine ⟨⟨hs.sublist (by rw [← hk]; exact hslk), fun k hm => hb k (by rw [← hk]; exact hslk.subset hm), hcm, hu, hkn, ?_,
        fun r hr hm => hh r hr (by rw [← hk]; exact hslk.subset hm)⟩,
      ⟨hn, fun x r hx hr => ha x r (hsl.subset hx) hr, hg⟩, List.Sublist.refl _⟩
    intro r hr hc hd
    rcases hp r hr hc hd with ⟨h1, h2⟩ | h1
    · refine .inl ⟨mem_removes (by rw [hk]; exact h1) ?_, h2⟩
      intro hm
      obtain ⟨⟨k, x, res⟩, hx, hxe⟩ := List.mem_map.1 hm
      simp only at hxe
      obtain ⟨hx1, hx2⟩ := List.mem_filter.1 hx
      simp only [beq_iff_eq] at hx2
      have := (a3 ⟨x, by rw [← hxe, ← hx2]; exact hx1⟩).2 r hr
      rw [doneFact, hd] at this
      cases this
    · exact .inr h1

/-- `execute_invoked`. -/
theorem Whole.executeInvoked (L : KeepLaws P u M G Due) {e e' : Exec env} {t : Nat} {b : Bool} (h : Whole u M G e)
    (he : e.executeInvokedP P t = some (e', b)) :
    Whole u M G e' ∧ Ext e.world e'.world ∧ ∀ Q, Stays Q → Fact u Q e.world → Fact u Q e'.world := by
  unfold Exec.executeInvokedP at he
  split at he
  · cases he
  · rename_i inv w p heq
    cases he
    refine ⟨?_, execInvokedP_ext heq, fun Q hQ hf => execInvokedP_fact hQ heq hf⟩
    refine execInvokedP_inv (I := fun (w : World env) => Part u M G (e.active.map (fun (p : Nat × Work env.B) => p.1)) e.nextWorkId e.cancellationMap e.active w)
      ?_ ?_ _ _ _ _ heq h
    · intro i x a b hab ha
      have hs := Steps.one hab
      exact ⟨ha.tab.steps hs, Snd.steps L (by intro he; cases he) ha.snd ha.bound ha.tab.uids hs, ha.sub⟩
    · intro i w hw
      exact hw.emit _ (by intro _ _ _ _ h; cases h) (by intro _ h; cases h) (by intro h; cases h)

/-- The record of work that is neither cancelled nor done. -/
def Waiting (u : Nat) (w : World env) (r : Rec env.B) : Prop :=
  (track u w.log).seen = some r ∧ r.cancelled = false ∧ r.done = false

/-- One pass of `tick_to`. -/
theorem Whole.pass (L : KeepLaws P u M G Due) {e e' : Exec env} {t : Nat} {b : Option Bool} (h : Whole u M G e)
    (he : e.passP P t = some (e', b)) :
    Whole u M G e' ∧ Ext e.world e'.world ∧
      (b ≠ none → e.alreadyTicked u = false → (∃ r, Waiting u e.world r) →
        TickedIn u t e.world e'.world ∧ Fact u (hasRun Due t) e'.world) := by
  unfold Exec.passP at he
  have hd := h.drain L t
  have hx : Ext e.world (e.drain t).1.world := ⟨_, drain_log e t⟩
  have hin : (∃ r, Waiting u e.world r) → u ∈ (e.drain t).1.active.map (·.1) := by
    rintro ⟨r, hr, hc, hdn⟩
    have hseen : (track u (e.world.log ++ [.drained])) = track u e.world.log := by
      rw [track_snoc]; rfl
    have := hd.tab.present r (by rw [drain_log, hseen]; exact hr) hc hdn
    rw [drain_queue] at this
    rcases this with ⟨h1, _⟩ | ⟨q1, wk, q2, h1, _⟩
    · exact h1
    · simp at h1
  dsimp only at he
  split at he
  · cases he
  · rename_i e1 heq
    cases he
    obtain ⟨a1, a2, _⟩ := hd.tickScheduled L heq
    exact ⟨a1, hx.trans a2, fun hb => absurd rfl hb⟩
  · rename_i e1 q heq
    obtain ⟨a1, a2, a3⟩ := hd.tickScheduled L heq
    split at he
    · cases he
    · rename_i e2 heq2
      cases he
      obtain ⟨b1, b2, _⟩ := a1.executeInvoked L heq2
      exact ⟨b1, hx.trans (a2.trans b2), fun hb => absurd rfl hb⟩
    · rename_i e2 heq2
      cases he
      obtain ⟨b1, b2, b3⟩ := a1.executeInvoked L heq2
      refine ⟨b1, hx.trans (a2.trans b2), fun _ hal hw => ?_⟩
      obtain ⟨c1, c2⟩ := a3 (by simp) (by rw [drain_already]; exact hal) (hin hw)
      exact ⟨TickedIn.mono hx c1 b2, b3 _ (hasRun_stays t) c2⟩

theorem Exec.passP_fact {Q : Nat → Work env.B → Bool → List Nat → Prop} (hQ : Stays Q) {e e' : Exec env} {t : Nat}
    {b : Option Bool} (hf : Fact u Q e.world) (he : e.passP P t = some (e', b)) : Fact u Q e'.world := by
  have hd : Fact u Q (e.drain t).1.world := by
    refine hf.snoc hQ (drain_log e t) ?_ (by intro _ _ _ h; cases h)
    simp only [Exec.drain, processAll_world]
    exact Nat.le_refl _
  have hts : ∀ {e e' : Exec env} {b}, Fact u Q e.world → e.tickScheduledP P t = some (e', b) → Fact u Q e'.world := by
    intro e e' b hf he
    unfold Exec.tickScheduledP at he
    split at he
    · cases he
    · rename_i heq; cases he; exact tickPassP_fact hQ heq hf
    · rename_i heq; cases he; exact tickPassP_fact hQ heq hf
  have hei : ∀ {e e' : Exec env} {b}, Fact u Q e.world → e.executeInvokedP P t = some (e', b) → Fact u Q e'.world := by
    intro e e' b hf he
    unfold Exec.executeInvokedP at he
    split at he
    · cases he
    · rename_i heq; cases he; exact execInvokedP_fact hQ heq hf
  unfold Exec.passP at he
  dsimp only at he
  split at he
  · cases he
  · rename_i heq; cases he; exact hts hd heq
  · rename_i heq
    split at he
    · cases he
    · rename_i heq2; cases he; exact hei (hts hd heq) heq2
    · rename_i heq2; cases he; exact hei (hts hd heq) heq2

/-- How a call of `tick_to` leaves the executor, if it ends. -/
def Outcome.state {α : Type} : Outcome α → Option α
  | .ok a => some a
  | .panic a => some a
  | .diverges => none

theorem Whole.loop (L : KeepLaws P u M G Due) {t : Nat} : ∀ (n : Nat) {e e' : Exec env}, Whole u M G e →
    (Exec.loopP P t n e).state = some e' → Whole u M G e' ∧ Ext e.world e'.world ∧
      ∀ Q, Stays Q → Fact u Q e.world → Fact u Q e'.world := by
  intro n
  induction n with
  | zero =>
    intro e e' h he
    unfold Exec.loopP at he
    split at he
    · cases he
    · rename_i heq; cases he
      obtain ⟨a1, a2, _⟩ := h.pass L heq
      exact ⟨a1, a2, fun Q hQ hf => Exec.passP_fact hQ hf heq⟩
    · rename_i heq
      obtain ⟨a1, a2, _⟩ := h.pass L heq
      split at he <;> (cases he; exact ⟨a1, a2, fun Q hQ hf => Exec.passP_fact hQ hf heq⟩)
  | succ n ih =>
    intro e e' h he
    unfold Exec.loopP at he
    split at he
    · cases he
    · rename_i heq; cases he
      obtain ⟨a1, a2, _⟩ := h.pass L heq
      exact ⟨a1, a2, fun Q hQ hf => Exec.passP_fact hQ hf heq⟩
    · rename_i heq
      obtain ⟨a1, a2, _⟩ := h.pass L heq
      split at he
      · cases he; exact ⟨a1, a2, fun Q hQ hf => Exec.passP_fact hQ hf heq⟩
      · obtain ⟨b1, b2, b3⟩ := ih a1 he
        exact ⟨b1, a2.trans b2, fun Q hQ hf => b3 Q hQ (Exec.passP_fact hQ hf heq)⟩

/-- In a tick that does not panic, what waits is ticked. -/
theorem Whole.loop_ok (L : KeepLaws P u M G Due) {t : Nat} (n : Nat) {e e' : Exec env} (h : Whole u M G e)
    (he : Exec.loopP P t n e = .ok e') (hal : e.alreadyTicked u = false) (hw : ∃ r, Waiting u e.world r) :
    TickedIn u t e.world e'.world ∧ Fact u (hasRun Due t) e'.world := by
  unfold Exec.loopP at he
  split at he
  · cases he
  · cases he
  · rename_i e1 q heq
    obtain ⟨a1, a2, a3⟩ := h.pass L heq
    obtain ⟨c1, c2⟩ := a3 (by simp) hal hw
    split at he
    · cases he; exact ⟨c1, c2⟩
    · split at he
      · cases he
      · rename_i m
        obtain ⟨b1, b2, b3⟩ := Whole.loop L m a1 (by rw [he]; rfl)
        exact ⟨TickedIn.mono (Ext.refl _) c1 b2, b3 _ (hasRun_stays t) c2⟩

theorem Whole.emit {e : Exec env} (h : Whole u M G e) (ev : Ev env.B)
    (he : ∀ v c now wk, ev ≠ .scheduled v c now wk) (hr : ∀ t, ev ≠ .run (.work u) t) (hd : ev ≠ .done (.work u)) :
    Whole u M G { e with world := e.world.emit ev } := Part.emit h ev he hr hd

theorem Whole.tickTo (L : KeepLaws P u M G Due) {t : Nat} {e e' : Exec env} (h : Whole u M G e)
    (he : (e.tickToP P t).state = some e') : Whole u M G e' := by
  have h0 : Whole u M G (e.beginTick t) :=
    h.emit (.tickStart t) (by intro _ _ _ _ h; cases h) (by intro _ h; cases h) (by intro h; cases h)
  unfold Exec.tickToP at he
  split at he
  · rename_i e1 heq
    cases he
    exact (Whole.loop L _ h0 (by rw [heq]; rfl)).1.emit _ (by intro _ _ _ _ h; cases h) (by intro _ h; cases h)
      (by intro h; cases h)
  · exact (Whole.loop L _ h0 he).1

theorem Whole.tickTo_ext (L : KeepLaws P u M G Due) {t : Nat} {e e' : Exec env} (h : Whole u M G e)
    (he : (e.tickToP P t).state = some e') :
    Ext e.world e'.world ∧ ∀ Q, Stays Q → Fact u Q e.world → Fact u Q e'.world := by
  have h0 : Whole u M G (e.beginTick t) :=
    h.emit (.tickStart t) (by intro _ _ _ _ h; cases h) (by intro _ h; cases h) (by intro h; cases h)
  have hx0 : Ext e.world (e.beginTick t).world := Ext.emit _ _
  have hf0 : ∀ Q, Stays Q → Fact u Q e.world → Fact u Q (e.beginTick t).world := fun Q hQ hf =>
    hf.snoc hQ rfl (Nat.le_refl _) (by intro _ _ _ h; cases h)
  unfold Exec.tickToP at he
  split at he
  · rename_i e1 heq
    cases he
    obtain ⟨_, a2, a3⟩ := Whole.loop L _ h0 (e' := e1) (by rw [heq]; rfl)
    exact ⟨hx0.trans (a2.trans (Ext.emit _ _)), fun Q hQ hf =>
      (a3 Q hQ (hf0 Q hQ hf)).snoc hQ rfl (Nat.le_refl _) (by intro _ _ _ h; cases h)⟩
  · obtain ⟨_, a2, a3⟩ := Whole.loop L _ h0 he
    exact ⟨hx0.trans a2, fun Q hQ hf => a3 Q hQ (hf0 Q hQ hf)⟩

theorem Whole.tickTo_ok (L : KeepLaws P u M G Due) {t : Nat} {e e' : Exec env} (h : Whole u M G e)
    (he : e.tickToP P t = .ok e') (hw : ∃ r, Waiting u e.world r) :
    TickedIn u t e.world e'.world ∧ Fact u (hasRun Due t) e'.world := by
  have h0 : Whole u M G (e.beginTick t) :=
    h.emit (.tickStart t) (by intro _ _ _ _ h; cases h) (by intro _ h; cases h) (by intro h; cases h)
  have hw0 : ∃ r, Waiting u (e.beginTick t).world r := by
    obtain ⟨r, hr, hc, hd⟩ := hw
    refine ⟨{ r with ticks := r.ticks ++ [t] }, ?_, hc, hd⟩
    simp only [Exec.beginTick, World.emit]
    rw [track_snoc]
    simp [Track.step, hr]
  unfold Exec.tickToP at he
  split at he
  · rename_i e1 heq
    cases he
    obtain ⟨a1, a2⟩ := Whole.loop_ok L _ h0 heq rfl hw0
    exact ⟨TickedIn.mono (Ext.emit _ _) a1 (Ext.emit _ _),
      a2.snoc (hasRun_stays t) rfl (Nat.le_refl _) (by intro _ _ _ h; cases h)⟩
  · rename_i hne
    exact absurd he (hne e')

theorem Whole.step (L : KeepLaws P u M G Due) {e e' : Exec env} {op : Op env.B} (h : Whole u M G e)
    (he : (e.stepP P op).state = some e') : Whole u M G e' := by
  cases op with
  | call c =>
    cases he
    exact ⟨h.tab.call c, h.snd.call L h.bound h.tab.uids.le c, h.sub⟩
  | tickTo t => exact h.tickTo L he
  | tick d => exact h.tickTo L he

theorem Whole.run (L : KeepLaws P u M G Due) : ∀ (ops : List (Op env.B)) {e e' : Exec env}, Whole u M G e →
    e.runP P ops = some e' → Whole u M G e' := by
  intro ops
  induction ops with
  | nil => intro e e' h he; cases he; exact h
  | cons op ops ih =>
    intro e e' h he
    unfold Exec.runP at he
    split at he
    · rename_i heq; exact ih (h.step L (by rw [heq]; rfl)) he
    · rename_i heq; exact ih (h.step L (by rw [heq]; rfl)) he
    · cases he

theorem Whole.init (ctx : env.Ctx) (n : Nat) : Whole u M G (Exec.new ctx n) := by
  refine ⟨⟨List.Pairwise.nil, (fun k hk => by cases hk), (fun c hc => by cases hc), ⟨Nat.le_refl _, rfl⟩,
    ⟨fun _ => rfl, fun h => absurd h (Nat.not_lt_zero _)⟩, ?_, (fun _ _ h => by cases h)⟩, ⟨fun _ => rfl, (fun wk r h => by cases h), ?_⟩, List.Sublist.refl _⟩
  · intro r hr; cases hr
  · intro r hr; cases hr

/-- `runsAfterDone`, by reading the log. -/
def ranAfterDone {B : Type} (u : Nat) : List (Ev B) → Bool
  | [] => false
  | .done src :: log => (src == .work u && !(runsOf u log).isEmpty) || ranAfterDone u log
  | _ :: log => ranAfterDone u log

theorem runsAfterDone_of {B : Type} {u : Nat} : ∀ {log : List (Ev B)}, ranAfterDone u log = true → runsAfterDone u log := by
  intro log
  induction log with
  | nil => intro h; cases h
  | cons e log ih =>
    intro h
    have later : ranAfterDone u log = true → runsAfterDone u (e :: log) := by
      intro h
      obtain ⟨pre, post, t, rfl, hm⟩ := ih h
      exact ⟨e :: pre, post, t, rfl, hm⟩
    cases e with
    | done src =>
      simp only [ranAfterDone, Bool.or_eq_true, Bool.and_eq_true, beq_iff_eq, Bool.not_eq_true'] at h
      rcases h with ⟨rfl, h⟩ | h
      · have hne : runsOf u log ≠ [] := by intro h0; rw [h0] at h; cases h
        obtain ⟨t, ht⟩ := List.exists_mem_of_ne_nil _ hne
        obtain ⟨e, he, hx⟩ := List.mem_filterMap.1 ht
        refine ⟨[], log, t, rfl, ?_⟩
        cases e with
        | run src t' =>
          simp only at hx
          split at hx
          · rename_i hs; cases hx; rw [hs] at he; exact he
          · cases hx
        | _ => cases hx
      · exact later h
    | _ => exact later h

theorem runP_append {ops ops' : List (Op env.B)} {e e' : Exec env} (h : e.runP P ops = some e') :
    e.runP P (ops ++ ops') = e'.runP P ops' := by
  induction ops generalizing e with
  | nil => cases h; rfl
  | cons op ops ih =>
    unfold Exec.runP at h
    rw [List.cons_append, Exec.runP]
    split at h
    · exact ih h
    · exact ih h
    · cases h

/-! ## Work that runs once -/

/-- Nothing is asked. -/
theorem noLaws (P : Panics env) (u : Nat) :
    KeepLaws P u (fun _ _ _ _ => True) (fun _ _ _ _ => True) (fun _ _ _ => False) :=
  ⟨fun _ _ => trivial, fun _ _ => trivial, fun _ _ _ _ _ _ _ _ _ _ _ _ => ⟨trivial, trivial, fun _ => trivial, False.elim⟩⟩

/-- Work with a delay that runs at most once, and not before its time. -/
def DelayedM (now : Nat) (work wk : Work env.B) (runs : List Nat) : Prop :=
  ∀ b d, work = Work.newDelayed b d →
    (runs = [] ∧ ∃ c, wk = .delayed (some b) now c d ∧ (c = now ∨ c < now + d)) ∨
    (∃ x c, runs = [x] ∧ now + d ≤ max now x ∧ wk = .delayed none now c d)

def DelayedG (now : Nat) (work : Work env.B) (dn : Bool) (runs : List Nat) : Prop :=
  ∀ b d, work = Work.newDelayed b d →
    runs.length ≤ 1 ∧ (∀ x ∈ runs, now + d ≤ max now x) ∧ (dn = true → runs ≠ [])

def DelayedDue (now : Nat) (work : Work env.B) (t : Nat) : Prop := ∃ b d, work = Work.newDelayed b d ∧ now + d ≤ t

theorem delayedLaws (P : Panics env) (u : Nat) : KeepLaws P u DelayedM DelayedG DelayedDue := by
  refine ⟨?_, ?_, ?_⟩
  · intro now work b d hw
    subst hw
    exact .inl ⟨rfl, now, by simp [Work.newDelayed, Work.onScheduled, updateTick_eq], .inl rfl⟩
  · intro now work b d _
    exact ⟨by simp, by simp, by simp⟩
  · intro now work wk dn t w wk' w' a hM hG ht
    by_cases hw : ∃ b d, work = Work.newDelayed b d
    · obtain ⟨b, d, rfl⟩ := hw
      have inj : ∀ b' d', Work.newDelayed b d = Work.newDelayed b' d' → b' = b ∧ d' = d := by
        intro b' d' h
        simp only [Work.newDelayed, Work.delayed.injEq, Option.some.injEq, true_and] at h
        exact ⟨h.1.symm, h.2.symm⟩
      rcases hM b d rfl with ⟨h1, c, rfl, hc⟩ | ⟨x, c, h1, h2, rfl⟩
      · simp only [Work.tickP, updateTick_eq] at ht
        by_cases hdue : now + d ≤ max c t
        · rw [if_pos hdue] at ht
          simp only [Option.some.injEq, Prod.mk.injEq] at ht
          obtain ⟨rfl, rfl, rfl⟩ := ht
          have hrun : runsOf u (runBodyP P (.work u) b t w).2.1.log = [t] := by rw [runsOf_body, h1]; rfl
          have hle : now + d ≤ max now t := by
            rcases hc with hc | hc <;> omega
          rw [hrun]
          refine ⟨?_, ?_, ?_, fun _ => by simp⟩
          · intro b' d' he
            obtain ⟨rfl, rfl⟩ := inj b' d' he
            exact .inr ⟨t, max c t, rfl, hle, rfl⟩
          · intro b' d' he
            obtain ⟨rfl, rfl⟩ := inj b' d' he
            exact ⟨by simp, by simpa using hle, by simp⟩
          · intro _ b' d' he
            obtain ⟨rfl, rfl⟩ := inj b' d' he
            exact ⟨by simp, by simpa using hle, by simp⟩
        · rw [if_neg hdue] at ht
          simp only [Option.some.injEq, Prod.mk.injEq] at ht
          obtain ⟨rfl, rfl, rfl⟩ := ht
          refine ⟨?_, hG, (fun h => by cases h), ?_⟩
          · intro b' d' he
            obtain ⟨rfl, rfl⟩ := inj b' d' he
            exact .inl ⟨h1, max c t, rfl, .inr (by omega)⟩
          · rintro ⟨b', d', he, hle⟩
            obtain ⟨rfl, rfl⟩ := inj b' d' he
            omega
      · have key : ∃ c', wk' = .delayed none now c' d ∧ w' = w := by
          simp only [Work.tickP] at ht
          split at ht <;> (cases ht; exact ⟨_, rfl, rfl⟩)
        obtain ⟨c', rfl, rfl⟩ := key
        have hne : runsOf u w'.log ≠ [] := by rw [h1]; simp
        refine ⟨?_, hG, ?_, fun _ => hne⟩
        · intro b' d' he
          obtain ⟨rfl, rfl⟩ := inj b' d' he
          exact .inr ⟨x, c', h1, h2, rfl⟩
        · intro _ b' d' he
          have := hG b' d' he
          exact ⟨this.1, this.2.1, fun _ => hne⟩
    · have no : ∀ b d, work ≠ Work.newDelayed b d := fun b d h => hw ⟨b, d, h⟩
      exact ⟨fun b d h => absurd h (no b d), fun b d h => absurd h (no b d), fun _ b d h => absurd h (no b d),
        fun ⟨b, d, h, _⟩ => absurd h (no b d)⟩

/-- Immediate work runs at most once. -/
def ImmediateM (_ : Nat) (work wk : Work env.B) (runs : List Nat) : Prop :=
  ∀ b, work = Work.newImmediate b →
    (runs = [] ∧ wk = .immediate (some b)) ∨ (∃ x, runs = [x] ∧ wk = .immediate none)

def ImmediateG (_ : Nat) (work : Work env.B) (dn : Bool) (runs : List Nat) : Prop :=
  ∀ b, work = Work.newImmediate b → runs.length ≤ 1 ∧ (dn = true → runs ≠ [])

def ImmediateDue (_ : Nat) (work : Work env.B) (_ : Nat) : Prop := ∃ b, work = Work.newImmediate b

theorem immediateLaws (P : Panics env) (u : Nat) : KeepLaws P u ImmediateM ImmediateG ImmediateDue := by
  refine ⟨?_, ?_, ?_⟩
  · intro now work b hw
    subst hw
    exact .inl ⟨rfl, rfl⟩
  · intro now work b _
    exact ⟨by simp, by simp⟩
  · intro now work wk dn t w wk' w' a hM hG ht
    by_cases hw : ∃ b, work = Work.newImmediate b
    · obtain ⟨b, rfl⟩ := hw
      have inj : ∀ b', Work.newImmediate b = Work.newImmediate b' → b' = b := by
        intro b' h
        simp only [Work.newImmediate, Work.immediate.injEq, Option.some.injEq] at h
        exact h.symm
      rcases hM b rfl with ⟨h1, rfl⟩ | ⟨x, h1, rfl⟩
      · simp only [Work.tickP, Option.some.injEq, Prod.mk.injEq] at ht
        obtain ⟨rfl, rfl, rfl⟩ := ht
        have hrun : runsOf u (runBodyP P (.work u) b t w).2.1.log = [t] := by rw [runsOf_body, h1]; rfl
        rw [hrun]
        refine ⟨?_, ?_, ?_, fun _ => by simp⟩
        · intro b' he; exact .inr ⟨t, rfl, rfl⟩
        · intro b' he; exact ⟨by simp, by simp⟩
        · intro _ b' he; exact ⟨by simp, by simp⟩
      · simp only [Work.tickP, Option.some.injEq, Prod.mk.injEq] at ht
        obtain ⟨rfl, rfl, rfl⟩ := ht
        have hne : runsOf u w.log ≠ [] := by rw [h1]; simp
        exact ⟨fun b' he => .inr ⟨x, h1, rfl⟩, hG, fun _ b' he => ⟨(hG b' he).1, fun _ => hne⟩, fun _ => hne⟩
    · have no : ∀ b, work ≠ Work.newImmediate b := fun b h => hw ⟨b, h⟩
      exact ⟨fun b h => absurd h (no b), fun b h => absurd h (no b), fun _ b h => absurd h (no b),
        fun ⟨b, h⟩ => absurd h (no b)⟩

end Rx.Sched
