import Verif.Lemmas.SchedulerOrder

/-!
# Cancellation, invoked work
-/

namespace Rx.Sched

open Spec

variable {env : Env}

theorem ctrack_snoc {B : Type} (u : Nat) (log : List (Ev B)) (e : Ev B) :
    ctrack u (log ++ [e]) = (ctrack u log).step u e := by
  simp [ctrack]

theorem ictrack_snoc {B : Type} (u : Nat) (log : List (Ev B)) (e : Ev B) :
    ictrack u (log ++ [e]) = (ictrack u log).step u e := by
  simp [ictrack]

theorem itrack_snoc {B : Type} (u : Nat) (log : List (Ev B)) (e : Ev B) :
    itrack u (log ++ [e]) = (itrack u log).step u e := by
  simp [itrack]

/-! ## Cancellation of scheduled work -/

/-- What the queue and the tables know about the cancellation of `u`. `gen` is the executor's
`nextWorkId`, `act` says whether `u` is active. -/
structure CWorld (u gen : Nat) (act : Prop) (w : World env) : Prop where
  uids : Uids gen w.sched
  unborn : w.sched.nextUid ≤ u → ctrack u w.log = {}
  born : u < w.sched.nextUid → ∃ c, (ctrack u w.log).cid = some c
  inQueue : ∀ c wk, Action.activate c u wk ∈ w.sched.queue → (ctrack u w.log).cid = some c
  effective : ∀ c, (ctrack u w.log).cid = some c → (ctrack u w.log).cancelled = true →
    (u < gen ∧ (act → .cancel c ∈ w.sched.queue)) ∨
    (gen ≤ u ∧ ∃ wk pre post, w.sched.queue = pre ++ .activate c u wk :: post ∧ .cancel c ∈ post)
  drained : (ctrack u w.log).drained = true → (ctrack u w.log).cancelled = true
  late : (ctrack u w.log).late = []

theorem Uids.mem {gen u : Nat} {s : Scheduler env.B} (h : Uids gen s) (h1 : gen ≤ u)
    (h2 : u < s.nextUid) : ∃ c wk, Action.activate c u wk ∈ s.queue := by
  have : u ∈ s.queue.filterMap Action.uid? := by
    rw [h.uids, List.mem_range'_1]; omega
  obtain ⟨a, ha, hu⟩ := List.mem_filterMap.1 this
  cases a with
  | activate c v wk => simp only [Action.uid?, Option.some.injEq] at hu; subst hu; exact ⟨c, wk, ha⟩
  | _ => simp [Action.uid?] at hu

theorem CWorld.call {u gen : Nat} {act : Prop} {w : World env} (h : CWorld u gen act w)
    (c : Call env.B) : CWorld u gen act (w.call c) := by
  obtain ⟨h1, h2, h2', h3, h4, h5, h6⟩ := h
  have hU := h1.call c
  cases c with
  | scheduleWork work cid =>
    by_cases hu : w.sched.nextUid = u
    · have ht : ctrack u (w.call (.scheduleWork work cid)).log = { cid := some cid } := by
        simp only [World.call]; rw [ctrack_snoc]; simp [CTrack.step, hu]
      refine ⟨hU, ?_, ?_, ?_, ?_, ?_, ?_⟩ <;> rw [ht]
      · intro hle; simp only [World.call] at hle; omega
      · intro _; exact ⟨cid, rfl⟩
      · intro c wk hm
        simp only [World.call, List.mem_append, List.mem_singleton] at hm
        rcases hm with hm | hm
        · have := h3 c wk hm
          rw [h2 (by omega)] at this
          cases this
        · cases hm; rfl
      · intro c _ hc; cases hc
      · intro hc; cases hc
    · have ht : ctrack u (w.call (.scheduleWork work cid)).log = ctrack u w.log := by
        simp only [World.call]; rw [ctrack_snoc]; simp [CTrack.step, hu]
      refine ⟨hU, ?_, ?_, ?_, ?_, ?_, ?_⟩ <;> rw [ht]
      · intro hle; simp only [World.call] at hle; exact h2 (by omega)
      · intro hlt; simp only [World.call] at hlt; exact h2' (by omega)
      · intro c wk hm
        simp only [World.call, List.mem_append, List.mem_singleton] at hm
        rcases hm with hm | hm
        · exact h3 c wk hm
        · cases hm; exact absurd rfl hu
      · intro c hcid hcan
        simp only [World.call]
        rcases h4 c hcid hcan with ⟨h, h'⟩ | ⟨h, wk, pre, post, h7, h8⟩
        · exact .inl ⟨h, fun ha => List.mem_append_left _ (h' ha)⟩
        · exact .inr ⟨h, wk, pre, post ++ [.activate cid w.sched.nextUid
            (work.onScheduled w.sched.currentTick)], by rw [h7]; simp, List.mem_append_left _ h8⟩
      · exact h5
      · exact h6
  | cancel cid =>
    have ht : ctrack u (w.call (.cancel cid)).log = if (ctrack u w.log).cid = some cid
        then { ctrack u w.log with cancelled := true } else ctrack u w.log := by
      simp only [World.call]; rw [ctrack_snoc]; rfl
    have hcid : (ctrack u (w.call (.cancel cid)).log).cid = (ctrack u w.log).cid := by
      rw [ht]; split <;> rfl
    have hlate : (ctrack u (w.call (.cancel cid)).log).late = (ctrack u w.log).late := by
      rw [ht]; split <;> rfl
    refine ⟨hU, ?_, ?_, ?_, ?_, ?_, ?_⟩
    · intro hle
      rw [ht, h2 hle]; rfl
    · intro hlt; rw [hcid]; exact h2' hlt
    · intro c wk hm
      rw [hcid]
      simp only [World.call, List.mem_append, List.mem_singleton] at hm
      rcases hm with hm | hm
      · exact h3 c wk hm
      · cases hm
    · intro c hc hcan
      rw [hcid] at hc
      simp only [World.call]
      by_cases hcc : c = cid
      · subst hcc
        by_cases hg : u < gen
        · exact .inl ⟨hg, fun _ => by simp⟩
        · have hlt : u < w.sched.nextUid := by
            rcases Nat.lt_or_ge u w.sched.nextUid with h | h
            · exact h
            · rw [h2 h] at hc; cases hc
          obtain ⟨c', wk, hm⟩ := h1.mem (Nat.le_of_not_lt hg) hlt
          have := h3 c' wk hm
          rw [hc] at this; cases this
          obtain ⟨pre, post, hq⟩ := List.append_of_mem hm
          exact .inr ⟨Nat.le_of_not_lt hg, wk, pre, post ++ [.cancel c], by rw [hq]; simp, by simp⟩
      · rw [ht, if_neg (by rw [hc]; intro h; cases h; exact hcc rfl)] at hcan
        rcases h4 c hc hcan with ⟨h, h'⟩ | ⟨h, wk, pre, post, h7, h8⟩
        · exact .inl ⟨h, fun ha => List.mem_append_left _ (h' ha)⟩
        · exact .inr ⟨h, wk, pre, post ++ [.cancel cid], by rw [h7]; simp,
            List.mem_append_left _ h8⟩
    · intro hd
      rw [ht] at hd ⊢
      split
      · rfl
      · rename_i hne
        rw [if_neg hne] at hd
        exact h5 hd
    · rw [hlate]; exact h6
  | scheduleInvokedWork work iid =>
    have ht : ctrack u (w.call (.scheduleInvokedWork work iid)).log = ctrack u w.log := by
      simp only [World.call]; rw [ctrack_snoc]; rfl
    refine ⟨hU, by rw [ht]; exact h2, by rw [ht]; exact h2', ?_, ?_, by rw [ht]; exact h5,
      by rw [ht]; exact h6⟩ <;> rw [ht]
    · intro c wk hm
      simp only [World.call, List.mem_append, List.mem_singleton] at hm
      rcases hm with hm | hm
      · exact h3 c wk hm
      · cases hm
    · intro c hcid hcan
      simp only [World.call]
      rcases h4 c hcid hcan with ⟨h, h'⟩ | ⟨h, wk, pre, post, h7, h8⟩
      · exact .inl ⟨h, fun ha => List.mem_append_left _ (h' ha)⟩
      · exact .inr ⟨h, wk, pre, post ++ [_], by rw [h7]; simp; rfl, List.mem_append_left _ h8⟩
  | invoke iid =>
    have ht : ctrack u (w.call (.invoke iid)).log = ctrack u w.log := by
      simp only [World.call]; rw [ctrack_snoc]; rfl
    refine ⟨hU, by rw [ht]; exact h2, by rw [ht]; exact h2', ?_, ?_, by rw [ht]; exact h5,
      by rw [ht]; exact h6⟩ <;> rw [ht]
    · intro c wk hm
      simp only [World.call, List.mem_append, List.mem_singleton] at hm
      rcases hm with hm | hm
      · exact h3 c wk hm
      · cases hm
    · intro c hcid hcan
      simp only [World.call]
      rcases h4 c hcid hcan with ⟨h, h'⟩ | ⟨h, wk, pre, post, h7, h8⟩
      · exact .inl ⟨h, fun ha => List.mem_append_left _ (h' ha)⟩
      · exact .inr ⟨h, wk, pre, post ++ [_], by rw [h7]; simp; rfl, List.mem_append_left _ h8⟩
  | cancelInvoked iid =>
    have ht : ctrack u (w.call (.cancelInvoked iid)).log = ctrack u w.log := by
      simp only [World.call]; rw [ctrack_snoc]; rfl
    refine ⟨hU, by rw [ht]; exact h2, by rw [ht]; exact h2', ?_, ?_, by rw [ht]; exact h5,
      by rw [ht]; exact h6⟩ <;> rw [ht]
    · intro c wk hm
      simp only [World.call, List.mem_append, List.mem_singleton] at hm
      rcases hm with hm | hm
      · exact h3 c wk hm
      · cases hm
    · intro c hcid hcan
      simp only [World.call]
      rcases h4 c hcid hcan with ⟨h, h'⟩ | ⟨h, wk, pre, post, h7, h8⟩
      · exact .inl ⟨h, fun ha => List.mem_append_left _ (h' ha)⟩
      · exact .inr ⟨h, wk, pre, post ++ [_], by rw [h7]; simp; rfl, List.mem_append_left _ h8⟩
  | generateCancellationId =>
    have ht : ctrack u (w.call .generateCancellationId).log = ctrack u w.log := by
      simp only [World.call]; rw [ctrack_snoc]; rfl
    exact ⟨hU, by rw [ht]; exact h2, by rw [ht]; exact h2', by rw [ht]; exact h3,
      by rw [ht]; exact h4, by rw [ht]; exact h5, by rw [ht]; exact h6⟩
  | generateInvokeId =>
    have ht : ctrack u (w.call .generateInvokeId).log = ctrack u w.log := by
      simp only [World.call]; rw [ctrack_snoc]; rfl
    exact ⟨hU, by rw [ht]; exact h2, by rw [ht]; exact h2', by rw [ht]; exact h3,
      by rw [ht]; exact h4, by rw [ht]; exact h5, by rw [ht]; exact h6⟩

theorem CWorld.keep {u gen : Nat} {act : Prop} {w : World env} (h : CWorld u gen act w) (e : Ev env.B)
    (he : ctrack u (w.log ++ [e]) = ctrack u w.log) : CWorld u gen act (w.emit e) := by
  obtain ⟨h1, h2, h2', h3, h4, h5, h6⟩ := h
  refine ⟨h1, ?_, ?_, ?_, ?_, ?_, ?_⟩ <;> simp only [World.emit] <;> rw [he] <;> assumption

/-- Either `u` is not the one running, or its cancellation was not noticed yet. -/
theorem CWorld.step {u gen : Nat} {act : Prop} {a b : World env} {src : Src} {t : Nat}
    (hs : WStep src t a b) (h : CWorld u gen act a)
    (hd : src = .work u → (ctrack u a.log).drained = false) :
    CWorld u gen act b ∧ (ctrack u b.log).drained = (ctrack u a.log).drained := by
  cases hs with
  | run =>
    have ht : ctrack u (a.log ++ [.run src t]) = ctrack u a.log := by
      rw [ctrack_snoc]; simp only [CTrack.step]
      rw [if_neg]
      rintro ⟨h1, h2⟩
      rw [hd h1] at h2; cases h2
    exact ⟨h.keep _ ht, by simp only [World.emit]; rw [ht]⟩
  | ctx => exact ⟨⟨h.1, h.2, h.3, h.4, h.5, h.6, h.7⟩, rfl⟩
  | call c =>
    refine ⟨h.call c, ?_⟩
    cases c with
    | scheduleWork work cid =>
      simp only [World.call]; rw [ctrack_snoc]; simp only [CTrack.step]
      split
      · rename_i hu
        have := h.unborn (by omega)
        rw [this]
      · rfl
    | cancel cid =>
      simp only [World.call]; rw [ctrack_snoc]; simp only [CTrack.step]
      split <;> rfl
    | _ => simp only [World.call]; rw [ctrack_snoc]; rfl

theorem CWorld.steps {u gen : Nat} {act : Prop} {a b : World env} {src : Src} {t : Nat}
    (hs : Steps src t a b) (h : CWorld u gen act a)
    (hd : src = .work u → (ctrack u a.log).drained = false) :
    CWorld u gen act b ∧ (ctrack u b.log).drained = (ctrack u a.log).drained := by
  refine hs.inv (P := fun b => CWorld u gen act b ∧
    (ctrack u b.log).drained = (ctrack u a.log).drained) ?_ ⟨h, rfl⟩
  rintro x y hxy ⟨h1, h2⟩
  obtain ⟨h3, h4⟩ := CWorld.step hxy h1 (fun hh => by rw [h2]; exact hd hh)
  exact ⟨h3, h4.trans h2⟩

theorem CWorld.weaken {u gen : Nat} {act act' : Prop} {w : World env} (h : CWorld u gen act w)
    (ha : act' → act) : CWorld u gen act' w := by
  obtain ⟨h1, h2, h2', h3, h4, h5, h6⟩ := h
  refine ⟨h1, h2, h2', h3, ?_, h5, h6⟩
  intro c hc hcan
  rcases h4 c hc hcan with ⟨h, h'⟩ | h
  · exact .inl ⟨h, fun x => h' (ha x)⟩
  · exact .inr h

theorem tickPass_cancel {u gen : Nat} {act : Prop} {already : Nat → Bool} {t : Nat} :
    ∀ (l : List (Nat × Work env.B)) (w : World env) (r), tickPass already t l w = some r →
    CWorld u gen act w → ((ctrack u w.log).drained = true → ∀ p ∈ l, p.1 ≠ u) →
    CWorld u gen act r.2 ∧ (ctrack u r.2.log).drained = (ctrack u w.log).drained := by
  intro l
  induction l with
  | nil => intro w r h hw _; simp only [tickPass] at h; cases h; exact ⟨hw, rfl⟩
  | cons p l ih =>
    obtain ⟨id, wk⟩ := p
    intro w r h hw hd
    simp only [tickPass] at h
    split at h
    · split at h
      · rename_i out w1 heq
        cases h
        have := ih _ _ heq hw (fun x p hp => hd x p (List.mem_cons_of_mem _ hp))
        exact this
      · cases h
    · split at h
      · cases h
      · rename_i wk' w1 res hk
        split at h
        · rename_i out w2 heq
          cases h
          have hd0 : (Src.work id = .work u) → (ctrack u w.log).drained = false := by
            intro he; cases he
            cases hdr : (ctrack u w.log).drained with
            | false => rfl
            | true => exact absurd rfl (hd hdr _ List.mem_cons_self)
          have ht0 : ctrack u (w.log ++ [.ticked id t]) = ctrack u w.log := by
            rw [ctrack_snoc]; rfl
          obtain ⟨k1, k2⟩ := CWorld.steps (Steps.tick hk) (hw.keep (.ticked id t) ht0)
            (by intro he; simp only [World.emit]; rw [ht0]; exact hd0 he)
          simp only [World.emit] at k2
          rw [ht0] at k2
          simp only at k1 k2
          have k3 : CWorld u gen act (if res = .done then w1.emit (.done (.work id)) else w1) ∧
              (ctrack u (if res = .done then w1.emit (.done (.work id)) else w1).log).drained =
                (ctrack u w.log).drained := by
            split
            · have hte : ctrack u (w1.log ++ [.done (.work id)]) = ctrack u w1.log := by
                rw [ctrack_snoc]; rfl
              exact ⟨k1.keep _ hte, by simp only [World.emit]; rw [hte]; exact k2⟩
            · exact ⟨k1, k2⟩
          have := ih _ _ heq k3.1 (fun x p hp => by
            rw [k3.2] at x; exact hd x p (List.mem_cons_of_mem _ hp))
          exact ⟨this.1, this.2.trans k3.2⟩
        · cases h

/-- The invariant of cancellation, while the queue is processed. -/
structure CQ (u : Nat) (e : Exec env) : Prop where
  tables : Tables e
  sound : ∀ c, u ∈ e.cancellationMap c → u < e.nextWorkId
  complete : ∀ c, (ctrack u e.world.log).cid = some c → (∃ p ∈ e.active, p.1 = u) →
    u ∈ e.cancellationMap c
  world : CWorld u e.nextWorkId (∃ p ∈ e.active, p.1 = u) e.world

theorem CQ.process {u : Nat} {e : Exec env} {a : Action env.B} {rest : List (Action env.B)}
    (h : CQ u (e.withQueue (a :: rest))) : CQ u ((e.processAction a).withQueue rest) := by
  obtain ⟨⟨hs, hb, hal⟩, hso, hco, ⟨h1, h2, h2', h3, h4, h5, h6⟩⟩ := h
  simp only [Exec.withQueue] at *
  have hskip : a.uid? = none → Uids e.nextWorkId { e.world.sched with queue := rest } := by
    intro ha
    have := h1.uids
    simp only [List.filterMap_cons, ha] at this
    exact ⟨h1.le, this⟩
  cases a with
  | activate c v wk =>
    obtain ⟨hv, hlt, hU⟩ := h1.head rfl
    subst hv
    have hfresh : ∀ p ∈ e.active, p.1 ≠ e.nextWorkId := fun p hp => by have := hb p hp; omega
    have hact : (∃ p ∈ e.active ++ [(e.nextWorkId, wk)], p.1 = u) →
        (∃ p ∈ e.active, p.1 = u) ∨ u = e.nextWorkId := by
      rintro ⟨p, hp, hpu⟩
      rcases List.mem_append.1 hp with hp | hp
      · exact .inl ⟨p, hp, hpu⟩
      · simp only [List.mem_singleton] at hp; subst hp; exact .inr hpu.symm
    simp only [Exec.processAction, imInsert_fresh hfresh]
    refine ⟨⟨?_, ?_, ?_⟩, ?_, ?_, ⟨hU, h2, h2', ?_, ?_, h5, h6⟩⟩
    · rw [List.pairwise_append]
      refine ⟨hs, by simp, ?_⟩
      intro p hp q hq
      simp only [List.mem_singleton] at hq
      subst hq; exact hb p hp
    · intro p hp
      rcases List.mem_append.1 hp with hp | hp
      · have := hb p hp; simp only; omega
      · simp only [List.mem_singleton] at hp; subst hp; simp
    · intro id hid
      have := hal id hid; simp only; omega
    · intro c' hm
      simp only [fset] at hm
      split at hm
      · rcases List.mem_append.1 hm with hm | hm
        · have := hso _ hm; simp only; omega
        · simp only [List.mem_singleton] at hm; simp only; omega
      · have := hso _ hm; simp only; omega
    · intro c' hc' ha
      simp only at hc' ha ⊢
      simp only [fset]
      rcases hact ha with ha | ha
      · have := hco c' hc' ha
        split
        · rename_i hcc; subst hcc; exact List.mem_append_left _ this
        · exact this
      · subst ha
        have := h3 c wk (by simp)
        rw [hc'] at this; cases this
        rw [if_pos rfl]; simp
    · intro c' wk' hm
      exact h3 c' wk' (List.mem_cons_of_mem _ hm)
    · intro c' hc' hcan
      rcases h4 c' hc' hcan with ⟨h, h'⟩ | ⟨h, wk', pre, post, h7, h8⟩
      · refine .inl ⟨Nat.lt_succ_of_lt h, fun ha => ?_⟩
        rcases hact ha with ha | ha
        · have := h' ha
          simpa using this
        · omega
      · cases pre with
        | nil =>
          simp only [List.nil_append, List.cons.injEq, Action.activate.injEq] at h7
          obtain ⟨⟨rfl, hu, -⟩, rfl⟩ := h7
          exact .inl ⟨by rw [← hu]; exact Nat.lt_succ_self _, fun _ => h8⟩
        | cons x pre =>
          simp only [List.cons_append, List.cons.injEq] at h7
          have h7 := h7.2
          right
          refine ⟨?_, wk', pre, post, h7, h8⟩
          have hmem : u ∈ rest.filterMap Action.uid? :=
            List.mem_filterMap.2 ⟨.activate c' u wk', by rw [h7]; simp, rfl⟩
          have := hU.uids
          simp only at this
          rw [this, List.mem_range'_1] at hmem
          exact hmem.1
  | cancel c =>
    have hsub := imRemoves_sublist (e.cancellationMap c) e.active
    have hact : (∃ p ∈ (e.cancellationMap c).foldl imRemove e.active, p.1 = u) →
        (∃ p ∈ e.active, p.1 = u) ∧ u ∉ e.cancellationMap c := by
      rintro ⟨p, hp, hpu⟩
      refine ⟨⟨p, hsub.mem hp, hpu⟩, ?_⟩
      intro hin
      have := imFind_removes u (e.cancellationMap c) e.active
      rw [if_pos hin] at this
      obtain ⟨y, hy⟩ := imFind_some_of_mem (u := u) (x := p.2) (by rw [← hpu]; exact hp)
      rw [this] at hy; cases hy
    simp only [Exec.processAction]
    refine ⟨⟨hs.sublist hsub, fun p hp => hb p (hsub.mem hp), hal⟩, ?_, ?_,
      ⟨hskip rfl, h2, h2', fun c' wk' hm => h3 c' wk' (List.mem_cons_of_mem _ hm), ?_, h5, h6⟩⟩
    · intro c' hm
      simp only [fset] at hm
      split at hm
      · cases hm
      · exact hso _ hm
    · intro c' hc' ha
      obtain ⟨ha1, ha2⟩ := hact ha
      have := hco c' hc' ha1
      simp only [fset]
      split
      · rename_i hcc; subst hcc; exact absurd this ha2
      · exact this
    · intro c' hc' hcan
      rcases h4 c' hc' hcan with ⟨h, h'⟩ | ⟨h, wk', pre, post, h7, h8⟩
      · refine .inl ⟨h, fun ha => ?_⟩
        obtain ⟨ha1, ha2⟩ := hact ha
        have := h' ha1
        simp only [List.mem_cons, Action.cancel.injEq] at this
        rcases this with hcc | this
        · subst hcc; exact absurd (hco c' hc' ha1) ha2
        · exact this
      · cases pre with
        | nil => simp at h7
        | cons x pre =>
          simp only [List.cons_append, List.cons.injEq] at h7
          exact .inr ⟨h, wk', pre, post, h7.2, h8⟩
  | addInvoked i wk =>
    refine ⟨⟨hs, hb, hal⟩, hso, hco, ⟨hskip rfl, h2, h2',
      fun c' wk' hm => h3 c' wk' (List.mem_cons_of_mem _ hm), ?_, h5, h6⟩⟩
    intro c' hc' hcan
    rcases h4 c' hc' hcan with ⟨h, h'⟩ | ⟨h, wk', pre, post, h7, h8⟩
    · exact .inl ⟨h, fun ha => by simpa using h' ha⟩
    · cases pre with
      | nil => simp at h7
      | cons x pre =>
        simp only [List.cons_append, List.cons.injEq] at h7
        exact .inr ⟨h, wk', pre, post, h7.2, h8⟩
  | invoke i =>
    refine ⟨⟨hs, hb, hal⟩, hso, hco, ⟨hskip rfl, h2, h2',
      fun c' wk' hm => h3 c' wk' (List.mem_cons_of_mem _ hm), ?_, h5, h6⟩⟩
    intro c' hc' hcan
    rcases h4 c' hc' hcan with ⟨h, h'⟩ | ⟨h, wk', pre, post, h7, h8⟩
    · exact .inl ⟨h, fun ha => by simpa using h' ha⟩
    · cases pre with
      | nil => simp at h7
      | cons x pre =>
        simp only [List.cons_append, List.cons.injEq] at h7
        exact .inr ⟨h, wk', pre, post, h7.2, h8⟩
  | cancelInvoked i =>
    refine ⟨⟨hs, hb, hal⟩, hso, hco, ⟨hskip rfl, h2, h2',
      fun c' wk' hm => h3 c' wk' (List.mem_cons_of_mem _ hm), ?_, h5, h6⟩⟩
    intro c' hc' hcan
    rcases h4 c' hc' hcan with ⟨h, h'⟩ | ⟨h, wk', pre, post, h7, h8⟩
    · exact .inl ⟨h, fun ha => by simpa using h' ha⟩
    · cases pre with
      | nil => simp at h7
      | cons x pre =>
        simp only [List.cons_append, List.cons.injEq] at h7
        exact .inr ⟨h, wk', pre, post, h7.2, h8⟩

theorem CQ.processAll {u : Nat} (q : List (Action env.B)) {e : Exec env}
    (h : CQ u (e.withQueue q)) : CQ u ((q.foldl Exec.processAction e).withQueue []) := by
  induction q generalizing e with
  | nil => exact h
  | cons a q ih => exact ih h.process

/-- The invariant of cancellation at the boundaries of passes. -/
structure CP (u : Nat) (e : Exec env) : Prop where
  q : CQ u e
  gone : (ctrack u e.world.log).drained = true → u < e.nextWorkId ∧ ∀ p ∈ e.active, p.1 ≠ u

theorem CP.drain {u : Nat} {e : Exec env} (h : CP u e) (t : Nat) : CP u (e.drain t).1 := by
  have hw : (e.drain t).1.world = { e.world with
      sched := { e.world.sched with
        currentTick := updateTick e.world.sched.currentTick t, queue := [] }
      log := e.world.log ++ [.drained] } := by
    simp only [Exec.drain, processAll_world]
  have key : CQ u ((e.drain t).1.withQueue []) := by
    unfold Exec.drain
    refine CQ.processAll _ ?_
    obtain ⟨⟨⟨hs, hb, hal⟩, hso, hco, ⟨h1, h2, h2', h3, h4, h5, h6⟩⟩, hg⟩ := h
    have hcid : (ctrack u (e.world.log ++ [.drained])).cid = (ctrack u e.world.log).cid := by
      rw [ctrack_snoc]; simp only [CTrack.step]; split <;> rfl
    have hcan : (ctrack u (e.world.log ++ [.drained])).cancelled =
        (ctrack u e.world.log).cancelled := by
      rw [ctrack_snoc]; simp only [CTrack.step]; split <;> rfl
    have hlate : (ctrack u (e.world.log ++ [.drained])).late = (ctrack u e.world.log).late := by
      rw [ctrack_snoc]; simp only [CTrack.step]; split <;> rfl
    refine ⟨⟨hs, hb, hal⟩, hso, ?_, ⟨⟨h1.le, h1.uids⟩, ?_, ?_, ?_, ?_, ?_, ?_⟩⟩
    · simp only [Exec.withQueue]; rw [hcid]; exact hco
    · intro hle
      simp only [Exec.withQueue] at hle ⊢
      rw [ctrack_snoc, h2 hle]; rfl
    · simp only [Exec.withQueue]; rw [hcid]; exact h2'
    · simp only [Exec.withQueue]; rw [hcid]; exact h3
    · simp only [Exec.withQueue]; rw [hcid, hcan]; exact h4
    · simp only [Exec.withQueue]; rw [hcan]
      intro hd
      rw [ctrack_snoc] at hd
      simp only [CTrack.step] at hd
      split at hd
      · rename_i hc; exact hc
      · exact h5 hd
    · simp only [Exec.withQueue]; rw [hlate]; exact h6
  have hself : (e.drain t).1.withQueue [] = (e.drain t).1 := by
    have := Exec.withQueue_self (e.drain t).1
    rw [hw] at this; exact this
  rw [hself] at key
  refine ⟨key, ?_⟩
  intro hd
  have hcan := key.world.drained hd
  obtain ⟨c, hc⟩ : ∃ c, (ctrack u (e.drain t).1.world.log).cid = some c := by
    rcases Nat.lt_or_ge u (e.drain t).1.world.sched.nextUid with h | h
    · exact key.world.born h
    · rw [key.world.unborn h] at hd; cases hd
  have hq : (e.drain t).1.world.sched.queue = [] := by rw [hw]
  rcases key.world.effective c hc hcan with ⟨h1, h2⟩ | ⟨_, wk, pre, post, h3, _⟩
  · refine ⟨h1, fun p hp hpu => ?_⟩
    have := h2 ⟨p, hp, hpu⟩
    rw [hq] at this; cases this
  · rw [hq] at h3; simp at h3

theorem CP.mono {u : Nat} {e e' : Exec env} (h : CP u e) (ht : Tables e')
    (hn : e'.nextWorkId = e.nextWorkId) (hm : e'.cancellationMap = e.cancellationMap)
    (ha : ∀ p ∈ e'.active, ∃ q ∈ e.active, q.1 = p.1)
    (hc : ∀ c, (ctrack u e'.world.log).cid = some c → (∃ p ∈ e.active, p.1 = u) →
      (ctrack u e.world.log).cid = some c)
    (hw : CWorld u e.nextWorkId (∃ p ∈ e.active, p.1 = u) e'.world)
    (hd : (ctrack u e'.world.log).drained = (ctrack u e.world.log).drained) : CP u e' := by
  obtain ⟨⟨_, hso, hco, _⟩, hg⟩ := h
  have ha' : (∃ p ∈ e'.active, p.1 = u) → ∃ p ∈ e.active, p.1 = u := by
    rintro ⟨p, hp, hpu⟩
    obtain ⟨q, hq, hqe⟩ := ha p hp
    exact ⟨q, hq, hqe.trans hpu⟩
  refine ⟨⟨ht, by rw [hm, hn]; exact hso, ?_, by rw [hn]; exact hw.weaken ha'⟩, ?_⟩
  · intro c hcc hact
    rw [hm]; exact hco c (hc c hcc (ha' hact)) (ha' hact)
  · rw [hd, hn]
    intro hdr
    refine ⟨(hg hdr).1, fun p hp hpu => ?_⟩
    obtain ⟨q, hq, hqe⟩ := ha p hp
    exact (hg hdr).2 q hq (hqe.trans hpu)

theorem ctrack_cid_steps {u c : Nat} {src : Src} {t : Nat} {a b : World env} (h : Steps src t a b) :
    (u < a.sched.nextUid ∧ (ctrack u a.log).cid = some c) →
    (u < b.sched.nextUid ∧ (ctrack u b.log).cid = some c) := by
  refine h.inv (P := fun w => u < w.sched.nextUid ∧ (ctrack u w.log).cid = some c) ?_
  rintro x y hxy ⟨h1, h2⟩
  cases hxy with
  | run =>
    refine ⟨h1, ?_⟩
    simp only [World.emit]; rw [ctrack_snoc]; simp only [CTrack.step]; split <;> exact h2
  | ctx => exact ⟨h1, h2⟩
  | call c =>
    cases c with
    | scheduleWork work cid =>
      refine ⟨by simp only [World.call]; omega, ?_⟩
      simp only [World.call]; rw [ctrack_snoc]; simp only [CTrack.step]
      rw [if_neg (by omega)]; exact h2
    | cancel cid =>
      refine ⟨h1, ?_⟩
      simp only [World.call]; rw [ctrack_snoc]; simp only [CTrack.step]; split <;> exact h2
    | _ => refine ⟨h1, ?_⟩; simp only [World.call]; rw [ctrack_snoc]; exact h2

theorem ctrack_cid_pass {u c : Nat} {already : Nat → Bool} {t : Nat} {l : List (Nat × Work env.B)}
    {w : World env} {r} (h : tickPass already t l w = some r)
    (hc : u < w.sched.nextUid ∧ (ctrack u w.log).cid = some c) :
    u < r.2.sched.nextUid ∧ (ctrack u r.2.log).cid = some c :=
  tickPass_inv (P := fun w : World env => u < w.sched.nextUid ∧ (ctrack u w.log).cid = some c)
    (fun src x a b h hp => ctrack_cid_steps (Steps.one h) hp)
    (fun v x w hp => ⟨hp.1, by simp only [World.emit]; rw [ctrack_snoc]; exact hp.2⟩)
    (fun s w hp => ⟨hp.1, by simp only [World.emit]; rw [ctrack_snoc]; exact hp.2⟩) _ _ _ h hc

theorem CP.tickScheduled {u : Nat} {e e' : Exec env} {t : Nat} {q : Bool} (h : CP u e)
    (ht : e.tickScheduled t = some (e', q)) : CP u e' := by
  have hg := h.gone
  obtain ⟨hs, hb, hal⟩ := h.q.tables
  have hU := h.q.world.uids
  have hborn := h.q.world.born
  unfold Exec.tickScheduled at ht
  split at ht
  · cases ht
  · rename_i out w heq
    have hkeys := tickPass_keys _ _ _ heq
    simp only at hkeys
    have hso := pairwise_of_keys hkeys hs
    obtain ⟨k1, k2⟩ := tickPass_cancel _ _ _ heq h.q.world (fun hd => (hg hd).2)
    simp only at k1 k2
    have hmo : ∀ p ∈ out, p.1 < e.nextWorkId := fun p hp => by
      obtain ⟨q, hq, hqe⟩ := mem_of_keys hkeys hp
      rw [← hqe]; exact hb q hq
    have hact : ∀ p ∈ ((out.filter fun p => p.2.2 == some .done).map (·.1)).foldl imRemove
        (out.map fun p => (p.1, p.2.1)), ∃ x ∈ out, x.1 = p.1 := by
      intro p hp
      obtain ⟨x, hx, hxe⟩ := List.mem_map.1 ((imRemoves_sublist _ _).mem hp)
      exact ⟨x, hx, by rw [← hxe]⟩
    cases ht
    refine h.mono ⟨?_, ?_, ?_⟩ rfl rfl ?_ ?_ k1 k2
    · have hmap : (out.map fun p => (p.1, p.2.1)).Pairwise (fun a b => a.1 < b.1) := by
        rw [List.pairwise_map]; exact hso
      exact hmap.sublist (imRemoves_sublist _ _)
    · intro p hp
      obtain ⟨x, hx, hxe⟩ := hact p hp
      rw [← hxe]; exact hmo x hx
    · intro id hid
      simp only [Bool.or_eq_true] at hid
      rcases hid with hid | hid
      · exact hal id hid
      · rw [List.contains_eq_mem, decide_eq_true_eq] at hid
        obtain ⟨q, hq, hqe⟩ := List.mem_map.1 hid
        rw [← hqe]; exact hmo q (List.mem_filter.1 hq).1
    · intro p hp
      obtain ⟨x, hx, hxe⟩ := hact p hp
      obtain ⟨q, hq, hqe⟩ := mem_of_keys hkeys hx
      exact ⟨q, hq, hqe.trans hxe⟩
    · rintro c hc ⟨p, hp, hpu⟩
      have hlt : u < e.world.sched.nextUid := by
        have := hb p hp; have := hU.le; omega
      obtain ⟨c', hc'⟩ := hborn hlt
      have := (ctrack_cid_pass heq ⟨hlt, hc'⟩).2
      simp only at this hc
      rw [hc] at this; cases this
      exact hc'

theorem CP.executeInvoked {u : Nat} {e e' : Exec env} {t : Nat} (h : CP u e)
    (he : e.executeInvoked t = some e') : CP u e' := by
  obtain ⟨hs, hb, hal⟩ := h.q.tables
  have hU := h.q.world.uids
  have hborn := h.q.world.born
  unfold Exec.executeInvoked at he
  split at he
  · cases he
  · rename_i inv w heq
    have key := execInvoked_inv (P := fun w : World env =>
        CWorld u e.nextWorkId (∃ p ∈ e.active, p.1 = u) w ∧
        (ctrack u w.log).drained = (ctrack u e.world.log).drained)
      (fun i x a b h hp => by
        obtain ⟨k1, k2⟩ := CWorld.step h hp.1 (by simp)
        exact ⟨k1, k2.trans hp.2⟩)
      (fun i w hp => by
        have ht : ctrack u (w.log ++ [.done (.invoked i)]) = ctrack u w.log := by
          rw [ctrack_snoc]; rfl
        exact ⟨hp.1.keep _ ht, by simp only [World.emit]; rw [ht]; exact hp.2⟩)
      _ _ _ _ heq ⟨h.q.world, rfl⟩
    have key2 : ∀ c, u < e.world.sched.nextUid ∧ (ctrack u e.world.log).cid = some c →
        u < w.sched.nextUid ∧ (ctrack u w.log).cid = some c := fun c hc =>
      execInvoked_inv (P := fun w : World env =>
          u < w.sched.nextUid ∧ (ctrack u w.log).cid = some c)
        (fun src x a b h hp => ctrack_cid_steps (Steps.one h) hp)
        (fun s w hp => ⟨hp.1, by simp only [World.emit]; rw [ctrack_snoc]; exact hp.2⟩)
        _ _ _ _ heq hc
    simp only at key
    cases he
    refine h.mono ⟨hs, hb, hal⟩ rfl rfl (fun p hp => ⟨p, hp, rfl⟩) ?_ key.1 key.2
    rintro c hc ⟨p, hp, hpu⟩
    have hlt : u < e.world.sched.nextUid := by
      have := hb p hp; have := hU.le; omega
    obtain ⟨c', hc'⟩ := hborn hlt
    have := (key2 c' ⟨hlt, hc'⟩).2
    simp only at hc
    rw [hc] at this; cases this
    exact hc'

theorem CP.pass {u : Nat} {e e' : Exec env} {t : Nat} {q : Bool} (h : CP u e)
    (hp : e.pass t = some (e', q)) : CP u e' := by
  unfold Exec.pass at hp
  simp only at hp
  split at hp
  · cases hp
  · rename_i e1 nw heq
    split at hp
    · cases hp
    · rename_i e2 heq2
      cases hp
      exact ((h.drain t).tickScheduled heq).executeInvoked heq2

/-- The invariant between ticks: `alreadyTicked` is left over from the last tick. -/
def COut (u : Nat) (e : Exec env) : Prop := CP u { e with alreadyTicked := fun _ => false }

theorem CP.out {u : Nat} {e : Exec env} (h : CP u e) : COut u e := by
  obtain ⟨⟨⟨hs, hb, hal⟩, h2, h3, h4⟩, h5⟩ := h
  exact ⟨⟨⟨hs, hb, by simp⟩, h2, h3, h4⟩, h5⟩

theorem CP.emit {u : Nat} {e : Exec env} (h : CP u e) (ev : Ev env.B)
    (he : ctrack u (e.world.log ++ [ev]) = ctrack u e.world.log) :
    CP u { e with world := e.world.emit ev } := by
  refine h.mono ⟨h.q.tables.1, h.q.tables.2, h.q.tables.3⟩ rfl rfl (fun p hp => ⟨p, hp, rfl⟩) ?_
    (h.q.world.keep _ he) ?_
  · intro c hc _
    simp only [World.emit] at hc; rw [he] at hc; exact hc
  · simp only [World.emit]; rw [he]

theorem COut.tickTo {u : Nat} {e e' : Exec env} {t : Nat} (h : COut u e) (ht : e.tickTo t = .ok e') :
    COut u e' := by
  obtain ⟨e1, hl, rfl⟩ := tickTo_ok ht
  have hb : CP u (e.begin t) := by
    have h1 : CP u { { e with alreadyTicked := fun _ => false } with
        world := e.world.emit (.tickStart t) } := h.emit _ (by rw [ctrack_snoc]; rfl)
    obtain ⟨⟨⟨hs, hb, hal⟩, h2, h3, h4⟩, h5⟩ := h1
    exact ⟨⟨⟨hs, hb, hal⟩, h2, h3, h4⟩, h5⟩
  have := loop_inv (P := CP u) (fun e e' b h hp => h.pass hp) _ hb hl
  exact (this.emit _ (by rw [ctrack_snoc]; rfl)).out

theorem COut.call {u : Nat} {e : Exec env} (h : COut u e) (c : Call env.B) :
    COut u { e with world := e.world.call c } := by
  have hw := h.q.world
  obtain ⟨k1, k2⟩ := CWorld.step (.call (src := .invoked 0) (t := 0) e.world c) hw (by simp)
  refine CP.mono h ⟨h.q.tables.1, h.q.tables.2, h.q.tables.3⟩ rfl rfl (fun p hp => ⟨p, hp, rfl⟩)
    ?_ k1 k2
  rintro c' hc ⟨p, hp, hpu⟩
  have hlt : u < e.world.sched.nextUid := by
    have := h.q.tables.bound p hp; have := hw.uids.le; simp only at *; omega
  obtain ⟨c'', hc''⟩ := hw.born hlt
  have := (ctrack_cid_steps (Steps.one (.call (src := .invoked 0) (t := 0) e.world c))
    ⟨hlt, hc''⟩).2
  simp only at hc
  rw [hc] at this; cases this
  exact hc''

theorem COut.init (u : Nat) (ctx : env.Ctx) (n : Nat) : COut u (Exec.new ctx n) := by
  refine ⟨⟨⟨by simp [Exec.new], by simp [Exec.new], by simp [Exec.new]⟩, by simp [Exec.new],
    by simp [Exec.new], ⟨⟨by simp [Exec.new], by simp [Exec.new]⟩, ?_, ?_, ?_, ?_, ?_, ?_⟩⟩, ?_⟩ <;>
    simp [Exec.new, ctrack]

theorem COut.run {u : Nat} {ops : List (Op env.B)} {e e' : Exec env} (h : COut u e)
    (hr : e.run ops = .ok e') : COut u e' :=
  run_inv (P := COut u) (fun _ c h => h.call c) (fun _ _ _ h ht => h.tickTo ht) ops h hr

end Rx.Sched
