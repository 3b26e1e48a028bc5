import Verif.Lemmas.SchedulerInv

/-!
# The invariant through `drain_scheduler_queue`, `tick_scheduled`, `execute_invoked`, `tick_to`
-/

namespace Rx.Sched

open Spec

variable {env : Env}

/-- Lookup in an `IndexMap`. -/
def imFind {α : Type} (u : Nat) (l : List (Nat × α)) : Option α :=
  (l.find? (fun p => p.1 == u)).map (·.2)

theorem imFind_nil {α : Type} (u : Nat) : imFind u ([] : List (Nat × α)) = none := rfl

theorem imFind_cons {α : Type} (u : Nat) (p : Nat × α) (l : List (Nat × α)) :
    imFind u (p :: l) = if p.1 = u then some p.2 else imFind u l := by
  unfold imFind
  rw [List.find?_cons]
  by_cases h : p.1 = u
  · simp [h]
  · have : (p.1 == u) = false := by simp [h]
    simp [h, this]

theorem imFind_append {α : Type} (u : Nat) (l : List (Nat × α)) (p : Nat × α) :
    imFind u (l ++ [p]) = (imFind u l).or (if p.1 = u then some p.2 else none) := by
  induction l with
  | nil => simp [imFind_cons, imFind_nil]
  | cons q l ih =>
    rw [List.cons_append, imFind_cons, imFind_cons, ih]
    by_cases h : q.1 = u <;> simp [h]

theorem imFind_eq_none {α : Type} {u : Nat} {l : List (Nat × α)} (h : ∀ p ∈ l, p.1 ≠ u) :
    imFind u l = none := by
  induction l with
  | nil => rfl
  | cons p l ih =>
    rw [imFind_cons, if_neg (h p (by simp))]
    exact ih fun q hq => h q (List.mem_cons_of_mem _ hq)

theorem imFind_mem {α : Type} {u : Nat} {l : List (Nat × α)} {x : α} (h : imFind u l = some x) :
    (u, x) ∈ l := by
  induction l with
  | nil => simp [imFind_nil] at h
  | cons p l ih =>
    rw [imFind_cons] at h
    split at h
    · rename_i hp; cases h; subst hp; simp
    · exact List.mem_cons_of_mem _ (ih h)

theorem imFind_some_of_mem {α : Type} {u : Nat} {l : List (Nat × α)} {x : α} (h : (u, x) ∈ l) :
    ∃ y, imFind u l = some y := by
  induction l with
  | nil => simp at h
  | cons p l ih =>
    rw [imFind_cons]
    split
    · exact ⟨_, rfl⟩
    · rename_i hp
      rcases List.mem_cons.1 h with h | h
      · subst h; exact absurd rfl hp
      · exact ih h

theorem imFind_remove {α : Type} (u k : Nat) (l : List (Nat × α)) :
    imFind u (imRemove l k) = if u = k then none else imFind u l := by
  induction l with
  | nil => simp [imRemove, imFind_nil]
  | cons p l ih =>
    unfold imRemove at ih ⊢
    rw [List.filter_cons]
    by_cases hk : p.1 = k
    · simp only [hk, beq_self_eq_true, Bool.not_true, Bool.false_eq_true, if_false, ih, imFind_cons]
      by_cases hu : u = k
      · simp [hu]
      · simp [hu, Ne.symm hu]
    · simp only [hk, Bool.not_eq_true', beq_eq_false_iff_ne, ne_eq, not_false_eq_true,
        if_true, imFind_cons, ih]
      by_cases hu : u = k
      · subst hu; simp [hk]
      · simp [hu]

theorem imFind_removes {α : Type} (u : Nat) (ks : List Nat) (l : List (Nat × α)) :
    imFind u (ks.foldl imRemove l) = if u ∈ ks then none else imFind u l := by
  induction ks generalizing l with
  | nil => simp
  | cons k ks ih =>
    rw [List.foldl_cons, ih, imFind_remove]
    by_cases h1 : u ∈ ks <;> by_cases h2 : u = k <;> simp [h1, h2]

theorem imRemoves_sublist {α : Type} (ks : List Nat) (l : List (Nat × α)) :
    (ks.foldl imRemove l).Sublist l := by
  induction ks generalizing l with
  | nil => exact List.Sublist.refl _
  | cons k ks ih => exact (ih _).trans List.filter_sublist

theorem imInsert_fresh {α : Type} {l : List (Nat × α)} {k : Nat} (h : ∀ p ∈ l, p.1 ≠ k) (v : α) :
    imInsert l k v = l ++ [(k, v)] := by
  unfold imInsert
  rw [if_neg]
  simp only [List.any_eq_true, beq_iff_eq, not_exists, not_and]
  exact fun p hp => h p hp

/-- Facts about the executor's own tables, for all works. -/
structure Tables (e : Exec env) : Prop where
  sorted : e.active.Pairwise (fun a b => a.1 < b.1)
  bound : ∀ p ∈ e.active, p.1 < e.nextWorkId
  already : ∀ id, e.alreadyTicked id = true → id < e.nextWorkId

/-- The cancellation map is right about `u`. -/
structure CMap (u : Nat) (e : Exec env) : Prop where
  sound : ∀ c, u ∈ e.cancellationMap c →
    u < e.nextWorkId ∧ ∀ r, (track u e.world.log).seen = some r → r.cid = c
  complete : ∀ r, (track u e.world.log).seen = some r → imFind u e.active ≠ none →
    u ∈ e.cancellationMap r.cid

/-- The executor with another action queue (used to describe the rest of the queue while it is being
processed). -/
def Exec.withQueue (e : Exec env) (q : List (Action env.B)) : Exec env :=
  { e with world := { e.world with sched := { e.world.sched with queue := q } } }

section

variable {u s0 : Nat} {wk0 : Work env.B}
  {J : Bool → List Nat → Work env.B → List Nat → Prop} {G : List Nat → List Nat → Prop}

/-- What the executor holds of `u`. -/
def Exec.act (e : Exec env) (u : Nat) : Option (Bool × Work env.B) :=
  (imFind u e.active).map fun wk => (e.alreadyTicked u, wk)

/-- The invariant in the middle of a tick `t`. -/
structure EMid (laws : WorkLaws u s0 wk0 J G) (t : Nat) (e : Exec env) : Prop where
  tables : Tables e
  cmap : CMap u e
  mid : Mid laws e.nextWorkId t (e.act u) e.world

theorem Uids.head {gen : Nat} {s : Scheduler env.B} (h : Uids gen s) {c v : Nat} {wk : Work env.B}
    {rest : List (Action env.B)} (hq : s.queue = .activate c v wk :: rest) :
    v = gen ∧ gen < s.nextUid ∧ Uids (gen + 1) { s with queue := rest } := by
  have h2 := h.uids
  rw [hq] at h2
  simp only [List.filterMap_cons, Action.uid?] at h2
  have hlt : gen < s.nextUid := by
    rcases Nat.lt_or_ge gen s.nextUid with hlt | hge
    · exact hlt
    · rw [show s.nextUid - gen = 0 by omega] at h2; simp at h2
  rw [show s.nextUid - gen = (s.nextUid - (gen + 1)) + 1 by omega, List.range'_succ] at h2
  simp only [List.cons.injEq] at h2
  exact ⟨h2.1, hlt, ⟨hlt, h2.2⟩⟩

/-- In the queue, `u` is activated at most once, and at the head only if it is the next one. -/
theorem Uids.not_head {s : Scheduler env.B}
    {a : Action env.B} {rest pre post : List (Action env.B)} {c u : Nat} {wk : Work env.B}
    (hq : s.queue = a :: rest) (hp : s.queue = pre ++ .activate c u wk :: post)
    (ha : a.uid? ≠ some u) : ∃ pre', rest = pre' ++ .activate c u wk :: post := by
  cases pre with
  | nil =>
    rw [hq] at hp
    simp only [List.nil_append, List.cons.injEq] at hp
    exact absurd (by rw [hp.1]; rfl) ha
  | cons p pre' =>
    rw [hq] at hp
    simp only [List.cons_append, List.cons.injEq] at hp
    exact ⟨pre', hp.2⟩

theorem Uids.is_head {gen : Nat} {s : Scheduler env.B} (h : Uids gen s)
    {rest pre post : List (Action env.B)} {c c' : Nat} {wk wk' : Work env.B}
    (hq : s.queue = .activate c' gen wk' :: rest)
    (hp : s.queue = pre ++ .activate c gen wk :: post) :
    rest = post ∧ c' = c ∧ wk' = wk := by
  cases pre with
  | nil =>
    rw [hq] at hp
    simp only [List.nil_append, List.cons.injEq, Action.activate.injEq, true_and] at hp
    exact ⟨hp.2, hp.1⟩
  | cons p pre' =>
    exfalso
    rw [hq] at hp
    simp only [List.cons_append, List.cons.injEq] at hp
    have := (h.head hq).2.2.uids
    simp only [hp.2, List.filterMap_append, List.filterMap_cons, Action.uid?] at this
    have hm : gen ∈ List.range' (gen + 1) (s.nextUid - (gen + 1)) := by rw [← this]; simp
    rw [List.mem_range'] at hm
    obtain ⟨i, _, hi⟩ := hm
    omega

theorem EMid.process {laws : WorkLaws u s0 wk0 J G} {t : Nat} {e : Exec env} {a : Action env.B}
    {rest : List (Action env.B)} (h : EMid laws t (e.withQueue (a :: rest))) :
    EMid laws t ((e.processAction a).withQueue rest) := by
  obtain ⟨⟨hs, hb, hal⟩, ⟨hcs, hcc⟩, ⟨hu, hk, hin, hcl, hinv⟩⟩ := h
  simp only [Exec.withQueue, Exec.act] at *
  have hsub : ∀ x, x ∈ rest → x ∈ a :: rest := fun x h => List.mem_cons_of_mem _ h
  have hk' : Known u { e.world with sched := { e.world.sched with queue := rest } } :=
    ⟨hk.fresh, fun hlt => by
      obtain ⟨r, h1, h2⟩ := hk.known hlt
      exact ⟨r, h1, fun cid wk hm => h2 cid wk (hsub _ hm)⟩⟩
  have huids : a.uid? = none →
      Uids e.nextWorkId { e.world.sched with queue := rest } := by
    intro ha
    refine ⟨hu.le, ?_⟩
    have := hu.uids
    simpa [List.filterMap_cons, ha] using this
  -- the queue shrinks, the status stays
  have shrink : ∀ (st : Status env.B), a.uid? ≠ some u →
      UInv u s0 wk0 J G st { e.world with sched := { e.world.sched with queue := a :: rest } } →
      UInv u s0 wk0 J G st { e.world with sched := { e.world.sched with queue := rest } } := by
    intro st ha hst r hr hc hn hw
    have := hst r hr hc hn hw
    cases st with
    | queued tk =>
      obtain ⟨pre, post, h1, h2⟩ := this
      obtain ⟨pre', hp'⟩ := Uids.not_head (s := { e.world.sched with queue := a :: rest }) rfl h1 ha
      exact ⟨pre', post, hp', h2⟩
    | active tk wk => exact ⟨fun hm => this.1 (hsub _ hm), this.2⟩
    | finished => exact this
  cases a with
  | activate c v wk =>
    obtain ⟨hv, hlt, hu'⟩ := hu.head rfl
    subst hv
    have hfresh : ∀ p ∈ e.active, p.1 ≠ e.nextWorkId := fun p hp => by have := hb p hp; omega
    simp only [Exec.processAction, imInsert_fresh hfresh]
    refine ⟨⟨?_, ?_, ?_⟩, ⟨?_, ?_⟩, ⟨hu', hk', ?_, hcl, ?_⟩⟩
    · rw [List.pairwise_append]
      refine ⟨hs, by simp, ?_⟩
      intro p hp q hq
      simp only [List.mem_singleton] at hq
      subst hq; exact hb p hp
    · intro p hp
      rcases List.mem_append.1 hp with hp | hp
      · have := hb p hp; simp only; omega
      · simp only [List.mem_singleton] at hp; subst hp; simp
    · intro id hid
      have := hal id hid; simp only; omega
    · intro c' hc'
      simp only [fset] at hc'
      split at hc'
      · rename_i he
        subst he
        rcases List.mem_append.1 hc' with h | h
        · have := hcs _ h; exact ⟨by simp only; omega, this.2⟩
        · simp only [List.mem_singleton] at h
          subst h
          refine ⟨by simp, fun r hr => ?_⟩
          obtain ⟨r', hr', hq⟩ := hk.known hlt
          rw [hr] at hr'; cases hr'
          exact (hq c' wk (by simp)).1.symm
      · have := hcs _ hc'; exact ⟨by simp only; omega, this.2⟩
    · intro r hr hf
      simp only [fset]
      rw [imFind_append] at hf
      have key : imFind u e.active ≠ none ∨ e.nextWorkId = u := by
        by_cases hn : imFind u e.active = none
        · rw [hn] at hf
          by_cases he : e.nextWorkId = u
          · exact .inr he
          · simp [he] at hf
        · exact .inl hn
      rcases key with h | h
      · have := hcc r hr h
        split
        · rename_i he; rw [he] at this; simp [this]
        · exact this
      · subst h
        obtain ⟨r', hr', hq⟩ := hk.known hlt
        rw [hr] at hr'; cases hr'
        rw [if_pos (hq c wk (by simp)).1.symm]
        simp
    · exact ⟨hin.1, hin.2⟩
    · -- the invariant of `u`
      simp only [Exec.act, imFind_append]
      rcases Nat.lt_trichotomy e.nextWorkId u with hlt' | heq | hgt
      · have h1 : ∀ a, statusOf (env := env) u (e.nextWorkId + 1) false a = .queued false := by
          intro a; unfold statusOf; rw [if_pos (by omega)]
        have h2 : ∀ a, statusOf (env := env) u e.nextWorkId false a = .queued false := by
          intro a; unfold statusOf; rw [if_pos (by omega)]
        rw [h1]; rw [h2] at hinv
        exact shrink _ (by simp [Action.uid?]; omega) hinv
      · subst heq
        have hnone : imFind e.nextWorkId e.active = none := imFind_eq_none hfresh
        have h2 : ∀ a, statusOf (env := env) e.nextWorkId e.nextWorkId false a = .queued false := by
          intro a; unfold statusOf; rw [if_pos (by omega)]
        rw [h2] at hinv
        have half : e.alreadyTicked e.nextWorkId = false := by
          cases h : e.alreadyTicked e.nextWorkId with
          | false => rfl
          | true => have := hal _ h; omega
        simp only [hnone, if_true, Option.none_or, Option.map_some, half]
        have h1 : statusOf (env := env) e.nextWorkId (e.nextWorkId + 1) false (some (false, wk))
            = .active false wk := by
          unfold statusOf; rw [if_neg (by omega)]
        rw [h1]
        intro r hr hc hn hw
        obtain ⟨pre, post, h1, h2, h3, h4, h5⟩ := hinv r hr hc hn hw
        obtain ⟨k1, k2, k3⟩ := hu.is_head rfl h1
        subst k1 k3
        exact ⟨h2, h3, by rw [h4]; exact h5⟩
      · have h1 : ∀ a, statusOf (env := env) u (e.nextWorkId + 1) false a
            = statusOf u e.nextWorkId false a := by
          intro a; unfold statusOf; rw [if_neg (by omega), if_neg (by omega)]
        rw [h1]
        have : (imFind u e.active).or (if e.nextWorkId = u then some wk else none)
            = imFind u e.active := by
          rw [if_neg (by omega)]; simp
        rw [this]
        exact shrink _ (by simp [Action.uid?]; omega) hinv
  | cancel c =>
    simp only [Exec.processAction]
    refine ⟨⟨hs.sublist (imRemoves_sublist _ _), fun p hp => hb p ((imRemoves_sublist _ _).mem hp),
      hal⟩, ⟨?_, ?_⟩, ⟨huids rfl, hk', ⟨hin.1, hin.2⟩, hcl, ?_⟩⟩
    · intro c' hc'
      simp only [fset] at hc'
      split at hc'
      · simp at hc'
      · exact hcs _ hc'
    · intro r hr hf
      rw [imFind_removes] at hf
      split at hf
      · exact absurd rfl hf
      · rename_i hnm
        have := hcc r hr hf
        simp only [fset]
        split
        · rename_i he; rw [he] at this; exact absurd this hnm
        · exact this
    · simp only [Exec.act, imFind_removes]
      by_cases hm : u ∈ e.cancellationMap c
      · -- `u` was under the cancelled id: it must itself have been cancelled
        obtain ⟨hlt, hcid⟩ := hcs c hm
        intro r hr hc hn hw
        have hold := hinv r hr hc hn hw
        have hcr := hcid r hr
        have hst : ∀ a, statusOf (env := env) u e.nextWorkId false a =
            match a with | some (tk, wk) => .active tk wk | none => .finished := by
          intro a; unfold statusOf; rw [if_neg (by omega)]; cases a <;> rfl
        rw [hst] at hold ⊢
        rw [if_pos hm]
        cases hf : imFind u e.active with
        | none => rw [hf] at hold; exact hold
        | some wk =>
          rw [hf] at hold
          exact absurd (by rw [hcr]; simp) hold.1
      · rw [if_neg hm]
        exact shrink _ (by simp [Action.uid?]) hinv
  | addInvoked i wk =>
    exact ⟨⟨hs, hb, hal⟩, ⟨hcs, hcc⟩, ⟨huids rfl, hk', ⟨hin.1, hin.2⟩, hcl,
      shrink _ (by simp [Action.uid?]) hinv⟩⟩
  | invoke i =>
    exact ⟨⟨hs, hb, hal⟩, ⟨hcs, hcc⟩, ⟨huids rfl, hk', ⟨hin.1, hin.2⟩, hcl,
      shrink _ (by simp [Action.uid?]) hinv⟩⟩
  | cancelInvoked i =>
    exact ⟨⟨hs, hb, hal⟩, ⟨hcs, hcc⟩, ⟨huids rfl, hk', ⟨hin.1, hin.2⟩, hcl,
      shrink _ (by simp [Action.uid?]) hinv⟩⟩

theorem EMid.processAll {laws : WorkLaws u s0 wk0 J G} {t : Nat} (q : List (Action env.B))
    {e : Exec env} (h : EMid laws t (e.withQueue q)) :
    EMid laws t ((q.foldl Exec.processAction e).withQueue []) := by
  induction q generalizing e with
  | nil => exact h
  | cons a q ih => exact ih h.process

theorem processAction_world (e : Exec env) (a : Action env.B) :
    (e.processAction a).world = e.world := by cases a <;> rfl

theorem processAll_world (q : List (Action env.B)) (e : Exec env) :
    (q.foldl Exec.processAction e).world = e.world := by
  induction q generalizing e with
  | nil => rfl
  | cons a q ih => rw [List.foldl_cons, ih, processAction_world]

theorem Exec.withQueue_self (e : Exec env) : e.withQueue e.world.sched.queue = e := rfl

/-- Before the first `drain` of a tick the scheduler's clock may be behind. -/
structure Start (laws : WorkLaws u s0 wk0 J G) (t : Nat) (e : Exec env) : Prop where
  tables : Tables e
  cmap : CMap u e
  uids : Uids e.nextWorkId e.world.sched
  known : Known u e.world
  inTick : InTick u t e.world
  inv : UInv u s0 wk0 J G (statusOf u e.nextWorkId false (e.act u)) e.world

theorem EMid.start {laws : WorkLaws u s0 wk0 J G} {t : Nat} {e : Exec env} (h : EMid laws t e) :
    Start laws t e :=
  ⟨h.tables, h.cmap, h.mid.uids, h.mid.known, h.mid.inTick, h.mid.inv⟩

theorem Start.drain {laws : WorkLaws u s0 wk0 J G} {t : Nat} {e : Exec env} (h : Start laws t e) :
    EMid laws t (e.drain t).1 ∧ (e.drain t).1.world.sched.queue = [] := by
  have hq : (e.drain t).1.world.sched.queue = [] := by
    simp only [Exec.drain, processAll_world]
  refine ⟨?_, hq⟩
  have hseen : (track u (e.world.log ++ [.drained])) = track u e.world.log := by
    rw [track_snoc]; rfl
  have key : EMid laws t ((e.drain t).1.withQueue []) := by
    simp only [Exec.drain]
    refine EMid.processAll e.world.sched.queue ?_
    refine ⟨⟨h.tables.1, h.tables.2, h.tables.3⟩, ⟨?_, ?_⟩, ⟨⟨h.uids.1, h.uids.2⟩, ?_, ?_, ?_, ?_⟩⟩
    · intro c hc; simp only [Exec.withQueue, hseen]; exact h.cmap.1 c hc
    · intro r hr; simp only [Exec.withQueue, hseen] at hr ⊢; exact h.cmap.2 r hr
    · exact ⟨by simp only [Exec.withQueue, hseen]; exact h.known.1,
        by simp only [Exec.withQueue, hseen]; exact h.known.2⟩
    · exact ⟨by simp only [Exec.withQueue, hseen]; exact h.inTick.1,
        by simp only [Exec.withQueue, hseen]; exact h.inTick.2⟩
    · simp only [Exec.withQueue, updateTick_eq]; omega
    · have := h.inv
      intro r hr
      simp only [Exec.withQueue, hseen] at hr
      exact this r hr
  rw [show (e.drain t).1 = (e.drain t).1.withQueue [] by
    rw [← hq, Exec.withQueue_self]]
  exact key

/-- Anything preserved by elementary effects and the ghost events of a pass is preserved by it. -/
theorem tickPass_inv {P : World env → Prop} (hP : ∀ src x a b, WStep src x a b → P a → P b)
    (ht : ∀ v x w, P w → P (w.emit (.ticked v x))) (hd : ∀ s w, P w → P (w.emit (.done s)))
    {already : Nat → Bool} {t : Nat} : ∀ (l : List (Nat × Work env.B)) (w : World env) (r),
      tickPass already t l w = some r → P w → P r.2 := by
  intro l
  induction l with
  | nil => intro w r h hw; simp only [tickPass] at h; cases h; exact hw
  | cons p l ih =>
    obtain ⟨id, wk⟩ := p
    intro w r h hw
    simp only [tickPass] at h
    split at h
    · split at h
      · rename_i heq; cases h; have := ih _ _ heq hw; exact this
      · cases h
    · split at h
      · cases h
      · rename_i wk' w1 res hk
        split at h
        · rename_i heq
          cases h
          have h1 : P w1 := (Steps.tick hk).inv (hP _ _) (ht _ _ _ hw)
          have h2 : P (if res = WorkResult.done then w1.emit (Ev.done (Src.work id)) else w1) := by
            split
            · exact hd _ _ h1
            · exact h1
          have := ih _ _ heq h2
          exact this
        · cases h

theorem execInvoked_inv {P : World env → Prop}
    (hP : ∀ i x a b, WStep (.invoked i) x a b → P a → P b)
    (hd : ∀ i w, P w → P (w.emit (.done (.invoked i)))) {t : Nat} :
    ∀ (l : List Nat) (inv) (w : World env) (r),
      execInvoked t l inv w = some r → P w → P r.2 := by
  intro l
  induction l with
  | nil => intro inv w r h hw; simp only [execInvoked] at h; cases h; exact hw
  | cons i l ih =>
    intro inv w r h hw
    simp only [execInvoked] at h
    split at h
    · exact ih _ _ _ h hw
    · split at h
      · cases h
      · rename_i wk' w1 res hk
        have h1 : P w1 := (Steps.tick hk).inv (hP _ _) hw
        split at h
        · exact ih _ _ _ h (hd _ _ h1)
        · exact ih _ _ _ h h1

/-- The cancellation id of a scheduled work never changes. -/
def CidIs (u c : Nat) (w : World env) : Prop :=
  u < w.sched.nextUid ∧ ∃ r, (track u w.log).seen = some r ∧ r.cid = c

theorem CidIs.step {c : Nat} (src : Src) (x : Nat) (a b : World env) (h : WStep src x a b) :
    CidIs u c a → CidIs u c b := by
  rintro ⟨hlt, r, hr, hc⟩
  cases h with
  | run =>
    refine ⟨hlt, ?_⟩
    simp only [World.emit]; rw [track_snoc]; simp only [Track.step]
    split
    · simp only [hr, Option.map_some]; exact ⟨_, rfl, hc⟩
    · exact ⟨r, hr, hc⟩
  | ctx => exact ⟨hlt, r, hr, hc⟩
  | call c' =>
    cases c' with
    | scheduleWork wk cid =>
      refine ⟨by simp only [World.call]; omega, r, ?_, hc⟩
      simp only [World.call]; rw [track_snoc]; simp only [Track.step]
      rw [if_neg (by omega)]; exact hr
    | cancel cid =>
      refine ⟨hlt, ?_⟩
      simp only [World.call]; rw [track_snoc]; simp only [Track.step, hr, Option.map_some]
      refine ⟨_, rfl, ?_⟩
      split <;> exact hc
    | _ =>
      refine ⟨hlt, r, ?_, hc⟩
      simp only [World.call]; rw [track_snoc]; exact hr

theorem CidIs.emit {c : Nat} {w : World env} (h : CidIs u c w) (e : Ev env.B)
    (he : ∀ v cid now wk, e ≠ .scheduled v cid now wk) : CidIs u c (w.emit e) := by
  obtain ⟨hlt, r, hr, hc⟩ := h
  refine ⟨hlt, ?_⟩
  simp only [World.emit]; rw [track_snoc]
  cases e with
  | scheduled v cid now wk => exact absurd rfl (he _ _ _ _)
  | tickStart t => simp only [Track.step, hr, Option.map_some]; exact ⟨_, rfl, hc⟩
  | cancel c =>
    simp only [Track.step, hr, Option.map_some]
    refine ⟨_, rfl, ?_⟩
    split <;> exact hc
  | run src t =>
    simp only [Track.step]
    split
    · simp only [hr, Option.map_some]; exact ⟨_, rfl, hc⟩
    · exact ⟨r, hr, hc⟩
  | done src =>
    simp only [Track.step]
    split
    · simp only [hr, Option.map_some]; exact ⟨_, rfl, hc⟩
    · exact ⟨r, hr, hc⟩
  | _ => exact ⟨r, hr, hc⟩

theorem CMap.mono {e e' : Exec env} (h : CMap u e) (hgen : u < e.nextWorkId → u < e.world.sched.nextUid)
    (hn : e'.nextWorkId = e.nextWorkId) (hkn : Known u e.world)
    (hm : e'.cancellationMap = e.cancellationMap)
    (hb : ∀ p ∈ e.active, p.1 < e.nextWorkId)
    (ha : imFind u e'.active ≠ none → imFind u e.active ≠ none)
    (hc : ∀ c, CidIs u c e.world → CidIs u c e'.world) : CMap u e' := by
  constructor
  · intro c hmem
    rw [hm] at hmem
    obtain ⟨h1, h2⟩ := h.1 c hmem
    refine ⟨by rw [hn]; exact h1, fun r hr => ?_⟩
    obtain ⟨r0, hr0, _⟩ := hkn.known (hgen h1)
    obtain ⟨_, r', hr', hc'⟩ := hc c ⟨hgen h1, r0, hr0, h2 r0 hr0⟩
    rw [hr] at hr'; cases hr'; exact hc'
  · intro r hr hf
    have hf' := ha hf
    have hlt : u < e.nextWorkId := by
      cases hx : imFind u e.active with
      | none => exact absurd hx hf'
      | some x => exact hb _ (imFind_mem hx)
    obtain ⟨r0, hr0, _⟩ := hkn.known (hgen hlt)
    obtain ⟨_, r', hr', hc'⟩ := hc r0.cid ⟨hgen hlt, r0, hr0, rfl⟩
    rw [hr] at hr'; cases hr'
    rw [hm, hc']
    exact h.2 r0 hr0 hf'

/-- The keys do not change in a pass. -/
theorem tickPass_keys {already : Nat → Bool} {t : Nat} : ∀ (l : List (Nat × Work env.B))
    (w : World env) (r), tickPass already t l w = some r → r.1.map (·.1) = l.map (·.1) := by
  intro l
  induction l with
  | nil => intro w r h; simp only [tickPass] at h; cases h; rfl
  | cons p l ih =>
    obtain ⟨id, wk⟩ := p
    intro w r h
    simp only [tickPass] at h
    split at h
    · split at h
      · rename_i heq; cases h; simpa using ih _ _ heq
      · cases h
    · split at h
      · cases h
      · split at h
        · rename_i heq; cases h; simpa using ih _ _ heq
        · cases h

/-- A work was skipped exactly when it had been ticked already. -/
theorem tickPass_results {already : Nat → Bool} {t : Nat} : ∀ (l : List (Nat × Work env.B))
    (w : World env) (r), tickPass already t l w = some r →
    ∀ p ∈ r.1, p.2.2.isSome = !already p.1 := by
  intro l
  induction l with
  | nil => intro w r h; simp only [tickPass] at h; cases h; simp
  | cons p l ih =>
    obtain ⟨id, wk⟩ := p
    intro w r h
    simp only [tickPass] at h
    split at h
    · rename_i hal
      split at h
      · rename_i heq; cases h
        intro q hq
        rcases List.mem_cons.1 hq with rfl | hq
        · simp [hal]
        · exact ih _ _ heq q hq
      · cases h
    · rename_i hal
      split at h
      · cases h
      · split at h
        · rename_i heq; cases h
          intro q hq
          rcases List.mem_cons.1 hq with rfl | hq
          · simp [hal]
          · exact ih _ _ heq q hq
        · cases h

/-- What is left of a work after a pass. -/
def afterPass (tk : Bool) : Work env.B × Option WorkResult → Option (Bool × Work env.B)
  | (wk, none) => some (tk, wk)
  | (wk, some res) => afterTick wk res

theorem tickPass_mid {laws : WorkLaws u s0 wk0 J G} {gen t : Nat} {already : Nat → Bool} :
    ∀ (l : List (Nat × Work env.B)) (w : World env) (r), tickPass already t l w = some r →
    l.Pairwise (fun a b => a.1 < b.1) →
    ((∀ p ∈ l, p.1 ≠ u) → ∀ act, Mid laws gen t act w → Mid laws gen t act r.2) ∧
    (∀ wk, imFind u l = some wk → u < gen → Mid laws gen t (some (already u, wk)) w →
      ∃ x, imFind u r.1 = some x ∧ Mid laws gen t (afterPass (already u) x) r.2) := by
  intro l
  induction l with
  | nil =>
    intro w r h _
    simp only [tickPass] at h; cases h
    exact ⟨fun _ _ h => h, fun wk h => by simp [imFind_nil] at h⟩
  | cons p l ih =>
    obtain ⟨id, wk⟩ := p
    intro w r h hpw
    obtain ⟨hlt, hpw'⟩ := List.pairwise_cons.1 hpw
    simp only [tickPass] at h
    split at h
    · rename_i hal
      split at h
      · rename_i out w1 heq
        cases h
        obtain ⟨ih1, ih2⟩ := ih _ _ heq hpw'
        refine ⟨fun hne act m => ih1 (fun p hp => hne p (List.mem_cons_of_mem _ hp)) act m, ?_⟩
        intro wk1 hf hg m
        rw [imFind_cons] at hf
        rw [imFind_cons]
        simp only at hf ⊢
        split at hf
        · rename_i he
          subst he; cases hf
          rw [if_pos rfl]
          refine ⟨_, rfl, ?_⟩
          exact ih1 (fun p hp => by have := hlt p hp; simp only at this; omega) _ m
        · rename_i he
          rw [if_neg he]
          exact ih2 wk1 hf hg m
      · cases h
    · rename_i hal
      split at h
      · cases h
      · rename_i wk' w1 res hk
        split at h
        · rename_i out w2 heq
          cases h
          obtain ⟨ih1, ih2⟩ := ih _ _ heq hpw'
          have other : id ≠ u → ∀ act, Mid laws gen t act w →
              Mid laws gen t act (if res = .done then w1.emit (.done (.work id)) else w1) := by
            intro hne act m
            have h1 : Mid laws gen t act w1 :=
              (m.emit (.ticked id t) (.inr (.inl ⟨_, _, rfl⟩))).steps
                (by intro h; cases h; exact hne rfl) (Steps.tick hk)
            split
            · exact h1.emit _ (.inl ⟨_, by intro h; cases h; exact hne rfl, rfl⟩)
            · exact h1
          refine ⟨fun hne act m => ih1 (fun p hp => hne p (List.mem_cons_of_mem _ hp)) act
            (other (hne (id, wk) (by simp)) act m), ?_⟩
          intro wk1 hf hg m
          rw [imFind_cons] at hf
          rw [imFind_cons]
          simp only at hf ⊢
          split at hf
          · rename_i he
            subst he; cases hf
            rw [if_pos rfl]
            refine ⟨_, rfl, ?_⟩
            have hal' : already id = false := by simpa using hal
            rw [hal'] at m
            have := (m.emit (.ticked id t) (.inr (.inl ⟨_, _, rfl⟩))).own hg hk
            exact ih1 (fun p hp => by have := hlt p hp; simp only at this; omega) _ this
          · rename_i he
            rw [if_neg he]
            exact ih2 wk1 hf hg (other he _ m)
        · cases h

theorem imFind_of_mem {α : Type} {l : List (Nat × α)} {v : Nat} {x : α} (h : (v, x) ∈ l)
    (hs : l.Pairwise (fun a b => a.1 < b.1)) : imFind v l = some x := by
  induction l with
  | nil => simp at h
  | cons p l ih =>
    obtain ⟨h1, h2⟩ := List.pairwise_cons.1 hs
    rw [imFind_cons]
    rcases List.mem_cons.1 h with h | h
    · subst h; simp
    · have := h1 _ h
      simp only at this
      rw [if_neg (by omega)]
      exact ih h h2

theorem imFind_map {α β : Type} (f : α → β) (v : Nat) (l : List (Nat × α)) :
    imFind v (l.map fun p => (p.1, f p.2)) = (imFind v l).map f := by
  induction l with
  | nil => rfl
  | cons p l ih =>
    rw [List.map_cons, imFind_cons, imFind_cons, ih]
    split <;> simp

theorem pairwise_of_keys {α β : Type} {l : List (Nat × α)} {l' : List (Nat × β)}
    (h : l.map (·.1) = l'.map (·.1)) (hs : l'.Pairwise (fun a b => a.1 < b.1)) :
    l.Pairwise (fun a b => a.1 < b.1) := by
  have h1 : (l'.map (·.1)).Pairwise (· < ·) := List.pairwise_map.2 hs
  rw [← h] at h1
  exact List.pairwise_map.1 h1

theorem mem_of_keys {α β : Type} {l : List (Nat × α)} {l' : List (Nat × β)}
    (h : l.map (·.1) = l'.map (·.1)) {p : Nat × α} (hp : p ∈ l) : ∃ q ∈ l', q.1 = p.1 := by
  have : p.1 ∈ l.map (·.1) := List.mem_map.2 ⟨p, hp, rfl⟩
  rw [h] at this
  obtain ⟨q, hq, hqe⟩ := List.mem_map.1 this
  exact ⟨q, hq, hqe⟩

theorem EMid.tickScheduled {laws : WorkLaws u s0 wk0 J G} {t : Nat} {e e' : Exec env} {b : Bool}
    (h : EMid laws t e) (ht : e.tickScheduled t = some (e', b)) :
    EMid laws t e' ∧ e'.invoked = e.invoked ∧
      (b = true → (∀ p ∈ e'.active, e'.alreadyTicked p.1 = true) ∧ e'.world = e.world) := by
  obtain ⟨⟨hs, hb, hal⟩, hcm, m⟩ := h
  unfold Exec.tickScheduled at ht
  split at ht
  · cases ht
  · rename_i out w heq
    have hkeys := tickPass_keys _ _ _ heq
    have hres := tickPass_results _ _ _ heq
    simp only at hkeys hres
    have hso := pairwise_of_keys hkeys hs
    have hmo : ∀ p ∈ out, p.1 < e.nextWorkId := fun p hp => by
      obtain ⟨q, hq, hqe⟩ := mem_of_keys hkeys hp
      rw [← hqe]; exact hb q hq
    have hmap : (out.map fun p => (p.1, p.2.1)) = out.map (fun p => (p.1, Prod.fst p.2)) := rfl
    have hsm : (out.map fun p => (p.1, p.2.1)).Pairwise (fun a b => a.1 < b.1) :=
      List.pairwise_map.2 hso
    cases ht
    have hfind : imFind u (((out.filter fun p => p.2.2 == some .done).map (·.1)).foldl imRemove
        (out.map fun p => (p.1, p.2.1))) =
        match imFind u out with
        | some (wk, some .done) => none
        | some (wk, _) => some wk
        | none => none := by
      rw [imFind_removes, hmap, imFind_map]
      cases hf : imFind u out with
      | none =>
        simp
      | some x =>
        obtain ⟨wk, res⟩ := x
        have hmem := imFind_mem hf
        by_cases hd : res = some .done
        · subst hd
          rw [if_pos]
          exact List.mem_map.2 ⟨_, List.mem_filter.2 ⟨hmem, by simp⟩, rfl⟩
        · rw [if_neg]
          · cases res with
            | none => simp
            | some r =>
              cases r with
              | done => exact absurd rfl hd
              | pending => simp
          · intro hm
            obtain ⟨q, hq, hqe⟩ := List.mem_map.1 hm
            obtain ⟨hq1, hq2⟩ := List.mem_filter.1 hq
            have : imFind u out = some q.2 := imFind_of_mem (by rw [← hqe]; exact hq1) hso
            rw [hf] at this
            simp only [Option.some.injEq] at this
            rw [← this] at hq2
            simp only [beq_iff_eq] at hq2
            exact hd hq2
    have htick : (((out.filter fun p => p.2.2.isSome).map (·.1)).contains u) =
        match imFind u out with
        | some (_, some _) => true
        | _ => false := by
      cases hf : imFind u out with
      | none =>
        rw [List.contains_eq_mem]
        simp only [decide_eq_false_iff_not]
        intro hm
        obtain ⟨q, hq, hqe⟩ := List.mem_map.1 hm
        obtain ⟨hq1, _⟩ := List.mem_filter.1 hq
        have : imFind u out = some q.2 := imFind_of_mem (by rw [← hqe]; exact hq1) hso
        rw [hf] at this; cases this
      | some x =>
        obtain ⟨wk, res⟩ := x
        have hmem := imFind_mem hf
        rw [List.contains_eq_mem]
        cases res with
        | some r =>
          simp only [decide_eq_true_eq]
          exact List.mem_map.2 ⟨_, List.mem_filter.2 ⟨hmem, by simp⟩, rfl⟩
        | none =>
          simp only [decide_eq_false_iff_not]
          intro hm
          obtain ⟨q, hq, hqe⟩ := List.mem_map.1 hm
          obtain ⟨hq1, hq2⟩ := List.mem_filter.1 hq
          have : imFind u out = some q.2 := imFind_of_mem (by rw [← hqe]; exact hq1) hso
          rw [hf] at this
          simp only [Option.some.injEq] at this
          rw [← this] at hq2; simp at hq2
    have hcid : ∀ c, CidIs u c e.world → CidIs u c w := fun c =>
      tickPass_inv (P := CidIs u c) (fun src x a b h => CidIs.step src x a b h)
        (fun v x w h => h.emit _ (by intros; simp)) (fun s w h => h.emit _ (by intros; simp)) _ _ _ heq
    refine ⟨⟨⟨?_, ?_, ?_⟩, ?_, ?_⟩, rfl, ?_⟩
    · exact hsm.sublist (imRemoves_sublist _ _)
    · intro p hp
      have := (imRemoves_sublist _ _).mem hp
      obtain ⟨q, hq, hqe⟩ := List.mem_map.1 this
      rw [← hqe]; exact hmo q hq
    · intro id hid
      simp only [Bool.or_eq_true] at hid
      rcases hid with hid | hid
      · exact hal id hid
      · rw [List.contains_eq_mem, decide_eq_true_eq] at hid
        obtain ⟨q, hq, hqe⟩ := List.mem_map.1 hid
        rw [← hqe]; exact hmo q (List.mem_filter.1 hq).1
    · refine hcm.mono ?_ rfl m.known rfl hb ?_ hcid
      · intro h; have := m.uids.le; omega
      · intro hf hn
        apply hf
        simp only [hfind]
        have : imFind u out = none := by
          apply imFind_eq_none
          intro p hp he
          obtain ⟨q, hq, hqe⟩ := mem_of_keys hkeys hp
          obtain ⟨y, hy⟩ := imFind_some_of_mem (u := u) (l := e.active) (x := q.2)
            (by rw [← he, ← hqe]; exact hq)
          rw [hn] at hy; cases hy
        rw [this]
    · -- the invariant of `u`
      obtain ⟨k1, k2⟩ := tickPass_mid (laws := laws) (gen := e.nextWorkId) _ _ _ heq hs
      simp only at k1 k2
      have hact : ∀ x, imFind u out = some x →
          (∃ wk, imFind u e.active = some wk) := by
        intro x hx
        have hmem := imFind_mem hx
        obtain ⟨q, hq, hqe⟩ := mem_of_keys hkeys hmem
        simp only at hqe
        exact imFind_some_of_mem (x := q.2) (by rw [← hqe]; exact hq)
      simp only [Exec.act, hfind, htick]
      cases hf : imFind u e.active with
      | none =>
        have hn : imFind u out = none := by
          cases hx : imFind u out with
          | none => rfl
          | some x => obtain ⟨wk, hwk⟩ := hact x hx; rw [hf] at hwk; cases hwk
        rw [hn]
        refine k1 ?_ none ?_
        · intro p hp he
          obtain ⟨y, hy⟩ := imFind_some_of_mem (u := u) (l := e.active) (x := p.2)
            (by rw [← he]; exact hp)
          rw [hf] at hy; cases hy
        · have := m
          simp only [Exec.act, hf, Option.map_none] at this
          exact this
      | some wk =>
        have hlt : u < e.nextWorkId := hb _ (imFind_mem hf)
        have hm : Mid laws e.nextWorkId t (some (e.alreadyTicked u, wk)) e.world := by
          have := m
          simp only [Exec.act, hf, Option.map_some] at this
          exact this
        obtain ⟨x, hx, hmid⟩ := k2 wk hf hlt hm
        have hrx := hres _ (imFind_mem hx)
        rw [hx]
        obtain ⟨wk', res⟩ := x
        cases res with
        | none =>
          simp only [Option.isSome_none] at hrx
          have hal' : e.alreadyTicked u = true := by simpa using hrx.symm
          simpa [afterPass, hal'] using hmid
        | some r =>
          cases r with
          | done => simpa [afterPass, afterTick] using hmid
          | pending => simpa [afterPass, afterTick] using hmid
    · intro hempty
      have hnone : ∀ p ∈ out, p.2.2 = none := by
        intro p hp
        cases hr : p.2.2 with
        | none => rfl
        | some r =>
          exfalso
          have : p.1 ∈ (out.filter fun p => p.2.2.isSome).map (·.1) :=
            List.mem_map.2 ⟨_, List.mem_filter.2 ⟨hp, by simp [hr]⟩, rfl⟩
          rw [List.isEmpty_iff] at hempty
          rw [hempty] at this; simp at this
      constructor
      · intro p hp
        have := (imRemoves_sublist _ _).mem hp
        obtain ⟨q, hq, hqe⟩ := List.mem_map.1 this
        have h1 := hres q hq
        rw [hnone q hq] at h1
        rw [← hqe]
        simp only [Option.isSome_none] at h1
        simp only [Bool.or_eq_true]
        left
        simpa using h1.symm
      · -- nothing ran
        have : ∀ (l : List (Nat × Work env.B)) (w : World env) (r),
            tickPass e.alreadyTicked t l w = some r → (∀ p ∈ r.1, p.2.2 = none) → r.2 = w := by
          intro l
          induction l with
          | nil => intro w r h _; simp only [tickPass] at h; cases h; rfl
          | cons p l ih =>
            obtain ⟨id, wk⟩ := p
            intro w r h hn
            simp only [tickPass] at h
            split at h
            · split at h
              · rename_i heq; cases h
                have := ih _ _ heq fun p hp => hn p (List.mem_cons_of_mem (_, _, _) hp)
                exact this
              · cases h
            · split at h
              · cases h
              · split at h
                · cases h
                  have := hn _ (List.mem_cons_self)
                  simp at this
                · cases h
        exact this _ _ _ heq hnone

theorem EMid.executeInvoked {laws : WorkLaws u s0 wk0 J G} {t : Nat} {e e' : Exec env}
    (h : EMid laws t e) (he : e.executeInvoked t = some e') :
    EMid laws t e' ∧ e'.invoked = [] ∧ e'.active = e.active ∧ e'.alreadyTicked = e.alreadyTicked ∧
      (e.invoked = [] → e'.world = e.world) := by
  unfold Exec.executeInvoked at he
  split at he
  · cases he
  · rename_i inv w heq
    cases he
    have hm : Mid laws e.nextWorkId t (e.act u) w :=
      execInvoked_inv (P := Mid laws e.nextWorkId t (e.act u))
        (fun i x a b h m => m.step (by simp) h)
        (fun i w m => m.emit _ (.inl ⟨_, by simp, rfl⟩)) _ _ _ _ heq h.mid
    have hcid : ∀ c, CidIs u c e.world → CidIs u c w := fun c =>
      execInvoked_inv (P := CidIs u c) (fun i x a b h => CidIs.step _ x a b h)
        (fun s w h => h.emit _ (by intros; simp)) _ _ _ _ heq
    refine ⟨⟨⟨h.tables.1, h.tables.2, h.tables.3⟩, ?_, hm⟩, rfl, rfl, rfl, ?_⟩
    · refine h.cmap.mono ?_ rfl h.mid.known rfl h.tables.2 (fun h => h) hcid
      intro h'; have := h.mid.uids.le; omega
    · intro hi
      rw [hi] at heq
      simp only [execInvoked] at heq
      cases heq; rfl

theorem drain_invoked_nil {t : Nat} {e : Exec env} (hq : e.world.sched.queue = [])
    (hi : e.invoked = []) : (e.drain t).1.invoked = [] := by
  simp only [Exec.drain, hq, List.foldl_nil]; exact hi

/-- One pass. -/
theorem Start.pass {laws : WorkLaws u s0 wk0 J G} {t : Nat} {e e' : Exec env} {b : Bool}
    (h : Start laws t e) (hi : e.invoked = []) (hp : e.pass t = some (e', b)) :
    EMid laws t e' ∧ e'.invoked = [] ∧
      (b = true → (∀ p ∈ e'.active, e'.alreadyTicked p.1 = true) ∧
        e'.world.sched.queue = []) := by
  unfold Exec.pass at hp
  simp only at hp
  obtain ⟨hd, hq⟩ := h.drain
  split at hp
  · cases hp
  · rename_i e1 nw heq
    obtain ⟨h1, h1i, h1q⟩ := hd.tickScheduled heq
    split at hp
    · cases hp
    · rename_i e2 heq2
      obtain ⟨h2, h2i, h2a, h2t, h2w⟩ := h1.executeInvoked heq2
      cases hp
      refine ⟨h2, h2i, ?_⟩
      intro hb
      simp only [Bool.and_eq_true, Bool.not_eq_true'] at hb
      obtain ⟨k1, k2⟩ := h1q hb.1
      have hqe : e.world.sched.queue = [] := by
        have := hb.2
        simp only [Exec.drain, Bool.not_eq_false', List.isEmpty_iff] at this
        exact this
      refine ⟨by rw [h2a, h2t]; exact k1, ?_⟩
      rw [h2w (by rw [h1i]; exact drain_invoked_nil hqe hi), k2]
      exact hq

theorem Start.loop {laws : WorkLaws u s0 wk0 J G} {t : Nat} : ∀ (n : Nat) {e e' : Exec env},
    Start laws t e → e.invoked = [] → Exec.loop t n e = .ok e' →
    EMid laws t e' ∧ e'.invoked = [] ∧ (∀ p ∈ e'.active, e'.alreadyTicked p.1 = true) ∧
      e'.world.sched.queue = [] := by
  intro n
  induction n with
  | zero =>
    intro e e' h hi hl
    unfold Exec.loop at hl
    split at hl
    · cases hl
    · rename_i e1 q heq
      obtain ⟨h1, h2, h3⟩ := h.pass hi heq
      split at hl
      · rename_i hq; cases hl; exact ⟨h1, h2, h3 hq⟩
      · cases hl
  | succ n ih =>
    intro e e' h hi hl
    unfold Exec.loop at hl
    split at hl
    · cases hl
    · rename_i e1 q heq
      obtain ⟨h1, h2, h3⟩ := h.pass hi heq
      split at hl
      · rename_i hq; cases hl; exact ⟨h1, h2, h3 hq⟩
      · exact ih h1.start h2 hl

/-- The invariant between ticks. -/
structure Outside (laws : WorkLaws u s0 wk0 J G) (e : Exec env) : Prop where
  sorted : e.active.Pairwise (fun a b => a.1 < b.1)
  bound : ∀ p ∈ e.active, p.1 < e.nextWorkId
  cmap : CMap u e
  uids : Uids e.nextWorkId e.world.sched
  known : Known u e.world
  out : (track u e.world.log).inTick = none
  inv : UInv u s0 wk0 J G
    (statusOf u e.nextWorkId true ((imFind u e.active).map fun wk => (true, wk))) e.world
  invoked : e.invoked = []

theorem Outside.tickTo {laws : WorkLaws u s0 wk0 J G} {t : Nat} {e e' : Exec env}
    (h : Outside laws e) (ht : e.tickTo t = .ok e') : Outside laws e' := by
  unfold Exec.tickTo at ht
  simp only at ht
  split at ht
  · rename_i e1 heq
    cases ht
    have hstep : track u (e.world.log ++ [Ev.tickStart t]) =
        { inTick := some t,
          seen := (track u e.world.log).seen.map fun r => { r with ticks := r.ticks ++ [t] } } := by
      rw [track_snoc]; rfl
    have hs : Start laws t
        { e with
          currentTick := updateTick e.currentTick t
          alreadyTicked := fun _ => false
          world := e.world.emit (.tickStart t) } := by
      refine ⟨⟨h.sorted, h.bound, by simp⟩, ⟨?_, ?_⟩, ⟨h.uids.1, h.uids.2⟩, ?_, ⟨?_, ?_⟩, ?_⟩
      · intro c hc
        obtain ⟨h1, h2⟩ := h.cmap.1 c hc
        refine ⟨h1, fun r hr => ?_⟩
        simp only [World.emit, hstep] at hr
        cases hs : (track u e.world.log).seen with
        | none => simp [hs] at hr
        | some r0 =>
          simp only [hs, Option.map_some, Option.some.injEq] at hr
          subst hr; exact h2 r0 hs
      · intro r hr hf
        simp only [World.emit, hstep] at hr
        cases hs : (track u e.world.log).seen with
        | none => simp [hs] at hr
        | some r0 =>
          simp only [hs, Option.map_some, Option.some.injEq] at hr
          subst hr; exact h.cmap.2 r0 hs hf
      · exact h.known.emit _ (by intros; simp)
      · simp only [World.emit, hstep]
      · intro r hr
        simp only [World.emit, hstep] at hr
        cases hs : (track u e.world.log).seen with
        | none => simp [hs] at hr
        | some r0 =>
          simp only [hs, Option.map_some, Option.some.injEq] at hr
          subst hr; exact ⟨_, rfl⟩
      · intro r hr hc hn hw
        simp only [World.emit, hstep] at hr
        cases hs : (track u e.world.log).seen with
        | none => simp [hs] at hr
        | some r0 =>
          simp only [hs, Option.map_some, Option.some.injEq] at hr
          subst hr
          have := h.inv r0 hs hc hn hw
          simp only [Exec.act]
          unfold statusOf at this ⊢
          split at this
          · rename_i hle
            rw [if_pos hle]
            obtain ⟨pre, post, h1, h2, h3, h4, h5⟩ := this
            exact ⟨pre, post, h1, h2, h3, h4, laws.begin _ _ _ _ h5⟩
          · rename_i hle
            rw [if_neg hle]
            cases hf : imFind u e.active with
            | none =>
              rw [hf] at this
              exact ⟨this.1, laws.finished _ _ _ this.2⟩
            | some wk =>
              rw [hf] at this
              exact ⟨this.1, this.2.1, laws.begin _ _ _ _ this.2.2⟩
    obtain ⟨k1, k2, k3, k4⟩ := hs.loop _ h.invoked heq
    have hend : ∀ (l : List (Ev env.B)), track u (l ++ [Ev.tickEnd]) =
        { track u l with inTick := none } := by
      intro l; rw [track_snoc]; rfl
    refine ⟨k1.tables.1, k1.tables.2, ⟨?_, ?_⟩, ⟨k1.mid.uids.1, k1.mid.uids.2⟩, ?_, ?_, ?_, k2⟩
    · intro c hc
      simp only [World.emit, hend]; exact k1.cmap.1 c hc
    · intro r hr; simp only [World.emit, hend] at hr; exact k1.cmap.2 r hr
    · exact k1.mid.known.emit _ (by intros; simp)
    · simp only [World.emit, hend]
    · intro r hr hc hn hw
      simp only [World.emit, hend] at hr
      have := k1.mid.inv r hr hc hn hw
      unfold statusOf at this ⊢
      split at this
      · obtain ⟨pre, post, h1, _⟩ := this
        rw [k4] at h1; simp at h1
      · rename_i hle
        rw [if_neg hle]
        simp only [Exec.act] at this
        cases hf : imFind u e1.active with
        | none => rw [hf] at this; exact this
        | some wk =>
          rw [hf] at this
          have hal := k3 _ (imFind_mem hf)
          simp only at hal
          simp only [Option.map_some, hal] at this
          exact this
  · rename_i hno
    cases hl : Exec.loop t e.maxDepth { e with
          currentTick := updateTick e.currentTick t
          alreadyTicked := fun _ => false
          world := e.world.emit (.tickStart t) } with
    | ok a => exact absurd hl (hno a)
    | panic a => rw [hl] at ht; cases ht
    | diverges => rw [hl] at ht; cases ht

theorem Outside.call {laws : WorkLaws u s0 wk0 J G} {e : Exec env} (h : Outside laws e)
    (c : Call env.B) : Outside laws { e with world := e.world.call c } := by
  have hcid : ∀ c', CidIs u c' e.world → CidIs u c' (e.world.call c) := fun c' =>
    CidIs.step (.invoked 0) 0 _ _ (.call _ c)
  have hlt : u < e.nextWorkId → u < e.world.sched.nextUid := fun h' => by
    have := h.uids.le; omega
  refine ⟨h.sorted, h.bound, h.cmap.mono hlt rfl h.known rfl h.bound (fun h => h) hcid,
    h.uids.call c, h.known.call h.uids c, ?_, ?_, h.invoked⟩
  · have := h.out
    cases c with
    | scheduleWork wk cid =>
      simp only [World.call]; rw [track_snoc]; simp only [Track.step]; split <;> exact this
    | _ => simp only [World.call]; rw [track_snoc]; exact this
  · have hinv := h.inv
    cases c with
    | scheduleWork work cid =>
      intro r hr hcan hnow hwk
      simp only [World.call] at hr ⊢; rw [track_snoc] at hr; simp only [Track.step] at hr
      split at hr
      · rename_i he
        simp only [Option.some.injEq] at hr
        have hle := h.uids.le
        unfold statusOf
        rw [if_pos (by omega)]
        subst hr
        simp only at hnow hwk
        refine ⟨e.world.sched.queue, [], by simp [he, Rec.stamped], by simp, rfl, rfl, ?_⟩
        rw [hwk]; simp only [h.out, Option.toList_none]
        exact laws.initOut
      · exact (hinv r hr hcan hnow hwk).append _ (by simp)
    | cancel c =>
      intro r hr hcan hnow hwk
      simp only [World.call] at hr ⊢; rw [track_snoc] at hr; simp only [Track.step] at hr
      cases hs : (track u e.world.log).seen with
      | none => simp [hs] at hr
      | some r0 =>
        simp only [hs, Option.map_some, Option.some.injEq] at hr
        split at hr
        · subst hr; simp at hcan
        · subst hr
          rename_i hne
          exact (hinv r0 hs hcan hnow hwk).append _ (by intro he; cases he; exact hne rfl)
    | generateCancellationId =>
      intro r hr hcan hnow hwk
      simp only [World.call] at hr ⊢; rw [track_snoc] at hr; exact hinv r hr hcan hnow hwk
    | generateInvokeId =>
      intro r hr hcan hnow hwk
      simp only [World.call] at hr ⊢; rw [track_snoc] at hr; exact hinv r hr hcan hnow hwk
    | scheduleInvokedWork work iid =>
      intro r hr hcan hnow hwk
      simp only [World.call] at hr ⊢; rw [track_snoc] at hr
      exact (hinv r hr hcan hnow hwk).append _ (by simp)
    | invoke iid =>
      intro r hr hcan hnow hwk
      simp only [World.call] at hr ⊢; rw [track_snoc] at hr
      exact (hinv r hr hcan hnow hwk).append _ (by simp)
    | cancelInvoked iid =>
      intro r hr hcan hnow hwk
      simp only [World.call] at hr ⊢; rw [track_snoc] at hr
      exact (hinv r hr hcan hnow hwk).append _ (by simp)

theorem Outside.init (laws : WorkLaws u s0 wk0 J G) (ctx : env.Ctx) (n : Nat) :
    Outside laws (Exec.new ctx n) := by
  refine ⟨by simp [Exec.new], by simp [Exec.new], ⟨by simp [Exec.new], by simp [Exec.new]⟩,
    ⟨by simp [Exec.new], by simp [Exec.new]⟩, ⟨by simp [Exec.new], by simp [Exec.new]⟩,
    by simp [Exec.new], ?_, rfl⟩
  intro r hr
  simp [Exec.new] at hr

theorem Outside.run (laws : WorkLaws u s0 wk0 J G) : ∀ (ops : List (Op env.B)) {e e' : Exec env},
    Outside laws e → e.run ops = .ok e' → Outside laws e' := by
  intro ops
  induction ops with
  | nil => intro e e' h hr; simp only [Exec.run] at hr; cases hr; exact h
  | cons op ops ih =>
    intro e e' h hr
    simp only [Exec.run] at hr
    cases op with
    | call c => exact ih (h.call c) hr
    | tickTo t =>
      simp only [Exec.step] at hr
      cases ht : e.tickTo t with
      | ok e1 => rw [ht] at hr; exact ih (h.tickTo ht) hr
      | panic e1 => rw [ht] at hr; cases hr
      | diverges => rw [ht] at hr; cases hr
    | tick d =>
      simp only [Exec.step, Exec.tick] at hr
      cases ht : e.tickTo (e.currentTick + d) with
      | ok e1 => rw [ht] at hr; exact ih (h.tickTo ht) hr
      | panic e1 => rw [ht] at hr; cases hr
      | diverges => rw [ht] at hr; cases hr

/-- The result: after any history, an uncancelled work satisfies its invariant, or, if it is done,
its final property. -/
theorem work_history (laws : WorkLaws u s0 wk0 J G) {ctx : env.Ctx} {n : Nat}
    {ops : List (Op env.B)} {e : Exec env} (h : (Exec.new ctx n).run ops = .ok e) {r : Rec env.B}
    (hr : (track u e.world.log).seen = some r) (hc : r.cancelled = false) (hn : r.now = s0)
    (hw : r.stamped = wk0) :
    (r.done = false ∧ ∃ wk, J true r.ticks wk r.runs) ∨ (r.done = true ∧ G r.ticks r.runs) := by
  have := (Outside.run laws ops (Outside.init laws ctx n) h).inv r hr hc hn hw
  unfold statusOf at this
  split at this
  · obtain ⟨_, _, _, _, h3, h4, h5⟩ := this
    exact .inl ⟨h3, _, by rw [h4]; exact h5⟩
  · cases hf : imFind u e.active with
    | none => rw [hf] at this; exact .inr this
    | some wk => rw [hf] at this; exact .inl ⟨this.2.1, _, this.2.2⟩

end

end Rx.Sched
