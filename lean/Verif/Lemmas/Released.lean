import Verif.Lemmas.SchedulerSingle
import Verif.Spec.Released

/-!
# What is left of an operator on the executor

Two ways to be released: the operator cancels its work when it ends (`Tidy`), or its work finds out when it is ticked, and is done
(`Quits`).
-/

namespace Rx.Sched
namespace Solo
variable {c : Client}

/-- Whether work is held after these requests. -/
def held {B : Type} (rs : List (Req B)) (h : Bool) : Bool :=
  rs.foldl (fun _ r => match r with | .schedule _ => true | .cancel => false) h

theorem held_append {B : Type} (a b : List (Req B)) (h : Bool) : held (a ++ b) h = held b (held a h) := by
  simp [held, List.foldl_append]

theorem held_any {B : Type} {rs : List (Req B)} (hr : held rs true = false) (h : Bool) : held rs h = false := by
  cases rs with
  | nil => cases hr
  | cons r rs => exact hr

theorem held_onQueue (k : Nat) (rs : List (Req c.B)) (h : Bool) : held (rs.map (onQueue k)) h = held rs h := by
  simp only [held, List.foldl_map]
  congr 1
  funext _ r
  cases r <;> rfl

theorem process_isEmpty (q : List (Req c.B)) (a : List (Work c.B × Bool)) :
    (q.foldl process a).isEmpty = !held q (!a.isEmpty) := by
  induction q generalizing a with
  | nil => simp [held]
  | cons r q ih =>
    rw [List.foldl_cons, ih]
    cases r with
    | cancel => rfl
    | schedule w =>
      rw [show process a (.schedule w) = a ++ [(w, false)] from rfl, show (a ++ [(w, false)]).isEmpty = false by simp]
      rfl

/-- The operator cancels its work when it ends, and schedules no more. `C` is to have ended, `A` an invariant. -/
structure Tidy (c : Client) (A C : c.St → Prop) : Prop where
  exec_keep : ∀ b t now s, A s → A (c.exec b t now s).2.1
  input_keep : ∀ i now s, A s → A (c.input i now s).1
  exec_end : ∀ b t now s, A s → ¬ C s → C (c.exec b t now s).2.1 → held (c.exec b t now s).2.2.1 true = false
  exec_ended : ∀ b t now s, A s → C s → C (c.exec b t now s).2.1 → held (c.exec b t now s).2.2.1 false = false
  input_end : ∀ i now s, A s → ¬ C s → C (c.input i now s).1 → held (c.input i now s).2 true = false
  input_ended : ∀ i now s, A s → C s → C (c.input i now s).1 → held (c.input i now s).2 false = false

theorem Tidy.step {A C : c.St → Prop} (h : Tidy c A C) {s s' : Solo c} (hs : Step s s')
    (hh : A s.st ∧ (C s.st → held s.queue (!s.active.isEmpty) = false)) :
    A s'.st ∧ (C s'.st → held s'.queue (!s'.active.isEmpty) = false) := by
  obtain ⟨hA, hC⟩ := hh
  cases hs with
  | input i =>
    rw [input_st, input_queue, (Solo.input_keep i s).1, held_append, held_onQueue]
    refine ⟨h.input_keep _ _ _ hA, fun hc => ?_⟩
    by_cases h0 : C s.st
    · rw [hC h0]; exact h.input_ended _ _ _ hA h0 hc
    · exact held_any (h.input_end _ _ _ hA h0 hc) _
  | start t h0 =>
    refine ⟨hA, fun hc => ?_⟩
    have := process_isEmpty s.queue (s.active.map fun p => (p.1, false))
    rw [show (s.active.map fun p => (p.1, false)).isEmpty = s.active.isEmpty by cases s.active <;> rfl, hC hc] at this
    simp only [drain]
    rw [this]; rfl
  | work s1 t pre post w w' res h1 h2 h3 h4 =>
    have key := tickWork_keeps (P := fun x => A x.st ∧ (C x.st → held x.queue true = false)) ?_ ?_ h4
    · exact ⟨key.1, fun hc => held_any (key.2 hc) _⟩
    · intro b x ⟨ha, hx⟩
      rw [runBody_st, runBody_queue, held_append, held_onQueue]
      refine ⟨h.exec_keep _ _ _ _ ha, fun hc => ?_⟩
      by_cases h0 : C x.st
      · rw [hx h0]; exact h.exec_ended _ _ _ _ ha h0 hc
      · exact held_any (h.exec_end _ _ _ _ ha h0 hc) _
    · refine ⟨hA, fun hc => ?_⟩
      have := hC hc
      rw [h2, show (pre ++ (w, false) :: post).isEmpty = false by simp] at this
      exact this
  | pass t h1 h2 =>
    refine ⟨hA, fun hc => ?_⟩
    have := process_isEmpty s.queue s.active
    rw [hC hc] at this
    simp only [drain]
    rw [this]; rfl
  | finish t h1 h2 h3 => exact ⟨hA, hC⟩

theorem Tidy.reach {A C : c.St → Prop} (h : Tidy c A C) {s s' : Solo c} (hs : Steps s s')
    (hh : A s.st ∧ (C s.st → held s.queue (!s.active.isEmpty) = false)) :
    A s'.st ∧ (C s'.st → held s'.queue (!s'.active.isEmpty) = false) := by
  induction hs with
  | refl => exact hh
  | tail _ h2 ih => exact h.step h2 ih

/-- What kinds of work an operator has. -/
structure Kinds (c : Client) (kind : c.St → Work c.B → Prop) : Prop where
  exec : ∀ b t now s w, kind s w → kind (c.exec b t now s).2.1 w
  input : ∀ i now s w, kind s w → kind (c.input i now s).1 w
  exec_new : ∀ b t now s w, .schedule w ∈ (c.exec b t now s).2.2.1 → kind (c.exec b t now s).2.1 (w.onScheduled now)
  input_new : ∀ i now s w, .schedule w ∈ (c.input i now s).2 → kind (c.input i now s).1 (w.onScheduled now)
  work : ∀ t (s s' : Solo c) w w' res, kind s.st w → tickWork t s w = some (w', s', res) → kind s'.st w'

/-- All work is of the kind. -/
structure AllKind (kind : c.St → Work c.B → Prop) (s : Solo c) : Prop where
  active : ∀ p ∈ s.active, kind s.st p.1
  queue : ∀ w, .schedule w ∈ s.queue → kind s.st w

theorem onQueue_mem {k : Nat} {rs : List (Req c.B)} {w : Work c.B} (h : .schedule w ∈ rs.map (onQueue k)) :
    ∃ v, .schedule v ∈ rs ∧ w = v.onScheduled k := by
  obtain ⟨r, hr, hw⟩ := List.mem_map.1 h
  cases r with
  | schedule v => cases hw; exact ⟨v, hr, rfl⟩
  | cancel => cases hw

theorem process_mem {kind : Work c.B → Prop} (q : List (Req c.B)) (a : List (Work c.B × Bool))
    (ha : ∀ p ∈ a, kind p.1) (hq : ∀ w, .schedule w ∈ q → kind w) : ∀ p ∈ q.foldl process a, kind p.1 := by
  induction q generalizing a with
  | nil => exact ha
  | cons r q ih =>
    refine ih _ ?_ (fun w hw => hq w (List.mem_cons_of_mem _ hw))
    cases r with
    | cancel => intro p hp; cases hp
    | schedule w =>
      intro p hp
      rcases List.mem_append.1 hp with hp | hp
      · exact ha p hp
      · rw [List.mem_singleton.1 hp]; exact hq w List.mem_cons_self

theorem Kinds.step {kind : c.St → Work c.B → Prop} (h : Kinds c kind) {s s' : Solo c} (hs : Step s s') (hh : AllKind kind s) :
    AllKind kind s' := by
  cases hs with
  | input i =>
    refine ⟨?_, ?_⟩
    · rw [input_st, (input_keep i s).1]
      exact fun p hp => h.input _ _ _ _ (hh.active p hp)
    · rw [input_st, input_queue]
      intro w hw
      rcases List.mem_append.1 hw with hw | hw
      · exact h.input _ _ _ _ (hh.queue w hw)
      · obtain ⟨v, hv, rfl⟩ := onQueue_mem hw
        exact h.input_new _ _ _ _ hv
  | start t h0 =>
    refine ⟨process_mem _ _ ?_ hh.queue, fun w hw => by cases hw⟩
    intro p hp
    obtain ⟨q, hq, rfl⟩ := List.mem_map.1 hp
    exact hh.active q hq
  | work s1 t pre post w w' res h1 h2 h3 h4 =>
    have hw : kind s.st w := hh.active (w, false) (by rw [h2]; simp)
    have hk := h.work _ _ _ _ _ _ hw h4
    have key := tickWork_keeps (P := fun x => (∀ p ∈ s.active, kind x.st p.1) ∧ ∀ w, .schedule w ∈ x.queue → kind x.st w)
      ?_ ⟨hh.active, hh.queue⟩ h4
    · refine ⟨?_, key.2⟩
      intro p hp
      dsimp only at hp ⊢
      rcases List.mem_append.1 hp with hp | hp
      · rcases List.mem_append.1 hp with hp | hp
        · exact key.1 p (by rw [h2]; simp [hp])
        · split at hp
          · cases hp
          · rw [List.mem_singleton.1 hp]; exact hk
      · exact key.1 p (by rw [h2]; simp [hp])
    · intro b x ⟨hx1, hx2⟩
      rw [runBody_st, runBody_queue]
      refine ⟨fun p hp => h.exec _ _ _ _ _ (hx1 p hp), ?_⟩
      intro w hw
      rcases List.mem_append.1 hw with hw | hw
      · exact h.exec _ _ _ _ _ (hx2 w hw)
      · obtain ⟨v, hv, rfl⟩ := onQueue_mem hw
        exact h.exec_new _ _ _ _ _ hv
  | pass t h1 h2 => exact ⟨process_mem _ _ hh.active hh.queue, fun w hw => by cases hw⟩
  | finish t h1 h2 h3 => exact ⟨hh.active, hh.queue⟩

theorem Kinds.steps {kind : c.St → Work c.B → Prop} (h : Kinds c kind) {s s' : Solo c} (hs : Steps s s') (hh : AllKind kind s) :
    AllKind kind s' := by
  induction hs with
  | refl => exact hh
  | tail _ h2 ih => exact h.step h2 ih

theorem Kinds.reach {kind : c.St → Work c.B → Prop} (h : Kinds c kind) {st : c.St} {s : Solo c} (hs : Reachable st s) :
    AllKind kind s := h.steps hs ⟨fun p hp => (by cases hp), fun w hw => (by cases hw)⟩

/-- In a tick to `t`, work of the kind is done when it is ticked, if `I` holds, or `Stay` does. -/
structure Quits (c : Client) (t : Nat) (I : Nat → c.St → Prop) (kind : c.St → Work c.B → Prop) (Stay : c.St → Prop) : Prop where
  exec : ∀ b now s, t ≤ now → I now s → I now (c.exec b t now s).2.1
  input : ∀ i now s, I now s → I now (c.input i now s).1
  stay_exec : ∀ b now s, Stay s → Stay (c.exec b t now s).2.1
  stay_input : ∀ i now s, Stay s → Stay (c.input i now s).1
  work : ∀ (s s' : Solo c) w w' res, t ≤ s.clock → I s.clock s.st → kind s.st w → tickWork t s w = some (w', s', res) →
    res = .done ∨ Stay s'.st

theorem Quits.inner {t : Nat} {I : Nat → c.St → Prop} {kind : c.St → Work c.B → Prop} {Stay : c.St → Prop} (hk : Kinds c kind)
    (h : Quits c t I kind Stay) {s s' : Solo c} (hs : Inner s s') (ht : s.tick = some t) (hc : t ≤ s.clock) (hI : I s.clock s.st)
    (hkind : AllKind kind s) (hf : Stay s.st ∨ ∀ p ∈ s.active, p.2 = false) :
    t ≤ s'.clock ∧ I s'.clock s'.st ∧ AllKind kind s' ∧ (Stay s'.st ∨ ∀ p ∈ s'.active, p.2 = false) := by
  induction hs with
  | refl => exact ⟨hc, hI, hkind, hf⟩
  | tail g1 g2 g3 ih =>
    rename_i b d
    obtain ⟨i1, i2, i3, i4⟩ := ih
    refine ⟨?_, ?_, hk.step g2 i3, ?_⟩
    · cases g2 with
      | input i => rw [(input_keep i b).2.2]; exact i1
      | start t' h0 => rw [g1.tick, ht] at h0; cases h0
      | work s1 t' pre post w w' res h1 h2 h3 h4 => exact (tickWork_own h4).clock ▸ i1
      | pass t' h1 h2 => show t ≤ updateTick _ _; rw [updateTick_max]; omega
      | finish t' h1 h2 h3 => exact i1
    · cases g2 with
      | input i => rw [(input_keep i b).2.2, input_st]; exact h.input _ _ _ i2
      | start t' h0 => rw [g1.tick, ht] at h0; cases h0
      | work s1 t' pre post w w' res h1 h2 h3 h4 =>
        have htt : t' = t := by rw [g1.tick, ht] at h1; cases h1; rfl
        subst htt
        have key := tickWork_keeps (P := fun x => x.clock = b.clock ∧ I b.clock x.st) ?_ ⟨rfl, i2⟩ h4
        · dsimp only; rw [key.1]; exact key.2
        · intro bb x ⟨hx, hi⟩
          refine ⟨(runBody_keeps _ _ _).clock.trans hx, ?_⟩
          rw [runBody_st, hx]
          exact h.exec _ _ _ i1 hi
      | pass t' h1 h2 =>
        have htt : t' = t := by rw [g1.tick, ht] at h1; cases h1; rfl
        subst htt
        rw [drain_clock i1]; exact i2
      | finish t' h1 h2 h3 => exact i2
    · cases g2 with
      | input i =>
        rcases i4 with i4 | i4
        · exact .inl (by rw [input_st]; exact h.stay_input _ _ _ i4)
        · exact .inr (by rw [(input_keep i b).1]; exact i4)
      | start t' h0 => rw [g1.tick, ht] at h0; cases h0
      | work s1 t' pre post w w' res h1 h2 h3 h4 =>
        have htt : t' = t := by rw [g1.tick, ht] at h1; cases h1; rfl
        subst htt
        rcases i4 with i4 | i4
        · refine .inl (tickWork_keeps (P := fun x => Stay x.st) ?_ i4 h4)
          intro bb x hx
          rw [runBody_st]
          exact h.stay_exec _ _ _ hx
        · rcases h.work b s1 w w' res i1 i2 (i3.active (w, false) (by rw [h2]; simp)) h4 with hr | hr
          · refine .inr ?_
            intro p hp
            simp only [hr, if_true, List.append_nil] at hp
            exact i4 p (by rw [h2]; rcases List.mem_append.1 hp with hp | hp <;> simp [hp])
          · exact .inl hr
      | pass t' h1 h2 =>
        rcases i4 with i4 | i4
        · exact .inl i4
        · refine .inr ?_
          have : ∀ (q : List (Req c.B)) (a : List (Work c.B × Bool)), (∀ p ∈ a, p.2 = false) →
              ∀ p ∈ q.foldl process a, p.2 = false := by
            intro q
            induction q with
            | nil => intro a ha; exact ha
            | cons r q ih =>
              intro a ha
              refine ih _ ?_
              cases r with
              | cancel => intro p hp; cases hp
              | schedule w =>
                intro p hp
                rcases List.mem_append.1 hp with hp | hp
                · exact ha p hp
                · rw [List.mem_singleton.1 hp]
          exact this b.queue b.active i4
      | finish t' h1 h2 h3 => exact i4

end Solo

variable {c : Client} {R : Rest c} {st : c.St} {x : R.Ctx} {fuel t : Nat} {ops : List R.Op} {e0 e : Exec R.env}

theorem EView.released {s : Solo c} (h : EView e s) (ha : s.active = []) (hq : s.queue = []) : Released R e := by
  refine ⟨?_, ?_, h.tables.invokable⟩
  · intro p hp
    have hm : (e.cancellationMap ownCid).contains p.1 = false := by
      cases hm : (e.cancellationMap ownCid).contains p.1 with
      | false => rfl
      | true =>
        obtain ⟨v, hv⟩ := (h.tables.sorted p hp).1 hm
        have hact := h.tables.active
        rw [ha] at hact
        have : (v, e.alreadyTicked p.1) ∈
            ownWork (fun id => (e.cancellationMap ownCid).contains id) e.alreadyTicked e.active := by
          rw [ownWork, List.mem_filterMap]
          exact ⟨p, hp, by rw [if_pos hm, hv, Work.left_map]; rfl⟩
        rw [← hact] at this
        cases this
    exact ⟨by simpa using hm, (h.tables.sorted p hp).2 hm⟩
  · intro uid w hw
    obtain ⟨v, rfl⟩ := (h.world.sched.fair _ hw).1 rfl
    have : Req.schedule v ∈ e.world.sched.queue.filterMap Action.own := by
      rw [List.mem_filterMap]
      refine ⟨_, hw, ?_⟩
      simp [Action.own, Work.left_map]
    rw [h.world.sched.queue, hq] at this
    cases this

theorem EView.not_released {s : Solo c} (h : EView e s) (ha : s.active ≠ []) : ¬ Released R e := by
  intro hr
  cases hs : s.active with
  | nil => exact ha hs
  | cons p l =>
    have : p ∈ s.active := by rw [hs]; simp
    rw [h.tables.active, ownWork, List.mem_filterMap] at this
    obtain ⟨q, hq, hp⟩ := this
    split at hp
    · rename_i hm
      exact (hr.active q hq).1 (by simpa using hm)
    · cases hp

/-- An operator that cleans up is released at the end of every tick after its end. -/
theorem Solo.Tidy.released {A C : c.St → Prop} (h : Solo.Tidy c A C) (hA : A st)
    (h0 : R.run (R.start st x fuel) ops = .ok e0) (h1 : e0.tickTo t = .ok e) (hC : C e.world.ctx.1) : Released R e := by
  obtain ⟨k1, k2⟩ := EView.start R st x fuel
  obtain ⟨s0, l1, l2, l3, l4⟩ := EView.run ops k1 rfl k2 h0
  obtain ⟨s, m1, m2, m3, m4, m5, _⟩ := l3.tickTo l4 h1
  have := h.reach ((l1.trans (Solo.Steps.one (.start s0 t l2))).trans m1.steps) ⟨hA, fun _ => rfl⟩
  have := this.2 (by
    have := m5.world.st
    exact this ▸ hC)
  rw [m4] at this
  refine m5.released ?_ m4
  cases hs : s.active with
  | nil => rfl
  | cons p l => rw [hs] at this; cases this

/-- An operator whose work finds out that it is not wanted is released at the end of the tick. -/
theorem Solo.Quits.released {I : Nat → c.St → Prop} {kind : c.St → Work c.B → Prop} {Stay : c.St → Prop} (hk : Solo.Kinds c kind)
    (h : Solo.Quits c t I kind Stay) (h0 : R.run (R.start st x fuel) ops = .ok e0) (h1 : e0.tickTo t = .ok e)
    (hI : I (max e0.world.sched.currentTick t) e0.world.ctx.1) (hS : ¬ Stay e.world.ctx.1) : Released R e := by
  obtain ⟨k1, k2⟩ := EView.start R st x fuel
  obtain ⟨s0, l1, l2, l3, l4⟩ := EView.run ops k1 rfl k2 h0
  obtain ⟨s, m1, m2, m3, m4, m5, _⟩ := l3.tickTo l4 h1
  have hcl : (Solo.drain t { s0 with tick := some t, active := s0.active.map fun p => (p.1, false) }).clock =
      max s0.clock t := updateTick_max _ _
  have := h.inner hk m1 rfl (by rw [hcl]; omega) (by
    rw [hcl, ← l3.world.sched.clock]
    show I _ s0.st
    rw [← l3.world.st]; exact hI) (hk.steps ((l1.tail (.start s0 t l2))) ⟨fun p hp => (by cases hp), fun w hw => (by cases hw)⟩) (by
    refine .inr ?_
    have : ∀ (q : List (Req c.B)) (a : List (Work c.B × Bool)), (∀ p ∈ a, p.2 = false) →
        ∀ p ∈ q.foldl Solo.process a, p.2 = false := by
      intro q
      induction q with
      | nil => intro a ha; exact ha
      | cons r q ih =>
        intro a ha
        refine ih _ ?_
        cases r with
        | cancel => intro p hp; cases hp
        | schedule w =>
          intro p hp
          rcases List.mem_append.1 hp with hp | hp
          · exact ha p hp
          · rw [List.mem_singleton.1 hp]
    exact this _ _ (by simp))
  obtain ⟨_, _, _, hf⟩ := this
  refine m5.released ?_ m4
  rcases hf with hf | hf
  · have hst : e.world.ctx.1 = s.st := m5.world.st
    rw [hst] at hS
    exact absurd hf hS
  · cases hs : s.active with
    | nil => rfl
    | cons p l =>
      have a1 := hf p (by rw [hs]; simp)
      have a2 := m3 p (by rw [hs]; simp)
      rw [a1] at a2; cases a2

end Rx.Sched
