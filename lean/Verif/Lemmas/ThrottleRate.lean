import Verif.Lemmas.TimedThrottle

/-!
# The rate of throttle_time
-/

namespace Rx.Timed.Throttle
open Rx.Sched Rx.Timed

variable {S I E : Type} {D : Sub S I E} {s0 : S} {o : Output} {d : Nat}

/-- What is kept by each step, about the values given (`Q`) and, while the destination is open, about these, the last
tick, the deadline, and the kept value (`J`). -/
structure Pace (I : Type) (o : Output) (d : Nat) (Q : List (I × Nat) → Prop)
    (J : List (I × Nat) → Nat → Option Nat → Option I → Prop) : Prop where
  wait : ∀ {L T t dl lv}, J L T (some dl) lv → T ≤ t → t < dl → J L t (some dl) lv
  over : ∀ {L T t dl lv}, J L T (some dl) lv → T ≤ t → dl < t → (∀ x ∈ L, x.2 ≤ t) → J L t none lv
  idle : ∀ {L T t lv}, J L T (some t) lv → T ≤ t → (o = .leadingOnly ∨ lv = none) → (∀ x ∈ L, x.2 ≤ t) → J L t none none
  emit : ∀ {L T t v}, J L T (some t) (some v) → T ≤ t → o ≠ .leadingOnly → (∀ x ∈ L, x.2 ≤ t) → Q L →
    Q (L ++ [(v, t)]) ∧ J (L ++ [(v, t)]) t (some t) none
  lead : ∀ {L T lv v now}, J L T none lv → T ≤ now → o ≠ .trailingOnly → Q L →
    Q (L ++ [(v, now)]) ∧ J (L ++ [(v, now)]) T (some (T + d)) lv
  start : ∀ {L T lv v}, J L T none lv → o = .trailingOnly → J L T (some (T + d)) (some v)
  keep : ∀ {L T dl lv v}, J L T (some dl) lv → T < dl → o ≠ .leadingOnly → J L T (some dl) (some v)
  again : ∀ {L T dl lv v}, J L T (some dl) lv → dl ≤ T → o ≠ .leadingOnly → J L T (some (T + d)) (some v)

structure Rated (D : Sub S I E) (Q : List (I × Nat) → Prop) (J : List (I × Nat) → Nat → Option Nat → Option I → Prop)
    (now : Nat) (s : State S I E) : Prop where
  last : s.lastTick ≤ now
  times : ∀ x ∈ outs s.port.trace, x.2 ≤ now
  all : Q (outs s.port.trace)
  live : s.panicked = false → D.isClosed s.port.dest = false → J (outs s.port.trace) s.lastTick s.deadline s.lastValue

variable {Q : List (I × Nat) → Prop} {J : List (I × Nat) → Nat → Option Nat → Option I → Prop}

theorem outs_give_end (p : Port S I I E) {n : SubscriberNotification I E} (hn : Final n) (now : Nat) :
    outs (p.give D n now).trace = outs p.trace := by
  cases hc : D.isClosed p.dest with
  | true => rw [Port.give_closed hc]
  | false => rw [Port.give_open hc, outs_append, outs_of_ne (fun v hv => hn v (by simpa using hv)), List.append_nil]

theorem outs_mark (p : Port S I I E) (n : SubscriberNotification I E) (now : Nat) :
    outs (p.mark (.arrived n) now).trace = outs p.trace := by
  rw [Port.mark_trace, outs_append, outs_of_ne (by simp), List.append_nil]

theorem outs_close (p : Port S I I E) (now : Nat) : outs (p.close D now).trace = outs p.trace := by
  cases hc : D.isClosed p.dest with
  | true => rw [Port.close_closed hc]
  | false => rw [Port.close_open hc, outs_append, outs_of_ne (by simp), List.append_nil]

theorem give_end_closed (hD : HigherOrder.Closes D) (p : Port S I I E) {n : SubscriberNotification I E}
    (hn : n.isClosing = true) (now : Nat) : D.isClosed (p.give D n now).dest = true := by
  cases hc : D.isClosed p.dest with
  | true => rw [Port.give_closed hc]; exact hc
  | false => rw [Port.give_open hc]; exact hD _ n hn

theorem Rated.ending (hD : HigherOrder.Closes D) {now : Nat} {s : State S I E} {go : Bool} (h : Rated D Q J now s) :
    Rated D Q J now (s.ending D now go).1 := by
  unfold State.ending
  split
  · refine ⟨h.last, ?_, ?_, ?_⟩
    · dsimp only; rw [outs_give_end _ (by intro v hv; cases hv)]; exact h.times
    · dsimp only; rw [outs_give_end _ (by intro v hv; cases hv)]; exact h.all
    · intro _ ho
      dsimp only at ho
      rw [give_end_closed hD _ rfl] at ho
      cases ho
  · split
    · refine ⟨h.last, ?_, ?_, ?_⟩
      · dsimp only; rw [outs_give_end _ (by intro v hv; cases hv)]; exact h.times
      · dsimp only; rw [outs_give_end _ (by intro v hv; cases hv)]; exact h.all
      · intro _ ho
        dsimp only at ho
        rw [give_end_closed hD _ rfl] at ho
        cases ho
    · exact h

theorem Rated.work (hJ : Pace I o d Q J) (hD : HigherOrder.Closes D) {now : Nat} {s : State S I E} (h : Rated D Q J now s)
    (hp : s.panicked = false) : Rated D Q J now (s.work D o now now).1 := by
  have hl := h.live hp
  rcases work_cases D o now now s with ⟨_, h2⟩ | ⟨dl, hd, ⟨h1, h2⟩ | ⟨h1, h2⟩ | ⟨h1, h3, h2⟩ | ⟨h1, h3, v, hv, h2⟩⟩
  · rw [h2]
    exact ⟨Nat.le_refl _, h.times, h.all, (fun h => by cases h)⟩
  · rw [h2]
    refine ⟨Nat.le_refl _, h.times, h.all, fun _ ho => ?_⟩
    have := hl ho
    dsimp only
    rw [hd] at this ⊢
    exact hJ.wait this h.last h1
  · rw [h2]
    refine Rated.ending hD ⟨Nat.le_refl _, h.times, h.all, fun _ ho => ?_⟩
    have := hl ho
    dsimp only
    rw [hd] at this
    exact hJ.over this h.last h1 h.times
  · rw [h2]
    subst h1
    refine Rated.ending hD ⟨Nat.le_refl _, h.times, h.all, fun _ ho => ?_⟩
    have := hl ho
    dsimp only
    rw [hd] at this
    exact hJ.idle this h.last (h3.imp emitsTrailing_false.1 id) h.times
  · rw [h2, deliver_some]
    subst h1
    cases hc : D.isClosed s.port.dest with
    | true =>
      dsimp only
      rw [Port.give_closed hc, if_pos hc]
      exact ⟨Nat.le_refl _, h.times, h.all, fun _ ho => by rw [hc] at ho; cases ho⟩
    | false =>
      have hj := hl hc
      rw [hd, hv] at hj
      have hj' := hJ.emit hj h.last (emitsTrailing_iff.1 h3) h.times h.all
      have hr : Rated D Q J now { s with lastTick := now, lastValue := none, port := s.port.give D (.next v) now } := by
        have ho : outs (s.port.give D (.next v) now).trace = outs s.port.trace ++ [(v, now)] := by
          rw [Port.give_open hc, outs_append, outs_next]
        refine ⟨Nat.le_refl _, ?_, ?_, ?_⟩
        · dsimp only
          rw [ho]
          intro x hx
          rcases List.mem_append.1 hx with hx | hx
          · exact h.times x hx
          · rw [List.mem_singleton.1 hx]; exact Nat.le_refl _
        · dsimp only; rw [ho]; exact hj'.1
        · intro _ _
          dsimp only
          rw [ho, hd]
          exact hj'.2
      dsimp only
      split
      · exact hr
      · exact Rated.ending hD hr

theorem Rated.next (hJ : Pace I o d Q J) {now : Nat} {s : State S I E} (h : Rated D Q J now s)
    (hp : s.panicked = false) (v : I) : Rated D Q J now ((s.arrive (.next v) now).next D o d v now).1 := by
  have hm : outs (s.arrive (.next v) now).port.trace = outs s.port.trace := outs_mark _ _ _
  have h' : Rated D Q J now (s.arrive (.next v) now) := by
    refine ⟨h.last, by rw [hm]; exact h.times, by rw [hm]; exact h.all, ?_⟩
    intro _ ho
    rw [hm]
    exact h.live hp ho
  have hl : D.isClosed s.port.dest = false → J (outs s.port.trace) s.lastTick s.deadline s.lastValue := h.live hp
  rcases next_cases D o d v now (s.arrive (.next v) now) with ⟨hd, h1, h2⟩ | ⟨hd, h1, h2⟩ |
    ⟨dl, hd, ⟨h3, h1, h2⟩ | ⟨_, h1, h2⟩ | ⟨h3, h1, h2⟩ | ⟨_, h1, h2⟩⟩
  · rw [h2]
    cases hc : D.isClosed s.port.dest with
    | true =>
      rw [Port.give_closed (show D.isClosed (s.arrive (.next v) now).port.dest = true from hc)]
      exact ⟨h'.last, h'.times, h'.all, fun _ ho => by
        rw [show D.isClosed (s.arrive (.next v) now).port.dest = true from hc] at ho; cases ho⟩
    | false =>
      have hj := hl hc
      rw [show s.deadline = none from hd] at hj
      have hj' := hJ.lead (v := v) hj h.last (emitsLeading_iff.1 h1) h.all
      have ho : outs ((s.arrive (.next v) now).port.give D (.next v) now).trace = outs s.port.trace ++ [(v, now)] := by
        rw [Port.give_open (show D.isClosed (s.arrive (.next v) now).port.dest = false from hc), outs_append, outs_next, hm]
      refine ⟨h.last, ?_, ?_, ?_⟩
      · dsimp only
        rw [ho]
        intro x hx
        rcases List.mem_append.1 hx with hx | hx
        · exact h.times x hx
        · rw [List.mem_singleton.1 hx]; exact Nat.le_refl _
      · dsimp only; rw [ho]; exact hj'.1
      · intro _ _
        dsimp only
        rw [ho]
        exact hj'.2
  · rw [h2]
    refine ⟨h'.last, h'.times, h'.all, fun _ ho => ?_⟩
    have hj := hl ho
    rw [show s.deadline = none from hd] at hj
    dsimp only
    rw [hm]
    exact hJ.start hj h1
  · rw [h2]
    refine ⟨h'.last, h'.times, h'.all, fun _ ho => ?_⟩
    have hj := hl ho
    rw [show s.deadline = some dl from hd] at hj
    dsimp only
    rw [hm, hd]
    exact hJ.keep hj h3 (emitsTrailing_iff.1 h1)
  · rw [h2]; exact h'
  · rw [h2]
    refine ⟨h'.last, h'.times, h'.all, fun _ ho => ?_⟩
    have hj := hl ho
    rw [show s.deadline = some dl from hd] at hj
    dsimp only
    rw [hm]
    exact hJ.again hj h3 (emitsTrailing_iff.1 h1)
  · rw [h2]
    exact ⟨h'.last, h'.times, h'.all, (fun h => by cases h)⟩

theorem Rated.quiet {now : Nat} {s s' : State S I E} (h : Rated D Q J now s) (h1 : s'.lastTick = s.lastTick)
    (h2 : outs s'.port.trace = outs s.port.trace)
    (h3 : s'.panicked = false → D.isClosed s'.port.dest = false →
      s.panicked = false ∧ D.isClosed s.port.dest = false ∧ s'.deadline = s.deadline ∧ s'.lastValue = s.lastValue) :
    Rated D Q J now s' := by
  refine ⟨h1 ▸ h.last, h2 ▸ h.times, h2 ▸ h.all, fun hp ho => ?_⟩
  obtain ⟨h4, h5, h6, h7⟩ := h3 hp ho
  rw [h1, h2, h6, h7]
  exact h.live h4 h5

theorem rated_stable (hJ : Pace I o d Q J) (hD : HigherOrder.Closes D) :
    Solo.Stable (throttle D o d) (· = ·) (Rated D Q J) := by
  refine ⟨fun k k' s hk h => ⟨Nat.le_trans h.last hk, fun x hx => Nat.le_trans (h.times x hx) hk, h.all, h.live⟩, ?_, ?_⟩
  · intro b t now s ht h
    cases ht
    dsimp only
    split
    · exact h
    · rename_i hp
      exact h.work hJ hD (by simpa using hp)
  · intro i now s h
    dsimp only
    split
    · exact h
    · rename_i hp
      have hp : s.panicked = false := by simpa using hp
      cases i with
      | close =>
        refine h.quiet rfl (outs_close _ _) (fun _ ho => ?_)
        dsimp only at ho
        cases hc : D.isClosed s.port.dest with
        | true => rw [Port.close_closed hc, hc] at ho; cases ho
        | false => rw [Port.close_open hc] at ho; rw [show D.isClosed (D.unsubscribe s.port.dest) = true from hD _ .unsubscribe rfl] at ho; cases ho
      | note n =>
        cases n with
        | next v => exact h.next hJ hp v
        | error e =>
          show Rated D Q J now ((s.arrive (.error e) now).error D e now).1
          unfold State.error
          split
          · exact h.quiet rfl (outs_mark _ _ _) (fun h _ => by cases h)
          · refine h.quiet rfl ((outs_give_end _ (by intro v hv; cases hv) _).trans (outs_mark _ _ _)) (fun _ ho => ?_)
            dsimp only at ho
            rw [give_end_closed hD _ rfl] at ho
            cases ho
        | complete =>
          show Rated D Q J now ((s.arrive .complete now).complete D o now).1
          unfold State.complete
          split
          · exact h.quiet rfl (outs_mark _ _ _) (fun h _ => by cases h)
          · dsimp only
            split
            · refine h.quiet rfl ((outs_give_end _ (by intro v hv; cases hv) _).trans (outs_mark _ _ _)) (fun _ ho => ?_)
              dsimp only at ho
              rw [give_end_closed hD _ rfl] at ho
              cases ho
            · exact h.quiet rfl (outs_mark _ _ _) (fun _ ho => ⟨hp, ho, rfl, rfl⟩)
        | unsubscribe =>
          show Rated D Q J now ((s.arrive .unsubscribe now).unsubscribe D o now).1
          unfold State.unsubscribe
          split
          · exact h.quiet rfl (outs_mark _ _ _) (fun _ ho => ⟨hp, ho, rfl, rfl⟩)
          · split
            · exact h.quiet rfl (outs_mark _ _ _) (fun h _ => by cases h)
            · dsimp only
              split
              · refine h.quiet rfl ((outs_give_end _ (by intro v hv; cases hv) _).trans (outs_mark _ _ _)) (fun _ ho => ?_)
                dsimp only at ho
                rw [give_end_closed hD _ rfl] at ho
                cases ho
              · exact h.quiet rfl (outs_mark _ _ _) (fun _ ho => ⟨hp, ho, rfl, rfl⟩)

theorem rated_freach (hJ : Pace I o d Q J) (hD : HigherOrder.Closes D) (hQ : Q []) (h0 : J [] 0 none none)
    {s : Solo (throttle D o d)} (hr : Solo.FSteps { st := ({ port := { dest := s0 } } : State S I E) } s) :
    Rated D Q J s.clock s.st :=
  (rated_stable hJ hD).freach (st := ({ port := { dest := s0 } } : State S I E))
    ⟨Nat.le_refl _, (fun x hx => by cases hx), hQ, fun _ _ => h0⟩ hr

/-! ### Three rates -/

theorem Apart.nil (d k : Nat) : Apart d k ([] : List (I × Nat)) := by
  intro i a b h; simp at h

/-- All but the last `k` of `L` are early. -/
def Old (k : Nat) (L : List (I × Nat)) (bound : Nat) : Prop :=
  ∀ i a, L[i]? = some a → i + k < L.length → a.2 ≤ bound

theorem Old.nil (k b : Nat) : Old k ([] : List (I × Nat)) b := by
  intro i a h; simp at h

theorem Old.mono {k k' b b' : Nat} {L : List (I × Nat)} (h : Old k L b) (hk : k ≤ k') (hb : b ≤ b') : Old k' L b' :=
  fun i a ha hi => Nat.le_trans (h i a ha (by omega)) hb

theorem Old.snoc {k b : Nat} {L : List (I × Nat)} (h : Old k L b) (x : I × Nat) : Old (k + 1) (L ++ [x]) b := by
  intro i a ha hi
  simp only [List.length_append, List.length_singleton] at hi
  rw [List.getElem?_append_left (by omega)] at ha
  exact h i a ha (by omega)

theorem Old.of_times {b : Nat} {L : List (I × Nat)} (h : ∀ x ∈ L, x.2 ≤ b) (k : Nat) : Old k L b :=
  fun _ a ha _ => h a (List.mem_of_getElem? ha)

/-- `a + d ≤ bound` for all but the last `k`. -/
def OldBy (d k : Nat) (L : List (I × Nat)) (bound : Nat) : Prop :=
  ∀ i a, L[i]? = some a → i + k < L.length → a.2 + d ≤ bound

theorem OldBy.mono {k k' b b' : Nat} {L : List (I × Nat)} (h : OldBy d k L b) (hk : k ≤ k') (hb : b ≤ b') :
    OldBy d k' L b' :=
  fun i a ha hi => Nat.le_trans (h i a ha (by omega)) hb

theorem OldBy.of_old {k b : Nat} {L : List (I × Nat)} (h : Old k L b) : OldBy d k L (b + d) := by
  intro i a ha hi
  have := h i a ha hi
  omega

theorem OldBy.snoc {k b : Nat} {L : List (I × Nat)} (h : OldBy d k L b) (x : I × Nat) : OldBy d (k + 1) (L ++ [x]) b := by
  intro i a ha hi
  simp only [List.length_append, List.length_singleton] at hi
  rw [List.getElem?_append_left (by omega)] at ha
  exact h i a ha (by omega)

theorem OldBy.old {k b : Nat} {L : List (I × Nat)} (h : OldBy d k L b) : Old k L b := by
  intro i a ha hi
  have := h i a ha hi
  omega

theorem Apart.snoc {k : Nat} {L : List (I × Nat)} (h : Apart d (k + 1) L) {x : I × Nat} (hx : OldBy d k L x.2) :
    Apart d (k + 1) (L ++ [x]) := by
  intro i a b ha hb
  rcases Nat.lt_or_ge (i + (k + 1)) L.length with hlt | hge
  · rw [List.getElem?_append_left hlt] at hb
    rw [List.getElem?_append_left (by omega)] at ha
    exact h i a b ha hb
  · have hlen : i + (k + 1) < (L ++ [x]).length := by
      have := (List.getElem?_eq_some_iff.1 hb).1
      exact this
    simp only [List.length_append, List.length_singleton] at hlen
    have he : i + (k + 1) = L.length := by omega
    rw [he, List.getElem?_append_right (Nat.le_refl _)] at hb
    simp only [Nat.sub_self, List.getElem?_cons_zero, Option.some.injEq] at hb
    rw [List.getElem?_append_left (by omega)] at ha
    rw [← hb]
    exact hx i a ha (by omega)

/-- Trailing values only. -/
theorem pace_trailing (d : Nat) : Pace I .trailingOnly d (Apart d 1) fun L T dl lv =>
    Old 0 L T ∧ ∀ x, dl = some x → (lv = none → x ≤ T) ∧ (lv ≠ none → OldBy d 0 L x) := by
  constructor
  · intro L T t dl lv ⟨h1, h2⟩ ht hlt
    exact ⟨h1.mono (Nat.le_refl _) ht, fun x hx => ⟨fun h => Nat.le_trans ((h2 x hx).1 h) ht, (h2 x hx).2⟩⟩
  · intro L T t dl lv ⟨h1, h2⟩ ht hlt _
    exact ⟨h1.mono (Nat.le_refl _) ht, (fun x hx => by cases hx)⟩
  · intro L T t lv ⟨h1, h2⟩ ht _ _
    exact ⟨h1.mono (Nat.le_refl _) ht, (fun x hx => by cases hx)⟩
  · intro L T t v ⟨h1, h2⟩ ht _ htimes hq
    have h3 := (h2 t rfl).2 (by simp)
    refine ⟨hq.snoc h3, Old.of_times ?_ 0, fun x hx => ⟨fun _ => by cases hx; exact Nat.le_refl _, fun h => absurd rfl h⟩⟩
    intro x hx
    rcases List.mem_append.1 hx with hx | hx
    · exact htimes x hx
    · rw [List.mem_singleton.1 hx]; exact Nat.le_refl _
  · intro L T lv v now _ _ h; exact absurd rfl h
  · intro L T lv v ⟨h1, _⟩ _
    exact ⟨h1, fun x hx => ⟨(fun h => by cases h), fun _ => by cases hx; exact .of_old h1⟩⟩
  · intro L T dl lv v ⟨h1, h2⟩ hlt _
    refine ⟨h1, fun x hx => ⟨(fun h => by cases h), fun _ => ?_⟩⟩
    cases hx
    refine (h2 dl rfl).2 (fun h => ?_)
    have := (h2 dl rfl).1 h
    omega
  · intro L T dl lv v ⟨h1, _⟩ _ _
    exact ⟨h1, fun x hx => ⟨(fun h => by cases h), fun _ => by cases hx; exact .of_old h1⟩⟩

/-- Leading values only. -/
theorem pace_leading (d : Nat) : Pace I .leadingOnly d (Apart d 2) fun L T dl _ =>
    (dl = none → Old 0 L T ∧ OldBy d 1 L T) ∧ ∀ x, dl = some x → OldBy d 1 L x := by
  constructor
  · intro L T t dl lv ⟨h1, h2⟩ ht hlt
    exact ⟨(fun h => by cases h), h2⟩
  · intro L T t dl lv ⟨h1, h2⟩ ht hlt htimes
    exact ⟨fun _ => ⟨.of_times htimes 0, (h2 dl rfl).mono (Nat.le_refl _) (Nat.le_of_lt hlt)⟩, (fun x hx => by cases hx)⟩
  · intro L T t lv ⟨h1, h2⟩ ht _ htimes
    exact ⟨fun _ => ⟨.of_times htimes 0, h2 t rfl⟩, (fun x hx => by cases hx)⟩
  · intro L T t v _ _ h; exact absurd rfl h
  · intro L T lv v now ⟨h1, h2⟩ ht _ hq
    obtain ⟨h3, h4⟩ := h1 rfl
    refine ⟨hq.snoc (h4.mono (Nat.le_refl _) ht), (fun h => by cases h), fun x hx => ?_⟩
    cases hx
    exact OldBy.snoc (.of_old h3) _
  · intro L T lv v _ h; cases h
  · intro L T dl lv v _ _ h; exact absurd rfl h
  · intro L T dl lv v _ _ h; exact absurd rfl h

/-- Leading and trailing values. -/
theorem pace_both (d : Nat) : Pace I .leadingAndTrailing d (Apart d 3) fun L T dl lv =>
    (dl = none → Old 0 L T ∧ OldBy d 2 L T) ∧
    ∀ x, dl = some x → (x ≤ T ∧ lv = none ∧ Old 0 L T ∧ OldBy d 2 L T) ∨ OldBy d 1 L x := by
  constructor
  · intro L T t dl lv ⟨h1, h2⟩ ht hlt
    refine ⟨(fun h => by cases h), fun x hx => ?_⟩
    rcases h2 x hx with ⟨h3, h4, h5, h6⟩ | h3
    · cases hx; omega
    · exact .inr h3
  · intro L T t dl lv ⟨h1, h2⟩ ht hlt htimes
    refine ⟨fun _ => ⟨.of_times htimes 0, ?_⟩, (fun x hx => by cases hx)⟩
    rcases h2 dl rfl with ⟨h3, h4, h5, h6⟩ | h3
    · exact h6.mono (Nat.le_refl _) ht
    · exact h3.mono (by omega) (Nat.le_of_lt hlt)
  · intro L T t lv ⟨h1, h2⟩ ht _ htimes
    refine ⟨fun _ => ⟨.of_times htimes 0, ?_⟩, (fun x hx => by cases hx)⟩
    rcases h2 t rfl with ⟨h3, h4, h5, h6⟩ | h3
    · exact h6.mono (Nat.le_refl _) ht
    · exact h3.mono (by omega) (Nat.le_refl _)
  · intro L T t v ⟨h1, h2⟩ ht _ htimes hq
    rcases h2 t rfl with ⟨_, h4, _⟩ | h3
    · cases h4
    · refine ⟨hq.snoc (h3.mono (by omega) (Nat.le_refl _)), (fun h => by cases h), fun x hx => .inl ?_⟩
      cases hx
      refine ⟨Nat.le_refl _, rfl, .of_times ?_ 0, h3.snoc _⟩
      intro x hx
      rcases List.mem_append.1 hx with hx | hx
      · exact htimes x hx
      · rw [List.mem_singleton.1 hx]; exact Nat.le_refl _
  · intro L T lv v now ⟨h1, h2⟩ ht _ hq
    obtain ⟨h3, h4⟩ := h1 rfl
    refine ⟨hq.snoc (h4.mono (Nat.le_refl _) ht), (fun h => by cases h), fun x hx => .inr ?_⟩
    cases hx
    exact OldBy.snoc (.of_old h3) _
  · intro L T lv v _ h; cases h
  · intro L T dl lv v ⟨h1, h2⟩ hlt _
    refine ⟨(fun h => by cases h), fun x hx => ?_⟩
    cases hx
    rcases h2 dl rfl with ⟨h3, _⟩ | h3
    · omega
    · exact .inr h3
  · intro L T dl lv v ⟨h1, h2⟩ hle _
    refine ⟨(fun h => by cases h), fun x hx => .inr ?_⟩
    cases hx
    rcases h2 dl rfl with ⟨h3, h4, h5, h6⟩ | h3
    · exact (OldBy.of_old h5).mono (by omega) (Nat.le_refl _)
    · exact .of_old (h3.old.mono (Nat.le_refl _) hle)

/-- On average, one leading value per duration. -/
theorem pace_leading_average (d : Nat) : Pace I .leadingOnly d (fun L => ∀ i a, L[i]? = some a → i * d ≤ a.2)
    fun L T dl _ => L.length * d ≤ dl.getD T := by
  constructor
  · intro L T t dl lv h _ _; exact h
  · intro L T t dl lv h _ hlt _; simp only [Option.getD_none, Option.getD_some] at h ⊢; omega
  · intro L T t lv h _ _ _; exact h
  · intro L T t v _ _ h; exact absurd rfl h
  · intro L T lv v now h ht _ hq
    simp only [Option.getD_none] at h
    refine ⟨?_, ?_⟩
    · intro i a ha
      rcases Nat.lt_or_ge i L.length with hlt | hge
      · rw [List.getElem?_append_left hlt] at ha; exact hq i a ha
      · have hlen := (List.getElem?_eq_some_iff.1 ha).1
        simp only [List.length_append, List.length_singleton] at hlen
        have he : i = L.length := by omega
        rw [he, List.getElem?_append_right (Nat.le_refl _)] at ha
        simp only [Nat.sub_self, List.getElem?_cons_zero, Option.some.injEq] at ha
        rw [← ha, he]
        exact Nat.le_trans h ht
    · simp only [List.length_append, List.length_singleton, Option.getD_some, Nat.succ_mul]
      omega
  · intro L T lv v _ h; cases h
  · intro L T dl lv v _ _ h; exact absurd rfl h
  · intro L T dl lv v _ _ h; exact absurd rfl h

/-- On average, two values per duration. -/
theorem pace_both_average (d : Nat) : Pace I .leadingAndTrailing d
    (fun L => ∀ i a, L[i]? = some a → (i + 1) / 2 * d ≤ a.2)
    fun L T dl lv => (dl = none → (L.length + 1) / 2 * d ≤ T) ∧
      ∀ x, dl = some x → (L.length + 1) / 2 * d ≤ x ∧ ((x ≤ T ∧ lv = none) ∨ (L.length + 2) / 2 * d ≤ x) := by
  have snoc : ∀ {L : List (I × Nat)} {v : I} {t : Nat}, (∀ i a, L[i]? = some a → (i + 1) / 2 * d ≤ a.2) →
      (L.length + 1) / 2 * d ≤ t → ∀ i a, (L ++ [(v, t)])[i]? = some a → (i + 1) / 2 * d ≤ a.2 := by
    intro L v t hq h i a ha
    rcases Nat.lt_or_ge i L.length with hlt | hge
    · rw [List.getElem?_append_left hlt] at ha; exact hq i a ha
    · have hlen := (List.getElem?_eq_some_iff.1 ha).1
      simp only [List.length_append, List.length_singleton] at hlen
      have he : i = L.length := by omega
      rw [he, List.getElem?_append_right (Nat.le_refl _)] at ha
      simp only [Nat.sub_self, List.getElem?_cons_zero, Option.some.injEq] at ha
      rw [← ha, he]
      exact h
  have three : ∀ n : Nat, (n + 1 + 2) / 2 * d = (n + 1) / 2 * d + d := by
    intro n
    rw [show (n + 1 + 2) / 2 = (n + 1) / 2 + 1 from by omega, Nat.succ_mul]
  have two : ∀ n : Nat, (n + 2) / 2 * d ≤ (n + 1) / 2 * d + d := by
    intro n
    have := three n
    have h2 : (n + 2) / 2 * d ≤ (n + 1 + 2) / 2 * d := Nat.mul_le_mul_right d (by omega)
    omega
  constructor
  · intro L T t dl lv ⟨h1, h2⟩ ht hlt
    refine ⟨(fun h => by cases h), fun x hx => ?_⟩
    cases hx
    obtain ⟨h3, h4⟩ := h2 dl rfl
    refine ⟨h3, .inr ?_⟩
    rcases h4 with ⟨h4, _⟩ | h4
    · omega
    · exact h4
  · intro L T t dl lv ⟨h1, h2⟩ ht hlt _
    exact ⟨fun _ => Nat.le_trans (h2 dl rfl).1 (Nat.le_of_lt hlt), (fun x hx => by cases hx)⟩
  · intro L T t lv ⟨h1, h2⟩ ht _ _
    exact ⟨fun _ => (h2 t rfl).1, (fun x hx => by cases hx)⟩
  · intro L T t v ⟨h1, h2⟩ ht _ _ hq
    obtain ⟨h3, h4⟩ := h2 t rfl
    refine ⟨snoc hq h3, (fun h => by cases h), fun x hx => ?_⟩
    cases hx
    rcases h4 with ⟨_, h4⟩ | h4
    · cases h4
    · simp only [List.length_append, List.length_singleton]
      exact ⟨h4, .inl ⟨Nat.le_refl _, trivial⟩⟩
  · intro L T lv v now ⟨h1, _⟩ ht _ hq
    have h3 := h1 rfl
    refine ⟨snoc hq (Nat.le_trans h3 ht), (fun h => by cases h), fun x hx => ?_⟩
    cases hx
    simp only [List.length_append, List.length_singleton]
    have h4 := three L.length
    have h5 := two L.length
    exact ⟨by rw [show L.length + 1 + 1 = L.length + 2 from rfl]; omega, .inr (by omega)⟩
  · intro L T lv v _ h; cases h
  · intro L T dl lv v ⟨h1, h2⟩ hlt _
    refine ⟨(fun h => by cases h), fun x hx => ?_⟩
    cases hx
    obtain ⟨h3, h4⟩ := h2 dl rfl
    refine ⟨h3, .inr ?_⟩
    rcases h4 with ⟨h4, _⟩ | h4
    · omega
    · exact h4
  · intro L T dl lv v ⟨h1, h2⟩ hle _
    refine ⟨(fun h => by cases h), fun x hx => ?_⟩
    cases hx
    obtain ⟨h3, h4⟩ := h2 dl rfl
    have h5 := two L.length
    exact ⟨by omega, .inr (by omega)⟩

end Rx.Timed.Throttle
