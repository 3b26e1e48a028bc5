import Verif.Lemmas.TimedDelay

/-!
# debounce_time
-/

namespace Rx.Timed.Debounce
open Rx.Sched Rx.Timed
open Rx.Timed.Delay (Pend)

variable {S I E : Type} {D : Sub S I E} {s0 : S} {d : Nat}

/-! ### The last value -/

theorem LastGiven.nil : LastGiven ([] : Line I I E) := by
  intro p v a r h
  simp at h

theorem LastGiven.snoc {τ : Line I I E} (h : LastGiven τ) {m : Mark I I E × Nat} (hm : ∀ v, m.1 ≠ .arrived (.next v)) :
    LastGiven (τ ++ [m]) := by
  intro p v a r he hr
  rcases List.eq_nil_or_concat r with rfl | ⟨r', x, rfl⟩
  · have := (List.append_inj' he rfl).2
    simp only [List.cons.injEq, and_true] at this
    exact absurd (by rw [this]) (hm v)
  · have h2 : τ ++ [m] = (p ++ (.arrived (.next v), a) :: r') ++ [x] := by rw [he]; simp
    obtain ⟨h3, _⟩ := List.append_inj' h2 rfl
    simp only [List.concat_eq_append, arrivals_append, List.append_eq_nil_iff] at hr
    obtain ⟨k, hk⟩ := h p v a r' h3 hr.1
    exact ⟨k, by simp [hk]⟩

theorem LastGiven.out {τ : Line I I E} {v : I} {a k : Nat} (h : (arrivals τ).getLast? = some (v, a)) :
    LastGiven (τ ++ [(.out (.next v), k)]) := by
  intro p v' a' r he hr
  rcases List.eq_nil_or_concat r with rfl | ⟨r', x, rfl⟩
  · have := (List.append_inj' he rfl).2
    simp at this
  · have h2 : τ ++ [(.out (.next v), k)] = (p ++ (.arrived (.next v'), a') :: r') ++ [x] := by rw [he]; simp
    obtain ⟨h3, h4⟩ := List.append_inj' h2 rfl
    simp only [List.cons.injEq, and_true] at h4
    subst h4
    simp only [List.concat_eq_append, arrivals_append, List.append_eq_nil_iff] at hr
    have : (arrivals τ).getLast? = some (v', a') := by
      rw [h3, arrivals_append, show ((.arrived (.next v'), a') :: r' : Line I I E) = [(.arrived (.next v'), a')] ++ r'
        from rfl, arrivals_append, arrivals_next, hr.1]
      simp
    rw [h] at this
    cases this
    exact ⟨k, by simp⟩

/-- A value arrived, and nothing was given since. -/
def Fresh (τ : Line I I E) : Prop :=
  ∃ p v a r, τ = p ++ (.arrived (.next v), a) :: r ∧ arrivals r = [] ∧ outs r = []

theorem Fresh.snoc {τ : Line I I E} (h : Fresh τ) {m : Mark I I E × Nat} (h1 : ∀ v, m.1 ≠ .arrived (.next v))
    (h2 : ∀ v, m.1 ≠ .out (.next v)) : Fresh (τ ++ [m]) := by
  obtain ⟨p, v, a, r, rfl, h3, h4⟩ := h
  exact ⟨p, v, a, r ++ [m], by simp, by rw [arrivals_append, h3, arrivals_of_ne h1]; rfl,
    by rw [outs_append, h4, outs_of_ne h2]; rfl⟩

theorem Fresh.not_given {τ : Line I I E} (h : Fresh τ) : ¬ LastGiven τ := by
  obtain ⟨p, v, a, r, rfl, h3, h4⟩ := h
  intro hl
  obtain ⟨k, hk⟩ := hl p v a r rfl h3
  have : (v, k) ∈ outs r := List.mem_filterMap.2 ⟨_, hk, rfl⟩
  rw [h4] at this
  cases this

/-- While the destination is open. -/
structure Live (s : Solo (debounce D d)) (act : Option (Pend I)) (q : List I) (before : List (I × Nat)) : Prop where
  active : s.active = act.toList.map (Pend.work d)
  queue : s.queue = q.flatMap fun v => [.cancel, .schedule (.delayed (some v) s.clock s.clock d)]
  arr : arrivals s.st.port.trace = before ++ act.toList.map (fun p => (p.1, p.2.1)) ++ q.map (fun v => (v, s.clock))
  sub : ((outs s.st.port.trace).map (·.1)).Sublist (before.map (·.1))
  given : act = none → q = [] → LastGiven s.st.port.trace
  one : s.st.counter ≠ 0 → s.st.counter = 1 ∧ (act ≠ none ∨ q ≠ [])
  fresh : s.st.counter ≠ 0 → Fresh s.st.port.trace
  zero : Throughout Newest s.st.port.trace → s.st.counter = 0 → LastGiven s.st.port.trace
  idle : s.tick = none → ∀ p, act = some p → p.2.2.1 = s.clock
  busy : ∀ t, s.tick = some t → ∀ p, act = some p → updateTick p.2.2.1 t = s.clock ∧
    (p.2.2.2 = true → p.2.2.1 = s.clock ∧ s.clock < p.2.1 + d)
  done : s.st.completed = true ∨ s.st.unsubscribed = true → s.st.counter ≠ 0
  completed : s.st.completed = true ↔ Arrived .complete s.st.port.trace
  unsubscribed : s.st.unsubscribed = true → Arrived .complete s.st.port.trace ∨ Arrived .unsubscribe s.st.port.trace

structure Inv (D : Sub S I E) (s0 : S) (d : Nat) (s : Solo (debounce D d)) : Prop where
  right : s.st.port.Right D s0 s.clock
  allowed : Throughout (Allowed D s0 d) s.st.port.trace
  settled : Throughout Newest s.st.port.trace → Throughout Settled s.st.port.trace
  tick : ∀ t, s.tick = some t → t ≤ s.clock
  atOnce : ∀ e k, s.st.port.trace.getLast? = some (.arrived (.error e), k) → D.isClosed s.st.port.dest = true
  live : D.isClosed s.st.port.dest = false → ∃ act q before, Live s act q before

theorem Inv.init (D : Sub S I E) (s0 : S) (d : Nat) :
    Inv D s0 d { st := { port := { dest := s0 } } } := by
  refine ⟨⟨rfl, by simp⟩, Throughout.nil _, fun _ => Throughout.nil _, (fun t h => by cases h),
    (fun e k h => by simp at h), fun _ => ⟨none, [], [], ?_⟩⟩
  refine ⟨rfl, rfl, rfl, List.Sublist.refl _, fun _ _ => LastGiven.nil, by simp, by simp, fun _ _ => LastGiven.nil, by simp,
    (fun t h => by cases h), by simp, ?_, by simp⟩
  simp [Arrived]

/-! ### What may follow -/

theorem allowed_arrived {τ : Line I I E} {n : SubscriberNotification I E} {now : Nat} {p : Port S I I E}
    (hp : p.trace = τ) (h : p.Right D s0 now)
    (hl : ∀ e k, τ.getLast? = some (.arrived (.error e), k) → D.isClosed p.dest = true) :
    Allowed D s0 d τ (.arrived n, now) := by
  subst hp
  refine ⟨h.orderly (fun hn => absurd rfl (hn n)), by simp, by simp, by simp, by simp, ?_⟩
  intro e k hk ho
  rw [← h.fed, hl e k hk] at ho
  cases ho

theorem allowed_out {p : Port S I I E} {now : Nat} {n : SubscriberNotification I E} (h : p.Right D s0 now)
    (ho : D.isClosed p.dest = false)
    (hl : ∀ e k, p.trace.getLast? = some (.arrived (.error e), k) → n = .error e ∧ now = k)
    (hv : ∀ v, n = .next v → ∃ before a after, arrivals p.trace = before ++ (v, a) :: after ∧ a + d ≤ now ∧
      (∀ p ∈ after, p.2 = now) ∧ ((outs p.trace).map (·.1)).Sublist (before.map (·.1)))
    (hc : n = .complete → Arrived .complete p.trace)
    (hu : n = .unsubscribe → Arrived .unsubscribe p.trace)
    (he : ∀ e, n = .error e → p.trace.getLast? = some (.arrived (.error e), now)) :
    Allowed D s0 d p.trace (.out n, now) := by
  refine ⟨h.orderly (fun _ => ho), ?_, ?_, ?_, ?_, ?_⟩
  · intro v hn; exact hv v (by simpa using hn)
  · intro hn; exact hc (by simpa using hn)
  · intro hn; exact hu (by simpa using hn)
  · intro e hn; exact he e (by simpa using hn)
  · intro e k hk _
    obtain ⟨rfl, rfl⟩ := hl e k hk
    rfl

theorem allowed_closed {p : Port S I I E} {now : Nat} (h : p.Right D s0 now)
    (ho : D.isClosed p.dest = false)
    (hl : ∀ e k, p.trace.getLast? = some (.arrived (.error e), k) → D.isClosed p.dest = true) :
    Allowed D s0 d p.trace (.closed, now) := by
  refine ⟨h.orderly (fun _ => ho), by simp, by simp, by simp, by simp, ?_⟩
  intro e k hk _
  rw [hl e k hk] at ho
  cases ho

/-- A mark that is neither completion nor unsubscription keeps completion last. -/
theorem settled_snoc {τ : Line I I E} {m : Mark I I E × Nat}
    (h : Throughout Newest τ → Throughout Settled τ)
    (hm : Throughout Newest (τ ++ [m]) → Settled τ m) :
    Throughout Newest (τ ++ [m]) → Throughout Settled (τ ++ [m]) :=
  fun hn => (h (Throughout.prefix hn)).snoc (hm hn)

theorem settled_other {τ : Line I I E} {m : Mark I I E × Nat} (h1 : m.1 ≠ .out .complete) (h2 : m.1 ≠ .out .unsubscribe) :
    Settled τ m := by
  rintro (h | h)
  · exact absurd h h1
  · exact absurd h h2

theorem Inv.of_closed {s s' : Solo (debounce D d)} (h : Inv D s0 d s) (hc : D.isClosed s.st.port.dest = true)
    (hp : s'.st.port = s.st.port) (hk : s.clock ≤ s'.clock) (ht : ∀ t, s'.tick = some t → t ≤ s'.clock) :
    Inv D s0 d s' := by
  refine ⟨by rw [hp]; exact h.right.mono hk, by rw [hp]; exact h.allowed, by rw [hp]; exact h.settled, ht,
    by rw [hp]; exact h.atOnce, ?_⟩
  intro ho
  rw [hp, hc] at ho
  cases ho

theorem Inv.shut {s : Solo (debounce D d)} (h1 : s.st.port.Right D s0 s.clock)
    (h2 : Throughout (Allowed D s0 d) s.st.port.trace)
    (h5 : Throughout Newest s.st.port.trace → Throughout Settled s.st.port.trace)
    (h3 : ∀ t, s.tick = some t → t ≤ s.clock)
    (h4 : D.isClosed s.st.port.dest = true) : Inv D s0 d s :=
  ⟨h1, h2, h5, h3, fun _ _ _ => h4, fun h => by rw [h4] at h; cases h⟩

/-! ### Calls -/

theorem Inv.input (hD : HigherOrder.Closes D) {s : Solo (debounce D d)} (h : Inv D s0 d s) (i : Input I E) :
    Inv D s0 d (s.input i) := by
  obtain ⟨ka, kt, kc⟩ := Solo.input_keep (c := debounce D d) i s
  have kst : (s.input i).st = ((debounce D d).input i s.clock s.st).1 := (Solo.requests_keep _ _).2.2.2
  have htick : ∀ t, (s.input i).tick = some t → t ≤ (s.input i).clock := by
    intro t ht; rw [kt] at ht; rw [kc]; exact h.tick t ht
  cases hc : D.isClosed s.st.port.dest with
  | true =>
    cases i with
    | close =>
      refine h.of_closed hc ?_ (by rw [kc]; exact Nat.le_refl _) htick
      rw [kst]
      exact Port.close_closed hc _
    | note n =>
      have hp : (Solo.input (c := debounce D d) (.note n) s).st.port = s.st.port.mark (.arrived n) s.clock := by
        rw [kst]
        have hc' : D.isClosed (s.st.port.mark (.arrived n) s.clock).dest = true := hc
        cases n with
        | next v => rfl
        | error e => exact Port.give_closed hc' _ _
        | complete =>
          show (State.complete D s.clock (s.st.arrive (.arrived .complete) s.clock)).port = _
          unfold State.complete
          dsimp only
          split
          · exact Port.give_closed hc' _ _
          · rfl
        | unsubscribe =>
          show (State.unsubscribe D _ s.clock (s.st.arrive (.arrived .unsubscribe) s.clock)).port = _
          unfold State.unsubscribe
          rw [if_pos (by simp [State.arrive, hc'])]
          rfl
      refine Inv.shut ?_ ?_ ?_ htick ?_
      · rw [hp, kc]; exact h.right.mark n
      · rw [hp, Port.mark_trace]
        exact h.allowed.snoc (allowed_arrived rfl h.right h.atOnce)
      · rw [hp, Port.mark_trace]
        exact settled_snoc h.settled (fun _ => settled_other (by simp) (by simp))
      · rw [hp]; exact hc
  | false =>
    obtain ⟨act, q, before, hl⟩ := h.live hc
    cases i with
    | close =>
      have hp : (Solo.input (c := debounce D d) .close s).st.port = ⟨D.unsubscribe s.st.port.dest, s.st.port.trace ++ [(.closed, s.clock)]⟩ := by
        rw [kst]; exact Port.close_open hc _
      refine Inv.shut ?_ ?_ ?_ htick ?_
      · rw [hp, kc, ← Port.close_open hc]; exact h.right.close
      · rw [hp]
        exact h.allowed.snoc (allowed_closed h.right hc h.atOnce)
      · rw [hp]
        exact settled_snoc h.settled (fun _ => settled_other (by simp) (by simp))
      · rw [hp]; exact hD s.st.port.dest .unsubscribe rfl
    | note n =>
      have hm : (s.st.port.mark (.arrived n) s.clock).Right D s0 s.clock := h.right.mark n
      have hma : Throughout (Allowed D s0 d) (s.st.port.mark (.arrived n) s.clock).trace :=
        h.allowed.snoc (allowed_arrived rfl h.right h.atOnce)
      have hmc : D.isClosed (s.st.port.mark (.arrived n) s.clock).dest = false := hc
      have hlast : (s.st.port.mark (.arrived n) s.clock).trace.getLast? = some (.arrived n, s.clock) := by
        simp [Port.mark_trace]
      have hms : Throughout Newest (s.st.port.mark (.arrived n) s.clock).trace →
          Throughout Settled (s.st.port.mark (.arrived n) s.clock).trace :=
        settled_snoc h.settled (fun _ => settled_other (by simp) (by simp))
      have hlg : (∀ v, n ≠ .next v) → LastGiven s.st.port.trace →
          LastGiven (s.st.port.mark (.arrived n) s.clock).trace :=
        fun hn h => LastGiven.snoc h (fun v => by simpa using hn v)
      have hfresh : (∀ v, n ≠ .next v) → s.st.counter ≠ 0 →
          Fresh (s.st.port.mark (.arrived n) s.clock).trace :=
        fun hn h => (hl.fresh h).snoc (fun v => by simpa using hn v) (by simp)
      have hzero : (∀ v, n ≠ .next v) → Throughout Newest (s.st.port.mark (.arrived n) s.clock).trace →
          s.st.counter = 0 → LastGiven (s.st.port.mark (.arrived n) s.clock).trace :=
        fun hn h h0 => hlg hn (hl.zero (Throughout.prefix h) h0)
      cases n with
      | next v =>
        have e1 : Solo.input (c := debounce D d) (.note (.next v)) s =
            ⟨⟨s.st.port.mark (.arrived (.next v)) s.clock, s.st.completed, s.st.unsubscribed, 1⟩, s.clock,
              s.queue ++ [.cancel] ++ [.schedule (.delayed (some v) s.clock s.clock d)], s.active, s.tick⟩ := by
          simp only [Solo.input, List.foldl_cons, List.foldl_nil, Solo.request, Work.onScheduled, Work.newDelayed,
            updateTick_zero]
          rfl
        rw [e1]
        refine ⟨hm, hma, hms, h.tick, ?_, fun _ => ⟨act, q ++ [v], before, ?_⟩⟩
        · intro e k hk
          dsimp only at hk
          rw [hlast] at hk
          cases hk
        · have ho : outs (s.st.port.mark (.arrived (.next v)) s.clock).trace = outs s.st.port.trace := by
            rw [Port.mark_trace, outs_append, outs_of_ne (by simp), List.append_nil]
          have ha : arrivals (s.st.port.mark (.arrived (.next v)) s.clock).trace =
              arrivals s.st.port.trace ++ [(v, s.clock)] := by
            rw [Port.mark_trace, arrivals_append, arrivals_next]
          refine ⟨hl.active, ?_, ?_, ?_, ?_, ?_, ?_, ?_, hl.idle, hl.busy, ?_, ?_, ?_⟩
          · simp [hl.queue]
          · rw [ha, hl.arr]; simp
          · rw [ho]; exact hl.sub
          · intro _ h; simp at h
          · intro _; exact ⟨rfl, .inr (by simp)⟩
          · intro _; exact ⟨s.st.port.trace, v, s.clock, [], rfl, rfl, rfl⟩
          · intro _ h; cases h
          · intro _ h; cases h
          · rw [Port.mark_trace, arrived_snoc]; simpa using hl.completed
          · intro hu
            rw [Port.mark_trace, arrived_snoc, arrived_snoc]
            simpa using hl.unsubscribed hu
      | error e =>
        have hp : (Solo.input (c := debounce D d) (.note (.error e)) s).st.port =
            (s.st.port.mark (.arrived (.error e)) s.clock).give D (.error e) s.clock := by
          rw [kst]; rfl
        refine Inv.shut ?_ ?_ ?_ htick ?_
        · rw [hp, kc]; exact hm.give _
        · rw [hp, Port.give_open hmc]
          refine hma.snoc (allowed_out hm hmc ?_ (by simp) (by simp) (by simp) ?_)
          · intro e' k hk
            rw [hlast] at hk
            cases hk
            exact ⟨rfl, rfl⟩
          · intro e' he
            cases he
            exact hlast
        · rw [hp, Port.give_open hmc]
          exact settled_snoc hms (fun _ => settled_other (by simp) (by simp))
        · rw [hp, Port.give_open hmc]; exact hD _ (.error e) rfl
      | complete =>
        have ho : outs (s.st.port.mark (.arrived .complete) s.clock).trace = outs s.st.port.trace := by
          rw [Port.mark_trace, outs_append, outs_of_ne (by simp), List.append_nil]
        have ha : arrivals (s.st.port.mark (.arrived .complete) s.clock).trace = arrivals s.st.port.trace := by
          rw [Port.mark_trace, arrivals_append, arrivals_of_ne (by simp), List.append_nil]
        by_cases h0 : s.st.counter = 0
        · have hp : (Solo.input (c := debounce D d) (.note .complete) s).st.port =
              (s.st.port.mark (.arrived .complete) s.clock).give D .complete s.clock := by
            rw [kst]
            show (State.complete D s.clock (s.st.arrive (.arrived .complete) s.clock)).port = _
            unfold State.complete
            dsimp only
            rw [if_pos (show (s.st.arrive _ _).counter = 0 from h0)]
            rfl
          refine Inv.shut ?_ ?_ ?_ htick ?_
          · rw [hp, kc]; exact hm.give _
          · rw [hp, Port.give_open hmc]
            refine hma.snoc (allowed_out hm hmc ?_ (by simp) ?_ (by simp) (by simp))
            · intro e' k hk
              rw [hlast] at hk
              cases hk
            · intro _
              refine ⟨s.clock, ?_⟩
              rw [Port.mark_trace]; simp
          · rw [hp, Port.give_open hmc]
            exact settled_snoc hms (fun hn _ => hzero (by simp) (Throughout.prefix hn) h0)
          · rw [hp, Port.give_open hmc]; exact hD _ .complete rfl
        · have e1 : Solo.input (c := debounce D d) (.note .complete) s =
              ⟨⟨s.st.port.mark (.arrived .complete) s.clock, true, true, s.st.counter⟩, s.clock, s.queue, s.active,
                s.tick⟩ := by
            have : State.complete D s.clock (s.st.arrive (.arrived .complete) s.clock) =
                ⟨s.st.port.mark (.arrived .complete) s.clock, true, true, s.st.counter⟩ := by
              unfold State.complete
              dsimp only
              rw [if_neg (show ¬ (s.st.arrive _ _).counter = 0 from h0)]
              rfl
            simp only [Solo.input, this, Port.teardown_of_open hmc, List.foldl_nil]
          rw [e1]
          refine ⟨hm, hma, hms, h.tick, ?_, fun _ => ⟨act, q, before, ?_⟩⟩
          · intro e k hk
            dsimp only at hk
            rw [hlast] at hk
            cases hk
          · refine ⟨hl.active, hl.queue, ?_, ?_, ?_, hl.one, hfresh (by simp), hzero (by simp), hl.idle, hl.busy, fun _ => h0, ?_, ?_⟩
            · rw [ha]; exact hl.arr
            · rw [ho]; exact hl.sub
            · intro h1 h2; exact hlg (by simp) (hl.given h1 h2)
            · exact ⟨fun _ => ⟨s.clock, by rw [Port.mark_trace]; simp⟩, fun _ => rfl⟩
            · intro _; exact .inl ⟨s.clock, by rw [Port.mark_trace]; simp⟩
      | unsubscribe =>
        have ho : outs (s.st.port.mark (.arrived .unsubscribe) s.clock).trace = outs s.st.port.trace := by
          rw [Port.mark_trace, outs_append, outs_of_ne (by simp), List.append_nil]
        have ha : arrivals (s.st.port.mark (.arrived .unsubscribe) s.clock).trace = arrivals s.st.port.trace := by
          rw [Port.mark_trace, arrivals_append, arrivals_of_ne (by simp), List.append_nil]
        have har : Arrived .unsubscribe (s.st.port.mark (.arrived .unsubscribe) s.clock).trace :=
          ⟨s.clock, by rw [Port.mark_trace]; simp⟩
        have hcm : s.st.completed = true ↔ Arrived .complete (s.st.port.mark (.arrived .unsubscribe) s.clock).trace := by
          rw [Port.mark_trace, arrived_snoc]; simpa using hl.completed
        by_cases h0 : s.st.unsubscribed = false ∧ s.st.counter = 0
        · have hp : (Solo.input (c := debounce D d) (.note .unsubscribe) s).st.port =
              (s.st.port.mark (.arrived .unsubscribe) s.clock).give D .unsubscribe s.clock := by
            rw [kst]
            show (State.unsubscribe D (D.isClosed s.st.port.dest || s.st.unsubscribed) s.clock
              (s.st.arrive (.arrived .unsubscribe) s.clock)).port = _
            unfold State.unsubscribe
            rw [if_neg (by simp [hc, h0.1])]
            dsimp only
            rw [if_pos (show (s.st.arrive _ _).counter = 0 from h0.2)]
            rfl
          refine Inv.shut ?_ ?_ ?_ htick ?_
          · rw [hp, kc]; exact hm.give _
          · rw [hp, Port.give_open hmc]
            refine hma.snoc (allowed_out hm hmc ?_ (by simp) (by simp) ?_ (by simp))
            · intro e' k hk
              rw [hlast] at hk
              cases hk
            · intro _
              exact har
          · rw [hp, Port.give_open hmc]
            exact settled_snoc hms (fun hn _ => hzero (by simp) (Throughout.prefix hn) h0.2)
          · rw [hp, Port.give_open hmc]; exact hD _ .unsubscribe rfl
        · have h0' : s.st.counter ≠ 0 := by
            cases hu : s.st.unsubscribed with
            | true => exact hl.done (.inr hu)
            | false => exact fun h => h0 ⟨hu, h⟩
          have e1 : Solo.input (c := debounce D d) (.note .unsubscribe) s =
              ⟨⟨s.st.port.mark (.arrived .unsubscribe) s.clock, s.st.completed, true, s.st.counter⟩, s.clock, s.queue,
                s.active, s.tick⟩ := by
            have : State.unsubscribe D (D.isClosed (s.st.arrive (.arrived .unsubscribe) s.clock).port.dest ||
                (s.st.arrive (.arrived .unsubscribe) s.clock).unsubscribed) s.clock
                (s.st.arrive (.arrived .unsubscribe) s.clock) =
                ⟨s.st.port.mark (.arrived .unsubscribe) s.clock, s.st.completed, true, s.st.counter⟩ := by
              unfold State.unsubscribe
              cases hu : s.st.unsubscribed with
              | true =>
                rw [if_pos (by simp [State.arrive, hu])]
                simp only [State.arrive, hu]
              | false =>
                rw [if_neg (by simp [State.arrive, hu, hmc])]
                dsimp only
                rw [if_neg (show ¬ (s.st.arrive _ _).counter = 0 from h0')]
                rfl
            simp only [Solo.input, this, Port.teardown_of_open hmc, List.foldl_nil]
          rw [e1]
          refine ⟨hm, hma, hms, h.tick, ?_, fun _ => ⟨act, q, before, ?_⟩⟩
          · intro e k hk
            dsimp only at hk
            rw [hlast] at hk
            cases hk
          · refine ⟨hl.active, hl.queue, ?_, ?_, ?_, hl.one, hfresh (by simp), hzero (by simp), hl.idle, hl.busy, fun _ => h0', hcm,
              fun _ => .inr har⟩
            · rw [ha]; exact hl.arr
            · rw [ho]; exact hl.sub
            · intro h1 h2; exact hlg (by simp) (hl.given h1 h2)

/-! ### Ticks -/

theorem process_queue (k : Nat) (q : List I) (l : List (Work I × Bool)) :
    (q.flatMap fun v => [.cancel, (.schedule (.delayed (some v) k k d) : Req I)]).foldl
      (Solo.process (c := debounce D d)) l =
      match q.getLast? with | none => l | some v => [Pend.work d (v, k, k, false)] := by
  induction q generalizing l with
  | nil => simp
  | cons v q ih =>
    simp only [List.flatMap_cons, List.cons_append, List.nil_append, List.foldl_cons]
    rw [ih]
    simp only [Solo.process, List.nil_append]
    cases hq : q.getLast? with
    | none =>
      rw [List.getLast?_eq_none_iff] at hq
      subst hq
      rfl
    | some w =>
      have : (v :: q).getLast? = some w := by
        cases q with
        | nil => cases hq
        | cons a q => rw [List.getLast?_cons_cons]; exact hq
      rw [this]

theorem Inv.drain {s : Solo (debounce D d)} (h : Inv D s0 d s) {t : Nat} (f : Pend I → Pend I)
    (hf : ∀ p, (f p).1 = p.1 ∧ (f p).2.1 = p.2.1)
    (hb : D.isClosed s.st.port.dest = false → ∀ act q before, Live s act q before → ∀ p, act = some p →
      updateTick (f p).2.2.1 t = updateTick s.clock t ∧
      ((f p).2.2.2 = true → (f p).2.2.1 = updateTick s.clock t ∧ updateTick s.clock t < (f p).2.1 + d))
    {s' : Solo (debounce D d)} (h1 : s'.st = s.st) (h2 : s'.clock = updateTick s.clock t) (h3 : s'.queue = [])
    (h4 : ∀ act : Option (Pend I), s.active = act.toList.map (Pend.work d) →
      s'.active = s.queue.foldl Solo.process (act.toList.map fun p => Pend.work d (f p)))
    (h5 : s'.tick = some t) : Inv D s0 d s' := by
  have hle : s.clock ≤ s'.clock := by rw [h2, updateTick_max]; omega
  have htick : ∀ t, s'.tick = some t → t ≤ s'.clock := by
    intro t' ht
    rw [h5] at ht
    cases ht
    rw [h2, updateTick_max]; omega
  refine ⟨by rw [h1]; exact h.right.mono hle, by rw [h1]; exact h.allowed, by rw [h1]; exact h.settled, htick,
    by rw [h1]; exact h.atOnce, ?_⟩
  intro ho
  rw [h1] at ho
  obtain ⟨act, q, before, hl⟩ := h.live ho
  have hact := h4 act hl.active
  rw [hl.queue, process_queue] at hact
  rcases List.eq_nil_or_concat q with rfl | ⟨q', v, rfl⟩
  · -- nothing new
    refine ⟨act.map f, [], before, ?_⟩
    constructor
    · rw [hact]; cases act <;> rfl
    · rw [h3]; rfl
    · rw [h1, hl.arr]
      cases act with
      | none => rfl
      | some p => simp [(hf p).1, (hf p).2]
    · rw [h1]; exact hl.sub
    · rw [h1]
      intro ha _
      refine hl.given ?_ rfl
      cases act with
      | none => rfl
      | some p => cases ha
    · rw [h1]
      intro h0
      obtain ⟨k1, k2⟩ := hl.one h0
      refine ⟨k1, .inl ?_⟩
      rcases k2 with k2 | k2
      · cases act with
        | none => exact absurd rfl k2
        | some p => simp
      · exact absurd rfl k2
    · rw [h1]; exact hl.fresh
    · rw [h1]; exact hl.zero
    · rw [h5]; intro h; cases h
    · intro t' ht p hp
      rw [h5] at ht
      cases ht
      rw [h2]
      cases act with
      | none => cases hp
      | some p' => cases hp; exact hb ho _ _ _ hl p' rfl
    · rw [h1]; exact hl.done
    · rw [h1]; exact hl.completed
    · rw [h1]; exact hl.unsubscribed
  · -- the newest value replaces what was pending
    rw [List.concat_eq_append] at hl hact
    rw [List.getLast?_concat] at hact
    refine ⟨some (v, s.clock, s.clock, false), [],
      before ++ act.toList.map (fun p => (p.1, p.2.1)) ++ q'.map (fun v => (v, s.clock)), ?_⟩
    constructor
    · rw [hact]; rfl
    · rw [h3]; rfl
    · rw [h1, hl.arr]; simp
    · rw [h1]
      refine hl.sub.trans ?_
      simp only [List.map_append, List.append_assoc]
      exact List.sublist_append_left _ _
    · intro h; cases h
    · rw [h1]
      intro h0
      exact ⟨(hl.one h0).1, .inl (by simp)⟩
    · rw [h1]; exact hl.fresh
    · rw [h1]; exact hl.zero
    · rw [h5]; intro h; cases h
    · intro t' ht p hp
      rw [h5] at ht
      cases ht
      cases hp
      exact ⟨h2.symm, fun h => by cases h⟩
    · rw [h1]; exact hl.done
    · rw [h1]; exact hl.completed
    · rw [h1]; exact hl.unsubscribed

/-- A closure of a value whose destination is closed does nothing visible. -/
theorem exec_closed {st : State S I E} (hc : D.isClosed st.port.dest = true) (v : I) (t now : Nat) :
    ((debounce D d).exec v t now st).2.1.port = st.port := by
  show (State.finish D _ now _).port = _
  have hg : st.port.give D (.next v) now = st.port := Port.give_closed hc _ _
  unfold State.finish
  rw [if_neg (by simp [hg, hc]), if_neg (by simp [hg, hc])]
  exact hg

theorem Inv.work (hD : HigherOrder.Closes D) {s s' : Solo (debounce D d)} (h : Inv D s0 d s) {t : Nat}
    {pre post : List (Work I × Bool)} {w w' : Work I} {res : WorkResult} (ht : s.tick = some t)
    (ha : s.active = pre ++ (w, false) :: post)
    (hw : Solo.tickWork (c := debounce D d) t s w = some (w', s', res)) :
    Inv D s0 d { s' with active := pre ++ (if res = .done then [] else [(w', true)]) ++ post } := by
  have hk := Solo.tickWork_own hw
  have htick : ∀ t', s'.tick = some t' → t' ≤ s'.clock := by
    intro t' ht'
    rw [hk.tick] at ht'
    rw [hk.clock]
    exact h.tick t' ht'
  cases hc : D.isClosed s.st.port.dest with
  | true =>
    have hp : s'.st.port = s.st.port := by
      refine Solo.tickWork_keeps (c := debounce D d) (P := fun x => x.st.port = s.st.port) ?_ rfl hw
      intro b x hx
      have : (Solo.runBody t b x).2.1.st = ((debounce D d).exec b t x.clock x.st).2.1 :=
        (Solo.requests_keep _ _).2.2.2
      rw [this, exec_closed (by rw [hx]; exact hc), hx]
    exact h.of_closed hc hp (by rw [hk.clock]; exact Nat.le_refl _) htick
  | false =>
    obtain ⟨act, q, before, hl⟩ := h.live hc
    have hact := hl.active
    rw [ha] at hact
    obtain ⟨p, rfl⟩ : ∃ p, act = some p := by
      cases act with
      | none => simp at hact
      | some p => exact ⟨p, rfl⟩
    obtain ⟨v, a, cu, f⟩ := p
    have hpp : pre = [] ∧ post = [] ∧ w = .delayed (some v) a cu d ∧ f = false := by
      cases pre with
      | nil =>
        simp only [Option.toList_some, List.map_cons, List.map_nil, List.nil_append, List.cons.injEq, Pend.work,
          Prod.mk.injEq] at hact
        exact ⟨rfl, hact.2, hact.1.1, hact.1.2.symm⟩
      | cons x pre => simp at hact
    obtain ⟨rfl, rfl, rfl, rfl⟩ := hpp
    obtain ⟨hcu, _⟩ := hl.busy t ht (v, a, cu, false) rfl
    simp only at hcu
    by_cases hdue : a + d ≤ s.clock
    · have hrun : s' = (Solo.runBody (c := debounce D d) t v s).2.1 ∧ res = .done := by
        simp only [Solo.tickWork, hcu, if_pos hdue, Option.some.injEq, Prod.mk.injEq] at hw
        exact ⟨hw.2.1.symm, hw.2.2.symm⟩
      obtain ⟨hs', rfl⟩ := hrun
      simp only [if_pos, List.append_nil]
      have hst : s'.st = ((debounce D d).exec v t s.clock s.st).2.1 := by
        rw [hs']; exact (Solo.requests_keep _ _).2.2.2
      have harr := hl.arr
      simp only [Option.toList_some, List.map_cons, List.map_nil] at harr
      -- the value
      have hnoerr : ∀ e k, s.st.port.trace.getLast? ≠ some (.arrived (.error e), k) := by
        intro e k hk'
        rw [h.atOnce e k hk'] at hc
        cases hc
      have hr1 : (s.st.port.give D (.next v) s.clock).Right D s0 s.clock := h.right.give _
      have ha1 : Throughout (Allowed D s0 d) (s.st.port.give D (.next v) s.clock).trace := by
        rw [Port.give_open hc]
        refine h.allowed.snoc (allowed_out h.right hc (fun e k hk' => absurd hk' (hnoerr e k)) ?_ (by simp) (by simp)
          (by simp))
        intro v' hv'
        cases hv'
        refine ⟨before, a, q.map (fun v => (v, s.clock)), by rw [harr]; simp, hdue, ?_, hl.sub⟩
        intro p hp
        obtain ⟨v', _, rfl⟩ := List.mem_map.1 hp
        rfl
      have htr1 : (s.st.port.give D (.next v) s.clock).trace = s.st.port.trace ++ [(.out (.next v), s.clock)] := by
        rw [Port.give_open hc]
      have hs1 : Throughout Newest (s.st.port.give D (.next v) s.clock).trace →
          Throughout Settled (s.st.port.give D (.next v) s.clock).trace := by
        rw [htr1]
        exact settled_snoc h.settled (fun _ => settled_other (by simp) (by simp))
      have hlg : Throughout Newest (s.st.port.give D (.next v) s.clock).trace →
          LastGiven (s.st.port.give D (.next v) s.clock).trace := by
        rw [htr1]
        intro hn
        obtain ⟨a', ha'⟩ := Throughout.last hn v rfl
        exact LastGiven.out ha'
      have ho1 : outs (s.st.port.give D (.next v) s.clock).trace = outs s.st.port.trace ++ [(v, s.clock)] := by
        rw [htr1, outs_append, outs_next]
      have hav1 : arrivals (s.st.port.give D (.next v) s.clock).trace = arrivals s.st.port.trace := by
        rw [htr1, arrivals_append, arrivals_of_ne (by simp), List.append_nil]
      have hlast1 : (s.st.port.give D (.next v) s.clock).trace.getLast? = some (.out (.next v), s.clock) := by
        rw [htr1]; simp
      have hexec : ((debounce D d).exec v t s.clock s.st).2.1 = State.finish D s.st.counter s.clock
        ⟨s.st.port.give D (.next v) s.clock, s.st.completed, s.st.unsubscribed, 0⟩ := rfl
      have hcase : ((debounce D d).exec v t s.clock s.st).2.1.port = s.st.port.give D (.next v) s.clock ∧
            ((D.isClosed (s.st.port.give D (.next v) s.clock).dest = false →
              (s.st.completed = true ∨ s.st.unsubscribed = true → s.st.counter ≠ 1) ∧
              ((debounce D d).exec v t s.clock s.st).2.1 = ⟨s.st.port.give D (.next v) s.clock, s.st.completed,
                s.st.unsubscribed, 0⟩)) ∨
          (∃ n, ((debounce D d).exec v t s.clock s.st).2.1.port =
              (s.st.port.give D (.next v) s.clock).give D n s.clock ∧
            D.isClosed (s.st.port.give D (.next v) s.clock).dest = false ∧ s.st.counter = 1 ∧
            (n = .complete ∧ s.st.completed = true ∨
              n = .unsubscribe ∧ s.st.unsubscribed = true ∧ s.st.completed = false)) := by
        rw [hexec]
        unfold State.finish
        dsimp only
        cases hcl : D.isClosed (s.st.port.give D (.next v) s.clock).dest with
        | true =>
          left
          rw [if_neg (by simp), if_neg (by simp)]
          exact ⟨rfl, fun h => by cases h⟩
        | false =>
          by_cases hn1 : s.st.counter = 1
          · cases hcm : s.st.completed with
            | true =>
              right
              rw [if_pos (by simp [hn1])]
              exact ⟨.complete, rfl, rfl, hn1, .inl ⟨rfl, rfl⟩⟩
            | false =>
              rw [if_neg (by simp)]
              cases hu : s.st.unsubscribed with
              | true =>
                right
                rw [if_pos (by simp [hn1])]
                exact ⟨.unsubscribe, rfl, rfl, hn1, .inr ⟨rfl, rfl, rfl⟩⟩
              | false =>
                left
                rw [if_neg (by simp)]
                exact ⟨rfl, fun _ => ⟨by simp, rfl⟩⟩
          · left
            rw [if_neg (by simp [hn1]), if_neg (by simp [hn1])]
            exact ⟨rfl, fun _ => ⟨fun _ => hn1, rfl⟩⟩
      rcases hcase with ⟨hp, hrest⟩ | ⟨n, hp, hcl, hn1, hn⟩
      · cases hcl : D.isClosed (s.st.port.give D (.next v) s.clock).dest with
        | true =>
          refine Inv.shut ?_ ?_ ?_ htick ?_
          · show s'.st.port.Right D s0 s'.clock
            rw [hst, hp, hk.clock]; exact hr1
          · show Throughout _ s'.st.port.trace
            rw [hst, hp]; exact ha1
          · show Throughout _ s'.st.port.trace → Throughout _ s'.st.port.trace
            rw [hst, hp]; exact hs1
          · show D.isClosed s'.st.port.dest = true
            rw [hst, hp]; exact hcl
        | false =>
          obtain ⟨hflags, hst1⟩ := hrest hcl
          have hflags' : ¬ (s.st.completed = true ∨ s.st.unsubscribed = true) := fun hf =>
            hflags hf (hl.one (hl.done hf)).1
          rw [hst1] at hst
          have hq : s'.queue = s.queue := by
            rw [hs']
            show (List.foldl Solo.request _ ((debounce D d).exec v t s.clock s.st).2.2.1).queue = _
            have : ((debounce D d).exec v t s.clock s.st).2.2.1 = [] := by
              show s.st.port.teardown D (State.finish D s.st.counter s.clock
                ⟨s.st.port.give D (.next v) s.clock, s.st.completed, s.st.unsubscribed, 0⟩).port = []
              rw [← hexec, hst1]
              exact Port.teardown_of_open hcl
            rw [this]
            rfl
          refine ⟨?_, ?_, ?_, htick, ?_, fun _ => ⟨none, q, before ++ [(v, a)], ?_⟩⟩
          · show s'.st.port.Right D s0 s'.clock
            rw [hst, hk.clock]; exact hr1
          · show Throughout _ s'.st.port.trace
            rw [hst]; exact ha1
          · show Throughout _ s'.st.port.trace → Throughout _ s'.st.port.trace
            rw [hst]; exact hs1
          · intro e k hk'
            replace hk' : s'.st.port.trace.getLast? = _ := hk'
            rw [hst] at hk'
            dsimp only at hk'
            rw [hlast1] at hk'
            cases hk'
          · constructor
            · rfl
            · show s'.queue = _
              rw [hq, hl.queue]
              dsimp only
              rw [hk.clock]
            · show arrivals s'.st.port.trace = _ ++ _ ++ List.map (fun v => (v, s'.clock)) q
              rw [hst, hk.clock]
              dsimp only
              rw [hav1, harr]
              simp
            · show List.Sublist (List.map _ (outs s'.st.port.trace)) _
              rw [hst]
              dsimp only
              rw [ho1, List.map_append, List.map_append]
              exact hl.sub.append (List.Sublist.refl _)
            · intro _ hq
              subst hq
              show LastGiven s'.st.port.trace
              rw [hst]
              dsimp only
              rw [htr1]
              exact LastGiven.out (a := a) (by rw [harr]; simp)
            · show s'.st.counter ≠ 0 → _
              rw [hst]
              intro h; exact absurd rfl h
            · show s'.st.counter ≠ 0 → _
              rw [hst]
              intro h; exact absurd rfl h
            · show Throughout Newest s'.st.port.trace → s'.st.counter = 0 → LastGiven s'.st.port.trace
              rw [hst]
              intro hn _
              exact hlg hn
            · intro _ p hp; cases hp
            · intro _ _ p hp; cases hp
            · show s'.st.completed = true ∨ s'.st.unsubscribed = true → _
              rw [hst]
              intro hf
              exact absurd hf hflags'
            · show s'.st.completed = true ↔ Arrived .complete s'.st.port.trace
              rw [hst]
              dsimp only
              rw [htr1, arrived_snoc]
              simpa using hl.completed
            · show s'.st.unsubscribed = true → Arrived .complete s'.st.port.trace ∨ Arrived .unsubscribe s'.st.port.trace
              rw [hst]
              dsimp only
              intro hu
              rw [htr1, arrived_snoc, arrived_snoc]
              simpa using hl.unsubscribed hu
      · refine Inv.shut ?_ ?_ ?_ htick ?_
        · show s'.st.port.Right D s0 s'.clock
          rw [hst, hp, hk.clock]; exact hr1.give _
        · show Throughout _ s'.st.port.trace
          rw [hst, hp, Port.give_open hcl]
          refine ha1.snoc (allowed_out hr1 hcl ?_ ?_ ?_ ?_ ?_)
          · intro e k hk'
            rw [hlast1] at hk'
            cases hk'
          · intro v' hv'
            rcases hn with ⟨rfl, _⟩ | ⟨rfl, _⟩ <;> cases hv'
          · intro hv'
            rcases hn with ⟨_, h5⟩ | ⟨rfl, _⟩
            · rw [htr1]; exact (hl.completed.1 h5).mono
            · cases hv'
          · intro hv'
            rcases hn with ⟨rfl, _⟩ | ⟨_, h5, h6⟩
            · cases hv'
            · rw [htr1]
              rcases hl.unsubscribed h5 with h7 | h7
              · rw [hl.completed.2 h7] at h6; cases h6
              · exact h7.mono
          · intro e hv'
            rcases hn with ⟨rfl, _⟩ | ⟨rfl, _⟩ <;> cases hv'
        · show Throughout _ s'.st.port.trace → Throughout _ s'.st.port.trace
          rw [hst, hp, Port.give_open hcl]
          exact settled_snoc hs1 (fun hn _ => hlg (Throughout.prefix hn))
        · show D.isClosed s'.st.port.dest = true
          rw [hst, hp, Port.give_open hcl]
          rcases hn with ⟨rfl, _⟩ | ⟨rfl, _⟩
          · exact hD _ .complete rfl
          · exact hD _ .unsubscribe rfl
    · -- not due
      have hrun : s' = s ∧ res = .pending ∧ w' = .delayed (some v) a s.clock d := by
        simp only [Solo.tickWork, hcu, if_neg hdue, Option.some.injEq, Prod.mk.injEq] at hw
        exact ⟨hw.2.1.symm, hw.2.2.symm, hw.1.symm⟩
      obtain ⟨rfl, rfl, rfl⟩ := hrun
      refine ⟨h.right, h.allowed, h.settled, h.tick, h.atOnce, fun _ => ⟨some (v, a, s'.clock, true), q, before, ?_⟩⟩
      refine ⟨rfl, hl.queue, ?_, hl.sub, (fun h => by cases h), ?_, hl.fresh, hl.zero, ?_, ?_, hl.done, hl.completed,
        hl.unsubscribed⟩
      · rw [hl.arr]; simp
      · intro h0; exact ⟨(hl.one h0).1, .inl (by simp)⟩
      · intro hn
        rw [ht] at hn
        cases hn
      · intro t' ht' p hp
        rw [ht] at ht'
        cases ht'
        cases hp
        refine ⟨?_, fun _ => ⟨rfl, by simp only; omega⟩⟩
        simp only
        rw [updateTick_max]
        have := h.tick t ht
        omega

theorem Inv.step (hD : HigherOrder.Closes D) {s s' : Solo (debounce D d)} (h : Inv D s0 d s) (hs : Solo.Step s s') :
    Inv D s0 d s' := by
  cases hs with
  | input i => exact h.input hD i
  | start t ht =>
    refine h.drain (t := t) (fun p => (p.1, p.2.1, p.2.2.1, false)) (fun p => ⟨rfl, rfl⟩) ?_ rfl rfl rfl ?_ rfl
    · intro _ act q before hl p hp
      refine ⟨?_, fun h => by cases h⟩
      rw [hl.idle ht p hp]
    · intro act ha
      simp [Solo.drain, ha, List.map_map, Function.comp_def, Pend.work]
  | work s' t pre post w w' res ht ha hpre hw => exact h.work hD ht ha hw
  | pass t ht hall =>
    have hck : updateTick s.clock t = s.clock := by
      rw [updateTick_max]; have := h.tick t ht; omega
    refine h.drain (t := t) id (fun p => ⟨rfl, rfl⟩) ?_ rfl rfl rfl ?_ ht
    · intro _ act q before hl p hp
      rw [hck]
      exact hl.busy t ht p hp
    · intro act ha
      simp [Solo.drain, ha]
  | finish t ht hall hq =>
    refine ⟨h.right, h.allowed, h.settled, (fun t h => by cases h), h.atOnce, fun ho => ?_⟩
    obtain ⟨act, q, before, hl⟩ := h.live ho
    refine ⟨act, q, before, hl.active, hl.queue, hl.arr, hl.sub, hl.given, hl.one, hl.fresh, hl.zero, ?_,
      (fun t h => by cases h), hl.done, hl.completed, hl.unsubscribed⟩
    intro _ p hp
    have hf : p.2.2.2 = true := hall (Pend.work d p) (by rw [hl.active, hp]; simp)
    exact ((hl.busy t ht p hp).2 hf).1

theorem Inv.steps (hD : HigherOrder.Closes D) {s s' : Solo (debounce D d)} (h : Inv D s0 d s) (hs : Solo.Steps s s') :
    Inv D s0 d s' := by
  induction hs with
  | refl => exact h
  | tail _ hs ih => exact ih.step hD hs

theorem inv (hD : HigherOrder.Closes D) {s : Solo (debounce D d)}
    (h : Solo.Reachable (c := debounce D d) { port := { dest := s0 } } s) : Inv D s0 d s :=
  (Inv.init D s0 d).steps hD h

theorem allowed_sublist {τ : Line I I E} (h : Throughout (Allowed D s0 d) τ) :
    ((outs τ).map (·.1)).Sublist ((arrivals τ).map (·.1)) := by
  induction τ using Rx.snoc_induction with
  | nil => exact List.Sublist.refl _
  | snoc τ m ih =>
    have ih := ih (Throughout.prefix h)
    have hm := (Throughout.last h).value
    obtain ⟨m, k⟩ := m
    by_cases ho : ∃ v, m = .out (.next v)
    · obtain ⟨v, rfl⟩ := ho
      obtain ⟨before, a, after, h1, _, _, h4⟩ := hm v rfl
      rw [outs_append, outs_next, arrivals_append, arrivals_of_ne (by simp), List.append_nil, h1]
      simp only [List.map_append, List.map_cons, List.map_nil]
      exact h4.append (List.singleton_sublist.2 (by simp))
    · rw [outs_append, outs_of_ne (fun v hv => ho ⟨v, hv⟩), arrivals_append, List.append_nil, List.map_append]
      exact ih.trans (List.sublist_append_left _ _)

theorem stamps (D : Sub S I E) (d : Nat) : Stamps (debounce D d) (fun s : State S I E => s.port.trace) := by
  refine ⟨fun v t now s => ?_, fun i now s => ?_⟩
  · exact (Port.give_grew D (.next v) now s.port).trans (Delay.finish_grew _ _ _)
  · cases i with
    | close => exact Port.close_grew _ _ _
    | note n =>
      cases n with
      | next v => exact Port.mark_grew _ _ _
      | error e => exact (Port.mark_grew _ _ _).trans (Port.give_grew _ _ _ _)
      | complete => exact (Port.mark_grew _ _ _).trans (Delay.complete_grew _ _)
      | unsubscribe => exact (Port.mark_grew _ _ _).trans (Delay.unsubscribe_grew _ _ _)

end Rx.Timed.Debounce
