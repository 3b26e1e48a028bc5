import Verif.Lemmas.TimedDelay

/-!
# observe_on
-/

namespace Rx.Timed.ObserveOn
open Rx.Sched Rx.Timed

variable {S I E : Type} {D : Sub S I E} {s0 : S}

/-- Pending work: values, then what completion scheduled. -/
def Tidy (b : List (Body I)) (k : Nat) : Prop := ∃ vs : List I, b = vs.map some ++ List.replicate k none

/-- While the destination is open. -/
structure Live (s : Solo (observeOn D)) (act q : List (Body I)) : Prop where
  active : s.active = act.map fun b => (.immediate (some b), false)
  queue : s.queue = q.map fun b => .schedule (.immediate (some b))
  pending : ((arrivals s.st.port.trace).drop (outs s.st.port.trace).length).map (·.1) = (act ++ q).filterMap id
  le : (outs s.st.port.trace).length ≤ (arrivals s.st.port.trace).length
  counter : Throughout Polite s.st.port.trace → s.st.counter = ((act ++ q).filterMap id).length
  tail : Throughout Polite s.st.port.trace → ∃ k, Tidy (act ++ q) k ∧ (k ≠ 0 → s.st.completed = true)
  done : Throughout Polite s.st.port.trace → s.st.completed = true ∨ s.st.unsubscribed = true → s.st.counter ≠ 0
  completed : s.st.completed = true ↔ Arrived .complete s.st.port.trace
  unsubscribed : s.st.unsubscribed = true → Arrived .complete s.st.port.trace ∨ Arrived .unsubscribe s.st.port.trace

structure Inv (D : Sub S I E) (s0 : S) (s : Solo (observeOn D)) : Prop where
  right : s.st.port.Right D s0 s.clock
  allowed : Throughout (Allowed D s0) s.st.port.trace
  tick : ∀ t, s.tick = some t → t ≤ s.clock
  atOnce : ∀ e k, s.st.port.trace.getLast? = some (.arrived (.error e), k) → D.isClosed s.st.port.dest = true
  live : D.isClosed s.st.port.dest = false → ∃ act q, Live s act q

theorem Inv.init (D : Sub S I E) (s0 : S) :
    Inv D s0 { st := { port := { dest := s0 } } } := by
  refine ⟨⟨rfl, by simp⟩, Throughout.nil _, (fun t h => by cases h), (fun e k h => by simp at h), fun _ => ⟨[], [], ?_⟩⟩
  refine ⟨rfl, rfl, rfl, Nat.le_refl _, fun _ => rfl, fun _ => ⟨0, ⟨[], rfl⟩, by simp⟩, by simp, ?_, by simp⟩
  simp [Arrived]

/-! ### What may follow -/

theorem allowed_arrived {τ : Line I I E} {n : SubscriberNotification I E} {now : Nat} {p : Port S I I E}
    (hp : p.trace = τ) (h : p.Right D s0 now)
    (hl : ∀ e k, τ.getLast? = some (.arrived (.error e), k) → D.isClosed p.dest = true) :
    Allowed D s0 τ (.arrived n, now) := by
  subst hp
  refine ⟨h.orderly (fun hn => absurd rfl (hn n)), by simp, by simp, by simp, by simp, ?_⟩
  intro e k hk ho
  rw [← h.fed, hl e k hk] at ho
  cases ho

theorem allowed_out {p : Port S I I E} {now : Nat} {n : SubscriberNotification I E} (h : p.Right D s0 now)
    (ho : D.isClosed p.dest = false)
    (hl : ∀ e k, p.trace.getLast? = some (.arrived (.error e), k) → n = .error e ∧ now = k)
    (hv : ∀ v, n = .next v → ∃ a, (arrivals p.trace)[(outs p.trace).length]? = some (v, a))
    (hc : n = .complete → Arrived .complete p.trace ∧
      (Throughout Polite p.trace → (outs p.trace).length = (arrivals p.trace).length))
    (hu : n = .unsubscribe → Arrived .unsubscribe p.trace ∧
      (Throughout Polite p.trace → (outs p.trace).length = (arrivals p.trace).length))
    (he : ∀ e, n = .error e → p.trace.getLast? = some (.arrived (.error e), now)) :
    Allowed D s0 p.trace (.out n, now) := by
  refine ⟨h.orderly (fun _ => ho), ?_, ?_, ?_, ?_, ?_⟩
  · intro v hn; exact hv v (by simpa using hn)
  · intro hn; exact hc (by simpa using hn)
  · intro hn; exact hu (by simpa using hn)
  · intro e hn; exact he e (by simpa using hn)
  · intro e k hk _
    obtain ⟨rfl, rfl⟩ := hl e k hk
    rfl

theorem allowed_closed {p : Port S I I E} {now : Nat} (h : p.Right D s0 now)
    (ho : D.isClosed p.dest = false)
    (hl : ∀ e k, p.trace.getLast? = some (.arrived (.error e), k) → D.isClosed p.dest = true) :
    Allowed D s0 p.trace (.closed, now) := by
  refine ⟨h.orderly (fun _ => ho), by simp, by simp, by simp, by simp, ?_⟩
  intro e k hk _
  rw [hl e k hk] at ho
  cases ho

/-- A closed destination stays, and so does the record of what was given. -/
theorem Inv.of_closed {s s' : Solo (observeOn D)} (h : Inv D s0 s) (hc : D.isClosed s.st.port.dest = true)
    (hp : s'.st.port = s.st.port) (hk : s.clock ≤ s'.clock) (ht : ∀ t, s'.tick = some t → t ≤ s'.clock) :
    Inv D s0 s' := by
  refine ⟨by rw [hp]; exact h.right.mono hk, by rw [hp]; exact h.allowed, ht, by rw [hp]; exact h.atOnce, ?_⟩
  intro ho
  rw [hp, hc] at ho
  cases ho

theorem Inv.shut {s : Solo (observeOn D)} (h1 : s.st.port.Right D s0 s.clock)
    (h2 : Throughout (Allowed D s0) s.st.port.trace) (h3 : ∀ t, s.tick = some t → t ≤ s.clock)
    (h4 : D.isClosed s.st.port.dest = true) : Inv D s0 s :=
  ⟨h1, h2, h3, fun _ _ _ => h4, fun h => by rw [h4] at h; cases h⟩

/-! ### Calls -/

theorem Inv.input (hD : HigherOrder.Closes D) {s : Solo (observeOn D)} (h : Inv D s0 s) (i : Input I E) :
    Inv D s0 (s.input i) := by
  obtain ⟨ka, kt, kc⟩ := Solo.input_keep (c := observeOn D) i s
  have kst : (s.input i).st = ((observeOn D).input i s.clock s.st).1 := (Solo.requests_keep _ _).2.2.2
  have htick : ∀ t, (s.input i).tick = some t → t ≤ (s.input i).clock := by
    intro t ht; rw [kt] at ht; rw [kc]; exact h.tick t ht
  cases hc : D.isClosed s.st.port.dest with
  | true =>
    cases i with
    | close =>
      refine h.of_closed hc ?_ (by rw [kc]; exact Nat.le_refl _) htick
      rw [kst]
      exact Port.close_closed hc _
    | note n =>
      have hp : (Solo.input (c := observeOn D) (.note n) s).st.port = s.st.port.mark (.arrived n) s.clock := by
        rw [kst]
        have hc' : D.isClosed (s.st.port.mark (.arrived n) s.clock).dest = true := hc
        cases n with
        | next v => rfl
        | error e => exact Port.give_closed hc' _ _
        | complete =>
          show (State.complete D s.clock (s.st.arrive (.arrived .complete) s.clock)).port = _
          unfold State.complete
          dsimp only
          split
          · exact Port.give_closed hc' _ _
          · rfl
        | unsubscribe =>
          show (State.unsubscribe D _ s.clock (s.st.arrive (.arrived .unsubscribe) s.clock)).port = _
          unfold State.unsubscribe
          rw [if_pos (by simp [State.arrive, hc'])]
          rfl
      refine Inv.shut ?_ ?_ htick ?_
      · rw [hp, kc]; exact h.right.mark n
      · rw [hp, Port.mark_trace]
        exact h.allowed.snoc (allowed_arrived rfl h.right h.atOnce)
      · rw [hp]; exact hc
  | false =>
    obtain ⟨act, q, hl⟩ := h.live hc
    cases i with
    | close =>
      have hp : (Solo.input (c := observeOn D) .close s).st.port = ⟨D.unsubscribe s.st.port.dest, s.st.port.trace ++ [(.closed, s.clock)]⟩ := by
        rw [kst]; exact Port.close_open hc _
      refine Inv.shut ?_ ?_ htick ?_
      · rw [hp, kc, ← Port.close_open hc]; exact h.right.close
      · rw [hp]
        exact h.allowed.snoc (allowed_closed h.right hc h.atOnce)
      · rw [hp]; exact hD s.st.port.dest .unsubscribe rfl
    | note n =>
      have hm : (s.st.port.mark (.arrived n) s.clock).Right D s0 s.clock := h.right.mark n
      have hma : Throughout (Allowed D s0) (s.st.port.mark (.arrived n) s.clock).trace :=
        h.allowed.snoc (allowed_arrived rfl h.right h.atOnce)
      have hmc : D.isClosed (s.st.port.mark (.arrived n) s.clock).dest = false := hc
      have hlast : (s.st.port.mark (.arrived n) s.clock).trace.getLast? = some (.arrived n, s.clock) := by
        simp [Port.mark_trace]
      have hlen : Throughout Polite s.st.port.trace → s.st.counter = 0 →
          (outs s.st.port.trace).length = (arrivals s.st.port.trace).length := by
        intro hpo h0
        have hp := congrArg List.length hl.pending
        have := hl.counter hpo
        have := hl.le
        simp only [List.length_drop, List.length_map] at hp
        omega
      have hcom : (∀ v, n ≠ .next v) → n ≠ .complete → (s.st.completed = true ↔
          Arrived .complete (s.st.port.mark (.arrived n) s.clock).trace) := by
        intro _ hn
        rw [Port.mark_trace, arrived_snoc]
        have := hl.completed
        simp [hn, this]
      have hpol : Throughout Polite (s.st.port.mark (.arrived n) s.clock).trace → Throughout Polite s.st.port.trace :=
        fun h => Throughout.prefix h
      cases n with
      | next v =>
        have e1 : Solo.input (c := observeOn D) (.note (.next v)) s =
            ⟨⟨s.st.port.mark (.arrived (.next v)) s.clock, s.st.completed, s.st.unsubscribed, s.st.counter + 1⟩, s.clock,
              s.queue ++ [.schedule (.immediate (some (some v)))], s.active, s.tick⟩ := rfl
        rw [e1]
        refine ⟨hm, hma, h.tick, ?_, fun _ => ⟨act, q ++ [some v], ?_⟩⟩
        · intro e k hk
          dsimp only at hk
          rw [hlast] at hk
          cases hk
        · have ho : outs (s.st.port.mark (.arrived (.next v)) s.clock).trace = outs s.st.port.trace := by
            rw [Port.mark_trace, outs_append, outs_of_ne (by simp), List.append_nil]
          have ha : arrivals (s.st.port.mark (.arrived (.next v)) s.clock).trace =
              arrivals s.st.port.trace ++ [(v, s.clock)] := by
            rw [Port.mark_trace, arrivals_append, arrivals_next]
          refine ⟨hl.active, ?_, ?_, ?_, ?_, ?_, ?_, ?_, ?_⟩
          · simp [hl.queue]
          · rw [ho, ha, List.drop_append_of_le_length hl.le, List.map_append, hl.pending]
            simp
          · rw [ho, ha, List.length_append]; have := hl.le; omega
          · intro hpo
            dsimp only
            rw [hl.counter (hpol hpo)]
            simp
            omega
          · intro hpo
            obtain ⟨k, ⟨vs, hvs⟩, hk⟩ := hl.tail (hpol hpo)
            have hk0 : k = 0 := by
              rcases Nat.eq_zero_or_pos k with h | h
              · exact h
              · exact absurd (hl.completed.1 (hk (by omega))) ((Throughout.last hpo) v rfl)
            subst hk0
            refine ⟨0, ⟨vs ++ [v], ?_⟩, by simp⟩
            rw [← List.append_assoc, hvs]
            simp
          · intro _ _; exact Nat.succ_ne_zero _
          · rw [Port.mark_trace, arrived_snoc]; simpa using hl.completed
          · intro hu
            rw [Port.mark_trace, arrived_snoc, arrived_snoc]
            simpa using hl.unsubscribed hu
      | error e =>
        have hp : (Solo.input (c := observeOn D) (.note (.error e)) s).st.port =
            (s.st.port.mark (.arrived (.error e)) s.clock).give D (.error e) s.clock := by
          rw [kst]; rfl
        refine Inv.shut ?_ ?_ htick ?_
        · rw [hp, kc]; exact hm.give _
        · rw [hp, Port.give_open hmc]
          refine hma.snoc (allowed_out hm hmc ?_ (by simp) (by simp) (by simp) ?_)
          · intro e' k hk
            rw [hlast] at hk
            cases hk
            exact ⟨rfl, rfl⟩
          · intro e' he
            cases he
            exact hlast
        · rw [hp, Port.give_open hmc]; exact hD _ (.error e) rfl
      | complete =>
        have ho : outs (s.st.port.mark (.arrived .complete) s.clock).trace = outs s.st.port.trace := by
          rw [Port.mark_trace, outs_append, outs_of_ne (by simp), List.append_nil]
        have ha : arrivals (s.st.port.mark (.arrived .complete) s.clock).trace = arrivals s.st.port.trace := by
          rw [Port.mark_trace, arrivals_append, arrivals_of_ne (by simp), List.append_nil]
        by_cases h0 : s.st.counter = 0
        · have hp : (Solo.input (c := observeOn D) (.note .complete) s).st.port =
              (s.st.port.mark (.arrived .complete) s.clock).give D .complete s.clock := by
            rw [kst]
            show (State.complete D s.clock (s.st.arrive (.arrived .complete) s.clock)).port = _
            unfold State.complete
            dsimp only
            rw [if_pos (show (s.st.arrive _ _).counter = 0 from h0)]
            rfl
          refine Inv.shut ?_ ?_ htick ?_
          · rw [hp, kc]; exact hm.give _
          · rw [hp, Port.give_open hmc]
            refine hma.snoc (allowed_out hm hmc ?_ (by simp) ?_ (by simp) (by simp))
            · intro e' k hk
              rw [hlast] at hk
              cases hk
            · intro _
              refine ⟨⟨s.clock, ?_⟩, ?_⟩
              · rw [Port.mark_trace]; simp
              · rw [ho, ha]; exact fun hpo => hlen (hpol hpo) h0
          · rw [hp, Port.give_open hmc]; exact hD _ .complete rfl
        · have e1 : Solo.input (c := observeOn D) (.note .complete) s =
              ⟨⟨s.st.port.mark (.arrived .complete) s.clock, true, true, s.st.counter⟩, s.clock,
                s.queue ++ [.schedule (.immediate (some none))], s.active, s.tick⟩ := by
            have : State.complete D s.clock (s.st.arrive (.arrived .complete) s.clock) =
                ⟨s.st.port.mark (.arrived .complete) s.clock, true, true, s.st.counter⟩ := by
              unfold State.complete
              dsimp only
              rw [if_neg (show ¬ (s.st.arrive _ _).counter = 0 from h0)]
              rfl
            have hne : ¬ (s.st.arrive (.arrived .complete) s.clock).counter = 0 := h0
            simp only [Solo.input, this, Port.teardown_of_open hmc, if_neg hne, List.append_nil, List.foldl_cons,
              List.foldl_nil, Solo.request]
            rfl
          rw [e1]
          refine ⟨hm, hma, h.tick, ?_, fun _ => ⟨act, q ++ [none], ?_⟩⟩
          · intro e k hk
            dsimp only at hk
            rw [hlast] at hk
            cases hk
          · refine ⟨hl.active, ?_, ?_, ?_, ?_, ?_, fun _ _ => h0, ?_, ?_⟩
            · simp [hl.queue]
            · rw [ho, ha, hl.pending]; simp
            · rw [ho, ha]; exact hl.le
            · intro hpo
              dsimp only
              rw [hl.counter (hpol hpo)]
              simp
            · intro hpo
              obtain ⟨k, ⟨vs, hvs⟩, hk⟩ := hl.tail (hpol hpo)
              refine ⟨k + 1, ⟨vs, ?_⟩, fun _ => rfl⟩
              rw [← List.append_assoc, hvs, List.replicate_succ']
              simp
            · exact ⟨fun _ => ⟨s.clock, by rw [Port.mark_trace]; simp⟩, fun _ => rfl⟩
            · intro _; exact .inl ⟨s.clock, by rw [Port.mark_trace]; simp⟩
      | unsubscribe =>
        have ho : outs (s.st.port.mark (.arrived .unsubscribe) s.clock).trace = outs s.st.port.trace := by
          rw [Port.mark_trace, outs_append, outs_of_ne (by simp), List.append_nil]
        have ha : arrivals (s.st.port.mark (.arrived .unsubscribe) s.clock).trace = arrivals s.st.port.trace := by
          rw [Port.mark_trace, arrivals_append, arrivals_of_ne (by simp), List.append_nil]
        have har : Arrived .unsubscribe (s.st.port.mark (.arrived .unsubscribe) s.clock).trace :=
          ⟨s.clock, by rw [Port.mark_trace]; simp⟩
        have hcm : s.st.completed = true ↔ Arrived .complete (s.st.port.mark (.arrived .unsubscribe) s.clock).trace := by
          rw [Port.mark_trace, arrived_snoc]; simpa using hl.completed
        by_cases h0 : s.st.counter = 0
        · have hp : (Solo.input (c := observeOn D) (.note .unsubscribe) s).st.port =
              (s.st.port.mark (.arrived .unsubscribe) s.clock).give D .unsubscribe s.clock := by
            rw [kst]
            show (State.unsubscribe D (D.isClosed s.st.port.dest) s.clock
              (s.st.arrive (.arrived .unsubscribe) s.clock)).port = _
            unfold State.unsubscribe
            rw [if_neg (by simp [hc])]
            dsimp only
            rw [if_pos (show (s.st.arrive _ _).counter = 0 from h0)]
            rfl
          refine Inv.shut ?_ ?_ htick ?_
          · rw [hp, kc]; exact hm.give _
          · rw [hp, Port.give_open hmc]
            refine hma.snoc (allowed_out hm hmc ?_ (by simp) (by simp) ?_ (by simp))
            · intro e' k hk
              rw [hlast] at hk
              cases hk
            · intro _
              refine ⟨har, ?_⟩
              rw [ho, ha]; exact fun hpo => hlen (hpol hpo) h0
          · rw [hp, Port.give_open hmc]; exact hD _ .unsubscribe rfl
        · have e1 : Solo.input (c := observeOn D) (.note .unsubscribe) s =
              ⟨⟨s.st.port.mark (.arrived .unsubscribe) s.clock, s.st.completed, true, s.st.counter⟩, s.clock, s.queue,
                s.active, s.tick⟩ := by
            have : State.unsubscribe D (D.isClosed (s.st.arrive (.arrived .unsubscribe) s.clock).port.dest) s.clock
                (s.st.arrive (.arrived .unsubscribe) s.clock) =
                ⟨s.st.port.mark (.arrived .unsubscribe) s.clock, s.st.completed, true, s.st.counter⟩ := by
              unfold State.unsubscribe
              rw [if_neg (by simp [State.arrive, hmc])]
              dsimp only
              rw [if_neg (show ¬ (s.st.arrive _ _).counter = 0 from h0)]
              rfl
            simp only [Solo.input, this, Port.teardown_of_open hmc, List.foldl_nil]
          rw [e1]
          refine ⟨hm, hma, h.tick, ?_, fun _ => ⟨act, q, ?_⟩⟩
          · intro e k hk
            dsimp only at hk
            rw [hlast] at hk
            cases hk
          · refine ⟨hl.active, hl.queue, ?_, ?_, fun hpo => hl.counter (hpol hpo), fun hpo => hl.tail (hpol hpo),
              fun _ _ => h0, hcm, fun _ => .inr har⟩
            · rw [ho, ha]; exact hl.pending
            · rw [ho, ha]; exact hl.le

/-! ### Ticks -/

theorem process_schedules (q : List (Body I)) (l : List (Work (Body I) × Bool)) :
    (q.map fun b => (.schedule (.immediate (some b)) : Req (Body I))).foldl (Solo.process (c := observeOn D)) l =
      l ++ q.map fun b => (.immediate (some b), false) := by
  induction q generalizing l with
  | nil => simp
  | cons p q ih =>
    simp only [List.map_cons, List.foldl_cons]
    rw [ih]
    simp [Solo.process]

theorem Inv.drain {s : Solo (observeOn D)} (h : Inv D s0 s) {t : Nat}
    {s' : Solo (observeOn D)} (h1 : s'.st = s.st) (h2 : s'.clock = updateTick s.clock t) (h3 : s'.queue = [])
    (h4 : (∃ act : List (Body I), s.active = act.map fun b => (.immediate (some b), false)) →
      s'.active = s.queue.foldl Solo.process s.active)
    (h5 : s'.tick = some t) : Inv D s0 s' := by
  have hle : s.clock ≤ s'.clock := by rw [h2, updateTick_max]; omega
  have htick : ∀ t, s'.tick = some t → t ≤ s'.clock := by
    intro t' ht
    rw [h5] at ht
    cases ht
    rw [h2, updateTick_max]; omega
  refine ⟨by rw [h1]; exact h.right.mono hle, by rw [h1]; exact h.allowed, htick, by rw [h1]; exact h.atOnce, ?_⟩
  intro ho
  rw [h1] at ho
  obtain ⟨act, q, hl⟩ := h.live ho
  refine ⟨act ++ q, [], ?_⟩
  constructor
  · rw [h4 ⟨act, hl.active⟩, hl.queue, process_schedules, hl.active]
    simp
  · rw [h3]; rfl
  · rw [h1, hl.pending]; simp
  · rw [h1]; exact hl.le
  · rw [h1, List.append_nil]; exact hl.counter
  · rw [h1, List.append_nil]; exact hl.tail
  · rw [h1]; exact hl.done
  · rw [h1]; exact hl.completed
  · rw [h1]; exact hl.unsubscribed

/-- A closure does nothing visible if the destination is closed. -/
theorem exec_closed {st : State S I E} (hc : D.isClosed st.port.dest = true) (b : Body I) (t now : Nat) :
    ((observeOn D).exec b t now st).2.1.port = st.port := by
  cases b with
  | none => rfl
  | some v =>
    show (State.finish D _ now _).port = _
    have hg : st.port.give D (.next v) now = st.port := Port.give_closed hc _ _
    unfold State.finish
    rw [if_neg (by simp [hg, hc]), if_neg (by simp [hg, hc])]
    exact hg

theorem Inv.work (hD : HigherOrder.Closes D) {s s' : Solo (observeOn D)} (h : Inv D s0 s) {t : Nat}
    {pre post : List (Work (Body I) × Bool)} {w w' : Work (Body I)} {res : WorkResult}
    (ha : s.active = pre ++ (w, false) :: post) (hpre : ∀ p ∈ pre, p.2 = true)
    (hw : Solo.tickWork (c := observeOn D) t s w = some (w', s', res)) :
    Inv D s0 { s' with active := pre ++ (if res = .done then [] else [(w', true)]) ++ post } := by
  have hk := Solo.tickWork_own hw
  have htick : ∀ t', s'.tick = some t' → t' ≤ s'.clock := by
    intro t' ht'
    rw [hk.tick] at ht'
    rw [hk.clock]
    exact h.tick t' ht'
  cases hc : D.isClosed s.st.port.dest with
  | true =>
    have hp : s'.st.port = s.st.port := by
      refine Solo.tickWork_keeps (c := observeOn D) (P := fun x => x.st.port = s.st.port) ?_ rfl hw
      intro b x hx
      have : (Solo.runBody t b x).2.1.st = ((observeOn D).exec b t x.clock x.st).2.1 :=
        (Solo.requests_keep _ _).2.2.2
      rw [this, exec_closed (by rw [hx]; exact hc), hx]
    exact h.of_closed hc hp (by rw [hk.clock]; exact Nat.le_refl _) htick
  | false =>
    obtain ⟨act, q, hl⟩ := h.live hc
    have hpre' : pre = [] := by
      cases pre with
      | nil => rfl
      | cons p pre =>
        exfalso
        have h1 := hpre p (by simp)
        have h2 : p ∈ s.active := by rw [ha]; simp
        rw [hl.active] at h2
        obtain ⟨b, _, rfl⟩ := List.mem_map.1 h2
        cases h1
    subst hpre'
    have hact := hl.active
    rw [ha, List.nil_append] at hact
    obtain ⟨b, act2, rfl, h3, h4⟩ := List.map_eq_cons_iff.1 hact.symm
    simp only [Prod.mk.injEq, and_true] at h3
    subst h3
    have hrun : s' = (Solo.runBody (c := observeOn D) t b s).2.1 ∧ res = .done := by
      simp only [Solo.tickWork, Option.some.injEq, Prod.mk.injEq] at hw
      exact ⟨hw.2.1.symm, hw.2.2.symm⟩
    obtain ⟨hs', rfl⟩ := hrun
    simp only [List.nil_append, if_pos]
    have hst : s'.st = ((observeOn D).exec b t s.clock s.st).2.1 := by
      rw [hs']; exact (Solo.requests_keep _ _).2.2.2
    cases b with
    | none =>
      -- not if upstream is polite
      have hrude : ¬ Throughout Polite s.st.port.trace := by
        intro hpo
        obtain ⟨k, ⟨vs, hvs⟩, hk0⟩ := hl.tail hpo
        have hvs0 : vs = [] := by
          cases vs with
          | nil => rfl
          | cons v vs => simp at hvs
        subst hvs0
        have hk1 : k ≠ 0 := by
          intro hk1
          subst hk1
          simp at hvs
        have h6 := hl.done hpo (.inl (hk0 hk1))
        rw [hl.counter hpo, hvs] at h6
        simp at h6
      have hst' : s'.st = ⟨s.st.port, s.st.completed, s.st.unsubscribed, fetchSub s.st.counter⟩ := hst
      have hq : s'.queue = s.queue := by rw [hs']; rfl
      refine ⟨?_, ?_, htick, ?_, fun _ => ⟨act2, q, ?_⟩⟩
      · show s'.st.port.Right D s0 s'.clock
        rw [hst', hk.clock]; exact h.right
      · show Throughout _ s'.st.port.trace
        rw [hst']; exact h.allowed
      · show ∀ e k, s'.st.port.trace.getLast? = _ → D.isClosed s'.st.port.dest = true
        rw [hst']; exact h.atOnce
      · constructor
        · exact h4.symm
        · exact hq.trans hl.queue
        · show (List.drop (outs s'.st.port.trace).length (arrivals s'.st.port.trace)).map _ = _
          rw [hst']
          exact hl.pending
        · show (outs s'.st.port.trace).length ≤ (arrivals s'.st.port.trace).length
          rw [hst']; exact hl.le
        · show Throughout Polite s'.st.port.trace → _
          rw [hst']; exact fun hpo => absurd hpo hrude
        · show Throughout Polite s'.st.port.trace → _
          rw [hst']; exact fun hpo => absurd hpo hrude
        · show Throughout Polite s'.st.port.trace → _
          rw [hst']; exact fun hpo => absurd hpo hrude
        · show s'.st.completed = true ↔ Arrived .complete s'.st.port.trace
          rw [hst']; exact hl.completed
        · show s'.st.unsubscribed = true → Arrived .complete s'.st.port.trace ∨ Arrived .unsubscribe s'.st.port.trace
          rw [hst']; exact hl.unsubscribed
    | some v =>
      have hpend : ∃ a, (arrivals s.st.port.trace)[(outs s.st.port.trace).length]? = some (v, a) := by
        have h0 : (((arrivals s.st.port.trace).drop (outs s.st.port.trace).length).map (·.1))[0]? = some v := by
          rw [hl.pending]; rfl
        rw [List.getElem?_map, List.getElem?_drop, Nat.add_zero, Option.map_eq_some_iff] at h0
        obtain ⟨⟨v', a⟩, h1, rfl⟩ := h0
        exact ⟨a, h1⟩
      have hcnt : Throughout Polite s.st.port.trace → s.st.counter = ((act2 ++ q).filterMap id).length + 1 := by
        intro hpo
        rw [hl.counter hpo]
        simp
      have htl : Throughout Polite s.st.port.trace → ∃ k, Tidy (act2 ++ q) k ∧ (k ≠ 0 → s.st.completed = true) := by
        intro hpo
        obtain ⟨k, ⟨vs, hvs⟩, hk0⟩ := hl.tail hpo
        cases vs with
        | nil =>
          cases k with
          | zero => simp at hvs
          | succ k => simp [List.replicate_succ] at hvs
        | cons v' vs =>
          refine ⟨k, ⟨vs, ?_⟩, hk0⟩
          simp only [List.cons_append, List.map_cons, List.cons.injEq] at hvs
          exact hvs.2
      -- the value
      have hnoerr : ∀ e k, s.st.port.trace.getLast? ≠ some (.arrived (.error e), k) := by
        intro e k hk'
        rw [h.atOnce e k hk'] at hc
        cases hc
      have hr1 : (s.st.port.give D (.next v) s.clock).Right D s0 s.clock := h.right.give _
      have ha1 : Throughout (Allowed D s0) (s.st.port.give D (.next v) s.clock).trace := by
        rw [Port.give_open hc]
        refine h.allowed.snoc (allowed_out h.right hc (fun e k hk' => absurd hk' (hnoerr e k)) ?_ (by simp) (by simp)
          (by simp))
        intro v' hv'
        cases hv'
        exact hpend
      have htr1 : (s.st.port.give D (.next v) s.clock).trace = s.st.port.trace ++ [(.out (.next v), s.clock)] := by
        rw [Port.give_open hc]
      have hpol : Throughout Polite (s.st.port.give D (.next v) s.clock).trace → Throughout Polite s.st.port.trace := by
        rw [htr1]; exact fun h => Throughout.prefix h
      have ho1 : outs (s.st.port.give D (.next v) s.clock).trace = outs s.st.port.trace ++ [(v, s.clock)] := by
        rw [htr1, outs_append, outs_next]
      have hav1 : arrivals (s.st.port.give D (.next v) s.clock).trace = arrivals s.st.port.trace := by
        rw [htr1, arrivals_append, arrivals_of_ne (by simp), List.append_nil]
      have hlt : (outs s.st.port.trace).length < (arrivals s.st.port.trace).length := by
        obtain ⟨a, hpend⟩ := hpend
        rcases Nat.lt_or_ge (outs s.st.port.trace).length (arrivals s.st.port.trace).length with h | h
        · exact h
        · rw [List.getElem?_eq_none h] at hpend; cases hpend
      have hlen1 : s.st.counter = 1 → Throughout Polite (s.st.port.give D (.next v) s.clock).trace →
          (outs (s.st.port.give D (.next v) s.clock).trace).length =
          (arrivals (s.st.port.give D (.next v) s.clock).trace).length := by
        intro h1 hpo
        have hp := congrArg List.length hl.pending
        have hcn := hl.counter (hpol hpo)
        simp only [List.length_drop, List.length_map] at hp
        rw [ho1, hav1, List.length_append, List.length_singleton]
        omega
      have hlast1 : (s.st.port.give D (.next v) s.clock).trace.getLast? = some (.out (.next v), s.clock) := by
        rw [htr1]; simp
      have hexec : ((observeOn D).exec (some v) t s.clock s.st).2.1 = State.finish D s.st.counter s.clock
        ⟨s.st.port.give D (.next v) s.clock, s.st.completed, s.st.unsubscribed, fetchSub s.st.counter⟩ := rfl
      have hcase : ((observeOn D).exec (some v) t s.clock s.st).2.1.port = s.st.port.give D (.next v) s.clock ∧
            ((D.isClosed (s.st.port.give D (.next v) s.clock).dest = false →
              (s.st.completed = true ∨ s.st.unsubscribed = true → s.st.counter ≠ 1) ∧
              ((observeOn D).exec (some v) t s.clock s.st).2.1 = ⟨s.st.port.give D (.next v) s.clock, s.st.completed,
                s.st.unsubscribed, fetchSub s.st.counter⟩)) ∨
          (∃ n, ((observeOn D).exec (some v) t s.clock s.st).2.1.port =
              (s.st.port.give D (.next v) s.clock).give D n s.clock ∧
            D.isClosed (s.st.port.give D (.next v) s.clock).dest = false ∧ s.st.counter = 1 ∧
            (n = .complete ∧ s.st.completed = true ∨
              n = .unsubscribe ∧ s.st.unsubscribed = true ∧ s.st.completed = false)) := by
        rw [hexec]
        unfold State.finish
        dsimp only
        cases hcl : D.isClosed (s.st.port.give D (.next v) s.clock).dest with
        | true =>
          left
          rw [if_neg (by simp), if_neg (by simp)]
          exact ⟨rfl, fun h => by cases h⟩
        | false =>
          by_cases hn1 : s.st.counter = 1
          · cases hcm : s.st.completed with
            | true =>
              right
              rw [if_pos (by simp [hn1])]
              exact ⟨.complete, rfl, rfl, hn1, .inl ⟨rfl, rfl⟩⟩
            | false =>
              rw [if_neg (by simp)]
              cases hu : s.st.unsubscribed with
              | true =>
                right
                rw [if_pos (by simp [hn1])]
                exact ⟨.unsubscribe, rfl, rfl, hn1, .inr ⟨rfl, rfl, rfl⟩⟩
              | false =>
                left
                rw [if_neg (by simp)]
                exact ⟨rfl, fun _ => ⟨by simp, rfl⟩⟩
          · left
            rw [if_neg (by simp [hn1]), if_neg (by simp [hn1])]
            exact ⟨rfl, fun _ => ⟨fun _ => hn1, rfl⟩⟩
      rcases hcase with ⟨hp, hrest⟩ | ⟨n, hp, hcl, hn1, hn⟩
      · cases hcl : D.isClosed (s.st.port.give D (.next v) s.clock).dest with
        | true =>
          refine Inv.shut ?_ ?_ htick ?_
          · show s'.st.port.Right D s0 s'.clock
            rw [hst, hp, hk.clock]; exact hr1
          · show Throughout _ s'.st.port.trace
            rw [hst, hp]; exact ha1
          · show D.isClosed s'.st.port.dest = true
            rw [hst, hp]; exact hcl
        | false =>
          obtain ⟨hflags, hst1⟩ := hrest hcl
          rw [hst1] at hst
          have hq : s'.queue = s.queue := by
            rw [hs']
            show (List.foldl Solo.request _ ((observeOn D).exec (some v) t s.clock s.st).2.2.1).queue = _
            have : ((observeOn D).exec (some v) t s.clock s.st).2.2.1 = [] := by
              show s.st.port.teardown D (State.finish D s.st.counter s.clock
                ⟨s.st.port.give D (.next v) s.clock, s.st.completed, s.st.unsubscribed, fetchSub s.st.counter⟩).port = []
              rw [← hexec, hst1]
              exact Port.teardown_of_open hcl
            rw [this]
            rfl
          refine ⟨?_, ?_, htick, ?_, fun _ => ⟨act2, q, ?_⟩⟩
          · show s'.st.port.Right D s0 s'.clock
            rw [hst, hk.clock]; exact hr1
          · show Throughout _ s'.st.port.trace
            rw [hst]; exact ha1
          · intro e k hk'
            replace hk' : s'.st.port.trace.getLast? = _ := hk'
            rw [hst] at hk'
            dsimp only at hk'
            rw [hlast1] at hk'
            cases hk'
          · constructor
            · exact h4.symm
            · exact hq.trans hl.queue
            · show (List.drop (outs s'.st.port.trace).length (arrivals s'.st.port.trace)).map _ = _
              rw [hst]
              dsimp only
              rw [ho1, hav1, List.length_append, List.length_singleton, ← List.drop_drop,
                List.map_drop, hl.pending]
              rfl
            · show (outs s'.st.port.trace).length ≤ (arrivals s'.st.port.trace).length
              rw [hst]
              dsimp only
              rw [ho1, hav1, List.length_append, List.length_singleton]
              omega
            · show Throughout Polite s'.st.port.trace → s'.st.counter = _
              rw [hst]
              dsimp only
              intro hpo
              have := hcnt (hpol hpo)
              unfold fetchSub
              rw [if_neg (by omega)]
              omega
            · show Throughout Polite s'.st.port.trace → ∃ k, _ ∧ (_ → s'.st.completed = true)
              rw [hst]
              exact fun hpo => htl (hpol hpo)
            · show Throughout Polite s'.st.port.trace → s'.st.completed = true ∨ s'.st.unsubscribed = true → s'.st.counter ≠ 0
              rw [hst]
              dsimp only
              intro hpo hf
              have := hflags hf
              have := hcnt (hpol hpo)
              unfold fetchSub
              rw [if_neg (by omega)]
              omega
            · show s'.st.completed = true ↔ Arrived .complete s'.st.port.trace
              rw [hst]
              dsimp only
              rw [htr1, arrived_snoc]
              simpa using hl.completed
            · show s'.st.unsubscribed = true → Arrived .complete s'.st.port.trace ∨ Arrived .unsubscribe s'.st.port.trace
              rw [hst]
              dsimp only
              intro hu
              rw [htr1, arrived_snoc, arrived_snoc]
              simpa using hl.unsubscribed hu
      · refine Inv.shut ?_ ?_ htick ?_
        · show s'.st.port.Right D s0 s'.clock
          rw [hst, hp, hk.clock]; exact hr1.give _
        · show Throughout _ s'.st.port.trace
          rw [hst, hp, Port.give_open hcl]
          refine ha1.snoc (allowed_out hr1 hcl ?_ ?_ ?_ ?_ ?_)
          · intro e k hk'
            rw [hlast1] at hk'
            cases hk'
          · intro v' hv'
            rcases hn with ⟨rfl, _⟩ | ⟨rfl, _⟩ <;> cases hv'
          · intro hv'
            rcases hn with ⟨_, h5⟩ | ⟨rfl, _⟩
            · exact ⟨by rw [htr1]; exact (hl.completed.1 h5).mono, hlen1 hn1⟩
            · cases hv'
          · intro hv'
            rcases hn with ⟨rfl, _⟩ | ⟨_, h5, h6⟩
            · cases hv'
            · refine ⟨?_, hlen1 hn1⟩
              rw [htr1]
              rcases hl.unsubscribed h5 with h7 | h7
              · rw [hl.completed.2 h7] at h6; cases h6
              · exact h7.mono
          · intro e hv'
            rcases hn with ⟨rfl, _⟩ | ⟨rfl, _⟩ <;> cases hv'
        · show D.isClosed s'.st.port.dest = true
          rw [hst, hp, Port.give_open hcl]
          rcases hn with ⟨rfl, _⟩ | ⟨rfl, _⟩
          · exact hD _ .complete rfl
          · exact hD _ .unsubscribe rfl

theorem Inv.step (hD : HigherOrder.Closes D) {s s' : Solo (observeOn D)} (h : Inv D s0 s) (hs : Solo.Step s s') :
    Inv D s0 s' := by
  cases hs with
  | input i => exact h.input hD i
  | start t ht =>
    refine h.drain (t := t) rfl rfl rfl ?_ rfl
    rintro ⟨act, ha⟩
    simp [Solo.drain, ha, List.map_map, Function.comp_def]
  | work s' t pre post w w' res ht ha hpre hw => exact h.work hD ha hpre hw
  | pass t ht hall => exact h.drain (t := t) rfl rfl rfl (fun _ => rfl) ht
  | finish t ht hall hq =>
    refine ⟨h.right, h.allowed, (fun t h => by cases h), h.atOnce, fun ho => ?_⟩
    obtain ⟨act, q, hl⟩ := h.live ho
    exact ⟨act, q, hl.active, hl.queue, hl.pending, hl.le, hl.counter, hl.tail, hl.done, hl.completed, hl.unsubscribed⟩

theorem Inv.steps (hD : HigherOrder.Closes D) {s s' : Solo (observeOn D)} (h : Inv D s0 s) (hs : Solo.Steps s s') :
    Inv D s0 s' := by
  induction hs with
  | refl => exact h
  | tail _ hs ih => exact ih.step hD hs

theorem inv (hD : HigherOrder.Closes D) {s : Solo (observeOn D)}
    (h : Solo.Reachable (c := observeOn D) { port := { dest := s0 } } s) : Inv D s0 s :=
  (Inv.init D s0).steps hD h

theorem stamps (D : Sub S I E) : Stamps (observeOn D) (fun s : State S I E => s.port.trace) := by
  refine ⟨fun b t now s => ?_, fun i now s => ?_⟩
  · cases b with
    | none => exact Grew.refl _ _
    | some v => exact (Port.give_grew D (.next v) now s.port).trans (Delay.finish_grew _ _ _)
  · cases i with
    | close => exact Port.close_grew _ _ _
    | note n =>
      cases n with
      | next v => exact Port.mark_grew _ _ _
      | error e => exact (Port.mark_grew _ _ _).trans (Port.give_grew _ _ _ _)
      | complete => exact (Port.mark_grew _ _ _).trans (Delay.complete_grew _ _)
      | unsubscribe => exact (Port.mark_grew _ _ _).trans (Delay.unsubscribe_grew _ _ _)

/-- A call does not give values to the destination. -/
theorem input_outs (i : Input I E) (now : Nat) (s : State S I E) :
    outs ((observeOn D).input i now s).1.port.trace = outs s.port.trace := by
  have hg : ∀ (p : Port S I I E) n, (∀ v, n ≠ .next v) → outs (p.give D n now).trace = outs p.trace := by
    intro p n hn
    unfold Port.give
    split
    · rfl
    · show outs (p.trace ++ [(.out n, now)]) = _
      rw [outs_append, outs_of_ne (by simpa using hn), List.append_nil]
  have hm : ∀ n, outs (s.arrive (.arrived n) now).port.trace = outs s.port.trace := by
    intro n
    show outs (s.port.trace ++ [(.arrived n, now)]) = _
    rw [outs_append, outs_of_ne (by simp), List.append_nil]
  cases i with
  | close =>
    show outs (s.port.close D now).trace = _
    unfold Port.close
    split
    · rfl
    · show outs (s.port.trace ++ [(.closed, now)]) = _
      rw [outs_append, outs_of_ne (by simp), List.append_nil]
  | note n =>
    rw [← hm n]
    cases n with
    | next v => rfl
    | error e => exact hg _ _ (by simp)
    | complete =>
      show outs (State.complete D now (s.arrive (.arrived .complete) now)).port.trace = _
      unfold State.complete
      dsimp only
      split
      · exact hg _ _ (by simp)
      · rfl
    | unsubscribe =>
      show outs (State.unsubscribe D _ now (s.arrive (.arrived .unsubscribe) now)).port.trace = _
      unfold State.unsubscribe
      dsimp only
      split
      · rfl
      · split
        · exact hg _ _ (by simp)
        · rfl

/-- What is given is what arrived, in order. -/
theorem allowed_order {τ : Line I I E} (h : Throughout (Allowed D s0) τ) {i k : Nat} {v : I}
    (hi : (outs τ)[i]? = some (v, k)) : ∃ a, (arrivals τ)[i]? = some (v, a) := by
  have key : ∀ (past rest : Line I I E), τ = past ++ rest →
      ∀ (i : Nat) (v : I) (k : Nat), (outs past)[i]? = some (v, k) → ∃ a, (arrivals past)[i]? = some (v, a) := by
    intro past
    induction past using Rx.snoc_induction with
    | nil => intro rest _ i v k h; simp [outs] at h
    | snoc past m ih =>
      intro rest he i v k hi
      have ha := h past m rest (by rw [he]; simp)
      have ih := ih (m :: rest) (by rw [he]; simp)
      rw [outs_append] at hi
      have mono : ∀ (i : Nat) (v : I) (a : Nat), (arrivals past)[i]? = some (v, a) → (arrivals (past ++ [m]))[i]? = some (v, a) := by
        intro i v a h
        rw [arrivals_append, List.getElem?_append_left]
        · exact h
        · exact (List.getElem?_eq_some_iff.1 h).1
      rcases Nat.lt_or_ge i (outs past).length with hlt | hge
      · rw [List.getElem?_append_left hlt] at hi
        obtain ⟨a, h1⟩ := ih i v k hi
        exact ⟨a, mono _ _ _ h1⟩
      · rw [List.getElem?_append_right hge] at hi
        obtain ⟨m, km⟩ := m
        by_cases hm : ∃ v', m = .out (.next v')
        · obtain ⟨v', rfl⟩ := hm
          rw [outs_next] at hi
          have h0 : i - (outs past).length = 0 := by
            rcases Nat.eq_zero_or_pos (i - (outs past).length) with h | h
            · exact h
            · rw [List.getElem?_eq_none h] at hi; cases hi
          rw [h0] at hi
          cases hi
          obtain ⟨a, h1⟩ := ha.value v rfl
          refine ⟨a, mono _ _ _ ?_⟩
          have : i = (outs past).length := by omega
          rw [this]; exact h1
        · rw [outs_of_ne (fun v h => hm ⟨v, h⟩)] at hi
          cases hi
  exact key τ [] (by simp) i v k hi

end Rx.Timed.ObserveOn
