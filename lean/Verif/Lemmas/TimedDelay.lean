import Verif.Lemmas.Timed

/-!
# delay
-/

namespace Rx.Timed.Delay
open Rx.Sched Rx.Timed

variable {S I E : Type} {D : Sub S I E} {s0 : S} {d : Nat}

/-- A pending value as work: the value, its arrival, the clock of the work, and whether it was ticked. -/
abbrev Pend (I : Type) := I × Nat × Nat × Bool

def Pend.work (d : Nat) (p : Pend I) : Work I × Bool := (.delayed (some p.1) p.2.1 p.2.2.1 d, p.2.2.2)

/-- While the destination is open. -/
structure Live (s : Solo (delay D d)) (act : List (Pend I)) (q : List (I × Nat)) : Prop where
  active : s.active = act.map (Pend.work d)
  queue : s.queue = q.map fun p => .schedule (.delayed (some p.1) p.2 p.2 d)
  pending : (arrivals s.st.port.trace).drop (outs s.st.port.trace).length = act.map (fun p => (p.1, p.2.1)) ++ q
  le : (outs s.st.port.trace).length ≤ (arrivals s.st.port.trace).length
  counter : s.st.counter = act.length + q.length
  qtime : ∀ p ∈ q, p.2 = s.clock
  idle : s.tick = none → ∀ p ∈ act, p.2.2.1 = s.clock
  busy : ∀ t, s.tick = some t → ∀ p ∈ act, updateTick p.2.2.1 t = s.clock ∧
    (p.2.2.2 = true → p.2.2.1 = s.clock ∧ s.clock < p.2.1 + d)
  done : s.st.completed = true ∨ s.st.unsubscribed = true → s.st.counter ≠ 0
  completed : s.st.completed = true ↔ Arrived .complete s.st.port.trace
  unsubscribed : s.st.unsubscribed = true → Arrived .complete s.st.port.trace ∨ Arrived .unsubscribe s.st.port.trace

structure Inv (D : Sub S I E) (s0 : S) (d : Nat) (s : Solo (delay D d)) : Prop where
  right : s.st.port.Right D s0 s.clock
  allowed : Throughout (Allowed D s0 d) s.st.port.trace
  tick : ∀ t, s.tick = some t → t ≤ s.clock
  atOnce : ∀ e k, s.st.port.trace.getLast? = some (.arrived (.error e), k) → D.isClosed s.st.port.dest = true
  live : D.isClosed s.st.port.dest = false → ∃ act q, Live s act q

theorem Inv.init (D : Sub S I E) (s0 : S) (d : Nat) :
    Inv D s0 d { st := { port := { dest := s0 } } } := by
  refine ⟨⟨rfl, by simp⟩, Throughout.nil _, (fun t h => by cases h), (fun e k h => by simp at h), fun _ => ⟨[], [], ?_⟩⟩
  refine ⟨rfl, rfl, rfl, Nat.le_refl _, rfl, by simp, by simp, (fun t h => by cases h), by simp, ?_, by simp⟩
  simp [Arrived]

/-! ### What may follow -/

theorem allowed_arrived {τ : Line I I E} {n : SubscriberNotification I E} {now : Nat} {p : Port S I I E}
    (hp : p.trace = τ) (h : p.Right D s0 now)
    (hl : ∀ e k, τ.getLast? = some (.arrived (.error e), k) → D.isClosed p.dest = true) :
    Allowed D s0 d τ (.arrived n, now) := by
  subst hp
  refine ⟨h.orderly (fun hn => absurd rfl (hn n)), by simp, by simp, by simp, by simp, ?_⟩
  intro e k hk ho
  rw [← h.fed, hl e k hk] at ho
  cases ho

theorem allowed_out {p : Port S I I E} {now : Nat} {n : SubscriberNotification I E} (h : p.Right D s0 now)
    (ho : D.isClosed p.dest = false)
    (hl : ∀ e k, p.trace.getLast? = some (.arrived (.error e), k) → n = .error e ∧ now = k)
    (hv : ∀ v, n = .next v → ∃ a, (arrivals p.trace)[(outs p.trace).length]? = some (v, a) ∧ a + d ≤ now)
    (hc : n = .complete → Arrived .complete p.trace ∧ (outs p.trace).length = (arrivals p.trace).length)
    (hu : n = .unsubscribe → Arrived .unsubscribe p.trace ∧ (outs p.trace).length = (arrivals p.trace).length)
    (he : ∀ e, n = .error e → p.trace.getLast? = some (.arrived (.error e), now)) :
    Allowed D s0 d p.trace (.out n, now) := by
  refine ⟨h.orderly (fun _ => ho), ?_, ?_, ?_, ?_, ?_⟩
  · intro v hn; exact hv v (by simpa using hn)
  · intro hn; exact hc (by simpa using hn)
  · intro hn; exact hu (by simpa using hn)
  · intro e hn; exact he e (by simpa using hn)
  · intro e k hk _
    obtain ⟨rfl, rfl⟩ := hl e k hk
    rfl

theorem allowed_closed {p : Port S I I E} {now : Nat} (h : p.Right D s0 now)
    (ho : D.isClosed p.dest = false)
    (hl : ∀ e k, p.trace.getLast? = some (.arrived (.error e), k) → D.isClosed p.dest = true) :
    Allowed D s0 d p.trace (.closed, now) := by
  refine ⟨h.orderly (fun _ => ho), by simp, by simp, by simp, by simp, ?_⟩
  intro e k hk _
  rw [hl e k hk] at ho
  cases ho

/-- A closed destination stays, and so does the record of what was given. -/
theorem Inv.of_closed {s s' : Solo (delay D d)} (h : Inv D s0 d s) (hc : D.isClosed s.st.port.dest = true)
    (hp : s'.st.port = s.st.port) (hk : s.clock ≤ s'.clock) (ht : ∀ t, s'.tick = some t → t ≤ s'.clock) :
    Inv D s0 d s' := by
  refine ⟨by rw [hp]; exact h.right.mono hk, by rw [hp]; exact h.allowed, ht, by rw [hp]; exact h.atOnce, ?_⟩
  intro ho
  rw [hp, hc] at ho
  cases ho

theorem Inv.shut {s : Solo (delay D d)} (h1 : s.st.port.Right D s0 s.clock)
    (h2 : Throughout (Allowed D s0 d) s.st.port.trace) (h3 : ∀ t, s.tick = some t → t ≤ s.clock)
    (h4 : D.isClosed s.st.port.dest = true) : Inv D s0 d s :=
  ⟨h1, h2, h3, fun _ _ _ => h4, fun h => by rw [h4] at h; cases h⟩

/-! ### Calls -/

theorem Inv.input (hD : HigherOrder.Closes D) {s : Solo (delay D d)} (h : Inv D s0 d s) (i : Input I E) :
    Inv D s0 d (s.input i) := by
  obtain ⟨ka, kt, kc⟩ := Solo.input_keep (c := delay D d) i s
  have kst : (s.input i).st = ((delay D d).input i s.clock s.st).1 := (Solo.requests_keep _ _).2.2.2
  have htick : ∀ t, (s.input i).tick = some t → t ≤ (s.input i).clock := by
    intro t ht; rw [kt] at ht; rw [kc]; exact h.tick t ht
  cases hc : D.isClosed s.st.port.dest with
  | true =>
    cases i with
    | close =>
      refine h.of_closed hc ?_ (by rw [kc]; exact Nat.le_refl _) htick
      rw [kst]
      exact Port.close_closed hc _
    | note n =>
      have hp : (Solo.input (c := delay D d) (.note n) s).st.port = s.st.port.mark (.arrived n) s.clock := by
        rw [kst]
        have hc' : D.isClosed (s.st.port.mark (.arrived n) s.clock).dest = true := hc
        cases n with
        | next v => rfl
        | error e => exact Port.give_closed hc' _ _
        | complete =>
          show (State.complete D s.clock (s.st.arrive (.arrived .complete) s.clock)).port = _
          unfold State.complete
          dsimp only
          split
          · exact Port.give_closed hc' _ _
          · rfl
        | unsubscribe =>
          show (State.unsubscribe D _ s.clock (s.st.arrive (.arrived .unsubscribe) s.clock)).port = _
          unfold State.unsubscribe
          rw [if_pos (by simp [State.arrive, hc'])]
          rfl
      refine Inv.shut ?_ ?_ htick ?_
      · rw [hp, kc]; exact h.right.mark n
      · rw [hp, Port.mark_trace]
        exact h.allowed.snoc (allowed_arrived rfl h.right h.atOnce)
      · rw [hp]; exact hc
  | false =>
    obtain ⟨act, q, hl⟩ := h.live hc
    cases i with
    | close =>
      have hp : (Solo.input (c := delay D d) .close s).st.port = ⟨D.unsubscribe s.st.port.dest, s.st.port.trace ++ [(.closed, s.clock)]⟩ := by
        rw [kst]; exact Port.close_open hc _
      refine Inv.shut ?_ ?_ htick ?_
      · rw [hp, kc, ← Port.close_open hc]; exact h.right.close
      · rw [hp]
        exact h.allowed.snoc (allowed_closed h.right hc h.atOnce)
      · rw [hp]; exact hD s.st.port.dest .unsubscribe rfl
    | note n =>
      have hm : (s.st.port.mark (.arrived n) s.clock).Right D s0 s.clock := h.right.mark n
      have hma : Throughout (Allowed D s0 d) (s.st.port.mark (.arrived n) s.clock).trace :=
        h.allowed.snoc (allowed_arrived rfl h.right h.atOnce)
      have hmc : D.isClosed (s.st.port.mark (.arrived n) s.clock).dest = false := hc
      have hlast : (s.st.port.mark (.arrived n) s.clock).trace.getLast? = some (.arrived n, s.clock) := by
        simp [Port.mark_trace]
      have hlen : s.st.counter = 0 → (outs s.st.port.trace).length = (arrivals s.st.port.trace).length := by
        intro h0
        have hp := congrArg List.length hl.pending
        have := hl.counter
        have := hl.le
        simp only [List.length_drop, List.length_append, List.length_map] at hp
        omega
      cases n with
      | next v =>
        have e1 : Solo.input (c := delay D d) (.note (.next v)) s =
            ⟨⟨s.st.port.mark (.arrived (.next v)) s.clock, s.st.completed, s.st.unsubscribed, s.st.counter + 1⟩, s.clock,
              s.queue ++ [.schedule (.delayed (some v) s.clock s.clock d)], s.active, s.tick⟩ := by
          simp only [Solo.input, List.foldl_cons, List.foldl_nil, Solo.request, Work.onScheduled, Work.newDelayed,
            updateTick_zero]
          rfl
        rw [e1]
        refine ⟨hm, hma, h.tick, ?_, fun _ => ⟨act, q ++ [(v, s.clock)], ?_⟩⟩
        · intro e k hk
          dsimp only at hk
          rw [hlast] at hk
          cases hk
        · have ho : outs (s.st.port.mark (.arrived (.next v)) s.clock).trace = outs s.st.port.trace := by
            rw [Port.mark_trace, outs_append, outs_of_ne (by simp), List.append_nil]
          have ha : arrivals (s.st.port.mark (.arrived (.next v)) s.clock).trace =
              arrivals s.st.port.trace ++ [(v, s.clock)] := by
            rw [Port.mark_trace, arrivals_append, arrivals_next]
          refine ⟨hl.active, ?_, ?_, ?_, ?_, ?_, hl.idle, hl.busy, ?_, ?_, ?_⟩
          · simp [hl.queue]
          · rw [ho, ha, List.drop_append_of_le_length hl.le, hl.pending, List.append_assoc]
          · rw [ho, ha, List.length_append]; have := hl.le; omega
          · simp only [List.length_append, List.length_singleton]; rw [hl.counter]; omega
          · intro p hp
            rcases List.mem_append.1 hp with hp | hp
            · exact hl.qtime p hp
            · rw [List.mem_singleton.1 hp]
          · intro _; exact Nat.succ_ne_zero _
          · rw [Port.mark_trace, arrived_snoc]; simpa using hl.completed
          · intro hu
            rw [Port.mark_trace, arrived_snoc, arrived_snoc]
            simpa using hl.unsubscribed hu
      | error e =>
        have hp : (Solo.input (c := delay D d) (.note (.error e)) s).st.port =
            (s.st.port.mark (.arrived (.error e)) s.clock).give D (.error e) s.clock := by
          rw [kst]; rfl
        refine Inv.shut ?_ ?_ htick ?_
        · rw [hp, kc]; exact hm.give _
        · rw [hp, Port.give_open hmc]
          refine hma.snoc (allowed_out hm hmc ?_ (by simp) (by simp) (by simp) ?_)
          · intro e' k hk
            rw [hlast] at hk
            cases hk
            exact ⟨rfl, rfl⟩
          · intro e' he
            cases he
            exact hlast
        · rw [hp, Port.give_open hmc]; exact hD _ (.error e) rfl
      | complete =>
        have ho : outs (s.st.port.mark (.arrived .complete) s.clock).trace = outs s.st.port.trace := by
          rw [Port.mark_trace, outs_append, outs_of_ne (by simp), List.append_nil]
        have ha : arrivals (s.st.port.mark (.arrived .complete) s.clock).trace = arrivals s.st.port.trace := by
          rw [Port.mark_trace, arrivals_append, arrivals_of_ne (by simp), List.append_nil]
        by_cases h0 : s.st.counter = 0
        · have hp : (Solo.input (c := delay D d) (.note .complete) s).st.port =
              (s.st.port.mark (.arrived .complete) s.clock).give D .complete s.clock := by
            rw [kst]
            show (State.complete D s.clock (s.st.arrive (.arrived .complete) s.clock)).port = _
            unfold State.complete
            dsimp only
            rw [if_pos (show (s.st.arrive _ _).counter = 0 from h0)]
            rfl
          refine Inv.shut ?_ ?_ htick ?_
          · rw [hp, kc]; exact hm.give _
          · rw [hp, Port.give_open hmc]
            refine hma.snoc (allowed_out hm hmc ?_ (by simp) ?_ (by simp) (by simp))
            · intro e' k hk
              rw [hlast] at hk
              cases hk
            · intro _
              refine ⟨⟨s.clock, ?_⟩, ?_⟩
              · rw [Port.mark_trace]; simp
              · rw [ho, ha]; exact hlen h0
          · rw [hp, Port.give_open hmc]; exact hD _ .complete rfl
        · have e1 : Solo.input (c := delay D d) (.note .complete) s =
              ⟨⟨s.st.port.mark (.arrived .complete) s.clock, true, true, s.st.counter⟩, s.clock, s.queue, s.active,
                s.tick⟩ := by
            have : State.complete D s.clock (s.st.arrive (.arrived .complete) s.clock) =
                ⟨s.st.port.mark (.arrived .complete) s.clock, true, true, s.st.counter⟩ := by
              unfold State.complete
              dsimp only
              rw [if_neg (show ¬ (s.st.arrive _ _).counter = 0 from h0)]
              rfl
            simp only [Solo.input, this, Port.teardown_of_open hmc, List.foldl_nil]
          rw [e1]
          refine ⟨hm, hma, h.tick, ?_, fun _ => ⟨act, q, ?_⟩⟩
          · intro e k hk
            dsimp only at hk
            rw [hlast] at hk
            cases hk
          · refine ⟨hl.active, hl.queue, ?_, ?_, hl.counter, hl.qtime, hl.idle, hl.busy, fun _ => h0, ?_, ?_⟩
            · rw [ho, ha]; exact hl.pending
            · rw [ho, ha]; exact hl.le
            · exact ⟨fun _ => ⟨s.clock, by rw [Port.mark_trace]; simp⟩, fun _ => rfl⟩
            · intro _; exact .inl ⟨s.clock, by rw [Port.mark_trace]; simp⟩
      | unsubscribe =>
        have ho : outs (s.st.port.mark (.arrived .unsubscribe) s.clock).trace = outs s.st.port.trace := by
          rw [Port.mark_trace, outs_append, outs_of_ne (by simp), List.append_nil]
        have ha : arrivals (s.st.port.mark (.arrived .unsubscribe) s.clock).trace = arrivals s.st.port.trace := by
          rw [Port.mark_trace, arrivals_append, arrivals_of_ne (by simp), List.append_nil]
        have har : Arrived .unsubscribe (s.st.port.mark (.arrived .unsubscribe) s.clock).trace :=
          ⟨s.clock, by rw [Port.mark_trace]; simp⟩
        have hcm : s.st.completed = true ↔ Arrived .complete (s.st.port.mark (.arrived .unsubscribe) s.clock).trace := by
          rw [Port.mark_trace, arrived_snoc]; simpa using hl.completed
        by_cases h0 : s.st.unsubscribed = false ∧ s.st.counter = 0
        · have hp : (Solo.input (c := delay D d) (.note .unsubscribe) s).st.port =
              (s.st.port.mark (.arrived .unsubscribe) s.clock).give D .unsubscribe s.clock := by
            rw [kst]
            show (State.unsubscribe D (D.isClosed s.st.port.dest || s.st.unsubscribed) s.clock
              (s.st.arrive (.arrived .unsubscribe) s.clock)).port = _
            unfold State.unsubscribe
            rw [if_neg (by simp [hc, h0.1])]
            dsimp only
            rw [if_pos (show (s.st.arrive _ _).counter = 0 from h0.2)]
            rfl
          refine Inv.shut ?_ ?_ htick ?_
          · rw [hp, kc]; exact hm.give _
          · rw [hp, Port.give_open hmc]
            refine hma.snoc (allowed_out hm hmc ?_ (by simp) (by simp) ?_ (by simp))
            · intro e' k hk
              rw [hlast] at hk
              cases hk
            · intro _
              refine ⟨har, ?_⟩
              rw [ho, ha]; exact hlen h0.2
          · rw [hp, Port.give_open hmc]; exact hD _ .unsubscribe rfl
        · have h0' : s.st.counter ≠ 0 := by
            cases hu : s.st.unsubscribed with
            | true => exact hl.done (.inr hu)
            | false => exact fun h => h0 ⟨hu, h⟩
          have e1 : Solo.input (c := delay D d) (.note .unsubscribe) s =
              ⟨⟨s.st.port.mark (.arrived .unsubscribe) s.clock, s.st.completed, true, s.st.counter⟩, s.clock, s.queue,
                s.active, s.tick⟩ := by
            have : State.unsubscribe D (D.isClosed (s.st.arrive (.arrived .unsubscribe) s.clock).port.dest ||
                (s.st.arrive (.arrived .unsubscribe) s.clock).unsubscribed) s.clock
                (s.st.arrive (.arrived .unsubscribe) s.clock) =
                ⟨s.st.port.mark (.arrived .unsubscribe) s.clock, s.st.completed, true, s.st.counter⟩ := by
              unfold State.unsubscribe
              cases hu : s.st.unsubscribed with
              | true =>
                rw [if_pos (by simp [State.arrive, hu])]
                simp only [State.arrive, hu]
              | false =>
                rw [if_neg (by simp [State.arrive, hu, hmc])]
                dsimp only
                rw [if_neg (show ¬ (s.st.arrive _ _).counter = 0 from h0')]
                rfl
            simp only [Solo.input, this, Port.teardown_of_open hmc, List.foldl_nil]
          rw [e1]
          refine ⟨hm, hma, h.tick, ?_, fun _ => ⟨act, q, ?_⟩⟩
          · intro e k hk
            dsimp only at hk
            rw [hlast] at hk
            cases hk
          · refine ⟨hl.active, hl.queue, ?_, ?_, hl.counter, hl.qtime, hl.idle, hl.busy, fun _ => h0', hcm, fun _ => .inr har⟩
            · rw [ho, ha]; exact hl.pending
            · rw [ho, ha]; exact hl.le

/-! ### Ticks -/

theorem process_schedules (q : List (I × Nat)) (l : List (Work I × Bool)) :
    (q.map fun p => (.schedule (.delayed (some p.1) p.2 p.2 d) : Req I)).foldl (Solo.process (c := delay D d)) l =
      l ++ q.map fun p => Pend.work d (p.1, p.2, p.2, false) := by
  induction q generalizing l with
  | nil => simp
  | cons p q ih =>
    simp only [List.map_cons, List.foldl_cons]
    rw [ih]
    simp [Solo.process, Pend.work]

theorem Inv.drain {s : Solo (delay D d)} (h : Inv D s0 d s) {t : Nat} (f : Pend I → Pend I)
    (hf : ∀ p, (f p).1 = p.1 ∧ (f p).2.1 = p.2.1)
    (hb : D.isClosed s.st.port.dest = false → ∀ act q, Live s act q → ∀ p ∈ act,
      updateTick (f p).2.2.1 t = updateTick s.clock t ∧
      ((f p).2.2.2 = true → (f p).2.2.1 = updateTick s.clock t ∧ updateTick s.clock t < (f p).2.1 + d))
    {s' : Solo (delay D d)} (h1 : s'.st = s.st) (h2 : s'.clock = updateTick s.clock t) (h3 : s'.queue = [])
    (h4 : ∀ act : List (Pend I), s.active = act.map (Pend.work d) →
      s'.active = s.queue.foldl Solo.process (act.map fun p => Pend.work d (f p)))
    (h5 : s'.tick = some t) : Inv D s0 d s' := by
  have hle : s.clock ≤ s'.clock := by rw [h2, updateTick_max]; omega
  have htick : ∀ t, s'.tick = some t → t ≤ s'.clock := by
    intro t' ht
    rw [h5] at ht
    cases ht
    rw [h2, updateTick_max]; omega
  refine ⟨by rw [h1]; exact h.right.mono hle, by rw [h1]; exact h.allowed, htick, by rw [h1]; exact h.atOnce, ?_⟩
  intro ho
  rw [h1] at ho
  obtain ⟨act, q, hl⟩ := h.live ho
  refine ⟨act.map f ++ q.map (fun p => (p.1, p.2, p.2, false)), [], ?_⟩
  constructor
  · rw [h4 act hl.active, hl.queue, process_schedules]
    simp [List.map_append, List.map_map, Function.comp_def]
  · rw [h3]; rfl
  · rw [h1, hl.pending]
    simp [List.map_append, List.map_map, Function.comp_def, hf]
  · rw [h1]; exact hl.le
  · rw [h1, hl.counter]; simp
  · simp
  · rw [h5]; intro h; cases h
  · intro t' ht p hp
    rw [h5] at ht
    cases ht
    rw [h2]
    rcases List.mem_append.1 hp with hp | hp
    · obtain ⟨p', hp', rfl⟩ := List.mem_map.1 hp
      exact hb ho act q hl p' hp'
    · obtain ⟨p', hp', rfl⟩ := List.mem_map.1 hp
      refine ⟨?_, fun h => by cases h⟩
      simp only
      rw [hl.qtime p' hp']
  · rw [h1]; exact hl.done
  · rw [h1]; exact hl.completed
  · rw [h1]; exact hl.unsubscribed

/-- A closure of a value whose destination is closed does nothing visible. -/
theorem exec_closed {st : State S I E} (hc : D.isClosed st.port.dest = true) (v : I) (t now : Nat) :
    ((delay D d).exec v t now st).2.1.port = st.port := by
  show (State.finish D _ now _).port = _
  have hg : st.port.give D (.next v) now = st.port := Port.give_closed hc _ _
  unfold State.finish
  rw [if_neg (by simp [hg, hc]), if_neg (by simp [hg, hc])]
  exact hg

theorem Inv.work (hD : HigherOrder.Closes D) {s s' : Solo (delay D d)} (h : Inv D s0 d s) {t : Nat}
    {pre post : List (Work I × Bool)} {w w' : Work I} {res : WorkResult} (ht : s.tick = some t)
    (ha : s.active = pre ++ (w, false) :: post) (hpre : ∀ p ∈ pre, p.2 = true)
    (hw : Solo.tickWork (c := delay D d) t s w = some (w', s', res)) :
    Inv D s0 d { s' with active := pre ++ (if res = .done then [] else [(w', true)]) ++ post } := by
  have hk := Solo.tickWork_own hw
  have htick : ∀ t', s'.tick = some t' → t' ≤ s'.clock := by
    intro t' ht'
    rw [hk.tick] at ht'
    rw [hk.clock]
    exact h.tick t' ht'
  cases hc : D.isClosed s.st.port.dest with
  | true =>
    have hp : s'.st.port = s.st.port := by
      refine Solo.tickWork_keeps (c := delay D d) (P := fun x => x.st.port = s.st.port) ?_ rfl hw
      intro b x hx
      have : (Solo.runBody t b x).2.1.st = ((delay D d).exec b t x.clock x.st).2.1 :=
        (Solo.requests_keep _ _).2.2.2
      rw [this, exec_closed (by rw [hx]; exact hc), hx]
    exact h.of_closed hc hp (by rw [hk.clock]; exact Nat.le_refl _) htick
  | false =>
    obtain ⟨act, q, hl⟩ := h.live hc
    have hact := hl.active
    rw [ha] at hact
    obtain ⟨act1, r, rfl, h1, h2⟩ := List.map_eq_append_iff.1 hact.symm
    obtain ⟨p, act2, rfl, h3, h4⟩ := List.map_eq_cons_iff.1 h2
    obtain ⟨v, a, cu, f⟩ := p
    simp only [Pend.work, Prod.mk.injEq] at h3
    obtain ⟨rfl, rfl⟩ := h3
    obtain ⟨hcu, _⟩ := hl.busy t ht (v, a, cu, false) (by simp)
    simp only at hcu
    have hpr1 : ∀ p ∈ act1, p.2.2.2 = true := by
      intro p hp
      have := hpre (Pend.work d p) (by rw [← h1]; exact List.mem_map_of_mem hp)
      exact this
    by_cases hdue : a + d ≤ s.clock
    · -- the oldest pending value
      have hsorted : (arrivals s.st.port.trace).Pairwise (fun a b => a.2 ≤ b.2) :=
        arrivals_sorted h.allowed (fun past m hm => hm.orderly.time)
      have hdrop : ((act1 ++ (v, a, cu, false) :: act2).map (fun p : Pend I => (p.1, p.2.1)) ++ q).Pairwise
          (fun a b => a.2 ≤ b.2) := by
        rw [← hl.pending]
        exact hsorted.sublist (List.drop_sublist _ _)
      have hnil : act1 = [] := by
        cases act1 with
        | nil => rfl
        | cons p rest =>
          exfalso
          obtain ⟨_, hb⟩ := hl.busy t ht p (by simp)
          obtain ⟨_, hlt⟩ := hb (hpr1 p (by simp))
          have : p.2.1 ≤ a := by
            simp only [List.cons_append, List.map_cons, List.map_append] at hdrop
            exact (List.pairwise_cons.1 hdrop).1 (v, a) (by simp)
          omega
      subst hnil
      have hpre' : pre = [] := by simpa using h1.symm
      subst hpre'
      simp only [List.nil_append] at hl
      have hpend : (arrivals s.st.port.trace)[(outs s.st.port.trace).length]? = some (v, a) := by
        have := congrArg (fun l => l[0]?) hl.pending
        simpa using this
      have hrun : s' = (Solo.runBody (c := delay D d) t v s).2.1 ∧ res = .done := by
        simp only [Solo.tickWork, hcu, if_pos hdue, Option.some.injEq, Prod.mk.injEq] at hw
        exact ⟨hw.2.1.symm, hw.2.2.symm⟩
      obtain ⟨hs', rfl⟩ := hrun
      simp only [List.nil_append, if_pos]
      have hst : s'.st = ((delay D d).exec v t s.clock s.st).2.1 := by
        rw [hs']; exact (Solo.requests_keep _ _).2.2.2
      have hcnt : s.st.counter = act2.length + q.length + 1 := by
        rw [hl.counter]; simp only [List.length_cons]; omega
      -- the value
      have hnoerr : ∀ e k, s.st.port.trace.getLast? ≠ some (.arrived (.error e), k) := by
        intro e k hk'
        rw [h.atOnce e k hk'] at hc
        cases hc
      have hr1 : (s.st.port.give D (.next v) s.clock).Right D s0 s.clock := h.right.give _
      have ha1 : Throughout (Allowed D s0 d) (s.st.port.give D (.next v) s.clock).trace := by
        rw [Port.give_open hc]
        refine h.allowed.snoc (allowed_out h.right hc (fun e k hk' => absurd hk' (hnoerr e k)) ?_ (by simp) (by simp)
          (by simp))
        intro v' hv'
        cases hv'
        exact ⟨a, hpend, hdue⟩
      have htr1 : (s.st.port.give D (.next v) s.clock).trace = s.st.port.trace ++ [(.out (.next v), s.clock)] := by
        rw [Port.give_open hc]
      have ho1 : outs (s.st.port.give D (.next v) s.clock).trace = outs s.st.port.trace ++ [(v, s.clock)] := by
        rw [htr1, outs_append, outs_next]
      have hav1 : arrivals (s.st.port.give D (.next v) s.clock).trace = arrivals s.st.port.trace := by
        rw [htr1, arrivals_append, arrivals_of_ne (by simp), List.append_nil]
      have hlt : (outs s.st.port.trace).length < (arrivals s.st.port.trace).length := by
        rcases Nat.lt_or_ge (outs s.st.port.trace).length (arrivals s.st.port.trace).length with h | h
        · exact h
        · rw [List.getElem?_eq_none h] at hpend; cases hpend
      have hlen1 : s.st.counter = 1 → (outs (s.st.port.give D (.next v) s.clock).trace).length =
          (arrivals (s.st.port.give D (.next v) s.clock).trace).length := by
        intro h1
        have hp := congrArg List.length hl.pending
        simp only [List.length_drop, List.length_append, List.length_map, List.length_cons] at hp
        rw [ho1, hav1, List.length_append, List.length_singleton]
        omega
      have hlast1 : (s.st.port.give D (.next v) s.clock).trace.getLast? = some (.out (.next v), s.clock) := by
        rw [htr1]; simp
      have hexec : ((delay D d).exec v t s.clock s.st).2.1 = State.finish D s.st.counter s.clock
        ⟨s.st.port.give D (.next v) s.clock, s.st.completed, s.st.unsubscribed, fetchSub s.st.counter⟩ := rfl
      have hcase : ((delay D d).exec v t s.clock s.st).2.1.port = s.st.port.give D (.next v) s.clock ∧
            ((D.isClosed (s.st.port.give D (.next v) s.clock).dest = false →
              (s.st.completed = true ∨ s.st.unsubscribed = true → s.st.counter ≠ 1) ∧
              ((delay D d).exec v t s.clock s.st).2.1 = ⟨s.st.port.give D (.next v) s.clock, s.st.completed,
                s.st.unsubscribed, fetchSub s.st.counter⟩)) ∨
          (∃ n, ((delay D d).exec v t s.clock s.st).2.1.port =
              (s.st.port.give D (.next v) s.clock).give D n s.clock ∧
            D.isClosed (s.st.port.give D (.next v) s.clock).dest = false ∧ s.st.counter = 1 ∧
            (n = .complete ∧ s.st.completed = true ∨
              n = .unsubscribe ∧ s.st.unsubscribed = true ∧ s.st.completed = false)) := by
        rw [hexec]
        unfold State.finish
        dsimp only
        cases hcl : D.isClosed (s.st.port.give D (.next v) s.clock).dest with
        | true =>
          left
          rw [if_neg (by simp), if_neg (by simp)]
          exact ⟨rfl, fun h => by cases h⟩
        | false =>
          by_cases hn1 : s.st.counter = 1
          · cases hcm : s.st.completed with
            | true =>
              right
              rw [if_pos (by simp [hn1])]
              exact ⟨.complete, rfl, rfl, hn1, .inl ⟨rfl, rfl⟩⟩
            | false =>
              rw [if_neg (by simp)]
              cases hu : s.st.unsubscribed with
              | true =>
                right
                rw [if_pos (by simp [hn1])]
                exact ⟨.unsubscribe, rfl, rfl, hn1, .inr ⟨rfl, rfl, rfl⟩⟩
              | false =>
                left
                rw [if_neg (by simp)]
                exact ⟨rfl, fun _ => ⟨by simp, rfl⟩⟩
          · left
            rw [if_neg (by simp [hn1]), if_neg (by simp [hn1])]
            exact ⟨rfl, fun _ => ⟨fun _ => hn1, rfl⟩⟩
      rcases hcase with ⟨hp, hrest⟩ | ⟨n, hp, hcl, hn1, hn⟩
      · cases hcl : D.isClosed (s.st.port.give D (.next v) s.clock).dest with
        | true =>
          refine Inv.shut ?_ ?_ htick ?_
          · show s'.st.port.Right D s0 s'.clock
            rw [hst, hp, hk.clock]; exact hr1
          · show Throughout _ s'.st.port.trace
            rw [hst, hp]; exact ha1
          · show D.isClosed s'.st.port.dest = true
            rw [hst, hp]; exact hcl
        | false =>
          obtain ⟨hflags, hst1⟩ := hrest hcl
          rw [hst1] at hst
          have hq : s'.queue = s.queue := by
            rw [hs']
            show (List.foldl Solo.request _ ((delay D d).exec v t s.clock s.st).2.2.1).queue = _
            have : ((delay D d).exec v t s.clock s.st).2.2.1 = [] := by
              show s.st.port.teardown D (State.finish D s.st.counter s.clock
                ⟨s.st.port.give D (.next v) s.clock, s.st.completed, s.st.unsubscribed, fetchSub s.st.counter⟩).port = []
              rw [← hexec, hst1]
              exact Port.teardown_of_open hcl
            rw [this]
            rfl
          refine ⟨?_, ?_, htick, ?_, fun _ => ⟨act2, q, ?_⟩⟩
          · show s'.st.port.Right D s0 s'.clock
            rw [hst, hk.clock]; exact hr1
          · show Throughout _ s'.st.port.trace
            rw [hst]; exact ha1
          · intro e k hk'
            replace hk' : s'.st.port.trace.getLast? = _ := hk'
            rw [hst] at hk'
            dsimp only at hk'
            rw [hlast1] at hk'
            cases hk'
          · constructor
            · exact h4.symm
            · exact hq.trans hl.queue
            · show List.drop (outs s'.st.port.trace).length (arrivals s'.st.port.trace) = _
              rw [hst]
              dsimp only
              rw [ho1, hav1, List.length_append, List.length_singleton, ← List.drop_drop, hl.pending]
              rfl
            · show (outs s'.st.port.trace).length ≤ (arrivals s'.st.port.trace).length
              rw [hst]
              dsimp only
              rw [ho1, hav1, List.length_append, List.length_singleton]
              omega
            · show s'.st.counter = _
              rw [hst]
              dsimp only
              unfold fetchSub
              rw [if_neg (by omega)]
              omega
            · intro p hp
              show p.2 = s'.clock
              rw [hk.clock]; exact hl.qtime p hp
            · intro hn
              replace hn : s'.tick = none := hn
              rw [hk.tick, ht] at hn
              cases hn
            · intro t' ht' p hp
              show updateTick p.2.2.1 t' = s'.clock ∧ (_ → p.2.2.1 = s'.clock ∧ s'.clock < _)
              replace ht' : s'.tick = some t' := ht'
              rw [hk.tick] at ht'
              rw [hk.clock]
              exact hl.busy t' ht' p (by simp [hp])
            · show s'.st.completed = true ∨ s'.st.unsubscribed = true → s'.st.counter ≠ 0
              rw [hst]
              dsimp only
              intro hf
              have := hflags hf
              unfold fetchSub
              rw [if_neg (by omega)]
              omega
            · show s'.st.completed = true ↔ Arrived .complete s'.st.port.trace
              rw [hst]
              dsimp only
              rw [htr1, arrived_snoc]
              simpa using hl.completed
            · show s'.st.unsubscribed = true → Arrived .complete s'.st.port.trace ∨ Arrived .unsubscribe s'.st.port.trace
              rw [hst]
              dsimp only
              intro hu
              rw [htr1, arrived_snoc, arrived_snoc]
              simpa using hl.unsubscribed hu
      · refine Inv.shut ?_ ?_ htick ?_
        · show s'.st.port.Right D s0 s'.clock
          rw [hst, hp, hk.clock]; exact hr1.give _
        · show Throughout _ s'.st.port.trace
          rw [hst, hp, Port.give_open hcl]
          refine ha1.snoc (allowed_out hr1 hcl ?_ ?_ ?_ ?_ ?_)
          · intro e k hk'
            rw [hlast1] at hk'
            cases hk'
          · intro v' hv'
            rcases hn with ⟨rfl, _⟩ | ⟨rfl, _⟩ <;> cases hv'
          · intro hv'
            rcases hn with ⟨_, h5⟩ | ⟨rfl, _⟩
            · exact ⟨by rw [htr1]; exact (hl.completed.1 h5).mono, hlen1 hn1⟩
            · cases hv'
          · intro hv'
            rcases hn with ⟨rfl, _⟩ | ⟨_, h5, h6⟩
            · cases hv'
            · refine ⟨?_, hlen1 hn1⟩
              rw [htr1]
              rcases hl.unsubscribed h5 with h7 | h7
              · rw [hl.completed.2 h7] at h6; cases h6
              · exact h7.mono
          · intro e hv'
            rcases hn with ⟨rfl, _⟩ | ⟨rfl, _⟩ <;> cases hv'
        · show D.isClosed s'.st.port.dest = true
          rw [hst, hp, Port.give_open hcl]
          rcases hn with ⟨rfl, _⟩ | ⟨rfl, _⟩
          · exact hD _ .complete rfl
          · exact hD _ .unsubscribe rfl
    · -- not due
      have hrun : s' = s ∧ res = .pending ∧ w' = .delayed (some v) a s.clock d := by
        simp only [Solo.tickWork, hcu, if_neg hdue, Option.some.injEq, Prod.mk.injEq] at hw
        exact ⟨hw.2.1.symm, hw.2.2.symm, hw.1.symm⟩
      obtain ⟨rfl, rfl, rfl⟩ := hrun
      refine ⟨h.right, h.allowed, h.tick, h.atOnce, fun _ => ⟨act1 ++ (v, a, s'.clock, true) :: act2, q, ?_⟩⟩
      refine ⟨?_, hl.queue, ?_, hl.le, ?_, hl.qtime, ?_, ?_, hl.done, hl.completed, hl.unsubscribed⟩
      · simp [Pend.work, ← h1, ← h4]
      · rw [hl.pending]; simp
      · rw [hl.counter]; simp
      · intro hn
        rw [ht] at hn
        cases hn
      · intro t' ht' p hp
        rw [ht] at ht'
        cases ht'
        rcases List.mem_append.1 hp with hp | hp
        · exact hl.busy t ht p (by simp [hp])
        · rcases List.mem_cons.1 hp with rfl | hp
          · refine ⟨?_, fun _ => ⟨rfl, by simp only; omega⟩⟩
            simp only
            rw [updateTick_max]
            have := h.tick t ht
            omega
          · exact hl.busy t ht p (by simp [hp])

theorem Inv.step (hD : HigherOrder.Closes D) {s s' : Solo (delay D d)} (h : Inv D s0 d s) (hs : Solo.Step s s') :
    Inv D s0 d s' := by
  cases hs with
  | input i => exact h.input hD i
  | start t ht =>
    refine h.drain (t := t) (fun p => (p.1, p.2.1, p.2.2.1, false)) (fun p => ⟨rfl, rfl⟩) ?_ rfl rfl rfl ?_ rfl
    · intro _ act q hl p hp
      refine ⟨?_, fun h => by cases h⟩
      rw [hl.idle ht p hp]
    · intro act ha
      simp [Solo.drain, ha, List.map_map, Function.comp_def, Pend.work]
  | work s' t pre post w w' res ht ha hpre hw => exact h.work hD ht ha hpre hw
  | pass t ht hall =>
    have hck : updateTick s.clock t = s.clock := by
      rw [updateTick_max]; have := h.tick t ht; omega
    refine h.drain (t := t) id (fun p => ⟨rfl, rfl⟩) ?_ rfl rfl rfl ?_ ht
    · intro _ act q hl p hp
      rw [hck]
      exact hl.busy t ht p hp
    · intro act ha
      simp [Solo.drain, ha]
  | finish t ht hall hq =>
    refine ⟨h.right, h.allowed, (fun t h => by cases h), h.atOnce, fun ho => ?_⟩
    obtain ⟨act, q, hl⟩ := h.live ho
    refine ⟨act, q, hl.active, hl.queue, hl.pending, hl.le, hl.counter, hl.qtime, ?_, (fun t h => by cases h), hl.done,
      hl.completed, hl.unsubscribed⟩
    intro _ p hp
    have hf : p.2.2.2 = true := by
      have := hall (Pend.work d p) (by rw [hl.active]; exact List.mem_map_of_mem hp)
      exact this
    exact ((hl.busy t ht p hp).2 hf).1

theorem Inv.steps (hD : HigherOrder.Closes D) {s s' : Solo (delay D d)} (h : Inv D s0 d s) (hs : Solo.Steps s s') :
    Inv D s0 d s' := by
  induction hs with
  | refl => exact h
  | tail _ hs ih => exact ih.step hD hs

theorem inv (hD : HigherOrder.Closes D) {s : Solo (delay D d)}
    (h : Solo.Reachable (c := delay D d) { port := { dest := s0 } } s) : Inv D s0 d s :=
  (Inv.init D s0 d).steps hD h

end Rx.Timed.Delay

namespace Rx.Timed.Delay
open Rx.Sched Rx.Timed

variable {S I E : Type} {D : Sub S I E} {s0 : S} {d : Nat}

theorem finish_grew (prev now : Nat) (s : State S I E) : Grew now s.port.trace (s.finish D prev now).port.trace := by
  unfold State.finish
  split
  · exact Port.give_grew _ _ _ _
  · split
    · exact Port.give_grew _ _ _ _
    · exact .refl _ _

theorem complete_grew (now : Nat) (s : State S I E) : Grew now s.port.trace (s.complete D now).port.trace := by
  unfold State.complete
  dsimp only
  split
  · exact Port.give_grew _ _ _ _
  · exact .refl _ _

theorem unsubscribe_grew (b : Bool) (now : Nat) (s : State S I E) :
    Grew now s.port.trace (s.unsubscribe D b now).port.trace := by
  unfold State.unsubscribe
  dsimp only
  split
  · exact .refl _ _
  · split
    · exact Port.give_grew _ _ _ _
    · exact .refl _ _

theorem stamps (D : Sub S I E) (d : Nat) : Stamps (delay D d) (fun s : State S I E => s.port.trace) := by
  refine ⟨fun v t now s => ?_, fun i now s => ?_⟩
  · exact (Port.give_grew D (.next v) now s.port).trans (finish_grew _ _ _)
  · cases i with
    | close => exact Port.close_grew _ _ _
    | note n =>
      cases n with
      | next v => exact Port.mark_grew _ _ _
      | error e => exact (Port.mark_grew _ _ _).trans (Port.give_grew _ _ _ _)
      | complete => exact (Port.mark_grew _ _ _).trans (complete_grew _ _)
      | unsubscribe => exact (Port.mark_grew _ _ _).trans (unsubscribe_grew _ _ _)

/-- A call does not give values to the destination. -/
theorem input_outs (i : Input I E) (now : Nat) (s : State S I E) :
    outs ((delay D d).input i now s).1.port.trace = outs s.port.trace := by
  have hg : ∀ (p : Port S I I E) n, (∀ v, n ≠ .next v) → outs (p.give D n now).trace = outs p.trace := by
    intro p n hn
    unfold Port.give
    split
    · rfl
    · show outs (p.trace ++ [(.out n, now)]) = _
      rw [outs_append, outs_of_ne (by simpa using hn), List.append_nil]
  have hm : ∀ n, outs (s.arrive (.arrived n) now).port.trace = outs s.port.trace := by
    intro n
    show outs (s.port.trace ++ [(.arrived n, now)]) = _
    rw [outs_append, outs_of_ne (by simp), List.append_nil]
  cases i with
  | close =>
    show outs (s.port.close D now).trace = _
    unfold Port.close
    split
    · rfl
    · show outs (s.port.trace ++ [(.closed, now)]) = _
      rw [outs_append, outs_of_ne (by simp), List.append_nil]
  | note n =>
    rw [← hm n]
    cases n with
    | next v => rfl
    | error e => exact hg _ _ (by simp)
    | complete =>
      show outs (State.complete D now (s.arrive (.arrived .complete) now)).port.trace = _
      unfold State.complete
      dsimp only
      split
      · exact hg _ _ (by simp)
      · rfl
    | unsubscribe =>
      show outs (State.unsubscribe D _ now (s.arrive (.arrived .unsubscribe) now)).port.trace = _
      unfold State.unsubscribe
      dsimp only
      split
      · rfl
      · split
        · exact hg _ _ (by simp)
        · rfl

/-- What is given is what arrived, in order, and not too early. -/
theorem allowed_order {τ : Line I I E} (h : Throughout (Allowed D s0 d) τ) {i k : Nat} {v : I}
    (hi : (outs τ)[i]? = some (v, k)) : ∃ a, (arrivals τ)[i]? = some (v, a) ∧ a + d ≤ k := by
  have key : ∀ (past rest : Line I I E), τ = past ++ rest →
      ∀ (i : Nat) (v : I) (k : Nat), (outs past)[i]? = some (v, k) → ∃ a, (arrivals past)[i]? = some (v, a) ∧ a + d ≤ k := by
    intro past
    induction past using Rx.snoc_induction with
    | nil => intro rest _ i v k h; simp [outs] at h
    | snoc past m ih =>
      intro rest he i v k hi
      have ha := h past m rest (by rw [he]; simp)
      have ih := ih (m :: rest) (by rw [he]; simp)
      rw [outs_append] at hi
      have mono : ∀ (i : Nat) (v : I) (a : Nat), (arrivals past)[i]? = some (v, a) → (arrivals (past ++ [m]))[i]? = some (v, a) := by
        intro i v a h
        rw [arrivals_append, List.getElem?_append_left]
        · exact h
        · exact (List.getElem?_eq_some_iff.1 h).1
      rcases Nat.lt_or_ge i (outs past).length with hlt | hge
      · rw [List.getElem?_append_left hlt] at hi
        obtain ⟨a, h1, h2⟩ := ih i v k hi
        exact ⟨a, mono _ _ _ h1, h2⟩
      · rw [List.getElem?_append_right hge] at hi
        obtain ⟨m, km⟩ := m
        by_cases hm : ∃ v', m = .out (.next v')
        · obtain ⟨v', rfl⟩ := hm
          rw [outs_next] at hi
          have h0 : i - (outs past).length = 0 := by
            rcases Nat.eq_zero_or_pos (i - (outs past).length) with h | h
            · exact h
            · rw [List.getElem?_eq_none h] at hi; cases hi
          rw [h0] at hi
          cases hi
          obtain ⟨a, h1, h2⟩ := ha.value v rfl
          refine ⟨a, mono _ _ _ ?_, h2⟩
          have : i = (outs past).length := by omega
          rw [this]; exact h1
        · rw [outs_of_ne (fun v h => hm ⟨v, h⟩)] at hi
          cases hi
  exact key τ [] (by simp) i v k hi

end Rx.Timed.Delay
