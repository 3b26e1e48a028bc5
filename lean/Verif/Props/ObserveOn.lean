import Verif.Lemmas.TimedObserveOn
import Verif.Props.Timed

/-!
# C50: observe_on

See `Verif.Props.Timed` for what a history is.
-/

namespace Rx.Timed.Props
open Rx.Sched Rx.Timed
open Rx.HigherOrder (Closes Patient)

variable {S I E : Type} {D : Sub S I E} {s : S}

section ObserveOn
variable {R : Rest (observeOn D)} {x : R.Ctx} {n : Nat} {ops : List R.Op} {e0 e : Exec R.env}

theorem observe_on_inv (hD : Closes D) (h : R.run (R.start { port := { dest := s } } x n) ops = .ok e) :
    ∃ y : Solo (observeOn D), ObserveOn.Inv D s y ∧ y.tick = none ∧ y.st = e.world.ctx.1 ∧
      y.clock = e.world.sched.currentTick := by
  obtain ⟨y, h1, h2, h3, h4⟩ := solo_of_run h
  exact ⟨y, ObserveOn.inv hD h1, h2, h3, h4⟩

/-- C50. At every moment `observe_on` does only what it may: it gives the values that arrived, in order; completion (or
unsubscription) only after it arrived and, if no value arrived after completion, all values were given; errors at once.
What the destination has got is what the record says. -/
theorem C50_observe_on_allowed (hD : Closes D) (h : R.run (R.start { port := { dest := s } } x n) ops = .ok e) :
    Throughout (ObserveOn.Allowed D s) e.world.ctx.1.port.trace ∧
    e.world.ctx.1.port.dest = fed D s e.world.ctx.1.port.trace := by
  obtain ⟨y, hy, _, h3, _⟩ := observe_on_inv hD h
  rw [← h3]
  exact ⟨hy.allowed, hy.right.fed⟩

/-- C50. The `i`-th value given is the `i`-th that arrived. -/
theorem C50_observe_on_order (hD : Closes D) (h : R.run (R.start { port := { dest := s } } x n) ops = .ok e)
    {i k : Nat} {v : I} (hi : (outs e.world.ctx.1.port.trace)[i]? = some (v, k)) :
    ∃ a, (arrivals e.world.ctx.1.port.trace)[i]? = some (v, a) :=
  ObserveOn.allowed_order (C50_observe_on_allowed hD h).1 hi

/-- C50. After a tick, if the destination is open, all values that arrived have been given. -/
theorem C50_observe_on_prompt (hD : Closes D) (h0 : R.run (R.start { port := { dest := s } } x n) ops = .ok e0) {t : Nat}
    (h1 : e0.tickTo t = .ok e) (ho : D.isClosed e.world.ctx.1.port.dest = false) :
    (outs e.world.ctx.1.port.trace).map (·.1) = (arrivals e.world.ctx.1.port.trace).map (·.1) := by
  obtain ⟨s0, y, k1, k2, _, _, k5, k6, k7, k8, k9, k10⟩ := solo_of_tick h0 h1
  have hy : ObserveOn.Inv D s y := ((ObserveOn.inv hD k1).step hD (.start s0 t k2)).steps hD k5.steps
  have hh : R.run (R.start { port := { dest := s } } x n) (ops ++ [.tickTo t]) = .ok e := by
    rw [Rest.run_snoc, h0]; exact h1
  have hord := fun i k v => C50_observe_on_order hD hh (i := i) (k := k) (v := v)
  rw [← k9] at ho hord ⊢
  obtain ⟨act, q, hl⟩ := hy.live ho
  have hq : q = [] := by
    have := hl.queue
    rw [k8] at this
    simpa using this.symm
  have ha : act = [] := by
    cases act with
    | nil => rfl
    | cons b act =>
      have := k7 (.immediate (some b), false) (by rw [hl.active]; simp)
      cases this
  have hlen : (arrivals y.st.port.trace).length ≤ (outs y.st.port.trace).length := by
    have := congrArg List.length hl.pending
    rw [hq, ha] at this
    simp only [List.length_map, List.length_drop, List.append_nil, List.filterMap_nil, List.length_nil] at this
    omega
  refine List.ext_getElem? fun i => ?_
  rw [List.getElem?_map, List.getElem?_map]
  rcases Nat.lt_or_ge i (outs y.st.port.trace).length with hlt | hge
  · obtain ⟨a, h2⟩ := hord i _ _ (by rw [List.getElem?_eq_getElem hlt])
    rw [h2, List.getElem?_eq_getElem hlt]
    rfl
  · rw [List.getElem?_eq_none hge, List.getElem?_eq_none (by omega)]

/-- C50. A value is given in the next tick: if it had arrived but was not given before the tick, it is given in this
tick. -/
theorem C50_observe_on_next_tick (hD : Closes D) (h0 : R.run (R.start { port := { dest := s } } x n) ops = .ok e0)
    {t : Nat} (h1 : e0.tickTo t = .ok e) (ho : D.isClosed e.world.ctx.1.port.dest = false) {i a : Nat} {v : I}
    (hi : (arrivals e.world.ctx.1.port.trace)[i]? = some (v, a))
    (hb : (outs e0.world.ctx.1.port.trace).length ≤ i) :
    (outs e.world.ctx.1.port.trace)[i]? = some (v, max e0.world.sched.currentTick t) := by
  obtain ⟨l1, new, l2, l3⟩ := (ObserveOn.stamps D).tickTo h0 h1
  rw [← l1]
  have hp := congrArg (fun l => l[i]?) (C50_observe_on_prompt hD h0 h1 ho)
  dsimp only at hp
  rw [List.getElem?_map, List.getElem?_map, hi, Option.map_some, Option.map_eq_some_iff] at hp
  obtain ⟨⟨v', k⟩, hk, rfl⟩ := hp
  rw [hk]
  have hnew : (v', k) ∈ outs new := by
    rw [l2, outs_append, List.getElem?_append_right hb] at hk
    exact List.mem_of_getElem? hk
  simp only [outs, List.mem_filterMap] at hnew
  obtain ⟨m, hm, hme⟩ := hnew
  split at hme
  · cases hme
    have := l3 _ hm
    rw [← this]
  · cases hme

/-- C50. Between ticks no value is given. -/
theorem C50_observe_on_between (i : Input I E) (w : World R.env) :
    outs (R.act (.input i) w).ctx.1.port.trace = outs w.ctx.1.port.trace := by
  rw [Rest.act_input_st]
  exact ObserveOn.input_outs i _ _

/-- C50. Once completion has arrived and all values were given, and none came after completion, the
destination is closed; -/
theorem C50_observe_on_closes (hD : Closes D) (h : R.run (R.start { port := { dest := s } } x n) ops = .ok e)
    (hc : Arrived .complete e.world.ctx.1.port.trace)
    (ho : (outs e.world.ctx.1.port.trace).length = (arrivals e.world.ctx.1.port.trace).length)
    (hp : Throughout Polite e.world.ctx.1.port.trace) :
    D.isClosed e.world.ctx.1.port.dest = true := by
  obtain ⟨y, hy, _, h3, _⟩ := observe_on_inv hD h
  rw [← h3] at hc ho hp ⊢
  cases hcl : D.isClosed y.st.port.dest with
  | true => rfl
  | false =>
    exfalso
    obtain ⟨act, q, hl⟩ := hy.live hcl
    have h5 := hl.done hp (.inl (hl.completed.2 hc))
    have h6 := congrArg List.length hl.pending
    have h7 := hl.counter hp
    simp only [List.length_drop, List.length_map] at h6
    omega

/-- and the destination was completed, if nothing else closed it. -/
theorem C50_observe_on_completes (hD : Closes D) (hP : Patient D) (hs : D.isClosed s = false)
    (h : R.run (R.start { port := { dest := s } } x n) ops = .ok e)
    (hc : Arrived .complete e.world.ctx.1.port.trace)
    (ho : (outs e.world.ctx.1.port.trace).length = (arrivals e.world.ctx.1.port.trace).length)
    (hp : Throughout Polite e.world.ctx.1.port.trace)
    (hu : ¬ Arrived .unsubscribe e.world.ctx.1.port.trace) (he : ∀ u, ¬ Arrived (.error u) e.world.ctx.1.port.trace)
    (hx : ∀ k, (.closed, k) ∉ e.world.ctx.1.port.trace) :
    Gave .complete e.world.ctx.1.port.trace := by
  have hcl := C50_observe_on_closes hD h hc ho hp
  obtain ⟨hall, hf⟩ := C50_observe_on_allowed hD h
  rw [hf] at hcl
  exact gave_of_closed hP hs hcl (fun m hm => by
    obtain ⟨past, rest, hsplit⟩ := List.append_of_mem hm
    have ha := hall past m rest hsplit
    obtain ⟨m, k⟩ := m
    cases m with
    | arrived n => exact .inl ⟨n, rfl⟩
    | closed => exact absurd hm (hx k)
    | out n =>
      cases n with
      | next v => exact .inr (.inl ⟨v, rfl⟩)
      | complete => exact .inr (.inr rfl)
      | error u =>
        exfalso
        have := ha.error u rfl
        refine he u ⟨k, ?_⟩
        rw [hsplit]
        exact List.mem_append_left _ (List.mem_of_getLast? this)
      | unsubscribe =>
        exfalso
        have := (ha.unsubscribe rfl).1
        refine hu ?_
        rw [hsplit]
        exact this.mono)

/-- C50. An error that arrives while the destination is open is given at once; pending values are never given. -/
theorem C50_observe_on_error (hD : Closes D) (h : R.run (R.start { port := { dest := s } } x n) ops = .ok e)
    {past rest : Line I I E} {u : E} {k : Nat}
    (ht : e.world.ctx.1.port.trace = past ++ (.arrived (.error u), k) :: rest)
    (ho : D.isClosed (fed D s past) = false) :
    ∃ rest', rest = (.out (.error u), k) :: rest' ∧ ∀ m ∈ rest', ∃ n, m.1 = .arrived n := by
  obtain ⟨y, hy, _, h3, _⟩ := observe_on_inv hD h
  obtain ⟨hall, hf⟩ := C50_observe_on_allowed hD h
  have hfed : fed D s (past ++ [(.arrived (.error u), k)]) = fed D s past := fed_arrived ..
  cases rest with
  | nil =>
    exfalso
    have := hy.atOnce u k (by rw [h3, ht]; simp)
    rw [h3, hf, ht, hfed, ho] at this
    cases this
  | cons m rest' =>
    have hm := hall (past ++ [(.arrived (.error u), k)]) m rest' (by rw [ht]; simp)
    have hme := hm.atOnce u k (by simp) (by rw [hfed]; exact ho)
    subst hme
    refine ⟨rest', rfl, closed_end (past := past ++ [(.arrived (.error u), k), (.out (.error u), k)])
      (hall.imp (fun τ m h => h.orderly) |> fun h => by rw [ht] at h; simpa using h) ?_⟩
    rw [show past ++ [(.arrived (.error u), k), (.out (.error u), k)] =
      (past ++ [(.arrived (.error u), k)]) ++ [(.out (.error u), k)] by simp, fed_out]
    exact hD _ _ rfl

end ObserveOn

/-! ### Concrete cases -/

/-- Two values between ticks, and a third with completion from inside a tick. -/
example : (after (c := observeOn obs) { port := { dest := .new } }
    [.act (.input (.note (.next 1))), .act (.input (.note (.next 2))),
     .act (.call (.scheduleWork (.newDelayed [.note (.next 3), .note .complete] 1) 7)), .tickTo 3, .tickTo 4]).map
      (fun s => (s.port.trace, s.port.dest.seen)) = some
      ([(.arrived (.next 1), 0), (.arrived (.next 2), 0), (.out (.next 1), 3), (.out (.next 2), 3),
        (.arrived (.next 3), 3), (.arrived .complete, 3), (.out (.next 3), 3), (.out .complete, 3)],
        [.next 1, .next 2, .next 3, .complete]) := by
  decide +kernel

/-- Its upstream is polite. -/
example : Throughout Polite ([(.arrived (.next 1), 0), (.arrived (.next 2), 0), (.out (.next 1), 3),
    (.arrived .complete, 4)] : Line Nat Nat Nat) := by
  have hn := Throughout.nil (I := Nat) (O := Nat) (E := Nat) Polite
  have h1 := hn.snoc (m := (.arrived (.next 1), 0)) (fun v _ h => by simp [Arrived] at h)
  have h2 := h1.snoc (m := (.arrived (.next 2), 0)) (fun v _ h => by simp [Arrived] at h)
  have h3 := h2.snoc (m := (.out (.next 1), 3)) (fun v h => by cases h)
  exact h3.snoc (m := (.arrived .complete, 4)) (fun v h => by cases h)

/-- An error overtakes what is pending. -/
example : (after (c := observeOn obs) { port := { dest := .new } }
    [.act (.input (.note (.next 1))), .act (.input (.note (.error 9))), .tickTo 9]).map
      (fun s => (s.port.trace, s.port.dest.seen)) = some
      ([(.arrived (.next 1), 0), (.arrived (.error 9), 0), (.out (.error 9), 0)], [.error 9]) := by
  decide +kernel

/-- The condition on upstream is needed: with a value that arrives after completion, completion is never given. -/
theorem C50_never_completed : (after (c := observeOn obs) { port := { dest := .new } }
    [.act (.input (.note (.next 1))), .act (.input (.note .complete)), .act (.input (.note (.next 2))), .tickTo 1,
     .tickTo 2, .act (.input (.note .unsubscribe)), .tickTo 3]).map
      (fun s => (s.port.dest.seen, s.counter)) = some ([.next 1, .next 2], usizeMax) := by
  decide +kernel

/-- Values that are pending when the stream is unsubscribed are still given. -/
theorem C50_given_after_unsubscribe : (after (c := observeOn obs) { port := { dest := .new } }
    [.act (.input (.note (.next 1))), .act (.input (.note .unsubscribe)), .tickTo 1]).map
      (fun s => s.port.trace) = some
      [(.arrived (.next 1), 0), (.arrived .unsubscribe, 0), (.out (.next 1), 1), (.out .unsubscribe, 1)] := by
  decide +kernel

end Rx.Timed.Props
