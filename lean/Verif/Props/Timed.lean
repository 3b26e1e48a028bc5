import Verif.Lemmas.TimedDelay
import Verif.Props.HigherOrder

/-!
# C47: delay

The operator runs on a scheduler it shares with an arbitrary program (`R : Rest _`): other work on the same
scheduler, calls between ticks and from inside ticks. A history is a list of such operations (`ops`), from a new
executor; `e` is the executor after it, and `e.world.ctx.1` the operator with the record of what happened to it.
-/

namespace Rx.Timed.Props
open Rx.Sched Rx.Timed
open Rx.HigherOrder (Closes Patient)

variable {S I E : Type} {D : Sub S I E} {s : S} {d : Nat}

section Delay
variable {R : Rest (delay D d)} {x : R.Ctx} {n : Nat} {ops : List R.Op} {e0 e : Exec R.env}

theorem delay_inv (hD : Closes D) (h : R.run (R.start { port := { dest := s } } x n) ops = .ok e) :
    ∃ y : Solo (delay D d), Delay.Inv D s d y ∧ y.tick = none ∧ y.st = e.world.ctx.1 ∧
      y.clock = e.world.sched.currentTick := by
  obtain ⟨y, h1, h2, h3, h4⟩ := solo_of_run h
  exact ⟨y, Delay.inv hD h1, h2, h3, h4⟩

/-- C47. At every moment `delay(d)` does only what it may: it gives the values that arrived, in order, each not
earlier than `d` after its arrival; completion (or unsubscription) only after it arrived and all values were given;
errors at once. What the destination has got is what the record says. -/
theorem C47_delay_allowed (hD : Closes D) (h : R.run (R.start { port := { dest := s } } x n) ops = .ok e) :
    Throughout (Delay.Allowed D s d) e.world.ctx.1.port.trace ∧
    e.world.ctx.1.port.dest = fed D s e.world.ctx.1.port.trace := by
  obtain ⟨y, hy, _, h3, _⟩ := delay_inv hD h
  rw [← h3]
  exact ⟨hy.allowed, hy.right.fed⟩

/-- C47. The `i`-th value given is the `i`-th that arrived, `d` or more later. -/
theorem C47_delay_order (hD : Closes D) (h : R.run (R.start { port := { dest := s } } x n) ops = .ok e)
    {i k : Nat} {v : I} (hi : (outs e.world.ctx.1.port.trace)[i]? = some (v, k)) :
    ∃ a, (arrivals e.world.ctx.1.port.trace)[i]? = some (v, a) ∧ a + d ≤ k :=
  Delay.allowed_order (C47_delay_allowed hD h).1 hi

/-- C47. After a tick, if the destination is open, all values that are due have been given. -/
theorem C47_delay_prompt (hD : Closes D) (h0 : R.run (R.start { port := { dest := s } } x n) ops = .ok e0) {t : Nat}
    (h1 : e0.tickTo t = .ok e) (ho : D.isClosed e.world.ctx.1.port.dest = false) {i a : Nat} {v : I}
    (hi : (arrivals e.world.ctx.1.port.trace)[i]? = some (v, a)) (ha : a + d ≤ e.world.sched.currentTick) :
    i < (outs e.world.ctx.1.port.trace).length := by
  obtain ⟨s0, y, k1, k2, _, _, k5, k6, k7, k8, k9, k10⟩ := solo_of_tick h0 h1
  have hy : Delay.Inv D s d y :=
    ((Delay.inv hD k1).step hD (.start s0 t k2)).steps hD k5.steps
  rw [← k9] at ho hi ⊢
  rw [← k10] at ha
  obtain ⟨act, q, hl⟩ := hy.live ho
  rcases Nat.lt_or_ge i (outs y.st.port.trace).length with h | h
  · exact h
  · exfalso
    have hq : q = [] := by
      have := hl.queue
      rw [k8] at this
      simpa using this.symm
    have hm : (v, a) ∈ (arrivals y.st.port.trace).drop (outs y.st.port.trace).length := by
      refine List.mem_of_getElem? (i := i - (outs y.st.port.trace).length) ?_
      rw [List.getElem?_drop, ← hi]
      congr 1
      omega
    rw [hl.pending, hq, List.append_nil, List.mem_map] at hm
    obtain ⟨p, hp, hpe⟩ := hm
    have hf : p.2.2.2 = true := k7 (p.work d) (by rw [hl.active]; exact List.mem_map_of_mem hp)
    have := ((hl.busy t k6 p hp).2 hf).2
    cases hpe
    omega

/-- C47. A value is given on the first tick at or after its time: if it was not given before the tick, and is due,
it is given in this tick. -/
theorem C47_delay_first (hD : Closes D) (h0 : R.run (R.start { port := { dest := s } } x n) ops = .ok e0) {t : Nat}
    (h1 : e0.tickTo t = .ok e) (ho : D.isClosed e.world.ctx.1.port.dest = false) {i a : Nat} {v : I}
    (hi : (arrivals e.world.ctx.1.port.trace)[i]? = some (v, a)) (ha : a + d ≤ max e0.world.sched.currentTick t)
    (hb : (outs e0.world.ctx.1.port.trace).length ≤ i) :
    (outs e.world.ctx.1.port.trace)[i]? = some (v, max e0.world.sched.currentTick t) := by
  obtain ⟨l1, new, l2, l3⟩ := (Delay.stamps D d).tickTo h0 h1
  rw [← l1] at ha ⊢
  have hlt := C47_delay_prompt hD h0 h1 ho hi ha
  obtain ⟨⟨v', k⟩, hk⟩ : ∃ p, (outs e.world.ctx.1.port.trace)[i]? = some p := ⟨_, List.getElem?_eq_getElem hlt⟩
  have hh : R.run (R.start { port := { dest := s } } x n) (ops ++ [.tickTo t]) = .ok e := by
    rw [Rest.run_snoc, h0]; exact h1
  obtain ⟨a', h3, _⟩ := C47_delay_order hD hh hk
  rw [hi] at h3
  cases h3
  rw [hk]
  have hnew : (v, k) ∈ outs new := by
    rw [l2, outs_append, List.getElem?_append_right hb] at hk
    exact List.mem_of_getElem? hk
  simp only [outs, List.mem_filterMap] at hnew
  obtain ⟨m, hm, hme⟩ := hnew
  split at hme
  · cases hme
    have := l3 _ hm
    rw [← this]
  · cases hme

/-- C47. Between ticks no value is given. -/
theorem C47_delay_between (i : Input I E) (w : World R.env) :
    outs (R.act (.input i) w).ctx.1.port.trace = outs w.ctx.1.port.trace := by
  rw [Rest.act_input_st]
  exact Delay.input_outs i _ _

/-- C47. Once completion has arrived and all values were given, the destination is closed; -/
theorem C47_delay_closes (hD : Closes D) (h : R.run (R.start { port := { dest := s } } x n) ops = .ok e)
    (hc : Arrived .complete e.world.ctx.1.port.trace)
    (ho : (outs e.world.ctx.1.port.trace).length = (arrivals e.world.ctx.1.port.trace).length) :
    D.isClosed e.world.ctx.1.port.dest = true := by
  obtain ⟨y, hy, _, h3, _⟩ := delay_inv hD h
  rw [← h3] at hc ho ⊢
  cases hcl : D.isClosed y.st.port.dest with
  | true => rfl
  | false =>
    exfalso
    obtain ⟨act, q, hl⟩ := hy.live hcl
    have h5 := hl.done (.inl (hl.completed.2 hc))
    have h6 := congrArg List.length hl.pending
    have h7 := hl.counter
    simp only [List.length_drop, List.length_append, List.length_map] at h6
    omega

/-- and the destination was completed, if nothing else closed it. -/
theorem C47_delay_completes (hD : Closes D) (hP : Patient D) (hs : D.isClosed s = false)
    (h : R.run (R.start { port := { dest := s } } x n) ops = .ok e)
    (hc : Arrived .complete e.world.ctx.1.port.trace)
    (ho : (outs e.world.ctx.1.port.trace).length = (arrivals e.world.ctx.1.port.trace).length)
    (hu : ¬ Arrived .unsubscribe e.world.ctx.1.port.trace) (he : ∀ u, ¬ Arrived (.error u) e.world.ctx.1.port.trace)
    (hx : ∀ k, (.closed, k) ∉ e.world.ctx.1.port.trace) :
    Gave .complete e.world.ctx.1.port.trace := by
  have hcl := C47_delay_closes hD h hc ho
  obtain ⟨hall, hf⟩ := C47_delay_allowed hD h
  rw [hf] at hcl
  exact gave_of_closed hP hs hcl (fun m hm => by
    obtain ⟨past, rest, hsplit⟩ := List.append_of_mem hm
    have ha := hall past m rest hsplit
    obtain ⟨m, k⟩ := m
    cases m with
    | arrived n => exact .inl ⟨n, rfl⟩
    | closed => exact absurd hm (hx k)
    | out n =>
      cases n with
      | next v => exact .inr (.inl ⟨v, rfl⟩)
      | complete => exact .inr (.inr rfl)
      | error u =>
        exfalso
        have := ha.error u rfl
        refine he u ⟨k, ?_⟩
        rw [hsplit]
        exact List.mem_append_left _ (List.mem_of_getLast? this)
      | unsubscribe =>
        exfalso
        have := (ha.unsubscribe rfl).1
        refine hu ?_
        rw [hsplit]
        exact this.mono)

/-- C47. An error that arrives while the destination is open is given at once; pending values are never given. -/
theorem C47_delay_error (hD : Closes D) (h : R.run (R.start { port := { dest := s } } x n) ops = .ok e)
    {past rest : Line I I E} {u : E} {k : Nat}
    (ht : e.world.ctx.1.port.trace = past ++ (.arrived (.error u), k) :: rest)
    (ho : D.isClosed (fed D s past) = false) :
    ∃ rest', rest = (.out (.error u), k) :: rest' ∧ ∀ m ∈ rest', ∃ n, m.1 = .arrived n := by
  obtain ⟨y, hy, _, h3, _⟩ := delay_inv hD h
  obtain ⟨hall, hf⟩ := C47_delay_allowed hD h
  have hfed : fed D s (past ++ [(.arrived (.error u), k)]) = fed D s past := fed_arrived ..
  cases rest with
  | nil =>
    exfalso
    have := hy.atOnce u k (by rw [h3, ht]; simp)
    rw [h3, hf, ht, hfed, ho] at this
    cases this
  | cons m rest' =>
    have hm := hall (past ++ [(.arrived (.error u), k)]) m rest' (by rw [ht]; simp)
    have hme := hm.atOnce u k (by simp) (by rw [hfed]; exact ho)
    subst hme
    refine ⟨rest', rfl, closed_end (past := past ++ [(.arrived (.error u), k), (.out (.error u), k)])
      (hall.imp (fun τ m h => h.orderly) |> fun h => by rw [ht] at h; simpa using h) ?_⟩
    rw [show past ++ [(.arrived (.error u), k), (.out (.error u), k)] =
      (past ++ [(.arrived (.error u), k)]) ++ [(.out (.error u), k)] by simp, fed_out]
    exact hD _ _ rfl

end Delay

/-! ### Concrete cases -/

/-- A program that feeds the operator from its own work: a closure does its acts, and is done. -/
@[reducible] def feeder (c : Client) : Rest c where
  Ctx := Unit
  B := List c.In
  exec b _ _ _ _ := (b, (), b.map .input, .done)
  react _ _ _ _ := ((), [])

/-- The operator after a history. -/
def after {c : Client} (st : c.St) (ops : List (feeder c).Op) : Option c.St :=
  match (feeder c).run ((feeder c).start st () 10) ops with
  | .ok e => some e.world.ctx.1
  | _ => none

theorem after_some {c : Client} {st : c.St} {ops : List (feeder c).Op} {y : c.St} (h : after st ops = some y) :
    ∃ e, (feeder c).run ((feeder c).start st () 10) ops = .ok e ∧ e.world.ctx.1 = y := by
  unfold after at h
  split at h
  · rename_i e he
    cases h
    exact ⟨e, he, rfl⟩
  · cases h

/-- An observer. -/
abbrev Ob := ObsState Nat Nat
abbrev obs : Sub Ob Nat Nat := observerSubscriber Nat Nat

/-- Two values and a third with completion from inside a tick, delayed by 2, with ticks at 1, 3, 4 and 7. -/
theorem delay_example : ∃ e, (feeder (delay obs 2)).run ((feeder (delay obs 2)).start { port := { dest := .new } } () 10)
    [.act (.input (.note (.next 1))), .tickTo 1, .act (.input (.note (.next 2))),
     .act (.call (.scheduleWork (.newDelayed [.note (.next 3), .note .complete] 1) 7)), .tickTo 3, .tickTo 4,
     .tickTo 7] = .ok e ∧
    e.world.ctx.1.port.trace =
      [(.arrived (.next 1), 0), (.arrived (.next 2), 1), (.out (.next 1), 3), (.out (.next 2), 3),
       (.arrived (.next 3), 3), (.arrived .complete, 3), (.out (.next 3), 7), (.out .complete, 7)] := by
  have h : (after (c := delay obs 2) { port := { dest := .new } }
    [.act (.input (.note (.next 1))), .tickTo 1, .act (.input (.note (.next 2))),
     .act (.call (.scheduleWork (.newDelayed [.note (.next 3), .note .complete] 1) 7)), .tickTo 3, .tickTo 4,
     .tickTo 7]).map (·.port.trace) = some
      [(.arrived (.next 1), 0), (.arrived (.next 2), 1), (.out (.next 1), 3), (.out (.next 2), 3),
       (.arrived (.next 3), 3), (.arrived .complete, 3), (.out (.next 3), 7), (.out .complete, 7)] := by
    decide +kernel
  obtain ⟨y, hy, ht⟩ := Option.map_eq_some_iff.1 h
  obtain ⟨e, h1, rfl⟩ := after_some hy
  exact ⟨e, h1, ht⟩

example : Closes obs ∧ Patient obs ∧ obs.isClosed .new = false :=
  ⟨HigherOrder.Props.observer_closes _ _, HigherOrder.Props.observer_patient _ _, rfl⟩

/-- An error drops what is pending. -/
example : (after (c := delay obs 2) { port := { dest := .new } }
    [.act (.input (.note (.next 1))), .tickTo 2, .act (.input (.note (.next 2))), .tickTo 3,
     .act (.input (.note (.error 9))), .tickTo 9]).map (fun s => (s.port.trace, s.port.dest.seen)) = some
      ([(.arrived (.next 1), 0), (.out (.next 1), 2), (.arrived (.next 2), 2), (.arrived (.error 9), 3),
        (.out (.error 9), 3)], [.next 1, .error 9]) := by
  decide +kernel

end Rx.Timed.Props
