import Verif.Lemmas.TimedDebounce
import Verif.Props.Timed

/-!
# C48: debounce_time

See `Verif.Props.Timed` for what a history is.
-/

namespace Rx.Timed.Props
open Rx.Sched Rx.Timed
open Rx.HigherOrder (Closes Patient)

variable {S I E : Type} {D : Sub S I E} {s : S} {d : Nat}

section Debounce
variable {R : Rest (debounce D d)} {x : R.Ctx} {n : Nat} {ops : List R.Op} {e0 e : Exec R.env}

theorem debounce_inv (hD : Closes D) (h : R.run (R.start { port := { dest := s } } x n) ops = .ok e) :
    ∃ y : Solo (debounce D d), Debounce.Inv D s d y ∧ y.tick = none ∧ y.st = e.world.ctx.1 ∧
      y.clock = e.world.sched.currentTick := by
  obtain ⟨y, h1, h2, h3, h4⟩ := solo_of_run h
  exact ⟨y, Debounce.inv hD h1, h2, h3, h4⟩

/-- C48. At every moment `debounce_time(d)` does only what it may: it gives a value at `d` or more after its arrival, if
no newer one arrived before that moment, each once and in order; completion only after it arrived; errors at once. What the
destination has got is what the record says. -/
theorem C48_debounce_allowed_partial (hD : Closes D) (h : R.run (R.start { port := { dest := s } } x n) ops = .ok e) :
    Throughout (Debounce.Allowed D s d) e.world.ctx.1.port.trace ∧
    e.world.ctx.1.port.dest = fed D s e.world.ctx.1.port.trace := by
  obtain ⟨y, hy, _, h3, _⟩ := debounce_inv hD h
  rw [← h3]
  exact ⟨hy.allowed, hy.right.fed⟩

/-- C48. After a tick, if the destination is open and the last value that arrived is due, it has been given. -/
theorem C48_debounce_prompt (hD : Closes D) (h0 : R.run (R.start { port := { dest := s } } x n) ops = .ok e0) {t : Nat}
    (h1 : e0.tickTo t = .ok e) (ho : D.isClosed e.world.ctx.1.port.dest = false)
    {v : I} {a : Nat} (hi : (arrivals e.world.ctx.1.port.trace).getLast? = some (v, a))
    (ha : a + d ≤ e.world.sched.currentTick) :
    LastGiven e.world.ctx.1.port.trace := by
  obtain ⟨s0, y, k1, k2, _, _, k5, k6, k7, k8, k9, k10⟩ := solo_of_tick h0 h1
  have hy : Debounce.Inv D s d y :=
    ((Debounce.inv hD k1).step hD (.start s0 t k2)).steps hD k5.steps
  rw [← k9] at ho hi ⊢
  rw [← k10] at ha
  obtain ⟨act, q, before, hl⟩ := hy.live ho
  have hq : q = [] := by
    have := hl.queue
    rw [k8] at this
    cases q with
    | nil => rfl
    | cons v q => simp at this
  subst hq
  cases act with
  | none => exact hl.given rfl rfl
  | some p =>
    exfalso
    have hf : p.2.2.2 = true := k7 (p.work d) (by rw [hl.active]; simp)
    have := ((hl.busy t k6 p rfl).2 hf).2
    rw [hl.arr] at hi
    simp at hi
    rw [hi.2] at this
    omega

/-- C48. A value is given on the first tick at or after its time, if no newer one arrives: if it was not given before
the tick, and is due, it is given in this tick. -/
theorem C48_debounce_first (hD : Closes D) (h0 : R.run (R.start { port := { dest := s } } x n) ops = .ok e0) {t : Nat}
    (h1 : e0.tickTo t = .ok e) (ho : D.isClosed e.world.ctx.1.port.dest = false)
    {p r new : Line I I E} {v : I} {a : Nat}
    (h2 : e0.world.ctx.1.port.trace = p ++ (.arrived (.next v), a) :: r) (h3 : ¬ Gave (.next v) r)
    (h4 : e.world.ctx.1.port.trace = e0.world.ctx.1.port.trace ++ new)
    (h5 : arrivals (r ++ new) = []) (ha : a + d ≤ max e0.world.sched.currentTick t) :
    (.out (.next v), max e0.world.sched.currentTick t) ∈ new := by
  obtain ⟨l1, new', l2, l3⟩ := (Debounce.stamps D d).tickTo h0 h1
  rw [h4] at l2
  cases List.append_cancel_left l2
  have htr : e.world.ctx.1.port.trace = p ++ (.arrived (.next v), a) :: (r ++ new) := by rw [h4, h2]; simp
  have hl := C48_debounce_prompt hD h0 h1 ho (v := v) (a := a)
    (by rw [htr, arrivals_append, show (((.arrived (.next v), a) :: (r ++ new) : Line I I E)) =
          [(.arrived (.next v), a)] ++ (r ++ new) from rfl, arrivals_append, h5, arrivals_next]; simp)
    (by rw [l1]; exact ha)
  obtain ⟨k, hk⟩ := hl p v a (r ++ new) htr h5
  rcases List.mem_append.1 hk with hk | hk
  · exact absurd ⟨k, hk⟩ h3
  · have : k = _ := l3 _ hk
    rw [← l1, ← this]
    exact hk

/-- C48. A value that is not the newest any more is not given on a later moment: whenever a value is given, it arrived
after every value given before it, and nothing newer arrived at an earlier moment. (In particular the values given are
some of those that arrived, in order, none of them twice.) -/
theorem C48_debounce_sublist (hD : Closes D) (h : R.run (R.start { port := { dest := s } } x n) ops = .ok e) :
    ((outs e.world.ctx.1.port.trace).map (·.1)).Sublist ((arrivals e.world.ctx.1.port.trace).map (·.1)) :=
  Debounce.allowed_sublist (C48_debounce_allowed_partial hD h).1

/-- C48. Once completion has arrived and the last value was given, the destination is closed; -/
theorem C48_debounce_closes (hD : Closes D) (h : R.run (R.start { port := { dest := s } } x n) ops = .ok e)
    (hc : Arrived .complete e.world.ctx.1.port.trace) (hl : LastGiven e.world.ctx.1.port.trace) :
    D.isClosed e.world.ctx.1.port.dest = true := by
  obtain ⟨y, hy, _, h3, _⟩ := debounce_inv hD h
  rw [← h3] at hc hl ⊢
  cases hcl : D.isClosed y.st.port.dest with
  | true => rfl
  | false =>
    exfalso
    obtain ⟨act, q, before, h4⟩ := hy.live hcl
    exact (h4.fresh (h4.done (.inl (h4.completed.2 hc)))).not_given hl

/-- and the destination was completed, if nothing else closed it. -/
theorem C48_debounce_completes (hD : Closes D) (hP : Patient D) (hs : D.isClosed s = false)
    (h : R.run (R.start { port := { dest := s } } x n) ops = .ok e)
    (hc : Arrived .complete e.world.ctx.1.port.trace) (hl : LastGiven e.world.ctx.1.port.trace)
    (hu : ¬ Arrived .unsubscribe e.world.ctx.1.port.trace) (he : ∀ u, ¬ Arrived (.error u) e.world.ctx.1.port.trace)
    (hx : ∀ k, (.closed, k) ∉ e.world.ctx.1.port.trace) :
    Gave .complete e.world.ctx.1.port.trace := by
  have hcl := C48_debounce_closes hD h hc hl
  obtain ⟨hall, hf⟩ := C48_debounce_allowed_partial hD h
  rw [hf] at hcl
  exact gave_of_closed hP hs hcl (fun m hm => by
    obtain ⟨past, rest, hsplit⟩ := List.append_of_mem hm
    have ha := hall past m rest hsplit
    obtain ⟨m, k⟩ := m
    cases m with
    | arrived n => exact .inl ⟨n, rfl⟩
    | closed => exact absurd hm (hx k)
    | out n =>
      cases n with
      | next v => exact .inr (.inl ⟨v, rfl⟩)
      | complete => exact .inr (.inr rfl)
      | error u =>
        exfalso
        have := ha.error u rfl
        refine he u ⟨k, ?_⟩
        rw [hsplit]
        exact List.mem_append_left _ (List.mem_of_getLast? this)
      | unsubscribe =>
        exfalso
        have := ha.unsubscribe rfl
        refine hu ?_
        rw [hsplit]
        exact this.mono)

/-- C48. If every value given was the newest one at that moment, then completion (and unsubscription) is given only
after the last value that arrived. Missing: without the condition this is wrong, see `C48_lost_value`. -/
theorem C48_debounce_settled_partial (hD : Closes D) (h : R.run (R.start { port := { dest := s } } x n) ops = .ok e)
    (hn : Throughout Debounce.Newest e.world.ctx.1.port.trace) :
    Throughout Debounce.Settled e.world.ctx.1.port.trace := by
  obtain ⟨y, hy, _, h3, _⟩ := debounce_inv hD h
  rw [← h3] at hn ⊢
  exact hy.settled hn

/-- C48. An error that arrives while the destination is open is given at once; a pending value is never given. -/
theorem C48_debounce_error (hD : Closes D) (h : R.run (R.start { port := { dest := s } } x n) ops = .ok e)
    {past rest : Line I I E} {u : E} {k : Nat}
    (ht : e.world.ctx.1.port.trace = past ++ (.arrived (.error u), k) :: rest)
    (ho : D.isClosed (fed D s past) = false) :
    ∃ rest', rest = (.out (.error u), k) :: rest' ∧ ∀ m ∈ rest', ∃ n, m.1 = .arrived n := by
  obtain ⟨y, hy, _, h3, _⟩ := debounce_inv hD h
  obtain ⟨hall, hf⟩ := C48_debounce_allowed_partial hD h
  have hfed : fed D s (past ++ [(.arrived (.error u), k)]) = fed D s past := fed_arrived ..
  cases rest with
  | nil =>
    exfalso
    have := hy.atOnce u k (by rw [h3, ht]; simp)
    rw [h3, hf, ht, hfed, ho] at this
    cases this
  | cons m rest' =>
    have hm := hall (past ++ [(.arrived (.error u), k)]) m rest' (by rw [ht]; simp)
    have hme := hm.atOnce u k (by simp) (by rw [hfed]; exact ho)
    subst hme
    refine ⟨rest', rfl, closed_end (past := past ++ [(.arrived (.error u), k), (.out (.error u), k)])
      (hall.imp (fun τ m h => h.orderly) |> fun h => by rw [ht] at h; simpa using h) ?_⟩
    rw [show past ++ [(.arrived (.error u), k), (.out (.error u), k)] =
      (past ++ [(.arrived (.error u), k)]) ++ [(.out (.error u), k)] by simp, fed_out]
    exact hD _ _ rfl

end Debounce

/-! ### Concrete cases -/

/-- A burst, and completion with a value pending; `d` is 2. -/
example : (after (c := debounce obs 2) { port := { dest := .new } }
    [.act (.input (.note (.next 1))), .tickTo 1, .act (.input (.note (.next 2))), .tickTo 2,
     .tickTo 3, .act (.input (.note (.next 3))), .tickTo 4, .act (.input (.note .complete)), .tickTo 9]).map
      (fun s => s.port.trace) = some
      [(.arrived (.next 1), 0), (.arrived (.next 2), 1), (.out (.next 2), 3), (.arrived (.next 3), 3),
       (.arrived .complete, 4), (.out (.next 3), 9), (.out .complete, 9)] := by
  decide +kernel

/-- The theorems apply to it. -/
example : Throughout Debounce.Newest ([(.arrived (.next 1), 0), (.arrived (.next 2), 1), (.out (.next 2), 3),
    (.arrived (.next 3), 3), (.arrived .complete, 4), (.out (.next 3), 9), (.out .complete, 9)] : Line Nat Nat Nat) := by
  have hn := Throughout.nil (I := Nat) (O := Nat) (E := Nat) Debounce.Newest
  have h1 := hn.snoc (m := (.arrived (.next 1), 0)) (fun v h => by cases h)
  have h2 := h1.snoc (m := (.arrived (.next 2), 1)) (fun v h => by cases h)
  have h3 := h2.snoc (m := (.out (.next 2), 3)) (fun v h => by cases h; exact ⟨1, rfl⟩)
  have h4 := h3.snoc (m := (.arrived (.next 3), 3)) (fun v h => by cases h)
  have h5 := h4.snoc (m := (.arrived .complete, 4)) (fun v h => by cases h)
  have h6 := h5.snoc (m := (.out (.next 3), 9)) (fun v h => by cases h; exact ⟨3, rfl⟩)
  exact h6.snoc (m := (.out .complete, 9)) (fun v h => by cases h)

/-- C48 fails: a value that arrives together with completion, from other work, in the tick in which an earlier value
is due, is lost: the destination is given the earlier value, and completed. -/
theorem C48_lost_value : (after (c := debounce obs 2) { port := { dest := .new } }
    [.act (.call (.scheduleWork (.newDelayed [.note (.next 2), .note .complete] 2) 7)),
     .act (.input (.note (.next 1))), .tickTo 2, .tickTo 4, .tickTo 9]).map
      (fun s => (s.port.trace, s.port.dest.seen)) = some
      ([(.arrived (.next 1), 0), (.arrived (.next 2), 2), (.arrived .complete, 2), (.out (.next 1), 2),
        (.out .complete, 2)], [.next 1, .complete]) := by
  decide +kernel

/-- C48 fails: in the same situation, completion that arrives later is given at once, and the pending value is lost. -/
theorem C48_completed_early : (after (c := debounce obs 2) { port := { dest := .new } }
    [.act (.call (.scheduleWork (.newDelayed [.note (.next 2)] 2) 7)),
     .act (.input (.note (.next 1))), .tickTo 2, .tickTo 3, .act (.input (.note .complete)), .tickTo 4, .tickTo 9]).map
      (fun s => (s.port.trace, s.port.dest.seen)) = some
      ([(.arrived (.next 1), 0), (.arrived (.next 2), 2), (.out (.next 1), 2), (.arrived .complete, 3),
        (.out .complete, 3)], [.next 1, .complete]) := by
  decide +kernel

end Rx.Timed.Props
