import Verif.Lemmas.SharedClosingOutrun

/-!
# C67, C68: a shared subscriber closed by several threads

`run D (init s) l` is the state after the schedule `l`: any number of threads taking turns in any order,
each calling `next`, `error`, `complete`, `unsubscribe`, `is_closed` or dropping a clone, one lock operation
at a time.
-/

namespace Rx

open Closing

variable {S I E : Type} {D : Dest S I E}

/-! ## C67 -/

/-- C67. The destination is called one call at a time: its state is what the calls made on it, in the order
of the trace, make of it. -/
theorem C67_one_at_a_time (D : Dest S I E) (s : S) (l : List (Nat × Turn I E)) :
    (run D (init s) l).dest = D.after s (run D (init s) l).trace :=
  (run_inv D s l).2.dest

/-- C67. Two threads are never inside the destination at once. -/
theorem C67_exclusive (D : Dest S I E) (s : S) (l : List (Nat × Turn I E)) (t u : Nat)
    (ht : ((run D (init s) l).pc t).holds = true) (hu : ((run D (init s) l).pc u).holds = true) : t = u :=
  (run_inv D s l).1.unique ht hu

/-- C67. Threads do not wait for each other: a thread inside a call always goes on when it gets a turn,
whatever the others are doing (unless it has panicked, C68). -/
theorem C67_never_waits (D : Dest S I E) (s : S) (l : List (Nat × Turn I E)) (t : Nat)
    (h : ((run D (init s) l).pc t).isIdle = false) (hp : ∀ w, (run D (init s) l).pc t ≠ .panicked w) :
    (run D (init s) (l ++ [(t, .go)])).pc t ≠ (run D (init s) l).pc t := by
  rw [run_snoc]
  exact moves D _ t h hp

/-- C67. Every call counts: whatever a thread that is not inside a call calls, whatever state the subscriber is in, is
a call that the theorems below are about. -/
theorem C67_every_call_is_seen (D : Dest S I E) (s : S) (l : List (Nat × Turn I E)) (t : Nat)
    (n : SubscriberNotification I E) (h : ((run D (init s) l).pc t).isIdle = true) :
    ∃ k, (run D (init s) (l ++ [(t, .call n)])).trace = (run D (init s) l).trace ++ [.call k t n] := by
  rw [run_snoc]
  generalize run D (init s) l = x at *
  refine ⟨x.calls, ?_⟩
  simp only [step, h, if_true]
  rfl

/-- C67. The destination is only called with what was sent before, and only once per call. -/
theorem C67_only_what_was_sent (D : Dest S I E) (s : S) (l : List (Nat × Turn I E)) :
    (∀ a k n b, (run D (init s) l).trace = a ++ .give k n :: b → ∃ t, .call k t n ∈ a) ∧
      ((gives (run D (init s) l).trace).map Call.id).Nodup := by
  refine ⟨run_sent D s l, ?_⟩
  have := (run_inv D s l).2.nodup
  rw [State.line, List.map_append, List.nodup_append] at this
  exact this.1

/-- C67. The destination is called in an order that agrees with time: if one call had returned before
another began, its notification is not given after the other's. In particular the notifications of one
thread are given in the order in which it sent them. -/
theorem C67_order (D : Dest S I E) (s : S) (l : List (Nat × Turn I E)) :
    (gives (run D (init s) l).trace).Pairwise fun a b => ¬ Before (run D (init s) l).trace b.id a.id := by
  have := (run_inv D s l).2.order
  rw [State.line, List.pairwise_append] at this
  exact this.1

/-- C67. Once a closing call has returned, no `next`, `error` or `complete` begun after that has any
effect: if the destination is called with it at all, it is closed already. -/
theorem C67_nothing_after_closing (hD : D.Contract) (s : S) (l : List (Nat × Turn I E)) (a k n b)
    (h : (run D (init s) l).trace = a ++ .give k n :: b) (hn : n ≠ .unsubscribe)
    (hl : Late (run D (init s) l).trace k) : D.isClosed (D.after s a) = true :=
  (run_ends hD s l).gave a k n b h (by cases n <;> first | rfl | exact absurd rfl hn) hl

/-- C67. No call is lost without reason: one that has returned was given to the destination, or waits in
the queue, or there was a reason to drop it: before it returned, another call, a closing one, had begun or
the destination had closed.
Missing: that none waits for ever, which is false (`C67_lost_completion_counterexample`). -/
theorem C67_none_lost_partial (hD : D.Contract) (s : S) (l : List (Nat × Turn I E)) (k t n)
    (hk : .call k t n ∈ (run D (init s) l).trace) (hr : .ret k ∈ (run D (init s) l).trace) :
    ⟨k, n⟩ ∈ gives (run D (init s) l).trace ∨
      (∃ c ∈ (run D (init s) l).rest ++ (run D (init s) l).queue, c = ⟨k, n⟩) ∨
      Excused D s (run D (init s) l).trace k := by
  have hi := (run_inv D s l).2
  rcases (run_ends hD s l).kept k t n hk with h | h | h
  · obtain ⟨c, hc, rfl⟩ := List.mem_map.1 h
    obtain ⟨u, hu⟩ := hi.line c hc
    have e : (⟨c.id, n⟩ : Call I E) = c := by
      rw [(hi.one _ _ _ _ _ hk hu).2]
    rw [State.line, List.mem_append] at hc
    rcases hc with hc | hc
    · exact .inl (e ▸ hc)
    · exact .inr (.inl ⟨c, hc, e.symm⟩)
  · exact absurd hr (hi.cur t _ (cur_of_pend h)).2
  · exact .inr (.inr h)

/-- C67. When all calls have returned and nothing waits, a closing call has closed the
destination. -/
theorem C67_closes_partial (hD : D.Contract) (s : S) (l : List (Nat × Turn I E))
    (hi : AtRest (run D (init s) l)) (hq : (run D (init s) l).queue = [])
    (k t n) (hk : .call k t n ∈ (run D (init s) l).trace) (hn : n.isClosing = true) : D.isClosed (run D (init s) l).dest = true := by
  have he := run_ends hD s l
  have hback := run_back D s l
  have hr := (hi.at (run_inv D s l).1 hi.sound 0).rest
  generalize run D (init s) l = x at *
  rcases hback k t n hk with h | h
  · rcases he.retd k t n hk hn h with h | h
    · rcases he.armed h with h | ⟨c, hc, -⟩ | ⟨t, c, hc, -⟩
      · exact h
      · rw [hr, hq] at hc; cases hc
      · rw [isIdle_eq (hi t)] at hc; cases hc
    · exact h
  · rw [isIdle_eq (hi t)] at h; cases h

/-- C67. What waits is not lost: when all calls have returned, any further call, or the
drop of a clone, by any thread, with the others staying idle, makes up for it: after it, every call was
given to the destination or dropped for a reason, and if one of them was a closing one, the destination
is closed. -/
theorem C67_recovers (hD : D.Contract) (s : S) (l : List (Nat × Turn I E))
    (hi : AtRest (run D (init s) l)) (t : Nat) (a : Turn I E)
    (ha : a = .drop ∨ ∃ n, a = .call n) :
    ∃ m, let y := run D (init s) (l ++ (t, a) :: List.replicate m (t, .go))
      AtRest y ∧
        (∀ k u n, .call k u n ∈ y.trace → ⟨k, n⟩ ∈ gives y.trace ∨ Excused D s y.trace k) ∧
        ∀ k u n, .call k u n ∈ y.trace → n.isClosing = true → D.isClosed y.dest = true := by
  obtain ⟨y, ⟨m, hm⟩, h⟩ := hi.flush (D := D) (run_inv D s l).1 hi.sound t a ha
  have e : run D (init s) (l ++ (t, a) :: List.replicate m (t, .go)) = y := by
    rw [run_append, hm]
    rfl
  refine ⟨m, ?_⟩
  have hrest : AtRest (run D (init s) (l ++ (t, a) :: List.replicate m (t, .go))) := by
    rw [e]
    intro u
    by_cases eu : u = t
    · subst eu; rw [h.pc]; rfl
    · exact h.others u eu
  have hq : (run D (init s) (l ++ (t, a) :: List.replicate m (t, .go))).queue = [] := by rw [e]; exact h.queue
  have hr : (run D (init s) (l ++ (t, a) :: List.replicate m (t, .go))).rest = [] := by rw [e]; exact h.rest
  refine ⟨hrest, fun k u n hk => ?_, fun k u n hk hn => C67_closes_partial hD s _ hrest hq k u n hk hn⟩
  have hret : .ret k ∈ (run D (init s) (l ++ (t, a) :: List.replicate m (t, .go))).trace := by
    rcases run_back D s _ k u n hk with h | h
    · exact h
    · rw [isIdle_eq (hrest u)] at h; cases h
  rcases C67_none_lost_partial hD s _ k u n hk hret with h | ⟨c, hc, -⟩ | h
  · exact .inl h
  · rw [hr, hq] at hc; cases hc
  · exact .inr h

/-- C67. When `is_closed` answers yes, a closing call has begun or the destination is closed. -/
theorem C67_is_closed_yes (hD : D.Contract) (s : S) (l : List (Nat × Turn I E)) (a t b)
    (h : (run D (init s) l).trace = a ++ .answer t true :: b) :
    (∃ j u n, .call j u n ∈ a ∧ n.isClosing = true) ∨ D.isClosed (D.after s a) = true :=
  (run_told hD s l).yes a t b h

/-- C67. When `is_closed` answers no although a closing call had returned when it was asked, then the
destination is closed. (`a₁` is what happened before the question.)
Missing: that it does not then answer no, which is false (`C67_is_closed_counterexample`). -/
theorem C67_is_closed_no_partial (hD : D.Contract) (s : S) (l : List (Nat × Turn I E)) (a t b)
    (h : (run D (init s) l).trace = a ++ .answer t false :: b) :
    ∃ a₁ a₂, a = a₁ ++ .ask t :: a₂ ∧ .ask t ∉ a₂ ∧ (Shut a₁ → D.isClosed (D.after s a) = true) :=
  (run_told hD s l).no a t b h

/-! ### Cases -/

/-- A destination that records what it is given, and closes on the value 9 of its own accord. -/
def recorder : Dest (List (SubscriberNotification Nat Unit) × Bool) Nat Unit where
  push s n := if s.2 then s else (s.1 ++ [n], n.isClosing || n = .next 9)
  isClosed s := s.2

theorem recorder_contract : recorder.Contract where
  inert s n h := by simp only [recorder] at h ⊢; rw [if_pos h]
  closes s n h := by
    simp only [recorder]
    split
    · assumption
    · simp [h]

/-- Thread `t` goes on `k` times. -/
def going (t k : Nat) : List (Nat × Turn Nat Unit) := List.replicate k (t, .go)

/-- C67 fails: thread 1 asks `is_closed`, and while it does, thread 0 calls `complete`. Both return, and the
destination never heard of the completion. -/
theorem C67_lost_completion_counterexample : ∃ l : List (Nat × Turn Nat Unit),
    let x := run recorder (init ([], false)) l
    (∀ t, (x.pc t).isIdle = true) ∧
      x.trace = [.ask 1, .call 0 0 .complete, .ret 0, .answer 1 false] ∧ x.dest = ([], false) := by
  refine ⟨[(1, .ask)] ++ going 1 2 ++ [(0, .call .complete)] ++ going 0 7 ++ going 1 1, fun t => ?_, ?_, ?_⟩
  · match t with
    | 0 => decide +kernel
    | 1 => decide +kernel
    | t + 2 => rfl
  · decide +kernel
  · decide +kernel

/-- C67 fails: the destination has closed by itself, thread 0 has been told so by `is_closed`, and its
`complete` has returned; yet, while thread 1 is asking too, `is_closed` tells thread 0 that it is open. -/
theorem C67_is_closed_counterexample : ∃ l : List (Nat × Turn Nat Unit),
    let x := run recorder (init ([], false)) l
    x.dest.2 = true ∧ x.trace = [.call 0 0 (.next 9), .give 0 (.next 9), .ret 0, .ask 0, .answer 0 true,
      .call 1 0 .complete, .ret 1, .ask 1, .ask 0, .answer 0 false] := by
  refine ⟨[(0, .call (.next 9))] ++ going 0 9 ++ [(0, .ask)] ++ going 0 3 ++ [(0, .call .complete)] ++ going 0 4 ++
    [(1, .ask)] ++ going 1 2 ++ [(0, .ask)] ++ going 0 2, ?_, ?_⟩ <;> decide +kernel

-- and dropping a clone makes up for it
example : (run recorder (init ([], false)) ([(1, .ask)] ++ going 1 2 ++ [(0, .call .complete)] ++ going 0 7 ++
    going 1 1 ++ [(0, .drop)] ++ going 0 8)).dest = ([.complete], true) := by decide +kernel

/-- Two threads: the value of thread 0 waits while thread 1 hands over its own, then thread 0 completes
while thread 1 still holds the lock, and thread 2 sends a value too late. -/
def mixed : List (Nat × Turn Nat Unit) :=
  [(1, .call (.next 5))] ++ going 1 6 ++ [(0, .call (.next 4))] ++ going 0 7 ++ going 1 1 ++
    [(0, .call .complete)] ++ going 0 7 ++ [(2, .call (.next 6))] ++ going 2 3 ++ going 1 12 ++ going 2 3

-- the order of time is kept, the late value is not given, nothing waits, the destination is closed
example : (run recorder (init ([], false)) mixed).trace =
    [.call 0 1 (.next 5), .call 1 0 (.next 4), .ret 1, .give 0 (.next 5), .call 2 0 .complete, .ret 2,
      .call 3 2 (.next 6), .ret 3, .give 1 (.next 4), .give 2 .complete, .ret 0] := by decide +kernel

example : Before (run recorder (init ([], false)) mixed).trace 1 2 :=
  ⟨[.call 0 1 (.next 5), .call 1 0 (.next 4), .ret 1], [.give 0 (.next 5), .call 2 0 .complete, .ret 2,
    .call 3 2 (.next 6), .ret 3, .give 1 (.next 4), .give 2 .complete, .ret 0],
    by decide +kernel, by simp, by simp⟩

example : Late (run recorder (init ([], false)) mixed).trace 3 :=
  ⟨2, 0, .complete, by decide +kernel, rfl,
    ⟨[.call 0 1 (.next 5), .call 1 0 (.next 4), .ret 1, .give 0 (.next 5), .call 2 0 .complete, .ret 2],
      [.call 3 2 (.next 6), .ret 3, .give 1 (.next 4), .give 2 .complete, .ret 0],
      by decide +kernel, by simp, by simp⟩⟩

/-! ## C68 -/

/-- C68. A call made, or a clone dropped, when no other thread is inside a call, does not panic: it
returns.
Missing: the same while other threads are calling, which is false (`C68_panic_counterexample`). -/
theorem C68_alone_partial (D : Dest S I E) (s : S) (l : List (Nat × Turn I E))
    (hi : AtRest (run D (init s) l)) (t : Nat) (a : Turn I E)
    (ha : a = .drop ∨ ∃ n, a = .call n) :
    ∃ m, let y := run D (init s) (l ++ (t, a) :: List.replicate m (t, .go))
      AtRest y := by
  obtain ⟨y, ⟨m, hm⟩, h⟩ := hi.flush (D := D) (run_inv D s l).1 hi.sound t a ha
  have e : run D (init s) (l ++ (t, a) :: List.replicate m (t, .go)) = y := by
    rw [run_append, hm]
    rfl
  refine ⟨m, ?_⟩
  dsimp only
  rw [e]
  intro u
  by_cases eu : u = t
  · subst eu; rw [h.pc]; rfl
  · exact h.others u eu

/-- C68. A call panics only if it is outrun: at least nine other calls had not returned when it began.
With fewer concurrent calls, none panics. -/
theorem C68_only_when_outrun (D : Dest S I E) (s : S) (l : List (Nat × Turn I E)) (k t n w)
    (hk : .call k t n ∈ (run D (init s) l).trace) (hr : .ret k ∉ (run D (init s) l).trace)
    (hp : (run D (init s) l).pc t = .panicked w) :
    ∃ L : List Nat, L.Nodup ∧ L.length = 9 ∧ ∀ j ∈ L, j ≠ k ∧
      (∃ v m, .call j v m ∈ (run D (init s) l).trace) ∧ ¬ Before (run D (init s) l).trace j k := by
  have hc : ((run D (init s) l).pc t).cur = some ⟨k, n⟩ := (run_back D s l k t n hk).resolve_left hr
  obtain ⟨L, h1, h2, h3⟩ := (run_outrun D s l t _ 9 hc (by rw [hp]; rfl)).past
  exact ⟨L, h1, h2, fun j hj => ⟨(h3 j hj).1, (h3 j hj).2.1, (h3 j hj).2.2.1⟩⟩

/-- C68. After a panic inside a call or drop, nothing sent by any thread, before or after, is ever given to
the destination any more. -/
theorem C68_dead_after_panic (D : Dest S I E) (s : S) (l l' : List (Nat × Turn I E)) (t w)
    (h : (run D (init s) l).pc t = .panicked w) :
    gives (run D (init s) (l ++ l')).trace = gives (run D (init s) l).trace := by
  rw [run_append]
  exact run_frozen D l' _ (run_inv D s l).1 ((run_panics D s l).2 ⟨t, w, h⟩)

/-- Thread 1 sends a value that it cannot hand over; thread 0, holding the lock, does so. -/
def exchange : List (Nat × Turn Nat Unit) := [(1, .call (.next 7))] ++ going 1 7 ++ going 0 4

/-- C68 fails: two threads only send values, no destination calls back; thread 1 sends ten values while
thread 0 is inside `next`: thread 0 panics, and its own value is lost. -/
theorem C68_panic_counterexample : ∃ l : List (Nat × Turn Nat Unit),
    (∀ a ∈ l, a.2 = .go ∨ ∃ v, a.2 = .call (.next v)) ∧
    let x := run recorder (init ([], false)) l
    (x.pc 1).isIdle = true ∧ (∃ w, x.pc 0 = .panicked w) ∧
      gives x.trace = (List.range 10).map fun i => ⟨i + 1, .next 7⟩ := by
  refine ⟨[(0, .call (.next 1))] ++ going 0 5 ++ (List.replicate 10 exchange).flatten ++ going 0 1, ?_, ?_,
    ⟨.own ⟨0, .next 1⟩, ?_⟩, ?_⟩
  · intro a ha
    simp only [List.mem_append, going, exchange, List.mem_replicate, List.mem_flatten, List.mem_singleton] at ha
    rcases ha with ((rfl | ⟨-, rfl⟩) | ⟨l, ⟨-, rfl⟩, ha⟩) | ⟨-, rfl⟩
    · exact .inr ⟨_, rfl⟩
    · exact .inl rfl
    · simp only [List.mem_append, List.mem_replicate, List.mem_singleton] at ha
      rcases ha with (rfl | ⟨-, rfl⟩) | ⟨-, rfl⟩
      · exact .inr ⟨_, rfl⟩
      · exact .inl rfl
      · exact .inl rfl
    · exact .inl rfl
  · decide +kernel
  · decide +kernel
  · decide +kernel

end Rx
