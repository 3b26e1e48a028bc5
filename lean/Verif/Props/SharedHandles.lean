import Verif.Lemmas.SharedHandlesMore

/-!
# Shared subscriptions used by several threads (C84)

Any number of threads own clones of one `SharedSubscription`, and unsubscribe it, add teardowns to it, ask
whether it is closed, clone it, pass clones on and drop them, at any time. `run (init owners) l` is what
has happened after the threads have taken turns in the order `l`.
-/

namespace Rx.Handles

open Rx.Spec.Handles

/-- A short history, used below to show that the hypotheses of the theorems can be met: thread 0 adds a teardown,
thread 1 unsubscribes. -/
def tidy : List (Nat × Turn) :=
  [(0, .add 7), (0, .go), (0, .go)] ++ (1, .unsubscribe) :: List.replicate 20 (1, .go)

/-- While thread 0 asks whether the subscription is closed, thread 1 unsubscribes it. -/
def lost : List (Nat × Turn) :=
  [(0, .add 7), (0, .go), (0, .go), (0, .ask), (0, .go), (0, .go), (1, .unsubscribe)] ++
    List.replicate 6 (1, .go) ++ [(0, .go)]

theorem pc_rest (x : State) (l : List (Nat × Turn)) (t : Nat) (h : ∀ a ∈ l, a.1 ≠ t) : (run x l).pc t = x.pc t := by
  induction l generalizing x with
  | nil => rfl
  | cons a l ih =>
    have h1 : a.1 ≠ t := h a List.mem_cons_self
    have h2 : (step x a.1 a.2).pc t = x.pc t := by
      unfold step advance
      have h1' : ¬ t = a.1 := fun e => h1 e.symm
      repeat' split
      all_goals try (dsimp only; split)
      all_goals simp [State.goto, State.note, State.take, State.release, State.last, h1']
    exact (ih _ fun b hb => h b (List.mem_cons_of_mem _ hb)).trans h2

theorem tidy_quiet : Quiet (run (init [0, 1]) tidy) := by
  intro t
  by_cases h0 : t = 0
  · subst h0; decide +kernel
  · by_cases h1 : t = 1
    · subst h1; decide +kernel
    · rw [pc_rest _ _ _ (by simp [tidy, Ne.symm h0, Ne.symm h1])]; rfl

theorem lost_quiet : Quiet (run (init [0, 1]) lost) := by
  intro t
  by_cases h0 : t = 0
  · subst h0; decide +kernel
  · by_cases h1 : t = 1
    · subst h1; decide +kernel
    · rw [pc_rest _ _ _ (by simp [lost, Ne.symm h0, Ne.symm h1])]; rfl

/-- C84: nothing panics, and the subscription is never dropped with something still deferred, whatever the
threads do. -/
theorem C84_no_panic (owners : List Nat) (l : List (Nat × Turn)) :
    Mark.panic ∉ (run (init owners) l).trace ∧ Mark.dirty ∉ (run (init owners) l).trace :=
  have h := more_run (good_init owners) (more_init owners) l
  ⟨h.panic, h.dirty⟩

/-- C84: no teardown runs more often than it was added, and none runs before somebody has called `unsubscribe`,
unless the last clone is dropped. -/
theorem C84_at_most_once (owners : List Nat) (l : List (Nat × Turn)) (td : Nat) :
    timesRan (run (init owners) l).trace td ≤ timesAdded (run (init owners) l).trace td ∧
    (Mark.ran td ∈ (run (init owners) l).trace →
      Asked (run (init owners) l).trace ∨ (run (init owners) l).handles = []) := by
  have hg := good_run (good_init owners) l
  have hm := more_run (good_init owners) (more_init owners) l
  refine ⟨by have := hg.counts td; omega, fun h => ?_⟩
  rcases hg.closedBy (hm.ran td h) with h | h
  · exact Or.inl (hg.asked h)
  · exact Or.inr h

/-- C84: once the last clone is gone, every teardown has run exactly once, and it is known that it is gone. -/
theorem C84_in_the_end (owners : List Nat) (ho : owners ≠ []) (l : List (Nat × Turn))
    (h : (run (init owners) l).handles = []) :
    AllRan (run (init owners) l).trace ∧ Mark.gone ∈ (run (init owners) l).trace := by
  have hg := good_run (good_init owners) l
  have hm := more_run (good_init owners) (more_init owners) l
  have hgone := hm.over h ho
  refine ⟨allRan_of hg (fun t => ?_) (hm.gone hgone).2, hgone⟩
  by_cases hi : (run (init owners) l).pc t = .idle
  · exact hi
  · have := hg.owns t hi; rw [h] at this; cases this

/-- Two threads drop their clones at the same time. -/
example : (run (init [0, 1]) ([(0, .add 7), (0, .go), (0, .go), (0, .drop), (1, .drop), (0, .go), (1, .go), (1, .go), (0, .go)])).handles = [] ∧
    (run (init [0, 1]) ([(0, .add 7), (0, .go), (0, .go), (0, .drop), (1, .drop), (0, .go), (1, .go), (1, .go), (0, .go)])).trace =
      [.added 7, .ran 7, .gone] := by decide +kernel

/-- C84: `is_closed` never answers no to a question asked after some `unsubscribe` had returned, and never answers yes
before somebody has called `unsubscribe`. -/
theorem C84_is_closed (owners : List Nat) (l : List (Nat × Turn)) :
    (heard (run (init owners) l).trace).lie = false :=
  (more_run (good_init owners) (more_init owners) l).lie

/-- A wrong answer would be heard, of either kind. -/
example : (heard [.unsub 0, .unsubRet 0, .ask 1, .answer 1 false]).lie = true ∧ (heard [.ask 1, .answer 1 true]).lie = true ∧
    (heard [.ask 1, .unsub 0, .unsubRet 0, .answer 1 false]).lie = false := by decide +kernel

/-- Both answers are given. -/
example : (run (init [0, 1]) (tidy ++ [(0, .ask), (0, .go)])).trace =
      [.added 7, .unsub 1, .ran 7, .unsubRet 1, .ask 0, .answer 0 true] ∧
    (run (init [0, 1]) [(0, .ask), (0, .go), (0, .go), (0, .go)]).trace = [.ask 0, .answer 0 false] := by decide +kernel

/-- C84: nobody waits forever: whatever is going on, the threads can finish it without anything else being called. -/
theorem C84_settles (owners : List Nat) (l : List (Nat × Turn)) :
    ∃ m : List Nat, Quiet (run (run (init owners) l) (m.map (·, .go))) :=
  have hg := good_run (good_init owners) l
  settles hg _ hg.owns

/-- Something can be going on, with a thread waiting for the lock. -/
example : (run (init [0, 1]) [(0, .ask), (0, .go), (0, .go), (1, .add 7), (1, .go)]).pc 1 = .adding 7 ∧
    (run (init [0, 1]) [(0, .ask), (0, .go), (0, .go), (1, .add 7), (1, .go)]).lock = some 0 := by decide +kernel

/-- The full statement of C84: whenever no call is going on and some `unsubscribe` has returned, every teardown
added so far has run. It is false, see `C84_lost_unsubscribe_counterexample`. -/
def UnsubscribedStatement : Prop :=
  ∀ (owners : List Nat) (l : List (Nat × Turn)), Quiet (run (init owners) l) → Returned (run (init owners) l).trace →
    AllRan (run (init owners) l).trace

/-- C84, in part: a call of `unsubscribe` that is made while no other call is going on returns, and from then on,
whatever the threads do, every teardown added so far has run whenever no call is going on. What is missing are calls
that run into a call of `add_teardown` or `is_closed` made by another thread. -/
theorem C84_unsubscribe_partial (owners : List Nat) (l : List (Nat × Turn)) (hq : Quiet (run (init owners) l)) (t : Nat)
    (ht : t ∈ (run (init owners) l).handles) :
    (∃ y, Alone (run (init owners) l) t .unsubscribe y) ∧
    ∀ y, Alone (run (init owners) l) t .unsubscribe y →
      AllRan y.trace ∧ ∀ m, Quiet (run y m) → AllRan (run y m).trace := by
  generalize hx : run (init owners) l = x at *
  have hg : Good x := hx ▸ good_run (good_init owners) l
  have hs : step x t .unsubscribe = (x.note (.unsub t)).goto t .start := by
    unfold step; rw [if_pos (hq t), if_pos ht]
  have hg' := good_step hg t .unsubscribe
  have hc : Can (step x t .unsubscribe) t := by
    have := quiet_lock hg hq
    rw [hs]; exact Or.inl this
  have hp : (step x t .unsubscribe).pc t = .start := by rw [hs]; simp [State.goto]
  have ho : ∀ u, u ≠ t → (step x t .unsubscribe).pc u = .idle := by
    intro u hu; rw [hs]; simp only [State.goto, if_neg hu, State.note]; exact hq u
  refine ⟨?_, ?_⟩
  · obtain ⟨k, hk, _⟩ := returns hg' t hc
    exact ⟨_, k, rfl, hk⟩
  · rintro y ⟨k, rfl, hk⟩
    have hgy := good_run hg ((t, .unsubscribe) :: List.replicate k (t, .go))
    obtain ⟨h1, h2, h3⟩ := called hg' t hc (Or.inl (by rw [hp]; rfl)) k hk
    have hqy : Quiet (run x ((t, .unsubscribe) :: List.replicate k (t, .go))) := by
      intro u
      by_cases e : u = t
      · subst e; exact hk
      · exact (h3 u e).trans (ho u e)
    have hcl := closed_of hgy hqy h2 h1
    exact ⟨allRan_of hgy hqy hcl, fun m hm => allRan_of (good_run hgy m) hm (closed_run m hcl)⟩

/-- A teardown that is added later runs as well. -/
example : (run (init [0, 1]) (tidy ++ [(0, .add 8), (0, .go), (0, .go)])).trace =
    [.added 7, .unsub 1, .ran 7, .unsubRet 1, .added 8, .ran 8] := by decide +kernel

/-- C84, in part: an unsubscribe that was lost is made up for when any clone is dropped while no other call is going on. -/
theorem C84_drop_partial (owners : List Nat) (l : List (Nat × Turn)) (hq : Quiet (run (init owners) l)) (t : Nat)
    (ht : t ∈ (run (init owners) l).handles) (hr : Returned (run (init owners) l).trace) :
    (∃ y, Alone (run (init owners) l) t .drop y) ∧
    ∀ y, Alone (run (init owners) l) t .drop y →
      AllRan y.trace ∧ ∀ m, Quiet (run y m) → AllRan (run y m).trace := by
  generalize hx : run (init owners) l = x at *
  have hg : Good x := hx ▸ good_run (good_init owners) l
  have hs : step x t .drop = x.goto t .dropping := by
    unfold step; rw [if_pos (hq t), if_pos ht]
  have hg' := good_step hg t .drop
  have hc : Can (step x t .drop) t := by
    have := quiet_lock hg hq
    rw [hs]; exact Or.inl this
  have hp : (step x t .drop).pc t = .dropping := by rw [hs]; simp [State.goto]
  have ho : ∀ u, u ≠ t → (step x t .drop).pc u = .idle := by
    intro u hu; rw [hs]; simp only [State.goto, if_neg hu]; exact hq u
  refine ⟨?_, ?_⟩
  · obtain ⟨k, hk, _⟩ := returns hg' t hc
    exact ⟨_, k, rfl, hk⟩
  · rintro y ⟨k, rfl, hk⟩
    have hgy := good_run hg ((t, .drop) :: List.replicate k (t, .go))
    obtain ⟨h1, h2, h3⟩ := dropped hg' t hc (Or.inl ⟨by rw [hp]; rfl, by rw [hp]; simp⟩) k hk
    have hqy : Quiet (run x ((t, .drop) :: List.replicate k (t, .go))) := by
      intro u
      by_cases e : u = t
      · subst e; exact hk
      · exact (h3 u e).trans (ho u e)
    have hcl := closed_of hgy hqy (h2 (by rw [hs]; exact hg.ret hr)) h1
    exact ⟨allRan_of hgy hqy hcl, fun m hm => allRan_of (good_run hgy m) hm (closed_run m hcl)⟩

/-- C84, in part: if no call of `unsubscribe` overlaps with one of `add_teardown` or `is_closed` then, whenever no call is
going on and some `unsubscribe` has returned, every teardown added so far has run. Calls of `unsubscribe` may overlap
with each other, and with clones being dropped. -/
theorem C84_apart_partial (owners : List Nat) (l : List (Nat × Turn)) (ha : ∀ p, p <+: l → Apart (run (init owners) p))
    (hq : Quiet (run (init owners) l)) (hr : Returned (run (init owners) l).trace) :
    AllRan (run (init owners) l).trace := by
  have hg := good_run (good_init owners) l
  have hc := clear_run (good_init owners) (x := init owners) ⟨rfl, fun _ h => by cases h⟩ l ha
  exact allRan_of hg hq (closed_of hg hq (hg.ret hr) hc.1)

/-- Two threads unsubscribe at the same time, after a teardown was added. -/
def together : List (Nat × Turn) :=
  [(0, .add 7), (0, .go), (0, .go), (0, .unsubscribe), (1, .unsubscribe), (1, .go), (0, .go), (0, .go), (1, .go), (0, .go), (1, .go)] ++
    List.replicate 9 (0, .go)

/-- They keep apart from `add_teardown`. -/
example : (∀ p, p <+: together → Apart (run (init [0, 1]) p)) ∧
    (run (init [0, 1]) together).trace = [.added 7, .unsub 0, .unsub 1, .unsubRet 1, .ran 7, .unsubRet 0] := by
  refine ⟨fun p hp t u h => ?_, by decide +kernel⟩
  have hlt : ∀ t, unsubscribing ((run (init [0, 1]) p).pc t) = true ∨ looking ((run (init [0, 1]) p).pc t) = true → t < 2 := by
    intro t ht
    by_cases h2 : t < 2
    · exact h2
    · have : (run (init [0, 1]) p).pc t = .idle := by
        rw [pc_rest]
        · rfl
        · intro a ha e
          have : ∀ a ∈ together, a.1 < 2 := by decide +kernel
          exact h2 (e ▸ this a (hp.subset ha))
      rw [this] at ht
      rcases ht with h | h <;> cases h
  have key : ∀ n < together.length + 1, ∀ t < 2, ∀ u < 2, ¬ (unsubscribing ((run (init [0, 1]) (together.take n)).pc t) = true ∧
      looking ((run (init [0, 1]) (together.take n)).pc u) = true) := by decide +kernel
  have hn := List.prefix_iff_eq_take.1 hp
  have := key p.length (by have := hp.length_le; omega) t (hlt t (Or.inl h.1)) u (hlt u (Or.inr h.2))
  rw [← hn] at this
  exact this h

/-- The hypotheses of `C84_unsubscribe_partial` and `C84_drop_partial` are met after `tidy`, and after `lost`. -/
example : Quiet (run (init [0, 1]) tidy) ∧ 0 ∈ (run (init [0, 1]) tidy).handles ∧ Returned (run (init [0, 1]) tidy).trace :=
  ⟨tidy_quiet, by decide +kernel, 1, by decide +kernel⟩

/-- Where it was lost, the next drop, although not of the last clone, runs the teardown. -/
example : (run (init [0, 1]) (lost ++ (0, .drop) :: List.replicate 12 (0, .go))).trace =
      [.added 7, .ask 0, .unsub 1, .unsubRet 1, .answer 0 false, .ran 7] ∧
    (run (init [0, 1]) (lost ++ (0, .drop) :: List.replicate 12 (0, .go))).handles = [1] := by decide +kernel

/-- C84 is violated: if `unsubscribe` is called while another thread is asking whether the subscription is closed, it
returns, both threads rest, `is_closed` says that it is closed, and the teardown has not run. Nothing runs it until
somebody unsubscribes again or drops a clone. -/
theorem C84_lost_unsubscribe_counterexample : ¬ UnsubscribedStatement := by
  intro h
  have h := h [0, 1] lost lost_quiet ⟨1, by decide +kernel⟩ 7
  revert h
  decide +kernel

/-- The history of it. -/
example : (run (init [0, 1]) (lost ++ [(0, .ask), (0, .go)])).trace =
    [.added 7, .ask 0, .unsub 1, .unsubRet 1, .answer 0 false, .ask 0, .answer 0 true] := by decide +kernel

end Rx.Handles
