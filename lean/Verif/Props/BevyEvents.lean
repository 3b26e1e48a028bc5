import Verif.Lemmas.BevyEvents
import Verif.Props.SharedClosing

/-!
# C72: the events of an entity as an observable
-/

namespace Rx.Events

open Rx.Closing (Dest)

variable {D : Dest S I E}

/-- C72: a subscriber hears exactly what there is to hear, in order, until it is closed: the events triggered on its entity
once it has started, and the completion when the entity is despawned. -/
theorem C72_hears (hD : D.Contract) (s : Nat → S) (l : List (Op I)) (k e : Nat) :
    let w := (World.init s : World S I E).run D l
    .subscribed k e ∈ w.trace →
      given k w.trace = (takes D (s k) (offers k e w.trace)).1 ∧ w.dest k = (takes D (s k) (offers k e w.trace)).2 := by
  intro w hsub
  obtain ⟨-, ht⟩ := run_subs D s l k e hsub
  have h := ((run_ok hD s l).2 k).hears
  simp only [view] at h
  rw [ht] at h
  exact ⟨congrArg Prod.fst h, congrArg Prod.snd h⟩

/-- C72: in particular, as long as it is open, it has heard the events triggered on its entity since it started, each once and in
order, and nothing else. -/
theorem C72_open_hears_every_event (hD : D.Contract) (s : Nat → S) (l : List (Op I)) (k e : Nat) (a b : List (Mark I E)) :
    let w := (World.init s : World S I E).run D l
    .subscribed k e ∈ w.trace → w.trace = a ++ .started k :: b → D.isClosed (w.dest k) = false →
      given k w.trace = (eventsOf e b).map .next := by
  intro w hsub htr ho
  obtain ⟨h1, h2⟩ := C72_hears hD s l k e hsub
  rw [h2] at ho
  obtain ⟨h3, h4⟩ := takes_open D hD (s k) _ ho
  rw [h1, h3]
  have hcnt := ((run_ok hD s l).2 k).cnt
  have h5 : starts k w.trace ≤ 1 := Nat.le_trans (Nat.le_add_left _ _) hcnt
  have h6 : offers k e w.trace = (b.foldl (Seen.see k e) ((seen k e a).see k e (.started k))).offers := by
    rw [htr, offers, seen, List.foldl_append, List.foldl_cons, ← seen]
  rw [h6] at h4 ⊢
  have h7 : starts k a = 0 := by
    rw [htr] at h5
    simp [starts, List.countP_append] at h5
    unfold starts
    omega
  obtain ⟨ns, hns⟩ := sees_offers k e b ((seen k e a).see k e (.started k))
  obtain ⟨ms, hms⟩ := see_offers k e (seen k e a) (.started k)
  have h8 : ∀ n ∈ ((seen k e a).see k e (.started k)).offers, n.isClosing = false :=
    fun n hn => h4 n (by rw [hns]; exact List.mem_append_left _ hn)
  obtain ⟨h9, -⟩ := seen_before k e a h7 (fun n hn => h8 n (by rw [hms]; exact List.mem_append_left _ hn))
  have h10 : ((seen k e a).see k e (.started k)).offers = [] := by
    simp only [Seen.see, if_true, h9, List.nil_append] at h8 ⊢
    by_cases ha : (seen k e a).alive = true
    · simp [ha]
    · exact (no_closing h8 .complete rfl (by simp [ha])).elim
  rw [sees_events k e b _ (by simp [Seen.see]) h4, h10, List.nil_append]

/-- C72: it starts with the first tick after it was made, unless it is closed by then: the executor receives the actions, runs the work, and the
commands are applied, whatever else happens before, after and in between. -/
theorem C72_starts (hD : D.Contract) (s : Nat → S) (l l1 l2 l3 : List (Op I)) (k e : Nat) :
    .subscribed k e ∈ ((World.init s : World S I E).run D l).trace →
    let w := (World.init s : World S I E).run D (l ++ [.drain] ++ l1 ++ [.work k] ++ l2 ++ [.flush] ++ l3)
    D.isClosed (w.dest k) = false → .started k ∈ w.trace := by
  intro hsub w ho
  obtain ⟨hk, -⟩ := run_subs D s l k e hsub
  have hok := (run_ok (I := I) (E := E) hD s l).2 k
  let w0 := (World.init s : World S I E).run D l
  have e1 : w = ((((((w0.run D [.drain]).run D l1).run D [.work k]).run D l2).run D [.flush]).run D l3) := by
    simp only [w, w0, run_append]
  -- after the drain
  obtain ⟨s1, k1⟩ := known_step (D := D) hk .drain
  have q1 : View.Ok D (s k) k (view k (w0.run D [.drain])) ∧ Act.add k ∉ (view k (w0.run D [.drain])).queue :=
    ⟨hok.step hD s1, by rw [show (view k (w0.run D [.drain])).queue = [] from View.drain_queue s1]; simp⟩
  obtain ⟨q2, k2⟩ := run_keeps (D := D) (P := fun v => View.Ok D (s k) k v ∧ Act.add k ∉ v.queue)
    (fun op v v' hs h => ⟨h.1.step hD hs, fun hh => h.2 (View.step_queue hs hh)⟩) l1 _ k1 q1
  -- after the work
  obtain ⟨s3, k3⟩ := known_step (D := D) k2 (.work k)
  obtain ⟨q4, k4⟩ := run_keeps (D := D) (P := fun v => View.Ok D (s k) k v ∧ Act.add k ∉ v.queue ∧ v.active = 0)
    (fun op v v' hs h => ⟨h.1.step hD hs, fun hh => h.2.1 (View.step_queue hs hh), View.step_active hs h.1.of_queue h.2.1 h.2.2⟩)
    l2 _ k3 ⟨q2.1.step hD s3, fun hh => q2.2 (View.step_queue s3 hh), View.work_active s3⟩
  -- after the flush
  obtain ⟨s5, k5⟩ := known_step (D := D) k4 .flush
  have q5 := q4.1.step hD s5
  have hst : ∀ u : View S I E, View.Ok D (s k) k u → D.isClosed u.dest = false ∧ u.known = true → Act.add k ∉ u.queue →
      u.active = 0 → u.cmds = [] → u.starts ≠ 0 := by
    intro u hu ho hq ha hc
    have := hu.open_total ho.2 ho.1
    simp only [View.total, List.count_eq_zero.2 hq, ha, hc, List.count_nil] at this
    omega
  -- open at the end means open here
  have hopen : D.isClosed (view k ((((w0.run D [.drain]).run D l1).run D [.work k]).run D l2 |>.run D [.flush])).dest = false := by
    rw [Bool.eq_false_iff]
    intro hc
    have := (run_keeps (D := D) (P := fun v => D.isClosed v.dest = true) (fun op v v' hs h => View.closed_step hs h)
      l3 _ k5 hc).1
    rw [show (w.dest k) = (view k w).dest from rfl, e1] at ho
    have h2 := this.symm.trans ho
    cases h2
  have h6 := hst _ q5 ⟨hopen, by simpa [view] using k5⟩ (fun hh => q4.2.1 (View.step_queue s5 hh))
    (View.step_active s5 q4.1.of_queue q4.2.1 q4.2.2) (View.flush_cmds s5)
  have h7 := starts_mem.1 h6
  rw [e1]
  exact run_trace_mem l3 _ h7

/-- C72: it starts at most once. -/
theorem C72_starts_once (hD : D.Contract) (s : Nat → S) (l : List (Op I)) (k : Nat) (a b : List (Mark I E)) :
    ((World.init s : World S I E).run D l).trace = a ++ .started k :: b → .started k ∉ a ∧ .started k ∉ b := by
  intro htr
  have hcnt := ((run_ok (I := I) (E := E) hD s l).2 k).cnt
  have h5 : starts k ((World.init s : World S I E).run D l).trace ≤ 1 := Nat.le_trans (Nat.le_add_left _ _) hcnt
  rw [htr] at h5
  have h6 : starts k a + (starts k b + 1) ≤ 1 := by simpa [starts, List.countP_append] using h5
  exact ⟨fun h => starts_mem.2 h (by omega), fun h => starts_mem.2 h (by omega)⟩

/-- C72: if its entity does not exist, a subscriber that has started is closed: it was told of the completion, unless it was closed before. -/
theorem C72_ends_with_the_entity (hD : D.Contract) (s : Nat → S) (l : List (Op I)) (k e : Nat) :
    let w := (World.init s : World S I E).run D l
    .subscribed k e ∈ w.trace → .started k ∈ w.trace → w.alive e = false → D.isClosed (w.dest k) = true := by
  intro w hsub hst ha
  obtain ⟨-, ht⟩ := run_subs D s l k e hsub
  exact ((run_ok hD s l).2 k).dead (starts_mem.2 hst) (by
    simp only [view]
    rw [ht]
    exact ha)

/-- C72: once a subscriber is closed, whenever and for whatever reason, the next tick removes all that was set up for it: the executor receives
the actions, runs the invoked works, and the commands are applied, whatever else happens before, after and in between. -/
theorem C72_leaves_nothing_behind (hD : D.Contract) (s : Nat → S) (l l1 l2 : List (Op I)) (k e : Nat) :
    let w0 := (World.init s : World S I E).run D l
    .subscribed k e ∈ w0.trace → D.isClosed (w0.dest k) = true →
      ((World.init s : World S I E).run D (l ++ [.drain] ++ l1 ++ [.reap] ++ l2 ++ [.flush])).Clean k := by
  intro w0 hsub hc
  obtain ⟨hk, -⟩ := run_subs D s l k e hsub
  have hok := (run_ok (I := I) (E := E) hD s l).2 k
  have e1 : (World.init s : World S I E).run D (l ++ [.drain] ++ l1 ++ [.reap] ++ l2 ++ [.flush])
      = (((((w0.run D [.drain]).run D l1).run D [.reap]).run D l2).run D [.flush]) := by
    simp only [w0, run_append]
  rw [e1]
  obtain ⟨s1, k1⟩ := known_step (D := D) hk .drain
  have q1 : (view k (w0.run D [.drain])).Drained := by
    have h1 := hok.step hD s1
    have h2 : D.isClosed (view k (w0.step D .drain)).dest = true := View.closed_step s1 hc
    rcases h1.torn (by simpa [view] using k1) h2 with ⟨h3, -⟩ | h3
    · rw [View.drain_queue s1] at h3
      simp at h3
    · exact h3
  obtain ⟨q2, k2⟩ := run_keeps (D := D) (P := fun v => View.Ok D (s k) k v ∧ v.Drained ∧ D.isClosed v.dest = true)
    (fun op v v' hs h => ⟨h.1.step hD hs, (h.2.1.step hs h.2.2).1, (h.2.1.step hs h.2.2).2.1⟩) l1 _ k1
    ⟨hok.step hD s1, q1, View.closed_step s1 hc⟩
  obtain ⟨s3, k3⟩ := known_step (D := D) k2 .reap
  have q3 := q2.2.1.step s3 q2.2.2
  obtain ⟨q4, k4⟩ := run_keeps (D := D)
    (P := fun v => View.Ok D (s k) k v ∧ v.Drained ∧ D.isClosed v.dest = true ∧ v.Reaped)
    (fun op v v' hs h => ⟨h.1.step hD hs, (h.2.1.step hs h.2.2.1).1, (h.2.1.step hs h.2.2.1).2.1, (h.2.1.step hs h.2.2.1).2.2.2 h.2.2.2⟩)
    l2 _ k3 ⟨q2.1.step hD s3, q3.1, q3.2.1, q3.2.2.1 rfl⟩
  obtain ⟨s5, k5⟩ := known_step (D := D) k4 .flush
  have q5 := q4.1.step hD s5
  obtain ⟨r1, r2, r3, r4⟩ := (q4.2.1.step s5 q4.2.2.1).2.2.2 q4.2.2.2
  have r5 := View.flush_cmds s5
  have r6 : (view k (World.step D (World.run D (((w0.run D [.drain]).run D l1).run D [.reap]) l2) .flush)).sat = 0 := by
    refine Nat.eq_zero_of_not_pos (fun hp => ?_)
    rcases q5.link (.inl (Nat.ne_of_gt hp)) with h | h | ⟨a, b, h, -⟩
    · exact h r4
    · rw [r1] at h
      simp at h
    · rw [r5] at h
      simp at h
  exact ⟨List.count_eq_zero.1 r6, List.count_eq_zero.1 r2, List.count_eq_zero.1 r4, List.count_eq_zero.1 r3,
    Act.of_mem r1, Cmd.of_mem r5⟩

/-! ### Examples -/

/-- An entity, two subscribers, a tick, three events (the first subscriber closes with the second of them, a 9), and the entity is despawned. -/
def story : List (Op Nat) :=
  [.spawn, .subscribe 0, .subscribe 0, .trigger 0 1, .drain, .work 0, .work 1, .reap, .flush, .trigger 0 5, .unsubscribe 1, .trigger 0 9,
    .trigger 0 6, .drain, .reap, .flush, .despawn 0]

abbrev recorder := Rx.recorder

def told : World (List (SubscriberNotification Nat Unit) × Bool) Nat Unit := (World.init fun _ => ([], false)).run recorder story

/-- What was said of them. The event triggered before the tick was missed. -/
example : given 0 told.trace = [.next 5, .next 9] ∧ given 1 told.trace = [.next 5, .unsubscribe] ∧
    Mark.subscribed 0 0 ∈ told.trace ∧ Mark.started 0 ∈ told.trace ∧ told.alive 0 = false := by
  decide +kernel

/-- A subscriber whose entity is despawned is told so. -/
example : given 0 ((World.init fun _ => ([], false)).run recorder
    ([.spawn, .subscribe 0, .drain, .work 0, .flush, .trigger 0 5, .despawn 0, .trigger 0 6] : List (Op Nat))).trace
      = [.next 5, .complete] := by
  decide +kernel

/-- C72 says "once it has started": an event triggered between `subscribe` and the next tick is missed. -/
theorem C72_misses_events_before_the_tick_counterexample : ∃ l : List (Op Nat),
    let w := (World.init fun _ => ([], false)).run recorder l
    (∃ a b, w.trace = a ++ .subscribed 0 0 :: b ∧ Mark.triggered 0 1 ∈ b) ∧
      Mark.started 0 ∈ w.trace ∧ recorder.isClosed (w.dest 0) = false ∧ given 0 w.trace = [.next 5] :=
  ⟨[.spawn, .subscribe 0, .trigger 0 1, .drain, .work 0, .flush, .trigger 0 5],
    ⟨[.spawned 0], [.triggered 0 1, .started 0, .triggered 0 5, .give 0 (.next 5)], by decide +kernel, by decide +kernel⟩,
    by decide +kernel, by decide +kernel, by decide +kernel⟩

/-- Closed in the middle of a tick, before its work is run: the satellite is spawned for nothing, and despawned with the next tick. -/
example :
    let l : List (Op Nat) := [.spawn, .subscribe 0, .drain, .unsubscribe 0, .work 0, .reap, .flush]
    ((World.init fun _ => ([], false)).run recorder l).sats = [0] ∧
      ((World.init fun _ => ([], false)).run recorder (l ++ [.drain] ++ [] ++ [.reap] ++ [] ++ [.flush])).sats = [] := by
  decide +kernel

end Rx.Events
