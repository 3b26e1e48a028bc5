import Verif.Lemmas.BevyProxyEnds

/-!
# How often the observable is subscribed to
-/

namespace Rx.Proxy

open Rx.Closing (Dest)

variable {D : Dest S I E} {K : Kind} {s : S}

theorem joins_snoc (tr : List (Mark I E)) (m : Mark I E) :
    joins (tr ++ [m]) = joins tr + (match m with | .joined => 1 | _ => 0) := by
  unfold joins
  rw [List.countP_append]
  cases m <;> simp

@[simp] theorem joins_give (w : World S I E) (n) : joins (w.give D K n).trace = joins w.trace := by
  unfold World.give
  split
  · rfl
  · simp [joins_snoc]

@[simp] theorem joins_emit (w : World S I E) (n) : joins (w.emit D K n).trace = joins w.trace := by
  unfold World.emit
  dsimp only
  split <;> simp [joins_snoc]

theorem joins_emits (l : List (SubscriberNotification I E)) (w : World S I E) :
    joins (l.foldl (World.emit D K) w).trace = joins w.trace := by
  induction l generalizing w with
  | nil => rfl
  | cons n l ih => rw [List.foldl_cons, ih, joins_emit]

@[simp] theorem joins_join (w : World S I E) (t) : joins (w.join D K t).trace = joins w.trace + 1 := by
  unfold World.join
  rw [joins_emits]
  simp [joins_snoc]

@[simp] theorem joins_close (w : World S I E) : joins (w.close D K).trace = joins w.trace := by
  unfold World.close
  split <;> simp [joins_snoc]

@[simp] theorem joins_despawn (w : World S I E) : joins (w.despawn D K).trace = joins w.trace := by
  unfold World.despawn
  split <;> simp

/-- How often it has been subscribed to, and may yet be. -/
def tickets (w : World S I E) : Nat :=
  w.queue.count .add + w.active + w.cmds.count .subscribe + w.mine.count .subscribe + (if w.waiting = none then 0 else 1) + joins w.trace

theorem tickets_grow {w w' : World S I E} (h : Grew D K w w') (h1 : w'.active = w.active) (h2 : w'.cmds = w.cmds) (h3 : w'.mine = w.mine)
    (h4 : w'.waiting = w.waiting) (h5 : joins w'.trace = joins w.trace) : tickets w' = tickets w := by
  unfold tickets
  rw [(h.mem .add (.inl rfl)).2.1, h1, h2, h3, h4, h5]

@[simp] theorem tickets_emit (w : World S I E) (n) : tickets (w.emit D K n) = tickets w :=
  tickets_grow (grew_emit (D := D) (K := K) w n) (by simp) (by simp) (by simp) (by simp) (by simp)

@[simp] theorem tickets_close (w : World S I E) : tickets (w.close D K) = tickets w :=
  tickets_grow (grew_close (D := D) (K := K) w) (by simp) (by simp) (by simp) (by simp) (by simp)

@[simp] theorem tickets_despawn (w : World S I E) : tickets (w.despawn D K) = tickets w :=
  tickets_grow (grew_despawn (D := D) (K := K) w) (by simp) (by simp) (by simp) (by simp) (by simp)

theorem tickets_connect (w : World S I E) (hw : w.waiting = none) (r : Nat) : tickets (w.connect D K r) ≤ tickets w + 1 := by
  unfold tickets
  rw [((grew_connect (D := D) (K := K) w r).mem .add (.inl rfl)).2.1, connect_active, connect_cmds, connect_mine]
  have : (if (w.connect D K r).waiting = none then 0 else 1) + joins (w.connect D K r).trace ≤ joins w.trace + 1 := by
    unfold World.connect
    split
    · dsimp only
      split
      · split <;> simp [hw]
      · simp [hw]
    · split
      · simp; omega
      · simp [hw, joins_snoc]
  simp only [hw]
  omega

/-- A command is applied. -/
theorem tickets_apply (w : World S I E) (c : Cmd) :
    tickets (w.apply D K c) ≤ tickets w + (if c = .subscribe then 1 else 0) := by
  cases c with
  | subscribe =>
    show tickets (World.connect D K maxRetries { w with ent := .unfinished }) ≤ _
    by_cases hw : w.waiting = none
    · exact tickets_connect { w with ent := .unfinished } hw _
    · unfold tickets
      rw [((grew_connect (D := D) (K := K) { w with ent := .unfinished } maxRetries).mem .add (.inl rfl)).2.1, connect_active, connect_cmds,
        connect_mine]
      have : joins (World.connect D K maxRetries { w with ent := .unfinished }).trace ≤ joins w.trace + 1 := by
        unfold World.connect
        split
        · dsimp only
          split
          · split <;> simp
          · simp
        · split
          · simp
          · simp [joins_snoc]
      simp only [hw, if_false]
      split <;> simp <;> omega
  | spawn => exact Nat.le_refl _
  | despawn =>
    exact Nat.le_of_eq (tickets_despawn w)

theorem tickets_applies (l : List Cmd) (w : World S I E) :
    tickets (l.foldl (World.apply D K) w) ≤ tickets w + l.count .subscribe := by
  induction l generalizing w with
  | nil => exact Nat.le_refl _
  | cons c l ih =>
    have h1 := ih (w.apply D K c)
    have h2 := tickets_apply (D := D) (K := K) w c
    rw [List.foldl_cons]
    have h3 : (c :: l).count Cmd.subscribe = l.count Cmd.subscribe + (if c = .subscribe then 1 else 0) := by
      rw [List.count_cons]
      cases c <;> simp
    omega

theorem tickets_step (w : World S I E) (o : Op I E) : tickets (w.step D K o) ≤ tickets w := by
  cases o with
  | target t => exact Nat.le_refl _
  | emit n => exact Nat.le_of_eq (tickets_emit w n)
  | close => exact Nat.le_of_eq (tickets_close w)
  | unsubscribe =>
    simp only [World.step]
    refine Nat.le_of_eq ?_
    split
    · exact tickets_grow (Grew.trans (w' := { w with trace := w.trace ++ [.unsubscribed] }) (.of_eq rfl rfl (fun h => h)) (grew_close (K := .direct) (D := D) _))
        (by simp) (by simp) (by simp) (by simp) (by simp [joins_snoc])
    · exact tickets_grow (Grew.trans (w' := { w with trace := w.trace ++ [.unsubscribed] }) (.of_eq rfl rfl (fun h => h)) (grew_give (K := K) (D := D) _ _))
        (by simp) (by simp) (by simp) (by simp) (by simp [joins_snoc])
  | kill => exact Nat.le_of_eq (tickets_despawn w)
  | remove =>
    simp only [World.step]
    split
    · exact Nat.le_of_eq (tickets_grow (Grew.trans (w' := { w with ent := .bare }) (.of_eq rfl rfl (fun h => h)) (grew_close (D := D) (K := K) _))
        (by simp) (by simp) (by simp) (by simp) (by simp))
    · exact Nat.le_refl _
  | flushMine =>
    have := tickets_applies (D := D) (K := K) w.mine { w with mine := [] }
    have h : tickets ({ w with mine := [] } : World S I E) + w.mine.count .subscribe = tickets w := by
      simp [tickets]; omega
    show tickets (w.mine.foldl (World.apply D K) { w with mine := [] }) ≤ _
    omega
  | drain =>
    obtain ⟨-, -, -, -, f5, -, f7, f8, f9, f10, -⟩ := acts_fields w.queue { w with queue := [] }
    obtain ⟨g1, -⟩ := acts_active w.queue { w with queue := [] }
    show tickets (w.queue.foldl World.act { w with queue := [] }) ≤ _
    unfold tickets
    rw [f5, f7, f8, f9, f10]
    dsimp only at g1 ⊢
    simp only [List.count_nil]
    omega
  | work =>
    simp only [World.step]
    split
    · simp [tickets, List.count_append]; omega
    · exact Nat.le_refl _
  | reap =>
    simp only [World.step]
    split <;> simp [tickets, List.count_append]
  | flush =>
    have := tickets_applies (D := D) (K := K) w.cmds { w with cmds := [] }
    have h : tickets ({ w with cmds := [] } : World S I E) + w.cmds.count .subscribe = tickets w := by
      simp [tickets]; omega
    show tickets (w.cmds.foldl (World.apply D K) { w with cmds := [] }) ≤ _
    omega
  | retry =>
    simp only [World.step]
    split
    · rename_i r hr
      have := tickets_connect (D := D) (K := K) { w with waiting := none } rfl r
      have h : tickets ({ w with waiting := none } : World S I E) + 1 = tickets w := by simp [tickets, hr]; omega
      omega
    · exact Nat.le_refl _
  | clean =>
    simp only [World.step]
    split
    · exact Nat.le_of_eq (tickets_despawn w)
    · exact Nat.le_refl _
  | last =>
    simp only [World.step]
    split
    · exact Nat.le_of_eq (tickets_grow (Grew.trans (w' := { w with despawns := 0 }) (.of_eq rfl rfl (fun h => h)) (grew_despawn (D := D) (K := K) _))
        (by simp) (by simp) (by simp) (by simp) (by simp))
    · exact Nat.le_refl _

theorem tickets_run (w : World S I E) (l : List (Op I E)) : tickets (w.run D K l) ≤ tickets w := by
  induction l generalizing w with
  | nil => exact Nat.le_refl _
  | cons o l ih => exact Nat.le_trans (ih _) (tickets_step w o)

theorem tickets_start (t : Target I E) : tickets (World.start D K t s) ≤ 1 := by
  cases K with
  | proxy =>
    simp only [World.start]
    split <;> simp [tickets, teardown, joins]
  | command =>
    simp only [World.start]
    split <;> simp [tickets, teardown, joins]
  | direct =>
    have h0 : tickets (World.join D .direct t { dest := s, queue := [.addInvoked], mine := [.spawn], made := true }) ≤ 1 := by
      unfold tickets
      rw [((grew_join (D := D) (K := .direct) _ t).mem .add (.inl rfl)).2.1]
      rw [joins_join]
      simp [joins]
    simp only [World.start]
    split
    · exact h0
    · exact Nat.le_trans (tickets_step _ .close) h0

/-! ## Unsubscribed before the executor has heard of it -/

/-- The work is not going to be run. -/
structure Off (D : Dest S I E) (w : World S I E) : Prop where
  closed : D.isClosed w.dest = true
  source : w.source = .none
  waiting : w.waiting = none
  mine : w.mine = []
  ent : w.ent = .none
  cmds : .subscribe ∉ w.cmds ∧ .spawn ∉ w.cmds
  active : w.active = 0
  queue : .add ∉ w.queue ∨ (.cancel ∈ w.queue ∧ .add ∉ w.queue.tail)
  joins : joins w.trace = 0

theorem Off.step {w : World S I E} (x : Off D w) (o : Op I E) : Off D (w.step D .proxy o) := by
  have hdesp : ∀ v : World S I E, v.ent = .none → v.despawn D .proxy = v := by
    intro v h; unfold World.despawn; rw [h]
  cases o with
  | target t => exact ⟨x.closed, x.source, x.waiting, x.mine, x.ent, x.cmds, x.active, x.queue, x.joins⟩
  | emit n =>
    have : w.step D .proxy (.emit n) = { w with trace := w.trace ++ [.emitted n] } := by
      simp only [World.step, World.emit]; rw [if_neg (by rw [x.source]; simp)]
    rw [this]
    exact ⟨x.closed, x.source, x.waiting, x.mine, x.ent, x.cmds, x.active, x.queue, by simpa [joins_snoc] using x.joins⟩
  | close => simp only [World.step, close_over (D := D) (K := .proxy) (w := w) (by rw [x.source]; simp)]; exact x
  | unsubscribe =>
    have : w.step D .proxy .unsubscribe = { w with trace := w.trace ++ [.unsubscribed] } := by
      simp only [World.step, World.give, x.closed, if_true]
    rw [this]
    exact ⟨x.closed, x.source, x.waiting, x.mine, x.ent, x.cmds, x.active, x.queue, by simpa [joins_snoc] using x.joins⟩
  | kill => simp only [World.step, hdesp w x.ent]; exact x
  | remove => simp only [World.step]; rw [if_neg (by rw [x.ent]; simp)]; exact x
  | flushMine =>
    have : w.step D .proxy .flushMine = w := by
      have := x.mine
      simp only [World.step, this, List.foldl_nil]
      cases w; simp_all
    rw [this]; exact x
  | drain =>
    obtain ⟨f1, f2, f3, -, f5, -, f7, f8, f9, f10, -⟩ := acts_fields w.queue { w with queue := [] }
    obtain ⟨g1, g2⟩ := acts_active w.queue { w with queue := [] }
    show Off D (w.queue.foldl World.act { w with queue := [] })
    refine ⟨by rw [f1]; exact x.closed, f3.trans x.source, f5.trans x.waiting, f7.trans x.mine, f2.trans x.ent, by rw [f8]; exact x.cmds,
      ?_, .inl (by rw [f10]; simp), by rw [f9]; exact x.joins⟩
    rcases x.queue with h | ⟨h, h'⟩
    · have := List.count_eq_zero.2 h
      have := x.active
      dsimp only at g1
      omega
    · exact g2 h h'
  | work => simp only [World.step]; rw [if_neg (by rw [x.active]; simp)]; exact x
  | reap =>
    simp only [World.step]
    split
    · exact ⟨x.closed, x.source, x.waiting, x.mine, x.ent, by simpa using x.cmds, x.active, x.queue, x.joins⟩
    · exact ⟨x.closed, x.source, x.waiting, x.mine, x.ent, x.cmds, x.active, x.queue, x.joins⟩
  | flush =>
    have : ∀ (l : List Cmd) (v : World S I E), v.ent = .none → .subscribe ∉ l → .spawn ∉ l → l.foldl (World.apply D .proxy) v = v := by
      intro l
      induction l with
      | nil => intro v _ _ _; rfl
      | cons c l ih =>
        intro v hv h1 h2
        have hc : c = .despawn := by cases c <;> simp_all
        subst hc
        simp only [List.mem_cons, not_or] at h1 h2
        rw [List.foldl_cons, show World.apply D .proxy v .despawn = v from hdesp v hv]
        exact ih v hv h1.2 h2.2
    simp only [World.step]
    rw [this w.cmds { w with cmds := [] } x.ent x.cmds.1 x.cmds.2]
    exact ⟨x.closed, x.source, x.waiting, x.mine, x.ent, by simp, x.active, x.queue, x.joins⟩
  | retry => simp only [World.step, x.waiting]; exact x
  | clean => simp only [World.step]; rw [if_neg (by rw [x.ent]; simp)]; exact x
  | last =>
    simp only [World.step]
    split
    · rw [hdesp { w with despawns := 0 } x.ent]
      exact ⟨x.closed, x.source, x.waiting, x.mine, x.ent, x.cmds, x.active, x.queue, x.joins⟩
    · exact x

theorem Off.run {w : World S I E} (x : Off D w) (l : List (Op I E)) : Off D (w.run D .proxy l) := by
  induction l generalizing w with
  | nil => exact x
  | cons o l ih => exact ih (x.step o)

/-- Before the executor has received the work. -/
structure Queued (D : Dest S I E) (w : World S I E) : Prop where
  queue : w.queue = .add :: (if D.isClosed w.dest then teardown .proxy else [])
  source : w.source = .none
  waiting : w.waiting = none
  mine : w.mine = []
  ent : w.ent = .none
  cmds : w.cmds = []
  active : w.active = 0
  joins : joins w.trace = 0
  despawns : w.despawns = 0
  invoked : w.invoked = 0

theorem Queued.step {w : World S I E} (x : Queued D w) (o : Op I E) (ho : o ≠ .drain) : Queued D (w.step D .proxy o) := by
  have hdesp : ∀ v : World S I E, v.ent = .none → v.despawn D .proxy = v := by
    intro v h; unfold World.despawn; rw [h]
  cases o with
  | target t => exact ⟨x.queue, x.source, x.waiting, x.mine, x.ent, x.cmds, x.active, x.joins, x.despawns, x.invoked⟩
  | emit n =>
    have : w.step D .proxy (.emit n) = { w with trace := w.trace ++ [.emitted n] } := by
      simp only [World.step, World.emit]; rw [if_neg (by rw [x.source]; simp)]
    rw [this]
    exact ⟨x.queue, x.source, x.waiting, x.mine, x.ent, x.cmds, x.active, by simpa [joins_snoc] using x.joins, x.despawns, x.invoked⟩
  | close => simp only [World.step, close_over (D := D) (K := .proxy) (w := w) (by rw [x.source]; simp)]; exact x
  | unsubscribe =>
    simp only [World.step]
    refine ⟨?_, by simpa using x.source, by simpa using x.waiting, by simpa using x.mine, by simpa using x.ent, by simpa using x.cmds,
      by simpa using x.active, by simpa [joins_snoc] using x.joins, by simpa using x.despawns, by simpa using x.invoked⟩
    unfold World.give
    by_cases hc : D.isClosed w.dest = true
    · simp [x.queue, hc]
    · simp only [Bool.not_eq_true] at hc
      simp [hc, x.queue]
  | kill => simp only [World.step, hdesp w x.ent]; exact x
  | remove => simp only [World.step]; rw [if_neg (by rw [x.ent]; simp)]; exact x
  | flushMine =>
    have : w.step D .proxy .flushMine = w := by
      have := x.mine
      simp only [World.step, this, List.foldl_nil]
      cases w; simp_all
    rw [this]; exact x
  | drain => exact (ho rfl).elim
  | work => simp only [World.step]; rw [if_neg (by rw [x.active]; simp)]; exact x
  | reap =>
    simp only [World.step]
    rw [if_neg (by rw [x.invoked]; simp)]
    exact ⟨x.queue, x.source, x.waiting, x.mine, x.ent, x.cmds, x.active, x.joins, x.despawns, rfl⟩
  | flush =>
    have : w.step D .proxy .flush = w := by
      have := x.cmds
      simp only [World.step, this, List.foldl_nil]
      cases w; simp_all
    rw [this]; exact x
  | retry => simp only [World.step, x.waiting]; exact x
  | clean => simp only [World.step]; rw [if_neg (by rw [x.ent]; simp)]; exact x
  | last => simp only [World.step]; rw [if_neg (by rw [x.despawns]; simp)]; exact x

theorem Queued.run {w : World S I E} (x : Queued D w) (l : List (Op I E)) (h : .drain ∉ l) : Queued D (w.run D .proxy l) := by
  induction l generalizing w with
  | nil => exact x
  | cons o l ih =>
    simp only [List.mem_cons, not_or] at h
    exact ih (x.step o (fun h' => h.1 h'.symm)) h.2

theorem start_queued (t : Target I E) : Queued D (World.start D .proxy t s) := by
  simp only [World.start]
  split <;> rename_i h <;> constructor <;> simp [h, joins]

theorem Queued.off {w : World S I E} (x : Queued D w) (h : D.isClosed w.dest = true) : Off D w := by
  refine ⟨h, x.source, x.waiting, x.mine, x.ent, by simp [x.cmds], x.active, .inr ?_, x.joins⟩
  rw [x.queue, h]
  simp [teardown]

/-! ## Left behind -/

/-- The entity is there, and nothing is going to despawn it. -/
structure Stuck (w : World S I E) : Prop where
  ent : w.ent = .attached ∨ w.ent = .bare
  source : w.source = .closed
  despawns : w.despawns = 0
  cmds : w.cmds = []
  mine : w.mine = []
  waiting : w.waiting = none
  armed : ¬ Armed w
  active : w.active = 0
  add : .add ∉ w.queue

theorem Stuck.step {w : World S I E} (x : Stuck w) (o : Op I E) (ho : o ≠ .kill) : Stuck (w.step D .direct o) := by
  have hcl : ∀ v : World S I E, v.source = .closed → v.close D .direct = v := fun v h => close_over (by rw [h]; simp)
  cases o with
  | target t => exact ⟨x.ent, x.source, x.despawns, x.cmds, x.mine, x.waiting, x.armed, x.active, x.add⟩
  | emit n =>
    have : w.step D .direct (.emit n) = { w with trace := w.trace ++ [.emitted n] } := by
      simp only [World.step, World.emit]; rw [if_neg (by rw [x.source]; simp)]
    rw [this]
    exact ⟨x.ent, x.source, x.despawns, x.cmds, x.mine, x.waiting, x.armed, x.active, x.add⟩
  | close => simp only [World.step, hcl w x.source]; exact x
  | unsubscribe =>
    simp only [World.step]
    rw [hcl { w with trace := w.trace ++ [.unsubscribed] } x.source]
    exact ⟨x.ent, x.source, x.despawns, x.cmds, x.mine, x.waiting, x.armed, x.active, x.add⟩
  | kill => exact (ho rfl).elim
  | remove =>
    simp only [World.step]
    split
    · rw [hcl { w with ent := .bare } x.source]
      exact ⟨.inr rfl, x.source, x.despawns, x.cmds, x.mine, x.waiting, x.armed, x.active, x.add⟩
    · exact x
  | flushMine =>
    have : w.step D .direct .flushMine = w := by
      have := x.mine
      simp only [World.step, this, List.foldl_nil]
      cases w; simp_all
    rw [this]; exact x
  | drain =>
    obtain ⟨-, f2, f3, -, f5, f6, f7, f8, -, f10, f11, -⟩ := acts_fields w.queue { w with queue := [] }
    obtain ⟨g1, -⟩ := acts_active w.queue { w with queue := [] }
    show Stuck (w.queue.foldl World.act { w with queue := [] })
    have h1 : .addInvoked ∉ w.queue := fun h => x.armed (.inl h)
    have h2 : ¬ 0 < w.invokable := fun h => x.armed (.inr h)
    refine ⟨by rw [f2]; exact x.ent, f3.trans x.source, f6.trans x.despawns, f8.trans x.cmds, f7.trans x.mine, f5.trans x.waiting, ?_, ?_,
      by rw [f10]; simp⟩
    · rintro (h | h)
      · rw [f10] at h; simp at h
      · rw [f11, List.count_eq_zero.2 h1] at h
        exact h2 h
    · have := List.count_eq_zero.2 x.add
      have := x.active
      dsimp only at g1
      omega
  | work => simp only [World.step]; rw [if_neg (by rw [x.active]; simp)]; exact x
  | reap =>
    simp only [World.step]
    rw [if_neg (fun h => x.armed (.inr h.2))]
    exact ⟨x.ent, x.source, x.despawns, x.cmds, x.mine, x.waiting, x.armed, x.active, x.add⟩
  | flush =>
    have : w.step D .direct .flush = w := by
      have := x.cmds
      simp only [World.step, this, List.foldl_nil]
      cases w; simp_all
    rw [this]; exact x
  | retry => simp only [World.step, x.waiting]; exact x
  | clean =>
    simp only [World.step]
    rw [if_neg (by rcases x.ent with h | h <;> rw [h] <;> simp)]
    exact x
  | last => simp only [World.step]; rw [if_neg (by rw [x.despawns]; simp)]; exact x

theorem Stuck.run {w : World S I E} (x : Stuck w) (l : List (Op I E)) (h : .kill ∉ l) : Stuck (w.run D .direct l) := by
  induction l generalizing w with
  | nil => exact x
  | cons o l ih =>
    simp only [List.mem_cons, not_or] at h
    exact ih (x.step o (fun h' => h.1 h'.symm)) h.2

theorem stuck_start (D : Dest S I E) (s : S) :
    Stuck ((World.start D .direct {} s).run D .direct [.unsubscribe, .drain, .reap, .flush, .last, .flushMine]) := by
  simp only [World.run, List.foldl_cons, List.foldl_nil, World.start, World.join, if_true, World.step, World.close, World.give]
  by_cases h : D.isClosed s = true
  · constructor <;> simp [h, World.act, World.apply, World.despawn, Armed]
  · simp only [Bool.not_eq_true] at h
    constructor <;> simp [h, teardown, World.act, World.apply, World.despawn, Armed]

end Rx.Proxy
