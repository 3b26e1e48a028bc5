import Verif.Lemmas.BevyEventsView
import Verif.Lemmas.Delivers

/-!
# What is always true of a subscription to the events of an entity
-/

namespace Rx.Events

open Rx.Closing (Dest)

variable {D : Dest S I E} {s : S} {k : Nat}

theorem takes_closed (D : Dest S I E) {s : S} (h : D.isClosed s = true) (l : List (SubscriberNotification I E)) :
    takes D s l = ([], s) := by
  cases l with
  | nil => rfl
  | cons n l => simp [takes, h]

theorem takes_append (D : Dest S I E) (s : S) (l r : List (SubscriberNotification I E)) :
    takes D s (l ++ r) = ((takes D s l).1 ++ (takes D (takes D s l).2 r).1, (takes D (takes D s l).2 r).2) := by
  induction l generalizing s with
  | nil => rfl
  | cons n l ih =>
    simp only [List.cons_append, takes]
    by_cases h : D.isClosed s = true
    · rw [if_pos h, if_pos h, takes_closed D h]
      rfl
    · rw [if_neg h, if_neg h, ih]
      rfl

namespace View

/-- The teardown has been run, and the executor has not received its actions yet. -/
def Torn (k : Nat) (v : View S I E) : Prop :=
  .invoke k ∈ v.queue ∧ ∃ a b, v.queue = a ++ .cancel k :: b ∧ Act.add k ∉ b

/-- The executor has received the actions of the teardown. -/
def Drained (v : View S I E) : Prop := v.queue = [] ∧ v.active = 0 ∧ (v.invoked ≠ 0 ∨ v.invokable = 0)

theorem Drained.queue {v : View S I E} (h : v.Drained) : v.queue = [] := h.1
theorem Drained.active {v : View S I E} (h : v.Drained) : v.active = 0 := h.2.1
theorem Drained.invoked {v : View S I E} (h : v.Drained) : v.invoked ≠ 0 ∨ v.invokable = 0 := h.2.2

/-- The executor has run the invoked work. -/
def Reaped (v : View S I E) : Prop := v.queue = [] ∧ v.active = 0 ∧ v.invoked = 0 ∧ v.invokable = 0

/-- The satellite, if there is one, is going to be despawned. -/
def Dying (k : Nat) (v : View S I E) : Prop := ∃ a b, v.cmds = a ++ .despawn k :: b ∧ Cmd.spawn k ∉ b

def total (k : Nat) (v : View S I E) : Nat :=
  v.queue.count (.add k) + v.active + v.cmds.count (.spawn k) + v.starts

structure Core (D : Dest S I E) (s : S) (k : Nat) (v : View S I E) : Prop where
  hears : (v.given, v.dest) = takes D s v.seen.offers
  alive : v.seen.alive = v.alive
  started : v.seen.started = true ↔ v.starts ≠ 0
  cnt : v.total k ≤ 1
  open_total : v.known = true → D.isClosed v.dest = false → v.total k = 1
  open_cancel : D.isClosed v.dest = false → Act.cancel k ∉ v.queue
  satle : v.sat ≤ v.starts
  link : v.sat ≠ 0 ∨ Cmd.spawn k ∈ v.cmds → v.invokable ≠ 0 ∨ .addInvoked k ∈ v.queue ∨ v.Dying k
  torn : v.known = true → D.isClosed v.dest = true → v.Torn k ∨ v.Drained
  of_queue : ∀ a ∈ v.queue, a.of k = true
  of_cmds : ∀ c ∈ v.cmds, c.of k = true
  unknown : v.known = false → v.queue = [] ∧ v.active = 0 ∧ v.invokable = 0 ∧ v.invoked = 0 ∧ v.cmds = [] ∧
    v.starts = 0 ∧ v.seen.offers = []

structure Live (D : Dest S I E) (v : View S I E) : Prop where
  listen : v.starts ≠ 0 → v.alive = true → D.isClosed v.dest = false → v.sat = 1
  dead : v.starts ≠ 0 → v.alive = false → D.isClosed v.dest = true

structure Ok (D : Dest S I E) (s : S) (k : Nat) (v : View S I E) : Prop extends Core D s k v, Live D v

variable {v : View S I E}

theorem Core.sat_le (h : Core D s k v) : v.sat ≤ 1 := by
  have := h.cnt
  have := h.satle
  simp only [total] at *
  omega

theorem Core.known_of_starts (h : Core D s k v) (hs : v.starts ≠ 0) : v.known = true := by
  cases hk : v.known with
  | true => rfl
  | false => exact absurd (h.unknown hk).2.2.2.2.2.1 hs

theorem Core.offer_closed (h : Core D s k v) (hk : v.known = true) (hc : D.isClosed v.dest = true)
    (ns : List (SubscriberNotification I E)) : Core D s k (v.offer ns) where
  hears := by
    simp only [offer, takes_append]
    have h1 := h.hears
    have h2 : (takes D s v.seen.offers).2 = v.dest := by rw [← h1]
    rw [h2, takes_closed D hc, ← h1]
    simp
  alive := h.alive
  started := h.started
  cnt := h.cnt
  open_total := h.open_total
  open_cancel := h.open_cancel
  satle := h.satle
  link := h.link
  torn := h.torn
  of_queue := h.of_queue
  of_cmds := h.of_cmds
  unknown := fun hu => by simp [offer, hk] at hu

theorem give_closed (hc : D.isClosed v.dest = true) (n : SubscriberNotification I E) : v.give D k n = v := by
  simp [give, hc]

theorem Core.offer_give (h : Core D s k v) (hk : v.known = true) (n : SubscriberNotification I E) :
    Core D s k ((v.offer [n]).give D k n) := by
  by_cases hc : D.isClosed v.dest = true
  · rw [give_closed (v := v.offer [n]) hc]
    exact h.offer_closed hk hc _
  · have ho : D.isClosed v.dest = false := Bool.eq_false_iff.2 hc
    have h1 : (v.offer [n]).give D k n = { v with
        seen := { v.seen with offers := v.seen.offers ++ [n] }
        dest := D.push v.dest n
        queue := v.queue ++ (if D.isClosed (D.push v.dest n) then teardown k else [])
        given := v.given ++ [n] } := by
      simp [give, offer, ho]
      rfl
    rw [h1]
    by_cases hc2 : D.isClosed (D.push v.dest n) = true
    · refine ⟨?_, h.alive, h.started, ?_, fun _ hh => ?_, fun hh => ?_, h.satle, fun hh => ?_, fun _ _ => .inl ?_, ?_, h.of_cmds,
        fun hu => ?_⟩
      · have h1 := h.hears
        have h2 : (takes D s v.seen.offers).2 = v.dest := by rw [← h1]
        rw [takes_append, h2, ← h1]
        simp [takes, ho]
      · have := h.cnt
        simp only [total, if_pos hc2, List.count_append] at this ⊢
        simpa [teardown] using this
      · simp [hc2] at hh
      · simp [hc2] at hh
      · rcases h.link hh with h2 | h2 | h2
        · exact .inl h2
        · exact .inr (.inl (List.mem_append_left _ h2))
        · exact .inr (.inr h2)
      · simp only [Torn, if_pos hc2]
        exact ⟨by simp [teardown], v.queue ++ [.invoke k], [], by simp [teardown], by simp⟩
      · intro a ha
        simp only [if_pos hc2] at ha
        rcases List.mem_append.1 ha with ha | ha
        · exact h.of_queue a ha
        · simp only [teardown, List.mem_cons, List.not_mem_nil, or_false] at ha
          rcases ha with rfl | rfl <;> simp [Act.of]
      · simp [hk] at hu
    · refine ⟨?_, h.alive, h.started, ?_, fun _ _ => ?_, fun _ => ?_, h.satle, fun hh => ?_, fun _ hh => ?_, ?_, h.of_cmds,
        fun hu => ?_⟩
      · have h1 := h.hears
        have h2 : (takes D s v.seen.offers).2 = v.dest := by rw [← h1]
        rw [takes_append, h2, ← h1]
        simp [takes, ho]
      · have := h.cnt
        simpa [total, if_neg hc2] using this
      · have := h.open_total hk ho
        simpa [total, if_neg hc2] using this
      · have := h.open_cancel ho
        simpa [if_neg hc2] using this
      · have := h.link hh
        simpa [Dying, if_neg hc2] using this
      · exact absurd hh hc2
      · have := h.of_queue
        simpa [if_neg hc2] using this
      · simp [hk] at hu

theorem give_dest_closed (hD : D.Contract) (n : SubscriberNotification I E) (hn : n.isClosing = true) :
    D.isClosed (v.give D k n).dest = true := by
  unfold give
  by_cases hc : D.isClosed v.dest = true
  · rw [if_pos hc]
    exact hc
  · rw [if_neg hc]
    exact hD.closes _ _ hn

theorem Live.of_closed (h : D.isClosed v.dest = true) : Live D v :=
  ⟨fun _ _ ho => by simp [h] at ho, fun _ _ => h⟩

theorem Ok.despawnSat (hD : D.Contract) (h : Ok D s k v) : Ok D s k (v.despawnSat D k) := by
  unfold View.despawnSat
  by_cases hs : v.sat ≠ 0
  · rw [if_pos hs]
    have hk := h.known_of_starts (fun h0 => hs (Nat.le_zero.1 (h0 ▸ h.satle)))
    have h1 : Core D s k { v with sat := 0 } :=
      { h.toCore with
        satle := Nat.zero_le _
        link := fun hh => h.link (.inr (hh.resolve_left (by simp))) }
    exact ⟨h1.offer_give hk _, .of_closed (give_dest_closed hD _ rfl)⟩
  · rw [if_neg hs]
    exact h

theorem Ok.doomed (hD : D.Contract) (h : Ok D s k v) :
    Ok D s k (times (View.give D k .complete) v.sat v.doomed) := by
  have h1 : Core D s k { v with alive := false, sat := 0, seen := { v.seen with alive := false } } :=
    { h.toCore with
      alive := rfl
      satle := Nat.zero_le _
      link := fun hh => h.link (.inr (hh.resolve_left (by simp))) }
  have h2 : v.doomed = View.offer (if v.seen.started then [.complete] else [])
    { v with alive := false, sat := 0, seen := { v.seen with alive := false } } := rfl
  have hle := h.sat_le
  by_cases hs : v.sat = 0
  · rw [hs, times]
    by_cases hst : v.starts = 0
    · have h3 : v.seen.started = false := Bool.eq_false_iff.2 (fun h4 => h.started.1 h4 hst)
      have h4 : v.doomed = { v with alive := false, sat := 0, seen := { v.seen with alive := false } } := by
        rw [h2]
        simp [View.offer, h3]
      rw [h4]
      exact ⟨h1, fun hh => absurd hst hh, fun hh => absurd hst hh⟩
    · have hc : D.isClosed v.dest = true := by
        cases hc : D.isClosed v.dest with
        | true => rfl
        | false =>
          cases ha : v.alive with
          | true =>
            have := h.listen hst ha hc
            omega
          | false =>
            have := h.dead hst ha
            rw [hc] at this
            cases this
      rw [h2]
      exact ⟨h1.offer_closed (h.known_of_starts hst) hc _, .of_closed hc⟩
  · have hs1 : v.sat = 1 := by omega
    have hst : v.starts ≠ 0 := fun h0 => hs (Nat.le_zero.1 (h0 ▸ h.satle))
    rw [hs1, h2, if_pos (h.started.2 hst)]
    exact ⟨h1.offer_give (h.known_of_starts hst) _, .of_closed (give_dest_closed hD _ rfl)⟩

theorem Ok.event (h : Ok D s k v) (x : I) (ha : v.alive = true) :
    Ok D s k (times (View.give D k (.next x)) v.sat (v.offer (if v.seen.started then [.next x] else []))) := by
  have hle := h.sat_le
  by_cases hs : v.sat = 0
  · rw [hs, times]
    by_cases hst : v.starts = 0
    · have h3 : v.seen.started = false := Bool.eq_false_iff.2 (fun h4 => h.started.1 h4 hst)
      have h4 : v.offer (if v.seen.started then [.next x] else []) = v := by
        simp only [View.offer, h3, Bool.false_eq_true, if_false, List.append_nil]
        rw [← h3]
      rw [h4]
      exact h
    · have hc : D.isClosed v.dest = true := by
        cases hc : D.isClosed v.dest with
        | true => rfl
        | false =>
          have := h.listen hst ha hc
          omega
      exact ⟨h.toCore.offer_closed (h.known_of_starts hst) hc _, .of_closed hc⟩
  · have hs1 : v.sat = 1 := by omega
    have hst : v.starts ≠ 0 := fun h0 => hs (Nat.le_zero.1 (h0 ▸ h.satle))
    rw [hs1, if_pos (h.started.2 hst)]
    refine ⟨h.toCore.offer_give (h.known_of_starts hst) _, fun _ _ _ => ?_, fun _ hd => ?_⟩
    · simp only [times, View.give]
      split
      · exact hs1
      · exact hs1
    · simp only [times, View.give] at hd
      split at hd
      · simp [View.offer, ha] at hd
      · simp [View.offer, ha] at hd

theorem Ok.born (h : Ok D s k v) : Ok D s k v.born :=
  ⟨{ h.toCore with alive := rfl }, (fun hs _ ho => by
      cases ha : v.alive with
      | true => exact h.listen hs ha ho
      | false =>
        have := h.dead hs ha
        rw [show D.isClosed v.dest = false from ho] at this
        cases this),
    (fun _ hh => by cases hh)⟩

theorem acts_eq (q : List Act) (v : View S I E) (hq : ∀ a ∈ q, a.of k = true) :
    ∃ n, q.foldl act v = { v with
        active := n
        invokable := v.invokable + q.count (.addInvoked k)
        invoked := v.invoked + q.count (.invoke k) } ∧
      n ≤ v.active + q.count (.add k) ∧ (Act.cancel k ∉ q → n = v.active + q.count (.add k)) ∧
      (∀ a b, q = a ++ .cancel k :: b → Act.add k ∉ b → n = 0) := by
  induction q generalizing v with
  | nil => exact ⟨v.active, rfl, Nat.le_refl _, fun _ => rfl, fun a b h => by simp at h⟩
  | cons c q ih =>
    have hc := hq c (List.mem_cons_self ..)
    obtain ⟨n, h1, h2, h3, h4⟩ := ih (v.act c) (fun a ha => hq a (List.mem_cons_of_mem _ ha))
    refine ⟨n, ?_, ?_, ?_, ?_⟩
    · rw [List.foldl_cons, h1]
      cases c <;> simp only [Act.of, decide_eq_true_eq] at hc <;> subst hc <;> simp [act] <;> omega
    · cases c <;> simp only [Act.of, decide_eq_true_eq] at hc <;> subst hc <;> simp [act] at h2 ⊢ <;> omega
    · intro hn
      have h5 := h3 (fun hh => hn (List.mem_cons_of_mem _ hh))
      cases c <;> simp only [Act.of, decide_eq_true_eq] at hc <;> subst hc <;> simp [act] at h5 hn ⊢ <;> omega
    · intro a b hab hb
      cases a with
      | nil =>
        simp only [List.nil_append, List.cons.injEq] at hab
        obtain ⟨rfl, rfl⟩ := hab
        simp only [act, List.count_eq_zero.2 hb] at h2
        omega
      | cons a0 a =>
        simp only [List.cons_append, List.cons.injEq] at hab
        exact h4 a b hab.2 hb

theorem Ok.drain (h : Ok D s k v) : Ok D s k (v.queue.foldl act { v with queue := [] }) := by
  obtain ⟨n, h1, h2, h3, h4⟩ := acts_eq v.queue { v with queue := [] } h.of_queue
  rw [h1]
  simp only at h2 h3
  have hc := h.cnt
  simp only [total] at hc
  refine ⟨⟨h.hears, h.alive, h.started, ?_, fun hk ho => ?_, fun _ => by simp, h.satle, fun hh => ?_, fun hk hcl => .inr ?_,
    by simp, h.of_cmds, fun hu => ?_⟩, h.listen, h.dead⟩
  · simp only [total, List.count_nil]
    omega
  · have h5 := h.open_total hk ho
    have h6 := h3 (h.open_cancel ho)
    simp only [total, List.count_nil] at h5 ⊢
    omega
  · rcases h.link hh with h5 | h5 | h5
    · left
      simp only
      omega
    · left
      have := List.count_pos_iff.2 h5
      simp only
      omega
    · exact .inr (.inr h5)
  · rcases h.torn hk hcl with ⟨h5, a, b, h6, h7⟩ | h5
    · refine ⟨rfl, h4 a b h6 h7, .inl ?_⟩
      have := List.count_pos_iff.2 h5
      simp only
      omega
    · have h8 : n = 0 := by
        have := h5.active
        have := h5.queue
        simp_all
      refine ⟨rfl, h8, ?_⟩
      simpa [h5.queue] using h5.invoked
  · obtain ⟨g1, g2, g3, g4, g5, g6, g7⟩ := h.unknown hu
    simp_all

theorem Ok.work (h : Ok D s k v) : Ok D s k (v.work k) := by
  unfold View.work
  by_cases ha : v.active ≠ 0
  · rw [if_pos ha]
    have hc := h.cnt
    simp only [total] at hc
    refine ⟨⟨h.hears, h.alive, h.started, ?_, fun hk ho => ?_, fun ho => ?_, h.satle, fun _ => .inr (.inl (by simp)),
      fun hk hcl => .inl ?_, ?_, ?_, fun hu => ?_⟩, h.listen, h.dead⟩
    · simp [total]
      omega
    · have h5 := h.open_total hk ho
      simp [total] at h5 ⊢
      omega
    · simpa using h.open_cancel ho
    · rcases h.torn hk hcl with ⟨h5, a, b, h6, h7⟩ | h5
      · refine ⟨List.mem_append_left _ h5, a, b ++ [.addInvoked k], by simp [h6], by simpa using h7⟩
      · exact absurd h5.active ha
    · intro a ha
      rcases List.mem_append.1 ha with ha | ha
      · exact h.of_queue a ha
      · simp only [List.mem_cons, List.not_mem_nil, or_false] at ha
        subst ha
        simp [Act.of]
    · intro a ha
      rcases List.mem_append.1 ha with ha | ha
      · exact h.of_cmds a ha
      · simp only [List.mem_cons, List.not_mem_nil, or_false] at ha
        subst ha
        simp [Cmd.of]
    · exact absurd (h.unknown hu).2.1 ha
  · rw [if_neg ha]
    exact h

theorem Ok.runInvoked (h : Ok D s k v) : Ok D s k (v.runInvoked k) := by
  unfold View.runInvoked
  by_cases ha : v.invokable ≠ 0
  · rw [if_pos ha]
    refine ⟨⟨h.hears, h.alive, h.started, ?_, fun hk ho => ?_, h.open_cancel, h.satle,
      fun _ => .inr (.inr ⟨v.cmds, [], rfl, by simp⟩), fun hk hcl => ?_, h.of_queue, ?_, fun hu => ?_⟩, h.listen, h.dead⟩
    · simpa [total] using h.cnt
    · simpa [total] using h.open_total hk ho
    · rcases h.torn hk hcl with h5 | h5
      · exact .inl h5
      · exact .inr ⟨h5.queue, h5.active, .inr rfl⟩
    · intro a ha
      rcases List.mem_append.1 ha with ha | ha
      · exact h.of_cmds a ha
      · simp only [List.mem_cons, List.not_mem_nil, or_false] at ha
        subst ha
        simp [Cmd.of]
    · exact absurd (h.unknown hu).2.2.1 ha
  · rw [if_neg ha]
    exact h

theorem runInvoked_zero {v : View S I E} (h : v.invokable = 0) : v.runInvoked k = v := by
  simp [View.runInvoked, h]

theorem runInvoked_invokable (v : View S I E) : (v.runInvoked k).invokable = 0 := by
  unfold View.runInvoked
  split
  · rfl
  · rename_i h
    simpa using h

theorem times_runInvoked (n : Nat) (v : View S I E) :
    times (View.runInvoked k) n v = if n = 0 then v else v.runInvoked k := by
  induction n generalizing v with
  | zero => rfl
  | succ n ih =>
    rw [times, ih, runInvoked_zero (runInvoked_invokable v)]
    simp

theorem reap_eq (v : View S I E) : times (View.runInvoked k) v.invoked { v with invoked := 0 }
    = { (if v.invoked = 0 then v else v.runInvoked k) with invoked := 0 } := by
  rw [times_runInvoked]
  split
  · rfl
  · unfold View.runInvoked
    split
    · rfl
    · rfl

theorem Ok.reap (h : Ok D s k v) : Ok D s k (times (View.runInvoked k) v.invoked { v with invoked := 0 }) := by
  rw [reap_eq]
  have h1 : Ok D s k (if v.invoked = 0 then v else v.runInvoked k) := by
    split
    · exact h
    · exact h.runInvoked
  have h2 : (if v.invoked = 0 then v else v.runInvoked k).Drained →
      (if v.invoked = 0 then v else v.runInvoked k).invokable = 0 := by
    split
    · intro hd
      rename_i h0
      exact hd.invoked.resolve_left (by simp [h0])
    · intro _
      exact runInvoked_invokable v
  refine ⟨{ h1.toCore with torn := fun hk hc => ?_, unknown := fun hu => ?_ }, h1.listen, h1.dead⟩
  · rcases h1.torn hk hc with h3 | h3
    · exact .inl h3
    · exact .inr ⟨h3.queue, h3.active, .inr (h2 h3)⟩
  · obtain ⟨g1, g2, g3, g4, g5, g6, g7⟩ := h1.unknown hu
    exact ⟨g1, g2, g3, rfl, g5, g6, g7⟩

theorem give_cmds (v : View S I E) (n : SubscriberNotification I E) (q : List Cmd) :
    give D k n { v with cmds := q } = { give D k n v with cmds := q } := by
  by_cases hc : D.isClosed v.dest = true
  · rw [give_closed hc, give_closed (v := { v with cmds := q }) hc]
  · simp only [give]
    rw [if_neg hc, if_neg hc]

theorem apply_cmds (v : View S I E) (c : Cmd) (q : List Cmd) :
    apply D k { v with cmds := q } c = { apply D k v c with cmds := q } := by
  cases c with
  | spawn j =>
    by_cases ha : v.alive = true
    · simp only [apply]
      rw [if_pos ha, if_pos ha]
      rfl
    · simp only [apply]
      rw [if_neg ha, if_neg ha]
      exact give_cmds v.start _ q
  | despawn j =>
    by_cases ha : v.sat ≠ 0
    · simp only [apply, despawnSat]
      rw [if_pos ha, if_pos ha]
      exact give_cmds ({ v with sat := 0 }.offer [.complete]) _ q
    · simp only [apply, despawnSat]
      rw [if_neg ha, if_neg ha]

theorem applies_cmds (q : List Cmd) (v : View S I E) : (q.foldl (apply D k) v).cmds = v.cmds := by
  induction q generalizing v with
  | nil => rfl
  | cons c q ih =>
    rw [List.foldl_cons, ih]
    have h := congrArg View.cmds (apply_cmds (D := D) (k := k) v c v.cmds)
    exact h

theorem Ok.apply (hD : D.Contract) {c : Cmd} {r : List Cmd} (h : Ok D s k { v with cmds := c :: r }) :
    Ok D s k (View.apply D k { v with cmds := r } c) := by
  have hc := h.cnt
  have hsl := h.satle
  simp only [total] at hc hsl
  have hof := h.of_cmds c (List.mem_cons_self ..)
  have hk : v.known = true := by
    cases hk : v.known with
    | true => rfl
    | false =>
      have := (h.unknown hk).2.2.2.2.1
      simp at this
  cases c with
  | despawn j =>
    obtain rfl : j = k := by simpa [Cmd.of] using hof
    have hcore : Cmd.spawn j ∈ r → v.invokable ≠ 0 ∨ .addInvoked j ∈ v.queue ∨ ({ v with cmds := r } : View S I E).Dying j := by
      intro hr
      rcases h.link (.inr (List.mem_cons_of_mem _ hr)) with h1 | h1 | ⟨a, b, h1, h2⟩
      · exact .inl h1
      · exact .inr (.inl h1)
      · cases a with
        | nil =>
          simp only [List.nil_append, List.cons.injEq, true_and] at h1
          exact absurd (h1 ▸ hr) h2
        | cons a0 a =>
          simp only [List.cons_append, List.cons.injEq] at h1
          exact .inr (.inr ⟨a, b, h1.2, h2⟩)
    have h0 : Core D s j { v with cmds := r, sat := 0 } :=
      { hears := h.hears
        alive := h.alive
        started := h.started
        cnt := by simpa [total] using h.cnt
        open_total := fun hk ho => by simpa [total] using h.open_total hk ho
        open_cancel := h.open_cancel
        satle := Nat.zero_le _
        link := fun hh => hcore (hh.resolve_left (by simp))
        torn := fun hk hc => (h.torn hk hc).imp id (fun hd => ⟨hd.queue, hd.active, hd.invoked⟩)
        of_queue := h.of_queue
        of_cmds := fun c hc => h.of_cmds c (List.mem_cons_of_mem _ hc)
        unknown := fun hu => by simp [hk] at hu }
    simp only [View.apply, View.despawnSat]
    by_cases hs : v.sat ≠ 0
    · rw [if_pos hs]
      exact ⟨h0.offer_give hk _, .of_closed (give_dest_closed hD _ rfl)⟩
    · rw [if_neg hs]
      have hs : v.sat = 0 := by simpa using hs
      have h1 : ({ v with cmds := r } : View S I E) = { v with cmds := r, sat := 0 } := by rw [← hs]
      rw [h1]
      refine ⟨h0, fun hst ha ho => ?_, h.dead⟩
      have := h.listen hst ha ho
      simp [hs] at this
  | spawn j =>
    obtain rfl : j = k := by simpa [Cmd.of] using hof
    simp only [List.count_cons_self] at hc
    have hst : v.starts = 0 := by omega
    have hsat : v.sat = 0 := by omega
    have hr : Cmd.spawn j ∉ r := List.count_eq_zero.1 (by omega)
    have hstd : v.seen.started = false := Bool.eq_false_iff.2 (fun h4 => h.started.1 h4 hst)
    have hal : v.seen.alive = v.alive := h.alive
    have h0 : Core D s j { v with cmds := r, sat := v.sat + 1, starts := v.starts + 1, seen := { v.seen with started := true } } :=
      { hears := h.hears
        alive := h.alive
        started := by simp
        cnt := by
          have := h.cnt
          simp [total] at this ⊢
          omega
        open_total := fun hk ho => by
          have := h.open_total hk ho
          simp [total] at this ⊢
          omega
        open_cancel := h.open_cancel
        satle := by simp [hsat]
        link := fun _ => by
          rcases h.link (.inr (List.mem_cons_self ..)) with h1 | h1 | ⟨a, b, h1, h2⟩
          · exact .inl h1
          · exact .inr (.inl h1)
          · cases a with
            | nil => simp at h1
            | cons a0 a =>
              simp only [List.cons_append, List.cons.injEq] at h1
              exact .inr (.inr ⟨a, b, h1.2, h2⟩)
        torn := fun hk hc => (h.torn hk hc).imp id (fun hd => ⟨hd.queue, hd.active, hd.invoked⟩)
        of_queue := h.of_queue
        of_cmds := fun c hc => h.of_cmds c (List.mem_cons_of_mem _ hc)
        unknown := fun hu => by simp [hk] at hu }
    simp only [View.apply]
    by_cases ha : v.alive = true
    · rw [if_pos ha]
      have h1 : ({ v with cmds := r } : View S I E).start =
          { v with cmds := r, sat := v.sat + 1, starts := v.starts + 1, seen := { v.seen with started := true } } := by
        simp [start, hal, ha]
      rw [h1]
      exact ⟨h0, fun _ _ _ => by simp [hsat], fun _ hd => by simp [ha] at hd⟩
    · rw [if_neg ha]
      have h1 : ({ v with cmds := r } : View S I E).start = View.offer [.complete]
          { v with cmds := r, sat := v.sat + 1, starts := v.starts + 1, seen := { v.seen with started := true } } := by
        simp [start, View.offer, hal, ha]
      rw [h1]
      exact ⟨h0.offer_give hk _, .of_closed (give_dest_closed hD _ rfl)⟩

theorem Ok.applies (hD : D.Contract) (q : List Cmd) (h : Ok D s k { v with cmds := q }) :
    Ok D s k (q.foldl (View.apply D k) { v with cmds := [] }) := by
  induction q generalizing v with
  | nil => exact h
  | cons c q ih =>
    have h1 := h.apply hD
    rw [apply_cmds] at h1
    have h2 := ih h1
    rw [List.foldl_cons, apply_cmds]
    exact h2

theorem Ok.flush (hD : D.Contract) (h : Ok D s k v) :
    Ok D s k (v.cmds.foldl (View.apply D k) { v with cmds := [] }) := Ok.applies hD v.cmds h

theorem Ok.step (hD : D.Contract) {op : Op I} {v' : View S I E} (hs : Step D k op v v') (h : Ok D s k v) : Ok D s k v' := by
  cases hs with
  | same => exact h
  | born => exact h.born
  | doomed => exact h.doomed hD
  | event _ _ _ ha => exact h.event _ ha
  | unsubscribe _ hk => exact ⟨h.toCore.offer_give hk _, .of_closed (give_dest_closed hD _ rfl)⟩
  | kill => exact h.despawnSat hD
  | drain => exact h.drain
  | work => exact h.work
  | reap => exact h.reap
  | flush => exact h.flush hD

/-! ### After the subscription has closed -/

theorem closed_give (hc : D.isClosed v.dest = true) (n : SubscriberNotification I E) (j : Nat) :
    times (View.give D k n) j v = v := by
  induction j with
  | zero => rfl
  | succ j ih => rw [times, give_closed hc, ih]

/-- What a step may change once the destination is closed. -/
theorem closed_apply (hc : D.isClosed v.dest = true) (c : Cmd) :
    ∃ n m x, View.apply D k v c = { v with sat := n, starts := m, seen := x } := by
  cases c with
  | spawn j =>
    simp only [View.apply]
    split
    · exact ⟨_, _, _, rfl⟩
    · rw [give_closed (v := v.start) hc]
      exact ⟨_, _, _, rfl⟩
  | despawn j =>
    simp only [View.apply, View.despawnSat]
    split
    · rw [give_closed (v := View.offer [.complete] { v with sat := 0 }) hc]
      exact ⟨0, v.starts, _, rfl⟩
    · exact ⟨v.sat, v.starts, v.seen, rfl⟩

theorem closed_applies (q : List Cmd) : ∀ (v : View S I E), D.isClosed v.dest = true →
    ∃ n m x, q.foldl (View.apply D k) v = { v with sat := n, starts := m, seen := x } := by
  induction q with
  | nil => exact fun v _ => ⟨v.sat, v.starts, v.seen, rfl⟩
  | cons c q ih =>
    intro v hc
    obtain ⟨n, m, x, h1⟩ := closed_apply (k := k) hc c
    rw [List.foldl_cons, h1]
    obtain ⟨n2, m2, x2, h2⟩ := ih { v with sat := n, starts := m, seen := x } hc
    exact ⟨n2, m2, x2, h2⟩

/-- Once the executor has received the teardown's actions, that stays so. -/
theorem Drained.step {op : Op I} {v' : View S I E} (hs : Step D k op v v') (hc : D.isClosed v.dest = true) (h : v.Drained) :
    v'.Drained ∧ D.isClosed v'.dest = true ∧ (op = .reap → v'.Reaped) ∧ (v.Reaped → v'.Reaped) := by
  cases hs with
  | same => exact ⟨h, hc, fun hh => (by simp_all), id⟩
  | born => exact ⟨h, hc, (by simp), id⟩
  | doomed =>
    rw [closed_give (v := v.doomed) hc]
    exact ⟨h, hc, (by simp), id⟩
  | event =>
    rw [closed_give (v := v.offer _) hc]
    exact ⟨h, hc, (by simp), id⟩
  | unsubscribe =>
    rw [give_closed (v := v.offer _) hc]
    exact ⟨h, hc, (by simp), id⟩
  | kill =>
    unfold View.despawnSat
    split
    · rw [give_closed (v := View.offer [.complete] { v with sat := 0 }) hc]
      exact ⟨h, hc, (by simp), id⟩
    · exact ⟨h, hc, (by simp), id⟩
  | drain =>
    rw [h.queue]
    exact ⟨⟨rfl, h.active, h.invoked⟩, hc, (by simp), fun hr => ⟨rfl, hr.2⟩⟩
  | work =>
    unfold View.work
    rw [if_neg (by simp [h.active])]
    exact ⟨h, hc, (by simp), id⟩
  | reap =>
    rw [reap_eq]
    have h1 : (if v.invoked = 0 then v else v.runInvoked k).queue = [] ∧ (if v.invoked = 0 then v else v.runInvoked k).active = 0 ∧
        (if v.invoked = 0 then v else v.runInvoked k).invokable = 0 ∧
        D.isClosed (if v.invoked = 0 then v else v.runInvoked k).dest = true := by
      split
      · rename_i h0
        exact ⟨h.queue, h.active, h.invoked.resolve_left (by simp [h0]), hc⟩
      · refine ⟨?_, ?_, runInvoked_invokable v, ?_⟩ <;> unfold View.runInvoked <;> split
        · exact h.queue
        · exact h.queue
        · exact h.active
        · exact h.active
        · exact hc
        · exact hc
    exact ⟨⟨h1.1, h1.2.1, .inr h1.2.2.1⟩, h1.2.2.2, fun _ => ⟨h1.1, h1.2.1, rfl, h1.2.2.1⟩, fun _ => ⟨h1.1, h1.2.1, rfl, h1.2.2.1⟩⟩
  | flush =>
    obtain ⟨n, m, x, h1⟩ := closed_applies (D := D) (k := k) v.cmds { v with cmds := [] } hc
    rw [h1]
    exact ⟨h, hc, (by simp), id⟩

/-- Once closed, closed. -/
theorem closed_step {op : Op I} {v' : View S I E} (hs : Step D k op v v') (hc : D.isClosed v.dest = true) :
    D.isClosed v'.dest = true := by
  cases hs with
  | same => exact hc
  | born => exact hc
  | doomed =>
    rw [closed_give (v := v.doomed) hc]
    exact hc
  | event =>
    rw [closed_give (v := v.offer _) hc]
    exact hc
  | unsubscribe =>
    rw [give_closed (v := v.offer _) hc]
    exact hc
  | kill =>
    unfold View.despawnSat
    split
    · rw [give_closed (v := View.offer [.complete] { v with sat := 0 }) hc]
      exact hc
    · exact hc
  | drain =>
    have : ∀ (q : List Act) (u : View S I E), (q.foldl act u).dest = u.dest := by
      intro q
      induction q with
      | nil => exact fun _ => rfl
      | cons a q ih =>
        intro u
        rw [List.foldl_cons, ih]
        cases a <;> rfl
    rw [this]
    exact hc
  | work =>
    unfold View.work
    split
    · exact hc
    · exact hc
  | reap =>
    rw [reap_eq]
    have : (if v.invoked = 0 then v else v.runInvoked k).dest = v.dest := by
      split
      · rfl
      · unfold View.runInvoked
        split <;> rfl
    simp only [this]
    exact hc
  | flush =>
    obtain ⟨n, m, x, h1⟩ := closed_applies (D := D) (k := k) v.cmds { v with cmds := [] } hc
    rw [h1]
    exact hc

/-! ### Before it starts -/

theorem give_queue (n : SubscriberNotification I E) (v : View S I E) (h : Act.add k ∈ (v.give D k n).queue) :
    Act.add k ∈ v.queue := by
  unfold View.give at h
  split at h
  · exact h
  · rcases List.mem_append.1 h with h | h
    · exact h
    · split at h
      · simp [teardown] at h
      · simp at h

theorem times_give_queue (n : SubscriberNotification I E) (j : Nat) (v : View S I E)
    (h : Act.add k ∈ (times (View.give D k n) j v).queue) : Act.add k ∈ v.queue := by
  induction j generalizing v with
  | zero => exact h
  | succ j ih => exact give_queue n v (ih _ h)

theorem apply_queue (v : View S I E) (c : Cmd) (h : Act.add k ∈ (View.apply D k v c).queue) : Act.add k ∈ v.queue := by
  cases c with
  | spawn j =>
    simp only [View.apply] at h
    split at h
    · exact h
    · exact give_queue _ v.start h
  | despawn j =>
    simp only [View.apply, View.despawnSat] at h
    split at h
    · exact give_queue _ (View.offer [.complete] { v with sat := 0 }) h
    · exact h

theorem applies_queue (q : List Cmd) (v : View S I E) (h : Act.add k ∈ (q.foldl (View.apply D k) v).queue) :
    Act.add k ∈ v.queue := by
  induction q generalizing v with
  | nil => exact h
  | cons c q ih => exact apply_queue v c (ih _ h)

theorem acts_queue (q : List Act) (v : View S I E) : (q.foldl act v).queue = v.queue := by
  induction q generalizing v with
  | nil => rfl
  | cons a q ih =>
    rw [List.foldl_cons, ih]
    cases a <;> rfl

theorem step_queue {op : Op I} {v' : View S I E} (hs : Step D k op v v') (h : Act.add k ∈ v'.queue) :
    Act.add k ∈ v.queue := by
  cases hs with
  | same => exact h
  | born => exact h
  | doomed => exact times_give_queue _ _ v.doomed h
  | event => exact times_give_queue _ _ (v.offer _) h
  | unsubscribe => exact give_queue _ (v.offer _) h
  | kill => exact apply_queue v (.despawn k) h
  | drain =>
    rw [acts_queue] at h
    simp at h
  | work =>
    unfold View.work at h
    split at h
    · simpa using h
    · exact h
  | reap =>
    rw [reap_eq] at h
    have : (if v.invoked = 0 then v else v.runInvoked k).queue = v.queue := by
      split
      · rfl
      · unfold View.runInvoked
        split <;> rfl
    simpa [this] using h
  | flush => exact applies_queue v.cmds { v with cmds := [] } h

theorem drain_queue {v' : View S I E} (hs : Step D k .drain v v') : v'.queue = [] := by
  cases hs with
  | same _ _ h => exact absurd rfl h
  | drain => exact acts_queue _ _

theorem give_active (n : SubscriberNotification I E) (v : View S I E) : (v.give D k n).active = v.active := by
  unfold View.give
  split <;> rfl

theorem times_give_active (n : SubscriberNotification I E) (j : Nat) (v : View S I E) :
    (times (View.give D k n) j v).active = v.active := by
  induction j generalizing v with
  | zero => rfl
  | succ j ih => rw [times, ih, give_active]

theorem apply_active (v : View S I E) (c : Cmd) : (View.apply D k v c).active = v.active := by
  cases c with
  | spawn j =>
    simp only [View.apply]
    split
    · rfl
    · rw [give_active]
      rfl
  | despawn j =>
    simp only [View.apply, View.despawnSat]
    split
    · rw [give_active]
      rfl
    · rfl

theorem applies_active (q : List Cmd) (v : View S I E) : (q.foldl (View.apply D k) v).active = v.active := by
  induction q generalizing v with
  | nil => rfl
  | cons c q ih => rw [List.foldl_cons, ih, apply_active]

theorem step_active {op : Op I} {v' : View S I E} (hs : Step D k op v v') (hq : ∀ a ∈ v.queue, a.of k = true)
    (hn : Act.add k ∉ v.queue) (h : v.active = 0) : v'.active = 0 := by
  cases hs with
  | same => exact h
  | born => exact h
  | doomed => rw [times_give_active]; exact h
  | event => rw [times_give_active]; exact h
  | unsubscribe => rw [give_active]; exact h
  | kill => exact (apply_active v (.despawn k)).trans h
  | drain =>
    obtain ⟨n, h1, h2, _⟩ := acts_eq v.queue { v with queue := [] } hq
    rw [h1]
    rw [List.count_eq_zero.2 hn] at h2
    simp only at h2 ⊢
    omega
  | work =>
    unfold View.work
    split
    · rfl
    · exact h
  | reap =>
    rw [reap_eq]
    have : (if v.invoked = 0 then v else v.runInvoked k).active = v.active := by
      split
      · rfl
      · unfold View.runInvoked
        split <;> rfl
    simp only [this]
    exact h
  | flush => rw [applies_active]; exact h

theorem work_active {v' : View S I E} (hs : Step D k (.work k) v v') : v'.active = 0 := by
  cases hs with
  | same _ _ _ _ _ h => exact absurd rfl h
  | work =>
    unfold View.work
    split
    · rfl
    · rename_i h
      simpa using h

theorem flush_cmds {v' : View S I E} (hs : Step D k .flush v v') : v'.cmds = [] := by
  cases hs with
  | same _ _ _ _ h => exact absurd rfl h
  | flush => exact applies_cmds _ _

end View

/-! ### Runs -/

theorem seen_fresh (k e : Nat) (tr : List (Mark I E)) (h1 : (seen k e tr).offers = []) (h2 : starts k tr = 0) (f : Nat) :
    (seen k f tr).offers = [] ∧ (seen k f tr).started = false := by
  induction tr using Rx.snoc_induction with
  | nil => exact ⟨rfl, rfl⟩
  | snoc tr m ih =>
    rw [seen_snoc] at h1 ⊢
    rw [starts_snoc] at h2
    have h3 : (seen k e tr).offers = [] := by
      cases m <;> simp only [Seen.see] at h1 <;> try split at h1
      all_goals simp_all
    obtain ⟨h4, h5⟩ := ih h3 (by omega)
    cases m <;> simp only [Seen.see] at h1 ⊢ <;> try split
    all_goals try simp_all [starts]

/-- What the history says of which entities exist. -/
def Lives (w : World S I E) : Prop := ∀ k e, (seen k e w.trace).alive = w.alive e

theorem Lives.give {w : World S I E} (h : Lives w) (n : SubscriberNotification I E) (j : Nat) : Lives (w.give D n j) := by
  unfold World.give
  split
  · exact h
  · intro k e
    simp only [seen_snoc]
    exact h k e

theorem Lives.gives (n : SubscriberNotification I E) (l : List Nat) (w : World S I E) (h : Lives w) :
    Lives (l.foldl (World.give D n) w) := by
  induction l generalizing w with
  | nil => exact h
  | cons j l ih => exact ih _ (h.give n j)

theorem Lives.despawnSat {w : World S I E} (h : Lives w) (j : Nat) : Lives (w.despawnSat D j) := by
  unfold World.despawnSat
  split
  · apply Lives.give
    intro k e
    simp only [seen_snoc, Seen.see]
    split <;> exact h k e
  · exact h

theorem Lives.apply {w : World S I E} (h : Lives w) (c : Cmd) : Lives (w.apply D c) := by
  cases c with
  | spawn j =>
    have h1 : Lives { w with sats := w.sats ++ [j], trace := w.trace ++ [.started j] } := by
      intro k e
      simp only [seen_snoc, Seen.see]
      split <;> exact h k e
    simp only [World.apply]
    split
    · exact h1
    · exact h1.give _ _
  | despawn j => exact h.despawnSat j

theorem Lives.foldl {α : Type} (f : World S I E → α → World S I E) (hf : ∀ w a, Lives w → Lives (f w a)) (l : List α)
    (w : World S I E) (h : Lives w) : Lives (l.foldl f w) := by
  induction l generalizing w with
  | nil => exact h
  | cons a l ih => exact ih _ (hf w a h)

theorem Lives.step {w : World S I E} (h : Lives w) (op : Op I) : Lives (w.step D op) := by
  cases op with
  | spawn =>
    intro k e
    simp only [World.step, seen_snoc, Seen.see, set]
    by_cases he : w.next = e
    · simp [he]
    · rw [if_neg he, if_neg (fun hh => he hh.symm)]
      exact h k e
  | despawn e =>
    simp only [World.step]
    split
    · apply Lives.gives
      intro k f
      simp only [seen_snoc, Seen.see, set]
      by_cases he : e = f
      · simp [he]
      · rw [if_neg he, if_neg (fun hh => he hh.symm)]
        exact h k f
    · exact h
  | trigger e x =>
    simp only [World.step]
    split
    · apply Lives.gives
      intro k f
      simp only [seen_snoc, Seen.see]
      split <;> exact h k f
    · exact h
  | subscribe e =>
    intro k f
    simp only [World.step, seen_snoc, Seen.see]
    exact h k f
  | unsubscribe j =>
    simp only [World.step]
    split
    · apply Lives.give
      intro k f
      simp only [seen_snoc, Seen.see]
      split <;> exact h k f
    · exact h
  | kill j => exact h.despawnSat j
  | drain =>
    refine Lives.foldl _ (fun w a hw => ?_) _ _ h
    cases a <;> exact hw
  | work j =>
    simp only [World.step]
    split <;> exact h
  | reap =>
    refine Lives.foldl _ (fun w a hw => ?_) _ _ h
    unfold World.runInvoked
    split <;> exact hw
  | flush => exact Lives.foldl _ (fun w a hw => hw.apply a) _ _ h

/-- The subscriptions there are. -/
def Subs (w : World S I E) : Prop := ∀ k e, Mark.subscribed k e ∈ w.trace → k < w.size ∧ w.target k = e

theorem Subs.give {w : World S I E} (h : Subs w) (n : SubscriberNotification I E) (j : Nat) : Subs (w.give D n j) := by
  unfold World.give
  split
  · exact h
  · intro k e hm
    exact h k e (by simpa using hm)

theorem Subs.foldl {α : Type} (f : World S I E → α → World S I E) (hf : ∀ w a, Subs w → Subs (f w a)) (l : List α)
    (w : World S I E) (h : Subs w) : Subs (l.foldl f w) := by
  induction l generalizing w with
  | nil => exact h
  | cons a l ih => exact ih _ (hf w a h)

theorem Subs.despawnSat {w : World S I E} (h : Subs w) (j : Nat) : Subs (w.despawnSat D j) := by
  unfold World.despawnSat
  split
  · apply Subs.give
    intro k e hm
    exact h k e (by simpa using hm)
  · exact h

theorem Subs.apply {w : World S I E} (h : Subs w) (c : Cmd) : Subs (w.apply D c) := by
  cases c with
  | spawn j =>
    have h1 : Subs { w with sats := w.sats ++ [j], trace := w.trace ++ [.started j] } := by
      intro k e hm
      exact h k e (by simpa using hm)
    simp only [World.apply]
    split
    · exact h1
    · exact h1.give _ _
  | despawn j => exact h.despawnSat j

theorem Subs.step {w : World S I E} (h : Subs w) (op : Op I) : Subs (w.step D op) := by
  cases op with
  | spawn => exact fun k e hm => h k e (by simpa [World.step] using hm)
  | despawn e =>
    simp only [World.step]
    split
    · refine Subs.foldl _ (fun w a hw => hw.give _ a) _ _ ?_
      exact fun k e hm => h k e (by simpa using hm)
    · exact h
  | trigger e x =>
    simp only [World.step]
    split
    · refine Subs.foldl _ (fun w a hw => hw.give _ a) _ _ ?_
      exact fun k e hm => h k e (by simpa using hm)
    · exact h
  | subscribe e =>
    intro k f hm
    simp only [World.step, List.mem_append, List.mem_cons, List.not_mem_nil, or_false, Mark.subscribed.injEq] at hm
    simp only [World.step, set]
    rcases hm with hm | ⟨rfl, rfl⟩
    · obtain ⟨h1, h2⟩ := h k f hm
      exact ⟨by omega, by rw [if_neg (by omega)]; exact h2⟩
    · exact ⟨by omega, by simp⟩
  | unsubscribe j =>
    simp only [World.step]
    split
    · apply Subs.give
      exact fun k e hm => h k e (by simpa using hm)
    · exact h
  | kill j => exact h.despawnSat j
  | drain =>
    refine Subs.foldl _ (fun w a hw => ?_) _ _ h
    cases a <;> exact hw
  | work j =>
    simp only [World.step]
    split <;> exact h
  | reap =>
    refine Subs.foldl _ (fun w a hw => ?_) _ _ h
    unfold World.runInvoked
    split <;> exact hw
  | flush => exact Subs.foldl _ (fun w a hw => hw.apply a) _ _ h

theorem ok_subscribe {w : World S I E} (hl : Lives w) (e : Nat) (h : View.Ok D s w.size (view w.size w)) :
    View.Ok D s w.size (view w.size (w.step D (.subscribe e))) := by
  have hu : (view w.size w).known = false := by
    rw [Bool.eq_false_iff]
    intro hh
    simp [view] at hh
  obtain ⟨g1, g2, g3, g4, g5, g6, g7⟩ := h.unknown hu
  have hsat : (view w.size w).sat = 0 := by
    have := h.satle
    omega
  obtain ⟨f1, f2⟩ := seen_fresh w.size _ w.trace g7 g6 e
  have hh : (given w.size w.trace, w.dest w.size) = ([], s) := by
    have := h.hears
    rw [g7] at this
    exact this
  simp only [Prod.mk.injEq] at hh
  have hv : view w.size (w.step D (.subscribe e)) = { view w.size w with
      known := true
      alive := w.alive e
      queue := .add w.size :: (if D.isClosed s then teardown w.size else [])
      seen := { alive := w.alive e } } := by
    have h3 : seen w.size e w.trace = { alive := w.alive e } := by
      have := hl w.size e
      cases hx : seen w.size e w.trace with
      | mk st al of =>
        rw [hx] at f1 f2 this
        simp only at f1 f2 this
        rw [f1, f2, this]
    have h4 : (if D.isClosed (w.dest w.size) = true then teardown w.size else []).filter (·.of w.size)
        = if D.isClosed s = true then teardown w.size else [] := by
      rw [hh.2]
      split
      · exact teardown_filter_self _
      · rfl
    have g1' : w.queue.filter (·.of w.size) = [] := g1
    simp only [World.step, view, List.filter_append]
    rw [List.filter_cons_of_pos (by simp [Act.of]), h4, g1']
    simp [set, seen_snoc, Seen.see, given, starts, h3]
  rw [hv]
  have hd : (view w.size w).dest = s := hh.2
  have hg : (view w.size w).given = [] := hh.1
  constructor
  · constructor
    · simp [hd, hg, takes]
    · rfl
    · simp [g6]
    · simp only [View.total, g2, g5, g6]
      split <;> simp [teardown]
    · intro _ ho
      have ho : D.isClosed s = false := hd ▸ ho
      simp [View.total, g2, g5, g6, ho]
    · intro ho
      have ho : D.isClosed s = false := hd ▸ ho
      simp [ho]
    · exact h.satle
    · rintro (hh | hh)
      · exact absurd hsat hh
      · simp [g5] at hh
    · intro _ hc
      have hc : D.isClosed s = true := hd ▸ hc
      left
      refine ⟨by simp [hc, teardown], [.add w.size, .invoke w.size], [], by simp [hc, teardown], by simp⟩
    · intro a ha
      simp only [List.mem_cons] at ha
      rcases ha with rfl | ha
      · simp [Act.of]
      · split at ha
        · simp only [teardown, List.mem_cons, List.not_mem_nil, or_false] at ha
          rcases ha with rfl | rfl <;> simp [Act.of]
        · simp at ha
    · exact h.of_cmds
    · simp
  · exact ⟨fun hh => absurd g6 hh, fun hh => absurd g6 hh⟩

theorem view_init (s : Nat → S) (k : Nat) : View.Ok D (s k) k (view k (World.init (I := I) (E := E) s)) := by
  refine ⟨⟨rfl, rfl, by simp [view, World.init, seen, starts], by simp [view, World.init, View.total, starts], ?_, by simp [view, World.init],
    by simp [view, World.init], by simp [view, World.init], ?_, by simp [view, World.init], by simp [view, World.init],
    by simp [view, World.init, starts, seen]⟩, ?_, ?_⟩
  · intro hh
    simp [view, World.init, Nat.blt] at hh
  · intro hh
    simp [view, World.init, Nat.blt] at hh
  · intro hh
    simp [view, World.init, starts] at hh
  · intro hh
    simp [view, World.init, starts] at hh

theorem run_snoc (w : World S I E) (l : List (Op I)) (op : Op I) : w.run D (l ++ [op]) = (w.run D l).step D op := by
  simp [World.run]

theorem run_append (w : World S I E) (l r : List (Op I)) : w.run D (l ++ r) = (w.run D l).run D r := by
  simp [World.run]

theorem run_ok (hD : D.Contract) (s : Nat → S) (l : List (Op I)) :
    Lives ((World.init s : World S I E).run D l) ∧
      ∀ k, View.Ok D (s k) k (view k ((World.init s : World S I E).run D l)) := by
  induction l using Rx.snoc_induction with
  | nil => exact ⟨fun _ _ => rfl, view_init s⟩
  | snoc l op ih =>
    rw [run_snoc]
    refine ⟨ih.1.step op, fun k => ?_⟩
    by_cases h : ∃ e, op = .subscribe e ∧ ((World.init s : World S I E).run D l).size = k
    · obtain ⟨e, rfl, rfl⟩ := h
      exact ok_subscribe ih.1 e (ih.2 _)
    · exact (ih.2 k).step hD (view_step k _ op (fun e he hk => h ⟨e, he, hk⟩))

theorem run_subs (D : Dest S I E) (s : Nat → S) (l : List (Op I)) : Subs ((World.init s : World S I E).run D l) := by
  induction l using Rx.snoc_induction with
  | nil => exact fun k e hm => by simp [World.run, World.init] at hm
  | snoc l op ih =>
    rw [run_snoc]
    exact ih.step op

theorem View.step_known {op : Op I} {v v' : View S I E} (hs : View.Step D k op v v') : v'.known = v.known := by
  have hg : ∀ (n : SubscriberNotification I E) (v : View S I E), (v.give D k n).known = v.known := by
    intro n v
    unfold View.give
    split <;> rfl
  have ht : ∀ (n : SubscriberNotification I E) (j : Nat) (v : View S I E), (times (View.give D k n) j v).known = v.known := by
    intro n j
    induction j with
    | zero => exact fun _ => rfl
    | succ j ih => exact fun v => by rw [times, ih, hg]
  have ha : ∀ (v : View S I E) (c : Cmd), (View.apply D k v c).known = v.known := by
    intro v c
    cases c with
    | spawn j =>
      simp only [View.apply]
      split
      · rfl
      · rw [hg]; rfl
    | despawn j =>
      simp only [View.apply, View.despawnSat]
      split
      · rw [hg]; rfl
      · rfl
  cases hs with
  | same => rfl
  | born => rfl
  | doomed => rw [ht]; rfl
  | event => rw [ht]; rfl
  | unsubscribe => rw [hg]; rfl
  | kill => exact ha v (.despawn k)
  | drain =>
    have : ∀ (q : List Act) (u : View S I E), (q.foldl View.act u).known = u.known := by
      intro q
      induction q with
      | nil => exact fun _ => rfl
      | cons a q ih =>
        intro u
        rw [List.foldl_cons, ih]
        cases a <;> rfl
    rw [this]
  | work =>
    unfold View.work
    split <;> rfl
  | reap =>
    rw [View.reap_eq]
    have : (if v.invoked = 0 then v else v.runInvoked k).known = v.known := by
      split
      · rfl
      · unfold View.runInvoked
        split <;> rfl
    simp only [this]
  | flush =>
    have : ∀ (q : List Cmd) (u : View S I E), (q.foldl (View.apply D k) u).known = u.known := by
      intro q
      induction q with
      | nil => exact fun _ => rfl
      | cons a q ih =>
        intro u
        rw [List.foldl_cons, ih, ha]
    rw [this]

/-- The view of a subscription that has been made goes on by steps. -/
theorem known_step {w : World S I E} {k : Nat} (hk : k < w.size) (op : Op I) :
    View.Step D k op (view k w) (view k (w.step D op)) ∧ k < (w.step D op).size := by
  have h1 := view_step (D := D) k w op (fun _ _ => by omega)
  refine ⟨h1, ?_⟩
  have hv : (view k w).known = true := by simpa [view] using hk
  have h2 := (View.step_known h1).trans hv
  simpa [view] using h2

/-- What every step keeps, a run keeps. -/
theorem run_keeps {P : View S I E → Prop} {k : Nat} (hP : ∀ op v v', View.Step D k op v v' → P v → P v')
    (l : List (Op I)) (w : World S I E) (hk : k < w.size) (h : P (view k w)) :
    P (view k (w.run D l)) ∧ k < (w.run D l).size := by
  induction l generalizing w with
  | nil => exact ⟨h, hk⟩
  | cons op l ih =>
    have h1 := known_step (D := D) hk op
    exact ih _ h1.2 (hP op _ _ h1.1 h)

/-! ### What an open subscription is offered -/

theorem takes_open (D : Dest S I E) (hD : D.Contract) (s : S) (l : List (SubscriberNotification I E))
    (h : D.isClosed (takes D s l).2 = false) : (takes D s l).1 = l ∧ ∀ n ∈ l, n.isClosing = false := by
  induction l generalizing s with
  | nil => exact ⟨rfl, by simp⟩
  | cons n l ih =>
    simp only [takes] at h ⊢
    by_cases hc : D.isClosed s = true
    · rw [if_pos hc] at h
      simp [hc] at h
    · rw [if_neg hc] at h ⊢
      obtain ⟨h1, h2⟩ := ih _ h
      refine ⟨by simp only [h1], ?_⟩
      intro m hm
      rcases List.mem_cons.1 hm with rfl | hm
      · cases hn : m.isClosing with
        | false => rfl
        | true =>
          have h3 := hD.closes s m hn
          rw [takes_closed D h3] at h
          simp [h3] at h
      · exact h2 m hm

theorem see_offers (k e : Nat) (x : Seen I E) (m : Mark I E) :
    ∃ ns, (x.see k e m).offers = x.offers ++ ns := by
  cases m <;> simp only [Seen.see] <;> try split
  all_goals first
    | exact ⟨_, rfl⟩
    | exact ⟨[], by simp⟩

theorem sees_offers (k e : Nat) (tr : List (Mark I E)) (x : Seen I E) :
    ∃ ns, (tr.foldl (Seen.see k e) x).offers = x.offers ++ ns := by
  induction tr generalizing x with
  | nil => exact ⟨[], by simp⟩
  | cons m tr ih =>
    obtain ⟨a, ha⟩ := see_offers k e x m
    obtain ⟨b, hb⟩ := ih (x.see k e m)
    exact ⟨a ++ b, by rw [List.foldl_cons, hb, ha, List.append_assoc]⟩

theorem see_started (k e : Nat) (x : Seen I E) (m : Mark I E) (h : x.started = true) : (x.see k e m).started = true := by
  cases m <;> simp only [Seen.see] <;> try split
  all_goals simp [h]

theorem no_closing {l : List (SubscriberNotification I E)} (h : ∀ n ∈ l, n.isClosing = false) (c : SubscriberNotification I E)
    (hc : c.isClosing = true) (hm : c ∈ l) : False := by
  rw [h c hm] at hc
  cases hc

/-- From the start on. -/
theorem sees_events (k e : Nat) (b : List (Mark I E)) (x : Seen I E) (hs : x.started = true)
    (h : ∀ n ∈ (b.foldl (Seen.see k e) x).offers, n.isClosing = false) :
    (b.foldl (Seen.see k e) x).offers = x.offers ++ (eventsOf e b).map .next := by
  induction b generalizing x with
  | nil => simp [eventsOf]
  | cons m b ih =>
    rw [List.foldl_cons] at h ⊢
    rw [ih _ (see_started k e x m hs) h]
    obtain ⟨ns, hns⟩ := sees_offers k e b (x.see k e m)
    have h2 : ∀ n ∈ (x.see k e m).offers, n.isClosing = false := by
      intro n hn
      exact h n (by rw [hns]; exact List.mem_append_left _ hn)
    cases m with
    | triggered f v =>
      simp only [Seen.see, hs, and_true]
      by_cases hf : f = e
      · subst hf
        simp [eventsOf]
      · simp [hf, eventsOf]
    | spawned f =>
      simp only [Seen.see, eventsOf, List.filterMap_cons]
      split <;> rfl
    | despawned f =>
      by_cases hf : f = e
      · refine (no_closing h2 .complete rfl ?_).elim
        simp [Seen.see, hf, hs]
      · simp [Seen.see, hf, eventsOf]
    | started j =>
      by_cases hj : j = k
      · cases ha : x.alive with
        | false =>
          refine (no_closing h2 .complete rfl ?_).elim
          simp [Seen.see, hj, ha]
        | true => simp [Seen.see, hj, ha, eventsOf]
      · simp [Seen.see, hj, eventsOf]
    | gone j =>
      by_cases hj : j = k
      · refine (no_closing h2 .complete rfl ?_).elim
        simp [Seen.see, hj]
      · simp [Seen.see, hj, eventsOf]
    | unsubscribed j =>
      by_cases hj : j = k
      · refine (no_closing h2 .unsubscribe rfl ?_).elim
        simp [Seen.see, hj]
      · simp [Seen.see, hj, eventsOf]
    | subscribed j f => rfl
    | give j n => rfl

/-- Before the start. -/
theorem seen_before (k e : Nat) (a : List (Mark I E)) (h0 : starts k a = 0)
    (h : ∀ n ∈ (seen k e a).offers, n.isClosing = false) :
    (seen k e a).offers = [] ∧ (seen k e a).started = false := by
  induction a using Rx.snoc_induction with
  | nil => exact ⟨rfl, rfl⟩
  | snoc a m ih =>
    rw [seen_snoc] at h ⊢
    rw [starts_snoc] at h0
    obtain ⟨ns, hns⟩ := see_offers k e (seen k e a) m
    obtain ⟨h1, h2⟩ := ih (by omega) (fun n hn => h n (by rw [hns]; exact List.mem_append_left _ hn))
    cases m with
    | spawned f =>
      simp only [Seen.see]
      split <;> exact ⟨h1, h2⟩
    | despawned f =>
      simp only [Seen.see]
      split
      · simp [h1, h2]
      · exact ⟨h1, h2⟩
    | triggered f v => simp [Seen.see, h1, h2]
    | started j =>
      by_cases hj : j = k
      · subst hj
        simp [starts] at h0
      · simp [Seen.see, hj, h1, h2]
    | gone j =>
      by_cases hj : j = k
      · refine (no_closing h .complete rfl ?_).elim
        simp [Seen.see, hj]
      · simp [Seen.see, hj, h1, h2]
    | unsubscribed j =>
      by_cases hj : j = k
      · refine (no_closing h .unsubscribe rfl ?_).elim
        simp [Seen.see, hj]
      · simp [Seen.see, hj, h1, h2]
    | subscribed j f => exact ⟨h1, h2⟩
    | give j n => exact ⟨h1, h2⟩

theorem starts_mem {k : Nat} {tr : List (Mark I E)} : starts k tr ≠ 0 ↔ Mark.started k ∈ tr := by
  unfold starts
  rw [← Nat.pos_iff_ne_zero, List.countP_pos_iff]
  constructor
  · rintro ⟨m, hm, h⟩
    cases m <;> simp at h
    subst h
    exact hm
  · intro h
    exact ⟨_, h, by simp⟩

/-- The trace only grows. -/
theorem step_trace (w : World S I E) (op : Op I) : ∃ t, (w.step D op).trace = w.trace ++ t := by
  have hg : ∀ (n : SubscriberNotification I E) (w : World S I E) (j : Nat), ∃ t, (w.give D n j).trace = w.trace ++ t := by
    intro n w j
    unfold World.give
    split
    · exact ⟨[], by simp⟩
    · exact ⟨_, rfl⟩
  have hf : ∀ {α : Type} (f : World S I E → α → World S I E), (∀ w a, ∃ t, (f w a).trace = w.trace ++ t) →
      ∀ (l : List α) (w : World S I E), ∃ t, (l.foldl f w).trace = w.trace ++ t := by
    intro α f h l
    induction l with
    | nil => exact fun w => ⟨[], by simp⟩
    | cons a l ih =>
      intro w
      obtain ⟨t1, h1⟩ := h w a
      obtain ⟨t2, h2⟩ := ih (f w a)
      exact ⟨t1 ++ t2, by rw [List.foldl_cons, h2, h1, List.append_assoc]⟩
  have hd : ∀ (w : World S I E) (j : Nat), ∃ t, (w.despawnSat D j).trace = w.trace ++ t := by
    intro w j
    unfold World.despawnSat
    split
    · obtain ⟨t, ht⟩ := hg .complete { w with sats := w.sats.filter (· ≠ j), trace := w.trace ++ [.gone j] } j
      exact ⟨_, by rw [ht, List.append_assoc]⟩
    · exact ⟨[], by simp⟩
  cases op with
  | spawn => exact ⟨_, rfl⟩
  | despawn e =>
    simp only [World.step]
    split
    · obtain ⟨t, ht⟩ := hf (World.give D .complete) (hg _) (w.sats.filter (w.target · = e)) { w with
          alive := set w.alive e false
          sats := w.sats.filter (w.target · ≠ e)
          trace := w.trace ++ [.despawned e] }
      exact ⟨_, by rw [ht, List.append_assoc]⟩
    · exact ⟨[], by simp⟩
  | trigger e x =>
    simp only [World.step]
    split
    · obtain ⟨t, ht⟩ := hf (World.give D (.next x)) (hg _) (w.sats.filter (w.target · = e))
        { w with trace := w.trace ++ [.triggered e x] }
      exact ⟨_, by rw [ht, List.append_assoc]⟩
    · exact ⟨[], by simp⟩
  | subscribe e => exact ⟨_, rfl⟩
  | unsubscribe j =>
    simp only [World.step]
    split
    · obtain ⟨t, ht⟩ := hg .unsubscribe { w with trace := w.trace ++ [.unsubscribed j] } j
      exact ⟨_, by rw [ht, List.append_assoc]⟩
    · exact ⟨[], by simp⟩
  | kill j => exact hd w j
  | drain =>
    refine hf _ (fun w a => ⟨[], ?_⟩) w.queue { w with queue := [] }
    cases a <;> simp [World.act]
  | work j =>
    simp only [World.step]
    split <;> exact ⟨[], by simp⟩
  | reap =>
    refine hf _ (fun w a => ⟨[], ?_⟩) w.invoked { w with invoked := [] }
    unfold World.runInvoked
    split <;> simp
  | flush =>
    refine hf _ (fun w c => ?_) w.cmds { w with cmds := [] }
    cases c with
    | spawn j =>
      simp only [World.apply]
      split
      · exact ⟨_, rfl⟩
      · obtain ⟨t, ht⟩ := hg .complete { w with sats := w.sats ++ [j], trace := w.trace ++ [.started j] } j
        exact ⟨_, by rw [ht, List.append_assoc]⟩
    | despawn j => exact hd w j

theorem run_trace_mem (l : List (Op I)) (w : World S I E) {m : Mark I E} (h : m ∈ w.trace) : m ∈ (w.run D l).trace := by
  induction l generalizing w with
  | nil => exact h
  | cons op l ih =>
    obtain ⟨t, ht⟩ := step_trace (D := D) w op
    exact ih _ (by rw [ht]; exact List.mem_append_left _ h)

theorem Act.of_mem {q : List Act} {k : Nat} (h : q.filter (·.of k) = []) : ∀ a ∈ q, a.of k = false := by
  intro a ha
  rw [Bool.eq_false_iff]
  intro hh
  have : a ∈ q.filter (·.of k) := List.mem_filter.2 ⟨ha, hh⟩
  rw [h] at this
  simp at this

theorem Cmd.of_mem {q : List Cmd} {k : Nat} (h : q.filter (·.of k) = []) : ∀ a ∈ q, a.of k = false := by
  intro a ha
  rw [Bool.eq_false_iff]
  intro hh
  have : a ∈ q.filter (·.of k) := List.mem_filter.2 ⟨ha, hh⟩
  rw [h] at this
  simp at this

end Rx.Events
