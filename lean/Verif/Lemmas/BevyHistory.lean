import Verif.Lemmas.BevyCommands

/-!
# How subscriptions go on, and satellites
-/

namespace Rx.Bevy.World

variable {c : Cfg} {todo : List Command} {q : List Nat} {w w' : World}

/-! ## What the fields besides the entities are like -/

structure Fine (c : Cfg) (w : World) : Prop where
  fresh : ∀ k, w.size ≤ k → w.closed k = false
  teardown : ∀ k e, w.teardown k = some e → ∃ cmd, w.issued k = some cmd ∧ cmd.reserved = e
  despawns : ∀ d ∈ w.despawns, ∃ k cmd, w.issued k = some cmd ∧ cmd.reserved = d ∧ w.closed k = true
  made : (∀ l, (c.ord l).Perm l) → ∀ k t o cmd, (t, o) ∈ w.made k → w.issued k = some cmd →
    t = cmd.target ∧ c.out o = cmd.types

theorem Fine.start : Fine c {} where
  fresh _ _ := rfl
  teardown _ _ h := by cases h
  despawns _ h := by cases h
  made _ _ _ _ _ h := by cases h

theorem Fine.same (h : Fine c w) (a : Rest w w') (hc : w'.closed = w.closed) (hd : w'.despawns = w.despawns) : Fine c w' where
  fresh k hk := by rw [a.size] at hk; rw [hc]; exact h.fresh k hk
  teardown k e ht := by rw [a.teardown] at ht; rw [a.issued]; exact h.teardown k e ht
  despawns d h' := by rw [hd] at h'; rw [a.issued, hc]; exact h.despawns d h'
  made ho k t o cmd hm hi := by rw [a.made] at hm; rw [a.issued] at hi; exact h.made ho k t o cmd hm hi

theorem Fine.close (h : Fine c w) {k : Nat} (hk : k < w.size) : Fine c (w.close k) := by
  have r := close_rest k w
  refine ⟨fun i hi => ?_, fun i e ht => ?_, fun d hd => ?_, fun ho i t o cmd hm hi => ?_⟩
  · rw [r.size] at hi
    rw [Bool.eq_false_iff]
    intro hc
    rcases (close_closed k i w).1 hc with h' | h'
    · rw [h.fresh i hi] at h'; cases h'
    · omega
  · rw [r.teardown] at ht; rw [r.issued]; exact h.teardown i e ht
  · rw [r.issued]
    rcases (close_despawns k d w).1 hd with h' | ⟨_, ht⟩
    · obtain ⟨i, cmd, h1, h2, h3⟩ := h.despawns d h'
      exact ⟨i, cmd, h1, h2, (close_closed _ _ _).2 (.inl h3)⟩
    · obtain ⟨cmd, h1, h2⟩ := h.teardown k d ht
      exact ⟨k, cmd, h1, h2, (close_closed _ _ _).2 (.inr rfl)⟩
  · rw [r.made] at hm; rw [r.issued] at hi; exact h.made ho i t o cmd hm hi

theorem Inv.issued_lt (h : Inv c todo q w) {k : Nat} {cmd : Command} (hi : w.issued k = some cmd) : k < w.size :=
  Nat.lt_of_not_le fun h' => by rw [(h.fresh k h').1] at hi; cases hi

theorem Inv.todo_lt {cmd : Command} (h : Inv c (cmd :: todo) q w) : cmd.k < w.size := by
  obtain ⟨⟨c0, hc0, _⟩, _⟩ := h.pend cmd (by simp)
  exact h.issued_lt hc0

theorem Fine.removeSubscription (h : Fine c w) (hi : Inv c todo q w) (e : Nat) : Fine c (w.removeSubscription e) := by
  unfold World.removeSubscription
  split
  · rename_i x hx
    split
    · rename_i k hk
      refine Fine.close (w := { w with ent := set w.ent e (some { x with subscription := none }) })
        (h.same ⟨rfl, rfl, rfl, rfl, rfl, rfl, rfl⟩ rfl rfl) ?_
      have hw : x.watches = none := by
        cases hw : x.watches with
        | none => rfl
        | some _ =>
          have := (hi.plain.2.1 e x hx (by simp [hw])).1
          rw [hk] at this; cases this
      obtain ⟨_, _, _, cmd, hc, _⟩ := hi.held e x.unfinished k (view_some.2 ⟨x, hx, hw, rfl, hk⟩)
      exact hi.issued_lt hc
    · exact h
  · exact h

theorem Fine.despawnSatellites (h : Fine c w) (l : List Nat) : Fine c (l.foldl (fun w s => w.despawnSatellite s) w) := by
  induction l generalizing w with
  | nil => exact h
  | cons s l ih =>
    exact ih (h.same (despawnSatellite_rest s w) (despawnSatellite_closed s w) (despawnSatellite_despawns s w))

theorem Fine.despawn (h : Fine c w) (hi : Inv c todo q w) (e : Nat) : Fine c (w.despawn e) :=
  ((h.removeSubscription hi e).despawnSatellites _).same (despawnSatellite_rest _ _) (despawnSatellite_closed _ _)
    (despawnSatellite_despawns _ _)

theorem Fine.despawnAll (l : List Nat) (h : Fine c w) (hi : Inv c todo (l ++ q) w) :
    Fine c (l.foldl (fun w e => w.despawn e) w) := by
  induction l generalizing w with
  | nil => exact h
  | cons e l ih => exact ih (h.despawn hi e) (hi.despawn e)

theorem mem_observers {e y o : Nat} :
    o ∈ w.observers c e y ↔ c.out o = y ∧ ∃ s x, s < w.next ∧ w.ent s = some x ∧ x.watches = some (e, o) := by
  unfold observers
  rw [List.mem_filterMap]
  constructor
  · rintro ⟨s, hs, h⟩
    obtain ⟨hlt, x, o', hx, hw⟩ := mem_satellites.1 hs
    rw [hx] at h
    simp only [hw] at h
    split at h
    · rename_i hy
      cases h
      exact ⟨hy, s, x, hlt, hx, hw⟩
    · cases h
  · rintro ⟨hy, s, x, hlt, hx, hw⟩
    refine ⟨s, mem_satellites.2 ⟨hlt, x, o, hx, hw⟩, ?_⟩
    rw [hx]
    simp [hw, hy]

theorem Fine.attach {cmd : Command} {c0 : Command} (h : Fine c w) (hp : w.Plain) (hk : cmd.k < w.size)
    (hc0 : w.issued cmd.k = some c0) (hr : c0.reserved = cmd.reserved)
    (hs : ∀ k, w.view cmd.reserved ≠ some (false, some k) ∧ w.view cmd.reserved ≠ some (true, some k)) :
    Fine c (w.attach c cmd) := by
  have hns : ∀ x, w.ent cmd.reserved = some x → x.subscription = none := by
    intro x hx
    cases hsub : x.subscription with
    | none => rfl
    | some k =>
      have hw : x.watches = none := by
        cases hw : x.watches with
        | none => rfl
        | some _ =>
          have := (hp.2.1 _ x hx (by simp [hw])).1
          rw [hsub] at this; cases this
      have hv := view_some.2 ⟨x, hx, hw, rfl, hsub⟩
      cases hu : x.unfinished <;> rw [hu] at hv
      · exact absurd hv (hs k).1
      · exact absurd hv (hs k).2
  unfold World.attach
  split
  · have h1 := h.close hk
    have : (w.close cmd.k).removeSubscription cmd.reserved = w.close cmd.k := by
      unfold World.removeSubscription
      rw [close_ent]
      split
      · rename_i x hx
        rw [hns x hx]
      · rfl
    unfold World.despawn
    rw [this]
    exact (h1.despawnSatellites _).same (despawnSatellite_rest _ _) (despawnSatellite_closed _ _)
      (despawnSatellite_despawns _ _)
  · have h1 : Fine c { w with teardown := set w.teardown cmd.k (some cmd.reserved) } :=
      { h with
        teardown := fun i e ht => by
          dsimp only at ht ⊢
          by_cases hi : i = cmd.k
          · subst hi
            rw [set_same] at ht
            cases ht
            exact ⟨c0, hc0, hr⟩
          · rw [set_other _ _ hi] at ht
            exact h.teardown i e ht }
    dsimp only
    split
    · exact h1.same ⟨rfl, rfl, rfl, rfl, rfl, rfl, rfl⟩ rfl rfl
    · exact Fine.close (w := { w with teardown := set w.teardown cmd.k (some cmd.reserved), faults := w.faults ++ [cmd.k] })
        { h1 with } hk

theorem Fine.apply {cmd : Command} (h : Fine c w) (hi : Inv c (cmd :: todo) w.despawns w) : Fine c (w.apply c cmd) := by
  obtain ⟨⟨c0, hc0, hcmd⟩, hm0, ha0, hv0⟩ := hi.pend cmd (by simp)
  have hk := hi.todo_lt
  have h1 : Fine c { w with attempts := set w.attempts cmd.k (w.attempts cmd.k + 1) } := { h with }
  rw [apply_observers]
  split
  · unfold World.trigger
    split
    · exact h1.close hk
    · rename_i o l ho
      have give : Fine c (if c.drops cmd.k then
          ({ w with attempts := set w.attempts cmd.k (w.attempts cmd.k + 1) } : World).close cmd.k else
          { w with attempts := set w.attempts cmd.k (w.attempts cmd.k + 1) }) := by
        split
        · exact h1.close hk
        · exact h1
      split
      · split
        · refine Fine.attach (c0 := c0) (w := { w with
            attempts := set w.attempts cmd.k (w.attempts cmd.k + 1)
            made := set w.made cmd.k (w.made cmd.k ++ [(cmd.target, o)]) }) ?_ hi.plain hk hc0 (by rw [hcmd]) ?_
          · refine { h1 with made := fun hord i t o' ci hm hci => ?_ }
            dsimp only at hm hci
            by_cases hik : i = cmd.k
            · subst hik
              rw [hc0] at hci; cases hci
              rw [set_same, hm0] at hm
              simp only [List.nil_append, List.mem_singleton, Prod.mk.injEq] at hm
              refine ⟨?_, ?_⟩
              · rw [hm.1, hcmd]
              · have hmem : o ∈ w.observers c cmd.target cmd.types := by
                  have h2 : o ∈ c.ord (w.observers c cmd.target cmd.types) := by
                    rw [show w.observers c cmd.target cmd.types = ({ w with
                      attempts := set w.attempts cmd.k (w.attempts cmd.k + 1) } : World).observers c cmd.target cmd.types from rfl, ho]
                    simp
                  exact (hord _).mem_iff.1 h2
                have := (mem_observers.1 hmem).1
                rw [hm.2, this]
                rw [hcmd]
            · rw [set_other _ _ hik] at hm
              exact h.made hord i t o' ci hm hci
          · intro k
            refine ⟨fun hv => ?_, fun hv => ?_⟩ <;> cases hv0 _ hv
        · exact give
      · exact give
  · split
    · exact { h1 with }
    · exact h1.close hk

theorem Fine.applyAll (l : List Command) (h : Fine c w) (hi : Inv c l w.despawns w) :
    Fine c (l.foldl (fun w cmd => w.apply c cmd) w) := by
  induction l generalizing w with
  | nil => exact h
  | cons cmd l ih => exact ih (h.apply hi) hi.apply

theorem Fine.subscribe (h : Fine c w) (hi : Inv c [] w.despawns w) (t y : Nat) : Fine c (w.subscribe c t y) := by
  unfold World.subscribe
  refine Fine.apply (todo := []) ?_ (hi.subscribe_todo t y)
  have hf := hi.fresh w.size (Nat.le_refl _)
  refine ⟨fun k hk => h.fresh k (by dsimp only at hk; omega), fun k e ht => ?_, fun d hd => ?_, fun ho k t' o cmd hm hc => ?_⟩
  · obtain ⟨cmd, h1, h2⟩ := h.teardown k e ht
    refine ⟨cmd, ?_, h2⟩
    dsimp only
    rw [set_other _ _ (fun he => by rw [he, hf.1] at h1; cases h1)]; exact h1
  · obtain ⟨k, cmd, h1, h2, h3⟩ := h.despawns d hd
    refine ⟨k, cmd, ?_, h2, h3⟩
    dsimp only
    rw [set_other _ _ (fun he => by rw [he, hf.1] at h1; cases h1)]; exact h1
  · dsimp only at hm hc
    by_cases hk : k = w.size
    · subst hk; rw [hf.2.1] at hm; cases hm
    · rw [set_other _ _ hk] at hc
      exact h.made ho k t' o cmd hm hc

theorem Fine.retry (h : Fine c w) (hi : Inv c [] w.despawns w) : Fine c (w.retry c) :=
  Fine.applyAll (w := { w with pending := [] }) _ { h with } hi.requeue

theorem Fine.step (h : Fine c w) (hi : Inv c [] w.despawns w) (op : Op) : Fine c (w.step c op) := by
  cases op with
  | spawn => exact h.same ⟨rfl, rfl, rfl, rfl, rfl, rfl, rfl⟩ rfl rfl
  | insertObservable e o =>
    unfold World.step World.insertObservable
    dsimp only
    split
    · split
      · exact h
      · exact h.same ⟨rfl, rfl, rfl, rfl, rfl, rfl, rfl⟩ rfl rfl
    · exact h
  | removeObservable e o =>
    unfold World.step World.removeObservable
    dsimp only
    split
    · rename_i x hx
      split
      · have h1 : Fine c { w with ent := set w.ent e (some { x with observables := x.observables.filter (· != o) }) } :=
          h.same ⟨rfl, rfl, rfl, rfl, rfl, rfl, rfl⟩ rfl rfl
        split
        · exact h1.same (despawnSatellite_rest _ _) (despawnSatellite_closed _ _) (despawnSatellite_despawns _ _)
        · exact h1
      · exact h
    · exact h
  | removeSubscription e => exact h.removeSubscription hi e
  | despawn e => exact h.despawn hi e
  | subscribe t y => exact h.subscribe hi t y
  | close k =>
    unfold World.step
    dsimp only
    split
    · exact h.close ‹_›
    · exact h
  | retry => exact h.retry hi
  | clean => exact h.despawnAll _ (q := w.despawns) (hi.mono fun d hd => List.mem_append_right _ hd)
  | tick =>
    refine Fine.despawnAll (todo := []) (w := { w with despawns := [] }) (q := []) _ { h with despawns := fun _ h => (nomatch h) } ?_
    rw [List.append_nil]
    exact { hi with }
  | exit =>
    show Fine c (w.exit c)
    unfold World.exit
    have h1 := h.retry hi
    have hi1 := hi.retry
    generalize w.retry c = w1 at h1 hi1
    dsimp only
    generalize hl : ((List.range w1.next).filterMap fun e => (w1.ent e).bind (·.subscription)) = l
    have hlt : ∀ k ∈ l, k < w1.size := by
      intro k hk
      rw [← hl, List.mem_filterMap] at hk
      obtain ⟨e, _, he⟩ := hk
      obtain ⟨x, hx, hsub⟩ := Option.bind_eq_some_iff.1 he
      have hw : x.watches = none := by
        cases hw : x.watches with
        | none => rfl
        | some _ =>
          have := (hi1.plain.2.1 _ x hx (by simp [hw])).1
          rw [hsub] at this; cases this
      obtain ⟨_, _, _, cmd, hc, _⟩ := hi1.held e x.unfinished k (view_some.2 ⟨x, hx, hw, rfl, hsub⟩)
      exact hi1.issued_lt hc
    clear hl hi1
    induction l generalizing w1 with
    | nil => exact h1
    | cons k l ih =>
      refine ih _ (h1.close (hlt k (by simp))) fun j hj => ?_
      rw [(close_rest k w1).size]; exact hlt j (by simp [hj])

theorem Fine.run (c : Cfg) (ops : List Op) : Fine c (World.run c ops) := by
  unfold World.run
  suffices ∀ w : World, Inv c [] w.despawns w → Fine c w → Fine c (ops.foldl (World.step c) w) from this _ .start .start
  induction ops with
  | nil => exact fun _ _ h => h
  | cons op ops ih => exact fun w hi h => ih _ (hi.step op) (h.step hi op)

/-! ## Open subscriptions stay open -/

/-- An open subscription, and its entity. -/
def Going (w : World) (k r : Nat) : Prop :=
  (∃ cmd, w.issued k = some cmd ∧ cmd.reserved = r) ∧ w.made k ≠ [] ∧ w.closed k = false

theorem Going.lose {e k r : Nat} {z : Option (Bool × Option Nat)} (h : Going w k r) (hi : Inv c todo q w) (a : Lose e z w w')
    (he : e ≠ r) : Going w' k r := by
  obtain ⟨⟨cmd, h1, h2⟩, h3, h4⟩ := h
  refine ⟨⟨cmd, by rw [a.issued]; exact h1, h2⟩, by rw [a.made]; exact h3, ?_⟩
  rw [Bool.eq_false_iff]
  intro hc
  rcases (a.closed k).1 hc with h' | ⟨u, h'⟩
  · rw [h4] at h'; cases h'
  · obtain ⟨_, _, _, cmd', h5, h6⟩ := hi.held e u k h'
    rw [h1] at h5; cases h5
    exact he (h6.symm.trans h2)

theorem Going.despawnAll {k r : Nat} (l : List Nat) (h : Going w k r) (hi : Inv c todo (l ++ q) w) (hl : r ∉ l) :
    Going (l.foldl (fun w e => w.despawn e) w) k r := by
  induction l generalizing w with
  | nil => exact h
  | cons e l ih =>
    exact ih (h.lose hi (despawn_lose hi.plain) fun he => hl (by simp [he])) (hi.despawn e) fun hr => hl (by simp [hr])

theorem Going.apply {cmd : Command} {k r : Nat} (h : Going w k r) (hi : Inv c (cmd :: todo) w.despawns w) :
    Going (w.apply c cmd) k r := by
  obtain ⟨_, hm0, _⟩ := hi.pend cmd (by simp)
  obtain ⟨⟨cmd', h1, h2⟩, h3, h4⟩ := h
  have hk : k ≠ cmd.k := fun he => h3 (he ▸ hm0)
  rcases hi.apply_cases with tk | ⟨_, he⟩
  · exact ⟨⟨cmd', by rw [tk.issued]; exact h1, h2⟩, by rw [tk.made k hk]; exact h3, by rw [tk.closed k hk]; exact h4⟩
  · rw [he]; exact ⟨⟨cmd', h1, h2⟩, h3, h4⟩

theorem Going.applyAll {k r : Nat} (l : List Command) (h : Going w k r) (hi : Inv c l w.despawns w) :
    Going (l.foldl (fun w cmd => w.apply c cmd) w) k r := by
  induction l generalizing w with
  | nil => exact h
  | cons cmd l ih => exact ih (h.apply hi) hi.apply

theorem Going.same {k r : Nat} (h : Going w k r) (a : Rest w w') (hc : w'.closed = w.closed) : Going w' k r := by
  obtain ⟨⟨cmd', h1, h2⟩, h3, h4⟩ := h
  exact ⟨⟨cmd', by rw [a.issued]; exact h1, h2⟩, by rw [a.made]; exact h3, by rw [hc]; exact h4⟩

theorem Going.step {k r : Nat} (h : Going w k r) (hi : Inv c [] w.despawns w) (hf : Fine c w) (op : Op)
    (h1 : op ≠ .close k) (h2 : op ≠ .despawn r) (h3 : op ≠ .removeSubscription r) (h4 : op ≠ .exit) :
    Going (w.step c op) k r := by
  have hr : w.view r = some (false, some k) := by
    obtain ⟨⟨cmd, h1, h2⟩, h3, h4⟩ := h
    rw [← h2]; exact hi.live k cmd h1 h3 h4
  cases op with
  | spawn => exact h.same ⟨rfl, rfl, rfl, rfl, rfl, rfl, rfl⟩ rfl
  | insertObservable e o =>
    unfold World.step World.insertObservable
    dsimp only
    split
    · split
      · exact h
      · exact h.same ⟨rfl, rfl, rfl, rfl, rfl, rfl, rfl⟩ rfl
    · exact h
  | removeObservable e o =>
    unfold World.step World.removeObservable
    dsimp only
    split
    · rename_i x hx
      split
      · have h1 : Going { w with ent := set w.ent e (some { x with observables := x.observables.filter (· != o) }) } k r :=
          h.same ⟨rfl, rfl, rfl, rfl, rfl, rfl, rfl⟩ rfl
        split
        · exact h1.same (despawnSatellite_rest _ _) (despawnSatellite_closed _ _)
        · exact h1
      · exact h
    · exact h
  | removeSubscription e => exact h.lose hi (removeSubscription_lose hi.plain) fun he => h3 (by rw [he])
  | despawn e => exact h.lose hi (despawn_lose hi.plain) fun he => h2 (by rw [he])
  | subscribe t y =>
    refine Going.apply (todo := []) ?_ (hi.subscribe_todo t y)
    obtain ⟨⟨cmd, h1, h2⟩, h3, h4⟩ := h
    have hk := hi.issued_lt h1
    exact ⟨⟨cmd, (set_other _ _ (show k ≠ w.size by omega)).trans h1, h2⟩, h3, h4⟩
  | close i =>
    unfold World.step
    dsimp only
    split
    · have hik : k ≠ i := fun he => h1 (by rw [he])
      obtain ⟨⟨cmd, h1, h2⟩, h3, h4⟩ := h
      have r := close_rest i w
      refine ⟨⟨cmd, by rw [r.issued]; exact h1, h2⟩, by rw [r.made]; exact h3, ?_⟩
      rw [Bool.eq_false_iff]
      intro hc
      rcases (close_closed i k w).1 hc with h' | h'
      · rw [h4] at h'; cases h'
      · exact hik h'
    · exact h
  | retry => exact Going.applyAll (w := { w with pending := [] }) _ h hi.requeue
  | clean =>
    refine h.despawnAll _ (q := w.despawns) (hi.mono fun d hd => List.mem_append_right _ hd) fun hm => ?_
    rw [List.mem_filter] at hm
    obtain ⟨x, hx, _, hu, _⟩ := view_some.1 hr
    rw [hx] at hm
    simp [hu] at hm
  | tick =>
    refine Going.despawnAll (todo := []) (w := { w with despawns := [] }) (q := []) _ h (by rw [List.append_nil]; exact { hi with }) fun hm => ?_
    obtain ⟨i, ci, h5, h6, h7⟩ := hf.despawns r hm
    obtain ⟨⟨cmd, h1, h2⟩, h3, h4⟩ := h
    have := hi.inj i k ci cmd h5 h1 (h6.trans h2.symm)
    subst this
    rw [h7] at h4; cases h4
  | exit => exact absurd rfl h4

/-! ## Commands are not retried for ever -/

theorem Take.attempts_k {cmd : Command} (tk : Take c cmd q w w') : w'.attempts cmd.k = w.attempts cmd.k + 1 := by
  rw [tk.attempts, set_same]

/-- What applying commands does to those being retried. -/
theorem Inv.apply_pending {cmd : Command} (h : Inv c (cmd :: todo) w.despawns w) (k : Nat) :
    w.attempts k ≤ (w.apply c cmd).attempts k ∧
    (k ∈ (w.apply c cmd).pending.map (·.k) → k ∈ w.pending.map (·.k) ∨
      (k = cmd.k ∧ w.attempts k < (w.apply c cmd).attempts k)) := by
  have hatt : (w.apply c cmd).attempts = set w.attempts cmd.k (w.attempts cmd.k + 1) := by
    rcases h.apply_cases with tk | ⟨_, he⟩
    · exact tk.attempts
    · rw [he]
  rw [hatt]
  refine ⟨?_, fun hk => ?_⟩
  · by_cases hk : k = cmd.k
    · subst hk; rw [set_same]; omega
    · rw [set_other _ _ hk]; exact Nat.le_refl _
  · rcases h.apply_cases with tk | ⟨_, he⟩
    · rw [tk.pending] at hk; exact .inl hk
    · rw [he] at hk
      simp only [List.map_append, List.map_cons, List.map_nil, List.mem_append, List.mem_singleton] at hk
      rcases hk with hk | hk
      · exact .inl hk
      · right; subst hk; rw [set_same]; exact ⟨rfl, Nat.lt_succ_self _⟩

theorem Inv.applyAll_pending (l : List Command) (h : Inv c l w.despawns w) (k : Nat) :
    w.attempts k ≤ (l.foldl (fun w cmd => w.apply c cmd) w).attempts k ∧
    (k ∈ (l.foldl (fun w cmd => w.apply c cmd) w).pending.map (·.k) → k ∈ w.pending.map (·.k) ∨
      (k ∈ l.map (·.k) ∧ w.attempts k < (l.foldl (fun w cmd => w.apply c cmd) w).attempts k)) := by
  induction l generalizing w with
  | nil => exact ⟨Nat.le_refl _, .inl⟩
  | cons cmd l ih =>
    obtain ⟨i1, i2⟩ := ih h.apply
    obtain ⟨a1, a2⟩ := h.apply_pending k
    rw [List.foldl_cons]
    refine ⟨Nat.le_trans a1 i1, fun hk => ?_⟩
    rcases i2 hk with h' | ⟨h', h''⟩
    · rcases a2 h' with h3 | ⟨h3, h4⟩
      · exact .inl h3
      · exact .inr ⟨by simp [h3], Nat.lt_of_lt_of_le h4 i1⟩
    · exact .inr ⟨by simp at h'; simp [h'], Nat.lt_of_le_of_lt a1 h''⟩

theorem despawnAll_rest (l : List Nat) (hp : w.Plain) : Rest w (l.foldl (fun w e => w.despawn e) w) := by
  induction l generalizing w with
  | nil => exact .refl w
  | cons e l ih =>
    have a := despawn_lose (e := e) hp
    exact a.toRest.trans (ih (a.plain hp))

theorem closeAll_rest (l : List Nat) : Rest w (l.foldl (fun w k => w.close k) w) := by
  induction l generalizing w with
  | nil => exact .refl w
  | cons k l ih => exact (close_rest k w).trans ih

/-- How often `First` retries the commands. -/
def Op.retries : Op → Nat
  | .retry => 1
  | .exit => 1
  | _ => 0

theorem Inv.step_pending (h : Inv c [] w.despawns w) (op : Op) {k : Nat} (hk : k < w.size) :
    k < (w.step c op).size ∧ (k ∈ (w.step c op).pending.map (·.k) →
      k ∈ w.pending.map (·.k) ∧ w.attempts k + Op.retries op ≤ (w.step c op).attempts k) := by
  have same : ∀ w', Rest w w' → k < w'.size ∧ (k ∈ w'.pending.map (·.k) →
      k ∈ w.pending.map (·.k) ∧ w.attempts k + 0 ≤ w'.attempts k) := fun w' a =>
    ⟨by rw [a.size]; exact hk, fun h' => ⟨by rw [a.pending] at h'; exact h', by rw [a.attempts]; exact Nat.le_refl _⟩⟩
  have retry : k < (w.retry c).size ∧ (k ∈ (w.retry c).pending.map (·.k) →
      k ∈ w.pending.map (·.k) ∧ w.attempts k + 1 ≤ (w.retry c).attempts k) := by
    obtain ⟨h1, h2⟩ := Inv.applyAll_pending (w := { w with pending := [] }) _ h.requeue k
    refine ⟨?_, fun h' => ?_⟩
    · have : ∀ (l : List Command) (w : World), Inv c l w.despawns w → k < w.size →
          k < (l.foldl (fun w cmd => w.apply c cmd) w).size := by
        intro l
        induction l with
        | nil => exact fun _ _ h => h
        | cons cmd l ih =>
          intro w hi hk
          refine ih _ hi.apply ?_
          dsimp only
          rcases hi.apply_cases with tk | ⟨_, he⟩
          · rw [tk.size]; exact hk
          · rw [he]; exact hk
      exact this _ _ h.requeue hk
    · rcases h2 h' with h3 | ⟨h3, h4⟩
      · cases h3
      · exact ⟨h3, h4⟩
  cases op with
  | spawn => exact same _ ⟨rfl, rfl, rfl, rfl, rfl, rfl, rfl⟩
  | insertObservable e o =>
    refine same _ ?_
    unfold World.step World.insertObservable
    dsimp only
    repeat' split
    all_goals exact ⟨rfl, rfl, rfl, rfl, rfl, rfl, rfl⟩
  | removeObservable e o =>
    refine same _ ?_
    unfold World.step World.removeObservable
    dsimp only
    split
    · rename_i x hx
      split
      · have h1 : Rest w { w with ent := set w.ent e (some { x with observables := x.observables.filter (· != o) }) } :=
          ⟨rfl, rfl, rfl, rfl, rfl, rfl, rfl⟩
        split
        · exact h1.trans (despawnSatellite_rest _ _)
        · exact h1
      · exact .refl w
    · exact .refl w
  | removeSubscription e => exact same _ (removeSubscription_lose h.plain).toRest
  | despawn e => exact same _ (despawn_lose h.plain).toRest
  | subscribe t y =>
    have h1 := h.subscribe_todo t y
    obtain ⟨a1, a2⟩ := h1.apply_pending k
    refine ⟨?_, fun h' => ?_⟩
    · show k < (w.subscribe c t y).size
      rw [subscribe_issue]
      rcases h1.apply_cases with tk | ⟨_, he⟩
      · rw [tk.size]; exact Nat.lt_succ_of_lt hk
      · rw [he]; exact Nat.lt_succ_of_lt hk
    · rcases a2 h' with h3 | ⟨h3, _⟩
      · exact ⟨h3, a1⟩
      · exact absurd h3 (by dsimp only; omega)
  | close i =>
    refine same _ ?_
    unfold World.step
    dsimp only
    split
    · exact close_rest _ _
    · exact .refl w
  | retry => exact retry
  | clean => exact same _ (despawnAll_rest _ h.plain)
  | tick =>
    refine same _ ?_
    have := despawnAll_rest (w := { w with despawns := [] }) w.despawns h.plain
    exact ⟨this.pending, this.size, this.teardown, this.issued, this.made, this.attempts, this.faults⟩
  | exit =>
    have a := closeAll_rest (w := w.retry c) ((List.range (w.retry c).next).filterMap fun e => ((w.retry c).ent e).bind (·.subscription))
    show k < (w.exit c).size ∧ (k ∈ (w.exit c).pending.map (·.k) → k ∈ w.pending.map (·.k) ∧ w.attempts k + 1 ≤ (w.exit c).attempts k)
    unfold World.exit
    dsimp only
    rw [a.size, a.pending, a.attempts]
    exact retry

/-! ## What is despawned does not come back -/

/-- There was such an entity. -/
def Gone (w : World) (e : Nat) : Prop := e < w.next ∧ w.ent e = none

theorem Gone.keeps {e : Nat} (h : Gone w e) (a : Keeps w w') : Gone w' e := by
  refine ⟨Nat.lt_of_lt_of_le h.1 a.next, ?_⟩
  cases hx : w'.ent e with
  | none => rfl
  | some x =>
    obtain ⟨y, hy, _⟩ := a.watches e x h.1 hx
    rw [h.2] at hy; cases hy

theorem Gone.set {e d : Nat} (h : Gone w e) (x : Option Entity) (hd : d ≠ e) : Gone { w with ent := set w.ent d x } e :=
  ⟨h.1, (set_other _ _ (Ne.symm hd)).trans h.2⟩

theorem Gone.ne {e d : Nat} {x : Entity} (h : Gone w e) (hx : w.ent d = some x) : d ≠ e := by
  rintro rfl; rw [h.2] at hx; cases hx

theorem Gone.apply {cmd : Command} {e : Nat} (h : Gone w e) (hi : Inv c (cmd :: todo) w.despawns w) :
    Gone (w.apply c cmd) e := by
  rcases hi.apply_cases with tk | ⟨_, he⟩
  · exact h.keeps tk.toKeeps
  · rw [he]; exact h

theorem Gone.applyAll {e : Nat} (l : List Command) (h : Gone w e) (hi : Inv c l w.despawns w) :
    Gone (l.foldl (fun w cmd => w.apply c cmd) w) e := by
  induction l generalizing w with
  | nil => exact h
  | cons cmd l ih => exact ih (h.apply hi) hi.apply

theorem Gone.despawnAll {e : Nat} (l : List Nat) (h : Gone w e) (hp : w.Plain) :
    Gone (l.foldl (fun w e => w.despawn e) w) e := by
  induction l generalizing w with
  | nil => exact h
  | cons d l ih =>
    have a := despawn_lose (e := d) hp
    exact ih (h.keeps a.toKeeps) (a.plain hp)

theorem Gone.step {e : Nat} (h : Gone w e) (hi : Inv c [] w.despawns w) (op : Op) : Gone (w.step c op) e := by
  have hne : e ≠ w.next := Nat.ne_of_lt h.1
  cases op with
  | spawn => exact ⟨Nat.lt_succ_of_lt h.1, (set_other _ _ hne).trans h.2⟩
  | insertObservable d o =>
    unfold World.step World.insertObservable
    dsimp only
    split
    · rename_i x hx
      split
      · exact h
      · exact ⟨Nat.lt_succ_of_lt h.1, (set_other _ _ hne).trans ((h.set _ (h.ne hx)).2)⟩
    · exact h
  | removeObservable d o =>
    unfold World.step World.removeObservable
    dsimp only
    split
    · rename_i x hx
      split
      · split
        · exact (h.set _ (h.ne hx)).keeps (despawnSatellite_keeps _ _)
        · exact h.set _ (h.ne hx)
      · exact h
    · exact h
  | removeSubscription d => exact h.keeps (removeSubscription_lose hi.plain).toKeeps
  | despawn d => exact h.keeps (despawn_lose hi.plain).toKeeps
  | subscribe t y =>
    exact Gone.apply (todo := []) ⟨Nat.lt_succ_of_lt h.1, (set_other _ _ hne).trans h.2⟩ (hi.subscribe_todo t y)
  | close k =>
    unfold World.step
    dsimp only
    split
    · exact h.keeps (close_keeps k w)
    · exact h
  | retry => exact Gone.applyAll (w := { w with pending := [] }) _ h hi.requeue
  | clean => exact h.despawnAll _ hi.plain
  | tick => exact Gone.despawnAll (w := { w with despawns := [] }) _ h hi.plain
  | exit =>
    show Gone (w.exit c) e
    unfold World.exit
    have h1 : Gone (w.retry c) e := Gone.applyAll (w := { w with pending := [] }) _ h hi.requeue
    dsimp only
    generalize w.retry c = w1 at h1
    generalize ((List.range w1.next).filterMap fun e => (w1.ent e).bind (·.subscription)) = l
    induction l generalizing w1 with
    | nil => exact h1
    | cons k l ih => exact ih _ (h1.keeps (close_keeps k w1))

theorem Gone.all {e : Nat} (more : List Op) (h : Gone w e) (hi : Inv c [] w.despawns w) :
    Gone (more.foldl (World.step c) w) e := by
  induction more generalizing w with
  | nil => exact h
  | cons op more ih => exact ih (h.step hi op) (hi.step op)

/-- Everything despawned is gone. -/
theorem despawnAll_gone {e : Nat} (l : List Nat) (he : e ∈ l) (hp : w.Plain) (hlt : e < w.next)
    (hb : ∀ x, w.ent e = some x → x.watches = none) : Gone (l.foldl (fun w e => w.despawn e) w) e := by
  induction l generalizing w with
  | nil => cases he
  | cons d l ih =>
    have a := despawn_lose (e := d) hp
    by_cases hd : e = d
    · subst hd
      refine Gone.despawnAll l ⟨Nat.lt_of_lt_of_le hlt a.next, ?_⟩ (a.plain hp)
      exact (despawnSatellite_ent _ _ _).trans (if_pos rfl)
    · refine ih ((List.mem_cons.1 he).resolve_left hd) (a.plain hp) (Nat.lt_of_lt_of_le hlt a.next) fun x hx => ?_
      obtain ⟨y, hy, hw⟩ := a.watches e x hlt hx
      rw [hw]; exact hb y hy

/-- Nothing that is unfinished outlives the cleanup. -/
theorem Inv.clean_gone (hi : Inv c [] w.despawns w) {e : Nat} (hlt : e < w.next)
    (hu : ∀ x, w.ent e = some x → x.unfinished = true ∧ x.watches = none) : Gone w.clean e := by
  unfold World.clean
  cases hx : w.ent e with
  | none => exact Gone.despawnAll _ ⟨hlt, hx⟩ hi.plain
  | some x =>
    refine despawnAll_gone _ ?_ hi.plain hlt fun y hy => (hu y hy).2
    rw [List.mem_filter, List.mem_range, hx]
    exact ⟨hlt, (hu x hx).1⟩

/-! ## Issued commands stay issued -/

theorem Inv.applyAll_issued (l : List Command) (h : Inv c l w.despawns w) :
    (l.foldl (fun w cmd => w.apply c cmd) w).issued = w.issued := by
  induction l generalizing w with
  | nil => rfl
  | cons cmd l ih =>
    refine (ih h.apply).trans ?_
    rcases h.apply_cases with tk | ⟨_, he⟩
    · exact tk.issued
    · rw [he]

theorem Inv.step_issued (h : Inv c [] w.despawns w) (op : Op) {k : Nat} {cmd : Command} (hk : w.issued k = some cmd) :
    (w.step c op).issued k = some cmd := by
  have same : ∀ w', Rest w w' → w'.issued k = some cmd := fun w' a => by rw [a.issued]; exact hk
  have retry : (w.retry c).issued = w.issued := Inv.applyAll_issued (w := { w with pending := [] }) _ h.requeue
  cases op with
  | spawn => exact same _ ⟨rfl, rfl, rfl, rfl, rfl, rfl, rfl⟩
  | insertObservable e o =>
    refine same _ ?_
    unfold World.step World.insertObservable
    dsimp only
    repeat' split
    all_goals exact ⟨rfl, rfl, rfl, rfl, rfl, rfl, rfl⟩
  | removeObservable e o =>
    refine same _ ?_
    unfold World.step World.removeObservable
    dsimp only
    split
    · rename_i x hx
      split
      · have h1 : Rest w { w with ent := set w.ent e (some { x with observables := x.observables.filter (· != o) }) } :=
          ⟨rfl, rfl, rfl, rfl, rfl, rfl, rfl⟩
        split
        · exact h1.trans (despawnSatellite_rest _ _)
        · exact h1
      · exact .refl w
    · exact .refl w
  | removeSubscription e => exact same _ (removeSubscription_lose h.plain).toRest
  | despawn e => exact same _ (despawn_lose h.plain).toRest
  | subscribe t y =>
    show (w.subscribe c t y).issued k = _
    rw [subscribe_issue]
    have hne : k ≠ w.size := Nat.ne_of_lt (h.issued_lt hk)
    rcases (h.subscribe_todo t y).apply_cases with tk | ⟨_, he⟩
    · rw [tk.issued]; exact (set_other _ _ hne).trans hk
    · rw [he]; exact (set_other _ _ hne).trans hk
  | close i =>
    unfold World.step
    dsimp only
    split
    · exact same _ (close_rest i w)
    · exact hk
  | retry => exact (congrFun retry k).trans hk
  | clean => exact same _ (despawnAll_rest _ h.plain)
  | tick => exact (congrFun (despawnAll_rest (w := { w with despawns := [] }) _ h.plain).issued k).trans hk
  | exit => exact (congrFun (closeAll_rest _).issued k).trans ((congrFun retry k).trans hk)

theorem Inv.all_issued (more : List Op) (h : Inv c [] w.despawns w) {k : Nat} {cmd : Command}
    (hk : w.issued k = some cmd) : (more.foldl (World.step c) w).issued k = some cmd := by
  induction more generalizing w with
  | nil => exact hk
  | cons op more ih => exact ih (h.step op) (h.step_issued op hk)

end Rx.Bevy.World
