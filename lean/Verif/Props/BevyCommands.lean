import Verif.Lemmas.BevyTidy

/-!
# C59, C60, C61: subscribing through Bevy commands

A history is a list of what happens in an application: entities, observables and subscriptions are made and removed, commands
to subscribe are issued, and the systems of the plugin run, in any order (`retry` in `First`; `clean` and `tick` in `Last`).
`Subscribed k`: the destination of the `k`-th subscribe command was subscribed to an observable. `Open k`: and it still is.
-/

namespace Rx.Bevy.World.Props

variable {c : Cfg} {ops : List Op} {k e : Nat}

theorem run_append (ops : List Op) (op : Op) : run c (ops ++ [op]) = (run c ops).step c op := by
  unfold run; rw [List.foldl_append]; rfl

theorem run_more (ops more : List Op) : run c (ops ++ more) = more.foldl (step c) (run c ops) := by
  unfold run; rw [List.foldl_append]

theorem entity_unique {w : World} {d : Nat} (h : w.IsEntityOf k e) (h' : w.IsEntityOf k d) : e = d := by
  obtain ⟨a, h1, h2⟩ := h
  obtain ⟨b, h3, h4⟩ := h'
  rw [h1] at h3; cases h3
  exact h2.symm.trans h4

/-- Two commands, one of a `just`, one of a subject. -/
def sample : Cfg := ⟨fun o => o / 10, fun k => k == 0, fun _ => true, id⟩

/-! ## C59: the subscription and its entity -/

/-- C59. While a subscription is open, the entity that the subscribe command returned is there, and has it. -/
theorem C59_entity (ho : (run c ops).Open k) (he : (run c ops).IsEntityOf k e) : (run c ops).Holds e k := by
  obtain ⟨cmd, h1, rfl⟩ := he
  obtain ⟨x, hx, _, _, hs⟩ := view_some.1 ((Inv.run c ops).live k cmd h1 ho.1 ho.2)
  exact ⟨x, hx, hs⟩

/-- C59. A subscription is on no other entity. -/
theorem C59_own (h : (run c ops).Holds e k) : (run c ops).IsEntityOf k e ∧ (run c ops).Subscribed k := by
  obtain ⟨x, hx, hs⟩ := h
  have hi := Inv.run c ops
  have hw : x.watches = none := by
    cases hw : x.watches with
    | none => rfl
    | some _ => have := (hi.plain.2.1 e x hx (by simp [hw])).1; rw [hs] at this; cases this
  obtain ⟨_, hm, _, hc⟩ := hi.held e _ k (view_some.2 ⟨x, hx, hw, rfl, hs⟩)
  exact ⟨hc, hm⟩

/-- C59. Each subscribe command has an entity, and no two have the same. -/
theorem C59_distinct (hk : k < (run c ops).size) : ∃ e, (run c ops).IsEntityOf k e ∧
    ∀ i, (run c ops).IsEntityOf i e → i = k := by
  have hi := Inv.run c ops
  obtain ⟨cmd, h⟩ := hi.known k hk
  refine ⟨cmd.reserved, ⟨cmd, h, rfl⟩, ?_⟩
  rintro i ⟨ci, h1, h2⟩
  exact hi.inj i k ci cmd h1 h h2

/-- C59. Despawning the entity unsubscribes. -/
theorem C59_despawn (he : (run c ops).IsEntityOf k e) (hs : (run c ops).Subscribed k) :
    (run c (ops ++ [.despawn e])).closed k = true ∧ ¬ (run c (ops ++ [.despawn e])).Alive e := by
  rw [run_append]
  have hi := Inv.run c ops
  have a := despawn_lose (e := e) hi.plain
  obtain ⟨cmd, h1, rfl⟩ := he
  refine ⟨(a.closed k).2 ?_, fun hal => ?_⟩
  · cases hc : (run c ops).closed k with
    | true => exact .inl rfl
    | false => exact .inr ⟨false, hi.live k cmd h1 hs hc⟩
  · cases hx : ((run c ops).despawn cmd.reserved).ent cmd.reserved with
    | none => exact hal hx
    | some x =>
      obtain ⟨y, hy, hw⟩ := a.watches _ x (hi.old k cmd h1).2 hx
      have := a.view cmd.reserved
      rw [if_pos rfl] at this
      unfold view look at this
      rw [hx] at this
      simp [hw, hi.body k cmd y h1 hy] at this

/-- C59. So does removing the subscription from it. -/
theorem C59_remove (he : (run c ops).IsEntityOf k e) (hs : (run c ops).Subscribed k) :
    (run c (ops ++ [.removeSubscription e])).closed k = true := by
  rw [run_append]
  have hi := Inv.run c ops
  have a := removeSubscription_lose (e := e) hi.plain
  obtain ⟨cmd, h1, rfl⟩ := he
  refine (a.closed k).2 ?_
  cases hc : (run c ops).closed k with
  | true => exact .inl rfl
  | false => exact .inr ⟨false, hi.live k cmd h1 hs hc⟩

/-- C59. Nothing else unsubscribes: an open subscription stays open, unless it is closed itself (it ends, or is unsubscribed
through another handle), it is taken from its entity or its entity is despawned, or the application exits. In
particular, it stays open when the observable is removed, or its entity despawned. -/
theorem C59_stays (ho : (run c ops).Open k) (he : (run c ops).IsEntityOf k e) {op : Op} (h1 : op ≠ .close k)
    (h2 : op ≠ .despawn e) (h3 : op ≠ .removeSubscription e) (h4 : op ≠ .exit) : (run c (ops ++ [op])).Open k := by
  rw [run_append]
  exact (Going.step ⟨he, ho.1, ho.2⟩ (Inv.run c ops) (Fine.run c ops) op h1 h2 h3 h4).2

/-- C59. The entities of closed subscriptions do not outlive the next `Last`. -/
theorem C59_cleanup (he : (run c (ops ++ [.tick])).IsEntityOf k e) (hs : (run c (ops ++ [.tick])).Subscribed k)
    (hc : (run c (ops ++ [.tick])).closed k = true) : ¬ (run c (ops ++ [.tick])).Alive e := by
  have hi := Inv.run c (ops ++ [.tick])
  obtain ⟨cmd, h1, rfl⟩ := he
  intro hal
  cases hx : (run c (ops ++ [.tick])).ent cmd.reserved with
  | none => exact hal hx
  | some x =>
    have ht := (Inv.run c ops).tick_none
    rw [run_append] at hx h1 hs hc
    have := ht.queued k cmd h1 hs hc (by
      refine fun hv => ?_
      rw [view_some.2 ⟨x, show (run c ops).tick.ent cmd.reserved = some x from hx, ht.body k cmd x h1 hx, rfl, rfl⟩] at hv
      cases hv)
    cases this

/-- The second of two subscriptions is open; its observable is gone. The first has ended, and its entity is gone. -/
example : let w := run sample [.spawn, .insertObservable 0 1, .subscribe 0 0, .subscribe 0 0, .despawn 0, .tick]
    w.IsEntityOf 1 3 ∧ w.Open 1 ∧ w.Holds 3 1 ∧ w.IsEntityOf 0 2 ∧ w.Subscribed 0 ∧ w.closed 0 = true ∧
      ¬ w.Alive 2 ∧ ¬ w.Alive 0 := by
  exact ⟨⟨_, rfl, rfl⟩, ⟨fun h => (nomatch h), rfl⟩, ⟨_, rfl, rfl⟩, ⟨_, rfl, rfl⟩, fun h => (nomatch h), rfl,
    fun h => h rfl, fun h => h rfl⟩

/-- It is closed, but its entity is there until the next `Last`. -/
example : let w := run sample [.spawn, .insertObservable 0 1, .subscribe 0 0, .subscribe 0 0, .close 1]
    w.IsEntityOf 1 3 ∧ w.Subscribed 1 ∧ w.closed 1 = true ∧ w.Alive 3 ∧ ¬ (w.step sample .tick).Alive 3 := by
  exact ⟨⟨_, rfl, rfl⟩, fun h => (nomatch h), rfl, fun h => (nomatch h), fun h => h rfl⟩

/-! ## C60: what becomes of a subscribe command -/

/-- C60. A destination is subscribed at most once. -/
theorem C60_once : ((run c ops).made k).length ≤ 1 := (Inv.run c ops).once k

/-- C60. It is subscribed to an observable of the entity it was meant for, and of the right types. -/
theorem C60_types (hord : ∀ l, (c.ord l).Perm l) {t o : Nat} {cmd : Command} (hi : (run c ops).issued k = some cmd)
    (hm : (t, o) ∈ (run c ops).made k) : t = cmd.target ∧ c.out o = cmd.types :=
  (Fine.run c ops).made hord k t o cmd hm hi

/-- C60. What the next subscribe command will be: it is recorded as it is issued, with a new entity. -/
theorem C60_issued (t y : Nat) : ∃ cmd, (run c (ops ++ [.subscribe t y])).issued (run c ops).size = some cmd ∧
    cmd.target = t ∧ cmd.types = y ∧ ∀ i, ¬ (run c ops).IsEntityOf i cmd.reserved := by
  rw [run_append]
  have hi := Inv.run c ops
  have h1 := hi.subscribe_todo t y
  refine ⟨⟨(run c ops).size, t, y, (run c ops).next, maxRetries⟩, ?_, rfl, rfl, ?_⟩
  · show ((run c ops).subscribe c t y).issued _ = _
    rw [subscribe_issue]
    rcases h1.apply_cases with tk | ⟨_, he⟩
    · rw [tk.issued]; exact set_same ..
    · rw [he]; exact set_same ..
  · rintro i ⟨ci, h2, h3⟩
    have := (hi.old i ci h2).2
    have h4 : ci.reserved = (run c ops).next := h3
    omega

/-- C60. If the entity has an observable of the right types, the destination is subscribed to such a one at once, and
stays subscribed, unless the observable ends at once. -/
theorem C60_immediate (hord : ∀ l, (c.ord l).Perm l) (hp : ProperHistory c {} ops) {t y o : Nat}
    (ho : (run c ops).HasObservable t o) (hy : c.out o = y) :
    ∃ o', (run c ops).HasObservable t o' ∧ c.out o' = y ∧
      (run c (ops ++ [.subscribe t y])).made (run c ops).size = [(t, o')] ∧
      (c.sync (run c ops).size = false → (run c (ops ++ [.subscribe t y])).Open (run c ops).size) := by
  rw [run_append]
  have hi := Inv.run c ops
  have htd := Tidy.run hp
  have hft := Fine.run c ops
  have hlt : t < (run c ops).next := by obtain ⟨x, hx, _⟩ := ho; exact hi.plain.lt hx
  have has : ∀ o, ((run c ops).issue t y).HasObservable t o ↔ (run c ops).HasObservable t o := by
    intro o
    unfold HasObservable issue
    dsimp only
    rw [set_other _ _ (by omega)]
  obtain ⟨o', h1, h2, h3, h4⟩ := (hi.subscribe_todo t y).apply_subscribes (htd.issue hi.plain t y) hord ((has o).2 ho) hy
  refine ⟨o', (has o').1 h1, h2, h3, fun hs => ⟨?_, ?_⟩⟩
  · show ((run c ops).subscribe c t y).made _ ≠ []
    rw [subscribe_issue]
    exact fun h => by rw [h3] at h; cases h
  · refine h4 hs (hft.fresh _ (Nat.le_refl _)) ?_
    show set _ _ _ _ ≠ none
    rw [set_same]; simp

/-- C60. If it has none, the command is going to be tried again. -/
theorem C60_waits (hp : ProperHistory c {} ops) {t y : Nat} (hn : ∀ o, (run c ops).HasObservable t o → c.out o ≠ y)
    : (run c (ops ++ [.subscribe t y])).Waiting (run c ops).size ∧
      ¬ (run c (ops ++ [.subscribe t y])).Subscribed (run c ops).size ∧
      (run c (ops ++ [.subscribe t y])).closed (run c ops).size = false := by
  rw [run_append]
  have hi := Inv.run c ops
  have htd := Tidy.run hp
  have hno : ((run c ops).issue t y).observers c t y = [] := by
    refine (htd.issue hi.plain t y).no_observers fun o ho => ?_
    obtain ⟨x, hx, hox⟩ := ho
    by_cases ht : t = (run c ops).next
    · subst ht
      rw [show ((run c ops).issue (run c ops).next y).ent (run c ops).next = some { unfinished := true } from set_same ..] at hx
      cases hx; cases hox
    · exact hn o ⟨x, (set_other _ _ ht).symm.trans hx, hox⟩
  show ((run c ops).subscribe c t y).Waiting _ ∧ ¬ ((run c ops).subscribe c t y).Subscribed _ ∧
    ((run c ops).subscribe c t y).closed _ = false
  rw [subscribe_issue, apply_observers, hno]
  simp only [List.isEmpty_nil, Bool.true_eq_false, if_false]
  rw [if_pos (show 0 < maxRetries by decide)]
  refine ⟨⟨_, List.mem_append_right _ (List.mem_singleton.2 rfl), rfl⟩, fun hs => ?_, ?_⟩
  · exact hs (hi.fresh _ (Nat.le_refl _)).2.1
  · exact (Fine.run c ops).fresh _ (Nat.le_refl _)

/-- C60. A command is tried at most four times. -/
theorem C60_attempts : (run c ops).attempts k ≤ 4 := (Inv.run c ops).bound k

/-- C60. A command that waits has not been tried four times, and has not subscribed. -/
theorem C60_waiting (h : (run c ops).Waiting k) : (run c ops).attempts k ≤ 3 ∧ ¬ (run c ops).Subscribed k := by
  obtain ⟨cmd, hc, rfl⟩ := h
  obtain ⟨_, h1, h2, _⟩ := (Inv.run c ops).pend cmd (List.mem_append_left _ hc)
  rw [show maxRetries = 3 from rfl] at h2
  exact ⟨by omega, fun h => h h1⟩

/-- C60. After three retries nothing is left open: a command has subscribed its destination, or the destination was
unsubscribed (or it was dropped, if that does not unsubscribe it). -/
theorem C60_settles {t y : Nat} {more : List Op} (hr : 3 ≤ retries more) :
    let w := run c (ops ++ .subscribe t y :: more)
    w.Subscribed (run c ops).size ∨ w.closed (run c ops).size = true ∨ c.drops (run c ops).size = false := by
  dsimp only
  rw [run_more, List.foldl_cons]
  have hi := (Inv.run c ops).step (.subscribe t y)
  have hs : (run c ops).size < ((run c ops).step c (.subscribe t y)).size ∧
      1 ≤ ((run c ops).step c (.subscribe t y)).attempts (run c ops).size := by
    have h1 := (Inv.run c ops).subscribe_todo t y
    show _ < ((run c ops).subscribe c t y).size ∧ 1 ≤ ((run c ops).subscribe c t y).attempts _
    rw [subscribe_issue]
    rcases h1.apply_cases with tk | ⟨_, he⟩
    · rw [tk.size, tk.attempts_k (cmd := ⟨_, t, y, (run c ops).next, maxRetries⟩)]
      exact ⟨Nat.lt_succ_self _, Nat.le_add_left _ _⟩
    · rw [he]
      refine ⟨Nat.lt_succ_self _, ?_⟩
      dsimp only
      rw [set_same]; exact Nat.le_add_left _ _
  generalize (run c ops).size = i at hs
  generalize (run c ops).step c (.subscribe t y) = w at hi hs
  have key : ∀ (more : List Op) (w : World), Inv c [] w.despawns w → i < w.size →
      Inv c [] (more.foldl (step c) w).despawns (more.foldl (step c) w) ∧ i < (more.foldl (step c) w).size ∧
      (i ∈ (more.foldl (step c) w).pending.map (·.k) →
        i ∈ w.pending.map (·.k) ∧ w.attempts i + retries more ≤ (more.foldl (step c) w).attempts i) := by
    intro more
    induction more with
    | nil => exact fun w hi hs => ⟨hi, hs, fun h => ⟨h, Nat.le_refl _⟩⟩
    | cons op more ih =>
      intro w hi hs
      obtain ⟨h1, h2⟩ := hi.step_pending op hs
      obtain ⟨h3, h4, h5⟩ := ih _ (hi.step op) h1
      refine ⟨h3, h4, fun h => ?_⟩
      obtain ⟨h6, h7⟩ := h5 h
      obtain ⟨h8, h9⟩ := h2 h6
      refine ⟨h8, ?_⟩
      have : retries (op :: more) ≤ Op.retries op + retries more := by
        unfold retries
        rw [List.countP_cons]
        cases op <;> simp [Op.retries] <;> omega
      rw [List.foldl_cons]
      omega
  obtain ⟨h1, h2, h3⟩ := key more w hi hs.1
  rcases h1.settled i h2 with h | h
  · rw [List.append_nil] at h
    obtain ⟨_, h4⟩ := h3 h
    obtain ⟨cmd, hc, rfl⟩ := List.mem_map.1 h
    obtain ⟨_, _, h5, _⟩ := h1.pend cmd (List.mem_append_left _ hc)
    rw [show maxRetries = 3 from rfl] at h5
    omega
  · exact h

/-- C60, as far as it goes: if there is an observable of the right types when the command is tried again, the destination
is subscribed, provided that the entity of the subscription is still there. Missing: `C60_retry_lost`. (The entity the command is about is not that of a subscription itself.) -/
theorem C60_retry_partial (hord : ∀ l, (c.ord l).Perm l) (hp : ProperHistory c {} ops) {cmd : Command} {o : Nat}
    (hw : cmd ∈ (run c ops).pending) (ho : (run c ops).HasObservable cmd.target o) (hy : c.out o = cmd.types)
    (hal : (run c ops).Alive cmd.reserved) (hop : (run c ops).closed cmd.k = false) (hs : c.sync cmd.k = false)
    (ht : ∀ i, ¬ (run c ops).IsEntityOf i cmd.target) : (run c (ops ++ [.retry])).Open cmd.k := by
  rw [run_append]
  have hi := (Inv.run c ops).requeue
  have htd := Tidy.run hp
  have key : ∀ (l : List Command) (w : World), Inv c l w.despawns w → Tidy w → cmd ∈ l → w.HasObservable cmd.target o →
      w.ent cmd.reserved ≠ none → w.closed cmd.k = false → (∀ i, ¬ w.IsEntityOf i cmd.target) →
      (l.foldl (fun w cmd => w.apply c cmd) w).Open cmd.k := by
    intro l
    induction l with
    | nil => exact fun w _ _ h => by cases h
    | cons d l ih =>
      intro w hi htd hm ho hal hop ht
      rw [List.foldl_cons]
      by_cases hd : d.k = cmd.k
      · -- it is this one
        have hdc : cmd = d := by
          rcases List.mem_cons.1 hm with h | h
          · exact h
          · have := hi.nodup
            rw [List.map_append, List.map_cons, List.nodup_append] at this
            exact absurd (hd ▸ List.mem_map_of_mem h) (List.nodup_cons.1 this.2.1).1
        subst hdc
        obtain ⟨o', h1, h2, h3, h4⟩ := hi.apply_subscribes htd hord ho hy
        have hg : Going (w.apply c cmd) cmd.k cmd.reserved := by
          obtain ⟨⟨c0, hc0, hcmd⟩, _⟩ := hi.pend cmd (by simp)
          refine ⟨⟨c0, ?_, by rw [hcmd]⟩, by rw [h3]; simp, h4 hs hop hal⟩
          rcases hi.apply_cases with tk | ⟨_, he⟩
          · rw [tk.issued]; exact hc0
          · rw [he]; exact hc0
        exact (hg.applyAll l hi.apply).2
      · have hml : cmd ∈ l := by
          rcases List.mem_cons.1 hm with h | h
          · exact absurd (by rw [h]) hd
          · exact h
        obtain ⟨⟨cd, hcd, hd1⟩, _⟩ := hi.pend d (by simp)
        obtain ⟨⟨c0, hc0, hcmd⟩, _⟩ := hi.pend cmd (by simp [hml])
        have hrd : d.reserved = cd.reserved := by rw [hd1]
        have hrc : cmd.reserved = c0.reserved := by rw [hcmd]
        have hne : cmd.reserved ≠ d.reserved := fun h =>
          hd (hi.inj d.k cmd.k cd c0 hcd hc0 (by rw [← hrd, ← hrc, h]))
        have hto : cmd.target ≠ d.reserved := fun h => ht d.k ⟨cd, hcd, by rw [← hrd, h]⟩
        refine ih _ hi.apply (htd.apply hi) hml (htd.apply_has hto ho) ?_ ?_ ?_
        · intro hn
          rcases hi.apply_cases with tk | ⟨_, he⟩
          · have hv := tk.view _ hne
            cases hx : w.ent cmd.reserved with
            | none => exact hal hx
            | some x =>
              have hxw : x.watches = none := hi.body _ c0 x hc0 (by rw [← hrc]; exact hx)
              rw [view_some.2 ⟨x, hx, hxw, rfl, rfl⟩] at hv
              unfold view at hv
              rw [hn] at hv; cases hv
          · rw [he] at hn; exact hal hn
        · rcases hi.apply_cases with tk | ⟨_, he⟩
          · rw [tk.closed _ (fun h => hd h.symm)]; exact hop
          · rw [he]; exact hop
        · rintro i ⟨ci, h1, h2⟩
          refine ht i ⟨ci, ?_, h2⟩
          rcases hi.apply_cases with tk | ⟨_, he⟩
          · rw [tk.issued] at h1; exact h1
          · rw [he] at h1; exact h1
  exact key _ _ hi (htd.shape fun _ => rfl) hw ho hal hop ht

/-- The entity of a command that waits: it has nothing yet. -/
theorem waiting_unfinished {cmd : Command} (hw : cmd ∈ (run c ops).pending) : cmd.reserved < (run c ops).next ∧
    (∀ x, (run c ops).ent cmd.reserved = some x → x.unfinished = true ∧ x.watches = none) ∧
    (run c ops).IsEntityOf cmd.k cmd.reserved := by
  have hi := Inv.run c ops
  obtain ⟨⟨c0, hc0, hcmd⟩, _, _, hv⟩ := hi.pend cmd (List.mem_append_left _ hw)
  have hr : cmd.reserved = c0.reserved := by rw [hcmd]
  refine ⟨by rw [hr]; exact (hi.old _ _ hc0).2, fun x hx => ?_, ⟨c0, hc0, hr.symm⟩⟩
  have hxw : x.watches = none := hi.body _ c0 x hc0 (by rw [← hr]; exact hx)
  have := hv _ (view_some.2 ⟨x, hx, hxw, rfl, rfl⟩)
  exact ⟨(Prod.mk.inj this).1, hxw⟩

/-- The entity of a subscription stays the same. -/
theorem entity_stays (he : (run c ops).IsEntityOf k e) (more : List Op) : (run c (ops ++ more)).IsEntityOf k e := by
  obtain ⟨cmd, h1, h2⟩ := he
  rw [run_more]
  exact ⟨cmd, (Inv.run c ops).all_issued more h1, h2⟩

/-- If its entity is gone, a subscription is not open. -/
theorem not_open (he : (run c ops).IsEntityOf k e) (hg : ¬ (run c ops).Alive e) : ¬ (run c ops).Open k := fun ho => by
  obtain ⟨x, hx, _⟩ := C59_entity ho he
  exact hg (fun h => by rw [h] at hx; cases hx)

/-- C60 does not hold as the documentation states it ("It will always work, but in some cases the subscription will only be
created in the next frame's First"): the systems of `Last` despawn the entity of a subscription that waits, so it is never
subscribed for longer than a moment. -/
theorem C60_retry_lost (hw : (run c ops).Waiting k) (more : List Op) :
    ¬ (run c (ops ++ .clean :: more)).Open k := by
  obtain ⟨cmd, hc, rfl⟩ := hw
  obtain ⟨h1, h2, h3⟩ := waiting_unfinished hc
  refine not_open (entity_stays h3 _) fun hal => hal ?_
  rw [run_more, List.foldl_cons]
  exact (((Inv.run c ops).clean_gone h1 h2).all more ((Inv.run c ops).step .clean)).2

/-- Neither is it after the entity is despawned by the application: the command still waits for its observable, but in vain. -/
theorem C60_despawn_waiting (hw : (run c ops).Waiting k) (he : (run c ops).IsEntityOf k e) (more : List Op) :
    ¬ (run c (ops ++ .despawn e :: more)).Open k := by
  obtain ⟨cmd, hc, rfl⟩ := hw
  obtain ⟨h1, h2, h3⟩ := waiting_unfinished hc
  cases entity_unique he h3
  refine not_open (entity_stays h3 _) fun hal => hal ?_
  rw [run_more, List.foldl_cons]
  exact ((despawnAll_gone [cmd.reserved] (by simp) (Inv.run c ops).plain h1 fun x hx => (h2 x hx).2).all more
    ((Inv.run c ops).step (.despawn cmd.reserved))).2

/-- The scenario of the documentation: a frame in which the observable is not there yet, and the next frame. The destination is
subscribed, for a moment; the entity that was returned is gone. -/
theorem C60_retry_lost_example :
    let w := run sample [.spawn, .subscribe 0 0, .insertObservable 0 1, .clean, .tick, .retry]
    w.made 0 = [(0, 1)] ∧ w.closed 0 = true ∧ w.faults = [] ∧ w.IsEntityOf 0 1 ∧ ¬ w.Alive 1 := by
  exact ⟨rfl, rfl, rfl, ⟨_, rfl, rfl⟩, fun h => h rfl⟩

/-- The same with an observable that does not end at once: the insertion fails. -/
example :
    let w := run { sample with sync := fun _ => false }
      [.spawn, .subscribe 0 0, .insertObservable 0 1, .clean, .tick, .retry]
    w.made 0 = [(0, 1)] ∧ w.closed 0 = true ∧ w.faults = [0] ∧ ¬ w.Alive 1 := by
  exact ⟨rfl, rfl, rfl, fun h => h rfl⟩

/-- If the retry were before the cleanup, it would work. -/
example :
    let w := run { sample with sync := fun _ => false } [.spawn, .subscribe 0 0, .insertObservable 0 1, .retry]
    w.made 0 = [(0, 1)] ∧ w.closed 0 = false ∧ w.faults = [] ∧ w.Holds 1 0 := by
  exact ⟨rfl, rfl, rfl, _, rfl, rfl⟩

/-- Its hypotheses: the observable is there, the command waits, its entity is there. -/
example :
    let ops := [Op.spawn, .subscribe 0 0, .insertObservable 0 1]
    let w := run { sample with sync := fun _ => false } ops
    ProperHistory { sample with sync := fun _ => false } {} ops ∧ w.pending = [⟨0, 0, 0, 1, 2⟩] ∧ w.HasObservable 0 1 ∧
      w.Alive 1 ∧ w.closed 0 = false ∧ ∀ i, ¬ w.IsEntityOf i 0 := by
  refine ⟨⟨trivial, trivial, ?_, trivial⟩, rfl, ⟨_, rfl, by decide⟩, fun h => (nomatch h), rfl, ?_⟩
  · rintro ⟨x, hx, ho⟩
    cases hx; cases ho
  · rintro i ⟨cmd, h1, h2⟩
    match i with
    | 0 => cases h1; cases h2
    | i + 1 => exact nomatch h1

/-- The command gives up in the fourth attempt. -/
example : let w := run sample [.spawn, .subscribe 0 0, .retry, .retry]
    w.Waiting 0 ∧ w.attempts 0 = 3 ∧ w.closed 0 = false ∧ (w.step sample .retry).closed 0 = true ∧
      (w.step sample .retry).pending = [] ∧ (w.step sample .retry).attempts 0 = 4 := by
  exact ⟨⟨⟨0, 0, 0, 1, 0⟩, List.mem_singleton.2 rfl, rfl⟩, rfl, rfl, rfl, rfl, rfl⟩

/-- `C60_immediate` and `C60_waits` are about proper histories. If an observable is inserted over another of the same type
and then removed, a satellite is left behind, that no longer stands for an observable. A subscribe command finds it, and
ends, although there is no observable: it does not wait for one. -/
theorem C60_stale_satellite :
    let ops := [Op.spawn, .insertObservable 0 1, .insertObservable 0 1, .removeObservable 0 1]
    (∀ o, ¬ (run sample ops).HasObservable 0 o) ∧ ¬ (run sample (ops ++ [.subscribe 0 0])).Waiting 0 ∧
      (run sample (ops ++ [.subscribe 0 0])).closed 0 = true := by
  refine ⟨?_, ?_, rfl⟩
  · rintro o ⟨x, hx, ho⟩
    cases hx
    exact nomatch (show o ∈ ([] : List Nat) from ho)
  · rintro ⟨cmd, hc, _⟩
    exact nomatch hc

/-! ## C61: the application exits -/

theorem closeAll_closed (l : List Nat) (w : World) (i : Nat) :
    (l.foldl (fun w k => w.close k) w).closed i = true ↔ w.closed i = true ∨ i ∈ l := by
  induction l generalizing w with
  | nil => simp
  | cons k l ih =>
    rw [List.foldl_cons, ih, close_closed, List.mem_cons]
    exact or_assoc

/-- C61. When the application exits, every subscription is unsubscribed. -/
theorem C61_exit (hs : (run c (ops ++ [.exit])).Subscribed k) : (run c (ops ++ [.exit])).closed k = true := by
  rw [run_append] at hs ⊢
  have hi := (Inv.run c ops).retry
  change ((run c ops).exit c).made k ≠ [] at hs
  show ((run c ops).exit c).closed k = true
  unfold World.exit at hs ⊢
  dsimp only at hs ⊢
  rw [(closeAll_rest _).made] at hs
  rw [closeAll_closed]
  generalize (run c ops).retry c = w at hi hs
  cases hc : w.closed k with
  | true => exact .inl rfl
  | false =>
    right
    obtain ⟨cmd, h1⟩ := hi.known k (Nat.lt_of_not_le fun h => hs (hi.fresh k h).2.1)
    obtain ⟨x, hx, _, _, hsub⟩ := view_some.1 (hi.live k cmd h1 hs hc)
    rw [List.mem_filterMap]
    exact ⟨cmd.reserved, List.mem_range.2 (hi.old k cmd h1).2, by rw [hx]; exact hsub⟩

/-- Two subscriptions are open, one of them through a retry. -/
example : let c := { sample with sync := fun _ => false }
    let w := run c [.spawn, .spawn, .insertObservable 0 1, .subscribe 0 0, .subscribe 1 0, .insertObservable 1 2]
    w.Open 0 ∧ w.Waiting 1 ∧ (w.step c .exit).Subscribed 1 ∧ (w.step c .exit).closed 0 = true ∧
      (w.step c .exit).closed 1 = true := by
  exact ⟨⟨fun h => (nomatch h), rfl⟩, ⟨_, List.mem_singleton.2 rfl, rfl⟩, fun h => (nomatch h), rfl, rfl⟩

end Rx.Bevy.World.Props
