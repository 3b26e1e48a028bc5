import Verif.Lemmas.HigherOrder
import Verif.Lemmas.Delivers

/-!
# The concurrent subscriber
-/

namespace Rx.HigherOrder.Concurrent

variable {S I E : Type} {D : Sub S I E} {limit : Nat} {tidy clean : Prop}

/-- Open: the destination has not ended. -/
structure Open (D : Sub S I E) (limit : Nat) (tidy : Prop) (c : List Nat) (d : Nat) (x : State S I E) : Prop where
  outer : x.outerClosed = false
  dest : D.isClosed x.dest = false
  down : x.down.isClosed = false
  err : x.up.isErrored = false
  unsub : x.up.isUnsubscribed = x.up.isCompleted
  nonC : x.nonCompleted = x.opened.length
  nonU : x.nonUnsubscribed = x.opened.length
  slabLen : x.opened.length ≤ x.slab.length
  slabQ : x.queue ≠ [] → limit ≤ x.slab.length
  key : ∀ a ∈ x.opened, x.key a < x.slab.length
  slabbed : ∀ a ∈ x.opened, a ∉ x.busy → some a ∈ x.slab
  all : tidy → subsOf x.log ++ x.queue.map (·.1) = List.range x.arrived
  full : tidy → x.queue ≠ [] → x.opened.length + d = limit + c.length

/-- Ended, and all inner subscribers are closed, but for those busy completing. -/
structure Dead (D : Sub S I E) (c : List Nat) (x : State S I E) : Prop where
  outer : x.outerClosed = true
  dest : D.isClosed x.dest = true
  nonC : x.nonCompleted = x.opened.length
  nonU : x.nonUnsubscribed = x.opened.length
  mem : ∀ a ∈ x.opened, a ∈ c
  down : c ≠ [] → x.down.isUnsubscribed = true

abbrev B (D : Sub S I E) (limit : Nat) (tidy clean : Prop) (c : List Nat) (d : Nat) (x : State S I E) : Prop :=
  Base limit tidy clean c d (D.isClosed x.dest) x.queue x.opened x.log x.arrived x.up.isCompleted

/-- Who is busy: those completing, and `e`. -/
structure Fits (c e : List Nat) (x : State S I E) : Prop where
  sub : ∀ b ∈ c, b ∈ x.busy
  sup : ∀ b ∈ x.opened, b ∈ x.busy → b ∈ c ∨ b ∈ e

structure Good (D : Sub S I E) (limit : Nat) (tidy clean : Prop) (c e : List Nat) (x : State S I E) : Prop where
  base : B D limit tidy clean c 0 x
  fits : Fits c e x
  phase : Open D limit tidy c 0 x ∨ Dead D c x

/-- What an action leaves as it is. -/
structure Ext (x y : State S I E) : Prop where
  busy : y.busy = x.busy
  queue : y.queue <:+ x.queue
  log : x.log <+: y.log
  arrived : y.arrived = x.arrived ∧ y.up.isCompleted = x.up.isCompleted
  slab : y.outerClosed = false → x.slab <+: y.slab
  up : y.outerClosed = false → y.up = x.up
  outer : x.outerClosed = true → y.outerClosed = true

theorem Ext.refl (x : State S I E) : Ext x x :=
  ⟨rfl, List.suffix_refl _, List.prefix_refl _, ⟨rfl, rfl⟩, fun _ => List.prefix_refl _, fun _ => rfl, id⟩

theorem Ext.trans {x y z : State S I E} (h : Ext x y) (h' : Ext y z) : Ext x z where
  busy := h'.busy.trans h.busy
  queue := h'.queue.trans h.queue
  log := h.log.trans h'.log
  arrived := ⟨h'.arrived.1.trans h.arrived.1, h'.arrived.2.trans h.arrived.2⟩
  slab hz := by
    have hy : y.outerClosed = false := by
      cases hy : y.outerClosed
      · rfl
      · rw [h'.outer hy] at hz; exact hz
    exact (h.slab hy).trans (h'.slab hz)
  up hz := by
    have hy : y.outerClosed = false := by
      cases hy : y.outerClosed
      · rfl
      · rw [h'.outer hy] at hz; exact hz
    exact (h'.up hz).trans (h.up hy)
  outer hx := h'.outer (h.outer hx)

/-- Only inner observables that were subscribed are busy. -/
def Old (x : State S I E) : Prop := ∀ b ∈ x.busy, b ∈ subsOf x.log

theorem subsOf_mono {l l' : List (Log I E)} (h : l <+: l') : ∀ b ∈ subsOf l, b ∈ subsOf l' := by
  obtain ⟨t, rfl⟩ := h
  intro b hb
  simp only [subsOf, List.filterMap_append] at *
  exact List.mem_append_left _ hb

theorem Ext.old {x y : State S I E} (h : Ext x y) (ho : Old x) : Old y := by
  intro b hb
  rw [h.busy] at hb
  exact subsOf_mono h.log b (ho b hb)

/-- There is something to wait for. -/
def Waits (x : State S I E) : Prop :=
  x.outerClosed = false → x.up.isCompleted = true → x.opened ≠ [] ∨ x.queue ≠ []

theorem b_open {c : List Nat} {d : Nat} {x : State S I E} (h : B D limit tidy clean c d x)
    (hd : D.isClosed x.dest = false) :
    Base limit tidy clean c d false x.queue x.opened x.log x.arrived x.up.isCompleted := by
  unfold B at h
  rw [hd] at h
  exact h

/-! ### Draining -/

theorem innerUnsubscribed_ok (x : State S I E) (completed : Bool) (hU : 0 < x.nonUnsubscribed)
    (hC : completed = true ∨ 0 < x.nonCompleted) :
    x.innerUnsubscribed completed = .ok { x with
      down := if x.canUnsubscribe then x.down.unsubscribeIfNotAlready else x.down
      nonUnsubscribed := x.nonUnsubscribed - 1
      nonCompleted := if completed then x.nonCompleted else x.nonCompleted - 1 } := by
  have hU' : x.nonUnsubscribed ≠ 0 := by omega
  rcases hC with rfl | hC
  · simp [State.innerUnsubscribed, State.dec, hU', bind, Except.bind, pure, Except.pure]
  · have hC' : x.nonCompleted ≠ 0 := by omega
    cases completed <;>
      simp [State.innerUnsubscribed, State.dec, hU', hC', bind, Except.bind, pure, Except.pure]

/-- What the last part of `onUnsubscribe` does once the destination and `T` are closed: nothing. -/
theorem onUnsubscribe_idle {T pop : Action S I E} {key : Nat} {x : State S I E}
    (hd : D.isClosed x.dest = true) (hT : T x = .ok x)
    (hp : (((List.range x.slab.length).filter (· != key)).length == limit - 1 && !x.down.isClosed) = true → pop x = .ok x) :
    onUnsubscribe D limit T pop key x = .ok x := by
  have htail : (if x.canUnsubscribe && !x.up.isErrored && !x.down.isErrored then
      (give D T none .unsubscribe x >>= T) else pure x : Except Fault (State S I E)) = .ok x := by
    split
    · simp only [give, hd, if_true, bind, Except.bind]
      exact hT
    · rfl
  simp only [onUnsubscribe, bind, Except.bind, pure, Except.pure]
  split
  · rename_i h
    rw [hp h]
    exact htail
  · exact htail

theorem onUnsubscribe_closed {T pop : Action S I E} {key : Nat} {x : State S I E}
    (hd : D.isClosed x.dest = true) (hT : T x = .ok x)
    (hp : (((List.range x.slab.length).filter (· != key)).length == limit - 1 && !x.down.isClosed) = false) :
    onUnsubscribe D limit T pop key x = .ok x :=
  onUnsubscribe_idle hd hT fun h => by rw [hp] at h; cases h

/-- One subscription is unsubscribed by `drain`. -/
theorem drain_one {x : State S I E} {a fuel : Nat} (hd : D.isClosed x.dest = true) (hs : x.slab = [])
    (hl : (2 ≤ limit ∨ x.queue = []) ∨ ∀ b ∈ x.opened, b ∈ x.busy) (hC : x.nonCompleted = x.opened.length ∨ ∀ b ∈ x.opened, b ∈ x.busy)
    (hU : x.nonUnsubscribed = x.opened.length) :
    innerCancel (onUnsubscribe D limit .ok (pop D limit .ok (fuel + 1))) a x = .ok
      (if a ∈ x.opened ∧ a ∉ x.busy then { x with
        opened := x.opened.erase a
        log := x.log ++ [.done a]
        down := if x.canUnsubscribe then x.down.unsubscribeIfNotAlready else x.down
        nonUnsubscribed := x.nonUnsubscribed - 1
        nonCompleted := x.nonCompleted - 1 } else x) := by
  by_cases hb : a ∈ x.busy
  · simp [innerCancel, hb]
  by_cases ha : a ∈ x.opened
  · have hl' := hl.resolve_right fun h => hb (h a ha)
    have hC' : x.nonCompleted = x.opened.length := hC.resolve_right fun h => hb (h a ha)
    have hpos := List.length_pos_of_mem ha
    simp only [innerCancel, hb, if_false, innerUnsubscribe, ha, if_true, not_false_eq_true, and_true,
      Bool.false_eq_true]
    rw [innerUnsubscribed_ok _ _ (by simpa [hU] using hpos) (.inr (by simpa [hC'] using hpos))]
    simp only [bind, Except.bind, Bool.false_eq_true, if_false, pure, Except.pure, State.canUnsubscribe]
    split
    · rfl
    · refine onUnsubscribe_idle (by exact hd) rfl fun hcond => ?_
      rcases hl' with hl' | hl'
      · have h0 : (0 == limit - 1) = false := by
          simp only [beq_eq_false_iff_ne, ne_eq]; omega
        simp only [hs, List.length_nil, List.range_zero, List.filter_nil, h0, Bool.false_and] at hcond
        cases hcond
      · simp [pop, hl']
  · simp [innerCancel, hb, innerUnsubscribe, ha]

/-- The loop of `drain`. -/
theorem drain_loop (ks : List Nat) : ∀ {x : State S I E} (_ : D.isClosed x.dest = true) (_ : x.slab = [])
    (_ : (2 ≤ limit ∨ x.queue = []) ∨ ∀ b ∈ x.opened, b ∈ x.busy)
    (_ : x.nonCompleted = x.opened.length ∨ ∀ b ∈ x.opened, b ∈ x.busy)
    (_ : x.nonUnsubscribed = x.opened.length),
    ∃ (o : List Nat) (nc nu : Nat) (down : SubscriberState) (l : List Nat),
      ks.foldlM (fun x a => innerCancel (onUnsubscribe D limit .ok (pop D limit .ok (x.queue.length + 1))) a x) x =
        .ok { x with opened := o, nonCompleted := nc, nonUnsubscribed := nu, down := down,
                     log := x.log ++ l.map Log.done } ∧
      nu = o.length ∧ (x.nonCompleted = x.opened.length → nc = o.length) ∧
      ((∀ b ∈ x.opened, b ∈ x.busy) → nc = x.nonCompleted ∧ o = x.opened ∧ l = [] ∧ down = x.down) ∧
      (∀ b, b ∈ o → b ∈ x.opened) ∧ (∀ b ∈ x.opened, b ∈ x.busy → b ∈ o) ∧ (x.opened.Nodup → ∀ b ∈ o, b ∈ ks → b ∈ x.busy) ∧
      down.isErrored = x.down.isErrored ∧ down.isCompleted = x.down.isCompleted ∧
      (x.down.isUnsubscribed = true → down.isUnsubscribed = true) ∧
      ∀ (tidy clean : Prop) (c : List Nat) (d : Nat) (cl up : Bool), (∀ b ∈ c, b ∈ x.busy) →
        Base limit tidy clean c d cl x.queue x.opened x.log x.arrived up →
        Base limit tidy clean c d cl x.queue o (x.log ++ l.map Log.done) x.arrived up := by
  induction ks with
  | nil =>
    intro x hd hs hl hC hU
    refine ⟨x.opened, x.nonCompleted, x.nonUnsubscribed, x.down, [], ?_, hU, id, ?_, fun _ => id, fun _ hb _ => hb, ?_, rfl, rfl, id, ?_⟩
    · simp [pure, Except.pure]
    · exact fun _ => ⟨rfl, rfl, rfl, rfl⟩
    · exact fun _ b _ hb => by cases hb
    · intro tidy clean c d cl up hc h
      simpa using h
  | cons a ks ih =>
    intro x hd hs hl hC hU
    simp only [List.foldlM_cons, bind, Except.bind]
    rw [drain_one hd hs hl hC hU]
    by_cases h : a ∈ x.opened ∧ a ∉ x.busy
    · have hl' := hl.resolve_right fun hh => h.2 (hh a h.1)
      have hC' : x.nonCompleted = x.opened.length := hC.resolve_right fun hh => h.2 (hh a h.1)
      have hlen := List.length_erase_of_mem h.1
      simp only [h, not_false_eq_true, and_self, if_true]
      obtain ⟨o, nc, nu, down, l, h1, h2, h3, h4, h5, h5', h6, h7, h8, h9, h10⟩ := @ih { x with
        opened := x.opened.erase a
        log := x.log ++ [.done a]
        down := if x.canUnsubscribe then x.down.unsubscribeIfNotAlready else x.down
        nonUnsubscribed := x.nonUnsubscribed - 1
        nonCompleted := x.nonCompleted - 1 } hd hs (.inl hl') (.inl (by simp [hC', hlen])) (by simp [hU, hlen])
      refine ⟨o, nc, nu, down, a :: l, ?_, h2, fun _ => h3 (by simp [hC', hlen]), fun hh => absurd (hh a h.1) h.2,
        fun b hb => List.mem_of_mem_erase (h5 b hb),
        fun b hb hbb => h5' b ((List.mem_erase_of_ne fun (hba : b = a) => h.2 (hba ▸ hbb)).2 hb) hbb, ?_, ?_, ?_, ?_, ?_⟩
      · rw [h1]; simp
      · intro hnd b hb hbk
        rcases List.mem_cons.1 hbk with rfl | hbk
        · exact absurd (h5 b hb) (fun hbe => (hnd.mem_erase_iff.1 hbe).1 rfl)
        · exact h6 (hnd.erase a) b hb hbk
      · rw [h7]; simp only; split <;> rfl
      · rw [h8]; simp only; split <;> rfl
      · intro hu
        refine h9 ?_
        simp only
        split
        · rfl
        · exact hu
      · intro tidy clean c d cl up hc hb
        have hac : a ∉ c := fun hac => h.2 (hc a hac)
        have := h10 tidy clean c d cl up hc ((hb.close h.1 hac).weaken (by omega))
        simpa using this
    · rw [if_neg h]
      obtain ⟨o, nc, nu, down, l, h1, h2, h3, h4, h5, h5', h6, h7, h8, h9, h10⟩ := @ih x hd hs hl hC hU
      refine ⟨o, nc, nu, down, l, h1, h2, h3, h4, h5, h5', ?_, h7, h8, h9, h10⟩
      intro hnd b hb hbk
      rcases List.mem_cons.1 hbk with rfl | hbk
      · exact Classical.not_not.1 fun hbb => h ⟨h5 b hb, hbb⟩
      · exact h6 hnd b hb hbk

/-- `outer_teardown` once the destination is closed. -/
theorem teardown_spec {x : State S I E} (ho : x.outerClosed = false) (hd : D.isClosed x.dest = true)
    (hl : (2 ≤ limit ∨ x.queue = []) ∨ ∀ b ∈ x.opened, b ∈ x.busy)
    (hC : x.nonCompleted = x.opened.length ∨ ∀ b ∈ x.opened, b ∈ x.busy)
    (hU : x.nonUnsubscribed = x.opened.length) {c : List Nat} {d : Nat} (hc : ∀ b ∈ c, b ∈ x.busy)
    (hB : B D limit tidy clean c d x) (hs : ∀ a ∈ x.opened, a ∉ x.busy → some a ∈ x.slab) :
    ∃ y, teardown D limit x = .ok y ∧ y.outerClosed = true ∧ y.dest = x.dest ∧ B D limit tidy clean c d y ∧
      (∀ b ∈ y.opened, b ∈ x.opened ∧ b ∈ x.busy) ∧ (∀ b ∈ x.opened, b ∈ x.busy → b ∈ y.opened) ∧ y.nonUnsubscribed = y.opened.length ∧
      (x.nonCompleted = x.opened.length → y.nonCompleted = y.opened.length) ∧
      ((∀ b ∈ x.opened, b ∈ x.busy) → y.nonCompleted = x.nonCompleted ∧ y.opened = x.opened) ∧
      y.down.isErrored = x.down.isErrored ∧ y.down.isCompleted = x.down.isCompleted ∧
      (x.down.isUnsubscribed = true → y.down.isUnsubscribed = true) ∧ y.up.isCompleted = x.up.isCompleted ∧
      y.queue = x.queue ∧ y.busy = x.busy ∧ y.arrived = x.arrived ∧ ∃ l : List Nat, y.log = x.log ++ l.map Log.done := by
  obtain ⟨o, nc, nu, down, l, h1, h2, h3, h4, h5, h5', h6, h7, h8, h9, h10⟩ :=
    @drain_loop S I E D limit (x.slab.filterMap id) { x with outerClosed := true, slab := [] } hd rfl hl hC hU
  simp only [teardown, ho, Bool.false_eq_true, if_false, drain]
  rw [h1]
  refine ⟨_, rfl, rfl, rfl, ?_, ?_, h5', h2, h3, ?_, h7, h8, h9, rfl, rfl, rfl, rfl, l, rfl⟩
  · exact h10 tidy clean c d _ _ hc hB
  · intro b hb
    refine ⟨h5 b hb, Classical.not_not.1 fun hbb => hbb (h6 hB.nodup b hb ?_)⟩
    exact List.mem_filterMap.2 ⟨some b, hs b (h5 b hb) hbb, rfl⟩
  · exact fun hh => ⟨(h4 hh).1, (h4 hh).2.1⟩

theorem teardown_closed {x : State S I E} (h : x.outerClosed = true) : teardown D limit x = .ok x := by
  simp [teardown, h]

/-! ### Inner subscribers -/

theorem Base.clearQueue {c : List Nat} {d : Nat} {closed : Bool}
    {queue : List (Nat × Src I E)} {opened : List Nat} {log : List (Log I E)} {arrived : Nat} {up : Bool}
    (h : Base limit tidy clean c d closed queue opened log arrived up) :
    Base limit tidy clean c d closed [] opened log arrived up :=
  { h with
    once := by simpa using (List.nodup_append.1 h.once).1
    lt := by
      intro a ha
      exact h.lt a (List.mem_append_left _ (by simpa using ha))
    order := fun ht => by simpa using (List.pairwise_append.1 (h.order ht)).1
    srcs := fun _ q hq => by cases hq
    srcsC := fun _ q hq => by cases hq
    compl := fun hm => ⟨(h.compl hm).1, (h.compl hm).2.1, rfl, (h.compl hm).2.2.2⟩ }

/-- Only one inner observable is active if the limit is one. -/
theorem only {x : State S I E} {c : List Nat} {d : Nat} {a : Nat} (hB : B D limit tidy clean c d x) (hl : limit ≤ 1)
    (ha : a ∈ x.opened) (hac : a ∉ c) : ∀ b ∈ x.opened, b ∈ c ∨ b = a := by
  intro b hb
  have hla := ((hB.mem a).1 ha).resolve_right hac
  have hlen := hB.live_bound
  rcases (hB.mem b).1 hb with h | h
  · refine .inr ?_
    match hlv : live x.log with
    | [] => rw [hlv] at hla; cases hla
    | [e] =>
      rw [hlv, List.mem_singleton] at hla h
      rw [h, hla]
    | _ :: _ :: _ => rw [hlv] at hlen; simp at hlen; omega
  · exact .inl h

/-- An inner subscriber is closed after the destination. -/
theorem unsub_dead {x : State S I E} {P : Action S I E} {c : List Nat} {d : Nat} {a : Nat}
    (ho : x.outerClosed = true) (hd : D.isClosed x.dest = true) (hdown : x.down.isClosed = true)
    (hB : B D limit tidy clean c d x) (hac : a ∉ c) (hm : ∀ b ∈ x.opened, b ∈ c ∨ b = a)
    (hC : x.nonCompleted = x.opened.length) (hU : x.nonUnsubscribed = x.opened.length)
    (hdu : c ≠ [] → a ∉ x.opened → x.down.isUnsubscribed = true) :
    ∃ y, innerUnsubscribe (onUnsubscribe D limit (teardown D limit) P) false a x = .ok y ∧
      B D limit tidy clean c d y ∧ Dead D c y ∧ y.busy = x.busy ∧ y.queue = x.queue ∧ x.log <+: y.log ∧
      (y.arrived = x.arrived ∧ y.up.isCompleted = x.up.isCompleted) ∧ (∀ b ∈ y.opened, b ∈ x.opened) ∧ ∃ l : List Nat, y.log = x.log ++ l.map Log.done := by
  by_cases ha : a ∈ x.opened
  · have hpos := List.length_pos_of_mem ha
    have hlen := List.length_erase_of_mem ha
    have hcan : (State.canUnsubscribe { x with opened := x.opened.erase a, log := x.log ++ [Log.done a] }) = true := by
      simp [State.canUnsubscribe, hdown]
    refine ⟨{ x with
        opened := x.opened.erase a
        log := x.log ++ [.done a]
        down := x.down.unsubscribeIfNotAlready
        nonUnsubscribed := x.nonUnsubscribed - 1
        nonCompleted := x.nonCompleted - 1 }, ?_, ?_, ?_, rfl, rfl, List.prefix_append _ _, ⟨rfl, rfl⟩, ?_, [a], rfl⟩
    · simp only [innerUnsubscribe, ha, if_true, Bool.false_eq_true, if_false]
      rw [innerUnsubscribed_ok _ _ (by simpa [hU] using hpos) (.inr (by simpa [hC] using hpos)), hcan]
      simp only [bind, Except.bind, Bool.false_eq_true, if_false, if_true, pure, Except.pure]
      split
      · rfl
      · refine onUnsubscribe_closed (by exact hd) (teardown_closed ho) ?_
        simp [SubscriberState.isClosed, SubscriberState.isUnsubscribed, SubscriberState.unsubscribeIfNotAlready]
    · exact (hB.close ha hac).weaken (by omega)
    · refine ⟨ho, hd, ?_, ?_, ?_, fun _ => rfl⟩
      · simp only; omega
      · simp only; omega
      · intro b hb
        have := hB.nodup.mem_erase_iff.1 hb
        exact (hm b this.2).resolve_right this.1
    · exact fun b hb => List.mem_of_mem_erase hb
  · refine ⟨x, by simp [innerUnsubscribe, ha], hB, ⟨ho, hd, hC, hU, ?_, fun h => hdu h ha⟩, rfl, rfl, List.prefix_refl _,
      ⟨rfl, rfl⟩, fun _ => id, [], by simp⟩
    intro b hb
    rcases hm b hb with h | rfl
    · exact h
    · exact absurd hb ha

/-- The same for one that has completed. -/
theorem unsub_dead_completed {x : State S I E} {P : Action S I E} {c : List Nat} {d : Nat} {a : Nat}
    (ho : x.outerClosed = true) (hd : D.isClosed x.dest = true) (hdown : x.down.isClosed = true)
    (hB : B D limit tidy clean (a :: c) d x) (hac : a ∉ c) (hm : ∀ b ∈ x.opened, b ∈ c ∨ b = a)
    (hC : x.nonCompleted + 1 = x.opened.length) (hU : x.nonUnsubscribed = x.opened.length) :
    ∃ y, innerUnsubscribe (onUnsubscribe D limit (teardown D limit) P) true a x = .ok y ∧
      B D limit tidy clean c d y ∧ Dead D c y ∧ y.busy = x.busy ∧ y.queue = x.queue ∧ y.log = x.log ∧
      (y.arrived = x.arrived ∧ y.up.isCompleted = x.up.isCompleted) ∧ (∀ b ∈ y.opened, b ∈ x.opened) := by
  have ha : a ∈ x.opened := (hB.mem a).2 (.inr List.mem_cons_self)
  have hpos := List.length_pos_of_mem ha
  have hlen := List.length_erase_of_mem ha
  have hcan : (State.canUnsubscribe { x with opened := x.opened.erase a }) = true := by
    simp [State.canUnsubscribe, hdown]
  refine ⟨{ x with
      opened := x.opened.erase a
      down := x.down.unsubscribeIfNotAlready
      nonUnsubscribed := x.nonUnsubscribed - 1 }, ?_, hB.finish hac, ?_, rfl, rfl, rfl, ⟨rfl, rfl⟩, ?_⟩
  · simp only [innerUnsubscribe, ha, if_true]
    rw [innerUnsubscribed_ok _ _ (by simpa [hU] using hpos) (.inl rfl), hcan]
    simp only [bind, Except.bind, if_true, pure, Except.pure]
    split
    · rfl
    · refine onUnsubscribe_closed (by exact hd) (teardown_closed ho) ?_
      simp [SubscriberState.isClosed, SubscriberState.isUnsubscribed, SubscriberState.unsubscribeIfNotAlready]
  · refine ⟨ho, hd, ?_, ?_, ?_, fun _ => rfl⟩
    · simp only; omega
    · simp only; omega
    · intro b hb
      have := hB.nodup.mem_erase_iff.1 hb
      exact (hm b this.2).resolve_right this.1
  · exact fun b hb => List.mem_of_mem_erase hb

/-! ### An inner subscriber handles a notification -/

/-- `P` starts inner observables waiting in the queue. -/
structure PopOK (D : Sub S I E) (limit : Nat) (tidy clean : Prop) (f : Nat) (P : Action S I E) : Prop where
  nil : ∀ x : State S I E, 0 < f → x.queue = [] → P x = .ok x
  run : ∀ (c : List Nat) (x : State S I E), x.queue.length < f → B D limit tidy clean c 1 x → Open D limit tidy c 1 x →
    Fits c [] x → Old x → ∃ y, P x = .ok y ∧ Good D limit tidy clean c [] y ∧ Ext x y ∧
      (x.queue ≠ [] → y.outerClosed = false → x.slab.length < y.slab.length)

theorem not_closed {s : SubscriberState} (h : s.isClosed = false) :
    s.isErrored = false ∧ s.isCompleted = false ∧ s.isUnsubscribed = false := by
  simp only [SubscriberState.isClosed, SubscriberState.isFinished, Bool.or_eq_false_iff] at h
  exact ⟨h.2.2, h.2.1, h.1⟩

theorem Good.mono {c e e' : List Nat} {x : State S I E} (h : Good D limit tidy clean c e x) (he : ∀ b ∈ e, b ∈ e') :
    Good D limit tidy clean c e' x :=
  ⟨h.base, ⟨h.fits.sub, fun b hb hbb => (h.fits.sup b hb hbb).imp id (he b)⟩, h.phase⟩

section Handle
variable {x : State S I E} {P : Action S I E} {c : List Nat} {a f : Nat}

theorem next_good (hl : 0 < limit) (hcl : clean → Patient D) (hB : B D limit tidy clean c 0 x)
    (hO : Open D limit tidy c 0 x) (hF : Fits c [a] x) (ha : a ∈ x.opened) (hac : a ∉ c) (hab : a ∈ x.busy)
    (v : I) :
    ∃ y, innerNext D (teardown D limit) (onUnsubscribe D limit (teardown D limit) P) a v x = .ok y ∧
      Good D limit tidy clean c [a] y ∧ Ext x y ∧ Waits y := by
  have hla : a ∈ live x.log := ((hB.mem a).1 ha).resolve_right hac
  simp only [innerNext, give, hO.dest, Bool.false_eq_true, if_false, bind, Except.bind]
  cases hcd : D.isClosed (D.push x.dest (.next v))
  · refine ⟨{ x with dest := D.push x.dest (.next v), log := x.log ++ [.out (some a) (.next v)] }, ?_, ⟨?_, ⟨hF.sub, hF.sup⟩, .inl ?_⟩,
      ⟨rfl, List.suffix_refl _, List.prefix_append _ _, ⟨rfl, rfl⟩, fun _ => List.prefix_refl _, fun _ => rfl, id⟩, ?_⟩
    · simp [hcd, pure, Except.pure]
    · have := (b_open hB hO.dest).out (some a) (.next v) false (fun _ => rfl)
        (fun h => by cases h) (fun _ h => by cases h) (fun b _ hb _ => by cases hb; exact hla)
      simpa [B, hcd] using this
    · exact { hO with dest := hcd, all := by simpa using hO.all }
    · intro _ _
      exact .inl (List.ne_nil_of_mem ha)
  · have hB' : B D limit tidy clean c 0 { x with dest := D.push x.dest (.next v), log := x.log ++ [.out (some a) (.next v)] } := by
      have := (b_open hB hO.dest).out (some a) (.next v) true (by simp)
        (fun h => by cases h) (fun h _ => by
          have := hcl h x.dest v hO.dest
          rw [show D.next x.dest v = D.push x.dest (.next v) from rfl, hcd] at this
          cases this) (fun b _ hb _ => by cases hb; exact hla)
      simpa [B, hcd] using this
    have hbusy : limit < 2 → ∀ b ∈ x.opened, b ∈ x.busy := fun hl2 b hb => by
      rcases only hB (by omega) ha hac b hb with h | rfl
      · exact hF.sub b h
      · exact hab
    obtain ⟨y, hy, h1, h2, h3, h4, h4', h5, h6, h7, h8, h9, h10, h11, h12, h13, h14, l, h15⟩ := teardown_spec
      (x := { x with dest := D.push x.dest (.next v), log := x.log ++ [.out (some a) (.next v)] }) hO.outer hcd
      (by rcases Nat.lt_or_ge limit 2 with h | h
          · exact .inr (hbusy h)
          · exact .inl (.inl h)) (.inl hO.nonC) hO.nonU hF.sub hB' hO.slabbed
    have hyc : D.isClosed y.dest = true := by rw [h2]; exact hcd
    rw [if_pos rfl, hy]
    simp only [hyc, if_true]
    obtain ⟨z, hz, g1, g2, g3, g4, g5, g6, g7, _⟩ := unsub_dead (x := { y with down := y.down.unsubscribeIfNotAlready })
      (P := P) (a := a) h1 (by rw [h2]; exact hcd) (by simp [SubscriberState.isClosed, SubscriberState.isUnsubscribed,
        SubscriberState.unsubscribeIfNotAlready]) h3 hac (fun b hb => by
          have := h4 b hb
          simpa using hF.sup b this.1 this.2) (h6 hO.nonC) h5 (fun _ _ => rfl)
    refine ⟨z, hz, ⟨g1, ⟨?_, ?_⟩, .inr g2⟩, ⟨?_, ?_, ?_, ?_, ?_, ?_, ?_⟩, ?_⟩
    · rw [g3]; simp only [h13]; exact hF.sub
    · intro b hb _
      exact .inl (g2.mem b hb)
    · rw [g3]; exact h13
    · rw [g4]; simp only [h12]; exact List.suffix_refl _
    · refine List.IsPrefix.trans ?_ g5
      simp only [h15, List.append_assoc]
      exact List.prefix_append _ _
    · exact ⟨g6.1.trans h14, g6.2.trans h11⟩
    · intro h; rw [g2.outer] at h; cases h
    · intro h; rw [g2.outer] at h; cases h
    · intro _; exact g2.outer
    · intro h; rw [g2.outer] at h; cases h

theorem error_good (hl : 0 < limit) (hD : Closes D) (hB : B D limit tidy clean c 0 x)
    (hO : Open D limit tidy c 0 x) (hF : Fits c [a] x) (ha : a ∈ x.opened) (hac : a ∉ c) (hab : a ∈ x.busy)
    (e : E) (hcl : ¬ clean) :
    ∃ y, innerError D (teardown D limit) (onUnsubscribe D limit (teardown D limit) P) a e x = .ok y ∧
      Good D limit tidy clean c [a] y ∧ Ext x y ∧ Waits y ∧ y.outerClosed = true ∧
      ∃ l : List Nat, y.log = x.log ++ .out (some a) (.error e) :: l.map Log.done := by
  have hcd : D.isClosed (D.push x.dest (.error e)) = true := hD _ _ rfl
  have hdown : x.down.error = some { x.down with waiting := false, errored := true } := by
    simp [SubscriberState.error, hO.down]
  simp only [innerError, State.downstreamError, hdown, State.check, give, hO.dest, Bool.false_eq_true, if_false, bind,
    Except.bind, pure, Except.pure, hcd, if_true]
  have hB' : B D limit tidy clean c 0 { x with
      queue := [], down := { x.down with waiting := false, errored := true }
      dest := D.push x.dest (.error e), log := x.log ++ [.out (some a) (.error e)] } := by
    have := (Base.clearQueue (b_open hB hO.dest)).out (some a) (.error e) true (by simp)
      (fun h => by cases h) (fun h _ => absurd h hcl) (fun _ _ _ hh => by cases hh)
    simpa [B, hcd] using this
  have hbusy : limit < 2 → ∀ b ∈ x.opened, b ∈ x.busy := fun hl2 b hb => by
    rcases only hB (by omega) ha hac b hb with h | rfl
    · exact hF.sub b h
    · exact hab
  obtain ⟨y, hy, h1, h2, h3, h4, h4', h5, h6, h7, h8, h9, h10, h11, h12, h13, h14, l, h15⟩ := teardown_spec
    (x := { x with
      queue := [], down := { x.down with waiting := false, errored := true }
      dest := D.push x.dest (.error e), log := x.log ++ [.out (some a) (.error e)] }) hO.outer hcd
    (by rcases Nat.lt_or_ge limit 2 with h | h
        · exact .inr (hbusy h)
        · exact .inl (.inl h)) (.inl hO.nonC) hO.nonU hF.sub hB' hO.slabbed
  rw [hy]
  obtain ⟨z, hz, g1, g2, g3, g4, g5, g6, g7, l', g8⟩ := unsub_dead (x := y)
    (P := P) (a := a) h1 (by rw [h2]; exact hcd) (by
      have : y.down.isErrored = true := h8
      simp [SubscriberState.isClosed, SubscriberState.isFinished, this]) h3 hac (fun b hb => by
        have := h4 b hb
        simpa using hF.sup b this.1 this.2) (h6 hO.nonC) h5 (fun _ hay => absurd (h4' a ha hab) hay)
  refine ⟨z, hz, ⟨g1, ⟨?_, ?_⟩, .inr g2⟩, ⟨?_, ?_, ?_, ?_, ?_, ?_, ?_⟩, ?_, g2.outer, l ++ l', ?_⟩
  · rw [g3, h13]; exact hF.sub
  · intro b hb _
    exact .inl (g2.mem b hb)
  · rw [g3]; exact h13
  · rw [g4, h12]; exact List.nil_suffix
  · refine List.IsPrefix.trans ?_ g5
    simp only [h15, List.append_assoc]
    exact List.prefix_append _ _
  · exact ⟨g6.1.trans h14, g6.2.trans h11⟩
  · intro h; rw [g2.outer] at h; cases h
  · intro h; rw [g2.outer] at h; cases h
  · intro _; exact g2.outer
  · intro h; rw [g2.outer] at h; cases h
  · rw [g8, h15]; simp

theorem others {n k : Nat} (h : k < n) : ((List.range n).filter (· != k)).length + 1 = n := by
  have := length_filter_ne (l := List.range n) (a := k) List.nodup_range (List.mem_range.2 h)
  rw [this, List.length_range]

/-- The end of `onUnsubscribe`. -/
theorem unsub_tail (hD : Closes D) (hncl : ¬ clean) (hG : Good D limit tidy clean c [] x) :
    ∃ y, (if x.canUnsubscribe && !x.up.isErrored && !x.down.isErrored then
        (give D (teardown D limit) none .unsubscribe x >>= teardown D limit) else pure x : Except Fault (State S I E)) = .ok y ∧
      Good D limit tidy clean c [] y ∧ Ext x y ∧ Waits y := by
  rcases hG.phase with hO | hDead
  · by_cases hcan : x.canUnsubscribe = true
    · have hup := hO.err
      have hdn := (not_closed hO.down).1
      simp only [hcan, hup, hdn, Bool.not_false, Bool.and_self, if_true]
      have hcd : D.isClosed (D.push x.dest .unsubscribe) = true := hD _ _ rfl
      have hx : x.opened = [] := by
        have := hcan
        simp only [State.canUnsubscribe, hup, hO.down, hO.nonU, Bool.or_false, Bool.and_eq_true, beq_iff_eq,
          List.length_eq_zero_iff] at this
        exact this.1.1.2
      have hc : c = [] := List.eq_nil_iff_forall_not_mem.2 fun b hb => by
        have := (hG.base.mem b).2 (.inr hb)
        rw [hx] at this
        cases this
      have hB' : B D limit tidy clean c 0 { x with
          dest := D.push x.dest .unsubscribe, log := x.log ++ [.out none .unsubscribe] } := by
        have := (b_open hG.base hO.dest).out none .unsubscribe true (by simp)
          (fun h => by cases h) (fun h _ => absurd h hncl) (fun _ _ _ hh => by cases hh)
        simpa [B, hcd] using this
      obtain ⟨y, hy, h1, h2, h3, h4, h4', h5, h6, h7, h8, h9, h10, h11, h12, h13, h14, l, h15⟩ := teardown_spec
        (x := { x with dest := D.push x.dest .unsubscribe, log := x.log ++ [.out none .unsubscribe] }) hO.outer hcd
        (.inr (by simp [hx])) (.inl hO.nonC) hO.nonU hG.fits.sub hB' hO.slabbed
      refine ⟨y, ?_, ⟨h3, ⟨?_, ?_⟩, .inr ⟨h1, ?_, h6 hO.nonC, h5, ?_, ?_⟩⟩, ⟨h13, ?_, ?_, ⟨h14, h11⟩, ?_, ?_, fun _ => h1⟩, ?_⟩
      · simp only [give, hO.dest, Bool.false_eq_true, if_false, hcd, if_true, bind, Except.bind, hy]
        exact teardown_closed h1
      · rw [h13]; exact hG.fits.sub
      · intro b hb _
        have := (h4 b hb).1
        simp only [hx] at this
        cases this
      · rw [h2]; exact hcd
      · intro b hb
        have := (h4 b hb).1
        simp only [hx] at this
        cases this
      · intro h; exact absurd hc h
      · rw [h12]; exact List.suffix_refl _
      · rw [h15, List.append_assoc]; exact List.prefix_append _ _
      · intro h; rw [h1] at h; cases h
      · intro h; rw [h1] at h; cases h
      · intro h; rw [h1] at h; cases h
    · have hcan' : x.canUnsubscribe = false := by simpa using hcan
      refine ⟨x, ?_, hG, Ext.refl x, ?_⟩
      · simp [hcan', pure, Except.pure]
      · intro _ hup
        simp only [State.canUnsubscribe, hO.err, hO.down, hO.nonU, Bool.or_false, (not_closed hO.down).2.2,
          hO.unsub, hup, Bool.and_true, Bool.not_false, Bool.and_eq_false_iff, List.isEmpty_eq_false_iff,
          beq_eq_false_iff_ne, ne_eq, List.length_eq_zero_iff] at hcan'
        exact hcan'.symm
  · refine ⟨x, ?_, hG, Ext.refl x, ?_⟩
    · by_cases h : (x.canUnsubscribe && !x.up.isErrored && !x.down.isErrored) = true
      · rw [if_pos h]
        simp only [give, hDead.dest, if_true, bind, Except.bind]
        exact teardown_closed hDead.outer
      · rw [if_neg h]; rfl
    · intro h; rw [hDead.outer] at h; cases h

theorem unsub_good (hD : Closes D) (hP : PopOK D limit tidy clean f P) (hB : B D limit tidy clean c 0 x)
    (hO : Open D limit tidy c 0 x) (hF : Fits c [a] x) (hold : Old x) (hq : x.queue.length < f) (ha : a ∈ x.opened) (hac : a ∉ c)
    (hnt : ¬ tidy) (hncl : ¬ clean) :
    ∃ y, innerUnsubscribe (onUnsubscribe D limit (teardown D limit) P) false a x = .ok y ∧
      Good D limit tidy clean c [a] y ∧ Ext x y ∧ Waits y := by
  have hpos := List.length_pos_of_mem ha
  have hlen := List.length_erase_of_mem ha
  have hcan : (State.canUnsubscribe { x with opened := x.opened.erase a, log := x.log ++ [Log.done a] }) = false := by
    have : x.nonUnsubscribed ≠ 0 := by rw [hO.nonU]; omega
    simp [State.canUnsubscribe, hO.down, hO.err, this]
  simp only [innerUnsubscribe, ha, if_true, Bool.false_eq_true, if_false]
  rw [innerUnsubscribed_ok _ _ (by simpa [hO.nonU] using hpos) (.inr (by simpa [hO.nonC] using hpos)), hcan]
  simp only [bind, Except.bind, Bool.false_eq_true, if_false, pure, Except.pure,
    (not_closed hO.down).2.2, onUnsubscribe]
  have hmem : ∀ b ∈ x.opened.erase a, b ∈ x.opened := fun b hb => List.mem_of_mem_erase hb
  have hB1 : B D limit tidy clean c 1 { x with
      opened := x.opened.erase a, log := x.log ++ [.done a]
      nonUnsubscribed := x.nonUnsubscribed - 1, nonCompleted := x.nonCompleted - 1 } := hB.close ha hac
  have hO1 : ∀ d, Open D limit tidy c d { x with
      opened := x.opened.erase a, log := x.log ++ [.done a]
      nonUnsubscribed := x.nonUnsubscribed - 1, nonCompleted := x.nonCompleted - 1 } := fun d => { hO with
    nonC := by simp only; rw [hO.nonC, hlen]
    nonU := by simp only; rw [hO.nonU, hlen]
    slabLen := by simp only; have := hO.slabLen; omega
    key := fun b hb => hO.key b (hmem b hb)
    slabbed := fun b hb => hO.slabbed b (hmem b hb)
    all := fun h => absurd h hnt
    full := fun h => absurd h hnt }
  have hF1 : Fits c [] { x with
      opened := x.opened.erase a, log := x.log ++ [.done a]
      nonUnsubscribed := x.nonUnsubscribed - 1, nonCompleted := x.nonCompleted - 1 } := ⟨hF.sub, fun b hb hbb => by
    have := hB.nodup.mem_erase_iff.1 hb
    rcases hF.sup b this.2 hbb with h | h
    · exact .inl h
    · exact absurd (List.mem_singleton.1 h) this.1⟩
  have hE1 : Ext x { x with
      opened := x.opened.erase a, log := x.log ++ [.done a]
      nonUnsubscribed := x.nonUnsubscribed - 1, nonCompleted := x.nonCompleted - 1 } :=
    ⟨rfl, List.suffix_refl _, List.prefix_append _ _, ⟨rfl, rfl⟩, fun _ => List.prefix_refl _, fun _ => rfl, id⟩
  split
  · obtain ⟨z, hz, hG, hE, _⟩ := hP.run c { x with
      opened := x.opened.erase a, log := x.log ++ [.done a]
      nonUnsubscribed := x.nonUnsubscribed - 1, nonCompleted := x.nonCompleted - 1 } hq hB1 (hO1 1) hF1 (hE1.old hold)
    rw [hz]
    obtain ⟨y, hy, h1, h2, h3⟩ := unsub_tail hD hncl hG
    exact ⟨y, hy, h1.mono (fun b hb => by cases hb), (hE1.trans hE).trans h2, h3⟩
  · obtain ⟨y, hy, h1, h2, h3⟩ := unsub_tail hD hncl (x := { x with
      opened := x.opened.erase a, log := x.log ++ [.done a]
      nonUnsubscribed := x.nonUnsubscribed - 1, nonCompleted := x.nonCompleted - 1 })
      ⟨hB1.weaken (by omega), hF1, .inl (hO1 0)⟩
    exact ⟨y, hy, h1.mono (fun b hb => by cases hb), hE1.trans h2, h3⟩

theorem complete_good (hl : 0 < limit) (hD : Closes D) (hP : PopOK D limit tidy clean f P) (hB : B D limit tidy clean c 0 x)
    (hO : Open D limit tidy c 0 x) (hF : Fits c [a] x) (hold : Old x) (hq : x.queue.length < f) (ha : a ∈ x.opened) (hac : a ∉ c)
    (hab : a ∈ x.busy) :
    ∃ y, innerComplete D (teardown D limit) (fun _ => P) (onUnsubscribe D limit (teardown D limit) P) a x = .ok y ∧
      Good D limit tidy clean c [a] y ∧ Ext x y ∧ Waits y := by
  have hB1 : B D limit tidy clean (a :: c) 1 { x with log := x.log ++ [.done a] } := hB.begin ha hac
  have hO1 : Open D limit tidy (a :: c) 1 { x with log := x.log ++ [.done a] } := { hO with
    all := by simpa using hO.all
    full := fun ht hqe => by
      have := hO.full ht hqe
      simp only [List.length_cons]
      omega }
  have hF1 : Fits (a :: c) [] { x with log := x.log ++ [.done a] } := ⟨fun b hb => by
      rcases List.mem_cons.1 hb with rfl | hb
      · exact hab
      · exact hF.sub b hb, fun b hb hbb => by
    rcases hF.sup b hb hbb with h | h
    · exact .inl (List.mem_cons_of_mem _ h)
    · exact .inl (by simp [List.mem_singleton.1 h])⟩
  have hE1 : Ext x { x with log := x.log ++ [.done a] } :=
    ⟨rfl, List.suffix_refl _, List.prefix_append _ _, ⟨rfl, rfl⟩, fun _ => List.prefix_refl _, fun _ => rfl, id⟩
  obtain ⟨y, hy, hG, hE, hslab⟩ := hP.run (a :: c) { x with log := x.log ++ [.done a] } hq hB1 hO1 hF1 (hE1.old hold)
  have hay : a ∈ y.opened := (hG.base.mem a).2 (.inr List.mem_cons_self)
  have hposy := List.length_pos_of_mem hay
  have hleny := List.length_erase_of_mem hay
  simp only [innerComplete, hy, bind, Except.bind]
  rcases hG.phase with hOy | hDy
  · have hne : y.nonCompleted ≠ 0 := by rw [hOy.nonC]; omega
    simp only [innerCompleted, State.dec, hne, if_false, bind, Except.bind, pure, Except.pure]
    by_cases hcan : (State.canComplete { y with nonCompleted := y.nonCompleted - 1 }) = true
    · have hdc : y.down.complete = some { y.down with waiting := false, completed := true } := by
        simp [SubscriberState.complete, hOy.down]
      have hcd : D.isClosed (D.push y.dest .complete) = true := hD _ _ rfl
      have hcan' := hcan
      simp only [State.canComplete, Bool.and_eq_true, List.isEmpty_iff, beq_iff_eq] at hcan'
      obtain ⟨⟨⟨hqe, hnc⟩, hupc⟩, -⟩ := hcan'
      have hlen1 : y.opened.length = 1 := by rw [hOy.nonC] at hnc; omega
      have hop : y.opened = [a] := by
        match hyo : y.opened with
        | [] => rw [hyo] at hlen1; cases hlen1
        | [b] => rw [hyo] at hay; rw [List.mem_singleton.1 hay]
        | _ :: _ :: _ => rw [hyo] at hlen1; simp at hlen1
      have hlive : live y.log = [] := by
        have := hG.base.len
        rw [hlen1, List.length_cons] at this
        exact List.length_eq_zero_iff.1 (by omega)
      have hc : c = [] := by
        have := hG.base.len
        rw [hlen1, List.length_cons] at this
        exact List.length_eq_zero_iff.1 (by omega)
      have haby : a ∈ y.busy := hG.fits.sub a List.mem_cons_self
      have hB' : B D limit tidy clean (a :: c) 0 { y with
          nonCompleted := y.nonCompleted - 1, down := { y.down with waiting := false, completed := true }
          dest := D.push y.dest .complete, log := y.log ++ [.out (some a) .complete] } := by
        have := (b_open hG.base hOy.dest).out (some a) .complete true (by simp)
          (fun _ => ⟨hupc, hlive, hqe, fun ht => by simpa [hqe] using hOy.all ht⟩) (fun _ _ => rfl) (fun _ _ _ hh => by cases hh)
        simpa [B, hcd] using this
      obtain ⟨z, hz, h1, h2, h3, h4, h4', h5, h6, h7, h8, h9, h10, h11, h12, h13, h14, l, h15⟩ := teardown_spec
        (x := { y with
          nonCompleted := y.nonCompleted - 1, down := { y.down with waiting := false, completed := true }
          dest := D.push y.dest .complete, log := y.log ++ [.out (some a) .complete] }) hOy.outer hcd
        (.inr (by simp [hop, haby])) (.inr (by simp [hop, haby])) hOy.nonU hG.fits.sub hB' hOy.slabbed
      have h7' := h7 (by simp [hop, haby])
      simp only [hcan, if_true, hdc, State.check, give, hOy.dest, Bool.false_eq_true, if_false, hcd, hz]
      obtain ⟨w, hw, g1, g2, g3, g4, g5, g6, _⟩ := unsub_dead_completed (x := z) (P := P) h1 (by rw [h2]; exact hcd) (by
          have : z.down.isCompleted = true := h9
          simp [SubscriberState.isClosed, SubscriberState.isFinished, this]) h3 hac
        (fun b hb => .inr (by rw [h7'.2] at hb; simpa [hop] using hb))
        (by rw [h7'.1, h7'.2]; simp only; rw [hOy.nonC, hlen1]) h5
      refine ⟨w, hw, ⟨g1, ⟨by simp [hc], fun b hb _ => .inl (g2.mem b hb)⟩, .inr g2⟩,
        ⟨?_, ?_, ?_, ?_, ?_, ?_, fun _ => g2.outer⟩, ?_⟩
      · rw [g3, h13]; exact hE.busy
      · rw [g4, h12]; exact hE.queue
      · rw [g5, h15]
        exact (hE1.log.trans hE.log).trans (by rw [List.append_assoc]; exact List.prefix_append _ _)
      · exact ⟨(g6.1.trans h14).trans hE.arrived.1, (g6.2.trans h11).trans hE.arrived.2⟩
      · intro h; rw [g2.outer] at h; cases h
      · intro h; rw [g2.outer] at h; cases h
      · intro h; rw [g2.outer] at h; cases h
    · have hcan' : (State.canComplete { y with nonCompleted := y.nonCompleted - 1 }) = false := by simpa using hcan
      have hcu : (State.canUnsubscribe { y with nonCompleted := y.nonCompleted - 1, opened := y.opened.erase a }) = false := by
        have : y.nonUnsubscribed ≠ 0 := by rw [hOy.nonU]; omega
        simp [State.canUnsubscribe, hOy.down, hOy.err, this]
      simp only [hcan', Bool.false_eq_true, if_false, innerUnsubscribe, hay, if_true]
      rw [innerUnsubscribed_ok _ _ (by simpa [hOy.nonU] using hposy) (.inl rfl), hcu]
      simp only [bind, Except.bind, Bool.false_eq_true, if_false, if_true, pure, Except.pure,
        (not_closed hOy.down).2.2, onUnsubscribe]
      have hW : y.up.isCompleted = true → y.opened.erase a ≠ [] ∨ y.queue ≠ [] := by
        intro hup
        have := hcan'
        simp only [State.canComplete, hup, hOy.down, Bool.not_false, Bool.and_true, Bool.and_eq_false_iff,
          List.isEmpty_eq_false_iff, beq_eq_false_iff_ne, ne_eq] at this
        rcases this with h | h
        · exact .inr h
        · refine .inl fun he => h ?_
          rw [hOy.nonC, ← hleny, he]
          rfl
      have hmem : ∀ b ∈ y.opened.erase a, b ∈ y.opened := fun b hb => List.mem_of_mem_erase hb
      have hp : (((List.range y.slab.length).filter (· != y.key a)).length == limit - 1 && !y.down.isClosed) = true →
          P { y with nonCompleted := y.nonCompleted - 1, opened := y.opened.erase a,
                     nonUnsubscribed := y.nonUnsubscribed - 1 } =
          Except.ok { y with nonCompleted := y.nonCompleted - 1, opened := y.opened.erase a,
                             nonUnsubscribed := y.nonUnsubscribed - 1 } := by
        intro hcond
        have hoth := others (hOy.key a hay)
        by_cases hqx : x.queue = []
        · have hqy : y.queue = [] := by
            have := hE.queue
            simp only [hqx] at this
            exact List.suffix_nil.1 this
          exact hP.nil _ (by omega) hqy
        · have := hslab hqx hOy.outer
          have := hO.slabQ hqx
          have h0 : (((List.range y.slab.length).filter (· != y.key a)).length == limit - 1) = false := by
            simp only [beq_eq_false_iff_ne, ne_eq]
            simp only at *
            omega
          rw [h0] at hcond
          cases hcond
      have hcu2 : (State.canUnsubscribe { y with nonCompleted := y.nonCompleted - 1, opened := y.opened.erase a, nonUnsubscribed := y.nonUnsubscribed - 1 }) = false := by
        simp only [State.canUnsubscribe, hOy.err, hOy.down, Bool.or_false, (not_closed hOy.down).2.2, Bool.not_false,
          Bool.and_true, hOy.unsub, hOy.nonU]
        cases hup : y.up.isCompleted
        · simp
        · rcases hW hup with h | h
          · have : 0 < (y.opened.erase a).length := List.length_pos_iff.2 h
            have : y.opened.length - 1 ≠ 0 := by omega
            simp [this]
          · simp [h]
      refine ⟨{ y with nonCompleted := y.nonCompleted - 1, opened := y.opened.erase a, nonUnsubscribed := y.nonUnsubscribed - 1 }, ?_, ⟨hG.base.finish hac, ?_, .inl ?_⟩, ?_, ?_⟩
      · split
        · rename_i hcond
          rw [hp hcond]
          simp only [hcu2, Bool.false_and, Bool.false_eq_true, if_false]
        · simp only [hcu2, Bool.false_and, Bool.false_eq_true, if_false]
      · refine ⟨fun b hb => hG.fits.sub b (List.mem_cons_of_mem _ hb), fun b hb hbb => ?_⟩
        have := hG.base.nodup.mem_erase_iff.1 hb
        rcases hG.fits.sup b this.2 hbb with h | h
        · rcases List.mem_cons.1 h with h | h
          · exact absurd h this.1
          · exact .inl h
        · cases h
      · exact { hOy with
          nonC := by simp only; rw [hOy.nonC, hleny]
          nonU := by simp only; rw [hOy.nonU, hleny]
          slabLen := by simp only; have := hOy.slabLen; omega
          key := fun b hb => hOy.key b (hmem b hb)
          slabbed := fun b hb => hOy.slabbed b (hmem b hb)
          full := fun ht hqe => by
            have := hOy.full ht hqe
            simp only [List.length_cons] at this
            simp only
            omega }
      · exact (hE1.trans hE).trans ⟨rfl, List.suffix_refl _, List.prefix_refl _, ⟨rfl, rfl⟩, fun _ => List.prefix_refl _, fun _ => rfl, id⟩
      · exact fun _ => hW
  · have hne : y.nonCompleted ≠ 0 := by rw [hDy.nonC]; omega
    have hdu := hDy.down (by simp)
    have hdc : y.down.isClosed = true := by simp [SubscriberState.isClosed, hdu]
    have hcan : (State.canComplete { y with nonCompleted := y.nonCompleted - 1 }) = false := by
      simp [State.canComplete, hdc]
    simp only [innerCompleted, State.dec, hne, if_false, bind, Except.bind, pure, Except.pure, hcan, Bool.false_eq_true]
    obtain ⟨w, hw, g1, g2, g3, g4, g5, g6, _⟩ := unsub_dead_completed
      (x := { y with nonCompleted := y.nonCompleted - 1 }) (P := P) (c := c) (a := a) hDy.outer hDy.dest hdc hG.base hac
      (fun b hb => by
        rcases List.mem_cons.1 (hDy.mem b hb) with h | h
        · exact .inr h
        · exact .inl h)
      (by simp only; rw [hDy.nonC]; omega) hDy.nonU
    refine ⟨w, hw, ⟨g1, ⟨?_, fun b hb _ => .inl (g2.mem b hb)⟩, .inr g2⟩,
      ⟨?_, ?_, ?_, ?_, ?_, ?_, fun _ => g2.outer⟩, ?_⟩
    · intro b hb; rw [g3]; exact hG.fits.sub b (List.mem_cons_of_mem _ hb)
    · rw [g3]; exact hE.busy
    · rw [g4]; exact hE.queue
    · rw [g5]; exact hE1.log.trans hE.log
    · exact ⟨g6.1.trans hE.arrived.1, g6.2.trans hE.arrived.2⟩
    · intro h; rw [g2.outer] at h; cases h
    · intro h; rw [g2.outer] at h; cases h
    · intro h; rw [g2.outer] at h; cases h

/-- An inner subscriber is called. -/
theorem push_good (hl : 0 < limit) (hD : Closes D) (hcl : clean → Patient D) (hct : clean → tidy)
    (hP : PopOK D limit tidy clean f P)
    (hG : Good D limit tidy clean c [a] x) (hold : Old x) (hq : x.queue.length < f) (hac : a ∉ c)
    (n : SubscriberNotification I E) (hn : tidy → n ≠ .unsubscribe) (hn' : clean → ∀ f, n ≠ .error f) :
    ∃ y, innerPush D (teardown D limit) (fun _ => P) (onUnsubscribe D limit (teardown D limit) P) a x n = .ok y ∧
      Good D limit tidy clean c [a] y ∧ Ext x y ∧ (Waits x → Waits y) := by
  by_cases ha : a ∈ x.opened
  · rcases hG.phase with hO | hd
    · have hB1 : B D limit tidy clean c 0 { x with busy := a :: x.busy } := hG.base
      have hO1 : Open D limit tidy c 0 { x with busy := a :: x.busy } :=
        { hO with slabbed := fun b hb hbb => hO.slabbed b hb fun h => hbb (List.mem_cons_of_mem _ h) }
      have hF1 : Fits c [a] { x with busy := a :: x.busy } := ⟨fun b hb => List.mem_cons_of_mem _ (hG.fits.sub b hb),
        fun b hb hbb => by
          rcases List.mem_cons.1 hbb with h | h
          · exact .inr (List.mem_singleton.2 h)
          · exact hG.fits.sup b hb h⟩
      have hold1 : Old { x with busy := a :: x.busy } := fun b hb => by
        rcases List.mem_cons.1 hb with rfl | hb
        · rcases (hG.base.mem b).1 ha with h | h
          · exact (mem_live.1 h).1
          · exact absurd h hac
        · exact hold b hb
      have hmain : ∃ y, innerHandle D (teardown D limit) (fun _ => P) (onUnsubscribe D limit (teardown D limit) P) a n
          { x with busy := a :: x.busy } = .ok y ∧ Good D limit tidy clean c [a] y ∧
          Ext { x with busy := a :: x.busy } y ∧ Waits y := by
        cases n with
        | next v => exact next_good hl hcl hB1 hO1 hF1 ha hac List.mem_cons_self v
        | error e =>
          obtain ⟨y, hy, h1, h2, h3, _⟩ := error_good (P := P) hl hD hB1 hO1 hF1 ha hac List.mem_cons_self e
            (fun hc => hn' hc e rfl)
          exact ⟨y, hy, h1, h2, h3⟩
        | complete => exact complete_good hl hD hP hB1 hO1 hF1 hold1 hq ha hac List.mem_cons_self
        | unsubscribe =>
          exact unsub_good hD hP hB1 hO1 hF1 hold1 hq ha hac (fun ht => hn ht rfl) (fun hc => hn (hct hc) rfl)
      obtain ⟨y, hy, hGy, hE, hW⟩ := hmain
      simp only [innerPush, ha, if_true, hy, bind, Except.bind, pure, Except.pure]
      have hyb : y.busy = a :: x.busy := hE.busy
      refine ⟨{ y with busy := x.busy }, rfl, ⟨hGy.base, ⟨hG.fits.sub, ?_⟩, ?_⟩,
        ⟨rfl, hE.queue, hE.log, hE.arrived, hE.slab, hE.up, hE.outer⟩, fun _ => hW⟩
      · intro b hb hbb
        exact hGy.fits.sup b hb (by rw [hyb]; exact List.mem_cons_of_mem _ hbb)
      · refine hGy.phase.imp (fun hOy => { hOy with slabbed := ?_ }) (fun hDy => { hDy with })
        intro b hb hbb
        by_cases hba : b = a
        · have := hO.slabbed a ha (hba ▸ hbb)
          rw [hba]
          exact (hE.slab hOy.outer).subset this
        · exact hOy.slabbed b hb (by rw [hyb]; simp [hba]; exact hbb)
    · exact absurd (hd.mem a ha) hac
  · exact ⟨x, by simp [innerPush, ha], hG, Ext.refl x, id⟩

/-- An inner observable emits while it is being subscribed. -/
theorem fold_good (hl : 0 < limit) (hD : Closes D) (hcl : clean → Patient D) (hct : clean → tidy)
    (hP : PopOK D limit tidy clean f P) (hac : a ∉ c) (src : Src I E) : ∀ {x : State S I E}
    (_ : Good D limit tidy clean c [a] x) (_ : Old x) (_ : x.queue.length < f)
    (_ : tidy → ∀ n ∈ src, n ≠ .unsubscribe) (_ : clean → ∀ n ∈ src, ∀ f, n ≠ .error f),
    ∃ y, src.foldlM (innerPush D (teardown D limit) (fun _ => P) (onUnsubscribe D limit (teardown D limit) P) a) x = .ok y ∧
      Good D limit tidy clean c [a] y ∧ Ext x y ∧ (Waits x → Waits y) := by
  induction src with
  | nil => exact fun hG _ _ _ _ => ⟨_, rfl, hG, Ext.refl _, id⟩
  | cons n src ih =>
    intro x hG hold hq hn hn'
    obtain ⟨y, hy, h1, h2, h3⟩ := push_good hl hD hcl hct hP hG hold hq hac n (fun h => hn h n List.mem_cons_self)
      (fun h => hn' h n List.mem_cons_self)
    obtain ⟨z, hz, g1, g2, g3⟩ := ih h1 (h2.old hold) (Nat.lt_of_le_of_lt h2.queue.length_le hq)
      (fun h m hm => hn h m (List.mem_cons_of_mem _ hm)) (fun h m hm => hn' h m (List.mem_cons_of_mem _ hm))
    refine ⟨z, ?_, g1, h2.trans g2, fun h => g3 (h3 h)⟩
    simp only [List.foldlM_cons, hy, bind, Except.bind]
    exact hz

/-- A new inner observable is subscribed. -/
theorem create_good (hl : 0 < limit) (hD : Closes D) (hcl : clean → Patient D) (hct : clean → tidy)
    (hP : PopOK D limit tidy clean f P) (hac : a ∉ c) (src : Src I E) {w : State S I E}
    (hG : Good D limit tidy clean c [a] { w with
      slab := w.slab ++ [none], opened := w.opened ++ [a], busy := a :: w.busy
      key := fun b => if b = a then w.slab.length else w.key b, log := w.log ++ [.sub a] })
    (hold : Old w) (ha : a ∉ subsOf w.log) (hq : w.queue.length < f)
    (hn : tidy → ∀ n ∈ src, n ≠ .unsubscribe) (hn' : clean → ∀ n ∈ src, ∀ f, n ≠ .error f) :
    ∃ y, create D limit (teardown D limit) P a src w = .ok y ∧
      Good D limit tidy clean c [] y ∧ Ext w y ∧ Waits y ∧ (y.outerClosed = false → w.slab.length < y.slab.length) := by
  have hab : a ∉ w.busy := fun h => ha (hold a h)
  obtain ⟨y, hy, h1, h2, h3⟩ := fold_good hl hD hcl hct hP hac src hG (fun b hb => by
      rcases List.mem_cons.1 hb with rfl | hb
      · simp
      · simp [hold b hb]) hq hn hn'
  have hW : Waits y := h3 fun _ _ => .inl (by simp)
  have hyb : y.busy = a :: w.busy := h2.busy
  simp only [create, innerSubscribe, hy, bind, Except.bind, pure, Except.pure]
  have hF : ∀ b ∈ y.opened, b ∈ w.busy → b ∈ c ∨ b ∈ [] := fun b hb hbb => by
    rcases h1.fits.sup b hb (by rw [hyb]; exact List.mem_cons_of_mem _ hbb) with h | h
    · exact .inl h
    · exact absurd (List.mem_singleton.1 h ▸ hbb) hab
  have hFs : ∀ b ∈ c, b ∈ w.busy := fun b hb => by
    have := h1.fits.sub b hb
    rw [hyb] at this
    rcases List.mem_cons.1 this with rfl | h
    · exact absurd hb hac
    · exact h
  have hslab : y.outerClosed = false → w.slab.length < y.slab.length := fun ho => by
    have := (h2.slab ho).length_le
    simp at this
    omega
  have hE : Ext w { y with busy := w.busy } := ⟨rfl, h2.queue, (List.prefix_append _ _).trans h2.log, h2.arrived,
    fun ho => (List.prefix_append _ _).trans (h2.slab ho), h2.up, h2.outer⟩
  by_cases hay : a ∈ y.opened
  · rcases h1.phase with hO | hd
    · have hk := hslab hO.outer
      simp only [hay, if_true, hk]
      obtain ⟨t, ht⟩ := h2.slab hO.outer
      have hset : y.slab.set w.slab.length (some a) = w.slab ++ some a :: t := by
        rw [← ht]
        simp
      refine ⟨_, rfl, ⟨h1.base, ⟨hFs, hF⟩, .inl ?_⟩, ⟨rfl, hE.queue, hE.log, hE.arrived, ?_, hE.up, hE.outer⟩, hW, ?_⟩
      · refine { hO with slabLen := ?_, slabQ := ?_, key := ?_, slabbed := ?_ }
        · simp only [List.length_set]; exact hO.slabLen
        · simp only [List.length_set]; exact hO.slabQ
        · simp only [List.length_set]; exact hO.key
        · intro b hb hbb
          simp only [hset]
          by_cases hba : b = a
          · simp [hba]
          · have := hO.slabbed b hb (by rw [hyb]; simp [hba]; exact hbb)
            rw [← ht] at this
            simp only [List.append_assoc, List.mem_append, List.mem_singleton, reduceCtorEq, false_or] at this
            rcases this with h | h
            · exact List.mem_append_left _ h
            · refine List.mem_append_right _ (List.mem_cons_of_mem _ ?_)
              simpa using h
      · intro _
        simp only [hset]
        exact List.prefix_append _ _
      · intro _
        simp only [List.length_set]
        exact hk
    · exact absurd (hd.mem a hay) hac
  · simp only [hay, if_false]
    refine ⟨_, rfl, ⟨h1.base, ⟨hFs, hF⟩, ?_⟩, hE, hW, hslab⟩
    refine h1.phase.imp (fun hO => { hO with slabbed := ?_ }) (fun hd => { hd with })
    intro b hb hbb
    exact hO.slabbed b hb (by rw [hyb]; simp only [List.mem_cons, not_or]; exact ⟨fun h => hay (h ▸ hb), hbb⟩)

end Handle

/-- The queue is served. -/
theorem pop_ok (hl : 0 < limit) (hD : Closes D) (hcl : clean → Patient D) (hct : clean → tidy) (f : Nat) :
    PopOK D limit tidy clean f (pop D limit (teardown D limit) f) := by
  induction f with
  | zero => exact ⟨fun _ h => absurd h (by omega), fun _ _ h => absurd h (by omega)⟩
  | succ f ih =>
    refine ⟨fun x _ hx => by simp [pop, hx], ?_⟩
    intro c x hq hB hO hF hold
    match hxq : x.queue with
    | [] =>
      refine ⟨x, by simp [pop, hxq], ⟨hB.weaken (by omega), hF, .inl { hO with full := ?_ }⟩, Ext.refl x,
        fun h => absurd rfl h⟩
      intro _ h
      exact absurd hxq h
    | (a, src) :: q =>
      have honce := hB.once
      have hlt := hB.lt
      have horder := hB.order
      rw [hxq] at honce hlt horder
      simp only [List.map_cons] at honce hlt horder
      have ha : a ∉ subsOf x.log := fun h => (List.nodup_append.1 honce).2.2 a h a List.mem_cons_self rfl
      have hac : a ∉ c := fun h => ha (hB.dsub a (hB.cdone a h))
      have hql : q.length < f := by rw [hxq] at hq; simpa using hq
      have hmemq : (a, src) ∈ x.queue := by rw [hxq]; exact List.mem_cons_self
      have hncp : SubscriberNotification.complete ∉ outsOf x.log := fun h => by
        have := hB.quiet hO.dest _ h
        cases this
      have hnd : a ∉ x.opened := fun h => by
        rcases (hB.mem a).1 h with h | h
        · exact ha (mem_live.1 h).1
        · exact hac h
      have hB1 : B D limit tidy clean c 0 { x with
          queue := q, slab := x.slab ++ [none], opened := x.opened ++ [a], busy := a :: x.busy
          nonCompleted := x.nonCompleted + 1, nonUnsubscribed := x.nonUnsubscribed + 1
          key := fun b => if b = a then x.slab.length else x.key b, log := x.log ++ [.sub a] } :=
        hB.open_ ha (fun p hp => by rw [hxq]; exact List.mem_cons_of_mem _ hp) hncp honce hlt horder
      have hO1 : Open D limit tidy c 0 { x with
          queue := q, slab := x.slab ++ [none], opened := x.opened ++ [a], busy := a :: x.busy
          nonCompleted := x.nonCompleted + 1, nonUnsubscribed := x.nonUnsubscribed + 1
          key := fun b => if b = a then x.slab.length else x.key b, log := x.log ++ [.sub a] } := { hO with
        nonC := by simp [hO.nonC]
        nonU := by simp [hO.nonU]
        slabLen := by simp [hO.slabLen]
        slabQ := fun _ => by
          have := hO.slabQ (by rw [hxq]; simp)
          simp only [List.length_append, List.length_singleton]
          omega
        key := fun b hb => by
          simp only [List.length_append, List.length_singleton]
          by_cases hba : b = a
          · rw [if_pos hba]; omega
          · rw [if_neg hba]
            rcases List.mem_append.1 hb with h | h
            · have := hO.key b h; omega
            · exact absurd (List.mem_singleton.1 h) hba
        slabbed := fun b hb hbb => by
          simp only [List.mem_cons, not_or] at hbb
          rcases List.mem_append.1 hb with h | h
          · exact List.mem_append_left _ (hO.slabbed b h hbb.2)
          · exact absurd (List.mem_singleton.1 h) hbb.1
        all := fun ht => by
          have := hO.all ht
          rw [hxq] at this
          simpa using this
        full := fun ht _ => by
          have := hO.full ht (by rw [hxq]; simp)
          simp only [List.length_append, List.length_singleton]
          omega }
      obtain ⟨y, hy, h1, h2, h3, h4⟩ := create_good (a := a) hl hD hcl hct ih hac src
        (w := { x.reserve with queue := q }) ⟨hB1, ⟨fun b hb => List.mem_cons_of_mem _ (hF.sub b hb), fun b hb hbb => by
          by_cases hba : b = a
          · exact .inr (List.mem_singleton.2 hba)
          · simp only [List.mem_append, hba, or_false, List.mem_cons, false_or, List.not_mem_nil] at hb hbb
            exact (hF.sup b hb hbb).imp id (fun h => by cases h)⟩, .inl hO1⟩ hold ha hql
        (fun ht => hB.srcs ht _ hmemq) (fun ht => hB.srcsC ht _ hmemq)
      refine ⟨y, by simp only [pop, hxq]; exact hy, h1, ⟨h2.busy, ?_, h2.log, h2.arrived, h2.slab, h2.up, h2.outer⟩,
        fun _ => h4⟩
      rw [hxq]
      exact h2.queue.trans (List.suffix_cons _ _)

/-! ### After `concat` was unsubscribed -/

/-- With a limit of one, what is queued may still be subscribed after the destination is closed. -/
structure Zomb (D : Sub S I E) (c : List Nat) (x : State S I E) : Prop where
  outer : x.outerClosed = true
  dest : D.isClosed x.dest = true
  nonC : x.nonCompleted = x.opened.length
  nonU : x.nonUnsubscribed = x.opened.length
  key : ∀ a ∈ x.opened, x.key a < x.slab.length
  down : x.down.isClosed = true → ∀ a ∈ x.opened, a ∈ c
  err : x.up.isErrored = false

structure ZExt (x y : State S I E) : Prop where
  busy : y.busy = x.busy
  queue : y.queue <:+ x.queue
  arrived : y.arrived = x.arrived ∧ y.up.isCompleted = x.up.isCompleted
  slab : x.slab.length ≤ y.slab.length
  outs : outsOf y.log = outsOf x.log
  log : x.log <+: y.log

theorem ZExt.refl (x : State S I E) : ZExt x x := ⟨rfl, List.suffix_refl _, ⟨rfl, rfl⟩, Nat.le_refl _, rfl, List.prefix_refl _⟩

theorem ZExt.trans {x y z : State S I E} (h : ZExt x y) (h' : ZExt y z) : ZExt x z :=
  ⟨h'.busy.trans h.busy, h'.queue.trans h.queue, ⟨h'.arrived.1.trans h.arrived.1, h'.arrived.2.trans h.arrived.2⟩, Nat.le_trans h.slab h'.slab,
    h'.outs.trans h.outs, h.log.trans h'.log⟩

structure ZPopOK (D : Sub S I E) (tidy clean : Prop) (f : Nat) (P : Action S I E) : Prop where
  nil : ∀ x : State S I E, 0 < f → x.queue = [] → P x = .ok x
  run : ∀ (c : List Nat) (x : State S I E), x.queue.length < f → B D 1 tidy clean c 1 x → Zomb D c x →
    x.down.isClosed = false →
    ∃ y, P x = .ok y ∧ B D 1 tidy clean c 0 y ∧ Zomb D c y ∧ ZExt x y ∧ (x.queue ≠ [] → x.slab.length < y.slab.length)

section Zombie
variable {x : State S I E} {T P : Action S I E} {c : List Nat} {a f : Nat}

theorem closed_unsub (s : SubscriberState) : s.unsubscribeIfNotAlready.isClosed = true := by
  simp [SubscriberState.isClosed, SubscriberState.isUnsubscribed, SubscriberState.unsubscribeIfNotAlready]

theorem ztail (hT : ∀ x : State S I E, x.outerClosed = true → T x = .ok x) (ho : x.outerClosed = true)
    (hd : D.isClosed x.dest = true) : (if x.canUnsubscribe && !x.up.isErrored && !x.down.isErrored then
      (give D T none .unsubscribe x >>= T) else pure x : Except Fault (State S I E)) = .ok x := by
  split
  · simp only [give, hd, if_true, bind, Except.bind]
    exact hT x ho
  · rfl

theorem zunsub (hT : ∀ x : State S I E, x.outerClosed = true → T x = .ok x) (hP : ZPopOK D tidy clean f P)
    (ho : x.outerClosed = true) (hd : D.isClosed x.dest = true) (hC : x.nonCompleted = x.opened.length)
    (hU : x.nonUnsubscribed = x.opened.length) (hk : ∀ b ∈ x.opened.erase a, x.key b < x.slab.length)
    (hdn : x.down.isClosed = true → ∀ b ∈ x.opened, b ∈ c ∨ b = a)
    (hup : x.up.isErrored = false)
    (hB : B D 1 tidy clean c 0 x) (hq : x.queue.length < f) (ha : a ∈ x.opened) (hac : a ∉ c) :
    ∃ y, innerUnsubscribe (onUnsubscribe D 1 T P) false a x = .ok y ∧ B D 1 tidy clean c 0 y ∧ Zomb D c y ∧ ZExt x y := by
  have hpos := List.length_pos_of_mem ha
  have hlen := List.length_erase_of_mem ha
  simp only [innerUnsubscribe, ha, if_true, Bool.false_eq_true, if_false]
  rw [innerUnsubscribed_ok _ _ (by simpa [hU] using hpos) (.inr (by simpa [hC] using hpos))]
  simp only [bind, Except.bind, Bool.false_eq_true, if_false, pure, Except.pure]
  have hz : ∀ dn : SubscriberState, (dn.isClosed = true → x.down.isClosed = true) → Zomb D c { x with
      opened := x.opened.erase a, log := x.log ++ [.done a], down := dn
      nonUnsubscribed := x.nonUnsubscribed - 1, nonCompleted := x.nonCompleted - 1 } := fun dn hdn' =>
    ⟨ho, hd, by simp only; omega, by simp only; omega, hk, fun h b hb => by
      have := hB.nodup.mem_erase_iff.1 hb
      exact (hdn (hdn' h) b this.2).resolve_right this.1, hup⟩
  have hB1 : ∀ dn : SubscriberState, B D 1 tidy clean c 1 { x with
      opened := x.opened.erase a, log := x.log ++ [.done a], down := dn
      nonUnsubscribed := x.nonUnsubscribed - 1, nonCompleted := x.nonCompleted - 1 } := fun dn => hB.close ha hac
  have hE1 : ∀ dn : SubscriberState, ZExt x { x with
      opened := x.opened.erase a, log := x.log ++ [.done a], down := dn
      nonUnsubscribed := x.nonUnsubscribed - 1, nonCompleted := x.nonCompleted - 1 } := fun dn =>
    ⟨rfl, List.suffix_refl _, ⟨rfl, rfl⟩, Nat.le_refl _, by simp, List.prefix_append _ _⟩
  by_cases hcl : x.down.isClosed = true
  · have hcan : (State.canUnsubscribe { x with opened := x.opened.erase a, log := x.log ++ [Log.done a] }) = true := by
      simp [State.canUnsubscribe, hcl]
    rw [hcan]
    simp only [if_true]
    refine ⟨_, ?_, (hB1 x.down.unsubscribeIfNotAlready).weaken (by omega), hz _ (fun _ => hcl), hE1 _⟩
    split
    · rfl
    · refine onUnsubscribe_closed (by exact hd) (hT _ ho) ?_
      simp [closed_unsub]
  · have hcl' : x.down.isClosed = false := by simpa using hcl
    have hcan : (State.canUnsubscribe { x with opened := x.opened.erase a, log := x.log ++ [Log.done a] }) = false := by
      have : x.nonUnsubscribed ≠ 0 := by rw [hU]; omega
      simp [State.canUnsubscribe, hcl', this, hup]
    rw [hcan, if_neg (by simp [(not_closed hcl').2.2])]
    simp only [Bool.false_eq_true, if_false, onUnsubscribe, bind, Except.bind, pure, Except.pure]
    split
    · obtain ⟨y, hy, g1, g2, g3, _⟩ := hP.run c _ (by exact hq) (hB1 x.down) (hz x.down id) hcl'
      rw [hy]
      exact ⟨y, ztail hT g2.outer g2.dest, g1, g2, (hE1 _).trans g3⟩
    · refine ⟨_, ztail hT (by exact ho) (by exact hd), (hB1 x.down).weaken (by omega), hz x.down id, hE1 _⟩

theorem znext (hT : ∀ x : State S I E, x.outerClosed = true → T x = .ok x) (hP : ZPopOK D tidy clean f P)
    (hZ : Zomb D c x) (hB : B D 1 tidy clean c 0 x) (hq : x.queue.length < f) (ha : a ∈ x.opened) (hac : a ∉ c)
    (v : I) : ∃ y, innerNext D T (onUnsubscribe D 1 T P) a v x = .ok y ∧ B D 1 tidy clean c 0 y ∧ Zomb D c y ∧ ZExt x y := by
  simp only [innerNext, give, hZ.dest, if_true, bind, Except.bind]
  obtain ⟨y, hy, g1, g2, g3⟩ := zunsub (x := { x with down := x.down.unsubscribeIfNotAlready }) hT hP hZ.outer hZ.dest
    hZ.nonC hZ.nonU (fun b hb => hZ.key b (List.mem_of_mem_erase hb)) (fun _ => only hB (Nat.le_refl 1) ha hac) hZ.err hB hq ha hac
  exact ⟨y, hy, g1, g2, g3.busy, g3.queue, g3.arrived, g3.slab, g3.outs, g3.log⟩

theorem zerror (hT : ∀ x : State S I E, x.outerClosed = true → T x = .ok x) (hP : ZPopOK D tidy clean f P)
    (hZ : Zomb D c x) (hB : B D 1 tidy clean c 0 x) (hq : x.queue.length < f) (ha : a ∈ x.opened) (hac : a ∉ c)
    (e : E) : ∃ y, innerError D T (onUnsubscribe D 1 T P) a e x = .ok y ∧ B D 1 tidy clean c 0 y ∧ Zomb D c y ∧ ZExt x y := by
  have hdn : x.down.isClosed = false := by
    cases h : x.down.isClosed
    · rfl
    · exact absurd (hZ.down h a ha) hac
  have hdown : x.down.error = some { x.down with waiting := false, errored := true } := by
    simp [SubscriberState.error, hdn]
  simp only [innerError, State.downstreamError, hdown, State.check, give, hZ.dest, if_true, bind, Except.bind, pure,
    Except.pure]
  have honly := only hB (Nat.le_refl 1) ha hac
  obtain ⟨y, hy, g1, g2, g3⟩ := zunsub (x := { x with queue := [], down := { x.down with waiting := false, errored := true } })
    hT hP hZ.outer hZ.dest hZ.nonC hZ.nonU (fun b hb => hZ.key b (List.mem_of_mem_erase hb))
    (fun _ => honly) hZ.err (Base.clearQueue hB) (by simp only [List.length_nil]; omega) ha hac
  exact ⟨y, hy, g1, g2, g3.busy, g3.queue.trans List.nil_suffix, g3.arrived, g3.slab, g3.outs, g3.log⟩

theorem zcomplete (hT : ∀ x : State S I E, x.outerClosed = true → T x = .ok x) (hP : ZPopOK D tidy clean f P)
    (hZ : Zomb D c x) (hB : B D 1 tidy clean c 0 x) (hq : x.queue.length < f) (ha : a ∈ x.opened) (hac : a ∉ c) :
    ∃ y, innerComplete D T (fun _ => P) (onUnsubscribe D 1 T P) a x = .ok y ∧ B D 1 tidy clean c 0 y ∧ Zomb D c y ∧
      ZExt x y := by
  have hdn : x.down.isClosed = false := by
    cases h : x.down.isClosed
    · rfl
    · exact absurd (hZ.down h a ha) hac
  obtain ⟨y, hy, g1, g2, g3, g4⟩ := hP.run (a :: c) { x with log := x.log ++ [.done a] } hq (hB.begin ha hac)
    { hZ with down := fun h b hb => List.mem_cons_of_mem _ (hZ.down h b hb) } hdn
  have hE : ZExt x y := ⟨g3.busy, g3.queue, g3.arrived, g3.slab, by rw [g3.outs]; simp, (List.prefix_append _ _).trans g3.log⟩
  have hay : a ∈ y.opened := (g1.mem a).2 (.inr List.mem_cons_self)
  have hposy := List.length_pos_of_mem hay
  have hleny := List.length_erase_of_mem hay
  have hne : y.nonCompleted ≠ 0 := by rw [g2.nonC]; omega
  simp only [innerComplete, hy, bind, Except.bind, innerCompleted, State.dec, hne, if_false, pure, Except.pure]
  have hmain : ∀ dn : SubscriberState, (dn.isClosed = true → ∀ b ∈ y.opened, b ∈ a :: c) → ∃ z,
      innerUnsubscribe (onUnsubscribe D 1 T P) true a { y with nonCompleted := y.nonCompleted - 1, down := dn } = .ok z ∧
      B D 1 tidy clean c 0 z ∧ Zomb D c z ∧ ZExt y z := by
    intro dn hdn
    have hE1 : ∀ dn : SubscriberState, ZExt y { y with
        opened := y.opened.erase a, down := dn
        nonUnsubscribed := y.nonUnsubscribed - 1, nonCompleted := y.nonCompleted - 1 } := fun dn =>
      ⟨rfl, List.suffix_refl _, ⟨rfl, rfl⟩, Nat.le_refl _, rfl, List.prefix_refl _⟩
    have hz : ∀ dn' : SubscriberState, (dn'.isClosed = true → dn.isClosed = true) → Zomb D c { y with
        opened := y.opened.erase a, down := dn'
        nonUnsubscribed := y.nonUnsubscribed - 1, nonCompleted := y.nonCompleted - 1 } := fun dn' hdn' =>
      ⟨g2.outer, g2.dest, by simp only [g2.nonC]; omega, by simp only [g2.nonU]; omega,
        fun b hb => g2.key b (List.mem_of_mem_erase hb), fun h b hb => by
          have := g1.nodup.mem_erase_iff.1 hb
          rcases List.mem_cons.1 (hdn (hdn' h) b this.2) with h | h
          · exact absurd h this.1
          · exact h, g2.err⟩
    simp only [innerUnsubscribe, hay, if_true]
    rw [innerUnsubscribed_ok _ _ (by simpa [g2.nonU] using hposy) (.inl rfl)]
    simp only [bind, Except.bind, if_true, pure, Except.pure]
    by_cases hcl : dn.isClosed = true
    · have hcan : (State.canUnsubscribe { y with
          nonCompleted := y.nonCompleted - 1, down := dn, opened := y.opened.erase a }) = true := by
        simp [State.canUnsubscribe, hcl]
      rw [hcan]
      simp only [if_true]
      refine ⟨_, ?_, g1.finish hac, hz dn.unsubscribeIfNotAlready (fun _ => hcl), hE1 _⟩
      split
      · rfl
      · refine onUnsubscribe_closed (by exact g2.dest) (hT _ g2.outer) ?_
        simp [closed_unsub]
    · have hcl' : dn.isClosed = false := by simpa using hcl
      have hcan : (State.canUnsubscribe { y with
          nonCompleted := y.nonCompleted - 1, down := dn, opened := y.opened.erase a }) = false := by
        have : y.nonUnsubscribed ≠ 0 := by rw [g2.nonU]; omega
        simp [State.canUnsubscribe, hcl', this, g2.err]
      rw [hcan, if_neg (by simp [(not_closed hcl').2.2])]
      simp only [Bool.false_eq_true, if_false]
      by_cases hqx : x.queue = []
      · have hqy : y.queue = [] := by
          have := hE.queue
          rw [hqx] at this
          exact List.suffix_nil.1 this
        refine ⟨_, ?_, g1.finish hac, hz dn id, hE1 _⟩
        have hP0 := hP.nil { y with
          opened := y.opened.erase a, down := dn
          nonUnsubscribed := y.nonUnsubscribed - 1, nonCompleted := y.nonCompleted - 1 } (by omega) hqy
        simp only [onUnsubscribe, bind, Except.bind, pure, Except.pure]
        split
        · rw [hP0]; exact ztail hT (by exact g2.outer) (by exact g2.dest)
        · exact ztail hT (by exact g2.outer) (by exact g2.dest)
      · refine ⟨_, ?_, g1.finish hac, hz dn id, hE1 _⟩
        refine onUnsubscribe_closed (by exact g2.dest) (hT _ g2.outer) ?_
        have h1 := g4 hqx
        have h2 := hZ.key a ha
        have hoth := others (g2.key a hay)
        simp only at h1
        have : (((List.range y.slab.length).filter (· != y.key a)).length == 1 - 1) = false := by
          simp only [beq_eq_false_iff_ne, ne_eq]
          omega
        simp [this]
  by_cases hcan : (State.canComplete { y with nonCompleted := y.nonCompleted - 1 }) = true
  · have hdn : y.down.isClosed = false := by
      simp only [State.canComplete, Bool.and_eq_true, Bool.not_eq_true'] at hcan
      exact hcan.2
    have hdc : y.down.complete = some { y.down with waiting := false, completed := true } := by
      simp [SubscriberState.complete, hdn]
    obtain ⟨z, hz, k1, k2, k3⟩ := hmain { y.down with waiting := false, completed := true } (fun _ b hb => by
      simp only [State.canComplete, Bool.and_eq_true, beq_iff_eq] at hcan
      have h1 : y.opened.length = 1 := by have := hcan.1.1.2; rw [g2.nonC] at this; omega
      match hyo : y.opened with
      | [] => rw [hyo] at h1; cases h1
      | [d] =>
        rw [hyo] at hay hb
        rw [List.mem_singleton.1 hb, ← List.mem_singleton.1 hay]
        exact List.mem_cons_self
      | _ :: _ :: _ => rw [hyo] at h1; simp at h1)
    simp only [hcan, if_true, hdc, State.check, give, g2.dest]
    exact ⟨z, hz, k1, k2, hE.trans k3⟩
  · have hcan' : (State.canComplete { y with nonCompleted := y.nonCompleted - 1 }) = false := by simpa using hcan
    simp only [hcan', Bool.false_eq_true, if_false]
    obtain ⟨z, hz, k1, k2, k3⟩ := hmain y.down g2.down
    exact ⟨z, hz, k1, k2, hE.trans k3⟩

theorem zpush (hT : ∀ x : State S I E, x.outerClosed = true → T x = .ok x) (hP : ZPopOK D tidy clean f P)
    (hZ : Zomb D c x) (hB : B D 1 tidy clean c 0 x) (hq : x.queue.length < f) (hac : a ∉ c)
    (n : SubscriberNotification I E) :
    ∃ y, innerPush D T (fun _ => P) (onUnsubscribe D 1 T P) a x n = .ok y ∧ B D 1 tidy clean c 0 y ∧ Zomb D c y ∧
      ZExt x y := by
  by_cases ha : a ∈ x.opened
  · have hZ1 : Zomb D c { x with busy := a :: x.busy } := { hZ with }
    have hmain : ∃ y, innerHandle D T (fun _ => P) (onUnsubscribe D 1 T P) a n { x with busy := a :: x.busy } = .ok y ∧
        B D 1 tidy clean c 0 y ∧ Zomb D c y ∧ ZExt { x with busy := a :: x.busy } y := by
      cases n with
      | next v => exact znext hT hP hZ1 hB hq ha hac v
      | error e => exact zerror hT hP hZ1 hB hq ha hac e
      | complete => exact zcomplete hT hP hZ1 hB hq ha hac
      | unsubscribe =>
        exact zunsub hT hP hZ1.outer hZ1.dest hZ1.nonC hZ1.nonU (fun b hb => hZ1.key b (List.mem_of_mem_erase hb))
          (fun h b hb => .inl (hZ1.down h b hb)) hZ1.err hB hq ha hac
    obtain ⟨y, hy, g1, g2, g3⟩ := hmain
    simp only [innerPush, ha, if_true, hy, bind, Except.bind, pure, Except.pure]
    exact ⟨_, rfl, g1, { g2 with }, rfl, g3.queue, g3.arrived, g3.slab, g3.outs, g3.log⟩
  · exact ⟨x, by simp [innerPush, ha], hB, hZ, ZExt.refl x⟩

theorem zfold (hT : ∀ x : State S I E, x.outerClosed = true → T x = .ok x) (hP : ZPopOK D tidy clean f P)
    (hac : a ∉ c) (src : Src I E) : ∀ {x : State S I E} (_ : Zomb D c x) (_ : B D 1 tidy clean c 0 x)
    (_ : x.queue.length < f), ∃ y, src.foldlM (innerPush D T (fun _ => P) (onUnsubscribe D 1 T P) a) x = .ok y ∧
      B D 1 tidy clean c 0 y ∧ Zomb D c y ∧ ZExt x y := by
  induction src with
  | nil => exact fun hZ hB _ => ⟨_, rfl, hB, hZ, ZExt.refl _⟩
  | cons n src ih =>
    intro x hZ hB hq
    obtain ⟨y, hy, h1, h2, h3⟩ := zpush hT hP hZ hB hq hac n
    obtain ⟨z, hz, g1, g2, g3⟩ := ih h2 h1 (Nat.lt_of_le_of_lt h3.queue.length_le hq)
    refine ⟨z, ?_, g1, g2, h3.trans g3⟩
    simp only [List.foldlM_cons, hy, bind, Except.bind]
    exact hz

theorem zpop (hT : ∀ x : State S I E, x.outerClosed = true → T x = .ok x) (f : Nat) :
    ZPopOK D tidy clean f (pop D 1 T f) := by
  induction f with
  | zero => exact ⟨fun _ h => absurd h (by omega), fun _ _ h => absurd h (by omega)⟩
  | succ f ih =>
    refine ⟨fun x _ hx => by simp [pop, hx], ?_⟩
    intro c x hq hB hZ hdn
    match hxq : x.queue with
    | [] => exact ⟨x, by simp [pop, hxq], hB.weaken (by omega), hZ, ZExt.refl x, fun h => absurd rfl h⟩
    | (a, src) :: q =>
      have honce := hB.once
      have hlt := hB.lt
      have horder := hB.order
      rw [hxq] at honce hlt horder
      simp only [List.map_cons] at honce hlt horder
      have ha : a ∉ subsOf x.log := fun h => (List.nodup_append.1 honce).2.2 a h a List.mem_cons_self rfl
      have hac : a ∉ c := fun h => ha (hB.dsub a (hB.cdone a h))
      have hql : q.length < f := by rw [hxq] at hq; simpa using hq
      have hncp : SubscriberNotification.complete ∉ outsOf x.log := fun h => by
        have := (hB.compl h).2.2.1
        rw [hxq] at this
        cases this
      have hnd : a ∉ x.opened := fun h => by
        rcases (hB.mem a).1 h with h | h
        · exact ha (mem_live.1 h).1
        · exact hac h
      have hB1 : B D 1 tidy clean c 0 { x with
          queue := q, slab := x.slab ++ [none], opened := x.opened ++ [a], busy := a :: x.busy
          nonCompleted := x.nonCompleted + 1, nonUnsubscribed := x.nonUnsubscribed + 1
          key := fun b => if b = a then x.slab.length else x.key b, log := x.log ++ [.sub a] } :=
        hB.open_ ha (fun p hp => by rw [hxq]; exact List.mem_cons_of_mem _ hp) hncp honce hlt horder
      have hZ1 : Zomb D c { x with
          queue := q, slab := x.slab ++ [none], opened := x.opened ++ [a], busy := a :: x.busy
          nonCompleted := x.nonCompleted + 1, nonUnsubscribed := x.nonUnsubscribed + 1
          key := fun b => if b = a then x.slab.length else x.key b, log := x.log ++ [.sub a] } :=
        ⟨hZ.outer, hZ.dest, by simp [hZ.nonC], by simp [hZ.nonU], fun b hb => by
          simp only [List.length_append, List.length_singleton]
          by_cases hba : b = a
          · rw [if_pos hba]; omega
          · rw [if_neg hba]
            rcases List.mem_append.1 hb with h | h
            · have := hZ.key b h; omega
            · exact absurd (List.mem_singleton.1 h) hba, (fun h => by rw [hdn] at h; cases h), hZ.err⟩
      obtain ⟨y, hy, g1, g2, g3⟩ := zfold hT ih hac src hZ1 hB1 hql
      have hsl : x.slab.length < y.slab.length := by
        have := g3.slab
        simp at this
        omega
      have hE : ∀ s : List (Option Nat), s.length = y.slab.length → ZExt x { y with busy := x.busy, slab := s } := fun s hs =>
        ⟨rfl, by rw [hxq]; exact g3.queue.trans (List.suffix_cons _ _), g3.arrived, by simp only [hs]; omega,
          by rw [g3.outs]; simp, (List.prefix_append _ _).trans g3.log⟩
      by_cases hay : a ∈ y.opened
      · refine ⟨{ y with busy := x.busy, slab := y.slab.set x.slab.length (some a) }, ?_, g1,
          { g2 with key := by simpa using g2.key }, hE _ (by simp), fun _ => by simpa using hsl⟩
        simp only [pop, hxq, create, innerSubscribe, State.reserve, bind, Except.bind, pure, Except.pure]
        rw [hy]
        simp only [hay, if_true, hsl]
      · refine ⟨{ y with busy := x.busy }, ?_, g1, { g2 with }, hE y.slab rfl, fun _ => hsl⟩
        simp only [pop, hxq, create, innerSubscribe, State.reserve, bind, Except.bind, pure, Except.pure]
        rw [hy]
        simp only [hay, if_false]

/-- The drain when `concat` is unsubscribed. -/
theorem zdrain (ks : List Nat) : ∀ {x : State S I E} (_ : B D 1 tidy clean [] 0 x) (_ : Zomb D [] x) (_ : x.busy = []),
    ∃ y, ks.foldlM (fun x a => innerCancel (onUnsubscribe D 1 .ok (pop D 1 .ok (x.queue.length + 1))) a x) x = .ok y ∧
      B D 1 tidy clean [] 0 y ∧ Zomb D [] y ∧ ZExt x y := by
  induction ks with
  | nil => exact fun hB hZ _ => ⟨_, rfl, hB, hZ, ZExt.refl _⟩
  | cons a ks ih =>
    intro x hB hZ hb
    simp only [List.foldlM_cons, bind, Except.bind, innerCancel, hb, List.not_mem_nil, if_false]
    by_cases ha : a ∈ x.opened
    · obtain ⟨y, hy, g1, g2, g3⟩ := zunsub (fun _ _ => rfl) (zpop (fun _ _ => rfl) (x.queue.length + 1)) hZ.outer hZ.dest hZ.nonC
        hZ.nonU (fun b hb => hZ.key b (List.mem_of_mem_erase hb)) (fun h b hb => .inl (hZ.down h b hb)) hZ.err hB
        (Nat.lt_succ_self _) ha (by simp)
      rw [hy]
      obtain ⟨z, hz, k1, k2, k3⟩ := ih g1 g2 (g3.busy.trans hb)
      exact ⟨z, hz, k1, k2, g3.trans k3⟩
    · rw [show innerUnsubscribe (onUnsubscribe D 1 .ok (pop D 1 .ok (x.queue.length + 1))) false a x = .ok x by
        simp [innerUnsubscribe, ha]]
      exact ih hB hZ hb

/-- Until the active inner observable is reached. -/
theorem zdrain_first (ks : List Nat) : ∀ {x : State S I E} (_ : B D 1 tidy clean [] 0 x) (_ : x.outerClosed = true)
    (_ : D.isClosed x.dest = true) (_ : x.nonCompleted = x.opened.length) (_ : x.nonUnsubscribed = x.opened.length)
    (_ : x.up.isErrored = false) (_ : x.down.isClosed = false) (_ : ∀ a ∈ x.opened, a ∈ ks) (_ : x.busy = []),
    ∃ y, ks.foldlM (fun x a => innerCancel (onUnsubscribe D 1 .ok (pop D 1 .ok (x.queue.length + 1))) a x) x = .ok y ∧
      B D 1 tidy clean [] 0 y ∧ Zomb D [] y ∧ ZExt x y := by
  induction ks with
  | nil =>
    intro x hB ho hd hC hU hup hdn hk hb
    refine ⟨x, rfl, hB, ⟨ho, hd, hC, hU, fun a ha => absurd (hk a ha) (by simp), ?_, hup⟩, ZExt.refl x⟩
    intro h; rw [hdn] at h; cases h
  | cons a ks ih =>
    intro x hB ho hd hC hU hup hdn hk hb
    simp only [List.foldlM_cons, bind, Except.bind, innerCancel, hb, List.not_mem_nil, if_false]
    by_cases ha : a ∈ x.opened
    · have honly := only hB (Nat.le_refl 1) ha (by simp)
      obtain ⟨y, hy, g1, g2, g3⟩ := zunsub (T := .ok) (fun _ _ => rfl) (zpop (fun _ _ => rfl) (x.queue.length + 1)) ho hd hC hU
        (fun b hb => by
          have := hB.nodup.mem_erase_iff.1 hb
          rcases honly b this.2 with h | h
          · cases h
          · exact absurd h this.1) (fun h => by rw [hdn] at h; cases h) hup hB (Nat.lt_succ_self _) ha (by simp)
      rw [hy]
      obtain ⟨z, hz, k1, k2, k3⟩ := zdrain ks g1 g2 (g3.busy.trans hb)
      exact ⟨z, hz, k1, k2, g3.trans k3⟩
    · rw [show innerUnsubscribe (onUnsubscribe D 1 .ok (pop D 1 .ok (x.queue.length + 1))) false a x = .ok x by
        simp [innerUnsubscribe, ha]]
      refine ih hB ho hd hC hU hup hdn (fun b hb => ?_) hb
      rcases List.mem_cons.1 (hk b hb) with h | h
      · exact absurd (h ▸ hb) ha
      · exact h

end Zombie

/-! ### Histories -/

section Top

theorem Base.arrive {c : List Nat} {d : Nat} {closed : Bool}
    {queue : List (Nat × Src I E)} {opened : List Nat} {log : List (Log I E)} {arrived : Nat} {up : Bool}
    (h : Base limit tidy clean c d closed queue opened log arrived up) (hc : .complete ∉ outsOf log) :
    Base limit tidy clean c d closed queue opened log (arrived + 1) up :=
  { h with
    lt := fun a ha => by have := h.lt a ha; omega
    compl := fun hm => absurd hm hc }

theorem Base.setUp {c : List Nat} {d : Nat}
    {queue : List (Nat × Src I E)} {opened : List Nat} {log : List (Log I E)} {arrived : Nat} {up up' : Bool}
    (h : Base limit tidy clean c d false queue opened log arrived up) :
    Base limit tidy clean c d false queue opened log arrived up' :=
  { h with
    compl := fun hm => by
      have := h.quiet rfl _ hm
      cases this }

theorem Base.enqueue {c : List Nat} {d : Nat} {closed : Bool}
    {queue : List (Nat × Src I E)} {opened : List Nat} {log : List (Log I E)} {arrived : Nat} {up : Bool}
    (h : Base limit tidy clean c d closed queue opened log arrived up) (hc : .complete ∉ outsOf log) (src : Src I E)
    (hn : tidy → ∀ n ∈ src, n ≠ .unsubscribe) (hn' : clean → ∀ n ∈ src, ∀ f, n ≠ .error f) :
    Base limit tidy clean c d closed (queue ++ [(arrived, src)]) opened log (arrived + 1) up :=
  { h with
    once := by
      rw [List.map_append, ← List.append_assoc, List.nodup_append]
      refine ⟨h.once, by simp, fun a ha b hb => ?_⟩
      have := h.lt a ha
      have hb' : b = arrived := by simpa using hb
      omega
    lt := fun a ha => by
      rw [List.map_append, ← List.append_assoc, List.mem_append] at ha
      rcases ha with ha | ha
      · have := h.lt a ha; omega
      · have : a = arrived := by simpa using ha
        omega
    order := fun ht => by
      rw [List.map_append, ← List.append_assoc, List.pairwise_append]
      refine ⟨h.order ht, by simp, fun a ha b hb => ?_⟩
      have := h.lt a ha
      have hb' : b = arrived := by simpa using hb
      omega
    srcs := fun ht q hq => by
      rcases List.mem_append.1 hq with hq | hq
      · exact h.srcs ht q hq
      · rw [List.mem_singleton.1 hq]; exact hn ht
    srcsC := fun ht q hq => by
      rcases List.mem_append.1 hq with hq | hq
      · exact h.srcsC ht q hq
      · rw [List.mem_singleton.1 hq]; exact hn' ht
    compl := fun hm => absurd hm hc }

/-- Between events. -/
structure Inv (D : Sub S I E) (limit : Nat) (tidy clean : Prop) (es : List (Event I E)) (x : State S I E) : Prop where
  busy : x.busy = []
  base : B D limit tidy clean [] 0 x
  phase : (Open D limit tidy [] 0 x ∧ Waits x) ∨ Dead D [] x ∨ (limit = 1 ∧ (¬ clean ∧ .unsubscribe ∈ outsOf x.log) ∧ Zomb D [] x)
  arrived : x.arrived = arrivals es
  upC : x.up.isCompleted = true → .complete ∈ outerNotes es
  upO : x.outerClosed = false → .complete ∈ outerNotes es → x.up.isCompleted = true

theorem conforming_snoc {l : List (SubscriberNotification (Src I E) E)} {n : SubscriberNotification (Src I E) E} :
    Conforming (l ++ [n]) ↔ Conforming l ∧ ((∃ m ∈ l, m.isTerminal = true) → n = .unsubscribe) := by
  induction l with
  | nil => simp [Conforming]
  | cons a l ih =>
    simp only [List.cons_append, Conforming, ih, List.mem_append, List.mem_cons, List.not_mem_nil, or_false]
    constructor
    · rintro ⟨h1, h2, h3⟩
      refine ⟨⟨fun ha m hm => h1 ha m (.inl hm), h2⟩, ?_⟩
      rintro ⟨m, rfl | hm, ht⟩
      · exact h1 ht n (.inr rfl)
      · exact h3 ⟨m, hm, ht⟩
    · rintro ⟨⟨h1, h2⟩, h3⟩
      refine ⟨fun ha m hm => ?_, h2, fun ⟨m, hm, ht⟩ => h3 ⟨m, .inr hm, ht⟩⟩
      rcases hm with hm | rfl
      · exact h1 ha m hm
      · exact h3 ⟨a, .inl rfl, ha⟩

theorem outerNotes_snoc_outer {es : List (Event I E)} {n : SubscriberNotification (Src I E) E} :
    outerNotes (es ++ [.outer n]) = outerNotes es ++ [n] := by simp [outerNotes]

theorem outerNotes_snoc_inner {es : List (Event I E)} {a : Nat} {n : SubscriberNotification I E} :
    outerNotes (es ++ [.inner a n]) = outerNotes es := by simp [outerNotes]

theorem arrivals_snoc_next {es : List (Event I E)} {src : Src I E} :
    arrivals (es ++ [.outer (.next src)]) = arrivals es + 1 := by
  simp [arrivals, outerNotes_snoc_outer]

theorem arrivals_snoc_inner {es : List (Event I E)} {a : Nat} {n : SubscriberNotification I E} :
    arrivals (es ++ [.inner a n]) = arrivals es := by
  simp [arrivals, outerNotes_snoc_inner]

theorem arrivals_snoc_outer {es : List (Event I E)} {n : SubscriberNotification (Src I E) E} (hn : ∀ src, n ≠ .next src) :
    arrivals (es ++ [.outer n]) = arrivals es := by
  cases n with
  | next src => exact absurd rfl (hn src)
  | error _ => simp [arrivals, outerNotes_snoc_outer]
  | complete => simp [arrivals, outerNotes_snoc_outer]
  | unsubscribe => simp [arrivals, outerNotes_snoc_outer]

variable {es : List (Event I E)} {x : State S I E}

theorem inv_init (s : S) (hs : D.isClosed s = false) : Inv D limit tidy clean [] ({ dest := s } : State S I E) where
  busy := rfl
  base := by
    constructor <;> simp [subsOf, donesOf, outsOf, live, hs]
  phase := .inl ⟨by
    constructor <;> simp [subsOf, SubscriberState.isClosed, SubscriberState.isUnsubscribed, SubscriberState.isFinished,
      SubscriberState.isCompleted, SubscriberState.isErrored, SubscriberState.default, hs], by
    simp [Waits, SubscriberState.isCompleted, SubscriberState.default]⟩
  arrived := rfl
  upC := by simp [SubscriberState.isCompleted, SubscriberState.default]
  upO := by simp [outerNotes]

theorem inv_closed (h : Inv D limit tidy clean es x) : isClosed D x = x.outerClosed ∧ x.outerClosed = D.isClosed x.dest := by
  rcases h.phase with ⟨h, _⟩ | h | ⟨_, _, h⟩
  · simp [isClosed, h.outer, h.dest]
  · simp [isClosed, h.outer, h.dest]
  · simp [isClosed, h.outer, h.dest]

theorem inv_open (h : Inv D limit tidy clean es x) (ho : x.outerClosed = false) : Open D limit tidy [] 0 x ∧ Waits x := by
  rcases h.phase with h | h | ⟨_, _, h⟩
  · exact h
  · rw [h.outer] at ho; cases ho
  · rw [h.outer] at ho; cases ho

/-- Nothing changes but the number of arrivals. -/
theorem inv_skip (h : Inv D limit tidy clean es x) (hx : x.outerClosed = true) (e : Event I E)
    (hc : Conforming (outerNotes (es ++ [e])))
    (he : ∀ a n, e ≠ .inner a n) : Inv D limit tidy clean (es ++ [e]) { x with arrived := arrivals (es ++ [e]) } := by
  cases e with
  | inner a n => exact absurd rfl (he a n)
  | outer n =>
    rw [outerNotes_snoc_outer, conforming_snoc] at hc
    have hup : x.up.isCompleted = true → .complete ∈ outerNotes (es ++ [.outer n]) := fun hu => by
      rw [outerNotes_snoc_outer]
      exact List.mem_append_left _ (h.upC hu)
    have hphase : (Open D limit tidy [] 0 { x with arrived := arrivals (es ++ [.outer n]) } ∧
        Waits { x with arrived := arrivals (es ++ [.outer n]) }) ∨
        Dead D [] { x with arrived := arrivals (es ++ [.outer n]) } ∨
        (limit = 1 ∧ (¬ clean ∧ .unsubscribe ∈ outsOf x.log) ∧ Zomb D [] { x with arrived := arrivals (es ++ [.outer n]) }) := by
      rcases h.phase with ⟨ho, _⟩ | hd | ⟨h1, h2, hz⟩
      · rw [ho.outer] at hx; cases hx
      · exact .inr (.inl { hd with })
      · exact .inr (.inr ⟨h1, h2, { hz with }⟩)
    refine ⟨h.busy, ?_, hphase, rfl, hup, fun ho => by simp only [hx] at ho; cases ho⟩
    by_cases hn : ∃ src, n = .next src
    · obtain ⟨src, rfl⟩ := hn
      rw [arrivals_snoc_next]
      have hncp : SubscriberNotification.complete ∉ outsOf x.log := fun hm => by
        have := hc.2 ⟨.complete, h.upC (h.base.compl hm).1, rfl⟩
        cases this
      have := Base.arrive h.base hncp
      rw [h.arrived] at this
      exact this
    · have := h.base
      unfold B at this
      rw [h.arrived, ← arrivals_snoc_outer (n := n) (fun src hs => hn ⟨src, hs⟩)] at this
      exact this

theorem inner_inv (hl : 0 < limit) (hD : Closes D) (hcl : clean → Patient D) (hct : clean → tidy)
    (h : Inv D limit tidy clean es x) (a : Nat) (n : SubscriberNotification I E)
    (hn : tidy → n ≠ .unsubscribe) (hn' : clean → ∀ f, n ≠ .error f) :
    ∃ y, inner D limit a n x = .ok y ∧ Inv D limit tidy clean (es ++ [.inner a n]) y ∧
      x.log <+: y.log := by
  rcases h.phase with ⟨ho, hw⟩ | hd | ⟨hl1, hncl, hz⟩
  · obtain ⟨y, hy, g1, g2, g3⟩ := push_good (a := a) hl hD hcl hct (pop_ok hl hD hcl hct (x.queue.length + 1))
      ⟨h.base, ⟨by simp, by simp [h.busy]⟩, .inl ho⟩ (by intro b hb; rw [h.busy] at hb; cases hb) (Nat.lt_succ_self _)
      (by simp) n hn hn'
    refine ⟨y, hy, ⟨g2.busy.trans h.busy, g1.base, ?_, ?_, ?_, ?_⟩, g2.log⟩
    · rcases g1.phase with k | k
      · exact .inl ⟨k, g3 hw⟩
      · exact .inr (.inl k)
    · rw [g2.arrived.1, h.arrived, arrivals_snoc_inner]
    · rw [outerNotes_snoc_inner, g2.arrived.2]
      exact h.upC
    · rw [outerNotes_snoc_inner]
      intro hyo hm
      rw [g2.up hyo]
      exact h.upO ho.outer hm
  · refine ⟨x, ?_, ⟨h.busy, h.base, .inr (.inl hd), ?_, ?_, ?_⟩, List.prefix_refl _⟩
    · have : a ∉ x.opened := fun ha => by
        have := hd.mem a ha
        cases this
      simp [inner, innerPush, this]
    · rw [h.arrived, arrivals_snoc_inner]
    · rw [outerNotes_snoc_inner]; exact h.upC
    · rw [outerNotes_snoc_inner]; exact h.upO
  · subst hl1
    obtain ⟨y, hy, g1, g2, g3⟩ := zpush (a := a) (T := teardown D 1) (fun _ h => teardown_closed h)
      (zpop (fun _ h => teardown_closed h) (x.queue.length + 1)) hz h.base (Nat.lt_succ_self _) (by simp) n
    refine ⟨y, hy, ⟨g3.busy.trans h.busy, g1, .inr (.inr ⟨rfl, ⟨hncl.1, by rw [g3.outs]; exact hncl.2⟩, g2⟩), ?_, ?_, ?_⟩, g3.log⟩
    · rw [g3.arrived.1, h.arrived, arrivals_snoc_inner]
    · rw [outerNotes_snoc_inner, g3.arrived.2]; exact h.upC
    · intro ho; rw [g2.outer] at ho; cases ho

theorem next_inv (hl : 0 < limit) (hD : Closes D) (hcl : clean → Patient D) (hct : clean → tidy)
    (h : Inv D limit tidy clean es x) (src : Src I E) (hc : Conforming (outerNotes (es ++ [.outer (.next src)])))
    (hn : tidy → ∀ n ∈ src, n ≠ .unsubscribe) (hn' : clean → ∀ n ∈ src, ∀ f, n ≠ .error f) :
    ∃ y, next D limit src x = .ok y ∧ Inv D limit tidy clean (es ++ [.outer (.next src)]) y ∧ x.log <+: y.log := by
  obtain ⟨hcx, hcx'⟩ := inv_closed h
  have hclosed : isClosed D { x with arrived := x.arrived + 1 } = isClosed D x := rfl
  cases hxo : x.outerClosed
  · obtain ⟨ho, hw⟩ := inv_open h hxo
    have hncp : SubscriberNotification.complete ∉ outsOf x.log := fun hm => by
      have := h.base.quiet ho.dest _ hm
      cases this
    have hupc : x.up.isCompleted = false := by
      cases hu : x.up.isCompleted
      · rfl
      · rw [outerNotes_snoc_outer, conforming_snoc] at hc
        have := hc.2 ⟨.complete, h.upC hu, rfl⟩
        cases this
    have hc0 : isClosed D { x with arrived := x.arrived + 1 } = false := by rw [hclosed, hcx, hxo]
    simp only [next, hc0, Bool.false_eq_true, if_false]
    have hnew : x.arrived ∉ subsOf x.log ++ x.queue.map (·.1) := fun hm => by
      have := h.base.lt _ hm
      omega
    by_cases hlt : x.nonCompleted < limit
    · rw [if_pos hlt]
      have hq0 : tidy → x.queue = [] := fun ht => Classical.not_not.1 fun hq => by
        have := ho.full ht hq
        rw [ho.nonC] at hlt
        simp at this
        omega
      have hB0 : B D limit tidy clean [] 1 x :=
        { h.base with room := by have := ho.nonC; simp only [List.length_nil]; omega }
      have hB1 : B D limit tidy clean [] 0 { x with
          arrived := x.arrived + 1, slab := x.slab ++ [none], opened := x.opened ++ [x.arrived], busy := x.arrived :: x.busy
          nonCompleted := x.nonCompleted + 1, nonUnsubscribed := x.nonUnsubscribed + 1
          key := fun b => if b = x.arrived then x.slab.length else x.key b, log := x.log ++ [.sub x.arrived] } := by
        refine hB0.open_ (fun hm => hnew (List.mem_append_left _ hm)) (fun _ => id) hncp ?_ ?_ ?_
        · have h1 := h.base.once
          rw [List.nodup_append] at h1 ⊢
          refine ⟨h1.1, List.nodup_cons.2 ⟨fun hm => hnew (List.mem_append_right _ hm), h1.2.1⟩, fun p hp q hq => ?_⟩
          rcases List.mem_cons.1 hq with rfl | hq
          · rintro rfl
            exact hnew (List.mem_append_left _ hp)
          · exact h1.2.2 p hp q hq
        · intro b hb
          rcases List.mem_append.1 hb with hb | hb
          · have := h.base.lt b (List.mem_append_left _ hb); simp only; omega
          · rcases List.mem_cons.1 hb with rfl | hb
            · exact Nat.lt_succ_self _
            · have := h.base.lt b (List.mem_append_right _ hb); simp only; omega
        · intro ht
          have h1 := h.base.order ht
          have h2 := h.base.lt
          rw [hq0 ht] at h1 h2 ⊢
          simp only [List.map_nil, List.append_nil] at h1 h2 ⊢
          rw [List.pairwise_append]
          refine ⟨h1, by simp, fun p hp q hq => ?_⟩
          rw [List.mem_singleton.1 hq]
          exact h2 p hp
      have hO1 : Open D limit tidy [] 0 { x with
          arrived := x.arrived + 1, slab := x.slab ++ [none], opened := x.opened ++ [x.arrived], busy := x.arrived :: x.busy
          nonCompleted := x.nonCompleted + 1, nonUnsubscribed := x.nonUnsubscribed + 1
          key := fun b => if b = x.arrived then x.slab.length else x.key b, log := x.log ++ [.sub x.arrived] } := { ho with
        nonC := by simp [ho.nonC]
        nonU := by simp [ho.nonU]
        slabLen := by simp [ho.slabLen]
        slabQ := fun hq => by
          have := ho.slabQ hq
          simp only [List.length_append, List.length_singleton]
          omega
        key := fun b hb => by
          simp only [List.length_append, List.length_singleton]
          by_cases hba : b = x.arrived
          · rw [if_pos hba]; omega
          · rw [if_neg hba]
            rcases List.mem_append.1 hb with h | h
            · have := ho.key b h; omega
            · exact absurd (List.mem_singleton.1 h) hba
        slabbed := fun b hb hbb => by
          simp only [List.mem_cons, not_or] at hbb
          rcases List.mem_append.1 hb with h | h
          · exact List.mem_append_left _ (ho.slabbed b h hbb.2)
          · exact absurd (List.mem_singleton.1 h) hbb.1
        all := fun ht => by
          have := ho.all ht
          rw [hq0 ht] at this ⊢
          simp only [List.map_nil, List.append_nil] at this
          simp [this, List.range_succ]
        full := fun ht hq => absurd (hq0 ht) hq }
      obtain ⟨y, hy, h1, h2, h3, h4⟩ := create_good (a := x.arrived) hl hD hcl hct
        (pop_ok hl hD hcl hct (x.queue.length + 1)) (by simp) src
        (w := State.reserve { x with arrived := x.arrived + 1 })
        ⟨hB1, ⟨by simp, fun b hb hbb => by
          simp only [State.reserve, h.busy] at hbb
          exact .inr hbb⟩, .inl hO1⟩
        (by intro b hb; simp only [State.reserve, h.busy] at hb; cases hb) (fun hm => hnew (List.mem_append_left _ hm))
        (Nat.lt_succ_self _) hn hn'
      refine ⟨y, hy, ⟨h2.busy.trans h.busy, h1.base, ?_, ?_, ?_, ?_⟩, h2.log⟩
      · rcases h1.phase with k | k
        · exact .inl ⟨k, h3⟩
        · exact .inr (.inl k)
      · rw [h2.arrived.1, arrivals_snoc_next, ← h.arrived]; rfl
      · rw [h2.arrived.2]
        intro hu
        exact absurd hu (by simp [State.reserve, hupc])
      · intro hyo hm
        rw [outerNotes_snoc_outer] at hm
        rw [h2.arrived.2]
        refine h.upO hxo ?_
        simpa using hm
    · rw [if_neg hlt]
      have hlen : x.opened.length = limit := by
        have := h.base.room
        have := ho.nonC
        simp at *
        omega
      refine ⟨_, rfl, ⟨h.busy, Base.enqueue h.base hncp src hn hn', .inl ⟨{ ho with
        slabQ := fun _ => by have := ho.slabLen; simp only; omega
        all := fun ht => by
          have := ho.all ht
          simp only [List.map_append, List.map_cons, List.map_nil, ← List.append_assoc, this, List.range_succ]
        full := fun _ _ => by simp [hlen] }, fun _ hu => absurd hu (by simp [hupc])⟩, ?_, ?_, ?_⟩, List.prefix_refl _⟩
      · rw [arrivals_snoc_next, ← h.arrived]
      · intro hu; exact absurd hu (by simp [hupc])
      · intro _ hm
        rw [outerNotes_snoc_outer] at hm
        exact h.upO hxo (by simpa using hm)
  · have hs := inv_skip h hxo _ hc (fun a n hh => by cases hh)
    rw [arrivals_snoc_next, ← h.arrived] at hs
    refine ⟨_, ?_, hs, List.prefix_refl _⟩
    have hc0 : isClosed D { x with arrived := x.arrived + 1 } = true := by rw [hclosed, hcx, hxo]
    simp only [next, hc0, if_true]

/-- The destination ends, and then everything else. -/
theorem end_inv (hD : Closes D) {src : Option Nat} {n : SubscriberNotification I E} (hn : n.isClosing = true)
    {tail : Action S I E} (htail : ∀ y : State S I E, y.outerClosed = true → tail y = .ok y)
    (hb : x.busy = []) (ho : Open D limit tidy [] 0 x) {up : SubscriberState} {q : List (Nat × Src I E)}
    (hq : 2 ≤ limit ∨ q = [])
    (hB : Base limit tidy clean [] 0 true q x.opened (x.log ++ [.out src n]) x.arrived up.isCompleted) :
    ∃ y, (give D (teardown D limit) src n { x with queue := q, up := up } >>= tail) = .ok y ∧
      y.busy = [] ∧ B D limit tidy clean [] 0 y ∧ Dead D [] y ∧ y.arrived = x.arrived ∧
      y.up.isCompleted = up.isCompleted ∧ y.queue = q ∧
      ∃ l : List Nat, y.log = x.log ++ .out src n :: l.map Log.done := by
  have hcd : D.isClosed (D.push x.dest n) = true := hD _ _ hn
  obtain ⟨y, hy, h1, h2, h3, h4, h4', h5, h6, h7, h8, h9, h10, h11, h12, h13, h14, l, h15⟩ := teardown_spec
    (x := { x with queue := q, up := up, dest := D.push x.dest n, log := x.log ++ [.out src n] }) ho.outer hcd
    (.inl hq) (.inl ho.nonC) ho.nonU (c := []) (d := 0) (tidy := tidy) (clean := clean) (by simp)
    (by unfold B; rw [hcd]; exact hB) ho.slabbed
  have hop : y.opened = [] := List.eq_nil_iff_forall_not_mem.2 fun b hbb => by
    have := (h4 b hbb).2
    simp only [hb] at this
    cases this
  refine ⟨y, ?_, h13.trans hb, h3, ⟨h1, by rw [h2]; exact hcd, h6 ho.nonC, h5, by simp [hop], by simp⟩, h14, h11, h12, l, ?_⟩
  · simp only [give, ho.dest, Bool.false_eq_true, if_false, hcd, if_true, hy, bind, Except.bind]
    exact htail y h1
  · rw [h15]; simp

theorem error_inv (hD : Closes D) (h : Inv D limit tidy clean es x) (e : E)
    (hc : Conforming (outerNotes (es ++ [.outer (.error e)]))) (hncl : ¬ clean) :
    ∃ y, error D limit e x = .ok y ∧ Inv D limit tidy clean (es ++ [.outer (.error e)]) y ∧ x.log <+: y.log ∧
      (x.outerClosed = false → ∃ l : List Nat, y.log = x.log ++ .out none (.error e) :: l.map Log.done) := by
  obtain ⟨hcx, hcx'⟩ := inv_closed h
  cases hxo : x.outerClosed
  · obtain ⟨ho, hw⟩ := inv_open h hxo
    have hcl0 : isClosed D x = false := by rw [hcx, hxo]
    have hupc : x.up.isCompleted = false := by
      cases hu : x.up.isCompleted
      · rfl
      · rw [outerNotes_snoc_outer, conforming_snoc] at hc
        have := hc.2 ⟨.complete, h.upC hu, rfl⟩
        cases this
    have hup : x.up.error = some { x.up with waiting := false, errored := true } := by
      have h2 : x.up.isUnsubscribed = false := by rw [ho.unsub]; exact hupc
      simp [SubscriberState.error, SubscriberState.isClosed, SubscriberState.isFinished, hupc, ho.err, h2]
    obtain ⟨y, hy, g1, g2, g3, g4, g5, g6, l, g7⟩ := end_inv (src := none) (n := .error e) (x := x) hD rfl
      (tail := teardown D limit) (fun _ h => teardown_closed h) h.busy ho
      (up := { x.up with waiting := false, errored := true }) (q := []) (.inr rfl)
      ((Base.clearQueue (b_open h.base ho.dest)).out none (.error e) true (by simp) (fun h => by cases h)
        (fun hc => absurd hc hncl) (fun _ _ _ hh => by cases hh))
    refine ⟨y, ?_, ⟨g1, g2, .inr (.inl g3), ?_, ?_, ?_⟩, ?_, fun _ => ⟨l, g7⟩⟩
    · simp only [error, hcl0, Bool.false_eq_true, if_false, State.upstreamError, hup, State.check]
      exact hy
    · rw [g4, h.arrived, arrivals_snoc_outer (by simp)]
    · rw [g5]
      intro hu
      exact absurd hu (by simp [SubscriberState.isCompleted] at hupc ⊢; exact hupc)
    · intro hyo; rw [g3.outer] at hyo; cases hyo
    · rw [g7]; exact List.prefix_append _ _
  · have hs := inv_skip h hxo _ hc (fun a n hh => by cases hh)
    rw [arrivals_snoc_outer (by simp), ← h.arrived] at hs
    exact ⟨x, by simp [error, hcx, hxo], hs, List.prefix_refl _, fun h => by cases h⟩

theorem complete_inv (hD : Closes D) (h : Inv D limit tidy clean es x)
    (hc : Conforming (outerNotes (es ++ [.outer .complete]))) :
    ∃ y, complete D limit x = .ok y ∧ Inv D limit tidy clean (es ++ [.outer .complete]) y ∧ x.log <+: y.log := by
  obtain ⟨hcx, hcx'⟩ := inv_closed h
  cases hxo : x.outerClosed
  · obtain ⟨ho, hw⟩ := inv_open h hxo
    have hcl0 : isClosed D x = false := by rw [hcx, hxo]
    have hupc : x.up.isCompleted = false := by
      cases hu : x.up.isCompleted
      · rfl
      · rw [outerNotes_snoc_outer, conforming_snoc] at hc
        have := hc.2 ⟨.complete, h.upC hu, rfl⟩
        cases this
    have h2 : x.up.isUnsubscribed = false := by rw [ho.unsub]; exact hupc
    have hup : x.up.complete = some { x.up with waiting := false, completed := true } := by
      simp [SubscriberState.complete, SubscriberState.isClosed, SubscriberState.isFinished, hupc, ho.err, h2]
    have hup2 : SubscriberState.unsubscribe { x.up with waiting := false, completed := true } =
        some { x.up with waiting := false, completed := true, unsubscribed := true } := by
      have h2' : x.up.unsubscribed = false := h2
      simp [SubscriberState.unsubscribe, SubscriberState.isUnsubscribed, h2']
    have hmem : SubscriberNotification.complete ∈ outerNotes (es ++ [.outer .complete]) := by
      rw [outerNotes_snoc_outer]; simp
    by_cases hcan : (State.canComplete { x with up := { x.up with waiting := false, completed := true, unsubscribed := true } }) = true
    · have hcan' := hcan
      simp only [State.canComplete, Bool.and_eq_true, List.isEmpty_iff, beq_iff_eq] at hcan'
      obtain ⟨⟨⟨hqe, hnc⟩, -⟩, -⟩ := hcan'
      have hop : x.opened = [] := List.length_eq_zero_iff.1 (by rw [← ho.nonC]; exact hnc)
      have hlive : live x.log = [] := by
        have := h.base.len
        rw [hop] at this
        exact List.length_eq_zero_iff.1 (by simpa using this)
      obtain ⟨y, hy, g1, g2, g3, g4, g5, g6, l, g7⟩ := end_inv (src := none) (n := .complete) (x := x) hD rfl
        (tail := teardown D limit) (fun _ h => teardown_closed h) h.busy ho
        (up := { x.up with waiting := false, completed := true, unsubscribed := true }) (q := x.queue) (.inr hqe)
        ((Base.setUp (b_open h.base ho.dest)).out none .complete true (by simp)
          (fun _ => ⟨rfl, hlive, hqe, fun ht => by simpa [hqe] using ho.all ht⟩)
          (fun _ _ => rfl) (fun _ _ _ hh => by cases hh))
      refine ⟨y, ?_, ⟨g1, g2, .inr (.inl g3), ?_, fun _ => hmem, ?_⟩, ?_⟩
      · simp only [complete, hcl0, Bool.false_eq_true, if_false, State.upstreamCompleted, hup, hup2, State.check,
          bind, Except.bind, pure, Except.pure, hcan, if_true]
        exact hy
      · rw [g4, h.arrived, arrivals_snoc_outer (by simp)]
      · intro hyo; rw [g3.outer] at hyo; cases hyo
      · rw [g7]; exact List.prefix_append _ _
    · have hcan' : (State.canComplete { x with up := { x.up with waiting := false, completed := true, unsubscribed := true } }) = false := by
        simpa using hcan
      refine ⟨{ x with up := { x.up with waiting := false, completed := true, unsubscribed := true } }, ?_,
        ⟨h.busy, ?_, .inl ⟨{ ho with err := ho.err, unsub := rfl }, ?_⟩, ?_, fun _ => hmem, fun _ _ => rfl⟩, List.prefix_refl _⟩
      · simp only [complete, hcl0, Bool.false_eq_true, if_false, State.upstreamCompleted, hup, hup2, State.check,
          bind, Except.bind, pure, Except.pure, hcan']
      · have := Base.setUp (up' := true) (b_open h.base ho.dest)
        rw [← ho.dest] at this
        exact this
      · intro _ _
        have := hcan'
        simp only [State.canComplete, ho.down, ho.nonC, Bool.not_false, Bool.and_true, SubscriberState.isCompleted,
          Bool.and_eq_false_iff, List.isEmpty_eq_false_iff, beq_eq_false_iff_ne, ne_eq, List.length_eq_zero_iff] at this
        exact this.symm
      · rw [h.arrived, arrivals_snoc_outer (by simp)]
  · have hs := inv_skip h hxo _ hc (fun a n hh => by cases hh)
    rw [arrivals_snoc_outer (by simp), ← h.arrived] at hs
    exact ⟨x, by simp [complete, hcx, hxo], hs, List.prefix_refl _⟩

theorem unsubscribe_inv (hl : 0 < limit) (hD : Closes D) (h : Inv D limit tidy clean es x)
    (hc : Conforming (outerNotes (es ++ [.outer .unsubscribe]))) (hncl : ¬ clean) :
    ∃ y, unsubscribe D limit x = .ok y ∧ Inv D limit tidy clean (es ++ [.outer .unsubscribe]) y ∧ x.log <+: y.log ∧
      (2 ≤ limit → y.opened = []) ∧ y.outerClosed = true := by
  obtain ⟨hcx, hcx'⟩ := inv_closed h
  cases hxo : x.outerClosed
  · obtain ⟨ho, hw⟩ := inv_open h hxo
    have hcl0 : isClosed D x = false := by rw [hcx, hxo]
    have hbase := (b_open h.base ho.dest).out none .unsubscribe true (by simp) (fun h => by cases h)
        (fun hc => absurd hc hncl) (fun _ _ _ hh => by cases hh)
    have hupm : x.up.isCompleted = true → .complete ∈ outerNotes (es ++ [.outer .unsubscribe]) := fun hu => by
      rw [outerNotes_snoc_outer]
      exact List.mem_append_left _ (h.upC hu)
    rcases Nat.lt_or_ge limit 2 with hl2 | hl2
    · have hl1 : limit = 1 := by omega
      subst hl1
      have hcd : D.isClosed (D.push x.dest .unsubscribe) = true := hD _ _ rfl
      obtain ⟨y, hy, g1, g2, g3⟩ := zdrain_first (tidy := tidy) (clean := clean) (x.slab.filterMap id)
        (x := { x with dest := D.push x.dest .unsubscribe, log := x.log ++ [.out none .unsubscribe],
                       outerClosed := true, slab := [] })
        (by unfold B; rw [hcd]; exact hbase) rfl hcd ho.nonC ho.nonU ho.err ho.down
        (fun a ha => List.mem_filterMap.2 ⟨some a, ho.slabbed a ha (by rw [h.busy]; simp), rfl⟩) h.busy
      refine ⟨{ y with up := y.up.unsubscribeIfNotAlready }, ?_, ⟨g3.busy.trans h.busy, g1, .inr (.inr ⟨rfl, ⟨hncl, by rw [g3.outs]; simp⟩, ?_⟩), ?_, ?_, ?_⟩, ?_,
        fun h => absurd h (by omega), g2.outer⟩
      · simp only [unsubscribe, hcl0, Bool.false_eq_true, if_false, give, ho.dest, hcd, if_true, teardown, drain, hy,
          bind, Except.bind, pure, Except.pure]
        rw [if_neg (by simp [hxo])]
      · exact { g2 with err := g2.err }
      · exact g3.arrived.1.trans (h.arrived.trans (arrivals_snoc_outer (by simp)).symm)
      · intro hu
        exact hupm (g3.arrived.2 ▸ hu)
      · intro hyo
        exact absurd (g2.outer.symm.trans hyo) (by simp)
      · exact (List.prefix_append _ _).trans g3.log
    · obtain ⟨y, hy, g1, g2, g3, g4, g5, g6, l, g7⟩ := end_inv (src := none) (n := .unsubscribe) (x := x) hD rfl
        (tail := .ok) (fun _ _ => rfl) h.busy ho (up := x.up) (q := x.queue) (.inl hl2) hbase
      refine ⟨y, ?_, ⟨g1, g2, .inr (.inl g3), ?_, ?_, ?_⟩, ?_, fun _ => List.eq_nil_iff_forall_not_mem.2 fun b hb => ?_, g3.outer⟩
      · simp only [unsubscribe, hcl0, Bool.false_eq_true, if_false]
        rw [← hy]
        simp only [bind, Except.bind]
        cases give D (teardown D limit) none .unsubscribe x <;> rfl
      · rw [g4, h.arrived, arrivals_snoc_outer (by simp)]
      · rw [g5]; exact hupm
      · intro hyo; rw [g3.outer] at hyo; cases hyo
      · rw [g7]; exact List.prefix_append _ _
      · have := g3.mem b hb
        cases this
  · have hs := inv_skip h hxo _ hc (fun a n hh => by cases hh)
    rw [arrivals_snoc_outer (by simp), ← h.arrived] at hs
    refine ⟨x, by simp [unsubscribe, hcx, hxo], hs, List.prefix_refl _, fun hl2 => ?_, hxo⟩
    rcases h.phase with ⟨h, _⟩ | h | ⟨h, _⟩
    · rw [h.outer] at hxo; cases hxo
    · exact List.eq_nil_iff_forall_not_mem.2 fun b hb => by
        have := h.mem b hb
        cases this
    · omega

/-- What is assumed of the history if it is `tidy`, or `clean`. -/
def Meets (tidy clean : Prop) (e : Event I E) : Prop :=
  (tidy → e.Only (· ≠ .unsubscribe)) ∧ (clean → e.Only fun n => ∀ f, n ≠ .error f) ∧
    (clean → ∀ n, e = .outer n → n ≠ .unsubscribe ∧ ∀ f, n ≠ .error f)

theorem step_inv (hl : 0 < limit) (hD : Closes D) (hcl : clean → Patient D) (hct : clean → tidy)
    (h : Inv D limit tidy clean es x) (e : Event I E) (hc : Conforming (outerNotes (es ++ [e]))) (he : Meets tidy clean e) :
    ∃ y, step D limit x e = .ok y ∧ Inv D limit tidy clean (es ++ [e]) y ∧ x.log <+: y.log := by
  cases e with
  | inner a n =>
    exact inner_inv hl hD hcl hct h a n (fun ht => he.1 ht) (fun ht => he.2.1 ht)
  | outer n =>
    cases n with
    | next src => exact next_inv hl hD hcl hct h src hc (fun ht => he.1 ht) (fun ht => he.2.1 ht)
    | error e =>
      obtain ⟨y, h1, h2, h3, _⟩ := error_inv hD h e hc (fun hcl => (he.2.2 hcl _ rfl).2 e rfl)
      exact ⟨y, h1, h2, h3⟩
    | complete => exact complete_inv hD h hc
    | unsubscribe =>
      obtain ⟨y, h1, h2, h3, _⟩ := unsubscribe_inv hl hD h hc (fun hcl => (he.2.2 hcl _ rfl).1 rfl)
      exact ⟨y, h1, h2, h3⟩

theorem run_inv (hl : 0 < limit) (hD : Closes D) (hcl : clean → Patient D) (hct : clean → tidy) {s : S}
    (hs : D.isClosed s = false) (es : List (Event I E)) (hc : Conforming (outerNotes es)) (he : ∀ e ∈ es, Meets tidy clean e) :
    ∃ y, run D limit { dest := s } es = .ok y ∧ Inv D limit tidy clean es y := by
  induction es using snoc_induction with
  | nil => exact ⟨_, rfl, inv_init s hs⟩
  | snoc es e ih =>
    have hc' : Conforming (outerNotes es) := by
      cases e with
      | inner a n => rw [outerNotes_snoc_inner] at hc; exact hc
      | outer n => rw [outerNotes_snoc_outer, conforming_snoc] at hc; exact hc.1
    obtain ⟨y, hy, h1⟩ := ih hc' (fun e he' => he e (List.mem_append_left _ he'))
    obtain ⟨z, hz, h2, _⟩ := step_inv hl hD hcl hct h1 e hc (he e (by simp))
    refine ⟨z, ?_, h2⟩
    simp only [run, List.foldlM_append, List.foldlM_cons, List.foldlM_nil] at *
    rw [hy]
    simp only [bind, Except.bind, hz]
    rfl

theorem run_append (x : State S I E) (es es' : List (Event I E)) :
    run D limit x (es ++ es') = run D limit x es >>= fun y => run D limit y es' := by
  simp only [run, List.foldlM_append]

theorem run_snoc {x y z : State S I E} {es : List (Event I E)} {e : Event I E} (h : run D limit x es = .ok y)
    (h' : run D limit x (es ++ [e]) = .ok z) : step D limit y e = .ok z := by
  rw [run_append, h] at h'
  simp only [run, bind, Except.bind, List.foldlM_cons, List.foldlM_nil] at h'
  cases hs : step D limit y e with
  | error f => rw [hs] at h'; cases h'
  | ok w =>
    rw [hs] at h'
    exact h'

/-- Once everything has ended nothing happens. -/
theorem dead_step (h : Dead D [] x) (e : Event I E) :
    ∃ y, step D limit x e = .ok y ∧ y.log = x.log ∧ Dead D [] y := by
  have hc : isClosed D x = true := by simp [isClosed, h.outer]
  cases e with
  | inner a n =>
    have : a ∉ x.opened := fun ha => by
      have := h.mem a ha
      cases this
    exact ⟨x, by simp [step, inner, innerPush, this], rfl, h⟩
  | outer n =>
    cases n with
    | next src =>
      refine ⟨{ x with arrived := x.arrived + 1 }, ?_, rfl, { h with }⟩
      have hc' : isClosed D { x with arrived := x.arrived + 1 } = true := hc
      simp only [step, next, hc', if_true]
    | error e => exact ⟨x, by simp [step, error, hc], rfl, h⟩
    | complete => exact ⟨x, by simp [step, complete, hc], rfl, h⟩
    | unsubscribe => exact ⟨x, by simp [step, unsubscribe, hc], rfl, h⟩

theorem dead_run (es' : List (Event I E)) : ∀ {x : State S I E} (_ : Dead D [] x),
    ∃ y, run D limit x es' = .ok y ∧ y.log = x.log := by
  induction es' with
  | nil => exact fun _ => ⟨_, rfl, rfl⟩
  | cons e es' ih =>
    intro x h
    obtain ⟨y, hy, h1, h2⟩ := dead_step (limit := limit) h e
    obtain ⟨z, hz, h3⟩ := ih h2
    refine ⟨z, ?_, h3.trans h1⟩
    simp only [run, List.foldlM_cons, hy, bind, Except.bind]
    exact hz

/-- Between events the open inner subscribers are those of the active inner observables. -/
theorem opened_live (h : Inv D limit tidy clean es x) (a : Nat) : a ∈ x.opened ↔ a ∈ live x.log := by
  rw [h.base.mem a]
  simp

/-- A value. -/
theorem value_step (h : Inv D limit tidy clean es x) (ho : x.outerClosed = false) {a : Nat} (ha : a ∈ live x.log) (v : I)
    {y : State S I E} (hy : step D limit x (.inner a (.next v)) = .ok y) (hd : D.isClosed (D.next x.dest v) = false) :
    y.log = x.log ++ [.out (some a) (.next v)] ∧ y.dest = D.next x.dest v := by
  have hop := (inv_open h ho).1
  have hd' : D.isClosed (D.push x.dest (.next v)) = false := hd
  simp only [step, inner, innerPush, (opened_live h a).2 ha, if_true, innerHandle, innerNext, give, hop.dest,
    Bool.false_eq_true, if_false, hd', bind, Except.bind, pure, Except.pure] at hy
  cases hy
  exact ⟨rfl, rfl⟩

/-- An inner observable that is not active is not listened to. -/
theorem ignored_step (h : Inv D limit tidy clean es x) {a : Nat} (ha : a ∉ live x.log) (n : SubscriberNotification I E) :
    step D limit x (.inner a n) = .ok x := by
  have hao : a ∉ x.opened := fun hh => ha ((opened_live h a).1 hh)
  simp [step, inner, innerPush, hao]

/-- The first error. -/
theorem error_step (hl : 0 < limit) (hD : Closes D) (h : Inv D limit tidy clean es x) (ho : x.outerClosed = false) {a : Nat}
    (ha : a ∈ live x.log) (e : E) (hncl : ¬ clean) {y : State S I E} (hy : step D limit x (.inner a (.error e)) = .ok y) :
    (∃ l : List Nat, y.log = x.log ++ .out (some a) (.error e) :: l.map Log.done) ∧ Dead D [] y ∧
      B D limit tidy clean [] 0 y := by
  have hop := (inv_open h ho).1
  have hao := (opened_live h a).2 ha
  obtain ⟨z, hz, h1, h2, h3, h4, h5⟩ := error_good (x := { x with busy := a :: x.busy }) (a := a)
    (P := pop D limit (teardown D limit) (x.queue.length + 1)) hl hD h.base
    { hop with slabbed := fun b hb hbb => hop.slabbed b hb fun h => hbb (List.mem_cons_of_mem _ h) }
    ⟨by simp, fun b hb hbb => by simpa [h.busy] using hbb⟩ hao (by simp) List.mem_cons_self e hncl
  simp only [step, inner, innerPush, hao, if_true, innerHandle, hz, bind, Except.bind, pure, Except.pure] at hy
  cases hy
  refine ⟨h5, ?_, h1.base⟩
  rcases h1.phase with k | k
  · rw [k.outer] at h4; cases h4
  · exact { k with }

theorem live_dead (hB : B D limit tidy clean [] 0 x) (h : Dead D [] x) : live x.log = [] :=
  List.eq_nil_iff_forall_not_mem.2 fun b hb => by
    have := h.mem b ((hB.mem b).2 (.inl hb))
    cases this

/-- Values emitted while subscribing. -/
theorem values_fold {T : Action S I E} {onC onU : Nat → Action S I E} {a : Nat} (hp : Patient D) (vs : List I) :
    ∀ {x : State S I E} (_ : D.isClosed x.dest = false) (_ : a ∈ x.opened),
    ∃ y, (vs.map SubscriberNotification.next).foldlM (innerPush D T onC onU a) x = .ok y ∧
      y.log = (x.log ++ vs.map fun v => .out (some a) (.next v)) ∧ y.opened = x.opened ∧ y.slab = x.slab := by
  induction vs with
  | nil => exact fun _ _ => ⟨_, rfl, by simp, rfl, rfl⟩
  | cons v vs ih =>
    intro x hd ha
    have hd' : D.isClosed (D.push x.dest (.next v)) = false := hp x.dest v hd
    obtain ⟨y, hy, h1, h2⟩ := ih (x := { x with dest := D.push x.dest (.next v), log := x.log ++ [.out (some a) (.next v)] }) hd' ha
    refine ⟨y, ?_, ?_, h2⟩
    · rw [← hy]
      simp only [List.map_cons, List.foldlM_cons, bind, Except.bind, innerPush, ha, if_true, innerHandle, innerNext, give,
        hd, Bool.false_eq_true, if_false, hd', pure, Except.pure]
    · rw [h1]; simp

theorem start_step (h : Inv D limit tidy clean es x) (ho : x.outerClosed = false) (hfree : (live x.log).length < limit)
    (hp : Patient D) (vs : List I) {y : State S I E} (hy : step D limit x (.outer (.next (vs.map .next))) = .ok y) :
    y.log = x.log ++ .sub (arrivals es) :: vs.map fun v => .out (some (arrivals es)) (.next v) := by
  have hop := (inv_open h ho).1
  have hc0 : isClosed D { x with arrived := x.arrived + 1 } = false := by
    rw [show isClosed D { x with arrived := x.arrived + 1 } = isClosed D x from rfl, (inv_closed h).1, ho]
  have hlt : x.nonCompleted < limit := by
    have := h.base.len
    rw [hop.nonC]
    simp only [List.length_nil] at this
    omega
  obtain ⟨z, hz, h1, h2, h3⟩ := values_fold (D := D) (T := teardown D limit)
    (onC := fun _ => pop D limit (teardown D limit) (x.queue.length + 1))
    (onU := onUnsubscribe D limit (teardown D limit) (pop D limit (teardown D limit) (x.queue.length + 1))) (a := x.arrived) hp vs
    (x := { x with
      arrived := x.arrived + 1, slab := x.slab ++ [none], opened := x.opened ++ [x.arrived], busy := x.arrived :: x.busy
      nonCompleted := x.nonCompleted + 1, nonUnsubscribed := x.nonUnsubscribed + 1
      key := fun b => if b = x.arrived then x.slab.length else x.key b, log := x.log ++ [.sub x.arrived] }) hop.dest (by simp)
  have hlog : z.log = x.log ++ .sub (arrivals es) :: vs.map fun v => .out (some (arrivals es)) (.next v) := by
    rw [h1, ← h.arrived]
    simp
  rw [← hlog]
  simp only [step, next, hc0, Bool.false_eq_true, if_false, hlt, if_true, create, innerSubscribe, State.reserve,
    bind, Except.bind, pure, Except.pure] at hy
  rw [hz] at hy
  have h2' : x.arrived ∈ z.opened := by rw [h2]; simp
  have h3' : x.slab.length < z.slab.length := by rw [h3]; simp
  simp only [h2', if_true, h3'] at hy
  cases hy
  rfl

end Top

end Rx.HigherOrder.Concurrent
