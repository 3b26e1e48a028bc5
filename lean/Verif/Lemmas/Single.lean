import Verif.Lemmas.Concurrent

/-!
# Switch and exhaust: one inner observable at a time
-/

namespace Rx.HigherOrder.Single

open Concurrent (innerUnsubscribed_ok not_closed conforming_snoc outerNotes_snoc_outer outerNotes_snoc_inner
  arrivals_snoc_next arrivals_snoc_inner arrivals_snoc_outer)

variable {S I E : Type} {D : Sub S I E} {tidy clean : Prop}

/-- What always holds. `r`: inner observables counted but not subscribed yet. -/
structure Core (D : Sub S I E) (tidy clean : Prop) (r : Nat) (x : State S I E) : Prop where
  base : Base 1 tidy clean [] 0 (D.isClosed x.dest) [] x.opened x.log x.arrived x.up.isCompleted
  queue : x.queue = []
  nonC : x.nonCompleted = x.opened.length + r
  nonU : x.nonUnsubscribed = x.opened.length + r

/-- The destination is open. -/
structure Open (D : Sub S I E) (x : State S I E) : Prop where
  outer : x.outerClosed = false
  dest : D.isClosed x.dest = false
  down : x.down.isClosed = false
  err : x.up.isErrored = false
  up : x.up.isUnsubscribed = x.up.isCompleted
  waits : x.up.isCompleted = true → x.opened ≠ []

/-- The destination closed itself when it was given a value. -/
structure Left (D : Sub S I E) (x : State S I E) : Prop where
  impatient : ¬ Patient D
  outer : x.outerClosed = false
  dest : D.isClosed x.dest = true
  down : x.down.isUnsubscribed = true
  err : x.up.isErrored = false
  up : x.up.isUnsubscribed = x.up.isCompleted
  quiet : ∀ n ∈ outsOf x.log, n.isClosing = false

/-- Everything has ended. -/
structure Dead (D : Sub S I E) (x : State S I E) : Prop where
  outer : x.outerClosed = true
  dest : D.isClosed x.dest = true
  none : x.opened = []

/-- What the handling of a notification of an inner observable leaves alone. -/
structure Ext (x y : State S I E) : Prop where
  arrived : y.arrived = x.arrived
  up : y.up = x.up
  busy : y.busy = x.busy
  current : y.current = x.current
  subs : subsOf y.log = subsOf x.log
  log : x.log <+: y.log

theorem Ext.refl (x : State S I E) : Ext x x := ⟨rfl, rfl, rfl, rfl, rfl, List.prefix_refl _⟩

theorem Ext.trans {x y z : State S I E} (h : Ext x y) (h' : Ext y z) : Ext x z :=
  ⟨h'.arrived.trans h.arrived, h'.up.trans h.up, h'.busy.trans h.busy, h'.current.trans h.current,
    h'.subs.trans h.subs, h.log.trans h'.log⟩

/-- The result of a step, which may fail only if the destination closes itself. -/
def Res (D : Sub S I E) (r : Except Fault (State S I E)) (P : State S I E → Prop) : Prop :=
  (∃ y, r = .ok y ∧ P y) ∨ (¬ Patient D ∧ r = .error .panic)

theorem Res.mono {r : Except Fault (State S I E)} {P Q : State S I E → Prop} (h : Res D r P) (hpq : ∀ y, P y → Q y) :
    Res D r Q := by
  rcases h with ⟨y, h1, h2⟩ | h
  · exact .inl ⟨y, h1, hpq y h2⟩
  · exact .inr h

theorem Res.bind {r : Except Fault (State S I E)} {f : Action S I E} {P Q : State S I E → Prop} (h : Res D r P)
    (hf : ∀ y, P y → Res D (f y) Q) : Res D (r >>= f) Q := by
  rcases h with ⟨y, rfl, h2⟩ | ⟨h1, rfl⟩
  · exact hf y h2
  · exact .inr ⟨h1, rfl⟩

theorem give_ok (src : Option Nat) (n : SubscriberNotification I E) (x : State S I E) :
    give D .ok src n x = .ok (if D.isClosed x.dest then x
      else { x with dest := D.push x.dest n, log := x.log ++ [.out src n] }) := by
  unfold give
  split
  · rfl
  · simp only
    split <;> rfl

theorem give_open {src : Option Nat} {n : SubscriberNotification I E} {x : State S I E} (h : D.isClosed x.dest = false) :
    give D .ok src n x = .ok { x with dest := D.push x.dest n, log := x.log ++ [.out src n] } := by
  rw [give_ok, if_neg (by simp [h])]

theorem give_closed {src : Option Nat} {n : SubscriberNotification I E} {x : State S I E} (h : D.isClosed x.dest = true) :
    give D .ok src n x = .ok x := by
  rw [give_ok, if_pos h]

section Handle
variable {x : State S I E} {a r : Nat}

theorem Core.single (h : Core D tidy clean r x) (ha : a ∈ x.opened) : x.opened = [a] := by
  have := h.base.room
  match ho : x.opened with
  | [] => rw [ho] at ha; cases ha
  | [b] => rw [ho, List.mem_singleton] at ha; rw [ha]
  | _ :: _ :: _ => rw [ho] at this; simp at this

theorem Core.openBase (h : Core D tidy clean r x) (ho : D.isClosed x.dest = false) :
    Base 1 tidy clean [] 0 false [] x.opened x.log x.arrived x.up.isCompleted := by
  have := h.base
  rwa [ho] at this

theorem canU_open (h : Core D tidy clean r x) (ho : Open D x) :
    x.canUnsubscribe = (x.nonUnsubscribed == 0 && x.up.isCompleted) := by
  simp [State.canUnsubscribe, h.queue, ho.err, ho.down, ho.up, (not_closed ho.down).2.2]

/-- An inner subscriber is closed while the destination is open. -/
theorem unsub_open (hD : Closes D) (h : Core D tidy clean r x) (ho : Open D x) (ha : a ∈ x.opened)
    (hr : r = 0 ∨ x.up.isCompleted = false) (hcl : clean → x.up.isCompleted = false) :
    ∃ y, innerUnsubscribe (onUnsubscribe D) false a x = .ok y ∧ Core D tidy clean r y ∧ Ext x y ∧ y.opened = [] ∧
      ((Open D y ∧ x.up.isCompleted = false ∧ y.log = x.log ++ [.done a]) ∨
       (Dead D y ∧ x.up.isCompleted = true ∧ y.log = x.log ++ [.done a, .out none .unsubscribe])) := by
  have hs := h.single ha
  have hC := h.nonC
  have hU := h.nonU
  rw [hs, List.length_singleton] at hC hU
  have hcan : (State.canUnsubscribe { x with opened := x.opened.erase a, log := x.log ++ [Log.done a] }) = false := by
    have := canU_open h ho
    simp only [hU] at this
    refine Eq.trans ?_ (this.trans (by simp))
    rfl
  have hB := (h.base.close ha (by simp)).weaken (d' := 0) (by omega)
  have hstep : innerUnsubscribe (onUnsubscribe D) false a x = onUnsubscribe D (x.key a) { x with
      opened := x.opened.erase a, log := x.log ++ [.done a]
      nonUnsubscribed := x.nonUnsubscribed - 1, nonCompleted := x.nonCompleted - 1 } := by
    simp only [innerUnsubscribe, ha, if_true, Bool.false_eq_true, if_false]
    rw [innerUnsubscribed_ok _ _ (by simp only; omega) (.inr (by simp only; omega)), hcan]
    simp only [bind, Except.bind, (not_closed ho.down).2.2, Bool.false_eq_true, if_false]
  rw [hstep]
  have he : x.opened.erase a = [] := by simp [hs]
  rw [he] at hB
  have hcore : Core D tidy clean r { x with
      opened := x.opened.erase a, log := x.log ++ [.done a]
      nonUnsubscribed := x.nonUnsubscribed - 1, nonCompleted := x.nonCompleted - 1 } := by
    refine ⟨by rw [he]; exact hB, h.queue, ?_, ?_⟩ <;> simp only [he, List.length_nil] <;> omega
  have hopen : x.up.isCompleted = false → Open D { x with
      opened := x.opened.erase a, log := x.log ++ [.done a]
      nonUnsubscribed := x.nonUnsubscribed - 1, nonCompleted := x.nonCompleted - 1 } := fun hu =>
    ⟨ho.outer, ho.dest, ho.down, ho.err, ho.up, fun h => by rw [hu] at h; cases h⟩
  have hcan2 : (State.canUnsubscribe { x with
      opened := x.opened.erase a, log := x.log ++ [.done a]
      nonUnsubscribed := x.nonUnsubscribed - 1, nonCompleted := x.nonCompleted - 1 }) = (x.nonUnsubscribed - 1 == 0 && x.up.isCompleted) := by
    simp [State.canUnsubscribe, h.queue, ho.err, ho.down, ho.up, (not_closed ho.down).2.2]
  cases hu : x.up.isCompleted
  · refine ⟨_, ?_, hcore, ⟨rfl, rfl, rfl, rfl, by simp, List.prefix_append _ _⟩, he, .inl ⟨hopen hu, rfl, rfl⟩⟩
    simp only [onUnsubscribe]
    rw [hcan2, hu]
    simp
    rfl
  · have hr0 : r = 0 := hr.resolve_right (by simp [hu])
    subst hr0
    have hcd : D.isClosed (D.push x.dest .unsubscribe) = true := hD _ _ rfl
    have hncl : ¬ clean := fun hc => by rw [hcl hc] at hu; cases hu
    refine ⟨{ x with
      opened := x.opened.erase a, log := x.log ++ [.done a] ++ [.out none .unsubscribe], outerClosed := true
      dest := D.push x.dest .unsubscribe
      nonUnsubscribed := x.nonUnsubscribed - 1, nonCompleted := x.nonCompleted - 1 }, ?_, ⟨?_, h.queue, hcore.nonC, hcore.nonU⟩,
      ⟨rfl, rfl, rfl, rfl, subsOf_out.trans subsOf_done, ?_⟩, he, .inr ⟨⟨rfl, hcd, he⟩, rfl, by simp⟩⟩
    · simp only [onUnsubscribe]
      rw [hcan2, hu, if_pos (by simp [hU])]
      exact give_open ho.dest
    · simp only [hcd, he]
      rw [ho.dest] at hB
      exact hB.out none .unsubscribe true (by simp) (fun h => by cases h) (fun hc => absurd hc hncl)
        (fun _ _ hh => by cases hh)
    · simp only [List.append_assoc]
      exact List.prefix_append _ _

/-- An inner subscriber is closed while the destination is closed. -/
theorem unsub_closed (h : Core D tidy clean r x) (hd : D.isClosed x.dest = true) (ha : a ∈ x.opened) :
    ∃ y, innerUnsubscribe (onUnsubscribe D) false a x = .ok y ∧ Core D tidy clean r y ∧ Ext x y ∧ y.opened = [] ∧
      y.log = x.log ++ [.done a] ∧ y.dest = x.dest ∧ (x.outerClosed = true → y.outerClosed = true) ∧
      (x.down.isUnsubscribed = true → y.outerClosed = x.outerClosed ∧ y.down.isUnsubscribed = true) ∧
      (x.down.isClosed = true → x.down.isUnsubscribed = false → y.outerClosed = true) := by
  have hs := h.single ha
  have hC := h.nonC
  have hU := h.nonU
  rw [hs, List.length_singleton] at hC hU
  have hB := (h.base.close ha (by simp)).weaken (d' := 0) (by omega)
  have he : x.opened.erase a = [] := by simp [hs]
  rw [he] at hB
  obtain ⟨dn, hdn⟩ : ∃ dn, dn = if x.canUnsubscribe then x.down.unsubscribeIfNotAlready else x.down := ⟨_, rfl⟩
  have hdn1 : x.down.isUnsubscribed = true → dn.isUnsubscribed = true := fun h => by
    rw [hdn]; split
    · rfl
    · exact h
  have hdn2 : x.down.isClosed = true → dn.isClosed = true := fun h => by
    rw [hdn]; split
    · exact Concurrent.closed_unsub _
    · exact h
  have hstep : innerUnsubscribe (onUnsubscribe D) false a x =
    if x.down.isUnsubscribed then .ok { x with
        opened := x.opened.erase a, log := x.log ++ [.done a]
        down := dn
        nonUnsubscribed := x.nonUnsubscribed - 1, nonCompleted := x.nonCompleted - 1 }
    else onUnsubscribe D (x.key a) { x with
      opened := x.opened.erase a, log := x.log ++ [.done a]
      down := dn
      nonUnsubscribed := x.nonUnsubscribed - 1, nonCompleted := x.nonCompleted - 1 } := by
    simp only [innerUnsubscribe, ha, if_true, Bool.false_eq_true, if_false]
    rw [innerUnsubscribed_ok _ _ (by simp only; omega) (.inr (by simp only; omega)), hdn]
    rfl
  have hcore : ∀ o : Bool, Core D tidy clean r { x with
      opened := x.opened.erase a, log := x.log ++ [.done a], outerClosed := o
      down := dn
      nonUnsubscribed := x.nonUnsubscribed - 1, nonCompleted := x.nonCompleted - 1 } := fun o => by
    refine ⟨by rw [he]; exact hB, h.queue, ?_, ?_⟩ <;> simp only [he, List.length_nil] <;> omega
  rw [hstep]
  cases hdu : x.down.isUnsubscribed
  · simp only [onUnsubscribe, Bool.false_eq_true, if_false]
    split
    · rename_i hcan
      refine ⟨{ x with
        opened := x.opened.erase a, log := x.log ++ [.done a], outerClosed := true
        down := dn
        nonUnsubscribed := x.nonUnsubscribed - 1, nonCompleted := x.nonCompleted - 1 }, ?_, hcore true,
        ⟨rfl, rfl, rfl, rfl, by simp, List.prefix_append _ _⟩, he, rfl, rfl, fun _ => rfl, (fun h => by cases h), fun _ _ => rfl⟩
      exact give_closed hd
    · rename_i hcan
      refine ⟨_, rfl, hcore x.outerClosed,
        ⟨rfl, rfl, rfl, rfl, by simp, List.prefix_append _ _⟩, he, rfl, rfl, fun h => h, (fun h => by cases h), fun hc _ => ?_⟩
      exfalso
      apply hcan
      simp only [State.canUnsubscribe, Bool.or_eq_true]
      exact .inr (hdn2 hc)
  · simp only [if_true]
    refine ⟨_, rfl, hcore x.outerClosed,
      ⟨rfl, rfl, rfl, rfl, by simp, List.prefix_append _ _⟩, he, rfl, rfl, fun h => h, fun _ => ⟨rfl, hdn1 hdu⟩, (fun _ h => by cases h)⟩

/-- How things are between events, and between the notifications of an inner observable. -/
def Phase (D : Sub S I E) (x : State S I E) : Prop := Open D x ∨ Left D x ∨ Dead D x

theorem next_core (hcl : clean → Patient D) (h : Core D tidy clean 0 x) (hp : Phase D x) (ha : a ∈ x.opened)
    (v : I) :
    ∃ y, innerNext D .ok (onUnsubscribe D) a v x = .ok y ∧ Core D tidy clean 0 y ∧ Phase D y ∧ Ext x y := by
  rcases hp with ho | hl | hd
  · have hB := (h.openBase ho.dest).out (some a) (.next v) (D.isClosed (D.push x.dest (.next v))) (fun _ => rfl)
      (fun h => by cases h) (fun hc h => by
        have := hcl hc x.dest v ho.dest
        rw [Sub.push, this] at h
        cases h)
      (fun b w hb _ => by
        cases hb
        have := (h.base.mem a).1 ha
        simpa using this)
    have hcore : Core D tidy clean 0 { x with dest := D.push x.dest (.next v), log := x.log ++ [.out (some a) (.next v)] } :=
      ⟨hB, h.queue, h.nonC, h.nonU⟩
    simp only [innerNext, give_open ho.dest, bind, Except.bind]
    cases hcd : D.isClosed (D.push x.dest (.next v))
    · simp only [Bool.false_eq_true, if_false]
      refine ⟨_, rfl, hcore, .inl ⟨ho.outer, hcd, ho.down, ho.err, ho.up, ho.waits⟩, ⟨rfl, rfl, rfl, rfl, by simp, List.prefix_append _ _⟩⟩
    · have hnp : ¬ Patient D := fun hp => by
        have := hp x.dest v ho.dest
        rw [Sub.push] at hcd
        rw [this] at hcd
        cases hcd
      simp only [if_true]
      obtain ⟨y, hy, g1, g2, g3, g4, g5, g6, g7, g8⟩ := unsub_closed (r := 0) (a := a) (tidy := tidy) (clean := clean) (x := { x with dest := D.push x.dest (.next v), log := x.log ++ [.out (some a) (.next v)], down := x.down.unsubscribeIfNotAlready })
        ⟨hB, h.queue, h.nonC, h.nonU⟩ hcd ha
      refine ⟨y, hy, g1, .inr (.inl ⟨hnp, ?_, ?_, (g7 rfl).2, ?_, ?_, ?_⟩), ⟨g2.arrived, g2.up, g2.busy, g2.current, ?_, ?_⟩⟩
      · exact (g7 rfl).1.trans ho.outer
      · rw [g5]; exact hcd
      · rw [g2.up]; exact ho.err
      · rw [g2.up]; exact ho.up
      · rw [g4]
        simp only [outsOf_done, outsOf_out, List.mem_append, List.mem_singleton]
        rintro n (hn | rfl)
        · exact (h.openBase ho.dest).quiet rfl n hn
        · rfl
      · rw [g2.subs]; simp
      · exact (List.prefix_append _ _).trans g2.log
  · simp only [innerNext, give_closed hl.dest, bind, Except.bind, hl.dest, if_true]
    obtain ⟨y, hy, g1, g2, g3, g4, g5, g6, g7, g8⟩ := unsub_closed (r := 0) (a := a) (tidy := tidy) (clean := clean)
      (x := { x with down := x.down.unsubscribeIfNotAlready }) ⟨h.base, h.queue, h.nonC, h.nonU⟩ hl.dest ha
    refine ⟨y, hy, g1, .inr (.inl ⟨hl.impatient, ?_, ?_, (g7 rfl).2, ?_, ?_, ?_⟩), ⟨g2.arrived, g2.up, g2.busy, g2.current, g2.subs, g2.log⟩⟩
    · exact (g7 rfl).1.trans hl.outer
    · rw [g5]; exact hl.dest
    · rw [g2.up]; exact hl.err
    · rw [g2.up]; exact hl.up
    · rw [g4]; simpa using hl.quiet
  · rw [hd.none] at ha; cases ha

/-- The destination is open when an inner observable fails. -/
theorem error_open (hD : Closes D) (h : Core D tidy clean 0 x) (ho : Open D x) (ha : a ∈ x.opened)
    (e : E) (hncl : ¬ clean) :
    ∃ y, innerError D .ok (onUnsubscribe D) a e x = .ok y ∧ Core D tidy clean 0 y ∧ Dead D y ∧ Ext x y ∧
      y.log = x.log ++ [.out (some a) (.error e), .done a] := by
  have hcd : D.isClosed (D.push x.dest (.error e)) = true := hD _ _ rfl
  have hB := (h.openBase ho.dest).out (some a) (.error e) true (by simp)
      (fun h => by cases h) (fun hc => absurd hc hncl) (fun _ _ _ hh => by cases hh)
  obtain ⟨y, hy, g1, g2, g3, g4, g5, g6, g7, g8⟩ := unsub_closed (r := 0) (a := a) (tidy := tidy) (clean := clean)
    (x := { x with
      queue := [], down := { x.down with waiting := false, errored := true }
      dest := D.push x.dest (.error e), log := x.log ++ [.out (some a) (.error e)] })
    ⟨by simp only [hcd]; exact hB, rfl, h.nonC, h.nonU⟩ hcd ha
  refine ⟨y, ?_, g1, ⟨g8 ?_ ?_, by rw [g5]; exact hcd, g3⟩, ⟨g2.arrived, g2.up, g2.busy, g2.current, ?_, ?_⟩, ?_⟩
  · simp only [innerError, State.downstreamError, SubscriberState.error, ho.down, Bool.false_eq_true, if_false,
      State.check, bind, Except.bind, pure, Except.pure]
    rw [give_open (by exact ho.dest)]
    exact hy
  · simp [SubscriberState.isClosed, SubscriberState.isFinished, SubscriberState.isErrored]
  · exact (not_closed ho.down).2.2
  · rw [g2.subs]; simp
  · exact (List.prefix_append _ _).trans g2.log
  · rw [g4]; simp

theorem error_core (hD : Closes D) (h : Core D tidy clean 0 x) (hp : Phase D x) (ha : a ∈ x.opened)
    (e : E) (hncl : ¬ clean) :
    Res D (innerError D .ok (onUnsubscribe D) a e x) fun y => Core D tidy clean 0 y ∧ Phase D y ∧ Ext x y := by
  rcases hp with ho | hl | hd
  · obtain ⟨y, hy, h1, h2, h3, _⟩ := error_open hD h ho ha e hncl
    exact .inl ⟨y, hy, h1, .inr (.inr h2), h3⟩
  · refine .inr ⟨hl.impatient, ?_⟩
    have hc : x.down.isClosed = true := by simp [SubscriberState.isClosed, hl.down]
    simp [innerError, State.downstreamError, SubscriberState.error, hc, State.check, bind, Except.bind]
  · rw [hd.none] at ha; cases ha

theorem finish_step (x : State S I E) (ha : a ∈ x.opened) (hU : 0 < x.nonUnsubscribed) :
    innerUnsubscribe (onUnsubscribe D) true a x =
    if x.down.isUnsubscribed then .ok { x with
        opened := x.opened.erase a
        down := if x.canUnsubscribe then x.down.unsubscribeIfNotAlready else x.down
        nonUnsubscribed := x.nonUnsubscribed - 1 }
    else onUnsubscribe D (x.key a) { x with
      opened := x.opened.erase a
      down := if x.canUnsubscribe then x.down.unsubscribeIfNotAlready else x.down
      nonUnsubscribed := x.nonUnsubscribed - 1 } := by
  simp only [innerUnsubscribe, ha, if_true]
  rw [innerUnsubscribed_ok _ _ (by simpa using hU) (.inl rfl)]
  rfl

theorem complete_core (hD : Closes D) (h : Core D tidy clean 0 x) (hp : Phase D x) (ha : a ∈ x.opened)
    (hall : tidy → subsOf x.log = List.range x.arrived) :
    ∃ y, innerComplete D .ok (fun _ => .ok) (onUnsubscribe D) a x = .ok y ∧ Core D tidy clean 0 y ∧ Phase D y ∧ Ext x y := by
  have hs := h.single ha
  have hC := h.nonC
  have hU := h.nonU
  rw [hs, List.length_singleton] at hC hU
  have hB0 := h.base.begin ha (by simp)
  have hB1 := (hB0.finish (by simp)).weaken (d' := 0) (by omega)
  have he : x.opened.erase a = [] := by simp [hs]
  rw [he] at hB1
  have hlive : live (x.log ++ [Log.done a]) = [] := by
    have h1 := hB0.len
    simp only [hs, List.length_singleton] at h1
    exact List.length_eq_zero_iff.1 (by omega)
  have hdec : State.dec x.nonCompleted = .ok 0 := by simp [State.dec, hC]
  rcases hp with ho | hl | hd
  · have hdn := not_closed ho.down
    cases hu : x.up.isCompleted
    · have hcan : State.canComplete { x with log := x.log ++ [Log.done a], nonCompleted := 0 } = false := by
        simp [State.canComplete, hu]
      refine ⟨{ x with opened := [], log := x.log ++ [.done a], nonCompleted := 0, nonUnsubscribed := 0 }, ?_,
        ⟨hB1, h.queue, rfl, rfl⟩, .inl ⟨ho.outer, ho.dest, ho.down, ho.err, ho.up, fun h => by simp only [hu] at h; cases h⟩,
        ⟨rfl, rfl, rfl, rfl, by simp, List.prefix_append _ _⟩⟩
      simp only [innerComplete, innerCompleted, bind, Except.bind, hdec, hcan, Bool.false_eq_true, if_false, pure, Except.pure]
      rw [finish_step _ (by exact ha) (by simp only; omega)]
      have hcu : ∀ y : State S I E, y.up = x.up → y.down = x.down → y.canUnsubscribe = false := fun y h1 h2 => by
        simp [State.canUnsubscribe, h1, h2, ho.err, ho.down, ho.up, hu]
      rw [hcu { x with log := x.log ++ [Log.done a], nonCompleted := 0 } rfl rfl]
      simp only [hdn.2.2, Bool.false_eq_true, if_false, onUnsubscribe, he, hU]
      rw [if_neg (by rw [hcu _ (by rfl) (by rfl)]; simp)]
      rfl
    · have hcan : State.canComplete { x with log := x.log ++ [Log.done a], nonCompleted := 0 } = true := by
        simp [State.canComplete, hu, h.queue, ho.down]
      have hcd : D.isClosed (D.push x.dest .complete) = true := hD _ _ rfl
      rw [ho.dest, hu] at hB1
      have hB2 := hB1.out (some a) .complete true (by simp) (fun _ => ⟨rfl, hlive, rfl, by simpa using hall⟩)
        (fun _ _ => rfl) (fun _ _ _ hh => by cases hh)
      refine ⟨{ x with
          opened := [], log := x.log ++ [.done a] ++ [.out (some a) .complete], nonCompleted := 0, nonUnsubscribed := 0
          dest := D.push x.dest .complete, outerClosed := true
          down := { x.down with waiting := false, completed := true, unsubscribed := true } }, ?_,
        ⟨by simp only [hcd, hu]; exact hB2, h.queue, rfl, rfl⟩, .inr (.inr ⟨rfl, hcd, rfl⟩),
        ⟨rfl, rfl, rfl, rfl, subsOf_out.trans subsOf_done, ?_⟩⟩
      · simp only [innerComplete, innerCompleted, bind, Except.bind, hdec, hcan, if_true, pure, Except.pure,
          State.check, SubscriberState.complete, ho.down, Bool.false_eq_true, if_false]
        rw [give_open (by exact ho.dest)]
        simp only
        rw [finish_step _ (by exact ha) (by simp only; omega)]
        have hcu : ∀ y : State S I E, y.down.isCompleted = true → y.canUnsubscribe = true := fun y hy => by
          simp [State.canUnsubscribe, SubscriberState.isClosed, SubscriberState.isFinished, hy]
        have hdu : (SubscriberState.isUnsubscribed { x.down with waiting := false, completed := true }) = false := hdn.2.2
        simp only [hdu, Bool.false_eq_true, if_false]
        rw [if_pos (hcu _ rfl)]
        simp only [onUnsubscribe]
        rw [if_pos (hcu _ rfl), give_closed (by exact hcd)]
        simp [he, hU, SubscriberState.unsubscribeIfNotAlready]
      · simp only [List.append_assoc]
        exact List.prefix_append _ _
  · have hdc : x.down.isClosed = true := by simp [SubscriberState.isClosed, hl.down]
    have hcan : State.canComplete { x with log := x.log ++ [Log.done a], nonCompleted := 0 } = false := by
      simp [State.canComplete, hdc]
    have hcu : State.canUnsubscribe { x with log := x.log ++ [Log.done a], nonCompleted := 0 } = true := by
      simp [State.canUnsubscribe, hdc]
    refine ⟨{ x with opened := [], log := x.log ++ [.done a], nonCompleted := 0, nonUnsubscribed := 0
                     down := x.down.unsubscribeIfNotAlready }, ?_,
      ⟨hB1, h.queue, rfl, rfl⟩, .inr (.inl ⟨hl.impatient, hl.outer, hl.dest, rfl, hl.err, hl.up, by simpa using hl.quiet⟩),
      ⟨rfl, rfl, rfl, rfl, by simp, List.prefix_append _ _⟩⟩
    simp only [innerComplete, innerCompleted, bind, Except.bind, hdec, hcan, Bool.false_eq_true, if_false, pure, Except.pure]
    rw [finish_step _ (by exact ha) (by simp only; omega), hcu]
    simp only [hl.down, if_true, he, hU]
  · rw [hd.none] at ha; cases ha

/-- An inner observable notifies its subscriber. -/
theorem push_core (hD : Closes D) (hcl : clean → Patient D) (h : Core D tidy clean 0 x) (hp : Phase D x)
    (hall : tidy → subsOf x.log = List.range x.arrived)
    (n : SubscriberNotification I E) (hn : clean → n ≠ .unsubscribe ∧ ∀ f, n ≠ .error f) :
    Res D (innerPush D .ok (fun _ => .ok) (onUnsubscribe D) a x n)
      fun y => Core D tidy clean 0 y ∧ Phase D y ∧ Ext x y := by
  by_cases ha : a ∈ x.opened
  · have h' : Core D tidy clean 0 { x with busy := a :: x.busy } := ⟨h.base, h.queue, h.nonC, h.nonU⟩
    have hp' : Phase D { x with busy := a :: x.busy } := by
      rcases hp with ho | hl | hd
      · exact .inl { ho with }
      · exact .inr (.inl { hl with })
      · exact .inr (.inr { hd with })
    have hend : ∀ y, Core D tidy clean 0 y ∧ Phase D y ∧ Ext { x with busy := a :: x.busy } y →
        Core D tidy clean 0 { y with busy := x.busy } ∧ Phase D { y with busy := x.busy } ∧ Ext x { y with busy := x.busy } := by
      rintro y ⟨h1, h2, h3⟩
      refine ⟨⟨h1.base, h1.queue, h1.nonC, h1.nonU⟩, ?_, ⟨h3.arrived, h3.up, rfl, h3.current, h3.subs, h3.log⟩⟩
      rcases h2 with ho | hl | hd
      · exact .inl { ho with }
      · exact .inr (.inl { hl with })
      · exact .inr (.inr { hd with })
    have hres : Res D (innerHandle D .ok (fun _ => .ok) (onUnsubscribe D) a n { x with busy := a :: x.busy })
        fun y => Core D tidy clean 0 y ∧ Phase D y ∧ Ext { x with busy := a :: x.busy } y := by
      cases n with
      | next v => exact .inl (next_core hcl h' hp' ha v)
      | error e => exact error_core hD h' hp' ha e fun hc => (hn hc).2 e rfl
      | complete => exact .inl (complete_core hD h' hp' ha hall)
      | unsubscribe =>
        have hncl : ¬ clean := fun hc => (hn hc).1 rfl
        rcases hp' with ho | hl | hd
        · obtain ⟨y, hy, h1, h2, h3, h4⟩ := unsub_open hD h' ho ha (.inl rfl) (fun hc => absurd hc hncl)
          refine .inl ⟨y, hy, h1, ?_, h2⟩
          rcases h4 with h | h
          · exact .inl h.1
          · exact .inr (.inr h.1)
        · obtain ⟨y, hy, g1, g2, g3, g4, g5, g6, g7, g8⟩ := unsub_closed h' hl.dest ha
          refine .inl ⟨y, hy, g1, .inr (.inl ⟨hl.impatient, ?_, ?_, (g7 hl.down).2, ?_, ?_, ?_⟩), g2⟩
          · exact (g7 hl.down).1.trans hl.outer
          · rw [g5]; exact hl.dest
          · rw [g2.up]; exact hl.err
          · rw [g2.up]; exact hl.up
          · rw [g4]; simpa using hl.quiet
        · have := hd.none
          simp only at this
          rw [this] at ha; cases ha
    simp only [innerPush, ha, if_true]
    exact hres.bind fun y hy => .inl ⟨_, rfl, hend y hy⟩
  · simp only [innerPush, ha, if_false]
    exact .inl ⟨x, rfl, h, hp, Ext.refl x⟩

theorem fold_core (hD : Closes D) (hcl : clean → Patient D) (ns : List (SubscriberNotification I E)) :
    ∀ {x : State S I E} (_ : Core D tidy clean 0 x) (_ : Phase D x) (_ : tidy → subsOf x.log = List.range x.arrived)
      (_ : clean → ∀ n ∈ ns, n ≠ .unsubscribe ∧ ∀ f, n ≠ .error f),
    Res D (ns.foldlM (innerPush D .ok (fun _ => .ok) (onUnsubscribe D) a) x)
      fun y => Core D tidy clean 0 y ∧ Phase D y ∧ Ext x y := by
  induction ns with
  | nil => exact fun h hp _ _ => .inl ⟨_, rfl, h, hp, Ext.refl _⟩
  | cons n ns ih =>
    intro x h hp hall hn
    rw [List.foldlM_cons]
    refine (push_core hD hcl h hp hall n (fun hc => hn hc n List.mem_cons_self)).bind fun y ⟨h1, h2, h3⟩ => ?_
    refine (ih h1 h2 (fun ht => by rw [h3.subs, h3.arrived]; exact hall ht)
      (fun hc m hm => hn hc m (List.mem_cons_of_mem _ hm))).mono ?_
    exact fun z ⟨g1, g2, g3⟩ => ⟨g1, g2, h3.trans g3⟩

end Handle

/-! ### Cancelling the current inner observable, and starting one -/

/-- Between events: no inner subscriber is at work, and the one open, if any, is the current one. -/
structure Idle (x : State S I E) : Prop where
  busy : x.busy = []
  curr : ∀ a ∈ x.opened, x.current = some a

section Top
variable {x : State S I E} {r : Nat}

theorem Core.opened (h : Core D tidy clean r x) : x.opened = live x.log := by
  have hmem := h.base.mem
  have hlen := h.base.len
  have hroom := h.base.room
  simp only [List.not_mem_nil, or_false, List.length_nil, Nat.add_zero] at hmem hlen hroom
  match ho : x.opened, hl : live x.log with
  | [], [] => rfl
  | [a], [b] =>
    have := (hmem a).1 (by simp [ho])
    rw [hl, List.mem_singleton] at this
    rw [this]
  | [], _ :: _ => rw [ho, hl] at hlen; simp at hlen
  | _ :: _, [] => rw [ho, hl] at hlen; simp at hlen
  | _ :: _ :: _, _ => rw [ho] at hroom; simp at hroom
  | [_], _ :: _ :: _ => rw [ho, hl] at hlen; simp at hlen

theorem cancel_none (hi : Idle x) (ho : x.opened = []) : cancelCurrent D x = .ok { x with current := none } := by
  unfold cancelCurrent
  cases hc : x.current with
  | none =>
    refine congrArg Except.ok ?_
    cases x
    cases hc
    rfl
  | some b => simp [innerCancel, hi.busy, innerUnsubscribe, ho]

theorem cancel_some {a : Nat} (hi : Idle x) (ho : x.opened = [a]) :
    cancelCurrent D x = innerUnsubscribe (onUnsubscribe D) false a { x with current := none } := by
  unfold cancelCurrent
  rw [hi.curr a (by simp [ho])]
  simp [innerCancel, hi.busy]

theorem opened_cases (h : Core D tidy clean r x) : x.opened = [] ∨ ∃ a, x.opened = [a] := by
  match ho : x.opened with
  | [] => exact .inl rfl
  | a :: _ =>
    have := h.single (a := a) (by simp [ho])
    rw [ho] at this
    exact .inr ⟨a, this⟩

theorem Core.clear (h : Core D tidy clean r x) : Core D tidy clean r { x with current := none } :=
  ⟨h.base, h.queue, h.nonC, h.nonU⟩

/-- The current inner observable is unsubscribed although the destination goes on. -/
theorem cancel_open (hD : Closes D) (h : Core D tidy clean r x) (hi : Idle x) (ho : Open D x) (hu : x.up.isCompleted = false) :
    ∃ y, cancelCurrent D x = .ok y ∧ Core D tidy clean r y ∧ Open D y ∧ y.opened = [] ∧
      y.log = x.log ++ x.opened.map .done ∧ y.arrived = x.arrived ∧ y.up = x.up ∧ y.busy = [] := by
  have ho' : Open D { x with current := none } := { ho with }
  rcases opened_cases h with he | ⟨a, he⟩
  · exact ⟨_, cancel_none hi he, h.clear, ho', he, by simp [he], rfl, rfl, hi.busy⟩
  · obtain ⟨y, hy, h1, h2, h3, h4⟩ := unsub_open hD h.clear ho' (a := a) (by simp [he]) (.inr hu) (fun _ => hu)
    rcases h4 with ⟨h4, _, h5⟩ | ⟨_, h4, _⟩
    · exact ⟨y, (cancel_some hi he).trans hy, h1, h4, h3, by simp [h5, he], h2.arrived, h2.up, h2.busy.trans hi.busy⟩
    · simp only [hu] at h4; cases h4

/-- The same after the destination has closed. -/
theorem cancel_closed (h : Core D tidy clean r x) (hi : Idle x) (hd : D.isClosed x.dest = true) :
    ∃ y, cancelCurrent D x = .ok y ∧ Core D tidy clean r y ∧ y.opened = [] ∧
      y.log = x.log ++ x.opened.map .done ∧ y.arrived = x.arrived ∧ y.up = x.up ∧ y.busy = [] ∧ y.dest = x.dest ∧
      (x.outerClosed = true → y.outerClosed = true) ∧
      (x.down.isUnsubscribed = true → y.outerClosed = x.outerClosed ∧ y.down.isUnsubscribed = true) := by
  rcases opened_cases h with he | ⟨a, he⟩
  · exact ⟨_, cancel_none hi he, h.clear, he, by simp [he], rfl, rfl, hi.busy, rfl, fun h => h, fun h => ⟨rfl, h⟩⟩
  · obtain ⟨y, hy, h1, h2, h3, h4, h5, h6, h7, _⟩ := unsub_closed h.clear hd (a := a) (by simp [he])
    exact ⟨y, (cancel_some hi he).trans hy, h1, h3, by simp [h4, he], h2.arrived, h2.up, h2.busy.trans hi.busy, h5, h6, h7⟩

/-- A new inner observable is subscribed. -/
theorem subscribe_core (hD : Closes D) (hcl : clean → Patient D) {a : Nat} (h : Core D tidy clean 1 x) (he : x.opened = [])
    (hb : x.busy = []) (hp : Open D x ∨ Left D x) (hu : x.up.isCompleted = false) (har : x.arrived = a + 1)
    (hlt : ∀ b ∈ subsOf x.log, b < a)
    (hall : tidy → subsOf x.log = List.range a) (src : Src I E)
    (hn : clean → ∀ n ∈ src, n ≠ .unsubscribe ∧ ∀ f, n ≠ .error f) :
    Res D (subscribe D a src x) fun y => Core D tidy clean 0 y ∧ Phase D y ∧ Idle y ∧ y.arrived = x.arrived ∧ y.up = x.up ∧
      subsOf y.log = subsOf x.log ++ [a] ∧ x.log ++ [.sub a] <+: y.log := by
  have hnew : a ∉ subsOf x.log := fun hm => Nat.lt_irrefl _ (hlt a hm)
  have hncp : SubscriberNotification.complete ∉ outsOf x.log := fun hm => by
    have := (h.base.compl hm).1
    rw [hu] at this
    cases this
  have hB0 : Base 1 tidy clean [] 1 (D.isClosed x.dest) [] x.opened x.log x.arrived x.up.isCompleted :=
    { h.base with room := by simp [he] }
  have hB1 := hB0.open_ (queue' := []) (arrived' := x.arrived) hnew (fun _ => id) hncp
    (by
      have := h.base.once
      simp only [List.map_nil, List.append_nil] at this ⊢
      rw [List.nodup_append]
      refine ⟨this, by simp, fun b hb c hc => ?_⟩
      rw [List.mem_singleton.1 hc]
      rintro rfl
      exact hnew hb)
    (fun b hb => by
      simp only [List.map_nil, List.mem_append, List.mem_singleton] at hb
      rw [har]
      rcases hb with hb | rfl
      · have := hlt b hb; omega
      · omega)
    (fun ht => by
      have := h.base.order ht
      simp only [List.map_nil, List.append_nil] at this ⊢
      rw [List.pairwise_append]
      refine ⟨this, by simp, fun b hb c hc => ?_⟩
      rw [List.mem_singleton.1 hc]
      exact hlt b hb)
  have hcore : Core D tidy clean 0 { x with
      opened := x.opened ++ [a], busy := a :: x.busy
      key := fun b => if b = a then 0 else x.key b, log := x.log ++ [.sub a] } :=
    ⟨hB1, h.queue, by simp [h.nonC], by simp [h.nonU]⟩
  have hphase : Phase D { x with
      opened := x.opened ++ [a], busy := a :: x.busy
      key := fun b => if b = a then 0 else x.key b, log := x.log ++ [.sub a] } := by
    rcases hp with ho | hl
    · exact .inl ⟨ho.outer, ho.dest, ho.down, ho.err, ho.up, by simp⟩
    · exact .inr (.inl ⟨hl.impatient, hl.outer, hl.dest, hl.down, hl.err, hl.up, by simpa using hl.quiet⟩)
  have hfold := fold_core (a := a) hD hcl src hcore hphase (fun ht => by simp [hall ht, har, List.range_succ]) hn
  simp only [subscribe, innerSubscribe]
  refine (hfold.bind (Q := fun y => Core D tidy clean 0 y ∧ Phase D y ∧ y.busy = [] ∧ y.arrived = x.arrived ∧ y.up = x.up ∧
      subsOf y.log = subsOf x.log ++ [a] ∧ x.log ++ [.sub a] <+: y.log) fun y ⟨h1, h2, h3⟩ => .inl ⟨_, rfl, ?_⟩).bind
    fun y ⟨h1, h2, h3, h4, h5, h6, h7⟩ => ?_
  · refine ⟨⟨h1.base, h1.queue, h1.nonC, h1.nonU⟩, ?_, hb, h3.arrived, h3.up, by rw [h3.subs]; simp, h3.log⟩
    rcases h2 with ho | hl | hd
    · exact .inl { ho with }
    · exact .inr (.inl { hl with })
    · exact .inr (.inr { hd with })
  · have honly : ∀ b ∈ y.opened, b = a := fun b hb => by
      have hlv := mem_live.1 (h1.opened ▸ hb)
      rw [h6, List.mem_append, List.mem_singleton] at hlv
      refine hlv.1.resolve_left fun hbs => hlv.2 ?_
      have : b ∈ donesOf x.log := Classical.not_not.1 fun hd => by
        have := mem_live.2 ⟨hbs, hd⟩
        rw [← h.opened, he] at this
        cases this
      obtain ⟨t, ht⟩ := h7
      rw [← ht]
      simp only [donesOf, List.filterMap_append] at this ⊢
      exact List.mem_append_left _ (List.mem_append_left _ this)
    by_cases ha : a ∈ y.opened
    · simp only [ha, if_true]
      refine .inl ⟨_, rfl, ⟨h1.base, h1.queue, h1.nonC, h1.nonU⟩, ?_, ⟨h3, fun b hb => by rw [honly b hb]⟩, h4, h5, h6, h7⟩
      rcases h2 with ho | hl | hd
      · exact .inl { ho with }
      · exact .inr (.inl { hl with })
      · exact .inr (.inr { hd with })
    · simp only [ha, if_false]
      exact .inl ⟨y, rfl, h1, h2, ⟨h3, fun b hb => absurd (honly b hb ▸ hb) ha⟩, h4, h5, h6, h7⟩

/-! ### Ending -/

/-- What `unsubscribe` of switch and exhaust have in common. -/
structure Ends (D : Sub S I E) (U : Action S I E) : Prop where
  skip : ∀ x : State S I E, x.outerClosed = true → U x = .ok x
  after : ∀ {tidy clean : Prop} {x : State S I E}, Core D tidy clean 0 x → Idle x → x.outerClosed = false →
    D.isClosed x.dest = true → ∃ y, U x = .ok y ∧ Core D tidy clean 0 y ∧ Dead D y ∧ Idle y ∧ y.arrived = x.arrived ∧
      y.up = x.up ∧ y.log = x.log ++ x.opened.map .done
  fresh : ∀ {tidy clean : Prop} {x : State S I E}, Core D tidy clean 0 x → Idle x → Open D x → ¬ clean →
    ∃ y, U x = .ok y ∧ Core D tidy clean 0 y ∧ Dead D y ∧ Idle y ∧ y.arrived = x.arrived ∧
      y.up = x.up ∧ subsOf y.log = subsOf x.log ∧ x.log <+: y.log ∧ .unsubscribe ∈ outsOf y.log

theorem idle_dead (hb : x.busy = []) (he : x.opened = []) : Idle x :=
  ⟨hb, fun a ha => by rw [he] at ha; cases ha⟩

theorem subsOf_dones (l : List (Log I E)) (ks : List Nat) : subsOf (l ++ ks.map .done) = subsOf l := by
  simp [subsOf, List.filterMap_map, Function.comp_def, Log.asSub]

theorem outsOf_dones (l : List (Log I E)) (ks : List Nat) : outsOf (l ++ ks.map .done) = outsOf l := by
  simp [outsOf, List.filterMap_map, Function.comp_def, Log.asOut]

theorem switch_ends (hD : Closes D) : Ends D (Switch.unsubscribe D) where
  skip x hx := by simp [Switch.unsubscribe, hx]
  after {tidy clean x} h hi hx hd := by
    obtain ⟨y, hy, h1, h2, h3, h4, h5, h6, h7, h8, _⟩ := cancel_closed (x := { x with outerClosed := true })
      ⟨h.base, h.queue, h.nonC, h.nonU⟩ ⟨hi.busy, hi.curr⟩ hd
    refine ⟨y, ?_, h1, ⟨h8 rfl, h7 ▸ hd, h2⟩, idle_dead h6 h2, h4, h5, h3⟩
    have hx' : ¬ x.outerClosed = true := by simp [hx]
    simp only [Switch.unsubscribe]
    rw [if_neg hx', give_closed (by exact hd)]
    exact hy
  fresh {tidy clean x} h hi ho hncl := by
    have hcd : D.isClosed (D.push x.dest .unsubscribe) = true := hD _ _ rfl
    have hB := (h.openBase ho.dest).out none .unsubscribe true (by simp) (fun h => by cases h) (fun hc => absurd hc hncl)
      (fun _ _ hh => by cases hh)
    obtain ⟨y, hy, h1, h2, h3, h4, h5, h6, h7, h8, _⟩ := cancel_closed (tidy := tidy) (clean := clean) (r := 0)
      (x := { x with outerClosed := true, dest := D.push x.dest .unsubscribe, log := x.log ++ [.out none .unsubscribe] })
      ⟨by simp only [hcd]; exact hB, h.queue, h.nonC, h.nonU⟩ ⟨hi.busy, hi.curr⟩ hcd
    refine ⟨y, ?_, h1, ⟨h8 rfl, h7 ▸ hcd, h2⟩, idle_dead h6 h2, h4, h5, ?_, ?_, ?_⟩
    · have hx' : ¬ x.outerClosed = true := by simp [ho.outer]
      simp only [Switch.unsubscribe]
      rw [if_neg hx', give_open (by exact ho.dest)]
      exact hy
    · rw [h3, subsOf_dones]; simp
    · rw [h3, List.append_assoc]; exact List.prefix_append _ _
    · rw [h3, outsOf_dones]; simp

theorem exhaust_ends (hD : Closes D) : Ends D (Exhaust.unsubscribe D) where
  skip x hx := by simp [Exhaust.unsubscribe, hx]
  after {tidy clean x} h hi hx hd := by
    obtain ⟨y, hy, h1, h2, h3, h4, h5, h6, h7, h8, _⟩ := cancel_closed h hi hd
    have hyd : D.isClosed y.dest = true := by rw [h7]; exact hd
    refine ⟨{ y with outerClosed := true }, ?_, ⟨h1.base, h1.queue, h1.nonC, h1.nonU⟩, ⟨rfl, hyd, h2⟩,
      idle_dead h6 h2, h4, h5, h3⟩
    have hx' : ¬ x.outerClosed = true := by simp [hx]
    simp only [Exhaust.unsubscribe]
    rw [if_neg hx', hy]
    exact give_closed (by exact hyd)
  fresh {tidy clean x} h hi ho hncl := by
    have hx' : ¬ x.outerClosed = true := by simp [ho.outer]
    simp only [Exhaust.unsubscribe]
    rw [if_neg hx']
    have hfin : ∀ y : State S I E, Core D tidy clean 0 y → Open D y → y.opened = [] →
        ∃ z, give D .ok none .unsubscribe { y with outerClosed := true } = .ok z ∧ Core D tidy clean 0 z ∧ Dead D z ∧
          z.arrived = y.arrived ∧ z.up = y.up ∧ z.busy = y.busy ∧ z.log = y.log ++ [.out none .unsubscribe] := by
      intro y hy hyo hye
      have hcd : D.isClosed (D.push y.dest .unsubscribe) = true := hD _ _ rfl
      have hB := (hy.openBase hyo.dest).out none .unsubscribe true (by simp) (fun h => by cases h)
        (fun hc => absurd hc hncl) (fun _ _ hh => by cases hh)
      exact ⟨_, give_open (by exact hyo.dest), ⟨by simp only [hcd]; exact hB, hy.queue, hy.nonC, hy.nonU⟩,
        ⟨rfl, hcd, hye⟩, rfl, rfl, rfl, rfl⟩
    rcases opened_cases h with he | ⟨a, he⟩
    · rw [cancel_none hi he]
      obtain ⟨z, hz, g1, g2, g3, g4, g5, g6⟩ := hfin { x with current := none } h.clear { ho with } he
      refine ⟨z, hz, g1, g2, idle_dead (g5.trans hi.busy) g2.none, g3, g4, ?_, ?_, ?_⟩
      · rw [g6]; simp
      · rw [g6]; exact List.prefix_append _ _
      · rw [g6]; simp
    · rw [cancel_some hi he]
      have ho' : Open D { x with current := none } := { ho with }
      obtain ⟨y, hy, h1, h2, h3, h4⟩ := unsub_open hD h.clear ho' (a := a) (by simp [he]) (.inl rfl)
        (fun hc => absurd hc hncl)
      rw [hy]
      rcases h4 with ⟨h4, h5, h6⟩ | ⟨h4, h5, h6⟩
      · obtain ⟨z, hz, g1, g2, g3, g4, g5, g6⟩ := hfin y h1 h4 h3
        refine ⟨z, hz, g1, g2, idle_dead (g5.trans (h2.busy.trans hi.busy)) g2.none, g3.trans h2.arrived, g4.trans h2.up, ?_, ?_, ?_⟩
        · rw [g6, h6]; simp [subsOf, Log.asSub]
        · rw [g6, h6, List.append_assoc]; exact List.prefix_append _ _
        · rw [g6]; simp
      · refine ⟨{ y with outerClosed := true }, give_closed (by exact h4.dest), ⟨h1.base, h1.queue, h1.nonC, h1.nonU⟩,
          ⟨rfl, h4.dest, h4.none⟩, idle_dead (h2.busy.trans hi.busy) h4.none, h2.arrived, h2.up, ?_, ?_, ?_⟩
        · rw [h6]; simp [subsOf, Log.asSub]
        · rw [h6]; exact List.prefix_append _ _
        · rw [h6]; simp [outsOf, Log.asOut]

/-! ### Events -/

/-- What holds between events. -/
structure Inv (D : Sub S I E) (tidy clean : Prop) (es : List (Event I E)) (x : State S I E) : Prop where
  core : Core D tidy clean 0 x
  phase : Phase D x
  idle : Idle x
  arrived : x.arrived = arrivals es
  upC : x.up.isCompleted = true → .complete ∈ outerNotes es
  upO : x.outerClosed = false → .complete ∈ outerNotes es → x.up.isCompleted = true
  all : tidy → x.outerClosed = false → subsOf x.log = List.range x.arrived
  sorted : (subsOf x.log).Pairwise (· < ·)

variable {es : List (Event I E)}

/-- What a step does to the log: only observables that arrive now are subscribed. -/
structure Grow (x y : State S I E) : Prop where
  log : x.log <+: y.log
  subs : ∀ b ∈ subsOf y.log, b ∈ subsOf x.log ∨ x.arrived ≤ b

theorem Grow.of_eq {x y : State S I E} (h : x.log <+: y.log) (hs : subsOf y.log = subsOf x.log) : Grow x y :=
  ⟨h, fun _ hb => .inl (hs ▸ hb)⟩

theorem Grow.rfl' {x y : State S I E} (h : y.log = x.log) : Grow x y :=
  .of_eq (h ▸ List.prefix_refl _) (by rw [h])

theorem inv_init (s : S) (hs : D.isClosed s = false) : Inv D tidy clean [] ({ dest := s } : State S I E) where
  core := ⟨by constructor <;> simp [subsOf, donesOf, outsOf, live, hs], rfl, rfl, rfl⟩
  phase := .inl (by
    constructor <;> simp [SubscriberState.isClosed, SubscriberState.isUnsubscribed, SubscriberState.isFinished,
      SubscriberState.isCompleted, SubscriberState.isErrored, SubscriberState.default, hs])
  idle := ⟨rfl, fun a ha => by cases ha⟩
  arrived := rfl
  upC := by simp [SubscriberState.isCompleted, SubscriberState.default]
  upO := by simp [outerNotes]
  all := by simp [subsOf]
  sorted := by simp [subsOf]

theorem inner_inv (hD : Closes D) (hcl : clean → Patient D) (h : Inv D tidy clean es x) (a : Nat)
    (n : SubscriberNotification I E) (hn : clean → n ≠ .unsubscribe ∧ ∀ f, n ≠ .error f) :
    Res D (inner D a n x) fun y => Inv D tidy clean (es ++ [.inner a n]) y ∧ Grow x y := by
  by_cases ha : a ∈ x.opened
  · have hxo : x.outerClosed = false := by
      rcases h.phase with ho | hl | hd
      · exact ho.outer
      · exact hl.outer
      · rw [hd.none] at ha; cases ha
    refine (push_core (a := a) hD hcl h.core h.phase (fun ht => h.all ht hxo) n hn).mono fun y ⟨h1, h2, h3⟩ => ⟨?_, .of_eq h3.log h3.subs⟩
    refine ⟨h1, h2, ⟨h3.busy.trans h.idle.busy, fun b hb => ?_⟩, ?_, ?_, ?_, ?_, h3.subs ▸ h.sorted⟩
    · rw [h3.current]
      refine h.idle.curr b ?_
      have hlv := mem_live.1 (h1.opened ▸ hb)
      rw [h.core.opened]
      refine mem_live.2 ⟨h3.subs ▸ hlv.1, fun hd => hlv.2 ?_⟩
      obtain ⟨t, ht⟩ := h3.log
      rw [← ht]
      simp only [donesOf, List.filterMap_append] at hd ⊢
      exact List.mem_append_left _ hd
    · rw [h3.arrived, h.arrived, arrivals_snoc_inner]
    · rw [outerNotes_snoc_inner, h3.up]; exact h.upC
    · rw [outerNotes_snoc_inner, h3.up]; exact fun _ => h.upO hxo
    · rw [h3.subs, h3.arrived]; exact fun ht _ => h.all ht hxo
  · refine .inl ⟨x, by simp [inner, innerPush, ha], ⟨h.core, h.phase, h.idle, ?_, ?_, ?_, h.all, h.sorted⟩, .rfl' rfl⟩
    · rw [h.arrived, arrivals_snoc_inner]
    · rw [outerNotes_snoc_inner]; exact h.upC
    · rw [outerNotes_snoc_inner]; exact h.upO

/-- An arriving inner observable is not subscribed. -/
theorem inv_skip_next (h : Inv D tidy clean es x) (src : Src I E) (hc : Conforming (outerNotes (es ++ [.outer (.next src)])))
    (hx : tidy → x.outerClosed = true) :
    Inv D tidy clean (es ++ [.outer (.next src)]) { x with arrived := x.arrived + 1 } := by
  rw [outerNotes_snoc_outer, conforming_snoc] at hc
  have hncp : SubscriberNotification.complete ∉ outsOf x.log := fun hm => by
    have := hc.2 ⟨.complete, h.upC (h.core.base.compl hm).1, rfl⟩
    cases this
  refine ⟨⟨Concurrent.Base.arrive h.core.base hncp, h.core.queue, h.core.nonC, h.core.nonU⟩, ?_, ⟨h.idle.busy, h.idle.curr⟩, ?_, ?_, ?_, ?_,
    h.sorted⟩
  · rcases h.phase with ho | hl | hd
    · exact .inl { ho with }
    · exact .inr (.inl { hl with })
    · exact .inr (.inr { hd with })
  · rw [arrivals_snoc_next, h.arrived]
  · intro hu
    rw [outerNotes_snoc_outer]
    exact List.mem_append_left _ (h.upC hu)
  · intro ho hm
    rw [outerNotes_snoc_outer, List.mem_append, List.mem_singleton] at hm
    exact h.upO ho (hm.resolve_right (by simp))
  · intro ht ho
    have := hx ht
    simp only at ho
    rw [ho] at this
    cases this

/-- Nothing happens. -/
theorem inv_skip (h : Inv D tidy clean es x) (n : SubscriberNotification (Src I E) E) (hn : ∀ src, n ≠ .next src)
    (hx : x.outerClosed = true) : Inv D tidy clean (es ++ [.outer n]) x := by
  refine ⟨h.core, h.phase, h.idle, ?_, ?_, (fun ho => by rw [hx] at ho; cases ho), h.all, h.sorted⟩
  · rw [arrivals_snoc_outer hn, h.arrived]
  · intro hu
    rw [outerNotes_snoc_outer]
    exact List.mem_append_left _ (h.upC hu)

/-- `unsubscribe`, `error` and `complete` end in this state. -/
theorem inv_dead (h : Inv D tidy clean es x) (n : SubscriberNotification (Src I E) E) (hn : ∀ src, n ≠ .next src) {y : State S I E}
    (h1 : Core D tidy clean 0 y) (h2 : Dead D y) (h3 : Idle y) (h4 : y.arrived = x.arrived)
    (h5 : y.up.isCompleted = true → .complete ∈ outerNotes es ∨ n = .complete) (h6 : subsOf y.log = subsOf x.log) :
    Inv D tidy clean (es ++ [.outer n]) y := by
  have hf : y.outerClosed = false → False := fun ho => by rw [h2.outer] at ho; cases ho
  refine ⟨h1, .inr (.inr h2), h3, ?_, ?_, fun ho => (hf ho).elim, fun _ ho => (hf ho).elim, h6 ▸ h.sorted⟩
  · rw [h4, arrivals_snoc_outer hn, h.arrived]
  · intro hu
    rw [outerNotes_snoc_outer, List.mem_append, List.mem_singleton]
    exact (h5 hu).imp id Eq.symm

theorem unsubscribe_inv {U : Action S I E} (hU : Ends D U) (h : Inv D tidy clean es x) (hncl : ¬ clean) :
    ∃ y, U x = .ok y ∧ Inv D tidy clean (es ++ [.outer .unsubscribe]) y ∧ Grow x y ∧ Dead D y := by
  rcases h.phase with ho | hl | hd
  · obtain ⟨y, hy, h1, h2, h3, h4, h5, h6, h7, _⟩ := hU.fresh h.core h.idle ho hncl
    exact ⟨y, hy, inv_dead h _ (by simp) h1 h2 h3 h4 (fun hu => .inl (h.upC (h5 ▸ hu))) h6, .of_eq h7 h6, h2⟩
  · obtain ⟨y, hy, h1, h2, h3, h4, h5, h6⟩ := hU.after h.core h.idle hl.outer hl.dest
    exact ⟨y, hy, inv_dead h _ (by simp) h1 h2 h3 h4 (fun hu => .inl (h.upC (h5 ▸ hu)))
      (by rw [h6, subsOf_dones]), .of_eq (h6 ▸ List.prefix_append _ _) (by rw [h6, subsOf_dones]), h2⟩
  · exact ⟨x, hU.skip x hd.outer, inv_skip h _ (by simp) hd.outer, .rfl' rfl, hd⟩

theorem up_open (h : Inv D tidy clean es x) {n : SubscriberNotification (Src I E) E} (hn : n ≠ .unsubscribe)
    (hc : Conforming (outerNotes (es ++ [.outer n]))) : x.up.isCompleted = false := by
  cases hu : x.up.isCompleted
  · rfl
  · rw [outerNotes_snoc_outer, conforming_snoc] at hc
    exact absurd (hc.2 ⟨.complete, h.upC hu, rfl⟩) hn

theorem error_inv {U : Action S I E} (hD : Closes D) (hU : Ends D U) (h : Inv D tidy clean es x) (e : E)
    (hc : Conforming (outerNotes (es ++ [.outer (.error e)]))) (hncl : ¬ clean) :
    ∃ y, error D U e x = .ok y ∧ Inv D tidy clean (es ++ [.outer (.error e)]) y ∧ Grow x y ∧ Dead D y ∧
      (Open D x → y.log = x.log ++ .out none (.error e) :: x.opened.map .done) := by
  have hu := up_open h (by simp) hc
  rcases h.phase with ho | hl | hd
  · have hcd : D.isClosed (D.push x.dest (.error e)) = true := hD _ _ rfl
    have hB := (h.core.openBase ho.dest).out none (.error e) true (by simp)
      (fun h => by cases h) (fun hc => absurd hc hncl) (fun _ _ hh => by cases hh)
    have hux : x.up.isClosed = false := by
      simp [SubscriberState.isClosed, SubscriberState.isFinished, ho.err, ho.up, hu]
    obtain ⟨y, hy, h1, h2, h3, h4, h5, h6⟩ := hU.after (tidy := tidy) (clean := clean) (x := { x with
        queue := [], up := { x.up with waiting := false, errored := true }
        dest := D.push x.dest (.error e), log := x.log ++ [.out none (.error e)] })
      ⟨by simp only [hcd]; exact hB, rfl, h.core.nonC, h.core.nonU⟩ ⟨h.idle.busy, h.idle.curr⟩ ho.outer hcd
    refine ⟨y, ?_, inv_dead h _ (by simp) h1 h2 h3 h4 (fun hu' => .inl (h.upC ?_))
      (by rw [h6, subsOf_dones]; exact subsOf_out), .of_eq ?_ (by rw [h6, subsOf_dones]; exact subsOf_out), h2, fun _ => by rw [h6]; simp⟩
    · have hx' : ¬ x.outerClosed = true := by simp [ho.outer]
      simp only [error]
      rw [if_neg hx']
      simp only [State.upstreamError, SubscriberState.error, hux, Bool.false_eq_true, if_false,
        State.check, bind, Except.bind, pure, Except.pure]
      rw [give_open (by exact ho.dest)]
      exact hy
    · rw [h5] at hu'; exact hu'
    · rw [h6, List.append_assoc]; exact List.prefix_append _ _
  · have hux : x.up.isClosed = false := by
      simp [SubscriberState.isClosed, SubscriberState.isFinished, hl.err, hl.up, hu]
    obtain ⟨y, hy, h1, h2, h3, h4, h5, h6⟩ := hU.after (tidy := tidy) (clean := clean) (x := { x with
        queue := [], up := { x.up with waiting := false, errored := true } })
      ⟨h.core.base, rfl, h.core.nonC, h.core.nonU⟩ ⟨h.idle.busy, h.idle.curr⟩ hl.outer hl.dest
    refine ⟨y, ?_, inv_dead h _ (by simp) h1 h2 h3 h4 (fun hu' => .inl (h.upC ?_))
      (by rw [h6, subsOf_dones]), .of_eq ?_ (by rw [h6, subsOf_dones]), h2, fun ho => ?_⟩
    · have hx' : ¬ x.outerClosed = true := by simp [hl.outer]
      simp only [error]
      rw [if_neg hx']
      simp only [State.upstreamError, SubscriberState.error, hux, Bool.false_eq_true, if_false,
        State.check, bind, Except.bind, pure, Except.pure]
      rw [give_closed (by exact hl.dest)]
      exact hy
    · rw [h5] at hu'; exact hu'
    · rw [h6]; exact List.prefix_append _ _
    · have := ho.dest
      rw [hl.dest] at this
      cases this
  · refine ⟨x, by simp [error, hd.outer], inv_skip h _ (by simp) hd.outer, .rfl' rfl, hd, fun ho => ?_⟩
    have := ho.dest
    rw [hd.dest] at this
    cases this

theorem complete_inv {U : Action S I E} (hD : Closes D) (hU : Ends D U) (h : Inv D tidy clean es x)
    (hc : Conforming (outerNotes (es ++ [.outer .complete]))) :
    ∃ y, complete D U x = .ok y ∧ Inv D tidy clean (es ++ [.outer .complete]) y ∧ Grow x y := by
  have hu := up_open h (by simp) hc
  have hx : ∀ P : Open D x ∨ Left D x, ¬ x.outerClosed = true := fun P => by
    rcases P with ho | hl
    · simp [ho.outer]
    · simp [hl.outer]
  have hup : ∀ P : Open D x ∨ Left D x, x.upstreamCompleted = .ok { x with
      up := { x.up with waiting := false, completed := true, unsubscribed := true } } := fun P => by
    have hux : x.up.isClosed = false ∧ x.up.isUnsubscribed = false := by
      rcases P with ho | hl
      · simp [SubscriberState.isClosed, SubscriberState.isFinished, ho.err, ho.up, hu]
      · simp [SubscriberState.isClosed, SubscriberState.isFinished, hl.err, hl.up, hu]
    have h2 : (SubscriberState.isUnsubscribed { x.up with waiting := false, completed := true }) = false := hux.2
    simp only [State.upstreamCompleted, SubscriberState.complete, hux.1, Bool.false_eq_true, if_false, State.check, bind,
      Except.bind, SubscriberState.unsubscribe, h2, pure, Except.pure]
  rcases h.phase with ho | hl | hd
  · rcases opened_cases h.core with he | ⟨a, he⟩
    · have hcd : D.isClosed (D.push x.dest .complete) = true := hD _ _ rfl
      have hB := (Concurrent.Base.setUp (up' := true) (h.core.openBase ho.dest)).out none .complete true (by simp)
        (fun _ => ⟨rfl, by rw [← h.core.opened]; exact he, rfl, fun ht => h.all ht ho.outer⟩) (fun _ _ => rfl)
        (fun _ _ hh => by cases hh)
      obtain ⟨y, hy, h1, h2, h3, h4, h5, h6⟩ := hU.after (tidy := tidy) (clean := clean) (x := { x with
          up := { x.up with waiting := false, completed := true, unsubscribed := true }
          dest := D.push x.dest .complete, log := x.log ++ [.out none .complete] })
        ⟨by simp only [hcd]; exact hB, h.core.queue, h.core.nonC, h.core.nonU⟩ ⟨h.idle.busy, h.idle.curr⟩ ho.outer hcd
      refine ⟨y, ?_, inv_dead h _ (by simp) h1 h2 h3 h4 (fun hu' => .inr rfl)
        (by rw [h6, subsOf_dones]; exact subsOf_out), .of_eq ?_ (by rw [h6, subsOf_dones]; exact subsOf_out)⟩
      · simp only [complete]
        rw [if_neg (hx (.inl ho)), hup (.inl ho)]
        simp only [bind, Except.bind]
        rw [if_pos, give_open (by exact ho.dest)]
        · exact hy
        · simp [State.canComplete, h.core.queue, h.core.nonC, he, SubscriberState.isCompleted, ho.down]
      · rw [h6, List.append_assoc]; exact List.prefix_append _ _
    · refine ⟨{ x with up := { x.up with waiting := false, completed := true, unsubscribed := true } }, ?_,
        ⟨⟨?_, h.core.queue, h.core.nonC, h.core.nonU⟩, .inl ⟨ho.outer, ho.dest, ho.down, ho.err, rfl, ?_⟩,
          ⟨h.idle.busy, h.idle.curr⟩, ?_, ?_, fun _ _ => rfl, h.all, h.sorted⟩, .rfl' rfl⟩
      · simp only [complete]
        rw [if_neg (hx (.inl ho)), hup (.inl ho)]
        simp only [bind, Except.bind]
        rw [if_neg]
        · rfl
        · simp [State.canComplete, h.core.nonC, he]
      · simp only [ho.dest]
        exact Concurrent.Base.setUp (h.core.openBase ho.dest)
      · simp [he]
      · rw [arrivals_snoc_outer (by simp)]; exact h.arrived
      · intro _; rw [outerNotes_snoc_outer]; simp
  · refine ⟨{ x with up := { x.up with waiting := false, completed := true, unsubscribed := true } }, ?_,
        ⟨⟨?_, h.core.queue, h.core.nonC, h.core.nonU⟩, .inr (.inl ⟨hl.impatient, hl.outer, hl.dest, hl.down, hl.err, rfl, hl.quiet⟩),
          ⟨h.idle.busy, h.idle.curr⟩, ?_, ?_, fun _ _ => rfl, h.all, h.sorted⟩, .rfl' rfl⟩
    · simp only [complete]
      rw [if_neg (hx (.inr hl)), hup (.inr hl)]
      simp only [bind, Except.bind]
      rw [if_neg]
      · rfl
      · simp [State.canComplete, SubscriberState.isClosed, hl.down]
    · exact { h.core.base with compl := fun hm => by have := hl.quiet _ hm; cases this }
    · rw [arrivals_snoc_outer (by simp)]; exact h.arrived
    · intro _; rw [outerNotes_snoc_outer]; simp
  · exact ⟨x, by simp [complete, hd.outer], inv_skip h _ (by simp) hd.outer, .rfl' rfl⟩

/-- An arriving inner observable is subscribed, once the previous one is cancelled. -/
theorem start_inv (hD : Closes D) (hcl : clean → Patient D) (h : Inv D tidy clean es x) (src : Src I E)
    (hc : Conforming (outerNotes (es ++ [.outer (.next src)]))) (hxo : x.outerClosed = false)
    (hn : clean → ∀ n ∈ src, n ≠ .unsubscribe ∧ ∀ f, n ≠ .error f) :
    Res D (cancelCurrent D (State.reserve { x with arrived := x.arrived + 1 }) >>= fun y => subscribe D x.arrived src y)
      fun y => Inv D tidy clean (es ++ [.outer (.next src)]) y ∧
        x.log ++ (x.opened.map .done ++ [.sub x.arrived]) <+: y.log ∧ subsOf y.log = subsOf x.log ++ [x.arrived] := by
  have hu := up_open h (by simp) hc
  have hncp : SubscriberNotification.complete ∉ outsOf x.log := fun hm => by
    have := (h.core.base.compl hm).1
    rw [hu] at this
    cases this
  have hcore : Core D tidy clean 1 (State.reserve { x with arrived := x.arrived + 1 }) :=
    ⟨Concurrent.Base.arrive h.core.base hncp, h.core.queue, by simp [State.reserve, h.core.nonC], by simp [State.reserve, h.core.nonU]⟩
  have hidle : Idle (State.reserve { x with arrived := x.arrived + 1 }) := ⟨h.idle.busy, h.idle.curr⟩
  have hcan : ∃ y, cancelCurrent D (State.reserve { x with arrived := x.arrived + 1 }) = .ok y ∧ Core D tidy clean 1 y ∧
      (Open D y ∨ Left D y) ∧ y.opened = [] ∧ y.log = x.log ++ x.opened.map .done ∧ y.arrived = x.arrived + 1 ∧
      y.up = x.up ∧ y.busy = [] := by
    rcases h.phase with ho | hl | hd
    · obtain ⟨y, hy, h1, h2, h3, h4, h5, h6, h7⟩ := cancel_open hD hcore hidle { ho with } hu
      exact ⟨y, hy, h1, .inl h2, h3, h4, h5, h6, h7⟩
    · obtain ⟨y, hy, h1, h3, h4, h5, h6, h7, h8, h9, h10⟩ := cancel_closed hcore hidle (by exact hl.dest)
      refine ⟨y, hy, h1, .inr ⟨hl.impatient, ?_, ?_, (h10 hl.down).2, ?_, ?_, ?_⟩, h3, h4, h5, h6, h7⟩
      · exact (h10 hl.down).1.trans hl.outer
      · rw [h8]; exact hl.dest
      · rw [h6]; exact hl.err
      · rw [h6]; exact hl.up
      · rw [h4, outsOf_dones]; exact hl.quiet
    · rw [hd.outer] at hxo; cases hxo
  obtain ⟨y, hy, h1, h2, h3, h4, h5, h6, h7⟩ := hcan
  rw [hy]
  have hsub : subsOf y.log = subsOf x.log := by rw [h4, subsOf_dones]
  refine (subscribe_core hD hcl h1 h3 h7 h2 (by rw [h6]; exact hu) h5 (fun b hb => ?_) (fun ht => ?_) src hn).mono
    fun z ⟨g1, g2, g3, g4, g5, g6, g7⟩ => ⟨⟨g1, g2, g3, ?_, ?_, ?_, ?_, ?_⟩, ?_, hsub ▸ g6⟩
  · rw [hsub] at hb
    exact h.core.base.lt b (by simpa using hb)
  · rw [hsub]; exact h.all ht hxo
  · rw [g4, h5, arrivals_snoc_next, h.arrived]
  · intro hz
    rw [g5, h6, hu] at hz
    cases hz
  · intro _ hm
    rw [outerNotes_snoc_outer, List.mem_append, List.mem_singleton] at hm
    rw [g5, h6]
    exact h.upO hxo (hm.resolve_right (by simp))
  · intro ht _
    rw [g6, hsub, h.all ht hxo, g4, h5, List.range_succ]
  · rw [g6, hsub, List.pairwise_append]
    refine ⟨h.sorted, by simp, fun a ha b hb => ?_⟩
    rw [List.mem_singleton.1 hb]
    exact h.core.base.lt a (by simpa using ha)
  · rw [h4, List.append_assoc] at g7
    exact g7

theorem grow_sub {x y : State S I E} {l : List (Log I E)} (h : x.log ++ l <+: y.log)
    (h' : subsOf y.log = subsOf x.log ++ [x.arrived]) : Grow x y :=
  ⟨(List.prefix_append _ _).trans h, fun b hb => by
    rw [h', List.mem_append, List.mem_singleton] at hb
    exact hb.imp id fun hb => Nat.le_of_eq hb.symm⟩

theorem switch_next_inv (hD : Closes D) (hcl : clean → Patient D) (h : Inv D tidy clean es x) (src : Src I E)
    (hc : Conforming (outerNotes (es ++ [.outer (.next src)])))
    (hn : clean → ∀ n ∈ src, n ≠ .unsubscribe ∧ ∀ f, n ≠ .error f) :
    Res D (Switch.next D src x) fun y => Inv D tidy clean (es ++ [.outer (.next src)]) y ∧ Grow x y ∧
      (x.outerClosed = false → x.log ++ (x.opened.map .done ++ [.sub x.arrived]) <+: y.log) := by
  cases hxo : x.outerClosed
  · have := (start_inv hD hcl h src hc hxo hn).bind
      (f := fun y => if D.isClosed y.dest then Switch.unsubscribe D y else pure y)
      (Q := fun y => Inv D tidy clean (es ++ [.outer (.next src)]) y ∧
        x.log ++ (x.opened.map .done ++ [.sub x.arrived]) <+: y.log ∧ subsOf y.log = subsOf x.log ++ [x.arrived])
      fun y ⟨h1, h2, h2'⟩ => by
      rcases h1.phase with ho | hl | hd
      · exact .inl ⟨y, by simp [ho.dest]; rfl, h1, h2, h2'⟩
      · obtain ⟨z, hz, g1, g2, g3, g4, g5, g6⟩ := (switch_ends hD).after h1.core h1.idle hl.outer hl.dest
        refine .inl ⟨z, by rw [if_pos hl.dest]; exact hz, ⟨g1, .inr (.inr g2), g3, g4.trans h1.arrived, ?_, ?_, ?_,
          by rw [g6, subsOf_dones]; exact h1.sorted⟩, ?_, by rw [g6, subsOf_dones]; exact h2'⟩
        · rw [g5]; exact h1.upC
        · intro ho; rw [g2.outer] at ho; cases ho
        · intro _ ho; rw [g2.outer] at ho; cases ho
        · exact h2.trans (g6 ▸ List.prefix_append _ _)
      · exact .inl ⟨y, by rw [if_pos hd.dest]; exact (switch_ends hD).skip y hd.outer, h1, h2, h2'⟩
    have heq : Switch.next D src x = (cancelCurrent D (State.reserve { x with arrived := x.arrived + 1 }) >>= fun y =>
        subscribe D x.arrived src y) >>= fun y => if D.isClosed y.dest then Switch.unsubscribe D y else pure y := by
      have hx' : ¬ x.outerClosed = true := by simp [hxo]
      simp only [Switch.next]
      rw [if_neg hx', bind_assoc]
    rw [heq]
    exact this.mono fun y ⟨h1, h2, h3⟩ => ⟨h1, grow_sub h2 h3, fun _ => h2⟩
  · refine .inl ⟨{ x with arrived := x.arrived + 1 }, ?_, inv_skip_next h src hc (fun _ => hxo), .rfl' rfl, fun h => by cases h⟩
    simp only [Switch.next]
    rw [if_pos hxo]

theorem exhaust_next_inv (hD : Closes D) (hcl : clean → Patient D) (h : Inv D False clean es x) (src : Src I E)
    (hc : Conforming (outerNotes (es ++ [.outer (.next src)])))
    (hn : clean → ∀ n ∈ src, n ≠ .unsubscribe ∧ ∀ f, n ≠ .error f) :
    Res D (Exhaust.next D src x) fun y => Inv D False clean (es ++ [.outer (.next src)]) y ∧ Grow x y ∧
      (x.outerClosed = false → x.opened = [] → x.log ++ [.sub x.arrived] <+: y.log) ∧
      (x.outerClosed = true ∨ x.opened ≠ [] → y.log = x.log) := by
  by_cases hcond : x.outerClosed = false ∧ x.opened = []
  · have heq : Exhaust.next D src x = cancelCurrent D (State.reserve { x with arrived := x.arrived + 1 }) >>= fun y =>
        subscribe D x.arrived src y := by
      simp only [Exhaust.next]
      rw [if_pos]
      simp [hcond, h.core.nonU]
    rw [heq]
    refine (start_inv hD hcl h src hc hcond.1 hn).mono fun y ⟨h1, h2, h3⟩ => ⟨h1, grow_sub h2 h3, fun _ _ => ?_, fun hh => ?_⟩
    · simpa [hcond.2] using h2
    · rcases hh with hh | hh
      · rw [hcond.1] at hh; cases hh
      · exact absurd hcond.2 hh
  · refine .inl ⟨{ x with arrived := x.arrived + 1 }, ?_, inv_skip_next h src hc (fun h => h.elim), .rfl' rfl,
      fun h1 h2 => absurd ⟨h1, h2⟩ hcond, fun _ => rfl⟩
    simp only [Exhaust.next]
    rw [if_neg]
    intro hh
    apply hcond
    simpa [h.core.nonU] using hh

/-! ### Histories -/

inductive Kind where
  | switch
  | exhaust

/-- Either of the operators. -/
def stepOf (k : Kind) (D : Sub S I E) : State S I E → Event I E → Except Fault (State S I E) :=
  match k with
  | .switch => Switch.step D
  | .exhaust => Exhaust.step D

theorem ends (hD : Closes D) : ∀ k : Kind, Ends D (match k with | .switch => Switch.unsubscribe D | .exhaust => Exhaust.unsubscribe D)
  | .switch => switch_ends hD
  | .exhaust => exhaust_ends hD

theorem step_inv (k : Kind) (hD : Closes D) (hcl : clean → Patient D) (h : Inv D (k = .switch) clean es x) (e : Event I E)
    (hc : Conforming (outerNotes (es ++ [e]))) (he : clean → e.Only fun n => n ≠ .unsubscribe ∧ ∀ f, n ≠ .error f)
    (he' : clean → ∀ n, e = .outer n → n ≠ .unsubscribe ∧ ∀ f, n ≠ .error f) :
    Res D (stepOf k D x e) fun y => Inv D (k = .switch) clean (es ++ [e]) y ∧ Grow x y := by
  cases e with
  | inner a n =>
    cases k with
    | switch => exact inner_inv hD hcl h a n he
    | exhaust => exact inner_inv hD hcl h a n he
  | outer n =>
    cases n with
    | next src =>
      cases k with
      | switch => exact (switch_next_inv hD hcl h src hc he).mono fun y h => ⟨h.1, h.2.1⟩
      | exhaust =>
        have hk : (Kind.exhaust = Kind.switch) = False := eq_false (by simp)
        rw [hk] at h ⊢
        exact (exhaust_next_inv hD hcl h src hc he).mono fun y h => ⟨h.1, h.2.1⟩
    | error e =>
      obtain ⟨y, h1, h2, h3, _⟩ := error_inv hD (ends hD k) h e hc (fun hh => (he' hh _ rfl).2 e rfl)
      exact .inl ⟨y, by cases k <;> exact h1, h2, h3⟩
    | complete =>
      obtain ⟨y, h1, h2, h3⟩ := complete_inv hD (ends hD k) h hc
      exact .inl ⟨y, by cases k <;> exact h1, h2, h3⟩
    | unsubscribe =>
      obtain ⟨y, h1, h2, h3, _⟩ := unsubscribe_inv (ends hD k) h (fun hh => (he' hh _ rfl).1 rfl)
      exact .inl ⟨y, by cases k <;> exact h1, h2, h3⟩

theorem run_inv (k : Kind) (hD : Closes D) (hcl : clean → Patient D) {s : S} (hs : D.isClosed s = false)
    (es : List (Event I E)) (hc : Conforming (outerNotes es)) (he : clean → Clean es) :
    Res D (es.foldlM (stepOf k D) { dest := s }) fun y => Inv D (k = .switch) clean es y := by
  induction es using snoc_induction with
  | nil => exact .inl ⟨_, rfl, inv_init s hs⟩
  | snoc es e ih =>
    have hc' : Conforming (outerNotes es) := by
      cases e with
      | inner a n => rw [outerNotes_snoc_inner] at hc; exact hc
      | outer n => rw [outerNotes_snoc_outer, conforming_snoc] at hc; exact hc.1
    have he2 : clean → Clean es := fun hh => by
      refine ⟨fun e' he' => (he hh).1 e' (List.mem_append_left _ he'), fun n hn => (he hh).2 n ?_⟩
      simp only [outerNotes, List.filterMap_append] at hn ⊢
      exact List.mem_append_left _ hn
    rw [List.foldlM_append]
    refine (ih hc' he2).bind fun y hy => ?_
    simp only [List.foldlM_cons, List.foldlM_nil, bind_pure]
    refine (step_inv k hD hcl hy e hc (fun hh => (he hh).1 e (by simp)) (fun hh n hn => ?_)).mono fun z h => h.1
    subst hn
    exact (he hh).2 n (by rw [outerNotes_snoc_outer]; simp)

/-- Going on from a state reached. -/
theorem more_inv (k : Kind) (hD : Closes D) {x : State S I E} (h : Inv D (k = .switch) False es x) (es' : List (Event I E))
    (hc : Conforming (outerNotes (es ++ es'))) :
    Res D (es'.foldlM (stepOf k D) x) fun y => Inv D (k = .switch) False (es ++ es') y ∧ Grow x y := by
  induction es' using snoc_induction with
  | nil => exact .inl ⟨x, rfl, by rwa [List.append_nil], .rfl' rfl⟩
  | snoc es' e ih =>
    rw [← List.append_assoc] at hc ⊢
    have hc' : Conforming (outerNotes (es ++ es')) := by
      cases e with
      | inner a n => rw [outerNotes_snoc_inner] at hc; exact hc
      | outer n => rw [outerNotes_snoc_outer, conforming_snoc] at hc; exact hc.1
    rw [List.foldlM_append]
    refine (ih hc').bind fun y ⟨hy, hg⟩ => ?_
    simp only [List.foldlM_cons, List.foldlM_nil, bind_pure]
    refine (step_inv k hD (fun h => h.elim) hy e hc (fun h => h.elim) (fun h => h.elim)).mono fun z ⟨h1, h2⟩ => ⟨h1, hg.log.trans h2.log, fun b hb => ?_⟩
    rcases h2.subs b hb with hb | hb
    · exact hg.subs b hb
    · right
      rw [hy.arrived] at hb
      have : arrivals es ≤ arrivals (es ++ es') := by simp [arrivals, outerNotes]
      rw [h.arrived]
      omega

theorem run_snoc {step : State S I E → Event I E → Except Fault (State S I E)} {x y z : State S I E} {es : List (Event I E)}
    {e : Event I E} (h : es.foldlM step x = .ok y) (h' : (es ++ [e]).foldlM step x = .ok z) : step y e = .ok z := by
  rw [List.foldlM_append, h] at h'
  simp only [List.foldlM_cons, List.foldlM_nil, bind_pure] at h'
  exact h'

theorem run_snoc' {step : State S I E → Event I E → Except Fault (State S I E)} {x y : State S I E} {es : List (Event I E)}
    {e : Event I E} (h : es.foldlM step x = .ok y) : (es ++ [e]).foldlM step x = step y e := by
  rw [List.foldlM_append, h]
  simp only [List.foldlM_cons, List.foldlM_nil, bind_pure]
  rfl

/-- Once everything has ended nothing happens. -/
theorem dead_step (k : Kind) (h : Dead D x) (e : Event I E) : ∃ y, stepOf k D x e = .ok y ∧ y.log = x.log ∧ Dead D y := by
  cases e with
  | inner a n =>
    refine ⟨x, ?_, rfl, h⟩
    cases k <;> simp [stepOf, Switch.step, Exhaust.step, inner, innerPush, h.none]
  | outer n =>
    cases n with
    | next src =>
      refine ⟨{ x with arrived := x.arrived + 1 }, ?_, rfl, { h with }⟩
      cases k <;> simp [stepOf, Switch.step, Exhaust.step, Switch.next, Exhaust.next, h.outer]
    | error e =>
      refine ⟨x, ?_, rfl, h⟩
      cases k <;> simp [stepOf, Switch.step, Exhaust.step, error, h.outer]
    | complete =>
      refine ⟨x, ?_, rfl, h⟩
      cases k <;> simp [stepOf, Switch.step, Exhaust.step, complete, h.outer]
    | unsubscribe =>
      refine ⟨x, ?_, rfl, h⟩
      cases k <;> simp [stepOf, Switch.step, Exhaust.step, Switch.unsubscribe, Exhaust.unsubscribe, h.outer]

theorem dead_run (k : Kind) (es' : List (Event I E)) : ∀ {x : State S I E} (_ : Dead D x),
    ∃ y, es'.foldlM (stepOf k D) x = .ok y ∧ y.log = x.log := by
  induction es' with
  | nil => exact fun _ => ⟨_, rfl, rfl⟩
  | cons e es' ih =>
    intro x h
    obtain ⟨y, hy, h1, h2⟩ := dead_step k h e
    obtain ⟨z, hz, h3⟩ := ih h2
    refine ⟨z, ?_, h3.trans h1⟩
    rw [List.foldlM_cons, hy]
    exact hz

theorem value_step (k : Kind) (h : Inv D tidy clean es x) (ho : D.isClosed x.dest = false) {a : Nat} (ha : a ∈ live x.log) (v : I)
    (hd : D.isClosed (D.next x.dest v) = false) : ∃ y, stepOf k D x (.inner a (.next v)) = .ok y ∧
      y.log = x.log ++ [.out (some a) (.next v)] ∧ y.dest = D.next x.dest v := by
  have hao : a ∈ x.opened := by rw [h.core.opened]; exact ha
  have hd' : D.isClosed (D.push x.dest (.next v)) = false := hd
  refine ⟨{ x with dest := D.push x.dest (.next v), log := x.log ++ [.out (some a) (.next v)] }, ?_, rfl, rfl⟩
  cases k <;>
  simp only [stepOf, Switch.step, Exhaust.step, inner, innerPush, hao, if_true, innerHandle, innerNext,
    give_open (D := D) (x := { x with busy := a :: x.busy }) ho, Bool.false_eq_true, if_false, hd', bind, Except.bind,
    pure, Except.pure]

theorem ignored_step (k : Kind) (h : Inv D tidy clean es x) {a : Nat} (ha : a ∉ live x.log) (n : SubscriberNotification I E) :
    stepOf k D x (.inner a n) = .ok x := by
  have hao : a ∉ x.opened := by rw [h.core.opened]; exact ha
  cases k <;> simp [stepOf, Switch.step, Exhaust.step, inner, innerPush, hao]

theorem error_step (k : Kind) (hD : Closes D) (h : Inv D tidy clean es x) (ho : D.isClosed x.dest = false) {a : Nat}
    (ha : a ∈ live x.log) (e : E) (hncl : ¬ clean) : ∃ y, stepOf k D x (.inner a (.error e)) = .ok y ∧
      y.log = x.log ++ [.out (some a) (.error e), .done a] ∧ Dead D y ∧ Core D tidy clean 0 y := by
  have hao : a ∈ x.opened := by rw [h.core.opened]; exact ha
  have hO : Open D x := by
    rcases h.phase with h | h | h
    · exact h
    · rw [h.dest] at ho; cases ho
    · rw [h.dest] at ho; cases ho
  obtain ⟨y, hy, h1, h2, h3, h4⟩ := error_open (x := { x with busy := a :: x.busy }) (tidy := tidy) (clean := clean) hD
    ⟨h.core.base, h.core.queue, h.core.nonC, h.core.nonU⟩ { hO with } hao e hncl
  refine ⟨{ y with busy := x.busy }, ?_, h4, { h2 with }, ⟨h1.base, h1.queue, h1.nonC, h1.nonU⟩⟩
  cases k <;>
  simp only [stepOf, Switch.step, Exhaust.step, inner, innerPush, hao, if_true, innerHandle, hy, bind, Except.bind,
    pure, Except.pure]

end Top

end Rx.HigherOrder.Single
