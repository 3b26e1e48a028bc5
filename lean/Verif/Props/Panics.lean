import Verif.Lemmas.Panics

/-!
# C75–C78: callbacks that panic

A callback of the user panics, the caller catches the panic and goes on using what it holds.
-/

namespace Rx

open Panics

variable {S I E : Type}

/-! ## C75: a teardown panics -/

/-- C75. Whatever panics, every teardown handed over has run, was dropped without being run, or is still waiting, and only
one of these: it never runs twice. -/
theorem C75_at_most_once_partial (bad : Nat → Bool) (ops : List SubscriptionOp) (t : Nat) :
    let x := (Data.run bad {} ops).1
    x.ran.count t + x.dropped.count t + x.data.finalizers.count t = (addedTeardowns ops).count t := by
  have := Data.run_conserves bad {} ops t
  simpa [SubscriptionData.default] using this

/-- C75. The subscription is closed by the first call that closes it, even if that call panics. That call runs the
teardowns handed over before, in order, up to and including the first that panics; the rest never run. Teardowns handed
over later all run. -/
theorem C75_which_run_partial (bad : Nat → Bool) (pre post : List SubscriptionOp) (c : SubscriptionOp)
    (hp : wasClosed pre = false) (hc : c = .unsubscribe ∨ c = .drop) :
    let x := (Data.run bad {} (pre ++ c :: post)).1
    x.data.isClosed = true ∧ x.ran = upToPanic bad (addedTeardowns pre) ++ addedTeardowns post ∧
      x.dropped = behindPanic bad (addedTeardowns pre) ∧ x.data.finalizers = [] := by
  have ho := Data.run_open (bad := bad) (x := {}) rfl pre hp
  have hs : ∀ y : Data, y.data.closed = false → (y.step bad c).st =
      ⟨⟨true, []⟩, y.ran ++ upToPanic bad y.data.finalizers, y.dropped ++ behindPanic bad y.data.finalizers⟩ := by
    intro y hy
    rcases hc with rfl | rfl <;>
      simp [Data.step, Data.drop, Data.unsubscribe, SubscriptionData.isClosed, hy, callAll_eq]
  have e : (Data.run bad {} (pre ++ c :: post)).1 =
      (Data.run bad ((Data.run bad {} pre).1.step bad c).st post).1 := by
    rw [Data.run_append]; rfl
  dsimp only
  rw [e, ho, hs _ rfl]
  obtain ⟨h1, h2, h3⟩ := Data.run_closed (bad := bad) (x := ⟨⟨true, []⟩,
    [] ++ upToPanic bad ([] ++ addedTeardowns pre), [] ++ behindPanic bad ([] ++ addedTeardowns pre)⟩) rfl post
  refine ⟨?_, ?_, ?_, ?_⟩
  · exact (congrArg SubscriptionData.closed h1)
  · simpa [SubscriptionData.default] using h3
  · simpa [SubscriptionData.default] using h2
  · exact (congrArg SubscriptionData.finalizers h1)

/-- C75. A call panics exactly if it runs a teardown that panics. -/
theorem C75_who_is_told (bad : Nat → Bool) (ops : List SubscriptionOp) (op : SubscriptionOp) :
    let x := (Data.run bad {} ops).1
    ∃ new, (x.step bad op).st.ran = x.ran ++ new ∧ ((x.step bad op).panicked = true ↔ ∃ t ∈ new, bad t = true) := by
  have hu : ∀ ts : List Nat, (ts.any bad = true ↔ ∃ t ∈ upToPanic bad ts, bad t = true) := by
    intro ts
    induction ts with
    | nil => simp [upToPanic]
    | cons t ts ih =>
      by_cases hb : bad t = true
      · simp [upToPanic, hb]
      · have e : upToPanic bad (t :: ts) = t :: upToPanic bad ts := by simp [upToPanic, hb]
        rw [e, List.any_cons]
        simp [hb, ih]
  intro x
  have hun : ∃ new, (x.unsubscribe bad).st.ran = x.ran ++ new ∧
      ((x.unsubscribe bad).panicked = true ↔ ∃ t ∈ new, bad t = true) := by
    unfold Data.unsubscribe
    split
    · exact ⟨upToPanic bad x.data.finalizers, by simp [callAll_eq], by simpa [callAll_eq] using hu x.data.finalizers⟩
    · exact ⟨[], by simp, by simp⟩
  cases op with
  | unsubscribe => exact hun
  | drop =>
    simp only [Data.step, Data.drop]
    split
    · exact hun
    · exact ⟨[], by simp, by simp⟩
  | add t =>
    simp only [Data.step, Data.addTeardown]
    split
    · exact ⟨t.execute, rfl, by simp⟩
    · cases t with
      | none => exact ⟨[], by simp [Teardown.take], by simp [Teardown.take]⟩
      | some f => exact ⟨[], by simp [Teardown.take], by simp [Teardown.take]⟩

/-- C75. The full property fails: of three teardowns the second panics, and the third never runs, not even if the
subscription is unsubscribed again and dropped. -/
theorem C75_counterexample :
    let x := (Data.run (· == 2) {} [.add (some 1), .add (some 2), .add (some 3), .unsubscribe, .unsubscribe, .drop]).1
    x.ran = [1, 2] ∧ x.dropped = [3] ∧ x.data.isClosed = true := by decide

example : wasClosed [.add (some 1), .add (some 2), .add (some 3)] = false := rfl

example : (Data.run (· == 2) {} [.add (some 1), .add (some 2), .add (some 3), .unsubscribe, .add (some 4)]).1.ran = [1, 2, 4] ∧
    (Data.run (· == 2) {} [.add (some 1), .add (some 2), .add (some 3), .unsubscribe, .add (some 4)]).2 =
      [false, false, false, true, false] := by decide

/-! ## C76: a subscriber behind a lock panics -/

/-- C76. Until something panics the lock is not noticed: every call reaches the destination. -/
theorem C76_transparent (D : Fragile S I E) (bad : Nat → Bool) (s : S) (cs : List (Call I E))
    (h : (Lock.run D bad ⟨s, false, true, [], []⟩ (cs.map .call)).poisoned = false) :
    (Lock.run D bad ⟨s, false, true, [], []⟩ (cs.map .call)).reached = cs ∧
      (Lock.run D bad ⟨s, false, true, [], []⟩ (cs.map .call)).dest = cs.foldl (fun s c => (D.call s c).st) s := by
  rw [Lock.run_clean rfl rfl cs h]
  exact ⟨by simp, rfl⟩

/-- C76. The lock is poisoned by the destination's panics and by nothing else. -/
theorem C76_poisoned_by_panics (D : Fragile S I E) (bad : Nat → Bool) (x : Lock S I E) (hp : x.poisoned = false)
    (ha : x.alive = true) (c : Call I E) :
    (x.step D bad (.call c)).st.poisoned = (D.call x.dest c).panicked ∧
      (x.step D bad (.call c)).panicked = (D.call x.dest c).panicked := by
  rw [Lock.step_call hp ha]
  exact ⟨rfl, rfl⟩

/-- C76. A call panics only if the destination does, which then was called last, or a teardown that was handed over. -/
theorem C76_who_is_told (D : Fragile S I E) (bad : Nat → Bool) (x : Lock S I E) (op : Lock.Op I E)
    (h : (x.step D bad op).panicked = true) :
    (∃ c, (x.step D bad op).st.reached = x.reached ++ [c] ∧ (D.call x.dest c).panicked = true ∧
        (x.step D bad op).st.dest = (D.call x.dest c).st) ∨
      ∃ t, op = .call (.addTeardown t) ∧ t.execute.any bad = true ∧ (x.step D bad op).st.ran = x.ran ++ t.execute := by
  have hg : ∀ (y : Lock S I E) c, y.give D c = ⟨{ y with dest := (D.call y.dest c).st, poisoned := y.poisoned || (D.call y.dest c).panicked, reached := y.reached ++ [c] }, (D.call y.dest c).panicked⟩ := by
    intro y c; cases c <;> rfl
  cases op with
  | free => cases h
  | call c =>
    cases c with
    | note n =>
      left
      simp only [Lock.step, Lock.push] at h ⊢
      split at h
      · cases h
      · rename_i ha
        rw [if_neg ha]
        cases n <;> dsimp only at h ⊢
        case unsubscribe => rw [hg] at h ⊢; exact ⟨_, rfl, h, rfl⟩
        all_goals
          split at h <;> rename_i hp
          · rw [if_pos hp]
            rw [hg] at h ⊢
            exact ⟨_, rfl, h, rfl⟩
          · rw [if_neg hp]
            rw [hg] at h ⊢
            exact ⟨_, rfl, h, rfl⟩
    | addTeardown t =>
      simp only [Lock.step, Lock.addTeardown] at h ⊢
      split at h
      · rename_i ha
        rw [if_pos ha]
        exact .inr ⟨t, rfl, h, rfl⟩
      · rename_i ha
        rw [if_neg ha]
        split at h <;> rename_i hp
        · rw [if_pos hp]
          cases hb : t.execute.any bad with
          | true =>
            simp only [Lock.execute, Out.andThen, hb, if_true] at h ⊢
            exact .inr ⟨t, rfl, hb, rfl⟩
          | false =>
            simp only [Lock.execute, Out.andThen, hb, Bool.false_eq_true, if_false] at h ⊢
            rw [hg] at h ⊢
            exact .inl ⟨_, rfl, h, rfl⟩
        · rw [if_neg hp]
          rw [hg] at h ⊢
          exact .inl ⟨_, rfl, h, rfl⟩

/-- C76. After a panic nothing but `unsubscribe` reaches the destination, and every teardown handed over runs at once,
once, in order. -/
theorem C76_after_a_panic (D : Fragile S I E) (bad : Nat → Bool) (x : Lock S I E) (hp : x.poisoned = true)
    (ops : List (Lock.Op I E)) :
    (x.run D bad ops).ran = x.ran ++ handedOver ops ∧
      ∃ k, (x.run D bad ops).reached = x.reached ++ List.replicate k (.note .unsubscribe) :=
  (Lock.run_poisoned hp ops).2

/-- C76. After a panic any one notification closes the destination, if unsubscribing closes it. -/
theorem C76_released (D : Fragile S I E) (bad : Nat → Bool) (x : Lock S I E) (hp : x.poisoned = true)
    (hD : ∀ s, D.isClosed (D.push s .unsubscribe).st = true) (n : SubscriberNotification I E) :
    (x.step D bad (.call (.note n))).st.isClosed D = true := by
  simp only [Lock.step, Lock.push]
  cases ha : x.alive with
  | false => simp [Lock.isClosed, ha]
  | true => cases n <;> simp [hp, Lock.give, Lock.isClosed, hD]

/-- C76. So does a teardown that is handed over, unless it panics itself. -/
theorem C76_released_by_teardown (D : Fragile S I E) (bad : Nat → Bool) (x : Lock S I E) (hp : x.poisoned = true)
    (hD : ∀ s, D.isClosed (D.push s .unsubscribe).st = true) (t : Teardown) (ht : t.execute.any bad = false) :
    (x.step D bad (.call (.addTeardown t))).st.isClosed D = true := by
  simp only [Lock.step, Lock.addTeardown]
  cases ha : x.alive with
  | false => simp [Lock.isClosed, Lock.execute, ha]
  | true => simp [hp, Lock.execute, ht, Out.andThen, Lock.give, Lock.isClosed, hD]

/-- C76. A weak reference whose destination is gone is closed, reaches nothing, and runs every teardown at once. -/
theorem C76_gone (D : Fragile S I E) (bad : Nat → Bool) (x : Lock S I E) (pre post : List (Lock.Op I E)) :
    (x.run D bad (pre ++ .free :: post)).isClosed D = true ∧
      (x.run D bad (pre ++ .free :: post)).reached = (x.run D bad pre).reached ∧
      (x.run D bad (pre ++ .free :: post)).dest = (x.run D bad pre).dest ∧
      (x.run D bad (pre ++ .free :: post)).ran = (x.run D bad pre).ran ++ handedOver post := by
  have e : x.run D bad (pre ++ .free :: post) = Lock.run D bad { x.run D bad pre with alive := false } post := by
    rw [Lock.run_append]; rfl
  rw [e, Lock.run_gone rfl]
  exact ⟨by simp [Lock.isClosed], rfl, rfl, rfl⟩

/-- Panics on 7; the values it heard, and whether it is closed. -/
def touchyAbout7 : Fragile (List Nat × Bool) Nat Unit :=
  ⟨fun s n => match n with
    | .next v => ⟨(s.1 ++ [v], s.2), v == 7⟩
    | _ => ⟨(s.1, true), false⟩, fun s _ => ⟨s, false⟩, fun s => s.2⟩

example : (Lock.step touchyAbout7 (fun _ => false) ⟨([], false), false, true, [], []⟩ (.call (.note (.next 7)))).panicked = true ∧
    (Lock.step touchyAbout7 (· == 2) ⟨([], false), true, true, [], []⟩ (.call (.addTeardown (some 2)))).panicked = true := ⟨rfl, rfl⟩

example : ∀ s, touchyAbout7.isClosed (touchyAbout7.push s .unsubscribe).st = true := fun _ => rfl

example : (Lock.run touchyAbout7 (fun _ => false) ⟨([], false), false, true, [], []⟩
    [.call (.note (.next 1)), .call (.note (.next 7))]).poisoned = true := rfl

example : (Lock.run touchyAbout7 (fun _ => false) ⟨([], false), false, true, [], []⟩
    [.call (.note (.next 1)), .call (.note (.next 7)), .call (.note (.next 2)), .call (.note (.next 3))]).dest = ([1, 7], true) := rfl

example : (Lock.run touchyAbout7 (fun _ => false) ⟨([], false), false, true, [], []⟩
    ([.note (.next 1), .note (.next 2)].map .call)).poisoned = false := rfl

/-! ## C77: the destination of a `SharedSubscriber` panics -/

/-- C77. As long as nothing panics, it is what C25 is about. -/
theorem C77_agrees (R : Touchy S I E) (bad : Nat → Bool) (s : S) (ns : List (SubscriberNotification I E))
    (h : (Panics.Shared.run R bad ⟨s, .default, false, []⟩ (ns.map .note)).poisoned = false) :
    Rx.Shared.run R.steady (Rx.Shared.new s) ns =
      some ((Panics.Shared.run R bad ⟨s, .default, false, []⟩ (ns.map .note)).dest,
        (Panics.Shared.run R bad ⟨s, .default, false, []⟩ (ns.map .note)).deferred) :=
  Panics.Shared.run_clean rfl ns h

/-- C77. What the destination has observed, panic or not, is the beginning of what it would have observed had it not
panicked. `obs` is anything about the destination that only grows. -/
theorem C77_beginning {α : Type} (R : Touchy S I E) (bad : Nat → Bool) (s : S) (obs : S → List α)
    (hobs : ∀ s n, (R.push s n).Leaves fun t => obs s <+: obs t) (ns : List (SubscriberNotification I E))
    (y : S × Deferred I E) (h : Rx.Shared.run R.steady (Rx.Shared.new s) ns = some y) :
    obs (Panics.Shared.run R bad ⟨s, .default, false, []⟩ (ns.map .note)).dest <+: obs y.1 :=
  Panics.Shared.run_prefix hobs rfl ns y h

/-- C77. After a panic no notification reaches the destination any more, `unsubscribe` included; they do not panic; and
what is asked is answered from the calls made alone. -/
theorem C77_after_a_panic_partial (R : Touchy S I E) (bad : Nat → Bool) (x : Panics.Shared.State S I E) (h : x.poisoned = true)
    (ns : List (SubscriberNotification I E)) :
    (Panics.Shared.run R bad x (ns.map .note)).dest = x.dest ∧
      (∀ n, (Panics.Shared.call R (Panics.Shared.run R bad x (ns.map .note)) n).panicked = false) ∧
      (Panics.Shared.run R bad x (ns.map .note)).isClosed R =
        (x.deferred.isClosed || ns.any fun n => n.isClosing) := by
  rw [Panics.Shared.run_dead h]
  refine ⟨rfl, fun n => by rw [Panics.Shared.call_dead (by exact h)], ?_⟩
  have hc : ∀ (d : Deferred I E), (ns.foldl Deferred.call d).isClosed = (d.isClosed || ns.any fun n => n.isClosing) := by
    induction ns with
    | nil => simp
    | cons n ns ih =>
      intro d
      rw [List.foldl_cons, ih, List.any_cons, ← Bool.or_assoc]
      congr 1
      obtain ⟨q, c, u, f, e⟩ := d
      cases n <;> cases c <;> cases u <;> cases f <;> cases e <;> rfl
  simp [Panics.Shared.State.isClosed, h, hc]

/-- C77. Values sent after a panic are all kept, for ever. -/
theorem C77_piles_up (R : Touchy S I E) (bad : Nat → Bool) (x : Panics.Shared.State S I E) (h : x.poisoned = true)
    (ho : x.deferred.isClosed = false) (vs : List I) :
    (Panics.Shared.run R bad x ((vs.map SubscriberNotification.next).map .note)).deferred.queue =
      x.deferred.queue ++ vs.map .next := by
  rw [Panics.Shared.run_dead h]
  have : ∀ d : Deferred I E, d.isClosed = false →
      (vs.map SubscriberNotification.next).foldl Deferred.call d = { d with queue := d.queue ++ vs.map .next } := by
    induction vs with
    | nil => intro d _; simp
    | cons v vs ih =>
      intro d hd
      have hf : d.closedFlag = false := by
        cases hf : d.closedFlag with
        | false => rfl
        | true => simp [Deferred.isClosed, hf] at hd
      have e : d.call (.next v) = { d with queue := d.queue ++ [.next v] } := by
        simp [Deferred.call, hd, Deferred.defer, hf]
      rw [List.map_cons, List.foldl_cons, e, ih _ (by exact hd)]
      simp
  rw [this _ ho]

/-- C77. Only handing over a teardown still helps: it runs, and the destination is unsubscribed, unless the teardown
panics. -/
theorem C77_add_teardown (R : Touchy S I E) (bad : Nat → Bool) (x : Panics.Shared.State S I E) (h : x.poisoned = true) (t : Teardown)
    (ht : t.execute.any bad = false) :
    (Panics.Shared.step R bad x (.addTeardown t)).st.ran = x.ran ++ t.execute ∧
      (Panics.Shared.step R bad x (.addTeardown t)).st.dest =
        (x.deferred.runLocked (R.steady.push x.dest .unsubscribe)).1 := by
  have hst := Panics.Shared.runLocked_st x.deferred (R.push x.dest .unsubscribe)
  simp only [Panics.Shared.step, Panics.Shared.addTeardown, h, if_true, ht, Out.andThen, Bool.false_eq_true, if_false, Panics.Shared.State.locked]
  exact ⟨trivial, congrArg Prod.fst hst⟩

/-- Panics on 7, does not call back. -/
def touchySubscriber : Touchy (List Nat × Bool) Nat Unit :=
  ⟨fun s n => match n with
    | .next v => if v = 7 then .panic (s.1 ++ [v], s.2) else .done (s.1 ++ [v], s.2)
    | _ => .done (s.1, true), fun s _ => .done s, fun s => s.2⟩

/-- C77. The full property fails: the destination panics on 7; it is unsubscribed, and is still open. With the plain lock
of C76 it is closed. -/
theorem C77_counterexample :
    (Panics.Shared.run touchySubscriber (fun _ => false) ⟨([], false), .default, false, []⟩
      [.note (.next 1), .note (.next 7), .note (.next 2), .note .unsubscribe]).dest = ([1, 7], false) ∧
    (Lock.run touchyAbout7 (fun _ => false) ⟨([], false), false, true, [], []⟩
      ([.note (.next 1), .note (.next 7), .note (.next 2), .note .unsubscribe].map .call)).dest = ([1, 7], true) := by
  decide

example : (Panics.Shared.run touchySubscriber (fun _ => false) ⟨([], false), .default, false, []⟩
    [.note (.next 1), .note (.next 7)]).poisoned = true := by decide

example : (Panics.Shared.run touchySubscriber (fun _ => false) ⟨([], false), .default, false, []⟩
    ([.next 1, .next 2, .complete].map .note)).poisoned = false := by decide

example : ∀ s n, (touchySubscriber.push s n).Leaves fun t => s.1 <+: t.1 := by
  intro s n
  cases n with
  | next v =>
    simp only [touchySubscriber]
    split <;> exact List.prefix_append _ _
  | _ => exact List.prefix_rfl

/-! ## C78: a subscriber of a `PublishSubject` panics -/

/-- C78. As long as nothing panics, it is what C27 and C28 are about. -/
theorem C78_agrees (D : Fragile S I E) (ord : Nat → List Nat → List Nat) (s : S) (ops : List (Publish.Op S I E))
    (h : ∀ b ∈ (Subject.run D ord (Subject.init s) ops).2, b = false) :
    Publish.run D.steady ord (.init s) ops = .ok (Subject.run D ord (Subject.init s) ops).1.pub :=
  (Subject.run_ok ⟨rfl, rfl⟩ ops h).1

/-- C78. A call panics only if a subscriber does: the one that was given a notification last, in that call. -/
theorem C78_who_is_told (D : Fragile S I E) (ord : Nat → List Nat → List Nat) (x : Subject.State S I E) (op : Publish.Op S I E)
    (h : (Subject.step D ord x op).panicked = true) : Blames D (Subject.step D ord x op).st.pub := by
  cases op with
  | note n => exact Subject.note_blames D ord x n h
  | subscribe s =>
    simp only [Subject.step, Subject.subscribe, Out.andThen] at h ⊢
    split
    · rename_i hp
      exact Subject.greet_blames D _ s hp
    · rename_i hp
      rw [if_neg hp] at h
      split at h
      · cases h
      · rename_i hc
        rw [if_neg hc]
        split at h
        · cases h
        · rename_i hq
          rw [if_neg hq]
          exact Subject.locked_blames D ord _ _ _ h
  | cancel i =>
    simp only [Subject.step, Subject.cancel] at h ⊢
    split at h
    · cases h
    · rename_i h1
      rw [if_neg h1]
      split at h
      · cases h
      · rename_i h2
        rw [if_neg h2]
        simp only [Out.andThen] at h ⊢
        split at h
        · rename_i h3
          rw [if_pos h3]
          exact Subject.locked_blames D ord _ _ _ h3
        · cases h

/-- C78. When a subscriber panics on a notification, those that are asked before it have been given the notification, and
those behind it have not: they miss it. -/
theorem C78_who_misses_it_partial (D : Fragile S I E) (ord : Nat → List Nat → List Nat) (hord : ∀ c l, (ord c l).Perm l) (s : S)
    (ops : List (Publish.Op S I E)) (n : SubscriberNotification I E)
    (hp : (Subject.run D ord (Subject.init s) ops).1.poisoned = none)
    (h : (Subject.step D ord (Subject.run D ord (Subject.init s) ops).1 (.note n)).panicked = true) :
    let x := (Subject.run D ord (Subject.init s) ops).1.pub
    let y := (Subject.step D ord (Subject.run D ord (Subject.init s) ops).1 (.note n)).st
    ∃ a j b, ord x.calls.length x.members = a ++ j :: b ∧ y.poisoned = some j ∧
      D.isClosed (x.dest j) = false ∧ (D.push (x.dest j) n).panicked = true ∧
      (∀ i ∈ a ++ [j], D.isClosed (x.dest i) = false → y.pub.dest i = (D.push (x.dest i) n).st) ∧
      (∀ i ∈ b, y.pub.dest i = x.dest i) ∧
      y.pub.log = x.log ++ ((a ++ [j]).filter fun i => !D.isClosed (x.dest i)).map fun i => (x.calls.length, i, n) := by
  have hnd := Subject.run_nodup (D := D) (ord := ord) (x := Subject.init s) List.nodup_nil ops
  generalize (Subject.run D ord (Subject.init s) ops).1 = w at *
  obtain ⟨p, k⟩ := w
  simp only at hp hnd
  subst hp
  have hnow : ∀ c, (p.record c).now = p.calls.length := by
    intro c; simp [Publish.State.record, Publish.State.now]
  have main : ∀ z : Publish.State S I E, z.dest = p.dest → z.log = p.log →
      (Subject.locked (Subject.giveAll D p.calls.length n (ord p.calls.length p.members) z)).panicked = true →
      ∃ a j b, ord p.calls.length p.members = a ++ j :: b ∧
        (Subject.locked (Subject.giveAll D p.calls.length n (ord p.calls.length p.members) z)).st.poisoned = some j ∧
        D.isClosed (p.dest j) = false ∧ (D.push (p.dest j) n).panicked = true ∧
        (∀ i ∈ a ++ [j], D.isClosed (p.dest i) = false →
          (Subject.locked (Subject.giveAll D p.calls.length n (ord p.calls.length p.members) z)).st.pub.dest i =
            (D.push (p.dest i) n).st) ∧
        (∀ i ∈ b, (Subject.locked (Subject.giveAll D p.calls.length n (ord p.calls.length p.members) z)).st.pub.dest i =
          p.dest i) ∧
        (Subject.locked (Subject.giveAll D p.calls.length n (ord p.calls.length p.members) z)).st.pub.log =
          p.log ++ ((a ++ [j]).filter fun i => !D.isClosed (p.dest i)).map fun i => (p.calls.length, i, n) := by
    intro z hd hl hz
    obtain ⟨j, hj⟩ := Option.isSome_iff_exists.1 (show (Subject.giveAll D p.calls.length n
      (ord p.calls.length p.members) z).2.isSome = true from hz)
    have hnd' : (ord p.calls.length p.members).Nodup := (hord _ _).nodup_iff.2 hnd
    obtain ⟨a, b, h1, h2, h3, -, h5, h6⟩ := Subject.giveAll_panic _ n _ hnd' z j hj
    rw [hd] at h2 h3 h5 h6
    rw [hl] at h5
    refine ⟨a, j, b, h1, hj, h2, h3, ?_, ?_, h5⟩
    · intro i hi ho
      exact (h6 i).trans (if_pos ⟨hi, ho⟩)
    · intro i hi
      refine (h6 i).trans (if_neg ?_)
      rintro ⟨hm, -⟩
      rw [h1, show a ++ j :: b = (a ++ [j]) ++ b by simp, List.nodup_append] at hnd'
      exact hnd'.2.2 i hm i hi rfl
  cases n with
  | next v =>
    simp only [Subject.step, Subject.note, Option.isSome_none, Bool.false_eq_true, if_false, hnow] at h ⊢
    split at h
    · simp at h
    · rename_i hc
      rw [if_neg hc]
      exact main _ rfl rfl h
  | error e =>
    simp only [Subject.step, Subject.note, Option.isSome_none, Bool.false_eq_true, if_false, hnow] at h ⊢
    split at h
    · simp at h
    · rename_i hc
      rw [if_neg hc]
      exact main { p.record (.note (.error e)) with observedError := some e } rfl rfl h
  | complete =>
    simp only [Subject.step, Subject.note, Option.isSome_none, Bool.false_eq_true, if_false, hnow] at h ⊢
    split at h
    · simp at h
    · rename_i hc
      rw [if_neg hc]
      exact main { p.record (.note .complete) with completed := true } rfl rfl h
  | unsubscribe =>
    simp only [Subject.step, Subject.note, Option.isSome_none, Bool.false_eq_true, if_false, hnow] at h ⊢
    split at h
    · simp at h
    · rename_i hc
      rw [if_neg hc]
      exact main { p.record (.note .unsubscribe) with unsubscribed := true, closedFlag := true, members := [] } rfl rfl h

/-- C78. After that, whatever is called, no subscriber is given anything any more, nobody is removed, and what is called
is kept. -/
theorem C78_after_a_panic_partial (D : Fragile S I E) (ord : Nat → List Nat → List Nat) (x : Subject.State S I E)
    (h : x.poisoned.isSome = true) (ops : List (Publish.Op S I E)) :
    let y := (Subject.run D ord x ops).1
    (∀ i < x.pub.count, y.pub.dest i = x.pub.dest i ∧ givenTo i y.pub.log = givenTo i x.pub.log) ∧
      y.pub.members = x.pub.members ∧ x.pub.queue <+: y.pub.queue := by
  have hs := Subject.run_dead (D := D) (ord := ord) h ops
  exact ⟨fun i hi => ⟨hs.dest i hi, hs.given i hi⟩, hs.members, hs.queue⟩

/-- C78. Who subscribes after that, while the subject says it is open, is never given anything. -/
theorem C78_late_partial (D : Fragile S I E) (ord : Nat → List Nat → List Nat) (x : Subject.State S I E)
    (h : x.poisoned.isSome = true) (ho : x.pub.isClosed = false) (s : S) (ops : List (Publish.Op S I E)) :
    (Subject.run D ord x (.subscribe s :: ops)).1.pub.dest x.pub.count = s := by
  have ho' : (x.pub.record (.subscribe x.pub.count)).isClosed = false := ho
  have ht : Subject.told (x.pub.record (.subscribe x.pub.count)) = [] := by
    simp only [Publish.State.isClosed, Bool.or_eq_false_iff] at ho'
    obtain ⟨⟨⟨-, hc⟩, -⟩, he⟩ := ho'
    cases hoe : (x.pub.record (.subscribe x.pub.count)).observedError with
    | some e => rw [hoe] at he; cases he
    | none => simp [Subject.told, hoe, hc]
  have hg : Subject.greet D (x.pub.record (.subscribe x.pub.count)) s =
      ⟨Publish.State.setDest { x.pub.record (.subscribe x.pub.count) with count := x.pub.count + 1 } x.pub.count s, false⟩ := by
    have ho2 : ∀ l, Publish.State.isClosed { x.pub.record (.subscribe x.pub.count) with
        count := x.pub.count + 1, log := l } = false := fun _ => ho
    simp only [Subject.greet, ht]
    simp [Publish.State.record, Publish.State.isClosed] at ho2 ⊢
    simp [ho2]
  have hs := Subject.step_dead (D := D) (ord := ord) h (.subscribe s)
  have hstep : (Subject.step D ord x (.subscribe s)).st.pub.dest x.pub.count = s ∧
      (Subject.step D ord x (.subscribe s)).st.pub.count = x.pub.count + 1 := by
    have hoc : (Publish.State.setDest { x.pub.record (.subscribe x.pub.count) with count := x.pub.count + 1 }
        x.pub.count s).isClosed = false := ho
    simp only [Subject.step, Subject.subscribe, hg, Out.andThen, Bool.false_eq_true, if_false, hoc, h, if_true]
    obtain ⟨-, d2, d3, -, -⟩ := Subject.defer_frame
      { Publish.State.setDest { x.pub.record (.subscribe x.pub.count) with count := x.pub.count + 1 } x.pub.count s with
        held := fun k => if k = x.pub.count then true else x.pub.held k } (.add x.pub.count)
    exact ⟨(congrFun d3 _).trans (by simp [Publish.State.setDest]), d2⟩
  have hr := Subject.run_dead (D := D) (ord := ord) (x := (Subject.step D ord x (.subscribe s)).st)
    (by rw [hs.poisoned]; exact h) ops
  exact (hr.dest x.pub.count (by rw [hstep.2]; exact Nat.lt_succ_self _)).trans hstep.1

/-- Two subscribers; the first panics on 7. -/
def firstPanics : List (Publish.Op (List Nat × Bool) Nat Unit) :=
  [.subscribe ([], false), .subscribe ([0], false), .note (.next 1), .note (.next 7)]

/-- C78. The full property fails: a subscriber panics on 7; the other one misses it and all that follows, is told neither
that the subject completed nor that it was unsubscribed, and cancelling its subscription does not close it. -/
theorem C78_counterexample :
    let x := (Subject.run touchyAbout7 (fun _ l => l) (Subject.init ([], false))
      (firstPanics ++ [.note (.next 2), .cancel 1, .note .complete, .note .unsubscribe])).1
    x.pub.dest 1 = ([0, 1], false) ∧ x.pub.dest 0 = ([1, 7], false) ∧ x.pub.isClosed = true ∧ x.pub.members = [0, 1] := by
  decide

example : (Subject.run touchyAbout7 (fun _ l => l) (Subject.init ([], false)) firstPanics).1.poisoned = some 0 ∧
    (Subject.run touchyAbout7 (fun _ l => l) (Subject.init ([], false)) firstPanics).1.pub.isClosed = false ∧
    (Subject.run touchyAbout7 (fun _ l => l) (Subject.init ([], false)) firstPanics).2 = [false, false, false, true] := by
  decide

example : ∀ b ∈ (Subject.run touchyAbout7 (fun _ l => l) (Subject.init ([], false))
    [.subscribe ([], false), .note (.next 1), .note .complete]).2, b = false := by decide

end Rx
