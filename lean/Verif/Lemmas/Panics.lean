import Verif.Spec.Panics
import Verif.Props.Foundations

/-!
# Lemmas about panics
-/

namespace Rx.Panics

variable {S I E : Type}

/-! ## Subscriptions -/

theorem callAll_eq (bad : Nat → Bool) (ts : List Nat) :
    callAll bad ts = (upToPanic bad ts, behindPanic bad ts, ts.any bad) := by
  induction ts with
  | nil => rfl
  | cons t ts ih =>
    unfold callAll
    split
    · rename_i h
      simp [upToPanic, behindPanic, h]
    · rename_i h
      simp only [ih]
      simp only [upToPanic, behindPanic, List.takeWhile_cons, List.dropWhile_cons, List.any_cons]
      simp [h]

theorem upTo_behind (bad : Nat → Bool) (ts : List Nat) : upToPanic bad ts ++ behindPanic bad ts = ts := by
  unfold upToPanic behindPanic
  rw [List.append_assoc, List.take_append_drop, List.takeWhile_append_dropWhile]

theorem Data.step_closed {bad : Nat → Bool} {x : Data} (h : x.data.closed = true) (op : SubscriptionOp) :
    (x.step bad op).st.data = x.data ∧ (x.step bad op).st.dropped = x.dropped ∧
      (x.step bad op).st.ran = x.ran ++ (match op with | .add t => t.toList | _ => []) ∧
      (x.step bad op).panicked = (match op with | .add t => t.toList.any bad | _ => false) := by
  cases op with
  | add t => simp [Data.step, Data.addTeardown, SubscriptionData.isClosed, h, Teardown.execute]
  | unsubscribe => simp [Data.step, Data.unsubscribe, SubscriptionData.isClosed, h]
  | drop => simp [Data.step, Data.drop, SubscriptionData.isClosed, h]

theorem Data.run_append (bad : Nat → Bool) (x : Data) (a b : List SubscriptionOp) :
    x.run bad (a ++ b) = (((x.run bad a).1.run bad b).1, (x.run bad a).2 ++ ((x.run bad a).1.run bad b).2) := by
  induction a generalizing x with
  | nil => rfl
  | cons op a ih => simp [Data.run, ih]

theorem Data.run_closed {bad : Nat → Bool} {x : Data} (h : x.data.closed = true) (ops : List SubscriptionOp) :
    (x.run bad ops).1.data = x.data ∧ (x.run bad ops).1.dropped = x.dropped ∧
      (x.run bad ops).1.ran = x.ran ++ addedTeardowns ops := by
  induction ops generalizing x with
  | nil => simp [Data.run, addedTeardowns]
  | cons op ops ih =>
    obtain ⟨h1, h2, h3, -⟩ := Data.step_closed (bad := bad) h op
    obtain ⟨i1, i2, i3⟩ := ih (x := (x.step bad op).st) (by rw [h1]; exact h)
    refine ⟨i1.trans h1, i2.trans h2, i3.trans ?_⟩
    rw [h3]
    cases op with
    | add t => cases t <;> simp [addedTeardowns]
    | unsubscribe => simp [addedTeardowns]
    | drop => simp [addedTeardowns]

theorem Data.run_open {bad : Nat → Bool} {x : Data} (h : x.data.closed = false) (ops : List SubscriptionOp)
    (ho : wasClosed ops = false) :
    x.run bad ops = ({ x with data := ⟨false, x.data.finalizers ++ addedTeardowns ops⟩ }, ops.map fun _ => false) := by
  induction ops generalizing x with
  | nil => obtain ⟨⟨c, f⟩, r, d⟩ := x; simp_all [Data.run, addedTeardowns]
  | cons op ops ih =>
    cases op with
    | unsubscribe => simp [wasClosed] at ho
    | drop => simp [wasClosed] at ho
    | add t =>
      have ho' : wasClosed ops = false := by simpa [wasClosed] using ho
      cases t with
      | none =>
        have hs : x.step bad (.add none) = ⟨x, false⟩ := by
          simp [Data.step, Data.addTeardown, SubscriptionData.isClosed, h, Teardown.take]
        simp only [Data.run, hs, ih h ho']
        simp [addedTeardowns]
      | some f =>
        have hs : x.step bad (.add (some f)) = ⟨{ x with data := { x.data with finalizers := x.data.finalizers ++ [f] } }, false⟩ := by
          simp [Data.step, Data.addTeardown, SubscriptionData.isClosed, h, Teardown.take]
        simp only [Data.run, hs]
        rw [ih (by exact h) ho']
        simp [addedTeardowns]

theorem Data.step_conserves (bad : Nat → Bool) (x : Data) (op : SubscriptionOp) (t : Nat) :
    (x.step bad op).st.ran.count t + (x.step bad op).st.dropped.count t + (x.step bad op).st.data.finalizers.count t =
      x.ran.count t + x.dropped.count t + x.data.finalizers.count t + (addedTeardowns [op]).count t := by
  have hu : (x.unsubscribe bad).st.ran.count t + (x.unsubscribe bad).st.dropped.count t +
      (x.unsubscribe bad).st.data.finalizers.count t =
      x.ran.count t + x.dropped.count t + x.data.finalizers.count t := by
    unfold Data.unsubscribe
    split
    · have := congrArg (List.count t) (upTo_behind bad x.data.finalizers)
      rw [List.count_append] at this
      simp only [callAll_eq, List.count_append, List.count_nil]
      omega
    · rfl
  cases op with
  | unsubscribe => simpa [Data.step, addedTeardowns] using hu
  | drop =>
    simp only [Data.step, Data.drop]
    split
    · simpa [addedTeardowns] using hu
    · simp [addedTeardowns]
  | add f =>
    simp only [Data.step, Data.addTeardown]
    split
    · cases f <;> simp [addedTeardowns, Teardown.execute, List.count_append]
      omega
    · cases f <;> simp [addedTeardowns, Teardown.take, List.count_append]
      omega

theorem Data.run_conserves (bad : Nat → Bool) (x : Data) (ops : List SubscriptionOp) (t : Nat) :
    (x.run bad ops).1.ran.count t + (x.run bad ops).1.dropped.count t + (x.run bad ops).1.data.finalizers.count t =
      x.ran.count t + x.dropped.count t + x.data.finalizers.count t + (addedTeardowns ops).count t := by
  induction ops generalizing x with
  | nil => simp [Data.run, addedTeardowns]
  | cons op ops ih =>
    simp only [Data.run]
    rw [ih, Data.step_conserves]
    have : addedTeardowns (op :: ops) = addedTeardowns [op] ++ addedTeardowns ops := by
      simp only [addedTeardowns, ← List.filterMap_append]; rfl
    rw [this, List.count_append]
    omega

/-! ## Locks -/

namespace Lock

theorem run_append (D : Fragile S I E) (bad : Nat → Bool) (x : Lock S I E) (a b : List (Op I E)) :
    x.run D bad (a ++ b) = (x.run D bad a).run D bad b := by simp [run]

theorem step_poisoned {D : Fragile S I E} {bad : Nat → Bool} {x : Lock S I E} (h : x.poisoned = true) (op : Op I E) :
    (x.step D bad op).st.poisoned = true ∧ (x.step D bad op).st.ran = x.ran ++ handedOver [op] ∧
      ((x.step D bad op).st.reached = x.reached ∨ (x.step D bad op).st.reached = x.reached ++ [.note .unsubscribe]) := by
  cases op with
  | free => simp [step, h, handedOver]
  | call c =>
    cases c with
    | note n =>
      simp only [step, push]
      split
      · simp [h, handedOver]
      · cases n <;> simp [h, give, handedOver]
    | addTeardown t =>
      simp only [step, addTeardown, h, if_true]
      split
      · cases t <;> simp [execute, h, handedOver, Teardown.execute]
      · by_cases hb : t.execute.any bad = true
        · simp only [execute, Out.andThen, hb, if_true]
          cases t <;> simp [h, handedOver, Teardown.execute]
        · simp only [execute, Out.andThen, hb]
          cases t <;> simp [give, h, handedOver, Teardown.execute]

theorem run_poisoned {D : Fragile S I E} {bad : Nat → Bool} {x : Lock S I E} (h : x.poisoned = true) (ops : List (Op I E)) :
    (x.run D bad ops).poisoned = true ∧ (x.run D bad ops).ran = x.ran ++ handedOver ops ∧
      ∃ k, (x.run D bad ops).reached = x.reached ++ List.replicate k (.note .unsubscribe) := by
  induction ops generalizing x with
  | nil => exact ⟨h, by simp [run, handedOver], 0, by simp [run]⟩
  | cons op ops ih =>
    obtain ⟨h1, h2, h3⟩ := step_poisoned (D := D) (bad := bad) h op
    obtain ⟨i1, i2, k, i3⟩ := ih (x := (x.step D bad op).st) h1
    have e : x.run D bad (op :: ops) = (x.step D bad op).st.run D bad ops := rfl
    have ha : handedOver (op :: ops) = handedOver [op] ++ handedOver ops := by
      simp only [handedOver, ← List.filterMap_append]; rfl
    refine ⟨e ▸ i1, by rw [e, i2, h2, ha, List.append_assoc], ?_⟩
    rcases h3 with h3 | h3
    · exact ⟨k, by rw [e, i3, h3]⟩
    · exact ⟨k + 1, by rw [e, i3, h3, List.append_assoc, List.replicate_succ]; rfl⟩

theorem step_call {D : Fragile S I E} {bad : Nat → Bool} {x : Lock S I E} (h : x.poisoned = false) (ha : x.alive = true)
    (c : Call I E) :
    x.step D bad (.call c) = ⟨⟨(D.call x.dest c).st, (D.call x.dest c).panicked, true, x.reached ++ [c], x.ran⟩,
      (D.call x.dest c).panicked⟩ := by
  obtain ⟨d, p, a, r, t⟩ := x
  subst h; subst ha
  cases c with
  | note n => cases n <;> simp [step, push, give, Fragile.call]
  | addTeardown t => simp [step, addTeardown, give, Fragile.call]

theorem run_clean {D : Fragile S I E} {bad : Nat → Bool} {x : Lock S I E} (h : x.poisoned = false) (ha : x.alive = true)
    (cs : List (Call I E)) (hr : (x.run D bad (cs.map .call)).poisoned = false) :
    x.run D bad (cs.map .call) =
      { x with dest := cs.foldl (fun s c => (D.call s c).st) x.dest, reached := x.reached ++ cs } := by
  induction cs generalizing x with
  | nil => simp [run]
  | cons c cs ih =>
    have e : x.run D bad ((c :: cs).map .call) = (x.step D bad (.call c)).st.run D bad (cs.map .call) := rfl
    rw [e] at hr ⊢
    have hp : (x.step D bad (.call c)).st.poisoned = false := by
      cases hq : (x.step D bad (.call c)).st.poisoned with
      | false => rfl
      | true => rw [(run_poisoned hq _).1] at hr; exact absurd hr (by simp)
    have hal : (x.step D bad (.call c)).st.alive = true := by rw [step_call h ha]
    rw [ih hp hal hr]
    rw [step_call h ha] at hp ⊢
    simp only at hp
    obtain ⟨d, p, a, r, t⟩ := x
    simp_all

theorem step_gone {D : Fragile S I E} {bad : Nat → Bool} {x : Lock S I E} (h : x.alive = false) (op : Op I E) :
    (x.step D bad op).st = { x with ran := x.ran ++ handedOver [op] } := by
  obtain ⟨d, p, a, r, t⟩ := x
  subst h
  cases op with
  | free => simp [step, handedOver]
  | call c =>
    cases c with
    | note n => simp [step, push, handedOver]
    | addTeardown t => cases t <;> simp [step, addTeardown, execute, handedOver, Teardown.execute]

theorem run_gone {D : Fragile S I E} {bad : Nat → Bool} {x : Lock S I E} (h : x.alive = false) (ops : List (Op I E)) :
    x.run D bad ops = { x with ran := x.ran ++ handedOver ops } := by
  induction ops generalizing x with
  | nil => simp [run, handedOver]
  | cons op ops ih =>
    have e : x.run D bad (op :: ops) = (x.step D bad op).st.run D bad ops := rfl
    have ha : handedOver (op :: ops) = handedOver [op] ++ handedOver ops := by
      simp only [handedOver, ← List.filterMap_append]; rfl
    rw [e, step_gone h, ih (by exact h), ha]
    simp

end Lock

/-! ## `SharedSubscriber` -/

namespace Shared

theorem runLocked_st (d : Deferred I E) (h : Handling S I E) : (runLocked d h).st = d.runLocked h.steady := by
  induction h generalizing d with
  | done s => rfl
  | panic s => rfl
  | call n k ih => exact ih _
  | isClosed k ih => exact ih _ _

theorem deliverAll_closed {R : Touchy S I E} {n : SubscriberNotification I E} {ns : List (SubscriberNotification I E)}
    {x : S × Deferred I E} (hc : x.2.closedFlag = true) :
    deliverAll R (n :: ns) x = deliverAll R ns (x.1, if n.isClosing then { x.2 with closedFlag := true } else x.2) := by
  simp [deliverAll, hc, Out.andThen]

theorem deliverAll_open {R : Touchy S I E} {n : SubscriberNotification I E} {ns : List (SubscriberNotification I E)}
    {x : S × Deferred I E} (hc : x.2.closedFlag = false) :
    deliverAll R (n :: ns) x = (runLocked x.2 (R.push x.1 n)).andThen
      (fun y => deliverAll R ns (y.1, if n.isClosing then { y.2 with closedFlag := true } else y.2)) id := by
  simp [deliverAll, hc]

theorem steady_open {R : Touchy S I E} {n : SubscriberNotification I E} {ns : List (SubscriberNotification I E)}
    {x : S × Deferred I E} (hc : x.2.closedFlag = false) :
    Rx.Shared.deliverAll R.steady (n :: ns) x = Rx.Shared.deliverAll R.steady ns
      ((runLocked x.2 (R.push x.1 n)).st.1, if n.isClosing then { (runLocked x.2 (R.push x.1 n)).st.2 with closedFlag := true }
        else (runLocked x.2 (R.push x.1 n)).st.2) := by
  rw [runLocked_st]
  simp [Rx.Shared.deliverAll, hc, Touchy.steady]

theorem steady_closed {R : Touchy S I E} {n : SubscriberNotification I E} {ns : List (SubscriberNotification I E)}
    {x : S × Deferred I E} (hc : x.2.closedFlag = true) :
    Rx.Shared.deliverAll R.steady (n :: ns) x =
      Rx.Shared.deliverAll R.steady ns (x.1, if n.isClosing then { x.2 with closedFlag := true } else x.2) := by
  simp [Rx.Shared.deliverAll, hc]

theorem deliverAll_st {R : Touchy S I E} (ns : List (SubscriberNotification I E)) (x : S × Deferred I E)
    (h : (deliverAll R ns x).panicked = false) : (deliverAll R ns x).st = Rx.Shared.deliverAll R.steady ns x := by
  induction ns generalizing x with
  | nil => rfl
  | cons n ns ih =>
    cases hc : x.2.closedFlag with
    | true =>
      rw [deliverAll_closed hc] at h ⊢
      rw [steady_closed hc]
      exact ih _ h
    | false =>
      rw [deliverAll_open hc] at h ⊢
      rw [steady_open hc]
      unfold Out.andThen at h ⊢
      split at h
      · simp at h
      · rename_i hp
        rw [if_neg hp]
        exact ih _ h

theorem applyQueue_st {R : Touchy S I E} (k : Nat) (x : S × Deferred I E) (h : (applyQueue R k x).panicked = false) :
    Rx.Shared.applyQueue R.steady k x = some (applyQueue R k x).st := by
  induction k generalizing x with
  | zero => simp [applyQueue] at h
  | succ k ih =>
    rw [applyQueue] at h ⊢
    rw [Rx.Shared.applyQueue]
    by_cases hq : x.2.queue.isEmpty = true
    · simp [hq]
    · rw [if_neg hq] at h ⊢
      rw [if_neg hq]
      unfold Out.andThen at h ⊢
      split at h
      · simp at h
      · rename_i hp
        rw [if_neg hp, ← deliverAll_st _ _ (by simpa using hp)]
        exact ih _ h

theorem tryPush_poisoned {R : Touchy S I E} {x : State S I E} (n : SubscriberNotification I E) (h : x.poisoned = false) :
    (tryPush R n x).st.poisoned = (tryPush R n x).panicked := by simp [tryPush, State.locked, h]

theorem callDirect_poisoned {R : Touchy S I E} {x : State S I E} (n : SubscriberNotification I E) (h : x.poisoned = false) :
    (callDirect R x n).st.poisoned = (callDirect R x n).panicked := by
  cases n <;> unfold callDirect <;> dsimp only <;> split <;>
    first
    | exact h
    | (rw [if_neg (by simp [h])]; exact tryPush_poisoned _ h)

theorem tryApply_poisoned {R : Touchy S I E} {x : State S I E} (h : x.poisoned = false) :
    (tryApplyDeferred R x).st.poisoned = (tryApplyDeferred R x).panicked := by
  unfold tryApplyDeferred
  split
  · simp [State.locked, h]
  · exact h

theorem call_poisoned {R : Touchy S I E} {x : State S I E} (n : SubscriberNotification I E) (h : x.poisoned = false) :
    (call R x n).st.poisoned = (call R x n).panicked := by
  have h1 := callDirect_poisoned (R := R) n h
  unfold call Out.andThen
  split
  · rename_i hp; exact h1.trans hp
  · rename_i hp
    exact tryApply_poisoned (by rw [h1]; simpa using hp)

/-- The two parts of the state that the model without panics has. -/
def pair (x : State S I E) : S × Deferred I E := (x.dest, x.deferred)

theorem tryApply_st {R : Touchy S I E} {x : State S I E} (h : x.poisoned = false)
    (hp : (tryApplyDeferred R x).panicked = false) :
    Rx.Shared.tryApplyDeferred R.steady (pair x) = some (pair (tryApplyDeferred R x).st) := by
  unfold tryApplyDeferred Rx.Shared.tryApplyDeferred at *
  by_cases hd : x.deferred.isDirty = true
  · simp only [h, hd, Bool.not_false, Bool.and_self, if_true, State.locked, pair] at hp ⊢
    exact applyQueue_st _ _ hp
  · simp [hd, pair]

theorem tryPush_st {R : Touchy S I E} {x : State S I E} (n : SubscriberNotification I E)
    (hp : (tryPush R n x).panicked = false) :
    Rx.Shared.applyQueue R.steady Rx.Shared.maxRecursionDepth (pair x) >>= (fun y =>
      some (match n with
      | .unsubscribe =>
        if R.isClosed y.1 then (y.1, { y.2 with closedFlag := true })
        else Deferred.runLocked { y.2 with closedFlag := true } (R.steady.push y.1 .unsubscribe)
      | n => y.2.runLocked (R.steady.push y.1 n))) = some (pair (tryPush R n x).st) := by
  unfold tryPush at *
  simp only [State.locked, Out.andThen, pair] at hp ⊢
  by_cases hq : (applyQueue R Rx.Shared.maxRecursionDepth (x.dest, x.deferred)).panicked = true
  · simp [hq] at hp
  · simp only [Bool.not_eq_true] at hq
    rw [applyQueue_st _ _ hq]
    simp only [hq, Bool.false_eq_true, if_false, Option.bind_eq_bind, Option.bind_some]
    cases n with
    | unsubscribe =>
      dsimp only
      split
      · rfl
      · rw [runLocked_st]; rfl
    | next v => dsimp only; rw [runLocked_st]; rfl
    | error e => dsimp only; rw [runLocked_st]; rfl
    | complete => dsimp only; rw [runLocked_st]; rfl

theorem isClosed_pair {R : Touchy S I E} {x : State S I E} (h : x.poisoned = false) :
    Rx.Shared.isClosed R.steady (pair x) = x.isClosed R := by
  simp [Rx.Shared.isClosed, State.isClosed, pair, h, Touchy.steady]

/-- `Shared.call` before `try_apply_deferred`. -/
def direct (R : ReDest S I E) (x : S × Deferred I E) (n : SubscriberNotification I E) : Option (S × Deferred I E) :=
  let go (n : SubscriberNotification I E) (x : S × Deferred I E) : Option (S × Deferred I E) :=
    Rx.Shared.applyQueue R Rx.Shared.maxRecursionDepth x >>= fun y =>
      some (match n with
      | .unsubscribe =>
        if R.isClosed y.1 then (y.1, { y.2 with closedFlag := true })
        else Deferred.runLocked { y.2 with closedFlag := true } (R.push y.1 .unsubscribe)
      | n => y.2.runLocked (R.push y.1 n))
  match n with
  | .next v => if Rx.Shared.isClosed R x then some x else go (.next v) x
  | .error e => if Rx.Shared.isClosed R x then some x else go (.error e) (x.1, { x.2 with observedError := true })
  | .complete => if Rx.Shared.isClosed R x then some x else go .complete (x.1, { x.2 with observedCompletion := true })
  | .unsubscribe =>
    if x.2.observedUnsubscribe then some x else go .unsubscribe (x.1, { x.2 with observedUnsubscribe := true })

theorem shared_call (R : ReDest S I E) (x : S × Deferred I E) (n : SubscriberNotification I E) :
    Rx.Shared.call R x n = direct R x n >>= Rx.Shared.tryApplyDeferred R := by
  cases n <;>
    (simp only [Rx.Shared.call, direct]
     split
     · rfl
     · simp only [Option.bind_eq_bind, Option.bind_assoc, Option.pure_def])

theorem callDirect_st {R : Touchy S I E} {x : State S I E} (n : SubscriberNotification I E) (h : x.poisoned = false)
    (hd : (callDirect R x n).panicked = false) : direct R.steady (pair x) n = some (pair (callDirect R x n).st) := by
  have hi := isClosed_pair (R := R) h
  cases n with
  | unsubscribe =>
    by_cases hx : x.deferred.observedUnsubscribe = true
    · simp [callDirect, direct, hx, pair]
    · have e : callDirect R x .unsubscribe =
          tryPush R .unsubscribe { x with deferred := { x.deferred with observedUnsubscribe := true } } := by
        simp [callDirect, hx, h]
      rw [e] at hd ⊢
      rw [← tryPush_st _ hd]
      simp only [direct]
      rw [if_neg (by simpa [pair] using hx)]
      rfl
  | next v =>
    by_cases hx : x.isClosed R = true
    · simp [callDirect, direct, hi, hx]
    · have e : callDirect R x (.next v) = tryPush R (.next v) x := by simp [callDirect, hx, h]
      rw [e] at hd ⊢
      rw [← tryPush_st _ hd]
      simp [direct, hi, hx]
  | error er =>
    by_cases hx : x.isClosed R = true
    · simp [callDirect, direct, hi, hx]
    · have e : callDirect R x (.error er) =
          tryPush R (.error er) { x with deferred := { x.deferred with observedError := true } } := by
        simp [callDirect, hx, h]
      rw [e] at hd ⊢
      rw [← tryPush_st _ hd]
      simp only [direct, hi, hx]
      rfl
  | complete =>
    by_cases hx : x.isClosed R = true
    · simp [callDirect, direct, hi, hx]
    · have e : callDirect R x .complete =
          tryPush R .complete { x with deferred := { x.deferred with observedCompletion := true } } := by
        simp [callDirect, hx, h]
      rw [e] at hd ⊢
      rw [← tryPush_st _ hd]
      simp only [direct, hi, hx]
      rfl

theorem call_st {R : Touchy S I E} {x : State S I E} (n : SubscriberNotification I E) (h : x.poisoned = false)
    (hp : (call R x n).panicked = false) :
    Rx.Shared.call R.steady (pair x) n = some (pair (call R x n).st) := by
  have hd : (callDirect R x n).panicked = false := by
    cases hd : (callDirect R x n).panicked with
    | false => rfl
    | true => simp [call, Out.andThen, hd] at hp
  have hc : call R x n = tryApplyDeferred R (callDirect R x n).st := by
    unfold call Out.andThen; simp [hd]
  rw [hc] at hp ⊢
  have hn : (callDirect R x n).st.poisoned = false := (callDirect_poisoned n h).trans hd
  rw [← tryApply_st hn hp, shared_call, callDirect_st n h hd]
  rfl

theorem call_dead {R : Touchy S I E} {x : State S I E} (h : x.poisoned = true) (n : SubscriberNotification I E) :
    call R x n = ⟨{ x with deferred := x.deferred.call n }, false⟩ := by
  obtain ⟨s, d, p, r⟩ := x
  subst h
  cases n <;>
    (simp only [call, callDirect, State.isClosed, Deferred.call, Bool.not_true, Bool.false_and, Bool.or_false, if_true]
     split <;> simp [Out.andThen, tryApplyDeferred])

theorem run_dead {R : Touchy S I E} {bad : Nat → Bool} {x : State S I E} (h : x.poisoned = true)
    (ns : List (SubscriberNotification I E)) :
    run R bad x (ns.map .note) = { x with deferred := ns.foldl Deferred.call x.deferred } := by
  induction ns generalizing x with
  | nil => rfl
  | cons n ns ih =>
    have e : run R bad x ((n :: ns).map .note) = run R bad (call R x n).st (ns.map .note) := rfl
    rw [e, call_dead h]
    exact ih (x := { x with deferred := x.deferred.call n }) h

theorem run_clean {R : Touchy S I E} {bad : Nat → Bool} {x : State S I E} (h : x.poisoned = false)
    (ns : List (SubscriberNotification I E)) (hr : (run R bad x (ns.map .note)).poisoned = false) :
    Rx.Shared.run R.steady (pair x) ns = some (pair (run R bad x (ns.map .note))) := by
  induction ns generalizing x with
  | nil => rfl
  | cons n ns ih =>
    have e : run R bad x ((n :: ns).map .note) = run R bad (call R x n).st (ns.map .note) := rfl
    rw [e] at hr ⊢
    have hp : (call R x n).st.poisoned = false := by
      cases hq : (call R x n).st.poisoned with
      | false => rfl
      | true => rw [run_dead hq] at hr; rw [← hr]; exact hq.symm
    have hc := call_st n h ((call_poisoned n h).symm.trans hp)
    simp only [Rx.Shared.run, List.foldlM_cons, hc, Option.bind_eq_bind, Option.bind_some]
    exact ih hp hr

theorem leaves_runLocked {p : S → Prop} (d : Deferred I E) (h : Handling S I E) (hl : h.Leaves p) :
    p (runLocked d h).st.1 := by
  induction h generalizing d with
  | done s => exact hl
  | panic s => exact hl
  | call n k ih => exact ih _ hl
  | isClosed k ih => exact ih _ _ (hl _)

section Heard
variable {α : Type} {R : Touchy S I E} {obs : S → List α} (hobs : ∀ s n, (R.push s n).Leaves fun t => obs s <+: obs t)
include hobs

theorem steady_deliver (ns : List (SubscriberNotification I E)) (x : S × Deferred I E) :
    obs x.1 <+: obs (Rx.Shared.deliverAll R.steady ns x).1 := by
  induction ns generalizing x with
  | nil => exact List.prefix_rfl
  | cons n ns ih =>
    cases hc : x.2.closedFlag with
    | true =>
      rw [steady_closed hc]
      have := ih (x.1, if n.isClosing then { x.2 with closedFlag := true } else x.2)
      exact this
    | false =>
      rw [steady_open hc]
      have := ih ((runLocked x.2 (R.push x.1 n)).st.1,
        if n.isClosing then { (runLocked x.2 (R.push x.1 n)).st.2 with closedFlag := true }
        else (runLocked x.2 (R.push x.1 n)).st.2)
      exact (leaves_runLocked x.2 _ (hobs x.1 n)).trans this

theorem steady_apply (k : Nat) (x y : S × Deferred I E) (h : Rx.Shared.applyQueue R.steady k x = some y) :
    obs x.1 <+: obs y.1 := by
  induction k generalizing x with
  | zero => simp [Rx.Shared.applyQueue] at h
  | succ k ih =>
    rw [Rx.Shared.applyQueue] at h
    split at h
    · cases h; exact List.prefix_rfl
    · exact (steady_deliver hobs _ (x.1, { x.2 with queue := [] })).trans (ih _ h)

theorem deliver_prefix (ns : List (SubscriberNotification I E)) (x : S × Deferred I E) :
    obs (deliverAll R ns x).st.1 <+: obs (Rx.Shared.deliverAll R.steady ns x).1 := by
  induction ns generalizing x with
  | nil => exact List.prefix_rfl
  | cons n ns ih =>
    cases hc : x.2.closedFlag with
    | true => rw [steady_closed hc, deliverAll_closed hc]; exact ih _
    | false =>
      rw [steady_open hc, deliverAll_open hc]
      unfold Out.andThen
      split
      · have := steady_deliver hobs ns ((runLocked x.2 (R.push x.1 n)).st.1,
          if n.isClosing then { (runLocked x.2 (R.push x.1 n)).st.2 with closedFlag := true }
          else (runLocked x.2 (R.push x.1 n)).st.2)
        exact this
      · exact ih _

theorem apply_prefix (k : Nat) (x y : S × Deferred I E) (h : Rx.Shared.applyQueue R.steady k x = some y) :
    obs (applyQueue R k x).st.1 <+: obs y.1 := by
  induction k generalizing x with
  | zero => simp [Rx.Shared.applyQueue] at h
  | succ k ih =>
    rw [Rx.Shared.applyQueue] at h
    rw [applyQueue]
    split at h
    · rename_i hq
      rw [if_pos hq]; cases h; exact List.prefix_rfl
    · rename_i hq
      rw [if_neg hq]
      unfold Out.andThen
      split
      · exact (deliver_prefix hobs _ _).trans (steady_apply hobs k _ _ h)
      · rename_i hp
        rw [deliverAll_st _ _ (by simpa using hp)]
        exact ih _ h

/-- What a call does after the queue, without panics. -/
def last (R : ReDest S I E) (n : SubscriberNotification I E) (y : S × Deferred I E) : S × Deferred I E :=
  match n with
  | .unsubscribe =>
    if R.isClosed y.1 then (y.1, { y.2 with closedFlag := true })
    else Deferred.runLocked { y.2 with closedFlag := true } (R.push y.1 .unsubscribe)
  | n => y.2.runLocked (R.push y.1 n)

theorem steady_last (n : SubscriberNotification I E) (y : S × Deferred I E) : obs y.1 <+: obs (last R.steady n y).1 := by
  have key : ∀ d n, obs y.1 <+: obs (Deferred.runLocked d (R.steady.push y.1 n)).1 := by
    intro d n
    have := leaves_runLocked d _ (hobs y.1 n)
    rw [runLocked_st] at this
    exact this
  cases n with
  | unsubscribe =>
    simp only [last]
    split
    · exact List.prefix_rfl
    · exact key _ _
  | next v => exact key _ _
  | error e => exact key _ _
  | complete => exact key _ _

theorem tryPush_prefix (n : SubscriberNotification I E) (x : State S I E) (q : S × Deferred I E)
    (h : (Rx.Shared.applyQueue R.steady Rx.Shared.maxRecursionDepth (pair x) >>= fun y => some (last R.steady n y)) = some q) :
    obs (tryPush R n x).st.dest <+: obs q.1 := by
  cases hq : Rx.Shared.applyQueue R.steady Rx.Shared.maxRecursionDepth (pair x) with
  | none => simp [hq] at h
  | some y =>
    simp only [hq, Option.bind_eq_bind, Option.bind_some, Option.some.injEq] at h
    have hpre := apply_prefix hobs _ _ _ hq
    have hlast := steady_last hobs n y
    rw [h] at hlast
    cases hp : (applyQueue R Rx.Shared.maxRecursionDepth (pair x)).panicked with
    | true =>
      have e : (tryPush R n x).st.dest = (applyQueue R Rx.Shared.maxRecursionDepth (pair x)).st.1 := by
        simp only [tryPush, State.locked, Out.andThen]
        rw [if_pos (by exact hp)]; rfl
      rw [e]
      exact hpre.trans hlast
    | false =>
      have ey := applyQueue_st _ _ hp
      rw [hq, Option.some.injEq] at ey
      have e : (tryPush R n x).st.dest = (last R.steady n y).1 := by
        simp only [tryPush, State.locked, Out.andThen]
        rw [show (x.dest, x.deferred) = pair x from rfl, if_neg (by rw [hp]; simp)]
        rw [← ey]
        cases n with
        | unsubscribe =>
          simp only [last]
          by_cases hc : R.isClosed y.1 = true
          · rw [if_pos hc, if_pos (by exact hc)]
          · rw [if_neg hc, if_neg (by exact hc), runLocked_st]; rfl
        | next v => simp only [last]; rw [runLocked_st]; rfl
        | error er => simp only [last]; rw [runLocked_st]; rfl
        | complete => simp only [last]; rw [runLocked_st]; rfl
      rw [e, h]
      exact List.prefix_rfl

theorem direct_prefix {x : State S I E} (h : x.poisoned = false) (n : SubscriberNotification I E) (q : S × Deferred I E)
    (hq : direct R.steady (pair x) n = some q) : obs (callDirect R x n).st.dest <+: obs q.1 := by
  have hi := isClosed_pair (R := R) h
  cases n with
  | unsubscribe =>
    simp only [direct] at hq
    by_cases hx : x.deferred.observedUnsubscribe = true
    · rw [if_pos (by exact hx)] at hq
      cases hq
      simp [callDirect, hx, pair]
    · rw [if_neg (by exact hx)] at hq
      have e : callDirect R x .unsubscribe =
          tryPush R .unsubscribe { x with deferred := { x.deferred with observedUnsubscribe := true } } := by
        simp [callDirect, hx, h]
      rw [e]
      exact tryPush_prefix hobs _ _ _ hq
  | next v =>
    simp only [direct, hi] at hq
    by_cases hx : x.isClosed R = true
    · rw [if_pos hx] at hq
      cases hq
      simp [callDirect, hx, pair]
    · rw [if_neg hx] at hq
      have e : callDirect R x (.next v) = tryPush R (.next v) x := by simp [callDirect, hx, h]
      rw [e]
      exact tryPush_prefix hobs _ _ _ hq
  | error er =>
    simp only [direct, hi] at hq
    by_cases hx : x.isClosed R = true
    · rw [if_pos hx] at hq
      cases hq
      simp [callDirect, hx, pair]
    · rw [if_neg hx] at hq
      have e : callDirect R x (.error er) =
          tryPush R (.error er) { x with deferred := { x.deferred with observedError := true } } := by
        simp [callDirect, hx, h]
      rw [e]
      exact tryPush_prefix hobs _ _ _ hq
  | complete =>
    simp only [direct, hi] at hq
    by_cases hx : x.isClosed R = true
    · rw [if_pos hx] at hq
      cases hq
      simp [callDirect, hx, pair]
    · rw [if_neg hx] at hq
      have e : callDirect R x .complete =
          tryPush R .complete { x with deferred := { x.deferred with observedCompletion := true } } := by
        simp [callDirect, hx, h]
      rw [e]
      exact tryPush_prefix hobs _ _ _ hq

theorem steady_tryApply {x y : S × Deferred I E} (h : Rx.Shared.tryApplyDeferred R.steady x = some y) :
    obs x.1 <+: obs y.1 := by
  unfold Rx.Shared.tryApplyDeferred at h
  split at h
  · exact steady_apply hobs _ _ _ h
  · cases h; exact List.prefix_rfl

theorem steady_go (n : SubscriberNotification I E) (x q : S × Deferred I E)
    (h : (Rx.Shared.applyQueue R.steady Rx.Shared.maxRecursionDepth x >>= fun y => some (last R.steady n y)) = some q) :
    obs x.1 <+: obs q.1 := by
  cases hq : Rx.Shared.applyQueue R.steady Rx.Shared.maxRecursionDepth x with
  | none => simp [hq] at h
  | some y =>
    simp only [hq, Option.bind_eq_bind, Option.bind_some, Option.some.injEq] at h
    have := steady_last hobs n y
    rw [h] at this
    exact (steady_apply hobs _ _ _ hq).trans this

theorem steady_direct (n : SubscriberNotification I E) (x q : S × Deferred I E) (h : direct R.steady x n = some q) :
    obs x.1 <+: obs q.1 := by
  cases n with
  | next v =>
    simp only [direct] at h
    split at h
    · cases h; exact List.prefix_rfl
    · exact steady_go hobs (.next v) x q h
  | error e =>
    simp only [direct] at h
    split at h
    · cases h; exact List.prefix_rfl
    · exact steady_go hobs (.error e) (x.1, { x.2 with observedError := true }) q h
  | complete =>
    simp only [direct] at h
    split at h
    · cases h; exact List.prefix_rfl
    · exact steady_go hobs .complete (x.1, { x.2 with observedCompletion := true }) q h
  | unsubscribe =>
    simp only [direct] at h
    split at h
    · cases h; exact List.prefix_rfl
    · exact steady_go hobs .unsubscribe (x.1, { x.2 with observedUnsubscribe := true }) q h

theorem steady_call (n : SubscriberNotification I E) (x q : S × Deferred I E) (h : Rx.Shared.call R.steady x n = some q) :
    obs x.1 <+: obs q.1 := by
  rw [shared_call] at h
  cases hd : direct R.steady x n with
  | none => simp [hd] at h
  | some y =>
    simp only [hd, Option.bind_eq_bind, Option.bind_some] at h
    exact (steady_direct hobs n x y hd).trans (steady_tryApply hobs h)

theorem steady_run (ns : List (SubscriberNotification I E)) (x q : S × Deferred I E)
    (h : Rx.Shared.run R.steady x ns = some q) : obs x.1 <+: obs q.1 := by
  induction ns generalizing x with
  | nil => cases h; exact List.prefix_rfl
  | cons n ns ih =>
    simp only [Rx.Shared.run, List.foldlM_cons] at h
    cases hc : Rx.Shared.call R.steady x n with
    | none => simp [hc] at h
    | some y =>
      simp only [hc, Option.bind_eq_bind, Option.bind_some] at h
      exact (steady_call hobs n x y hc).trans (ih y h)

theorem call_prefix {x : State S I E} (h : x.poisoned = false) (n : SubscriberNotification I E) (q : S × Deferred I E)
    (hq : Rx.Shared.call R.steady (pair x) n = some q) : obs (call R x n).st.dest <+: obs q.1 := by
  rw [shared_call] at hq
  cases hd : direct R.steady (pair x) n with
  | none => simp [hd] at hq
  | some y =>
    simp only [hd, Option.bind_eq_bind, Option.bind_some] at hq
    have h1 := direct_prefix hobs h n y hd
    cases hp : (callDirect R x n).panicked with
    | true =>
      have e : (call R x n).st = (callDirect R x n).st := by simp [call, Out.andThen, hp]
      rw [e]
      exact h1.trans (steady_tryApply hobs hq)
    | false =>
      have e : (call R x n).st = (tryApplyDeferred R (callDirect R x n).st).st := by simp [call, Out.andThen, hp]
      have hy := callDirect_st n h hp
      rw [hd, Option.some.injEq] at hy
      have hn : (callDirect R x n).st.poisoned = false := (callDirect_poisoned n h).trans hp
      rw [e]
      subst hy
      unfold tryApplyDeferred
      unfold Rx.Shared.tryApplyDeferred at hq
      by_cases hdirty : (callDirect R x n).st.deferred.isDirty = true
      · rw [if_pos (by exact hdirty)] at hq
        rw [if_pos (by simp [hdirty, hn])]
        exact apply_prefix hobs _ _ _ hq
      · rw [if_neg (by exact hdirty)] at hq
        rw [if_neg (by simp [hdirty])]
        cases hq
        exact List.prefix_rfl

theorem run_prefix {bad : Nat → Bool} {x : State S I E} (h : x.poisoned = false) (ns : List (SubscriberNotification I E))
    (q : S × Deferred I E) (hq : Rx.Shared.run R.steady (pair x) ns = some q) :
    obs (run R bad x (ns.map .note)).dest <+: obs q.1 := by
  induction ns generalizing x with
  | nil => cases hq; exact List.prefix_rfl
  | cons n ns ih =>
    have e : run R bad x ((n :: ns).map .note) = run R bad (call R x n).st (ns.map .note) := rfl
    simp only [Rx.Shared.run, List.foldlM_cons] at hq
    cases hc : Rx.Shared.call R.steady (pair x) n with
    | none => simp [hc] at hq
    | some y =>
      simp only [hc, Option.bind_eq_bind, Option.bind_some] at hq
      rw [e]
      cases hp : (call R x n).st.poisoned with
      | true =>
        rw [run_dead hp]
        exact (call_prefix hobs h n y hc).trans (steady_run hobs ns y q hq)
      | false =>
        have hy := call_st n h ((call_poisoned n h).symm.trans hp)
        rw [hc, Option.some.injEq] at hy
        subst hy
        exact ih hp hq

end Heard

end Shared

/-! ## `PublishSubject` -/

namespace Subject

variable {D : Fragile S I E} {ord : Nat → List Nat → List Nat}

theorem giveAll_frame (c : Nat) (n : SubscriberNotification I E) (js : List Nat) (x : Publish.State S I E) :
    (giveAll D c n js x).1.members = x.members ∧ (giveAll D c n js x).1.queue = x.queue ∧
      (giveAll D c n js x).1.count = x.count ∧ (giveAll D c n js x).1.calls = x.calls ∧
      (giveAll D c n js x).1.held = x.held := by
  induction js generalizing x with
  | nil => simp [giveAll]
  | cons j js ih =>
    unfold giveAll
    split
    · exact ih x
    · dsimp only
      split
      · simp [Publish.State.setDest]
      · obtain ⟨h1, h2, h3, h4, h5⟩ := ih (Publish.State.setDest { x with log := x.log ++ [(c, j, n)] } j (D.push (x.dest j) n).st)
        exact ⟨h1, h2, h3, h4, h5⟩

theorem giveAll_ok (c : Nat) (n : SubscriberNotification I E) (js : List Nat) (x : Publish.State S I E)
    (h : (giveAll D c n js x).2 = none) :
    js.foldlM (Publish.State.give D.steady c n) x = .ok (giveAll D c n js x).1 := by
  induction js generalizing x with
  | nil => rfl
  | cons j js ih =>
    unfold giveAll at h ⊢
    rw [List.foldlM_cons]
    by_cases hc : D.isClosed (x.dest j) = true
    · rw [if_pos hc] at h ⊢
      have e : Publish.State.give D.steady c n x j = .ok x := by simp [Publish.State.give, Fragile.steady, hc]
      rw [e]
      exact ih x h
    · rw [if_neg hc] at h ⊢
      dsimp only at h ⊢
      by_cases hp : (D.push (x.dest j) n).panicked = true
      · rw [if_pos hp] at h
        cases h
      · rw [if_neg hp] at h ⊢
        have e : Publish.State.give D.steady c n x j =
            .ok (Publish.State.setDest { x with log := x.log ++ [(c, j, n)] } j (D.push (x.dest j) n).st) := by
          unfold Publish.State.give
          rw [if_neg (by exact hc)]
          rfl
        rw [e]
        exact ih _ h

/-- Who is reached when somebody panics. -/
theorem giveAll_panic (c : Nat) (n : SubscriberNotification I E) (js : List Nat) (hn : js.Nodup) (x : Publish.State S I E)
    (j : Nat) (h : (giveAll D c n js x).2 = some j) :
    ∃ a b, js = a ++ j :: b ∧ D.isClosed (x.dest j) = false ∧ (D.push (x.dest j) n).panicked = true ∧
      (∀ i ∈ a, D.isClosed (x.dest i) = false → (D.push (x.dest i) n).panicked = false) ∧
      (giveAll D c n js x).1.log =
        x.log ++ ((a ++ [j]).filter fun i => !D.isClosed (x.dest i)).map (fun i => (c, i, n)) ∧
      (∀ i, (giveAll D c n js x).1.dest i =
        if i ∈ a ++ [j] ∧ D.isClosed (x.dest i) = false then (D.push (x.dest i) n).st else x.dest i) := by
  induction js generalizing x with
  | nil => simp [giveAll] at h
  | cons k js ih =>
    obtain ⟨hk, hn'⟩ := List.nodup_cons.1 hn
    unfold giveAll at h ⊢
    by_cases hc : D.isClosed (x.dest k) = true
    · rw [if_pos hc] at h ⊢
      obtain ⟨a, b, h1, h2, h3, h4, h5, h6⟩ := ih hn' x h
      refine ⟨k :: a, b, by rw [h1]; rfl, h2, h3, ?_, ?_, ?_⟩
      · intro i hi ho
        rcases List.mem_cons.1 hi with rfl | hi
        · rw [hc] at ho; cases ho
        · exact h4 i hi ho
      · rw [h5]; simp [hc]
      · intro i
        rw [h6 i]
        by_cases hik : i = k
        · subst hik; simp [hc]
        · simp [hik]
    · rw [if_neg hc] at h ⊢
      dsimp only at h ⊢
      by_cases hp : (D.push (x.dest k) n).panicked = true
      · rw [if_pos hp] at h ⊢
        cases h
        refine ⟨[], js, rfl, by simpa using hc, hp, by simp, ?_, ?_⟩
        · simp [Publish.State.setDest, hc]
        · intro i
          by_cases hik : i = j
          · subst hik; simp [Publish.State.setDest, hc]
          · simp [Publish.State.setDest, hik]
      · rw [if_neg hp] at h ⊢
        obtain ⟨a, b, h1, h2, h3, h4, h5, h6⟩ := ih hn' _ h
        have hne : ∀ i ∈ a ++ [j], i ≠ k := by
          intro i hi e
          subst e
          apply hk
          rw [h1]
          simp only [List.mem_append, List.mem_cons, List.not_mem_nil, or_false] at hi ⊢
          rcases hi with hi | hi
          · exact Or.inl hi
          · exact Or.inr (Or.inl hi)
        have hd : ∀ i ∈ a ++ [j], (Publish.State.setDest { x with log := x.log ++ [(c, k, n)] } k (D.push (x.dest k) n).st).dest i =
            x.dest i := by
          intro i hi
          simp [Publish.State.setDest, hne i hi]
        have hj := hd j (by simp)
        rw [hj] at h2 h3
        refine ⟨k :: a, b, by rw [h1]; rfl, h2, h3, ?_, ?_, ?_⟩
        · intro i hi ho
          rcases List.mem_cons.1 hi with rfl | hi
          · simpa using hp
          · have := h4 i hi
            rw [hd i (by simp [hi])] at this
            exact this ho
        · rw [h5]
          have hf : ((a ++ [j]).filter fun i => !D.isClosed ((Publish.State.setDest { x with log := x.log ++ [(c, k, n)] } k
              (D.push (x.dest k) n).st).dest i)) = ((a ++ [j]).filter fun i => !D.isClosed (x.dest i)) := by
            apply List.filter_congr
            intro i hi
            rw [hd i hi]
          rw [hf]
          simp [Publish.State.setDest, hc]
        · intro i
          rw [h6 i]
          by_cases hik : i = k
          · subst hik
            have : i ∉ a ++ [j] := fun hi => hne i hi rfl
            rw [if_neg (fun hh => this hh.1)]
            simp [Publish.State.setDest, hc]
          · simp [Publish.State.setDest, hik]

theorem apply_queue (c : Nat) (x : Publish.State S I E) (d : Publish.Deferred I E) :
    (apply D ord c x d).1.queue = x.queue := by
  cases d with
  | note n => cases n <;> exact (giveAll_frame _ _ _ _).2.1
  | cancel i =>
    simp only [apply]
    split
    · exact (giveAll_frame _ _ _ _).2.1
    · rfl
  | add i => rfl

theorem apply_ok (c : Nat) (x : Publish.State S I E) (d : Publish.Deferred I E) (h : (apply D ord c x d).2 = none) :
    Publish.State.apply D.steady ord c x d = .ok (apply D ord c x d).1 := by
  cases d with
  | note n => cases n <;> exact giveAll_ok _ _ _ _ h
  | cancel i =>
    simp only [apply, Publish.State.apply] at h ⊢
    split
    · rename_i hi
      rw [if_pos hi] at h
      have := giveAll_ok c .unsubscribe [i] _ h
      rw [List.foldlM_cons] at this
      cases hg : Publish.State.give D.steady c .unsubscribe { x with members := x.members.filter (· != i) } i with
      | error f => rw [hg] at this; cases this
      | ok y => rw [hg] at this; exact this
    · rfl
  | add i => rfl

theorem empty_applyQueue {R : Publish.Dest S I E} {x : Publish.State S I E} (h : x.queue = []) :
    Publish.State.applyQueue R ord Publish.State.maxRecursionDepth x = .ok x := by
  simp [Publish.State.maxRecursionDepth, Publish.State.applyQueue, h]

theorem empty_tryApply {R : Publish.Dest S I E} {x : Publish.State S I E} (h : x.queue = []) :
    Publish.State.tryApplyDeferred R ord x = .ok x := by
  simp [Publish.State.tryApplyDeferred, h]

/-- Nothing is deferred before a panic. -/
structure Calm (x : State S I E) : Prop where
  poisoned : x.poisoned = none
  queue : x.pub.queue = []

theorem locked_calm {r : Publish.State S I E × Option Nat} (h : (locked r).panicked = false) (hq : r.1.queue = []) :
    Calm (locked r).st := ⟨by simpa [locked] using h, hq⟩

theorem note_ok {x : State S I E} (hx : Calm x) (n : SubscriberNotification I E) (h : (note D ord x n).panicked = false) :
    x.pub.note D.steady ord n = .ok (note D ord x n).st.pub ∧ Calm (note D ord x n).st := by
  obtain ⟨p, k⟩ := x
  obtain ⟨hk, hq⟩ := hx
  simp only at hk hq
  subst hk
  have hr : (p.record (.note n)).queue = [] := hq
  have main : ∀ (d : SubscriberNotification I E) (z : Publish.State S I E), z.queue = [] →
      (locked (apply D ord z.now z (.note d))).panicked = false →
      ∀ r : Except Publish.Fault (Publish.State S I E), r = Publish.State.apply D.steady ord z.now z (.note d) →
      (match r with | .ok y => Publish.State.tryApplyDeferred D.steady ord y | .error f => .error f) =
        .ok (locked (apply D ord z.now z (.note d))).st.pub ∧ Calm (locked (apply D ord z.now z (.note d))).st := by
    intro d z hz hl r hr
    have ha := apply_ok (D := D) (ord := ord) z.now z (.note d) (by simpa [locked] using hl)
    have hq' : (apply D ord z.now z (.note d)).1.queue = [] := (apply_queue _ _ _).trans hz
    rw [hr, ha]
    exact ⟨empty_tryApply hq', locked_calm hl hq'⟩
  cases n with
  | next v =>
    by_cases hc : (p.record (.note (.next v))).isClosed = true
    · have e : note D ord ⟨p, none⟩ (.next v) = ⟨⟨p.record (.note (.next v)), none⟩, false⟩ := by simp [note, hc]
      rw [e]
      refine ⟨?_, rfl, hr⟩
      simp only [Publish.State.note, Publish.State.noteDirect, hc, if_true]
      exact empty_tryApply hr
    · have e : note D ord ⟨p, none⟩ (.next v) = locked (apply D ord (p.record (.note (.next v))).now (p.record (.note (.next v)))
          (.note (.next v))) := by simp [note, hc]
      rw [e] at h ⊢
      simp only [Publish.State.note, Publish.State.noteDirect]
      rw [if_neg hc]
      refine main _ _ hr h _ ?_
      simp only [Publish.State.tryNote]
      rw [empty_applyQueue hr]
  | error er =>
    by_cases hc : (p.record (.note (.error er))).isClosed = true
    · have e : note D ord ⟨p, none⟩ (.error er) = ⟨⟨p.record (.note (.error er)), none⟩, false⟩ := by simp [note, hc]
      rw [e]
      refine ⟨?_, rfl, hr⟩
      simp only [Publish.State.note, Publish.State.noteDirect, hc, if_true]
      exact empty_tryApply hr
    · have e : note D ord ⟨p, none⟩ (.error er) = locked (apply D ord (p.record (.note (.error er))).now
          { p.record (.note (.error er)) with observedError := some er } (.note (.error er))) := by simp [note, hc]
      rw [e] at h ⊢
      simp only [Publish.State.note, Publish.State.noteDirect]
      rw [if_neg hc]
      refine main (.error er) { p.record (.note (.error er)) with observedError := some er } hr h _ ?_
      simp only [Publish.State.tryNote]
      rw [empty_applyQueue (by exact hr)]
  | complete =>
    by_cases hc : (p.record (.note .complete)).isClosed = true
    · have e : note D ord ⟨p, none⟩ .complete = ⟨⟨p.record (.note .complete), none⟩, false⟩ := by simp [note, hc]
      rw [e]
      refine ⟨?_, rfl, hr⟩
      simp only [Publish.State.note, Publish.State.noteDirect, hc, if_true]
      exact empty_tryApply hr
    · have e : note D ord ⟨p, none⟩ .complete = locked (apply D ord (p.record (.note .complete)).now
          { p.record (.note .complete) with completed := true } (.note .complete)) := by simp [note, hc]
      rw [e] at h ⊢
      simp only [Publish.State.note, Publish.State.noteDirect]
      rw [if_neg hc]
      refine main .complete { p.record (.note .complete) with completed := true } hr h _ ?_
      simp only [Publish.State.tryNote]
      rw [empty_applyQueue (by exact hr)]
  | unsubscribe =>
    by_cases hc : (p.record (.note .unsubscribe)).unsubscribed = true
    · have e : note D ord ⟨p, none⟩ .unsubscribe = ⟨⟨p.record (.note .unsubscribe), none⟩, false⟩ := by simp [note, hc]
      rw [e]
      refine ⟨?_, rfl, hr⟩
      simp only [Publish.State.note, Publish.State.noteDirect, hc, if_true]
      exact empty_tryApply hr
    · have e : note D ord ⟨p, none⟩ .unsubscribe = locked (apply D ord (p.record (.note .unsubscribe)).now
          { p.record (.note .unsubscribe) with unsubscribed := true, closedFlag := true } (.note .unsubscribe)) := by
        simp [note, hc]
      rw [e] at h ⊢
      simp only [Publish.State.note, Publish.State.noteDirect]
      rw [if_neg hc]
      refine main .unsubscribe { p.record (.note .unsubscribe) with unsubscribed := true, closedFlag := true } hr h _ ?_
      simp only [Publish.State.tryNote]
      rw [empty_applyQueue (by exact hr)]
      rfl

theorem greet_ok {x : Publish.State S I E} {s : S} (h : (greet D x s).panicked = false) :
    x.greet D.steady s = .ok (greet D x s).st := by
  unfold greet at h ⊢
  unfold Publish.State.greet Publish.State.replay
  cases he : x.observedError with
  | some e =>
    simp only [told, he] at h ⊢
    by_cases hp : (D.push s (.error e)).panicked = true
    · simp [hp] at h
    · simp only [hp] at h ⊢
      simp [Fragile.steady, Publish.State.pushQuiet, Publish.State.isClosed, bind, Except.bind, pure, Except.pure,
        Publish.State.now]
      split <;> rfl
  | none =>
    by_cases hc : x.completed = true
    · simp only [told, he, hc, if_true] at h ⊢
      by_cases hp : (D.push s .complete).panicked = true
      · simp [hp] at h
      · simp only [hp] at h ⊢
        simp [Fragile.steady, Publish.State.pushQuiet, Publish.State.isClosed, bind, Except.bind, pure, Except.pure,
          Publish.State.now]
        split <;> rfl
    · simp only [told, he, hc] at h ⊢
      simp [Fragile.steady, Publish.State.pushQuiet, Publish.State.isClosed, bind, Except.bind, pure, Except.pure,
        Publish.State.now]
      split <;> rfl

theorem greet_frame {x : Publish.State S I E} {s : S} :
    (greet D x s).st.queue = x.queue ∧ (greet D x s).st.members = x.members ∧ (greet D x s).st.count = x.count + 1 ∧
      (greet D x s).st.closedFlag = x.closedFlag ∧ (greet D x s).st.isClosed = x.isClosed ∧
      (∀ i, i ≠ x.count → (greet D x s).st.dest i = x.dest i) ∧
      (∀ i, i ≠ x.count → givenTo i (greet D x s).st.log = givenTo i x.log) := by
  have hlog : ∀ (i : Nat) (c : Nat) (l : List (SubscriberNotification I E)) (lg : List (Nat × Nat × SubscriberNotification I E)),
      i ≠ x.count → givenTo i (lg ++ l.map fun n => (c, x.count, n)) = givenTo i lg := by
    intro i c l lg hi
    simp only [givenTo, List.filterMap_append]
    have : ((l.map fun n => (c, x.count, n)).filterMap fun y => if y.2.1 = i then some y.2.2 else none) = [] := by
      rw [List.filterMap_eq_nil_iff]
      intro y hy
      obtain ⟨n, -, rfl⟩ := List.mem_map.1 hy
      simp [Ne.symm hi]
    rw [this, List.append_nil]
  have hfst : ∀ (r : Out S) (l : List (SubscriberNotification I E)) (z : Out (Publish.State S I E)),
      z = (let x' : Publish.State S I E := { x with count := x.count + 1, log := x.log ++ l.map fun n => (x.now, x.count, n) }
        if r.panicked then ⟨x'.setDest x.count r.st, true⟩
        else if x'.isClosed && !D.isClosed r.st then
          let u := D.push r.st .unsubscribe
          ⟨Publish.State.setDest { x' with log := x'.log ++ [(x'.now, x.count, .unsubscribe)] } x.count u.st, u.panicked⟩
        else ⟨x'.setDest x.count r.st, false⟩) →
      z.st.queue = x.queue ∧ z.st.members = x.members ∧ z.st.count = x.count + 1 ∧
      z.st.closedFlag = x.closedFlag ∧ z.st.isClosed = x.isClosed ∧
      (∀ i, i ≠ x.count → z.st.dest i = x.dest i) ∧ (∀ i, i ≠ x.count → givenTo i z.st.log = givenTo i x.log) := by
    intro r l z hz
    dsimp only at hz
    split at hz
    · subst hz
      exact ⟨rfl, rfl, rfl, rfl, rfl, fun i hi => by simp [Publish.State.setDest, hi], fun i hi => hlog i _ l x.log hi⟩
    · split at hz
      · subst hz
        refine ⟨rfl, rfl, rfl, rfl, rfl, fun i hi => by simp [Publish.State.setDest, hi], fun i hi => ?_⟩
        exact (hlog i x.now [.unsubscribe] (x.log ++ l.map fun n => (x.now, x.count, n)) hi).trans (hlog i _ l x.log hi)
      · subst hz
        exact ⟨rfl, rfl, rfl, rfl, rfl, fun i hi => by simp [Publish.State.setDest, hi], fun i hi => hlog i _ l x.log hi⟩
  exact hfst _ _ _ rfl

theorem subscribe_ok {x : State S I E} (hx : Calm x) (s : S) (h : (subscribe D ord x s).panicked = false) :
    x.pub.subscribe D.steady ord s = .ok (subscribe D ord x s).st.pub ∧ Calm (subscribe D ord x s).st := by
  obtain ⟨p, k⟩ := x
  obtain ⟨hk, hq⟩ := hx
  simp only at hk hq
  subst hk
  have hg : (greet D (p.record (.subscribe p.count)) s).panicked = false := by
    cases hg : (greet D (p.record (.subscribe p.count)) s).panicked with
    | false => rfl
    | true => simp [subscribe, Out.andThen, hg] at h
  have hok := greet_ok hg
  have hgq : (greet D (p.record (.subscribe p.count)) s).st.queue = [] := greet_frame.1.trans hq
  unfold Publish.State.subscribe
  rw [empty_tryApply hq]
  dsimp only
  rw [hok]
  unfold subscribe at h ⊢
  simp only [Out.andThen, hg, Bool.false_eq_true, if_false] at h ⊢
  by_cases hc : (greet D (p.record (.subscribe p.count)) s).st.isClosed = true
  · rw [if_pos hc, if_pos hc]
    exact ⟨rfl, rfl, hgq⟩
  · rw [if_neg hc] at h ⊢
    rw [if_neg hc]
    simp only [Option.isSome_none, Bool.false_eq_true, if_false] at h ⊢
    unfold Publish.State.tryAdd
    rw [empty_applyQueue (by exact hgq)]
    dsimp only
    refine ⟨empty_tryApply hgq, ⟨rfl, hgq⟩⟩

theorem cancel_ok {x : State S I E} (hx : Calm x) (i : Nat) (h : (cancel D ord x i).panicked = false) :
    x.pub.cancel D.steady ord i = .ok (cancel D ord x i).st.pub ∧ Calm (cancel D ord x i).st := by
  obtain ⟨p, k⟩ := x
  obtain ⟨hk, hq⟩ := hx
  simp only at hk hq
  subst hk
  have hr : (p.record (.cancel i)).queue = [] := hq
  unfold Publish.State.cancel Publish.State.tryCancel
  unfold cancel at h ⊢
  dsimp only at h ⊢
  by_cases hc : (!(p.record (.cancel i)).held i || D.isClosed ((p.record (.cancel i)).dest i)) = true
  · rw [if_pos (by exact hc), if_pos (by simpa using hc)]
    exact ⟨rfl, rfl, hr⟩
  · rw [if_neg (by simpa using hc)] at h
    rw [if_neg (by exact hc), empty_applyQueue hr, if_neg (by simpa using hc)]
    simp only [Option.isSome_none, Bool.false_eq_true, if_false] at h ⊢
    cases hp : (locked (apply D ord (p.record (.cancel i)).now (p.record (.cancel i)) (.cancel i))).panicked with
    | true => simp [Out.andThen, hp] at h
    | false =>
      have ha := apply_ok (D := D) (ord := ord) (p.record (.cancel i)).now (p.record (.cancel i)) (.cancel i)
        (by simpa [locked] using hp)
      rw [ha]
      have hcalm := locked_calm hp ((apply_queue _ _ _).trans hr)
      simp only [Out.andThen, hp, Bool.false_eq_true, if_false]
      exact ⟨rfl, hcalm.poisoned, hcalm.queue⟩

theorem step_ok {x : State S I E} (hx : Calm x) (op : Publish.Op S I E) (h : (step D ord x op).panicked = false) :
    Publish.step D.steady ord x.pub op = .ok (step D ord x op).st.pub ∧ Calm (step D ord x op).st := by
  cases op with
  | note n => exact note_ok hx n h
  | subscribe s => exact subscribe_ok hx s h
  | cancel i => exact cancel_ok hx i h

theorem run_ok {x : State S I E} (hx : Calm x) (ops : List (Publish.Op S I E)) (h : ∀ b ∈ (run D ord x ops).2, b = false) :
    Publish.run D.steady ord x.pub ops = .ok (run D ord x ops).1.pub ∧ Calm (run D ord x ops).1 := by
  induction ops generalizing x with
  | nil => exact ⟨rfl, hx⟩
  | cons op ops ih =>
    simp only [run] at h ⊢
    obtain ⟨h1, h2⟩ := step_ok hx op (h _ (List.mem_cons_self ..))
    have := ih h2 fun b hb => h b (List.mem_cons_of_mem _ hb)
    refine ⟨?_, this.2⟩
    simp only [Publish.run, List.foldlM_cons, h1]
    exact this.1

theorem run_append (x : State S I E) (a b : List (Publish.Op S I E)) :
    run D ord x (a ++ b) =
      ((run D ord (run D ord x a).1 b).1, (run D ord x a).2 ++ (run D ord (run D ord x a).1 b).2) := by
  induction a generalizing x with
  | nil => rfl
  | cons op a ih => simp [run, ih]

/-- `y` comes after `x`, and nobody who was there heard anything in between. -/
structure Silent (x y : State S I E) : Prop where
  poisoned : y.poisoned = x.poisoned
  members : y.pub.members = x.pub.members
  count : x.pub.count ≤ y.pub.count
  dest : ∀ i, i < x.pub.count → y.pub.dest i = x.pub.dest i
  given : ∀ i, i < x.pub.count → givenTo i y.pub.log = givenTo i x.pub.log
  queue : x.pub.queue <+: y.pub.queue

theorem Silent.refl (x : State S I E) : Silent x x :=
  ⟨rfl, rfl, Nat.le_refl _, fun _ _ => rfl, fun _ _ => rfl, List.prefix_rfl⟩

theorem Silent.trans {x y z : State S I E} (h : Silent x y) (k : Silent y z) : Silent x z :=
  ⟨k.poisoned.trans h.poisoned, k.members.trans h.members, Nat.le_trans h.count k.count,
    fun i hi => (k.dest i (Nat.lt_of_lt_of_le hi h.count)).trans (h.dest i hi),
    fun i hi => (k.given i (Nat.lt_of_lt_of_le hi h.count)).trans (h.given i hi), h.queue.trans k.queue⟩

theorem defer_frame (x : Publish.State S I E) (d : Publish.Deferred I E) :
    (x.defer d).members = x.members ∧ (x.defer d).count = x.count ∧ (x.defer d).dest = x.dest ∧ (x.defer d).log = x.log ∧
      x.queue <+: (x.defer d).queue := by
  unfold Publish.State.defer
  split
  · exact ⟨rfl, rfl, rfl, rfl, List.prefix_rfl⟩
  · exact ⟨rfl, rfl, rfl, rfl, List.prefix_append _ _⟩

theorem noteLocked_frame (x : Publish.State S I E) (n : SubscriberNotification I E) :
    (x.noteLocked n).members = x.members ∧ (x.noteLocked n).count = x.count ∧ (x.noteLocked n).dest = x.dest ∧
      (x.noteLocked n).log = x.log ∧ x.queue <+: (x.noteLocked n).queue := by
  cases n <;>
    (simp only [Publish.State.noteLocked]
     split
     · exact ⟨rfl, rfl, rfl, rfl, List.prefix_rfl⟩
     · exact defer_frame _ _)

theorem step_dead {x : State S I E} (h : x.poisoned.isSome = true) (op : Publish.Op S I E) :
    Silent x (step D ord x op).st := by
  cases op with
  | note n =>
    simp only [step, note, h, if_true]
    obtain ⟨h1, h2, h3, h4, h5⟩ := noteLocked_frame x.pub n
    exact ⟨rfl, h1, Nat.le_of_eq h2.symm, fun i _ => by rw [h3], fun i _ => by rw [h4], h5⟩
  | subscribe s =>
    obtain ⟨g1, g2, g3, -, -, g6, g7⟩ := greet_frame (D := D) (x := x.pub.record (.subscribe x.pub.count)) (s := s)
    have hcount : x.pub.count ≤ (greet D (x.pub.record (.subscribe x.pub.count)) s).st.count := by
      rw [g3]; exact Nat.le_succ _
    have base : Silent x ⟨(greet D (x.pub.record (.subscribe x.pub.count)) s).st, x.poisoned⟩ :=
      ⟨rfl, g2, hcount, fun i hi => g6 i (Nat.ne_of_lt hi), fun i hi => g7 i (Nat.ne_of_lt hi), by rw [g1]; exact List.prefix_rfl⟩
    simp only [step, subscribe, Out.andThen]
    split
    · exact base
    · split
      · exact base
      · obtain ⟨h1, h2, h3, h4, h5⟩ := defer_frame
          { (greet D (x.pub.record (.subscribe x.pub.count)) s).st with
            held := fun k => if k = x.pub.count then true
              else (greet D (x.pub.record (.subscribe x.pub.count)) s).st.held k } (.add x.pub.count)
        exact ⟨rfl, h1.trans base.members, Nat.le_trans base.count (Nat.le_of_eq h2.symm),
          fun i hi => (congrFun h3 i).trans (base.dest i hi), fun i hi => (congrArg (givenTo i) h4).trans (base.given i hi),
          base.queue.trans h5⟩
  | cancel i =>
    simp only [step, cancel]
    split
    · exact ⟨rfl, rfl, Nat.le_refl _, fun _ _ => rfl, fun _ _ => rfl, List.prefix_rfl⟩
    · obtain ⟨h1, h2, h3, h4, h5⟩ := defer_frame (x.pub.record (.cancel i)) (.cancel i)
      exact ⟨rfl, h1, Nat.le_of_eq h2.symm, fun k _ => congrFun h3 k, fun k _ => congrArg (givenTo k) h4, h5⟩

theorem run_dead {x : State S I E} (h : x.poisoned.isSome = true) (ops : List (Publish.Op S I E)) :
    Silent x (run D ord x ops).1 := by
  induction ops generalizing x with
  | nil => exact Silent.refl x
  | cons op ops ih =>
    have hs := step_dead (D := D) (ord := ord) h op
    exact hs.trans (ih (by rw [hs.poisoned]; exact h))

theorem step_nodup {x : State S I E} (h : x.pub.members.Nodup) (op : Publish.Op S I E) :
    (step D ord x op).st.pub.members.Nodup := by
  have ha : ∀ (c : Nat) (z : Publish.State S I E) (d : Publish.Deferred I E), z.members.Nodup →
      (apply D ord c z d).1.members.Nodup := by
    intro c z d hz
    cases d with
    | note n =>
      cases n with
      | unsubscribe =>
        simp only [apply]
        rw [(giveAll_frame _ _ _ _).1]; exact List.nodup_nil
      | next v => simp only [apply]; rw [(giveAll_frame _ _ _ _).1]; exact hz
      | error e => simp only [apply]; rw [(giveAll_frame _ _ _ _).1]; exact hz
      | complete => simp only [apply]; rw [(giveAll_frame _ _ _ _).1]; exact hz
    | cancel i =>
      simp only [apply]
      split
      · rw [(giveAll_frame _ _ _ _).1]; exact hz.filter _
      · exact hz
    | add i =>
      simp only [apply]
      rw [List.nodup_append]
      refine ⟨hz.filter _, by simp, ?_⟩
      intro a ha b hb
      simp only [List.mem_singleton] at hb
      subst hb
      have := (List.mem_filter.1 ha).2
      simpa using this
  cases hp : x.poisoned.isSome with
  | true => rw [(step_dead hp op).members]; exact h
  | false =>
    cases op with
    | note n =>
      cases n <;>
        (simp only [step, note, hp, Bool.false_eq_true, if_false]
         split
         · exact h
         · exact ha _ _ _ h)
    | subscribe s =>
      have g2 := (greet_frame (D := D) (x := x.pub.record (.subscribe x.pub.count)) (s := s)).2.1
      have hg : (greet D (x.pub.record (.subscribe x.pub.count)) s).st.members.Nodup := by rw [g2]; exact h
      simp only [step, subscribe, Out.andThen]
      split
      · exact hg
      · split
        · exact hg
        · rw [hp]
          exact ha _ _ _ hg
    | cancel i =>
      simp only [step, cancel]
      split
      · exact h
      · rw [hp]
        simp only [Bool.false_eq_true, if_false, Out.andThen]
        split
        · exact ha _ (x.pub.record (.cancel i)) _ h
        · exact ha _ (x.pub.record (.cancel i)) _ h

theorem run_nodup {x : State S I E} (h : x.pub.members.Nodup) (ops : List (Publish.Op S I E)) :
    (run D ord x ops).1.pub.members.Nodup := by
  induction ops generalizing x with
  | nil => exact h
  | cons op ops ih => exact ih (step_nodup h op)

end Subject

/-! ## Who panics -/

theorem Subject.giveAll_blames (D : Fragile S I E) (c : Nat) (n : SubscriberNotification I E) (l : List Nat) (x : Publish.State S I E) (j : Nat)
    (h : (Subject.giveAll D c n l x).2 = some j) : Blames D (Subject.giveAll D c n l x).1 := by
  induction l generalizing x with
  | nil => cases h
  | cons k l ih =>
    rw [Subject.giveAll] at h ⊢
    split
    · rename_i hc
      rw [if_pos hc] at h
      exact ih x h
    · rename_i hc
      rw [if_neg hc] at h
      dsimp only at h ⊢
      split
      · rename_i hp
        exact ⟨x.log, c, k, n, x.dest k, rfl, hp, by simp [Publish.State.setDest]⟩
      · rename_i hp
        rw [if_neg hp] at h
        exact ih _ h

theorem Subject.apply_blames (D : Fragile S I E) (ord) (c : Nat) (x : Publish.State S I E) (d : Publish.Deferred I E) (j : Nat)
    (h : (Subject.apply D ord c x d).2 = some j) : Blames D (Subject.apply D ord c x d).1 := by
  cases d with
  | note n => cases n <;> exact giveAll_blames D c _ _ _ j h
  | cancel i =>
    simp only [Subject.apply] at h ⊢
    split
    · rename_i hi
      rw [if_pos hi] at h
      exact giveAll_blames D c _ _ _ j h
    · rename_i hi
      rw [if_neg hi] at h
      cases h
  | add i => cases h

theorem Subject.locked_blames (D : Fragile S I E) (ord) (c : Nat) (x : Publish.State S I E) (d : Publish.Deferred I E)
    (h : (Subject.locked (Subject.apply D ord c x d)).panicked = true) : Blames D (Subject.locked (Subject.apply D ord c x d)).st.pub := by
  obtain ⟨j, hj⟩ := Option.isSome_iff_exists.1 h
  exact apply_blames D ord c x d j hj

theorem Subject.note_blames (D : Fragile S I E) (ord) (x : Subject.State S I E) (n : SubscriberNotification I E)
    (h : (Subject.note D ord x n).panicked = true) : Blames D (Subject.note D ord x n).st.pub := by
  unfold Subject.note at h ⊢
  split
  · rename_i hp
    rw [if_pos hp] at h
    cases h
  · rename_i hp
    rw [if_neg hp] at h
    dsimp only at h ⊢
    cases n <;> dsimp only at h ⊢ <;> split at h <;> rename_i hc
    all_goals first
      | cases h
      | (rw [if_neg hc]; exact locked_blames D ord _ _ _ h)

theorem Subject.greet_blames (D : Fragile S I E) (x : Publish.State S I E) (s : S)
    (h : (Subject.greet D x s).panicked = true) : Blames D (Subject.greet D x s).st := by
  unfold Subject.greet at h ⊢
  dsimp only at h ⊢
  have ht : (∃ n, Subject.told x = [n]) ∨ Subject.told x = [] := by
    unfold Subject.told
    split
    · exact .inl ⟨_, rfl⟩
    · split
      · exact .inl ⟨_, rfl⟩
      · exact .inr rfl
  rcases ht with ⟨n, ht⟩ | ht
  · rw [ht] at h ⊢
    dsimp only at h ⊢
    split
    · rename_i hp
      exact ⟨x.log, x.now, x.count, n, s, by simp [Publish.State.setDest], hp, by simp [Publish.State.setDest]⟩
    · rename_i hp
      rw [if_neg hp] at h
      split
      · rename_i hc
        rw [if_pos hc] at h
        exact ⟨_, _, x.count, .unsubscribe, (D.push s n).st, rfl, h, by simp [Publish.State.setDest]⟩
      · rename_i hc
        rw [if_neg hc] at h
        cases h
  · rw [ht] at h ⊢
    dsimp only at h ⊢
    rw [if_neg (by simp)] at h ⊢
    split
    · rename_i hc
      rw [if_pos hc] at h
      exact ⟨_, _, x.count, .unsubscribe, s, rfl, h, by simp [Publish.State.setDest]⟩
    · rename_i hc
      rw [if_neg hc] at h
      cases h

end Rx.Panics
