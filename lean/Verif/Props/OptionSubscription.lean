import Verif.Model.OptionSubscription
import Verif.Props.Foundations

/-!
# C03: subscriptions that may be absent
-/

namespace Rx

/-- What subscriptions promise (C03): unsubscribing and dropping close them and are the same, doing so again has no effect, and
what is added then is called at once. -/
structure AnySubscription.Lawful {S : Type} (A : AnySubscription S) : Prop where
  closes : ∀ s, A.isClosed (A.unsubscribe s).1 = true
  drops : ∀ s, (A.drop s).2 = (A.unsubscribe s).2 ∧ A.isClosed (A.drop s).1 = true
  again : ∀ s, A.isClosed s = true → (A.unsubscribe s).2 = []
  late : ∀ s t, A.isClosed s = true → (A.addTeardown s t).2 = t.execute ∧ A.isClosed (A.addTeardown s t).1 = true

theorem optionSubscription_none {S : Type} (A : AnySubscription S) (hA : A.Lawful) : ∀ (ops : List SubscriptionOp) (s : S),
    A.isClosed s = true → (optionSubscription A).run none ops = A.run s ops
  | [], _, _ => rfl
  | op :: ops, s, h => by
    have key : ((optionSubscription A).step none op) = (none, (A.step s op).2) ∧ A.isClosed (A.step s op).1 = true := by
      cases op with
      | add t => exact ⟨by rw [AnySubscription.step, AnySubscription.step, (hA.late s t h).1]; rfl, (hA.late s t h).2⟩
      | unsubscribe => exact ⟨by rw [AnySubscription.step, AnySubscription.step, hA.again s h]; rfl, hA.closes s⟩
      | drop => exact ⟨by rw [AnySubscription.step, AnySubscription.step, (hA.drops s).1, hA.again s h]; rfl, (hA.drops s).2⟩
    rw [AnySubscription.run, AnySubscription.run, key.1, key.2, optionSubscription_none A hA ops _ key.2]
    rfl

/-- **C03 (f)** a subscription to `Some` observable is as the subscription to the observable: the same teardowns are called by
the same calls, and `is_closed` says the same after each of them, whatever kind of subscription it is. -/
theorem C03_option_some {S : Type} (A : AnySubscription S) (hA : A.Lawful) (ops : List SubscriptionOp) (s : S) :
    (optionSubscription A).run (some s) ops = A.run s ops := by
  induction ops generalizing s with
  | nil => rfl
  | cons op ops ih =>
    cases op with
    | add t => exact congrArg (_ :: ·) (ih _)
    | unsubscribe =>
      have h0 : (A.drop (A.unsubscribe s).1).2 = [] := (hA.drops _).1.trans (hA.again _ (hA.closes s))
      have e : (optionSubscription A).step (some s) .unsubscribe = (none, (A.unsubscribe s).2) := by
        show ((none : Option S), (A.unsubscribe s).2 ++ (A.drop (A.unsubscribe s).1).2) = _
        rw [h0, List.append_nil]
      have hc : A.isClosed (A.step s .unsubscribe).1 = true := hA.closes s
      rw [AnySubscription.run, AnySubscription.run, e, hc, optionSubscription_none A hA ops _ hc]
      rfl
    | drop =>
      have h0 : (A.drop (A.unsubscribe s).1).2 = [] := (hA.drops _).1.trans (hA.again _ (hA.closes s))
      have e : (optionSubscription A).step (some s) .drop = (none, (A.step s .drop).2) := by
        show ((none : Option S), (A.unsubscribe s).2 ++ (A.drop (A.unsubscribe s).1).2) = (none, (A.drop s).2)
        rw [h0, List.append_nil, (hA.drops s).1]
      have hc : A.isClosed (A.step s .drop).1 = true := (hA.drops s).2
      rw [AnySubscription.run, AnySubscription.run, e, hc, optionSubscription_none A hA ops _ hc]
      rfl

/-- **C03 (g)** a subscription to `None` is closed from the start, and every teardown added to it is called at once. -/
theorem C03_option_none {O S : Type} (A : AnySubscription S) (subscribe : O → S) (ops : List SubscriptionOp) :
    (optionSubscription A).isClosed (optionSubscribe subscribe none) = true ∧
    (optionSubscription A).run (optionSubscribe subscribe none) ops =
      ops.map fun | .add (some t) => ([t], true) | _ => ([], true) := by
  refine ⟨rfl, ?_⟩
  show (optionSubscription A).run none ops = _
  induction ops with
  | nil => rfl
  | cons op ops ih =>
    cases op with
    | add t => cases t <;> exact congrArg (_ :: ·) ih
    | unsubscribe => exact congrArg (_ :: ·) ih
    | drop => exact congrArg (_ :: ·) ih

/-- The hypothesis is met by `SubscriptionData`. -/
example : SubscriptionData.any.Lawful where
  closes s := by
    show s.unsubscribe.1.isClosed = true
    unfold SubscriptionData.unsubscribe
    cases h : s.isClosed with
    | true => exact h
    | false => rfl
  drops s := by
    show s.drop.2 = s.unsubscribe.2 ∧ s.drop.1.isClosed = true
    unfold SubscriptionData.drop SubscriptionData.unsubscribe
    cases h : s.isClosed with
    | true => exact ⟨rfl, h⟩
    | false => exact ⟨rfl, rfl⟩
  again s h := by
    show s.unsubscribe.2 = []
    unfold SubscriptionData.unsubscribe
    rw [show s.isClosed = true from h]; rfl
  late s t h := by
    show (s.addTeardown t).2 = t.execute ∧ (s.addTeardown t).1.isClosed = true
    unfold SubscriptionData.addTeardown
    rw [if_pos (by exact h)]; exact ⟨rfl, h⟩

example : (optionSubscription SubscriptionData.any).run (some .default) [.add (some 1), .unsubscribe, .add (some 2), .drop] =
    [([], false), ([1], true), ([2], true), ([], true)] := by decide +kernel

end Rx
