import Verif.Lemmas.LatestWiringTold
import Verif.Props.Combine

/-!
# C85: what with_latest_from holds on to
-/

namespace Rx.LatestWiring

open Rx Rx.Wiring

variable {A B F S α : Type} {D : Sub S (A × B) F} {obs : S → α} {Inv : S → Prop}


/-- The full statement of C85: once the destination is closed, or the handle was unsubscribed, or the subscriber was
dropped, the inner observable is not listened to any more. It is false, see the counterexamples below. -/
def ReleasedStatement : Prop :=
  ∀ (k : Kind) (l2 : List (SubscriberNotification Nat Nat)) (l1 : List (SubscriberNotification Nat Nat)) (acts : List (Act Nat Nat Nat Nat)),
    let D := observerSubscriber (Nat × Nat) Nat
    let w := run k D ObsState.new l2 l1 acts
    D.isClosed w.s = true ∨ Act.unsubscribe ∈ acts ∨ Act.drop ∈ acts → w.p2 ≠ .live

/-- C85, in part: if the handle is unsubscribed, or the subscriber dropped, while the destination is open, then the inner
observable is unsubscribed, and the destination closed, for good. -/
theorem C85_unsubscribe_partial (k : Kind) (hD : Lawful D obs Inv true) {s : S} (hs : Inv s) (l2 : List (SubscriberNotification B F))
    (l1 : List (SubscriberNotification A F)) (a b : List (Act A F B F)) (c : Act A F B F) (hc : c = .unsubscribe ∨ c = .drop)
    (ho : D.isClosed (run k D s l2 l1 a).s = false) :
    (run k D s l2 l1 (a ++ c :: b)).p2 = .gone ∧ D.isClosed (run k D s l2 l1 (a ++ c :: b)).s = true := by
  have h := run_ok k hD hs l2 l1 a
  rw [run_append, List.foldl_cons]
  generalize run k D s l2 l1 a = w at *
  obtain ⟨_, h2, h3, _, _, _⟩ := leave_ok hD h.inv
  have hp : w.p1 ≠ .gone := fun e => by have := h.closed e; rw [ho] at this; cases this
  have hd : w.dropped = false := by
    cases e : w.dropped
    · rfl
    · exact absurd (h.drop e) hp
  have h1 := act_ok k hD h c
  have key : (w.act k D c).p2 = .gone ∧ D.isClosed (w.act k D c).s = true := by
    rcases hc with rfl | rfl
    · simp only [World.act, if_neg hp, World.release, ho, Bool.and_false, Bool.false_eq_true, if_false]
      exact ⟨h3, h2⟩
    · simp only [World.act, hd, ho, Bool.false_eq_true, if_false]
      exact ⟨by split; rfl; exact h3, h2⟩
  have h4 := acts_ok k hD b h1.ok
  exact ⟨h4.gone key.1, by rw [h4.shut key.2]; exact key.2⟩

/-- C85, in part: with a source that does not ask whether its subscriber is closed, unsubscribing the handle always
unsubscribes the inner observable, provided that nothing else has made the source let go of its subscriber. -/
theorem C85_plain_source_partial (k : Kind) (hk : k.asksFirst = false) (hD : Lawful D obs Inv true) {s : S} (hs : Inv s)
    (l2 : List (SubscriberNotification B F)) (l1 : List (SubscriberNotification A F)) (a b : List (Act A F B F))
    (ho : (run k D s l2 l1 a).p1 ≠ .gone) :
    (run k D s l2 l1 (a ++ .unsubscribe :: b)).p2 = .gone := by
  have h := run_ok k hD hs l2 l1 a
  rw [run_append, List.foldl_cons]
  generalize run k D s l2 l1 a = w at *
  have h1 := act_ok k hD h .unsubscribe
  refine (acts_ok k hD b h1.ok).gone ?_
  simp only [World.act, if_neg ho, World.release, hk, Bool.false_and, Bool.false_eq_true, if_false]
  rfl

/-- C85, in part: when the subscriber is dropped, and the inner subscription is of the kind that unsubscribes when it is dropped,
the inner observable is unsubscribed. -/
theorem C85_drop_partial (k : Kind) (hk : k.letsGo = true) (hD : Lawful D obs Inv true) {s : S} (hs : Inv s)
    (l2 : List (SubscriberNotification B F)) (l1 : List (SubscriberNotification A F)) (a b : List (Act A F B F)) :
    (run k D s l2 l1 (a ++ .drop :: b)).p2 = .gone := by
  have hgone : ∀ (l : List (Act A F B F)) (w : World B S), Ok D Inv w → (w.dropped = true → w.p2 = .gone) →
      ((l.foldl (World.act k D) w).dropped = true → (l.foldl (World.act k D) w).p2 = .gone) := by
    intro l
    induction l with
    | nil => exact fun w _ h => h
    | cons c l ih =>
      intro w hw h
      have h1 := act_ok k hD hw c
      refine ih _ h1.ok fun e => ?_
      by_cases hd : w.dropped = true
      · exact h1.gone (h hd)
      · cases c with
        | drop => simp only [World.act, if_neg hd, hk, if_true]
        | send1 n =>
          simp only [World.act, World.send1] at e
          split at e
          · cases n <;> first | exact absurd e hd | (simp only [World.release] at e; split at e <;> exact absurd e hd)
          · exact absurd e hd
        | send2 n => simp only [World.act, World.send2] at e; split at e <;> exact absurd e hd
        | unsubscribe => simp only [World.act, World.release] at e; split at e; exact absurd e hd; split at e <;> exact absurd e hd
        | shut => exact absurd e hd
  have h := run_ok k hD hs l2 l1 a
  have h0 : (World.subscribe k D s l2 l1).dropped = false := by
    have q1 : ∀ (l : List (SubscriberNotification B F)) (w : World B S), (l.foldl (World.send2 D) w).dropped = w.dropped := by
      intro l
      induction l with
      | nil => exact fun _ => rfl
      | cons n l ih => intro w; rw [List.foldl_cons, ih]; unfold World.send2; split <;> rfl
    have q2 : ∀ (l : List (SubscriberNotification A F)) (w : World B S), (l.foldl (World.send1 k D) w).dropped = w.dropped := by
      intro l
      induction l with
      | nil => exact fun _ => rfl
      | cons n l ih =>
        intro w; rw [List.foldl_cons, ih]; unfold World.send1; split
        · cases n <;> first | rfl | (simp only [World.release]; split <;> rfl)
        · rfl
    rw [World.subscribe, q2]; exact q1 l2 _
  have h1 := hgone a (World.subscribe k D s l2 l1) (subscribe_ok k hD hs l2 l1) (fun e => by rw [h0] at e; cases e)
  rw [run_append, List.foldl_cons]
  have h2 := act_ok k hD h (.drop : Act A F B F)
  refine (acts_ok k hD b h2.ok).gone ?_
  by_cases hd : (run k D s l2 l1 a).dropped = true
  · exact h2.gone (h1 hd)
  · simp only [World.act, if_neg hd, hk, if_true]

/-- C85: the inner observable is not unsubscribed for any other reason: if it is, then it said so itself, or the handle was
unsubscribed, or the subscriber was dropped, or the source unsubscribed its subscriber. -/
theorem C85_not_before (k : Kind) (D : Sub S (A × B) F) (s : S) (l2 : List (SubscriberNotification B F))
    (l1 : List (SubscriberNotification A F)) (acts : List (Act A F B F)) (hg : (run k D s l2 l1 acts).p2 = .gone) :
    .unsubscribe ∈ l2 ∨ .unsubscribe ∈ l1 ∨ .unsubscribe ∈ acts ∨ .drop ∈ acts ∨ .send1 .unsubscribe ∈ acts ∨
      .send2 .unsubscribe ∈ acts := by
  have s1 : ∀ (w : World B S) n, (w.send1 k D n).p2 = .gone → w.p2 = .gone ∨ n = .unsubscribe := by
    intro w n h
    unfold World.send1 at h
    split at h
    · cases n <;> first | exact Or.inl h | exact Or.inr rfl
    · exact Or.inl h
  have s2 : ∀ (w : World B S) n, (w.send2 D n).p2 = .gone → w.p2 = .gone ∨ n = .unsubscribe := by
    intro w n h
    unfold World.send2 at h
    split at h
    · cases n <;> first | exact Or.inr rfl | cases h
    · exact Or.inl h
  have q1 : ∀ (l : List (SubscriberNotification B F)) (w : World B S), (l.foldl (World.send2 D) w).p2 = .gone → w.p2 = .gone ∨ .unsubscribe ∈ l := by
    intro l
    induction l with
    | nil => exact fun _ h => Or.inl h
    | cons n l ih =>
      intro w h
      rcases ih _ h with h | h
      · rcases s2 w n h with h | h
        · exact Or.inl h
        · exact Or.inr (by simp [h])
      · exact Or.inr (List.mem_cons_of_mem _ h)
  have q2 : ∀ (l : List (SubscriberNotification A F)) (w : World B S), (l.foldl (World.send1 k D) w).p2 = .gone → w.p2 = .gone ∨ .unsubscribe ∈ l := by
    intro l
    induction l with
    | nil => exact fun _ h => Or.inl h
    | cons n l ih =>
      intro w h
      rcases ih _ h with h | h
      · rcases s1 w n h with h | h
        · exact Or.inl h
        · exact Or.inr (by simp [h])
      · exact Or.inr (List.mem_cons_of_mem _ h)
  have q3 : ∀ (l : List (Act A F B F)) (w : World B S), (l.foldl (World.act k D) w).p2 = .gone → w.p2 = .gone ∨
      .unsubscribe ∈ l ∨ .drop ∈ l ∨ .send1 .unsubscribe ∈ l ∨ .send2 .unsubscribe ∈ l := by
    intro l
    induction l with
    | nil => exact fun _ h => Or.inl h
    | cons c l ih =>
      intro w h
      rcases ih _ h with h | h
      · cases c with
        | send1 n =>
          rcases s1 w n h with h | h
          · exact Or.inl h
          · exact Or.inr (by simp [h])
        | send2 n =>
          rcases s2 w n h with h | h
          · exact Or.inl h
          · exact Or.inr (by simp [h])
        | unsubscribe => exact Or.inr (by simp)
        | shut => exact Or.inl h
        | drop => exact Or.inr (by simp)
      · right; rcases h with h | h | h | h <;> simp [h]
  rcases q3 acts _ hg with h | h
  · rcases q2 l1 _ h with h | h
    · rcases q1 l2 _ h with h | h
      · cases h
      · exact Or.inl h
    · exact Or.inr (Or.inl h)
  · exact Or.inr (Or.inr h)

/-- C85: in all this the destination is told what with_latest_from says for what the inputs have said, unsubscribing the
handle, closing the destination and dropping the subscriber counting as the source being unsubscribed. -/
theorem C85_told (k : Kind) (hD : Lawful D obs Inv true) {s : S} (hs : Inv s) (l2 : List (SubscriberNotification B F))
    (l1 : List (SubscriberNotification A F)) (acts : List (Act A F B F)) :
    obs (run k D s l2 l1 acts).s = obs (D.run s (Spec.withLatestRule.deliver (Spec.saidLatest l2 l1 acts))) ∧
      D.isClosed (run k D s l2 l1 acts).s = D.isClosed (D.run s (Spec.withLatestRule.deliver (Spec.saidLatest l2 l1 acts))) := by
  have t := told_run k hD hs l2 l1 acts
  rw [t.s]
  exact C38_with_latest_from_delivers D obs Inv hD s hs _ t.conf

/-! ## Cases -/

/-- What there is to see on a fresh observer. -/
structure Seen where
  calls : List (ObserverNotification (Nat × Nat) Nat)
  source : Phase
  inner : Phase
  destinationClosed : Bool
deriving DecidableEq

def seenOf (k : Kind) (l2 l1 : List (SubscriberNotification Nat Nat)) (acts : List (Act Nat Nat Nat Nat)) : Seen :=
  let w := run k (observerSubscriber (Nat × Nat) Nat) ObsState.new l2 l1 acts
  ⟨w.s.seen, w.p1, w.p2, (observerSubscriber (Nat × Nat) Nat).isClosed w.s⟩

/-- The observer is a destination as the theorems want it. -/
example : Lawful (observerSubscriber (Nat × Nat) Nat) ObsState.seen (fun _ => True) true :=
  observerSubscriber_lawful _ _

-- the handle is unsubscribed while the destination is open
example : seenOf ⟨true, true⟩ [.next 10] [.next 1] [.send2 (.next 20), .send1 (.next 2), .unsubscribe, .send2 (.next 30)] =
    ⟨[.next (1, 10), .next (2, 20)], .gone, .gone, true⟩ := by decide +kernel

-- what the inputs say in that case, and what the rule makes of it
example : Spec.saidLatest [.next 10] [.next 1] [.send2 (.next 20), .send1 (.next 2), .unsubscribe, .send1 (.next 3)] =
    ([.o2 (.next 10), .o1 (.next 1), .o2 (.next 20), .o1 (.next 2), .o1 .unsubscribe] : List (Either2 Nat Nat Nat Nat)) := by decide +kernel

example : Spec.withLatestRule.deliver
    ([.o2 (.next 10), .o1 (.next 1), .o2 (.next 20), .o1 (.next 2), .o1 .unsubscribe] : List (Either2 Nat Nat Nat Nat)) =
    [.next (1, 10), .next (2, 20), .unsubscribe] := by decide +kernel

-- nothing is let go of while values come in
example : seenOf ⟨true, true⟩ [.next 10] [.next 1] [.send2 (.next 20), .send1 (.next 2)] =
    ⟨[.next (1, 10), .next (2, 20)], .live, .live, false⟩ := by decide +kernel

-- a source that does not ask: unsubscribing helps although the destination is closed
example : seenOf ⟨false, true⟩ [.next 10] [] [.send1 .complete, .unsubscribe] = ⟨[.complete], .gone, .gone, true⟩ := by decide +kernel

-- the subscriber is dropped
example : seenOf ⟨true, true⟩ [.next 10] [] [.send1 .complete, .drop] = ⟨[.complete], .gone, .gone, true⟩ := by decide +kernel

/-- C85 is violated: the source, a subject, completes, which completes the destination. The inner observable, say an
interval, stays subscribed, and unsubscribing the handle does not change that, because the source finds its subscriber
closed. -/
theorem C85_complete_counterexample :
    seenOf ⟨true, true⟩ [.next 10] [.next 1] [.send1 .complete, .unsubscribe, .send2 (.next 20)] =
      ⟨[.next (1, 10), .complete], .gone, .live, true⟩ := by decide +kernel

/-- C85 is violated when the destination is unsubscribed from its side, as `take` does with what is before it. -/
theorem C85_closed_counterexample :
    seenOf ⟨true, true⟩ [.next 10] [.next 1] [.shut, .unsubscribe, .send2 (.next 20)] =
      ⟨[.next (1, 10)], .gone, .live, true⟩ := by decide +kernel

/-- C85 is violated even if all is dropped, when the inner observable is one whose subscription does not unsubscribe on
drop, such as a combination. -/
theorem C85_drop_counterexample :
    seenOf ⟨true, false⟩ [.next 10] [.next 1] [.send1 .complete, .unsubscribe, .drop, .send2 (.next 20)] =
      ⟨[.next (1, 10), .complete], .gone, .live, true⟩ := by decide +kernel

theorem C85_released_counterexample : ¬ ReleasedStatement := by
  intro h
  have := h ⟨true, true⟩ [.next 10] [.next 1] [.send1 .complete] (Or.inl (by decide +kernel))
  revert this
  decide +kernel

end Rx.LatestWiring
