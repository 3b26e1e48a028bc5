import Verif.Lemmas.CombineWiring
import Verif.Lemmas.Lawful

/-!
# C83: what combinations hold on to
-/

namespace Rx.Wiring

open Rx Spec

variable {A E₁ B E₂ O F S α : Type} {D : Sub S (A × B) F} {obs : S → α} {Inv : S → Prop}

/-- C83. combine_latest: whatever the inputs send while they are subscribed to and afterwards, whoever
unsubscribes the handle or the destination, and whether or not that is done by an observer that is being
called: there is no panic; once the destination is closed or the handle was unsubscribed, both inputs are
unsubscribed, and not otherwise; the destination is told what the rule says; and it is closed when the handle is. -/
theorem C83_combine_latest (hD : Lawful D obs Inv true) {s : S} (hs : Inv s) (i₁ : E₁ → F) (i₂ : E₂ → F) (asks : S → Bool)
    (l1 : List (SubscriberNotification A E₁)) (l2 : List (SubscriberNotification B E₂)) (acts : List (Act A E₁ B E₂)) :
    ∃ w, run (combineLatestCombiner i₁ i₂) D asks s l1 l2 acts = some w ∧
      Outcome (combineLatestActualRule i₁ i₂) D obs asks s l1 l2 acts w ∧ (w.closed = true → D.isClosed w.s = true) := by
  obtain ⟨w, h1, h2, _, _, h3⟩ := run_ok (combineLatest_implements i₁ i₂) (tame_latest i₁ i₂) hD asks hs l1 l2 acts
    (fun _ _ _ _ => fits_any)
  exact ⟨w, h1, h2, fun hc => closes_ok h3 hc (ends_latest i₁ i₂)⟩

/-- C83. combine_changes: likewise. -/
theorem C83_combine_changes {D : Sub S (Change A × Change B) F} (hD : Lawful D obs Inv true) {s : S} (hs : Inv s) (i₁ : E₁ → F) (i₂ : E₂ → F)
    (asks : S → Bool) (l1 : List (SubscriberNotification A E₁)) (l2 : List (SubscriberNotification B E₂)) (acts : List (Act A E₁ B E₂)) :
    ∃ w, run (combineChangesCombiner i₁ i₂) D asks s l1 l2 acts = some w ∧
      Outcome (combineChangesRule i₁ i₂) D obs asks s l1 l2 acts w ∧ (w.closed = true → D.isClosed w.s = true) := by
  obtain ⟨w, h1, h2, _, _, h3⟩ := run_ok (combineChanges_implements i₁ i₂) (tame_changes i₁ i₂) hD asks hs l1 l2 acts
    (fun _ _ _ _ => fits_any)
  exact ⟨w, h1, h2, fun hc => closes_ok h3 hc (ends_changes i₁ i₂)⟩

/-- C83. join: likewise. -/
theorem C83_join (hD : Lawful D obs Inv true) {s : S} (hs : Inv s) (i₁ : E₁ → F) (i₂ : E₂ → F) (asks : S → Bool)
    (l1 : List (SubscriberNotification A E₁)) (l2 : List (SubscriberNotification B E₂)) (acts : List (Act A E₁ B E₂)) :
    ∃ w, run (joinCombiner i₁ i₂) D asks s l1 l2 acts = some w ∧
      Outcome (joinRule i₁ i₂) D obs asks s l1 l2 acts w ∧ (w.closed = true → D.isClosed w.s = true) := by
  obtain ⟨w, h1, h2, _, _, h3⟩ := run_ok (join_implements i₁ i₂) (tame_join i₁ i₂) hD asks hs l1 l2 acts
    (fun _ _ _ _ => fits_any)
  exact ⟨w, h1, h2, fun hc => closes_ok h3 hc (ends_join i₁ i₂)⟩

/-- C83. zip, if no input sends more values than its queue holds. Missing: the destination is closed when the
handle is (`C83_zip_counterexample`); more values. -/
theorem C83_zip_partial (hD : Lawful D obs Inv true) {s : S} (hs : Inv s) (o : QueueOverflowOptions) (i₁ : E₁ → F) (i₂ : E₂ → F)
    (asks : S → Bool) (l1 : List (SubscriberNotification A E₁)) (l2 : List (SubscriberNotification B E₂)) (acts : List (Act A E₁ B E₂))
    (h1 : values1 l1 acts ≤ o.maxQueueLength) (h2 : values2 l2 acts ≤ o.maxQueueLength) :
    ∃ w, run (zipCombiner o i₁ i₂) D asks s l1 l2 acts = some w ∧
      Outcome (zipActualRule i₁ i₂) D obs asks s l1 l2 acts w := by
  have e1 : (valsOf l1).length + sum1 acts = values1 l1 acts := by rw [nx_filter, sum1_eq]; rfl
  have e2 : (valsOf l2).length + sum2 acts = values2 l2 acts := by rw [nx_filter, sum2_eq]; rfl
  rw [← e1] at h1
  rw [← e2] at h2
  obtain ⟨w, h3, h4, _⟩ := run_ok (zip_implements o i₁ i₂) (tame_zip o i₁ i₂) hD asks hs l1 l2 acts
    (fun a b ha hb => fits_zip (Nat.le_trans ha h1) (Nat.le_trans hb h2))
  exact ⟨w, h3, h4⟩

/-! ## Cases -/

/-- What there is to see of a combination of numbers on a fresh observer. -/
structure Seen where
  calls : List (ObserverNotification (Nat × Nat) Nat)
  p1 : Phase
  p2 : Phase
  handleClosed : Bool
  destinationClosed : Bool
deriving DecidableEq

/-- A combination of numbers on a fresh observer, which unsubscribes the handle after it was called
`n` times. -/
def seenOf (C : Combiner Nat Nat Nat Nat (Nat × Nat) Nat) (n : Nat) (l1 l2 : List (SubscriberNotification Nat Nat))
    (acts : List (Act Nat Nat Nat Nat)) : Option Seen :=
  (run C (observerSubscriber (Nat × Nat) Nat) (fun s => s.seen.length == n) ObsState.new l1 l2 acts).map fun w =>
    ⟨w.s.seen, w.p1, w.p2, w.closed, (observerSubscriber (Nat × Nat) Nat).isClosed w.s⟩

/-- The observer is a destination as the theorems want it. -/
example : Lawful (observerSubscriber (Nat × Nat) Nat) ObsState.seen (fun _ => True) true :=
  observerSubscriber_lawful _ _

-- the inputs send values, the handle is unsubscribed, an input goes on
example : seenOf (combineLatestCombiner id id) 100 [.next 1] [.next 10] [.send1 (.next 2), .unsubscribe, .send2 (.next 20)] =
    some ⟨[.next (1, 10), .next (2, 10)], .gone, .gone, true, true⟩ := by decide +kernel

-- the observer unsubscribes the handle when it was called twice
example : seenOf (combineLatestCombiner id id) 2 [.next 1] [.next 10] [.send1 (.next 2), .send2 (.next 20)] =
    some ⟨[.next (1, 10), .next (2, 10)], .gone, .gone, true, true⟩ := by decide +kernel

-- an input fails: the other is unsubscribed
example : seenOf (joinCombiner id id) 100 [.next 1] [] [.send2 (.error 7), .send1 (.next 2)] =
    some ⟨[.error 7], .gone, .gone, true, true⟩ := by decide +kernel

-- an input fails while it is subscribed to: the other is subscribed to all the same, and unsubscribed
example : seenOf (joinCombiner id id) 100 [.error 7] [.next 1] [] =
    some ⟨[.error 7], .gone, .gone, true, true⟩ := by decide +kernel

-- join completes
example : seenOf (joinCombiner id id) 100 [.next 1, .complete] [.next 10] [.send2 (.next 20), .send2 .complete] =
    some ⟨[.next (1, 20), .complete], .gone, .gone, true, true⟩ := by decide +kernel

-- the destination is unsubscribed from outside
example : seenOf (combineLatestCombiner id id) 100 [.next 1] [.next 10] [.shut, .send1 (.next 2)] =
    some ⟨[.next (1, 10)], .gone, .gone, true, true⟩ := by decide +kernel

-- one input is unsubscribed by whatever it is made of: the other is held on to
example : seenOf (combineLatestCombiner id id) 100 [.next 1] [.next 10] [.send1 .unsubscribe, .send2 (.next 20)] =
    some ⟨[.next (1, 10), .next (1, 20)], .gone, .live, false, false⟩ := by decide +kernel

-- zip, within its limit
example : seenOf (zipCombiner ⟨2, .ignoreNext⟩ id id) 100 [.next 1] [.next 10] [.send1 (.next 2), .send2 (.next 20), .unsubscribe] =
    some ⟨[.next (1, 10), .next (2, 20)], .gone, .gone, true, true⟩ := by decide +kernel

/-- The handle of a `zip` is unsubscribed while the first input is ahead: both inputs are
unsubscribed, but the destination stays open, and its teardowns do not run. -/
theorem C83_zip_counterexample :
    seenOf (zipCombiner ⟨2, .ignoreNext⟩ id id) 100 [.next 1] [] [.unsubscribe] =
      some ⟨[], .gone, .gone, true, false⟩ := by decide +kernel

/-- The handle goes out of scope, with `docs/rx_in_bevy.md:83` warning that it would unsubscribe:
the inputs are held on to and the observer is called. -/
theorem C83_drop_counterexample :
    seenOf (combineLatestCombiner id id) 100 [.next 1] [.next 10] [.drop, .send1 (.next 2)] =
      some ⟨[.next (1, 10), .next (2, 10)], .live, .live, false, false⟩ := by decide +kernel

end Rx.Wiring
