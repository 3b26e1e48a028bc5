import Verif.Lemmas.SubscriptionDrops
import Verif.Props.Panics

/-!
# C90: handles of a shared subscription, and teardowns that panic

The handles are cloned, used and dropped in any order; any teardown may panic, and the caller goes on. C75 says what a
subscription without handles does then.
-/

namespace Rx.SubscriptionDrops

open Rx.Panics (Data)

/-- C90. The handles are one subscription that is dropped with the last of them: the same teardowns are called, dropped or
waiting, and the same calls panic, as if there were no handles; cloning a handle and dropping one that is not the last do
nothing and do not panic. -/
theorem C90_as_one (bad : Nat → Bool) (ops : List Op) :
    (run bad {} ops).1.data = (Data.run bad {} (plain ops)).1 ∧
      (run bad {} ops).2 = panicsOf bad {} (asOne 1 ops) := by
  obtain ⟨_, _, h1, h2⟩ := run_data (bad := bad) ops Inv.new
  exact ⟨h1, h2⟩

/-- C90. Nothing is ever left pending by a panic: the debug assertion in the drop of what the handles share holds. -/
theorem C90_no_assertion (bad : Nat → Bool) (ops : List Op) :
    (run bad {} ops).1.asserted = false ∧ (run bad {} ops).1.queue = 0 :=
  have h := (run_data (bad := bad) ops Inv.new).1
  ⟨h.asserted, h.queue⟩

/-- C90. A handle says that it is closed from the first `unsubscribe` of any handle on, even if that panicked, and not
before. -/
theorem C90_closed (bad : Nat → Bool) (ops : List Op) (hk : held 1 ops ≠ 0) :
    (run bad {} ops).1.isClosed = true ↔ Op.unsubscribe ∈ ops := by
  obtain ⟨h, k, _⟩ := run_data (bad := bad) ops Inv.new
  obtain ⟨h1, h2, _⟩ := h.same (by rw [k]; exact hk)
  have e : (run bad {} ops).1.isClosed = (run bad {} ops).1.observed := by
    unfold State.isClosed SubscriptionData.isClosed
    rw [h1, h2]
    cases (run bad {} ops).1.observed <;> simp
  rw [e]
  constructor
  · intro ho
    refine Classical.byContradiction fun hn => ?_
    rw [run_unobserved ops Inv.new hn] at ho
    cases ho
  · exact fun hm => run_heard ops Inv.new hk hm

/-- C90. When the last handle is gone, no teardown is waiting. The first call that closed it (an `unsubscribe` of any handle,
or the drop of the last) called the teardowns handed over before, in order, up to and including the first that panics; the
rest were dropped; those handed over later were all called. -/
theorem C90_at_the_end (bad : Nat → Bool) (ops : List Op) (hk : held 1 ops = 0) :
    (run bad {} ops).1.data.data.finalizers = [] ∧
    ∃ a c b, plain ops = a ++ c :: b ∧ wasClosed a = false ∧ (c = .unsubscribe ∨ c = .drop) ∧
      (run bad {} ops).1.data.ran = Panics.upToPanic bad (addedTeardowns a) ++ addedTeardowns b ∧
      (run bad {} ops).1.data.dropped = Panics.behindPanic bad (addedTeardowns a) := by
  obtain ⟨p, e⟩ := dropped_last ops 0 hk
  have hc : wasClosed (plain ops) = true := by
    show wasClosed ((asOne 1 ops).filterMap id) = true
    rw [e]
    simp [wasClosed]
  obtain ⟨a, c, b, e, h1, h2⟩ := first_close hc
  have h := C75_which_run_partial bad a b c h1 h2
  rw [← e, ← (C90_as_one bad ops).1] at h
  exact ⟨h.2.2.2, a, c, b, e, h1, h2, h.2.1, h.2.2.1⟩

/-- C90. If no teardown panics, each that was handed over to some handle has been called when the last handle is gone, once
for each time it was handed over, and no call panicked. -/
theorem C90_all_called (bad : Nat → Bool) (hb : ∀ t, bad t = false) (ops : List Op) (hk : held 1 ops = 0) :
    (run bad {} ops).1.data.ran = addedTeardowns (plain ops) ∧ true ∉ (run bad {} ops).2 := by
  refine ⟨?_, by rw [(C90_as_one bad ops).2]; exact panicsOf_none hb _ _⟩
  obtain ⟨_, a, c, b, e, _, h2, h3, _⟩ := C90_at_the_end bad ops hk
  have w : ∀ l : List Nat, Panics.upToPanic bad l = l := by
    intro l
    induction l with
    | nil => rfl
    | cons t l ih =>
      have : Panics.upToPanic bad (t :: l) = t :: Panics.upToPanic bad l := by simp [Panics.upToPanic, hb t]
      rw [this, ih]
  rw [h3, e, w]
  rcases h2 with rfl | rfl <;> simp [addedTeardowns]

namespace Demo

/-- Three teardowns, the second panics; a clone is unsubscribed, another teardown comes and panics, too. -/
def history : List Op := [.add (some 1), .clone, .add (some 2), .add (some 3), .unsubscribe, .add (some 4), .unsubscribe, .drop,
  .add (some 5)]

/-- The hypotheses are met, and the lock is poisoned. -/
example : held 1 history ≠ 0 ∧ held 1 (history ++ [.drop]) = 0 ∧
    (run (fun t => t == 2 || t == 4) {} history).1.poisoned = true ∧
    (run (fun t => t == 2 || t == 4) {} history).1.data.ran = [1, 2, 4, 5] ∧
    (run (fun t => t == 2 || t == 4) {} history).1.data.dropped = [3] ∧
    (run (fun t => t == 2 || t == 4) {} history).2 = [false, false, false, false, true, true, false, false, false] := by decide

/-- The last handle is dropped, and a teardown panics. -/
example : held 1 [.add (some 1), .clone, .drop, .add (some 2), .drop] = 0 ∧
    (run (· == 1) {} [.add (some 1), .clone, .drop, .add (some 2), .drop]).2 = [false, false, false, false, true] ∧
    (run (fun _ => false) {} [.add (some 1), .clone, .drop, .add (some 2), .drop]).1.data.ran = [1, 2] := by decide

end Demo

end Rx.SubscriptionDrops
