import Verif.Lemmas.SharedSubscription

/-!
# Subscriptions that hold each other: C04
-/

namespace Rx.Props

open Rx.Graph

/-- C04, termination. Whatever was added to whatever, in any order (`shared` says which of the
subscriptions are shared), every call comes back, and the calls nest no deeper than the number of
subscriptions. -/
theorem C04_terminates (shared : Nat → Bool) (n : Nat) (ops : List Op) (h : ∀ op ∈ ops, Below n op) :
    ∃ w, run shared (n + 1) init ops = some w := by
  obtain ⟨w, hw, -⟩ := run_does ops (idle_init shared n) h
  exact ⟨w, hw⟩

/-- C04, exactly once. At any point of any history each callback was called as often as it was added
to a subscription that is closed by now, and never if that one is open. -/
theorem C04_exactly_once (shared : Nat → Bool) (n : Nat) (ops : List Op) (h : ∀ op ∈ ops, Below n op)
    (w : World) (hw : run shared (n + 1) init ops = some w) (k c : Nat) :
    called k c w = if isClosed shared w k then added k c ops else 0 := by
  obtain ⟨w', hw', hidle, hc, hq⟩ := run_does ops (idle_init shared n) h
  rw [hw] at hw'
  obtain rfl := Option.some.inj hw'
  have := hc k c
  have h0 : called k c init + (init.node k).finalizers.count (.call c) = 0 := rfl
  rw [hidle.isClosed]
  split
  · rename_i hcl
    rw [hidle.drained k hcl] at this
    simp at this
    simp at h0
    omega
  · rename_i hcl
    exact (hq k (by simpa using hcl)).2 c

/-- C04, what is closed. After any history exactly those subscriptions are closed that were unsubscribed
or that are connected, by additions made at any time, to one that was. -/
theorem C04_closed_iff (shared : Nat → Bool) (n : Nat) (ops : List Op) (h : ∀ op ∈ ops, Below n op)
    (w : World) (hw : run shared (n + 1) init ops = some w) (j : Nat) :
    isClosed shared w j = true ↔ ∃ k, .unsub k ∈ ops ∧ Linked ops k j := by
  obtain ⟨w', hw', hidle, -⟩ := run_does ops (idle_init shared n) h
  have ht := tracks_run ops [] (idle_init shared n) tracks_init h hw
  rw [hw] at hw'
  obtain rfl := Option.some.inj hw'
  rw [hidle.isClosed]
  exact ⟨ht.sound j, fun ⟨k, hk, hl⟩ => ht.closed_of_linked hl (ht.start k hk)⟩

/-- C04, reach. After any history, unsubscribing `k` closes everything that can be reached from it
and nothing else; what was closed stays closed; and the callbacks of all reached subscriptions have
been called as often as they were added. -/
theorem C04_closes_reachable (shared : Nat → Bool) (n : Nat) (ops : List Op)
    (h : ∀ op ∈ ops, Below n op) (w : World) (hw : run shared (n + 1) init ops = some w)
    (k : Nat) (hk : k < n) :
    ∃ w', unsubscribe shared (n + 1) w k = some w' ∧
      (∀ j, isClosed shared w' j = true ↔ isClosed shared w j = true ∨ Reach w k j) ∧
      (∀ j, Reach w k j → ∀ c, called j c w' = added j c ops) ∧
      (∀ j, isClosed shared w' j = false → ∀ c, called j c w' = called j c w) := by
  obtain ⟨w0, hw0, hidle, hc, hq⟩ := run_does ops (idle_init shared n) h
  rw [hw] at hw0
  obtain rfl := Option.some.inj hw0
  obtain ⟨w', h1, h2, h3⟩ := hidle.unsub hk
  refine ⟨w', h1, fun j => ?_, fun j hr c => ?_, fun j ho c => ?_⟩
  · rw [h2.isClosed, hidle.isClosed]
    refine ⟨fun hj => ?_, fun hj => ?_⟩
    · rcases bool_cases (w.node j).closed with hd | hd
      · obtain ⟨i, hi, hr⟩ := h3.reach j hd hj
        simp at hi
        subst hi
        exact .inr hr
      · exact .inl hd
    · rcases hj with hj | hj
      · exact h3.mono j hj
      · exact h3.all_reached hidle.toInv hj
  · have h4 := hc j c
    have h5 := h3.cons j c
    have h6 := h2.drained j (h3.all_reached hidle.toInv hr)
    have h0 : called j c init + (init.node j).finalizers.count (.call c) = 0 := rfl
    rw [h6] at h5
    simp at h5 h0
    omega
  · rw [h2.isClosed] at ho
    have h5 := h3.cons j c
    rw [h3.fin j ho] at h5
    simp at h5
    exact h5

/-- C04, a callback that asks the subscription it was added to whether it is closed is told that it is, also in the middle
of the call of `unsubscribe` that calls it. -/
theorem C04_finds_it_closed (shared : Nat → Bool) (n : Nat) (ops : List Op) (h : ∀ op ∈ ops, Below n op)
    (w : World) (hw : run shared (n + 1) init ops = some w) :
    w.found.map Prod.fst = w.log.map Prod.fst ∧
      ∀ p ∈ w.found, isClosed shared { node := fun _ => p.2, log := [] } p.1 = true := by
  obtain ⟨w', hw', hidle, -⟩ := run_does ops (idle_init shared n) h
  rw [hw] at hw'
  obtain rfl := Option.some.inj hw'
  refine ⟨hidle.recorded, fun p hp => ?_⟩
  have := hidle.found p hp
  unfold isClosed
  split
  · rename_i hs
    simp [this.2 hs]
  · exact this.1

/-- A cycle 0 → 1 → 2 → 0 with a self reference, a branch 1 → 3 and a callback (10) added twice. -/
def cycleOps : List Op :=
  [.addSub 0 1, .addSub 1 2, .addSub 2 0, .addSub 2 2, .addCall 0 10, .addCall 2 20, .addSub 1 3,
    .addCall 3 30, .addCall 0 10, .addCall 4 40]

example : ∀ op ∈ cycleOps, Below 5 op := by
  simp [cycleOps, Below]

/-- Unsubscribing 1 reaches all but 4. -/
example : ((run (fun _ => true) 6 init (cycleOps ++ [.unsub 1])).map fun w =>
    (w.log, (List.range 5).map (isClosed (fun _ => true) w))) =
    some ([(0, 10), (0, 10), (2, 20), (3, 30)], [true, true, true, true, false]) := by decide +kernel

/-- The same with subscription 3 not shared; what is added afterwards runs at once. -/
example : ((run (fun k => k != 3) 6 init (cycleOps ++ [.unsub 2, .addCall 1 50, .addSub 0 4])).map
    fun w => (w.log, (List.range 5).map (isClosed (fun k => k != 3) w))) =
    some ([(3, 30), (0, 10), (0, 10), (2, 20), (1, 50), (4, 40)], [true, true, true, true, true]) := by
  decide +kernel

end Rx.Props
