import Verif.Spec.SharedDrops
import Verif.Lemmas.Panics

namespace Rx.Drops

open Rx.Panics (Touchy Out)

variable {S I E : Type} {R : Touchy S I E} {bad : Nat → Bool}

theorem applyQueue_empties (k : Nat) (x : S × Deferred I E) (h : (Panics.Shared.applyQueue R k x).panicked = false) :
    (Panics.Shared.applyQueue R k x).st.2.queue = [] := by
  induction k generalizing x with
  | zero => simp [Panics.Shared.applyQueue] at h
  | succ k ih =>
    unfold Panics.Shared.applyQueue at h ⊢
    split
    · rename_i hq; simpa using hq
    · rename_i hq
      rw [if_neg hq] at h
      unfold Out.andThen at h ⊢
      split
      · rename_i hp; rw [if_pos hp] at h; simp at h
      · rename_i hp; rw [if_neg hp] at h; exact ih _ h

theorem tryApply_empties {x : Panics.Shared.State S I E} (hp : x.poisoned = false)
    (h : (Panics.Shared.tryApplyDeferred R x).panicked = false) :
    (Panics.Shared.tryApplyDeferred R x).st.deferred.queue = [] := by
  unfold Panics.Shared.tryApplyDeferred at h ⊢
  split
  · rename_i hq; rw [if_pos hq] at h; exact applyQueue_empties _ _ h
  · rename_i hq
    simpa [hp, Deferred.isDirty] using hq

theorem tryApply_idle {x : Panics.Shared.State S I E} (h : x.poisoned = true ∨ x.deferred.queue = []) :
    Panics.Shared.tryApplyDeferred R x = ⟨x, false⟩ := by
  unfold Panics.Shared.tryApplyDeferred
  rw [if_neg]
  rcases h with h | h <;> simp [h, Deferred.isDirty]

theorem call_rest {x : Panics.Shared.State S I E} (n : SubscriberNotification I E)
    (h : x.poisoned = true ∨ x.deferred.queue = []) :
    (Panics.Shared.call R x n).st.poisoned = true ∨ (Panics.Shared.call R x n).st.deferred.queue = [] := by
  cases hp : x.poisoned with
  | true => left; rw [Panics.Shared.call_dead hp]; exact hp
  | false =>
    cases hq : (Panics.Shared.call R x n).st.poisoned with
    | true => exact .inl rfl
    | false =>
      right
      have hc := (Panics.Shared.call_poisoned (R := R) n hp).symm.trans hq
      unfold Panics.Shared.call Out.andThen at hc ⊢
      split
      · rename_i hd; rw [if_pos hd] at hc; simp at hc
      · rename_i hd
        rw [if_neg hd] at hc
        exact tryApply_empties ((Panics.Shared.callDirect_poisoned n hp).trans (by simpa using hd)) hc

theorem step_handles (x : State S I E) (op : Op I E) : (step R bad x op).st.handles = held x.handles [op] := by
  unfold step
  cases hk : x.handles with
  | zero => rw [if_pos rfl]; exact hk
  | succ k =>
    rw [if_neg (by omega)]
    cases op with
    | clone => rw [← hk]; simp [held, hk]
    | call c => simp [held, hk]
    | drop =>
      simp only [State.drop, held, hk]
      split
      · have : k = 0 := by omega
        exact this.symm
      · rfl

theorem held_cons (k : Nat) (op : Op I E) (ops : List (Op I E)) : held k (op :: ops) = held (held k [op]) ops := by
  cases k with
  | zero => cases ops <;> rfl
  | succ k => cases op <;> rfl

theorem run_cons (x : State S I E) (op : Op I E) (ops : List (Op I E)) :
    run R bad x (op :: ops) = run R bad (step R bad x op).st ops := rfl

theorem run_handles (ops : List (Op I E)) (x : State S I E) : (run R bad x ops).handles = held x.handles ops := by
  induction ops generalizing x with
  | nil => cases h : x.handles <;> simp [run, held, h]
  | cons op ops ih => rw [run_cons, ih, step_handles, ← held_cons]

/-- The destination is gone with the handles. -/
def Freed (x : State S I E) : Prop := x.freed = if x.handles = 0 then 1 else 0

theorem step_freed {x : State S I E} (op : Op I E) (h : Freed x) : Freed (step R bad x op).st := by
  unfold step
  split
  · exact h
  · rename_i h0
    have hf : x.freed = 0 := by unfold Freed at h; rw [if_neg h0] at h; exact h
    cases op with
    | clone => simp [Freed, hf]
    | call c => simp [Freed, hf, h0]
    | drop =>
      simp only [State.drop]
      split
      · simp [Freed, hf]
      · simp only [Freed, hf]
        rw [if_neg (by omega)]

theorem run_freed (ops : List (Op I E)) {x : State S I E} (h : Freed x) : Freed (run R bad x ops) := by
  induction ops generalizing x with
  | nil => exact h
  | cons op ops ih => exact ih (step_freed op h)

theorem run_none (ops : List (Op I E)) {x : State S I E} (h : x.handles = 0) : run R bad x ops = x := by
  induction ops generalizing x with
  | nil => rfl
  | cons op ops ih =>
    rw [run_cons]
    have : step R bad x op = ⟨x, false⟩ := by unfold step; rw [if_pos h]
    rw [this]; exact ih h

theorem callsOf_zero (ops : List (Op I E)) : callsOf 0 ops = [] := by cases ops <;> rfl

theorem held_zero (ops : List (Op I E)) : held 0 ops = 0 := by cases ops <;> rfl

/-- Clones and drops are not seen by the destination. -/
theorem run_core (ops : List (Op I E)) (hn : NotesOnly ops) {x : State S I E}
    (h : x.core.poisoned = true ∨ x.core.deferred.queue = []) (h0 : x.handles ≠ 0) :
    (run R bad x ops).core.dest = (Panics.Shared.run R bad x.core (callsOf x.handles ops)).dest ∧
    (run R bad x ops).core.poisoned = (Panics.Shared.run R bad x.core (callsOf x.handles ops)).poisoned ∧
    (run R bad x ops).core.deferred.queue = (Panics.Shared.run R bad x.core (callsOf x.handles ops)).deferred.queue ∧
    (held x.handles ops ≠ 0 → (run R bad x ops).core = Panics.Shared.run R bad x.core (callsOf x.handles ops)) := by
  induction ops generalizing x with
  | nil => cases hk : x.handles <;> exact ⟨rfl, rfl, rfl, fun _ => rfl⟩
  | cons op ops ih =>
    have hn' : NotesOnly ops := fun t ht => hn t (List.mem_cons_of_mem _ ht)
    rw [run_cons]
    obtain ⟨k, hk⟩ : ∃ k, x.handles = k + 1 := ⟨x.handles - 1, by omega⟩
    cases op with
    | clone =>
      have e : step R bad x .clone = ⟨{ x with handles := x.handles + 1 }, false⟩ := by unfold step; rw [if_neg h0]
      rw [e, hk]
      have := ih hn' (x := { x with handles := x.handles + 1 }) h (by simp)
      simpa only [hk, held, callsOf] using this
    | call c =>
      cases c with
      | addTeardown t => exact absurd (List.mem_cons_self) (hn t)
      | note n =>
        have e : (step R bad x (.call (.note n))).st = { x with core := (Panics.Shared.call R x.core n).st } := by
          unfold step; rw [if_neg h0]; rfl
        rw [e, hk]
        have := ih hn' (x := { x with core := (Panics.Shared.call R x.core n).st }) (call_rest n h) h0
        have e2 : ∀ l, Panics.Shared.run R bad x.core (.note n :: l) = Panics.Shared.run R bad (Panics.Shared.call R x.core n).st l :=
          fun _ => rfl
        simpa only [hk, held, callsOf, e2] using this
    | drop =>
      by_cases h1 : x.handles = 1
      · have hk0 : k = 0 := by omega
        subst hk0
        have e : (step R bad x .drop).st.core =
            { x.core with deferred := { x.core.deferred with closedFlag := true } } := by
          unfold step
          rw [if_neg h0]
          simp only [State.drop, tryApply_idle h, if_pos h1]
        have e0 : (step R bad x .drop).st.handles = 0 := by
          rw [step_handles, hk]; rfl
        rw [run_none _ e0, e, hk]
        simp only [held, callsOf, callsOf_zero, held_zero]
        exact ⟨rfl, rfl, rfl, fun h => absurd rfl h⟩
      · have e : step R bad x .drop = ⟨{ x with handles := x.handles - 1 }, false⟩ := by
          unfold step
          rw [if_neg h0]
          simp only [State.drop, tryApply_idle h, if_neg h1]
        rw [e, hk]
        have := ih hn' (x := { x with handles := x.handles - 1 }) h (by simp; omega)
        simpa only [hk, held, callsOf, Nat.add_sub_cancel] using this

theorem tryApply_stays {x : Panics.Shared.State S I E} (h : x.poisoned = true) :
    (Panics.Shared.tryApplyDeferred R x).st.poisoned = true := by rw [tryApply_idle (.inl h)]; exact h

/-- After a drop something is pending only if the mutex is poisoned. -/
theorem drop_pending {x : Panics.Shared.State S I E}
    (h : (Panics.Shared.tryApplyDeferred R x).st.deferred.isDirty = true) :
    (Panics.Shared.tryApplyDeferred R x).st.poisoned = true := by
  cases hp : x.poisoned with
  | true => exact tryApply_stays hp
  | false =>
    rw [Panics.Shared.tryApply_poisoned hp]
    cases hq : (Panics.Shared.tryApplyDeferred R x).panicked with
    | true => rfl
    | false => simp [Deferred.isDirty, tryApply_empties hp hq] at h

/-- What the assertion that failed tells. -/
def Told (x : State S I E) : Prop :=
  (x.asserted = true → x.core.poisoned = true ∧ x.handles = 0) ∧ (x.aborted = true → x.asserted = true)

theorem step_told {x : State S I E} (op : Op I E) (h : Told x) : Told (step R bad x op).st := by
  unfold step
  split
  · exact h
  · rename_i h0
    have ha : x.asserted = false := by
      cases hx : x.asserted with
      | false => rfl
      | true => exact absurd (h.1 hx).2 h0
    have hb : x.aborted = false := by
      cases hx : x.aborted with
      | false => rfl
      | true => rw [h.2 hx] at ha; cases ha
    cases op with
    | clone => exact ⟨fun k => (by rw [ha] at k; cases k), h.2⟩
    | call c => exact ⟨fun k => (by rw [ha] at k; cases k), h.2⟩
    | drop =>
      simp only [State.drop]
      split
      · refine ⟨fun k => ⟨drop_pending k, rfl⟩, fun k => ?_⟩
        simp only [Bool.and_eq_true] at k
        exact k.1
      · exact ⟨fun k => (by rw [ha] at k; cases k), h.2⟩

theorem run_told (ops : List (Op I E)) {x : State S I E} (h : Told x) : Told (run R bad x ops) := by
  induction ops generalizing x with
  | nil => exact h
  | cons op ops ih => exact ih (step_told op h)

theorem run_append (a b : List (Op I E)) (x : State S I E) : run R bad x (a ++ b) = run R bad (run R bad x a) b := by
  simp [run]

/-- Destinations that neither panic nor call back. -/
def Plain (R : Touchy S I E) : Prop :=
  (∀ s n, ∃ t, R.push s n = .done t) ∧ ∀ s t, ∃ u, R.addTeardown s t = .done u

/-- Nothing went wrong, nothing is pending. -/
def Fine (x : State S I E) : Prop := x.core.poisoned = false ∧ x.core.deferred.queue = []

theorem call_plain (hR : Plain R) {x : Panics.Shared.State S I E} (n : SubscriberNotification I E) (hp : x.poisoned = false)
    (hq : x.deferred.queue = []) : (Panics.Shared.call R x n).panicked = false := by
  have aq : ∀ (d : Deferred I E) (s : S), d.queue = [] →
      Panics.Shared.applyQueue R Rx.Shared.maxRecursionDepth (s, d) = ⟨(s, d), false⟩ := by
    intro d s h
    unfold Rx.Shared.maxRecursionDepth Panics.Shared.applyQueue
    simp [h]
  have tp : ∀ (m : SubscriberNotification I E) (y : Panics.Shared.State S I E), y.deferred.queue = [] →
      (Panics.Shared.tryPush R m y).panicked = false ∧ (Panics.Shared.tryPush R m y).st.deferred.queue = [] := by
    intro m y hy
    unfold Panics.Shared.tryPush
    rw [aq _ _ hy]
    simp only [Out.andThen, Bool.false_eq_true, if_false, Panics.Shared.State.locked]
    cases m with
    | unsubscribe =>
      dsimp only
      split
      · exact ⟨rfl, hy⟩
      · obtain ⟨t, ht⟩ := hR.1 y.dest .unsubscribe
        rw [ht]; exact ⟨rfl, hy⟩
    | next v => obtain ⟨t, ht⟩ := hR.1 y.dest (.next v); dsimp only; rw [ht]; exact ⟨rfl, hy⟩
    | error v => obtain ⟨t, ht⟩ := hR.1 y.dest (.error v); dsimp only; rw [ht]; exact ⟨rfl, hy⟩
    | complete => obtain ⟨t, ht⟩ := hR.1 y.dest .complete; dsimp only; rw [ht]; exact ⟨rfl, hy⟩
  have cd : (Panics.Shared.callDirect R x n).panicked = false ∧ (Panics.Shared.callDirect R x n).st.deferred.queue = [] := by
    cases n <;> unfold Panics.Shared.callDirect <;> dsimp only <;> split <;>
      first
      | exact ⟨rfl, hq⟩
      | (rw [if_neg (by simp [hp])]; exact tp _ _ hq)
  unfold Panics.Shared.call Out.andThen
  rw [if_neg (by simp [cd.1]), tryApply_idle (.inr cd.2)]

theorem step_plain (hR : Plain R) {x : State S I E} (op : Op I E) (h : Fine x) :
    (step R (fun _ => false) x op).panicked = false ∧ Fine (step R (fun _ => false) x op).st := by
  unfold step
  split
  · exact ⟨rfl, h⟩
  · cases op with
    | clone => exact ⟨rfl, h⟩
    | drop =>
      simp only [State.drop, tryApply_idle (.inr h.2)]
      split
      · exact ⟨by simp [Deferred.isDirty, h.2], h⟩
      · exact ⟨rfl, h⟩
    | call c =>
      cases c with
      | note n =>
        have h1 := call_plain hR n h.1 h.2
        have h2 : (Panics.Shared.call R x.core n).st.poisoned = false := by rw [Panics.Shared.call_poisoned n h.1]; exact h1
        refine ⟨h1, h2, ?_⟩
        rcases call_rest (R := R) n (.inr h.2) with k | k
        · rw [h2] at k; cases k
        · exact k
      | addTeardown t =>
        obtain ⟨u, hu⟩ := hR.2 x.core.dest t
        simp only [Panics.Shared.step, Panics.Shared.addTeardown, h.1, Bool.false_eq_true, if_false, hu,
          Panics.Shared.runLocked, Panics.Shared.State.locked]
        exact ⟨trivial, (by simp), h.2⟩

theorem run_plain (hR : Plain R) (ops : List (Op I E)) {x : State S I E} (h : Fine x) :
    Fine (run R (fun _ => false) x ops) := by
  induction ops generalizing x with
  | nil => exact h
  | cons op ops ih => exact ih (step_plain hR op h).2

end Rx.Drops
