import Verif.Spec.FlagDrops

namespace Rx.FlagDrops

open Rx.Panics (Fragile Out)

variable {S I E : Type}

@[simp] theorem values_append (a b : List (SubscriberNotification I E)) : values (a ++ b) = values a ++ values b := by
  simp [values]

theorem closing_log (x : Out (Core S I E)) : (x.andThen Core.close id).st.log = x.st.log := by
  unfold Out.andThen
  split <;> rfl

theorem Core.unsubscribe_values (D : Fragile S I E) (x : Core S I E) : values (x.unsubscribe D).st.log = values x.log := by
  unfold Core.unsubscribe
  rw [closing_log]
  split
  · simp [Core.give, values]
  · rfl

theorem end_values (D : Fragile S I E) (x : Core S I E) {n : SubscriberNotification I E} (hn : values [n] = []) :
    values ((x.give D n).andThen Core.close id).st.log = values x.log := by
  rw [closing_log]
  simp [Core.give, hn]

/-! ## take -/

theorem Take.complete_values (D : Fragile S I E) (x : Take S I E) :
    values (x.complete D).st.core.log = values x.core.log ∧ (x.complete D).st.count = x.count :=
  ⟨end_values D x.core rfl, rfl⟩

theorem Take.step_values (D : Fragile S I E) (x : Take S I E) (op : Op I E) :
    (values (x.step D op).st.core.log).length + (x.step D op).st.count = (values x.core.log).length + x.count := by
  unfold Take.step
  split
  · rfl
  · cases op with
    | drop => exact congrArg (fun l => l.length + x.count) (Core.unsubscribe_values D x.core)
    | note n =>
      cases n with
      | unsubscribe => exact congrArg (fun l => l.length + x.count) (Core.unsubscribe_values D x.core)
      | complete => rw [(x.complete_values D).1, (x.complete_values D).2]
      | error e => exact congrArg (fun l => l.length + x.count) (end_values D x.core (n := .error e) rfl)
      | next v =>
        dsimp only
        split
        · rename_i hc
          have e : (values (x.core.give D (.next v)).st.log).length = (values x.core.log).length + 1 := by
            simp [Core.give, values]
          unfold Out.andThen
          dsimp only
          split
          · show (values (x.core.give D (.next v)).st.log).length + (x.count - 1) = _
            omega
          · split
            · rw [(Take.complete_values D _).1, (Take.complete_values D _).2]
              show (values (x.core.give D (.next v)).st.log).length + (x.count - 1) = _
              omega
            · show (values (x.core.give D (.next v)).st.log).length + (x.count - 1) = _
              omega
        · rfl

theorem Take.run_values (D : Fragile S I E) (ops : List (Op I E)) (x : Take S I E) :
    (values (x.run D ops).core.log).length + (x.run D ops).count = (values x.core.log).length + x.count := by
  induction ops generalizing x with
  | nil => rfl
  | cons op ops ih => exact (ih _).trans (x.step_values D op)

theorem Take.spent (D : Fragile S I E) {x : Take S I E} (h : x.count = 0) (vs : List I) :
    x.run D (vs.map fun v => .note (.next v)) = x := by
  induction vs with
  | nil => rfl
  | cons v vs ih =>
    have e : (x.step D (.note (.next v))).st = x := by
      unfold Take.step
      split
      · rfl
      · simp [h]
    show Take.run D (x.step D (.note (.next v))).st _ = x
    rw [e]
    exact ih

/-! ## the flag -/

theorem Core.give_aborted (D : Fragile S I E) (x : Core S I E) (n : SubscriberNotification I E) :
    (x.give D n).st.aborted = x.aborted ∧ (x.give D n).st.gone = x.gone := ⟨rfl, rfl⟩

theorem Core.unsubscribe_closes {D : Fragile S I E} (hD : ∀ s, (D.push s .unsubscribe).panicked = false) (x : Core S I E) :
    (x.unsubscribe D).st.closed = true := by
  unfold Core.unsubscribe
  split
  · simp [Core.give, Core.close, Out.andThen, hD]
  · rfl

theorem Core.unsubscribe_aborted (D : Fragile S I E) (x : Core S I E) : (x.unsubscribe D).st.aborted = x.aborted := by
  unfold Core.unsubscribe Out.andThen
  split <;> split <;> rfl

theorem closing_aborted (x : Out (Core S I E)) : (x.andThen Core.close id).st.aborted = x.st.aborted := by
  unfold Out.andThen
  split <;> rfl

theorem Take.step_aborted {D : Fragile S I E} (hD : ∀ s, (D.push s .unsubscribe).panicked = false) {x : Take S I E}
    (h : x.core.aborted = false) (op : Op I E) : (x.step D op).st.core.aborted = false := by
  unfold Take.step
  split
  · exact h
  · cases op with
    | drop => simp [Core.drop, Core.unsubscribe_closes hD]
    | note n =>
      cases n with
      | unsubscribe => exact (Core.unsubscribe_aborted D x.core).trans h
      | complete => exact (closing_aborted _).trans h
      | error e => exact (closing_aborted _).trans h
      | next v =>
        dsimp only
        split
        · unfold Out.andThen
          dsimp only
          split
          · exact h
          · split
            · exact (closing_aborted _).trans h
            · exact h
        · exact h

theorem Take.run_aborted {D : Fragile S I E} (hD : ∀ s, (D.push s .unsubscribe).panicked = false) (ops : List (Op I E))
    {x : Take S I E} (h : x.core.aborted = false) : (x.run D ops).core.aborted = false := by
  induction ops generalizing x with
  | nil => exact h
  | cons op ops ih => exact ih (Take.step_aborted hD h op)

theorem Core.drop_aborts {D : Fragile S I E} {x : Core S I E} (hc : x.isClosed D = false)
    (hp : (D.push x.dest .unsubscribe).panicked = true) : (x.drop D).st.aborted = true := by
  have h : x.closed = false := by
    cases hb : x.closed with
    | false => rfl
    | true => simp [Core.isClosed, hb] at hc
  simp [Core.drop, Core.unsubscribe, hc, Core.give, Out.andThen, hp, h]

/-! ## element_at -/

theorem ElementAt.deliver_aborted (D : Fragile S I (ElementAtError E)) (x : ElementAt S I E) (v : I) :
    (x.deliver D v).st.core.aborted = x.core.aborted := by
  refine (closing_aborted _).trans ?_
  unfold Out.andThen
  split <;> rfl

theorem ElementAt.step_aborted {D : Fragile S I (ElementAtError E)} (hD : ∀ s, (D.push s .unsubscribe).panicked = false)
    {x : ElementAt S I E} (h : x.core.aborted = false) (op : Op I E) : (x.step D op).st.core.aborted = false := by
  unfold ElementAt.step
  split
  · exact h
  · cases op with
    | drop => simp [Core.drop, Core.unsubscribe_closes hD]
    | note n =>
      cases n with
      | unsubscribe => exact (Core.unsubscribe_aborted D x.core).trans h
      | complete =>
        dsimp only
        split
        · exact h
        · split
          · exact (x.deliver_aborted D _).trans h
          · exact (closing_aborted _).trans h
      | error e =>
        dsimp only
        split
        · exact h
        · exact (closing_aborted _).trans h
      | next v =>
        dsimp only
        split
        · exact h
        · split
          · exact (x.deliver_aborted D _).trans h
          · exact h

theorem ElementAt.run_aborted {D : Fragile S I (ElementAtError E)} (hD : ∀ s, (D.push s .unsubscribe).panicked = false)
    (ops : List (Op I E)) {x : ElementAt S I E} (h : x.core.aborted = false) : (x.run D ops).core.aborted = false := by
  induction ops generalizing x with
  | nil => exact h
  | cons op ops ih => exact ih (ElementAt.step_aborted hD h op)

/-- No value yet, or one and closed. -/
def Once (x : ElementAt S I E) : Prop := values x.core.log = [] ∨ ((values x.core.log).length = 1 ∧ x.core.closed = true)

theorem Core.unsubscribe_keeps (D : Fragile S I E) (x : Core S I E) (h : x.closed = true) : (x.unsubscribe D).st.closed = true := by
  unfold Core.unsubscribe Core.isClosed
  simp [h, Out.andThen, Core.close]

theorem ElementAt.deliver_once {D : Fragile S I (ElementAtError E)} (h1 : ∀ s v, (D.push s (.next v)).panicked = false)
    (h2 : ∀ s, (D.push s .complete).panicked = false) {x : ElementAt S I E} (h : values x.core.log = []) (v : I) :
    Once (x.deliver D v).st := by
  right
  simp [ElementAt.deliver, Core.give, Core.close, Out.andThen, h1, h2, h]
  simp [values]

theorem ElementAt.step_once {D : Fragile S I (ElementAtError E)} (h1 : ∀ s v, (D.push s (.next v)).panicked = false)
    (h2 : ∀ s, (D.push s .complete).panicked = false) {x : ElementAt S I E} (h : Once x) (op : Op I E) :
    Once (x.step D op).st := by
  have hu : ∀ c : Core S I (ElementAtError E), values c.log = values x.core.log → (x.core.closed = true → c.closed = true) →
      Once { x with core := c } := by
    intro c a b
    rcases h with h | h
    · exact .inl (a.trans h)
    · exact .inr ⟨by rw [show values c.log = _ from a]; exact h.1, b h.2⟩
  have ho : ¬ x.core.isClosed D = true → values x.core.log = [] := by
    intro hc
    rcases h with h | h
    · exact h
    · exact absurd (by simp [Core.isClosed, h.2]) hc
  have hf : ∀ e, ¬ x.core.isClosed D = true → Once (x.fail D e).st := fun e hc =>
    .inl ((end_values D x.core rfl).trans (ho hc))
  unfold ElementAt.step
  split
  · exact h
  · cases op with
    | drop => exact hu _ (Core.unsubscribe_values D x.core) (Core.unsubscribe_keeps D x.core)
    | note n =>
      cases n with
      | unsubscribe => exact hu _ (Core.unsubscribe_values D x.core) (Core.unsubscribe_keeps D x.core)
      | complete =>
        dsimp only
        split
        · exact h
        · rename_i hc
          split
          · exact ElementAt.deliver_once h1 h2 (ho hc) _
          · exact hf _ hc
      | error e =>
        dsimp only
        split
        · exact h
        · rename_i hc; exact hf _ hc
      | next v =>
        dsimp only
        split
        · exact h
        · rename_i hc
          split
          · exact ElementAt.deliver_once h1 h2 (ho hc) _
          · exact h

theorem ElementAt.run_once {D : Fragile S I (ElementAtError E)} (h1 : ∀ s v, (D.push s (.next v)).panicked = false)
    (h2 : ∀ s, (D.push s .complete).panicked = false) (ops : List (Op I E)) {x : ElementAt S I E} (h : Once x) :
    Once (x.run D ops) := by
  induction ops generalizing x with
  | nil => exact h
  | cons op ops ih => exact ih (ElementAt.step_once h1 h2 h op)

end Rx.FlagDrops
