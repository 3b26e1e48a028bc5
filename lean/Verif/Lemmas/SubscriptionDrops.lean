import Verif.Spec.SubscriptionDrops
import Verif.Lemmas.Panics

namespace Rx.SubscriptionDrops

open Rx.Panics (Data Out callAll_eq)

structure Inv (x : State) : Prop where
  queue : x.queue = 0
  asserted : x.asserted = false
  same : x.handles ≠ 0 → x.data.data.closed = x.observed ∧ x.closedFlag = x.observed ∧ (x.poisoned = true → x.observed = true)

theorem unsubscribe_closes (bad : Nat → Bool) (d : Data) : (d.unsubscribe bad).st.data.closed = true := by
  unfold Data.unsubscribe
  split
  · rfl
  · rename_i h
    simpa [SubscriptionData.isClosed] using h

theorem unsubscribe_closed {bad : Nat → Bool} {d : Data} (h : d.data.closed = true) : d.unsubscribe bad = ⟨d, false⟩ := by
  simp [Data.unsubscribe, SubscriptionData.isClosed, h]

theorem add_closed (bad : Nat → Bool) (d : Data) (t : Teardown) : (d.addTeardown bad t).st.data.closed = d.data.closed := by
  unfold Data.addTeardown
  split
  · rfl
  · split <;> rfl

theorem add_panics {bad : Nat → Bool} {d : Data} {t : Teardown} (h : (d.addTeardown bad t).panicked = true) : d.data.closed = true := by
  unfold Data.addTeardown at h
  split at h
  · rename_i hc; exact hc
  · split at h <;> cases h

/-- What the subscription is told. -/
def told (k : Nat) (op : Op) : Option SubscriptionOp :=
  if k = 0 then none
  else match op with
    | .clone => none
    | .add t => some (.add t)
    | .unsubscribe => some .unsubscribe
    | .drop => if k = 1 then some .drop else none

def next (k : Nat) (op : Op) : Nat :=
  if k = 0 then 0
  else match op with
    | .clone => k + 1
    | .drop => k - 1
    | _ => k

theorem asOne_cons (k : Nat) (op : Op) (ops : List Op) : asOne k (op :: ops) = told k op :: asOne (next k op) ops := by
  match k, op with
  | 0, _ => rfl
  | _ + 1, .clone => rfl
  | _ + 1, .add _ => rfl
  | _ + 1, .unsubscribe => rfl
  | 1, .drop => rfl
  | _ + 2, .drop => rfl

theorem held_cons (k : Nat) (op : Op) (ops : List Op) : held k (op :: ops) = held (next k op) ops := by
  match k, op with
  | 0, _ => rfl
  | _ + 1, .clone => rfl
  | _ + 1, .add _ => rfl
  | _ + 1, .unsubscribe => rfl
  | _ + 1, .drop => rfl

theorem step_data {bad : Nat → Bool} {x : State} (h : Inv x) (op : Op) :
    Inv (step bad x op).st ∧ (step bad x op).st.handles = next x.handles op ∧
      (match told x.handles op with
        | none => (step bad x op).st.data = x.data ∧ (step bad x op).panicked = false
        | some o => (step bad x op).st.data = (x.data.step bad o).st ∧ (step bad x op).panicked = (x.data.step bad o).panicked) ∧
      (x.handles ≠ 0 → (x.observed = true ∨ op = .unsubscribe) → (step bad x op).st.observed = true) := by
  obtain ⟨d, p, q, c, o, k, a⟩ := x
  obtain ⟨hq, ha, hs⟩ := h
  dsimp only at hq ha hs
  subst hq ha
  by_cases hk : k = 0
  · subst hk
    exact ⟨⟨rfl, rfl, fun h => absurd rfl h⟩, rfl, ⟨rfl, rfl⟩, fun h => absurd rfl h⟩
  · obtain ⟨h1, h2, h3⟩ := hs hk
    subst h2
    simp only [step, hk, if_false, told, next]
    cases op with
    | clone => exact ⟨⟨rfl, rfl, fun _ => ⟨h1, rfl, h3⟩⟩, rfl, ⟨rfl, rfl⟩, fun _ h => by rcases h with h | h; exact h; cases h⟩
    | add t =>
      cases p with
      | true =>
        have ho := h3 rfl
        subst ho
        have e : d.addTeardown bad t = ⟨{ d with ran := d.ran ++ t.execute }, t.execute.any bad⟩ := by
          simp [Data.addTeardown, SubscriptionData.isClosed, h1]
        simp only [State.addTeardown, if_true, Out.andThen, Data.step, e, State.give]
        split
        · rename_i hb
          exact ⟨⟨rfl, rfl, fun _ => ⟨h1, rfl, fun _ => rfl⟩⟩, rfl, ⟨rfl, hb.symm⟩, fun _ _ => rfl⟩
        · rename_i hb
          rw [unsubscribe_closed (bad := bad) (d := { d with ran := d.ran ++ t.execute }) h1]
          exact ⟨⟨rfl, rfl, fun _ => ⟨h1, rfl, fun _ => rfl⟩⟩, rfl, ⟨rfl, by simpa using hb⟩, fun _ _ => rfl⟩
      | false =>
        simp only [State.addTeardown, Bool.false_eq_true, if_false, Data.step]
        refine ⟨⟨rfl, rfl, fun _ => ⟨(add_closed bad d t).trans h1, rfl, fun hp => ?_⟩⟩, by trivial, by simp,
          fun _ h => by rcases h with h | h; exact h; cases h⟩
        exact h1 ▸ add_panics hp
    | unsubscribe =>
      cases c with
      | true =>
        have e : d.unsubscribe bad = ⟨d, false⟩ := unsubscribe_closed h1
        simp only [Data.step, e]
        refine ⟨⟨?_, ?_, ?_⟩, ?_, ⟨?_, ?_⟩, ?_⟩ <;>
          simp [State.unsubscribe, State.tryApplyDeferred, Out.andThen, h1]
      | false =>
        have hp : p = false := by
          cases p with
          | false => rfl
          | true => cases h3 rfl
        subst hp
        have hc := unsubscribe_closes bad d
        have e : ∀ b, State.unsubscribe bad ⟨d, false, 0, b, false, k, false⟩ =
            ⟨⟨(d.unsubscribe bad).st, (d.unsubscribe bad).panicked, 0, true, true, k, false⟩, (d.unsubscribe bad).panicked⟩ := by
          intro b
          cases hpan : (d.unsubscribe bad).panicked <;>
            simp [State.unsubscribe, State.tryApplyDeferred, State.tryUnsubscribe, State.applyQueue, State.applyAll, State.give,
              Out.andThen, SubscriptionData.isClosed, h1, hpan]
        simp only [Data.step, e]
        exact ⟨⟨rfl, rfl, fun _ => ⟨hc, rfl, fun _ => rfl⟩⟩, by trivial, by simp, by simp⟩
    | drop =>
      by_cases h1k : k = 1
      · subst h1k
        simp only [State.drop, State.tryApplyDeferred, Data.step]
        exact ⟨⟨rfl, rfl, fun h => absurd rfl h⟩, by simp, by simp, fun _ h => by
          rcases h with h | h
          · exact h
          · cases h⟩
      · simp only [State.drop, State.tryApplyDeferred, h1k, if_false]
        exact ⟨⟨rfl, rfl, fun _ => ⟨h1, rfl, h3⟩⟩, by trivial, ⟨rfl, rfl⟩, fun _ h => by rcases h with h | h; exact h; cases h⟩

theorem run_data {bad : Nat → Bool} : ∀ (ops : List Op) {x : State}, Inv x →
    Inv (run bad x ops).1 ∧ (run bad x ops).1.handles = held x.handles ops ∧
      (run bad x ops).1.data = (Data.run bad x.data ((asOne x.handles ops).filterMap id)).1 ∧
      (run bad x ops).2 = panicsOf bad x.data (asOne x.handles ops)
  | [], x, h => ⟨h, by simp [run, held], by simp [run, asOne, Data.run], by simp [run, asOne, panicsOf]⟩
  | op :: ops, x, h => by
    obtain ⟨i, k, d, _⟩ := step_data (bad := bad) h op
    obtain ⟨a, b, c, e⟩ := run_data (bad := bad) ops i
    rw [k] at b c e
    simp only [run, held_cons, asOne_cons]
    cases ht : told x.handles op with
    | none =>
      rw [ht] at d
      obtain ⟨d1, d2⟩ := d
      rw [d1] at c e
      exact ⟨a, b, c, by simp [panicsOf, d2, e]⟩
    | some o =>
      rw [ht] at d
      obtain ⟨d1, d2⟩ := d
      rw [d1] at c e
      exact ⟨a, b, by simpa [Data.run] using c, by simp [panicsOf, d2, e]⟩

theorem run_append (bad : Nat → Bool) : ∀ (a b : List Op) (x : State), (run bad x (a ++ b)).1 = (run bad (run bad x a).1 b).1
  | [], _, _ => rfl
  | op :: a, b, x => by simpa [run] using run_append bad a b (step bad x op).st

/-- Once observed, for good. -/
theorem run_observed {bad : Nat → Bool} : ∀ (ops : List Op) {x : State}, Inv x → x.observed = true → (run bad x ops).1.observed = true
  | [], _, _, ho => ho
  | op :: ops, x, h, ho => by
    obtain ⟨i, _, _, o⟩ := step_data (bad := bad) h op
    refine run_observed ops i ?_
    by_cases hk : x.handles = 0
    · simpa [step, hk] using ho
    · exact o hk (.inl ho)

/-- Nothing else makes it observed. -/
theorem step_unobserved {bad : Nat → Bool} {x : State} (h : Inv x) {op : Op} (hn : op ≠ .unsubscribe) :
    (step bad x op).st.observed = x.observed := by
  obtain ⟨d, p, q, c, o, k, a⟩ := x
  have hq : q = 0 := h.queue
  subst hq
  by_cases hk : k = 0
  · simp [step, hk]
  · simp only [step, hk, if_false]
    cases op with
    | unsubscribe => exact absurd rfl hn
    | clone => rfl
    | add t =>
      cases p <;> simp only [State.addTeardown, Bool.false_eq_true, if_false, if_true, Out.andThen]
      split <;> rfl
    | drop =>
      by_cases h1k : k = 1 <;> simp [State.drop, State.tryApplyDeferred, h1k]

theorem run_unobserved {bad : Nat → Bool} : ∀ (ops : List Op) {x : State}, Inv x → Op.unsubscribe ∉ ops →
    (run bad x ops).1.observed = x.observed
  | [], _, _, _ => rfl
  | op :: ops, x, h, hn => by
    have := run_unobserved (bad := bad) ops (step_data (bad := bad) h op).1 (fun a => hn (List.mem_cons_of_mem _ a))
    exact this.trans (step_unobserved h (fun a => hn (a ▸ List.mem_cons_self)))

theorem held_zero : ∀ ops : List Op, held 0 ops = 0
  | [] => rfl
  | _ :: ops => held_zero ops

theorem run_heard {bad : Nat → Bool} : ∀ (ops : List Op) {x : State}, Inv x → held x.handles ops ≠ 0 → Op.unsubscribe ∈ ops →
    (run bad x ops).1.observed = true
  | [], _, _, _, hm => by cases hm
  | op :: ops, x, h, hk, hm => by
    obtain ⟨i, k, _, o⟩ := step_data (bad := bad) h op
    have h0 : x.handles ≠ 0 := by
      intro h0
      rw [h0, held_zero] at hk
      exact hk rfl
    rcases List.mem_cons.1 hm with e | hm
    · exact run_observed ops i (o h0 (.inr e.symm))
    · rw [held_cons, ← k] at hk
      exact run_heard ops i hk hm

/-- The call that closed it. -/
theorem first_close : ∀ {ops : List SubscriptionOp}, wasClosed ops = true →
    ∃ a c b, ops = a ++ c :: b ∧ wasClosed a = false ∧ (c = .unsubscribe ∨ c = .drop)
  | [], h => by cases h
  | .unsubscribe :: ops, _ => ⟨[], _, ops, rfl, rfl, .inl rfl⟩
  | .drop :: ops, _ => ⟨[], _, ops, rfl, rfl, .inr rfl⟩
  | .add t :: ops, h => by
    obtain ⟨a, c, b, e, h1, h2⟩ := first_close (ops := ops) (by simpa [wasClosed] using h)
    exact ⟨.add t :: a, c, b, by rw [e]; rfl, by simpa [wasClosed] using h1, h2⟩

theorem panicsOf_none {bad : Nat → Bool} (hb : ∀ t, bad t = false) : ∀ (ops : List (Option SubscriptionOp)) (x : Data),
    true ∉ panicsOf bad x ops
  | [], _ => by simp [panicsOf]
  | none :: ops, x => by simpa [panicsOf] using panicsOf_none hb ops x
  | some op :: ops, x => by
    have e : (x.step bad op).panicked = false := by
      have a : ∀ l : List Nat, l.any bad = false := fun l => by simp [hb]
      cases op with
      | add t =>
        simp only [Data.step, Data.addTeardown, a]
        split
        · rfl
        · split <;> rfl
      | unsubscribe =>
        simp only [Data.step, Data.unsubscribe, callAll_eq, a]
        split <;> rfl
      | drop =>
        simp only [Data.step, Data.drop, Data.unsubscribe, callAll_eq, a]
        split <;> simp_all
    simpa [panicsOf, e] using panicsOf_none hb ops _

theorem Inv.new : Inv {} := ⟨rfl, rfl, fun _ => ⟨rfl, rfl, fun h => by cases h⟩⟩

theorem asOne_zero : ∀ ops : List Op, (asOne 0 ops).filterMap id = []
  | [] => rfl
  | _ :: ops => by simpa [asOne] using asOne_zero ops

/-- When there are no handles left it has been dropped. -/
theorem dropped_last : ∀ (ops : List Op) (k : Nat), held (k + 1) ops = 0 →
    ∃ pre, (asOne (k + 1) ops).filterMap id = pre ++ [.drop]
  | [], k, h => by simp [held] at h
  | op :: ops, k, h => by
    rw [held_cons] at h
    rw [asOne_cons]
    cases op with
    | clone => simpa [told, next] using dropped_last ops (k + 1) h
    | add t =>
      obtain ⟨p, e⟩ := dropped_last ops k h
      exact ⟨.add t :: p, by simpa [told, next] using e⟩
    | unsubscribe =>
      obtain ⟨p, e⟩ := dropped_last ops k h
      exact ⟨.unsubscribe :: p, by simpa [told, next] using e⟩
    | drop =>
      cases k with
      | zero => exact ⟨[], by simpa [told, next] using asOne_zero ops⟩
      | succ k => simpa [told, next] using dropped_last ops k h

end Rx.SubscriptionDrops
