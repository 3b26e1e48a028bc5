import Verif.Lemmas.FlagDrops
import Verif.Props.Panics

/-!
# C91: `take` and `element_at` whose destinations panic

The destination may panic whenever it is told something; the caller goes on. Both own a flag that must be closed when it is
dropped.
-/

namespace Rx.FlagDrops

open Rx.Panics (Fragile)

variable {S I E : Type}

/-- C91. `take` gives its destination at most as many values as it was asked to, whatever panics. -/
theorem C91_take_at_most (D : Fragile S I E) (s : S) (n : Nat) (ops : List (Op I E)) :
    (values ((Take.new D s n).run D ops).core.log).length ≤ n := by
  have h := Take.run_values D ops (Take.new D s n)
  simp only [Take.new, values, List.filterMap_nil, List.length_nil] at h ⊢
  omega

/-- C91. `take(n)` is over with the n-th value, if the destination does not panic on it or on the completion. -/
theorem C91_take_over_partial (D : Fragile S I E) (s : S) (n : Nat) (ops : List (Op I E)) (v : I)
    (hn : (values ((Take.new D s n).run D ops).core.log).length + 1 = n) (hg : ((Take.new D s n).run D ops).core.gone = false)
    (h1 : ∀ s, (D.push s (.next v)).panicked = false) (h2 : ∀ s, (D.push s .complete).panicked = false) :
    (((Take.new D s n).run D ops).step D (.note (.next v))).st.core.isClosed D = true ∧
      (((Take.new D s n).run D ops).step D (.note (.next v))).panicked = false := by
  have h := Take.run_values D ops (Take.new D s n)
  have hc : ((Take.new D s n).run D ops).count = 1 := by
    simp only [Take.new, values, List.filterMap_nil, List.length_nil] at h hn ⊢
    omega
  simp only [Take.step, hg, hc, Bool.false_eq_true, if_false, Core.give, Panics.Out.andThen, h1]
  split
  · split
    · simp [Take.complete, Core.give, Core.close, Panics.Out.andThen, h2, Core.isClosed]
    · rename_i hcl
      exact ⟨by simpa using hcl, rfl⟩
  · rename_i h; exact absurd Nat.one_pos h

/-- C91. `element_at` gives its destination at most one value, if the destination does not panic on values and completions. -/
theorem C91_element_at_most_partial (D : Fragile S I (ElementAtError E)) (h1 : ∀ s v, (D.push s (.next v)).panicked = false)
    (h2 : ∀ s, (D.push s .complete).panicked = false) (s : S) (index : Nat) (d : Option I) (ops : List (Op I E)) :
    (values ((ElementAt.new D s index d : ElementAt S I E).run D ops).core.log).length ≤ 1 := by
  rcases ElementAt.run_once h1 h2 ops (x := ElementAt.new D s index d) (.inl rfl) with h | h
  · simp [h]
  · omega

/-- C91. If the destination does not panic when it is unsubscribed, the flag is closed whenever it is dropped: the debug
assertion holds, whatever else panicked before. -/
theorem C91_no_assertion_partial (D : Fragile S I E) (hD : ∀ s, (D.push s .unsubscribe).panicked = false) (s : S) (n : Nat)
    (ops : List (Op I E)) (D' : Fragile S I (ElementAtError E)) (hD' : ∀ s, (D'.push s .unsubscribe).panicked = false)
    (index : Nat) (d : Option I) :
    ((Take.new D s n).run D ops).core.aborted = false ∧
      ((ElementAt.new D' s index d : ElementAt S I E).run D' ops).core.aborted = false :=
  ⟨Take.run_aborted hD ops rfl, ElementAt.run_aborted hD' ops rfl⟩

/-- C91. The assertion fails, while unwinding, whenever a `take` that is still open is dropped and its destination panics as it
is unsubscribed (a teardown does): the program aborts. -/
theorem C91_counterexample_take (D : Fragile S I E) (x : Take S I E) (hg : x.core.gone = false)
    (hc : x.core.isClosed D = false) (hp : (D.push x.core.dest .unsubscribe).panicked = true) :
    (x.step D .drop).st.core.aborted = true := by
  simp only [Take.step, hg, Bool.false_eq_true, if_false]
  exact Core.drop_aborts hc hp

/-- C91. The same for `element_at`. -/
theorem C91_counterexample_element_at (D : Fragile S I (ElementAtError E)) (x : ElementAt S I E) (hg : x.core.gone = false)
    (hc : x.core.isClosed D = false) (hp : (D.push x.core.dest .unsubscribe).panicked = true) :
    (x.step D .drop).st.core.aborted = true := by
  simp only [ElementAt.step, hg, Bool.false_eq_true, if_false]
  exact Core.drop_aborts hc hp

/-- Panics on 7. -/
def touchyAbout7 : Fragile (List Nat × Bool) Nat (ElementAtError Unit) :=
  ⟨fun s n => match n with
    | .next v => ⟨(s.1 ++ [v], s.2), v == 7⟩
    | _ => ⟨(s.1, true), false⟩, fun s _ => ⟨s, false⟩, fun s => s.2⟩

/-- Panics when it is told that it is over: its teardown does. -/
def touchyTeardown : Fragile (List Nat × Bool) Nat (ElementAtError Unit) :=
  ⟨fun s n => match n with
    | .next v => ⟨(s.1 ++ [v], s.2), false⟩
    | _ => ⟨(s.1, true), true⟩, fun s _ => ⟨s, false⟩, fun s => s.2⟩

/-- C91. `element_at(1)` gives a destination that panicked on its value another one. -/
theorem C91_counterexample_two_values :
    ((ElementAt.new touchyAbout7 ([], false) 1 none : ElementAt _ Nat Unit).run touchyAbout7
      [.note (.next 1), .note (.next 7), .note (.next 8), .note (.next 9)]).core.log = [.next 7, .next 8, .complete] := by decide

/-- C91. `take(n)` whose destination panicked on the last value never completes it, however many values follow: it stays open. -/
theorem C91_counterexample_never_completes (vs : List Nat) :
    ((Take.new Rx.touchyAbout7 ([], false) 2).run Rx.touchyAbout7
      (.note (.next 1) :: .note (.next 7) :: vs.map fun v => .note (.next v))).core.log = [.next 1, .next 7] ∧
    ((Take.new Rx.touchyAbout7 ([], false) 2).run Rx.touchyAbout7
      (.note (.next 1) :: .note (.next 7) :: vs.map fun v => .note (.next v))).core.isClosed Rx.touchyAbout7 = false := by
  have e : (Take.new Rx.touchyAbout7 ([], false) 2).run Rx.touchyAbout7
      (.note (.next 1) :: .note (.next 7) :: vs.map fun v => .note (.next v)) =
      ((Take.new Rx.touchyAbout7 ([], false) 2).run Rx.touchyAbout7 [.note (.next 1), .note (.next 7)]).run Rx.touchyAbout7
        (vs.map fun v => .note (.next v)) := rfl
  rw [e, Take.spent Rx.touchyAbout7 (by decide)]
  decide

/-- C91. Whenever the destination of `take(n)` panics on the n-th value, it is told nothing more, however many values follow:
neither values nor that it is over. -/
theorem C91_counterexample_not_told (D : Fragile S I E) (s : S) (n : Nat) (ops : List (Op I E)) (v : I)
    (hn : (values ((Take.new D s n).run D ops).core.log).length + 1 = n) (hg : ((Take.new D s n).run D ops).core.gone = false)
    (hp : (D.push ((Take.new D s n).run D ops).core.dest (.next v)).panicked = true) (vs : List I) :
    ((Take.new D s n).run D (ops ++ .note (.next v) :: vs.map fun v => .note (.next v))).core.log =
      ((Take.new D s n).run D ops).core.log ++ [.next v] := by
  have h := Take.run_values D ops (Take.new D s n)
  have hc : ((Take.new D s n).run D ops).count = 1 := by
    simp only [Take.new, values, List.filterMap_nil, List.length_nil] at h hn ⊢
    omega
  have e : (Take.new D s n).run D (ops ++ .note (.next v) :: vs.map fun v => .note (.next v)) =
      (((Take.new D s n).run D ops).step D (.note (.next v))).st.run D (vs.map fun v => .note (.next v)) := by simp [Take.run]
  have st : (((Take.new D s n).run D ops).step D (.note (.next v))).st =
      ⟨(((Take.new D s n).run D ops).core.give D (.next v)).st, 0⟩ := by
    simp [Take.step, hg, hc, Core.give, Panics.Out.andThen, hp]
  rw [e, st, Take.spent D rfl]
  rfl

namespace Demo

/-- Four values are sent, three asked for; two panics. -/
example : (values ((Take.new Rx.touchyAbout7 ([], false) 3).run Rx.touchyAbout7
    [.note (.next 7), .note (.next 7), .note (.next 1), .note (.next 2), .drop]).core.log) = [7, 7, 1] := by decide

/-- The hypotheses of `C91_take_over_partial` are met, after a panic on an earlier value. -/
example : (values ((Take.new Rx.touchyAbout7 ([], false) 2).run Rx.touchyAbout7 [.note (.next 7)]).core.log).length + 1 = 2 ∧
    ((Take.new Rx.touchyAbout7 ([], false) 2).run Rx.touchyAbout7 [.note (.next 7)]).core.gone = false ∧
    (∀ s, (Rx.touchyAbout7.push s (.next 1)).panicked = false) ∧ (∀ s, (Rx.touchyAbout7.push s .complete).panicked = false) :=
  ⟨by decide, by decide, fun _ => rfl, fun _ => rfl⟩

/-- The hypotheses of `C91_counterexample_not_told` are met. -/
example : (values ((Take.new Rx.touchyAbout7 ([], false) 2).run Rx.touchyAbout7 [.note (.next 1)]).core.log).length + 1 = 2 ∧
    ((Take.new Rx.touchyAbout7 ([], false) 2).run Rx.touchyAbout7 [.note (.next 1)]).core.gone = false ∧
    (Rx.touchyAbout7.push ((Take.new Rx.touchyAbout7 ([], false) 2).run Rx.touchyAbout7 [.note (.next 1)]).core.dest
      (.next 7)).panicked = true := by decide

/-- Panics on errors only. -/
def touchyErrors : Fragile (List Nat × Bool) Nat (ElementAtError Unit) :=
  ⟨fun s n => match n with
    | .next v => ⟨(s.1 ++ [v], s.2), false⟩
    | .error _ => ⟨s, true⟩
    | _ => ⟨(s.1, true), false⟩, fun s _ => ⟨s, false⟩, fun s => s.2⟩

/-- The hypotheses of `C91_element_at_most_partial` and `C91_no_assertion_partial` are met. -/
example : (∀ s v, (touchyErrors.push s (.next v)).panicked = false) ∧ (∀ s, (touchyErrors.push s .complete).panicked = false) ∧
    (∀ s, (touchyErrors.push s .unsubscribe).panicked = false) ∧ (∀ s, (Rx.touchyAbout7.push s .unsubscribe).panicked = false) ∧
    ((ElementAt.new touchyErrors ([], false) 1 none : ElementAt _ Nat Unit).run touchyErrors
      [.note (.next 1), .note (.error ()), .note (.next 2), .note (.next 3), .drop]).core.log =
        [.error (.upstream ()), .next 2, .complete] :=
  ⟨fun _ _ => rfl, fun _ => rfl, fun _ => rfl, fun _ => rfl, by decide⟩

/-- The hypotheses of the counterexamples about drops are met by subscribers in use. -/
example : ((Take.new touchyTeardown ([], false) 2).run touchyTeardown [.note (.next 1)]).core.gone = false ∧
    ((Take.new touchyTeardown ([], false) 2).run touchyTeardown [.note (.next 1)]).core.isClosed touchyTeardown = false ∧
    ((Take.new touchyTeardown ([], false) 2).run touchyTeardown [.note (.next 1), .drop]).core.aborted = true ∧
    ((ElementAt.new touchyTeardown ([], false) 2 none : ElementAt _ Nat Unit).run touchyTeardown
      [.note (.next 1), .drop]).core.aborted = true := by decide

end Demo

end Rx.FlagDrops
