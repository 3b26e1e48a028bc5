import Verif.Lemmas.SubjectDrops
import Verif.Props.Panics

/-!
# C89: dropping a publish subject and the subscriptions to it
-/

namespace Rx.SubjectDrops

open Rx.Panics (Fragile Out)

variable {S I E : Type}

/-- C89. What the clones of a subject and the subscriptions to it share is dropped with the last of them, once, whatever
panicked: subscriptions outlive the subject and the other way round. -/
theorem C89_dropped_with_the_last (D : Fragile S I E) (ord : Nat → List Nat → List Nat) (s : S) (ops : List (Op S I E)) :
    (run D ord (.new s) ops).freed =
      if (run D ord (.new s) ops).subjects = 0 ∧ (run D ord (.new s) ops).subs = [] then 1 else 0 :=
  ((Inv.new (D := D) s).run ops).freed

/-- C89. If the subscribers do not panic nothing does, in particular no drop, and nothing is ever pending. -/
theorem C89_no_panic (D : Fragile S I E) (hD : ∀ s n, (D.push s n).panicked = false) (ord : Nat → List Nat → List Nat) (s : S)
    (ops : List (Op S I E)) (op : Op S I E) :
    (step D ord (run D ord (.new s) ops) op).panicked = false ∧ (run D ord (.new s) ops).core.pub.queue = [] := by
  have quiet : ∀ (y : Panics.Subject.State S I E) (o : Publish.Op S I E), (Panics.Subject.step D ord y o).panicked = false := by
    intro y o
    cases hp : (Panics.Subject.step D ord y o).panicked with
    | false => rfl
    | true =>
      obtain ⟨_, _, _, n, t, _, h, _⟩ := C78_who_is_told D ord y o hp
      rw [hD] at h; cases h
  have calm : ∀ (ops : List (Op S I E)) (x : State S I E), Panics.Subject.Calm x.core → Panics.Subject.Calm (run D ord x ops).core := by
    intro ops
    induction ops with
    | nil => intro x h; exact h
    | cons o ops ih =>
      intro x h
      refine ih _ ?_
      have rel : ∀ z : State S I E, z.release.core = z.core := by
        intro z; unfold State.release; split <;> rfl
      have hs : ∀ o, Panics.Subject.Calm (Panics.Subject.step D ord x.core o).st := fun o => (Panics.Subject.step_ok h o (quiet _ _)).2
      cases o with
      | clone => simp only [step]; split <;> exact h
      | dropSubject =>
        simp only [step]; split
        · exact h
        · rw [rel]; exact h
      | dropSub i =>
        simp only [step]; split
        · rw [rel]; exact hs (.cancel i)
        · exact h
      | call c =>
        cases c with
        | note n => simp only [step]; split; exact h; exact hs (.note n)
        | subscribe t => simp only [step]; split; exact h; exact hs (.subscribe t)
        | cancel i => simp only [step]; split; exact hs (.cancel i); exact h
  have hc := calm ops (.new s) ⟨rfl, rfl⟩
  have hc2 := calm (ops ++ [op]) (.new s) ⟨rfl, rfl⟩
  have hi := (Inv.new (D := D) s).run (ord := ord) (ops ++ [op])
  have e : run D ord (.new s) (ops ++ [op]) = (step D ord (run D ord (.new s) ops) op).st := by simp [run]
  have ha : (step D ord (run D ord (.new s) ops) op).st.asserted = false := by
    cases h : (step D ord (run D ord (.new s) ops) op).st.asserted with
    | false => rfl
    | true => rw [← e] at h; exact absurd hc2.poisoned (hi.asserted h).1
  refine ⟨?_, hc.queue⟩
  generalize run D ord (.new s) ops = x at *
  cases op with
  | clone => simp only [step]; split <;> rfl
  | dropSubject =>
    simp only [step] at ha ⊢
    split
    · rfl
    · rename_i h0; rw [if_neg h0] at ha; exact ha
  | dropSub i =>
    simp only [step] at ha ⊢
    split
    · rename_i h0
      rw [if_pos h0] at ha
      rw [Bool.or_eq_false_iff]
      exact ⟨quiet x.core (.cancel i), ha⟩
    · rfl
  | call c =>
    cases c with
    | note n => simp only [step]; split; rfl; exact quiet x.core (.note n)
    | subscribe t => simp only [step]; split; rfl; exact quiet x.core (.subscribe t)
    | cancel i => simp only [step]; split; exact quiet x.core (.cancel i); rfl

/-- C89. The assertion that nothing is pending fails only after a subscriber has panicked, when everything is dropped. -/
theorem C89_assertion_partial (D : Fragile S I E) (ord : Nat → List Nat → List Nat) (s : S) (ops : List (Op S I E))
    (h : (run D ord (.new s) ops).asserted = true) :
    (run D ord (.new s) ops).core.poisoned ≠ none ∧ (run D ord (.new s) ops).subjects = 0 ∧ (run D ord (.new s) ops).subs = [] :=
  ((Inv.new (D := D) s).run ops).asserted h

/-- C89. The full property fails always: whenever a subscriber panics on a value, an error or the completion (the first panic there is), dropping the
subject and all subscriptions afterwards, in whatever order, panics again. If the first panic is not caught but unwinds through
the function that owns them, this is a panic while unwinding: the program is aborted. -/
theorem C89_counterexample (D : Fragile S I E) (ord : Nat → List Nat → List Nat) (hord : ∀ c l, (ord c l).Perm l) (s : S)
    (ops : List (Op S I E)) (hp : (run D ord (.new s) ops).core.poisoned = none)
    (n : SubscriberNotification I E) (hn : n ≠ .unsubscribe)
    (hpan : (step D ord (run D ord (.new s) ops) (.call (.note n))).panicked = true) (drops : List (Op S I E))
    (hd : ∀ op ∈ drops, op = .dropSubject ∨ ∃ i, op = .dropSub i)
    (h1 : (run D ord (.new s) (ops ++ .call (.note n) :: drops)).subjects = 0)
    (h2 : (run D ord (.new s) (ops ++ .call (.note n) :: drops)).subs = []) :
    (run D ord (.new s) (ops ++ .call (.note n) :: drops)).asserted = true := by
  obtain ⟨j, hj⟩ := note_doomed hord ((Inv.new (D := D) s).run (ord := ord) ops) hp n hn hpan
  have e : run D ord (.new s) (ops ++ .call (.note n) :: drops) =
      run D ord (step D ord (run D ord (.new s) ops) (.call (.note n))).st drops := by simp [run]
  rw [e] at h1 h2 ⊢
  exact (hj.run drops hd).said h1 h2

/-- C89. The same if unsubscribing one subscriber panics (its teardown does), and the subject was not unsubscribed before. -/
theorem C89_counterexample_unsubscribe (D : Fragile S I E) (ord : Nat → List Nat → List Nat) (s : S)
    (ops : List (Op S I E)) (hu : Op.call (.note .unsubscribe) ∉ ops) (hp : (run D ord (.new s) ops).core.poisoned = none)
    (i : Nat) (hpan : (step D ord (run D ord (.new s) ops) (.call (.cancel i))).panicked = true) (drops : List (Op S I E))
    (hd : ∀ op ∈ drops, op = .dropSubject ∨ ∃ i, op = .dropSub i)
    (h1 : (run D ord (.new s) (ops ++ .call (.cancel i) :: drops)).subjects = 0)
    (h2 : (run D ord (.new s) (ops ++ .call (.cancel i) :: drops)).subs = []) :
    (run D ord (.new s) (ops ++ .call (.cancel i) :: drops)).asserted = true := by
  have hj := cancelled_doomed (D := D) (ord := ord) hp (run_flag ops hu _) i hpan
  have e : run D ord (.new s) (ops ++ .call (.cancel i) :: drops) =
      run D ord (step D ord (run D ord (.new s) ops) (.call (.cancel i))).st drops := by simp [run]
  rw [e] at h1 h2 ⊢
  exact (hj.run drops hd).said h1 h2

/-- C89. A subject that is unsubscribed before anybody panics is safe: however many subscribers panic then (also in the
unsubscription itself) or later, and whatever is done, the drop of what is shared finds nothing pending. -/
theorem C89_after_unsubscribe_partial (D : Fragile S I E) (ord : Nat → List Nat → List Nat) (s : S)
    (ops : List (Op S I E)) (hu : Op.call (.note .unsubscribe) ∉ ops) (hp : (run D ord (.new s) ops).core.poisoned = none)
    (h0 : (run D ord (.new s) ops).subjects ≠ 0) (more : List (Op S I E)) :
    (run D ord (.new s) (ops ++ .call (.note .unsubscribe) :: more)).asserted = false := by
  have e : run D ord (.new s) (ops ++ .call (.note .unsubscribe) :: more) =
      run D ord (step D ord (run D ord (.new s) ops) (.call (.note .unsubscribe))).st more := by simp [run]
  have hn : (run D ord (.new s) ops).core.pub.unsubscribed = false := run_unsub ops hu _
  obtain ⟨a, b⟩ := unsubscribed_quiet (ord := ord) ((Inv.new (D := D) s).run (ord := ord) ops) hp h0
    (fun h => by rw [hn] at h; cases h)
  rw [e]
  exact a.run b more

namespace Demo

abbrev O := Op (List Nat × Bool) Nat Unit

/-- Two subscribers; the one that is asked first panics on 7. -/
def before : List O := [.call (.subscribe ([], false)), .clone, .call (.subscribe ([0], false)), .call (.note (.next 1)), .dropSubject]

def go (ops : List O) := run touchyAbout7 (fun _ l => l) (.new ([], false)) ops

/-- The hypotheses of `C89_counterexample` are met. -/
example : (go before).core.poisoned = none ∧
    (step touchyAbout7 (fun _ l => l) (go before) (.call (.note (.next 7)))).panicked = true ∧
    (go (before ++ .call (.note (.next 7)) :: [.dropSub 1, .dropSubject, .dropSub 0])).subjects = 0 ∧
    (go (before ++ .call (.note (.next 7)) :: [.dropSub 1, .dropSubject, .dropSub 0])).subs = [] ∧
    (go (before ++ .call (.note (.next 7)) :: [.dropSub 1, .dropSubject, .dropSub 0])).asserted = true := by decide

/-- A subscriber that panics on errors and on the completion. -/
def touchyAboutEnds : Panics.Fragile (List Nat × Bool) Nat Unit :=
  ⟨fun s n => match n with
    | .next v => ⟨(s.1 ++ [v], s.2), false⟩
    | .unsubscribe => ⟨(s.1, true), false⟩
    | _ => ⟨s, true⟩, fun s _ => ⟨s, false⟩, fun s => s.2⟩

/-- The hypotheses of `C89_counterexample` are met by the completion and by errors. -/
example : ∀ n ∈ [SubscriberNotification.complete, .error ()],
    (step touchyAboutEnds (fun _ l => l) (run touchyAboutEnds (fun _ l => l) (.new ([], false)) before)
      (.call (.note n))).panicked = true ∧
    (run touchyAboutEnds (fun _ l => l) (.new ([], false)) before).core.poisoned = none ∧
    (run touchyAboutEnds (fun _ l => l) (.new ([], false))
      (before ++ .call (.note n) :: [.dropSubject, .dropSub 1, .dropSub 0])).subjects = 0 ∧
    (run touchyAboutEnds (fun _ l => l) (.new ([], false))
      (before ++ .call (.note n) :: [.dropSubject, .dropSub 1, .dropSub 0])).subs = [] := by decide

/-- A subscriber whose teardown panics. -/
def touchyTeardown : Panics.Fragile (List Nat × Bool) Nat Unit :=
  ⟨fun s n => match n with
    | .next v => ⟨(s.1 ++ [v], s.2), false⟩
    | _ => ⟨(s.1, true), true⟩, fun s _ => ⟨s, false⟩, fun s => s.2⟩

/-- The hypotheses of `C89_counterexample_unsubscribe` are met. -/
example : Op.call (.note .unsubscribe) ∉ before ∧
    (run touchyTeardown (fun _ l => l) (.new ([], false)) before).core.poisoned = none ∧
    (step touchyTeardown (fun _ l => l) (run touchyTeardown (fun _ l => l) (.new ([], false)) before)
      (.call (.cancel 1))).panicked = true ∧
    (run touchyTeardown (fun _ l => l) (.new ([], false))
      (before ++ .call (.cancel 1) :: [.dropSubject, .dropSub 1, .dropSub 0])).subjects = 0 ∧
    (run touchyTeardown (fun _ l => l) (.new ([], false))
      (before ++ .call (.cancel 1) :: [.dropSubject, .dropSub 1, .dropSub 0])).subs = [] :=
  ⟨by simp [before], by decide, by decide, by decide, by decide⟩

/-- The hypotheses of `C89_after_unsubscribe_partial` are met, and the unsubscription panics. -/
example : Op.call (.note .unsubscribe) ∉ before ∧
    (run touchyTeardown (fun _ l => l) (.new ([], false)) before).core.poisoned = none ∧
    (run touchyTeardown (fun _ l => l) (.new ([], false)) before).subjects ≠ 0 ∧
    (step touchyTeardown (fun _ l => l) (run touchyTeardown (fun _ l => l) (.new ([], false)) before)
      (.call (.note .unsubscribe))).panicked = true ∧
    (run touchyTeardown (fun _ l => l) (.new ([], false))
      (before ++ .call (.note .unsubscribe) :: [.dropSubject, .dropSub 1, .dropSub 0])).freed = 1 :=
  ⟨by simp [before], by decide, by decide, by decide, by decide⟩

/-- Without a panic all is well. -/
example : (go (before ++ [.dropSub 1, .dropSubject, .dropSub 0])).asserted = false ∧
    (go (before ++ [.dropSub 1, .dropSubject, .dropSub 0])).freed = 1 ∧
    (go (before ++ [.dropSub 1, .dropSubject])).freed = 0 := by decide

end Demo

end Rx.SubjectDrops
