import Verif.Lemmas.Testing

/-!
# C82: what tests are written with
-/

namespace Rx.Testing

variable {I E : Type}

/-! ## The collector -/

/-- C82: a collector has recorded the whole history, in order. -/
theorem C82_history (l : List (SubscriberNotification I E)) :
    (recorded l).all = l ∧ (recorded l).len = l.length ∧ (∀ n, (recorded l).tryNth n = l[n]?) ∧
      (∀ n, (recorded l).nthExists n = true ↔ n < l.length) ∧ (∀ n v, (recorded l).nthAsNext n = some v ↔ l[n]? = some (.next v)) := by
  have h := all_recorded l
  have h1 : ∀ n, (recorded l).tryNth n = l[n]? := fun n => by rw [tryNth_eq, h]
  refine ⟨h, by rw [len_eq, h], h1, fun n => ?_, fun n v => ?_⟩
  · rw [nthExists_eq, h1]
    simp
  · unfold Collector.nthAsNext
    rw [h1]
    split
    · rename_i v' h'
      rw [h']
      simp
    · rename_i h'
      constructor
      · intro hh; cases hh
      · intro hh; exact (h' v hh).elim

/-- C82: the values and the errors are those of the history. -/
theorem C82_values (l : List (SubscriberNotification I E)) :
    (recorded l).values = l.filterMap (fun n => match n with | .next v => some v | _ => none) ∧
      (recorded l).errors = l.filterMap (fun n => match n with | .error e => some e | _ => none) := by
  unfold Collector.values Collector.errors
  rw [all_recorded]
  exact ⟨rfl, rfl⟩

/-- C82: what came before, and what came after the first `unsubscribe`, is told apart; the counts are those of notifications of a
kind before, after, and in all. -/
theorem C82_counts (l : List (SubscriberNotification I E)) (p : SubscriberNotification I E → Bool) :
    (recorded l).count p = (upToUnsubscribe l).countP p ∧ (recorded l).countAfter p = (behindUnsubscribe l).countP p ∧
      (recorded l).countAll p = l.countP p := by
  have h := all_recorded l
  have h2 := parts_recorded l
  unfold Collector.countAll Collector.count Collector.countAfter
  simp only [← List.countP_eq_length_filter]
  rw [← List.countP_append, show (recorded l).observed ++ (recorded l).afterClose = (recorded l).all from rfl, h, h2.1, h2.2]
  exact ⟨rfl, rfl, rfl⟩

/-- C82: `nothing_happened_after_closed` says that an `unsubscribe`, if there is one, is the last notification. -/
theorem C82_nothing_after_closed (l : List (SubscriberNotification I E)) :
    (recorded l).nothingAfterClosed = true ↔ ∀ a b, l = a ++ .unsubscribe :: b → b = [] := by
  unfold Collector.nothingAfterClosed
  rw [(parts_recorded l).2, List.isEmpty_iff]
  exact behind_nil l

/-- C82: before it is closed at most one `unsubscribe` is counted, and it is the last notification there. -/
theorem C82_one_unsubscribe (l : List (SubscriberNotification I E)) :
    (recorded l).count Collector.isUnsubscribe ≤ 1 ∧
      ∀ a b, (recorded l).observed = a ++ .unsubscribe :: b → b = [] := by
  rw [(C82_counts l _).1, (parts_recorded l).1]
  induction l with
  | nil => simp [upToUnsubscribe]
  | cons n l ih =>
    cases n with
    | unsubscribe =>
      refine ⟨by simp [upToUnsubscribe, Collector.isUnsubscribe], fun a b e => ?_⟩
      exact (behind_nil [.unsubscribe]).1 rfl a b e
    | _ =>
      refine ⟨by simpa [upToUnsubscribe, Collector.isUnsubscribe] using ih.1, fun a b e => ?_⟩
      cases a with
      | nil => cases e
      | cons x a =>
        injection e with _ e
        exact ih.2 a b e

variable [DecidableEq I] [DecidableEq E]

/-- C82: an assertion passes if and only if what it says is true of the history. -/
theorem C82_assertions (l : List (SubscriberNotification I E)) :
    ((recorded l).assertEmpty = true ↔ l = []) ∧
      (∀ i, (recorded l).assertNthIsLast i = true ↔ l.length = i + 1) ∧
      (∀ i n, (recorded l).assertNth i n = true ↔ l[i]? = some n) ∧
      (∀ n, (recorded l).assertLast n = true ↔ ∃ a, l = a ++ [n]) ∧
      (∀ offset ns noMore, (recorded l).assertAll offset ns noMore = true ↔
        (l.drop offset).take ns.length = ns ∧ (noMore = true → l.length ≤ offset + ns.length)) := by
  obtain ⟨h, h1, h2, -⟩ := C82_history l
  have h3 : ∀ i n, (recorded l).assertNth i n = true ↔ l[i]? = some n := by
    intro i n
    unfold Collector.assertNth
    rw [h2]
    cases l[i]? <;> simp
  refine ⟨?_, fun i => ?_, h3, fun n => ?_, ?_⟩
  · unfold Collector.assertEmpty Collector.isEmpty
    rw [Bool.and_eq_true, List.isEmpty_iff, List.isEmpty_iff, ← List.append_eq_nil_iff]
    rw [show (recorded l).observed ++ (recorded l).afterClose = (recorded l).all from rfl, h]
  · unfold Collector.assertNthIsLast
    rw [h2, h2]
    simp
    omega
  · unfold Collector.assertLast
    rw [h1, Bool.and_eq_true, Bool.and_eq_true, h3, h2]
    simp only [decide_eq_true_eq]
    constructor
    · rintro ⟨⟨h4, h5⟩, -⟩
      rw [← List.getLast?_eq_getElem?] at h5
      obtain ⟨a, ha⟩ := List.getLast?_eq_some_iff.1 h5
      exact ⟨a, ha⟩
    · rintro ⟨a, rfl⟩
      simp
  · intro offset ns noMore
    exact assertAll_iff h2 ns offset noMore

/-- C82: `assert_terminal_notification` passes if and only if the history ends with the notification, which is not a value, the subscription is
closed, and all three teardowns were registered and have run. -/
theorem C82_terminal (l : List (SubscriberNotification I E)) (closed : Bool) (up down sub : Option Bool) (n : SubscriberNotification I E) :
    assertTerminal (recorded l) closed up down sub n = true ↔
      (∃ a, l = a ++ [n]) ∧ n.isClosing = true ∧ closed = true ∧ up = some true ∧ down = some true ∧ sub = some true := by
  obtain ⟨-, h1, -⟩ := C82_history l
  have h4 : l.length ≠ 0 → ((recorded l).assertAll (l.length - 1) [n] true = true ↔ ∃ a, l = a ++ [n]) := by
    intro hl
    rw [(C82_assertions l).2.2.2.2]
    simp only [List.length_singleton]
    have : l ≠ [] := fun h => hl (by rw [h]; rfl)
    constructor
    · rintro ⟨h, -⟩
      refine ⟨l.take (l.length - 1), ?_⟩
      have e := List.take_append_drop (l.length - 1) l
      have hd : (l.drop (l.length - 1)).take 1 = l.drop (l.length - 1) := List.take_of_length_le (by rw [List.length_drop]; omega)
      rw [hd] at h
      rw [← h]
      exact e.symm
    · rintro ⟨a, ha⟩
      subst ha
      simp
  unfold assertTerminal
  rw [h1]
  by_cases hl : l.length = 0
  · rw [if_pos hl]
    have : l = [] := List.length_eq_zero_iff.1 hl
    subst this
    simp
  · rw [if_neg hl]
    cases n with
    | next v => simp [SubscriberNotification.isClosing, SubscriberNotification.isTerminal]
    | error e => simp [h4 hl, SubscriberNotification.isClosing, SubscriberNotification.isTerminal, and_assoc]
    | complete => simp [h4 hl, SubscriberNotification.isClosing, SubscriberNotification.isTerminal, and_assoc]
    | unsubscribe => simp [h4 hl, SubscriberNotification.isClosing, SubscriberNotification.isTerminal, and_assoc]

omit [DecidableEq I] [DecidableEq E]

/-! ## Mock observers -/

/-- C82: mock observers, which share a collector, record every notification that any of them is given, also once it is closed, and that one
is unsubscribed when it is dropped without having been closed. -/
theorem C82_mocks (l : List (MockOp I E)) : (Mocks.run {} l).collector = recorded (toRecord [] l) := by
  have := (mocks_run (m := ({} : Mocks I E)) [] (fun _ => rfl) l).1
  rw [this]
  rfl

/-- C82: one is closed once it was given an end, was unsubscribed, or was dropped. -/
theorem C82_mock_closed (l : List (MockOp I E)) (i : Nat) : ((Mocks.run {} l).data i).isClosed = l.any (MockOp.closes i) := by
  have := (mocks_run (m := ({} : Mocks I E)) [] (fun _ => rfl) l).2 i
  simpa using this

/-- C82: its teardowns have all run once it is closed, each once, in order, and none before. -/
theorem C82_mock_teardowns (l : List (MockOp I E)) (i : Nat) :
    ((Mocks.run {} l).ran.filterMap fun x => if x.1 = i then some x.2 else none) =
      if l.any (MockOp.closes i) then teardownsOf i l else [] := by
  rw [← C82_mock_closed]
  exact (mocks_ran l i).1

/-! ## The destination of the harness -/

/-- C82: a harness destination that takes `k + 1` values records the first `k + 1` of them, and then completes. -/
theorem C82_takes (vs : List I) (k : Nat) :
    (Harness.run ({ takes := some (k + 1) } : Harness I E) (vs.map .next)).mock.collector =
      recorded ((vs.take (k + 1)).map .next ++ if k + 1 ≤ vs.length then [.complete] else []) := by
  have := harness_takes (E := E) vs k {} rfl
  simpa [recorded] using this

/-- C82: one that takes no limit records all it is given. -/
theorem C82_takes_all (l : List (SubscriberNotification I E)) : (Harness.run {} l).mock.collector = recorded l := by
  have := harness_all l {} rfl
  exact this

/-- C82: one that is to take no values never completes. -/
theorem C82_takes_none (vs : List I) :
    (Harness.run ({ takes := some 0 } : Harness I E) (vs.map .next)).mock.collector = recorded [] := by
  have : ∀ vs : List I, Harness.run ({ takes := some 0 } : Harness I E) (vs.map .next) = { takes := some 0 } := by
    intro vs
    induction vs with
    | nil => rfl
    | cons v vs ih => exact ih
  rw [this]
  rfl

/-! ## Rounds -/

/-- C82: asked for rounds that have been asked for before, or for the next one, a collector of rounds returns for each round always the same
collector, and different collectors for different rounds. The full statement has any rounds, and is false, see `C82_rounds_counterexample`. -/
theorem C82_rounds_partial (rs : List Nat) (h : ∀ a r b, rs = a ++ r :: b → ∀ k < r, k ∈ a) :
    ∃ cs rounds, getRounds [] 0 rs = some (cs, rounds) ∧ cs.length = rs.length ∧
      (∀ i j (hi : i < rs.length) (hj : j < rs.length), cs[i]? = cs[j]? ↔ rs[i] = rs[j]) ∧
      ∀ r, hasRound rounds r = true ↔ r ∈ rs := by
  obtain ⟨cs, rounds, h1, h2, h3, h4⟩ := rounds_get rs [] 0 (by simp) (by simp) (by
    intro a r b he k hk
    exact .inr (h a r b he k hk))
  refine ⟨cs, rounds, h1, h2, ?_, ?_⟩
  · intro i j hi hj
    have hn := h3.1
    have hr : ∀ i (hi : i < rs.length), cs[i]? = rounds[rs[i]]? ∧ rs[i] < rounds.length := h3.2
    rw [(hr i hi).1, (hr j hj).1]
    constructor
    · intro he
      rw [List.getElem?_eq_getElem (hr i hi).2, List.getElem?_eq_getElem (hr j hj).2] at he
      have he := Option.some.inj he
      have hp := List.pairwise_iff_getElem.1 hn
      rcases Nat.lt_trichotomy rs[i] rs[j] with hl | hl | hl
      · exact (hp _ _ _ _ hl he).elim
      · exact hl
      · exact (hp _ _ _ _ hl he.symm).elim
    · intro he
      rw [he]
  · intro r
    unfold hasRound
    rw [show (rounds[r]?.isSome = true ↔ r < rounds.length) by simp, h4 r]
    simp

/-- C82: asked for the second round first, a collector of rounds panics. -/
theorem C82_rounds_counterexample : getRounds [] 0 [1] = none ∧ getRounds [] 0 [0, 1] = some ([0, 1], [0, 1]) := by decide

/-! ## Tracked iterators -/

/-- C82: the count of an iterator is the number of values it gave, and it is finished once it was asked for one more than it had. -/
theorem C82_tracked (pre post : List (TrackOp α)) (items : List α) :
    let i := (Tracking.run {} pre).instances.length
    ∃ rest n f, (Tracking.run {} (pre ++ .iter items :: post)).instances[i]? = some (rest, n, f) ∧
      n = min (nexts i post) items.length ∧ rest = items.drop n ∧ (f = true ↔ items.length < nexts i post) := by
  intro i
  have h0 : ((Tracking.run {} (pre ++ [.iter items])).instances[i]?) = some (items, 0, false) := by
    simp [Tracking.run, List.foldl_append, Tracking.step, i]
  have := tracked_run post _ i items 0 false h0
  obtain ⟨rest, n, f, h1, h2, h3, h4⟩ := this
  refine ⟨rest, n, f, ?_, by simpa using h2, ?_, by simpa using h4⟩
  · rw [← h1]
    simp [Tracking.run, List.foldl_append]
  · rw [h3]; simp

/-! ### Examples -/

/-- A history in which something happened after it was closed. -/
def history : List (SubscriberNotification Nat Nat) := [.next 1, .error 2, .next 3, .unsubscribe, .next 4, .unsubscribe]

example : (recorded history).nothingAfterClosed = false ∧ (recorded history).count Collector.isNext = 2 ∧
    (recorded history).countAfter Collector.isUnsubscribe = 1 ∧ (recorded history).assertAll 1 [.error 2, .next 3] false = true ∧
    (recorded history).assertAll 1 [.error 2, .next 3] true = false ∧ (recorded history).assertNthIsLast 5 = true ∧
    (recorded history).assertLast .unsubscribe = true := by decide

/-- An empty list of expectations passes anywhere. -/
example : (recorded history).assertAll 9 [] true = true := by decide

/-- Two mock observers, one of which is dropped while open. -/
def mocked : List (MockOp Nat Nat) :=
  [.addTeardown 0 (some 7), .addTeardown 1 (some 8), .note 0 (.next 1), .note 0 .complete, .note 1 (.next 2), .note 0 (.next 3), .drop 0, .drop 1]

example : (Mocks.run {} mocked).collector.all = [.next 1, .complete, .next 2, .next 3, .unsubscribe] ∧
    (Mocks.run {} mocked).ran = [(0, 7), (1, 8)] := by decide

example : assertTerminal (recorded [.next 1, .complete] : Collector Nat Nat) true (some true) (some true) (some true) .complete = true ∧
    assertTerminal (recorded [.next 1, .complete] : Collector Nat Nat) true (some true) (some false) (some true) .complete = false := by
  decide

example : ∀ a r b, [0, 1, 0, 2, 1] = a ++ r :: b → ∀ k < r, k ∈ a := by
  intro a r b h k hk
  match a, h with
  | [], h => cases h; omega
  | [_], h => cases h; simp; omega
  | [_, _], h => cases h; omega
  | [_, _, _], h => cases h; simp; omega
  | [_, _, _, _], h => cases h; simp; omega
  | _ :: _ :: _ :: _ :: _ :: _, h => simp at h

example : (Tracking.run {} ([.iter [5, 6], .next 0, .iter [7], .next 1, .next 1] : List (TrackOp Nat))).instances =
    [([6], 1, false), ([], 1, true)] := by decide

end Rx.Testing
