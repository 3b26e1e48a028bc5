import Verif.Model.SubscriberState
import Verif.Model.Subscriber
import Verif.Spec.Grammar

/-!
# C03, C06, C07: subscriptions, state tracker, notification conversions
-/

namespace Rx

/-! ## C06 -/

namespace SubscriberState
variable {I E : Type}

theorem feed_unsubscribed (s : SubscriberState) (h : s.unsubscribed = true)
    (ns : List (SubscriberNotification I E)) : (s.feed ns).isSome = ns.isEmpty := by
  cases ns with
  | nil => rfl
  | cons n ns =>
    cases n <;> simp [feed, updateWithNotification, next, error, complete, unsubscribe, isClosed,
      isUnsubscribed, h]

theorem feed_finished (s : SubscriberState) (h : s.unsubscribed = false)
    (hf : (s.completed || s.errored) = true)
    (ns : List (SubscriberNotification I E)) :
    (s.feed ns).isSome = true ↔ (ns = [] ∨ ns = [.unsubscribe]) := by
  cases ns with
  | nil => simp [feed]
  | cons n ns =>
    cases n with
    | unsubscribe =>
      have := feed_unsubscribed (I := I) (E := E)
        { s with waiting := false, unsubscribed := true } rfl ns
      simp [feed, updateWithNotification, unsubscribe, isUnsubscribed, h, this]
    | next v => simp [feed, updateWithNotification, next, isClosed, isFinished, isCompleted, isErrored, hf]
    | error v => simp [feed, updateWithNotification, error, isClosed, isFinished, isCompleted, isErrored, hf]
    | complete => simp [feed, updateWithNotification, complete, isClosed, isFinished, isCompleted, isErrored, hf]

theorem grammar_nil : RxGrammar ([] : List (SubscriberNotification I E)) :=
  ⟨⟨[], none, false⟩, rfl⟩

theorem grammar_next (v : I) (ns : List (SubscriberNotification I E)) :
    RxGrammar (.next v :: ns) ↔ RxGrammar ns := by
  constructor
  · rintro ⟨⟨vals, t, u⟩, h⟩
    cases vals with
    | nil => cases t with
      | none => cases u <;> simp [Hist.notes] at h
      | some t => cases t <;> simp [Hist.notes, Term.note] at h
    | cons w vals =>
      simp only [Hist.notes, List.map_cons, List.cons_append, List.cons.injEq] at h
      exact ⟨⟨vals, t, u⟩, by simpa [Hist.notes] using h.2⟩
  · rintro ⟨⟨vals, t, u⟩, rfl⟩
    exact ⟨⟨v :: vals, t, u⟩, by simp [Hist.notes]⟩

theorem grammar_term (t : Term E) (ns : List (SubscriberNotification I E)) :
    RxGrammar (t.note :: ns) ↔ (ns = [] ∨ ns = [.unsubscribe]) := by
  constructor
  · rintro ⟨⟨vals, t', u⟩, h⟩
    cases vals with
    | cons w vals => cases t <;> simp [Hist.notes, Term.note] at h
    | nil => cases t' with
      | none => cases u <;> cases t <;> simp [Hist.notes, Term.note] at h
      | some t' =>
        simp only [Hist.notes, List.map_nil, List.nil_append, Option.map_some, Option.toList_some,
          List.cons_append, List.cons.injEq] at h
        cases u <;> simp [h.2]
  · rintro (rfl | rfl)
    · exact ⟨⟨[], some t, false⟩, by simp [Hist.notes]⟩
    · exact ⟨⟨[], some t, true⟩, by simp [Hist.notes]⟩

theorem grammar_unsub (ns : List (SubscriberNotification I E)) :
    RxGrammar (.unsubscribe :: ns) ↔ ns = [] := by
  constructor
  · rintro ⟨⟨vals, t', u⟩, h⟩
    cases vals with
    | cons w vals => simp [Hist.notes] at h
    | nil => cases t' with
      | none => cases u <;> simp [Hist.notes] at h; exact h
      | some t' => cases t' <;> simp [Hist.notes, Term.note] at h
  · rintro rfl
    exact ⟨⟨[], none, true⟩, by simp [Hist.notes]⟩

theorem feed_open (s : SubscriberState) (h : s.isClosed = false)
    (ns : List (SubscriberNotification I E)) : (s.feed ns).isSome = true ↔ RxGrammar ns := by
  induction ns generalizing s with
  | nil => simp [feed, grammar_nil]
  | cons n ns ih =>
    have h' := h
    simp only [isClosed, isUnsubscribed, isFinished, isCompleted, isErrored, Bool.or_eq_false_iff] at h'
    obtain ⟨hu, hc, he⟩ := h'
    cases n with
    | next v =>
      rw [grammar_next]
      simp only [feed, updateWithNotification, next, h, Bool.false_eq_true, if_false, Option.bind_some]
      exact ih _ (by simp [isClosed, isUnsubscribed, isFinished, isCompleted, isErrored, hu, hc, he])
    | error e =>
      rw [show (SubscriberNotification.error e : SubscriberNotification I E) = (Term.error e).note from rfl,
        grammar_term]
      simp only [feed, updateWithNotification, error, Term.note, h, Bool.false_eq_true, if_false, Option.bind_some]
      refine feed_finished _ ?_ ?_ ns <;> simp [hu]
    | complete =>
      rw [show (SubscriberNotification.complete : SubscriberNotification I E) = Term.complete.note from rfl,
        grammar_term]
      simp only [feed, updateWithNotification, complete, Term.note, h, Bool.false_eq_true, if_false, Option.bind_some]
      refine feed_finished _ ?_ ?_ ns <;> simp [hu]
    | unsubscribe =>
      rw [grammar_unsub]
      simp only [feed, updateWithNotification, unsubscribe, isUnsubscribed, hu, Bool.false_eq_true,
        if_false, Option.bind_some]
      rw [feed_unsubscribed _ rfl]
      simp

end SubscriberState

/-- **C06 (a)** Feeding notifications into a fresh `SubscriberState` triggers no debug assertion iff
the sequence is `Next* (Error|Complete)? Unsubscribe?`. -/
theorem C06_accepts_exactly_grammar {I E : Type} (ns : List (SubscriberNotification I E)) :
    (SubscriberState.default.feed ns).isSome = true ↔ RxGrammar ns :=
  SubscriberState.feed_open _ rfl ns

/-- Which kinds of notification occur in a history. -/
def hasNext {I E : Type} (ns : List (SubscriberNotification I E)) : Bool :=
  ns.any fun | .next _ => true | _ => false
def hasError {I E : Type} (ns : List (SubscriberNotification I E)) : Bool :=
  ns.any fun | .error _ => true | _ => false
def hasComplete {I E : Type} (ns : List (SubscriberNotification I E)) : Bool :=
  ns.any fun | .complete => true | _ => false
def hasUnsubscribe {I E : Type} (ns : List (SubscriberNotification I E)) : Bool :=
  ns.any fun | .unsubscribe => true | _ => false

theorem SubscriberState.feed_flags {I E : Type} (s s' : SubscriberState)
    (ns : List (SubscriberNotification I E)) (h : s.feed ns = some s') :
    s'.waiting = (s.waiting && ns.isEmpty) ∧ s'.primed = (s.primed || hasNext ns) ∧
    s'.completed = (s.completed || hasComplete ns) ∧ s'.errored = (s.errored || hasError ns) ∧
    s'.unsubscribed = (s.unsubscribed || hasUnsubscribe ns) := by
  induction ns generalizing s with
  | nil =>
    simp only [feed, Option.some.injEq] at h
    subst h
    simp [hasNext, hasError, hasComplete, hasUnsubscribe]
  | cons n ns ih =>
    cases n with
    | next v =>
      simp only [feed, updateWithNotification, next] at h
      split at h
      · simp at h
      · have := ih _ h
        simp only [Bool.false_and, Bool.true_or] at this
        simp [hasNext, hasError, hasComplete, hasUnsubscribe] at this ⊢
        simp [this]
    | error v =>
      simp only [feed, updateWithNotification, error] at h
      split at h
      · simp at h
      · have := ih _ h
        simp only [Bool.false_and, Bool.true_or] at this
        simp [hasNext, hasError, hasComplete, hasUnsubscribe] at this ⊢
        simp [this]
    | complete =>
      simp only [feed, updateWithNotification, complete] at h
      split at h
      · simp at h
      · have := ih _ h
        simp only [Bool.false_and, Bool.true_or] at this
        simp [hasNext, hasError, hasComplete, hasUnsubscribe] at this ⊢
        simp [this]
    | unsubscribe =>
      simp only [feed, updateWithNotification, unsubscribe] at h
      split at h
      · simp at h
      · have := ih _ h
        simp only [Bool.false_and, Bool.true_or] at this
        simp [hasNext, hasError, hasComplete, hasUnsubscribe] at this ⊢
        simp [this]

/-- **C06 (b)** After any accepted sequence every public predicate of the state says exactly which
kinds of notification were seen. -/
theorem C06_flags_reflect_history {I E : Type} (ns : List (SubscriberNotification I E))
    (s : SubscriberState) (h : SubscriberState.default.feed ns = some s) :
    s.isWaiting = ns.isEmpty ∧ s.isPrimed = hasNext ns ∧ s.isCompleted = hasComplete ns ∧
    s.isErrored = hasError ns ∧ s.isUnsubscribed = hasUnsubscribe ns ∧
    s.isFinished = (hasComplete ns || hasError ns) ∧
    s.isClosed = (hasUnsubscribe ns || hasComplete ns || hasError ns) ∧
    s.isCompletedButNotPrimed = (hasComplete ns && !hasNext ns) ∧
    s.isClosedButNotPrimed = ((hasUnsubscribe ns || hasComplete ns || hasError ns) && !hasNext ns) ∧
    s.isClosedButPrimed = ((hasUnsubscribe ns || hasComplete ns || hasError ns) && hasNext ns) ∧
    s.isClosedButNotCompleted = ((hasUnsubscribe ns || hasError ns) && !hasComplete ns) ∧
    s.isClosedButNotErrored = ((hasUnsubscribe ns || hasComplete ns) && !hasError ns) ∧
    s.isClosedButNotPrimedAndNotCompleted =
      ((hasUnsubscribe ns || hasError ns) && !hasNext ns && !hasComplete ns) ∧
    s.isClosedButNotCompletedAndPrimed =
      ((hasUnsubscribe ns || hasError ns) && !hasComplete ns && hasNext ns) := by
  obtain ⟨h1, h2, h3, h4, h5⟩ := SubscriberState.feed_flags _ _ _ h
  simp only [SubscriberState.default, Bool.true_and, Bool.false_or] at h1 h2 h3 h4 h5
  simp only [SubscriberState.isWaiting, SubscriberState.isPrimed, SubscriberState.isCompleted,
    SubscriberState.isErrored, SubscriberState.isUnsubscribed, SubscriberState.isFinished,
    SubscriberState.isClosed, SubscriberState.isCompletedButNotPrimed,
    SubscriberState.isClosedButNotPrimed, SubscriberState.isClosedButPrimed,
    SubscriberState.isClosedButNotCompleted, SubscriberState.isClosedButNotErrored,
    SubscriberState.isClosedButNotPrimedAndNotCompleted,
    SubscriberState.isClosedButNotCompletedAndPrimed, h1, h2, h3, h4, h5]
  cases hasUnsubscribe ns <;> cases hasComplete ns <;> cases hasError ns <;> cases hasNext ns <;> simp

/-- **C06 (c)** The escape-hatch check predicts assertion failures exactly, in every state. -/
theorem C06_would_be_invalid_iff {I E : Type} (s : SubscriberState)
    (n : SubscriberNotification I E) :
    s.updateWouldBeInvalid n = (s.updateWithNotification n).isNone := by
  cases n <;> simp only [SubscriberState.updateWouldBeInvalid, SubscriberState.updateWithNotification,
    SubscriberState.next, SubscriberState.error, SubscriberState.complete,
    SubscriberState.unsubscribe] <;> split <;> simp_all

/-- non-vacuity: an accepted and a rejected sequence -/
example : (SubscriberState.default.feed
    ([.next 1, .next 2, .complete, .unsubscribe] : List (SubscriberNotification Nat Nat))).isSome = true := by
  decide
example : ¬ RxGrammar ([.next 1, .unsubscribe, .complete] : List (SubscriberNotification Nat Nat)) := by
  rw [← C06_accepts_exactly_grammar]; decide

/-! ## C07 -/

/-- **C07 (a)** Widening conversions are injective and narrowing undoes them. -/
theorem C07_roundtrip {I E : Type} :
    (∀ n : ObserverNotification I E,
      ObserverNotification.tryOfSubscriber (SubscriberNotification.ofObserver n) = .ok n) ∧
    (∀ t : ObserverTerminalNotification E,
      ObserverTerminalNotification.tryOfObserver
        (ObserverNotification.ofTerminal t : ObserverNotification I E) = .ok t) ∧
    (∀ t : ObserverTerminalNotification E,
      ObserverTerminalNotification.tryOfSubscriber
        (SubscriberNotification.ofTerminal t : SubscriberNotification I E) = .ok t) ∧
    (∀ u : SubscriptionNotification,
      SubscriptionNotification.tryOfSubscriber
        (SubscriberNotification.ofSubscription u : SubscriberNotification I E) = .ok u) ∧
    (∀ t : ObserverTerminalNotification E,
      SubscriberNotification.ofObserver (ObserverNotification.ofTerminal t : ObserverNotification I E)
        = SubscriberNotification.ofTerminal t) := by
  refine ⟨?_, ?_, ?_, ?_, ?_⟩ <;> rintro (_ | _ | _) <;> rfl

/-- **C07 (b)** A successful narrowing loses nothing: widening gives the original back; and it
fails exactly for the kinds the target cannot represent. -/
theorem C07_narrowing_exact {I E : Type} (n : SubscriberNotification I E) :
    (∀ m, ObserverNotification.tryOfSubscriber n = .ok m → SubscriberNotification.ofObserver m = n) ∧
    (∀ m, ObserverTerminalNotification.tryOfSubscriber n = .ok m →
      SubscriberNotification.ofTerminal m = n) ∧
    (∀ m, SubscriptionNotification.tryOfSubscriber n = .ok m →
      SubscriberNotification.ofSubscription m = n) ∧
    ((∃ e, ObserverNotification.tryOfSubscriber n = .error e) ↔ n = .unsubscribe) ∧
    ((∃ e, ObserverTerminalNotification.tryOfSubscriber n = .error e) ↔
      (n = .unsubscribe ∨ ∃ v, n = .next v)) ∧
    ((∃ e, SubscriptionNotification.tryOfSubscriber n = .error e) ↔ n ≠ .unsubscribe) := by
  cases n <;>
    simp [ObserverNotification.tryOfSubscriber, ObserverTerminalNotification.tryOfSubscriber,
      SubscriptionNotification.tryOfSubscriber, SubscriberNotification.ofObserver,
      SubscriberNotification.ofTerminal, SubscriberNotification.ofSubscription]
  exact ⟨.cannotReceiveUnsubscribe, trivial⟩

/-- **C07 (c)** narrowing an observer notification to a terminal one. -/
theorem C07_narrowing_terminal_exact {I E : Type} (n : ObserverNotification I E) :
    (∀ m, ObserverTerminalNotification.tryOfObserver n = .ok m → ObserverNotification.ofTerminal m = n) ∧
    ((∃ e, ObserverTerminalNotification.tryOfObserver n = .error e) ↔ ∃ v, n = .next v) := by
  cases n <;> simp [ObserverTerminalNotification.tryOfObserver, ObserverNotification.ofTerminal]
  exact ⟨.cannotReceiveNext, trivial⟩

/-- **C07 (d)** `push` of a notification calls exactly the corresponding channel with the same
payload, for every subscriber and state. The channels are told apart by an arbitrary subscriber. -/
theorem C07_push_dispatch {S I E : Type} (D : Sub S I E) (s : S) :
    (∀ v, D.push s (.next v) = D.next s v ∧ D.pushObserver s (.next v) = D.next s v) ∧
    (∀ e, D.push s (.error e) = D.error s e ∧ D.pushObserver s (.error e) = D.error s e ∧
      D.pushTerminal s (.error e) = D.error s e) ∧
    (D.push s .complete = D.complete s ∧ D.pushObserver s .complete = D.complete s ∧
      D.pushTerminal s .complete = D.complete s) ∧
    (D.push s .unsubscribe = D.unsubscribe s ∧ D.pushSubscription s .unsubscribe = D.unsubscribe s) := by
  simp [Sub.push, Sub.pushObserver, Sub.pushTerminal, Sub.pushSubscription]

/-- **C07 (e)** pushing a converted notification is pushing the original one. -/
theorem C07_push_converted {S I E : Type} (D : Sub S I E) (s : S) :
    (∀ n, D.push s (SubscriberNotification.ofObserver n) = D.pushObserver s n) ∧
    (∀ t, D.push s (SubscriberNotification.ofTerminal t) = D.pushTerminal s t) ∧
    (∀ t, D.pushObserver s (ObserverNotification.ofTerminal t) = D.pushTerminal s t) ∧
    (∀ u, D.push s (SubscriberNotification.ofSubscription u) = D.pushSubscription s u) := by
  refine ⟨?_, ?_, ?_, ?_⟩ <;> rintro (_ | _ | _) <;> rfl

/-- **C07 (f)** `is_terminal` / `is_closing` classify exactly. -/
theorem C07_classification {I E : Type} (n : SubscriberNotification I E) :
    (n.isTerminal = true ↔ ((∃ e, n = .error e) ∨ n = .complete)) ∧
    (n.isClosing = true ↔ ((∃ e, n = .error e) ∨ n = .complete ∨ n = .unsubscribe)) := by
  cases n <;> simp [SubscriberNotification.isClosing, SubscriberNotification.isTerminal]

/-! ## C03 -/

/-- Specification: the teardown closures handed over, in order. -/
def addedTeardowns (ops : List SubscriptionOp) : List Nat :=
  ops.filterMap fun | .add t => t | _ => none

/-- Specification: was the subscription closed? -/
def wasClosed (ops : List SubscriptionOp) : Bool :=
  ops.any fun | .add _ => false | _ => true

theorem SubscriptionData.run_closed (s : SubscriptionData) (h : s.closed = true)
    (ops : List SubscriptionOp) : s.run ops = (s, addedTeardowns ops) := by
  induction ops with
  | nil => rfl
  | cons op ops ih =>
    cases op with
    | add t =>
      simp only [run, step, addTeardown, isClosed, h, if_true, ih, addedTeardowns, Teardown.execute]
      cases t <;> simp
    | unsubscribe =>
      simp only [run, step, unsubscribe, isClosed, h, Bool.not_true, Bool.false_eq_true, if_false, ih,
        addedTeardowns]
      simp
    | drop =>
      simp only [run, step, drop, isClosed, h, Bool.not_true, Bool.false_eq_true, if_false, ih,
        addedTeardowns]
      simp

theorem SubscriptionData.run_open (s : SubscriptionData) (h : s.closed = false)
    (ops : List SubscriptionOp) :
    (s.run ops).1.closed = wasClosed ops ∧
    (s.run ops).2 = (if wasClosed ops then s.finalizers ++ addedTeardowns ops else []) := by
  induction ops generalizing s with
  | nil => simp [run, wasClosed, h]
  | cons op ops ih =>
    cases op with
    | add t =>
      cases t with
      | none =>
        have := ih s h
        simp only [run, step, addTeardown, isClosed, h, Bool.false_eq_true, if_false, Teardown.take]
        simpa [wasClosed, addedTeardowns] using this
      | some t =>
        have := ih ⟨false, s.finalizers ++ [t]⟩ rfl
        simp only [run, step, addTeardown, isClosed, h, Bool.false_eq_true, if_false, Teardown.take]
        simpa [wasClosed, addedTeardowns] using this
    | unsubscribe =>
      simp only [run, step, unsubscribe, isClosed, h, Bool.not_false, if_true]
      rw [run_closed _ rfl]
      simp [wasClosed, addedTeardowns]
    | drop =>
      simp only [run, step, drop, unsubscribe, isClosed, h, Bool.not_false, if_true]
      rw [run_closed _ rfl]
      simp [wasClosed, addedTeardowns]

/-- **C03 (a)** For every sequence of operations on a fresh subscription: nothing is executed while it
is open; once it has been closed (unsubscribed or dropped), the teardowns executed so far are exactly
those handed over so far, each once, in the order handed over. Because this holds for every prefix of
every history it also fixes when each teardown runs: those added before closing run at the closing
operation, later ones immediately when added. -/
theorem C03_teardowns_exactly_once (ops : List SubscriptionOp) :
    (SubscriptionData.default.run ops).1.isClosed = wasClosed ops ∧
    (SubscriptionData.default.run ops).2 = (if wasClosed ops then addedTeardowns ops else []) := by
  have := SubscriptionData.run_open .default rfl ops
  simpa [SubscriptionData.default, SubscriptionData.isClosed] using this

/-- **C03 (b)** when the subscription is finally dropped, every teardown handed over has run exactly
once, whatever happened before. -/
theorem C03_all_executed_after_drop (ops : List SubscriptionOp) :
    (SubscriptionData.default.run (ops ++ [.drop])).2 = addedTeardowns ops := by
  have := (C03_teardowns_exactly_once (ops ++ [.drop])).2
  have hc : wasClosed (ops ++ [.drop]) = true := by simp [wasClosed]
  rw [hc, if_pos rfl] at this
  rw [this]; simp [addedTeardowns]

/-- **C03 (c)** closing is permanent. -/
theorem C03_closed_stays_closed (s : SubscriptionData) (h : s.isClosed = true) (op : SubscriptionOp) :
    (s.step op).1.isClosed = true := by
  cases op with
  | add t => simp [SubscriptionData.step, SubscriptionData.addTeardown, h]
  | unsubscribe => simp [SubscriptionData.step, SubscriptionData.unsubscribe, h]
  | drop => simp [SubscriptionData.step, SubscriptionData.drop, h]

/-- **C03 (d)** `new_with_teardown` is `default` followed by `add_teardown`. -/
theorem C03_new_with_teardown (t : Teardown) :
    SubscriptionData.newWithTeardown t = (SubscriptionData.default.addTeardown t).1 := by
  cases t <;> rfl

/-- **C03 (e)** a teardown says it is closed exactly if nothing is left in it to execute: handing it over has no
effect on a subscription that is open, and executes nothing on one that is closed. -/
theorem C03_closed_teardown (t : Teardown) :
    (t.isClosed = true ↔ ∀ s : SubscriptionData, s.addTeardown t = (s, [])) ∧
    (t.isClosed = true ↔ t.execute = []) := by
  cases t with
  | none =>
    refine ⟨⟨fun _ s => ?_, fun _ => rfl⟩, ⟨fun _ => rfl, fun _ => rfl⟩⟩
    unfold SubscriptionData.addTeardown
    split <;> rfl
  | some c =>
    refine ⟨⟨fun h => by simp [Teardown.isClosed] at h, fun h => ?_⟩,
      ⟨fun h => by simp [Teardown.isClosed] at h, fun h => by simp [Teardown.execute] at h⟩⟩
    have := h .default
    simp [SubscriptionData.addTeardown, SubscriptionData.default, SubscriptionData.isClosed, Teardown.take] at this

/-- non-vacuity -/
example : (SubscriptionData.default.run
    [.add (some 1), .add none, .add (some 2), .unsubscribe, .add (some 3), .unsubscribe, .drop]).2
    = [1, 2, 3] := by decide

end Rx
