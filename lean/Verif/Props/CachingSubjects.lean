import Verif.Lemmas.CachingSubjects

/-!
# Behavior, replay, async and provenance subjects: C29 - C32

Throughout, an observer is subscribed after the calls `a` and before the calls `b`; it is subscriber number
`(startsOf a).length`.
-/

namespace Rx.Caching.Props

open Rx.Publish (State passive endOf startsOf window asObserved)

variable {I E : Type}

/-- The part common to C29 and C30. -/
theorem replaying_observer {V : Type} (M : Memory V I) (ord : Nat → List Nat → List Nat)
    (hord : ∀ c l, (ord c l).Perm l) (s0 : ObsState I E) (v0 : V) (a b : List (Publish.Op (ObsState I E) I E)) :
    ∃ y, run M (observerSubscriber I E) ord noAnswer ⟨State.init s0, v0⟩ (a ++ .subscribe .new :: b) = .ok y ∧
      (y.subject.dest (startsOf a).length).seen =
        (if errored (endOf a) then [] else (M.read ((values a).foldl M.write v0)).map .next) ++
          (later (startsOf a).length a b).filterMap asObserved ∧
      (observerSubscriber I E).isClosed (y.subject.dest (startsOf a).length) =
        (later (startsOf a).length a b).any (·.isClosing) := by
  obtain ⟨y, hy, h⟩ := replaying_dest (M := M) (Publish.observer_closes I E) hord (s0 := s0)
    (Publish.observer_exact_new I E) v0 a b
  have ht := Publish.trunc_later (startsOf a).length a b
  generalize hvs : (M.read ((values a).foldl M.write v0)) = vs at h ⊢
  have key : ∀ (us : List I) (ns : List (SubscriberNotification I E)), Publish.trunc ns = ns →
      ((observerSubscriber I E).run .new (us.map .next ++ ns)).seen =
        us.map .next ++ ns.filterMap asObserved ∧
      (observerSubscriber I E).isClosed ((observerSubscriber I E).run .new (us.map .next ++ ns)) =
        ns.any (·.isClosing) := by
    intro us ns hns
    obtain ⟨h1, h2⟩ := Publish.observer_run (us.map .next ++ ns)
      (by rw [Publish.trunc_nexts, hns]) (ObsState.new : ObsState I E) rfl
    refine ⟨h1.trans ?_, h2.trans ?_⟩
    · simp [ObsState.seen, ObsState.new, List.filterMap_map, Function.comp_def, asObserved]
    · simp [Publish.hasClosing, SubscriberNotification.isClosing, SubscriberNotification.isTerminal]
  refine ⟨y, hy, ?_⟩
  rw [h]
  split
  · exact key [] _ ht
  · exact key vs _ ht

/-! ## C29 -/

/-- C29, open subjects. A new observer first sees the most recent value sent (`v0` if there is none), then
everything sent later. -/
theorem C29_latest_then_later (ord : Nat → List Nat → List Nat) (hord : ∀ c l, (ord c l).Perm l)
    (s0 : ObsState I E) (v0 : I) (a b : List (Publish.Op (ObsState I E) I E)) (ha : endOf a = none) :
    ∃ y, run latest (observerSubscriber I E) ord noAnswer ⟨State.init s0, v0⟩ (a ++ .subscribe .new :: b) =
        .ok y ∧
      (y.subject.dest (startsOf a).length).seen = .next ((values a).getLast?.getD v0) ::
        (window (startsOf a).length b).filterMap asObserved ∧
      (observerSubscriber I E).isClosed (y.subject.dest (startsOf a).length) =
        (window (startsOf a).length b).any (·.isClosing) := by
  obtain ⟨y, hy, h1, h2⟩ := replaying_observer latest ord hord s0 v0 a b
  refine ⟨y, hy, ?_, ?_⟩
  · rw [h1, later, ha, write_latest]; rfl
  · rw [h2, later, ha]

/-- C29, subjects that have completed or were unsubscribed. A new observer sees the most recent value sent
while the subject was open, then how it ended; provided that nothing was sent afterwards. -/
theorem C29_after_end_partial (ord : Nat → List Nat → List Nat) (hord : ∀ c l, (ord c l).Perm l)
    (s0 : ObsState I E) (v0 : I) (a b : List (Publish.Op (ObsState I E) I E)) (n : SubscriberNotification I E)
    (ha : endOf a = some n) (hn : ∀ e, n ≠ .error e) (hv : values a = openValues a) :
    ∃ y, run latest (observerSubscriber I E) ord noAnswer ⟨State.init s0, v0⟩ (a ++ .subscribe .new :: b) =
        .ok y ∧
      (y.subject.dest (startsOf a).length).seen = .next ((openValues a).getLast?.getD v0) ::
        [n].filterMap asObserved ∧
      (observerSubscriber I E).isClosed (y.subject.dest (startsOf a).length) = true := by
  obtain ⟨y, hy, h1, h2⟩ := replaying_observer latest ord hord s0 v0 a b
  have hc : n.isClosing = true := by simpa using List.find?_some ha
  refine ⟨y, hy, ?_, ?_⟩
  · rw [h1, later, ha, write_latest, hv]
    cases n with
    | error e => exact absurd rfl (hn e)
    | next v => cases hc
    | complete => rfl
    | unsubscribe => rfl
  · rw [h2, later, ha]; simp [hc]

/-- C29, subjects that have errored. A new observer sees only the error. -/
theorem C29_after_error (ord : Nat → List Nat → List Nat) (hord : ∀ c l, (ord c l).Perm l)
    (s0 : ObsState I E) (v0 : I) (a b : List (Publish.Op (ObsState I E) I E)) (e : E)
    (ha : endOf a = some (.error e)) :
    ∃ y, run latest (observerSubscriber I E) ord noAnswer ⟨State.init s0, v0⟩ (a ++ .subscribe .new :: b) =
        .ok y ∧
      (y.subject.dest (startsOf a).length).seen = [.error e] ∧
      (observerSubscriber I E).isClosed (y.subject.dest (startsOf a).length) = true := by
  obtain ⟨y, hy, h1, h2⟩ := replaying_observer latest ord hord s0 v0 a b
  refine ⟨y, hy, ?_, ?_⟩
  · rw [h1, later, ha]; rfl
  · rw [h2, later, ha]; rfl

/-- What subscriber `k` of a behavior subject with initial value 0 sees. -/
def behaviorSees (answer : Answer (ObsState Nat Nat) Nat Nat) (ops : List (Publish.Op (ObsState Nat Nat) Nat Nat)) (k : Nat) :
    Option (List (ObserverNotification Nat Nat) × Nat) :=
  match run latest (observerSubscriber Nat Nat) (fun _ l => l) answer ⟨State.init .new, 0⟩ ops with
  | .ok y => some ((y.subject.dest k).seen, y.memory)
  | .error _ => none

/-- Non-vacuity: other subscribers, values before and after. -/
example : behaviorSees noAnswer [.note (.next 1), .subscribe .new, .note (.next 2), .cancel 0, .subscribe .new,
    .note (.next 3), .note .complete, .note .unsubscribe] 1 = some ([.next 2, .next 3, .complete], 3) := by
  decide +kernel

example : endOf ([.note (.next 1), .note .complete] : List (Publish.Op (ObsState Nat Nat) Nat Nat)) =
    some .complete := rfl

/-- Full C29 fails: `next` after the subject completed replaces the value. -/
theorem C29_value_sent_after_end :
    behaviorSees noAnswer [.note (.next 1), .note .complete, .note (.next 2), .subscribe .new] 0 =
      some ([.next 2, .complete], 2) := by
  decide +kernel

/-- Full C29 fails: a value sent in answer to the replayed one is remembered, but does not reach the
subscriber that sent it, although it is sent later. -/
theorem C29_answer_lost :
    behaviorSees (fun _ v => if v = 0 then [.next 5] else []) [.subscribe .new, .note .complete] 0 =
      some ([.next 0, .complete], 5) := by
  decide +kernel

/-! ## C30 -/

/-- C30, open subjects. A new observer first sees the last `cap` values sent (all, if there are fewer), then
everything sent later. -/
theorem C30_last_then_later (cap : Nat) (hcap : 0 < cap) (ord : Nat → List Nat → List Nat)
    (hord : ∀ c l, (ord c l).Perm l) (s0 : ObsState I E) (a b : List (Publish.Op (ObsState I E) I E))
    (ha : endOf a = none) :
    ∃ y, run (ring cap) (observerSubscriber I E) ord noAnswer ⟨State.init s0, []⟩ (a ++ .subscribe .new :: b) =
        .ok y ∧
      (y.subject.dest (startsOf a).length).seen = (lastN cap (values a)).map .next ++
        (window (startsOf a).length b).filterMap asObserved ∧
      (observerSubscriber I E).isClosed (y.subject.dest (startsOf a).length) =
        (window (startsOf a).length b).any (·.isClosing) := by
  obtain ⟨y, hy, h1, h2⟩ := replaying_observer (ring cap) ord hord s0 [] a b
  refine ⟨y, hy, ?_, ?_⟩
  · rw [h1, later, ha, write_ring hcap]; rfl
  · rw [h2, later, ha]

/-- C30, subjects that have completed or were unsubscribed; provided that nothing was sent afterwards. -/
theorem C30_after_end_partial (cap : Nat) (hcap : 0 < cap) (ord : Nat → List Nat → List Nat)
    (hord : ∀ c l, (ord c l).Perm l) (s0 : ObsState I E) (a b : List (Publish.Op (ObsState I E) I E))
    (n : SubscriberNotification I E) (ha : endOf a = some n) (hn : ∀ e, n ≠ .error e)
    (hv : values a = openValues a) :
    ∃ y, run (ring cap) (observerSubscriber I E) ord noAnswer ⟨State.init s0, []⟩ (a ++ .subscribe .new :: b) =
        .ok y ∧
      (y.subject.dest (startsOf a).length).seen = (lastN cap (openValues a)).map .next ++
        [n].filterMap asObserved ∧
      (observerSubscriber I E).isClosed (y.subject.dest (startsOf a).length) = true := by
  obtain ⟨y, hy, h1, h2⟩ := replaying_observer (ring cap) ord hord s0 [] a b
  have hc : n.isClosing = true := by simpa using List.find?_some ha
  refine ⟨y, hy, ?_, ?_⟩
  · rw [h1, later, ha, write_ring hcap, hv]
    cases n with
    | error e => exact absurd rfl (hn e)
    | next v => cases hc
    | complete => rfl
    | unsubscribe => rfl
  · rw [h2, later, ha]; simp [hc]

/-- C30, subjects that have errored. A new observer sees only the error. -/
theorem C30_after_error (cap : Nat) (ord : Nat → List Nat → List Nat) (hord : ∀ c l, (ord c l).Perm l)
    (s0 : ObsState I E) (a b : List (Publish.Op (ObsState I E) I E)) (e : E)
    (ha : endOf a = some (.error e)) :
    ∃ y, run (ring cap) (observerSubscriber I E) ord noAnswer ⟨State.init s0, []⟩ (a ++ .subscribe .new :: b) =
        .ok y ∧
      (y.subject.dest (startsOf a).length).seen = [.error e] ∧
      (observerSubscriber I E).isClosed (y.subject.dest (startsOf a).length) = true := by
  obtain ⟨y, hy, h1, h2⟩ := replaying_observer (ring cap) ord hord s0 [] a b
  refine ⟨y, hy, ?_, ?_⟩
  · rw [h1, later, ha]; rfl
  · rw [h2, later, ha]; rfl

/-- What subscriber `k` of a replay subject with capacity 2 sees. -/
def replaySees (ops : List (Publish.Op (ObsState Nat Nat) Nat Nat)) (k : Nat) :
    Option (List (ObserverNotification Nat Nat)) :=
  match run (ring 2) (observerSubscriber Nat Nat) (fun _ l => l) noAnswer ⟨State.init .new, []⟩ ops with
  | .ok y => some (y.subject.dest k).seen
  | .error _ => none

example : replaySees [.note (.next 1), .note (.next 2), .note (.next 3), .subscribe .new, .note (.next 4)] 0 =
    some [.next 2, .next 3, .next 4] := by
  decide +kernel

example : lastN 2 [1, 2, 3] = [2, 3] ∧ lastN 2 [1] = [1] := by decide

/-- Full C30 fails: values sent after the subject completed are remembered. -/
theorem C30_value_sent_after_end :
    replaySees [.note (.next 1), .note .complete, .note (.next 2), .subscribe .new] 0 =
      some [.next 1, .next 2, .complete] := by
  decide +kernel

/-! ## C31 -/

theorem async_observer (f : I → I → I) (ord : Nat → List Nat → List Nat)
    (hord : ∀ c l, (ord c l).Perm l) (s0 : ObsState I E) (a b : List (Publish.Op (ObsState I E) I E)) :
    ∃ y, Async.run f (observerSubscriber I E) ord ⟨State.init s0, none⟩ (a ++ .subscribe .new :: b) = .ok y ∧
      let ns := match endOf a with
        | none => released f (reduction f (values a)) (window (startsOf a).length b)
        | some n => (given (reduction f (values a)) (some n)).map SubscriberNotification.next ++ [n]
      (y.subject.dest (startsOf a).length).seen = ns.filterMap asObserved ∧
      (observerSubscriber I E).isClosed (y.subject.dest (startsOf a).length) = ns.any (·.isClosing) := by
  obtain ⟨y, hy, h⟩ := async_dest (f := f) (Publish.observer_closes I E) hord (s0 := s0)
    (Publish.observer_exact_new I E) a b
  refine ⟨y, hy, ?_⟩
  rw [h]
  have ht : Publish.trunc (match endOf a with
        | none => released f (reduction f (values a)) (window (startsOf a).length b)
        | some n => (given (reduction f (values a)) (some n)).map .next ++ [n]) =
      match endOf a with
        | none => released f (reduction f (values a)) (window (startsOf a).length b)
        | some n => (given (reduction f (values a)) (some n)).map .next ++ [n] := by
    cases hea : endOf a with
    | none =>
      simp only [released]
      cases hf : (window (startsOf a).length b).find? (·.isClosing) with
      | none => rfl
      | some n =>
        have hn : n.isClosing = true := by simpa using List.find?_some hf
        cases n with
        | next v => cases hn
        | complete => simp only; rw [Publish.trunc_nexts]; rfl
        | error e => rfl
        | unsubscribe => rfl
    | some n =>
      have hn : n.isClosing = true := by simpa using List.find?_some hea
      simp only
      rw [Publish.trunc_nexts]
      simp [Publish.trunc, hn]
  obtain ⟨h1, h2⟩ := Publish.observer_run _ ht (ObsState.new : ObsState I E) rfl
  exact ⟨h1.trans (by simp [ObsState.seen, ObsState.new]), h2⟩

/-- C31, open subjects. A new observer sees nothing before the subject completes; then it sees the reduction
of all values sent, also those before it subscribed, once, if there are any, and completion. If the subject
errors or is unsubscribed, or the observer is, it sees no value. -/
theorem C31_on_completion (f : I → I → I) (ord : Nat → List Nat → List Nat) (hord : ∀ c l, (ord c l).Perm l)
    (s0 : ObsState I E) (a b : List (Publish.Op (ObsState I E) I E)) (ha : endOf a = none) :
    ∃ y, Async.run f (observerSubscriber I E) ord ⟨State.init s0, none⟩ (a ++ .subscribe .new :: b) = .ok y ∧
      (y.subject.dest (startsOf a).length).seen = onCompletion f (values a) (window (startsOf a).length b) ∧
      (observerSubscriber I E).isClosed (y.subject.dest (startsOf a).length) =
        (window (startsOf a).length b).any (·.isClosing) := by
  obtain ⟨y, hy, h1, h2⟩ := async_observer f ord hord s0 a b
  simp only [ha, released, foldl_reduction] at h1 h2
  have hr : ∀ vs : List I, reduction f ((reduction f (values a)).toList ++ vs) = reduction f (values a ++ vs) := by
    intro vs
    cases values a with
    | nil => rfl
    | cons u us => simp [reduction]
  refine ⟨y, hy, ?_, ?_⟩
  · rw [h1, onCompletion]
    cases hf : (window (startsOf a).length b).find? (·.isClosing) with
    | none => rfl
    | some n =>
      have hn : n.isClosing = true := by simpa using List.find?_some hf
      cases n with
      | next v => cases hn
      | complete =>
        simp only [hr]
        cases reduction f (values a ++ valuesOf (window (startsOf a).length b)) <;> rfl
      | error e => rfl
      | unsubscribe => rfl
  · rw [h2]
    cases hf : (window (startsOf a).length b).find? (·.isClosing) with
    | none =>
      symm
      rw [List.find?_eq_none] at hf
      simpa using hf
    | some n =>
      have hn : n.isClosing = true := by simpa using List.find?_some hf
      have : (window (startsOf a).length b).any (·.isClosing) = true :=
        List.any_eq_true.2 ⟨n, List.mem_of_find?_eq_some hf, hn⟩
      rw [this]
      cases n with
      | next v => cases hn
      | complete => simp [SubscriberNotification.isClosing, SubscriberNotification.isTerminal]
      | error e => rfl
      | unsubscribe => rfl

/-- C31, late subscribers of a completed subject see the same; provided that nothing was sent afterwards. -/
theorem C31_after_completion_partial (f : I → I → I) (ord : Nat → List Nat → List Nat)
    (hord : ∀ c l, (ord c l).Perm l) (s0 : ObsState I E) (a b : List (Publish.Op (ObsState I E) I E))
    (ha : endOf a = some .complete) (hv : values a = openValues a) :
    ∃ y, Async.run f (observerSubscriber I E) ord ⟨State.init s0, none⟩ (a ++ .subscribe .new :: b) = .ok y ∧
      (y.subject.dest (startsOf a).length).seen =
        (reduction f (openValues a)).toList.map .next ++ [.complete] ∧
      (observerSubscriber I E).isClosed (y.subject.dest (startsOf a).length) = true := by
  obtain ⟨y, hy, h1, h2⟩ := async_observer f ord hord s0 a b
  simp only [ha, hv] at h1 h2
  refine ⟨y, hy, ?_, ?_⟩
  · rw [h1]; cases reduction f (openValues a) <;> rfl
  · rw [h2]; cases reduction f (openValues a) <;> rfl

/-- C31, late subscribers of a subject that errored see the error, and no value. -/
theorem C31_after_error (f : I → I → I) (ord : Nat → List Nat → List Nat)
    (hord : ∀ c l, (ord c l).Perm l) (s0 : ObsState I E) (a b : List (Publish.Op (ObsState I E) I E)) (e : E)
    (ha : endOf a = some (.error e)) :
    ∃ y, Async.run f (observerSubscriber I E) ord ⟨State.init s0, none⟩ (a ++ .subscribe .new :: b) = .ok y ∧
      (y.subject.dest (startsOf a).length).seen = [.error e] ∧
      (observerSubscriber I E).isClosed (y.subject.dest (startsOf a).length) = true := by
  obtain ⟨y, hy, h1, h2⟩ := async_observer f ord hord s0 a b
  simp only [ha] at h1 h2
  exact ⟨y, hy, h1, h2⟩

/-- C31, late subscribers of a subject that was unsubscribed see nothing, if nothing was ever sent. -/
theorem C31_after_unsubscribe_partial (f : I → I → I) (ord : Nat → List Nat → List Nat)
    (hord : ∀ c l, (ord c l).Perm l) (s0 : ObsState I E) (a b : List (Publish.Op (ObsState I E) I E))
    (ha : endOf a = some .unsubscribe) (hv : values a = []) :
    ∃ y, Async.run f (observerSubscriber I E) ord ⟨State.init s0, none⟩ (a ++ .subscribe .new :: b) = .ok y ∧
      (y.subject.dest (startsOf a).length).seen = [] ∧
      (observerSubscriber I E).isClosed (y.subject.dest (startsOf a).length) = true := by
  obtain ⟨y, hy, h1, h2⟩ := async_observer f ord hord s0 a b
  simp only [ha, hv] at h1 h2
  exact ⟨y, hy, h1, h2⟩

/-- What subscriber `k` of an async subject that sums its values sees. -/
def asyncSees (ops : List (Publish.Op (ObsState Nat Nat) Nat Nat)) (k : Nat) :
    Option (List (ObserverNotification Nat Nat)) :=
  match Async.run (· + ·) (observerSubscriber Nat Nat) (fun _ l => l) ⟨State.init .new, none⟩ ops with
  | .ok y => some (y.subject.dest k).seen
  | .error _ => none

example : asyncSees [.note (.next 1), .subscribe .new, .note (.next 2), .note (.next 3), .note .complete] 0 =
    some [.next 6, .complete] := by
  decide +kernel

example : onCompletion (· + ·) [1] ([.next 2, .next 3, .complete] : List (SubscriberNotification Nat Nat)) =
    [.next 6, .complete] := rfl

/-- Full C31 fails: a late subscriber of a subject that was unsubscribed without completing gets a value. -/
theorem C31_value_after_unsubscribe :
    asyncSees [.note (.next 1), .note .unsubscribe, .subscribe .new] 0 = some [.next 1] := by
  decide +kernel

/-- Full C31 fails: values sent after completion change what late subscribers get. -/
theorem C31_value_sent_after_completion :
    asyncSees [.note (.next 1), .note .complete, .note (.next 2), .subscribe .new] 0 =
      some [.next 3, .complete] := by
  decide +kernel

/-! ## C32 -/

open Provenance in
/-- C32. Subscribers of all kinds (directly, `all()`, `only_by_provenance(p)`, `replay_then_by_provenance(p)`)
may be mixed. The remembered value and the values sent later reach a new observer without their provenance;
all of them through `all()`; only those with provenance `p` through the others, except that
`replay_then_by_provenance(p)` always delivers the remembered one. -/
theorem C32_provenance {P : Type} [DecidableEq P] (ord : Nat → List Nat → List Nat)
    (hord : ∀ c l, (ord c l).Perm l) (s0 : (k : Kind P) × (pipe I E k).St (ObsState (Out P I k) E)) (v0 : I × P)
    (a b : List (Publish.Op _ (I × P) E)) (k : Kind P) :
    ∃ y t, run latest (subscribers P I E) ord noAnswer ⟨State.init s0, v0⟩
        (a ++ .subscribe (Provenance.start I E k) :: b) = .ok y ∧
      y.subject.dest (startsOf a).length = ⟨k, t⟩ ∧
      ((pipe I E k).bottom t).seen =
        wanted (if errored (endOf a) then none else some ((values a).getLast?.getD v0))
          (later (startsOf a).length a b) k ∧
      (subscribers P I E).isClosed ⟨k, t⟩ = (later (startsOf a).length a b).any (·.isClosing) := by
  obtain ⟨y, hy, h⟩ := replaying_dest (M := latest) (subscribers_closes P I E) hord (s0 := s0)
    (start_exact (I := I) (E := E) k) v0 a b
  rw [write_latest] at h
  have hlt := Publish.trunc_later (startsOf a).length a b
  have hr : ∀ (ns : List (SubscriberNotification (I × P) E)),
      (if errored (endOf a) = true then [] else
        ((latest : Memory (I × P) (I × P)).read ((values a).getLast?.getD v0)).map .next) ++ ns =
      (if errored (endOf a) = true then none else some ((values a).getLast?.getD v0)).toList.map
        SubscriberNotification.next ++ ns := by
    intro ns; split <;> rfl
  rw [hr] at h
  obtain ⟨t, h1, h2, h3⟩ := through_run (P := P) (I := I) (E := E) k
    ((if errored (endOf a) = true then none else some ((values a).getLast?.getD v0)).toList.map
        SubscriberNotification.next ++ later (startsOf a).length a b)
  have ht : Publish.trunc ((if errored (endOf a) = true then none else some ((values a).getLast?.getD v0)).toList.map
        SubscriberNotification.next ++ later (startsOf a).length a b) = _ :=
    (Publish.trunc_nexts _ _).trans (by rw [hlt])
  obtain ⟨h4, h5⟩ := trunc_through ht k
  obtain ⟨h6, h7⟩ := Publish.observer_run _ h4 (ObsState.new : ObsState (Out P I k) E) rfl
  refine ⟨y, t, hy, h.trans h1, ?_, ?_⟩
  · rw [h2, h6, through_wanted _ _ (fun hn => ?_) k]
    · simp [ObsState.seen, ObsState.new]
    · split at hn
      · rename_i he
        unfold later
        cases hea : endOf a with
        | none => rw [hea] at he; cases he
        | some n => rw [hea] at he; cases n <;> first | rfl | cases he
      · cases hn
  · rw [h3, h2]
    refine (h7.trans h5).trans ?_
    simp [Publish.hasClosing, SubscriberNotification.isClosing, SubscriberNotification.isTerminal]

open Provenance in
example : wanted (some (1, 'a')) [.next (2, 'b'), .next (3, 'c'), .complete] (.replayThen 'b') =
    ([.next 1, .next 2, .complete] : List (ObserverNotification Nat Nat)) := rfl

end Rx.Caching.Props
