import Verif.Lemmas.PublishPassive

/-!
# Publish subjects: C27, C28, C56
-/

namespace Rx.Publish.Props

variable {S I E : Type}

/-! ## C56: subscribers that call the subject -/

/-- C56. Whatever the subscribers do while they are notified (`R`), in whatever order the subscribers are
visited (`ord`), if nothing panics or deadlocks: every subscriber has been given a beginning of what it
would have been given had the calls been made one after the other in the order in which they were made;
all of it, if it is still open; nothing after the first closing notification; all subscribers have been
given things in the order of the calls, and nothing was made up.

Missing: panics, deadlocks and unsubscribing from outside a subscription whose subscriber calls the subject
when it is unsubscribed; see the counterexamples below. -/
theorem C56_reentrant_calls_partial (R : Dest S I E) (hR : Closes R) (ord : Nat → List Nat → List Nat)
    (hord : ∀ c l, (ord c l).Perm l) (s0 : S) (ops : List (Op S I E))
    (hq : (∀ i, .cancel i ∉ ops) ∨ Quiet R) (x : State S I E)
    (hx : run R ord (State.init s0) ops = .ok x) :
    (∀ k, received k x <+: expected k x.calls) ∧
    (∀ k, k < x.count → R.isClosed (x.dest k) = false → received k x = expected k x.calls) ∧
    (∀ k pre n post, received k x = pre ++ n :: post → n.isClosing = true → post = []) ∧
    (rounds x).Pairwise (fun a b => a.1 ≤ b.1) ∧
    ∀ l ∈ x.log, Justified x.calls l := by
  obtain ⟨⟨c0, hi, -⟩, ⟨lo, ho⟩, hxq⟩ := run_settled hR hord hq (Idle.init R s0) (Ord.init s0) rfl hx
  refine ⟨hi.pre, fun k hk hop => ?_, fun k pre n post he hn => trunc_last (hi.grammar k) he hn, ho.sorted,
    ho.just⟩
  have := (hi.per k hk hop (fun h => h)).out
  rw [hxq] at this
  simpa [raw, trunc, expected] using this.symm

/-- Subscribers that answer each notification by some calls, and close when they are told to. -/
def scripted : Dest (Bool × (SubscriberNotification Nat Nat → List (Call Nat Nat))) Nat Nat where
  push s n := go (s.1 || n.isClosing, s.2) (s.2 n)
  isClosed s := s.1
where
  go (s : Bool × (SubscriberNotification Nat Nat → List (Call Nat Nat))) :
      List (Call Nat Nat) → Act (Bool × (SubscriberNotification Nat Nat → List (Call Nat Nat))) Nat Nat
    | [] => .done s
    | .note n :: cs => .note n (go s cs)
    | .subscribe _ :: cs => .subscribe (false, fun _ => []) fun _ => go s cs
    | .cancel i :: cs => .cancel i (go s cs)

theorem scripted_closes : Closes scripted := by
  intro s n hn
  have : ∀ cs : List (Call Nat Nat), EndsClosed scripted (scripted.go (s.1 || n.isClosing, s.2) cs) := by
    intro cs
    induction cs with
    | nil => simp [scripted.go, EndsClosed, scripted, hn]
    | cons c cs ih => cases c <;> simp [scripted.go, EndsClosed, ih]
  exact this _

/-- A subscriber that answers `next v` by `next (v + 1)` until `m`. -/
def counting (m : Nat) : Bool × (SubscriberNotification Nat Nat → List (Call Nat Nat)) :=
  (false, fun | .next v => if v < m then [.note (.next (v + 1))] else [] | _ => [])

def silent : Bool × (SubscriberNotification Nat Nat → List (Call Nat Nat)) := (false, fun _ => [])

/-- What subscriber `k` was given and should have been given by a run. -/
def outcome (ops : List (Op (Bool × (SubscriberNotification Nat Nat → List (Call Nat Nat))) Nat Nat)) (k : Nat) :
    Except Fault (List (SubscriberNotification Nat Nat) × List (SubscriberNotification Nat Nat) × Bool) :=
  match run scripted (fun _ l => l) (State.init silent) ops with
  | .ok x => .ok (received k x, expected k x.calls, scripted.isClosed (x.dest k))
  | .error f => .error f

example : outcome [.subscribe (counting 3), .subscribe silent, .note (.next 0), .note .complete] 1 =
    .ok ([.next 0, .next 1, .next 2, .next 3, .complete], [.next 0, .next 1, .next 2, .next 3, .complete], true) := by
  rfl

/-- A subscriber that, during a notification, subscribes another one, cancels itself and completes. -/
example : outcome [.subscribe (false, fun | .next _ => [.subscribe 2, .cancel 0, .note (.next 5), .note .complete] | _ => []),
      .subscribe silent, .note (.next 0), .note (.next 1)] 2 =
    .ok ([.next 5, .complete], [.next 5, .complete], true) := by
  rfl

/-- Full C56 fails: calls made by a subscriber that is unsubscribed from outside are not applied until the
next use of the subject. -/
theorem C56_unsubscribe_not_flushed :
    outcome [.subscribe (false, fun | .unsubscribe => [.note (.next 7)] | _ => []), .subscribe silent,
      .cancel 0] 1 = .ok ([], [.next 7], false) := by
  rfl

/-- Full C56 fails: and then they are not applied in the order in which they were made: `next 8`, made in
answer to `next 7`, overtakes `next 1`, which was made before. -/
theorem C56_unsubscribe_reorders :
    outcome [.subscribe (false, fun | .unsubscribe => [.note (.next 7)] | _ => []),
      .subscribe (false, fun | .next 7 => [.note (.next 8)] | _ => []), .subscribe silent,
      .cancel 0, .note (.next 1)] 2 =
        .ok ([.next 7, .next 8, .next 1], [.next 7, .next 1, .next 8], false) := by
  rfl

/-- Full C56 fails: ten nested answers are too many, although there would be no more. -/
theorem C56_ten_answers_panic :
    outcome [.subscribe (counting 10), .note (.next 0)] 0 = .error .panic ∧
    outcome [.subscribe (counting 9), .note (.next 0)] 0 =
      .ok ((List.range 10).map .next, (List.range 10).map .next, false) := by
  exact ⟨rfl, rfl⟩

/-- Full C56 fails: a subscriber that calls the subject when it is told that it had completed before. -/
theorem C56_late_subscriber_deadlocks :
    outcome [.note .complete, .subscribe (false, fun | .complete => [.note (.next 1)] | _ => [])] 0 =
      .error .deadlock := by
  rfl

/-! ## C27 -/

/-- C27, any subscribers that do not call the subject: nothing ever goes wrong, and each subscriber is as
if it had been given, by itself, a beginning of what was sent between its subscription and its cancellation
or the end of the subject; all of it if it is still open. -/
theorem C27_any_subscriber (D : Sub S I E) (hD : Closes (passive D)) (ord : Nat → List Nat → List Nat)
    (hord : ∀ c l, (ord c l).Perm l) (s0 s : S) (a b : List (Op S I E)) (ha : endOf a = none) :
    ∃ x, run (passive D) ord (State.init s0) (a ++ .subscribe s :: b) = .ok x ∧
      ∃ given, given <+: window (startsOf a).length b ∧
        x.dest (startsOf a).length = D.run s given ∧
        (D.isClosed (D.run s given) = false → given = window (startsOf a).length b) := by
  obtain ⟨x, hx, ⟨c0, hi, -⟩, hf⟩ := passive_run hD hord s0 (a ++ .subscribe s :: b)
  have hs : (startsOf (a ++ .subscribe s :: b))[(startsOf a).length]? = some s := by
    simp [startsOf, Op.subscriber]
  have hlt : (startsOf a).length < x.count := by rw [hf.count]; exact (List.getElem?_eq_some_iff.1 hs).1
  refine ⟨x, hx, received (startsOf a).length x, ?_, hf.dest _ _ hs, fun hop => ?_⟩
  · have := hi.pre (startsOf a).length
    rwa [hf.calls, expected_open a b s ha] at this
  · rw [← hf.dest _ _ hs] at hop
    have := (hi.per _ hlt hop (fun h => h)).out
    rw [hf.queue, hf.calls] at this
    have he := expected_open a b s ha
    unfold expected at he
    rw [he] at this
    simpa [raw, trunc] using this.symm

/-- C27. An observer subscribed to an open subject sees exactly what is sent from then on until its
subscription is cancelled or the subject ends, whatever the other subscribers do; its subscription is
closed exactly if one of these happened. -/
theorem C27_sees_exactly (ord : Nat → List Nat → List Nat) (hord : ∀ c l, (ord c l).Perm l)
    (s0 : ObsState I E) (a b : List (Op (ObsState I E) I E)) (ha : endOf a = none) :
    ∃ x, run (passive (observerSubscriber I E)) ord (State.init s0) (a ++ .subscribe .new :: b) = .ok x ∧
      (x.dest (startsOf a).length).seen = (window (startsOf a).length b).filterMap asObserved ∧
      (observerSubscriber I E).isClosed (x.dest (startsOf a).length) =
        (window (startsOf a).length b).any (·.isClosing) := by
  obtain ⟨x, hx, hi, hf⟩ := passive_run (observer_closes I E) hord s0 (a ++ .subscribe .new :: b)
  have hs : (startsOf (a ++ .subscribe ObsState.new :: b))[(startsOf a).length]? = some ObsState.new := by
    simp [startsOf, Op.subscriber]
  have he := expected_open a b ObsState.new ha
  obtain ⟨h1, h2⟩ := observer_exact hi hf hs (by rw [he]; exact trunc_window _ _)
  rw [he] at h1 h2
  exact ⟨x, hx, h1, h2⟩

example : window 1 ([.note (.next 1), .subscribe .new, .cancel 0, .note (.next 2), .cancel 1,
    .note (.next 3)] : List (Op (ObsState Nat Nat) Nat Nat)) = [.next 1, .next 2, .unsubscribe] := rfl
example : endOf ([.subscribe .new, .note (.next 0)] : List (Op (ObsState Nat Nat) Nat Nat)) = none := rfl

/-! ## C28 -/

/-- C28, late subscribers. An observer subscribed after the subject completed (errored) sees that, and
nothing else ever, and its subscription is closed. -/
theorem C28_late_subscriber (ord : Nat → List Nat → List Nat) (hord : ∀ c l, (ord c l).Perm l)
    (s0 : ObsState I E) (a b : List (Op (ObsState I E) I E)) (n : SubscriberNotification I E)
    (ha : endOf a = some n) :
    ∃ x, run (passive (observerSubscriber I E)) ord (State.init s0) (a ++ .subscribe .new :: b) = .ok x ∧
      (x.dest (startsOf a).length).seen = [n].filterMap asObserved ∧
      (observerSubscriber I E).isClosed (x.dest (startsOf a).length) = true := by
  obtain ⟨x, hx, hi, hf⟩ := passive_run (observer_closes I E) hord s0 (a ++ .subscribe .new :: b)
  have hs : (startsOf (a ++ .subscribe ObsState.new :: b))[(startsOf a).length]? = some ObsState.new := by
    simp [startsOf, Op.subscriber]
  have he := expected_ended a b ObsState.new ha
  have hn : n.isClosing = true := by simpa using List.find?_some ha
  obtain ⟨h1, h2⟩ := observer_exact hi hf hs (by rw [he]; simp [trunc, hn])
  rw [he] at h1 h2
  exact ⟨x, hx, h1, by rw [h2]; simp [hasClosing, hn]⟩

/-- C28, the end is the end. Once a subject was completed, errored or unsubscribed, later notifications
change nothing for any subscriber, of any kind. -/
theorem C28_inert (D : Sub S I E) (hD : Closes (passive D)) (ord : Nat → List Nat → List Nat)
    (hord : ∀ c l, (ord c l).Perm l) (s0 : S) (a : List (Op S I E)) (ha : (endOf a).isSome = true)
    (ns : List (SubscriberNotification I E)) :
    ∃ x y, run (passive D) ord (State.init s0) a = .ok x ∧
      run (passive D) ord (State.init s0) (a ++ ns.map .note) = .ok y ∧
      ∀ k, y.dest k = x.dest k := by
  obtain ⟨x, hx, hi, hf⟩ := passive_run hD hord s0 a
  have hc : x.isClosed = true := by
    obtain ⟨c0, hi, -⟩ := hi
    rw [isClosed_eq hi, ← hi.ended (startsOf a).length, hf.calls]
    unfold view callsOf
    rw [view_before _ a 0 (by simp) _ rfl]
    simpa using ha
  obtain ⟨y, hy, h1⟩ := notes_ended hD hord hi hf.queue hc ns
  refine ⟨x, y, hx, ?_, fun k => by rw [h1]⟩
  unfold run at *
  rw [List.foldlM_append, hx]
  exact hy

example : endOf ([.subscribe .new, .note (.next 0), .note (.error 7), .note .complete] :
    List (Op (ObsState Nat Nat) Nat Nat)) = some (.error 7) := rfl

end Rx.Publish.Props
