import Verif.Lemmas.SubjectFeeds
import Verif.Props.Subjects
import Verif.Props.CachingSubjects

/-!
# C87: a subject as the destination of several subscriptions
-/

namespace Rx.Feeds

open Rx.Publish (Fault passive startsOf endOf window asObserved)

variable {X S I E : Type}

/-- C87. Any kind of subject (`st`): one that is the destination of any number of subscriptions is always as if it had been
told directly, in this order, what the subscriptions gave it, each of them up to its own end, and nothing of their being
unsubscribed; and that is determined by the history alone. -/
theorem C87_as_if_told (st : X → Publish.Op S I E → Except Fault X) (x0 : X) (ops : List (Op S I E))
    (x : State X) (hx : run st (init x0) ops = .ok x) :
    ∃ told, Told [] ops told ∧ (∀ told', Told [] ops told' → told' = told) ∧ told.foldlM st x0 = .ok x.subject := by
  obtain ⟨_, told, h1, h2⟩ := run_told ops (Inv.init x0) hx
  exact ⟨told, h1, fun t ht => ht.fun h1, h2⟩

/-- C87. An input of a subject is closed exactly if it was itself told the end or unsubscribed, whatever became of the
subject and of the other inputs; its teardowns are run then, in the order in which they were added, each once, and those added
later at once; before, none. -/
theorem C87_inputs (st : X → Publish.Op S I E → Except Fault X) (x0 : X) (ops : List (Op S I E))
    (x : State X) (hx : run st (init x0) ops = .ok x) :
    x.inputs.length = made ops ∧ ∀ j a, x.inputs[j]? = some a →
      (a.isClosed = true ↔ Over j ops) ∧ (a.isClosed = true → a.tornDown = addedTo j 0 ops) ∧
        (a.isClosed = false → a.tornDown = []) := by
  obtain ⟨v, _⟩ := run_told ops (Inv.init x0) hx
  refine ⟨v.len, fun j a ha => ?_⟩
  obtain ⟨g1, g2, g3⟩ := v.each j a ha
  refine ⟨g1, fun hc => ?_, fun hc => ?_⟩
  · simp only [hc, if_true] at g3
    rw [g3, List.append_nil] at g2
    exact g2
  · simpa [hc] using g3

/-- C87, with C27. A publish subject: nothing goes wrong as long as the subscribers of the subject do not call it, and an
observer subscribed to it while it is open sees exactly what the subject is told from then on, up to its end. -/
theorem C87_observer (ord : Nat → List Nat → List Nat) (hord : ∀ c l, (ord c l).Perm l) (s : ObsState I E)
    (a b : List (Op (ObsState I E) I E)) :
    ∃ x told told', run (Publish.step (passive (observerSubscriber I E)) ord) (init (Publish.State.init s))
        (a ++ .direct (.subscribe .new) :: b) = .ok x ∧
      Told [] a told ∧ Told (a ++ [.direct (.subscribe .new)]) b told' ∧
      (endOf told = none →
        (x.subject.dest (startsOf told).length).seen = (window (startsOf told).length told').filterMap asObserved) := by
  obtain ⟨x, told, told', h1, h2, h3, h4⟩ := run_around (st := Publish.step (passive (observerSubscriber I E)) ord)
    (x0 := Publish.State.init s) (fun told => by
      obtain ⟨y, hy, _⟩ := Publish.passive_run (Publish.observer_closes I E) hord s told
      exact ⟨y, hy⟩) .new a b
  refine ⟨x, told, told', h1, h2, h3, fun he => ?_⟩
  obtain ⟨y, y1, y2, _⟩ := Publish.Props.C27_sees_exactly ord hord s told told' he
  unfold Publish.run at y1
  rw [h4] at y1
  cases y1
  exact y2

/-- C87, with C29. A behavior subject: an observer subscribed to it while it is open sees first the value that is the last one
the subject was told, whichever input that came from, and then what the subject is told from then on, up to its end. -/
theorem C87_behavior (ord : Nat → List Nat → List Nat) (hord : ∀ c l, (ord c l).Perm l) (s : ObsState I E) (v0 : I)
    (a b : List (Op (ObsState I E) I E)) :
    ∃ x told told', run (Caching.step Caching.latest (observerSubscriber I E) ord Caching.noAnswer)
        (init ⟨Publish.State.init s, v0⟩) (a ++ .direct (.subscribe .new) :: b) = .ok x ∧
      Told [] a told ∧ Told (a ++ [.direct (.subscribe .new)]) b told' ∧
      (endOf told = none →
        (x.subject.subject.dest (startsOf told).length).seen = .next ((Caching.values told).getLast?.getD v0) ::
          (window (startsOf told).length told').filterMap asObserved) := by
  obtain ⟨x, told, told', h1, h2, h3, h4⟩ :=
    run_around (st := Caching.step Caching.latest (observerSubscriber I E) ord Caching.noAnswer)
    (x0 := ⟨Publish.State.init s, v0⟩) (fun told => by
      obtain ⟨y, hy, _⟩ := Caching.run_plain (M := Caching.latest) (Publish.observer_closes I E) hord (s0 := s) told []
        ⟨Publish.State.init s, v0⟩ rfl
      exact ⟨y, hy⟩) .new a b
  refine ⟨x, told, told', h1, h2, h3, fun he => ?_⟩
  obtain ⟨y, y1, y2, _⟩ := Caching.Props.C29_latest_then_later ord hord s v0 told told' he
  unfold Caching.run at y1
  rw [h4] at y1
  cases y1
  exact y2

/-- C87, with C30. A replay subject: the same, with the last `cap` values the subject was told. -/
theorem C87_replay (cap : Nat) (hcap : 0 < cap) (ord : Nat → List Nat → List Nat) (hord : ∀ c l, (ord c l).Perm l)
    (s : ObsState I E) (a b : List (Op (ObsState I E) I E)) :
    ∃ x told told', run (Caching.step (Caching.ring cap) (observerSubscriber I E) ord Caching.noAnswer)
        (init ⟨Publish.State.init s, []⟩) (a ++ .direct (.subscribe .new) :: b) = .ok x ∧
      Told [] a told ∧ Told (a ++ [.direct (.subscribe .new)]) b told' ∧
      (endOf told = none →
        (x.subject.subject.dest (startsOf told).length).seen = (Caching.lastN cap (Caching.values told)).map .next ++
          (window (startsOf told).length told').filterMap asObserved) := by
  obtain ⟨x, told, told', h1, h2, h3, h4⟩ :=
    run_around (st := Caching.step (Caching.ring cap) (observerSubscriber I E) ord Caching.noAnswer)
    (x0 := ⟨Publish.State.init s, []⟩) (fun told => by
      obtain ⟨y, hy, _⟩ := Caching.run_plain (M := Caching.ring cap) (Publish.observer_closes I E) hord (s0 := s) told []
        ⟨Publish.State.init s, []⟩ rfl
      exact ⟨y, hy⟩) .new a b
  refine ⟨x, told, told', h1, h2, h3, fun he => ?_⟩
  obtain ⟨y, y1, y2, _⟩ := Caching.Props.C30_last_then_later cap hcap ord hord s told told' he
  unfold Caching.run at y1
  rw [h4] at y1
  cases y1
  exact y2

/-- C87, with C31. An async subject: an observer subscribed to it while it is open sees, if the subject is told to complete, the
reduction of all the values the subject was told, by any of its inputs. -/
theorem C87_async (f : I → I → I) (ord : Nat → List Nat → List Nat) (hord : ∀ c l, (ord c l).Perm l)
    (s : ObsState I E) (a b : List (Op (ObsState I E) I E)) :
    ∃ x told told', run (Caching.Async.step f (observerSubscriber I E) ord)
        (init ⟨Publish.State.init s, none⟩) (a ++ .direct (.subscribe .new) :: b) = .ok x ∧
      Told [] a told ∧ Told (a ++ [.direct (.subscribe .new)]) b told' ∧
      (endOf told = none →
        (x.subject.subject.dest (startsOf told).length).seen =
          Caching.onCompletion f (Caching.values told) (window (startsOf told).length told')) := by
  obtain ⟨x, told, told', h1, h2, h3, h4⟩ :=
    run_around (st := Caching.Async.step f (observerSubscriber I E) ord)
    (x0 := ⟨Publish.State.init s, none⟩) (fun told => by
      obtain ⟨y, hy, _⟩ := Caching.runA_plain (f := f) (Publish.observer_closes I E) hord (s0 := s) told []
        ⟨Publish.State.init s, none⟩ rfl
      exact ⟨y, hy⟩) .new a b
  refine ⟨x, told, told', h1, h2, h3, fun he => ?_⟩
  obtain ⟨y, y1, y2, _⟩ := Caching.Props.C31_on_completion f ord hord s told told' he
  unfold Caching.Async.run at y1
  rw [h4] at y1
  cases y1
  exact y2

namespace Demo

abbrev O := Op (ObsState Nat Nat) Nat Nat

abbrev publish := Publish.step (passive (observerSubscriber Nat Nat)) (fun _ l => l)

abbrev behavior := Caching.step Caching.latest (observerSubscriber Nat Nat) (fun _ l => l) Caching.noAnswer

def go (ops : List O) : Except Fault (List (ObserverNotification Nat Nat) × List Bool × List (List Nat)) :=
  (run publish (init (Publish.State.init .new)) ops).map
    fun x => ((x.subject.dest 0).seen, x.inputs.map Input.isClosed, x.inputs.map Input.tornDown)

/-- A behavior subject with the initial value 0. -/
def goBehavior (ops : List O) : Except Fault (List (ObserverNotification Nat Nat) × List Bool) :=
  (run behavior (init ⟨Publish.State.init .new, 0⟩) ops).map
    fun x => ((x.subject.subject.dest 0).seen, x.inputs.map Input.isClosed)

/-- Two inputs; the first is unsubscribed, the second completes. -/
def two : List O :=
  [.connect, .connect, .addTeardown 0 5, .addTeardown 1 6, .direct (.subscribe .new), .push 0 (.next 1), .push 1 (.next 2),
    .push 0 .unsubscribe, .push 0 (.next 3), .push 1 (.next 4), .push 1 .complete, .push 1 (.next 7)]

example : go two = .ok ([.next 1, .next 2, .next 4, .complete], [true, true], [[5], [6]]) := rfl

example : go (two.take 8) = .ok ([.next 1, .next 2], [true, false], [[5], []]) := rfl

/-- The latest value may be from any of the inputs. -/
example : goBehavior [.connect, .connect, .push 0 (.next 1), .push 1 (.next 2), .push 1 .unsubscribe,
    .direct (.subscribe .new), .push 0 (.next 3), .push 1 (.next 4), .push 0 .complete] =
    .ok ([.next 2, .next 3, .complete], [true, true]) := by rfl

example : (run (Caching.step (Caching.ring 2) (observerSubscriber Nat Nat) (fun _ l => l) Caching.noAnswer)
    (init ⟨Publish.State.init .new, []⟩) ([.connect, .connect, .push 0 (.next 1), .push 1 (.next 2), .push 0 (.next 3),
      .direct (.subscribe .new), .push 1 (.next 4)] : List O)).map (fun x => (x.subject.subject.dest 0).seen) =
    .ok [.next 2, .next 3, .next 4] := by rfl

example : (run (Caching.Async.step (· + ·) (observerSubscriber Nat Nat) (fun _ l => l))
    (init ⟨Publish.State.init .new, none⟩) ([.connect, .connect, .push 0 (.next 1), .push 1 (.next 2),
      .direct (.subscribe .new), .push 1 (.next 4), .push 0 .complete] : List O)).map (fun x => (x.subject.subject.dest 0).seen) =
    .ok [.next 7, .complete] := by rfl

end Demo

/-- C87. A subject that has ended does not end its other inputs: they stay open and keep what they would release at their end,
whatever they go on to send it. -/
theorem C87_not_released (ns : List Nat) :
    Demo.go ([.connect, .connect, .addTeardown 1 6, .direct (.subscribe .new), .push 0 .complete] ++
      ns.map (fun n => .push 1 (.next n))) = .ok ([.complete], [true, false], [[], []]) := by
  have keep : ∀ (ns : List Nat) (y : State (Publish.State (ObsState Nat Nat) Nat Nat)), y.subject.isClosed = true →
      y.subject.queue = [] → (y.inputs.map Input.isClosed = [true, false]) →
      ∃ z, run Demo.publish y (ns.map (fun n => .push 1 (.next n)) : List Demo.O) = .ok z ∧
      z.subject.dest = y.subject.dest ∧ z.inputs = y.inputs := by
    intro ns
    induction ns with
    | nil => intro y _ _ _; exact ⟨y, rfl, rfl, rfl⟩
    | cons n ns ih =>
      intro y h1 h2 h3
      obtain ⟨sub, inputs⟩ := y
      have hi : ∃ q, inputs[1]? = some q ∧ q.isClosed = false := by
        have := congrArg (fun l => l[1]?) h3
        simpa using this
      obtain ⟨q, hi, hq⟩ := hi
      have hn : Demo.publish sub (.note (.next n)) = .ok (sub.record (.note (.next n))) := by
        have hc : (sub.record (.note (.next n))).isClosed = true := h1
        have hq : (sub.record (.note (.next n))).queue.isEmpty = true := by
          have : (sub.record (.note (.next n))).queue = [] := h2
          rw [this]; rfl
        simp only [Publish.step, Publish.State.note, Publish.State.noteDirect, hc, if_true,
          Publish.State.tryApplyDeferred, hq]
      simp only [List.map_cons, run, step, hi, State.push, hq, Bool.not_false, if_true, hn]
      exact ih ⟨sub.record (.note (.next n)), inputs⟩ h1 h2 h3
  have h0 : ∃ y, run Demo.publish (init (Publish.State.init .new))
      ([.connect, .connect, .addTeardown 1 6, .direct (.subscribe .new), .push 0 .complete] : List Demo.O) = .ok y ∧
      y.subject.isClosed = true ∧ y.subject.queue = [] ∧ y.inputs.map Input.isClosed = [true, false] ∧
      (y.subject.dest 0).seen = [.complete] ∧ y.inputs.map Input.tornDown = [[], []] := ⟨_, rfl, rfl, rfl, rfl, rfl, rfl⟩
  obtain ⟨y, y1, y2, y3, y4, y5, y6⟩ := h0
  obtain ⟨z, k0, k1, k2⟩ := keep ns y y2 y3 y4
  unfold Demo.go
  rw [run_append y1, k0]
  simp only [Except.map, k1, k2, y4, y5, y6]

/-- Through the inputs C29's defect needs no misuse: a behavior subject that completed because one input did goes on to remember
what another, still open, sends it, and gives that to later observers as the latest value. -/
theorem C87_behavior_after_end :
    Demo.goBehavior [.connect, .connect, .push 0 (.next 1), .push 0 .complete, .push 1 (.next 2), .direct (.subscribe .new)] =
      .ok ([.next 2, .complete], [true, false]) := by rfl

end Rx.Feeds
