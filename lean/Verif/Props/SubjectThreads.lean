import Verif.Lemmas.SubjectThreadsPrimed
import Verif.Lemmas.SubjectThreadsLate
import Verif.Lemmas.SubjectThreadsOutrun
import Verif.Props.SharedClosing

/-!
# C70, C71: a publish subject used by several threads

`run D debug (init s) l` is the state after the schedule `l`: any number of threads taking turns in any order,
each subscribing, calling `next`, `error`, `complete`, `unsubscribe`, `is_closed`, unsubscribing a subscription
or dropping a clone, one lock operation at a time. Subscriber `i` is the one that call `i`, a call of `subscribe`,
brought along.
-/

namespace Rx

open Crowd
open Closing (Dest)

variable {S I E : Type} {D : Dest S I E} {debug : Bool}

/-! ## C70 -/

/-- C70. A subscriber is called one call at a time: its state is what the calls made on it, in the order of the
trace, make of it. -/
theorem C70_one_at_a_time (hD : D.Contract) (s : Nat → S) (l : List (Nat × Turn I E)) (i : Nat) :
    (run D debug (init s) l).dests i = afterTo D s i (run D debug (init s) l).trace :=
  (run_inv hD s l).heard.dests i

/-- C70. Two threads are never handing something to the subscribers at once. -/
theorem C70_exclusive (hD : D.Contract) (s : Nat → S) (l : List (Nat × Turn I E)) (t u : Nat)
    (ht : ((run D debug (init s) l).pc t).holds = true) (hu : ((run D debug (init s) l).pc u).holds = true) : t = u :=
  (run_inv hD s l).locks.unique ht hu

/-- C70. Threads do not wait for each other: a thread inside a call always goes on when it gets a turn,
whatever the others are doing (unless it has panicked, C71). -/
theorem C70_never_waits (D : Dest S I E) (s : Nat → S) (l : List (Nat × Turn I E)) (t : Nat)
    (h : ((run D debug (init s) l).pc t).isIdle = false) (hp : ∀ w, (run D debug (init s) l).pc t ≠ .panicked w) :
    (run D debug (init s) (l ++ [(t, .go)])).pc t ≠ (run D debug (init s) l).pc t := by
  rw [Crowd.run_snoc]
  exact busy_moves D _ t h hp

/-- C70. Every call counts: whatever a thread that is not inside a call calls, whatever state the subject is in, is a
call that the theorems below are about. (A subscription can be unsubscribed only if there is one.) -/
theorem C70_every_call_is_seen (D : Dest S I E) (s : Nat → S) (l : List (Nat × Turn I E)) (t : Nat) (op : Crowd.Op I E)
    (h : ((run D debug (init s) l).pc t).isIdle = true)
    (hc : ∀ k, op = .cancel k → k ∈ (run D debug (init s) l).handles) :
    ∃ k, (run D debug (init s) (l ++ [(t, .call op)])).trace = (run D debug (init s) l).trace ++ [.call k t op] := by
  rw [Crowd.run_snoc]
  generalize run D debug (init s) l = x at *
  refine ⟨x.calls, ?_⟩
  have hv : op.void x.handles = false := by
    cases op with
    | cancel k => simpa [Crowd.Op.void] using hc k rfl
    | _ => rfl
  simp only [Crowd.step, h, if_true, hv]
  rfl

/-- C70. A subscriber is only called for a reason: a value was sent by a call of `next` with it, an error by a
call of `error` with it, and so on, before; and it was subscribed before. -/
theorem C70_only_for_a_reason (hD : D.Contract) (s : Nat → S) (l : List (Nat × Turn I E)) (a k i n b)
    (h : (run D debug (init s) l).trace = a ++ .give k i n :: b) :
    (∃ t op, .call k t op ∈ a ∧ Reason a k i op n) ∧ ∃ t, .call i t .subscribe ∈ a :=
  run_reason hD s l a k i n b h

/-- C70. A subscriber that is closed is not called. -/
theorem C70_closed_hears_nothing (hD : D.Contract) (s : Nat → S) (l : List (Nat × Turn I E)) (a k i n b)
    (h : (run D debug (init s) l).trace = a ++ .give k i n :: b) : D.isClosed (afterTo D s i a) = false :=
  (run_inv hD s l).heard.isOpen a k i n b h

/-- C70. All subscribers hear the values in one and the same order, `o`, each value once, without gaps: what
subscriber `i` has heard is what comes after its subscription in `o`, up to where it closed. The order agrees
with time: if a call had returned before another began, it does not come after it. In particular the values
of one thread are heard in the order in which it sent them. -/
theorem C70_one_order (hD : D.Contract) (s : Nat → S) (l : List (Nat × Turn I E)) :
    ∃ o : List (Crowd.Call I E),
      (o.map Crowd.Call.id).Nodup ∧
      (∀ c ∈ o, ∃ t, .call c.id t c.op ∈ (run D debug (init s) l).trace) ∧
      (o.Pairwise fun a b => ¬ Before (run D debug (init s) l).trace b.id a.id) ∧
      ∀ i, valuesTo i (run D debug (init s) l).trace = [] ∨ ∃ a b, o = a ++ ⟨i, .subscribe⟩ :: b ∧
        valuesTo i (run D debug (init s) l).trace <+: nexts b ∧
        (D.isClosed ((run D debug (init s) l).dests i) = false →
          valuesTo i (run D debug (init s) l).trace = nexts b) := by
  have hi := run_inv (D := D) (debug := debug) hD s l
  generalize run D debug (init s) l = x at *
  refine ⟨x.done, ?_, fun c hc => hi.ids.line c (by simp [State.line, hc]), ?_, fun i => ?_⟩
  · have := hi.ids.nodup
    rw [State.line, List.map_append, List.nodup_append] at this
    exact this.1
  · have := hi.ids.order
    rw [State.line, List.pairwise_append] at this
    exact this.1
  · by_cases h : ⟨i, .subscribe⟩ ∈ x.done
    · obtain ⟨a, b, e⟩ := List.append_of_mem h
      exact .inr ⟨a, b, e, hi.heard.vals i a b e⟩
    · exact .inl (hi.heard.none i h)

/-- C70. No value is missed without reason: if `subscribe` had returned when `next` was called, and `next` has
returned, then the subscriber has been given the value, or is closed, or the value waits in the queue, or a call
that ends the subject had begun when `next` had not returned.
Missing: that none waits for ever, which is false (`C70_stuck_value_counterexample`). -/
theorem C70_none_missed_partial (hD : D.Contract) (s : Nat → S) (l : List (Nat × Turn I E)) (i k t u : Nat) (v : I)
    (hi : .call i t .subscribe ∈ (run D debug (init s) l).trace)
    (hk : .call k u (.next v) ∈ (run D debug (init s) l).trace) (hr : .ret k ∈ (run D debug (init s) l).trace)
    (hb : Before (run D debug (init s) l).trace i k) :
    (k, v) ∈ valuesTo i (run D debug (init s) l).trace ∨
      D.isClosed ((run D debug (init s) l).dests i) = true ∨
      ⟨k, .next v⟩ ∈ (run D debug (init s) l).rest ++ (run D debug (init s) l).queue ∨
      Excused (run D debug (init s) l).trace k :=
  (run_inv hD s l).missed hi hk hr hb

/-- C70. Nothing overtakes a value: when a subscriber is called on behalf of a call, it was given all values before
whose `next` had returned before that call began, if its `subscribe` had returned before they were sent; unless a call
that ends the subject had begun before `next` returned. -/
theorem C70_nothing_overtakes (hD : D.Contract) (s : Nat → S) (l : List (Nat × Turn I E)) (a b i j k t u n v)
    (h : (run D debug (init s) l).trace = a ++ .give j i n :: b)
    (hi : .call i t .subscribe ∈ (run D debug (init s) l).trace)
    (hk : .call k u (.next v) ∈ (run D debug (init s) l).trace)
    (hik : Before (run D debug (init s) l).trace i k) (hkj : Before (run D debug (init s) l).trace k j) :
    (k, v) ∈ valuesTo i a ∨ Excused (run D debug (init s) l).trace k :=
  run_caught hD s l a j i n b h k t u v hi hk hik hkj

/-- C70. Once `unsubscribe` of a subscription has returned, its subscriber is given no value sent after
that. -/
theorem C70_cancelled (hD : D.Contract) (s : Nat → S) (l : List (Nat × Turn I E)) (i j k u : Nat) (v : I)
    (hj : .call j u (.cancel i) ∈ (run D debug (init s) l).trace)
    (hk : (k, v) ∈ valuesTo i (run D debug (init s) l).trace) : ¬ Before (run D debug (init s) l).trace j k :=
  (run_inv hD s l).kept.gave k i v (give_of_mem_valuesTo hk) j u hj

/-! ### Cases -/

/-- Thread `t` goes on `k` times. -/
def turns (t k : Nat) : List (Nat × Turn Nat Unit) := List.replicate k (t, .go)

/-- Thread `t` calls something, undisturbed. -/
def calls (t : Nat) (op : Crowd.Op Nat Unit) : List (Nat × Turn Nat Unit) := (t, .call op) :: turns t 8

/-- Threads that get no turn stay idle. -/
theorem others_idle {n t : Nat} {s : Nat → List (SubscriberNotification Nat Unit) × Bool} (l : List (Nat × Turn Nat Unit))
    (h : l.all (fun a => a.1 < n) = true) (ht : n ≤ t) : ((run recorder debug (init s) l).pc t).isIdle = true := by
  rw [run_untouched recorder_contract s t l fun a ha => ?_]
  · rfl
  · have := List.all_eq_true.1 h a ha
    simp at this
    omega

-- call 2 does not overtake call 1 (`C70_nothing_overtakes`)
example : (run recorder debug (init fun _ => ([], false)) (calls 0 .subscribe ++ calls 1 (.next 1) ++ calls 0 (.next 2))).trace =
    [.call 0 0 .subscribe, .ret 0, .call 1 1 (.next 1), .give 1 0 (.next 1), .ret 1, .call 2 0 (.next 2)] ++
      .give 2 0 (.next 2) :: [.ret 2] := by cases debug <;> decide +kernel

/-- C70 fails: threads 0 and 1 only call `next`, all calls have returned, nobody is inside a call, and the value
3 waits in the queue. -/
theorem C70_stuck_value_counterexample : ∃ l : List (Nat × Turn Nat Unit),
    (∀ a ∈ l, a.2 = .go ∨ a.2 = .call .subscribe ∨ ∃ v, a.2 = .call (.next v)) ∧
    let x := run recorder false (init fun _ => ([], false)) l
    (∀ t, (x.pc t).isIdle = true) ∧ x.queue = [⟨3, .next 3⟩] ∧ x.dests 0 = ([.next 1, .next 2], false) ∧
      x.trace = [.call 0 0 .subscribe, .ret 0, .call 1 0 (.next 1), .call 2 1 (.next 2), .ret 2, .give 1 0 (.next 1),
        .give 2 0 (.next 2), .call 3 1 (.next 3), .ret 3, .ret 1] := by
  refine ⟨calls 0 .subscribe ++ [(0, .call (.next 1))] ++ turns 0 3 ++ calls 1 (.next 2) ++ turns 0 9 ++
    calls 1 (.next 3) ++ turns 0 1, ?_, fun t => ?_, ?_, ?_, ?_⟩
  · intro a ha
    simp only [List.mem_append, turns, calls, List.mem_replicate, List.mem_cons] at ha
    rcases ha with ((((((rfl | ⟨-, rfl⟩) | rfl | ha) | ⟨-, rfl⟩) | rfl | ⟨-, rfl⟩) | ⟨-, rfl⟩) | rfl | ⟨-, rfl⟩) | ⟨-, rfl⟩ <;>
      first | (cases ha; done) | simp
  · match t with
    | 0 => decide +kernel
    | 1 => decide +kernel
    | t + 2 => exact others_idle (n := 2) _ (by decide +kernel) (by omega)
  · decide +kernel
  · decide +kernel
  · decide +kernel

-- the next call makes up for it
example : (run recorder false (init fun _ => ([], false)) (calls 0 .subscribe ++ [(0, .call (.next 1))] ++ turns 0 3 ++
    calls 1 (.next 2) ++ turns 0 9 ++ calls 1 (.next 3) ++ turns 0 1 ++ [(1, .call (.next 4))] ++ turns 1 11)).dests 0 =
    ([.next 1, .next 2, .next 3, .next 4], false) := by decide +kernel

/-- Threads 0 and 1 send values, thread 2 subscribes meanwhile and unsubscribes. -/
def jumble : List (Nat × Turn Nat Unit) :=
  calls 0 .subscribe ++ [(0, .call (.next 1))] ++ turns 0 3 ++ calls 1 (.next 2) ++ calls 2 .subscribe ++
    calls 1 (.next 3) ++ turns 0 20 ++ [(2, .call (.cancel 3))] ++ turns 2 6 ++ calls 1 (.next 4)

example : (run recorder false (init fun _ => ([], false)) jumble).trace =
    [.call 0 0 .subscribe, .ret 0, .call 1 0 (.next 1), .call 2 1 (.next 2), .ret 2, .call 3 2 .subscribe, .ret 3,
      .call 4 1 (.next 3), .ret 4, .give 1 0 (.next 1), .give 2 0 (.next 2), .give 4 0 (.next 3), .give 4 3 (.next 3),
      .ret 1, .call 5 2 (.cancel 3), .give 5 3 .unsubscribe, .ret 5, .call 6 1 (.next 4), .give 6 0 (.next 4),
      .ret 6] := by decide +kernel

/-! ## C71 -/

/-- C71. When `is_closed` answers yes, a call that ends the subject has begun. -/
theorem C71_is_closed_yes (hD : D.Contract) (s : Nat → S) (l : List (Nat × Turn I E)) (a t b)
    (h : (run D debug (init s) l).trace = a ++ .answer t true :: b) : Ending a :=
  (run_told hD s l).yes a t b h

/-- C71. When `is_closed` answers no, no call that ends the subject has returned. -/
theorem C71_is_closed_no (hD : D.Contract) (s : Nat → S) (l : List (Nat × Turn I E)) (a t b)
    (h : (run D debug (init s) l).trace = a ++ .answer t false :: b) : ¬ Ended a :=
  (run_told hD s l).no a t b h

/-- C71. Once a call that ends the subject has returned, no value sent after that is given to anyone. -/
theorem C71_no_late_value (hD : D.Contract) (s : Nat → S) (l : List (Nat × Turn I E)) (i k : Nat) (v : I)
    (h : (k, v) ∈ valuesTo i (run D debug (init s) l).trace) : ¬ Late (run D debug (init s) l).trace k :=
  (run_inv hD s l).late_value h

/-- C71. Who subscribes after a call that ends the subject has returned hears no value, and is closed when
`subscribe` returns. -/
theorem C71_late_subscriber (hD : D.Contract) (s : Nat → S) (l : List (Nat × Turn I E)) (i t : Nat)
    (hi : .call i t .subscribe ∈ (run D debug (init s) l).trace) (hl : Late (run D debug (init s) l).trace i) :
    valuesTo i (run D debug (init s) l).trace = [] ∧
      (.ret i ∈ (run D debug (init s) l).trace → D.isClosed ((run D debug (init s) l).dests i) = true) :=
  (run_inv hD s l).late hi hl

/-- C71. Who subscribes after a call that ends the subject has returned is told how it ended, if it was not
closed already, and nothing else: if the subject was ended by `error` only, an error that was sent. -/
theorem C71_late_error (hD : D.Contract) (s : Nat → S) (l : List (Nat × Turn I E)) (i t : Nat)
    (hi : .call i t .subscribe ∈ (run D debug (init s) l).trace) (hl : Late (run D debug (init s) l).trace i)
    (hr : .ret i ∈ (run D debug (init s) l).trace) (ho : D.isClosed (s i) = false)
    (hk : ∀ j u op, .call j u op ∈ (run D debug (init s) l).trace → op.isClosing = true → ∃ e, op = .error e) :
    ∃ e, givesTo i (run D debug (init s) l).trace = [.error e] ∧
      ∃ j u, .call j u (.error e) ∈ (run D debug (init s) l).trace := by
  have h := run_inv (D := D) (debug := debug) hD s l
  rcases (run_greets hD s l).error hk i t hi hl with e | ⟨e, -⟩ | ⟨n, ⟨e, rfl⟩, -, h1⟩
  · exact absurd hr (h.ids.cur _ _ (cur_of_fresh e)).2
  · rw [ho] at e; cases e
  · refine ⟨e, h1, ?_⟩
    have : givesTo i (run D debug (init s) l).trace ≠ [] := by rw [h1]; simp
    obtain ⟨k, hk'⟩ : ∃ k, .give k i (.error e) ∈ (run D debug (init s) l).trace := by
      have hm : .error e ∈ givesTo i (run D debug (init s) l).trace := by rw [h1]; simp
      exact give_of_mem_givesTo hm
    obtain ⟨⟨u, op, h2, h3⟩, -⟩ := h.kept.gives _ _ _ hk'
    rcases h3 with rfl | ⟨-, -, j, v, h3⟩
    · exact ⟨_, _, h2⟩
    · exact ⟨j, v, h3⟩

/-- C71. If the subject was ended by `complete` only, it is told that. -/
theorem C71_late_complete (hD : D.Contract) (s : Nat → S) (l : List (Nat × Turn I E)) (i t : Nat)
    (hi : .call i t .subscribe ∈ (run D debug (init s) l).trace) (hl : Late (run D debug (init s) l).trace i)
    (hr : .ret i ∈ (run D debug (init s) l).trace) (ho : D.isClosed (s i) = false)
    (hk : ∀ j u op, .call j u op ∈ (run D debug (init s) l).trace → op.isClosing = true → op = .complete) :
    givesTo i (run D debug (init s) l).trace = [.complete] := by
  have h := run_inv (D := D) (debug := debug) hD s l
  rcases (run_greets hD s l).complete hk i t hi hl with e | ⟨e, -⟩ | ⟨n, rfl, -, h1⟩
  · exact absurd hr (h.ids.cur _ _ (cur_of_fresh e)).2
  · rw [ho] at e; cases e
  · exact h1

/-- C71. If the subject was ended by `unsubscribe` only, it is unsubscribed. -/
theorem C71_late_unsubscribe (hD : D.Contract) (s : Nat → S) (l : List (Nat × Turn I E)) (i t : Nat)
    (hi : .call i t .subscribe ∈ (run D debug (init s) l).trace) (hl : Late (run D debug (init s) l).trace i)
    (hr : .ret i ∈ (run D debug (init s) l).trace) (ho : D.isClosed (s i) = false)
    (hk : ∀ j u op, .call j u op ∈ (run D debug (init s) l).trace → op.isClosing = true → op = .unsubscribe) :
    givesTo i (run D debug (init s) l).trace = [.unsubscribe] := by
  have h := run_inv (D := D) (debug := debug) hD s l
  rcases (run_greets hD s l).unsubscribe hk i t hi hl with e | ⟨e, -⟩ | ⟨e, -⟩ | ⟨n, rfl, -, h1⟩
  · exact absurd hr (h.ids.cur _ _ (cur_of_fresh e)).2
  · rcases e with e | e <;> exact absurd hr (h.ids.cur _ _ (by rw [e]; rfl)).2
  · rw [ho] at e; cases e
  · exact h1

/-- C71. Who is called by its own `subscribe` is so because the subject had ended, or was being ended meanwhile: a call
that ends the subject did not begin after `subscribe` had returned. -/
theorem C71_greeted (hD : D.Contract) (s : Nat → S) (l : List (Nat × Turn I E)) (i n)
    (h : .give i i n ∈ (run D debug (init s) l).trace) :
    ∃ j u op, .call j u op ∈ (run D debug (init s) l).trace ∧ op.isClosing = true ∧
      ¬ Before (run D debug (init s) l).trace i j :=
  run_welcomed hD s l i n h

/-- C71. When all calls have returned and nothing waits, a call that ends the subject has closed every
subscriber whose `subscribe` did not overlap with such a call.
Missing: the same of one whose `subscribe` did, which is false (`C71_missed_end_counterexample`). -/
theorem C71_ends_partial (hD : D.Contract) (s : Nat → S) (l : List (Nat × Turn I E))
    (hr : AtRest (run D debug (init s) l)) (hq : (run D debug (init s) l).queue = [])
    (he : Ending (run D debug (init s) l).trace) (i t : Nat)
    (hi : .call i t .subscribe ∈ (run D debug (init s) l).trace) (hu : Undisturbed (run D debug (init s) l).trace i) :
    D.isClosed ((run D debug (init s) l).dests i) = true :=
  (run_inv hD s l).ends_all (hr.settled hD hq) (run_back hD s l) he hi hu

/-- C71. When all calls have returned and nothing waits, `unsubscribe` of a subscription has closed its subscriber,
if `subscribe` did not overlap with a call that ends the subject.
Missing: the same if it did, which is false (`C71_deaf_unsubscribe_counterexample`). -/
theorem C71_unsubscribed_partial (hD : D.Contract) (s : Nat → S) (l : List (Nat × Turn I E))
    (hr : AtRest (run D debug (init s) l)) (hq : (run D debug (init s) l).queue = []) (i j t u : Nat)
    (hi : .call i t .subscribe ∈ (run D debug (init s) l).trace)
    (hj : .call j u (.cancel i) ∈ (run D debug (init s) l).trace) (hu : Undisturbed (run D debug (init s) l).trace i) :
    D.isClosed ((run D debug (init s) l).dests i) = true :=
  (run_inv hD s l).cancels_all (hr.settled hD hq) (run_back hD s l) hi hj hu

/-- C71. What waits is not lost: when all calls have returned, any further call but `unsubscribe` of a
subscription, or the drop of a clone, by any thread, with the others staying idle, makes up for it: after it,
every value was given to all it should be given to, and whoever should be closed is. -/
theorem C71_recovers (hD : D.Contract) (s : Nat → S) (l : List (Nat × Turn I E)) (hr : AtRest (run D debug (init s) l))
    (t : Nat) (a : Turn I E) (ha : a = .drop ∨ ∃ op, a = .call op) (hc : ∀ k, a ≠ .call (.cancel k)) :
    ∃ m, let y := run D debug (init s) (l ++ (t, a) :: List.replicate m (t, .go))
      AtRest y ∧
      (∀ i k t u v, .call i t .subscribe ∈ y.trace → .call k u (.next v) ∈ y.trace → Before y.trace i k →
        (k, v) ∈ valuesTo i y.trace ∨ D.isClosed (y.dests i) = true ∨ Excused y.trace k) ∧
      ∀ i t, .call i t .subscribe ∈ y.trace → Undisturbed y.trace i →
        (Ending y.trace ∨ ∃ j u, .call j u (.cancel i) ∈ y.trace) → D.isClosed (y.dests i) = true := by
  obtain ⟨m, h1, h2⟩ := hr.recovers hD t a ha
  have h2 := h2.resolve_right fun ⟨k, e⟩ => hc k e
  have hs := h1.settled hD h2
  have hback := run_back (D := D) (debug := debug) hD s (l ++ (t, a) :: List.replicate m (t, .go))
  refine ⟨m, h1, fun i k t' u v hi hk hb => ?_, fun i t' hi hu h => ?_⟩
  · have hret : .ret k ∈ (run D debug (init s) (l ++ (t, a) :: List.replicate m (t, .go))).trace :=
      (hback _ _ _ hk).resolve_right fun e => by rw [Crowd.isIdle_eq (h1 u)] at e; cases e
    rcases C70_none_missed_partial hD s _ i k t' u v hi hk hret hb with h | h | h | h
    · exact .inl h
    · exact .inr (.inl h)
    · rw [hs.empty, hs.queue] at h; cases h
    · exact .inr (.inr h)
  · rcases h with h | ⟨j, u, h⟩
    · exact C71_ends_partial hD s _ h1 h2 h i t' hi hu
    · exact C71_unsubscribed_partial hD s _ h1 h2 i j t' u hi h hu

/-- C71. A call made, or a clone dropped, when no other thread is inside a call, does not panic: it returns.
Missing: the same while other threads are calling, which is false (`C71_panic_counterexample`). -/
theorem C71_alone_partial (hD : D.Contract) (s : Nat → S) (l : List (Nat × Turn I E)) (hr : AtRest (run D debug (init s) l))
    (t : Nat) (a : Turn I E) (ha : a = .drop ∨ ∃ op, a = .call op) :
    ∃ m, AtRest (run D debug (init s) (l ++ (t, a) :: List.replicate m (t, .go))) := by
  obtain ⟨m, h1, -⟩ := hr.recovers hD t a ha
  exact ⟨m, h1⟩

/-- C71. A call panics only if it is outrun: at least nine other calls had not returned when it began. In debug
builds, `complete` also panics if another call of `complete` or `unsubscribe` had not returned when it began. -/
theorem C71_only_when_outrun (hD : D.Contract) (s : Nat → S) (l : List (Nat × Turn I E)) (k t op w)
    (hk : .call k t op ∈ (run D debug (init s) l).trace) (hr : .ret k ∉ (run D debug (init s) l).trace)
    (hp : (run D debug (init s) l).pc t = .panicked w) :
    (∃ L : List Nat, L.Nodup ∧ L.length = 9 ∧ ∀ j ∈ L, j ≠ k ∧
      (∃ u n, .call j u n ∈ (run D debug (init s) l).trace) ∧ ¬ Before (run D debug (init s) l).trace j k) ∨
    (debug = true ∧ op = .complete ∧ ∃ j u n, .call j u n ∈ (run D debug (init s) l).trace ∧
      (n = .complete ∨ n = .unsubscribe) ∧ j ≠ k ∧ ¬ Before (run D debug (init s) l).trace j k) := by
  have hc := (run_back hD s l k t op hk).resolve_left hr
  rw [hp] at hc
  exact (run_causes hD s l).panic t w _ hp hc

/-- C71. After a panic, no value sent by any thread, before or after, is ever given to anyone any more, and
who has subscribed before hears nothing any more, not even how the subject ends. (In debug builds, this does not
apply to the panic of `complete` itself.) -/
theorem C71_dead_after_panic (hD : D.Contract) (s : Nat → S) (l l' : List (Nat × Turn I E)) (t w)
    (h : (run D debug (init s) l).pc t = .panicked w) (hw : debug = false ∨ ∀ c, w = .own c → c.op ≠ .complete) :
    (∀ i, valuesTo i (run D debug (init s) (l ++ l')).trace = valuesTo i (run D debug (init s) l).trace) ∧
      ∀ i, .ret i ∈ (run D debug (init s) l).trace →
        givesTo i (run D debug (init s) (l ++ l')).trace = givesTo i (run D debug (init s) l).trace := by
  rw [Crowd.run_append]
  refine (run_inv hD s l).run_frozen hD l' _ ?_
  rcases run_panics hD s l t w h with h | ⟨h1, c, h2, h3⟩
  · exact h
  · rcases hw with h | h
    · rw [h] at h1; cases h1
    · exact absurd h3 (h c h2)

/-! ### Cases -/

/-- C71 fails: `subscribe` of thread 1 overlaps with `complete` of thread 0. Both have returned, nothing waits, the
subject is closed, and the subscriber is open, and stays so. -/
theorem C71_missed_end_counterexample : ∃ l : List (Nat × Turn Nat Unit),
    let x := run recorder false (init fun _ => ([], false)) l
    (∀ t, (x.pc t).isIdle = true) ∧ x.queue = [] ∧ x.shut = true ∧ x.dests 0 = ([], false) ∧
      x.trace = [.call 0 1 .subscribe, .call 1 0 .complete, .ret 1, .ret 0] := by
  refine ⟨[(1, .call .subscribe)] ++ turns 1 3 ++ calls 0 .complete ++ turns 1 5, fun t => ?_, ?_, ?_, ?_, ?_⟩
  · match t with
    | 0 => decide +kernel
    | 1 => decide +kernel
    | t + 2 => exact others_idle (n := 2) _ (by decide +kernel) (by omega)
  all_goals decide +kernel

-- who is called by its own `subscribe` (`C71_greeted`)
example : (run recorder debug (init fun _ => ([], false)) (calls 0 .complete ++ calls 1 .subscribe)).trace =
    [.call 0 0 .complete, .ret 0, .call 1 1 .subscribe, .give 1 1 .complete, .ret 1] := by cases debug <;> decide +kernel

/-- C71 fails: the subscriber that missed the end of the subject is not closed by its own subscription either, if
another thread holds the lock meanwhile: it hears a value afterwards, and stays open. -/
theorem C71_deaf_unsubscribe_counterexample : ∃ l : List (Nat × Turn Nat Unit),
    let x := run recorder false (init fun _ => ([], false)) l
    (∀ t, (x.pc t).isIdle = true) ∧ x.queue = [] ∧ x.handles = [] ∧ x.dests 0 = ([.next 7], false) ∧
      x.trace = [.call 0 1 .subscribe, .call 1 2 (.next 7), .call 2 0 .unsubscribe, .ret 2, .ret 0,
        .call 3 1 (.cancel 0), .ret 3, .give 1 0 (.next 7), .ret 1] := by
  refine ⟨[(1, .call .subscribe)] ++ turns 1 3 ++ [(2, .call (.next 7))] ++ turns 2 1 ++ calls 0 .unsubscribe ++
    turns 1 5 ++ turns 2 1 ++ calls 1 (.cancel 0) ++ turns 2 5, fun t => ?_, ?_, ?_, ?_, ?_⟩
  · match t with
    | 0 => decide +kernel
    | 1 => decide +kernel
    | 2 => decide +kernel
    | t + 3 => exact others_idle (n := 3) _ (by decide +kernel) (by omega)
  all_goals decide +kernel

/-- C71 fails: `error` and `complete` overlap: who was subscribed hears of the completion, who subscribes later of
the error. -/
theorem C71_two_ends_counterexample : ∃ l : List (Nat × Turn Nat Unit),
    let x := run recorder false (init fun _ => ([], false)) l
    (∀ t, (x.pc t).isIdle = true) ∧ x.queue = [] ∧
      x.trace = [.call 0 0 .subscribe, .ret 0, .call 1 0 (.error ()), .call 2 1 .complete, .give 2 0 .complete, .ret 2,
        .ret 1, .call 3 0 .subscribe, .give 3 3 (.error ()), .ret 3] := by
  refine ⟨calls 0 .subscribe ++ [(0, .call (.error ()))] ++ turns 0 1 ++ calls 1 .complete ++ turns 0 7 ++
    calls 0 .subscribe, fun t => ?_, ?_, ?_⟩
  · match t with
    | 0 => decide +kernel
    | 1 => decide +kernel
    | t + 2 => exact others_idle (n := 2) _ (by decide +kernel) (by omega)
  all_goals decide +kernel

/-- C71 fails: two threads call `complete`; in a debug build, one of them panics. -/
theorem C71_debug_panic_counterexample : ∃ l : List (Nat × Turn Nat Unit),
    (∀ a ∈ l, a.2 = .go ∨ a.2 = .call .complete) ∧
    let x := run recorder true (init fun _ => ([], false)) l
    (∃ w, x.pc 0 = .panicked w) ∧ x.trace = [.call 0 0 .complete, .call 1 1 .complete, .ret 1] := by
  refine ⟨[(0, .call .complete)] ++ turns 0 1 ++ calls 1 .complete ++ turns 0 1, ?_, ⟨.own ⟨0, .complete⟩, ?_⟩, ?_⟩
  · intro a ha
    simp only [List.mem_append, turns, calls, List.mem_replicate, List.mem_cons] at ha
    rcases ha with (((rfl | ha) | ⟨-, rfl⟩) | rfl | ⟨-, rfl⟩) | ⟨-, rfl⟩ <;> first | (cases ha; done) | simp
  all_goals decide +kernel

/-- Thread 1 sends a value that it cannot hand over; thread 0, holding the lock, does so. -/
def relay : List (Nat × Turn Nat Unit) := [(1, .call (.next 7))] ++ turns 1 5 ++ turns 0 4

/-- C71 fails: two threads only send values, no subscriber calls back; thread 1 sends ten values while thread 0 is
inside `next`: thread 0 panics, and its own value is lost. -/
theorem C71_panic_counterexample : ∃ l : List (Nat × Turn Nat Unit),
    (∀ a ∈ l, a.2 = .go ∨ a.2 = .call .subscribe ∨ ∃ v, a.2 = .call (.next v)) ∧
    let x := run recorder false (init fun _ => ([], false)) l
    (x.pc 1).isIdle = true ∧ (∃ w, x.pc 0 = .panicked w) ∧
      valuesTo 0 x.trace = (List.range 10).map fun i => (i + 2, 7) := by
  refine ⟨calls 0 .subscribe ++ [(0, .call (.next 1))] ++ turns 0 2 ++ (List.replicate 10 relay).flatten ++ turns 0 1, ?_, ?_,
    ⟨.own ⟨1, .next 1⟩, ?_⟩, ?_⟩
  · intro a ha
    simp only [List.mem_append, turns, calls, relay, List.mem_replicate, List.mem_flatten, List.mem_cons] at ha
    rcases ha with ((((rfl | ⟨-, rfl⟩) | rfl | ha) | ⟨-, rfl⟩) | ⟨l, ⟨-, rfl⟩, ha⟩) | ⟨-, rfl⟩
    · simp
    · simp
    · simp
    · cases ha
    · simp
    · simp only [List.mem_append, List.mem_replicate, List.mem_cons] at ha
      rcases ha with ((rfl | ha) | ⟨-, rfl⟩) | ⟨-, rfl⟩ <;> first | (cases ha; done) | simp
    · simp
  all_goals decide +kernel

/-- Thread 1 subscribes when thread 0 has completed the subject, while which thread 2 was sending a value. -/
def finale : List (Nat × Turn Nat Unit) :=
  calls 0 .subscribe ++ [(2, .call (.next 5))] ++ turns 2 3 ++ calls 0 .complete ++ turns 2 20 ++ [(1, .ask)] ++
    calls 1 .subscribe

example : (run recorder true (init fun _ => ([], false)) finale).trace =
    [.call 0 0 .subscribe, .ret 0, .call 1 2 (.next 5), .call 2 0 .complete, .ret 2, .give 1 0 (.next 5),
      .give 2 0 .complete, .ret 1, .answer 1 true, .call 3 1 .subscribe, .give 3 3 .complete, .ret 3] := by decide +kernel

example : Late (run recorder true (init fun _ => ([], false)) finale).trace 3 :=
  ⟨2, 0, .complete, by decide +kernel, rfl,
    ⟨[.call 0 0 .subscribe, .ret 0, .call 1 2 (.next 5), .call 2 0 .complete, .ret 2],
      [.give 1 0 (.next 5), .give 2 0 .complete, .ret 1, .answer 1 true, .call 3 1 .subscribe, .give 3 3 .complete, .ret 3],
      by decide +kernel, by simp, by simp⟩⟩

example : Before (run recorder true (init fun _ => ([], false)) finale).trace 0 2 :=
  ⟨[.call 0 0 .subscribe, .ret 0],
    [.call 1 2 (.next 5), .call 2 0 .complete, .ret 2, .give 1 0 (.next 5), .give 2 0 .complete, .ret 1, .answer 1 true,
      .call 3 1 .subscribe, .give 3 3 .complete, .ret 3], by decide +kernel, by simp, by simp⟩

end Rx
