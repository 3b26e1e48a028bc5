import Verif.Lemmas.Combine

/-!
# The notification queue
-/

namespace Rx

open Spec

variable {A E₁ B E₂ O F I E S α : Type}

/-- A queue that holds the values `rem` and then the closing notifications, without an error. -/
structure QRep (rem : List I) (c u primed waiting : Bool) (q : NotificationQueue I E) : Prop where
  queue : q.queue = rem.map .next ++ ((if c then [.complete] else []) ++ (if u then [.unsubscribe] else []))
  err : q.err = none
  state : q.state = ⟨waiting, primed, c && rem.isEmpty, false, u && !c && rem.isEmpty⟩

variable {rem : List I} {c u p w : Bool} {q : NotificationQueue I E}

theorem QRep.new (o : QueueOverflowOptions) :
    QRep [] false false false true (NotificationQueue.new (I := I) (E := E) o) := ⟨rfl, rfl, rfl⟩

theorem filter_next (l : List I) :
    ((l.map (SubscriberNotification.next (E := E))).filter (·.isNext)) = l.map .next := by
  induction l with
  | nil => rfl
  | cons a l ih => simp [SubscriberNotification.isNext] at ih ⊢

theorem QRep.countNexts (h : QRep rem c u p w q) : q.countNexts = rem.length := by
  rw [NotificationQueue.countNexts, h.queue, List.filter_append, filter_next]
  cases c <;> cases u <;> simp [SubscriberNotification.isNext]

theorem QRep.hasNext (h : QRep rem c u p w q) : q.hasNext = !rem.isEmpty := by
  rw [NotificationQueue.hasNext, h.queue]
  cases rem <;> cases c <;> cases u <;> simp [SubscriberNotification.isNext]

theorem QRep.isEmpty (h : QRep rem c u p w q) : q.isEmpty = (rem.isEmpty && !c && !u) := by
  rw [NotificationQueue.isEmpty, h.queue]
  cases rem <;> cases c <;> cases u <;> rfl

theorem QRep.isCompleted (h : QRep rem c u p w q) : q.state.isCompleted = (c && rem.isEmpty) := by
  rw [h.state]; rfl

theorem QRep.isClosed (h : QRep rem c u p w q) : q.state.isClosed = ((c || u) && rem.isEmpty) := by
  rw [h.state]
  simp only [SubscriberState.isClosed, SubscriberState.isUnsubscribed, SubscriberState.isFinished,
    SubscriberState.isCompleted, SubscriberState.isErrored]
  cases c <;> cases u <;> cases rem <;> rfl

theorem QRep.takeError (h : QRep rem c u p w q) : q.takeError = (q, none) := by
  obtain ⟨a, b, d, e⟩ := q
  have := h.err
  cases this
  rfl

/-- How the values in the queue change with one more value. -/
def boundedPush (o : QueueOverflowOptions) (rem : List I) (v : I) : List I :=
  if o.maxQueueLength ≤ rem.length then
    match o.overflowBehavior with
    | .ignoreNext => rem
    | .dropOldest => rem.tail ++ [v]
  else rem ++ [v]

theorem QRep.push_next (h : QRep rem false false p w q) (hp : rem ≠ [] → p = true ∧ w = false)
    (hmax : 1 ≤ q.options.maxQueueLength) (v : I) :
    ∃ q', q.push (.next v) = some q' ∧ q'.options = q.options ∧
      QRep (boundedPush q.options rem v) false false true false q' := by
  have hcn := h.countNexts
  obtain ⟨qq, er, st, o⟩ := q
  obtain ⟨h1, h2, h3⟩ := h
  simp only at h1 h2 h3
  subst h1 h2 h3
  simp only [List.append_nil, Bool.false_eq_true, if_false] at hcn
  simp only [NotificationQueue.push, SubscriberNotification.isNext, Bool.and_true, List.append_nil,
    Bool.false_eq_true, if_false, hcn, boundedPush]
  by_cases hfull : o.maxQueueLength ≤ rem.length
  · cases hb : o.overflowBehavior with
    | ignoreNext =>
      obtain ⟨rfl, rfl⟩ := hp (by rintro rfl; simp only [List.length_nil] at hfull hmax; omega)
      refine ⟨⟨rem.map .next, none, ⟨false, true, false, false, false⟩, o⟩, by simp [hfull], rfl, ?_, rfl, ?_⟩
      · simp [hfull]
      · simp
    | dropOldest =>
      simp only [hfull, decide_true, Bool.true_and, if_true, reduceCtorEq, and_false, if_false,
        beq_iff_eq]
      cases rem with
      | nil => simp only [List.length_nil] at hfull hmax; omega
      | cons a rem =>
        obtain ⟨rfl, rfl⟩ := hp (by simp)
        have hd : (NotificationQueue.mk (I := I) (E := E) (.next a :: rem.map .next) none
            ⟨false, true, false, false, false⟩ o).dropOldest =
            ⟨rem.map .next, none, ⟨false, true, false, false, false⟩, o⟩ := by
          simp only [NotificationQueue.dropOldest]
          have : (List.reverse (.next a :: rem.map (SubscriberNotification.next (E := E)))).findIdx?
              (·.isNext) = some 0 := by
            rw [← List.map_cons (f := SubscriberNotification.next (E := E)), ← List.map_reverse]
            cases hr : (a :: rem).reverse with
            | nil => simp at hr
            | cons x xs => simp [List.findIdx?_cons, SubscriberNotification.isNext]
          rw [this]; rfl
        simp only [List.map_cons, List.isEmpty_cons, Bool.and_false, hd]
        refine ⟨⟨rem.map .next ++ [.next v], none, ⟨false, true, false, false, false⟩, o⟩, ?_, rfl, ?_, rfl, ?_⟩
        · cases rem <;> simp [SubscriberState.updateWithNotification, SubscriberState.next,
          SubscriberState.isClosed, SubscriberState.isUnsubscribed, SubscriberState.isFinished,
          SubscriberState.isCompleted, SubscriberState.isErrored]
        · simp
        · simp
  · simp only [hfull, decide_false, Bool.false_and, Bool.false_eq_true, if_false]
    refine ⟨⟨rem.map .next ++ [.next v], none, ⟨false, true, false, false, false⟩, o⟩, ?_, rfl, ?_, rfl, ?_⟩
    · cases rem with
      | nil => simp [SubscriberState.updateWithNotification, SubscriberState.next,
          SubscriberState.isClosed, SubscriberState.isUnsubscribed, SubscriberState.isFinished,
          SubscriberState.isCompleted, SubscriberState.isErrored]
      | cons a rem =>
        obtain ⟨rfl, rfl⟩ := hp (by simp)
        simp
    · simp
    · simp

theorem QRep.push_complete (h : QRep rem false false p w q) (hp : rem ≠ [] → w = false) :
    ∃ q', q.push .complete = some q' ∧ q'.options = q.options ∧ QRep rem true false p false q' := by
  obtain ⟨qq, er, st, o⟩ := q
  obtain ⟨h1, h2, h3⟩ := h
  simp only at h1 h2 h3
  subst h1 h2 h3
  refine ⟨⟨rem.map .next ++ [.complete], none, ⟨false, p, rem.isEmpty, false, false⟩, o⟩, ?_, rfl, by simp, rfl, by simp⟩
  cases rem with
  | nil => simp [NotificationQueue.push, SubscriberNotification.isNext,
      SubscriberState.updateWithNotification, SubscriberState.complete,
      SubscriberState.isClosed, SubscriberState.isUnsubscribed, SubscriberState.isFinished,
      SubscriberState.isCompleted, SubscriberState.isErrored]
  | cons a rem =>
    obtain rfl := hp (by simp)
    simp [NotificationQueue.push, SubscriberNotification.isNext]

theorem QRep.push_unsubscribe (h : QRep rem c false p w q) (hp : rem ≠ [] ∨ c = true → w = false) :
    ∃ q', q.push .unsubscribe = some q' ∧ q'.options = q.options ∧ QRep rem c true p false q' := by
  obtain ⟨qq, er, st, o⟩ := q
  obtain ⟨h1, h2, h3⟩ := h
  simp only at h1 h2 h3
  subst h1 h2 h3
  refine ⟨⟨rem.map .next ++ ((if c then [.complete] else []) ++ [.unsubscribe]), none,
    ⟨false, p, c && rem.isEmpty, false, !c && rem.isEmpty⟩, o⟩, ?_, rfl, by simp, rfl, by simp⟩
  cases rem with
  | nil =>
    cases c with
    | false => simp [NotificationQueue.push, SubscriberNotification.isNext,
        SubscriberState.updateWithNotification, SubscriberState.unsubscribe, SubscriberState.isUnsubscribed]
    | true =>
      obtain rfl := hp (by simp)
      simp [NotificationQueue.push, SubscriberNotification.isNext]
  | cons a rem =>
    obtain rfl := hp (by simp)
    simp [NotificationQueue.push, SubscriberNotification.isNext]

theorem QRep.push_error (h : QRep rem false false p w q) (e : E) :
    ∃ q', q.push (.error e) = some q' ∧ q'.err = some e := by
  obtain ⟨qq, er, st, o⟩ := q
  obtain ⟨h1, h2, h3⟩ := h
  simp only at h1 h2 h3
  subst h1 h2 h3
  exact ⟨⟨rem.map .next, some e, ⟨false, p, false, true, false⟩, o⟩, by
    simp [NotificationQueue.push, SubscriberNotification.isNext, SubscriberState.error,
      SubscriberState.isClosed, SubscriberState.isUnsubscribed, SubscriberState.isFinished,
      SubscriberState.isCompleted, SubscriberState.isErrored], rfl⟩

theorem QRep.pop {a : I} (h : QRep (a :: rem) c u true false q) :
    ∃ q', q.popNextIfInFront = some (q', some a) ∧ q'.options = q.options ∧ QRep rem c u true false q' := by
  obtain ⟨qq, er, st, o⟩ := q
  obtain ⟨h1, h2, h3⟩ := h
  simp only at h1 h2 h3
  subst h1 h2 h3
  refine ⟨⟨rem.map .next ++ ((if c then [.complete] else []) ++ (if u then [.unsubscribe] else [])), none,
    ⟨false, true, c && rem.isEmpty, false, u && !c && rem.isEmpty⟩, o⟩, ?_, rfl, rfl, rfl, rfl⟩
  cases rem <;> cases c <;> cases u <;>
    simp [NotificationQueue.popNextIfInFront, NotificationQueue.updateWithFront,
      SubscriberState.updateWithNotification, SubscriberState.next, SubscriberState.complete,
      SubscriberState.unsubscribe, SubscriberState.isClosed, SubscriberState.isUnsubscribed,
      SubscriberState.isFinished, SubscriberState.isCompleted, SubscriberState.isErrored]

theorem QRep.pop_empty (h : QRep [] c u p w q) : q.popNextIfInFront = some (q, none) := by
  obtain ⟨qq, er, st, o⟩ := q
  obtain ⟨h1, h2, h3⟩ := h
  simp only at h1 h2 h3
  subst h1 h2 h3
  cases c <;> cases u <;> rfl

theorem boundedPush_eq {o : QueueOverflowOptions} (ho : 1 ≤ o.maxQueueLength)
    (hl : rem.length ≤ o.maxQueueLength) (v : I) :
    boundedPush o rem v = (Spec.waiting (E := E) o rem (.push (.next v))).1 ∧
      (boundedPush o rem v).length ≤ o.maxQueueLength := by
  simp only [boundedPush, Spec.waiting, lastN]
  by_cases h : o.maxQueueLength ≤ rem.length
  · have hm : o.maxQueueLength = rem.length := by omega
    rw [if_pos h]
    cases rem with
    | nil => simp only [List.length_nil] at hm; omega
    | cons a rem =>
      cases o.overflowBehavior with
      | dropOldest => rw [hm]; simp
      | ignoreNext => rw [hm]; simp
  · rw [if_neg h]
    refine ⟨?_, by simp; omega⟩
    cases o.overflowBehavior with
    | dropOldest => simp; rw [show rem.length + 1 - o.maxQueueLength = 0 by omega]; rfl
    | ignoreNext => simp; rw [List.take_of_length_le (by simp; omega)]

/-- Running a queue that represents what was pushed before. -/
theorem queue_run {o : QueueOverflowOptions} (ho : 1 ≤ o.maxQueueLength) (ops : List (QOp I E)) :
    ∀ (pre : List (SubscriberNotification I E)) (vals : List I) (p w : Bool) (q : NotificationQueue I E),
    QRep vals (completed pre) (unsubscribed pre) p w q → q.options = o →
    vals.length ≤ o.maxQueueLength → (vals ≠ [] → p = true ∧ w = false) → (pre ≠ [] → w = false) →
    RxGrammar (pre ++ pushed ops) → errorOf (pre ++ pushed ops) = none →
    ∃ q' p' w', queueRun q ops = some (q', (waitings o vals ops).2) ∧ q'.options = o ∧
      QRep (waitings o vals ops).1 (completed (pre ++ pushed ops)) (unsubscribed (pre ++ pushed ops)) p' w' q' ∧
      (waitings o vals ops).1.length ≤ o.maxQueueLength := by
  induction ops with
  | nil =>
    intro pre vals p w q hq hopt hl _ _ _ _
    exact ⟨q, p, w, rfl, hopt, by simpa [pushed, waitings] using hq, hl⟩
  | cons op ops ih =>
    intro pre vals p w q hq hopt hl hv hw hg he
    cases op with
    | pop =>
      have hpd : pushed (.pop :: ops) = pushed ops := rfl
      rw [hpd] at hg he ⊢
      cases vals with
      | nil =>
        obtain ⟨q', p', w', h1, h2, h3, h4⟩ := ih pre [] p w q hq hopt hl hv hw hg he
        exact ⟨q', p', w', by simp [queueRun, hq.pop_empty, h1, waitings, waiting], h2, h3, h4⟩
      | cons a vals =>
        obtain ⟨rfl, rfl⟩ := hv (by simp)
        obtain ⟨q1, k1, k2, k3⟩ := hq.pop
        simp only [List.length_cons] at hl
        obtain ⟨q', p', w', h1, h2, h3, h4⟩ := ih pre vals true false q1 k3 (k2.trans hopt) (by omega)
          (fun _ => ⟨rfl, rfl⟩) (fun _ => rfl) hg he
        exact ⟨q', p', w', by simp [queueRun, k1, h1, waitings, waiting], h2, h3, h4⟩
    | push n =>
      have hpd : pre ++ pushed (.push n :: ops) = (pre ++ [n]) ++ pushed ops := by simp [pushed]
      rw [hpd] at hg he ⊢
      have hpre : RxGrammar (pre ++ [n]) := by
        clear ih hpd he
        generalize pushed ops = l at hg
        induction l using snoc_induction with
        | nil => simpa using hg
        | snoc l x ihl => rw [← List.append_assoc] at hg; exact ihl (grammar_prefix hg).1
      have hm := (grammar_prefix hpre).2
      cases n with
      | next v =>
        obtain ⟨m1, m2, m3⟩ := hm
        rw [m1, m2] at hq
        obtain ⟨q1, k1, k2, k3⟩ := hq.push_next hv (by rw [hopt]; exact ho) v
        rw [hopt] at k2 k3
        obtain ⟨b1, b2⟩ := boundedPush_eq (E := E) ho hl v
        rw [b1] at k3 b2
        obtain ⟨q', p', w', h1, h2, h3, h4⟩ := ih (pre ++ [.next v]) _ true false q1
          (by simpa [completed_snoc, unsubscribed_snoc, m1, m2] using k3) k2 b2
          (fun _ => ⟨rfl, rfl⟩) (fun _ => rfl) hg he
        refine ⟨q', p', w', ?_, h2, h3, h4⟩
        simp only [queueRun, k1, Option.bind_some, h1]
        rfl
      | error e =>
        obtain ⟨m1, m2, m3⟩ := hm
        simp [errorOf, List.findSome?_append] at he
      | complete =>
        obtain ⟨m1, m2, m3⟩ := hm
        rw [m1, m2] at hq
        obtain ⟨q1, k1, k2, k3⟩ := hq.push_complete (fun h => (hv h).2)
        obtain ⟨q', p', w', h1, h2, h3, h4⟩ := ih (pre ++ [.complete]) vals p false q1
          (by simpa [completed_snoc, unsubscribed_snoc, m1, m2] using k3) (k2.trans hopt) hl
          (fun h => ⟨(hv h).1, rfl⟩) (fun _ => rfl) hg he
        refine ⟨q', p', w', ?_, h2, h3, h4⟩
        simp only [queueRun, k1, Option.bind_some, h1]
        rfl
      | unsubscribe =>
        have m2 : unsubscribed pre = false := hm
        rw [m2] at hq
        obtain ⟨q1, k1, k2, k3⟩ := hq.push_unsubscribe (by
          rintro (h | h)
          · exact (hv h).2
          · exact hw (by rintro rfl; simp [completed] at h))
        obtain ⟨q', p', w', h1, h2, h3, h4⟩ := ih (pre ++ [.unsubscribe]) vals p false q1
          (by simpa [completed_snoc, unsubscribed_snoc, m2] using k3) (k2.trans hopt) hl
          (fun h => ⟨(hv h).1, rfl⟩) (fun _ => rfl) hg he
        refine ⟨q', p', w', ?_, h2, h3, h4⟩
        simp only [queueRun, k1, Option.bind_some, h1]
        rfl

end Rx
