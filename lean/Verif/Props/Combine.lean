import Verif.Lemmas.Zip
import Verif.Lemmas.Stray
import Verif.Props.Operators
import Verif.Props.Foundations

/-!
# C33 - C38: the notification queue and the combination observables

`Delivers2 C P R` says: for any destination that obeys the subscriber contract, in any state, and any
interleaving `es` of what the inputs send that satisfies `P`, no assertion fails and the destination
cannot tell the combination from being sent `R.deliver es`.
-/

namespace Rx

open Spec

variable {A E₁ B E₂ O F I E : Type}

def Delivers2 (C : Combiner A E₁ B E₂ O F) (P : List (Either2 A E₁ B E₂) → Prop)
    (R : Rule A E₁ B E₂ O F) : Prop :=
  ∀ (S α : Type) (D : Sub S O F) (obs : S → α) (Inv : S → Prop), Lawful D obs Inv true →
    ∀ s, Inv s → ∀ es, P es →
      ∃ x, C.run D (C.init, s) es = some x ∧ obs x.2 = obs (D.run s (R.deliver es)) ∧
        D.isClosed x.2 = D.isClosed (D.run s (R.deliver es))

theorem Combiner.Implements.delivers2 {C : Combiner A E₁ B E₂ O F} {R : Rule A E₁ B E₂ O F} {P Rep}
    (hC : C.Implements R P Rep) : Delivers2 C P R :=
  fun _ _ _ _ _ hD s hs es hp => hC.delivers hD es [] s C.init hs hp hC.init

theorem deliverFrom_congr {R R' : Rule A E₁ B E₂ O F} (he : R.emits = R'.emits) (es) :
    ∀ pre, (∀ p, p <+: pre ++ es → R.ends p = R'.ends p) → R.deliverFrom pre es = R'.deliverFrom pre es := by
  induction es with
  | nil => intro pre _; rfl
  | cons e es ih =>
    intro pre h
    have h1 := h (pre ++ [e]) ⟨es, by simp⟩
    have h2 := ih (pre ++ [e]) (fun p hp => h p (by simpa using hp))
    simp only [Rule.deliverFrom, he, h1, h2]

/-- What an observer is called with. -/
def asSeen : SubscriberNotification O F → Option (ObserverNotification O F)
  | .next v => some (.next v)
  | .error e => some (.error e)
  | .complete => some .complete
  | .unsubscribe => none

/-- The fresh observer sees exactly what a rule delivers. -/
theorem observer_sees (ns : List (SubscriberNotification O F)) :
    ∀ s : ObsState O F, s.teardown.closed = false →
    (∀ a n b, ns = a ++ n :: b → n.isClosing = true → b = []) →
    ((observerSubscriber O F).run s ns).seen = s.seen ++ ns.filterMap asSeen ∧
    (observerSubscriber O F).isClosed ((observerSubscriber O F).run s ns) = ns.any (·.isClosing) := by
  induction ns with
  | nil =>
    intro s hs _
    exact ⟨by simp [Sub.run], by simpa [Sub.run, observerSubscriber, SubscriptionData.isClosed] using hs⟩
  | cons n ns ih =>
    intro s hs hc
    cases n with
    | next v =>
      have := ih ⟨s.teardown, s.log ++ [.seen (.next v)]⟩ hs
        (fun a n b h => hc (.next v :: a) n b (by rw [h]; rfl))
      have hp : (observerSubscriber O F).run s (.next v :: ns) =
          (observerSubscriber O F).run ⟨s.teardown, s.log ++ [.seen (.next v)]⟩ ns := by
        simp [Sub.run, Sub.push, observerSubscriber, SubscriptionData.isClosed, hs]
      rw [hp, this.1, this.2]
      simp [asSeen, ObsState.seen, Event.asSeen, SubscriberNotification.isClosing, SubscriberNotification.isTerminal]
    | error e =>
      have := hc [] (.error e) ns rfl rfl
      subst this
      simp [asSeen, Sub.run, Sub.push, observerSubscriber, SubscriptionData.isClosed, hs, ObsState.seen,
        ObsState.unsubscribe, SubscriptionData.unsubscribe, Event.asSeen,
        SubscriberNotification.isClosing, SubscriberNotification.isTerminal]
    | complete =>
      have := hc [] .complete ns rfl rfl
      subst this
      simp [asSeen, Sub.run, Sub.push, observerSubscriber, SubscriptionData.isClosed, hs, ObsState.seen,
        ObsState.unsubscribe, SubscriptionData.unsubscribe, Event.asSeen,
        SubscriberNotification.isClosing, SubscriberNotification.isTerminal]
    | unsubscribe =>
      have := hc [] .unsubscribe ns rfl rfl
      subst this
      refine ⟨?_, ?_⟩
      · simp [Sub.run, Sub.push, observerSubscriber, hs, ObsState.seen,
          ObsState.unsubscribe, SubscriptionData.unsubscribe]
        rw [show List.filterMap asSeen [SubscriberNotification.unsubscribe (I := O) (E := F)] = [] from rfl,
          List.filterMap_eq_nil_iff]
        intro t _
        rfl
      · simp [Sub.run, Sub.push, observerSubscriber, SubscriptionData.isClosed, hs,
          ObsState.unsubscribe, SubscriptionData.unsubscribe,
          SubscriberNotification.isClosing, SubscriberNotification.isTerminal]

theorem deliver_closing_last (R : Rule A E₁ B E₂ O F) (es) :
    ∀ pre a n b, R.deliverFrom pre es = a ++ n :: b → n.isClosing = true → b = [] := by
  induction es with
  | nil => intro pre a n b h _; simp [Rule.deliverFrom] at h
  | cons e es ih =>
    intro pre a n b h hn
    simp only [Rule.deliverFrom] at h
    have key : ∀ (vs : List O) (rest : List (SubscriberNotification O F)) a,
        vs.map SubscriberNotification.next ++ rest = a ++ n :: b → ∃ a', rest = a' ++ n :: b := by
      intro vs
      induction vs with
      | nil => intro rest a h; exact ⟨a, by simpa using h⟩
      | cons v vs ihv =>
        intro rest a h
        cases a with
        | nil =>
          simp only [List.map_cons, List.cons_append, List.nil_append, List.cons.injEq] at h
          rw [← h.1] at hn
          simp [SubscriberNotification.isClosing, SubscriberNotification.isTerminal] at hn
        | cons x a =>
          simp only [List.map_cons, List.cons_append, List.cons.injEq] at h
          exact ihv rest a h.2
    obtain ⟨a', h'⟩ := key _ _ _ h
    split at h'
    · rename_i t ht
      cases a' with
      | nil => simp only [List.nil_append, List.cons.injEq] at h'; exact h'.2.symm
      | cons x a' => simp at h'
    · exact ih _ _ _ _ h' hn

/-- From arbitrary destinations to a fresh observer. -/
theorem Delivers2.observed {C : Combiner A E₁ B E₂ O F} {P} {R : Rule A E₁ B E₂ O F}
    (h : Delivers2 C P R) {es} (hp : P es) :
    observe2 C es = some ((R.deliver es).filterMap asSeen, (R.deliver es).any (·.isClosing)) := by
  obtain ⟨x, h1, h2, h3⟩ := h _ _ _ _ _ (observerSubscriber_lawful O F) ObsState.new trivial es hp
  obtain ⟨h4, h5⟩ := observer_sees (R.deliver es) ObsState.new rfl (deliver_closing_last R es [])
  simp only [observe2, h1, Option.map_some, Option.some.injEq, Prod.mk.injEq]
  exact ⟨(h2.trans h4).trans (by simp [ObsState.seen, ObsState.new]), h3.trans h5⟩

/-! ## C33 -/

/-- C33. Used with at least one place, and pushed a sequence that keeps to the Rx grammar, without an
error: no assertion fails, pops return what a bounded first-in first-out list returns, the queue never
holds more than the limit, and it reports completion (closing) once that has reached the front.
Missing: a limit of 0 (`C33_limit_zero_counterexample`) and pops after an error
(`C33_pop_after_error_counterexample`). -/
theorem C33_queue_partial (o : QueueOverflowOptions) (ho : 1 ≤ o.maxQueueLength) (ops : List (QOp I E))
    (hg : RxGrammar (pushed ops)) (he : errorOf (pushed ops) = none) :
    ∃ q, queueRun (.new o) ops = some (q, (waitings o [] ops).2) ∧
      q.countNexts = (waitings o [] ops).1.length ∧ q.countNexts ≤ o.maxQueueLength ∧
      q.state.isCompleted = (completed (pushed ops) && (waitings o [] ops).1.isEmpty) ∧
      q.state.isClosed = (finished (pushed ops) && (waitings o [] ops).1.isEmpty) := by
  obtain ⟨q, p, w, h1, h2, h3, h4⟩ := queue_run ho ops [] [] false true (.new o) (.new o) rfl
    (Nat.zero_le _) (by simp) (by simp) (by simpa using hg) (by simpa using he)
  rw [List.nil_append] at h3
  refine ⟨q, h1, h3.countNexts, h3.countNexts ▸ h4, h3.isCompleted, ?_⟩
  rw [h3.isClosed]
  simp [finished, he]

/-- C33. An error is reported at once, whatever is in the queue. -/
theorem C33_error_at_once (o : QueueOverflowOptions) (ho : 1 ≤ o.maxQueueLength) (ops : List (QOp I E))
    (e : E) (hg : RxGrammar (pushed ops ++ [.error e])) (he : errorOf (pushed ops) = none) :
    ∃ q q' outs, queueRun (.new o) ops = some (q, outs) ∧ q.push (.error e) = some q' ∧
      q'.state.isErrored = true ∧ q'.takeError.2 = some e ∧ q'.queue = q.queue := by
  obtain ⟨q, p, w, h1, h2, h3, h4⟩ := queue_run ho ops [] [] false true (.new o) (.new o) rfl
    (Nat.zero_le _) (by simp) (by simp) (by simpa using (grammar_prefix hg).1) (by simpa using he)
  obtain ⟨k1, k2, k3⟩ := (grammar_prefix hg).2
  rw [List.nil_append, k1, k2] at h3
  obtain ⟨qq, er, st, oo⟩ := q
  obtain ⟨g1, g2, g3⟩ := h3
  simp only at g1 g2 g3
  subst g1 g2 g3
  refine ⟨_, ⟨_, some e, ⟨false, p, false, true, false⟩, oo⟩, _, h1, ?_, rfl, rfl, rfl⟩
  simp [NotificationQueue.push, SubscriberNotification.isNext, SubscriberState.error,
    SubscriberState.isClosed, SubscriberState.isUnsubscribed, SubscriberState.isFinished,
    SubscriberState.isCompleted, SubscriberState.isErrored]

theorem lastN_length {T : Type} (n : Nat) (l : List T) : (lastN n l).length = min n l.length := by
  simp [lastN]; omega

theorem lastN_lastN {T : Type} (n : Nat) (l r : List T) : lastN n (lastN n l ++ r) = lastN n (l ++ r) := by
  by_cases h : l.length ≤ n
  · simp [lastN, Nat.sub_eq_zero_of_le h]
  · have h1 : (l ++ r).drop ((l ++ r).length - n) =
        ((l ++ r).drop (l.length - n)).drop ((l.drop (l.length - n) ++ r).length - n) := by
      rw [List.drop_drop]; congr 1; simp only [List.length_append, List.length_drop]; omega
    have h2 : (l ++ r).drop (l.length - n) = l.drop (l.length - n) ++ r :=
      List.drop_append_of_le_length (by omega)
    rw [h2] at h1
    exact h1.symm

/-- C33. Pushing the values `vs`: `DropOldest` keeps the newest, `IgnoreNext` the oldest. -/
theorem C33_overflow (o : QueueOverflowOptions) (vs : List I) :
    (waitings (E := E) o [] (vs.map fun v => .push (.next v))).1 =
      match o.overflowBehavior with
      | .dropOldest => lastN o.maxQueueLength vs
      | .ignoreNext => vs.take o.maxQueueLength := by
  have key : ∀ (vs init : List I),
      (waitings (E := E) o (match o.overflowBehavior with
        | .dropOldest => lastN o.maxQueueLength init
        | .ignoreNext => init.take o.maxQueueLength) (vs.map fun v => .push (.next v))).1 =
      match o.overflowBehavior with
      | .dropOldest => lastN o.maxQueueLength (init ++ vs)
      | .ignoreNext => (init ++ vs).take o.maxQueueLength := by
    intro vs
    induction vs with
    | nil => intro init; simp [waitings]
    | cons v vs ih =>
      intro init
      have := ih (init ++ [v])
      simp only [List.append_assoc, List.singleton_append] at this
      rw [← this]
      simp only [List.map_cons, waitings, waiting]
      cases o.overflowBehavior with
      | dropOldest => simp only [lastN_lastN]
      | ignoreNext =>
        simp only
        congr 2
        rw [List.take_append, List.take_append, List.take_take, List.length_take]
        congr 1
        · simp
        · by_cases h : init.length ≤ o.maxQueueLength
          · rw [Nat.min_eq_right h]
          · rw [show o.maxQueueLength - min o.maxQueueLength init.length = 0 by omega,
              show o.maxQueueLength - init.length = 0 by omega]
  have := key vs []
  simp only [List.nil_append] at this
  rw [← this]
  congr 2
  cases o.overflowBehavior <;> simp [lastN]

/-- Limit 2, 4 values, one pop in between, completion at the front only at the end. -/
example : ((queueRun (.new (I := Nat) (E := Unit) ⟨2, .dropOldest⟩)
      [.push (.next 1), .push (.next 2), .push (.next 3), .pop, .push (.next 4), .push .complete]).map
        fun x => (x.1.queue, x.2)) =
    some ([.next 3, .next 4, .complete], [some 2]) := rfl

/-- With limit 0 and `DropOldest` the queue holds one value. -/
theorem C33_limit_zero_counterexample :
    ((queueRun (.new (I := Nat) (E := Unit) ⟨0, .dropOldest⟩) [.push (.next 1)]).map (·.1.countNexts)) =
      some 1 := rfl

/-- Popping after an error fails a debug assertion if another value is behind the popped one. -/
theorem C33_pop_after_error_counterexample :
    queueRun (.new (I := Nat) (E := Unit) {}) [.push (.next 1), .push (.next 2), .push (.error ()), .pop] =
      none := rfl

/-- C33. The store of an input that keeps to the Rx grammar has its last value, its error, and what it has sent so far as its state. -/
theorem C33_store (ns : List (SubscriberNotification I E)) (h : RxGrammar ns) :
    ∃ s, ns.foldlM NotificationState.push (.default : NotificationState I E) = some s ∧ s.value = (valsOf ns).getLast? ∧
      s.err = errorOf ns ∧ s.takeError.2 = errorOf ns ∧ s.takeError.1.takeError.2 = none ∧
      SubscriberState.default.feed ns = some s.state := by
  obtain ⟨s, h1, h2, h3, h4⟩ := store_from ns .default ((C06_accepts_exactly_grammar ns).2 h) (by simp [NotificationState.default])
  have h3 : s.err = errorOf ns := by rw [h3]; simp [NotificationState.default]
  exact ⟨s, h1, by rw [h2]; simp [NotificationState.default], h3, h3, rfl, h4⟩

example : ([.next 1, .next 2, .error 7, .unsubscribe] : List (SubscriberNotification Nat Nat)).foldlM NotificationState.push .default =
    some ⟨some 2, some 7, ⟨false, true, false, true, true⟩⟩ := by decide +kernel

/-! ## C34 -/

/-- C34. Within the queue limit, zip does what `zipActualRule` says: it emits the pairs, errors at
once, and ends when the inputs have sent equally many values and one has finished.
Missing: ending while the other input has unpaired values (`C34_completion_counterexample`). -/
theorem C34_zip_delivers_partial (o : QueueOverflowOptions) (i₁ : E₁ → F) (i₂ : E₂ → F) :
    Delivers2 (zipCombiner (A := A) (B := B) o i₁ i₂)
      (fun es => Conforming es ∧ WithinLimit o.maxQueueLength es) (zipActualRule i₁ i₂) :=
  (zip_implements o i₁ i₂).delivers2

theorem unsubscribed_prefix {p es : List (SubscriberNotification I E)} (h : p <+: es)
    (hu : unsubscribed es = false) : unsubscribed p = false := by
  obtain ⟨t, rfl⟩ := h
  simp only [unsubscribed, List.any_append, Bool.or_eq_false_iff] at hu ⊢
  exact hu.1

theorem left_prefix {p es : List (Either2 A E₁ B E₂)} (h : p <+: es) : left p <+: left es := by
  obtain ⟨t, rfl⟩ := h; exact ⟨left t, by simp [left]⟩

theorem right_prefix {p es : List (Either2 A E₁ B E₂)} (h : p <+: es) : right p <+: right es := by
  obtain ⟨t, rfl⟩ := h; exact ⟨right t, by simp [right]⟩

/-- C34. If moreover no input completes while the other is ahead of it (and inputs are not unsubscribed
on their own), zip does exactly what it should. -/
theorem C34_zip_expected_partial (o : QueueOverflowOptions) (i₁ : E₁ → F) (i₂ : E₂ → F) :
    Delivers2 (zipCombiner (A := A) (B := B) o i₁ i₂)
      (fun es => Conforming es ∧ WithinLimit o.maxQueueLength es ∧ NoUnsubscribe es ∧ NeverAhead es)
      (zipRule i₁ i₂) := by
  intro S α D obs Inv hD s hs es ⟨hc, hl, hu, hn⟩
  have := C34_zip_delivers_partial o i₁ i₂ S α D obs Inv hD s hs es ⟨hc, hl⟩
  have heq : (zipActualRule i₁ i₂).deliver es = (zipRule i₁ i₂).deliver es := by
    refine deliverFrom_congr (R := zipActualRule i₁ i₂) (R' := zipRule i₁ i₂) rfl es [] fun p hp => ?_
    rw [List.nil_append] at hp
    have u1 := unsubscribed_prefix (left_prefix hp) hu.1
    have u2 := unsubscribed_prefix (right_prefix hp) hu.2
    obtain ⟨n1, n2⟩ := hn p hp
    simp only [zipActualRule, zipRule]
    cases he : anyError i₁ i₂ p with
    | some e => rfl
    | none =>
      obtain ⟨e1, e2⟩ := anyError_none he
      simp only [finished, u1, u2, e1, e2, Option.isSome_none, Bool.or_false]
      cases c1 : completed (left p) <;> cases c2 : completed (right p) <;> simp_all
      · split <;> split <;> first | rfl | omega
      · split <;> split <;> first | rfl | omega
      · omega
  rw [heq] at this
  exact this

theorem valsOf_append (a b : List (SubscriberNotification I E)) : valsOf (a ++ b) = valsOf a ++ valsOf b := by
  simp [valsOf]

theorem finished_append {a b : List (SubscriberNotification I E)} (h : finished a = true) :
    finished (a ++ b) = true := by
  simp only [finished, completed, unsubscribed, errorOf, List.any_append, List.findSome?_append,
    Bool.or_eq_true, Option.isSome_or] at h ⊢
  rcases h with (h | h) | h <;> simp [h]

/-- The values of an input do not change once it has finished. -/
theorem vals_after_finished {ns : List (SubscriberNotification I E)} (l : List (SubscriberNotification I E))
    (hg : RxGrammar (ns ++ l)) (hf : finished ns = true) : valsOf (ns ++ l) = valsOf ns := by
  induction l using snoc_induction with
  | nil => simp
  | snoc l n ih =>
    rw [← List.append_assoc] at hg ⊢
    obtain ⟨h1, h2⟩ := grammar_prefix hg
    rw [valsOf_snoc, ih h1]
    cases n with
    | next v =>
      obtain ⟨k1, k2, k3⟩ := h2
      have := finished_append (b := l) hf
      simp [finished, k1, k2, k3] at this
    | _ => simp

theorem zip_prefix {a a' : List A} {b b' : List B} (ha : a <+: a') (hb : b <+: b') :
    a.zip b <+: a'.zip b' := by
  induction a generalizing a' b b' with
  | nil => simp
  | cons x a ih =>
    cases b with
    | nil => simp
    | cons y b =>
      obtain ⟨ta, rfl⟩ := ha
      obtain ⟨tb, rfl⟩ := hb
      simpa using ih (List.prefix_append a ta) (List.prefix_append b tb)

theorem valsOf_prefix {a b : List (SubscriberNotification I E)} (h : a <+: b) : valsOf a <+: valsOf b := by
  obtain ⟨t, rfl⟩ := h; exact ⟨valsOf t, (valsOf_append a t).symm⟩

theorem pairs_prefix {p q : List (Either2 A E₁ B E₂)} (h : p <+: q) : pairs p <+: pairs q :=
  zip_prefix (valsOf_prefix (left_prefix h)) (valsOf_prefix (right_prefix h))

theorem pairs_step (h : List (Either2 A E₁ B E₂)) (e) : pairs h ++ newPairs (h ++ [e]) = pairs (h ++ [e]) := by
  rw [newPairs, List.dropLast_concat]
  obtain ⟨t, ht⟩ := pairs_prefix (List.prefix_append h [e])
  rw [← ht]; simp

theorem emitted_map (vs : List O) : valsOf (E := F) (vs.map .next) = vs := by
  induction vs with
  | nil => rfl
  | cons v vs ih => simp only [valsOf, List.map_cons, List.filterMap_cons] at ih ⊢; rw [ih]

theorem zip_ends_closing {i₁ : E₁ → F} {i₂ : E₂ → F} {h : List (Either2 A E₁ B E₂)} {t}
    (ht : (zipActualRule i₁ i₂).ends h = some t) : valsOf [t] = [] ∧
      (anyError i₁ i₂ h = none → (valsOf (left h)).length = (valsOf (right h)).length ∧
        (finished (left h) || finished (right h)) = true) := by
  simp only [zipActualRule] at ht
  split at ht
  · rename_i e he
    cases ht
    exact ⟨rfl, fun h => by rw [he] at h; cases h⟩
  · split at ht
    · rename_i hh
      split at ht <;> cases ht <;> exact ⟨rfl, fun _ => hh⟩
    · cases ht

/-- C34. The `k`-th emission is the pair of the `k`-th values of both inputs: the emissions are an
initial part of the pairs, and all of them as long as no input sent an error. (What is emitted
downstream is what `C34_zip_delivers_partial` says.) -/
theorem C34_kth_emission (i₁ : E₁ → F) (i₂ : E₂ → F) (es : List (Either2 A E₁ B E₂)) :
    valsOf ((zipActualRule i₁ i₂).deliver es) <+: (valsOf (left es)).zip (valsOf (right es)) ∧
    (Conforming es → errorOf (left es) = none → errorOf (right es) = none →
      valsOf ((zipActualRule i₁ i₂).deliver es) = (valsOf (left es)).zip (valsOf (right es))) := by
  have key : ∀ es pre : List (Either2 A E₁ B E₂),
      pairs pre ++ valsOf ((zipActualRule i₁ i₂).deliverFrom pre es) <+: pairs (pre ++ es) ∧
      (Conforming (pre ++ es) → errorOf (left (pre ++ es)) = none → errorOf (right (pre ++ es)) = none →
        pairs pre ++ valsOf ((zipActualRule i₁ i₂).deliverFrom pre es) = pairs (pre ++ es)) := by
    intro es
    induction es with
    | nil => intro pre; simp [Rule.deliverFrom, valsOf]
    | cons e es ih =>
      intro pre
      have hes : pre ++ e :: es = (pre ++ [e]) ++ es := by simp
      rw [hes]
      simp only [Rule.deliverFrom, valsOf_append]
      rw [show valsOf (E := F) (((zipActualRule i₁ i₂).emits (pre ++ [e])).map .next) =
        newPairs (pre ++ [e]) from emitted_map _, ← List.append_assoc, pairs_step]
      cases ht : (zipActualRule i₁ i₂).ends (pre ++ [e]) with
      | none => exact ih (pre ++ [e])
      | some t =>
        obtain ⟨h1, h2⟩ := zip_ends_closing ht
        simp only [h1, List.append_nil]
        refine ⟨pairs_prefix (List.prefix_append _ _), fun hc e1 e2 => ?_⟩
        have hL : left (pre ++ [e] ++ es) = left (pre ++ [e]) ++ left es :=
          List.filterMap_append
        have hR : right (pre ++ [e] ++ es) = right (pre ++ [e]) ++ right es :=
          List.filterMap_append
        have noerr : ∀ {I E : Type} {a b : List (SubscriberNotification I E)},
            errorOf (a ++ b) = none → errorOf a = none := by
          intro I E a b h
          simp only [errorOf, List.findSome?_append, Option.or_eq_none_iff] at h ⊢
          exact h.1
        obtain ⟨k1, k2⟩ := h2 (by
          rw [anyError, noerr (hL ▸ e1), noerr (hR ▸ e2)]; rfl)
        simp only [pairs, hL, hR]
        obtain ⟨c1, c2⟩ := hc
        rw [hL] at c1
        rw [hR] at c2
        rw [Bool.or_eq_true] at k2
        rcases k2 with k2 | k2
        · rw [vals_after_finished _ c1 k2]
          rw [valsOf_append, ← List.append_nil (valsOf (left (pre ++ [e]))), List.zip_append k1]
          simp
        · rw [vals_after_finished _ c2 k2]
          rw [valsOf_append, ← List.append_nil (valsOf (right (pre ++ [e]))), List.zip_append k1]
          simp
  have := key es []
  simpa [pairs, valsOf, left, right, Rule.deliver] using this

/-- Three values against two, then completion of the shorter input at the right moment. -/
example : observe2 (zipCombiner (A := Nat) (E₁ := Unit) (B := Nat) (E₂ := Unit) {} id id)
      [.o1 (.next 1), .o1 (.next 2), .o2 (.next 10), .o2 (.next 20), .o2 .complete, .o1 (.next 3)] =
    some ([.next (1, 10), .next (2, 20), .complete], true) := by decide +kernel

/-- That history meets the hypotheses of `C34_zip_expected_partial` up to the completion. -/
example : Conforming (A := Nat) (E₁ := Unit) (B := Nat) (E₂ := Unit)
      [.o1 (.next 1), .o2 (.next 10), .o2 .complete] ∧
    NoUnsubscribe (A := Nat) (E₁ := Unit) (B := Nat) (E₂ := Unit)
      [.o1 (.next 1), .o2 (.next 10), .o2 .complete] :=
  ⟨⟨⟨⟨[1], none, false⟩, rfl⟩, ⟨⟨[10], some .complete, false⟩, rfl⟩⟩, rfl, rfl⟩

/-- C34 fails: the second input completes after one value, paired already, while the first is one
ahead; zip should complete, but never does. -/
theorem C34_completion_counterexample :
    let es : List (Either2 Nat Unit Nat Unit) :=
      [.o1 (.next 1), .o1 (.next 2), .o2 (.next 10), .o2 .complete, .o1 (.next 3), .o1 .complete]
    Conforming es ∧ NoUnsubscribe es ∧
    observe2 (zipCombiner (A := Nat) (E₁ := Unit) (B := Nat) (E₂ := Unit) {} id id) es =
      some ([.next (1, 10)], false) ∧
    Rule.deliver (F := Unit) (zipRule id id) es = [.next (1, 10), .complete] :=
  ⟨⟨⟨⟨[1, 2, 3], some .complete, false⟩, rfl⟩, ⟨⟨[10], some .complete, false⟩, rfl⟩⟩, ⟨rfl, rfl⟩,
    by decide +kernel, by decide +kernel⟩

/-! ## C35 -/

/-- C35. combine_latest does what `combineLatestActualRule` says.
Missing: completion of an input that never emitted while the other has not emitted either
(`C35_completion_counterexample`). -/
theorem C35_combine_latest_delivers_partial (i₁ : E₁ → F) (i₂ : E₂ → F) :
    Delivers2 (combineLatestCombiner (A := A) (B := B) i₁ i₂) Conforming (combineLatestActualRule i₁ i₂) :=
  (combineLatest_implements i₁ i₂).delivers2

/-- C35. If no input completes without having emitted before the other has emitted (and inputs are not
unsubscribed on their own), combine_latest does exactly what it should. -/
theorem C35_combine_latest_expected_partial (i₁ : E₁ → F) (i₂ : E₂ → F) :
    Delivers2 (combineLatestCombiner (A := A) (B := B) i₁ i₂)
      (fun es => Conforming es ∧ NoUnsubscribe es ∧ OtherEmitted es) (combineLatestRule i₁ i₂) := by
  intro S α D obs Inv hD s hs es ⟨hc, hu, ho⟩
  have := C35_combine_latest_delivers_partial i₁ i₂ S α D obs Inv hD s hs es hc
  have heq : (combineLatestActualRule i₁ i₂).deliver es = (combineLatestRule i₁ i₂).deliver es := by
    refine deliverFrom_congr (R := combineLatestActualRule i₁ i₂) (R' := combineLatestRule i₁ i₂) rfl es []
      fun p hp => ?_
    rw [List.nil_append] at hp
    have u1 := unsubscribed_prefix (left_prefix hp) hu.1
    have u2 := unsubscribed_prefix (right_prefix hp) hu.2
    obtain ⟨n1, n2⟩ := ho p hp
    simp only [combineLatestActualRule, combineLatestRule]
    cases he : anyError i₁ i₂ p with
    | some e => rfl
    | none =>
      obtain ⟨e1, e2⟩ := anyError_none he
      simp only [hopeless, finished, u1, u2, e1, e2, Option.isSome_none, Bool.or_false]
      cases c1 : completed (left p) <;> cases c2 : completed (right p) <;>
        cases v1 : valsOf (left p) <;> cases v2 : valsOf (right p) <;> simp_all
  rw [heq] at this
  exact this

/-- Values alternate; every value after the first pair emits once; completion with the second input. -/
example : observe2 (combineLatestCombiner (A := Nat) (E₁ := Unit) (B := Nat) (E₂ := Unit) id id)
      [.o1 (.next 1), .o1 (.next 2), .o2 (.next 10), .o1 (.next 3), .o1 .complete, .o2 (.next 20), .o2 .complete] =
    some ([.next (2, 10), .next (3, 10), .next (3, 20), .complete], true) := by decide +kernel

/-- C35 fails: the first input completes without a value; combine_latest should complete, but it
unsubscribes: the observer never hears of it. -/
theorem C35_completion_counterexample :
    let es : List (Either2 Nat Unit Nat Unit) := [.o1 .complete]
    observe2 (combineLatestCombiner (A := Nat) (E₁ := Unit) (B := Nat) (E₂ := Unit) id id) es = some ([], true) ∧
    Rule.deliver (F := Unit) (combineLatestRule id id) es = [.complete] :=
  ⟨by decide +kernel, by decide +kernel⟩

/-- C35 fails: the second input is unsubscribed without ever having emitted; nothing can be emitted any
more, but the combination stays open. -/
theorem C35_unsubscribe_counterexample :
    let es : List (Either2 Nat Unit Nat Unit) := [.o1 (.next 1), .o2 .unsubscribe]
    observe2 (combineLatestCombiner (A := Nat) (E₁ := Unit) (B := Nat) (E₂ := Unit) id id) es = some ([], false) ∧
    Rule.deliver (F := Unit) (combineLatestRule id id) es = [.unsubscribe] :=
  ⟨by decide +kernel, by decide +kernel⟩

/-! ## C36 -/

/-- C36. combine_changes does what `combineChangesRule` says. -/
theorem C36_combine_changes_delivers (i₁ : E₁ → F) (i₂ : E₂ → F) :
    Delivers2 (combineChangesCombiner (A := A) (B := B) i₁ i₂) Conforming (combineChangesRule i₁ i₂) :=
  (combineChanges_implements i₁ i₂).delivers2

example : observe2 (combineChangesCombiner (A := Nat) (E₁ := Unit) (B := Nat) (E₂ := Unit) id id)
      [.o1 (.next 1), .o2 (.next 10), .o1 (.next 3), .o1 .complete, .o2 (.next 20), .o2 .complete] =
    some ([.next (.justUpdated 1, .none), .next (.latest 1, .justUpdated 10),
      .next (.justUpdated 3, .latest 10), .next (.latest 3, .justUpdated 20), .complete], true) := by
  decide +kernel

/-! ## C37 -/

/-- C37. join does what `joinRule` says. -/
theorem C37_join_delivers (i₁ : E₁ → F) (i₂ : E₂ → F) :
    Delivers2 (joinCombiner (A := A) (B := B) i₁ i₂) Conforming (joinRule i₁ i₂) :=
  (join_implements i₁ i₂).delivers2

example : observe2 (joinCombiner (A := Nat) (E₁ := Unit) (B := Nat) (E₂ := Unit) id id)
      [.o1 (.next 1), .o1 (.next 2), .o2 (.next 10), .o1 .complete, .o2 (.next 20), .o2 .complete] =
    some ([.next (2, 20), .complete], true) := by
  decide +kernel

/-- An error arrives after the other input has completed. -/
example : observe2 (joinCombiner (A := Nat) (E₁ := Unit) (B := Nat) (E₂ := Unit) id id)
      [.o1 (.next 1), .o2 (.next 10), .o1 .complete, .o2 (.error ())] =
    some ([.error ()], true) := by
  decide +kernel

/-- C37. join ignores what an input sends against the Rx grammar, whatever the inputs send: no assertion fails, and it does what `joinRule`
says about the rest. -/
theorem C37_join_ignores (i₁ : E₁ → F) (i₂ : E₂ → F) {S α : Type} (D : Sub S (A × B) F) (obs : S → α) (Inv : S → Prop)
    (hD : Lawful D obs Inv true) (s : S) (hs : Inv s) (es : List (Either2 A E₁ B E₂)) :
    ∃ x, (joinCombiner (A := A) (B := B) i₁ i₂).run D ((joinCombiner (A := A) (B := B) i₁ i₂).init, s) es = some x ∧
      obs x.2 = obs (D.run s ((joinRule i₁ i₂).deliver (lawfulFrom [] es))) ∧
      D.isClosed x.2 = D.isClosed (D.run s ((joinRule i₁ i₂).deliver (lawfulFrom [] es))) :=
  join_any i₁ i₂ hD es [] s _ hs ⟨SubscriberState.grammar_nil, SubscriberState.grammar_nil⟩ ⟨.default, .default⟩ rfl

/-- C37. What is left keeps to the grammar, in the same order, and nothing is left out of what does anyway. -/
theorem C37_lawful (es : List (Either2 A E₁ B E₂)) :
    Conforming (lawfulFrom [] es) ∧ (lawfulFrom [] es).Sublist es ∧ (Conforming es → lawfulFrom [] es = es) :=
  lawfulFrom_conforming es [] ⟨SubscriberState.grammar_nil, SubscriberState.grammar_nil⟩

/-- Values after the end, a second end, and a second `unsubscribe` do nothing. -/
example : observe2 (joinCombiner (A := Nat) (E₁ := Unit) (B := Nat) (E₂ := Unit) id id)
      [.o2 (.next 1), .o2 .complete, .o2 (.next 2), .o2 (.error ()), .o2 .unsubscribe, .o2 .unsubscribe, .o1 (.next 5), .o1 .complete] =
    some ([.next (5, 1), .complete], true) := by
  decide +kernel

/-! ## C38 -/

/-- C38. with_latest_from does what `withLatestRule` says. -/
theorem C38_with_latest_from_delivers {S α : Type} (D : Sub S (A × B) F) (obs : S → α) (Inv : S → Prop)
    (hD : Lawful D obs Inv true) (s : S) (hs : Inv s) (es : List (Either2 A F B F)) (hc : Conforming es) :
    obs (withLatestRun D (withLatestInit, s) es).2 = obs (D.run s (withLatestRule.deliver es)) ∧
      D.isClosed (withLatestRun D (withLatestInit, s) es).2 =
        D.isClosed (D.run s (withLatestRule.deliver es)) := by
  obtain ⟨y, h1, h2⟩ := withLatestRun_eq D es (withLatestInit, s)
  obtain ⟨x, k1, k2⟩ := (withLatest_implements (A := A) (B := B) (F := F)).delivers2 S α D obs Inv hD s hs es hc
  have : some y = some x := h1.symm.trans k1
  cases this
  rw [h2]
  exact k2

example : (withLatestRun (observerSubscriber (Nat × Nat) Unit) (withLatestInit, ObsState.new)
      [.o1 (.next 1), .o2 (.next 10), .o2 (.next 20), .o1 (.next 2), .o2 .complete, .o1 (.next 3), .o1 .complete]).2.seen =
    [.next (2, 20), .next (3, 20), .complete] := by decide +kernel

end Rx
