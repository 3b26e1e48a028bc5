import Verif.Lemmas.PublishPassive
import Verif.Spec.CachingSubjects

/-!
# Subjects that remember values
-/

namespace Rx.Publish

variable {S I E : Type}

theorem run_append {R : Dest S I E} {ord : Nat → List Nat → List Nat} {x y : State S I E}
    {a b : List (Op S I E)} (h : run R ord x a = .ok y) : run R ord x (a ++ b) = run R ord y b := by
  unfold run at *
  rw [List.foldlM_append, h]
  rfl

theorem endOf_append (a b : List (Op S I E)) : endOf (a ++ b) = (endOf a).or (endOf b) := by
  simp [endOf, List.filterMap_append, List.find?_append]

/-- What `PublishSubject` knows about how it ended. -/
theorem passive_reason {D : Sub S I E} (hD : Closes (passive D)) {ord : Nat → List Nat → List Nat}
    (hord : ∀ c l, (ord c l).Perm l) {s0 : S} {ops : List (Op S I E)} {x : State S I E}
    (hx : run (passive D) ord (State.init s0) ops = .ok x) :
    x.isClosed = (endOf ops).isSome ∧
      x.observedError.isSome = (match endOf ops with | some (.error _) => true | _ => false) := by
  obtain ⟨x', hx', ⟨c0, hi, -⟩, hf⟩ := passive_run hD hord s0 ops
  rw [hx] at hx'
  obtain rfl := Except.ok.inj hx'
  have hr : reason x = endOf ops := by
    rw [← hi.ended (startsOf ops).length, hf.calls]
    unfold view callsOf
    rw [view_before _ ops 0 (by simp) _ rfl]
    simp
  rw [isClosed_eq hi, hr]
  refine ⟨rfl, ?_⟩
  rw [← hr]
  unfold reason
  cases x.observedError with
  | some e => rfl
  | none => cases x.completed <;> cases x.unsubscribed <;> rfl

/-- Fed any well-formed sequence, the subscriber closes exactly when it is told to. -/
def Exact (D : Sub S I E) (s : S) : Prop := ∀ ns, trunc ns = ns → D.isClosed (D.run s ns) = hasClosing ns

theorem expected_later (a b : List (Op S I E)) (s : S) :
    expected (startsOf a).length (callsOf (a ++ .subscribe s :: b)) =
      Caching.later (startsOf a).length a b := by
  unfold Caching.later
  cases h : endOf a with
  | none => exact expected_open a b s h
  | some n => exact expected_ended a b s h

theorem trunc_later (k : Nat) (a b : List (Op S I E)) :
    trunc (Caching.later k a b) = Caching.later k a b := by
  unfold Caching.later
  cases h : endOf a with
  | none => exact trunc_window k b
  | some n =>
    have hn : n.isClosing = true := by simpa using List.find?_some h
    simp [trunc, hn]

/-- What becomes of a subscriber. -/
theorem passive_dest {D : Sub S I E} (hD : Closes (passive D)) {ord : Nat → List Nat → List Nat}
    (hord : ∀ c l, (ord c l).Perm l) {s0 s : S} (hs : Exact D s) {a b : List (Op S I E)} {x : State S I E}
    (hx : run (passive D) ord (State.init s0) (a ++ .subscribe s :: b) = .ok x) :
    x.dest (startsOf a).length = D.run s (Caching.later (startsOf a).length a b) := by
  obtain ⟨x', hx', ⟨c0, hi, -⟩, hf⟩ := passive_run hD hord s0 (a ++ .subscribe s :: b)
  rw [hx] at hx'
  obtain rfl := Except.ok.inj hx'
  have hst : (startsOf (a ++ .subscribe s :: b))[(startsOf a).length]? = some s := by
    simp [startsOf, Op.subscriber]
  have hlt : (startsOf a).length < x.count := by rw [hf.count]; exact (List.getElem?_eq_some_iff.1 hst).1
  have hd := hf.dest _ _ hst
  rw [hd]
  congr 1
  rw [← expected_later a b s, ← hf.calls]
  have ht : trunc (expected (startsOf a).length x.calls) = expected (startsOf a).length x.calls := by
    rw [hf.calls, expected_later]; exact trunc_later _ _ _
  have hp := hi.pre (startsOf a).length
  cases hc : hasClosing (received (startsOf a).length x) with
  | true => exact prefix_trunc hp hc ht
  | false =>
    have hop : (passive D).isClosed (x.dest (startsOf a).length) = false := by
      show D.isClosed _ = false
      rw [hd, hs _ (hi.grammar _), hc]
    have := (hi.per _ hlt hop (fun h => h)).out
    rw [hf.queue] at this
    simpa [raw, trunc, expected] using this.symm

theorem trunc_nexts (vs : List I) (ns : List (Note I E)) :
    trunc (vs.map .next ++ ns) = vs.map .next ++ trunc ns := by
  induction vs with
  | nil => rfl
  | cons v vs ih =>
    rw [List.map_cons, List.cons_append, List.cons_append, ← ih]
    rfl

theorem Exact.nexts {D : Sub S I E} {s : S} (h : Exact D s) (vs : List I) : Exact D (D.nexts s vs) := by
  intro ns hns
  have h1 : D.run (D.nexts s vs) ns = D.run s (vs.map .next ++ ns) := by
    simp [Sub.run, Sub.nexts, List.foldl_append, List.foldl_map, Sub.push]
  have h2 := trunc_nexts vs ns
  rw [hns] at h2
  rw [h1, h _ h2]
  simp [hasClosing, SubscriberNotification.isClosing, SubscriberNotification.isTerminal]

theorem observer_exact_new (I E : Type) : Exact (observerSubscriber I E) ObsState.new :=
  fun ns hns => (observer_run ns hns _ rfl).2

end Rx.Publish

namespace Rx.Caching

open Rx.Publish (State Fault passive Closes startsOf endOf window Exact passive_run passive_reason passive_dest
  endOf_append)

variable {V S I E : Type}

/-- Whether a subject that ended like this has errored. -/
def errored : Option (SubscriberNotification I E) → Bool
  | some (.error _) => true
  | _ => false

/-! ## The values -/

@[simp] theorem valuesOf_append (a b : List (SubscriberNotification I E)) :
    valuesOf (a ++ b) = valuesOf a ++ valuesOf b := by
  induction a with
  | nil => rfl
  | cons n a ih => cases n <;> simp [valuesOf, ih]

@[simp] theorem values_append (a b : List (Publish.Op S I E)) : values (a ++ b) = values a ++ values b := by
  simp [values]

theorem openValues_of_open {a : List (Publish.Op S I E)} (h : endOf a = none) : openValues a = values a := by
  unfold openValues values
  congr 1
  rw [endOf, List.find?_eq_none] at h
  generalize a.filterMap Publish.Op.sent = ns at h
  induction ns with
  | nil => rfl
  | cons n ns ih =>
    have := h n List.mem_cons_self
    rw [List.takeWhile_cons, if_pos (by simpa using this), ih fun x hx => h x (List.mem_cons_of_mem _ hx)]

theorem write_latest (v0 : I) (vs : List I) : vs.foldl (latest : Memory I I).write v0 = vs.getLast?.getD v0 := by
  induction vs generalizing v0 with
  | nil => rfl
  | cons v vs ih =>
    rw [List.foldl_cons, ih]
    cases vs <;> simp [latest, List.getLast?_cons]

theorem lastN_length (n : Nat) (vs : List I) : (lastN n vs).length = min n vs.length := by
  simp [lastN]; omega

theorem enqueue_lastN {cap : Nat} (hcap : 0 < cap) (vs : List I) (v : I) :
    enqueue cap (lastN cap vs) v = lastN cap (vs ++ [v]) := by
  unfold enqueue
  rw [lastN_length]
  by_cases h : vs.length < cap
  · rw [if_pos (by omega)]
    simp only [lastN, List.length_append, List.length_singleton]
    rw [show vs.length - cap = 0 by omega, show vs.length + 1 - cap = 0 by omega]
    simp
  · rw [if_neg (by omega)]
    simp only [lastN, List.length_append, List.length_singleton, List.drop_drop]
    rw [show vs.length + 1 - cap = vs.length - cap + 1 by omega, List.drop_append_of_le_length (by omega)]

theorem write_ring {cap : Nat} (hcap : 0 < cap) (vs : List I) :
    vs.foldl (ring cap : Memory (List I) I).write [] = lastN cap vs := by
  induction vs using snoc_induction with
  | nil => simp [lastN]
  | snoc vs v ih =>
    rw [List.foldl_append, ih]
    exact enqueue_lastN hcap vs v

/-- `Async.next` on the remembered value. -/
def accumulate (f : I → I → I) (u : Option I) (v : I) : Option I :=
  some (match u with
    | some u => f u v
    | none => v)

theorem foldl_reduction (f : I → I → I) (u : Option I) (vs : List I) :
    vs.foldl (accumulate f) u = reduction f (u.toList ++ vs) := by
  have key : ∀ (vs : List I) (u : I), vs.foldl (accumulate f) (some u) = some (vs.foldl f u) := by
    intro vs
    induction vs with
    | nil => intro u; rfl
    | cons v vs ih => intro u; exact ih _
  cases u with
  | some u => exact key vs u
  | none =>
    cases vs with
    | nil => rfl
    | cons v vs => exact key vs v

/-! ## Behavior and replay subjects -/

section Replaying
variable {M : Memory V I} {D : Sub S I E} {ord : Nat → List Nat → List Nat}

def remember (M : Memory V I) (v : V) : SubscriberNotification I E → V
  | .next u => M.write v u
  | _ => v

/-- What the publish subject inside is asked to do. `v` is remembered and `e` is how it ended so far. -/
def plain (M : Memory V I) (D : Sub S I E) :
    V → Option (SubscriberNotification I E) → List (Publish.Op S I E) → List (Publish.Op S I E)
  | _, _, [] => []
  | v, e, .note n :: ops => .note n :: plain M D (remember M v n) (e.or (endOf [(.note n : Publish.Op S I E)])) ops
  | v, e, .subscribe s :: ops =>
    .subscribe (if errored e then s else D.nexts s (M.read v)) :: plain M D v e ops
  | v, e, .cancel i :: ops => .cancel i :: plain M D v e ops

theorem plain_append (v : V) (e : Option (SubscriberNotification I E)) (a b : List (Publish.Op S I E)) :
    plain M D v e (a ++ b) = plain M D v e a ++ plain M D ((values a).foldl M.write v) (e.or (endOf a)) b := by
  induction a generalizing v e with
  | nil => simp [plain, values, valuesOf, endOf]
  | cons op a ih =>
    cases op with
    | note n =>
      rw [List.cons_append, plain, plain, ih, List.cons_append]
      have h1 : endOf (.note n :: a) = (endOf [(.note n : Publish.Op S I E)]).or (endOf a) :=
        endOf_append [.note n] a
      have h2 : values (.note n :: a) = values [(.note n : Publish.Op S I E)] ++ values a := values_append [.note n] a
      rw [h1, h2, List.foldl_append, Option.or_assoc]
      cases n <;> rfl
    | subscribe s => rw [List.cons_append, plain, plain, ih, List.cons_append]; rfl
    | cancel i => rw [List.cons_append, plain, plain, ih, List.cons_append]; rfl

theorem window_plain (k : Nat) (v : V) (e : Option (SubscriberNotification I E)) (b : List (Publish.Op S I E)) :
    window k (plain M D v e b) = window k b := by
  induction b generalizing v e with
  | nil => rfl
  | cons op b ih => cases op <;> simp [plain, window, ih]

theorem endOf_plain (v : V) (e : Option (SubscriberNotification I E)) (a : List (Publish.Op S I E)) :
    endOf (plain M D v e a) = endOf a := by
  have : (plain M D v e a).filterMap Publish.Op.sent = a.filterMap Publish.Op.sent := by
    induction a generalizing v e with
    | nil => rfl
    | cons op a ih =>
      cases op with
      | note n => simp [plain, Publish.Op.sent, ih]
      | subscribe s => exact ih v e
      | cancel i => exact ih v e
  simp [endOf, this]

theorem startsOf_plain (v : V) (e : Option (SubscriberNotification I E)) (a : List (Publish.Op S I E)) :
    (startsOf (plain M D v e a)).length = (startsOf a).length := by
  induction a generalizing v e with
  | nil => rfl
  | cons op a ih => cases op <;> simp [plain, ih]

theorem later_plain (k : Nat) (v v' : V) (e e' : Option (SubscriberNotification I E))
    (a b : List (Publish.Op S I E)) : later k (plain M D v e a) (plain M D v' e' b) = later k a b := by
  unfold later
  rw [endOf_plain, window_plain]

theorem replay_none (w : Wrapped V S I E) (s : S) :
    replay M D ord noAnswer w s =
      .ok (w, if w.subject.observedError.isSome then s else D.nexts s (M.read w.memory)) := by
  unfold replay
  split
  · rfl
  · have : ∀ (vs : List I) (s : S), vs.foldlM (replayOne M D ord noAnswer) (w, s) = .ok (w, D.nexts s vs) := by
      intro vs
      induction vs with
      | nil => intro s; rfl
      | cons v vs ih => intro s; exact ih _
    exact this _ _

theorem run_plain (hD : Closes (passive D)) (hord : ∀ c l, (ord c l).Perm l) {s0 : S}
    (ops : List (Publish.Op S I E)) (pre : List (Publish.Op S I E)) (w : Wrapped V S I E)
    (hw : Publish.run (passive D) ord (State.init s0) pre = .ok w.subject) :
    ∃ y, run M D ord noAnswer w ops = .ok y ∧
      Publish.run (passive D) ord (State.init s0) (pre ++ plain M D w.memory (endOf pre) ops) = .ok y.subject := by
  induction ops generalizing pre w with
  | nil => exact ⟨w, rfl, by simpa [plain] using hw⟩
  | cons op ops ih =>
    have stepOk : ∀ op' : Publish.Op S I E, ∃ x, Publish.step (passive D) ord w.subject op' = .ok x ∧
        Publish.run (passive D) ord (State.init s0) (pre ++ [op']) = .ok x := by
      intro op'
      obtain ⟨x, hx, -⟩ := passive_run hD hord s0 (pre ++ [op'])
      refine ⟨x, ?_, hx⟩
      rw [Publish.run_append hw, Publish.run_cons] at hx
      cases hs : Publish.step (passive D) ord w.subject op' with
      | error f => rw [hs] at hx; cases hx
      | ok z => rw [hs] at hx; exact hx
    have hcons : run M D ord noAnswer w (op :: ops) = (step M D ord noAnswer w op >>= fun w => run M D ord noAnswer w ops) := by
      simp [run, List.foldlM_cons]
    rw [hcons]
    cases op with
    | note n =>
      obtain ⟨x, hx, hr⟩ := stepOk (.note n)
      obtain ⟨y, hy, h1⟩ := ih (pre ++ [.note n]) ⟨x, remember M w.memory n⟩ hr
      refine ⟨y, ?_, ?_⟩
      · have : step M D ord noAnswer w (.note n) = .ok ⟨x, remember M w.memory n⟩ := by
          have hx' : w.subject.note (passive D) ord n = .ok x := hx
          simp only [step, note, hx']
          cases n <;> rfl
        rw [this]; exact hy
      · rw [endOf_append, List.append_assoc] at h1
        exact h1
    | subscribe s =>
      obtain ⟨x, hx, hr⟩ := stepOk (.subscribe (if errored (endOf pre) then s else D.nexts s (M.read w.memory)))
      obtain ⟨y, hy, h1⟩ := ih _ ⟨x, w.memory⟩ hr
      refine ⟨y, ?_, ?_⟩
      · have : step M D ord noAnswer w (.subscribe s) = .ok ⟨x, w.memory⟩ := by
          have hx' : w.subject.subscribe (passive D) ord
            (if errored (endOf pre) then s else D.nexts s (M.read w.memory)) = .ok x := hx
          have he : w.subject.observedError.isSome = errored (endOf pre) := by
            rw [(passive_reason hD hord hw).2]
            unfold errored
            split <;> rfl
          simp only [step, subscribe, replay_none, he, bind, Except.bind, hx']
          rfl
        rw [this]; exact hy
      · rw [endOf_append, List.append_assoc] at h1
        simpa [plain, endOf, Publish.Op.sent] using h1
    | cancel i =>
      obtain ⟨x, hx, hr⟩ := stepOk (.cancel i)
      obtain ⟨y, hy, h1⟩ := ih _ ⟨x, w.memory⟩ hr
      refine ⟨y, ?_, ?_⟩
      · have : step M D ord noAnswer w (.cancel i) = .ok ⟨x, w.memory⟩ := by
          have hx' : w.subject.cancel (passive D) ord i = .ok x := hx
          simp only [step, cancel, hx']
          rfl
        rw [this]; exact hy
      · rw [endOf_append, List.append_assoc] at h1
        simpa [plain, endOf, Publish.Op.sent] using h1

/-- What becomes of a subscriber of a behavior or replay subject. -/
theorem replaying_dest (hD : Closes (passive D)) (hord : ∀ c l, (ord c l).Perm l) {s0 s : S} (hs : Exact D s)
    (v0 : V) (a b : List (Publish.Op S I E)) :
    ∃ y, run M D ord noAnswer ⟨State.init s0, v0⟩ (a ++ .subscribe s :: b) = .ok y ∧
      y.subject.dest (startsOf a).length =
        D.run s ((if errored (endOf a) then [] else (M.read ((values a).foldl M.write v0)).map .next) ++
          later (startsOf a).length a b) := by
  obtain ⟨y, hy, h1⟩ := run_plain (M := M) hD hord (a ++ .subscribe s :: b) [] ⟨State.init s0, v0⟩ rfl
  refine ⟨y, hy, ?_⟩
  rw [List.nil_append, plain_append, plain] at h1
  have hs' : Exact D (if errored ((endOf ([] : List (Publish.Op S I E))).or (endOf a)) = true then s
      else D.nexts s (M.read ((values a).foldl M.write v0))) := by
    split
    · exact hs
    · exact hs.nexts _
  have := passive_dest hD hord hs' h1
  rw [startsOf_plain] at this
  rw [this]
  rw [later_plain]
  have he : (endOf ([] : List (Publish.Op S I E))).or (endOf a) = endOf a := rfl
  rw [he]
  split
  · rfl
  · simp [Sub.run, Sub.nexts, List.foldl_append, List.foldl_map, Sub.push]

end Replaying

/-! ## Async subjects -/

section Async
variable {f : I → I → I} {D : Sub S I E} {ord : Nat → List Nat → List Nat}

/-- A late subscriber gets the remembered value unless the subject errored. -/
def given (v : Option I) : Option (SubscriberNotification I E) → List I
  | some (.error _) => []
  | some _ => v.toList
  | none => []

/-- What the publish subject inside is asked to do. -/
def plainA (f : I → I → I) (D : Sub S I E) :
    Option I → Option (SubscriberNotification I E) → List (Publish.Op S I E) → List (Publish.Op S I E)
  | _, _, [] => []
  | v, e, .note (.next u) :: ops => plainA f D (accumulate f v u) e ops
  | v, e, .note .complete :: ops =>
    v.toList.map (fun u => .note (.next u)) ++ .note .complete :: plainA f D v (e.or (some .complete)) ops
  | v, e, .note (.error x) :: ops => .note (.error x) :: plainA f D v (e.or (some (.error x))) ops
  | v, e, .note .unsubscribe :: ops => .note .unsubscribe :: plainA f D v (e.or (some .unsubscribe)) ops
  | v, e, .subscribe s :: ops => .subscribe (D.nexts s (given v e)) :: plainA f D v e ops
  | v, e, .cancel i :: ops => .cancel i :: plainA f D v e ops

theorem endOf_cons (n : SubscriberNotification I E) (ops : List (Publish.Op S I E)) :
    endOf (.note n :: ops) = if n.isClosing then some n else endOf ops := by
  by_cases h : n.isClosing = true <;> simp [endOf, Publish.Op.sent, h]

theorem plainA_append (v : Option I) (e : Option (SubscriberNotification I E)) (a b : List (Publish.Op S I E)) :
    plainA f D v e (a ++ b) =
      plainA f D v e a ++ plainA f D ((values a).foldl (accumulate f) v) (e.or (endOf a)) b := by
  induction a generalizing v e with
  | nil => simp [plainA, values, valuesOf, endOf]
  | cons op a ih =>
    cases op with
    | note n =>
      cases n with
      | next u => rw [List.cons_append, plainA, plainA, ih]; rfl
      | complete =>
        rw [List.cons_append, plainA, plainA, ih, Option.or_assoc, endOf_cons]
        simp [SubscriberNotification.isClosing, SubscriberNotification.isTerminal]
        rfl
      | error x =>
        rw [List.cons_append, plainA, plainA, ih, Option.or_assoc, endOf_cons]
        simp [SubscriberNotification.isClosing, SubscriberNotification.isTerminal]
        rfl
      | unsubscribe =>
        rw [List.cons_append, plainA, plainA, ih, Option.or_assoc, endOf_cons]
        simp [SubscriberNotification.isClosing, SubscriberNotification.isTerminal]
        rfl
    | subscribe s => rw [List.cons_append, plainA, plainA, ih, List.cons_append]; rfl
    | cancel i => rw [List.cons_append, plainA, plainA, ih, List.cons_append]; rfl

theorem endOf_plainA (v : Option I) (e : Option (SubscriberNotification I E)) (a : List (Publish.Op S I E)) :
    endOf (plainA f D v e a) = endOf a := by
  induction a generalizing v e with
  | nil => rfl
  | cons op a ih =>
    cases op with
    | note n =>
      cases n with
      | next u =>
        rw [plainA, ih, endOf_cons]
        simp [SubscriberNotification.isClosing, SubscriberNotification.isTerminal]
      | complete =>
        rw [plainA, endOf_cons]
        cases v with
        | none => exact endOf_cons _ _
        | some u =>
          simp only [Option.toList, List.map_cons, List.map_nil, List.cons_append, List.nil_append]
          rw [endOf_cons, endOf_cons]
          simp [SubscriberNotification.isClosing, SubscriberNotification.isTerminal]
      | error x => rw [plainA, endOf_cons, endOf_cons]; rfl
      | unsubscribe => rw [plainA, endOf_cons, endOf_cons]; rfl
    | subscribe s => exact ih v e
    | cancel i => exact ih v e

theorem startsOf_plainA (v : Option I) (e : Option (SubscriberNotification I E)) (a : List (Publish.Op S I E)) :
    (startsOf (plainA f D v e a)).length = (startsOf a).length := by
  induction a generalizing v e with
  | nil => rfl
  | cons op a ih =>
    cases op with
    | note n =>
      cases n with
      | next u => exact ih _ _
      | complete => cases v <;> simp [plainA, ih]
      | error x => exact ih _ _
      | unsubscribe => exact ih _ _
    | subscribe s => simp [plainA, ih]
    | cancel i => exact ih v e

/-- What is sent to a subscriber of an async subject, from what is sent to the subject in the meantime. -/
def released (f : I → I → I) (v : Option I) (ns : List (SubscriberNotification I E)) :
    List (SubscriberNotification I E) :=
  match ns.find? (·.isClosing) with
  | none => []
  | some .complete => ((valuesOf ns).foldl (accumulate f) v).toList.map .next ++ [.complete]
  | some n => [n]

theorem released_next (v : Option I) (u : I) (ns : List (SubscriberNotification I E)) :
    released f v (.next u :: ns) = released f (accumulate f v u) ns := by
  unfold released
  rw [List.find?_cons_of_neg (by simp [SubscriberNotification.isClosing, SubscriberNotification.isTerminal])]
  rfl

theorem window_plainA (k : Nat) (v : Option I) (e : Option (SubscriberNotification I E))
    (b : List (Publish.Op S I E)) : window k (plainA f D v e b) = released f v (window k b) := by
  induction b generalizing v e with
  | nil => rfl
  | cons op b ih =>
    cases op with
    | note n =>
      cases n with
      | next u =>
        rw [plainA, ih, window, if_neg (by simp [SubscriberNotification.isClosing, SubscriberNotification.isTerminal]),
          released_next]
      | complete => cases v <;> rfl
      | error x => rfl
      | unsubscribe => rfl
    | subscribe s => exact ih v e
    | cancel i =>
      rw [plainA, window, window]
      split
      · rfl
      · exact ih v e

theorem runA_plain (hD : Closes (passive D)) (hord : ∀ c l, (ord c l).Perm l) {s0 : S}
    (ops : List (Publish.Op S I E)) (pre : List (Publish.Op S I E)) (w : Wrapped (Option I) S I E)
    (hw : Publish.run (passive D) ord (State.init s0) pre = .ok w.subject) :
    ∃ y, Async.run f D ord w ops = .ok y ∧
      Publish.run (passive D) ord (State.init s0) (pre ++ plainA f D w.memory (endOf pre) ops) = .ok y.subject := by
  have stepOk : ∀ (pre : List (Publish.Op S I E)) (z : State S I E),
      Publish.run (passive D) ord (State.init s0) pre = .ok z → ∀ op' : Publish.Op S I E,
      ∃ x, Publish.step (passive D) ord z op' = .ok x ∧
        Publish.run (passive D) ord (State.init s0) (pre ++ [op']) = .ok x := by
    intro pre z hz op'
    obtain ⟨x, hx, -⟩ := passive_run hD hord s0 (pre ++ [op'])
    refine ⟨x, ?_, hx⟩
    rw [Publish.run_append hz, Publish.run_cons] at hx
    cases hs : Publish.step (passive D) ord z op' with
    | error f => rw [hs] at hx; cases hx
    | ok z => rw [hs] at hx; exact hx
  induction ops generalizing pre w with
  | nil => exact ⟨w, rfl, by simpa [plainA] using hw⟩
  | cons op ops ih =>
    have hcons : Async.run f D ord w (op :: ops) = (Async.step f D ord w op >>= fun w => Async.run f D ord w ops) := by
      simp [Async.run, List.foldlM_cons]
    rw [hcons]
    cases op with
    | note n =>
      cases n with
      | next u =>
        obtain ⟨y, hy, h1⟩ := ih pre (Async.next f w u) hw
        exact ⟨y, hy, h1⟩
      | complete =>
        have key : ∃ x, Async.release D ord w = .ok x ∧ Publish.run (passive D) ord (State.init s0)
            (pre ++ w.memory.toList.map (fun u => .note (.next u))) = .ok x := by
          unfold Async.release
          cases w.memory with
          | none => exact ⟨_, rfl, by simpa using hw⟩
          | some u =>
            obtain ⟨x, hx, hr⟩ := stepOk pre _ hw (.note (.next u))
            exact ⟨x, hx, hr⟩
        obtain ⟨z, hz, hzr⟩ := key
        obtain ⟨x, hx, hr⟩ := stepOk _ _ hzr (.note .complete)
        obtain ⟨y, hy, h1⟩ := ih _ ⟨x, w.memory⟩ hr
        refine ⟨y, ?_, ?_⟩
        · have : Async.step f D ord w (.note .complete) = .ok ⟨x, w.memory⟩ := by
            have hx' : z.note (passive D) ord .complete = .ok x := hx
            simp only [Async.step, Async.complete, hz, hx', bind, Except.bind, pure, Except.pure]
          rw [this]; exact hy
        · have he : endOf (w.memory.toList.map (fun u => (.note (.next u) : Publish.Op S I E))) = none := by
            cases w.memory <;> rfl
          rw [endOf_append, endOf_append, he, Option.or_none] at h1
          rw [plainA]
          simpa [endOf, Publish.Op.sent, SubscriberNotification.isClosing,
            SubscriberNotification.isTerminal] using h1
      | error x' =>
        obtain ⟨x, hx, hr⟩ := stepOk _ _ hw (.note (.error x'))
        obtain ⟨y, hy, h1⟩ := ih _ ⟨x, w.memory⟩ hr
        refine ⟨y, ?_, ?_⟩
        · have : Async.step f D ord w (.note (.error x')) = .ok ⟨x, w.memory⟩ := by
            have hx'' : w.subject.note (passive D) ord (.error x') = .ok x := hx
            simp only [Async.step, Async.pass, hx'', bind, Except.bind, pure, Except.pure]
          rw [this]; exact hy
        · rw [endOf_append] at h1
          rw [plainA]
          simpa [endOf, Publish.Op.sent, SubscriberNotification.isClosing,
            SubscriberNotification.isTerminal] using h1
      | unsubscribe =>
        obtain ⟨x, hx, hr⟩ := stepOk _ _ hw (.note .unsubscribe)
        obtain ⟨y, hy, h1⟩ := ih _ ⟨x, w.memory⟩ hr
        refine ⟨y, ?_, ?_⟩
        · have : Async.step f D ord w (.note .unsubscribe) = .ok ⟨x, w.memory⟩ := by
            have hx'' : w.subject.note (passive D) ord .unsubscribe = .ok x := hx
            simp only [Async.step, Async.pass, hx'', bind, Except.bind, pure, Except.pure]
          rw [this]; exact hy
        · rw [endOf_append] at h1
          rw [plainA]
          simpa [endOf, Publish.Op.sent, SubscriberNotification.isClosing,
            SubscriberNotification.isTerminal] using h1
    | subscribe s =>
      obtain ⟨x, hx, hr⟩ := stepOk _ _ hw (.subscribe (D.nexts s (given w.memory (endOf pre))))
      obtain ⟨y, hy, h1⟩ := ih _ ⟨x, w.memory⟩ hr
      refine ⟨y, ?_, ?_⟩
      · have : Async.step f D ord w (.subscribe s) = .ok ⟨x, w.memory⟩ := by
          have hx' : w.subject.subscribe (passive D) ord (D.nexts s (given w.memory (endOf pre))) = .ok x := hx
          have he : Async.replay D w s = D.nexts s (given w.memory (endOf pre)) := by
            obtain ⟨h2, h3⟩ := passive_reason hD hord hw
            unfold Async.replay
            rw [h2, h3]
            cases endOf pre with
            | none => rfl
            | some n => cases n <;> cases w.memory <;> rfl
          simp only [Async.step, Async.subscribe, he, hx', bind, Except.bind, pure, Except.pure]
        rw [this]; exact hy
      · rw [endOf_append, List.append_assoc] at h1
        simpa [plainA, endOf, Publish.Op.sent] using h1
    | cancel i =>
      obtain ⟨x, hx, hr⟩ := stepOk _ _ hw (.cancel i)
      obtain ⟨y, hy, h1⟩ := ih _ ⟨x, w.memory⟩ hr
      refine ⟨y, ?_, ?_⟩
      · have : Async.step f D ord w (.cancel i) = .ok ⟨x, w.memory⟩ := by
          have hx' : w.subject.cancel (passive D) ord i = .ok x := hx
          simp only [Async.step, cancel, hx', bind, Except.bind, pure, Except.pure]
        rw [this]; exact hy
      · rw [endOf_append, List.append_assoc] at h1
        simpa [plainA, endOf, Publish.Op.sent] using h1

/-- What becomes of a subscriber of an async subject. -/
theorem async_dest (hD : Closes (passive D)) (hord : ∀ c l, (ord c l).Perm l) {s0 s : S} (hs : Exact D s)
    (a b : List (Publish.Op S I E)) :
    ∃ y, Async.run f D ord ⟨State.init s0, none⟩ (a ++ .subscribe s :: b) = .ok y ∧
      y.subject.dest (startsOf a).length =
        D.run s (match endOf a with
          | none => released f (reduction f (values a)) (window (startsOf a).length b)
          | some n => (given (reduction f (values a)) (some n)).map .next ++ [n]) := by
  obtain ⟨y, hy, h1⟩ := runA_plain (f := f) hD hord (a ++ .subscribe s :: b) [] ⟨State.init s0, none⟩ rfl
  refine ⟨y, hy, ?_⟩
  rw [List.nil_append, plainA_append, plainA] at h1
  have := passive_dest hD hord (hs.nexts _) h1
  rw [startsOf_plainA] at this
  rw [this]
  have he : (endOf ([] : List (Publish.Op S I E))).or (endOf a) = endOf a := rfl
  rw [he]
  have hr : (values a).foldl (accumulate f) none = reduction f (values a) := foldl_reduction f none _
  unfold later
  rw [endOf_plainA]
  cases hea : endOf a with
  | none =>
    simp only
    rw [window_plainA, hr]
    rfl
  | some n =>
    simp only
    rw [hr]
    simp [Sub.run, Sub.nexts, List.foldl_append, List.foldl_map, Sub.push]

end Async

end Rx.Caching

/-! ## Provenance -/

namespace Rx.Caching.Provenance

open Rx.Publish (passive Closes Exact trunc hasClosing asObserved)

variable {P I E S O : Type} [DecidableEq P]

theorem mixed_run {ι : Type} {T : ι → Type} (D : (i : ι) → Sub (T i) I E) (i : ι) (s : T i)
    (ns : List (SubscriberNotification I E)) : (mixed D).run ⟨i, s⟩ ns = ⟨i, (D i).run s ns⟩ := by
  induction ns generalizing s with
  | nil => rfl
  | cons n ns ih => cases n <;> exact ih _

def mapNote (f : I → O) : SubscriberNotification I E → SubscriberNotification O E
  | .next v => .next (f v)
  | .error e => .error e
  | .complete => .complete
  | .unsubscribe => .unsubscribe

theorem map_run (D : Sub S O E) (f : I → O) (s : S) (ns : List (SubscriberNotification I E)) :
    ((mapOp f).sub D).run ((), s) ns = ((), D.run s (ns.map (mapNote f))) := by
  induction ns generalizing s with
  | nil => rfl
  | cons n ns ih => cases n <;> exact ih _

/-- What passes a filter. -/
def passing (p : I → Nat → Bool) : Nat → List (SubscriberNotification I E) → List (SubscriberNotification I E)
  | _, [] => []
  | i, .next v :: ns => if p v i then .next v :: passing p (satSucc i) ns else passing p (satSucc i) ns
  | i, .error e :: ns => .error e :: passing p i ns
  | i, .complete :: ns => .complete :: passing p i ns
  | i, .unsubscribe :: ns => .unsubscribe :: passing p i ns

theorem filter_run (D : Sub S I E) (p : I → Nat → Bool) (i : Nat) (s : S) (ns : List (SubscriberNotification I E)) :
    (((filterOp p).sub D).run (i, s) ns).2 = D.run s (passing p i ns) := by
  induction ns generalizing i s with
  | nil => rfl
  | cons n ns ih =>
    cases n with
    | next v =>
      have : ((filterOp p).sub D).run (i, s) (.next v :: ns) =
        ((filterOp p).sub D).run (satSucc i, if p v i then D.next s v else s) ns := rfl
      rw [this, ih, passing]
      split <;> rfl
    | error e => exact ih _ _
    | complete => exact ih _ _
    | unsubscribe => exact ih _ _

theorem mapNote_closing (f : I → O) (n : SubscriberNotification I E) : (mapNote f n).isClosing = n.isClosing := by
  cases n <;> rfl

theorem trunc_map (f : I → O) {ns : List (SubscriberNotification I E)} (h : trunc ns = ns) :
    trunc (ns.map (mapNote f)) = ns.map (mapNote f) ∧ hasClosing (ns.map (mapNote f)) = hasClosing ns := by
  refine ⟨?_, by simp [hasClosing, mapNote_closing, Function.comp_def]⟩
  induction ns with
  | nil => rfl
  | cons n ns ih =>
    simp only [List.map_cons, trunc, mapNote_closing]
    simp only [trunc] at h
    by_cases hn : n.isClosing = true
    · rw [if_pos hn] at h ⊢
      rw [← (List.cons.inj h).2]; rfl
    · rw [if_neg hn] at h ⊢
      rw [ih (List.cons.inj h).2]

theorem trunc_passing (p : I → Nat → Bool) (i : Nat) {ns : List (SubscriberNotification I E)} (h : trunc ns = ns) :
    trunc (passing p i ns) = passing p i ns ∧ hasClosing (passing p i ns) = hasClosing ns := by
  induction ns generalizing i with
  | nil => exact ⟨rfl, rfl⟩
  | cons n ns ih =>
    cases n with
    | next v =>
      have h' : trunc ns = ns := (List.cons.inj h).2
      obtain ⟨h1, h2⟩ := ih (satSucc i) h'
      rw [passing]
      split
      · refine ⟨?_, ?_⟩
        · show SubscriberNotification.next v :: trunc (passing p (satSucc i) ns) = _
          rw [h1]
        · simp only [hasClosing, List.any_cons] at h2 ⊢
          rw [h2]
      · refine ⟨h1, ?_⟩
        rw [h2]
        simp [hasClosing, SubscriberNotification.isClosing, SubscriberNotification.isTerminal]
    | error e =>
      have : ns = [] := (List.cons.inj h).2.symm
      subst this
      exact ⟨rfl, rfl⟩
    | complete =>
      have : ns = [] := (List.cons.inj h).2.symm
      subst this
      exact ⟨rfl, rfl⟩
    | unsubscribe =>
      have : ns = [] := (List.cons.inj h).2.symm
      subst this
      exact ⟨rfl, rfl⟩

/-- Everything that is subscribed to the behavior subject. -/
def subscribers (P I E : Type) [DecidableEq P] :
    Sub ((k : Kind P) × (pipe I E k).St (ObsState (Out P I k) E)) (I × P) E :=
  mixed fun k => (pipe I E k).sub (observerSubscriber (Out P I k) E)

/-- A new observer. -/
def start (I E : Type) (k : Kind P) : (k : Kind P) × (pipe I E k).St (ObsState (Out P I k) E) :=
  ⟨k, (pipe I E k).init (observerSubscriber (Out P I k) E) .new⟩

theorem subscribers_closes (P I E : Type) [DecidableEq P] : Closes (passive (subscribers P I E)) := by
  rintro ⟨k, s⟩ n hn
  have ho : ∀ (J : Type) (s : ObsState J E) (n : SubscriberNotification J E), n.isClosing = true →
      (observerSubscriber J E).isClosed ((observerSubscriber J E).push s n) = true :=
    fun J s n hn => Publish.observer_closes J E s n hn
  show (subscribers P I E).isClosed ((subscribers P I E).push ⟨k, s⟩ n) = true
  cases n with
  | next v => cases hn
  | error e =>
    cases k with
    | direct => exact ho _ s (.error e) rfl
    | all => exact ho _ s.2 (.error e) rfl
    | only p => exact ho _ s.2.2 (.error e) rfl
    | replayThen p => exact ho _ s.2.2 (.error e) rfl
  | complete =>
    cases k with
    | direct => exact ho _ s .complete rfl
    | all => exact ho _ s.2 .complete rfl
    | only p => exact ho _ s.2.2 .complete rfl
    | replayThen p => exact ho _ s.2.2 .complete rfl
  | unsubscribe =>
    cases k with
    | direct => exact ho _ s .unsubscribe rfl
    | all => exact ho _ s.2 .unsubscribe rfl
    | only p => exact ho _ s.2.2 .unsubscribe rfl
    | replayThen p => exact ho _ s.2.2 .unsubscribe rfl

/-- What gets through. -/
def through (ns : List (SubscriberNotification (I × P) E)) :
    (k : Kind P) → List (SubscriberNotification (Out P I k) E)
  | .direct => ns
  | .all => ns.map (mapNote strip)
  | .only p => (passing (byProvenance p) 0 ns).map (mapNote strip)
  | .replayThen p => (passing (alwaysReplay p) 0 ns).map (mapNote strip)

theorem through_run (k : Kind P) (ns : List (SubscriberNotification (I × P) E)) :
    ∃ t, (subscribers P I E).run (start I E k) ns = ⟨k, t⟩ ∧
      (pipe I E k).bottom t = (observerSubscriber (Out P I k) E).run .new (through ns k) ∧
      (subscribers P I E).isClosed ⟨k, t⟩ = (observerSubscriber (Out P I k) E).isClosed ((pipe I E k).bottom t) := by
  refine ⟨_, mixed_run _ _ _ _, ?_, ?_⟩
  · cases k with
    | direct => rfl
    | all =>
      exact congrArg Prod.snd (map_run (observerSubscriber I E) strip .new ns)
    | only p =>
      have h1 := filter_run ((mapOp strip).sub (observerSubscriber I E)) (byProvenance p) 0 ((), .new) ns
      rw [map_run] at h1
      exact congrArg Prod.snd h1
    | replayThen p =>
      have h1 := filter_run ((mapOp strip).sub (observerSubscriber I E)) (alwaysReplay p) 0 ((), .new) ns
      rw [map_run] at h1
      exact congrArg Prod.snd h1
  · cases k <;> rfl

theorem trunc_through {ns : List (SubscriberNotification (I × P) E)} (h : trunc ns = ns) (k : Kind P) :
    trunc (through ns k) = through ns k ∧ hasClosing (through ns k) = hasClosing ns := by
  cases k with
  | direct => exact ⟨h, rfl⟩
  | all => exact trunc_map strip h
  | only p =>
    obtain ⟨h1, h2⟩ := trunc_passing (byProvenance p) 0 h
    obtain ⟨h3, h4⟩ := trunc_map strip h1
    exact ⟨h3, h4.trans h2⟩
  | replayThen p =>
    obtain ⟨h1, h2⟩ := trunc_passing (alwaysReplay p) 0 h
    obtain ⟨h3, h4⟩ := trunc_map strip h1
    exact ⟨h3, h4.trans h2⟩

theorem start_exact (k : Kind P) : Exact (subscribers P I E) (start I E k) := by
  intro ns hns
  obtain ⟨t, h1, h2, h3⟩ := through_run k ns
  rw [h1, h3, h2]
  obtain ⟨h4, h5⟩ := trunc_through hns k
  exact (Publish.observer_exact_new _ _ _ h4).trans h5

omit [DecidableEq P] in
theorem mapNote_strip : (mapNote (strip (I := I) (P := P)) : SubscriberNotification (I × P) E → _) = stripped := by
  funext n; cases n <;> rfl

theorem passing_by (p : P) (i : Nat) (ns : List (SubscriberNotification (I × P) E)) :
    passing (byProvenance p) i ns = ns.filter (isFrom p) := by
  induction ns generalizing i with
  | nil => rfl
  | cons n ns ih =>
    cases n with
    | next v =>
      rw [passing, ih]
      by_cases h : v.2 = p <;> simp [byProvenance, isFrom, h]
    | error e => rw [passing, ih, List.filter_cons_of_pos rfl]
    | complete => rw [passing, ih, List.filter_cons_of_pos rfl]
    | unsubscribe => rw [passing, ih, List.filter_cons_of_pos rfl]

theorem passing_replay (p : P) (i : Nat) (hi : 0 < i) (ns : List (SubscriberNotification (I × P) E)) :
    passing (alwaysReplay p) i ns = ns.filter (isFrom p) := by
  induction ns generalizing i with
  | nil => rfl
  | cons n ns ih =>
    cases n with
    | next v =>
      have h0 : 0 < satSucc i := by
        unfold satSucc usizeMax; omega
      rw [passing, ih _ h0]
      have h1 : i ≠ 0 := by omega
      by_cases h : v.2 = p <;> simp [alwaysReplay, isFrom, h, h1]
    | error e => rw [passing, ih _ hi, List.filter_cons_of_pos rfl]
    | complete => rw [passing, ih _ hi, List.filter_cons_of_pos rfl]
    | unsubscribe => rw [passing, ih _ hi, List.filter_cons_of_pos rfl]

/-- What gets through is what is wanted. -/
theorem through_wanted (r : Option (I × P)) (ns : List (SubscriberNotification (I × P) E))
    (h : r = none → valuesOf ns = []) (k : Kind P) :
    (through (r.toList.map SubscriberNotification.next ++ ns) k).filterMap asObserved = wanted r ns k := by
  cases k with
  | direct => rfl
  | all => simp only [through, wanted, mapNote_strip]; rfl
  | only p => simp only [through, wanted, mapNote_strip, passing_by]; rfl
  | replayThen p =>
    simp only [through, wanted, mapNote_strip]
    congr 2
    cases r with
    | some v =>
      simp only [Option.toList, List.map_cons, List.map_nil, List.cons_append, List.nil_append, passing, alwaysReplay]
      rw [show satSucc 0 = 1 from rfl, passing_replay p 1 (by omega)]
      rfl
    | none =>
      simp only [Option.toList, List.map_nil, List.nil_append]
      replace h := h rfl
      induction ns with
      | nil => rfl
      | cons n ns ih =>
        cases n with
        | next v => cases h
        | error e => rw [passing, ih h, List.filter_cons_of_pos rfl]
        | complete => rw [passing, ih h, List.filter_cons_of_pos rfl]
        | unsubscribe => rw [passing, ih h, List.filter_cons_of_pos rfl]

end Rx.Caching.Provenance
