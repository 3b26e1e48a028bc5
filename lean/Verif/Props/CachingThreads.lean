import Verif.Lemmas.SubjectThreadsExact
import Verif.Lemmas.CachingSubjects
import Verif.Props.SubjectThreads

/-!
# C73: behavior and replay subjects used by several threads

`Keeping.run M D debug (Keeping.init m s) l` is the state after the schedule `l` of any number of threads that share
a subject that remembers values with `M`: `Caching.latest` is the behavior subject, `Caching.ring cap` the replay
subject. Subscriber `i` is the one that call `i` of the publish subject inside, a call of `subscribe`, brought along;
that call begins when the remembered values are copied.
-/

namespace Rx

open Keeping
open Closing (Dest)
open Caching (Memory)

variable {V S I E : Type} {M : Memory V I} {D : Dest S I E} {debug : Bool}

/-- C73. A subscriber is called one call at a time: its state is what the calls made on it make of it. -/
theorem C73_one_at_a_time (hD : D.Contract) (m : V) (s : Nat → S) (l : List (Nat × Keeping.Turn I E)) (i : Nat) :
    (Keeping.run M D debug (Keeping.init m s) l).core.dests i =
      (heardBy i (Keeping.run M D debug (Keeping.init m s) l).trace).foldl D.push (s i) := by
  have h := run_good (M := M) (debug := debug) hD m s l
  rw [h.heard, List.foldl_append, List.foldl_map, h.inner]
  exact (h.inv hD).heard.dests i

/-- C73. It behaves as a publish subject does (C70, C71), to which the subscribers were subscribed after they were
given the remembered values. -/
theorem C73_publishes (hD : D.Contract) (m : V) (s : Nat → S) (l : List (Nat × Keeping.Turn I E)) :
    ∃ s' l', (∀ i, s' i =
        ((replaysTo i (Keeping.run M D debug (Keeping.init m s) l).trace).map .next).foldl D.push (s i)) ∧
      (Keeping.run M D debug (Keeping.init m s) l).core = Crowd.run D debug (Crowd.init s') l' ∧
      inner (Keeping.run M D debug (Keeping.init m s) l).trace = (Crowd.run D debug (Crowd.init s') l').trace := by
  have h := run_good (M := M) (debug := debug) hD m s l
  obtain ⟨l', e⟩ := h.follows
  exact ⟨_, l', fun i => by rw [List.foldl_map]; rfl, e, by rw [h.inner, ← e]⟩

/-- C73. Every call counts: whatever a thread that is not inside a call calls, whatever state the subject is in, is a
call that the theorems below are about; `subscribe` shows when it begins (`enter`), and again, at once or with the
thread's next turn (`C73_subscribe_goes_on`), when it has copied the values. -/
theorem C73_every_call_is_seen (m : V) (s : Nat → S) (l : List (Nat × Keeping.Turn I E)) (t : Nat)
    (h : ((Keeping.run M D debug (Keeping.init m s) l).core.pc t).isIdle = true)
    (ha : (Keeping.run M D debug (Keeping.init m s) l).asked t = false) :
    (∀ op : Crowd.Op I E, op ≠ .subscribe →
      (∀ k, op = .cancel k → k ∈ (Keeping.run M D debug (Keeping.init m s) l).core.handles) →
      ∃ k, (Keeping.run M D debug (Keeping.init m s) (l ++ [(t, .core (.call op))])).trace =
        (Keeping.run M D debug (Keeping.init m s) l).trace ++ [.core (.call k t op)]) ∧
    (∃ c, (Keeping.run M D debug (Keeping.init m s) (l ++ [(t, .core (.call .subscribe))])).trace =
        (Keeping.run M D debug (Keeping.init m s) l).trace ++ .enter t :: c ∧
      ((∃ k, c = [.core (.call k t .subscribe)]) ∨
        (Keeping.run M D debug (Keeping.init m s) (l ++ [(t, .core (.call .subscribe))])).asked t = true)) ∧
    ∃ vs, (Keeping.run M D debug (Keeping.init m s) (l ++ [(t, .read)])).trace =
      (Keeping.run M D debug (Keeping.init m s) l).trace ++ [.read t vs] := by
  rw [Keeping.run_snoc, Keeping.run_snoc]
  simp only [Keeping.run_snoc]
  generalize Keeping.run M D debug (Keeping.init m s) l = x at *
  have hp : x.core.pc t = .idle := Crowd.isIdle_eq h
  have hn : ∀ (y : Keeping.State V S I E) (op : Crowd.Op I E), y.core.pc t = .idle → op.void y.core.handles = false →
      (y.turn D debug t (.call op)).trace = y.trace ++ [.core (.call y.core.calls t op)] := by
    intro y op h1 h2
    unfold Keeping.State.turn
    rw [Keeping.turn_eq (b := [.call y.core.calls t op]) (by rw [Keeping.step_call h1 h2]; rfl)]
    rfl
  refine ⟨fun op ho hc => ⟨x.core.calls, ?_⟩, ?_, ?_⟩
  · have hv : op.void x.core.handles = false := by
      cases op with
      | cancel k => simpa [Crowd.Op.void] using hc k rfl
      | _ => rfl
    cases op with
    | subscribe => exact absurd rfl ho
    | next v => simp only [Keeping.step, ha, h, if_true]; exact hn { x with memory := _ } _ hp hv
    | _ => simp only [Keeping.step, ha, h, if_true]; exact hn x _ hp hv
  · cases he : x.core.error.isSome with
    | true =>
      refine ⟨[.core (.call x.core.calls t .subscribe)], ?_, .inl ⟨_, rfl⟩⟩
      simp only [Keeping.step, ha, h, he, if_true]
      exact (hn { x with trace := x.trace ++ [Keeping.Mark.enter t] } .subscribe hp rfl).trans (by simp)
    | false =>
      refine ⟨[], ?_, .inr ?_⟩ <;> simp [Keeping.step, ha, h, he]
  · exact ⟨M.read x.memory, by simp [Keeping.step, ha, h]⟩

/-- C73. A thread that has found no error in `subscribe` copies the values and begins to subscribe with its next
turn. -/
theorem C73_subscribe_goes_on (hD : D.Contract) (m : V) (s : Nat → S) (l : List (Nat × Keeping.Turn I E)) (t : Nat)
    (a : Keeping.Turn I E) (ha : (Keeping.run M D debug (Keeping.init m s) l).asked t = true) :
    ∃ k c, (Keeping.run M D debug (Keeping.init m s) (l ++ [(t, a)])).trace =
      (Keeping.run M D debug (Keeping.init m s) l).trace ++ c ++ [.core (.call k t .subscribe)] ∧ inner c = [] := by
  have hg := run_good (M := M) (debug := debug) hD m s l
  rw [Keeping.run_snoc]
  generalize Keeping.run M D debug (Keeping.init m s) l = x at *
  have e : ∀ y, Keeping.step M D debug x t a = y → y.trace =
      x.trace ++ (M.read x.memory).map (.replay x.core.calls) ++ [.core (.call x.core.calls t .subscribe)] := by
    rintro y rfl
    simp only [Keeping.step, ha, if_true]
    unfold Keeping.State.turn
    rw [Keeping.turn_eq (b := [.call x.core.calls t .subscribe])
      (by rw [Keeping.step_call (by exact hg.idle t ha) rfl]; rfl)]
    rfl
  exact ⟨_, _, e _ rfl, inner_replays _ _⟩

/-- C73. A subscriber hears the remembered values it is given first, and then what is published to it. -/
theorem C73_remembered_first (hD : D.Contract) (m : V) (s : Nat → S) (l : List (Nat × Keeping.Turn I E)) (i : Nat) :
    heardBy i (Keeping.run M D debug (Keeping.init m s) l).trace =
      (replaysTo i (Keeping.run M D debug (Keeping.init m s) l).trace).map .next ++
        Crowd.givesTo i (inner (Keeping.run M D debug (Keeping.init m s) l).trace) :=
  (run_good hD m s l).heard i

/-- C73. `subscribe` gives the new subscriber what the values sent so far, in the order in which `next` was called,
make the subject remember; unless `error` was called before `subscribe` was. Then it may be given nothing, and is, if
a call of `error` had returned and the subject was not ended otherwise. -/
theorem C73_starts_with_what_is_remembered (hD : D.Contract) (m : V) (s : Nat → S) (l : List (Nat × Keeping.Turn I E))
    (a b i t) (h : (Keeping.run M D debug (Keeping.init m s) l).trace = a ++ .core (.call i t .subscribe) :: b) :
    ∃ a1 a2, a = a1 ++ .enter t :: a2 ∧ Silent t a2 ∧
      ((replaysTo i (Keeping.run M D debug (Keeping.init m s) l).trace = M.read (recall M m a) ∧ Unfailed (inner a1)) ∨
        (replaysTo i (Keeping.run M D debug (Keeping.init m s) l).trace = [] ∧
          ∃ j u e, .call j u (.error e) ∈ inner a1)) :=
  (run_good hD m s l).subs a b i t h

/-- C73. The first thing a subscriber of a behavior subject hears is the last value sent before, or the initial
value, if `error` was never called. -/
theorem C73_behavior_starts (hD : D.Contract) (v₀ : I) (s : Nat → S) (l : List (Nat × Keeping.Turn I E)) (a b i t)
    (h : (Keeping.run Caching.latest D debug (Keeping.init v₀ s) l).trace = a ++ .core (.call i t .subscribe) :: b)
    (he : ∀ j u e, .core (.call j u (.error e)) ∉ a) :
    replaysTo i (Keeping.run Caching.latest D debug (Keeping.init v₀ s) l).trace =
      [(((sent a).map Prod.snd).getLast?).getD v₀] := by
  obtain ⟨a1, a2, rfl, -, ⟨h1, -⟩ | ⟨-, j, u, e, h1⟩⟩ := (run_good hD v₀ s l).subs a b i t h
  · rw [h1]
    have : ∀ (vs : List I) (v : I), vs.foldl Caching.latest.write v = (vs.getLast?).getD v := by
      intro vs
      induction vs using Rx.snoc_induction with
      | nil => exact fun _ => rfl
      | snoc vs w _ => intro v; simp [Caching.latest]
    show [recall Caching.latest v₀ _] = _
    rw [recall, this]
  · exact absurd (List.mem_append_left _ (mem_inner.1 h1)) (he j u e)

/-- C73. The first things a subscriber of a replay subject hears are the last `cap` values sent before. -/
theorem C73_replay_starts (hD : D.Contract) {cap : Nat} (hcap : 0 < cap) (s : Nat → S) (l : List (Nat × Keeping.Turn I E))
    (a b i t) (h : (Keeping.run (Caching.ring cap) D debug (Keeping.init [] s) l).trace =
      a ++ .core (.call i t .subscribe) :: b) (he : ∀ j u e, .core (.call j u (.error e)) ∉ a) :
    replaysTo i (Keeping.run (Caching.ring cap) D debug (Keeping.init [] s) l).trace =
      Caching.lastN cap ((sent a).map Prod.snd) := by
  obtain ⟨a1, a2, rfl, -, ⟨h1, -⟩ | ⟨-, j, u, e, h1⟩⟩ := (run_good hD [] s l).subs a b i t h
  · rw [h1, recall, Caching.write_ring hcap]
    rfl
  · exact absurd (List.mem_append_left _ (mem_inner.1 h1)) (he j u e)

/-- C73. `value` and `values` answer what the values sent so far make the subject remember. -/
theorem C73_answers (hD : D.Contract) (m : V) (s : Nat → S) (l : List (Nat × Keeping.Turn I E)) (a t vs b)
    (h : (Keeping.run M D debug (Keeping.init m s) l).trace = a ++ .read t vs :: b) : vs = M.read (recall M m a) :=
  (run_good hD m s l).reads a t vs b h

/-- C73. Threads do not wait for each other: a thread inside a call always goes on when it gets a turn. -/
theorem C73_never_waits (hD : D.Contract) (m : V) (s : Nat → S) (l : List (Nat × Keeping.Turn I E)) (t : Nat)
    (h : ((Keeping.run M D debug (Keeping.init m s) l).core.pc t).isIdle = false ∨
      (Keeping.run M D debug (Keeping.init m s) l).asked t = true)
    (hp : ∀ w, (Keeping.run M D debug (Keeping.init m s) l).core.pc t ≠ .panicked w) :
    (Keeping.run M D debug (Keeping.init m s) (l ++ [(t, .core .go)])).core.pc t ≠
      (Keeping.run M D debug (Keeping.init m s) l).core.pc t := by
  have hg := run_good (M := M) (debug := debug) hD m s l
  rw [Keeping.run_snoc]
  generalize Keeping.run M D debug (Keeping.init m s) l = x at *
  dsimp only
  cases ha : x.asked t with
  | true =>
    have hi := hg.idle t ha
    unfold Keeping.step
    rw [if_pos ha]
    show (Crowd.step D debug _ t (.call .subscribe)).pc t ≠ _
    rw [Keeping.step_call (by exact hi) rfl, hi]
    simp [Crowd.State.goto, Crowd.entry]
  | false =>
    have hb : (x.core.pc t).isIdle = false := h.resolve_right (by rw [ha]; simp)
    unfold Keeping.step
    rw [if_neg (by rw [ha]; simp), if_neg (by rw [hb]; simp)]
    exact Crowd.busy_moves D x.core t hb hp

/-- C73. All subscribers hear the published values in one and the same order, as for publish subjects (C70). -/
theorem C73_one_order (hD : D.Contract) (m : V) (s : Nat → S) (l : List (Nat × Keeping.Turn I E)) :
    ∃ o : List (Crowd.Call I E),
      (o.map Crowd.Call.id).Nodup ∧
      (∀ c ∈ o, ∃ t, .call c.id t c.op ∈ inner (Keeping.run M D debug (Keeping.init m s) l).trace) ∧
      (o.Pairwise fun a b => ¬ Crowd.Before (inner (Keeping.run M D debug (Keeping.init m s) l).trace) b.id a.id) ∧
      ∀ i, Crowd.valuesTo i (inner (Keeping.run M D debug (Keeping.init m s) l).trace) = [] ∨
        ∃ a b, o = a ++ ⟨i, .subscribe⟩ :: b ∧
          Crowd.valuesTo i (inner (Keeping.run M D debug (Keeping.init m s) l).trace) <+: Crowd.nexts b ∧
          (D.isClosed ((Keeping.run M D debug (Keeping.init m s) l).core.dests i) = false →
            Crowd.valuesTo i (inner (Keeping.run M D debug (Keeping.init m s) l).trace) = Crowd.nexts b) := by
  obtain ⟨s', l', -, e1, e2⟩ := C73_publishes (M := M) (debug := debug) hD m s l
  rw [e1, e2]
  exact C70_one_order hD s' l'

/-- C73. A value whose `next` had returned when the remembered values were copied is not also published to the new
subscriber.
Missing: the same of one whose `next` had not, which is false (`C73_twice_counterexample`). -/
theorem C73_not_twice_partial (hD : D.Contract) (m : V) (s : Nat → S) (l : List (Nat × Keeping.Turn I E)) (i k : Nat) (v : I)
    (hb : Crowd.Before (inner (Keeping.run M D debug (Keeping.init m s) l).trace) k i) :
    (k, v) ∉ Crowd.valuesTo i (inner (Keeping.run M D debug (Keeping.init m s) l).trace) := by
  intro hk
  obtain ⟨o, -, -, h1, h2⟩ := C73_one_order (M := M) (debug := debug) hD m s l
  rcases h2 i with h2 | ⟨a, b, rfl, h2, -⟩
  · rw [h2] at hk; cases hk
  · exact (List.pairwise_cons.1 (List.pairwise_append.1 h1).2.1).1 _ (Crowd.mem_nexts.1 (h2.subset hk)) hb

/-- C73. If `subscribe` had returned when `next` was called, and `next` has returned, then the subscriber has been
given the value, or is closed, or the value waits in the queue, or a call that ends the subject had begun.
Missing: the same of one whose `next` was called while `subscribe` was going on, after the remembered values were
copied, which is false (`C73_gap_counterexample`). -/
theorem C73_none_missed_partial (hD : D.Contract) (m : V) (s : Nat → S) (l : List (Nat × Keeping.Turn I E))
    (i k t u : Nat) (v : I) (hi : .call i t .subscribe ∈ inner (Keeping.run M D debug (Keeping.init m s) l).trace)
    (hk : .call k u (.next v) ∈ inner (Keeping.run M D debug (Keeping.init m s) l).trace)
    (hr : .ret k ∈ inner (Keeping.run M D debug (Keeping.init m s) l).trace)
    (hb : Crowd.Before (inner (Keeping.run M D debug (Keeping.init m s) l).trace) i k) :
    (k, v) ∈ Crowd.valuesTo i (inner (Keeping.run M D debug (Keeping.init m s) l).trace) ∨
      D.isClosed ((Keeping.run M D debug (Keeping.init m s) l).core.dests i) = true ∨
      ⟨k, .next v⟩ ∈ (Keeping.run M D debug (Keeping.init m s) l).core.rest ++
        (Keeping.run M D debug (Keeping.init m s) l).core.queue ∨
      Crowd.Excused (inner (Keeping.run M D debug (Keeping.init m s) l).trace) k := by
  obtain ⟨s', l', -, e1, e2⟩ := C73_publishes (M := M) (debug := debug) hD m s l
  rw [e2] at hi hk hr hb
  rw [e1, e2]
  exact C70_none_missed_partial hD s' l' i k t u v hi hk hr hb

theorem Keeping.sent_eq (tr : List (Keeping.Mark I E)) : sent tr = Crowd.sentOf (inner tr) := by
  induction tr with
  | nil => rfl
  | cons c tr ih =>
    cases c with
    | core c =>
      cases c with
      | call k u op => cases op <;> first | exact ih | exact congrArg _ ih
      | _ => exact ih
    | _ => exact ih

/-- What both theorems below are about. -/
theorem Keeping.exactly (hD : D.Contract) (m : V) (s : Nat → S) (l : List (Nat × Keeping.Turn I E))
    (hr : Keeping.AtRest (Keeping.run M D debug (Keeping.init m s) l))
    (hq : (Keeping.run M D debug (Keeping.init m s) l).core.queue = [])
    (he : ¬ Crowd.Ending (inner (Keeping.run M D debug (Keeping.init m s) l).trace)) (a b i t)
    (h : (Keeping.run M D debug (Keeping.init m s) l).trace = a ++ .core (.call i t .subscribe) :: b)
    (ho : D.isClosed ((Keeping.run M D debug (Keeping.init m s) l).core.dests i) = false)
    (hn : ∀ k u v, .call k u (.next v) ∈ inner (Keeping.run M D debug (Keeping.init m s) l).trace →
      Crowd.Before (inner (Keeping.run M D debug (Keeping.init m s) l).trace) k i ∨
        Crowd.Before (inner (Keeping.run M D debug (Keeping.init m s) l).trace) i k) :
    ∃ vs : List (Nat × I), heardBy i (Keeping.run M D debug (Keeping.init m s) l).trace =
        (M.read (recall M m a) ++ vs.map Prod.snd).map .next ∧ vs.Perm (sent b) ∧
      (Orderly (inner (Keeping.run M D debug (Keeping.init m s) l).trace) i → vs = sent b) := by
  have hg := run_good (M := M) (debug := debug) hD m s l
  have hinv := hg.inv hD
  obtain ⟨l', hl⟩ := hg.follows
  have hrep : replaysTo i (Keeping.run M D debug (Keeping.init m s) l).trace = M.read (recall M m a) := by
    obtain ⟨a1, a2, rfl, -, ⟨h1, -⟩ | ⟨-, j, u, e, h1⟩⟩ := hg.subs a b i t h
    · exact h1
    · refine absurd ⟨j, u, .error e, ?_, rfl⟩ he
      rw [h]
      exact mem_inner.2 (by simp [mem_inner.1 h1])
  generalize Keeping.run M D debug (Keeping.init m s) l = x at *
  have hrest : Crowd.AtRest x.core := fun t => (hr t).1
  have ht := Crowd.run_times (D := D) (debug := debug) hD (primedAll D s x.trace) l'
  have hback := Crowd.run_back (D := D) (debug := debug) hD (primedAll D s x.trace) l'
  have hset : Crowd.Settled x.core := by
    rw [hl] at hrest hq ⊢
    exact hrest.settled hD hq
  rw [← hl] at ht hback
  have hin : inner x.trace = inner a ++ .call i t .subscribe :: inner b := by
    rw [h, inner_append]; rfl
  have hafter := (show Crowd.Times (inner x.trace) by rw [hg.inner]; exact ht).after hin
  have hi : .call i t .subscribe ∈ x.core.trace := by rw [← hg.inner, hin]; simp
  have hall : ∀ n ∈ Crowd.givesTo i x.core.trace, n.isClosing = false := by
    intro n hn
    cases hc : n.isClosing with
    | false => rfl
    | true =>
      have := Crowd.closed_foldl hD hc _ (primedAll D s x.trace i) hn
      rw [hinv.heard.dests i, Crowd.afterTo, this] at ho
      cases ho
  rw [hg.inner] at he hn hafter
  have hex := hinv.exactly ht hset hback he hi ho hn
  refine ⟨Crowd.valuesTo i x.core.trace, ?_, ?_, fun hord => ?_⟩
  · rw [hg.heard, hg.inner, hrep, Crowd.givesTo_of_values hall, List.map_append, List.map_map]
    rfl
  · rw [Keeping.sent_eq, hafter]; exact hex.1
  · rw [Keeping.sent_eq, hafter]
    rw [hg.inner] at hord
    exact hex.2 hord.1

/-- C73. When all calls have returned, nothing waits and the subject was not ended, an open subscriber has heard what
was remembered and then exactly the values sent since, each once, if no call of `next` overlapped with its
`subscribe`.
Missing: the same if one did, which is false (`C73_gap_counterexample`, `C73_twice_counterexample`). -/
theorem C73_exact_partial (hD : D.Contract) (m : V) (s : Nat → S) (l : List (Nat × Keeping.Turn I E))
    (hr : Keeping.AtRest (Keeping.run M D debug (Keeping.init m s) l))
    (hq : (Keeping.run M D debug (Keeping.init m s) l).core.queue = [])
    (he : ¬ Crowd.Ending (inner (Keeping.run M D debug (Keeping.init m s) l).trace)) (a b i t)
    (h : (Keeping.run M D debug (Keeping.init m s) l).trace = a ++ .core (.call i t .subscribe) :: b)
    (ho : D.isClosed ((Keeping.run M D debug (Keeping.init m s) l).core.dests i) = false)
    (hn : ∀ k u v, .call k u (.next v) ∈ inner (Keeping.run M D debug (Keeping.init m s) l).trace →
      Crowd.Before (inner (Keeping.run M D debug (Keeping.init m s) l).trace) k i ∨
        Crowd.Before (inner (Keeping.run M D debug (Keeping.init m s) l).trace) i k) :
    ∃ vs, heardBy i (Keeping.run M D debug (Keeping.init m s) l).trace = (M.read (recall M m a) ++ vs).map .next ∧
      vs.Perm ((sent b).map Prod.snd) := by
  obtain ⟨vs, h1, h2, -⟩ := Keeping.exactly hD m s l hr hq he a b i t h ho hn
  exact ⟨_, h1, h2.map _⟩

/-- C73. If moreover no two calls of `next` overlapped, it has heard them in the order in which they were sent.
Missing: the same if two did, which is false (`C73_last_heard_counterexample`). -/
theorem C73_in_order_partial (hD : D.Contract) (m : V) (s : Nat → S) (l : List (Nat × Keeping.Turn I E))
    (hr : Keeping.AtRest (Keeping.run M D debug (Keeping.init m s) l))
    (hq : (Keeping.run M D debug (Keeping.init m s) l).core.queue = [])
    (he : ¬ Crowd.Ending (inner (Keeping.run M D debug (Keeping.init m s) l).trace)) (a b i t)
    (h : (Keeping.run M D debug (Keeping.init m s) l).trace = a ++ .core (.call i t .subscribe) :: b)
    (ho : D.isClosed ((Keeping.run M D debug (Keeping.init m s) l).core.dests i) = false)
    (hn : Orderly (inner (Keeping.run M D debug (Keeping.init m s) l).trace) i) :
    heardBy i (Keeping.run M D debug (Keeping.init m s) l).trace =
      (M.read (recall M m a) ++ (sent b).map Prod.snd).map .next := by
  obtain ⟨vs, h1, -, h2⟩ := Keeping.exactly hD m s l hr hq he a b i t h ho hn.2
  rw [h1, h2 hn]

/-- C73. Then the last thing a subscriber of a behavior subject has heard is what `value` answers.
Missing: the same if calls overlapped, which is false (`C73_last_heard_counterexample`, `C73_gap_counterexample`). -/
theorem C73_up_to_date_partial (hD : D.Contract) (v₀ : I) (s : Nat → S) (l : List (Nat × Keeping.Turn I E))
    (hr : Keeping.AtRest (Keeping.run Caching.latest D debug (Keeping.init v₀ s) l))
    (hq : (Keeping.run Caching.latest D debug (Keeping.init v₀ s) l).core.queue = [])
    (he : ¬ Crowd.Ending (inner (Keeping.run Caching.latest D debug (Keeping.init v₀ s) l).trace)) (i t)
    (hi : .core (.call i t .subscribe) ∈ (Keeping.run Caching.latest D debug (Keeping.init v₀ s) l).trace)
    (ho : D.isClosed ((Keeping.run Caching.latest D debug (Keeping.init v₀ s) l).core.dests i) = false)
    (hn : Orderly (inner (Keeping.run Caching.latest D debug (Keeping.init v₀ s) l).trace) i) :
    (heardBy i (Keeping.run Caching.latest D debug (Keeping.init v₀ s) l).trace).getLast? =
      some (.next (Keeping.run Caching.latest D debug (Keeping.init v₀ s) l).memory) := by
  obtain ⟨a, b, h⟩ := List.append_of_mem hi
  have hm := (run_good (M := Caching.latest) (debug := debug) hD v₀ s l).memory
  rw [C73_in_order_partial hD v₀ s l hr hq he a b i t h ho hn, hm, h, recall_append]
  show _ = some (SubscriberNotification.next (((sent b).map Prod.snd).foldl Caching.latest.write (recall Caching.latest v₀ a)))
  generalize (sent b).map Prod.snd = vs
  show (([recall Caching.latest v₀ a] ++ vs).map SubscriberNotification.next).getLast? = _
  induction vs using Rx.snoc_induction with
  | nil => rfl
  | snoc vs w _ =>
    rw [← List.append_assoc, List.map_append, List.map_singleton, List.getLast?_concat, List.foldl_append]
    rfl

/-- C73. Who subscribes after a call of `error` has returned hears nothing but an error that was sent, if the subject
was not ended otherwise. -/
theorem C73_after_error (hD : D.Contract) (m : V) (s : Nat → S) (l : List (Nat × Keeping.Turn I E)) (a1 a2 b i t)
    (h : (Keeping.run M D debug (Keeping.init m s) l).trace =
      a1 ++ .enter t :: a2 ++ .core (.call i t .subscribe) :: b) (hs : Silent t a2) (he : Crowd.Ended (inner a1))
    (hr : .ret i ∈ inner (Keeping.run M D debug (Keeping.init m s) l).trace) (ho : D.isClosed (s i) = false)
    (hk : ∀ j u op, .call j u op ∈ inner (Keeping.run M D debug (Keeping.init m s) l).trace → op.isClosing = true →
      ∃ e, op = .error e) :
    ∃ e, heardBy i (Keeping.run M D debug (Keeping.init m s) l).trace = [.error e] ∧
      ∃ j u, .call j u (.error e) ∈ inner (Keeping.run M D debug (Keeping.init m s) l).trace := by
  have hg := run_good (M := M) (debug := debug) hD m s l
  obtain ⟨s', l', hs', -, e2⟩ := C73_publishes (M := M) (debug := debug) hD m s l
  have ht := Crowd.run_times (D := D) (debug := debug) hD s' l'
  rw [← e2] at ht
  generalize hx : Keeping.run M D debug (Keeping.init m s) l = x at *
  have hin : inner x.trace = inner a1 ++ (inner a2 ++ .call i t .subscribe :: inner b) := by
    rw [h]; simp [inner]
  have hrep : replaysTo i x.trace = [] := by
    obtain ⟨c1, c2, e, hc, ⟨-, h1⟩ | ⟨h1, -⟩⟩ := hg.subs _ _ i t h
    · have : c1 = a1 := by
        rcases List.append_eq_append_iff.1 e with ⟨as, ha, hb⟩ | ⟨bs, ha, hb⟩
        · cases as with
          | nil => simpa using ha
          | cons n as =>
            simp only [List.cons_append, List.cons.injEq] at hb
            exact absurd (show Mark.enter t ∈ a2 by rw [hb.2]; simp) hs.1
        · cases bs with
          | nil => simpa using ha.symm
          | cons n bs =>
            simp only [List.cons_append, List.cons.injEq] at hb
            exact absurd (show Mark.enter t ∈ c2 by rw [hb.2]; simp) hc.1
      subst this
      exact absurd he (h1 fun j u op hj => hk j u op (by rw [hin]; exact List.mem_append_left _ hj))
    · exact h1
  have hl : Crowd.Late (inner x.trace) i := by
    obtain ⟨j, u, op, h1, h2, h3⟩ := he
    refine ⟨j, u, op, by rw [hin]; exact List.mem_append_left _ h1, h2, inner a1, _, hin, h3, fun v o hv => ?_⟩
    have := ht.ascending
    rw [hin, Crowd.callIds_append, List.pairwise_append] at this
    have := this.2.2 i (Crowd.mem_callIds.2 ⟨_, _, hv⟩) i (Crowd.mem_callIds.2 ⟨t, .subscribe, by simp⟩)
    omega
  have hi : .call i t .subscribe ∈ inner x.trace := by rw [hin]; simp
  rw [hg.heard, hrep]
  rw [e2] at hi hl hr hk ⊢
  exact C71_late_error hD s' l' i t hi hl hr (by rw [hs', hrep]; exact ho) hk

/-- C73. Who subscribes after a call of `complete` has returned hears what is remembered and then the completion, if
the subject was not ended otherwise, and if the values do not close it. -/
theorem C73_after_complete (hD : D.Contract) (m : V) (s : Nat → S) (l : List (Nat × Keeping.Turn I E)) (a b i t)
    (h : (Keeping.run M D debug (Keeping.init m s) l).trace = a ++ .core (.call i t .subscribe) :: b)
    (hl : Crowd.Late (inner (Keeping.run M D debug (Keeping.init m s) l).trace) i)
    (hr : .ret i ∈ inner (Keeping.run M D debug (Keeping.init m s) l).trace)
    (ho : D.isClosed (((M.read (recall M m a)).map .next).foldl D.push (s i)) = false)
    (hk : ∀ j u op, .call j u op ∈ inner (Keeping.run M D debug (Keeping.init m s) l).trace → op.isClosing = true →
      op = .complete) :
    heardBy i (Keeping.run M D debug (Keeping.init m s) l).trace = (M.read (recall M m a)).map .next ++ [.complete] := by
  have hg := run_good (M := M) (debug := debug) hD m s l
  obtain ⟨s', l', hs', -, e2⟩ := C73_publishes (M := M) (debug := debug) hD m s l
  generalize Keeping.run M D debug (Keeping.init m s) l = x at *
  have hrep : replaysTo i x.trace = M.read (recall M m a) := by
    obtain ⟨a1, a2, rfl, -, ⟨h1, -⟩ | ⟨-, j, u, e, h1⟩⟩ := hg.subs a b i t h
    · exact h1
    · have := hk j u (.error e) (by rw [h]; exact mem_inner.2 (by simp [mem_inner.1 h1])) rfl
      cases this
  have hi : .call i t .subscribe ∈ inner x.trace := by rw [h]; exact mem_inner.2 (by simp)
  rw [hg.heard, hrep]
  rw [e2] at hi hl hr hk ⊢
  rw [C71_late_complete hD s' l' i t hi hl hr (by rw [hs', hrep]; exact ho) hk]

/-! ### Cases -/

namespace Keeping

/-- Thread `t` goes on `k` times. -/
def turns (t k : Nat) : List (Nat × Turn Nat Unit) := List.replicate k (t, .core .go)

/-- Thread `t` calls something, undisturbed. -/
def calls (t : Nat) (op : Crowd.Op Nat Unit) : List (Nat × Turn Nat Unit) := (t, .core (.call op)) :: turns t 9

/-- A behavior subject with initial value 0. -/
def behavior (l : List (Nat × Turn Nat Unit)) : State Nat (List (SubscriberNotification Nat Unit) × Bool) Nat Unit :=
  run Caching.latest recorder false (init 0 fun _ => ([], false)) l

/-- A replay subject of capacity 2. -/
def replay2 (l : List (Nat × Turn Nat Unit)) : State (List Nat) (List (SubscriberNotification Nat Unit) × Bool) Nat Unit :=
  run (Caching.ring 2) recorder false (init [] fun _ => ([], false)) l

/-- Threads that get no turn are not inside a call. -/
theorem others_rest {V : Type} {M : Memory V Nat} {m : V} {s : Nat → List (SubscriberNotification Nat Unit) × Bool}
    {n t : Nat} (l : List (Nat × Turn Nat Unit)) (h : l.all (fun a => a.1 < n) = true) (ht : n ≤ t) :
    ((run M recorder debug (init m s) l).core.pc t).isIdle = true ∧ (run M recorder debug (init m s) l).asked t = false := by
  induction l using Rx.snoc_induction with
  | nil => exact ⟨rfl, rfl⟩
  | snoc l a ih =>
    rw [List.all_append, Bool.and_eq_true] at h
    have ih := ih h.1
    have hne : t ≠ a.1 := by
      have := h.2
      simp at this
      omega
    have hg := run_good (M := M) (debug := debug) recorder_contract m s l
    have hi := hg.inv recorder_contract
    have hc := change_step (debug := debug) (M := M) (t := a.1) recorder_contract hi hg.idle a.2
    rw [run_snoc]
    generalize run M recorder debug (init m s) l = x at *
    generalize step M recorder debug x a.1 a.2 = y at *
    have key : ∀ b, (Crowd.step recorder debug x.core a.1 b).pc t = x.core.pc t := fun b => by
      obtain ⟨-, -, hh, -⟩ := hi.moves (debug := debug) recorder_contract a.1 b
      exact hh.other hne
    cases hc with
    | quiet b _ _ core _ _ _ _ _ asked => rw [core, asked, key]; exact ih
    | call op _ _ _ _ core _ _ asked => rw [core, asked, key]; exact ih
    | enter _ _ _ core _ _ asked => rw [core, asked]; exact ⟨ih.1, by simpa [hne] using ih.2⟩
    | refused _ _ _ core _ _ asked => rw [core, asked, key]; exact ih
    | copy h0 core _ _ asked =>
      rw [core, asked, step_call (by exact hg.idle _ h0) rfl]
      refine ⟨?_, by simpa [hne] using ih.2⟩
      simpa [Crowd.State.goto, hne, primed, Crowd.State.note] using ih.1
    | read core _ _ asked => rw [core, asked]; exact ih

end Keeping

/-- C73 fails: a value sent while `subscribe` is going on, after the initial value was copied, is heard by nobody. All
calls have returned, nothing waits, `value` answers 1, and the only thing the subscriber has heard is 0. -/
theorem C73_gap_counterexample : ∃ l : List (Nat × Keeping.Turn Nat Unit),
    Keeping.AtRest (behavior l) ∧ (behavior l).core.queue = [] ∧ (behavior l).memory = 1 ∧
      (behavior l).core.dests 0 = ([.next 0], false) ∧
      (behavior l).trace = [.enter 1, .replay 0 0, .core (.call 0 1 .subscribe), .core (.call 1 0 (.next 1)),
        .core (.ret 1), .core (.ret 0)] := by
  refine ⟨[(1, .core (.call .subscribe))] ++ Keeping.turns 1 1 ++ Keeping.calls 0 (.next 1) ++ Keeping.turns 1 9,
    fun t => ?_, ?_, ?_, ?_, ?_⟩
  · match t with
    | 0 => decide +kernel
    | 1 => decide +kernel
    | t + 2 => exact others_rest (n := 2) _ (by decide +kernel) (by omega)
  all_goals decide +kernel

/-- C73 fails: a value whose `next` is going on while `subscribe` is called is heard twice. -/
theorem C73_twice_counterexample : ∃ l : List (Nat × Keeping.Turn Nat Unit),
    Keeping.AtRest (behavior l) ∧ (behavior l).core.dests 1 = ([.next 1, .next 1], false) ∧
      (behavior l).trace = [.core (.call 0 0 (.next 1)), .enter 1, .replay 1 1, .core (.call 1 1 .subscribe),
        .core (.ret 1), .core (.give 0 1 (.next 1)), .core (.ret 0)] := by
  refine ⟨[(0, .core (.call (.next 1)))] ++ Keeping.calls 1 .subscribe ++ Keeping.turns 0 9, fun t => ?_, ?_, ?_⟩
  · match t with
    | 0 => decide +kernel
    | 1 => decide +kernel
    | t + 2 => exact others_rest (n := 2) _ (by decide +kernel) (by omega)
  all_goals decide +kernel

/-- C73 fails: two calls of `next` overlap. The last value the subscriber hears is 1, while `value` answers 2 from then
on, and who subscribes then starts with 2. -/
theorem C73_last_heard_counterexample : ∃ l : List (Nat × Keeping.Turn Nat Unit),
    Keeping.AtRest (behavior l) ∧ (behavior l).core.queue = [] ∧ (behavior l).memory = 2 ∧
      (behavior l).core.dests 0 = ([.next 0, .next 2, .next 1], false) ∧
      (behavior l).core.dests 3 = ([.next 2], false) := by
  refine ⟨Keeping.calls 0 .subscribe ++ [(0, .core (.call (.next 1)))] ++ Keeping.calls 1 (.next 2) ++
    Keeping.turns 0 9 ++ Keeping.calls 1 .subscribe, fun t => ?_, ?_, ?_, ?_, ?_⟩
  · match t with
    | 0 => decide +kernel
    | 1 => decide +kernel
    | t + 2 => exact others_rest (n := 2) _ (by decide +kernel) (by omega)
  all_goals decide +kernel

/-- Threads 0 and 1 send values one after the other, thread 2 subscribes in between. -/
def relayed : List (Nat × Keeping.Turn Nat Unit) :=
  Keeping.calls 0 (.next 1) ++ Keeping.calls 1 (.next 2) ++ Keeping.calls 0 (.next 3) ++ Keeping.calls 2 .subscribe ++
    Keeping.calls 1 (.next 4) ++ [(0, .read)]

example : (replay2 relayed).trace =
    [.core (.call 0 0 (.next 1)), .core (.ret 0), .core (.call 1 1 (.next 2)), .core (.ret 1),
      .core (.call 2 0 (.next 3)), .core (.ret 2), .enter 2, .replay 3 2, .replay 3 3, .core (.call 3 2 .subscribe),
      .core (.ret 3), .core (.call 4 1 (.next 4)), .core (.give 4 3 (.next 4)), .core (.ret 4), .read 0 [3, 4]] := by
  decide +kernel

-- it meets the hypotheses of `C73_in_order_partial`
example : Keeping.AtRest (replay2 relayed) ∧ (replay2 relayed).core.queue = [] ∧
    recorder.isClosed ((replay2 relayed).core.dests 3) = false := by
  refine ⟨fun t => ?_, by decide +kernel, by decide +kernel⟩
  match t with
  | 0 => decide +kernel
  | 1 => decide +kernel
  | 2 => decide +kernel
  | t + 3 =>
    unfold replay2
    generalize h : relayed = l
    exact others_rest (n := 3) l (by rw [← h]; decide +kernel) (by omega)

theorem relayed_trace : inner (replay2 relayed).trace =
    [.call 0 0 (.next 1), .ret 0, .call 1 1 (.next 2), .ret 1, .call 2 0 (.next 3), .ret 2, .call 3 2 .subscribe, .ret 3,
      .call 4 1 (.next 4), .give 4 3 (.next 4), .ret 4] := by decide +kernel

theorem before_at {tr : List (Crowd.Mark Nat Unit)} {j k : Nat} (n : Nat) (h : .ret j ∈ tr.take n)
    (hk : ((tr.take n).all fun m => match m with | .call i _ _ => i != k | _ => true) = true) : Crowd.Before tr j k :=
  ⟨_, _, (List.take_append_drop n tr).symm, h, fun t op hm => by simpa using List.all_eq_true.1 hk _ hm⟩

example : ¬ Crowd.Ending (inner (replay2 relayed).trace) ∧ Orderly (inner (replay2 relayed).trace) 3 := by
  rw [relayed_trace]
  refine ⟨?_, ?_, ?_⟩
  · rintro ⟨j, t, op, h, ho⟩
    simp at h
    rcases h with ⟨-, -, rfl⟩ | ⟨-, -, rfl⟩ | ⟨-, -, rfl⟩ | ⟨-, -, rfl⟩ | ⟨-, -, rfl⟩ <;> cases ho
  · intro j k t u v w hj hk hne
    simp at hj hk
    rcases hj with ⟨rfl, -, -⟩ | ⟨rfl, -, -⟩ | ⟨rfl, -, -⟩ | ⟨rfl, -, -⟩ <;>
      rcases hk with ⟨rfl, -, -⟩ | ⟨rfl, -, -⟩ | ⟨rfl, -, -⟩ | ⟨rfl, -, -⟩ <;>
      first
        | exact absurd rfl hne
        | (refine .inl (before_at 2 ?_ ?_) <;> decide)
        | (refine .inl (before_at 4 ?_ ?_) <;> decide)
        | (refine .inl (before_at 6 ?_ ?_) <;> decide)
        | (refine .inr (before_at 2 ?_ ?_) <;> decide)
        | (refine .inr (before_at 4 ?_ ?_) <;> decide)
        | (refine .inr (before_at 6 ?_ ?_) <;> decide)
  · intro k u v hk
    simp at hk
    rcases hk with ⟨rfl, -, -⟩ | ⟨rfl, -, -⟩ | ⟨rfl, -, -⟩ | ⟨rfl, -, -⟩
    · refine .inl (before_at 2 ?_ ?_) <;> decide
    · refine .inl (before_at 4 ?_ ?_) <;> decide
    · refine .inl (before_at 6 ?_ ?_) <;> decide
    · refine .inr (before_at 8 ?_ ?_) <;> decide

-- after `error` and after `complete`
example : (replay2 (Keeping.calls 0 (.next 1) ++ Keeping.calls 1 (.error ()) ++ Keeping.calls 2 .subscribe)).trace =
    [.core (.call 0 0 (.next 1)), .core (.ret 0), .core (.call 1 1 (.error ())), .core (.ret 1), .enter 2,
      .core (.call 2 2 .subscribe), .core (.give 2 2 (.error ())), .core (.ret 2)] := by decide +kernel

example : (replay2 (Keeping.calls 0 (.next 1) ++ Keeping.calls 1 .complete ++ Keeping.calls 2 .subscribe)).trace =
    [.core (.call 0 0 (.next 1)), .core (.ret 0), .core (.call 1 1 .complete), .core (.ret 1), .enter 2, .replay 2 1,
      .core (.call 2 2 .subscribe), .core (.give 2 2 .complete), .core (.ret 2)] := by decide +kernel

end Rx
