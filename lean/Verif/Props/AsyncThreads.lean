import Verif.Lemmas.AsyncThreadsOnce
import Verif.Props.SubjectThreads

/-!
# C74: an async subject used by several threads

`Awaiting.run f D debug (Awaiting.init s) l` is the state after the schedule `l` of any number of threads that share an
async subject with reducer `f`. Subscriber `i` is the one that call `i` of the publish subject inside, a call of
`subscribe`, brought along.
-/

namespace Rx

open Awaiting
open Closing (Dest)

variable {S I E : Type} {f : I → I → I} {D : Dest S I E} {debug : Bool}

/-- C74. A subscriber is called one call at a time: its state is what the calls made on it make of it. -/
theorem C74_one_at_a_time (hD : D.Contract) (s : Nat → S) (l : List (Nat × Awaiting.Turn I E)) (i : Nat) :
    (Awaiting.run f D debug (Awaiting.init s) l).core.dests i =
      (heardBy i (Awaiting.run f D debug (Awaiting.init s) l).trace).foldl D.push (s i) := by
  have h := run_good (f := f) (debug := debug) hD s l
  rw [h.heard, List.foldl_append, List.foldl_map, h.inner]
  exact (h.inv hD).heard.dests i

/-- C74. What is inside behaves as a publish subject does (C70, C71), to which the subscribers were subscribed after
they were given the result, if they were. -/
theorem C74_publishes (hD : D.Contract) (s : Nat → S) (l : List (Nat × Awaiting.Turn I E)) :
    ∃ s' l', (∀ i, s' i =
        ((replaysTo i (Awaiting.run f D debug (Awaiting.init s) l).trace).map .next).foldl D.push (s i)) ∧
      (Awaiting.run f D debug (Awaiting.init s) l).core = Crowd.run D debug (Crowd.init s') l' ∧
      inner (Awaiting.run f D debug (Awaiting.init s) l).trace = (Crowd.run D debug (Crowd.init s') l').trace := by
  have h := run_good (f := f) (debug := debug) hD s l
  obtain ⟨l', e⟩ := h.follows.run
  exact ⟨_, l', fun i => by rw [List.foldl_map]; rfl, e, by rw [h.inner, ← e]⟩

/-- C74. Every call counts: whatever a thread that is not inside a call calls, whatever state the subject is in, is
seen. `next` does not publish anything. `complete` publishes the result, or, if there is none, completes, at once;
`subscribe` subscribes at once, or with the thread's second next turn. -/
theorem C74_every_call_is_seen (hD : D.Contract) (s : Nat → S) (l : List (Nat × Awaiting.Turn I E)) (t : Nat)
    (h : ((Awaiting.run f D debug (Awaiting.init s) l).core.pc t).isIdle = true)
    (hs : (Awaiting.run f D debug (Awaiting.init s) l).stage t = .out) :
    (∀ v, (Awaiting.run f D debug (Awaiting.init s) (l ++ [(t, .core (.call (.next v)))])).trace =
        (Awaiting.run f D debug (Awaiting.init s) l).trace ++ [.store t v] ∧
      (Awaiting.run f D debug (Awaiting.init s) (l ++ [(t, .core (.call (.next v)))])).core =
        (Awaiting.run f D debug (Awaiting.init s) l).core) ∧
    (∃ k, (Awaiting.run f D debug (Awaiting.init s) (l ++ [(t, .core (.call .complete))])).trace =
      (Awaiting.run f D debug (Awaiting.init s) l).trace ++ [.finish t,
        .core (.call k t (match result f (Awaiting.run f D debug (Awaiting.init s) l).trace with
          | some v => .next v
          | none => .complete))]) ∧
    (∃ c, (Awaiting.run f D debug (Awaiting.init s) (l ++ [(t, .core (.call .subscribe))])).trace =
        (Awaiting.run f D debug (Awaiting.init s) l).trace ++ .enter t :: c ∧
      ((∃ k, c = [.core (.call k t .subscribe)]) ∨ (c = [] ∧ ∀ a b, ∃ d k,
        (Awaiting.run f D debug (Awaiting.init s) (l ++ [(t, .core (.call .subscribe)), (t, a), (t, b)])).trace =
          (Awaiting.run f D debug (Awaiting.init s) l).trace ++ .enter t :: d ++ [.core (.call k t .subscribe)] ∧
        inner d = []))) ∧
    (∀ op : Crowd.Op I E, op ≠ .subscribe → op ≠ .complete → (∀ v, op ≠ .next v) →
      (∀ k, op = .cancel k → k ∈ (Awaiting.run f D debug (Awaiting.init s) l).core.handles) →
      ∃ k, (Awaiting.run f D debug (Awaiting.init s) (l ++ [(t, .core (.call op))])).trace =
        (Awaiting.run f D debug (Awaiting.init s) l).trace ++ [.core (.call k t op)]) ∧
    ∃ o, (Awaiting.run f D debug (Awaiting.init s) (l ++ [(t, .read)])).trace =
      (Awaiting.run f D debug (Awaiting.init s) l).trace ++ [.read t o] := by
  have hg := run_good (f := f) (debug := debug) hD s l
  have e3 : ∀ a b c, Awaiting.run f D debug (Awaiting.init s) (l ++ [a, b, c]) =
      Awaiting.step f D debug (Awaiting.step f D debug (Awaiting.step f D debug
        (Awaiting.run f D debug (Awaiting.init s) l) a.1 a.2) b.1 b.2) c.1 c.2 := fun a b c => by simp [Awaiting.run]
  simp only [e3, Awaiting.run_snoc]
  generalize Awaiting.run f D debug (Awaiting.init s) l = x at *
  have hp : x.core.pc t = .idle := Crowd.isIdle_eq h
  refine ⟨fun v => ?_, ⟨x.core.calls, ?_⟩, ?_, fun op h1 h2 h3 hc => ⟨x.core.calls, ?_⟩, x.value, ?_⟩
  · simp [Awaiting.step, hs, h, Awaiting.State.note]
  · simp only [Awaiting.step, hs, h, if_true]
    rw [← hg.value]
    split
    · rename_i v hv
      have hv : x.value = some v := hv
      rw [call_eq (x := (x.note (.finish t)).goto t .finishing) hp rfl, hv]
      simp [Awaiting.State.note, Awaiting.State.goto]
    · rename_i hv
      have hv : x.value = none := hv
      rw [call_eq (x := x.note (.finish t)) hp rfl, hv]
      simp [Awaiting.State.note]
  · cases hc : x.core.shut with
    | false =>
      refine ⟨[.core (.call x.core.calls t .subscribe)], ?_, .inl ⟨_, rfl⟩⟩
      simp only [Awaiting.step, hs, h, if_true]
      rw [if_neg (by simp [Awaiting.State.note, hc]), call_eq (x := x.note (.enter t)) hp rfl]
      simp [Awaiting.State.note]
    | true =>
      have e1 : Awaiting.step f D debug x t (.core (.call .subscribe)) = (x.note (.enter t)).goto t .found := by
        simp only [Awaiting.step, hs, h, if_true]
        rw [if_pos (by simpa [Awaiting.State.note] using hc)]
      refine ⟨[], by rw [e1]; rfl, .inr ⟨rfl, fun a b => ?_⟩⟩
      rw [e1]
      have e2 : Awaiting.step f D debug ((x.note (.enter t)).goto t .found) t a =
          ((x.note (.enter t)).goto t .found).goto t (.copied x.value) := by
        simp [Awaiting.step, Awaiting.State.goto, Awaiting.State.note]
      rw [e2]
      have hst : (((x.note (.enter t)).goto t .found).goto t (.copied x.value)).stage t = .copied x.value := by
        simp [Awaiting.State.goto]
      have hpz : (((x.note (.enter t)).goto t .found).goto t (.copied x.value)).core.pc t = .idle := hp
      have htr : (((x.note (.enter t)).goto t .found).goto t (.copied x.value)).trace = x.trace ++ [.enter t] := rfl
      generalize ((x.note (.enter t)).goto t .found).goto t (.copied x.value) = z at *
      have none : ((z.goto t .out).turn D debug t (.call .subscribe)).trace =
          x.trace ++ .enter t :: [] ++ [.core (.call z.core.calls t .subscribe)] := by
        rw [call_eq (x := z.goto t .out) hpz rfl]
        simp [Awaiting.State.goto, htr]
      simp only [Awaiting.step, hst]
      cases x.value with
      | none => exact ⟨[], _, none, rfl⟩
      | some v =>
        dsimp only
        split
        · refine ⟨[.replay z.core.calls v], z.core.calls, ?_, rfl⟩
          rw [call_eq (x := (z.goto t .out).replay D v) hpz rfl]
          simp [Awaiting.State.goto, Awaiting.State.replay, htr]
        · exact ⟨[], _, none, rfl⟩
  · have hv : op.void x.core.handles = false := by
      cases op with
      | cancel k => simpa [Crowd.Op.void] using hc k rfl
      | _ => rfl
    have := call_eq (x := x) (D := D) (debug := debug) hp hv
    cases op with
    | subscribe => exact absurd rfl h1
    | complete => exact absurd rfl h2
    | next v => exact absurd rfl (h3 v)
    | _ => simp only [Awaiting.step, hs, h, if_true]; rw [this]
  · simp [Awaiting.step, hs, h, Awaiting.State.note]

/-- C74. A thread that has published the result completes the subject with the turn after `next` has returned. -/
theorem C74_complete_goes_on (s : Nat → S) (l : List (Nat × Awaiting.Turn I E)) (t : Nat) (a : Awaiting.Turn I E)
    (h : ((Awaiting.run f D debug (Awaiting.init s) l).core.pc t).isIdle = true)
    (hs : (Awaiting.run f D debug (Awaiting.init s) l).stage t = .finishing) :
    ∃ k, (Awaiting.run f D debug (Awaiting.init s) (l ++ [(t, a)])).trace =
      (Awaiting.run f D debug (Awaiting.init s) l).trace ++ [.core (.call k t .complete)] := by
  rw [Awaiting.run_snoc]
  generalize Awaiting.run f D debug (Awaiting.init s) l = x at *
  refine ⟨x.core.calls, ?_⟩
  simp only [Awaiting.step, hs, h, if_true]
  rw [call_eq (x := x.goto t .out) (Crowd.isIdle_eq h) rfl]
  rfl

/-- C74. Threads do not wait for each other: a thread inside a call always goes on when it gets a turn. -/
theorem C74_never_waits (hD : D.Contract) (s : Nat → S) (l : List (Nat × Awaiting.Turn I E)) (t : Nat)
    (h : ((Awaiting.run f D debug (Awaiting.init s) l).core.pc t).isIdle = false ∨
      (Awaiting.run f D debug (Awaiting.init s) l).stage t ≠ .out)
    (hp : ∀ w, (Awaiting.run f D debug (Awaiting.init s) l).core.pc t ≠ .panicked w) :
    ((Awaiting.run f D debug (Awaiting.init s) (l ++ [(t, .core .go)])).core.pc t,
        (Awaiting.run f D debug (Awaiting.init s) (l ++ [(t, .core .go)])).stage t) ≠
      ((Awaiting.run f D debug (Awaiting.init s) l).core.pc t,
        (Awaiting.run f D debug (Awaiting.init s) l).stage t) := by
  have hg := run_good (f := f) (debug := debug) hD s l
  rw [Awaiting.run_snoc]
  generalize Awaiting.run f D debug (Awaiting.init s) l = x at *
  intro e
  obtain ⟨e1, e2⟩ := Prod.mk.inj e
  cases hst : x.stage t with
  | out =>
    have hb : (x.core.pc t).isIdle = false := h.resolve_right (by rw [hst]; simp)
    simp only [Awaiting.step, hst, hb] at e1
    exact Crowd.busy_moves D x.core t hb hp e1
  | finishing =>
    cases hb : (x.core.pc t).isIdle with
    | false =>
      simp only [Awaiting.step, hst, hb] at e1
      exact Crowd.busy_moves D x.core t hb hp e1
    | true =>
      simp [Awaiting.step, hst, hb, Awaiting.State.turn, Awaiting.State.moves, Awaiting.State.goto] at e2
  | found => simp [Awaiting.step, hst, Awaiting.State.goto] at e2
  | copied o =>
    simp only [Awaiting.step, hst] at e2
    cases o with
    | none => simp [Awaiting.State.turn, Awaiting.State.moves, Awaiting.State.goto] at e2
    | some v =>
      dsimp only at e2
      split at e2 <;> simp [Awaiting.State.turn, Awaiting.State.moves, Awaiting.State.goto, Awaiting.State.replay] at e2

/-- C74. `value` answers the result of the values sent so far. -/
theorem C74_answers (hD : D.Contract) (s : Nat → S) (l : List (Nat × Awaiting.Turn I E)) (a t o b)
    (h : (Awaiting.run f D debug (Awaiting.init s) l).trace = a ++ .read t o :: b) : o = result f a :=
  (run_good hD s l).law a _ b h

/-- C74. A subscriber hears the result it is given by `subscribe` first, if it is, and then what is published to
it. -/
theorem C74_replayed_first (hD : D.Contract) (s : Nat → S) (l : List (Nat × Awaiting.Turn I E)) (i : Nat) :
    heardBy i (Awaiting.run f D debug (Awaiting.init s) l).trace =
      (replaysTo i (Awaiting.run f D debug (Awaiting.init s) l).trace).map .next ++
        Crowd.givesTo i (inner (Awaiting.run f D debug (Awaiting.init s) l).trace) :=
  (run_good hD s l).heard i

/-- C74. A value is published only by `complete`, and is the result of all values sent when `complete` was called. -/
theorem C74_publishes_the_result (hD : D.Contract) (s : Nat → S) (l : List (Nat × Awaiting.Turn I E)) (a k t v b)
    (h : (Awaiting.run f D debug (Awaiting.init s) l).trace = a ++ .core (.call k t (.next v)) :: b) :
    ∃ a', a = a' ++ [.finish t] ∧ result f a' = some v :=
  (run_good hD s l).law a _ b h

/-- C74. The subject is completed only by `complete`: at once, if no value was sent when it was called; otherwise
after the result was published. -/
theorem C74_completes_after (hD : D.Contract) (s : Nat → S) (l : List (Nat × Awaiting.Turn I E)) (a k t b)
    (h : (Awaiting.run f D debug (Awaiting.init s) l).trace = a ++ .core (.call k t .complete) :: b) :
    (∃ a', a = a' ++ [.finish t] ∧ result f a' = none) ∨
      ∃ a' k v c, a = a' ++ .finish t :: .core (.call k t (.next v)) :: c ∧ result f a' = some v ∧ Silent t c ∧
        .ret k ∈ inner c :=
  (run_good hD s l).law a _ b h

/-- What is given to a subscriber beforehand is given before it is subscribed. -/
theorem Awaiting.Law.replays {tr a b : List (Awaiting.Mark I E)} {i t : Nat} {op : Crowd.Op I E} (h : Law f tr)
    (e : tr = a ++ .core (.call i t op) :: b) : replaysTo i tr = replaysTo i a := by
  have hb : replaysTo i b = [] := by
    rw [replaysTo, List.filterMap_eq_nil_iff]
    intro m hm
    cases m with
    | replay j v =>
      by_cases hj : j = i
      · subst hj
        obtain ⟨c, d, rfl⟩ := List.append_of_mem hm
        have := h (a ++ .core (.call j t op) :: c) (.replay j v) d (by rw [e]; simp)
        exact absurd (by simp) (this.1 t op)
      · simp [hj]
    | _ => rfl
  rw [e, replaysTo_append]
  show replaysTo i a ++ replaysTo i b = _
  rw [hb, List.append_nil]

/-- C74. `subscribe` gives the new subscriber nothing if no call that ends the subject had begun, and it may do so as
long as none has returned. Otherwise it gives it the result of all values sent when it asks for it, unless `error` was
called. -/
theorem C74_starts (hD : D.Contract) (s : Nat → S) (l : List (Nat × Awaiting.Turn I E)) (a b i t)
    (h : (Awaiting.run f D debug (Awaiting.init s) l).trace = a ++ .core (.call i t .subscribe) :: b) :
    ∃ a1 a2, a = a1 ++ .enter t :: a2 ∧ Silent t a2 ∧
      ((a2 = [] ∧ replaysTo i (Awaiting.run f D debug (Awaiting.init s) l).trace = [] ∧ ¬ Crowd.Ended (inner a1)) ∨
        (Crowd.Ending (inner a1) ∧ ∃ c d, a2 = c ++ d ∧
          ((replaysTo i (Awaiting.run f D debug (Awaiting.init s) l).trace = (result f (a1 ++ .enter t :: c)).toList ∧
              ∃ j u op, .call j u op ∈ inner a ∧ (op = .complete ∨ op = .unsubscribe)) ∨
            (replaysTo i (Awaiting.run f D debug (Awaiting.init s) l).trace = [] ∧
              ∃ j u e, .call j u (.error e) ∈ inner a)))) := by
  have hl := (run_good (f := f) (debug := debug) hD s l).law
  rw [hl.replays h]
  exact hl a _ b h

/-- C74. A value a subscriber hears is the result of all values sent at some time: when `complete` was called, or later,
after the subject was ended, and not by `error` alone. -/
theorem C74_only_results (hD : D.Contract) (s : Nat → S) (l : List (Nat × Awaiting.Turn I E)) (i : Nat) (v : I)
    (h : .next v ∈ heardBy i (Awaiting.run f D debug (Awaiting.init s) l).trace) :
    ∃ c d, (Awaiting.run f D debug (Awaiting.init s) l).trace = c ++ d ∧ result f c = some v ∧
      ((∃ t d', d = .finish t :: d') ∨ (Crowd.Ending (inner c) ∧
        ∃ j u op, .call j u op ∈ inner (Awaiting.run f D debug (Awaiting.init s) l).trace ∧
          (op = .complete ∨ op = .unsubscribe))) := by
  have hg := run_good (f := f) (debug := debug) hD s l
  obtain ⟨s', l', -, -, e2⟩ := C74_publishes (f := f) (debug := debug) hD s l
  generalize Awaiting.run f D debug (Awaiting.init s) l = x at *
  rw [hg.heard, List.mem_append] at h
  rcases h with h | h
  · simp only [List.mem_map, SubscriberNotification.next.injEq, exists_eq_right] at h
    simp only [replaysTo, List.mem_filterMap] at h
    obtain ⟨m, hm, e⟩ := h
    cases m with
    | replay j w =>
      dsimp only at e
      split at e
      · simp only [Option.some.injEq] at e
        subst e
        obtain ⟨a, b, e⟩ := List.append_of_mem hm
        obtain ⟨-, -, c, d, rfl, h1, h2, j', u, op, h3, h4⟩ := hg.law _ _ _ e
        exact ⟨c, d ++ .replay j w :: b, by rw [e]; simp, h1, .inr ⟨h2, j', u, op, by rw [e, inner_append]; exact List.mem_append_left _ h3, h4⟩⟩
      · cases e
    | _ => cases e
  · obtain ⟨k, hk⟩ := Crowd.give_of_mem_givesTo h
    rw [e2] at hk
    obtain ⟨a, b, e⟩ := List.append_of_mem hk
    obtain ⟨⟨t, op, h1, h2⟩, -⟩ := C70_only_for_a_reason hD s' l' _ _ _ _ _ e
    cases h2
    have h1 : .call k t (.next v) ∈ inner x.trace := by rw [e2, e]; exact List.mem_append_left _ h1
    obtain ⟨a, b, e⟩ := List.append_of_mem (mem_inner.1 h1)
    obtain ⟨a', rfl, h3⟩ := hg.law _ _ _ e
    exact ⟨a', _, by rw [e, List.append_assoc]; rfl, h3, .inl ⟨t, _, rfl⟩⟩

/-- C74. Until `complete` is called, nobody hears a value, unless the subject is unsubscribed. -/
theorem C74_nothing_before (hD : D.Contract) (s : Nat → S) (l : List (Nat × Awaiting.Turn I E))
    (hf : ∀ t, .finish t ∉ (Awaiting.run f D debug (Awaiting.init s) l).trace)
    (hu : ∀ k t, .core (.call k t .unsubscribe) ∉ (Awaiting.run f D debug (Awaiting.init s) l).trace) (i : Nat) (v : I) :
    .next v ∉ heardBy i (Awaiting.run f D debug (Awaiting.init s) l).trace := by
  intro h
  obtain ⟨c, d, e, -, ⟨t, d', rfl⟩ | ⟨-, j, u, op, h1, rfl | rfl⟩⟩ := C74_only_results hD s l i v h
  · exact hf t (by rw [e]; simp)
  · obtain ⟨a, b, e⟩ := List.append_of_mem (mem_inner.1 h1)
    rcases C74_completes_after hD s l _ _ _ _ e with ⟨a', rfl, -⟩ | ⟨a', k, v, c, rfl, -⟩
    · exact hf u (by rw [e]; simp)
    · exact hf u (by rw [e]; simp)
  · exact hu j u (mem_inner.1 h1)

/-- C74. If `complete` is called once, no subscriber hears more than one value.
Missing: the same if it is called twice, which is false (`C74_twice_counterexample`). -/
theorem C74_once_partial (hD : D.Contract) (s : Nat → S) (l : List (Nat × Awaiting.Turn I E))
    (h : finishes (Awaiting.run f D debug (Awaiting.init s) l).trace ≤ 1) (i : Nat) :
    (valuesOf (heardBy i (Awaiting.run f D debug (Awaiting.init s) l).trace)).length ≤ 1 :=
  (run_good hD s l).once hD h i

/-- C74. When all calls have returned and nothing waits, and `complete` was called once, and neither `error` nor
`unsubscribe` was: a subscriber whose `subscribe` had returned before, and whose subscription was not unsubscribed, has
heard the result of all values sent before, if there were any, then the completion, and nothing else, if it was open
and the result does not close it.
Missing: the same of one whose `subscribe` had not returned, which is false (`C74_missed_value_counterexample`), and if
`complete` was called twice, which is false (`C74_twice_counterexample`). -/
theorem C74_hears_the_result_partial (hD : D.Contract) (s : Nat → S) (l : List (Nat × Awaiting.Turn I E))
    (hr : Awaiting.AtRest (Awaiting.run f D debug (Awaiting.init s) l))
    (hq : (Awaiting.run f D debug (Awaiting.init s) l).core.queue = []) (a b t i u)
    (e : (Awaiting.run f D debug (Awaiting.init s) l).trace = a ++ .finish t :: b)
    (ha : ∀ w, .finish w ∉ a) (hb : ∀ w, .finish w ∉ b)
    (hc : ∀ j w op, .call j w op ∈ inner (Awaiting.run f D debug (Awaiting.init s) l).trace → op.isClosing = true →
      op = .complete)
    (hx : ∀ j w, .call j w (.cancel i) ∉ inner (Awaiting.run f D debug (Awaiting.init s) l).trace)
    (hi : .call i u .subscribe ∈ inner a) (hret : .ret i ∈ inner a)
    (ho : D.isClosed (((result f a).toList.map .next).foldl D.push (s i)) = false) :
    heardBy i (Awaiting.run f D debug (Awaiting.init s) l).trace = (result f a).toList.map .next ++ [.complete] :=
  (run_good hD s l).hears hD (run_pursued hD s l) hr hq e ha hb hc hx hi hret ho

/-- Where the thread began to subscribe. -/
theorem Awaiting.enter_unique {a1 a2 c1 c2 : List (Awaiting.Mark I E)} {t : Nat}
    (e : a1 ++ .enter t :: a2 = c1 ++ .enter t :: c2) (hs : Silent t a2) (hc : Silent t c2) : c1 = a1 ∧ c2 = a2 := by
  rcases List.append_eq_append_iff.1 e with ⟨as, ha, hb⟩ | ⟨bs, ha, hb⟩
  · cases as with
    | nil =>
      simp only [List.nil_append, List.cons.injEq, true_and] at hb
      exact ⟨by simpa using ha, hb.symm⟩
    | cons n as =>
      simp only [List.cons_append, List.cons.injEq] at hb
      exact absurd (show Mark.enter t ∈ a2 by rw [hb.2]; simp) hs.1
  · cases bs with
    | nil =>
      simp only [List.nil_append, List.cons.injEq, true_and] at hb
      exact ⟨by simpa using ha.symm, hb⟩
    | cons n bs =>
      simp only [List.cons_append, List.cons.injEq] at hb
      exact absurd (show Mark.enter t ∈ c2 by rw [hb.2]; simp) hc.1

/-- Who begins to subscribe after a call that ends the subject has returned is late. -/
theorem Awaiting.late {tr a1 a2 b : List (Awaiting.Mark I E)} {i t : Nat} (ht : Crowd.Times (inner tr))
    (h : tr = a1 ++ .enter t :: a2 ++ .core (.call i t .subscribe) :: b) (he : Crowd.Ended (inner a1)) :
    Crowd.Late (inner tr) i ∧ .call i t .subscribe ∈ inner tr := by
  have hin : inner tr = inner a1 ++ (inner a2 ++ .call i t .subscribe :: inner b) := by rw [h]; simp [inner]
  refine ⟨?_, by rw [hin]; simp⟩
  obtain ⟨j, u, op, h1, h2, h3⟩ := he
  refine ⟨j, u, op, by rw [hin]; exact List.mem_append_left _ h1, h2, inner a1, _, hin, h3, fun v o hv => ?_⟩
  have := ht.ascending
  rw [hin, Crowd.callIds_append, List.pairwise_append] at this
  have := this.2.2 i (Crowd.mem_callIds.2 ⟨_, _, hv⟩) i (Crowd.mem_callIds.2 ⟨t, .subscribe, by simp⟩)
  omega

/-- C74. Who subscribes after a call of `complete` has returned hears the result of all values sent when `subscribe`
asks for it, if there is one, and then the completion, and nothing else, if the subject was not ended otherwise. (Values
sent after `complete` count, too: C31.) -/
theorem C74_after_complete (hD : D.Contract) (s : Nat → S) (l : List (Nat × Awaiting.Turn I E)) (a1 a2 b i t)
    (h : (Awaiting.run f D debug (Awaiting.init s) l).trace =
      a1 ++ .enter t :: a2 ++ .core (.call i t .subscribe) :: b) (hs : Silent t a2) (he : Crowd.Ended (inner a1))
    (hr : .ret i ∈ inner (Awaiting.run f D debug (Awaiting.init s) l).trace)
    (hk : ∀ j u op, .call j u op ∈ inner (Awaiting.run f D debug (Awaiting.init s) l).trace → op.isClosing = true →
      op = .complete) :
    ∃ c d, a2 = c ++ d ∧
      (D.isClosed (((result f (a1 ++ .enter t :: c)).toList.map .next).foldl D.push (s i)) = false →
        heardBy i (Awaiting.run f D debug (Awaiting.init s) l).trace =
          (result f (a1 ++ .enter t :: c)).toList.map .next ++ [.complete]) := by
  have hg := run_good (f := f) (debug := debug) hD s l
  have hst := C74_starts (f := f) (debug := debug) hD s l _ _ _ _ h
  obtain ⟨s', l', hs', -, e2⟩ := C74_publishes (f := f) (debug := debug) hD s l
  have ht := Crowd.run_times (D := D) (debug := debug) hD s' l'
  rw [← e2] at ht
  generalize Awaiting.run f D debug (Awaiting.init s) l = x at *
  obtain ⟨hl, hi⟩ := Awaiting.late ht h he
  obtain ⟨c1, c2, e, hc, hst⟩ := hst
  obtain ⟨rfl, rfl⟩ := Awaiting.enter_unique e hs hc
  rcases hst with ⟨-, -, h1⟩ | ⟨-, c, d, rfl, ⟨h1, -⟩ | ⟨-, j, u, e', h1⟩⟩
  · exact absurd he h1
  · refine ⟨c, d, rfl, fun ho => ?_⟩
    rw [hg.heard, h1]
    rw [e2] at hi hl hr hk ⊢
    rw [C71_late_complete hD s' l' i t hi hl hr (by rw [hs', h1]; exact ho) hk]
  · have := hk j u (.error e') (by rw [h, inner_append]; exact List.mem_append_left _ h1) rfl
    cases this

/-- C74. Who subscribes after a call of `error` has returned hears nothing but an error that was sent, if the subject
was not ended otherwise. -/
theorem C74_after_error (hD : D.Contract) (s : Nat → S) (l : List (Nat × Awaiting.Turn I E)) (a1 a2 b i t)
    (h : (Awaiting.run f D debug (Awaiting.init s) l).trace =
      a1 ++ .enter t :: a2 ++ .core (.call i t .subscribe) :: b) (hs : Silent t a2) (he : Crowd.Ended (inner a1))
    (hr : .ret i ∈ inner (Awaiting.run f D debug (Awaiting.init s) l).trace) (ho : D.isClosed (s i) = false)
    (hk : ∀ j u op, .call j u op ∈ inner (Awaiting.run f D debug (Awaiting.init s) l).trace → op.isClosing = true →
      ∃ e, op = .error e) :
    ∃ e, heardBy i (Awaiting.run f D debug (Awaiting.init s) l).trace = [.error e] ∧
      ∃ j u, .call j u (.error e) ∈ inner (Awaiting.run f D debug (Awaiting.init s) l).trace := by
  have hg := run_good (f := f) (debug := debug) hD s l
  have hst := C74_starts (f := f) (debug := debug) hD s l _ _ _ _ h
  obtain ⟨s', l', hs', -, e2⟩ := C74_publishes (f := f) (debug := debug) hD s l
  have ht := Crowd.run_times (D := D) (debug := debug) hD s' l'
  rw [← e2] at ht
  generalize Awaiting.run f D debug (Awaiting.init s) l = x at *
  obtain ⟨hl, hi⟩ := Awaiting.late ht h he
  obtain ⟨c1, c2, e, hc, hst⟩ := hst
  obtain ⟨rfl, rfl⟩ := Awaiting.enter_unique e hs hc
  rcases hst with ⟨-, -, h1⟩ | ⟨-, c, d, rfl, ⟨h1, j, u, op, h2, h3⟩ | ⟨hrep, -⟩⟩
  · exact absurd he h1
  · obtain ⟨e', rfl⟩ := hk j u op (by rw [h, inner_append]; exact List.mem_append_left _ h2) (by rcases h3 with rfl | rfl <;> rfl)
    rcases h3 with h3 | h3 <;> cases h3
  · rw [hg.heard, hrep]
    rw [e2] at hi hl hr hk ⊢
    exact C71_late_error hD s' l' i t hi hl hr (by rw [hs', hrep]; exact ho) hk

/-! ### Cases -/

namespace Awaiting

/-- Thread `t` goes on `k` times. -/
def turns (t k : Nat) : List (Nat × Turn Nat Unit) := List.replicate k (t, .core .go)

/-- Thread `t` calls something, undisturbed. -/
def calls (t : Nat) (op : Crowd.Op Nat Unit) : List (Nat × Turn Nat Unit) := (t, .core (.call op)) :: turns t 20

/-- An async subject that adds up the values. -/
def sum (l : List (Nat × Turn Nat Unit)) : State (List (SubscriberNotification Nat Unit) × Bool) Nat Unit :=
  run (· + ·) recorder false (init fun _ => ([], false)) l

/-- Threads that get no turn are not inside a call. -/
theorem others_rest {f : Nat → Nat → Nat} {s : Nat → List (SubscriberNotification Nat Unit) × Bool}
    {n t : Nat} (l : List (Nat × Turn Nat Unit)) (h : l.all (fun a => a.1 < n) = true) (ht : n ≤ t) :
    ((run f recorder debug (init s) l).core.pc t).isIdle = true ∧ (run f recorder debug (init s) l).stage t = .out := by
  induction l using Rx.snoc_induction with
  | nil => exact ⟨rfl, rfl⟩
  | snoc l a ih =>
    rw [List.all_append, Bool.and_eq_true] at h
    have ih := ih h.1
    have hne : t ≠ a.1 := by
      have := h.2
      simp at this
      omega
    have hg := run_good (f := f) (debug := debug) recorder_contract s l
    have hi := hg.inv recorder_contract
    have hc := change_step (debug := debug) (f := f) (t := a.1) recorder_contract hi hg.idle a.2
    rw [run_snoc]
    generalize run f recorder debug (init s) l = x at *
    generalize step f recorder debug x a.1 a.2 = y at *
    have key : ∀ b, (Crowd.step recorder debug x.core a.1 b).pc t = x.core.pc t := fun b => by
      obtain ⟨-, -, hh, -⟩ := hi.moves (debug := debug) recorder_contract a.1 b
      exact hh.other hne
    cases hc with
    | quiet b _ _ core _ _ _ _ stage => rw [core, stage, key]; exact ih
    | call _ _ _ _ _ core _ _ stage _ => rw [core, stage, key]; exact ⟨ih.1, by simpa [hne] using ih.2⟩
    | store _ _ core _ _ stage => rw [core, stage]; exact ih
    | found _ _ _ core _ _ stage => rw [core, stage]; exact ⟨ih.1, by simpa [hne] using ih.2⟩
    | copy _ core _ _ stage => rw [core, stage]; exact ⟨ih.1, by simpa [hne] using ih.2⟩
    | subscribe o h0 core _ _ stage =>
      rw [core, stage, Keeping.step_call (by exact hg.idle _ (.inr ⟨_, h0⟩)) rfl]
      refine ⟨?_, by simpa [hne] using ih.2⟩
      simpa [Crowd.State.goto, hne, Keeping.primed, Crowd.State.note] using ih.1
    | read core _ _ stage => rw [core, stage]; exact ih

end Awaiting

/-- Threads 0 and 1 call `complete` at once. -/
def doubled : List (Nat × Awaiting.Turn Nat Unit) :=
  Awaiting.calls 0 .subscribe ++ Awaiting.calls 0 (.next 2) ++ Awaiting.calls 1 (.next 3) ++
    [(0, .core (.call .complete))] ++ Awaiting.turns 0 7 ++ [(1, .core (.call .complete))] ++ Awaiting.turns 1 7 ++
    Awaiting.turns 0 20 ++ Awaiting.turns 1 20

/-- C74 fails: two threads call `complete` at once, and the subscriber hears the result twice. -/
theorem C74_twice_counterexample : ∃ l : List (Nat × Awaiting.Turn Nat Unit),
    Awaiting.AtRest (Awaiting.sum l) ∧ (Awaiting.sum l).core.queue = [] ∧
      (Awaiting.sum l).core.dests 0 = ([.next 5, .next 5, .complete], true) := by
  refine ⟨doubled, fun t => ?_, ?_, ?_⟩
  · match t with
    | 0 => decide +kernel
    | 1 => decide +kernel
    | t + 2 =>
      unfold Awaiting.sum
      generalize h : doubled = l
      exact Awaiting.others_rest (n := 2) l (by rw [← h]; decide +kernel) (by omega)
  all_goals decide +kernel

/-- C74 fails: `subscribe` and `complete` are called at once: the subscriber hears the completion without the result. -/
theorem C74_missed_value_counterexample : ∃ l : List (Nat × Awaiting.Turn Nat Unit),
    Awaiting.AtRest (Awaiting.sum l) ∧ (Awaiting.sum l).core.queue = [] ∧
      (Awaiting.sum l).core.dests 0 = ([.complete], true) ∧
      (Awaiting.sum l).trace = [.store 0 2, .enter 1, .core (.call 0 1 .subscribe), .finish 0,
        .core (.call 1 0 (.next 2)), .core (.ret 1), .core (.call 2 0 .complete), .core (.give 0 0 .complete),
        .core (.ret 0), .core (.ret 2)] := by
  refine ⟨Awaiting.calls 0 (.next 2) ++ [(1, .core (.call .subscribe))] ++ Awaiting.turns 1 1 ++
    [(0, .core (.call .complete))] ++ Awaiting.turns 0 9 ++ Awaiting.turns 1 20 ++ Awaiting.turns 0 20,
    fun t => ?_, ?_, ?_, ?_⟩
  · match t with
    | 0 => decide +kernel
    | 1 => decide +kernel
    | t + 2 => exact Awaiting.others_rest (n := 2) _ (by decide +kernel) (by omega)
  all_goals decide +kernel

/-- Threads 0 and 2 send values, thread 1 subscribes and completes, and thread 2 subscribes after that. -/
def awaited : List (Nat × Awaiting.Turn Nat Unit) :=
  Awaiting.calls 0 (.next 2) ++ Awaiting.calls 1 .subscribe ++ Awaiting.calls 2 (.next 3) ++ Awaiting.calls 1 .complete ++
    Awaiting.calls 2 .subscribe ++ [(0, .read)]

theorem awaited_trace : (Awaiting.sum awaited).trace =
    [.store 0 2, .enter 1, .core (.call 0 1 .subscribe), .core (.ret 0), .store 2 3] ++ .finish 1 ::
      [.core (.call 1 1 (.next 5)), .core (.give 1 0 (.next 5)), .core (.ret 1), .core (.call 2 1 .complete),
        .core (.give 2 0 .complete), .core (.ret 2), .enter 2, .replay 3 5, .core (.call 3 2 .subscribe),
        .core (.give 3 3 .complete), .core (.ret 3), .read 0 (some 5)] := by
  decide +kernel

-- it meets the hypotheses of `C74_hears_the_result_partial` and `C74_after_complete`
example : Awaiting.AtRest (Awaiting.sum awaited) ∧ (Awaiting.sum awaited).core.queue = [] := by
  refine ⟨fun t => ?_, by decide +kernel⟩
  match t with
  | 0 => decide +kernel
  | 1 => decide +kernel
  | 2 => decide +kernel
  | t + 3 =>
    unfold Awaiting.sum
    generalize h : awaited = l
    exact Awaiting.others_rest (n := 3) l (by rw [← h]; decide +kernel) (by omega)

theorem awaited_inner : inner (Awaiting.sum awaited).trace =
    [.call 0 1 .subscribe, .ret 0, .call 1 1 (.next 5), .give 1 0 (.next 5), .ret 1, .call 2 1 .complete,
      .give 2 0 .complete, .ret 2, .call 3 2 .subscribe, .give 3 3 .complete, .ret 3] := by decide +kernel

example : (∀ j w op, .call j w op ∈ inner (Awaiting.sum awaited).trace → op.isClosing = true → op = .complete) ∧
    (∀ j w, .call j w (.cancel 0) ∉ inner (Awaiting.sum awaited).trace) ∧
    Crowd.Ended (inner ((Awaiting.sum awaited).trace.take 12)) := by
  rw [awaited_inner]
  refine ⟨fun j w op h ho => ?_, by simp, 2, 1, .complete, ?_⟩
  · simp at h
    rcases h with ⟨-, -, rfl⟩ | ⟨-, -, rfl⟩ | ⟨-, -, rfl⟩ | ⟨-, -, rfl⟩ <;> first | rfl | cases ho
  · decide +kernel

-- after `error`
example : (Awaiting.sum (Awaiting.calls 0 (.next 2) ++ Awaiting.calls 1 (.error ()) ++ Awaiting.calls 2 .subscribe)).trace =
    [.store 0 2, .core (.call 0 1 (.error ())), .core (.ret 0), .enter 2, .core (.call 1 2 .subscribe),
      .core (.give 1 1 (.error ())), .core (.ret 1)] := by decide +kernel

end Rx
