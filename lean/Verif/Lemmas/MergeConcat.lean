import Verif.Lemmas.Concurrent
import Verif.Spec.MergeConcat

/-!
# Lemmas for `merge` and `concat`
-/

namespace Rx.HigherOrder

variable {S I E : Type}

theorem outerNotes_handOver (inputs : List (Src I E)) :
    outerNotes (handOver inputs) = inputs.map .next ++ [.complete] := by
  simp only [handOver, outerNotes, List.filterMap_append, List.filterMap_map]
  congr 1
  induction inputs with
  | nil => rfl
  | cons src inputs ih => simpa using ih

theorem outerNotes_append (es es' : List (Event I E)) : outerNotes (es ++ es') = outerNotes es ++ outerNotes es' :=
  List.filterMap_append

theorem outerNotes_after (l : List (After I E)) : ∀ n ∈ outerNotes (l.map After.event), n = .unsubscribe := by
  intro n hn
  simp only [outerNotes, List.mem_filterMap, List.mem_map] at hn
  obtain ⟨e, ⟨a, _, rfl⟩, h⟩ := hn
  cases a with
  | input a n => cases h
  | unsubscribe => cases h; rfl

theorem conforming_unsubs {l : List (SubscriberNotification (Src I E) E)} (h : ∀ n ∈ l, n = .unsubscribe) : Conforming l := by
  induction l with
  | nil => trivial
  | cons n l ih => exact ⟨fun _ m hm => h m (List.mem_cons_of_mem _ hm), ih fun m hm => h m (List.mem_cons_of_mem _ hm)⟩

theorem conforming_values (inputs : List (Src I E)) {l : List (SubscriberNotification (Src I E) E)} (h : Conforming l) :
    Conforming (inputs.map SubscriberNotification.next ++ l) := by
  induction inputs with
  | nil => exact h
  | cons src inputs ih => exact ⟨fun h => by simp [SubscriberNotification.isTerminal] at h, ih⟩

theorem conforming_whole (inputs : List (Src I E)) (l : List (After I E)) :
    Conforming (outerNotes (handOver inputs ++ l.map After.event)) := by
  rw [outerNotes_append, outerNotes_handOver, List.append_assoc]
  exact conforming_values _ ⟨fun _ => outerNotes_after l, conforming_unsubs (outerNotes_after l)⟩

theorem filter_whole (p : SubscriberNotification (Src I E) E → Bool) (h1 : ∀ src, p (.next src) = true)
    (h2 : p .complete = false) (h3 : p .unsubscribe = false) (inputs : List (Src I E)) (l : List (After I E)) :
    ((outerNotes (handOver inputs ++ l.map After.event)).filter p).length = inputs.length := by
  rw [outerNotes_append, outerNotes_handOver, List.filter_append, List.filter_append,
    List.filter_eq_self.2 (by simp [h1]), List.filter_eq_nil_iff.2 (by simp [h2]),
    List.filter_eq_nil_iff.2 (fun n hn => by rw [outerNotes_after l n hn, h3]; simp)]
  simp

theorem arrivals_whole (inputs : List (Src I E)) (l : List (After I E)) :
    arrivals (handOver inputs ++ l.map After.event) = inputs.length :=
  filter_whole _ (fun _ => rfl) rfl rfl inputs l

theorem complete_whole (inputs : List (Src I E)) (l : List (After I E)) :
    .complete ∈ outerNotes (handOver inputs ++ l.map After.event) := by
  rw [outerNotes_append, outerNotes_handOver]
  simp

theorem only_whole {ok : SubscriberNotification I E → Prop} {inputs : List (Src I E)} {l : List (After I E)}
    (h1 : ∀ src ∈ inputs, ∀ n ∈ src, ok n) (h2 : ∀ a n, .input a n ∈ l → ok n) :
    ∀ e ∈ handOver inputs ++ l.map After.event, e.Only ok := by
  intro e he
  simp only [handOver, List.mem_append, List.mem_map, List.mem_singleton] at he
  rcases he with (⟨src, hs, rfl⟩ | rfl) | ⟨a, ha, rfl⟩
  · exact h1 src hs
  · trivial
  · cases a with
    | input a n => exact h2 a n ha
    | unsubscribe => trivial

theorem NoneStops.tidy {inputs : List (Src I E)} {l : List (After I E)} (h : NoneStops inputs l) :
    Tidy (handOver inputs ++ l.map After.event) :=
  only_whole (fun src hs n hn he => h.1 src hs (he ▸ hn)) (fun a n hn he => h.2 a (he ▸ hn))

theorem AllWell.clean {inputs : List (Src I E)} {l : List (After I E)} (h : AllWell inputs l) :
    Clean (handOver inputs ++ l.map After.event) := by
  obtain ⟨h1, h2, h3, h4⟩ := h
  refine ⟨only_whole (fun src hs n hn => ⟨fun he => h1.1 src hs (he ▸ hn), fun e he => h2 src hs e (he ▸ hn)⟩)
    (fun a n hn => ⟨fun he => h1.2 a (he ▸ hn), fun e he => h3 a e (he ▸ hn)⟩), ?_⟩
  intro n hn
  rw [outerNotes_append, outerNotes_handOver] at hn
  simp only [List.mem_append, List.mem_map, List.mem_singleton] at hn
  rcases hn with (⟨src, _, rfl⟩ | rfl) | hn
  · exact ⟨(by simp), (by simp)⟩
  · exact ⟨(by simp), (by simp)⟩
  · exfalso
    simp only [outerNotes, List.mem_filterMap, List.mem_map] at hn
    obtain ⟨e, ⟨a, ha, rfl⟩, _⟩ := hn
    cases a with
    | input a n => contradiction
    | unsubscribe => exact h4 ha

namespace Concurrent
variable {D : Sub S I E} {limit : Nat}

/-- Nothing is going on. -/
structure Idle (D : Sub S I E) (x : State S I E) : Prop where
  dest : D.isClosed x.dest = false
  queue : x.queue = []
  nonC : x.nonCompleted = 0
  nonU : x.nonUnsubscribed = 0
  up : x.up = .default
  down : x.down = .default
  opened : x.opened = []
  slab : x.slab.filterMap id = []
  outer : x.outerClosed = false

/-- Values emitted while subscribing: the whole state. -/
theorem values_all {T : Action S I E} {onC onU : Nat → Action S I E} {a : Nat} (hp : Patient D) (vs : List I) :
    ∀ {x : State S I E} (_ : D.isClosed x.dest = false) (_ : a ∈ x.opened),
    (vs.map SubscriberNotification.next).foldlM (innerPush D T onC onU a) x = .ok { x with
      dest := (vs.map .next).foldl D.push x.dest
      log := x.log ++ vs.map fun v => .out (some a) (.next v) } ∧
    D.isClosed ((vs.map .next).foldl D.push x.dest) = false := by
  induction vs with
  | nil => exact fun {x} h _ => ⟨by simp [pure, Except.pure], h⟩
  | cons v vs ih =>
    intro x hd ha
    have hd' : D.isClosed (D.push x.dest (.next v)) = false := hp x.dest v hd
    obtain ⟨hy, h1⟩ := ih (x := { x with dest := D.push x.dest (.next v), log := x.log ++ [.out (some a) (.next v)] }) hd' ha
    refine ⟨?_, h1⟩
    simp only [List.map_cons, List.foldlM_cons, bind, Except.bind, innerPush, ha, if_true, innerHandle, innerNext, give,
        hd, Bool.false_eq_true, if_false, hd', pure, Except.pure]
    simp only [bind, Except.bind, pure, Except.pure] at hy
    refine Eq.trans ?_ (hy.trans ?_)
    · rfl
    · simp

theorem idle_complete (hl : 0 < limit) (hp : Patient D) {x : State S I E} (h : Idle D x) (vs : List I) :
    ∃ y, step D limit x (.outer (.next (vs.map .next ++ [.complete]))) = .ok y ∧ Idle D y ∧
      y.dest = (vs.map .next).foldl D.push x.dest ∧ y.arrived = x.arrived + 1 ∧
      y.log = x.log ++ (.sub x.arrived :: (vs.map fun v => .out (some x.arrived) (.next v)) ++ [.done x.arrived]) := by
  obtain ⟨dest, queue, nonC, nonU, up, down, opened, busy, key, slab, current, outer, arrived, log⟩ := x
  obtain ⟨h1, h2, h3, h4, h5, h6, h7, h8, h9⟩ := h
  dsimp only at h1 h2 h3 h4 h5 h6 h7 h8 h9 ⊢
  subst h2 h3 h4 h5 h6 h7 h9
  have hv := values_all (D := D) (T := teardown D limit) (onC := fun _ => pop D limit (teardown D limit) 1)
    (onU := onUnsubscribe D limit (teardown D limit) (pop D limit (teardown D limit) 1)) (a := arrived) hp vs
    (x := {
      dest := dest, queue := [], nonCompleted := 1, nonUnsubscribed := 1, up := .default, down := .default
      opened := [arrived], busy := arrived :: busy, key := fun b => if b = arrived then slab.length else key b
      slab := slab ++ [none], current := current, outerClosed := false, arrived := arrived + 1
      log := log ++ [.sub arrived] }) h1 (by simp)
  obtain ⟨hv, hv'⟩ := hv
  refine ⟨{
    dest := (vs.map .next).foldl D.push dest, queue := [], nonCompleted := 0, nonUnsubscribed := 0, up := .default
    down := .default, opened := [], busy := busy, key := fun b => if b = arrived then slab.length else key b
    slab := slab ++ [none], current := current, outerClosed := false, arrived := arrived + 1
    log := log ++ [.sub arrived] ++ (vs.map fun v => .out (some arrived) (.next v)) ++ [.done arrived] }, ?_, ?_⟩
  · simp only [step, next, isClosed, h1, Bool.or_self, Bool.false_eq_true, if_false, hl, if_true, create, innerSubscribe, State.reserve,
      bind, Except.bind, pure, Except.pure, List.foldlM_append, List.length_nil, Nat.zero_add, List.nil_append]
    simp only [bind, Except.bind, pure, Except.pure] at hv
    rw [hv]
    simp [innerPush, innerHandle, innerComplete, innerCompleted, innerUnsubscribe, State.innerUnsubscribed, State.dec,
      State.canComplete, State.canUnsubscribe, onUnsubscribe, pop, bind, Except.bind, pure, Except.pure,
      SubscriberState.default, SubscriberState.isCompleted, SubscriberState.isUnsubscribed, SubscriberState.isErrored,
      SubscriberState.isClosed, SubscriberState.isFinished]
  · exact ⟨⟨hv', rfl, rfl, rfl, rfl, rfl, rfl, by simpa using h8, rfl⟩, rfl, rfl, by simp⟩

theorem idle_error (hl : 0 < limit) (hD : Closes D) (hp : Patient D) {x : State S I E} (h : Idle D x) (vs : List I) (e : E) :
    ∃ y, step D limit x (.outer (.next (vs.map .next ++ [.error e]))) = .ok y ∧ Dead D [] y ∧
      y.dest = D.push ((vs.map .next).foldl D.push x.dest) (.error e) ∧
      y.log = x.log ++ (.sub x.arrived :: (vs.map fun v => .out (some x.arrived) (.next v)) ++
        [.out (some x.arrived) (.error e), .done x.arrived]) := by
  obtain ⟨dest, queue, nonC, nonU, up, down, opened, busy, key, slab, current, outer, arrived, log⟩ := x
  obtain ⟨h1, h2, h3, h4, h5, h6, h7, h8, h9⟩ := h
  dsimp only at h1 h2 h3 h4 h5 h6 h7 h8 h9 ⊢
  subst h2 h3 h4 h5 h6 h7 h9
  obtain ⟨hv, hv'⟩ := values_all (D := D) (T := teardown D limit) (onC := fun _ => pop D limit (teardown D limit) 1)
    (onU := onUnsubscribe D limit (teardown D limit) (pop D limit (teardown D limit) 1)) (a := arrived) hp vs
    (x := {
      dest := dest, queue := [], nonCompleted := 1, nonUnsubscribed := 1, up := .default, down := .default
      opened := [arrived], busy := arrived :: busy, key := fun b => if b = arrived then slab.length else key b
      slab := slab ++ [none], current := current, outerClosed := false, arrived := arrived + 1
      log := log ++ [.sub arrived] }) h1 (by simp)
  dsimp only at hv'
  have hc := hD ((vs.map .next).foldl D.push dest) (.error e) rfl
  have h8' : (slab ++ [none]).filterMap id = [] := by simpa using h8
  refine ⟨{
    dest := D.push ((vs.map .next).foldl D.push dest) (.error e), queue := [], nonCompleted := 0, nonUnsubscribed := 0
    up := SubscriberState.default.unsubscribeIfNotAlready
    down := { SubscriberState.default with waiting := false, errored := true, unsubscribed := true }
    opened := [], busy := busy, key := fun b => if b = arrived then slab.length else key b
    slab := [], current := current, outerClosed := true, arrived := arrived + 1
    log := log ++ [.sub arrived] ++ (vs.map fun v => .out (some arrived) (.next v)) ++
      [.out (some arrived) (.error e)] ++ [.done arrived] }, ?_, ?_⟩
  · simp only [step, next, isClosed, h1, Bool.or_self, Bool.false_eq_true, if_false, hl, if_true, create, innerSubscribe, State.reserve,
      bind, Except.bind, pure, Except.pure, List.foldlM_append, List.length_nil, Nat.zero_add, List.nil_append]
    simp only [bind, Except.bind, pure, Except.pure] at hv
    rw [hv]
    simp only [List.foldlM_cons, List.foldlM_nil, innerPush, innerHandle, innerError, State.downstreamError, bind, Except.bind,
      pure, Except.pure, List.mem_singleton, if_true, State.check, SubscriberState.error, SubscriberState.isClosed,
      SubscriberState.isFinished, SubscriberState.isUnsubscribed, SubscriberState.isCompleted, SubscriberState.isErrored,
      SubscriberState.default, Bool.or_self, Bool.false_eq_true, if_false, give, hv', hc, teardown, drain, h8',
      innerUnsubscribe, State.innerUnsubscribed, State.dec, State.canUnsubscribe, onUnsubscribe]
    simp [SubscriberState.isUnsubscribed, SubscriberState.isErrored, SubscriberState.isClosed, SubscriberState.isFinished,
      SubscriberState.isCompleted, SubscriberState.unsubscribeIfNotAlready]
  · exact ⟨⟨rfl, hc, rfl, rfl, (fun _ h => h), fun h => absurd rfl h⟩, rfl, by simp⟩

theorem idle_end (hD : Closes D) {x : State S I E} (h : Idle D x) :
    ∃ y, step D limit x (.outer .complete) = .ok y ∧ Dead D [] y ∧ y.dest = D.push x.dest .complete ∧
      y.log = x.log ++ [.out none .complete] := by
  obtain ⟨dest, queue, nonC, nonU, up, down, opened, busy, key, slab, current, outer, arrived, log⟩ := x
  obtain ⟨h1, h2, h3, h4, h5, h6, h7, h8, h9⟩ := h
  dsimp only at h1 h2 h3 h4 h5 h6 h7 h8 h9 ⊢
  subst h2 h3 h4 h5 h6 h7 h9
  have hc := hD dest .complete rfl
  refine ⟨{
    dest := D.push dest .complete, queue := [], nonCompleted := 0, nonUnsubscribed := 0
    up := { SubscriberState.default with waiting := false, completed := true, unsubscribed := true }
    down := .default, opened := [], busy := busy, key := key, slab := [], current := current, outerClosed := true
    arrived := arrived, log := log ++ [.out none .complete] }, ?_, ?_⟩
  · simp [step, complete, isClosed, h1, State.upstreamCompleted, State.check, SubscriberState.complete,
      SubscriberState.unsubscribe, SubscriberState.isClosed, SubscriberState.isUnsubscribed, SubscriberState.isFinished,
      SubscriberState.isCompleted, SubscriberState.isErrored, SubscriberState.default, State.canComplete, give, hc, teardown,
      drain, h8, bind, Except.bind, pure, Except.pure, SubscriberState.unsubscribeIfNotAlready]
  · exact ⟨⟨rfl, hc, rfl, rfl, (fun _ h => h), fun h => absurd rfl h⟩, rfl, rfl⟩

/-- Once everything has ended nothing happens. -/
theorem dead_all (es : List (Event I E)) : ∀ {x : State S I E} (_ : Dead D [] x),
    ∃ y, run D limit x es = .ok y ∧ y.log = x.log ∧ y.dest = x.dest ∧ Dead D [] y := by
  induction es with
  | nil => exact fun h => ⟨_, rfl, rfl, rfl, h⟩
  | cons e es ih =>
    intro x h
    have hc : isClosed D x = true := by simp [isClosed, h.outer]
    obtain ⟨y, hy, h1, h2, h3⟩ : ∃ y, step D limit x e = .ok y ∧ y.log = x.log ∧ y.dest = x.dest ∧ Dead D [] y := by
      obtain ⟨y, hy, h1, h2⟩ := dead_step (limit := limit) h e
      refine ⟨y, hy, h1, ?_, h2⟩
      cases e with
      | inner a n =>
        have : a ∉ x.opened := fun ha => by
          have := h.mem a ha
          cases this
        simp [step, inner, innerPush, this] at hy
        rw [hy]
      | outer n =>
        cases n with
        | next src =>
          have hc' : isClosed D { x with arrived := x.arrived + 1 } = true := hc
          simp only [step, next, hc', if_true] at hy
          cases hy
          rfl
        | error e => simp [step, error, hc] at hy; rw [hy]
        | complete => simp [step, complete, hc] at hy; rw [hy]
        | unsubscribe => simp [step, unsubscribe, hc] at hy; rw [hy]
    obtain ⟨z, hz, k1, k2, k3⟩ := ih h3
    refine ⟨z, ?_, k1.trans h1, k2.trans h2, k3⟩
    simp only [run, List.foldlM_cons, hy, bind, Except.bind]
    exact hz

theorem outs_values (a : Nat) (vs : List I) :
    outsOf (vs.map fun v => (.out (some a) (.next v) : Log I E)) = vs.map .next := by
  induction vs with
  | nil => rfl
  | cons v vs ih => simpa [outsOf, Log.asOut] using ih

/-- The inputs are played, one after the other. -/
theorem play (hl : 0 < limit) (hD : Closes D) (hp : Patient D) (ps : List (Sync I E)) :
    ∀ {x : State S I E} (_ : Idle D x),
    ∃ y, run D limit x (handOver (ps.map Sync.src)) = .ok y ∧ Dead D [] y ∧
      y.dest = (playAll ps).foldl D.push x.dest ∧ outsOf y.log = outsOf x.log ++ playAll ps := by
  induction ps with
  | nil =>
    intro x hx
    obtain ⟨y, h1, h2, h3, h4⟩ := idle_end (limit := limit) hD hx
    refine ⟨y, ?_, h2, h3, by rw [h4]; simp [outsOf, Log.asOut, playAll]⟩
    simp [handOver, run, h1]
  | cons p ps ih =>
    intro x hx
    have hrun : ∀ y, step D limit x (.outer (.next p.src)) = .ok y →
        run D limit x (handOver ((p :: ps).map Sync.src)) = run D limit y (handOver (ps.map Sync.src)) := by
      intro y hy
      simp only [handOver, List.map_cons, List.cons_append, run, List.foldlM_cons, hy, bind, Except.bind]
    obtain ⟨vs, f⟩ := p
    cases f with
    | none =>
      obtain ⟨y, h1, h2, h3, _, h5⟩ := idle_complete hl hp hx vs
      obtain ⟨z, k1, k2, k3, k4⟩ := ih h2
      refine ⟨z, (hrun y h1).trans k1, k2, ?_, ?_⟩
      · rw [k3, h3]; simp [playAll]
      · rw [k4, h5]
        have := outs_values (E := E) x.arrived vs
        simp only [outsOf] at this ⊢
        simp only [List.filterMap_append, List.filterMap_cons, Log.asOut, this, playAll]
        simp
    | some e =>
      obtain ⟨y, h1, h2, h3, h5⟩ := idle_error hl hD hp hx vs e
      obtain ⟨z, k1, k2, k3, k4⟩ := dead_all (limit := limit) (handOver (ps.map Sync.src)) h2
      refine ⟨z, (hrun y h1).trans k1, k4, ?_, ?_⟩
      · rw [k3, h3]; simp [playAll]
      · rw [k2, h5]
        have := outs_values (E := E) x.arrived vs
        simp only [outsOf] at this ⊢
        simp only [List.filterMap_append, List.filterMap_cons, Log.asOut, this, playAll]
        simp

end Concurrent

end Rx.HigherOrder
