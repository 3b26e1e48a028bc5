import Verif.Lemmas.PipelineLaws

/-!
# C01, C02, C05: what holds at the end of every pipeline

A pipeline is any chain of the operators enumerated by `Op` (any user closures). Its source is an
arbitrary program `src : Prog I E β` against the head subscriber: it may call `next`, `error`,
`complete`, `unsubscribe`, `add_teardown` in any order (also after the stream has ended) and look at
`is_closed()`. The bottom is an `ObserverSubscriber`, whose log is what the user's observer and
teardown closures experience.
-/

namespace Rx

/-- Bottom of a pipeline after subscribing it to a fresh observer and running a source. -/
def runToEnd {I E O F β : Type} (p : Pipeline I E O F) (src : Prog I E β) : ObsState O F :=
  p.bottom (p.subscribe src (observerSubscriber O F) ObsState.new).2

/-- A plain sequence of calls as a source. -/
def callsProg {I E : Type} : List (Call I E) → Prog I E Unit
  | [] => .ret ()
  | c :: cs => .call c (callsProg cs)

theorem callsProg_run {S I E : Type} (D : Sub S I E) (cs : List (Call I E)) (s : S) :
    ((callsProg cs).run D s).2 = D.calls s cs := by
  induction cs generalizing s with
  | nil => rfl
  | cons c cs ih => exact ih _

/-- Shape of the log of an observer subscriber that was handed the teardowns `ts`. -/
def LogShape {I E : Type} (ts : List Nat) (s : ObsState I E) : Prop :=
  ∃ (vs : List I) (t : Option (ObserverTerminalNotification E)),
    s.log = vs.map (fun v => .seen (.next v)) ++
      (t.map fun t => .seen (ObserverNotification.ofTerminal t)).toList ++
      (if s.teardown.closed then ts.map .tornDown else []) ∧
    (t.isSome = true → s.teardown.closed = true) ∧
    (s.teardown.closed = false → s.teardown.finalizers = ts)

theorem logShape_path {I E : Type} {ts : List Nat} {s : ObsState I E}
    (h : Path (observerSubscriber I E) ObsState.new ts s) : LogShape ts s := by
  induction h with
  | refl => exact ⟨[], none, rfl, fun h => (by cases h), fun _ => rfl⟩
  | @next ts s v _ ih =>
    obtain ⟨vs, t, h1, h2, h3⟩ := ih
    cases hc : s.teardown.closed with
    | true => simpa [observerSubscriber, SubscriptionData.isClosed, hc] using ⟨vs, t, h1, h2, h3⟩
    | false =>
      have ht : t = none := by cases t with | none => rfl | some t => simp [hc] at h2
      subst ht
      refine ⟨vs ++ [v], none, ?_, ?_, ?_⟩
      · simp only [hc] at h1
        simp [observerSubscriber, SubscriptionData.isClosed, hc, h1]
      · intro h; cases h
      · simpa [observerSubscriber, SubscriptionData.isClosed, hc] using h3
  | @error ts s e _ ih =>
    obtain ⟨vs, t, h1, h2, h3⟩ := ih
    cases hc : s.teardown.closed with
    | true => simpa [observerSubscriber, SubscriptionData.isClosed, hc] using ⟨vs, t, h1, h2, h3⟩
    | false =>
      have ht : t = none := by cases t with | none => rfl | some t => simp [hc] at h2
      subst ht
      refine ⟨vs, some (.error e), ?_, ?_, ?_⟩
      · simp only [hc] at h1
        simp [observerSubscriber, SubscriptionData.isClosed, hc, h1, ObsState.unsubscribe,
          SubscriptionData.unsubscribe, h3 hc, ObserverNotification.ofTerminal]
      · simp [observerSubscriber, SubscriptionData.isClosed, hc, ObsState.unsubscribe,
          SubscriptionData.unsubscribe]
      · simp [observerSubscriber, SubscriptionData.isClosed, hc, ObsState.unsubscribe,
          SubscriptionData.unsubscribe]
  | @complete ts s _ ih =>
    obtain ⟨vs, t, h1, h2, h3⟩ := ih
    cases hc : s.teardown.closed with
    | true => simpa [observerSubscriber, SubscriptionData.isClosed, hc] using ⟨vs, t, h1, h2, h3⟩
    | false =>
      have ht : t = none := by cases t with | none => rfl | some t => simp [hc] at h2
      subst ht
      refine ⟨vs, some .complete, ?_, ?_, ?_⟩
      · simp only [hc] at h1
        simp [observerSubscriber, SubscriptionData.isClosed, hc, h1, ObsState.unsubscribe,
          SubscriptionData.unsubscribe, h3 hc, ObserverNotification.ofTerminal]
      · simp [observerSubscriber, SubscriptionData.isClosed, hc, ObsState.unsubscribe,
          SubscriptionData.unsubscribe]
      · simp [observerSubscriber, SubscriptionData.isClosed, hc, ObsState.unsubscribe,
          SubscriptionData.unsubscribe]
  | @unsubscribe ts s _ ih =>
    obtain ⟨vs, t, h1, h2, h3⟩ := ih
    cases hc : s.teardown.closed with
    | true => simpa [observerSubscriber, SubscriptionData.isClosed, hc, ObsState.unsubscribe,
        SubscriptionData.unsubscribe] using ⟨vs, t, h1, h2, h3⟩
    | false =>
      have ht : t = none := by cases t with | none => rfl | some t => simp [hc] at h2
      subst ht
      refine ⟨vs, none, ?_, ?_, ?_⟩
      · simp only [hc] at h1
        simp [observerSubscriber, SubscriptionData.isClosed, hc, h1, ObsState.unsubscribe,
          SubscriptionData.unsubscribe, h3 hc]
      · intro h; cases h
      · simp [observerSubscriber, SubscriptionData.isClosed, hc, ObsState.unsubscribe,
          SubscriptionData.unsubscribe]
  | @addTeardown ts s x _ ih =>
    obtain ⟨vs, t, h1, h2, h3⟩ := ih
    cases hc : s.teardown.closed with
    | true =>
      refine ⟨vs, t, ?_, ?_, ?_⟩
      · simp only [hc] at h1
        simp [observerSubscriber, SubscriptionData.isClosed, hc, h1, SubscriptionData.addTeardown,
          Teardown.execute]
      · simp [observerSubscriber, SubscriptionData.isClosed, hc, SubscriptionData.addTeardown]
      · simp [observerSubscriber, SubscriptionData.isClosed, hc, SubscriptionData.addTeardown]
    | false =>
      have ht : t = none := by cases t with | none => rfl | some t => simp [hc] at h2
      subst ht
      refine ⟨vs, none, ?_, ?_, ?_⟩
      · simp only [hc] at h1
        cases x <;> simp [observerSubscriber, SubscriptionData.isClosed, hc, h1,
          SubscriptionData.addTeardown, Teardown.take]
      · intro h; cases h
      · cases x <;> simp [observerSubscriber, SubscriptionData.isClosed, hc, h3 hc,
          SubscriptionData.addTeardown, Teardown.take]

theorem runToEnd_path {I E O F β : Type} (p : Pipeline I E O F) (src : Prog I E β) :
    ∃ ts, Path (observerSubscriber O F) ObsState.new ts (runToEnd p src) := by
  obtain ⟨ts, -, h⟩ := p.pathInit (observerSubscriber O F) ObsState.new
  obtain ⟨us, h'⟩ := p.pathProg (observerSubscriber O F) (p.init _ ObsState.new) src
  exact ⟨_, h.trans h'⟩

/-! ## C01 -/

/-- **C01** Whatever a source does with the head of any pipeline, the observer at its end sees
`Next* (Error|Complete)?`. -/
theorem C01_observer_grammar {I E O F β : Type} (p : Pipeline I E O F) (src : Prog I E β) :
    ObserverGrammar (runToEnd p src).seen := by
  obtain ⟨ts, h⟩ := runToEnd_path p src
  obtain ⟨vs, t, h1, -, -⟩ := logShape_path h
  refine ⟨vs, t, ?_⟩
  rw [ObsState.seen, h1]
  simp only [List.filterMap_append, List.filterMap_map, Function.comp_def]
  have : List.filterMap Event.asSeen
      (if (runToEnd p src).teardown.closed then ts.map (Event.tornDown (I := O) (E := F)) else [])
      = [] := by
    split <;> simp [Function.comp_def, Event.asSeen]
  rw [this]
  cases t <;> simp [Event.asSeen]

/-- non-vacuity: a pipeline fed by a misbehaving source -/
example : (runToEnd (.cons (.map (· + 1)) (.cons (.take 2) .nil) : Pipeline Nat Nat Nat Nat)
    (callsProg [.note (.next 1), .note (.next 2), .note (.next 3), .note .complete,
      .note (.error 7), .note (.next 4)])).seen = [.next 2, .next 3, .complete] := by
  rfl

/-! ## C02 -/

/-- State of a pipeline over a fresh observer after an arbitrary sequence of calls on its head. -/
def afterCalls {I E O F : Type} (p : Pipeline I E O F) (cs : List (Call I E)) :
    p.St (ObsState O F) :=
  (p.sub (observerSubscriber O F)).calls (p.init (observerSubscriber O F) ObsState.new) cs

/-- `is_closed()` of the head. -/
def headClosed {I E O F : Type} (p : Pipeline I E O F) (x : p.St (ObsState O F)) : Bool :=
  (p.sub (observerSubscriber O F)).isClosed x

/-- **C02 (a)** closed stays closed: every pipeline, every state reachable or not, every call. -/
theorem C02_closed_stays_closed {I E O F : Type} (p : Pipeline I E O F) (x : p.St (ObsState O F))
    (h : headClosed p x = true) (c : Call I E) :
    headClosed p ((p.sub (observerSubscriber O F)).call x c) = true :=
  p.mono _ (fun s c h => (observerSubscriber_lawful O F).mono s c trivial h) x c h

/-- **C02 (b)** once the observer has seen a terminal notification the head of the pipeline is
closed, and nothing a source does afterwards is seen by the observer. -/
theorem C02_closed_after_terminal {I E O F β : Type} (p : Pipeline I E O F) (cs : List (Call I E))
    (hterm : ∃ t, ObserverNotification.ofTerminal t ∈ (p.bottom (afterCalls p cs)).seen) :
    headClosed p (afterCalls p cs) = true ∧
    ∀ src : Prog I E β,
      (p.bottom (src.run (p.sub (observerSubscriber O F)) (afterCalls p cs)).2).seen =
        (p.bottom (afterCalls p cs)).seen := by
  obtain ⟨ts, -, h⟩ := p.pathInit (observerSubscriber O F) ObsState.new
  obtain ⟨us, -, h'⟩ := p.pathCalls (observerSubscriber O F) (p.init _ ObsState.new) cs
  obtain ⟨vs, t, h1, h2, -⟩ := logShape_path (h.trans h')
  have hb : (observerSubscriber O F).isClosed (p.bottom (afterCalls p cs)) = true := by
    obtain ⟨w, hw⟩ := hterm
    apply h2
    cases t with
    | some t => rfl
    | none =>
      exfalso
      rw [ObsState.seen] at hw
      simp only [afterCalls] at hw h1
      rw [h1] at hw
      simp only [Option.map_none, Option.toList_none, List.append_nil, List.filterMap_append,
        List.mem_append] at hw
      rcases hw with hw | hw
      · simp only [List.mem_filterMap, List.mem_map] at hw
        obtain ⟨a, ⟨b, -, rfl⟩, h⟩ := hw
        cases w <;> simp [ObserverNotification.ofTerminal, Event.asSeen] at h
      · simp only [List.mem_filterMap] at hw
        obtain ⟨a, ha, h⟩ := hw
        split at ha
        · simp only [List.mem_map] at ha
          obtain ⟨b, -, rfl⟩ := ha
          simp [Event.asSeen] at h
        · simp at ha
  refine ⟨p.closed_of_bottom _ _ hb, fun src => ?_⟩
  obtain ⟨ts, h⟩ := p.pathProg (observerSubscriber O F) (afterCalls p cs) src
  exact (observerSubscriber_lawful O F).path_frozen h trivial hb

theorem afterCalls_inv {I E O F : Type} (p : Pipeline I E O F) (hp : p.req true = true)
    (cs : List (Call I E)) :
    p.Inv (observerSubscriber O F) (fun _ => True) (afterCalls p cs) := by
  have hl := p.lawful _ _ _ _ (observerSubscriber_lawful O F) hp
  have h0 := p.init_inv _ _ _ _ (observerSubscriber_lawful O F) hp ObsState.new trivial
  exact hl.path_inv ((Path.refl (D := p.sub (observerSubscriber O F))).calls cs) h0

/-- **C02 (c)** For pipelines in which no operator relies on the error-closing of an `into_result`
(`p.req true`, in particular every pipeline without `into_result`), in every reachable state:
* the head is closed exactly when the observer's subscription is closed;
* `complete` and `unsubscribe` on the head close it, and so does `error` (if the head is not behind
  an `into_result`);
* once closed, no call whatsoever changes what the observer has seen. -/
theorem C02_closed_is_final_partial {I E O F : Type} (p : Pipeline I E O F) (hp : p.req true = true)
    (cs : List (Call I E)) :
    (headClosed p (afterCalls p cs) = (p.bottom (afterCalls p cs)).teardown.isClosed) ∧
    headClosed p (afterCalls p (cs ++ [.note .complete])) = true ∧
    headClosed p (afterCalls p (cs ++ [.note .unsubscribe])) = true ∧
    (p.gives true = true → ∀ e, headClosed p (afterCalls p (cs ++ [.note (.error e)])) = true) ∧
    (headClosed p (afterCalls p cs) = true → ∀ cs',
      (p.bottom (afterCalls p (cs ++ cs'))).seen = (p.bottom (afterCalls p cs)).seen) := by
  have hl := p.lawful _ _ _ _ (observerSubscriber_lawful O F) hp
  have hi := afterCalls_inv p hp cs
  have happ : ∀ c, afterCalls p (cs ++ [c]) = (p.sub (observerSubscriber O F)).call (afterCalls p cs) c := by
    intro c; simp [afterCalls, Sub.calls, List.foldl_append]
  refine ⟨p.closed_eq _ _ _ hi, ?_, ?_, ?_, ?_⟩
  · rw [happ]; exact hl.completeCloses _ hi
  · rw [happ]; exact hl.unsubscribeCloses _ hi
  · intro hg e; rw [happ]; exact hl.errorCloses hg _ _ hi
  · intro hc cs'
    have : afterCalls p (cs ++ cs') = (p.sub (observerSubscriber O F)).calls (afterCalls p cs) cs' := by
      simp [afterCalls, Sub.calls, List.foldl_append]
    rw [this]
    exact hl.path_frozen ((Path.refl (D := p.sub (observerSubscriber O F))).calls cs') hi hc

/-- Pipelines without `into_result`. -/
def Pipeline.noIntoResult : {I E O F : Type} → Pipeline I E O F → Bool
  | _, _, _, _, .nil => true
  | _, _, _, _, .cons op rest => (match op with | .intoResult => false | _ => true) && rest.noIntoResult

theorem Pipeline.req_of_noIntoResult : {I E O F : Type} → (p : Pipeline I E O F) →
    p.noIntoResult = true → p.req true = true ∧ p.gives true = true
  | _, _, _, _, .nil, _ => ⟨rfl, rfl⟩
  | _, _, _, _, .cons op rest, h => by
    simp only [noIntoResult, Bool.and_eq_true] at h
    obtain ⟨h1, h2⟩ := rest.req_of_noIntoResult h.2
    simp only [req, gives, h1, h2, Bool.true_and]
    cases op <;> first | exact ⟨rfl, rfl⟩ | simp at h

/-- **C02 (d)** the same, for every pipeline without `into_result`, with no other condition. -/
theorem C02_closed_is_final {I E O F : Type} (p : Pipeline I E O F) (hp : p.noIntoResult = true)
    (cs : List (Call I E)) :
    (∀ n : SubscriberNotification I E, n.isClosing = true →
      headClosed p (afterCalls p (cs ++ [.note n])) = true) ∧
    (headClosed p (afterCalls p cs) = true → ∀ cs',
      headClosed p (afterCalls p (cs ++ cs')) = true ∧
      (p.bottom (afterCalls p (cs ++ cs'))).seen = (p.bottom (afterCalls p cs)).seen) := by
  obtain ⟨hr, hg⟩ := p.req_of_noIntoResult hp
  obtain ⟨h1, h2, h3, h4, h5⟩ := C02_closed_is_final_partial p hr cs
  refine ⟨?_, fun hc cs' => ⟨?_, h5 hc cs'⟩⟩
  · intro n hn
    cases n with
    | next v => simp [SubscriberNotification.isClosing, SubscriberNotification.isTerminal] at hn
    | error e => exact h4 hg e
    | complete => exact h2
    | unsubscribe => exact h3
  · have hl := p.lawful _ _ _ _ (observerSubscriber_lawful O F) hr
    have hi := afterCalls_inv p hr cs
    have : afterCalls p (cs ++ cs') = (p.sub (observerSubscriber O F)).calls (afterCalls p cs) cs' := by
      simp [afterCalls, Sub.calls, List.foldl_append]
    rw [this]
    exact hl.path_mono ((Path.refl (D := p.sub (observerSubscriber O F))).calls cs') hi hc

/-- **C02 (e), finding** `into_result` is not closed after `error`, so the general claim fails
without the condition. -/
theorem C02_into_result_counterexample :
    headClosed (.cons .intoResult .nil : Pipeline Nat Nat _ _)
      (afterCalls _ [.note (.error 5)]) = false := by
  rfl

/-- **C02 (f), finding** with `take` upstream of `into_result`, the head is closed by an error, yet a
later call still reaches the observer. -/
theorem C02_take_into_result_counterexample :
    let p : Pipeline Nat Nat (Except Nat Nat) Empty := .cons (.take 2) (.cons .intoResult .nil)
    headClosed p (afterCalls p [.note (.error 5)]) = true ∧
    (p.bottom (afterCalls p [.note (.error 5)])).seen = [.next (.error 5)] ∧
    (p.bottom (afterCalls p [.note (.error 5), .note (.next 1)])).seen =
      [.next (.error 5), .next (.ok 1)] := by
  refine ⟨rfl, rfl, rfl⟩

/-- non-vacuity of the closed case -/
example : headClosed (.cons (.take 1) (.cons (.map (· * 2)) .nil) : Pipeline Nat Nat Nat Nat)
    (afterCalls _ [.note (.next 3)]) = true := by rfl

/-! ## C05 -/

/-- **C05 (a)** At the end of every pipeline, in every state: the log of what happened is values, then
at most one terminal notification, then teardowns; a teardown or a terminal only exists if the
subscription is closed. So a terminal notification always precedes every teardown. -/
theorem C05_terminal_before_teardowns {I E O F β : Type} (p : Pipeline I E O F) (src : Prog I E β) :
    ∃ (vs : List O) (t : Option (ObserverTerminalNotification F)) (ts : List Nat),
      (runToEnd p src).log = vs.map (fun v => .seen (.next v)) ++
        (t.map fun t => .seen (ObserverNotification.ofTerminal t)).toList ++ ts.map .tornDown ∧
      (t.isSome = true ∨ ts ≠ [] → (runToEnd p src).teardown.isClosed = true) := by
  obtain ⟨us, h⟩ := runToEnd_path p src
  obtain ⟨vs, t, h1, h2, -⟩ := logShape_path h
  refine ⟨vs, t, if (runToEnd p src).teardown.closed then us else [], ?_, ?_⟩
  · rw [h1]; congr 1; split <;> simp
  · rintro (h | h)
    · exact h2 h
    · by_cases hc : (runToEnd p src).teardown.closed = true
      · exact hc
      · simp [hc] at h

/-- Teardowns the operators of a chain register while subscribing (only `finalize` does), downstream
ones first. -/
def Pipeline.finalizers : {I E O F : Type} → Pipeline I E O F → List Nat
  | _, _, _, _, .nil => []
  | _, _, _, _, .cons op rest =>
    rest.finalizers ++ (match op with | .finalize cb => [cb] | _ => [])

theorem Pipeline.itds_eq : {I E O F : Type} → (p : Pipeline I E O F) → p.itds = p.finalizers
  | _, _, _, _, .nil => rfl
  | _, _, _, _, .cons op rest => by
    simp only [itds, finalizers, rest.itds_eq]
    cases op <;> rfl

/-- Chains without an operator whose user closure gets hold of the subscriber. -/
def Pipeline.noRawClosures : {I E O F : Type} → Pipeline I E O F → Bool
  | _, _, _, _, .nil => true
  | _, _, _, _, .cons op rest =>
    (match op with | .onNext .. => false | .onSubscribe .. => false | _ => true) && rest.noRawClosures

theorem Pipeline.quiet_eq : {I E O F : Type} → (p : Pipeline I E O F) → p.quiet = p.noRawClosures
  | _, _, _, _, .nil => rfl
  | _, _, _, _, .cons op rest => by
    simp only [quiet, noRawClosures, rest.quiet_eq]
    cases op <;> rfl

/-- **C05 (b)** The teardowns that run are exactly those registered - by the operators while
subscribing and by the source through the head of the pipeline - each once, in the order they were
registered, none before the subscription is closed and all of them once it is. -/
theorem C05_each_teardown_once {I E O F : Type} (p : Pipeline I E O F)
    (hp : p.noRawClosures = true) (cs : List (Call I E)) :
    (p.bottom (afterCalls p cs)).tornDown =
      (if (p.bottom (afterCalls p cs)).teardown.isClosed
        then p.finalizers ++ Call.tdss cs
        else []) := by
  rw [← p.quiet_eq] at hp
  obtain ⟨ts, ht, h⟩ := p.pathInit (observerSubscriber O F) ObsState.new
  obtain ⟨us, hu, h'⟩ := p.pathCalls (observerSubscriber O F) (p.init _ ObsState.new) cs
  obtain ⟨vs, t, h1, -, -⟩ := logShape_path (h.trans h')
  rw [ht hp, p.itds_eq, hu hp] at h1
  rw [ObsState.tornDown]
  change (List.filterMap _ (p.bottom (afterCalls p cs)).log) = _
  simp only [afterCalls, SubscriptionData.isClosed] at h1 ⊢
  generalize p.finalizers ++ Call.tdss cs = L at h1 ⊢
  rw [h1]
  simp only [List.filterMap_append, List.filterMap_map, Function.comp_def]
  have hv : List.filterMap (fun _ : O => (none : Option Nat)) vs = [] := by simp
  split <;> rename_i hc <;> cases t <;> simp [Function.comp_def, Event.asTornDown, hv, hc]

/-- non-vacuity -/
example : (p : Pipeline Nat Nat Nat Nat) = .cons (.finalize 9) (.cons (.take 1) .nil) →
    (p.bottom (afterCalls p [.addTeardown (some 1), .note (.next 5), .addTeardown (some 2)])).log =
      [.seen (.next 5), .seen .complete, .tornDown 9, .tornDown 1, .tornDown 2] := by
  rintro rfl; rfl

end Rx
