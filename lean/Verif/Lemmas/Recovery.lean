import Verif.Spec.Recovery
import Verif.Lemmas.Single

/-!
# catch
-/

namespace Rx.Catch
open Rx.HigherOrder

variable {S I E F : Type} {D : Sub S I F} {f : E → Src I F}

/-- The recovery observable is active. -/
def recSt (d : S) (b : List Nat) (k : Nat → Nat) (c : Option Nat) (l : List (Log I F)) : HigherOrder.State S I F :=
  { dest := d, nonCompleted := 1, nonUnsubscribed := 1, up := ⟨false, false, true, false, true⟩, opened := [0],
    busy := b, key := k, current := c, log := l }

/-- It has been subscribed and not ended. -/
def Running (l : List (Log I F)) : Prop := subsOf l = [0] ∧ donesOf l = []

/-- It has been subscribed and has ended. -/
def Ended (l : List (Log I F)) : Prop := subsOf l = [0] ∧ donesOf l = [0]

theorem Running.out {l : List (Log I F)} (h : Running l) (x : Option Nat) (n : SubscriberNotification I F) :
    Running (l ++ [.out x n]) := by
  simp only [Running, subsOf, donesOf, List.filterMap_append] at *
  exact ⟨by rw [h.1]; rfl, by rw [h.2]; rfl⟩

theorem Running.out_done {l : List (Log I F)} (h : Running l) (x : Option Nat) (n : SubscriberNotification I F) :
    Ended (l ++ [.out x n, .done 0]) := by
  simp only [Running, Ended, subsOf, donesOf, List.filterMap_append] at *
  exact ⟨by rw [h.1]; rfl, by rw [h.2]; rfl⟩

theorem Running.done_out {l : List (Log I F)} (h : Running l) (x : Option Nat) (n : SubscriberNotification I F) :
    Ended (l ++ [.done 0, .out x n]) := by
  simp only [Running, Ended, subsOf, donesOf, List.filterMap_append] at *
  exact ⟨by rw [h.1]; rfl, by rw [h.2]; rfl⟩

/-- What a notification of the recovery observable leads to. -/
def After (D : Sub S I F) (b : List Nat) (k : Nat → Nat) (c : Option Nat) (d : S) (h : HigherOrder.State S I F) : Prop :=
  (D.isClosed d = false ∧ ∃ l, h = recSt d b k c l ∧ Running l) ∨
  (D.isClosed d = true ∧ h.dest = d ∧ h.opened = [] ∧ h.busy = b ∧ h.current = c ∧ Ended h.log)

theorem push_rec (hD : Closes D) {d : S} (hd : D.isClosed d = false) {b : List Nat} {k : Nat → Nat} {c : Option Nat}
    {l : List (Log I F)} (hl : Running l) (n : SubscriberNotification I F) :
    ∃ h, Single.inner D 0 n (recSt d b k c l) = .ok h ∧ After D b k c (D.push d n) h := by
  have hcl : n.isClosing = true → D.isClosed (D.push d n) = true := hD d n
  cases n with
  | next v =>
    cases hv : D.isClosed (D.push d (.next v))
    · refine ⟨recSt (D.push d (.next v)) b k c (l ++ [.out (some 0) (.next v)]), ?_, .inl ⟨hv, _, rfl, ?_⟩⟩
      · simp [Single.inner, innerPush, recSt, innerHandle, innerNext, give, hd, hv, bind, Except.bind, pure, Except.pure]
      · exact hl.out _ _
    · refine ⟨{ recSt (D.push d (.next v)) b k c (l ++ [.out (some 0) (.next v), .done 0]) with
        opened := [], nonCompleted := 0, nonUnsubscribed := 0, down := ⟨false, false, false, false, true⟩ }, ?_,
        .inr ⟨hv, rfl, rfl, rfl, rfl, ?_⟩⟩
      · simp [Single.inner, innerPush, recSt, innerHandle, innerNext, give, hd, hv, bind, Except.bind, pure, Except.pure,
          innerUnsubscribe, State.innerUnsubscribed, State.dec, SubscriberState.unsubscribeIfNotAlready,
          SubscriberState.isUnsubscribed, SubscriberState.default, State.canUnsubscribe, SubscriberState.isClosed]
      · exact hl.out_done _ _
  | error e =>
    have hv := hcl rfl
    refine ⟨{ recSt (D.push d (.error e)) b k c (l ++ [.out (some 0) (.error e), .done 0]) with
        opened := [], nonCompleted := 0, nonUnsubscribed := 0, down := ⟨false, false, false, true, true⟩,
        outerClosed := true }, ?_, .inr ⟨hv, rfl, rfl, rfl, rfl, ?_⟩⟩
    · simp [Single.inner, innerPush, recSt, innerHandle, innerError, give, hd, hv, bind, Except.bind, pure, Except.pure,
          innerUnsubscribe, State.innerUnsubscribed, State.dec, SubscriberState.unsubscribeIfNotAlready,
          SubscriberState.isUnsubscribed, SubscriberState.default, State.canUnsubscribe, SubscriberState.isClosed,
          State.downstreamError, SubscriberState.error, SubscriberState.isFinished, SubscriberState.isCompleted,
          SubscriberState.isErrored, State.check, Single.onUnsubscribe]
    · exact hl.out_done _ _
  | complete =>
    have hv := hcl rfl
    refine ⟨{ recSt (D.push d .complete) b k c (l ++ [.done 0, .out (some 0) .complete]) with
        opened := [], nonCompleted := 0, nonUnsubscribed := 0, down := ⟨false, false, true, false, true⟩,
        outerClosed := true }, ?_, .inr ⟨hv, rfl, rfl, rfl, rfl, ?_⟩⟩
    · simp [Single.inner, innerPush, recSt, innerHandle, innerComplete, innerCompleted, give, hd, hv, bind, Except.bind, pure, Except.pure,
          innerUnsubscribe, State.innerUnsubscribed, State.dec, SubscriberState.unsubscribeIfNotAlready,
          SubscriberState.isUnsubscribed, SubscriberState.default, State.canUnsubscribe, SubscriberState.isClosed,
          SubscriberState.complete, SubscriberState.isFinished, SubscriberState.isCompleted, State.canComplete,
          SubscriberState.isErrored, State.check, Single.onUnsubscribe]
    · exact hl.done_out _ _
  | unsubscribe =>
    have hv := hcl rfl
    refine ⟨{ recSt (D.push d .unsubscribe) b k c (l ++ [.done 0, .out none .unsubscribe]) with
        opened := [], nonCompleted := 0, nonUnsubscribed := 0,
        outerClosed := true }, ?_, .inr ⟨hv, rfl, rfl, rfl, rfl, ?_⟩⟩
    · simp [Single.inner, innerPush, recSt, innerHandle, give, hd, hv, bind, Except.bind, pure, Except.pure,
          innerUnsubscribe, State.innerUnsubscribed, State.dec,
          SubscriberState.isUnsubscribed, SubscriberState.default, State.canUnsubscribe, SubscriberState.isClosed,
          SubscriberState.isFinished, SubscriberState.isCompleted,
          SubscriberState.isErrored, Single.onUnsubscribe]
    · exact hl.done_out _ _

/-- The source has not ended. -/
def srcSt (d : S) (l : List (Log I F)) : HigherOrder.State S I F := { dest := d, log := l }

/-- No recovery observable. -/
def Unused (l : List (Log I F)) : Prop := subsOf l = [] ∧ donesOf l = []

/-- The destination is closed. -/
structure Over (D : Sub S I F) (x : State S I F) : Prop where
  dest : D.isClosed x.higher.dest = true
  none : x.higher.opened = []
  log : Unused x.higher.log ∨ Ended x.higher.log
  shut : x.higher.outerClosed = true ∨ x.mapper = false

/-- What is left alone. -/
structure Same (x y : State S I F) : Prop where
  dest : y.higher.dest = x.higher.dest
  log : y.higher.log = x.higher.log

theorem cancel_over {h : HigherOrder.State S I F} (ho : h.opened = []) :
    ∃ c, Single.cancelCurrent D h = .ok { h with current := c } := by
  unfold Single.cancelCurrent
  cases hc : h.current with
  | none => exact ⟨none, by simp only [← hc]; rfl⟩
  | some b => exact ⟨none, by simp [innerCancel, innerUnsubscribe, ho]⟩

theorem over_unsubscribe {x : State S I F} (h : Over D x) :
    ∃ y, unsubscribe D x = .ok y ∧ Over D y ∧ Same x y := by
  unfold unsubscribe
  cases hx : x.higher.outerClosed
  · obtain ⟨c, hc⟩ := cancel_over (D := D) h.none
    refine ⟨{ x with higher := { x.higher with current := c, outerClosed := true } }, ?_, ⟨h.dest, h.none, h.log, .inl rfl⟩, ⟨rfl, rfl⟩⟩
    simp [hc, bind, Except.bind, give, h.dest, pure, Except.pure]
  · exact ⟨x, by simp, h, ⟨rfl, rfl⟩⟩

theorem over_step {x : State S I F} (h : Over D x) (e : Event I E F) (he : x.higher.outerClosed = false → e ≠ .source .complete) :
    ∃ y, step D f x e = .ok y ∧ Over D y ∧ Same x y ∧ (x.higher.outerClosed = true → y.higher.outerClosed = true) := by
  cases e with
  | source n =>
    cases n with
    | next v =>
      obtain ⟨y, hy, h1, h2⟩ := over_unsubscribe h
      refine ⟨y, ?_, h1, h2, ?_⟩
      · simp [step, next, give, h.dest, bind, Except.bind, hy]
      · intro ho
        simp [unsubscribe, ho] at hy
        rw [← hy, ho]
    | error e =>
      refine ⟨x, ?_, h, ⟨rfl, rfl⟩, id⟩
      rcases h.shut with ho | hm
      · simp [step, error, ho]
      · simp [step, error, hm]
    | complete =>
      cases ho : x.higher.outerClosed
      · exact absurd rfl (he ho)
      · exact ⟨x, by simp [step, complete, ho], h, ⟨rfl, rfl⟩, fun _ => ho⟩
    | unsubscribe =>
      obtain ⟨y, hy, h1, h2⟩ := over_unsubscribe h
      refine ⟨y, hy, h1, h2, ?_⟩
      intro ho
      simp [unsubscribe, ho] at hy
      rw [← hy, ho]
  | recovery n =>
    exact ⟨x, by simp [step, Single.inner, innerPush, h.none, bind, Except.bind, pure, Except.pure], h, ⟨rfl, rfl⟩, id⟩

theorem over_run : ∀ (es : List (Event I E F)) {x : State S I F} (_ : Over D x)
    (_ : x.higher.outerClosed = false → ∀ n ∈ sourceNotes es, n = .unsubscribe),
    ∃ y, es.foldlM (step D f) x = .ok y ∧ Over D y ∧ Same x y
  | [], x, h, _ => ⟨x, rfl, h, ⟨rfl, rfl⟩⟩
  | e :: es, x, h, hn => by
    obtain ⟨y, hy, h1, h2, h3⟩ := over_step (f := f) h e (fun ho hh => by
      have := hn ho .complete (by subst hh; simp [sourceNotes])
      cases this)
    obtain ⟨z, hz, h4, h5⟩ := over_run es h1 (fun ho n hm => hn (by
        cases hx : x.higher.outerClosed
        · rfl
        · rw [h3 hx] at ho; cases ho) n (by
        simp only [sourceNotes, List.filterMap_cons] at hm ⊢
        split
        · exact hm
        · exact List.mem_cons_of_mem _ hm))
    refine ⟨z, ?_, h4, ⟨h5.dest.trans h2.dest, h5.log.trans h2.log⟩⟩
    rw [List.foldlM_cons, hy]
    exact hz

theorem feed_closed {s : S} (hs : D.isClosed s = true) : ∀ ns, feed D s ns = s
  | [] => rfl
  | n :: ns => by simp [feed, hs]

theorem feed_open {s : S} (hs : D.isClosed s = false) (n : SubscriberNotification I F) (ns : List (SubscriberNotification I F)) :
    feed D s (n :: ns) = feed D (D.push s n) ns := by
  simp [feed, hs]

theorem feed_append : ∀ (ns ms : List (SubscriberNotification I F)) (s : S), feed D s (ns ++ ms) = feed D (feed D s ns) ms
  | [], _, _ => rfl
  | n :: ns, ms, s => by
    cases hs : D.isClosed s
    · rw [List.cons_append, feed_open hs, feed_open hs, feed_append]
    · simp [feed_closed hs]

/-- While the recovery observable is active. -/
theorem rec_run (hD : Closes D) : ∀ (es : List (Event I E F)) {d : S} (_ : D.isClosed d = false) {k : Nat → Nat}
    {l : List (Log I F)} (_ : Running l) (_ : ∀ n ∈ sourceNotes es, n = .unsubscribe),
    ∃ y, es.foldlM (step D f) ⟨recSt d [] k (some 0) l, false⟩ = .ok y ∧
      y.higher.dest = feed D d (expected.recovering es) ∧
      ((D.isClosed y.higher.dest = false ∧ Running y.higher.log) ∨ (D.isClosed y.higher.dest = true ∧ Ended y.higher.log))
  | [], d, hd, k, l, hl, _ => ⟨_, rfl, rfl, .inl ⟨hd, hl⟩⟩
  | .source n :: es, d, hd, k, l, hl, hn => by
    have : n = .unsubscribe := hn n (by simp [sourceNotes])
    subst this
    have hv : D.isClosed (D.push d .unsubscribe) = true := hD d _ rfl
    have ho : Over D (⟨{ recSt (D.push d .unsubscribe) [] k none (l ++ [.done 0, .out none .unsubscribe]) with
        opened := [], nonCompleted := 0, nonUnsubscribed := 0,
        outerClosed := true }, false⟩ : State S I F) := ⟨hv, rfl, .inr (hl.done_out _ _), .inl rfl⟩
    obtain ⟨y, hy, h1, h2⟩ := over_run (f := f) es ho (fun h => by cases h)
    refine ⟨y, ?_, ?_, .inr ⟨h1.dest, ?_⟩⟩
    · rw [List.foldlM_cons, ← hy]
      simp [step, unsubscribe, recSt, give, hd, hv, bind, Except.bind, pure, Except.pure,
          Single.cancelCurrent, innerCancel,
          innerUnsubscribe, State.innerUnsubscribed, State.dec,
          SubscriberState.isUnsubscribed, SubscriberState.default, State.canUnsubscribe, SubscriberState.isClosed,
          SubscriberState.isFinished, SubscriberState.isCompleted,
          SubscriberState.isErrored, Single.onUnsubscribe]
    · rw [h2.dest]
      simp only [expected.recovering]
      rw [feed_open hd, feed_closed hv]
      rfl
    · rw [h2.log]; exact hl.done_out _ _
  | .recovery n :: es, d, hd, k, l, hl, hn => by
    have hn' : ∀ n ∈ sourceNotes es, n = .unsubscribe := fun n hm => hn n (by simpa [sourceNotes] using hm)
    obtain ⟨h, hh, ha⟩ := push_rec hD hd (b := []) (k := k) (c := some 0) hl n
    rw [expected.recovering, feed_open hd]
    rcases ha with ⟨hv, l', rfl, hl'⟩ | ⟨hv, h1, h2, h3, h4, h5⟩
    · obtain ⟨y, hy, g⟩ := rec_run hD es hv (k := k) hl' hn'
      refine ⟨y, ?_, g⟩
      rw [List.foldlM_cons, ← hy]
      simp [step, hh, bind, Except.bind, pure, Except.pure]
    · obtain ⟨y, hy, g1, g2⟩ := over_run (f := f) es (x := ⟨h, false⟩) ⟨by rw [h1]; exact hv, h2, .inr h5, .inr rfl⟩ (fun _ => hn')
      refine ⟨y, ?_, ?_, .inr ⟨g1.dest, g2.log ▸ h5⟩⟩
      · rw [List.foldlM_cons, ← hy]
        simp [step, hh, bind, Except.bind, pure, Except.pure]
      · rw [g2.dest, feed_closed hv]; exact h1

/-- The recovery observable emits while it is subscribed. -/
theorem fold_rec (hD : Closes D) : ∀ (src : Src I F) {d : S} (_ : D.isClosed d = false) {b : List Nat} {k : Nat → Nat} {c : Option Nat}
    {l : List (Log I F)} (_ : Running l),
    ∃ h, src.foldlM (innerPush D .ok (fun _ => .ok) (Single.onUnsubscribe D) 0) (recSt d b k c l) = .ok h ∧
      After D b k c (feed D d src) h
  | [], d, hd, b, k, c, l, hl => ⟨_, rfl, .inl ⟨hd, _, rfl, hl⟩⟩
  | n :: src, d, hd, b, k, c, l, hl => by
    obtain ⟨h, hh, ha⟩ := push_rec hD hd (b := b) (k := k) (c := c) hl n
    have hh' : innerPush D .ok (fun _ => .ok) (Single.onUnsubscribe D) 0 (recSt d b k c l) n = .ok h := hh
    rw [feed_open hd]
    rcases ha with ⟨hv, l', rfl, hl'⟩ | ⟨hv, h1, h2, h3, h4, h5⟩
    · obtain ⟨y, hy, g⟩ := fold_rec hD src hv (b := b) (k := k) (c := c) hl'
      refine ⟨y, ?_, g⟩
      rw [List.foldlM_cons, hh']
      exact hy
    · refine ⟨h, ?_, ?_⟩
      · rw [List.foldlM_cons, hh']
        simp only [bind, Except.bind]
        clear hh hh'
        induction src with
        | nil => rfl
        | cons m src ih =>
          rw [List.foldlM_cons]
          simp only [innerPush, h2]
          exact ih
      · rw [feed_closed hv]
        exact .inr ⟨hv, h1, h2, h3, h4, h5⟩

theorem Unused.out {l : List (Log I F)} (h : Unused l) (x : Option Nat) (n : SubscriberNotification I F) :
    Unused (l ++ [.out x n]) := by
  simp only [Unused, subsOf, donesOf, List.filterMap_append] at *
  exact ⟨by rw [h.1]; rfl, by rw [h.2]; rfl⟩

theorem Unused.sub {l : List (Log I F)} (h : Unused l) : Running (l ++ [.sub 0]) := by
  simp only [Unused, Running, subsOf, donesOf, List.filterMap_append] at *
  exact ⟨by rw [h.1]; rfl, by rw [h.2]; rfl⟩

/-- The error is handled while the destination is open. -/
def Handled (D : Sub S I F) (f : E → Src I F) (s : S) (es : List (Event I E F)) : Prop :=
  ∃ p e q, es = p ++ .source (.error e) :: q ∧ D.isClosed (feed D s (expected f p)) = false

theorem handled_closed {s : S} (hs : D.isClosed s = true) {es : List (Event I E F)} : ¬ Handled D f s es := by
  rintro ⟨p, e, q, -, h⟩
  rw [feed_closed hs, hs] at h
  cases h

theorem handled_next {s : S} (hs : D.isClosed s = false) {v : I} {es : List (Event I E F)} :
    Handled D f s (.source (.next v) :: es) ↔ Handled D f (D.push s (.next v)) es := by
  constructor
  · rintro ⟨p, e, q, h, h'⟩
    cases p with
    | nil => simp at h
    | cons a p =>
      simp only [List.cons_append, List.cons.injEq] at h
      rw [← h.1, expected, feed_open hs] at h'
      exact ⟨p, e, q, h.2, h'⟩
  · rintro ⟨p, e, q, rfl, h'⟩
    exact ⟨.source (.next v) :: p, e, q, rfl, by rw [expected, feed_open hs]; exact h'⟩

theorem handled_recovery {s : S} {n : SubscriberNotification I F} {es : List (Event I E F)} :
    Handled D f s (.recovery n :: es) ↔ Handled D f s es := by
  constructor
  · rintro ⟨p, e, q, h, h'⟩
    cases p with
    | nil => simp at h
    | cons a p =>
      simp only [List.cons_append, List.cons.injEq] at h
      rw [← h.1, expected] at h'
      exact ⟨p, e, q, h.2, h'⟩
  · rintro ⟨p, e, q, rfl, h'⟩
    exact ⟨.recovery n :: p, e, q, rfl, by rw [expected]; exact h'⟩

theorem src_run (hD : Closes D) : ∀ (es : List (Event I E F)) {d : S} (_ : D.isClosed d = false)
    {l : List (Log I F)} (_ : Unused l) (_ : Conforming (sourceNotes es)),
    ∃ y, es.foldlM (step D f) ⟨srcSt d l, true⟩ = .ok y ∧ y.higher.dest = feed D d (expected f es) ∧
      (Handled D f d es → (D.isClosed y.higher.dest = false ∧ Running y.higher.log) ∨
        (D.isClosed y.higher.dest = true ∧ Ended y.higher.log)) ∧
      (¬ Handled D f d es → Unused y.higher.log)
  | [], d, hd, l, hl, _ => ⟨_, rfl, rfl, fun ⟨p, e, q, h, _⟩ => by simp at h, fun _ => hl⟩
  | .recovery n :: es, d, hd, l, hl, hc => by
    obtain ⟨y, hy, g⟩ := src_run hD es hd hl (by simpa [sourceNotes] using hc)
    refine ⟨y, ?_, ?_⟩
    · rw [List.foldlM_cons, ← hy]
      simp [step, Single.inner, innerPush, srcSt, bind, Except.bind, pure, Except.pure]
    · rw [handled_recovery]
      exact g
  | .source (.next v) :: es, d, hd, l, hl, hc => by
    have hc' : Conforming (sourceNotes es) := by
      simp only [sourceNotes, List.filterMap_cons] at hc
      exact hc.2
    rw [handled_next hd, expected, feed_open hd]
    cases hv : D.isClosed (D.push d (.next v))
    · obtain ⟨y, hy, g⟩ := src_run hD es hv (hl.out none (.next v)) hc'
      refine ⟨y, ?_, g⟩
      rw [List.foldlM_cons, ← hy]
      simp [step, next, give, srcSt, hd, hv, bind, Except.bind, pure, Except.pure]
    · obtain ⟨y, hy, g1, g2⟩ := over_run (f := f) es (x := ⟨{ srcSt (D.push d (.next v)) (l ++ [Log.out none (.next v)]) with
        outerClosed := true }, true⟩) ⟨hv, rfl, .inl (hl.out none _), .inl rfl⟩ (fun h => by cases h)
      refine ⟨y, ?_, ?_, fun h => absurd h (handled_closed hv), fun _ => g2.log ▸ hl.out _ _⟩
      · rw [List.foldlM_cons, ← hy]
        simp [step, next, give, srcSt, hd, hv, unsubscribe, Single.cancelCurrent, bind, Except.bind, pure, Except.pure]
      · rw [g2.dest, feed_closed hv]; rfl
  | .source .complete :: es, d, hd, l, hl, hc => by
    have hv : D.isClosed (D.push d .complete) = true := hD d _ rfl
    have hnh : ¬ Handled D f d (.source .complete :: es) := by
      rintro ⟨p, e, q, h, h'⟩
      cases p with
      | nil => simp at h
      | cons a p =>
        simp only [List.cons_append, List.cons.injEq] at h
        rw [← h.1, expected, feed_open hd, feed_closed hv, hv] at h'
        cases h'
    obtain ⟨y, hy, g1, g2⟩ := over_run (f := f) es (x := ⟨{ srcSt (D.push d .complete) (l ++ [Log.out none .complete]) with
        up := ⟨false, false, true, false, true⟩, outerClosed := true }, true⟩) ⟨hv, rfl, .inl (hl.out none _), .inl rfl⟩
        (fun h => by cases h)
    refine ⟨y, ?_, ?_, fun h => absurd h hnh, fun _ => g2.log ▸ hl.out _ _⟩
    · rw [List.foldlM_cons, ← hy]
      simp [step, complete, give, srcSt, hd, hv, unsubscribe, Single.cancelCurrent, bind, Except.bind, pure, Except.pure,
        State.upstreamCompleted, State.canComplete, SubscriberState.complete, SubscriberState.unsubscribe, State.check,
        SubscriberState.isUnsubscribed, SubscriberState.default, SubscriberState.isClosed,
          SubscriberState.isFinished, SubscriberState.isCompleted,
          SubscriberState.isErrored]
    · rw [g2.dest, expected, feed_open hd, feed_closed hv]; rfl
  | .source .unsubscribe :: es, d, hd, l, hl, hc => by
    have hv : D.isClosed (D.push d .unsubscribe) = true := hD d _ rfl
    have hnh : ¬ Handled D f d (.source .unsubscribe :: es) := by
      rintro ⟨p, e, q, h, h'⟩
      cases p with
      | nil => simp at h
      | cons a p =>
        simp only [List.cons_append, List.cons.injEq] at h
        rw [← h.1, expected, feed_open hd, feed_closed hv, hv] at h'
        cases h'
    obtain ⟨y, hy, g1, g2⟩ := over_run (f := f) es (x := ⟨{ srcSt (D.push d .unsubscribe) (l ++ [Log.out none .unsubscribe]) with
        outerClosed := true }, true⟩) ⟨hv, rfl, .inl (hl.out none _), .inl rfl⟩ (fun h => by cases h)
    refine ⟨y, ?_, ?_, fun h => absurd h hnh, fun _ => g2.log ▸ hl.out _ _⟩
    · rw [List.foldlM_cons, ← hy]
      simp [step, give, srcSt, hd, hv, unsubscribe, Single.cancelCurrent, bind, Except.bind, pure, Except.pure]
    · rw [g2.dest, expected, feed_open hd, feed_closed hv]; rfl
  | .source (.error e) :: es, d, hd, l, hl, hc => by
    have hh : Handled D f d (.source (.error e) :: es) := ⟨[], e, es, rfl, hd⟩
    have hn : ∀ n ∈ sourceNotes es, n = .unsubscribe := by
      simp only [sourceNotes, List.filterMap_cons] at hc
      exact hc.1 rfl
    obtain ⟨h, hf, ha⟩ := fold_rec hD (f e) hd (b := [0]) (k := fun b => if b = 0 then 0 else 0) (c := none) hl.sub
    have hstep : step D f (⟨srcSt d l, true⟩ : State S I F) (.source (.error e)) =
        (do
          let h : HigherOrder.State S I F := { h with busy := [] }
          let h := if 0 ∈ h.opened then { h with current := some 0 } else h
          let x : State S I F := ⟨h, false⟩
          if D.isClosed h.dest then unsubscribe D x else pure x) := by
      have hf' : (f e).foldlM (innerPush D .ok (fun _ => .ok) (Single.onUnsubscribe D) 0) 
          { dest := d, nonCompleted := 1, nonUnsubscribed := 1, up := ⟨false, false, true, false, true⟩,
            down := ⟨true, false, false, false, false⟩, opened := [0], busy := [0], key := fun b => if b = 0 then 0 else 0, log := l ++ [.sub 0] } = .ok h := hf
      simp only [step, error, srcSt, Single.cancelCurrent, HigherOrder.State.reserve, bind, Except.bind, pure, Except.pure,
        HigherOrder.State.check, SubscriberState.complete, SubscriberState.unsubscribe, SubscriberState.isUnsubscribed,
        SubscriberState.default, SubscriberState.isClosed, SubscriberState.isFinished, SubscriberState.isCompleted,
        SubscriberState.isErrored, Single.subscribe, innerSubscribe, Bool.not_false, Bool.and_self, if_true, Bool.or_self,
        Bool.false_eq_true, if_false, List.nil_append, Nat.zero_add, hf']
      by_cases ho : 0 ∈ h.opened <;> simp [ho]
    rw [expected, feed_append]
    rcases ha with ⟨hv, l', rfl, hl'⟩ | ⟨hv, h1, h2, h3, h4, h5⟩
    · obtain ⟨y, hy, g1, g2⟩ := rec_run (f := f) hD es hv (k := fun b => if b = 0 then 0 else 0) hl' hn
      refine ⟨y, ?_, g1, fun _ => g2, fun h => absurd hh h⟩
      rw [List.foldlM_cons, hstep, ← hy]
      simp [recSt, hv, bind, Except.bind, pure, Except.pure]
    · obtain ⟨z, hz, g3, g4⟩ := over_unsubscribe (D := D) (x := ⟨{ h with busy := [] }, false⟩)
        ⟨by simpa [h1] using hv, h2, .inr h5, .inr rfl⟩
      obtain ⟨y, hy, g1, g2⟩ := over_run (f := f) es g3 (fun _ => hn)
      refine ⟨y, ?_, ?_, fun _ => .inr ⟨g1.dest, ?_⟩, fun h => absurd hh h⟩
      · rw [List.foldlM_cons, hstep, ← hy]
        have h0 : 0 ∉ h.opened := by simp [h2]
        simp only [h0, if_false]
        rw [if_pos (by simpa [h1] using hv), hz]
        rfl
      · rw [g2.dest, g4.dest, feed_closed hv]; exact h1
      · rw [g2.log, g4.log]; exact h5

end Rx.Catch
