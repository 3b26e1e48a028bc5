import Verif.Lemmas.TimedSources

/-!
# subscribe_on
-/

namespace Rx.Timed.SubscribeOn
open Rx.Sched
open Rx.HigherOrder (Closes)

variable {S I E : Type} {D : Sub S I E} {s0 : S} {sync : List (SubscriberNotification I E)} {d now : Nat}

/-- What always holds of the record: all that arrived was given, if the destination was open. -/
structure Safe (D : Sub S I E) (s0 : S) (now : Nat) (p : Port S I I E) : Prop where
  fits : p.Fits (SubscribeOn.Allowed D s0) D s0 now
  quiet : ∀ n k, p.trace.getLast? = some (.arrived n, k) → D.isClosed p.dest = true

theorem Safe.mono {now' : Nat} {p : Port S I I E} (h : Safe D s0 now p) (hn : now ≤ now') : Safe D s0 now' p :=
  ⟨h.fits.mono hn, h.quiet⟩

theorem Safe.feed {p : Port S I I E} (h : Safe D s0 now p) (n : SubscriberNotification I E) :
    Safe D s0 now ((p.mark (.arrived n) now).give D n now) := by
  have h1 := h.fits.mark (n := n) ⟨h.fits.right.orderly (fun h => absurd rfl (h n)), (fun n h => by cases h), fun n' k hk ho => by
    rw [← h.fits.right.fed, h.quiet n' k hk] at ho; cases ho⟩
  have hl : (p.mark (.arrived n) now).trace.getLast? = some (.arrived n, now) := by simp [Port.mark]
  refine ⟨h1.give (fun ho => ⟨h1.right.orderly (fun _ => ho), (fun n' h => by cases h; exact hl), fun n' k hk _ => by
    rw [hl] at hk; cases hk; rfl⟩), fun n' k hk => ?_⟩
  cases hc : D.isClosed (p.mark (.arrived n) now).dest with
  | true => rw [Port.give_closed hc]; exact hc
  | false => rw [Port.give_open hc] at hk; simp at hk

theorem Safe.close (hD : Closes D) {p : Port S I I E} (h : Safe D s0 now p) : Safe D s0 now (p.close D now) :=
  ⟨h.fits.close (fun ho => ⟨h.fits.right.orderly (fun _ => ho), (fun n h => by cases h), fun n k hk _ => by
    rw [h.quiet n k hk] at ho; cases ho⟩), fun _ _ _ => Port.close_isClosed hD _ _⟩

/-- When the source was subscribed. -/
structure Started (d now : Nat) (begun : Option Nat) (started : List Nat) : Prop where
  once : started.length ≤ 1
  time : ∀ j ∈ started, j ≤ now ∧ ∃ k, begun = some k ∧ k + d ≤ j

theorem Started.mono {now' : Nat} {b : Option Nat} {l : List Nat} (h : Started d now b l) (hn : now ≤ now') :
    Started d now' b l :=
  ⟨h.once, fun j hj => ⟨Nat.le_trans (h.time j hj).1 hn, (h.time j hj).2⟩⟩

/-- Closed. -/
structure Dead (D : Sub S I E) (s0 : S) (d now : Nat) (s : SubscribeOn.State S I E) : Prop where
  closed : D.isClosed s.port.dest = true
  safe : Safe D s0 now s.port
  started : Started d now s.begun s.started
  source : s.source = false

/-- Not subscribed yet, or the source is subscribed. -/
structure Idle (D : Sub S I E) (s0 : S) (d now : Nat) (s : SubscribeOn.State S I E) : Prop where
  safe : Safe D s0 now s.port
  started : Started d now s.begun s.started
  kind : (s.begun = none ∧ s.started = [] ∧ s.source = false) ∨
    (s.begun.isSome = true ∧ s.started ≠ [] ∧ s.source = true ∧ D.isClosed s.port.dest = false)

/-- Waiting. -/
structure Busy (D : Sub S I E) (s0 : S) (d now : Nat) (f : Solo.Phase) (w : Work Unit) (s : SubscribeOn.State S I E) : Prop where
  live : D.isClosed s.port.dest = false
  safe : Safe D s0 now s.port
  started : s.started = []
  source : s.source = false
  work : ∃ k cu, s.begun = some k ∧ w = .delayed (some ()) k cu d ∧ cu ≤ now ∧
    (∀ t, f = .due t → max cu t = now) ∧ (f = .queued → cu = now) ∧ (f = .ticked → cu = now ∧ now < k + d)

theorem torn_closed {s : SubscribeOn.State S I E} (h : D.isClosed s.port.dest = true) :
    s.torn D = { s with source := false } := if_pos h

theorem torn_open {s : SubscribeOn.State S I E} (h : D.isClosed s.port.dest = false) : s.torn D = s :=
  if_neg (by rw [h]; simp)

theorem feeds_safe (ns : List (SubscriberNotification I E)) : ∀ {s : SubscribeOn.State S I E}, Safe D s0 now s.port →
    Safe D s0 now (ns.foldl (fun s n => s.feed D n now) s).port ∧
    (ns.foldl (fun s n => s.feed D n now) s).begun = s.begun ∧
    (ns.foldl (fun s n => s.feed D n now) s).started = s.started := by
  induction ns with
  | nil => intro s h; exact ⟨h, rfl, rfl⟩
  | cons n ns ih =>
    intro s h
    obtain ⟨h1, h2, h3⟩ := ih (s := s.feed D n now) (h.feed n)
    exact ⟨h1, h2, h3⟩

theorem exec_open {s : SubscribeOn.State S I E} {b : Unit} {t : Nat} (h : Safe D s0 now s.port)
    (ho : D.isClosed s.port.dest = false) (hs : s.started = []) {k : Nat} (hb : s.begun = some k) (hk : k + d ≤ now) :
    (Dead D s0 d now ((subscribeOn D sync d).exec b t now s).2.1 ∨
      (((subscribeOn D sync d).exec b t now s).2.2.1 = [] ∧ Idle D s0 d now ((subscribeOn D sync d).exec b t now s).2.1)) ∧
    ((subscribeOn D sync d).exec b t now s).2.2.2 = .done := by
  obtain ⟨h1, h2, h3⟩ := feeds_safe (D := D) (now := now) sync (s := { s with started := s.started ++ [now] }) h
  have he : (subscribeOn D sync d).exec b t now s =
      ((), { sync.foldl (fun (s : SubscribeOn.State S I E) n => s.feed D n now) { s with started := s.started ++ [now] } with
          source := !D.isClosed (sync.foldl (fun (s : SubscribeOn.State S I E) n => s.feed D n now) { s with started := s.started ++ [now] }).port.dest },
        s.port.teardown D (sync.foldl (fun (s : SubscribeOn.State S I E) n => s.feed D n now) { s with started := s.started ++ [now] }).port, .done) := by
    show (if D.isClosed s.port.dest = true then _ else _ :
      Unit × SubscribeOn.State S I E × List (Req Unit) × WorkResult) = _
    rw [if_neg (by rw [ho]; simp)]
  rw [he]
  generalize (sync.foldl (fun (s : SubscribeOn.State S I E) n => s.feed D n now) { s with started := s.started ++ [now] }) = u at h1 h2 h3
  refine ⟨?_, rfl⟩
  have hst : Started d now u.begun u.started := by
    refine ⟨by rw [h3, hs]; simp, fun j hj => ?_⟩
    rw [h3, hs] at hj
    simp at hj
    subst hj
    exact ⟨Nat.le_refl _, k, h2.trans hb, hk⟩
  cases hc : D.isClosed u.port.dest with
  | true =>
    left
    exact ⟨hc, h1, hst, rfl⟩
  | false =>
    right
    refine ⟨?_, h1, hst, .inr ⟨by dsimp only; rw [h2, hb]; rfl, ?_, rfl, hc⟩⟩
    · show Port.teardown _ _ _ = _
      unfold Port.teardown
      rw [hc]
      simp
    · dsimp only
      rw [h3, hs]
      simp

theorem dead_input (hD : Closes D) (i : SubscribeOn.Input I E) {s : SubscribeOn.State S I E} (h : Dead D s0 d now s) :
    Dead D s0 d now ((subscribeOn D sync d).input i now s).1 ∧
    ((subscribeOn D sync d).input i now s).1.started = s.started := by
  cases i with
  | subscribe =>
    show Dead D s0 d now (if s.begun.isSome = true then (s, []) else _ : SubscribeOn.State S I E × List (Req Unit)).1 ∧
      (if s.begun.isSome = true then (s, []) else _ : SubscribeOn.State S I E × List (Req Unit)).1.started = _
    split
    · exact ⟨h, rfl⟩
    · rename_i hb
      refine ⟨⟨h.closed, h.safe, ⟨h.started.once, fun j hj => ?_⟩, h.source⟩, rfl⟩
      obtain ⟨_, k, hk, _⟩ := h.started.time j hj
      rw [hk] at hb
      exact absurd rfl hb
  | close =>
    have hc : D.isClosed (s.port.close D now).dest = true := Port.close_isClosed hD _ _
    dsimp only
    rw [torn_closed hc]
    exact ⟨⟨hc, h.safe.close hD, h.started, rfl⟩, rfl⟩
  | note n =>
    dsimp only
    rw [if_neg (by rw [h.source]; simp)]
    exact ⟨h, rfl⟩

theorem single (hD : Closes D) : Solo.Single (subscribeOn D sync d) (Dead D s0 d) (Idle D s0 d) (Busy D s0 d) where
  dead_exec b t now s _ h := by
    show Dead D s0 d now (if D.isClosed s.port.dest = true then _ else _ :
      Unit × SubscribeOn.State S I E × List (Req Unit) × WorkResult).2.1
    rw [if_pos h.closed]
    exact h
  dead_input i now s h := (dead_input hD i h).1
  idle_input i now s h := by
    cases i with
    | subscribe =>
      show Dead D s0 d now (if s.begun.isSome = true then (s, []) else _ : SubscribeOn.State S I E × List (Req Unit)).1 ∨
        ((if s.begun.isSome = true then (s, []) else _ : SubscribeOn.State S I E × List (Req Unit)).2 = [] ∧
          Idle D s0 d now (if s.begun.isSome = true then (s, []) else _ : SubscribeOn.State S I E × List (Req Unit)).1) ∨
        ∃ w, (if s.begun.isSome = true then (s, []) else _ : SubscribeOn.State S I E × List (Req Unit)).2 = [.schedule w] ∧
          Busy D s0 d now .queued (w.onScheduled now)
            (if s.begun.isSome = true then (s, []) else _ : SubscribeOn.State S I E × List (Req Unit)).1
      rcases h.kind with ⟨h1, h2, h3⟩ | ⟨h1, h2, h3, h4⟩
      · rw [if_neg (by rw [h1]; simp)]
        cases hc : D.isClosed s.port.dest with
        | true => exact .inl ⟨hc, h.safe, ⟨h.started.once, fun j hj => by rw [show (_ : List Nat) = [] from h2] at hj; cases hj⟩, h3⟩
        | false =>
          refine .inr (.inr ⟨.newDelayed () d, by simp, hc, h.safe, h2, h3, now, now, rfl, ?_, Nat.le_refl _, by simp, by simp,
            by simp⟩)
          show Work.delayed _ (updateTick 0 now) (updateTick 0 now) d = _
          rw [updateTick_zero]
      · rw [if_pos h1]
        exact .inr (.inl ⟨rfl, h⟩)
    | close =>
      have hc : D.isClosed (s.port.close D now).dest = true := Port.close_isClosed hD _ _
      dsimp only
      rw [torn_closed hc]
      exact .inl ⟨hc, h.safe.close hD, h.started, rfl⟩
    | note n =>
      dsimp only
      rcases h.kind with ⟨h1, h2, h3⟩ | ⟨h1, h2, h3, h4⟩
      · rw [if_neg (by rw [h3]; simp)]
        exact .inr (.inl ⟨rfl, h⟩)
      · rw [if_pos h3]
        cases hc : D.isClosed (s.feed D n now).port.dest with
        | true =>
          rw [torn_closed hc]
          exact .inl ⟨hc, h.safe.feed n, h.started, rfl⟩
        | false =>
          rw [torn_open hc]
          refine .inr (.inl ⟨?_, h.safe.feed n, h.started, .inr ⟨h1, h2, h3, hc⟩⟩)
          dsimp only
          unfold Port.teardown
          rw [hc]
          simp
  busy_input i now f w s h := by
    cases i with
    | subscribe =>
      refine .inr ?_
      obtain ⟨k, cu, hk, _⟩ := h.work
      show (if s.begun.isSome = true then (s, []) else _ : SubscribeOn.State S I E × List (Req Unit)).2 = _ ∧
        Busy D s0 d now f w (if s.begun.isSome = true then (s, []) else _ : SubscribeOn.State S I E × List (Req Unit)).1
      rw [hk]
      exact ⟨rfl, h⟩
    | close =>
      have hc : D.isClosed (s.port.close D now).dest = true := Port.close_isClosed hD _ _
      dsimp only
      rw [torn_closed hc]
      exact .inl ⟨hc, h.safe.close hD, ⟨by dsimp only; rw [h.started]; simp, fun j hj => by
        rw [show (_ : List Nat) = [] from h.started] at hj; cases hj⟩, rfl⟩
    | note n =>
      dsimp only
      rw [if_neg (by rw [h.source]; simp)]
      exact .inr ⟨rfl, h⟩
  work t s w w' s' res ht h hw := by
    obtain ⟨k, cu, hk, rfl, hcu, hmax, _⟩ := h.work
    have hmax := hmax t rfl
    simp only [Solo.tickWork, updateTick_max, hmax] at hw
    split at hw
    · rename_i hd
      cases hw
      rw [Solo.runBody_st]
      obtain ⟨h1 | ⟨h1, h2⟩, h3⟩ := exec_open (sync := sync) (b := ()) (t := t) h.safe h.live h.started hk hd
      · exact .inl h1
      · refine .inr ⟨?_, .inl ⟨?_, h2⟩⟩
        · rw [Solo.runBody_queue, h1]; simp
        · rfl
    · rename_i hd
      cases hw
      exact .inr ⟨rfl, .inr ⟨by simp, h.live, h.safe, h.started, h.source, k, _, hk, rfl, Nat.le_refl _, by simp, by simp,
        fun _ => ⟨rfl, by omega⟩⟩⟩
  pass t now w s ht h := by
    obtain ⟨k, cu, hk, rfl, hcu, _, hq, _⟩ := h.work
    have := hq rfl
    exact ⟨h.live, h.safe, h.started, h.source, k, cu, hk, rfl, hcu, (fun t' ht' => by cases ht'; omega), by simp, by simp⟩

theorem mono : Solo.Mono (c := subscribeOn D sync d) (Dead D s0 d) (Idle D s0 d) (Busy D s0 d) where
  dead k k' s hk h := ⟨h.closed, h.safe.mono hk, h.started.mono hk, h.source⟩
  idle k k' s hk h := ⟨h.safe.mono hk, h.started.mono hk, h.kind⟩
  busy t k f w s hf h := by
    obtain ⟨b, cu, hb, rfl, hcu, hm, hq, ht⟩ := h.work
    refine ⟨h.live, h.safe.mono (Nat.le_max_left ..), h.started, h.source, b, cu, hb, rfl, by omega, fun t' ht' => ?_, by simp,
      by simp⟩
    cases ht'
    have : cu = k := by
      cases f with
      | queued => exact hq rfl
      | due t => exact absurd rfl (hf t)
      | ticked => exact (ht rfl).1
    rw [this]

theorem holds (hD : Closes D) {y : Solo (subscribeOn D sync d)}
    (h : Solo.Reachable (c := subscribeOn D sync d) { port := { dest := s0 } } y) :
    Solo.Holds (Dead D s0 d) (Idle D s0 d) (Busy D s0 d) y :=
  (single hD).reach mono ⟨⟨Port.Fits.init _ _ _ _, (fun n k h => by cases h)⟩, ⟨by simp, by simp⟩, .inl ⟨rfl, rfl, rfl⟩⟩ h

/-- What holds in all three. -/
theorem always {y : Solo (subscribeOn D sync d)} (h : Solo.Holds (Dead D s0 d) (Idle D s0 d) (Busy D s0 d) y) :
    Safe D s0 y.clock y.st.port ∧ Started d y.clock y.st.begun y.st.started ∧
    (y.st.source = true → D.isClosed y.st.port.dest = false ∧ y.st.started ≠ []) := by
  have hb : ∀ f w, Busy D s0 d y.clock f w y.st → Safe D s0 y.clock y.st.port ∧ Started d y.clock y.st.begun y.st.started ∧
      (y.st.source = true → D.isClosed y.st.port.dest = false ∧ y.st.started ≠ []) := by
    intro f w h
    refine ⟨h.safe, ⟨by rw [h.started]; simp, fun j hj => by rw [h.started] at hj; cases hj⟩, fun hs => ?_⟩
    rw [h.source] at hs; cases hs
  cases h with
  | dead h => exact ⟨h.safe, h.started, fun hs => by rw [h.source] at hs; cases hs⟩
  | idle h _ _ =>
    refine ⟨h.safe, h.started, fun hs => ?_⟩
    rcases h.kind with ⟨_, _, h3⟩ | ⟨_, h2, _, h4⟩
    · rw [h3] at hs; cases hs
    · exact ⟨h4, h2⟩
  | queued w h _ _ => exact hb _ w h
  | due _ w _ h _ _ => exact hb _ w h
  | ticked w h _ _ => exact hb _ w h

/-- A tick when the time is over. -/
theorem prompt (hD : Closes D) {y0 y : Solo (subscribeOn D sync d)} {t k : Nat}
    (h : Solo.Reachable (c := subscribeOn D sync d) { port := { dest := s0 } } y0) (ht : y0.tick = none)
    (hi : Solo.Inner (Solo.drain t { y0 with tick := some t, active := y0.active.map fun p => (p.1, false) }) y)
    (ha : y.allTicked) (hq : y.queue = []) (hb : y.st.begun = some k) (hk : k + d ≤ y.clock)
    (ho : D.isClosed y.st.port.dest = false) : y.st.started ≠ [] ∧ y.st.source = true := by
  have hs := (single hD).inner hi (by
    intro t' ht'
    cases ht'
    show _ ≤ updateTick _ _
    rw [updateTick_max]; omega) ((holds hD h).start (mono.dead _ _ _ (Nat.le_max_left ..)) (mono.idle _ _ _ (Nat.le_max_left ..))
      (fun f w hf => mono.busy _ _ f w _ hf) ht)
  cases hs.ended ha hq with
  | dead h => rw [h.closed] at ho; cases ho
  | idle h _ =>
    rcases h.kind with ⟨h1, _⟩ | ⟨_, h2, h3, _⟩
    · rw [h1] at hb; cases hb
    · exact ⟨h2, h3⟩
  | busy w h _ =>
    obtain ⟨b, cu, hb', _, _, _, _, ht⟩ := h.work
    have := ht rfl
    rw [hb] at hb'
    cases hb'
    omega

/-- What is closed stays so, and nothing is subscribed any more. -/
theorem closed_inner (hD : Closes D) {y0 y : Solo (subscribeOn D sync d)} (hi : Solo.Inner y0 y)
    (hle : ∀ t, y0.tick = some t → t ≤ y0.clock) (h : Dead D s0 d y0.clock y0.st) :
    Dead D s0 d y.clock y.st ∧ y.st.started = y0.st.started := by
  have hs : Solo.Single (subscribeOn D sync d) (fun now s => Dead D s0 d now s ∧ s.started = y0.st.started) (fun _ _ => False)
      (fun _ _ _ _ => False) :=
    { dead_exec := fun b t now s _ h => by
        show Dead D s0 d now (if D.isClosed s.port.dest = true then _ else _ :
            Unit × SubscribeOn.State S I E × List (Req Unit) × WorkResult).2.1 ∧
          (if D.isClosed s.port.dest = true then _ else _ :
            Unit × SubscribeOn.State S I E × List (Req Unit) × WorkResult).2.1.started = _
        rw [if_pos h.1.closed]
        exact h
      dead_input := fun i now s h => ⟨(dead_input hD i h.1).1, (dead_input hD i h.1).2.trans h.2⟩
      idle_input := fun _ _ _ h => h.elim
      busy_input := fun _ _ _ _ _ h => h.elim
      work := fun _ _ _ _ _ _ _ h _ => h.elim
      pass := fun _ _ _ _ _ h => h.elim }
  cases hs.inner hi hle (.dead ⟨h, rfl⟩) with
  | dead h => exact h
  | idle h _ _ => exact h.elim
  | queued _ h _ _ => exact h.elim
  | due _ _ _ h _ _ => exact h.elim
  | ticked _ h _ _ => exact h.elim

end Rx.Timed.SubscribeOn
