import Verif.Lemmas.TimedSources

/-!
# fallback_when_silent
-/

namespace Rx.Timed.Fallback
open Rx.Sched
open Rx.HigherOrder (Closes)

variable {S I E : Type} {D : Sub S I E} {s0 : S} {fb : Nat → Nat → I} {now : Nat} {o : Option (Nat × Line I I E)}

theorem recent_snoc (τ : Line I I E) (m : Mark I I E × Nat) : recent (τ ++ [m]) =
    match m.1 with | .arrived (.next v) => recent τ ++ [v] | .out (.next _) => [] | _ => recent τ := by
  unfold recent
  rw [List.foldl_append]
  obtain ⟨m, k⟩ := m
  cases m with
  | arrived n => cases n <;> rfl
  | out n => cases n <;> rfl
  | closed => rfl

/-- What always holds of the record. -/
structure Safe (D : Sub S I E) (s0 : S) (fb : Nat → Nat → I) (now : Nat) (p : Port S I I E) : Prop where
  fits : p.Fits (Fallback.Allowed D s0 fb) D s0 now
  quiet : ∀ n k, p.trace.getLast? = some (.arrived n, k) → Final n → D.isClosed p.dest = true

theorem Safe.mono {now' : Nat} {p : Port S I I E} (h : Safe D s0 fb now p) (hn : now ≤ now') : Safe D s0 fb now' p :=
  ⟨h.fits.mono hn, h.quiet⟩

theorem Safe.loud {p : Port S I I E} (h : Safe D s0 fb now p) {m : Mark I I E × Nat} : ∀ n k, p.trace.getLast? = some (.arrived n, k) →
    Final n → D.isClosed (fed D s0 p.trace) = false → m = (.out n, k) := by
  intro n k hk hn ho
  rw [← h.fits.right.fed, h.quiet n k hk hn] at ho
  cases ho

theorem Safe.arrive {p : Port S I I E} (h : Safe D s0 fb now p) (n : SubscriberNotification I E) :
    (p.mark (.arrived n) now).Fits (Fallback.Allowed D s0 fb) D s0 now :=
  h.fits.mark (n := n) ⟨h.fits.right.orderly (fun h => absurd rfl (h n)), (fun n h => by cases h), (fun n h => by cases h), h.loud⟩

theorem mark_last (p : Port S I I E) (n : SubscriberNotification I E) :
    (p.mark (.arrived n) now).trace.getLast? = some (.arrived n, now) := by simp [Port.mark]

theorem Safe.value {p : Port S I I E} (h : Safe D s0 fb now p) (v : I) : Safe D s0 fb now (p.mark (.arrived (.next v)) now) := by
  refine ⟨h.arrive _, fun n k hk hn => ?_⟩
  rw [mark_last] at hk
  cases hk
  exact absurd hn (by simp [Final])

/-- An end arrives. -/
theorem Safe.ended (hD : Closes D) {p : Port S I I E} (h : Safe D s0 fb now p) {n : SubscriberNotification I E} (hn : Final n) :
    Safe D s0 fb now ((p.mark (.arrived n) now).give D n now) ∧
    D.isClosed ((p.mark (.arrived n) now).give D n now).dest = true := by
  have hc : n.isClosing = true := by cases n <;> first | rfl | exact absurd hn (by simp [Final])
  refine ⟨⟨(h.arrive n).give (fun ho => ⟨(h.arrive n).right.orderly (fun _ => ho), ?_, (fun n' h _ => by cases h; exact mark_last p n),
    fun n' k hk hn' _ => by rw [mark_last] at hk; cases hk; rfl⟩), fun _ _ _ _ => ?_⟩, ?_⟩
  · intro v hv
    cases hv
    exact absurd hn (by simp [Final])
  · exact Port.give_isClosed hD _ _ hc
  · exact Port.give_isClosed hD _ _ hc

theorem Safe.close (hD : Closes D) {p : Port S I I E} (h : Safe D s0 fb now p) : Safe D s0 fb now (p.close D now) :=
  ⟨h.fits.close (fun ho => ⟨h.fits.right.orderly (fun _ => ho), (fun n h => by cases h), (fun n h => by cases h), h.loud⟩),
    fun _ _ _ _ => Port.close_isClosed hD _ _⟩

theorem Safe.give {p : Port S I I E} (h : Safe D s0 fb now p) {v : I}
    (hv : D.isClosed p.dest = false → (recent p.trace).getLast? = some v ∨
      (recent p.trace = [] ∧ ∃ t, t ≤ now ∧ v = fb t (outs p.trace).length)) :
    Safe D s0 fb now (p.give D (.next v) now) := by
  refine ⟨h.fits.give (fun ho => ⟨h.fits.right.orderly (fun _ => ho), (fun n h => by cases h; exact hv ho), (fun n h hf => by
    cases h; exact absurd hf (by simp [Final])), h.loud⟩), fun n k hk hn => ?_⟩
  cases hc : D.isClosed p.dest with
  | true => rw [Port.give_closed hc]; exact hc
  | false => rw [Port.give_open hc] at hk; simp at hk

/-- `τ'` is `τ` and marks that are not values given. -/
def Still (τ τ' : Line I I E) : Prop := ∃ r, τ' = τ ++ r ∧ outs r = []

theorem Still.outs {τ τ' : Line I I E} (h : Still τ τ') : Timed.outs τ' = Timed.outs τ := by
  obtain ⟨r, rfl, hr⟩ := h
  rw [outs_append, hr, List.append_nil]

theorem Still.trans {a b c : Line I I E} (h : Still a b) (h' : Still b c) : Still a c := by
  obtain ⟨r, rfl, hr⟩ := h
  obtain ⟨r', rfl, hr'⟩ := h'
  exact ⟨r ++ r', by simp, by rw [outs_append, hr, hr']; rfl⟩

theorem still_mark (p : Port S I I E) (n : SubscriberNotification I E) : Still p.trace (p.mark (.arrived n) now).trace :=
  ⟨[(.arrived n, now)], rfl, rfl⟩

theorem still_give (p : Port S I I E) {n : SubscriberNotification I E} (hn : Final n) : Still p.trace (p.give D n now).trace := by
  unfold Port.give
  split
  · exact ⟨[], by simp, rfl⟩
  · refine ⟨[(.out n, now)], rfl, ?_⟩
    cases n <;> simp_all [Final, Timed.outs]

theorem still_close (p : Port S I I E) : Still p.trace (p.close D now).trace := by
  unfold Port.close
  split
  · exact ⟨[], by simp, rfl⟩
  · exact ⟨[(.closed, now)], rfl, rfl⟩

/-- The value of the tick `t` was given. -/
def Told (fb : Nat → Nat → I) (now t : Nat) (τ0 τ : Line I I E) : Prop :=
  ∃ past v rest, τ = past ++ (.out (.next v), now) :: rest ∧ outs past = outs τ0 ∧ outs rest = [] ∧
    ((recent past).getLast? = some v ∨ (recent past = [] ∧ v = fb t (outs past).length))

theorem Told.still {t : Nat} {τ0 τ τ' : Line I I E} (h : Told fb now t τ0 τ) (hs : Still τ τ') : Told fb now t τ0 τ' := by
  obtain ⟨past, v, rest, rfl, h1, h2, h3⟩ := h
  obtain ⟨r, rfl, hr⟩ := hs
  exact ⟨past, v, rest ++ r, by simp, h1, by rw [outs_append, h2, hr]; rfl, h3⟩

theorem Told.count {t : Nat} {τ0 τ : Line I I E} (h : Told fb now t τ0 τ) : (outs τ).length = (outs τ0).length + 1 := by
  obtain ⟨past, v, rest, rfl, h1, h2, h3⟩ := h
  rw [show past ++ (Mark.out (.next v), now) :: rest = past ++ ([(Mark.out (.next v), now)] ++ rest) from rfl, outs_append, outs_append,
    h1, h2, outs_next]
  simp

/-- What is known of the tick `o`, that started with a record: nothing was given in it yet, or its value was. -/
def Seen (fb : Nat → Nat → I) (now : Nat) (o : Option (Nat × Line I I E)) (f : Solo.Phase) (τ : Line I I E) : Prop :=
  match f with
  | .queued => o = none
  | .due t => ∀ p, o = some p → t = p.1 ∧ outs τ = outs p.2
  | .ticked => ∀ p, o = some p → Told fb now p.1 p.2 τ

/-- Not more than one value was given in it. -/
def AtMost (o : Option (Nat × Line I I E)) (τ : Line I I E) : Prop := ∀ p, o = some p → (outs τ).length ≤ (outs p.2).length + 1

theorem Seen.still {f : Solo.Phase} {τ τ' : Line I I E} (h : Seen fb now o f τ) (hs : Still τ τ') : Seen fb now o f τ' := by
  cases f with
  | queued => exact h
  | due t => exact fun p hp => ⟨(h p hp).1, hs.outs.trans (h p hp).2⟩
  | ticked => exact fun p hp => (h p hp).still hs

theorem Seen.atMost {f : Solo.Phase} {τ : Line I I E} (h : Seen fb now o f τ) : AtMost o τ := by
  intro p hp
  cases f with
  | queued => rw [show o = none from h] at hp; cases hp
  | due t => rw [(h p hp).2]; omega
  | ticked => rw [(h p hp).count]; omega

theorem AtMost.still {τ τ' : Line I I E} (h : AtMost o τ) (hs : Still τ τ') : AtMost o τ' := fun p hp => by
  rw [hs.outs]; exact h p hp

/-- Closed. -/
structure Dead (D : Sub S I E) (s0 : S) (fb : Nat → Nat → I) (o : Option (Nat × Line I I E)) (now : Nat)
    (s : Fallback.State S I E) : Prop where
  closed : D.isClosed s.port.dest = true
  safe : Safe D s0 fb now s.port
  atMost : AtMost o s.port.trace

/-- Not subscribed. -/
structure Idle (D : Sub S I E) (s0 : S) (fb : Nat → Nat → I) (o : Option (Nat × Line I I E)) (now : Nat)
    (s : Fallback.State S I E) : Prop where
  safe : Safe D s0 fb now s.port
  begun : s.begun = none
  outs : Timed.outs s.port.trace = []
  recent : Timed.recent s.port.trace = []
  observed : s.observed = none
  tick : o = none

/-- Subscribed. -/
structure Busy (D : Sub S I E) (s0 : S) (fb : Nat → Nat → I) (o : Option (Nat × Line I I E)) (now : Nat) (f : Solo.Phase)
    (w : Work Nat) (s : Fallback.State S I E) : Prop where
  live : D.isClosed s.port.dest = false
  safe : Safe D s0 fb now s.port
  begun : s.begun.isSome = true
  observed : s.observed = (Timed.recent s.port.trace).getLast?
  seen : Seen fb now o f s.port.trace
  work : ∃ l, w = .continuous l (Timed.outs s.port.trace).length

theorem exec_busy {l t i : Nat} {s : Fallback.State S I E} (ht : t ≤ now) (h : Busy D s0 fb o now (.due t) (.continuous l i) s)
    (l' : Nat) :
    Dead D s0 fb o now ((fallback D fb).exec i t now s).2.1 ∨
      Busy D s0 fb o now .ticked (.continuous l' ((fallback D fb).exec i t now s).1) ((fallback D fb).exec i t now s).2.1 := by
  obtain ⟨l0, hw⟩ := h.work
  have hi : i = (outs s.port.trace).length := by cases hw; rfl
  generalize hv : (match s.observed with | some v => v | none => fb t i) = v
  have he : (fallback D fb).exec i t now s =
      (i + 1, { s with observed := none, port := s.port.give D (.next v) now }, [], .pending) := by subst hv; rfl
  have key : (recent s.port.trace).getLast? = some v ∨ (recent s.port.trace = [] ∧ v = fb t (outs s.port.trace).length) := by
    have ho := h.observed
    cases hx : s.observed with
    | some v' =>
      rw [hx] at hv ho
      dsimp only at hv
      subst hv
      exact .inl ho.symm
    | none =>
      rw [hx] at hv ho
      dsimp only at hv
      refine .inr ⟨List.getLast?_eq_none_iff.1 ho.symm, ?_⟩
      rw [← hi]; exact hv.symm
  have hs : Safe D s0 fb now (s.port.give D (.next v) now) := h.safe.give (fun _ => key.imp id (fun h => ⟨h.1, t, ht, h.2⟩))
  have htr : (s.port.give D (.next v) now).trace = s.port.trace ++ [(.out (.next v), now)] := by rw [Port.give_open h.live]
  have hseen : Seen fb now o .ticked (s.port.give D (.next v) now).trace := by
    intro p hp
    obtain ⟨h1, h2⟩ := h.seen p hp
    refine ⟨s.port.trace, v, [], htr, h2, rfl, ?_⟩
    rw [← h1]; exact key
  rw [he]
  cases hc : D.isClosed (s.port.give D (.next v) now).dest with
  | true => exact .inl ⟨hc, hs, hseen.atMost⟩
  | false =>
    refine .inr ⟨hc, hs, h.begun, ?_, hseen, l', ?_⟩
    · dsimp only
      rw [htr, recent_snoc]
      rfl
    · dsimp only
      rw [htr, outs_append, outs_next, hi]
      simp

theorem note_end (hD : Closes D) {s : Fallback.State S I E} (hs : Safe D s0 fb now s.port)
    (ha : AtMost o s.port.trace) (hb : s.begun.isSome = true) {n : SubscriberNotification I E} (hn : Final n) :
    Dead D s0 fb o now ((fallback D fb).input (.note n) now s).1 := by
  obtain ⟨h1, h2⟩ := hs.ended hD hn
  have h3 := (ha.still (still_mark (now := now) s.port n)).still (still_give (D := D) (now := now) _ hn)
  have hnb : s.begun.isNone = false := by cases h : s.begun with | none => rw [h] at hb; cases hb | some _ => rfl
  have : ((fallback D fb).input (.note n) now s).1.port = (s.port.mark (.arrived n) now).give D n now := by
    cases n with
    | next v => exact absurd hn (by simp [Final])
    | error e =>
      show (if s.begun.isNone = true then (s, []) else _ : Fallback.State S I E × List (Req Nat)).1.port = _
      rw [hnb]
      exact Port.give_closed h2 ..
    | complete =>
      show (if s.begun.isNone = true then (s, []) else _ : Fallback.State S I E × List (Req Nat)).1.port = _
      rw [hnb]
      exact Port.give_closed h2 ..
    | unsubscribe =>
      show (if s.begun.isNone = true then (s, []) else _ : Fallback.State S I E × List (Req Nat)).1.port = _
      rw [hnb]
      rfl
  exact ⟨by rw [this]; exact h2, by rw [this]; exact h1, by rw [this]; exact h3⟩

theorem single (hD : Closes D) : Solo.Single (fallback D fb) (Dead D s0 fb o) (Idle D s0 fb o) (Busy D s0 fb o) where
  dead_exec b t now s _ h := by
    refine ⟨?_, ?_, ?_⟩
    · dsimp only; rw [Port.give_closed h.closed]; exact h.closed
    · dsimp only; rw [Port.give_closed h.closed]; exact h.safe
    · dsimp only; rw [Port.give_closed h.closed]; exact h.atMost
  dead_input i now s h := by
    cases i with
    | subscribe =>
      show Dead D s0 fb o now (if s.begun.isSome = true then (s, []) else _ : Fallback.State S I E × List (Req Nat)).1
      split
      · exact h
      · exact ⟨h.closed, h.safe, h.atMost⟩
    | close => exact ⟨Port.close_isClosed hD _ _, h.safe.close hD, h.atMost.still (still_close _)⟩
    | note n =>
      cases hb : s.begun with
      | none =>
        show Dead D s0 fb o now (if s.begun.isNone = true then (s, []) else _ : Fallback.State S I E × List (Req Nat)).1
        rw [hb]; exact h
      | some k =>
        cases n with
        | next v =>
          show Dead D s0 fb o now (if s.begun.isNone = true then (s, []) else _ : Fallback.State S I E × List (Req Nat)).1
          rw [hb]
          exact ⟨h.closed, h.safe.value v, h.atMost.still (still_mark _ _)⟩
        | error e => exact note_end hD h.safe h.atMost (by rw [hb]; rfl) (by simp [Final])
        | complete => exact note_end hD h.safe h.atMost (by rw [hb]; rfl) (by simp [Final])
        | unsubscribe => exact note_end hD h.safe h.atMost (by rw [hb]; rfl) (by simp [Final])
  idle_input i now s h := by
    have hat : AtMost o s.port.trace := fun p hp => by rw [h.outs]; simp
    cases i with
    | subscribe =>
      show Dead D s0 fb o now (if s.begun.isSome = true then (s, []) else _ : Fallback.State S I E × List (Req Nat)).1 ∨
        ((if s.begun.isSome = true then (s, []) else _ : Fallback.State S I E × List (Req Nat)).2 = [] ∧
          Idle D s0 fb o now (if s.begun.isSome = true then (s, []) else _ : Fallback.State S I E × List (Req Nat)).1) ∨
        ∃ w, (if s.begun.isSome = true then (s, []) else _ : Fallback.State S I E × List (Req Nat)).2 = [.schedule w] ∧
          Busy D s0 fb o now .queued (w.onScheduled now)
            (if s.begun.isSome = true then (s, []) else _ : Fallback.State S I E × List (Req Nat)).1
      rw [if_neg (by rw [h.begun]; simp)]
      cases hc : D.isClosed s.port.dest with
      | true => exact .inl ⟨hc, h.safe, hat⟩
      | false =>
        refine .inr (.inr ⟨.newContinuous 0, rfl, hc, h.safe, rfl, ?_, h.tick, 0, ?_⟩)
        · dsimp only
          rw [h.recent, h.observed]
          rfl
        · dsimp only
          rw [h.outs]
          rfl
    | close => exact .inl ⟨Port.close_isClosed hD _ _, h.safe.close hD, hat.still (still_close _)⟩
    | note n =>
      right; left
      show (if s.begun.isNone = true then (s, []) else _ : Fallback.State S I E × List (Req Nat)).2 = [] ∧
        Idle D s0 fb o now (if s.begun.isNone = true then (s, []) else _ : Fallback.State S I E × List (Req Nat)).1
      rw [if_pos (by rw [h.begun]; rfl)]
      exact ⟨rfl, h⟩
  busy_input i now f w s h := by
    cases i with
    | subscribe =>
      right
      show (if s.begun.isSome = true then (s, []) else _ : Fallback.State S I E × List (Req Nat)).2 = [] ∧
        Busy D s0 fb o now f w (if s.begun.isSome = true then (s, []) else _ : Fallback.State S I E × List (Req Nat)).1
      rw [if_pos h.begun]
      exact ⟨rfl, h⟩
    | close => exact .inl ⟨Port.close_isClosed hD _ _, h.safe.close hD, h.seen.atMost.still (still_close _)⟩
    | note n =>
      cases n with
      | next v =>
        right
        show (if s.begun.isNone = true then (s, []) else _ : Fallback.State S I E × List (Req Nat)).2 = [] ∧
          Busy D s0 fb o now f w (if s.begun.isNone = true then (s, []) else _ : Fallback.State S I E × List (Req Nat)).1
        have hb := h.begun
        rw [if_neg (by cases hx : s.begun with | none => rw [hx] at hb; cases hb | some _ => simp)]
        refine ⟨rfl, h.live, h.safe.value v, h.begun, ?_, h.seen.still (still_mark _ _), ?_⟩
        · show some v = (recent (s.port.trace ++ [_])).getLast?
          rw [recent_snoc]
          simp
        · obtain ⟨l, hw⟩ := h.work
          exact ⟨l, by rw [hw, (still_mark (now := now) s.port (.next v)).outs]⟩
      | error e => exact .inl (note_end hD h.safe h.seen.atMost h.begun (by simp [Final]))
      | complete => exact .inl (note_end hD h.safe h.seen.atMost h.begun (by simp [Final]))
      | unsubscribe => exact .inl (note_end hD h.safe h.seen.atMost h.begun (by simp [Final]))
  work t s w w' s' res ht h hw := by
    obtain ⟨l, rfl⟩ := h.work
    simp only [Solo.tickWork] at hw
    cases hw
    have h1 := exec_busy ht h (updateTick l t)
    rw [Solo.runBody_st, Solo.runBody_queue]
    rcases h1 with h1 | h1
    · exact .inl h1
    · exact .inr ⟨List.append_nil _, .inr ⟨(fun h => by cases h), h1⟩⟩
  pass t now w s ht h := ⟨h.live, h.safe, h.begun, h.observed, fun p hp => (by
    rw [show o = none from h.seen] at hp; cases hp), h.work⟩

theorem mono : Solo.Mono (c := fallback D fb) (Dead D s0 fb none) (Idle D s0 fb none) (Busy D s0 fb none) where
  dead k k' s hk h := ⟨h.closed, h.safe.mono hk, h.atMost⟩
  idle k k' s hk h := ⟨h.safe.mono hk, h.begun, h.outs, h.recent, h.observed, h.tick⟩
  busy t k f w s hf h := ⟨h.live, h.safe.mono (Nat.le_max_left ..), h.begun, h.observed, (fun p hp => by cases hp), h.work⟩

theorem holds (hD : Closes D) {y : Solo (fallback D fb)}
    (h : Solo.Reachable (c := fallback D fb) { port := { dest := s0 } } y) :
    Solo.Holds (Dead D s0 fb none) (Idle D s0 fb none) (Busy D s0 fb none) y :=
  (single hD).reach mono ⟨⟨Port.Fits.init _ _ _ _, (fun n k h => by cases h)⟩, rfl, rfl, rfl, rfl, rfl⟩ h

/-- What holds in all three. -/
theorem always {y : Solo (fallback D fb)} (h : Solo.Holds (Dead D s0 fb none) (Idle D s0 fb none) (Busy D s0 fb none) y) :
    Safe D s0 fb y.clock y.st.port := by
  cases h with
  | dead h => exact h.safe
  | idle h _ _ => exact h.safe
  | queued w h _ _ => exact h.safe
  | due _ w _ h _ _ => exact h.safe
  | ticked w h _ _ => exact h.safe

/-- A tick after the subscription. -/
theorem tick (hD : Closes D) {y0 y : Solo (fallback D fb)} {t : Nat}
    (h : Solo.Reachable (c := fallback D fb) { port := { dest := s0 } } y0) (ht : y0.tick = none)
    (hi : Solo.Inner (Solo.drain t { y0 with tick := some t, active := y0.active.map fun p => (p.1, false) }) y)
    (ha : y.allTicked) (hq : y.queue = []) (hb : y0.st.begun.isSome = true) :
    (D.isClosed y.st.port.dest = true ∧ AtMost (some (t, y0.st.port.trace)) y.st.port.trace) ∨
    (D.isClosed y.st.port.dest = false ∧ Told fb y.clock t y0.st.port.trace y.st.port.trace) := by
  have hs := (single (o := some (t, y0.st.port.trace)) hD).inner hi (by
    intro t' ht'
    cases ht'
    show _ ≤ updateTick _ _
    rw [updateTick_max]; omega) ((holds hD h).start
      (fun h => ⟨h.closed, h.safe.mono (Nat.le_max_left ..), fun p hp => by cases hp; exact Nat.le_succ _⟩)
      (fun h => by rw [h.begun] at hb; cases hb)
      (fun f w hf h => ⟨h.live, h.safe.mono (Nat.le_max_left ..), h.begun, h.observed, (fun p hp => by cases hp; exact ⟨rfl, rfl⟩),
        h.work⟩) ht)
  cases hs.ended ha hq with
  | dead h => exact .inl ⟨h.closed, h.atMost⟩
  | idle h _ => cases h.tick
  | busy w h _ => exact .inr ⟨h.live, h.seen _ rfl⟩

/-- No input makes it give a value. -/
theorem input_still (i : Fallback.Input I E) (s : Fallback.State S I E) :
    Still s.port.trace ((fallback D fb).input i now s).1.port.trace := by
  cases i with
  | subscribe =>
    show Still _ (if s.begun.isSome = true then (s, []) else _ : Fallback.State S I E × List (Req Nat)).1.port.trace
    split
    · exact ⟨[], by simp, rfl⟩
    · exact ⟨[], by simp, rfl⟩
  | close => exact still_close _
  | note n =>
    show Still _ (if s.begun.isNone = true then (s, []) else _ : Fallback.State S I E × List (Req Nat)).1.port.trace
    split
    · exact ⟨[], by simp, rfl⟩
    · cases n with
      | next v => exact still_mark _ _
      | error e => exact ((still_mark _ _).trans (still_give _ (by simp [Final]))).trans (still_give _ (by simp [Final]))
      | complete => exact ((still_mark _ _).trans (still_give _ (by simp [Final]))).trans (still_give _ (by simp [Final]))
      | unsubscribe => exact (still_mark _ _).trans (still_give _ (by simp [Final]))

/-- Nothing is given between ticks. -/
theorem between {y0 y : Solo (fallback D fb)} (hi : Solo.Inner y0 y) (ht : y0.tick = none) :
    Still y0.st.port.trace y.st.port.trace := by
  induction hi with
  | refl => exact ⟨[], by simp, rfl⟩
  | tail hi hs hk ih =>
    refine ih.trans ?_
    have hn := hi.tick.trans ht
    cases hs with
    | input i => rw [Solo.input_st]; exact input_still ..
    | start t _ => rw [hn] at hk; cases hk
    | work _ t pre post w w' res h1 => rw [h1] at hn; cases hn
    | pass t h1 => rw [h1] at hn; cases hn
    | finish t h1 => rw [h1] at hn; cases hn

end Rx.Timed.Fallback
