import Verif.Spec.TimedSources
import Verif.Lemmas.SchedulerSingle
import Verif.Lemmas.Timed

/-!
# timer, and lemmas for all sources that use a scheduler
-/

namespace Rx.Timed
open Rx.Sched
open Rx.HigherOrder (Closes)

variable {S I O E : Type} {D : Sub S O E} {s0 : S}

/-- The record is right, and `P` holds throughout. -/
structure Port.Fits (P : Line I O E → Mark I O E × Nat → Prop) (D : Sub S O E) (s : S) (now : Nat) (p : Port S I O E) : Prop where
  right : p.Right D s now
  all : Throughout P p.trace

namespace Port
variable {P Q : Line I O E → Mark I O E × Nat → Prop} {now now' : Nat} {p : Port S I O E}

theorem Fits.init (P : Line I O E → Mark I O E × Nat → Prop) (D : Sub S O E) (s : S) (now : Nat) :
    Fits P D s now { dest := s } := ⟨⟨rfl, by simp⟩, .nil _⟩

theorem Fits.mono (h : p.Fits P D s0 now) (hn : now ≤ now') : p.Fits P D s0 now' := ⟨h.right.mono hn, h.all⟩

theorem Fits.imp (h : p.Fits P D s0 now) (hPQ : ∀ τ m, P τ m → Q τ m) : p.Fits Q D s0 now := ⟨h.right, h.all.imp hPQ⟩

theorem Fits.mark (h : p.Fits P D s0 now) {n : SubscriberNotification I E} (hP : P p.trace (.arrived n, now)) :
    (p.mark (.arrived n) now).Fits P D s0 now := ⟨h.right.mark n, h.all.snoc hP⟩

theorem Fits.give (h : p.Fits P D s0 now) {n : SubscriberNotification O E}
    (hP : D.isClosed p.dest = false → P p.trace (.out n, now)) : (p.give D n now).Fits P D s0 now := by
  refine ⟨h.right.give n, ?_⟩
  cases hc : D.isClosed p.dest with
  | true => rw [give_closed hc]; exact h.all
  | false => rw [give_open hc]; exact h.all.snoc (hP hc)

theorem Fits.close (h : p.Fits P D s0 now) (hP : D.isClosed p.dest = false → P p.trace (.closed, now)) :
    (p.close D now).Fits P D s0 now := by
  refine ⟨h.right.close, ?_⟩
  cases hc : D.isClosed p.dest with
  | true => rw [close_closed hc]; exact h.all
  | false => rw [close_open hc]; exact h.all.snoc (hP hc)

theorem close_isClosed (hD : Closes D) (p : Port S I O E) (now : Nat) : D.isClosed (p.close D now).dest = true := by
  cases hc : D.isClosed p.dest with
  | true => rw [close_closed hc]; exact hc
  | false => rw [close_open hc]; exact hD _ .unsubscribe rfl

theorem give_isClosed (hD : Closes D) (p : Port S I O E) (now : Nat) {n : SubscriberNotification O E} (hn : n.isClosing = true) :
    D.isClosed (p.give D n now).dest = true := by
  cases hc : D.isClosed p.dest with
  | true => rw [give_closed hc]; exact hc
  | false => rw [give_open hc]; exact hD _ n hn

end Port

/-- The last mark is not a value that was given. -/
def Calm (τ : Line I O E) : Prop := ∀ v k, τ.getLast? ≠ some (.out (.next v), k)

theorem calm_of_outs {τ : Line I O E} (h : outs τ = []) : Calm τ := by
  intro v k hk
  have hm := List.mem_of_getLast? hk
  have : (v, k) ∈ outs τ := by
    simp only [outs, List.mem_filterMap]
    exact ⟨_, hm, rfl⟩
  rw [h] at this
  cases this

theorem calm_snoc {τ : Line I O E} {m : Mark I O E × Nat} (h : ∀ v, m.1 ≠ .out (.next v)) : Calm (τ ++ [m]) := by
  intro v k hk
  simp only [List.getLast?_concat, Option.some.injEq] at hk
  exact h v (by rw [hk])

section Plain
variable {P : Line I O E → Mark I O E × Nat → Prop} {now : Nat} {p : Port S I O E}

theorem plain_arrived (h : p.Right D s0 now) : Source.Plain D s0 p.trace (.arrived .unsubscribe, now) :=
  ⟨h.orderly (fun h => absurd rfl (h .unsubscribe)), (fun n h => by cases h; rfl), (fun e h => by cases h), (fun h => by cases h)⟩

theorem plain_closed (h : p.Right D s0 now) (hc : D.isClosed p.dest = false) : Source.Plain D s0 p.trace (.closed, now) :=
  ⟨h.orderly (fun _ => hc), (fun n h => by cases h), (fun e h => by cases h), (fun h => by cases h)⟩

theorem plain_next (h : p.Right D s0 now) (hc : D.isClosed p.dest = false) (v : O) :
    Source.Plain D s0 p.trace (.out (.next v), now) :=
  ⟨h.orderly (fun _ => hc), (fun n h => by cases h), (fun e h => by cases h), (fun h => by cases h)⟩

theorem plain_complete (h : p.Right D s0 now) (hc : D.isClosed p.dest = false) :
    Source.Plain D s0 p.trace (.out .complete, now) :=
  ⟨h.orderly (fun _ => hc), (fun n h => by cases h), (fun e h => by cases h), (fun h => by cases h)⟩

theorem plain_unsubscribe (h : p.Right D s0 now) (hc : D.isClosed p.dest = false)
    (hl : p.trace.getLast? = some (.arrived .unsubscribe, now)) : Source.Plain D s0 p.trace (.out .unsubscribe, now) :=
  ⟨h.orderly (fun _ => hc), (fun n h => by cases h), (fun e h => by cases h), fun _ => hl⟩

end Plain

namespace Timer
variable {D : Sub S Unit E} {d now : Nat}

/-- What always holds. -/
abbrev Safe (D : Sub S Unit E) (s0 : S) (d now : Nat) (s : Timer.State S E) : Prop :=
  s.port.Fits (Timer.Allowed D s0 d s.begun) D s0 now

theorem allowed_arrived {p : Port S Empty Unit E} {begun : Option Nat} (h : p.Right D s0 now)
    (hc : D.isClosed p.dest = true ∨ Calm p.trace) :
    Timer.Allowed D s0 d begun p.trace (.arrived .unsubscribe, now) where
  toPlain := plain_arrived h
  value := fun h => by cases h
  complete := fun h => by cases h
  atOnce := fun k hk ho => by
    rcases hc with hc | hc
    · rw [← h.fed, hc] at ho; cases ho
    · exact absurd hk (hc _ _)

theorem unsubscribe {p : Port S Empty Unit E} {begun : Option Nat} (h : p.Fits (Timer.Allowed D s0 d begun) D s0 now)
    (hc : D.isClosed p.dest = true ∨ Calm p.trace) :
    ((p.mark (.arrived .unsubscribe) now).give D .unsubscribe now).Fits (Timer.Allowed D s0 d begun) D s0 now := by
  have h1 := h.mark (allowed_arrived h.right hc)
  have hl : (p.mark (.arrived .unsubscribe) now).trace.getLast? = some (.arrived .unsubscribe, now) := by simp [Port.mark]
  refine h1.give (fun ho => ?_)
  exact ⟨plain_unsubscribe h1.right ho hl, (fun h => by cases h), (fun h => by cases h),
    (fun k hk _ => by rw [hl] at hk; cases hk)⟩

theorem close {p : Port S Empty Unit E} {begun : Option Nat} (h : p.Fits (Timer.Allowed D s0 d begun) D s0 now)
    (hc : D.isClosed p.dest = true ∨ Calm p.trace) : (p.close D now).Fits (Timer.Allowed D s0 d begun) D s0 now := by
  refine h.close (fun ho => ?_)
  exact ⟨plain_closed h.right ho, (fun h => by cases h), (fun h => by cases h), (fun k hk _ => by
    rcases hc with hc | hc
    · rw [hc] at ho; cases ho
    · exact absurd hk (hc _ _))⟩

theorem fire (hD : Closes D) {p : Port S Empty Unit E} {begun : Option Nat} (h : p.Fits (Timer.Allowed D s0 d begun) D s0 now)
    {k : Nat} (hk : begun = some k) (hn : k + d ≤ now) (ho : outs p.trace = []) :
    ((p.give D (.next ()) now).give D .complete now).Fits (Timer.Allowed D s0 d begun) D s0 now ∧
    D.isClosed ((p.give D (.next ()) now).give D .complete now).dest = true := by
  refine ⟨?_, Port.give_isClosed hD _ _ rfl⟩
  have h1 : (p.give D (.next ()) now).Fits (Timer.Allowed D s0 d begun) D s0 now := h.give (fun hc =>
    ⟨plain_next h.right hc (), (fun _ => ⟨ho, k, hk, hn⟩), (fun h => by cases h),
      (fun k hk _ => absurd hk (calm_of_outs ho _ _))⟩)
  refine h1.give (fun hc => ?_)
  cases hc0 : D.isClosed p.dest with
  | true => rw [Port.give_closed hc0, hc0] at hc; cases hc
  | false =>
    have hl : (p.give D (.next ()) now).trace.getLast? = some (.out (.next ()), now) := by
      rw [Port.give_open hc0]; simp
    exact ⟨plain_complete h1.right hc, (fun h => by cases h), (fun _ => hl), (fun k hk _ => by
      rw [hl] at hk; cases hk; rfl)⟩

theorem exec_closed {s : Timer.State S E} {b : Unit} {t : Nat} (hc : D.isClosed s.port.dest = true) :
    ((timer D d).exec b t now s).2.1 = s := by
  show ({ s with port := _ } : Timer.State S E) = s
  rw [Port.give_closed hc, Port.give_closed hc]

/-- Closed. -/
def Dead (D : Sub S Unit E) (s0 : S) (d now : Nat) (s : Timer.State S E) : Prop :=
  D.isClosed s.port.dest = true ∧ Safe D s0 d now s

/-- Not subscribed yet. -/
structure Idle (D : Sub S Unit E) (s0 : S) (d now : Nat) (s : Timer.State S E) : Prop where
  safe : Safe D s0 d now s
  begun : s.begun = none
  outs : outs s.port.trace = []

/-- Waiting. -/
structure Busy (D : Sub S Unit E) (s0 : S) (d now : Nat) (f : Solo.Phase) (w : Work Unit) (s : Timer.State S E) : Prop where
  safe : Safe D s0 d now s
  outs : Timed.outs s.port.trace = []
  work : ∃ k cu, s.begun = some k ∧ w = .delayed (some ()) k cu d ∧ cu ≤ now ∧
    (∀ t, f = .due t → max cu t = now) ∧ (f = .queued → cu = now) ∧ (f = .ticked → cu = now ∧ now < k + d)

theorem single (hD : Closes D) : Solo.Single (timer D d) (Dead D s0 d) (Idle D s0 d) (Busy D s0 d) where
  dead_exec b t now s _ h := by rw [exec_closed h.1]; exact h
  dead_input i now s h := by
    cases i with
    | subscribe =>
      show Dead D s0 d now (if s.begun.isSome = true then (s, []) else _ : Timer.State S E × List (Req Unit)).1
      split
      · exact h
      · rename_i hb
        refine ⟨h.1, h.2.imp ?_⟩
        intro τ m hm
        refine ⟨hm.toPlain, fun hv => ?_, hm.complete, hm.atOnce⟩
        obtain ⟨_, k, hk, _⟩ := hm.value hv
        rw [hk] at hb
        exact absurd rfl hb
    | unsubscribe =>
      show Dead D s0 d now (if s.begun.isNone = true then (s, []) else _ : Timer.State S E × List (Req Unit)).1
      split
      · exact h
      · exact ⟨Port.give_isClosed hD _ _ rfl, unsubscribe h.2 (.inl h.1)⟩
    | close => exact ⟨Port.close_isClosed hD _ _, close h.2 (.inl h.1)⟩
  idle_input i now s h := by
    cases i with
    | subscribe =>
      refine .inr (.inr ⟨.newDelayed () d, ?_, ?_⟩)
      · show (if s.begun.isSome = true then (s, []) else _ : Timer.State S E × List (Req Unit)).2 = _
        rw [h.begun]; rfl
      · show Busy D s0 d now .queued _ (if s.begun.isSome = true then (s, []) else _ : Timer.State S E × List (Req Unit)).1
        rw [h.begun]
        refine ⟨h.safe.imp ?_, h.outs, now, now, rfl, ?_, Nat.le_refl _, by simp, by simp, by simp⟩
        · intro τ m hm
          refine ⟨hm.toPlain, fun hv => ?_, hm.complete, hm.atOnce⟩
          obtain ⟨_, k, hk, _⟩ := hm.value hv
          rw [h.begun] at hk; cases hk
        · show Work.delayed _ (updateTick 0 now) (updateTick 0 now) d = _
          rw [updateTick_zero]
    | unsubscribe =>
      refine .inr (.inl ?_)
      show (if s.begun.isNone = true then (s, []) else _ : Timer.State S E × List (Req Unit)).2 = _ ∧
        Idle D s0 d now (if s.begun.isNone = true then (s, []) else _ : Timer.State S E × List (Req Unit)).1
      rw [h.begun]
      exact ⟨rfl, h⟩
    | close => exact .inl ⟨Port.close_isClosed hD _ _, close h.safe (.inr (calm_of_outs h.outs))⟩
  busy_input i now f w s h := by
    obtain ⟨k, cu, hk, _⟩ := h.work
    cases i with
    | subscribe =>
      refine .inr ?_
      show (if s.begun.isSome = true then (s, []) else _ : Timer.State S E × List (Req Unit)).2 = _ ∧
        Busy D s0 d now f w (if s.begun.isSome = true then (s, []) else _ : Timer.State S E × List (Req Unit)).1
      rw [hk]
      exact ⟨rfl, h⟩
    | unsubscribe =>
      refine .inl ?_
      show Dead D s0 d now (if s.begun.isNone = true then (s, []) else _ : Timer.State S E × List (Req Unit)).1
      rw [if_neg (by rw [hk]; simp)]
      exact ⟨Port.give_isClosed hD _ _ rfl, unsubscribe h.safe (.inr (calm_of_outs h.outs))⟩
    | close => exact .inl ⟨Port.close_isClosed hD _ _, close h.safe (.inr (calm_of_outs h.outs))⟩
  work t s w w' s' res ht h hw := by
    obtain ⟨k, cu, hk, rfl, hcu, hmax, _⟩ := h.work
    have hmax := hmax t rfl
    simp only [Solo.tickWork, updateTick_max, hmax] at hw
    split at hw
    · rename_i hd
      cases hw
      left
      rw [Solo.runBody_st]
      have := fire hD h.safe hk hd h.outs
      exact ⟨this.2, this.1⟩
    · rename_i hd
      cases hw
      exact .inr ⟨rfl, .inr ⟨by simp, h.safe, h.outs, k, _, hk, rfl, Nat.le_refl _, by simp, by simp,
        fun _ => ⟨rfl, by omega⟩⟩⟩
  pass t now w s ht h := by
    obtain ⟨k, cu, hk, rfl, hcu, _, hq, _⟩ := h.work
    have := hq rfl
    exact ⟨h.safe, h.outs, k, cu, hk, rfl, hcu, (fun t' ht' => by cases ht'; omega), by simp, by simp⟩

theorem mono : Solo.Mono (c := timer D d) (Dead D s0 d) (Idle D s0 d) (Busy D s0 d) where
  dead k k' s hk h := ⟨h.1, h.2.mono hk⟩
  idle k k' s hk h := ⟨h.safe.mono hk, h.begun, h.outs⟩
  busy t k f w s hf h := by
    obtain ⟨b, cu, hb, rfl, hcu, hm, hq, ht⟩ := h.work
    refine ⟨h.safe.mono (Nat.le_max_left ..), h.outs, b, cu, hb, rfl, by omega, fun t' ht' => ?_, by simp, by simp⟩
    cases ht'
    have : cu = k := by
      cases f with
      | queued => exact hq rfl
      | due t => exact absurd rfl (hf t)
      | ticked => exact (ht rfl).1
    rw [this]

theorem holds (hD : Closes D) {y : Solo (timer D d)}
    (h : Solo.Reachable (c := timer D d) { port := { dest := s0 } } y) : Solo.Holds (Dead D s0 d) (Idle D s0 d) (Busy D s0 d) y :=
  (single hD).reach mono ⟨Port.Fits.init _ _ _ _, rfl, rfl⟩ h

theorem safe {y : Solo (timer D d)} (h : Solo.Holds (Dead D s0 d) (Idle D s0 d) (Busy D s0 d) y) : Safe D s0 d y.clock y.st := by
  cases h with
  | dead h => exact h.2
  | idle h _ _ => exact h.safe
  | queued _ h _ _ => exact h.safe
  | due _ _ _ h _ _ => exact h.safe
  | ticked _ h _ _ => exact h.safe

theorem open_outs {y : Solo (timer D d)} (h : Solo.Holds (Dead D s0 d) (Idle D s0 d) (Busy D s0 d) y)
    (ho : D.isClosed y.st.port.dest = false) : outs y.st.port.trace = [] := by
  cases h with
  | dead h => rw [h.1] at ho; cases ho
  | idle h _ _ => exact h.outs
  | queued _ h _ _ => exact h.outs
  | due _ _ _ h _ _ => exact h.outs
  | ticked _ h _ _ => exact h.outs

/-- A tick when the time is over. -/
theorem prompt (hD : Closes D) {y0 y : Solo (timer D d)} {t k : Nat}
    (h : Solo.Reachable (c := timer D d) { port := { dest := s0 } } y0) (ht : y0.tick = none)
    (hi : Solo.Inner (Solo.drain t { y0 with tick := some t, active := y0.active.map fun p => (p.1, false) }) y)
    (ha : y.allTicked) (hq : y.queue = []) (hb : y.st.begun = some k) (hk : k + d ≤ y.clock) :
    D.isClosed y.st.port.dest = true := by
  have hs := (single hD).inner hi (by
    intro t' ht'
    cases ht'
    show _ ≤ updateTick _ _
    rw [updateTick_max]; omega) ((holds hD h).start (mono.dead _ _ _ (Nat.le_max_left ..)) (mono.idle _ _ _ (Nat.le_max_left ..))
      (fun f w hf => mono.busy _ _ f w _ hf) ht)
  cases hs.ended ha hq with
  | dead h => exact h.1
  | idle h _ => rw [h.begun] at hb; cases hb
  | busy w h _ =>
    obtain ⟨b, cu, hb', _, _, _, _, ht⟩ := h.work
    have := ht rfl
    rw [hb] at hb'
    cases hb'
    omega

theorem stamps (D : Sub S Unit E) (d : Nat) : Stamps (timer D d) (fun s : Timer.State S E => s.port.trace) := by
  refine ⟨fun b t now s => (Port.give_grew _ _ _ _).trans (Port.give_grew _ _ _ _), fun i now s => ?_⟩
  cases i with
  | subscribe =>
    show Grew now s.port.trace (if s.begun.isSome = true then (s, []) else _ : Timer.State S E × List (Req Unit)).1.port.trace
    split <;> exact Grew.refl _ _
  | unsubscribe =>
    show Grew now s.port.trace (if s.begun.isNone = true then (s, []) else _ : Timer.State S E × List (Req Unit)).1.port.trace
    split
    · exact Grew.refl _ _
    · exact (Port.mark_grew _ _ _).trans (Port.give_grew _ _ _ _)
  | close => exact Port.close_grew _ _ _

end Timer
end Rx.Timed
