import Verif.Lemmas.TimedSources

/-!
# iterator_on_tick
-/

namespace Rx.Timed.IteratorOnTick
open Rx.Sched
open Rx.HigherOrder (Closes)

variable {S O E : Type} {D : Sub S O E} {s0 : S} {f : Nat → Option O} {n now : Nat} {start : Bool}

/-- What always holds. -/
abbrev Safe (D : Sub S O E) (s0 : S) (f : Nat → Option O) (start : Bool) (now : Nat) (p : Port S Empty O E) : Prop :=
  p.Fits (IteratorOnTick.Allowed D s0 f start) D s0 now

/-- Completion is not due. -/
def NotDue (f : Nat → Option O) (start : Bool) (τ : Line Empty O E) : Prop :=
  ∀ v k, τ.getLast? = some (.out (.next v), k) → f (outs τ).length = none → ¬ (start = false ∨ 1 < (outs τ).length)

theorem NotDue.of_calm {τ : Line Empty O E} (h : Calm τ) : NotDue f start τ := fun v k hk => absurd hk (h v k)

theorem unsubscribe {p : Port S Empty O E} (h : Safe D s0 f start now p) (hc : D.isClosed p.dest = true ∨ NotDue f start p.trace) :
    Safe D s0 f start now ((p.mark (.arrived .unsubscribe) now).give D .unsubscribe now) := by
  have h1 := h.mark (n := .unsubscribe) ⟨plain_arrived h.right, (fun v h => by cases h), (fun h => by cases h),
    (fun v k hk ho hf hl => by
      rcases hc with hc | hc
      · rw [← h.right.fed, hc] at ho; cases ho
      · exact absurd hl (hc v k hk hf))⟩
  have hl : (p.mark (.arrived .unsubscribe) now).trace.getLast? = some (.arrived .unsubscribe, now) := by simp [Port.mark]
  exact h1.give (fun ho => ⟨plain_unsubscribe h1.right ho hl, (fun v h => by cases h), (fun h => by cases h),
    (fun v k hk _ _ _ => by rw [hl] at hk; cases hk)⟩)

theorem close {p : Port S Empty O E} (h : Safe D s0 f start now p) (hc : D.isClosed p.dest = true ∨ NotDue f start p.trace) :
    Safe D s0 f start now (p.close D now) :=
  h.close (fun ho => ⟨plain_closed h.right ho, (fun v h => by cases h), (fun h => by cases h), (fun v k hk _ hf hl => by
    rcases hc with hc | hc
    · rw [hc] at ho; cases ho
    · exact absurd hl (hc v k hk hf))⟩)

theorem give {p : Port S Empty O E} (h : Safe D s0 f start now p) (hn : NotDue f start p.trace) {v : O}
    (hv : f (outs p.trace).length = some v) : Safe D s0 f start now (p.give D (.next v) now) :=
  h.give (fun hc => ⟨plain_next h.right hc _, (fun v' hv' => by cases hv'; exact hv), (fun h => by cases h),
    (fun v k hk _ hf hl => absurd hl (hn v k hk hf))⟩)

theorem outs_give {p : Port S Empty O E} (hc : D.isClosed p.dest = false) (v : O) :
    outs (p.give D (.next v) now).trace = outs p.trace ++ [(v, now)] := by
  rw [Port.give_open hc]
  show outs (p.trace ++ _) = _
  rw [outs_append, outs_next]

theorem last_give {p : Port S Empty O E} (hc : D.isClosed p.dest = false) (v : O) :
    (p.give D (.next v) now).trace.getLast? = some (.out (.next v), now) := by
  rw [Port.give_open hc]
  simp

theorem finish {p : Port S Empty O E} (h : Safe D s0 f start now p) (hn : NotDue f start p.trace) {v : O}
    (ho : D.isClosed p.dest = false)
    (hv : f (outs p.trace).length = some v) (hl : f ((outs p.trace).length + 1) = none)
    (hst : start = true → 0 < (outs p.trace).length) :
    Safe D s0 f start now ((p.give D (.next v) now).give D .complete now) := by
  have h1 := give h hn hv
  refine h1.give (fun hc => ⟨plain_complete h1.right hc, (fun v h => by cases h), fun _ => ⟨?_, ⟨v, last_give ho v⟩, ?_⟩, ?_⟩)
  · rw [outs_give ho, List.length_append, List.length_singleton]; exact hl
  · rw [outs_give ho, List.length_append, List.length_singleton]
    cases start with
    | false => exact .inl rfl
    | true => exact .inr (by have := hst rfl; omega)
  · intro v' k hk _ _ _
    rw [last_give ho v] at hk
    cases hk
    rfl

/-- How many items were taken on subscription. -/
def first (f : Nat → Option O) (start : Bool) : Nat := if start = true ∧ (f 0).isSome then 1 else 0

/-- Closed. -/
def Dead (D : Sub S O E) (s0 : S) (f : Nat → Option O) (start : Bool) (now : Nat) (s : IteratorOnTick.State S O E) : Prop :=
  D.isClosed s.port.dest = true ∧ Safe D s0 f start now s.port

/-- Not subscribed yet. -/
structure Idle (D : Sub S O E) (s0 : S) (f : Nat → Option O) (start : Bool) (now : Nat) (s : IteratorOnTick.State S O E) :
    Prop where
  safe : Safe D s0 f start now s.port
  begun : s.begun = none
  outs : outs s.port.trace = []
  ticks : s.ticks = 0

/-- How often it was ticked: `acc` says what is known before it is ticked. -/
def Counted (acc : Nat → Prop) (ticks : Nat) : Solo.Phase → Prop
  | .ticked => ∃ k, acc k ∧ ticks = k + 1
  | _ => acc ticks

/-- Subscribed. -/
structure Busy (D : Sub S O E) (s0 : S) (f : Nat → Option O) (n : Nat) (start : Bool) (acc : Nat → Prop) (now : Nat)
    (ph : Solo.Phase) (w : Work (Nat × Nat)) (s : IteratorOnTick.State S O E) : Prop where
  live : D.isClosed s.port.dest = false
  safe : Safe D s0 f start now s.port
  notDue : NotDue f start s.port.trace
  begun : s.begun.isSome = true
  counted : Counted acc s.ticks ph
  /-- nothing is left only if there was nothing, or only the one that was given on subscription -/
  more : f (outs s.port.trace).length = none → outs s.port.trace = [] ∨ (start = true ∧ (outs s.port.trace).length = 1)
  work : ∃ l o, w = .continuous l (o, (outs s.port.trace).length) ∧
    (f (outs s.port.trace).length = none ∨
      ∃ j, (outs s.port.trace).length = first f start + j ∧ s.ticks = j * n + o ∧ o < n)

theorem exec_dead (b : Nat × Nat) (t : Nat) {s : IteratorOnTick.State S O E} (h : Dead D s0 f start now s) :
    Dead D s0 f start now ((iteratorOnTick D f n start).exec b t now s).2.1 := by
  show Dead D s0 f start now (if D.isClosed s.port.dest = true then _ else _ :
    (Nat × Nat) × IteratorOnTick.State S O E × List (Req (Nat × Nat)) × WorkResult).2.1
  rw [if_pos h.1]
  exact h

variable {acc : Nat → Prop} {idle : Nat → IteratorOnTick.State S O E → Prop}

theorem exec_busy (hD : Closes D) {b : Nat × Nat} {t : Nat} {s : IteratorOnTick.State S O E} {l : Nat} {tk : Nat}
    (h : Busy D s0 f n start acc now (.due tk) (.continuous l b) s) (l' : Nat) :
    ((iteratorOnTick D f n start).exec b t now s).2.2.1 = [] ∧
    (Dead D s0 f start now ((iteratorOnTick D f n start).exec b t now s).2.1 ∨
      (((iteratorOnTick D f n start).exec b t now s).2.2.2 ≠ .done ∧
        Busy D s0 f n start acc now .ticked (.continuous l' ((iteratorOnTick D f n start).exec b t now s).1)
          ((iteratorOnTick D f n start).exec b t now s).2.1)) := by
  obtain ⟨_, o, hw, hp⟩ := h.work
  cases hw
  have hcnt : Counted acc (s.ticks + 1) .ticked := ⟨s.ticks, h.counted, rfl⟩
  have he : (iteratorOnTick D f n start).exec (o, (outs s.port.trace).length) t now s =
      (if (o + 1) % n = 0 then
        match f (outs s.port.trace).length with
        | some v =>
          if (f ((outs s.port.trace).length + 1)).isNone then
            ((0, (outs s.port.trace).length + 1), { s with ticks := s.ticks + 1, port := (s.port.give D (.next v) now).give D .complete now }, [], .done)
          else ((0, (outs s.port.trace).length + 1), { s with ticks := s.ticks + 1, port := s.port.give D (.next v) now }, [], .pending)
        | none => ((o + 1, (outs s.port.trace).length), { s with ticks := s.ticks + 1 }, [], .pending)
      else ((o + 1, (outs s.port.trace).length), { s with ticks := s.ticks + 1 }, [], .pending)) := by
    show (if D.isClosed s.port.dest = true then _ else _ :
      (Nat × Nat) × IteratorOnTick.State S O E × List (Req (Nat × Nat)) × WorkResult) = _
    rw [if_neg (by rw [h.live]; simp)]
    rfl
  rw [he]
  by_cases hm : (o + 1) % n = 0
  · rw [if_pos hm]
    cases hf : f (outs s.port.trace).length with
    | none =>
      dsimp only
      exact ⟨rfl, .inr ⟨by simp, h.live, h.safe, h.notDue, h.begun, hcnt, h.more, l', o + 1, rfl, .inl hf⟩⟩
    | some v =>
      dsimp only
      cases hl : f ((outs s.port.trace).length + 1) with
      | none =>
        rw [if_pos (by simp)]
        refine ⟨rfl, .inl ⟨Port.give_isClosed hD _ _ rfl, finish h.safe h.notDue h.live hf hl ?_⟩⟩
        intro hst
        rcases hp with hp | ⟨j, h1, h2, h3⟩
        · rw [hf] at hp; cases hp
        · refine Nat.pos_of_ne_zero fun h0 => ?_
          rw [h0] at hf
          rw [first, if_pos ⟨hst, by simp [hf]⟩] at h1
          omega
      | some v' =>
        rw [if_neg (by simp)]
        refine ⟨rfl, ?_⟩
        dsimp only
        cases hc : D.isClosed (s.port.give D (.next v) now).dest with
        | true => exact .inl ⟨hc, give h.safe h.notDue hf⟩
        | false =>
          have hlen : (outs (s.port.give D (.next v) now).trace).length = (outs s.port.trace).length + 1 := by
            rw [outs_give h.live]; simp
          refine .inr ⟨by simp, hc, give h.safe h.notDue hf, ?_, h.begun, hcnt, ?_, l', 0, ?_, .inr ?_⟩
          · intro v'' k _ hn
            dsimp only at hn
            rw [hlen, hl] at hn
            cases hn
          · intro hn
            dsimp only at hn
            rw [hlen, hl] at hn
            cases hn
          · dsimp only
            rw [hlen]
          · rcases hp with hp | ⟨j, h1, h2, h3⟩
            · rw [hf] at hp; cases hp
            · have hn : o + 1 = n := by
                rcases Nat.lt_or_ge (o + 1) n with h | h
                · rw [Nat.mod_eq_of_lt h] at hm; cases hm
                · omega
              refine ⟨j + 1, by dsimp only; omega, ?_, by omega⟩
              dsimp only
              rw [Nat.add_mul]
              omega
  · rw [if_neg hm]
    dsimp only
    refine ⟨rfl, .inr ⟨by simp, h.live, h.safe, h.notDue, h.begun, hcnt, h.more, l', o + 1, rfl, ?_⟩⟩
    rcases hp with hp | ⟨j, h1, h2, h3⟩
    · exact .inl hp
    · refine .inr ⟨j, h1, by dsimp only; omega, ?_⟩
      rcases Nat.lt_or_ge (o + 1) n with h | h
      · exact h
      · have : o + 1 = n := by omega
        rw [this, Nat.mod_self] at hm
        exact absurd rfl hm

theorem busy_single (hD : Closes D)
    (hidle : ∀ i now s, idle now s → Dead D s0 f start now ((iteratorOnTick D f n start).input i now s).1 ∨
      (((iteratorOnTick D f n start).input i now s).2 = [] ∧ idle now ((iteratorOnTick D f n start).input i now s).1) ∨
      ∃ w, ((iteratorOnTick D f n start).input i now s).2 = [.schedule w] ∧
        Busy D s0 f n start acc now .queued (w.onScheduled now) ((iteratorOnTick D f n start).input i now s).1) :
    Solo.Single (iteratorOnTick D f n start) (Dead D s0 f start) idle (Busy D s0 f n start acc) where
  dead_exec b t now s _ h := exec_dead b t h
  dead_input i now s h := by
    cases i with
    | subscribe =>
      show Dead D s0 f start now (if s.begun.isSome = true then (s, []) else _ :
        IteratorOnTick.State S O E × List (Req (Nat × Nat))).1
      split
      · exact h
      · split
        · exact h
        · cases (if start = true then f 0 else none) with
          | none => exact h
          | some v =>
            dsimp only
            rw [Port.give_closed h.1]
            exact h
    | unsubscribe =>
      show Dead D s0 f start now (if s.begun.isNone = true then (s, []) else _ :
        IteratorOnTick.State S O E × List (Req (Nat × Nat))).1
      split
      · exact h
      · exact ⟨Port.give_isClosed hD _ _ rfl, unsubscribe h.2 (.inl h.1)⟩
    | close => exact ⟨Port.close_isClosed hD _ _, close h.2 (.inl h.1)⟩
  idle_input := hidle
  busy_input i now f' w s h := by
    cases i with
    | subscribe =>
      refine .inr ?_
      show (if s.begun.isSome = true then (s, []) else _ : IteratorOnTick.State S O E × List (Req (Nat × Nat))).2 = _ ∧
        Busy D s0 f n start acc now f' w (if s.begun.isSome = true then (s, []) else _ :
          IteratorOnTick.State S O E × List (Req (Nat × Nat))).1
      rw [if_pos h.begun]
      exact ⟨rfl, h⟩
    | unsubscribe =>
      refine .inl ?_
      show Dead D s0 f start now (if s.begun.isNone = true then (s, []) else _ :
        IteratorOnTick.State S O E × List (Req (Nat × Nat))).1
      rw [if_neg (by
        have := h.begun
        cases hb : s.begun with
        | none => rw [hb] at this; cases this
        | some k => simp)]
      exact ⟨Port.give_isClosed hD _ _ rfl, unsubscribe h.safe (.inr h.notDue)⟩
    | close => exact .inl ⟨Port.close_isClosed hD _ _, close h.safe (.inr h.notDue)⟩
  work t s w w' s' res ht h hw := by
    obtain ⟨l, o, rfl, hp⟩ := h.work
    simp only [Solo.tickWork] at hw
    cases hw
    obtain ⟨h1, h2⟩ := exec_busy hD (t := t) h (updateTick l t)
    rw [Solo.runBody_st, Solo.runBody_queue, h1]
    rcases h2 with h2 | h2
    · exact .inl h2
    · exact .inr ⟨by simp, .inr h2⟩
  pass t now w s ht h := ⟨h.live, h.safe, h.notDue, h.begun, h.counted, h.more, h.work⟩

theorem idle_input (hD : Closes D) (hn : 0 < n) (i : Source.Input) {now : Nat} {s : IteratorOnTick.State S O E} (hacc : acc 0)
    (h : Idle D s0 f start now s) : Dead D s0 f start now ((iteratorOnTick D f n start).input i now s).1 ∨
      (((iteratorOnTick D f n start).input i now s).2 = [] ∧ Idle D s0 f start now ((iteratorOnTick D f n start).input i now s).1) ∨
      ∃ w, ((iteratorOnTick D f n start).input i now s).2 = [.schedule w] ∧
        Busy D s0 f n start acc now .queued (w.onScheduled now) ((iteratorOnTick D f n start).input i now s).1 := by
  have hcalm := NotDue.of_calm (f := f) (start := start) (calm_of_outs h.outs)
  cases i with
  | subscribe =>
    have hi : (iteratorOnTick D f n start).input .subscribe now s = match (if start then f 0 else none) with
        | some v =>
          ({ s with port := s.port.give D (.next v) now, begun := some now }, [.schedule (.newContinuous (0, 1))])
        | none => ({ s with begun := some now }, [.schedule (.newContinuous (0, 0))]) := by
      show (if s.begun.isSome = true then (s, []) else _ : IteratorOnTick.State S O E × List (Req (Nat × Nat))) = _
      rw [h.begun, if_neg (by simp)]
      exact if_neg (by omega)
    rw [hi]
    have hcnt : Counted acc s.ticks .queued := by rw [h.ticks]; exact hacc
    cases hst : (if start = true then f 0 else none) with
    | none =>
      dsimp only
      cases hc : D.isClosed s.port.dest with
      | true => exact .inl ⟨hc, h.safe⟩
      | false =>
        refine .inr (.inr ⟨_, rfl, hc, h.safe, hcalm, rfl, hcnt, fun _ => .inl h.outs, 0, 0, by rw [h.outs]; rfl, .inr ⟨0, ?_, by rw [h.ticks]; omega, hn⟩⟩)
        rw [h.outs]
        unfold first
        cases start with
        | false => rfl
        | true =>
          rw [if_pos rfl] at hst
          rw [hst]; rfl
    | some v =>
      have hf0 : start = true ∧ f 0 = some v := by
        split at hst
        · rename_i h; exact ⟨h, hst⟩
        · cases hst
      obtain ⟨rfl, hf0⟩ := hf0
      dsimp only
      have hs : Safe D s0 f true now (s.port.give D (.next v) now) := give h.safe hcalm (by rw [h.outs]; exact hf0)
      cases hc : D.isClosed (s.port.give D (.next v) now).dest with
      | true => exact .inl ⟨hc, hs⟩
      | false =>
        have hc0 : D.isClosed s.port.dest = false := by
          cases hc0 : D.isClosed s.port.dest with
          | false => rfl
          | true => rw [Port.give_closed hc0, hc0] at hc; cases hc
        have hlen : (outs (s.port.give D (.next v) now).trace).length = 1 := by rw [outs_give hc0, h.outs]; simp
        refine .inr (.inr ⟨_, rfl, hc, hs, ?_, rfl, hcnt, fun _ => .inr ⟨rfl, hlen⟩, 0, 0, by dsimp only; rw [hlen]; rfl,
          .inr ⟨0, ?_, by dsimp only; rw [h.ticks]; omega, hn⟩⟩)
        · intro v' k _ _ h'
          dsimp only at h'
          rw [hlen] at h'
          rcases h' with h' | h'
          · cases h'
          · omega
        · dsimp only
          rw [hlen]
          unfold first
          rw [hf0]
          rfl
  | unsubscribe =>
    refine .inr (.inl ?_)
    show (if s.begun.isNone = true then (s, []) else _ : IteratorOnTick.State S O E × List (Req (Nat × Nat))).2 = _ ∧
      Idle D s0 f start now (if s.begun.isNone = true then (s, []) else _ : IteratorOnTick.State S O E × List (Req (Nat × Nat))).1
    rw [h.begun]
    exact ⟨rfl, h⟩
  | close => exact .inl ⟨Port.close_isClosed hD _ _, close h.safe (.inr hcalm)⟩

theorem single (hD : Closes D) (hn : 0 < n) :
    Solo.Single (iteratorOnTick D f n start) (Dead D s0 f start) (Idle D s0 f start) (Busy D s0 f n start (fun _ => True)) :=
  busy_single hD (fun i _ _ h => idle_input hD hn i trivial h)

theorem Busy.go {acc' : Nat → Prop} {ph : Solo.Phase} {w : Work (Nat × Nat)} {s : IteratorOnTick.State S O E} (t : Nat)
    (h : Busy D s0 f n start acc now ph w s) (ha : acc' s.ticks) :
    Busy D s0 f n start acc' (max now t) (.due t) w s :=
  ⟨h.live, h.safe.mono (Nat.le_max_left ..), h.notDue, h.begun, ha, h.more, h.work⟩

theorem mono : Solo.Mono (c := iteratorOnTick D f n start) (Dead D s0 f start) (Idle D s0 f start)
    (Busy D s0 f n start (fun _ => True)) where
  dead _ _ _ hk h := ⟨h.1, h.2.mono hk⟩
  idle _ _ _ hk h := ⟨h.safe.mono hk, h.begun, h.outs, h.ticks⟩
  busy t _ _ _ _ _ h := h.go t trivial

theorem holds (hD : Closes D) (hn : 0 < n) {y : Solo (iteratorOnTick D f n start)}
    (h : Solo.Reachable (c := iteratorOnTick D f n start) { port := { dest := s0 } } y) :
    Solo.Holds (Dead D s0 f start) (Idle D s0 f start) (Busy D s0 f n start (fun _ => True)) y :=
  (single hD hn).reach mono ⟨Port.Fits.init _ _ _ _, rfl, rfl, rfl⟩ h

theorem safe {y : Solo (iteratorOnTick D f n start)}
    (h : Solo.Holds (Dead D s0 f start) (Idle D s0 f start) (Busy D s0 f n start (fun _ => True)) y) :
    Safe D s0 f start y.clock y.st.port := by
  cases h with
  | dead h => exact h.2
  | idle h _ _ => exact h.safe
  | queued _ h _ _ => exact h.safe
  | due _ _ _ h _ _ => exact h.safe
  | ticked _ h _ _ => exact h.safe

/-- Subscribed and open. -/
theorem busy {y : Solo (iteratorOnTick D f n start)}
    (h : Solo.Holds (Dead D s0 f start) (Idle D s0 f start) (Busy D s0 f n start (fun _ => True)) y)
    (hb : y.st.begun.isSome = true) (ho : D.isClosed y.st.port.dest = false) :
    ∃ ph w, Busy D s0 f n start (fun _ => True) y.clock ph w y.st := by
  cases h with
  | dead h => rw [h.1] at ho; cases ho
  | idle h _ _ => rw [h.begun] at hb; cases hb
  | queued w h _ _ => exact ⟨_, w, h⟩
  | due _ w _ h _ _ => exact ⟨_, w, h⟩
  | ticked w h _ _ => exact ⟨_, w, h⟩

theorem given {ph : Solo.Phase} {w : Work (Nat × Nat)} {s : IteratorOnTick.State S O E}
    (h : Busy D s0 f n start acc now ph w s) : f (outs s.port.trace).length = none ∨
      (outs s.port.trace).length = first f start + s.ticks / n := by
  obtain ⟨l, o, rfl, hp | ⟨j, h1, h2, h3⟩⟩ := h.work
  · exact .inl hp
  · right
    rw [h1, h2, Nat.add_comm (j * n), Nat.add_mul_div_right _ _ (by omega), Nat.div_eq_of_lt h3]
    omega

/-- A tick ticks it once. -/
theorem tick (hD : Closes D) (hn : 0 < n) {y0 y : Solo (iteratorOnTick D f n start)} {t : Nat}
    (h : Solo.Reachable (c := iteratorOnTick D f n start) { port := { dest := s0 } } y0) (ht : y0.tick = none)
    (hi : Solo.Inner (Solo.drain t { y0 with tick := some t, active := y0.active.map fun p => (p.1, false) }) y)
    (ha : y.allTicked) (hq : y.queue = []) (hb : y0.st.begun.isSome = true) (ho : D.isClosed y.st.port.dest = false) :
    y.st.ticks = y0.st.ticks + 1 ∧ y.st.begun.isSome = true := by
  have hs := (busy_single (idle := fun _ _ => False) (acc := fun k => k = y0.st.ticks) hD (fun i now s h => h.elim)).inner hi (by
    intro t' ht'
    cases ht'
    show _ ≤ updateTick _ _
    rw [updateTick_max]; omega) ((holds hD hn h).start (mono.dead _ _ _ (Nat.le_max_left ..))
      (fun h => by rw [h.begun] at hb; cases hb)
      (fun f w hf h => h.go t rfl) ht)
  cases hs.ended ha hq with
  | dead h => rw [h.1] at ho; cases ho
  | idle h _ => exact h.elim
  | busy w h _ =>
    obtain ⟨k, rfl, hk⟩ := h.counted
    exact ⟨hk, h.begun⟩

/-- What is closed stays so. -/
theorem closed_inner (hD : Closes D) {y0 y : Solo (iteratorOnTick D f n start)} (hi : Solo.Inner y0 y)
    (hle : ∀ t, y0.tick = some t → t ≤ y0.clock) (h : Dead D s0 f start y0.clock y0.st) : Dead D s0 f start y.clock y.st := by
  have := (busy_single (idle := fun _ _ => False) (acc := fun _ => False) hD (fun i now s h => h.elim)).inner hi hle (.dead h)
  cases this with
  | dead h => exact h
  | idle h _ _ => exact h.elim
  | queued _ h _ _ => exact (h.counted : False).elim
  | due _ _ _ h _ _ => exact (h.counted : False).elim
  | ticked _ h _ _ => exact (h.counted : ∃ k, False ∧ _).elim fun _ h => h.1.elim

theorem input_ticks (i : Source.Input) (now : Nat) (s : IteratorOnTick.State S O E) :
    ((iteratorOnTick D f n start).input i now s).1.ticks = s.ticks ∧
    (s.begun.isSome = true → ((iteratorOnTick D f n start).input i now s).1.begun.isSome = true) := by
  cases i with
  | subscribe =>
    show (if s.begun.isSome = true then (s, []) else _ :
      IteratorOnTick.State S O E × List (Req (Nat × Nat))).1.ticks = _ ∧
      (_ → (if s.begun.isSome = true then (s, []) else _ :
        IteratorOnTick.State S O E × List (Req (Nat × Nat))).1.begun.isSome = true)
    split
    · exact ⟨rfl, id⟩
    · split
      · exact ⟨rfl, fun _ => rfl⟩
      · split <;> exact ⟨rfl, fun _ => rfl⟩
  | unsubscribe =>
    dsimp only
    split
    · exact ⟨rfl, id⟩
    · exact ⟨rfl, id⟩
  | close => exact ⟨rfl, id⟩

/-- Only ticks tick it. -/
theorem inner_ticks {y0 y : Solo (iteratorOnTick D f n start)} (hi : Solo.Inner y0 y) (ht : y0.tick = none) :
    y.st.ticks = y0.st.ticks ∧ (y0.st.begun.isSome = true → y.st.begun.isSome = true) := by
  induction hi with
  | refl => exact ⟨rfl, id⟩
  | tail h1 h2 h3 ih =>
    have ht1 := h1.tick.trans ht
    cases h2 with
    | input i =>
      rw [Solo.input_st, ← ih.1]
      exact ⟨(input_ticks i _ _).1, fun h => (input_ticks i _ _).2 (ih.2 h)⟩
    | start t h0 => rw [ht1] at h3; cases h3
    | work s' t pre post w w' res k1 k2 k3 k4 => rw [ht1] at k1; cases k1
    | pass t k1 k2 => rw [ht1] at k1; cases k1
    | finish t k1 k2 k3 => rw [ht1] at k1; cases k1

/-- Before it is subscribed, it is not ticked. -/
theorem idle_ticks {y : Solo (iteratorOnTick D f n start)}
    (h : Solo.Holds (Dead D s0 f start) (Idle D s0 f start) (Busy D s0 f n start (fun _ => True)) y)
    (hb : y.st.begun = none) (ho : D.isClosed y.st.port.dest = false) : y.st.ticks = 0 := by
  cases h with
  | dead h => rw [h.1] at ho; cases ho
  | idle h _ _ => exact h.ticks
  | queued w h _ _ => have := h.begun; rw [hb] at this; cases this
  | due _ w _ h _ _ => have := h.begun; rw [hb] at this; cases this
  | ticked w h _ _ => have := h.begun; rw [hb] at this; cases this

/-- With `n = 0`, there is no work. -/
structure Off (D : Sub S O E) (s0 : S) (f : Nat → Option O) (start : Bool) (now : Nat) (s : IteratorOnTick.State S O E) :
    Prop where
  safe : Safe D s0 f start now s.port
  outs : outs s.port.trace = []

theorem single_off (hD : Closes D) : Solo.Single (iteratorOnTick D f 0 start)
    (fun now s => D.isClosed s.port.dest = true ∧ Off D s0 f start now s) (Off D s0 f start) (fun _ _ _ _ => False) where
  dead_exec b t now s _ h := by
    show _ ∧ Off D s0 f start now (if D.isClosed s.port.dest = true then _ else _ :
      (Nat × Nat) × IteratorOnTick.State S O E × List (Req (Nat × Nat)) × WorkResult).2.1
    have : ((iteratorOnTick D f 0 start).exec b t now s).2.1 = { s with ticks := s.ticks + 1 } := by
      show (if D.isClosed s.port.dest = true then _ else _ :
        (Nat × Nat) × IteratorOnTick.State S O E × List (Req (Nat × Nat)) × WorkResult).2.1 = _
      rw [if_pos h.1]
    rw [if_pos h.1, this]
    exact ⟨h.1, h.2.safe, h.2.outs⟩
  dead_input i now s h := by
    have hu : outs ((s.port.mark (.arrived .unsubscribe) now).give D .unsubscribe now).trace = [] := by
      rw [Port.give_closed (p := s.port.mark (.arrived .unsubscribe) now) h.1, Port.mark_trace, outs_append, h.2.outs]; rfl
    cases i with
    | subscribe =>
      have : ((iteratorOnTick D f 0 start).input .subscribe now s).1.port = s.port := by
        show (if s.begun.isSome = true then (s, []) else _ : IteratorOnTick.State S O E × List (Req (Nat × Nat))).1.port = _
        split <;> rfl
      refine ⟨by rw [this]; exact h.1, ?_, ?_⟩ <;> rw [this]
      · exact h.2.safe
      · exact h.2.outs
    | unsubscribe =>
      dsimp only
      split
      · exact h
      · exact ⟨Port.give_isClosed hD _ _ rfl, unsubscribe h.2.safe (.inl h.1), hu⟩
    | close => exact ⟨Port.close_isClosed hD _ _, close h.2.safe (.inl h.1), by
        dsimp only
        rw [Port.close_closed h.1]; exact h.2.outs⟩
  idle_input i now s h := by
    have hcalm := NotDue.of_calm (f := f) (start := start) (calm_of_outs h.outs)
    cases i with
    | subscribe =>
      refine .inr (.inl ?_)
      dsimp only
      split
      · exact ⟨rfl, h⟩
      · exact ⟨rfl, h.safe, h.outs⟩
    | unsubscribe =>
      dsimp only
      split
      · exact .inr (.inl ⟨rfl, h⟩)
      · refine .inl ⟨Port.give_isClosed hD _ _ rfl, unsubscribe h.safe (.inr hcalm), ?_⟩
        dsimp only
        unfold Port.give
        split
        · rw [Port.mark_trace, outs_append, h.outs]; rfl
        · rw [Port.mark_trace, Port.mark_trace, outs_append, outs_append, h.outs]; rfl
    | close =>
      refine .inl ⟨Port.close_isClosed hD _ _, close h.safe (.inr hcalm), ?_⟩
      dsimp only
      unfold Port.close
      split
      · exact h.outs
      · rw [Port.mark_trace, outs_append, h.outs]; rfl
  busy_input _ _ _ _ _ h := h.elim
  work _ _ _ _ _ _ _ h _ := h.elim
  pass _ _ _ _ _ h := h.elim

theorem off (hD : Closes D) {y : Solo (iteratorOnTick D f 0 start)}
    (h : Solo.Reachable (c := iteratorOnTick D f 0 start) { port := { dest := s0 } } y) :
    Off D s0 f start y.clock y.st := by
  have := (single_off (s0 := s0) hD).reach ⟨(fun _ _ _ hk h => ⟨h.1, h.2.safe.mono hk, h.2.outs⟩),
    (fun _ _ _ hk h => ⟨h.safe.mono hk, h.outs⟩), (fun _ _ _ _ _ _ h => h.elim)⟩ ⟨Port.Fits.init _ _ _ _, rfl⟩ h
  cases this with
  | dead h => exact h.2
  | idle h _ _ => exact h
  | queued _ h _ _ => exact h.elim
  | due _ _ _ h _ _ => exact h.elim
  | ticked _ h _ _ => exact h.elim

/-- What is given, in order. -/
theorem allowed_items {τ : Line Empty O E} (h : Throughout (IteratorOnTick.Allowed D s0 f start) τ) :
    (outs τ).map (fun m => some m.1) = (List.range (outs τ).length).map f := by
  induction τ using Rx.snoc_induction with
  | nil => rfl
  | snoc τ m ih =>
    have ih := ih h.prefix
    have hm := h.last
    obtain ⟨m, k⟩ := m
    by_cases hv : ∃ v, m = .out (.next v)
    · obtain ⟨v, rfl⟩ := hv
      rw [outs_append, outs_next, List.map_append, ih, List.length_append, List.length_singleton,
        List.range_succ, List.map_append, List.map_singleton, List.map_singleton, hm.value v rfl]
    · rw [outs_append, outs_of_ne (fun v h => hv ⟨v, h⟩), List.append_nil]
      exact ih

theorem stamps (D : Sub S O E) (f : Nat → Option O) (n : Nat) (start : Bool) :
    Stamps (iteratorOnTick D f n start) (fun s : IteratorOnTick.State S O E => s.port.trace) := by
  refine ⟨fun b t now s => ?_, fun i now s => ?_⟩
  · show Grew now s.port.trace (if D.isClosed s.port.dest = true then _ else _ :
      (Nat × Nat) × IteratorOnTick.State S O E × List (Req (Nat × Nat)) × WorkResult).2.1.port.trace
    split
    · exact Grew.refl _ _
    · split
      · split
        · split
          · exact (Port.give_grew _ _ _ _).trans (Port.give_grew _ _ _ _)
          · exact Port.give_grew _ _ _ _
        · exact Grew.refl _ _
      · exact Grew.refl _ _
  cases i with
  | subscribe =>
    show Grew now s.port.trace (if s.begun.isSome = true then (s, []) else _ :
      IteratorOnTick.State S O E × List (Req (Nat × Nat))).1.port.trace
    split
    · exact Grew.refl _ _
    · split
      · exact Grew.refl _ _
      · split
        · exact Port.give_grew _ _ _ _
        · exact Grew.refl _ _
  | unsubscribe =>
    show Grew now s.port.trace (if s.begun.isNone = true then (s, []) else _ :
      IteratorOnTick.State S O E × List (Req (Nat × Nat))).1.port.trace
    split
    · exact Grew.refl _ _
    · exact (Port.mark_grew _ _ _).trans (Port.give_grew _ _ _ _)
  | close => exact Port.close_grew _ _ _

end Rx.Timed.IteratorOnTick
