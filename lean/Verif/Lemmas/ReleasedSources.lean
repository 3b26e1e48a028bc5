import Verif.Lemmas.ReleasedOps

/-!
# What is left of sources, `fallback_when_silent`, `adsr` and `throttle_time` on the executor
-/

namespace Rx.Timed
open Rx.Sched Rx.Sched.Solo
open Rx.HigherOrder (Patient)

variable {S I O E : Type}

/-! ### timer -/

theorem give_arrived {D : Sub S O E} {n : SubscriberNotification I E} {m : SubscriberNotification O E} {now : Nat}
    {p : Port S I O E} : Arrived n (p.give D m now).trace ↔ Arrived n p.trace := by
  simp only [Port.give]
  split
  · rfl
  · simp [Port.mark, arrived_snoc]

theorem close_arrived {D : Sub S O E} {n : SubscriberNotification I E} {now : Nat} {p : Port S I O E} :
    Arrived n (p.close D now).trace ↔ Arrived n p.trace := by
  simp only [Port.close]
  split
  · rfl
  · simp [Port.mark, arrived_snoc]

theorem mark_arrived {n m : SubscriberNotification I E} {now : Nat} {p : Port S I O E} :
    Arrived n (p.mark (.arrived m) now).trace ↔ Arrived n p.trace ∨ n = m := by
  simp only [Port.mark, arrived_snoc, Mark.arrived.injEq]
  exact or_congr_right eq_comm

theorem timer_tidy {D : Sub S Unit E} {d : Nat} :
    Tidy (timer D d)
      (fun s => (s.begun.isSome = true → s.id = false → Arrived .unsubscribe s.port.trace) ∧
        (s.begun = none → ¬ Arrived .unsubscribe s.port.trace))
      (fun s => Arrived .unsubscribe s.port.trace) where
  exec_keep b t now s h := by simpa only [give_arrived] using h
  input_keep i now s h := by
    cases i with
    | subscribe =>
      dsimp only
      split
      · exact h
      · exact ⟨by simp, by simp⟩
    | unsubscribe =>
      dsimp only
      split
      · exact h
      · rename_i hb
        refine ⟨fun _ _ => ?_, fun hn => ?_⟩
        · rw [give_arrived, mark_arrived]; exact .inr rfl
        · dsimp only at hn; rw [hn] at hb; exact absurd rfl hb
    | close => simpa only [close_arrived] using h
  exec_end b t now s h h0 h1 := by
    rw [give_arrived, give_arrived] at h1
    exact absurd h1 h0
  exec_ended b t now s h h0 h1 := rfl
  input_end i now s h h0 h1 := by
    cases i with
    | subscribe =>
      dsimp only at h1
      split at h1
      · exact absurd h1 h0
      · exact absurd h1 h0
    | unsubscribe =>
      dsimp only at h1 ⊢
      split at h1
      · exact absurd h1 h0
      · rename_i hb
        rw [if_neg hb]
        have hid : s.id = true := by
          cases hid : s.id with
          | true => rfl
          | false =>
            refine absurd (h.1 ?_ hid) h0
            cases hb' : s.begun with
            | none => rw [hb'] at hb; exact absurd rfl hb
            | some _ => rfl
        rw [hid]; rfl
    | close => rw [close_arrived] at h1; exact absurd h1 h0
  input_ended i now s h h0 h1 := by
    cases i with
    | subscribe =>
      cases hb : s.begun with
      | none => exact absurd h0 (h.2 hb)
      | some k => simp [hb, held]
    | unsubscribe =>
      dsimp only
      split
      · rfl
      · dsimp only
        split <;> rfl
    | close => rfl

/-- The work of a timer. -/
def TimerKind (d : Nat) (s : Timer.State S E) (w : Work Unit) : Prop := ∃ b sch cu, w = .delayed b sch cu d ∧ s.begun = some sch

theorem timer_kinds (D : Sub S Unit E) (d : Nat) : Kinds (timer D d) (TimerKind d) where
  exec _ _ _ _ _ h := h
  input i now s w h := by
    obtain ⟨b, sch, cu, h1, h2⟩ := h
    refine ⟨b, sch, cu, h1, ?_⟩
    cases i with
    | subscribe => simp [h2]
    | unsubscribe => simp [h2]
    | close => exact h2
  exec_new _ _ _ _ _ h := by cases h
  input_new i now s w h := by
    cases i with
    | subscribe =>
      dsimp only at h ⊢
      split at h
      · cases h
      · rename_i hb
        rw [if_neg hb]
        cases List.mem_singleton.1 h
        exact ⟨some (), now, now, by simp only [Work.newDelayed, Work.onScheduled, updateTick_zero], rfl⟩
    | unsubscribe =>
      dsimp only at h
      split at h
      · cases h
      · dsimp only at h
        split at h
        · cases List.mem_singleton.1 h
        · cases h
    | close => cases h
  work t s s' w w' res h hw := by
    obtain ⟨b, sch, cu, rfl, h2⟩ := h
    obtain ⟨⟨b', cu', rfl⟩, _⟩ := delayed_tick hw
    refine ⟨_, _, _, rfl, ?_⟩
    exact tickWork_keeps (P := fun x : Solo (timer D d) => x.st.begun = some sch) (fun b (x : Solo (timer D d)) hx => by rw [runBody_st]; exact hx) h2 hw

theorem timer_quits (D : Sub S Unit E) (d t : Nat) :
    Quits (timer D d) t (fun _ _ => True) (TimerKind d) (fun s => ∃ b, s.begun = some b ∧ t < b + d) where
  exec _ _ _ _ _ := trivial
  input _ _ _ _ := trivial
  stay_exec _ _ _ h := h
  stay_input i now s h := by
    obtain ⟨b, h1, h2⟩ := h
    refine ⟨b, ?_, h2⟩
    cases i with
    | subscribe => simp [h1]
    | unsubscribe => simp [h1]
    | close => exact h1
  work s s' w w' res _ _ h hw := by
    obtain ⟨b, sch, cu, rfl, hb⟩ := h
    rcases (delayed_tick hw).2 with h | ⟨h, rfl⟩
    · exact .inl h
    · exact .inr ⟨sch, hb, h⟩

/-! ### iterator_on_tick -/

theorem iterator_kinds (D : Sub S O E) (f : Nat → Option O) (n : Nat) (start : Bool) :
    Kinds (iteratorOnTick D f n start) (fun _ w => ∃ l b, w = .continuous l b) where
  exec _ _ _ _ _ h := h
  input _ _ _ _ h := h
  exec_new b t now s w h := by
    dsimp only at h
    split at h
    · cases h
    · split at h
      · split at h
        · split at h <;> cases h
        · cases h
      · cases h
  input_new i now s w h := by
    cases i with
    | subscribe =>
      dsimp only at h
      split at h
      · cases h
      · split at h
        · cases h
        · split at h <;> (cases List.mem_singleton.1 h; exact ⟨_, _, rfl⟩)
    | unsubscribe =>
      dsimp only at h
      split at h
      · cases h
      · dsimp only at h
        split at h
        · cases h
        · cases List.mem_singleton.1 h
    | close => cases h
  work t s s' w w' res h hw := by
    obtain ⟨l, b, rfl⟩ := h
    cases hw
    exact ⟨_, _, rfl⟩

theorem close_stays {D : Sub S O E} {now : Nat} {p : Port S I O E} (h : D.isClosed p.dest = true) :
    D.isClosed (p.close D now).dest = true := by rw [Port.close_closed h]; exact h

theorem give_stays {D : Sub S O E} {n : SubscriberNotification O E} {now : Nat} {p : Port S I O E} (h : D.isClosed p.dest = true) :
    D.isClosed (p.give D n now).dest = true := by rw [Port.give_closed h]; exact h

theorem iterator_quits (D : Sub S O E) (f : Nat → Option O) (n : Nat) (start : Bool) (t : Nat) :
    Quits (iteratorOnTick D f n start) t (fun _ s => D.isClosed s.port.dest = true) (fun _ w => ∃ l b, w = .continuous l b)
      (fun _ => False) where
  exec b now s _ h := by simp [h]
  input i now s h := by
    cases i with
    | subscribe =>
      dsimp only
      split
      · exact h
      · split
        · exact h
        · split
          · exact give_stays h
          · exact h
    | unsubscribe =>
      dsimp only
      split
      · exact h
      · exact give_stays (by rw [Port.mark_dest]; exact h)
    | close => exact close_stays h
  stay_exec _ _ _ h := h
  stay_input _ _ _ h := h
  work s s' w w' res _ hc h hw := by
    obtain ⟨l, b, rfl⟩ := h
    cases hw
    refine .inl ?_
    simp [Solo.runBody, hc]

/-! ### adsr -/

section Adsr
open Rx.Adsr
variable {N : Num}

theorem adsr_kinds (D : Sub S (Signal N) E) (o : Options) : Kinds (adsr D o) (fun _ w => ∃ l b, w = .continuous l b) where
  exec _ _ _ _ _ h := h
  input _ _ _ _ h := h
  exec_new b t now s w h := by
    dsimp only at h
    split at h
    · cases h
    · split at h
      · cases h
      · split at h <;> cases h
  input_new i now s w h := by
    cases i with
    | subscribe =>
      dsimp only at h
      split at h
      · cases h
      · cases List.mem_singleton.1 h; exact ⟨_, _, rfl⟩
    | note n =>
      dsimp only at h
      split at h
      · cases h
      · cases n with
        | next v => cases h
        | error v => cases h
        | complete => cases h
        | unsubscribe => cases List.mem_singleton.1 h
    | close => cases h
  work t s s' w w' res h hw := by
    obtain ⟨l, b, rfl⟩ := h
    cases hw
    exact ⟨_, _, rfl⟩

theorem adsr_quits (D : Sub S (Signal N) E) (o : Options) (t : Nat) :
    Quits (adsr D o) t (fun _ s => D.isClosed s.port.dest = true) (fun _ w => ∃ l b, w = .continuous l b) (fun _ => False) where
  exec b now s _ h := by
    dsimp only
    split
    · exact h
    · exact h
  input i now s h := by
    cases i with
    | subscribe =>
      dsimp only
      split <;> exact h
    | note n =>
      dsimp only
      split
      · exact h
      · cases n with
        | next v => exact h
        | error v => exact give_stays (by rw [Port.mark_dest]; exact h)
        | complete => exact give_stays (by rw [Port.mark_dest]; exact h)
        | unsubscribe => exact give_stays (by rw [Port.mark_dest]; exact h)
    | close => exact close_stays h
  stay_exec _ _ _ h := h
  stay_input _ _ _ h := h
  work s s' w w' res _ hc h hw := by
    obtain ⟨l, b, rfl⟩ := h
    cases hw
    refine .inl ?_
    simp only [Solo.runBody]
    split <;> rfl

end Adsr

/-! ### fallback_when_silent -/

/-- An end has arrived. -/
def Ended (τ : Line I O E) : Prop := ∃ n, Final n ∧ Arrived n τ

theorem Ended.give {D : Sub S O E} {m : SubscriberNotification O E} {now : Nat} {p : Port S I O E} :
    Ended (p.give D m now).trace ↔ Ended p.trace := by simp only [Ended, give_arrived]

theorem Ended.close {D : Sub S O E} {now : Nat} {p : Port S I O E} : Ended (p.close D now).trace ↔ Ended p.trace := by
  simp only [Ended, close_arrived]

theorem Ended.mark {m : SubscriberNotification I E} {now : Nat} {p : Port S I O E} :
    Ended (p.mark (.arrived m) now).trace ↔ Ended p.trace ∨ Final m := by
  simp only [Ended, mark_arrived]
  constructor
  · rintro ⟨n, h1, h2 | rfl⟩
    · exact .inl ⟨n, h1, h2⟩
    · exact .inr h1
  · rintro (⟨n, h1, h2⟩ | h)
    · exact ⟨n, h1, .inl h2⟩
    · exact ⟨m, h, .inr rfl⟩

theorem not_final (v : I) : ¬ Final (.next v : SubscriberNotification I E) := fun h => h v rfl

/-- The trace of the port of `fallback_when_silent` after an input. -/
theorem fallback_ended {D : Sub S I E} {fb : Nat → Nat → I} (i : Fallback.Input I E) (now : Nat) (s : Fallback.State S I E) :
    Ended ((fallback D fb).input i now s).1.port.trace ↔
      Ended s.port.trace ∨ (s.begun.isSome = true ∧ ∃ n, i = .note n ∧ Final n) := by
  cases i with
  | subscribe =>
    dsimp only
    split <;> simp
  | close => simp [Ended.close]
  | note n =>
    cases hb : s.begun with
    | none => simp [hb]
    | some k =>
      simp only [hb, Option.isNone_some, Bool.false_eq_true, if_false]
      cases n with
      | next v => simp [Ended.mark, not_final]
      | error e => simp [Fallback.State.unsubscribe, Ended.give, Ended.mark]
      | complete => simp [Fallback.State.unsubscribe, Ended.give, Ended.mark]
      | unsubscribe => simp [Fallback.State.unsubscribe, Ended.give, Ended.mark]

theorem fallback_begun {D : Sub S I E} {fb : Nat → Nat → I} (i : Fallback.Input I E) (now : Nat) (s : Fallback.State S I E)
    (h : s.begun.isSome = true) : ((fallback D fb).input i now s).1.begun.isSome = true := by
  cases i with
  | subscribe => simp [h]
  | close => exact h
  | note n =>
    dsimp only
    split
    · exact h
    · cases n <;> exact h

theorem fallback_tidy {D : Sub S I E} {fb : Nat → Nat → I} :
    Tidy (fallback D fb) (fun s => Ended s.port.trace → s.begun.isSome = true) (fun s => Ended s.port.trace) where
  exec_keep b t now s h := by simpa only [Ended.give] using h
  input_keep i now s h := by
    rw [fallback_ended]
    rintro (h1 | ⟨h1, _⟩)
    · exact fallback_begun i now s (h h1)
    · exact fallback_begun i now s h1
  exec_end b t now s h h0 h1 := by
    rw [Ended.give] at h1
    exact absurd h1 h0
  exec_ended _ _ _ _ _ _ _ := rfl
  input_end i now s h h0 h1 := by
    rw [fallback_ended] at h1
    rcases h1 with h1 | ⟨hb, n, rfl, hn⟩
    · exact absurd h1 h0
    · cases hb' : s.begun with
      | none => rw [hb'] at hb; cases hb
      | some k =>
        simp only [hb', Option.isNone_some, Bool.false_eq_true, if_false]
        cases n with
        | next v => exact absurd rfl (hn v)
        | error _ => rfl
        | complete => rfl
        | unsubscribe => rfl
  input_ended i now s h h0 h1 := by
    have hb := h h0
    cases i with
    | subscribe => simp [hb, held]
    | close => rfl
    | note n =>
      dsimp only
      split
      · rfl
      · cases n <;> rfl

/-- Its work is there from the beginning to the end. -/
structure FallbackKept (s : Solo (fallback (S := S) (E := E) D fb)) : Prop where
  kept : s.st.begun.isSome = true → ¬ Ended s.st.port.trace →
    (∃ l b f, s.active = [(.continuous l b, f)] ∧ s.queue = []) ∨ (∃ l b, s.active = [] ∧ s.queue = [.schedule (.continuous l b)])
  none : s.st.begun = none → s.active = [] ∧ s.queue = []

theorem FallbackKept.step {D : Sub S I E} {fb : Nat → Nat → I} {s s' : Solo (fallback D fb)} (h : FallbackKept s) (hs : Step s s') :
    FallbackKept s' := by
  cases hs with
  | input i =>
    obtain ⟨ka, kt, kc⟩ := Solo.input_keep i s
    refine ⟨?_, ?_⟩
    · rw [ka, input_st, input_queue, fallback_ended]
      intro hb he
      rw [not_or] at he
      cases hs : s.st.begun with
      | none =>
        cases i with
        | subscribe =>
          refine .inr ⟨0, 0, (h.none hs).1, ?_⟩
          rw [(h.none hs).2]
          simp [hs, onQueue, Work.newContinuous, Work.onScheduled]
        | close => dsimp only at hb; rw [hs] at hb; cases hb
        | note n => dsimp only at hb; rw [hs] at hb; dsimp only [Option.isNone_none, if_true] at hb; rw [if_pos rfl, hs] at hb; cases hb
      | some k =>
        have hn : ((fallback D fb).input i s.clock s.st).2 = [] := by
          cases i with
          | subscribe => simp [hs]
          | close => rfl
          | note n =>
            simp only [hs, Option.isNone_some, Bool.false_eq_true, if_false]
            cases n with
            | next v => rfl
            | error e => exact absurd ⟨by simp [hs], _, rfl, by simp [Final]⟩ he.2
            | complete => exact absurd ⟨by simp [hs], _, rfl, by simp [Final]⟩ he.2
            | unsubscribe => exact absurd ⟨by simp [hs], _, rfl, by simp [Final]⟩ he.2
        rw [hn]
        simpa using h.kept (by rw [hs]; rfl) he.1
    · rw [ka, input_st, input_queue]
      intro hb
      cases hs : s.st.begun with
      | some k =>
        have := fallback_begun (D := D) (fb := fb) i s.clock s.st (by rw [hs]; rfl)
        rw [hb] at this
        cases this
      | none =>
        refine ⟨(h.none hs).1, ?_⟩
        rw [(h.none hs).2]
        cases i with
        | subscribe => dsimp only at hb; rw [hs] at hb; simp at hb
        | close => rfl
        | note n => simp [hs]
  | start t h0 =>
    refine ⟨fun hb he => ?_, fun hb => ?_⟩
    · rcases h.kept hb he with ⟨l, b, f, h1, h2⟩ | ⟨l, b, h1, h2⟩
      · exact .inl ⟨l, b, false, by simp [drain, h1, h2], rfl⟩
      · exact .inl ⟨l, b, false, by simp [drain, h1, h2, process], rfl⟩
    · have := h.none hb
      exact ⟨by simp [drain, this.1, this.2], rfl⟩
  | work s1 t pre post w w' res h1 h2 h3 h4 =>
    have hbg : s1.st.begun = s.st.begun := tickWork_keeps (P := fun x : Solo (fallback D fb) => x.st.begun = s.st.begun)
      (fun b (x : Solo (fallback D fb)) hx => by rw [runBody_st]; exact hx) rfl h4
    have hen : Ended s1.st.port.trace ↔ Ended s.st.port.trace :=
      tickWork_keeps (P := fun x : Solo (fallback D fb) => Ended x.st.port.trace ↔ Ended s.st.port.trace)
        (fun b x hx => by rw [runBody_st]; exact Ended.give.trans hx) Iff.rfl h4
    refine ⟨fun hb he => ?_, fun hb => ?_⟩
    · dsimp only at hb he ⊢
      rw [hbg] at hb
      rw [hen] at he
      rcases h.kept hb he with ⟨l, b, f, g1, g2⟩ | ⟨l, b, g1, g2⟩
      · have hpre : pre = [] ∧ post = [] ∧ w = .continuous l b := by
          rw [g1] at h2
          cases pre with
          | nil =>
            simp only [List.nil_append, List.cons.injEq, Prod.mk.injEq] at h2
            exact ⟨rfl, h2.2.symm, h2.1.1.symm⟩
          | cons p pre =>
            have := congrArg List.length h2
            simp at this
        obtain ⟨rfl, rfl, rfl⟩ := hpre
        cases h4
        refine .inl ⟨_, _, true, rfl, ?_⟩
        rw [runBody_queue, g2]; rfl
      · rw [g1] at h2; simp at h2
    · dsimp only at hb
      rw [hbg] at hb
      rw [(h.none hb).1] at h2
      simp at h2
  | pass t h1 h2 =>
    refine ⟨fun hb he => ?_, fun hb => ?_⟩
    · rcases h.kept hb he with ⟨l, b, f, h1, h2⟩ | ⟨l, b, h1, h2⟩
      · exact .inl ⟨l, b, f, by simp [drain, h1, h2], rfl⟩
      · exact .inl ⟨l, b, false, by simp [drain, h1, h2, process], rfl⟩
    · have := h.none hb
      exact ⟨by simp [drain, this.1, this.2], rfl⟩
  | finish t h1 h2 h3 => exact ⟨h.kept, h.none⟩

theorem FallbackKept.steps {D : Sub S I E} {fb : Nat → Nat → I} {s s' : Solo (fallback D fb)} (h : FallbackKept s) (hs : Steps s s') :
    FallbackKept s' := by
  induction hs with
  | refl => exact h
  | tail _ h2 ih => exact ih.step h2

/-! ### throttle_time -/

namespace Throttle
variable {D : Sub S I E} {s0 : S} {o : Output} {d : Nat}

/-- What an input or a closure does to the port: nothing, or it gives something. -/
theorem deliver_port (s : State S I E) (now : Nat) (go : Bool) (v : Option I) :
    s.port.dest = fed D s0 s.port.trace →
    (s.deliver D now go v).1.port.dest = fed D s0 (s.deliver D now go v).1.port.trace ∧
      Grew now s.port.trace (s.deliver D now go v).1.port.trace := by
  intro h
  simp only [State.deliver]
  have hg := Port.fed_give h
  cases v with
  | none =>
    dsimp only
    repeat' split
    all_goals first | exact ⟨h, .refl _ _⟩ | exact ⟨hg _ _, Port.give_grew _ _ _ _⟩
  | some v =>
    dsimp only
    have hv := Port.fed_give (hg (.next v) now)
    repeat' split
    all_goals first
      | exact ⟨hg _ _, Port.give_grew _ _ _ _⟩
      | exact ⟨hv _ _, (Port.give_grew _ _ _ _).trans (Port.give_grew _ _ _ _)⟩

theorem window_port (s : State S I E) (t dl : Nat) : (s.window o t dl).1.port = s.port := by
  simp only [State.window]; split <;> rfl

theorem work_port (s : State S I E) (t now : Nat) (h : s.port.dest = fed D s0 s.port.trace) :
    (s.work D o t now).1.port.dest = fed D s0 (s.work D o t now).1.port.trace ∧
      Grew now s.port.trace (s.work D o t now).1.port.trace := by
  simp only [State.work]
  split
  · exact ⟨h, .refl _ _⟩
  · split
    · exact ⟨h, .refl _ _⟩
    · rename_i dl _ _
      have hp := window_port (o := o) { s with lastTick := t } t dl
      have := deliver_port (D := D) (s0 := s0) ({ s with lastTick := t }.window o t dl).1 now
        ({ s with lastTick := t }.window o t dl).2.1 ({ s with lastTick := t }.window o t dl).2.2 (by rw [hp]; exact h)
      rw [hp] at this
      exact this

theorem next_port (s : State S I E) (v : I) (now : Nat) :
    (s.next D o d v now).1.port = s.port ∨
      (o.emitsLeading = true ∧ (s.next D o d v now).1.port = s.port.give D (.next v) now) := by
  simp only [State.next]
  split
  · split
    · rename_i h; exact .inr ⟨h, rfl⟩
    · split <;> exact .inl rfl
  · split
    · split <;> exact .inl rfl
    · split <;> exact .inl rfl

theorem error_port (s : State S I E) (e : E) (now : Nat) :
    (s.error D e now).1.port = s.port ∨ ∃ n, (s.error D e now).1.port = s.port.give D n now := by
  simp only [State.error]
  split
  · exact .inl rfl
  · exact .inr ⟨_, rfl⟩

theorem complete_port (s : State S I E) (now : Nat) :
    (s.complete D o now).1.port = s.port ∨ ∃ n, (s.complete D o now).1.port = s.port.give D n now := by
  simp only [State.complete]
  split
  · exact .inl rfl
  · split
    · exact .inr ⟨_, rfl⟩
    · exact .inl rfl

theorem unsubscribe_port (s : State S I E) (now : Nat) :
    (s.unsubscribe D o now).1.port = s.port ∨ ∃ n, (s.unsubscribe D o now).1.port = s.port.give D n now := by
  simp only [State.unsubscribe]
  split
  · exact .inl rfl
  · split
    · exact .inl rfl
    · split
      · exact .inr ⟨_, rfl⟩
      · exact .inl rfl

theorem next_or (s : State S I E) (v : I) (now : Nat) :
    (s.next D o d v now).1.port = s.port ∨ ∃ n, (s.next D o d v now).1.port = s.port.give D n now := by
  rcases next_port (D := D) (o := o) (d := d) s v now with h | ⟨_, h⟩
  · exact .inl h
  · exact .inr ⟨_, h⟩

theorem held_append_teardown {B : Type} {rs : List (Req B)} {p p' : Port S I I E} (h : held rs false = false) :
    held (rs ++ p.teardown D p') false = false := by
  rw [held_append, h]; exact held_teardown_false

theorem held_append_closed {B : Type} {rs : List (Req B)} {p p' : Port S I I E} (h : D.isClosed p.dest = false)
    (h' : D.isClosed p'.dest = true) (b : Bool) : held (rs ++ p.teardown D p') b = false := by
  rw [held_append]; exact held_teardown h h' _

theorem tidy (hp : o.emitsLeading = false ∨ Patient D) :
    Tidy (throttle D o d) (fun s => s.port.dest = fed D s0 s.port.trace) (fun s => Shut D s0 s.port) where
  exec_keep b t now s h := by
    dsimp only
    split
    · exact h
    · exact (work_port s t now h).1
  input_keep i now s h := by
    dsimp only
    split
    · exact h
    · cases i with
      | close => exact Port.fed_close h _
      | note n =>
        have h0 := Port.fed_mark h n now
        cases n with
        | next v => exact fed_or h0 (next_or (s.arrive _ now) v now)
        | error e => exact fed_or h0 (error_port (s.arrive _ now) e now)
        | complete => exact fed_or h0 (complete_port (s.arrive _ now) now)
        | unsubscribe => exact fed_or h0 (unsubscribe_port (s.arrive _ now) now)
  exec_end b t now s h h0 h1 := by
    dsimp only at h1 ⊢
    split at h1
    · exact absurd h1 h0
    · rename_i hpan
      rw [if_neg hpan]
      exact held_teardown (Shut.was_open h0 h1 (work_port s t now h).2) h1.1 _
  exec_ended b t now s h h0 h1 := by
    dsimp only
    split
    · rfl
    · exact held_teardown_false
  input_end i now s h h0 h1 := by
    dsimp only at h1 ⊢
    split at h1
    · exact absurd h1 h0
    · rename_i hpan
      rw [if_neg hpan]
      cases i with
      | close => exact held_teardown (Shut.was_open h0 h1 (Port.close_grew _ _ _)) h1.1 _
      | note n =>
        cases n with
        | next v =>
          have ho := Shut.was_open h0 h1 ((Port.mark_grew _ _ _).trans (grew_or (next_or (s.arrive _ now) v now)))
          have hc := h1.1
          dsimp only at hc
          rcases next_port (D := D) (o := o) (d := d) (s.arrive (.next v) now) v now with h2 | ⟨hl, h2⟩
          · rw [h2] at hc
            dsimp only [State.arrive] at hc
            rw [Port.mark_dest, ho] at hc
            cases hc
          · rcases hp with hp | hp
            · rw [hp] at hl; cases hl
            · rw [h2, Port.give_open (by exact ho)] at hc
              have := hp s.port.dest v ho
              exact absurd hc (by rw [Bool.not_eq_true]; exact this)
        | error e =>
          exact held_append_closed (Shut.was_open h0 h1 ((Port.mark_grew _ _ _).trans (grew_or (error_port (s.arrive _ now) e now)))) h1.1 _
        | complete =>
          exact held_append_closed (Shut.was_open h0 h1 ((Port.mark_grew _ _ _).trans (grew_or (complete_port (s.arrive _ now) now)))) h1.1 _
        | unsubscribe =>
          exact held_append_closed (Shut.was_open h0 h1 ((Port.mark_grew _ _ _).trans (grew_or (unsubscribe_port (s.arrive _ now) now)))) h1.1 _
  input_ended i now s h h0 h1 := by
    dsimp only at h1 ⊢
    split at h1
    · rename_i hpan; rw [if_pos hpan]; rfl
    · rename_i hpan
      rw [if_neg hpan]
      cases i with
      | close => exact held_teardown_false
      | note n =>
        cases n with
        | next v =>
          refine (Shut.arrive (v := v) (now := now) h h0.1 ⟨h0.1, ?_⟩).elim
          exact h1.2.of_grew (grew_or (next_or (s.arrive _ now) v now))
        | error e => exact held_append_teardown (by split <;> rfl)
        | complete => exact held_append_teardown (by split <;> rfl)
        | unsubscribe => exact held_append_teardown (by split <;> rfl)

/-- The window ends at most `d` after some value arrived. -/
structure Windowed (d now : Nat) (s : State S I E) : Prop where
  last : s.lastTick ≤ now
  window : ∀ dl, s.deadline = some dl → ∃ p ∈ arrivals s.port.trace, dl ≤ p.2 + d

theorem Windowed.mono {now now' : Nat} {s : State S I E} (h : Windowed d now s) (hn : now ≤ now') : Windowed d now' s :=
  ⟨Nat.le_trans h.last hn, h.window⟩

/-- The deadline was dropped or kept. -/
theorem Windowed.kept {now : Nat} {s s' : State S I E} (h : Windowed d now s) (hl : s'.lastTick ≤ now)
    (hd : s'.deadline = none ∨ s'.deadline = s.deadline) (hg : Grew now s.port.trace s'.port.trace) : Windowed d now s' := by
  refine ⟨hl, fun dl hdl => ?_⟩
  rcases hd with hd | hd
  · rw [hd] at hdl; cases hdl
  · rw [hd] at hdl
    obtain ⟨p, hp, hp2⟩ := h.window dl hdl
    exact ⟨p, arrivals_grew hg hp, hp2⟩

theorem deliver_keep (s : State S I E) (now : Nat) (go : Bool) (v : Option I) :
    (s.deliver D now go v).1.deadline = s.deadline ∧ (s.deliver D now go v).1.lastTick = s.lastTick := by
  simp only [State.deliver]
  cases v <;> (dsimp only; repeat' split) <;> exact ⟨rfl, rfl⟩

theorem deliver_grew (s : State S I E) (now : Nat) (go : Bool) (v : Option I) :
    Grew now s.port.trace (s.deliver D now go v).1.port.trace := by
  simp only [State.deliver]
  cases v with
  | none =>
    dsimp only
    repeat' split
    all_goals first | exact .refl _ _ | exact Port.give_grew _ _ _ _
  | some v =>
    dsimp only
    repeat' split
    all_goals first | exact Port.give_grew _ _ _ _ | exact (Port.give_grew _ _ _ _).trans (Port.give_grew _ _ _ _)

theorem window_keep (s : State S I E) (t dl : Nat) :
    ((s.window o t dl).1.deadline = none ∨ (s.window o t dl).1.deadline = s.deadline) ∧ (s.window o t dl).1.lastTick = s.lastTick := by
  simp only [State.window]
  split
  · exact ⟨.inl rfl, rfl⟩
  · refine ⟨?_, rfl⟩
    dsimp only
    cases (if o.emitsTrailing = true then s.lastValue else none).isSome with
    | true => exact .inr rfl
    | false => exact .inl rfl

theorem work_trace_grew (s : State S I E) (t now : Nat) : Grew now s.port.trace (s.work D o t now).1.port.trace := by
  simp only [State.work]
  split
  · exact .refl _ _
  · split
    · exact .refl _ _
    · rename_i dl _ _
      have := deliver_grew (D := D) ({ s with lastTick := t }.window o t dl).1 now
        ({ s with lastTick := t }.window o t dl).2.1 ({ s with lastTick := t }.window o t dl).2.2
      rw [window_port] at this
      exact this

theorem Windowed.work {s : State S I E} {t now : Nat} (h : Windowed d now s) (ht : t ≤ now) : Windowed d now (s.work D o t now).1 := by
  refine h.kept ?_ ?_ (work_trace_grew s t now)
  · simp only [State.work]
    split
    · exact ht
    · split
      · exact ht
      · rw [(deliver_keep _ _ _ _).2, (window_keep _ _ _).2]; exact ht
  · simp only [State.work]
    split
    · exact .inr rfl
    · split
      · exact .inr rfl
      · rw [(deliver_keep _ _ _ _).1]; exact (window_keep _ _ _).1

theorem Windowed.next {s : State S I E} {v : I} {now : Nat} (h : Windowed d now s) :
    Windowed d now ((s.arrive (.next v) now).next D o d v now).1 := by
  have hg := (Port.mark_grew (.arrived (.next v)) now s.port).trans
    (grew_or (next_or (D := D) (o := o) (d := d) (s.arrive (.next v) now) v now))
  have hlast : ((s.arrive (.next v) now).next D o d v now).1.lastTick = s.lastTick := by
    simp only [State.next, State.panic]
    repeat' split
    all_goals rfl
  have hd : ((s.arrive (.next v) now).next D o d v now).1.deadline = s.deadline ∨
      ((s.arrive (.next v) now).next D o d v now).1.deadline = some (s.lastTick + d) := by
    cases hs : s.deadline with
    | none =>
      refine .inr ?_
      simp only [State.next, State.arrive, hs]
      repeat' split
      all_goals rfl
    | some dl =>
      simp only [State.next, State.arrive, State.panic, hs]
      repeat' split
      all_goals first | exact .inl hs | exact .inl rfl | exact .inr rfl
  refine ⟨hlast ▸ h.last, fun dl hdl => ?_⟩
  rcases hd with hd | hd
  · rw [hd] at hdl
    obtain ⟨p, hp, hp2⟩ := h.window dl hdl
    exact ⟨p, arrivals_grew hg hp, hp2⟩
  · rw [hd] at hdl
    cases hdl
    refine ⟨(v, now), arrivals_grew (a := (s.port.mark (.arrived (.next v)) now).trace) (k := now)
      (grew_or (next_or (D := D) (o := o) (d := d) (s.arrive (.next v) now) v now)) ?_, ?_⟩
    · rw [Port.mark_trace, arrivals_append, arrivals_next]; simp
    · have := h.last
      dsimp only
      omega

theorem Windowed.other {s s' : State S I E} {n : SubscriberNotification I E} {now : Nat} (h : Windowed d now s)
    (hd : s'.deadline = none ∨ s'.deadline = s.deadline) (hl : s'.lastTick = s.lastTick)
    (hp : s'.port = (s.arrive n now).port ∨ ∃ m, s'.port = (s.arrive n now).port.give D m now) : Windowed d now s' :=
  h.kept (hl ▸ h.last) hd ((Port.mark_grew (.arrived n) now s.port).trans (grew_or hp))

theorem error_keep (s : State S I E) (e : E) (now : Nat) :
    ((s.error D e now).1.deadline = none ∨ (s.error D e now).1.deadline = s.deadline) ∧ (s.error D e now).1.lastTick = s.lastTick := by
  simp only [State.error, State.panic, State.clear]
  split
  · exact ⟨.inr rfl, rfl⟩
  · exact ⟨.inl rfl, rfl⟩

theorem complete_keep (s : State S I E) (now : Nat) :
    ((s.complete D o now).1.deadline = none ∨ (s.complete D o now).1.deadline = s.deadline) ∧
      (s.complete D o now).1.lastTick = s.lastTick := by
  simp only [State.complete, State.panic, State.clear]
  split
  · exact ⟨.inr rfl, rfl⟩
  · split
    · exact ⟨.inl rfl, rfl⟩
    · exact ⟨.inr rfl, rfl⟩

theorem unsubscribe_keep (s : State S I E) (now : Nat) :
    ((s.unsubscribe D o now).1.deadline = none ∨ (s.unsubscribe D o now).1.deadline = s.deadline) ∧
      (s.unsubscribe D o now).1.lastTick = s.lastTick := by
  simp only [State.unsubscribe, State.panic, State.clear]
  split
  · exact ⟨.inr rfl, rfl⟩
  · split
    · exact ⟨.inr rfl, rfl⟩
    · split
      · exact ⟨.inl rfl, rfl⟩
      · exact ⟨.inr rfl, rfl⟩

theorem windowed_input {s : State S I E} {now : Nat} (h : Windowed d now s) (i : Input I E) :
    Windowed d now ((throttle D o d).input i now s).1 := by
  dsimp only
  split
  · exact h
  · cases i with
    | close => exact h.kept h.last (.inr rfl) (Port.close_grew _ _ _)
    | note n =>
      cases n with
      | next v => exact h.next
      | error e => exact h.other (error_keep _ e now).1 (error_keep _ e now).2 (error_port _ e now)
      | complete => exact h.other (complete_keep _ now).1 (complete_keep _ now).2 (complete_port _ now)
      | unsubscribe => exact h.other (unsubscribe_keep _ now).1 (unsubscribe_keep _ now).2 (unsubscribe_port _ now)

theorem windowed_exec {s : State S I E} {t now : Nat} (h : Windowed d now s) (ht : t ≤ now) (b : Unit) :
    Windowed d now ((throttle D o d).exec b t now s).2.1 := by
  dsimp only
  split
  · exact h
  · exact h.work ht

theorem windowed_stable : Stable (throttle D o d) (· ≤ ·) (Windowed d) where
  mono _ _ _ hk h := h.mono hk
  exec b t now s ht h := windowed_exec h ht b
  input i now s h := windowed_input h i

theorem line_stamps (D : Sub S I E) (o : Output) (d : Nat) : Stamps (throttle D o d) (fun s => s.port.trace) where
  exec b t now s := by
    dsimp only
    split
    · exact Grew.refl _ _
    · exact work_trace_grew s t now
  input i now s := by
    dsimp only
    split
    · exact Grew.refl _ _
    · cases i with
      | close => exact Port.close_grew _ _ _
      | note n =>
        cases n with
        | next v => exact (Port.mark_grew _ _ _).trans (grew_or (next_or (s.arrive _ now) v now))
        | error e => exact (Port.mark_grew _ _ _).trans (grew_or (error_port (s.arrive _ now) e now))
        | complete => exact (Port.mark_grew _ _ _).trans (grew_or (complete_port (s.arrive _ now) now))
        | unsubscribe => exact (Port.mark_grew _ _ _).trans (grew_or (unsubscribe_port (s.arrive _ now) now))

theorem kinds (D : Sub S I E) (o : Output) (d : Nat) : Kinds (throttle D o d) (fun _ w => ∃ l b, w = .continuous l b) where
  exec _ _ _ _ _ h := h
  input _ _ _ _ h := h
  exec_new b t now s w h := by
    dsimp only at h
    split at h
    · cases h
    · exact absurd h teardown_no
  input_new i now s w h := by
    dsimp only at h
    split at h
    · cases h
    · have hcancel : ∀ (x : Bool) (p p' : Port S I I E),
          Req.schedule w ∉ (if x = true then [Req.cancel] else []) ++ p.teardown D p' := by
        intro x p p' hw
        rcases List.mem_append.1 hw with hw | hw
        · split at hw
          · cases List.mem_singleton.1 hw
          · cases hw
        · exact teardown_no hw
      cases i with
      | close => exact absurd h teardown_no
      | note n =>
        cases n with
        | next v =>
          rcases List.mem_append.1 h with h | h
          · exact absurd h teardown_no
          · split at h
            · cases List.mem_singleton.1 h; exact ⟨_, _, rfl⟩
            · cases h
        | error e => exact absurd h (hcancel _ _ _)
        | complete => exact absurd h (hcancel _ _ _)
        | unsubscribe => exact absurd h (hcancel _ _ _)
  work t s s' w w' res h hw := by
    obtain ⟨l, b, rfl⟩ := h
    cases hw
    exact ⟨_, _, rfl⟩

theorem deliver_stays {s : State S I E} {now : Nat} {go : Bool} {v : Option I} (h : D.isClosed s.port.dest = true) :
    D.isClosed (s.deliver D now go v).1.port.dest = true := by
  simp only [State.deliver]
  cases v with
  | none =>
    dsimp only
    repeat' split
    all_goals first | exact h | exact give_stays h
  | some v =>
    dsimp only
    repeat' split
    all_goals first | exact give_stays h | exact give_stays (give_stays h)

theorem work_stays {s : State S I E} {t now : Nat} (h : D.isClosed s.port.dest = true) :
    D.isClosed (s.work D o t now).1.port.dest = true := by
  simp only [State.work]
  split
  · exact h
  · split
    · exact h
    · exact deliver_stays (by rw [window_port]; exact h)

theorem stays_or {p p' : Port S I I E} {now : Nat} (h : D.isClosed p.dest = true)
    (h' : p' = p ∨ ∃ n, p' = p.give D n now) : D.isClosed p'.dest = true := by
  rcases h' with rfl | ⟨n, rfl⟩
  · exact h
  · exact give_stays h

theorem quits (D : Sub S I E) (o : Output) (d t : Nat) :
    Quits (throttle D o d) t (fun now s => D.isClosed s.port.dest = true ∧ Windowed d now s)
      (fun _ w => ∃ l b, w = .continuous l b) (fun s => Recent d t s.port.trace) where
  exec b now s ht h := by
    refine ⟨?_, windowed_exec h.2 ht b⟩
    dsimp only
    split
    · exact h.1
    · exact work_stays h.1
  input i now s h := by
    refine ⟨?_, windowed_input h.2 i⟩
    dsimp only
    split
    · exact h.1
    · cases i with
      | close => exact close_stays h.1
      | note n =>
        have h0 : D.isClosed (s.arrive n now).port.dest = true := h.1
        cases n with
        | next v => exact stays_or h0 (next_or (s.arrive _ now) v now)
        | error e => exact stays_or h0 (error_port (s.arrive _ now) e now)
        | complete => exact stays_or h0 (complete_port (s.arrive _ now) now)
        | unsubscribe => exact stays_or h0 (unsubscribe_port (s.arrive _ now) now)
  stay_exec b now s h := h.grew ((line_stamps D o d).exec b t now s)
  stay_input i now s h := h.grew ((line_stamps D o d).input i now s)
  work s s' w w' res ht hI h hw := by
    obtain ⟨l, b, rfl⟩ := h
    have hs' : s' = (Solo.runBody t b s).2.1 := by cases hw; rfl
    have hres : res = (Solo.runBody t b s).2.2 := by cases hw; rfl
    have hst : s'.st = ((throttle D o d).exec b t s.clock s.st).2.1 := by rw [hs', runBody_st]
    have hg := (line_stamps D o d).exec b t s.clock s.st
    rw [← hst] at hg
    rw [hres]
    show ((throttle D o d).exec b t s.clock s.st).2.2.2 = _ ∨ _
    dsimp only
    split
    · exact .inl rfl
    · simp only [State.work]
      cases hd : s.st.deadline with
      | none => exact .inl rfl
      | some dl =>
        dsimp only
        split
        · rename_i hlt
          obtain ⟨p, hp, hp2⟩ := hI.2.window dl hd
          exact .inr ⟨p, arrivals_grew hg hp, by omega⟩
        · refine .inl ?_
          simp only [State.window]
          split
          · simp only [State.deliver]
            repeat' split
            all_goals first | rfl | simp_all
          · simp only [State.deliver]
            cases hv : (if o.emitsTrailing = true then s.st.lastValue else none) with
            | none =>
              dsimp only
              repeat' split
              all_goals first | rfl | simp_all
            | some v =>
              dsimp only
              rw [if_pos (by simp only [Option.isSome_some, Bool.true_and]; exact give_stays hI.1)]

end Throttle
end Rx.Timed

namespace Rx.Poll
open Rx.Sched Rx.Sched.Solo Rx.Timed

variable {S O E : Type}

theorem poll_tidy {D : Sub S O E} {P : Poll O} :
    Tidy (poll D P) (fun _ => True) (fun s => D.isClosed s.port.dest = true ∨ s.begun = none) where
  exec_keep _ _ _ _ _ := trivial
  input_keep _ _ _ _ := trivial
  exec_end b t now s _ h0 h1 := by
    rw [not_or] at h0
    exact held_teardown (Bool.eq_false_iff.2 h0.1) (h1.resolve_right h0.2) _
  exec_ended b t now s _ h0 h1 := held_teardown_false
  input_end i now s _ h0 h1 := by
    rw [not_or] at h0
    have hc := Bool.eq_false_iff.2 h0.1
    obtain ⟨b, hb⟩ := Option.ne_none_iff_exists'.1 h0.2
    cases i with
    | subscribe => simp [hb, hc] at h1
    | unsubscribe =>
      simp only [hb] at h1 ⊢
      exact held_teardown hc (by simpa using h1) _
    | close =>
      simp only [hb] at h1 ⊢
      exact held_teardown hc (by simpa using h1) _
    | world o =>
      refine absurd h1 ?_
      rw [not_or]
      exact h0
  input_ended i now s _ h0 h1 := by
    cases i with
    | subscribe =>
      dsimp only at h1 ⊢
      split
      · rfl
      · rename_i hb
        rw [if_neg hb] at h1
        rcases h1 with h1 | h1
        · dsimp only at h1
          rw [if_pos h1]; rfl
        · cases h1
    | unsubscribe =>
      dsimp only
      split
      · rfl
      · exact held_teardown_false
    | close =>
      dsimp only
      split
      · exact held_teardown_false
      · rfl
    | world o => rfl

end Rx.Poll
