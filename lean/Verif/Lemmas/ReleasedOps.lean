import Verif.Lemmas.Released
import Verif.Model.TimedSources
import Verif.Model.Adsr
import Verif.Model.BevySources

/-!
# What is left of each operator and source on the executor
-/

namespace Rx.Timed
open Rx.Sched Rx.Sched.Solo
open Rx.HigherOrder (Patient)

variable {S I O E : Type}

theorem held_teardown {B : Type} {D : Sub S O E} {p p' : Port S I O E} (h : D.isClosed p.dest = false)
    (h' : D.isClosed p'.dest = true) (b : Bool) : held (p.teardown (B := B) D p') b = false := by
  simp [Port.teardown, h, h', held]

theorem held_teardown_false {B : Type} {D : Sub S O E} {p p' : Port S I O E} : held (p.teardown (B := B) D p') false = false := by
  simp only [Port.teardown]
  split <;> rfl

theorem held_cancel_teardown {B : Type} {D : Sub S O E} {p p' : Port S I O E} (b : Bool) :
    held (.cancel :: p.teardown (B := B) D p') b = false := held_teardown_false

/-! ### interval -/

theorem interval_tidy {D : Sub S Nat E} {d : Nat} {start : Bool} {max : Nat} :
    Tidy (interval D d start max) (fun _ => True) (fun s => D.isClosed s.port.dest = true ∨ s.begun = none) where
  exec_keep _ _ _ _ _ := trivial
  input_keep _ _ _ _ := trivial
  exec_end b t now s _ h0 h1 := by
    rw [not_or] at h0
    have hc := Bool.eq_false_iff.2 h0.1
    simp only [hc, Bool.false_eq_true, if_false] at h1 ⊢
    exact held_teardown hc (h1.resolve_right h0.2) _
  exec_ended b t now s _ h0 h1 := by
    dsimp only
    split
    · rfl
    · exact held_teardown_false
  input_end i now s _ h0 h1 := by
    rw [not_or] at h0
    have hc := Bool.eq_false_iff.2 h0.1
    obtain ⟨b, hb⟩ := Option.ne_none_iff_exists'.1 h0.2
    cases i with
    | subscribe => simp [hb, hc] at h1
    | unsubscribe => simp only [hb]; exact held_cancel_teardown _
    | close =>
      simp only [hb] at h1 ⊢
      exact held_teardown hc (by simpa using h1) _
  input_ended i now s _ h0 h1 := by
    cases i with
    | subscribe =>
      dsimp only at h1 ⊢
      split
      · rfl
      · rename_i hb
        rw [if_neg hb] at h1
        rcases h1 with h1 | h1
        · dsimp only at h1
          rw [if_pos h1]; rfl
        · cases h1
    | unsubscribe =>
      dsimp only
      split
      · rfl
      · exact held_cancel_teardown _
    | close =>
      dsimp only
      split
      · exact held_teardown_false
      · rfl

/-! ### subscribe_on -/

theorem SubscribeOn.feed_begun {D : Sub S I E} (ns : List (SubscriberNotification I E)) (now : Nat) (s : SubscribeOn.State S I E) :
    (ns.foldl (fun s n => s.feed D n now) s).begun = s.begun := by
  induction ns generalizing s with
  | nil => rfl
  | cons n ns ih => rw [List.foldl_cons, ih]; rfl

theorem SubscribeOn.torn_port {D : Sub S I E} (s : SubscribeOn.State S I E) : (s.torn D).port = s.port := by
  simp only [SubscribeOn.State.torn]; split <;> rfl

theorem SubscribeOn.torn_begun {D : Sub S I E} (s : SubscribeOn.State S I E) : (s.torn D).begun = s.begun := by
  simp only [SubscribeOn.State.torn]; split <;> rfl

theorem subscribeOn_tidy {D : Sub S I E} {sync : List (SubscriberNotification I E)} {d : Nat} :
    Tidy (subscribeOn D sync d) (fun _ => True) (fun s => D.isClosed s.port.dest = true ∨ s.begun = none) where
  exec_keep _ _ _ _ _ := trivial
  input_keep _ _ _ _ := trivial
  exec_end b t now s _ h0 h1 := by
    rw [not_or] at h0
    have hc := Bool.eq_false_iff.2 h0.1
    simp only [hc, Bool.false_eq_true, if_false] at h1 ⊢
    refine held_teardown hc (h1.resolve_right ?_) _
    rw [SubscribeOn.feed_begun]
    exact h0.2
  exec_ended b t now s _ h0 h1 := by
    dsimp only
    split
    · rfl
    · exact held_teardown_false
  input_end i now s _ h0 h1 := by
    rw [not_or] at h0
    have hc := Bool.eq_false_iff.2 h0.1
    obtain ⟨b, hb⟩ := Option.ne_none_iff_exists'.1 h0.2
    cases i with
    | subscribe => simp [hb, hc] at h1
    | close =>
      simp only [SubscribeOn.torn_begun, hb] at h1 ⊢
      exact held_teardown hc (by simpa using h1) _
    | note n =>
      dsimp only at h1 ⊢
      split at h1
      · rename_i hs
        rw [if_pos hs]
        refine held_teardown hc (h1.resolve_right ?_) _
        rw [SubscribeOn.torn_begun]
        exact h0.2
      · exact absurd h1 (by rw [not_or]; exact h0)
  input_ended i now s _ h0 h1 := by
    cases i with
    | subscribe =>
      dsimp only at h1 ⊢
      split
      · rfl
      · rename_i hb
        rw [if_neg hb] at h1
        rcases h1 with h1 | h1
        · dsimp only at h1
          rw [if_pos h1]; rfl
        · cases h1
    | close =>
      dsimp only
      split
      · exact held_teardown_false
      · rfl
    | note n =>
      dsimp only
      split
      · exact held_teardown_false
      · rfl

/-! ### delay, debounce_time -/

/-- The destination was closed, and no value arrived since. -/
def Shut (D : Sub S I E) (s0 : S) (p : Port S I I E) : Prop :=
  D.isClosed p.dest = true ∧ Throughout (Considerate D s0) p.trace

theorem Port.fed_mark {D : Sub S O E} {s0 : S} {p : Port S I O E} (h : p.dest = fed D s0 p.trace)
    (n : SubscriberNotification I E) (now : Nat) : (p.mark (.arrived n) now).dest = fed D s0 (p.mark (.arrived n) now).trace := by
  rw [Port.mark_dest, Port.mark_trace, fed_arrived]; exact h

theorem Port.fed_give {D : Sub S O E} {s0 : S} {p : Port S I O E} (h : p.dest = fed D s0 p.trace)
    (n : SubscriberNotification O E) (now : Nat) : (p.give D n now).dest = fed D s0 (p.give D n now).trace := by
  cases hc : D.isClosed p.dest with
  | true => rw [Port.give_closed hc]; exact h
  | false => rw [Port.give_open hc, fed_out, ← h]

theorem Port.fed_close {D : Sub S O E} {s0 : S} {p : Port S I O E} (h : p.dest = fed D s0 p.trace) (now : Nat) :
    (p.close D now).dest = fed D s0 (p.close D now).trace := by
  cases hc : D.isClosed p.dest with
  | true => rw [Port.close_closed hc]; exact h
  | false => rw [Port.close_open hc, fed_closed, ← h]

theorem Throughout.of_grew {P : Line I O E → Mark I O E × Nat → Prop} {k : Nat} {a b : Line I O E} (h : Grew k a b)
    (hb : Throughout P b) : Throughout P a := by
  obtain ⟨new, rfl, _⟩ := h
  intro past m rest he
  exact hb past m (rest ++ new) (by rw [he]; simp)

/-- Not shut before, shut after: it was open. -/
theorem Shut.was_open {D : Sub S I E} {s0 : S} {p p' : Port S I I E} {k : Nat} (h : ¬ Shut D s0 p) (h' : Shut D s0 p')
    (hg : Grew k p.trace p'.trace) : D.isClosed p.dest = false := by
  cases hc : D.isClosed p.dest with
  | false => rfl
  | true => exact absurd ⟨hc, h'.2.of_grew hg⟩ h

/-- A value that arrives when it is shut breaks the rule. -/
theorem Shut.arrive {D : Sub S I E} {s0 : S} {p : Port S I I E} (hf : p.dest = fed D s0 p.trace) {v : I} {now : Nat}
    (hc : D.isClosed p.dest = true) (h' : Shut D s0 (p.mark (.arrived (.next v)) now)) : False := by
  have := h'.2.last (τ := p.trace) v rfl
  rw [← hf, hc] at this
  cases this

theorem State.finish_port (D : Sub S I E) (prev now : Nat) (s : State S I E) :
    (s.finish D prev now).port = s.port ∨ ∃ n, (s.finish D prev now).port = s.port.give D n now := by
  simp only [State.finish]
  split
  · exact .inr ⟨_, rfl⟩
  · split
    · exact .inr ⟨_, rfl⟩
    · exact .inl rfl

theorem State.finish_fed {D : Sub S I E} {s0 : S} {prev now : Nat} {s : State S I E} (h : s.port.dest = fed D s0 s.port.trace) :
    (s.finish D prev now).port.dest = fed D s0 (s.finish D prev now).port.trace := by
  rcases s.finish_port D prev now with h1 | ⟨n, h1⟩
  · rw [h1]; exact h
  · rw [h1]; exact Port.fed_give h n now

theorem State.finish_grew (D : Sub S I E) (prev now : Nat) (s : State S I E) : Grew now s.port.trace (s.finish D prev now).port.trace := by
  rcases s.finish_port D prev now with h1 | ⟨n, h1⟩
  · rw [h1]; exact .refl _ _
  · rw [h1]; exact Port.give_grew _ _ _ _

theorem State.complete_port (D : Sub S I E) (now : Nat) (s : State S I E) :
    (s.complete D now).port = s.port ∨ ∃ n, (s.complete D now).port = s.port.give D n now := by
  simp only [State.complete]
  split
  · exact .inr ⟨_, rfl⟩
  · exact .inl rfl

theorem State.unsubscribe_port (D : Sub S I E) (c : Bool) (now : Nat) (s : State S I E) :
    (s.unsubscribe D c now).port = s.port ∨ ∃ n, (s.unsubscribe D c now).port = s.port.give D n now := by
  simp only [State.unsubscribe]
  split
  · exact .inl rfl
  · split
    · exact .inr ⟨_, rfl⟩
    · exact .inl rfl

theorem fed_or {D : Sub S O E} {s0 : S} {p p' : Port S I O E} {now : Nat} (h : p.dest = fed D s0 p.trace)
    (h' : p' = p ∨ ∃ n, p' = p.give D n now) : p'.dest = fed D s0 p'.trace := by
  rcases h' with rfl | ⟨n, rfl⟩
  · exact h
  · exact Port.fed_give h n now

theorem grew_or {D : Sub S O E} {p p' : Port S I O E} {now : Nat} (h' : p' = p ∨ ∃ n, p' = p.give D n now) :
    Grew now p.trace p'.trace := by
  rcases h' with rfl | ⟨n, rfl⟩
  · exact .refl _ _
  · exact Port.give_grew _ _ _ _

theorem delay_tidy {D : Sub S I E} {s0 : S} {d : Nat} :
    Tidy (delay D d) (fun s => s.port.dest = fed D s0 s.port.trace) (fun s => Shut D s0 s.port) where
  exec_keep b t now s h := State.finish_fed (Port.fed_give h _ _)
  input_keep i now s h := by
    cases i with
    | close => exact Port.fed_close h _
    | note n =>
      have h0 := Port.fed_mark h n now
      cases n with
      | next v => exact h0
      | error e => exact Port.fed_give h0 _ _
      | complete => exact fed_or h0 (State.complete_port D now (s.arrive _ now))
      | unsubscribe => exact fed_or h0 (State.unsubscribe_port D _ now (s.arrive _ now))
  exec_end b t now s h h0 h1 :=
    held_teardown (Shut.was_open h0 h1 ((Port.give_grew _ _ _ _).trans (State.finish_grew _ _ _ _))) h1.1 _
  exec_ended b t now s h h0 h1 := held_teardown_false
  input_end i now s h h0 h1 := by
    cases i with
    | close => exact held_teardown (Shut.was_open h0 h1 (Port.close_grew _ _ _)) h1.1 _
    | note n =>
      cases n with
      | next v =>
        have ho := Shut.was_open h0 h1 (Port.mark_grew _ _ _)
        have := h1.1
        dsimp only [State.arrive] at this
        rw [Port.mark_dest, ho] at this
        cases this
      | error e => exact held_cancel_teardown _
      | complete =>
        exact held_teardown (Shut.was_open h0 h1 ((Port.mark_grew _ _ _).trans (grew_or (State.complete_port D now (s.arrive _ now))))) h1.1 _
      | unsubscribe =>
        exact held_teardown (Shut.was_open h0 h1 ((Port.mark_grew _ _ _).trans (grew_or (State.unsubscribe_port D _ now (s.arrive _ now)))))
          h1.1 _
  input_ended i now s h h0 h1 := by
    cases i with
    | close => exact held_teardown_false
    | note n =>
      cases n with
      | next v => exact (Shut.arrive h h0.1 h1).elim
      | error e => exact held_cancel_teardown _
      | complete => exact held_teardown_false
      | unsubscribe => exact held_teardown_false

theorem debounce_tidy {D : Sub S I E} {s0 : S} {d : Nat} :
    Tidy (debounce D d) (fun s => s.port.dest = fed D s0 s.port.trace) (fun s => Shut D s0 s.port) where
  exec_keep b t now s h := State.finish_fed (Port.fed_give h _ _)
  input_keep i now s h := by
    cases i with
    | close => exact Port.fed_close h _
    | note n =>
      have h0 := Port.fed_mark h n now
      cases n with
      | next v => exact h0
      | error e => exact Port.fed_give h0 _ _
      | complete => exact fed_or h0 (State.complete_port D now (s.arrive _ now))
      | unsubscribe => exact fed_or h0 (State.unsubscribe_port D _ now (s.arrive _ now))
  exec_end b t now s h h0 h1 :=
    held_teardown (Shut.was_open h0 h1 ((Port.give_grew _ _ _ _).trans (State.finish_grew _ _ _ _))) h1.1 _
  exec_ended b t now s h h0 h1 := held_teardown_false
  input_end i now s h h0 h1 := by
    cases i with
    | close => exact held_teardown (Shut.was_open h0 h1 (Port.close_grew _ _ _)) h1.1 _
    | note n =>
      cases n with
      | next v =>
        have ho := Shut.was_open h0 h1 (Port.mark_grew _ _ _)
        have := h1.1
        dsimp only [State.arrive] at this
        rw [Port.mark_dest, ho] at this
        cases this
      | error e => exact held_cancel_teardown _
      | complete =>
        exact held_teardown (Shut.was_open h0 h1 ((Port.mark_grew _ _ _).trans (grew_or (State.complete_port D now (s.arrive _ now))))) h1.1 _
      | unsubscribe =>
        exact held_teardown (Shut.was_open h0 h1 ((Port.mark_grew _ _ _).trans (grew_or (State.unsubscribe_port D _ now (s.arrive _ now)))))
          h1.1 _
  input_ended i now s h h0 h1 := by
    cases i with
    | close => exact held_teardown_false
    | note n =>
      cases n with
      | next v => exact (Shut.arrive h h0.1 h1).elim
      | error e => exact held_cancel_teardown _
      | complete => exact held_teardown_false
      | unsubscribe => exact held_teardown_false

/-- A work of `delay` or `debounce_time`: it waits since some value arrived. -/
def DelayKind (d : Nat) (s : State S I E) (w : Work I) : Prop :=
  ∃ b sch cu, w = .delayed b sch cu d ∧ ∃ v, (v, sch) ∈ arrivals s.port.trace

/-- Some value arrived less than `d` before `t`. -/
def Recent (d t : Nat) (τ : Line I O E) : Prop := ∃ p ∈ arrivals τ, t < p.2 + d

theorem arrivals_grew {k : Nat} {a b : Line I O E} (h : Grew k a b) {p : I × Nat} (hp : p ∈ arrivals a) : p ∈ arrivals b := by
  obtain ⟨new, rfl, _⟩ := h
  rw [arrivals_append]; exact List.mem_append_left _ hp

theorem Recent.grew {d t k : Nat} {a b : Line I O E} (h : Recent d t a) (hg : Grew k a b) : Recent d t b :=
  ⟨h.choose, arrivals_grew hg h.choose_spec.1, h.choose_spec.2⟩

theorem DelayKind.grew {d k : Nat} {s s' : State S I E} {w : Work I} (h : DelayKind d s w) (hg : Grew k s.port.trace s'.port.trace) :
    DelayKind d s' w := by
  obtain ⟨b, sch, cu, h1, v, h2⟩ := h
  exact ⟨b, sch, cu, h1, v, arrivals_grew hg h2⟩

theorem delay_stamps (D : Sub S I E) (d : Nat) : Stamps (delay D d) (fun s => s.port.trace) where
  exec b t now s := (Port.give_grew _ _ _ _).trans (State.finish_grew _ _ _ _)
  input i now s := by
    cases i with
    | close => exact Port.close_grew _ _ _
    | note n =>
      cases n with
      | next v => exact Port.mark_grew _ _ _
      | error e => exact (Port.mark_grew _ _ _).trans (Port.give_grew _ _ _ _)
      | complete => exact (Port.mark_grew _ _ _).trans (grew_or (State.complete_port D now (s.arrive _ now)))
      | unsubscribe => exact (Port.mark_grew _ _ _).trans (grew_or (State.unsubscribe_port D _ now (s.arrive _ now)))

theorem debounce_stamps (D : Sub S I E) (d : Nat) : Stamps (debounce D d) (fun s => s.port.trace) where
  exec b t now s := (Port.give_grew _ _ _ _).trans (State.finish_grew _ _ _ _)
  input i now s := by
    cases i with
    | close => exact Port.close_grew _ _ _
    | note n =>
      cases n with
      | next v => exact Port.mark_grew _ _ _
      | error e => exact (Port.mark_grew _ _ _).trans (Port.give_grew _ _ _ _)
      | complete => exact (Port.mark_grew _ _ _).trans (grew_or (State.complete_port D now (s.arrive _ now)))
      | unsubscribe => exact (Port.mark_grew _ _ _).trans (grew_or (State.unsubscribe_port D _ now (s.arrive _ now)))

theorem delayed_tick {c : Client} {t : Nat} {s s' : Solo c} {b : Option c.B} {sch cu d : Nat} {w' : Work c.B} {res : WorkResult}
    (h : tickWork t s (.delayed b sch cu d) = some (w', s', res)) :
    (∃ b' cu', w' = .delayed b' sch cu' d) ∧ (res = .done ∨ (t < sch + d ∧ s' = s)) := by
  simp only [tickWork] at h
  split at h
  · cases b with
    | none => cases h; exact ⟨⟨_, _, rfl⟩, .inl rfl⟩
    | some b => cases h; exact ⟨⟨_, _, rfl⟩, .inl rfl⟩
  · rename_i hd
    cases h
    rw [updateTick_max] at hd
    exact ⟨⟨_, _, rfl⟩, .inr ⟨by omega, rfl⟩⟩

theorem stamps_work {c : Client} {tr : c.St → Line I O E} (h : Stamps c tr) {t : Nat} {s s' : Solo c} {w w' : Work c.B} {res : WorkResult}
    (hw : tickWork t s w = some (w', s', res)) : Grew s.clock (tr s.st) (tr s'.st) := by
  have := tickWork_keeps (P := fun x => x.clock = s.clock ∧ Grew s.clock (tr s.st) (tr x.st)) ?_ ⟨rfl, .refl _ _⟩ hw
  · exact this.2
  · intro b x hx
    refine ⟨(runBody_keeps _ _ _).clock.trans hx.1, hx.2.trans ?_⟩
    rw [← hx.1]
    exact h.runBody _ b x

theorem teardown_no {B : Type} {D : Sub S O E} {p p' : Port S I O E} {w : Work B} : .schedule w ∉ p.teardown D p' := by
  simp only [Port.teardown]
  split <;> simp

theorem delay_kinds (D : Sub S I E) (d : Nat) : Kinds (delay D d) (DelayKind d) where
  exec b t now s w h := h.grew ((delay_stamps D d).exec b t now s)
  input i now s w h := h.grew ((delay_stamps D d).input i now s)
  exec_new b t now s w h := absurd h teardown_no
  input_new i now s w h := by
    cases i with
    | close => exact absurd h teardown_no
    | note n =>
      cases n with
      | next v =>
        have hw := List.mem_singleton.1 h
        cases hw
        refine ⟨some v, now, now, ?_, v, ?_⟩
        · simp only [Work.newDelayed, Work.onScheduled, updateTick_zero]
        · dsimp only [State.arrive]
          rw [Port.mark_trace, arrivals_append]
          exact List.mem_append_right _ (by rw [arrivals_next]; simp)
      | error e =>
        rcases List.mem_cons.1 h with h | h
        · cases h
        · exact absurd h teardown_no
      | complete => exact absurd h teardown_no
      | unsubscribe => exact absurd h teardown_no
  work t s s' w w' res h hw := by
    have hg := stamps_work (delay_stamps D d) hw
    obtain ⟨b, sch, cu, rfl, v, hv⟩ := h
    obtain ⟨⟨b', cu', rfl⟩, _⟩ := delayed_tick hw
    exact ⟨_, _, _, rfl, v, arrivals_grew hg hv⟩

theorem debounce_kinds (D : Sub S I E) (d : Nat) : Kinds (debounce D d) (DelayKind d) where
  exec b t now s w h := h.grew ((debounce_stamps D d).exec b t now s)
  input i now s w h := h.grew ((debounce_stamps D d).input i now s)
  exec_new b t now s w h := absurd h teardown_no
  input_new i now s w h := by
    cases i with
    | close => exact absurd h teardown_no
    | note n =>
      cases n with
      | next v =>
        rcases List.mem_cons.1 h with h | h
        · cases h
        have hw := List.mem_singleton.1 h
        cases hw
        refine ⟨some v, now, now, ?_, v, ?_⟩
        · simp only [Work.newDelayed, Work.onScheduled, updateTick_zero]
        · dsimp only [State.arrive]
          rw [Port.mark_trace, arrivals_append]
          exact List.mem_append_right _ (by rw [arrivals_next]; simp)
      | error e =>
        rcases List.mem_cons.1 h with h | h
        · cases h
        · exact absurd h teardown_no
      | complete => exact absurd h teardown_no
      | unsubscribe => exact absurd h teardown_no
  work t s s' w w' res h hw := by
    have hg := stamps_work (debounce_stamps D d) hw
    obtain ⟨b, sch, cu, rfl, v, hv⟩ := h
    obtain ⟨⟨b', cu', rfl⟩, _⟩ := delayed_tick hw
    exact ⟨_, _, _, rfl, v, arrivals_grew hg hv⟩

theorem delay_quits (D : Sub S I E) (d t : Nat) :
    Quits (delay D d) t (fun _ _ => True) (DelayKind d) (fun s => Recent d t s.port.trace) where
  exec _ _ _ _ _ := trivial
  input _ _ _ _ := trivial
  stay_exec b now s h := h.grew ((delay_stamps D d).exec b t now s)
  stay_input i now s h := h.grew ((delay_stamps D d).input i now s)
  work s s' w w' res _ _ h hw := by
    obtain ⟨b, sch, cu, rfl, v, hv⟩ := h
    rcases (delayed_tick hw).2 with h | ⟨h, rfl⟩
    · exact .inl h
    · exact .inr ⟨(v, sch), hv, h⟩

theorem debounce_quits (D : Sub S I E) (d t : Nat) :
    Quits (debounce D d) t (fun _ _ => True) (DelayKind d) (fun s => Recent d t s.port.trace) where
  exec _ _ _ _ _ := trivial
  input _ _ _ _ := trivial
  stay_exec b now s h := h.grew ((debounce_stamps D d).exec b t now s)
  stay_input i now s h := h.grew ((debounce_stamps D d).input i now s)
  work s s' w w' res _ _ h hw := by
    obtain ⟨b, sch, cu, rfl, v, hv⟩ := h
    rcases (delayed_tick hw).2 with h | ⟨h, rfl⟩
    · exact .inl h
    · exact .inr ⟨(v, sch), hv, h⟩

/-! ### observe_on -/

theorem observeOn_kinds (D : Sub S I E) : Kinds (observeOn D) (fun _ w => ∃ b, w = .immediate b) where
  exec _ _ _ _ _ h := h
  input _ _ _ _ h := h
  exec_new b t now s w h := by
    cases b with
    | none => cases h
    | some v => exact absurd h teardown_no
  input_new i now s w h := by
    cases i with
    | close => exact absurd h teardown_no
    | note n =>
      cases n with
      | next v => cases List.mem_singleton.1 h; exact ⟨_, rfl⟩
      | error e => exact absurd h teardown_no
      | complete =>
        rcases List.mem_append.1 h with h | h
        · split at h
          · cases h
          · cases List.mem_singleton.1 h; exact ⟨_, rfl⟩
        · exact absurd h teardown_no
      | unsubscribe => exact absurd h teardown_no
  work t s s' w w' res h hw := by
    obtain ⟨b, rfl⟩ := h
    cases b <;> (cases hw; exact ⟨_, rfl⟩)

theorem observeOn_quits (D : Sub S I E) (t : Nat) :
    Quits (observeOn D) t (fun _ _ => True) (fun _ w => ∃ b, w = .immediate b) (fun _ => False) where
  exec _ _ _ _ _ := trivial
  input _ _ _ _ := trivial
  stay_exec _ _ _ h := h
  stay_input _ _ _ h := h
  work s s' w w' res _ _ h hw := by
    obtain ⟨b, rfl⟩ := h
    cases b <;> (cases hw; exact .inl rfl)

end Rx.Timed
