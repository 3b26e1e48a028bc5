import Verif.Lemmas.ThrottleWork

/-!
# When throttle_time does not panic
-/

namespace Rx.Timed.Throttle
open Rx.Sched Rx.Timed

variable {S I E : Type} {D : Sub S I E} {s0 : S} {o : Output} {d : Nat}

theorem ending_grew (s : State S I E) (now : Nat) (go : Bool) :
    Grew now s.port.trace (s.ending D now go).1.port.trace := by
  unfold State.ending
  split
  · exact Port.give_grew _ _ _ _
  · split
    · exact Port.give_grew _ _ _ _
    · exact .refl _ _

theorem work_grew (s : State S I E) (t now : Nat) : Grew now s.port.trace (s.work D o t now).1.port.trace := by
  rcases work_cases D o t now s with ⟨_, h2⟩ | ⟨dl, _, ⟨_, h2⟩ | ⟨_, h2⟩ | ⟨_, _, h2⟩ | ⟨_, _, v, hv, h2⟩⟩
  · rw [h2]; exact Grew.refl _ _
  · rw [h2]; exact Grew.refl _ _
  · rw [h2]; exact ending_grew _ _ _
  · rw [h2]; exact ending_grew _ _ _
  · rw [h2, deliver_some]
    split
    · exact Port.give_grew _ _ _ _
    · exact (Port.give_grew D (.next v) now s.port).trans (ending_grew _ _ _)

/-- A call is recorded first. -/
theorem note_grew {s : State S I E} (hp : s.panicked = false) (n : SubscriberNotification I E) (now : Nat) :
    Grew now (s.port.trace ++ [(.arrived n, now)]) ((throttle D o d).input (.note n) now s).1.port.trace := by
  have e1 : s.panicked ≠ true := by rw [hp]; simp
  dsimp only
  rw [if_neg e1]
  cases n with
  | next v =>
    dsimp only
    rcases next_cases D o d v now (s.arrive (.next v) now) with ⟨hd, h1, h2⟩ | ⟨hd, h1, h2⟩ |
      ⟨dl, hd, ⟨h3, h1, h2⟩ | ⟨_, h1, h2⟩ | ⟨h3, h1, h2⟩ | ⟨h3, h1, h2⟩⟩
    · rw [h2]; exact Port.give_grew _ _ _ _
    all_goals rw [h2]; exact Grew.refl _ _
  | error e =>
    dsimp only
    rcases error_cases D e now (s.arrive (.error e) now) with ⟨h1, h2⟩ | ⟨_, h2⟩
    · rw [h2]; exact Grew.refl _ _
    · rw [h2]; exact Port.give_grew _ _ _ _
  | complete =>
    dsimp only
    rcases complete_cases D o now (s.arrive .complete now) with ⟨h1, h2⟩ | ⟨_, h2⟩ | ⟨h1, h3, h4, h2⟩
    · rw [h2]; exact Grew.refl _ _
    · rw [h2]; exact Port.give_grew _ _ _ _
    · rw [h2]; exact Grew.refl _ _
  | unsubscribe =>
    dsimp only
    rcases unsubscribe_cases D o now (s.arrive .unsubscribe now) with ⟨h1, h2⟩ | ⟨h1, _, h2⟩ | ⟨_, h1, h3, h4, h2⟩
    · rw [h2]; exact Grew.refl _ _
    · rw [h2]; exact Port.give_grew _ _ _ _
    · rw [h2]; exact Grew.refl _ _

theorem stamps (D : Sub S I E) (o : Output) (d : Nat) :
    Stamps (throttle D o d) (fun s : State S I E => s.port.trace) := by
  refine ⟨fun b t now s => ?_, fun i now s => ?_⟩
  · dsimp only
    split
    · exact Grew.refl _ _
    · exact work_grew _ _ _
  · cases hp : s.panicked with
    | true =>
      dsimp only
      rw [if_pos hp]
      exact Grew.refl _ _
    | false =>
      cases i with
      | note n => exact Grew.trans ⟨_, rfl, by simp⟩ (note_grew hp n now)
      | close =>
        have e1 : s.panicked ≠ true := by rw [hp]; simp
        dsimp only
        rw [if_neg e1]
        exact Port.close_grew _ _ _

/-- Everything that is known of a state in which upstream behaved. -/
structure Well (D : Sub S I E) (s0 : S) (o : Output) (d : Nat) (s : Solo (throttle D o d)) : Prop where
  tick : ∀ t, s.tick = some t → t ≤ s.clock
  sound : Sound D s0 o s.clock s.st
  timely : Timely D o d s.clock s.st
  safe : Throughout Once s.st.port.trace → Safe s

theorem throughout_grew {P : Line I I E → Mark I I E × Nat → Prop} {k : Nat} {a b : Line I I E} (h : Grew k a b)
    (hb : Throughout P b) : Throughout P a := by
  obtain ⟨new, rfl, _⟩ := h
  intro past m rest he
  exact hb past m (rest ++ new) (by rw [he]; simp)

theorem mild_grew {base : Line I I E} {k : Nat} {a b : Line I I E} (h : Grew k a b)
    (hb : Mild D s0 base b) : Mild D s0 base a := by
  obtain ⟨new, rfl, _⟩ := h
  intro past m rest he
  exact hb past m (rest ++ new) (by rw [he]; simp)

theorem Well.facts (hD : HigherOrder.Closes D) {s s' : Solo (throttle D o d)} (hs : Solo.Step s s')
    (ht : ∀ t, s.tick = some t → t ≤ s.clock) (h1 : Sound D s0 o s.clock s.st) (h2 : Timely D o d s.clock s.st) :
    Sound D s0 o s'.clock s'.st ∧ Timely D o d s'.clock s'.st :=
  (timely_stable hD s0).step hs ht ⟨h1, h2⟩

theorem Well.inner (hD : HigherOrder.Closes D) (hd : 0 < d ∨ o ≠ .leadingOnly) {base : Line I I E}
    {s s' : Solo (throttle D o d)} (h : Well D s0 o d s)
    (hb : base.length ≤ s.st.port.trace.length) (hs : Solo.Inner s s') :
    (Sound D s0 o s'.clock s'.st ∧ Timely D o d s'.clock s'.st ∧ s'.clock = s.clock ∧ s'.tick = s.tick) ∧
    ((s'.tick = none ∨ Mild D s0 base s'.st.port.trace) → Throughout Once s'.st.port.trace → Safe s') := by
  induction hs with
  | refl => exact ⟨⟨h.sound, h.timely, rfl, rfl⟩, fun _ => h.safe⟩
  | tail k1 k2 k3 ih =>
    rename_i b c
    obtain ⟨⟨i1, i2, i3, i4⟩, ih⟩ := ih
    have ht : ∀ t, b.tick = some t → t ≤ b.clock := by rw [i3, i4]; exact h.tick
    obtain ⟨g1, g2⟩ := (stamps D o d).step k2 k3 ht
    obtain ⟨_, g3⟩ := (stamps D o d).inner k1 h.tick
    obtain ⟨f1, f2⟩ := Well.facts hD k2 ht i1 i2
    refine ⟨⟨f1, f2, g1.trans i3, k3.trans i4⟩, ?_⟩
    intro hm ho
    have hsafe : Safe b := ih (hm.imp (fun h => k3.symm.trans h) (mild_grew g2)) (throughout_grew g2 ho)
    refine hsafe.step k2 ?_ ?_
    · intro hol dl hdl
      exact i2.lead (hd.resolve_right (fun h => h hol)) hol dl hdl
    · intro i hi
      have kst : c.st = ((throttle D o d).input i b.clock b.st).1 := by
        rw [hi]; exact Solo.input_st (c := throttle D o d) i b
      refine ⟨?_, ?_⟩
      · rintro htk n rfl hf
        have hm' := hm.resolve_left (fun h => htk (k3.symm.trans h))
        obtain ⟨new, hnew, _⟩ := note_grew (D := D) (o := o) (d := d) hsafe.fine n b.clock
        rw [← kst] at hnew
        have := hm' b.st.port.trace (.arrived n, b.clock) new (by rw [hnew]; simp) (by
          obtain ⟨new', h', _⟩ := g3
          rw [h', List.length_append]; omega) n rfl hf
        rw [← i1.weak.right.fed] at this
        exact this
      · rintro n rfl hf hn
        obtain ⟨new, hnew, _⟩ := note_grew (D := D) (o := o) (d := d) hsafe.fine n b.clock
        rw [← kst] at hnew
        have hon := ho b.st.port.trace (.arrived n, b.clock) new (by rw [hnew]; simp) n rfl hn
        cases hu : b.st.up.isClosed with
        | false => rfl
        | true =>
          obtain ⟨n', hn', ha⟩ := (i1.core hsafe.fine).closed hu
          exact absurd ha (hon n' hn')

theorem Well.init (D : Sub S I E) (s0 : S) (o : Output) (d : Nat) :
    Well D s0 o d { st := ({ port := { dest := s0 } } : State S I E) } := by
  refine ⟨(fun t h => by cases h), Sound.init D s0 o, ?_, fun _ => ?_⟩
  · exact ⟨Nat.le_refl _, (fun dl h => by cases h), (fun _ _ dl h => by cases h), (fun _ h => absurd rfl h),
      (fun _ _ _ h => by cases h)⟩
  · exact ⟨rfl, (fun p hp => by cases hp), (fun r hr => by cases hr), fun _ => rfl, Nat.zero_le _,
      fun h => absurd rfl h, fun h => absurd rfl h⟩

theorem well_run (hD : HigherOrder.Closes D) (hd : 0 < d ∨ o ≠ .leadingOnly) {R : Rest (throttle D o d)} {x : R.Ctx}
    {n : Nat} {ops : List R.Op} {e : Exec R.env}
    (hg : R.During (fun st st' : State S I E => Mild D s0 st.port.trace st'.port.trace)
      (R.start { port := { dest := s0 } } x n) ops)
    (h : R.run (R.start { port := { dest := s0 } } x n) ops = .ok e) (ho : Throughout Once e.world.ctx.1.port.trace) :
    e.world.ctx.1.panicked = false := by
  obtain ⟨h1, h2⟩ := EView.start R ({ port := { dest := s0 } } : State S I E) x n
  refine (EView.during (J := fun s => Well D s0 o d s)
    (good := fun st st' : State S I E => Mild D s0 st.port.trace st'.port.trace) ?_ ?_ ops h1 rfl h2
    (Well.init D s0 o d) hg h).elim fun s hs => ?_
  rotate_left 2
  · obtain ⟨k1, k2, k3, _⟩ := hs
    have hst : e.world.ctx.1 = s.st := k3.world.st
    rw [hst] at ho ⊢
    exact (k1.safe ho).fine
  · intro s s' hj ht hi
    obtain ⟨⟨f1, f2, f3, f4⟩, f5⟩ := hj.inner hD hd (base := s.st.port.trace) (Nat.le_refl _) hi
    exact ⟨by rw [f4, f3]; exact hj.tick, f1, f2, f5 (.inl (f4.trans ht))⟩
  · intro s t s1 hj ht hi h3 h4 h5 hgood
    have hs : Solo.Step s (Solo.drain t { s with tick := some t, active := s.active.map fun p => (p.1, false) }) :=
      .start s t ht
    have hj' : Well D s0 o d (Solo.drain t { s with tick := some t, active := s.active.map fun p => (p.1, false) }) := by
      obtain ⟨f1, f2⟩ := Well.facts hD hs hj.tick hj.sound hj.timely
      refine ⟨?_, f1, f2, fun ho => ?_⟩
      · intro t' ht'
        cases ht'
        show _ ≤ updateTick s.clock _
        rw [updateTick_max]; omega
      · refine (hj.safe ho).step hs ?_ ?_
        · intro hol dl hdl
          exact hj.timely.lead (hd.resolve_right (fun h => h hol)) hol dl hdl
        · intro i hi
          exfalso
          have := congrArg Solo.tick hi
          rw [(Solo.input_keep (c := throttle D o d) i s).2.1, ht] at this
          cases this
    obtain ⟨⟨f1, f2, f3, f4⟩, f5⟩ := hj'.inner hD hd (base := s.st.port.trace) (Nat.le_refl _) hi
    refine ⟨(fun t h => by cases h), f1, f2, fun ho => ?_⟩
    have hf : Solo.Step s1 { s1 with tick := none } := .finish s1 t h3 h4 h5
    refine (f5 (.inr hgood) ho).step hf ?_ ?_
    · intro hol dl hdl
      exact f2.lead (hd.resolve_right (fun h => h hol)) hol dl hdl
    · intro i hi
      exfalso
      have := congrArg Solo.tick hi
      rw [(Solo.input_keep (c := throttle D o d) i s1).2.1, h3] at this
      cases this

end Rx.Timed.Throttle
