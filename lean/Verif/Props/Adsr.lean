import Verif.Lemmas.TimedAdsr
import Verif.Props.IntervalTimer

/-!
# C55: adsr

The operator looks at its input once in a tick: that is a sample. `C55_given` to `C55_between` say which samples are taken and
that what is emitted are their `signals`; the other theorems say what the signals are, for all lists of samples. `held` and
`faded` (`Verif.Spec.Adsr`) are the envelope as a function of time.
-/

namespace Rx.Timed.Props
open Rx.Sched Rx.Timed Rx.Adsr
open Rx.HigherOrder (Closes)

section Operator

variable {N : Num} {S E : Type} {s : S} {D : Sub S (Signal N) E} {o : Options} {env : Envelope N}
  {R : Rest (adsr D o)} {x : R.Ctx} {n : Nat} {ops : List R.Op} {e0 e : Exec R.env}

/-- C55. Whatever happens: what is given are the signals of the samples, without repeated signals that it is off (unless
`always_emit_none`); each sample uses the triggers that had arrived; an end is given when it arrives, and at once. What the
destination has got is what the record says. -/
theorem C55_given (hD : Closes D) (h : R.run (R.start { port := { dest := s }, env := env } x n) ops = .ok e) :
    (outs e.world.ctx.1.port.trace).map (·.1) = emitted o.alwaysEmitNone (signals e.world.ctx.1.samples) ∧
    AllRight o env ((arrivals e.world.ctx.1.port.trace).map (·.1)) e.world.ctx.1.samples ∧
    Throughout (Ends D s) e.world.ctx.1.port.trace ∧
    e.world.ctx.1.port.dest = fed D s e.world.ctx.1.port.trace := by
  obtain ⟨y, h1, h2, h3, h4⟩ := solo_of_run h
  rw [← h3]
  have := Adsr.always (Adsr.holds hD h1)
  exact ⟨this.given, this.right, this.fits.all, this.fits.right.fed⟩

/-- C55. In each tick after the subscription exactly one sample is taken, if the destination is still open at its end; its time
is that of the tick, and it uses all triggers that came before the tick. -/
theorem C55_tick (hD : Closes D) (h0 : R.run (R.start { port := { dest := s }, env := env } x n) ops = .ok e0) {t : Nat}
    (h1 : e0.tickTo t = .ok e) (hb : e0.world.ctx.1.begun.isSome = true)
    (ho : D.isClosed e.world.ctx.1.port.dest = false) (hp : e.world.ctx.1.panicked = false) :
    ∃ y, e.world.ctx.1.samples = e0.world.ctx.1.samples ++ [y] ∧ y.now = t ∧
      (arrivals e0.world.ctx.1.port.trace).length ≤ y.heard := by
  obtain ⟨s0, y, k1, k2, k3, k4, k5, k6, k7, k8, k9, k10⟩ := solo_of_tick h0 h1
  rw [← k3] at hb
  rw [← k9] at ho hp
  rw [← k3, ← k9]
  rcases (Adsr.tick hD k1 k2 k5 k7 k8 hb).1 with ⟨h | h, _⟩ | ⟨y, h1, h2, h3⟩
  · rw [h] at ho; cases ho
  · rw [h] at hp; cases hp
  · exact ⟨y, h1, h2, by rw [List.length_map] at h3; exact h3⟩

/-- C55. If the destination is closed at its end, not more than one. -/
theorem C55_at_most_one (hD : Closes D) (h0 : R.run (R.start { port := { dest := s }, env := env } x n) ops = .ok e0) {t : Nat}
    (h1 : e0.tickTo t = .ok e) (hb : e0.world.ctx.1.begun.isSome = true) :
    e.world.ctx.1.samples = e0.world.ctx.1.samples ∨ ∃ y, e.world.ctx.1.samples = e0.world.ctx.1.samples ++ [y] := by
  obtain ⟨s0, y, k1, k2, k3, k4, k5, k6, k7, k8, k9, k10⟩ := solo_of_tick h0 h1
  rw [← k3] at hb
  rw [← k3, ← k9]
  rcases (Adsr.tick hD k1 k2 k5 k7 k8 hb).1 with ⟨_, h⟩ | ⟨y, h1, h2, h3⟩
  · rcases h _ rfl with h | ⟨y, h, _⟩
    · exact .inl h
    · exact .inr ⟨y, h⟩
  · exact .inr ⟨y, h1⟩

/-- C55. Between ticks no sample is taken, whatever arrives. -/
theorem C55_between (h0 : R.run (R.start { port := { dest := s }, env := env } x n) ops = .ok e0) (a : Act (adsr D o) R.B) :
    (R.act a e0.world).ctx.1.samples = e0.world.ctx.1.samples ∧
    (R.act a e0.world).ctx.1.panicked = e0.world.ctx.1.panicked := by
  obtain ⟨y0, y, k1, k2, k3, k4, k5, k6, k7, k8⟩ := solo_of_act (a := a) h0
  rw [← k3, ← k6]
  exact Adsr.between k5 k2

/-- C55. A tick that is not before the last does not make it panic. -/
theorem C55_no_panic (hD : Closes D) (h0 : R.run (R.start { port := { dest := s }, env := env } x n) ops = .ok e0) {t : Nat}
    (h1 : e0.tickTo t = .ok e) (hb : e0.world.ctx.1.begun.isSome = true) (hp : e0.world.ctx.1.panicked = false)
    (ht : e0.world.sched.currentTick ≤ t) : e.world.ctx.1.panicked = false := by
  obtain ⟨s0, y, k1, k2, k3, k4, k5, k6, k7, k8, k9, k10⟩ := solo_of_tick h0 h1
  rw [← k3] at hb hp
  rw [← k9]
  cases hc : y.st.panicked with
  | false => rfl
  | true =>
    exfalso
    rcases (Adsr.tick hD k1 k2 k5 k7 k8 hb).2 hc with h | h
    · rw [hp] at h; cases h
    · rw [← k4] at ht
      have hpast := (Adsr.always (Adsr.holds hD k1)).past
      rw [machine_now] at h
      split at h
      · rename_i z hz
        have := hpast z (List.mem_of_getLast? hz)
        omega
      · omega

end Operator

section Signals

variable {N : Num} {e : Envelope N} {pre run : List (Sample N)} {x y z : Sample N} {u v : Signal N} {l : List (Sample N)}

/-- C55. There is one signal for each sample. -/
theorem C55_count (l : List (Sample N)) : (signals l).length = l.length := signals_length l

/-- C55. What is reported is the change of phase since the signal before: exactly if the phase has changed. -/
theorem C55_reported (h : (signals (pre ++ [x])).getLast? = some v) :
    Reports (lastPhase (signals pre)) v.phase v.transition := by
  rw [signals_last (by simp)] at h
  cases h
  rw [lastPhase_signals, machine_snoc]
  dsimp only
  rw [(calculate_input _ _ _ _).2]
  exact transition_reports _ _

/-- C55. That is also so for what is emitted, although some signals are left out. -/
theorem C55_reported_emitted (always : Bool) {past rest : List (Signal N)} {v : Signal N} (l : List (Sample N))
    (h : emitted always (signals l) = past ++ v :: rest) : Reports (lastPhase past) v.phase v.transition := by
  suffices key : lastPhase (emitted always (signals l)) = lastPhase (signals l) ∧
      ∀ past v rest, emitted always (signals l) = past ++ v :: rest → Reports (lastPhase past) v.phase v.transition from
    key.2 _ _ _ h
  clear h past rest v
  induction l using Rx.snoc_induction with
  | nil => exact ⟨rfl, fun past v rest h => by simp [signals, signalsFrom, emitted, emittedFrom] at h⟩
  | snoc l x ih =>
    obtain ⟨h1, h2⟩ := ih
    have hrep := C55_reported (pre := l) (x := x) (signals_last (by simp))
    rw [signals_snoc, emitted_snoc]
    generalize (machine (l ++ [x])).2.lastOutput = w at hrep ⊢
    split
    · refine ⟨by simp [lastPhase], fun past v rest h => ?_⟩
      cases rest using Rx.snoc_induction with
      | nil =>
        obtain ⟨rfl, h3⟩ := List.append_inj' h rfl
        cases h3
        rw [h1]; exact hrep
      | snoc rest z =>
        rw [show past ++ v :: (rest ++ [z]) = (past ++ v :: rest) ++ [z] by simp] at h
        exact h2 past v rest (List.append_inj' h rfl).1
    · rename_i hn
      rw [List.append_nil]
      refine ⟨?_, h2⟩
      rw [h1]
      have hw : w.phase = .off := by
        cases hw : w.phase with
        | off => rfl
        | _ => exact absurd (.inr (.inl (by rw [hw]; simp))) hn
      have ho : endsOff false (signals l) = true := by
        cases ho : endsOff false (signals l) with
        | true => rfl
        | false => exact absurd (.inr (.inr ho)) hn
      rw [show lastPhase (signals l ++ [w]) = w.phase by simp [lastPhase], hw]
      unfold endsOff at ho
      unfold lastPhase
      cases hl : (signals l).getLast? with
      | none => rfl
      | some a =>
        rw [hl] at ho
        exact eq_of_beq ho

/-- C55. All values are within 0 and 1, for all envelopes and easing functions. -/
theorem C55_range (L : N.Laws) (l : List (Sample N)) : ∀ v ∈ signals l,
    N.lt v.value N.zero = false ∧ N.lt N.one v.value = false := signals_range L l

/-- C55. They are not NaN if the envelopes used make none. -/
theorem C55_proper {p : N.V → Prop} (h : N.Proper p) (l : List (Sample N)) (he : ∀ x ∈ l, x.env.Proper p) :
    ∀ v ∈ signals l, p v.value := signals_proper h l he

/-- C55. The order of the phases: while active, it is in attack, decay or sustain; while not, it is off, or in release, which
follows only on a phase other than off. -/
theorem C55_order (L : N.Laws) (h : (signals (pre ++ [x])).getLast? = some v) :
    Legal x.active (lastPhase (signals pre)) v.phase := by
  rw [signals_last (by simp)] at h
  cases h
  rw [lastPhase_signals, machine_snoc]
  exact (good_calculate L (good_machine L pre) _ _ _).2

/-- The sample before was not active. -/
def Fresh (pre : List (Sample N)) : Prop := ∀ y, pre.getLast? = some y → y.active = false

theorem Fresh.input (h : Fresh pre) : (machine pre).2.lastInput = false := by
  rw [machine_input]
  split
  · rename_i y hy; exact h y hy
  · rfl

theorem fresh_phase (L : N.Laws) (h : Fresh pre) :
    (machine pre).2.lastOutput.phase = .off ∨ (machine pre).2.lastOutput.phase = .release := by
  rcases (good_machine L pre).inactive h.input with ⟨_, h, _⟩ | ⟨h, _⟩
  · exact .inl h
  · exact .inr h

/-- C55. While it is active, the phases come in this order: attack, decay, sustain. -/
theorem C55_forward (L : N.Laws) (hp : Fresh pre) (hr : ∀ w ∈ run ++ [y, z], w.active = true ∧ w.env = e)
    (hs : (run ++ [y, z]).Pairwise (fun a b => a.now ≤ b.now)) (hu : (signals (pre ++ (run ++ [y]))).getLast? = some u)
    (hv : (signals (pre ++ (run ++ [y, z]))).getLast? = some v) : u.phase.rank ≤ v.phase.rank := by
  rw [signals_last (by simp)] at hu hv
  cases hu
  cases hv
  have hz : machine (pre ++ (run ++ [y, z])) = (z.now, (machine (pre ++ (run ++ [y]))).2.calculate z.env z.active
      (z.now - (machine (pre ++ (run ++ [y]))).1)) := by
    rw [show pre ++ (run ++ [y, z]) = (pre ++ (run ++ [y])) ++ [z] by simp, machine_snoc]
  have hnow : (machine (pre ++ (run ++ [y]))).1 = y.now := by
    rw [machine_now, ← List.append_assoc, List.getLast?_concat]
  have hyz : y.now ≤ z.now := by
    rw [List.pairwise_append] at hs
    exact List.rel_of_pairwise_cons hs.2.1 (by simp)
  have key : (∃ base, Held e base (machine (pre ++ (run ++ [y])))) → (machine (pre ++ (run ++ [y]))).2.lastOutput.phase.rank ≤
      (machine (pre ++ (run ++ [y, z]))).2.lastOutput.phase.rank := by
    intro ⟨base, hh⟩
    have hh' := hh.step L (hr z (by simp)).1 (hr z (by simp)).2 (by rw [hnow]; exact hyz)
    rw [← hz] at hh'
    have h1 := congrArg Prod.snd hh.output
    have h2 := congrArg Prod.snd hh'.output
    dsimp only at h1 h2
    rw [h1, h2]
    refine held_mono e ?_
    rw [hz, hnow]
    dsimp only
    omega
  cases hq : run ++ [y] with
  | nil => simp at hq
  | cons a q =>
    have hs' : (a :: q).Pairwise (fun a b => a.now ≤ b.now) := by
      rw [← hq]
      rw [show run ++ [y, z] = (run ++ [y]) ++ [z] by simp, List.pairwise_append] at hs
      exact hs.1
    have hr' : ∀ w ∈ a :: q, w.active = true ∧ w.env = e := fun w hw => hr w (by
      rw [← hq] at hw
      rw [show run ++ [y, z] = (run ++ [y]) ++ [z] by simp, List.mem_append]
      exact .inl hw)
    have hm : machine (pre ++ a :: q) = machineFrom (a.now, (machine pre).2.calculate a.env a.active (a.now - (machine pre).1)) q := by
      rw [machine_append]; rfl
    rcases fresh_phase L hp with ho | ho
    · refine hq ▸ key ⟨a.now, ?_⟩
      rw [hq, hm]
      have hf := Held.fresh L (good_machine L pre) ho (hr' a (by simp)).1
      rw [(hr' a (by simp)).2] at hf ⊢
      exact hf.run L q (fun w hw => hr' w (by simp [hw])) (fun w hw => List.rel_of_pairwise_cons hs' hw) (List.Pairwise.of_cons hs')
    · obtain ⟨_, r1, r2, r3, r4, r5⟩ := restarted L (good_machine L pre) ho (hr' a (by simp)).1
      have hae := (hr' a (by simp)).2
      cases q with
      | nil =>
        have hay : a = y ∧ run = [] := by
          cases run with
          | nil => cases hq; exact ⟨rfl, rfl⟩
          | cons b run => simp at hq
        obtain ⟨rfl, rfl⟩ := hay
        rw [hae] at r1 r2 r3 r4 r5
        have ha := Held.again (e := e) (x := z)
          (b := (a.now, (machine pre).2.calculate e a.active (a.now - (machine pre).1))) L r1 r2 r3 r4 r5
          (hr z (by simp)).1 (hr z (by simp)).2
        have hm' : machine (pre ++ ([] ++ [a])) = (a.now, (machine pre).2.calculate e a.active (a.now - (machine pre).1)) := by
          rw [List.nil_append, machine_snoc, hae]
        have h2 := congrArg Prod.snd ha.output
        have h1 := congrArg Prod.snd r5
        rw [hz, hm']
        dsimp only at h1 h2 ⊢
        rw [h2, ← List.nil_append [a], hm']
        dsimp only
        rw [h1]
        exact held_mono e (Nat.zero_le _)
      | cons b q =>
        refine hq ▸ key ⟨b.now, ?_⟩
        rw [hq, hm]
        rw [hae] at r1 r2 r3 r4 r5
        have ha := Held.again (e := e) (x := b)
          (b := (a.now, (machine pre).2.calculate e a.active (a.now - (machine pre).1))) L r1 r2 r3 r4 r5
          (hr' b (by simp)).1 (hr' b (by simp)).2
        have hs2 := List.Pairwise.of_cons hs'
        rw [hae]
        exact ha.run L q (fun w hw => hr' w (by simp [hw])) (fun w hw => List.rel_of_pairwise_cons hs2 hw) (List.Pairwise.of_cons hs2)

/-- C55. An envelope that was off and is activated: the value is the envelope's for the time since. -/
theorem C55_held (L : N.Laws) (hp : lastPhase (signals pre) = .off) (hr : ∀ w ∈ x :: run, w.active = true ∧ w.env = e)
    (hs : (x :: run).Pairwise (fun a b => a.now ≤ b.now)) (hz : (x :: run).getLast? = some z)
    (hv : (signals (pre ++ x :: run)).getLast? = some v) : (v.value, v.phase) = held e (z.now - x.now) := by
  rw [signals_last (by simp)] at hv
  cases hv
  have hnow : (machine (pre ++ x :: run)).1 = z.now := by rw [machine_now, List.getLast?_append, hz]; rfl
  have hm : machine (pre ++ x :: run) = machineFrom (x.now, (machine pre).2.calculate x.env x.active (x.now - (machine pre).1)) run := by
    rw [machine_append]; rfl
  have hf := Held.fresh L (good_machine L pre) (by rw [← lastPhase_signals]; exact hp) (hr x (by simp)).1
  have he := (hr x (by simp)).2
  rw [he] at hf hm
  have hh := hf.run L run (fun w hw => hr w (by simp [hw])) (fun w hw => List.rel_of_pairwise_cons hs hw) (List.Pairwise.of_cons hs)
  rw [← hm] at hh
  rw [hh.output, hnow]

/-- C55. One that is activated in release starts again; but its time counts only from the sample after that. -/
theorem C55_restarted (L : N.Laws) (hp : lastPhase (signals pre) = .release)
    (hr : ∀ w ∈ x :: run, w.active = true ∧ w.env = e)
    (hs : (x :: run).Pairwise (fun a b => a.now ≤ b.now)) (hz : (x :: run).getLast? = some z)
    (hv : (signals (pre ++ x :: run)).getLast? = some v) :
    (v.value, v.phase) = held e (z.now - (match run with | y :: _ => y | [] => x).now) := by
  rw [signals_last (by simp)] at hv
  cases hv
  have hnow : (machine (pre ++ x :: run)).1 = z.now := by rw [machine_now, List.getLast?_append, hz]; rfl
  have hm : machine (pre ++ x :: run) = machineFrom (x.now, (machine pre).2.calculate x.env x.active (x.now - (machine pre).1)) run := by
    rw [machine_append]; rfl
  obtain ⟨_, r1, r2, r3, r4, r5⟩ := restarted L (good_machine L pre) (by rw [← lastPhase_signals]; exact hp) (hr x (by simp)).1
  have he := (hr x (by simp)).2
  rw [he] at r1 r2 r3 r4 r5 hm
  cases run with
  | nil =>
    cases hz
    show _ = held e (x.now - x.now)
    rw [hm, Nat.sub_self]
    exact r5
  | cons y run =>
    have ha := Held.again (e := e) (x := y)
      (b := (x.now, (machine pre).2.calculate e x.active (x.now - (machine pre).1))) L r1 r2 r3 r4 r5
      (hr y (by simp)).1 (hr y (by simp)).2
    have hs2 := List.Pairwise.of_cons hs
    have hh := ha.run L run (fun w hw => hr w (by simp [hw])) (fun w hw => List.rel_of_pairwise_cons hs2 hw) (List.Pairwise.of_cons hs2)
    have hm' : machine (pre ++ x :: y :: run) = machineFrom (y.now, (((x.now, (machine pre).2.calculate e x.active (x.now - (machine pre).1)) :
        Nat × EnvState N).2.calculate y.env y.active (y.now - x.now))) run := hm
    rw [← hm'] at hh
    rw [hh.output, hnow]

/-- C55. One that is released: the value falls from the last one; the time counts from that, the last time it was active; but
if it had just been started again then, from the next sample. -/
theorem C55_faded (L : N.Laws) (hy : pre.getLast? = some y) (ha : y.active = true) (hu : (signals pre).getLast? = some u)
    (hr : ∀ w ∈ x :: run, w.active = false ∧ w.env = e) (hs : (y :: x :: run).Pairwise (fun a b => a.now ≤ b.now))
    (hz : (x :: run).getLast? = some z) (hv : (signals (pre ++ x :: run)).getLast? = some v) :
    (v.value, v.phase) = faded e u.value (z.now - (if u.transition.restart = true then x.now else y.now)) := by
  have hne : pre ≠ [] := by rintro rfl; cases hy
  rw [signals_last hne] at hu
  rw [signals_last (by simp)] at hv
  cases hu
  cases hv
  have hnow : (machine (pre ++ x :: run)).1 = z.now := by rw [machine_now, List.getLast?_append, hz]; rfl
  have hnow0 : (machine pre).1 = y.now := by rw [machine_now, hy]
  have hm : machine (pre ++ x :: run) = machineFrom (x.now, (machine pre).2.calculate x.env x.active (x.now - (machine pre).1)) run := by
    rw [machine_append]; rfl
  have hin : (machine pre).2.lastInput = true := by rw [machine_input, hy]; exact ha
  have hs2 := List.Pairwise.of_cons hs
  have hf := Fading.start L (good_machine L pre) hin (hr x (by simp)).1
    (by rw [hnow0]; exact List.rel_of_pairwise_cons hs (by simp))
  have he := (hr x (by simp)).2
  rw [he] at hf hm
  have hh := hf.run L run (fun w hw => hr w (by simp [hw])) (fun w hw => List.rel_of_pairwise_cons hs2 hw) (List.Pairwise.of_cons hs2)
  rw [← hm] at hh
  rw [hh.output, hnow, hnow0]

/-- C55. One that is off and is not activated stays off. -/
theorem C55_off (L : N.Laws) (hp : lastPhase (signals pre) = .off) (hx : x.active = false)
    (hv : (signals (pre ++ [x])).getLast? = some v) : (v.value, v.phase) = (N.zero, .off) := by
  have hg := good_machine L pre
  have hi : (machine pre).2.lastInput = false := by
    cases hi : (machine pre).2.lastInput with
    | false => rfl
    | true =>
      have := (hg.active hi).2.1
      rw [← lastPhase_signals, hp] at this
      rcases this with h | h | h <;> cases h
  rw [signals_last (by simp), machine_snoc] at hv
  cases hv
  dsimp only
  rw [hx]
  exact off_stays L hg hi (by rw [← lastPhase_signals]; exact hp) _ _

end Signals

/-! ### Concrete cases -/

/-- Numbers in thousandths. -/
@[reducible] def milli : Num where
  V := Int
  lt a b := a < b
  zero := 0
  one := 1000
  eps := 1
  secs n := 1000 * n
  div a b := a * 1000 / b
  max a b := Max.max a b
  linear a b t := a + (b - a) * t / 1000

example : milli.Laws := ⟨rfl, rfl, rfl⟩

example : milli.Proper (fun _ => True) := ⟨trivial, trivial, fun _ _ => trivial, fun _ _ _ _ _ _ => trivial⟩

abbrev someEnvelope : Envelope milli := ⟨4, none, 2, none, (500 : Int), 5, none⟩

abbrev sobs : Sub (ObsState (Signal milli) Nat) (Signal milli) Nat := observerSubscriber _ _

abbrev press : SubscriberNotification (Trigger milli) Nat := .next { activated := true }
abbrev letGo : SubscriberNotification (Trigger milli) Nat := .next { activated := false }

abbrev shown (s : Adsr.State milli (ObsState (Signal milli) Nat) Nat) : List (Phase × Int × Nat) :=
  (outs s.port.trace).map fun p => (p.1.phase, p.1.value, p.2)

/-- A sample. -/
abbrev smp (active : Bool) (now : Nat) (env : Envelope milli := someEnvelope) : Sample milli := ⟨active, now, env, 0⟩

abbrev told (l : List (Sample milli)) : List (Phase × Int × Flags) := (signals l).map fun v => (v.phase, v.value, v.transition)

/-- Pressed, held, and released; off is told once. -/
example : told [smp false 1, smp false 2, smp true 3, smp true 5, smp true 8, smp true 10, smp false 11, smp false 14, smp false 15] =
    [(.off, 0, {}), (.off, 0, {}), (.attack, 0, { start := true }), (.attack, 500, {}), (.decay, 750, { fire := true }),
      (.sustain, 500, { sustain := true }), (.release, 400, { release := true }), (.release, 100, {}), (.off, 0, { stop := true })] := by
  decide +kernel

/-- On the executor. -/
example : (after (c := adsr sobs ⟨false, false⟩) { port := { dest := .new }, env := someEnvelope }
    [.act (.input .subscribe), .tickTo 1, .tickTo 2, .act (.input (.note press)), .tickTo 3,
     .act (.input (.note letGo)), .tickTo 4, .act (.input (.note .complete)), .tickTo 17]).map
      (fun s => (shown s, s.samples.length, sobs.isClosed s.port.dest)) =
    some ([(.off, 0, 1), (.attack, 0, 3), (.release, 0, 4)], 4, true) := by
  decide +kernel

/-- `reset_input_on_tick`, `always_emit_none`. -/
example : (after (c := adsr sobs ⟨true, true⟩) { port := { dest := .new }, env := someEnvelope }
    [.act (.input .subscribe), .tickTo 1, .tickTo 2, .act (.input (.note press)), .tickTo 3, .tickTo 5]).map shown =
    some [(.off, 0, 1), (.off, 0, 2), (.attack, 0, 3), (.release, 0, 5)] := by
  decide +kernel

/-- Activated in release, it starts again, but time stands still until the tick after that: at time 8, two after the start, it
should be at 500 as after the first start. -/
theorem C55_restart_delayed :
    told [smp true 1, smp true 3, smp false 4, smp true 6, smp true 8] =
      [(.attack, 0, { start := true }), (.attack, 500, {}), (.release, 400, { fire := true, release := true }),
       (.attack, 0, { stop := true, restart := true }), (.attack, 0, {})] := by
  decide +kernel

/-- Activated in release with no attack time, it does not report that it fires. -/
theorem C55_restart_no_fire :
    told [smp true 1 { someEnvelope with attackTime := 0 }, smp false 2 { someEnvelope with attackTime := 0 },
      smp true 3 { someEnvelope with attackTime := 0 }] =
      [(.decay, 1000, { start := true, fire := true }), (.release, 800, { release := true }),
       (.decay, 1000, { stop := true, restart := true })] := by
  decide +kernel

/-- Released in the attack, it reports that it fires. -/
theorem C55_fire_early : told [smp true 1, smp false 2] =
    [(.attack, 0, { start := true }), (.release, 0, { fire := true, release := true })] := by
  decide +kernel

/-- A tick before the last one makes it panic. -/
theorem C55_panics : (after (c := adsr sobs ⟨false, false⟩) { port := { dest := .new }, env := someEnvelope }
    [.act (.input .subscribe), .tickTo 5, .tickTo 3]).map (·.panicked) = some true := by
  decide +kernel

end Rx.Timed.Props
