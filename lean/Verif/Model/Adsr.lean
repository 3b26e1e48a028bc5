import Verif.Model.TimedSources

/-!
# adsr

Models `crates/rx_core_operator_adsr/src/{adsr_subscriber,adsr_operator_options}.rs`, `adsr/*.rs` and `model/*.rs`, the
operator on the executor (`Verif.Model.SchedulerClient`).

Durations are natural numbers; sums of durations do not overflow. `f32` and its operations are a parameter (`Num`), as are
the easing curves of `bevy_math`.
-/

namespace Rx.Adsr

/-- The part of `f32` that is used. -/
structure Num where
  V : Type
  lt : V → V → Bool
  zero : V
  one : V
  /-- `f32::EPSILON` -/
  eps : V
  /-- `Duration::as_secs_f32` -/
  secs : Nat → V
  div : V → V → V
  max : V → V → V
  /-- `EasingCurve::new(start, end, EaseFunction::Linear).sample_clamped(pos)` -/
  linear : V → V → V → V

/-- `f32::clamp(0.0, 1.0)`; it leaves NaN, for which all comparisons are false. -/
def Num.clamp (N : Num) (x : N.V) : N.V :=
  let x := if N.lt x N.zero then N.zero else x
  if N.lt N.one x then N.one else x

/-- An easing function, `EasingCurve::new(start, end, f).sample_clamped(pos)`. -/
abbrev Easing (N : Num) := N.V → N.V → N.V → N.V

/-- `AdsrEnvelope`, adsr_envelope.rs:10-31. -/
structure Envelope (N : Num) where
  attackTime : Nat
  attackEasing : Option (Easing N)
  decayTime : Nat
  decayEasing : Option (Easing N)
  sustainVolume : N.V
  releaseTime : Nat
  releaseEasing : Option (Easing N)

/-- `AdsrEnvelopeChange`, adsr_trigger.rs:21-41. -/
structure Change (N : Num) where
  attackTime : Option Nat := none
  attackEasing : Option (Easing N) := none
  decayTime : Option Nat := none
  decayEasing : Option (Easing N) := none
  sustainVolume : Option N.V := none
  releaseTime : Option Nat := none
  releaseEasing : Option (Easing N) := none

/-- `AdsrTrigger`, adsr_trigger.rs:5-9. -/
structure Trigger (N : Num) where
  activated : Bool
  changes : Option (Change N) := none

/-- `AdsrEnvelopePhase`, adsr_envelope_phase.rs:6-24; `off` is `None`. -/
inductive Phase where
  | off | attack | decay | sustain | release
deriving DecidableEq, Repr

/-- `AdsrEnvelopePhaseTransition`, adsr_envelope_phase_transition.rs:8-31, a set of flags. -/
structure Flags where
  start : Bool := false
  fire : Bool := false
  sustain : Bool := false
  release : Bool := false
  stop : Bool := false
  restart : Bool := false
deriving DecidableEq, Repr

def Flags.union (a b : Flags) : Flags :=
  ⟨a.start || b.start, a.fire || b.fire, a.sustain || b.sustain, a.release || b.release, a.stop || b.stop,
    a.restart || b.restart⟩

/-- adsr_envelope_phase_transition.rs:33-41 -/
def Phase.onEnter : Phase → Flags
  | .attack => { start := true }
  | .decay => { fire := true }
  | .sustain => { sustain := true }
  | .release => { release := true }
  | .off => { stop := true }

/-- adsr_envelope_phase_transition.rs:43-49 -/
def Phase.all : List Phase := [.off, .attack, .decay, .sustain, .release]

/-- adsr_envelope_phase_transition.rs:52-54 -/
def Phase.skippable : Phase → Bool
  | .sustain => true
  | _ => false

/-- The loop of `determine_phase_transition`, adsr_envelope_phase_transition.rs:71-93. -/
def transitionLoop (old new : Phase) : List Phase → Bool → Flags → Flags
  | [], _, acc => acc
  | p :: ps, met, acc =>
    if p.skippable && new != p then transitionLoop old new ps (met || p == old) acc
    else
      let acc := if met then acc.union p.onEnter else acc
      let acc := if !met && p == new && new != .off then acc.union { stop := true, restart := true } else acc
      let met := met || p == old
      if p == new then acc else transitionLoop old new ps met acc

/-- `determine_phase_transition`, adsr_envelope_phase_transition.rs:56-101. -/
def transition (old new : Phase) : Flags :=
  if old == new then {}
  else transitionLoop old new Phase.all false (if new == .off then { stop := true } else {})

variable {N : Num}

/-- `apply_change`, adsr_envelope.rs:135-163. -/
def Envelope.apply (e : Envelope N) (c : Change N) : Envelope N where
  attackTime := c.attackTime.getD e.attackTime
  attackEasing := match c.attackEasing with | some f => some f | none => e.attackEasing
  decayTime := c.decayTime.getD e.decayTime
  decayEasing := match c.decayEasing with | some f => some f | none => e.decayEasing
  sustainVolume := c.sustainVolume.getD e.sustainVolume
  releaseTime := c.releaseTime.getD e.releaseTime
  releaseEasing := match c.releaseEasing with | some f => some f | none => e.releaseEasing

/-- `determine_current_phase_and_start_time`, adsr_envelope.rs:84-133. -/
def Envelope.phase (e : Envelope N) (active : Bool) (t : Nat) (deactivation : Option Nat) : Phase × Nat × Nat :=
  match active, deactivation with
  | false, none => (.off, 0, 0)
  | true, none =>
    if t < e.attackTime then (.attack, 0, e.attackTime)
    else if t < e.attackTime + e.decayTime then (.decay, e.attackTime, e.attackTime + e.decayTime)
    else (.sustain, e.attackTime + e.decayTime, e.attackTime + e.decayTime)
  | _, some d => if t < d + e.releaseTime then (.release, d, d + e.releaseTime) else (.off, 0, 0)

/-- The position in a phase, adsr_envelope.rs:50-52, 61-63, 73-75. -/
def pos (t start stop : Nat) : N.V := N.clamp (N.div (N.secs (t - start)) (N.max (N.secs (stop - start)) N.eps))

/-- `evaluate`, adsr_envelope.rs:34-82. -/
def Envelope.evaluate (e : Envelope N) (active : Bool) (t : Nat) (value : Option N.V) (deactivation : Option Nat) : N.V × Phase :=
  let p := e.phase active t deactivation
  let sustain := N.clamp e.sustainVolume
  let v := match p.1 with
    | .attack => (e.attackEasing.getD N.linear) N.zero N.one (pos t p.2.1 p.2.2)
    | .decay => (e.decayEasing.getD N.linear) N.one sustain (pos t p.2.1 p.2.2)
    | .sustain => sustain
    | .release => (e.releaseEasing.getD N.linear) (value.getD sustain) N.zero (pos t p.2.1 p.2.2)
    | .off => N.zero
  (N.clamp v, p.1)

/-- `AdsrSignal`, adsr_signal.rs:5-11. -/
structure Signal (N : Num) where
  phase : Phase
  transition : Flags
  t : Nat
  value : N.V

/-- `AdsrEnvelopeState`, adsr_envelope_state.rs:12-22, without `activation_time_absolute`, which is never read. -/
structure EnvState (N : Num) where
  phase : Phase := .off
  deactivationTime : Option Nat := none
  deactivationValue : Option N.V := none
  elapsed : Nat := 0
  lastInput : Bool := false
  lastOutput : Signal N

/-- `AdsrEnvelopeState::default`. -/
def EnvState.default : EnvState N := { lastOutput := ⟨.off, {}, 0, N.zero⟩ }

/-- `reset`, adsr_envelope_state.rs:25-31. -/
def EnvState.reset (s : EnvState N) : EnvState N :=
  { s with elapsed := 0, deactivationTime := none, phase := .off, deactivationValue := none }

/-- `calculate_output`, adsr_envelope_state.rs:35-85. The result is `lastOutput`. -/
def EnvState.calculate (s : EnvState N) (e : Envelope N) (active : Bool) (delta : Nat) : EnvState N :=
  -- adsr_envelope_state.rs:42-48
  let s := if !s.lastInput && active then s.reset
    else if s.lastInput && !active then
      { s with deactivationValue := some s.lastOutput.value, deactivationTime := some s.elapsed }
    else s
  -- adsr_envelope_state.rs:50-52
  let s := if s.phase != .off then { s with elapsed := s.elapsed + delta } else s
  -- adsr_envelope_state.rs:54-65
  let r := e.evaluate active s.elapsed s.deactivationValue s.deactivationTime
  let tr := transition s.lastOutput.phase r.2
  let s := { s with phase := r.2 }
  -- adsr_envelope_state.rs:67-72
  let s := if tr.stop then s.reset else s
  -- adsr_envelope_state.rs:74-84
  { s with lastInput := active, lastOutput := ⟨r.2, tr, s.elapsed, r.1⟩ }

/-- `AdsrOperatorOptions` without the envelope, adsr_operator_options.rs:3-13. -/
structure Options where
  alwaysEmitNone : Bool
  resetInputOnTick : Bool

/-- Ghost: what the closure found when it was called. -/
structure Sample (N : Num) where
  active : Bool
  now : Nat
  env : Envelope N
  /-- how many triggers had arrived -/
  heard : Nat

end Rx.Adsr

namespace Rx.Timed
open Rx.Sched Rx.Adsr

/-- `AdsrEnvelopeSharedState` and the subscriber, adsr_subscriber.rs:18-41. -/
structure Adsr.State (N : Num) (S E : Type) where
  port : Port S (Trigger N) (Signal N) E
  begun : Option Nat := none
  active : Bool := false
  lastNone : Bool := false
  env : Envelope N
  /-- ghost -/
  samples : List (Sample N) := []
  /-- The closure panicked. What happens then is not modelled. -/
  panicked : Bool := false

variable {N : Num} {S E : Type}

/-- Ghost: how many triggers have arrived. -/
def Adsr.State.heard (s : Adsr.State N S E) : Nat :=
  (s.port.trace.filterMap fun m => match m with | (.arrived (.next v), _) => some v | _ => none).length

/-- The part of the closure under the lock, for a tick that is not before the last, adsr_subscriber.rs:74-110; ghost: what was
found is recorded. -/
def Adsr.State.sample (o : Options) (t : Nat) (b : Nat × EnvState N) (s : Adsr.State N S E) :
    (Nat × EnvState N) × Adsr.State N S E × Option (Signal N) :=
  let v := b.2.calculate s.env s.active (t - b.1)
  let s := { s with samples := s.samples ++ [(⟨s.active, t, s.env, s.heard⟩ : Sample N)] }
  let s := if o.resetInputOnTick then { s with active := false } else s
  let isNone := v.lastOutput.phase == .off
  let wasNone := s.lastNone
  let s := { s with lastNone := isNone }
  ((t, v), s, if o.alwaysEmitNone || !isNone || !wasNone then some v.lastOutput else none)

/-- `adsr`. A closure is `last_now` and `envelope_state`. -/
@[reducible] def adsr (D : Sub S (Signal N) E) (o : Options) : Client where
  St := Adsr.State N S E
  B := Nat × EnvState N
  In := Fallback.Input (Trigger N) E
  -- adsr_subscriber.rs:68-120
  exec b t now s :=
    if s.panicked then (b, s, [], .done)
    else if D.isClosed s.port.dest then (b, s, [], .done)
    -- adsr_subscriber.rs:80, the difference of two durations
    else if t < b.1 then (b, { s with panicked := true }, [], .done)
    else
      let r := s.sample o t b
      let s := match r.2.2 with
        | some v => { r.2.1 with port := r.2.1.port.give D (.next v) now }
        | none => r.2.1
      (r.1, s, [], if D.isClosed s.port.dest then .done else .pending)
  input i now s :=
    match i with
    -- adsr_subscriber.rs:49-131
    | .subscribe =>
      if s.begun.isSome then (s, []) else ({ s with begun := some now }, [.schedule (.newContinuous (0, .default))])
    | .note n =>
      if s.begun.isNone then (s, [])
      else
        let s := { s with port := s.port.mark (.arrived n) now }
        match n with
        -- adsr_subscriber.rs:141-148
        | .next tr =>
          ({ s with active := tr.activated, env := match tr.changes with | some c => s.env.apply c | none => s.env }, [])
        -- adsr_subscriber.rs:151-153
        | .error e => ({ s with port := s.port.give D (.error e) now }, [])
        -- adsr_subscriber.rs:156-158
        | .complete => ({ s with port := s.port.give D .complete now }, [])
        -- adsr_subscriber.rs:172-175
        | .unsubscribe => ({ s with port := s.port.give D .unsubscribe now }, [.cancel])
    | .close => ({ s with port := s.port.close D now }, [])

end Rx.Timed
