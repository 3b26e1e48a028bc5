import Verif.Spec.Adsr
import Verif.Lemmas.TimedSources

/-!
# The envelope
-/

namespace Rx.Adsr

variable {N : Num}

/-- The closure's state after samples. -/
def machineFrom (b : Nat × EnvState N) (l : List (Sample N)) : Nat × EnvState N :=
  l.foldl (fun b x => (x.now, b.2.calculate x.env x.active (x.now - b.1))) b

def machine (l : List (Sample N)) : Nat × EnvState N := machineFrom (0, .default) l

theorem machine_snoc (l : List (Sample N)) (x : Sample N) :
    machine (l ++ [x]) = (x.now, (machine l).2.calculate x.env x.active (x.now - (machine l).1)) := by
  unfold machine machineFrom
  rw [List.foldl_append]
  rfl

theorem machine_append (l l' : List (Sample N)) : machine (l ++ l') = machineFrom (machine l) l' := by
  unfold machine machineFrom
  rw [List.foldl_append]

theorem signalsFrom_append (l : List (Sample N)) : ∀ (l' : List (Sample N)) (b : Nat × EnvState N),
    signalsFrom b (l ++ l') = signalsFrom b l ++ signalsFrom (machineFrom b l) l' := by
  induction l with
  | nil => intro l' b; rfl
  | cons x l ih => intro l' b; simp only [List.cons_append, signalsFrom]; rw [ih]; rfl

theorem signals_snoc (l : List (Sample N)) (x : Sample N) :
    signals (l ++ [x]) = signals l ++ [(machine (l ++ [x])).2.lastOutput] := by
  unfold signals
  rw [signalsFrom_append, machine_snoc]
  rfl

theorem signals_append (l l' : List (Sample N)) : signals (l ++ l') = signals l ++ signalsFrom (machine l) l' :=
  signalsFrom_append l l' _

theorem signals_length (l : List (Sample N)) : (signals l).length = l.length := by
  induction l using Rx.snoc_induction with
  | nil => rfl
  | snoc l x ih => rw [signals_snoc]; simp [ih]

theorem signals_last {l : List (Sample N)} (h : l ≠ []) : (signals l).getLast? = some (machine l).2.lastOutput := by
  induction l using Rx.snoc_induction with
  | nil => exact absurd rfl h
  | snoc l x => rw [signals_snoc]; simp

theorem lastPhase_signals (l : List (Sample N)) : lastPhase (signals l) = (machine l).2.lastOutput.phase := by
  unfold lastPhase
  cases l using Rx.snoc_induction with
  | nil => rfl
  | snoc l x => rw [signals_last (by simp)]

/-! ## The table of transitions -/

theorem transition_reports (old new : Phase) : Reports old new (transition old new) := by
  cases old <;> cases new <;> exact ⟨by decide, by decide, by decide, by decide, by decide, by decide, by decide⟩

/-! ## Evaluation -/

theorem clamp_range (h : N.Laws) (x : N.V) : N.lt (N.clamp x) N.zero = false ∧ N.lt N.one (N.clamp x) = false := by
  unfold Num.clamp
  dsimp only
  by_cases h1 : N.lt x N.zero = true
  · rw [if_pos h1, if_neg (by rw [h.one_zero]; simp)]
    exact ⟨h.zero_zero, h.one_zero⟩
  · rw [if_neg h1]
    by_cases h2 : N.lt N.one x = true
    · rw [if_pos h2]
      exact ⟨h.one_zero, h.one_one⟩
    · rw [if_neg h2]
      exact ⟨by simpa using h1, by simpa using h2⟩

theorem clamp_of_range {x : N.V} (h1 : N.lt x N.zero = false) (h2 : N.lt N.one x = false) : N.clamp x = x := by
  unfold Num.clamp
  dsimp only
  rw [h1, if_neg (show ¬ (false = true) by simp), h2, if_neg (show ¬ (false = true) by simp)]

theorem clamp_clamp (h : N.Laws) (x : N.V) : N.clamp (N.clamp x) = N.clamp x :=
  clamp_of_range (clamp_range h x).1 (clamp_range h x).2

theorem clamp_zero (h : N.Laws) : N.clamp N.zero = N.zero := clamp_of_range h.zero_zero h.one_zero

theorem clamp_proper {p : N.V → Prop} (h : N.Proper p) {x : N.V} (hx : p x) : p (N.clamp x) := by
  unfold Num.clamp
  dsimp only
  split
  · split
    · exact h.one
    · exact h.zero
  · split
    · exact h.one
    · exact hx

theorem pos_shift (T a d : Nat) : (pos T a (a + d) : N.V) = pos (T - a) 0 d := by
  unfold pos
  rw [Nat.add_sub_cancel_left]
  rfl

theorem evaluate_held (h : N.Laws) (e : Envelope N) (t : Nat) (v : Option N.V) : e.evaluate true t v none = held e t := by
  unfold Envelope.evaluate Envelope.phase held
  dsimp only
  by_cases h1 : t < e.attackTime
  · rw [if_pos h1, if_pos h1]; rfl
  · rw [if_neg h1, if_neg h1]
    by_cases h2 : t < e.attackTime + e.decayTime
    · rw [if_pos h2, if_pos h2]
      dsimp only
      rw [pos_shift]; rfl
    · rw [if_neg h2, if_neg h2]
      dsimp only
      rw [clamp_clamp h]

theorem evaluate_faded (h : N.Laws) (e : Envelope N) (a : Bool) {t d : Nat} (v : N.V) (hd : d ≤ t) :
    e.evaluate a t (some v) (some d) = faded e v (t - d) := by
  have key : e.phase a t (some d) = if t < d + e.releaseTime then (.release, d, d + e.releaseTime) else (.off, 0, 0) := by
    cases a <;> rfl
  unfold Envelope.evaluate faded
  dsimp only
  rw [key]
  by_cases ht : t < d + e.releaseTime
  · rw [if_pos ht, if_pos (by omega)]
    dsimp only
    rw [pos_shift]
    rfl
  · rw [if_neg ht, if_neg (by omega)]
    dsimp only
    rw [clamp_zero h]

theorem evaluate_off (h : N.Laws) (e : Envelope N) (t : Nat) (v : Option N.V) : e.evaluate false t v none = (N.zero, .off) := by
  unfold Envelope.evaluate Envelope.phase
  dsimp only
  rw [clamp_zero h]

theorem held_phase (e : Envelope N) (T : Nat) : (held e T).2 = .attack ∨ (held e T).2 = .decay ∨ (held e T).2 = .sustain := by
  unfold held
  split
  · exact .inl rfl
  · split
    · exact .inr (.inl rfl)
    · exact .inr (.inr rfl)

theorem held_mono (e : Envelope N) {T T' : Nat} (h : T ≤ T') : (held e T).2.rank ≤ (held e T').2.rank := by
  unfold held
  split
  · split
    · simp [Phase.rank]
    · split <;> simp [Phase.rank]
  · rw [if_neg (by omega : ¬ T' < e.attackTime)]
    split
    · split <;> simp [Phase.rank]
    · rw [if_neg (by omega)]
      simp

/-! ## A sample -/

/-- What holds of the state. -/
structure Good (s : EnvState N) : Prop where
  active : s.lastInput = true → s.deactivationTime = none ∧
    (s.lastOutput.phase = .attack ∨ s.lastOutput.phase = .decay ∨ s.lastOutput.phase = .sustain) ∧
    ((s.phase = s.lastOutput.phase ∧ s.lastOutput.transition.restart = false) ∨
      (s.phase = .off ∧ s.elapsed = 0 ∧ s.lastOutput.transition.restart = true))
  inactive : s.lastInput = false → (s.deactivationTime = none ∧ s.lastOutput.phase = .off ∧ s.phase = .off) ∨
    (s.lastOutput.phase = .release ∧ s.phase = .release ∧ (∃ v, s.deactivationValue = some v) ∧
      ∃ d, s.deactivationTime = some d ∧ d ≤ s.elapsed)

theorem good_default : Good (EnvState.default (N := N)) := ⟨(fun h => by cases h), fun _ => .inl ⟨rfl, rfl, rfl⟩⟩

/-- The time after `delta`. -/
def EnvState.at (s : EnvState N) (delta : Nat) : Nat := if s.phase = .off then s.elapsed else s.elapsed + delta

/-- What `calculate_output` makes of an evaluation. -/
def EnvState.finish (s : EnvState N) (active : Bool) (r : N.V × Phase) : EnvState N :=
  if (transition s.lastOutput.phase r.2).stop = true then
    { s.reset with lastInput := active, lastOutput := ⟨r.2, transition s.lastOutput.phase r.2, 0, r.1⟩ }
  else { s with phase := r.2, lastInput := active, lastOutput := ⟨r.2, transition s.lastOutput.phase r.2, s.elapsed, r.1⟩ }

/-- The first step of `calculate_output`. -/
def EnvState.turn (s : EnvState N) (a : Bool) : EnvState N :=
  if !s.lastInput && a then s.reset
  else if s.lastInput && !a then { s with deactivationValue := some s.lastOutput.value, deactivationTime := some s.elapsed }
  else s

theorem calculate_eq (s : EnvState N) (e : Envelope N) (a : Bool) (delta : Nat) : s.calculate e a delta =
    { s.turn a with elapsed := (s.turn a).at delta }.finish a
      (e.evaluate a ((s.turn a).at delta) (s.turn a).deactivationValue (s.turn a).deactivationTime) := by
  show (let s1 := s.turn a
    let s := if s1.phase != .off then { s1 with elapsed := s1.elapsed + delta } else s1
    let r := e.evaluate a s.elapsed s.deactivationValue s.deactivationTime
    let tr := transition s.lastOutput.phase r.2
    let s := { s with phase := r.2 }
    let s := if tr.stop then s.reset else s
    ({ s with lastInput := a, lastOutput := ⟨r.2, tr, s.elapsed, r.1⟩ } : EnvState N)) = _
  generalize s.turn a = s1
  dsimp only
  have : (if (s1.phase != .off) = true then { s1 with elapsed := s1.elapsed + delta } else s1) = { s1 with elapsed := s1.at delta } := by
    unfold EnvState.at
    by_cases hp : s1.phase = .off
    · rw [if_pos hp, if_neg (by rw [hp]; decide)]
    · rw [if_neg hp, if_pos (by simpa using hp)]
  rw [this]
  unfold EnvState.finish
  dsimp only
  split <;> rfl

/-- It becomes active. -/
theorem calculate_rise (L : N.Laws) {s : EnvState N} (hi : s.lastInput = false) (e : Envelope N) (delta : Nat) :
    s.calculate e true delta = s.reset.finish true (held e 0) := by
  rw [calculate_eq, show s.turn true = s.reset by unfold EnvState.turn; rw [hi]; rfl, show s.reset.deactivationTime = none from rfl,
    evaluate_held L]
  rfl

/-- It stays active. -/
theorem calculate_hold (L : N.Laws) {s : EnvState N} (hg : Good s) (hi : s.lastInput = true) (e : Envelope N) (delta : Nat) :
    s.calculate e true delta = { s with elapsed := s.at delta }.finish true (held e (s.at delta)) := by
  rw [calculate_eq, show s.turn true = s by unfold EnvState.turn; rw [hi]; rfl,
    show e.evaluate true (s.at delta) s.deactivationValue s.deactivationTime = held e (s.at delta) by
      rw [(hg.active hi).1, evaluate_held L]]

theorem at_le (s : EnvState N) (delta : Nat) : s.elapsed ≤ s.at delta := by
  unfold EnvState.at
  split <;> omega

/-- It becomes inactive. -/
theorem calculate_fall (L : N.Laws) {s : EnvState N} (hi : s.lastInput = true) (e : Envelope N) (delta : Nat) :
    s.calculate e false delta =
      { s with deactivationValue := some s.lastOutput.value, deactivationTime := some s.elapsed, elapsed := s.at delta }.finish false
        (faded e s.lastOutput.value (s.at delta - s.elapsed)) := by
  have h : s.turn false = { s with deactivationValue := some s.lastOutput.value, deactivationTime := some s.elapsed } := by
    unfold EnvState.turn
    rw [if_neg (by simp), if_pos (by rw [hi]; rfl)]
  rw [calculate_eq, h]
  show EnvState.finish _ _ (e.evaluate false (s.at delta) (some _) (some _)) = _
  rw [evaluate_faded L _ _ _ (at_le s delta)]
  rfl

/-- It stays inactive. -/
theorem calculate_off (L : N.Laws) {s : EnvState N} (hi : s.lastInput = false) (hd : s.deactivationTime = none)
    (hp : s.phase = .off) (e : Envelope N) (delta : Nat) :
    s.calculate e false delta = s.finish false (N.zero, .off) := by
  rw [calculate_eq, show s.turn false = s by unfold EnvState.turn; rw [hi]; rfl, hd, evaluate_off L,
    show s.at delta = s.elapsed from if_pos hp]

theorem calculate_fade (L : N.Laws) {s : EnvState N} (hi : s.lastInput = false) {d : Nat} {v : N.V} (hd : s.deactivationTime = some d)
    (hv : s.deactivationValue = some v) (hle : d ≤ s.elapsed)
    (e : Envelope N) (delta : Nat) :
    s.calculate e false delta = { s with elapsed := s.at delta }.finish false (faded e v (s.at delta - d)) := by
  rw [calculate_eq, show s.turn false = s by unfold EnvState.turn; rw [hi]; rfl,
    show e.evaluate false (s.at delta) s.deactivationValue s.deactivationTime = faded e v (s.at delta - d) by
      rw [hd, hv, evaluate_faded L _ _ _ (Nat.le_trans hle (at_le s delta))]]

theorem finish_output (s : EnvState N) (a : Bool) (r : N.V × Phase) : (s.finish a r).lastOutput.phase = r.2 ∧
    (s.finish a r).lastOutput.value = r.1 ∧ (s.finish a r).lastOutput.transition = transition s.lastOutput.phase r.2 ∧
    (s.finish a r).lastInput = a := by
  unfold EnvState.finish
  split <;> exact ⟨rfl, rfl, rfl, rfl⟩

theorem stop_iff (p q : Phase) : (transition p q).stop = true ↔ q.rank < p.rank := (transition_reports p q).stop

theorem faded_phase (e : Envelope N) (v : N.V) (T : Nat) : (T < e.releaseTime ∧ (faded e v T).2 = .release) ∨
    (e.releaseTime ≤ T ∧ (faded e v T) = (N.zero, .off)) := by
  unfold faded
  split
  · rename_i h; exact .inl ⟨h, rfl⟩
  · rename_i h; exact .inr ⟨by omega, rfl⟩

theorem finish_go {s : EnvState N} {a : Bool} {r : N.V × Phase} (h : s.lastOutput.phase.rank ≤ r.2.rank) :
    s.finish a r = { s with phase := r.2, lastInput := a, lastOutput := ⟨r.2, transition s.lastOutput.phase r.2, s.elapsed, r.1⟩ } := by
  unfold EnvState.finish
  rw [if_neg (by rw [stop_iff]; omega)]

theorem finish_stop {s : EnvState N} {a : Bool} {r : N.V × Phase} (h : r.2.rank < s.lastOutput.phase.rank) :
    s.finish a r = { s.reset with lastInput := a, lastOutput := ⟨r.2, transition s.lastOutput.phase r.2, 0, r.1⟩ } := by
  unfold EnvState.finish
  rw [if_pos (by rw [stop_iff]; omega)]

/-- A held envelope. -/
theorem good_finish_true {s : EnvState N} {r : N.V × Phase} (hd : s.deactivationTime = none)
    (hr : r.2 = .attack ∨ r.2 = .decay ∨ r.2 = .sustain) : Good (s.finish true r) := by
  obtain ⟨h1, h2, h3, h4⟩ := finish_output s true r
  refine ⟨fun _ => ⟨?_, by rw [h1]; exact hr, ?_⟩, fun h => by rw [h4] at h; cases h⟩
  · unfold EnvState.finish
    split
    · rfl
    · exact hd
  · have hr' : r.2 ≠ .off := by rcases hr with h | h | h <;> rw [h] <;> simp
    by_cases hlt : r.2.rank < s.lastOutput.phase.rank
    · rw [finish_stop hlt]
      exact .inr ⟨rfl, rfl, (transition_reports _ _).restart.2 ⟨hlt, hr'⟩⟩
    · rw [finish_go (by omega)]
      refine .inl ⟨rfl, ?_⟩
      dsimp only
      cases hx : (transition s.lastOutput.phase r.2).restart with
      | false => rfl
      | true => exact absurd ((transition_reports _ _).restart.1 hx).1 hlt

/-- A released envelope. -/
theorem good_finish_false {s : EnvState N} {e : Envelope N} {v : N.V} {T d : Nat} (hd : s.deactivationTime = some d)
    (hv : s.deactivationValue = some v) (hle : d ≤ s.elapsed) (hp : s.lastOutput.phase ≠ .off) :
    Good (s.finish false (faded e v T)) ∧
    ((T < e.releaseTime ∧ (s.finish false (faded e v T)).lastOutput.phase = .release ∧
        (s.finish false (faded e v T)).phase = .release ∧
        (s.finish false (faded e v T)).elapsed = s.elapsed ∧ (s.finish false (faded e v T)).deactivationTime = some d ∧
        (s.finish false (faded e v T)).deactivationValue = some v) ∨
      (e.releaseTime ≤ T ∧ (s.finish false (faded e v T)).lastOutput.phase = .off ∧
        (s.finish false (faded e v T)).phase = .off ∧ (s.finish false (faded e v T)).deactivationTime = none)) := by
  obtain ⟨h1, h2, h3, h4⟩ := finish_output s false (faded e v T)
  rcases faded_phase e v T with ⟨ht, hf⟩ | ⟨ht, hf⟩
  · have hle' : s.lastOutput.phase.rank ≤ (faded e v T).2.rank := by
      rw [hf]; cases s.lastOutput.phase <;> simp [Phase.rank]
    have he := finish_go (s := s) (a := false) hle'
    rw [he]
    refine ⟨⟨fun h => (by cases h), fun _ => .inr ⟨hf, hf, ⟨v, hv⟩, d, hd, hle⟩⟩, .inl ⟨ht, hf, hf, rfl, hd, hv⟩⟩
  · have hlt : (faded e v T).2.rank < s.lastOutput.phase.rank := by
      rw [hf]; cases hq : s.lastOutput.phase <;> first | exact absurd hq hp | simp [Phase.rank]
    have he := finish_stop (s := s) (a := false) hlt
    rw [he]
    have hf2 : (faded e v T).2 = .off := by rw [hf]
    exact ⟨⟨fun h => (by cases h), fun _ => .inl ⟨rfl, hf2, rfl⟩⟩, .inr ⟨ht, hf2, rfl, rfl⟩⟩

theorem good_calculate (L : N.Laws) {s : EnvState N} (h : Good s) (e : Envelope N) (a : Bool) (delta : Nat) :
    Good (s.calculate e a delta) ∧ Legal a s.lastOutput.phase (s.calculate e a delta).lastOutput.phase := by
  cases a with
  | true =>
    cases hi : s.lastInput with
    | false =>
      rw [calculate_rise L hi]
      refine ⟨good_finish_true rfl (held_phase _ _), ?_⟩
      rw [(finish_output _ _ _).1]
      exact held_phase _ _
    | true =>
      rw [calculate_hold L h hi]
      refine ⟨good_finish_true (h.active hi).1 (held_phase _ _), ?_⟩
      rw [(finish_output _ _ _).1]
      exact held_phase _ _
  | false =>
    have legal : ∀ {s1 : EnvState N} {v T}, s.lastOutput.phase ≠ .off →
        Legal false s.lastOutput.phase (s1.finish false (faded e v T)).lastOutput.phase := by
      intro s1 v T hp
      rw [(finish_output _ _ _).1]
      rcases faded_phase e v T with ⟨ht, hf⟩ | ⟨ht, hf⟩
      · exact .inr ⟨hf, hp⟩
      · exact .inl (by rw [hf])
    cases hi : s.lastInput with
    | true =>
      have hp : s.lastOutput.phase ≠ .off := by
        rcases (h.active hi).2.1 with hp | hp | hp <;> rw [hp] <;> simp
      rw [calculate_fall L hi]
      exact ⟨(good_finish_false (s := { s with deactivationValue := some s.lastOutput.value, deactivationTime := some s.elapsed, elapsed := s.at delta })
        rfl rfl (at_le s delta) hp).1, legal hp⟩
    | false =>
      rcases h.inactive hi with ⟨h1, h2, h3⟩ | ⟨h1, h2, ⟨v, hv⟩, d, hd, hle⟩
      · rw [calculate_off L hi h1 h3, finish_go (by rw [h2]; exact Nat.le_refl _)]
        exact ⟨⟨fun h => (by cases h), fun _ => .inl ⟨h1, rfl, rfl⟩⟩, .inl rfl⟩
      · have hp : s.lastOutput.phase ≠ .off := by rw [h1]; simp
        rw [calculate_fade L hi hd hv hle]
        exact ⟨(good_finish_false (s := { s with elapsed := s.at delta }) hd hv (Nat.le_trans hle (at_le s delta)) hp).1, legal hp⟩

theorem good_machine (L : N.Laws) (l : List (Sample N)) : Good (machine l).2 := by
  induction l using Rx.snoc_induction with
  | nil => exact good_default
  | snoc l x ih => rw [machine_snoc]; exact (good_calculate L ih _ _ _).1

theorem calculate_input (s : EnvState N) (e : Envelope N) (a : Bool) (delta : Nat) : (s.calculate e a delta).lastInput = a ∧
    (s.calculate e a delta).lastOutput.transition = transition s.lastOutput.phase (s.calculate e a delta).lastOutput.phase := by
  rw [calculate_eq]
  obtain ⟨h1, h2, h3, h4⟩ := finish_output { s.turn a with elapsed := (s.turn a).at delta } a
    (e.evaluate a ((s.turn a).at delta) (s.turn a).deactivationValue (s.turn a).deactivationTime)
  refine ⟨h4, ?_⟩
  rw [h3, h1]
  have : (s.turn a).lastOutput = s.lastOutput := by
    unfold EnvState.turn
    split
    · rfl
    · split <;> rfl
  dsimp only
  rw [this]

/-- The input of the last sample. -/
theorem machine_input (l : List (Sample N)) :
    (machine l).2.lastInput = match l.getLast? with | some x => x.active | none => false := by
  cases l using Rx.snoc_induction with
  | nil => rfl
  | snoc l x => rw [machine_snoc, (calculate_input _ _ _ _).1]; simp

theorem machine_now (l : List (Sample N)) : (machine l).1 = match l.getLast? with | some x => x.now | none => 0 := by
  cases l using Rx.snoc_induction with
  | nil => rfl
  | snoc l x => rw [machine_snoc]; simp

/-! ## Values -/

theorem calculate_range (L : N.Laws) (s : EnvState N) (e : Envelope N) (a : Bool) (delta : Nat) :
    N.lt (s.calculate e a delta).lastOutput.value N.zero = false ∧ N.lt N.one (s.calculate e a delta).lastOutput.value = false := by
  rw [calculate_eq, (finish_output _ _ _).2.1]
  exact clamp_range L _

theorem evaluate_proper {p : N.V → Prop} (h : N.Proper p) {e : Envelope N} (he : e.Proper p) (a : Bool) (t : Nat) {v : Option N.V}
    (hv : ∀ x, v = some x → p x) (d : Option Nat) : p (e.evaluate a t v d).1 := by
  have hpos : ∀ t a b, p (pos t a b : N.V) := fun t a b => clamp_proper h (h.div _ _)
  have hs : p (N.clamp e.sustainVolume) := clamp_proper h he.volume
  unfold Envelope.evaluate
  dsimp only
  refine clamp_proper h ?_
  split
  · cases hf : e.attackEasing with
    | none => exact h.linear _ _ _ h.zero h.one (hpos _ _ _)
    | some f => exact he.attack f hf _ _ _ h.zero h.one (hpos _ _ _)
  · cases hf : e.decayEasing with
    | none => exact h.linear _ _ _ h.one hs (hpos _ _ _)
    | some f => exact he.decay f hf _ _ _ h.one hs (hpos _ _ _)
  · exact hs
  · have hx : p (v.getD (N.clamp e.sustainVolume)) := by
      cases v with
      | none => exact hs
      | some x => exact hv x rfl
    cases hf : e.releaseEasing with
    | none => exact h.linear _ _ _ hx h.zero (hpos _ _ _)
    | some f => exact he.release f hf _ _ _ hx h.zero (hpos _ _ _)
  · exact h.zero

theorem calculate_proper {p : N.V → Prop} (h : N.Proper p) {e : Envelope N} (he : e.Proper p) {s : EnvState N} (a : Bool) (delta : Nat)
    (h1 : ∀ x, s.deactivationValue = some x → p x) (h2 : p s.lastOutput.value) :
    (∀ x, (s.calculate e a delta).deactivationValue = some x → p x) ∧ p (s.calculate e a delta).lastOutput.value := by
  have ht : ∀ x, (s.turn a).deactivationValue = some x → p x := by
    intro x
    unfold EnvState.turn
    split
    · intro hx; cases hx
    · split
      · intro hx; cases hx; exact h2
      · exact h1 x
  rw [calculate_eq]
  refine ⟨?_, ?_⟩
  · unfold EnvState.finish
    split
    · intro x hx; cases hx
    · exact ht
  · rw [(finish_output _ _ _).2.1]
    exact evaluate_proper h he _ _ ht _

theorem signals_range (L : N.Laws) (l : List (Sample N)) : ∀ x ∈ signals l,
    N.lt x.value N.zero = false ∧ N.lt N.one x.value = false := by
  induction l using Rx.snoc_induction with
  | nil => intro x hx; cases hx
  | snoc l y ih =>
    intro x hx
    rw [signals_snoc, List.mem_append, List.mem_singleton] at hx
    rcases hx with hx | rfl
    · exact ih x hx
    · rw [machine_snoc]; exact calculate_range L _ _ _ _

theorem signals_proper {p : N.V → Prop} (h : N.Proper p) (l : List (Sample N)) (he : ∀ x ∈ l, x.env.Proper p) :
    ∀ x ∈ signals l, p x.value := by
  suffices key : (∀ x ∈ signals l, p x.value) ∧ (∀ x, (machine l).2.deactivationValue = some x → p x) ∧
      p (machine l).2.lastOutput.value from key.1
  induction l using Rx.snoc_induction with
  | nil => exact ⟨(fun x hx => by cases hx), (fun x hx => by cases hx), h.zero⟩
  | snoc l y ih =>
    obtain ⟨i1, i2, i3⟩ := ih (fun x hx => he x (by simp [hx]))
    have := calculate_proper h (he y (by simp)) y.active (y.now - (machine l).1) i2 i3
    refine ⟨fun x hx => ?_, ?_, ?_⟩
    · rw [signals_snoc, List.mem_append, List.mem_singleton] at hx
      rcases hx with hx | rfl
      · exact i1 x hx
      · rw [machine_snoc]; exact this.2
    · rw [machine_snoc]; exact this.1
    · rw [machine_snoc]; exact this.2

/-! ## What is emitted -/

/-- Whether the last signal was off. -/
def endsOff (w : Bool) (l : List (Signal N)) : Bool := match l.getLast? with | some x => x.phase == .off | none => w

theorem emittedFrom_append (always : Bool) (l : List (Signal N)) : ∀ (w : Bool) (l' : List (Signal N)),
    emittedFrom always w (l ++ l') = emittedFrom always w l ++ emittedFrom always (endsOff w l) l' := by
  induction l with
  | nil => intro w l'; rfl
  | cons x l ih =>
    intro w l'
    have : endsOff w (x :: l) = endsOff (x.phase == .off) l := by
      unfold endsOff
      cases l with
      | nil => rfl
      | cons y l =>
        rw [List.getLast?_cons_cons]
        cases h : (y :: l).getLast? with
        | none => simp at h
        | some z => rfl
    rw [this]
    simp only [List.cons_append, emittedFrom]
    rw [ih]
    split <;> rfl

theorem emitted_snoc (always : Bool) (l : List (Signal N)) (x : Signal N) : emitted always (l ++ [x]) = emitted always l ++
    (if always = true ∨ x.phase ≠ .off ∨ endsOff false l = false then [x] else []) := by
  unfold emitted
  rw [emittedFrom_append]
  rfl

/-! ## Time -/

/-- Active since `base`. -/
structure Held (e : Envelope N) (base : Nat) (b : Nat × EnvState N) : Prop where
  good : Good b.2
  input : b.2.lastInput = true
  since : base ≤ b.1
  elapsed : b.2.elapsed = b.1 - base
  phase : b.2.phase = (held e (b.1 - base)).2
  output : (b.2.lastOutput.value, b.2.lastOutput.phase) = held e (b.1 - base)

theorem held_ne (e : Envelope N) (T : Nat) : (held e T).2 ≠ .off := by
  rcases held_phase e T with h | h | h <;> rw [h] <;> simp

theorem Held.step (L : N.Laws) {e : Envelope N} {base : Nat} {b : Nat × EnvState N} (h : Held e base b) {x : Sample N}
    (ha : x.active = true) (he : x.env = e) (hx : b.1 ≤ x.now) :
    Held e base (x.now, b.2.calculate x.env x.active (x.now - b.1)) := by
  have hb := h.since
  have hg := good_calculate L h.good x.env x.active (x.now - b.1)
  have hat : b.2.at (x.now - b.1) = x.now - base := by
    unfold EnvState.at
    rw [if_neg (by rw [h.phase]; exact held_ne _ _), h.elapsed]
    omega
  have hout : b.2.lastOutput.phase = (held e (b.1 - base)).2 := congrArg Prod.snd h.output
  have hc := (show b.2.calculate x.env x.active (x.now - b.1) =
      b.2.calculate e true (x.now - b.1) by rw [ha, he]).trans
    (calculate_hold L h.good h.input e (x.now - b.1))
  rw [hat, finish_go (by dsimp only; rw [hout]; exact held_mono e (by omega))] at hc
  refine ⟨hg.1, ?_, Nat.le_trans hb hx, ?_, ?_, ?_⟩
  · dsimp only; rw [hc]
  · dsimp only; rw [hc]
  · dsimp only; rw [hc]
  · dsimp only; rw [hc]

theorem Held.run (L : N.Laws) {e : Envelope N} {base : Nat} (l : List (Sample N)) : ∀ {b : Nat × EnvState N}, Held e base b →
    (∀ x ∈ l, x.active = true ∧ x.env = e) → (∀ x ∈ l, b.1 ≤ x.now) → l.Pairwise (fun x y => x.now ≤ y.now) →
    Held e base (machineFrom b l) := by
  induction l with
  | nil => intro b h _ _ _; exact h
  | cons x l ih =>
    intro b h ha hb hs
    exact ih (h.step L (ha x (by simp)).1 (ha x (by simp)).2 (hb x (by simp))) (fun y hy => ha y (by simp [hy]))
      (fun y hy => List.rel_of_pairwise_cons hs hy) (List.Pairwise.of_cons hs)

/-- It starts. -/
theorem Held.fresh (L : N.Laws) {b : Nat × EnvState N} (hg : Good b.2) (hp : b.2.lastOutput.phase = .off) {x : Sample N}
    (ha : x.active = true) : Held x.env x.now (x.now, b.2.calculate x.env x.active (x.now - b.1)) := by
  have hi : b.2.lastInput = false := by
    cases hi : b.2.lastInput with
    | false => rfl
    | true =>
      have := (hg.active hi).2.1
      rw [hp] at this
      rcases this with h | h | h <;> cases h
  have hg' := good_calculate L hg x.env x.active (x.now - b.1)
  have hc := (show b.2.calculate x.env x.active (x.now - b.1) =
      b.2.calculate x.env true (x.now - b.1) by rw [ha]).trans
    (calculate_rise L hi x.env (x.now - b.1))
  rw [finish_go (by show b.2.lastOutput.phase.rank ≤ _; rw [hp]; exact Nat.zero_le _)] at hc
  refine ⟨hg'.1, ?_, Nat.le_refl _, ?_, ?_, ?_⟩
  · dsimp only; rw [hc]
  · dsimp only; rw [hc]; simp [EnvState.reset]
  · dsimp only; rw [hc, Nat.sub_self]
  · dsimp only; rw [hc, Nat.sub_self]

/-- It starts again, in release. -/
theorem restarted (L : N.Laws) {b : Nat × EnvState N} (hg : Good b.2) (hp : b.2.lastOutput.phase = .release) {x : Sample N}
    (ha : x.active = true) : b.2.lastInput = false ∧
    Good (b.2.calculate x.env x.active (x.now - b.1)) ∧ (b.2.calculate x.env x.active (x.now - b.1)).lastInput = true ∧
    (b.2.calculate x.env x.active (x.now - b.1)).phase = .off ∧ (b.2.calculate x.env x.active (x.now - b.1)).elapsed = 0 ∧
    ((b.2.calculate x.env x.active (x.now - b.1)).lastOutput.value, (b.2.calculate x.env x.active (x.now - b.1)).lastOutput.phase) =
      held x.env 0 := by
  have hi : b.2.lastInput = false := by
    cases hi : b.2.lastInput with
    | false => rfl
    | true =>
      have := (hg.active hi).2.1
      rw [hp] at this
      rcases this with h | h | h <;> cases h
  have hg' := good_calculate L hg x.env x.active (x.now - b.1)
  have hc := (show b.2.calculate x.env x.active (x.now - b.1) =
      b.2.calculate x.env true (x.now - b.1) by rw [ha]).trans
    (calculate_rise L hi x.env (x.now - b.1))
  rw [finish_stop (by
    show _ < b.2.lastOutput.phase.rank
    rw [hp]; rcases held_phase x.env 0 with h | h | h <;> rw [h] <;> simp [Phase.rank])] at hc
  refine ⟨hi, hg'.1, ?_, ?_, ?_, ?_⟩
  · rw [hc]
  · rw [hc]; rfl
  · rw [hc]; rfl
  · rw [hc]

/-- It goes on only with the next sample. -/
theorem Held.again (L : N.Laws) {e : Envelope N} {b : Nat × EnvState N} (hg : Good b.2) (hi : b.2.lastInput = true)
    (hp : b.2.phase = .off) (h0 : b.2.elapsed = 0) (ho : (b.2.lastOutput.value, b.2.lastOutput.phase) = held e 0) {x : Sample N}
    (ha : x.active = true) (he : x.env = e) : Held e x.now (x.now, b.2.calculate x.env x.active (x.now - b.1)) := by
  have hg' := good_calculate L hg x.env x.active (x.now - b.1)
  have hat : b.2.at (x.now - b.1) = 0 := by
    unfold EnvState.at
    rw [if_pos hp, h0]
  have hc := (show b.2.calculate x.env x.active (x.now - b.1) =
      b.2.calculate e true (x.now - b.1) by rw [ha, he]).trans
    (calculate_hold L hg hi e (x.now - b.1))
  have hout : b.2.lastOutput.phase = (held e 0).2 := congrArg Prod.snd ho
  rw [hat, finish_go (by dsimp only; rw [hout]; exact Nat.le_refl _)] at hc
  refine ⟨hg'.1, ?_, Nat.le_refl _, ?_, ?_, ?_⟩
  · dsimp only; rw [hc]
  · dsimp only; rw [hc]; simp
  · dsimp only; rw [hc, Nat.sub_self]
  · dsimp only; rw [hc, Nat.sub_self]

/-- Inactive since `base`. -/
structure Fading (e : Envelope N) (v : N.V) (base : Nat) (b : Nat × EnvState N) : Prop where
  good : Good b.2
  input : b.2.lastInput = false
  since : base ≤ b.1
  kind : (b.1 - base < e.releaseTime ∧ b.2.phase = .release ∧ b.2.deactivationValue = some v ∧ b.2.lastOutput.phase = .release ∧
      ∃ d, b.2.deactivationTime = some d ∧ d ≤ b.2.elapsed ∧ b.2.elapsed - d = b.1 - base) ∨
    (e.releaseTime ≤ b.1 - base ∧ b.2.lastOutput.phase = .off)
  output : (b.2.lastOutput.value, b.2.lastOutput.phase) = faded e v (b.1 - base)

/-- Off, and inactive. -/
theorem off_stays (L : N.Laws) {s : EnvState N} (hg : Good s) (hi : s.lastInput = false) (hp : s.lastOutput.phase = .off)
    (e : Envelope N) (delta : Nat) :
    ((s.calculate e false delta).lastOutput.value, (s.calculate e false delta).lastOutput.phase) = (N.zero, .off) := by
  rcases hg.inactive hi with ⟨h1, h2, h3⟩ | ⟨h1, _⟩
  · rw [calculate_off L hi h1 h3, finish_go (by rw [h2]; exact Nat.le_refl _)]
  · rw [hp] at h1; cases h1

theorem faded_off {e : Envelope N} {v : N.V} {T : Nat} (h : e.releaseTime ≤ T) : faded e v T = (N.zero, .off) := by
  unfold faded
  rw [if_neg (by omega)]

theorem Fading.step (L : N.Laws) {e : Envelope N} {v : N.V} {base : Nat} {b : Nat × EnvState N} (h : Fading e v base b)
    {x : Sample N} (ha : x.active = false) (he : x.env = e) (hx : b.1 ≤ x.now) :
    Fading e v base (x.now, b.2.calculate x.env x.active (x.now - b.1)) := by
  have hb := h.since
  have hg := good_calculate L h.good x.env x.active (x.now - b.1)
  have hin : (b.2.calculate x.env x.active (x.now - b.1)).lastInput = false := by rw [(calculate_input _ _ _ _).1, ha]
  rcases h.kind with ⟨h1, h2, h3, h4, d, h5, h6, h7⟩ | ⟨h1, h2⟩
  · have hat : b.2.at (x.now - b.1) - d = x.now - base := by
      unfold EnvState.at
      rw [if_neg (by rw [h2]; simp)]
      omega
    have hc := (show b.2.calculate x.env x.active (x.now - b.1) =
        b.2.calculate e false (x.now - b.1) by rw [ha, he]).trans
      (calculate_fade L h.input h5 h3 h6 e (x.now - b.1))
    rw [hat] at hc
    obtain ⟨k1, k2⟩ := good_finish_false (s := { b.2 with elapsed := b.2.at (x.now - b.1) }) (e := e) (T := x.now - base) h5 h3
      (Nat.le_trans h6 (at_le _ _)) (by rw [h4]; simp)
    obtain ⟨o1, o2, _, _⟩ := finish_output { b.2 with elapsed := b.2.at (x.now - b.1) } false (faded e v (x.now - base))
    rw [← hc] at k1 k2 o1 o2
    refine ⟨hg.1, hin, Nat.le_trans hb hx, ?_, by dsimp only; rw [o1, o2]⟩
    rcases k2 with ⟨m1, m2, m3, m4, m5, m6⟩ | ⟨m1, m2, m3, m4⟩
    · refine .inl ⟨m1, m3, m6, m2, d, m5, ?_, ?_⟩
      · dsimp only; rw [m4]; exact Nat.le_trans h6 (at_le _ _)
      · dsimp only; rw [m4]; exact hat
    · exact .inr ⟨m1, m2⟩
  · have ho := off_stays L h.good h.input h2 x.env (x.now - b.1)
    rw [← ha] at ho
    refine ⟨hg.1, hin, Nat.le_trans hb hx, .inr ⟨by dsimp only; omega, congrArg Prod.snd ho⟩, ?_⟩
    dsimp only
    rw [faded_off (by omega)]
    exact ho

theorem Fading.run (L : N.Laws) {e : Envelope N} {v : N.V} {base : Nat} (l : List (Sample N)) : ∀ {b : Nat × EnvState N},
    Fading e v base b →
    (∀ x ∈ l, x.active = false ∧ x.env = e) → (∀ x ∈ l, b.1 ≤ x.now) → l.Pairwise (fun x y => x.now ≤ y.now) →
    Fading e v base (machineFrom b l) := by
  induction l with
  | nil => intro b h _ _ _; exact h
  | cons x l ih =>
    intro b h ha hb hs
    exact ih (h.step L (ha x (by simp)).1 (ha x (by simp)).2 (hb x (by simp))) (fun y hy => ha y (by simp [hy]))
      (fun y hy => List.rel_of_pairwise_cons hs hy) (List.Pairwise.of_cons hs)

/-- It is released: the time counts from the last sample before, or, if it had just been restarted, from now. -/
theorem Fading.start (L : N.Laws) {b : Nat × EnvState N} (hg : Good b.2) (hi : b.2.lastInput = true) {x : Sample N}
    (ha : x.active = false) (hx : b.1 ≤ x.now) :
    Fading x.env b.2.lastOutput.value (if b.2.lastOutput.transition.restart = true then x.now else b.1)
      (x.now, b.2.calculate x.env x.active (x.now - b.1)) := by
  have hg' := good_calculate L hg x.env x.active (x.now - b.1)
  have hin : (b.2.calculate x.env x.active (x.now - b.1)).lastInput = false := by rw [(calculate_input _ _ _ _).1, ha]
  have hc := (show b.2.calculate x.env x.active (x.now - b.1) =
      b.2.calculate x.env false (x.now - b.1) by rw [ha]).trans
    (calculate_fall L hi x.env (x.now - b.1))
  have hp : b.2.lastOutput.phase ≠ .off := by
    rcases (hg.active hi).2.1 with hp | hp | hp <;> rw [hp] <;> simp
  have hat : b.2.at (x.now - b.1) - b.2.elapsed =
      x.now - (if b.2.lastOutput.transition.restart = true then x.now else b.1) := by
    unfold EnvState.at
    rcases (hg.active hi).2.2 with ⟨h1, h2⟩ | ⟨h1, h2, h3⟩
    · rw [h2, if_neg (by rw [h1]; exact hp), if_neg (by simp)]
      omega
    · rw [h3, if_pos h1, if_pos rfl]
      omega
  have hbase : (if b.2.lastOutput.transition.restart = true then x.now else b.1) ≤ x.now := by
    split
    · exact Nat.le_refl _
    · exact hx
  rw [hat] at hc
  generalize (if b.2.lastOutput.transition.restart = true then x.now else b.1) = base at hc hbase hat ⊢
  obtain ⟨k1, k2⟩ := good_finish_false (s := { b.2 with deactivationValue := some b.2.lastOutput.value, deactivationTime := some b.2.elapsed, elapsed := b.2.at (x.now - b.1) })
    (e := x.env) (T := x.now - base) rfl rfl (at_le _ _) hp
  obtain ⟨o1, o2, _, _⟩ := finish_output { b.2 with deactivationValue := some b.2.lastOutput.value, deactivationTime := some b.2.elapsed, elapsed := b.2.at (x.now - b.1) }
    false (faded x.env b.2.lastOutput.value (x.now - base))
  rw [← hc] at k1 k2 o1 o2
  refine ⟨hg'.1, hin, hbase, ?_, by dsimp only; rw [o1, o2]⟩
  rcases k2 with ⟨m1, m2, m3, m4, m5, m6⟩ | ⟨m1, m2, m3, m4⟩
  · refine .inl ⟨m1, m3, m6, m2, _, m5, ?_, ?_⟩
    · dsimp only; rw [m4]; exact at_le _ _
    · dsimp only; rw [m4]; exact hat
  · exact .inr ⟨m1, m2⟩

end Rx.Adsr
