import Verif.Lemmas.Adsr

/-!
# adsr
-/

namespace Rx.Timed.Adsr
open Rx.Sched Rx.Adsr
open Rx.HigherOrder (Closes)

variable {N : Num} {S E : Type} {D : Sub S (Signal N) E} {s0 : S} {o : Options} {env0 : Envelope N} {now : Nat}
  {p : Option (Nat × Adsr.State N S E)}

/-- The triggers that arrived. -/
abbrev triggers (τ : Line (Trigger N) (Signal N) E) : List (Trigger N) := (arrivals τ).map (·.1)

/-- The signals that were given. -/
abbrev given (τ : Line (Trigger N) (Signal N) E) : List (Signal N) := (outs τ).map (·.1)

theorem heard_eq (s : Adsr.State N S E) : s.heard = (triggers s.port.trace).length := by
  unfold Adsr.State.heard triggers arrivals
  rw [List.length_map]
  generalize s.port.trace = τ
  induction τ with
  | nil => rfl
  | cons m τ ih =>
    obtain ⟨m, k⟩ := m
    cases m with
    | arrived n => cases n <;> simp <;> exact ih
    | out n => simp; exact ih
    | closed => simp; exact ih

/-! ## Samples -/

/-- How many triggers the last sample heard. -/
def lastHeard (l : List (Sample N)) : Nat := match l.getLast? with | some y => y.heard | none => 0

theorem right_more {trs trs' : List (Trigger N)} {k : Nat} {x : Sample N} (h : Right o env0 trs k x) :
    Right o env0 (trs ++ trs') k x := by
  have ht : (trs ++ trs').take x.heard = trs.take x.heard := List.take_append_of_le_length h.order.2
  exact ⟨⟨h.order.1, by have := h.order.2; rw [List.length_append]; omega⟩, by rw [ht]; exact h.env, by rw [ht]; exact h.active⟩

theorem allRight_more {trs trs' : List (Trigger N)} {l : List (Sample N)} (h : AllRight o env0 trs l) :
    AllRight o env0 (trs ++ trs') l := ⟨fun past x rest hl => right_more (h.1 past x rest hl), h.2⟩

theorem allRight_snoc {trs : List (Trigger N)} {l : List (Sample N)} (h : AllRight o env0 trs l) {x : Sample N}
    (hx : Right o env0 trs (lastHeard l) x) (ht : ∀ y ∈ l, y.now ≤ x.now) : AllRight o env0 trs (l ++ [x]) := by
  refine ⟨fun past y rest hl => ?_, ?_⟩
  · cases rest using Rx.snoc_induction with
    | nil =>
      obtain ⟨rfl, h2⟩ := List.append_inj' hl rfl
      cases h2
      exact hx
    | snoc rest z =>
      rw [show past ++ y :: (rest ++ [z]) = (past ++ y :: rest) ++ [z] by simp] at hl
      obtain ⟨h1, _⟩ := List.append_inj' hl rfl
      exact h.1 past y rest h1
  · rw [List.pairwise_append]
    exact ⟨h.2, by simp, fun y hy z hz => by rw [List.mem_singleton] at hz; subst hz; exact ht y hy⟩

theorem lastHeard_le {trs : List (Trigger N)} {l : List (Sample N)} (h : AllRight o env0 trs l) : lastHeard l ≤ trs.length := by
  cases l using Rx.snoc_induction with
  | nil => exact Nat.zero_le _
  | snoc l x =>
    have := (h.1 l x [] rfl).order.2
    simpa [lastHeard] using this

/-- What the input is, after triggers and samples. -/
def input (o : Options) (trs : List (Trigger N)) (l : List (Sample N)) : Bool :=
  inputAfter (if o.resetInputOnTick = true then trs.drop (lastHeard l) else trs)

theorem input_more {trs : List (Trigger N)} {l : List (Sample N)} (h : lastHeard l ≤ trs.length) (tr : Trigger N) :
    input o (trs ++ [tr]) l = tr.activated := by
  unfold input inputAfter
  split
  · rename_i hx
    split at hx
    · rw [List.drop_append_of_le_length h, List.getLast?_concat] at hx
      cases hx; rfl
    · rw [List.getLast?_concat] at hx
      cases hx; rfl
  · rename_i hx
    split at hx
    · rw [List.drop_append_of_le_length h, List.getLast?_concat] at hx
      cases hx
    · rw [List.getLast?_concat] at hx
      cases hx

theorem triggers_snoc (τ : Line (Trigger N) (Signal N) E) (tr : Trigger N) (k : Nat) :
    triggers (τ ++ [(.arrived (.next tr), k)]) = triggers τ ++ [tr] := by
  unfold triggers
  rw [arrivals_append, arrivals_next]
  simp

/-! ## What always holds -/

/-- What is given, and the end. -/
structure Safe (D : Sub S (Signal N) E) (s0 : S) (o : Options) (env0 : Envelope N) (now : Nat) (port : Port S (Trigger N) (Signal N) E)
    (l : List (Sample N)) : Prop where
  fits : port.Fits (Ends D s0) D s0 now
  quiet : ∀ n n' k, port.trace.getLast? = some (.arrived n', k) → SameEnd n' (n : SubscriberNotification (Signal N) E) →
    D.isClosed port.dest = true
  given : given port.trace = emitted o.alwaysEmitNone (signals l)
  right : AllRight o env0 (triggers port.trace) l
  past : ∀ x ∈ l, x.now ≤ now

theorem Safe.mono {now' : Nat} {port : Port S (Trigger N) (Signal N) E} {l : List (Sample N)} (h : Safe D s0 o env0 now port l)
    (hn : now ≤ now') : Safe D s0 o env0 now' port l :=
  ⟨h.fits.mono hn, h.quiet, h.given, h.right, fun x hx => Nat.le_trans (h.past x hx) hn⟩

theorem Safe.loud {port : Port S (Trigger N) (Signal N) E} {l : List (Sample N)} (h : Safe D s0 o env0 now port l)
    {m : Mark (Trigger N) (Signal N) E × Nat} : ∀ n n' k, port.trace.getLast? = some (.arrived n', k) →
    SameEnd n' n → D.isClosed (fed D s0 port.trace) = false → m = (.out n, k) := by
  intro n n' k hk hn ho
  rw [← h.fits.right.fed, h.quiet n n' k hk hn] at ho
  cases ho

theorem Safe.arrive {port : Port S (Trigger N) (Signal N) E} {l : List (Sample N)} (h : Safe D s0 o env0 now port l)
    (n : SubscriberNotification (Trigger N) E) : (port.mark (.arrived n) now).Fits (Ends D s0) D s0 now :=
  h.fits.mark (n := n) ⟨h.fits.right.orderly (fun h => absurd rfl (h n)), (fun n h => by cases h), h.loud⟩

theorem mark_last (port : Port S (Trigger N) (Signal N) E) (n : SubscriberNotification (Trigger N) E) :
    (port.mark (.arrived n) now).trace.getLast? = some (.arrived n, now) := by simp [Port.mark]

theorem outs_mark (port : Port S (Trigger N) (Signal N) E) (n : SubscriberNotification (Trigger N) E) :
    given (port.mark (.arrived n) now).trace = given port.trace := by
  unfold given
  show List.map _ (outs (port.trace ++ _)) = _
  rw [outs_append]
  simp [outs]

theorem Safe.trigger {port : Port S (Trigger N) (Signal N) E} {l : List (Sample N)} (h : Safe D s0 o env0 now port l)
    (tr : Trigger N) : Safe D s0 o env0 now (port.mark (.arrived (.next tr)) now) l := by
  refine ⟨h.arrive _, fun n n' k hk hn => ?_, ?_, ?_, h.past⟩
  · rw [mark_last] at hk
    cases hk
    cases hn
  · rw [outs_mark]; exact h.given
  · show AllRight o env0 (triggers (port.trace ++ _)) l
    rw [triggers_snoc]
    exact allRight_more h.right

/-- The trace gets marks that are neither triggers nor signals. -/
theorem Safe.other {port port' : Port S (Trigger N) (Signal N) E} {l : List (Sample N)} (h : Safe D s0 o env0 now port l)
    (hf : port'.Fits (Ends D s0) D s0 now) (hc : D.isClosed port'.dest = true) (ht : triggers port'.trace = triggers port.trace)
    (hg : Adsr.given port'.trace = Adsr.given port.trace) : Safe D s0 o env0 now port' l :=
  ⟨hf, fun _ _ _ _ _ => hc, hg.trans h.given, by rw [ht]; exact h.right, h.past⟩

theorem Safe.ended (hD : Closes D) {port : Port S (Trigger N) (Signal N) E} {l : List (Sample N)} (h : Safe D s0 o env0 now port l)
    {n : SubscriberNotification (Trigger N) E} {n' : SubscriberNotification (Signal N) E} (hn : SameEnd n n') :
    Safe D s0 o env0 now ((port.mark (.arrived n) now).give D n' now) l ∧
    D.isClosed ((port.mark (.arrived n) now).give D n' now).dest = true := by
  have hc : n'.isClosing = true := by cases hn <;> rfl
  have hcl : D.isClosed ((port.mark (.arrived n) now).give D n' now).dest = true := Port.give_isClosed hD _ _ hc
  have hf : Final n' := by cases hn <;> (intro v h; cases h)
  refine ⟨h.other ((h.arrive n).give (fun ho => ⟨(h.arrive n).right.orderly (fun _ => ho), (fun n1 h1 _ => by
    cases h1; exact ⟨n, mark_last port n, hn⟩), fun n1 n2 k hk hn' _ => by
      rw [mark_last] at hk; cases hk; cases hn <;> cases hn' <;> rfl⟩)) hcl ?_ ?_, hcl⟩
  · unfold Port.give
    split
    · show triggers (port.trace ++ _) = _
      unfold triggers
      rw [arrivals_append]
      cases hn <;> simp [arrivals]
    · show triggers ((port.trace ++ _) ++ _) = _
      unfold triggers
      rw [arrivals_append, arrivals_append]
      cases hn <;> simp [arrivals]
  · refine Eq.trans ?_ (outs_mark (now := now) port n)
    unfold Port.give
    split
    · rfl
    · show List.map _ (outs (_ ++ _)) = _
      rw [outs_append]
      cases hn <;> simp [outs, Adsr.given]

theorem Safe.close (hD : Closes D) {port : Port S (Trigger N) (Signal N) E} {l : List (Sample N)} (h : Safe D s0 o env0 now port l) :
    Safe D s0 o env0 now (port.close D now) l := by
  refine h.other (h.fits.close (fun ho => ⟨h.fits.right.orderly (fun _ => ho), (fun n h => by cases h), h.loud⟩))
    (Port.close_isClosed hD _ _) ?_ ?_
  · unfold Port.close
    split
    · rfl
    · show triggers (port.trace ++ _) = _
      unfold triggers
      rw [arrivals_append]
      simp [arrivals]
  · unfold Port.close
    split
    · rfl
    · show Adsr.given (port.trace ++ _) = _
      unfold Adsr.given
      rw [outs_append]
      simp [outs]

theorem Safe.sampled {port : Port S (Trigger N) (Signal N) E} {l : List (Sample N)} (h : Safe D s0 o env0 now port l) {x : Sample N}
    (hx : Right o env0 (triggers port.trace) (lastHeard l) x) (ht : ∀ y ∈ l, y.now ≤ x.now) (hn : x.now ≤ now)
    (hg : emitted o.alwaysEmitNone (signals (l ++ [x])) = emitted o.alwaysEmitNone (signals l)) :
    Safe D s0 o env0 now port (l ++ [x]) :=
  ⟨h.fits, h.quiet, by rw [hg]; exact h.given, allRight_snoc h.right hx ht, fun y hy => by
    rw [List.mem_append, List.mem_singleton] at hy
    rcases hy with hy | rfl
    · exact h.past y hy
    · exact hn⟩

theorem Safe.give {port : Port S (Trigger N) (Signal N) E} {l : List (Sample N)} (h : Safe D s0 o env0 now port l) {x : Sample N}
    (hx : Right o env0 (triggers port.trace) (lastHeard l) x) (ht : ∀ y ∈ l, y.now ≤ x.now) (hn : x.now ≤ now) {v : Signal N}
    (hg : emitted o.alwaysEmitNone (signals (l ++ [x])) = emitted o.alwaysEmitNone (signals l) ++ [v])
    (ho : D.isClosed port.dest = false) : Safe D s0 o env0 now (port.give D (.next v) now) (l ++ [x]) := by
  have htr : (port.give D (.next v) now).trace = port.trace ++ [(.out (.next v), now)] := by rw [Port.give_open ho]
  refine ⟨h.fits.give (fun ho => ⟨h.fits.right.orderly (fun _ => ho), (fun n h hf => by cases h; exact absurd rfl (hf v)), h.loud⟩),
    fun n n' k hk _ => ?_, ?_, ?_, fun y hy => ?_⟩
  · rw [htr] at hk; simp at hk
  · rw [htr, hg, ← h.given]
    unfold Adsr.given
    rw [outs_append, outs_next]
    simp
  · rw [htr]
    have : triggers (port.trace ++ [(Mark.out (.next v), now)]) = triggers port.trace := by
      unfold triggers
      rw [arrivals_append]
      simp [arrivals]
    rw [this]
    exact allRight_snoc h.right hx ht
  · rw [List.mem_append, List.mem_singleton] at hy
    rcases hy with hy | rfl
    · exact h.past y hy
    · exact hn

/-! ## The states -/

/-- Samples since a tick started: at most one. -/
def Few (p : Option (Nat × Adsr.State N S E)) (l : List (Sample N)) : Prop :=
  ∀ q, p = some q → l = q.2.samples ∨ ∃ x, l = q.2.samples ++ [x] ∧ x.now = q.1

/-- What happened since the tick started. -/
def Seen (p : Option (Nat × Adsr.State N S E)) (τ : Line (Trigger N) (Signal N) E) (l : List (Sample N)) : Solo.Phase → Prop
  | .queued => p = none
  | .due t => ∀ q, p = some q → t = q.1 ∧ l = q.2.samples ∧ (triggers q.2.port.trace).length ≤ (triggers τ).length
  | .ticked => ∀ q, p = some q → ∃ x, l = q.2.samples ++ [x] ∧ x.now = q.1 ∧ (triggers q.2.port.trace).length ≤ x.heard

theorem Seen.few {τ : Line (Trigger N) (Signal N) E} {l : List (Sample N)} {f : Solo.Phase} (h : Seen p τ l f) : Few p l := by
  intro q hq
  cases f with
  | queued => rw [show p = none from h] at hq; cases hq
  | due t => exact .inl (h q hq).2.1
  | ticked => obtain ⟨x, h1, h2, _⟩ := h q hq; exact .inr ⟨x, h1, h2⟩

theorem Seen.trigger {τ : Line (Trigger N) (Signal N) E} {l : List (Sample N)} {f : Solo.Phase} (h : Seen p τ l f) (tr : Trigger N)
    (k : Nat) : Seen p (τ ++ [(.arrived (.next tr), k)]) l f := by
  cases f with
  | queued => exact h
  | due t =>
    intro q hq
    obtain ⟨h1, h2, h3⟩ := h q hq
    refine ⟨h1, h2, ?_⟩
    rw [triggers_snoc, List.length_append]
    omega
  | ticked => exact h

/-- Ended, or panicked. -/
structure Dead (D : Sub S (Signal N) E) (s0 : S) (o : Options) (env0 : Envelope N) (p : Option (Nat × Adsr.State N S E)) (now : Nat)
    (s : Adsr.State N S E) : Prop where
  closed : D.isClosed s.port.dest = true ∨ s.panicked = true
  safe : Safe D s0 o env0 now s.port s.samples
  few : Few p s.samples
  fault : s.panicked = true → ∀ q, p = some q → q.2.panicked = true ∨ q.1 < (machine q.2.samples).1

/-- Not subscribed. -/
structure Idle (D : Sub S (Signal N) E) (s0 : S) (o : Options) (env0 : Envelope N) (p : Option (Nat × Adsr.State N S E)) (now : Nat)
    (s : Adsr.State N S E) : Prop where
  safe : Safe D s0 o env0 now s.port s.samples
  begun : s.begun = none
  samples : s.samples = []
  triggers : Adsr.triggers s.port.trace = []
  active : s.active = false
  env : s.env = env0
  lastNone : s.lastNone = false
  panicked : s.panicked = false
  tick : p = none

/-- Subscribed. -/
structure Busy (D : Sub S (Signal N) E) (s0 : S) (o : Options) (env0 : Envelope N) (p : Option (Nat × Adsr.State N S E)) (now : Nat)
    (f : Solo.Phase) (w : Work (Nat × EnvState N)) (s : Adsr.State N S E) : Prop where
  live : D.isClosed s.port.dest = false
  panicked : s.panicked = false
  safe : Safe D s0 o env0 now s.port s.samples
  begun : s.begun.isSome = true
  active : s.active = input o (triggers s.port.trace) s.samples
  env : s.env = envelopeAfter env0 (triggers s.port.trace)
  lastNone : s.lastNone = endsOff false (signals s.samples)
  seen : Seen p s.port.trace s.samples f
  work : ∃ l, w = .continuous l (machine s.samples)

/-- The sample that is taken. -/
abbrev found (s : Adsr.State N S E) (t : Nat) : Sample N := ⟨s.active, t, s.env, s.heard⟩

/-- The state after a sample. -/
abbrev taken (o : Options) (s : Adsr.State N S E) (t : Nat) (v : EnvState N) : Adsr.State N S E :=
  { s with
    samples := s.samples ++ [found s t]
    active := if o.resetInputOnTick = true then false else s.active
    lastNone := v.lastOutput.phase == .off }

theorem sample_eq (s : Adsr.State N S E) (t : Nat) (b : Nat × EnvState N) : s.sample o t b =
    let v := b.2.calculate s.env s.active (t - b.1)
    ((t, v), taken o s t v, if (o.alwaysEmitNone || !(v.lastOutput.phase == .off) || !s.lastNone) = true then some v.lastOutput else none) := by
  unfold Adsr.State.sample taken
  cases o.resetInputOnTick <;> rfl

theorem exec_eq {s : Adsr.State N S E} {t : Nat} {b : Nat × EnvState N} (hp : s.panicked = false) (hc : D.isClosed s.port.dest = false) :
    (adsr D o).exec b t now s =
      if t < b.1 then (b, { s with panicked := true }, [], .done)
      else
        let v := b.2.calculate s.env s.active (t - b.1)
        let s' := if (o.alwaysEmitNone || !(v.lastOutput.phase == .off) || !s.lastNone) = true
          then { taken o s t v with port := s.port.give D (.next v.lastOutput) now } else taken o s t v
        ((t, v), s', [], if D.isClosed s'.port.dest = true then .done else .pending) := by
  show (if s.panicked = true then _ else if D.isClosed s.port.dest = true then _ else if t < b.1 then _ else
    _ : (Nat × EnvState N) × Adsr.State N S E × List (Req (Nat × EnvState N)) × WorkResult) = _
  rw [if_neg (by rw [hp]; simp), if_neg (by rw [hc]; simp)]
  split
  · rfl
  · dsimp only
    rw [sample_eq]
    dsimp only
    split <;> rfl

/-- A sample is taken. -/
theorem Busy.taken {w : Work (Nat × EnvState N)} {t : Nat} {s : Adsr.State N S E}
    (h : Busy D s0 o env0 p now (.due t) w s) (hle : (machine s.samples).1 ≤ t) :
    Right o env0 (triggers s.port.trace) (lastHeard s.samples) (found s t) ∧ (∀ y ∈ s.samples, y.now ≤ t) ∧
    machine (s.samples ++ [found s t]) = (t, (machine s.samples).2.calculate s.env s.active (t - (machine s.samples).1)) := by
  refine ⟨⟨⟨?_, ?_⟩, ?_, ?_⟩, fun y hy => ?_, machine_snoc _ _⟩
  · show _ ≤ s.heard
    rw [heard_eq]; exact lastHeard_le h.safe.right
  · show s.heard ≤ _
    rw [heard_eq]; exact Nat.le_refl _
  · show s.env = _
    rw [show (found s t).heard = (triggers s.port.trace).length from heard_eq s, List.take_length]; exact h.env
  · show s.active = _
    rw [show (found s t).heard = (triggers s.port.trace).length from heard_eq s, List.take_length]; exact h.active
  · refine Nat.le_trans ?_ hle
    rw [machine_now]
    cases hl : s.samples using Rx.snoc_induction with
    | nil => rw [hl] at hy; cases hy
    | snoc l z =>
      rw [hl, List.mem_append, List.mem_singleton] at hy
      simp only [List.getLast?_concat]
      rcases hy with hy | rfl
      · have := h.safe.right.2
        rw [hl, List.pairwise_append] at this
        exact this.2.2 y hy z (by simp)
      · exact Nat.le_refl _

theorem exec_busy {l t : Nat} {b : Nat × EnvState N} {s : Adsr.State N S E} (ht : t ≤ now)
    (h : Busy D s0 o env0 p now (.due t) (.continuous l b) s) (l' : Nat) :
    Dead D s0 o env0 p now ((adsr D o).exec b t now s).2.1 ∨
      (((adsr D o).exec b t now s).2.2.1 = [] ∧ ((adsr D o).exec b t now s).2.2.2 = .pending ∧
        Busy D s0 o env0 p now .ticked (.continuous l' ((adsr D o).exec b t now s).1) ((adsr D o).exec b t now s).2.1) := by
  obtain ⟨l0, hw⟩ := h.work
  have hb : b = machine s.samples := by cases hw; rfl
  subst hb
  rw [exec_eq h.panicked h.live]
  by_cases hlt : t < (machine s.samples).1
  · rw [if_pos hlt]
    refine .inl ⟨.inr rfl, h.safe, h.seen.few, fun _ q hq => .inr ?_⟩
    obtain ⟨h1, h2, _⟩ := h.seen q hq
    rw [← h1, ← h2]; exact hlt
  · rw [if_neg hlt]
    obtain ⟨hr, hpast, hm⟩ := h.taken (Nat.le_of_not_lt hlt)
    dsimp only
    generalize hv : (machine s.samples).2.calculate s.env s.active (t - (machine s.samples).1) = v at hm ⊢
    have hsig : signals (s.samples ++ [found s t]) = signals s.samples ++ [v.lastOutput] := by rw [signals_snoc, hm]
    have hem := emitted_snoc o.alwaysEmitNone (signals s.samples) v.lastOutput
    rw [← hsig] at hem
    have hseen : ∀ τ, Seen p τ (s.samples ++ [found s t]) .ticked := by
      intro τ q hq
      obtain ⟨h1, h2, h3⟩ := h.seen q hq
      refine ⟨found s t, by rw [← h2], h1, ?_⟩
      show _ ≤ s.heard
      rw [heard_eq]; exact h3
    have hact : (if o.resetInputOnTick = true then false else s.active) =
        input o (triggers s.port.trace) (s.samples ++ [found s t]) := by
      unfold input
      split
      · have : lastHeard (s.samples ++ [found s t]) = (triggers s.port.trace).length := by
          unfold lastHeard; rw [List.getLast?_concat]; exact heard_eq s
        rw [this, List.drop_length]
        rfl
      · rename_i hn
        have := h.active
        unfold input at this
        rw [if_neg hn] at this
        exact this
    have hoff : (v.lastOutput.phase == .off) = endsOff false (signals (s.samples ++ [found s t])) := by
      rw [hsig]; unfold endsOff; rw [List.getLast?_concat]
    have hln := h.lastNone
    by_cases hcond : (o.alwaysEmitNone || !(v.lastOutput.phase == .off) || !s.lastNone) = true
    · rw [if_pos hcond]
      rw [if_pos (by
        rw [← hln]
        simp only [Bool.or_eq_true, Bool.not_eq_true', beq_eq_false_iff_ne] at hcond
        rcases hcond with (h | h) | h
        · exact .inl h
        · exact .inr (.inl h)
        · exact .inr (.inr h))] at hem
      have hs := h.safe.give (x := found s t) hr hpast ht hem h.live
      have htr : (s.port.give D (.next v.lastOutput) now).trace = s.port.trace ++ [(.out (.next v.lastOutput), now)] := by
        rw [Port.give_open h.live]
      have htg : triggers (s.port.give D (.next v.lastOutput) now).trace = triggers s.port.trace := by
        rw [htr]
        unfold triggers
        rw [arrivals_append]
        simp [arrivals]
      cases hc : D.isClosed (s.port.give D (.next v.lastOutput) now).dest with
      | true => exact .inl ⟨.inl hc, hs, (hseen []).few, fun hp => by rw [show _ = s.panicked from rfl, h.panicked] at hp; cases hp⟩
      | false =>
        refine .inr ⟨rfl, if_neg (by simp), hc, h.panicked, hs, h.begun, ?_, ?_, hoff, hseen _, l', by rw [hm]⟩
        · dsimp only
          rw [htg]; exact hact
        · dsimp only
          rw [htg]; exact h.env
    · rw [if_neg hcond]
      rw [if_neg (by
        rw [← hln]
        simp only [Bool.or_eq_true, Bool.not_eq_true', beq_eq_false_iff_ne] at hcond
        intro h
        apply hcond
        rcases h with h | h | h
        · exact .inl (.inl h)
        · exact .inl (.inr h)
        · exact .inr h), List.append_nil] at hem
      have hs := h.safe.sampled (x := found s t) hr hpast ht hem
      exact .inr ⟨rfl, if_neg (by rw [show D.isClosed _ = _ from h.live]; simp), h.live, h.panicked, hs, h.begun, hact, h.env, hoff,
        hseen _, l', by rw [hm]⟩

theorem Few.of_none {l : List (Sample N)} (h : p = none) : Few p l := fun q hq => by rw [h] at hq; cases hq

theorem note_end (hD : Closes D) {s : Adsr.State N S E} (hs : Safe D s0 o env0 now s.port s.samples)
    (ha : Few p s.samples) (hf : s.panicked = true → ∀ q, p = some q → q.2.panicked = true ∨ q.1 < (machine q.2.samples).1)
    (hb : s.begun.isSome = true) {n : SubscriberNotification (Trigger N) E} {n' : SubscriberNotification (Signal N) E}
    (hn : SameEnd n n') : Dead D s0 o env0 p now ((adsr D o).input (.note n) now s).1 := by
  obtain ⟨h1, h2⟩ := hs.ended hD hn
  have hnb : s.begun.isNone = false := by cases h : s.begun with | none => rw [h] at hb; cases hb | some _ => rfl
  have : ((adsr D o).input (.note n) now s).1 = { s with port := (s.port.mark (.arrived n) now).give D n' now } := by
    cases hn with
    | error e =>
      show (if s.begun.isNone = true then (s, []) else _ : Adsr.State N S E × List (Req (Nat × EnvState N))).1 = _
      rw [hnb]; rfl
    | complete =>
      show (if s.begun.isNone = true then (s, []) else _ : Adsr.State N S E × List (Req (Nat × EnvState N))).1 = _
      rw [hnb]; rfl
    | unsubscribe =>
      show (if s.begun.isNone = true then (s, []) else _ : Adsr.State N S E × List (Req (Nat × EnvState N))).1 = _
      rw [hnb]; rfl
  rw [this]
  exact ⟨.inl h2, h1, ha, hf⟩

theorem note_next {s : Adsr.State N S E} (hb : s.begun.isSome = true) (tr : Trigger N) :
    (adsr D o).input (.note (.next tr)) now s = ({ s with
      port := s.port.mark (.arrived (.next tr)) now, active := tr.activated,
      env := match tr.changes with | some c => s.env.apply c | none => s.env }, []) := by
  have hnb : s.begun.isNone = false := by cases h : s.begun with | none => rw [h] at hb; cases hb | some _ => rfl
  show (if s.begun.isNone = true then (s, []) else _ : Adsr.State N S E × List (Req (Nat × EnvState N))) = _
  rw [hnb]; rfl

theorem single (hD : Closes D) : Solo.Single (adsr D o) (Dead D s0 o env0 p) (Idle D s0 o env0 p) (Busy D s0 o env0 p) where
  dead_exec b t now s _ h := by
    have : ((adsr D o).exec b t now s).2.1 = s := by
      show (if s.panicked = true then _ else if D.isClosed s.port.dest = true then _ else
        _ : (Nat × EnvState N) × Adsr.State N S E × List (Req (Nat × EnvState N)) × WorkResult).2.1 = _
      rcases h.closed with hc | hc
      · split
        · rfl
        · rfl
      · rw [if_pos hc]
    rw [this]; exact h
  dead_input i now s h := by
    cases i with
    | subscribe =>
      show Dead D s0 o env0 p now (if s.begun.isSome = true then (s, []) else _ : Adsr.State N S E × List (Req (Nat × EnvState N))).1
      split
      · exact h
      · exact ⟨h.closed, h.safe, h.few, h.fault⟩
    | close => exact ⟨.inl (Port.close_isClosed hD _ _), h.safe.close hD, h.few, h.fault⟩
    | note n =>
      cases hb : s.begun with
      | none =>
        show Dead D s0 o env0 p now (if s.begun.isNone = true then (s, []) else _ : Adsr.State N S E × List (Req (Nat × EnvState N))).1
        rw [hb]; exact h
      | some k =>
        have hb' : s.begun.isSome = true := by rw [hb]; rfl
        cases n with
        | next tr => rw [note_next hb']; exact ⟨h.closed, h.safe.trigger tr, h.few, h.fault⟩
        | error e => exact note_end hD h.safe h.few h.fault hb' (.error e)
        | complete => exact note_end hD h.safe h.few h.fault hb' .complete
        | unsubscribe => exact note_end hD h.safe h.few h.fault hb' .unsubscribe
  idle_input i now s h := by
    cases i with
    | subscribe =>
      have : (adsr D o).input .subscribe now s = ({ s with begun := some now }, [.schedule (.newContinuous (0, .default))]) := by
        show (if s.begun.isSome = true then (s, []) else _ : Adsr.State N S E × List (Req (Nat × EnvState N))) = _
        rw [if_neg (by rw [h.begun]; simp)]
      rw [this]
      cases hc : D.isClosed s.port.dest with
      | true => exact .inl ⟨.inl hc, h.safe, .of_none h.tick, fun hp => by rw [show _ = s.panicked from rfl, h.panicked] at hp; cases hp⟩
      | false =>
        refine .inr (.inr ⟨_, rfl, hc, h.panicked, h.safe, rfl, ?_, ?_, ?_, h.tick, 0, ?_⟩)
        · dsimp only
          rw [h.active, h.triggers, h.samples]
          unfold input
          split <;> rfl
        · dsimp only
          rw [h.env, h.triggers]; rfl
        · dsimp only
          rw [h.lastNone, h.samples]; rfl
        · dsimp only
          rw [h.samples]; rfl
    | close => exact .inl ⟨.inl (Port.close_isClosed hD _ _), h.safe.close hD, .of_none h.tick,
        fun hp => by rw [show _ = s.panicked from rfl, h.panicked] at hp; cases hp⟩
    | note n =>
      right; left
      show (if s.begun.isNone = true then (s, []) else _ : Adsr.State N S E × List (Req (Nat × EnvState N))).2 = [] ∧
        Idle D s0 o env0 p now (if s.begun.isNone = true then (s, []) else _ : Adsr.State N S E × List (Req (Nat × EnvState N))).1
      rw [if_pos (by rw [h.begun]; rfl)]
      exact ⟨rfl, h⟩
  busy_input i now f w s h := by
    have hf : s.panicked = true → ∀ q, p = some q → q.2.panicked = true ∨ q.1 < (machine q.2.samples).1 :=
      fun hp => by rw [h.panicked] at hp; cases hp
    cases i with
    | subscribe =>
      right
      show (if s.begun.isSome = true then (s, []) else _ : Adsr.State N S E × List (Req (Nat × EnvState N))).2 = [] ∧
        Busy D s0 o env0 p now f w (if s.begun.isSome = true then (s, []) else _ : Adsr.State N S E × List (Req (Nat × EnvState N))).1
      rw [if_pos h.begun]
      exact ⟨rfl, h⟩
    | close => exact .inl ⟨.inl (Port.close_isClosed hD _ _), h.safe.close hD, h.seen.few, hf⟩
    | note n =>
      cases n with
      | next tr =>
        right
        rw [note_next h.begun]
        refine ⟨rfl, h.live, h.panicked, h.safe.trigger tr, h.begun, ?_, ?_, h.lastNone, h.seen.trigger tr now, h.work⟩
        · show tr.activated = input o (triggers (s.port.trace ++ _)) s.samples
          rw [triggers_snoc]
          exact (input_more (lastHeard_le h.safe.right) tr).symm
        · show _ = envelopeAfter env0 (triggers (s.port.trace ++ _))
          rw [triggers_snoc]
          unfold envelopeAfter
          rw [List.foldl_append]
          have := h.env
          unfold envelopeAfter at this
          rw [← this]
          rfl
      | error e => exact .inl (note_end hD h.safe h.seen.few hf h.begun (.error e))
      | complete => exact .inl (note_end hD h.safe h.seen.few hf h.begun .complete)
      | unsubscribe => exact .inl (note_end hD h.safe h.seen.few hf h.begun .unsubscribe)
  work t s w w' s' res ht h hw := by
    obtain ⟨l, rfl⟩ := h.work
    simp only [Solo.tickWork] at hw
    cases hw
    have h1 := exec_busy ht h (updateTick l t)
    rw [Solo.runBody_st, Solo.runBody_queue]
    rcases h1 with h1 | ⟨h1, h2, h3⟩
    · exact .inl h1
    · refine .inr ⟨by rw [h1]; exact List.append_nil _, .inr ⟨fun h => ?_, h3⟩⟩
      have h := h2.symm.trans h
      cases h
  pass t now w s ht h := ⟨h.live, h.panicked, h.safe, h.begun, h.active, h.env, h.lastNone, (fun q hq => by
    rw [show p = none from h.seen] at hq; cases hq), h.work⟩

theorem mono : Solo.Mono (c := adsr D o) (Dead D s0 o env0 none) (Idle D s0 o env0 none) (Busy D s0 o env0 none) where
  dead k k' s hk h := ⟨h.closed, h.safe.mono hk, h.few, h.fault⟩
  idle k k' s hk h := { h with safe := h.safe.mono hk }
  busy t k f w s hf h := { h with safe := h.safe.mono (Nat.le_max_left ..), seen := (fun q hq => by cases hq) }

theorem holds (hD : Closes D) {y : Solo (adsr D o)}
    (h : Solo.Reachable (c := adsr D o) { port := { dest := s0 }, env := env0 } y) :
    Solo.Holds (Dead D s0 o env0 none) (Idle D s0 o env0 none) (Busy D s0 o env0 none) y :=
  (single hD).reach mono ⟨⟨Port.Fits.init _ _ _ _, (fun n n' k h => by cases h), rfl,
    ⟨fun past x rest h => by simp at h, List.Pairwise.nil⟩, (fun x h => by cases h)⟩, rfl, rfl, rfl, rfl, rfl, rfl, rfl, rfl⟩ h

/-- What holds in all three. -/
theorem always {y : Solo (adsr D o)} (h : Solo.Holds (Dead D s0 o env0 none) (Idle D s0 o env0 none) (Busy D s0 o env0 none) y) :
    Safe D s0 o env0 y.clock y.st.port y.st.samples := by
  cases h with
  | dead h => exact h.safe
  | idle h _ _ => exact h.safe
  | queued w h _ _ => exact h.safe
  | due _ w _ h _ _ => exact h.safe
  | ticked w h _ _ => exact h.safe

/-- A tick after the subscription. -/
theorem tick (hD : Closes D) {y0 y : Solo (adsr D o)} {t : Nat}
    (h : Solo.Reachable (c := adsr D o) { port := { dest := s0 }, env := env0 } y0) (ht : y0.tick = none)
    (hi : Solo.Inner (Solo.drain t { y0 with tick := some t, active := y0.active.map fun p => (p.1, false) }) y)
    (ha : y.allTicked) (hq : y.queue = []) (hb : y0.st.begun.isSome = true) :
    (((D.isClosed y.st.port.dest = true ∨ y.st.panicked = true) ∧ Few (some (t, y0.st)) y.st.samples) ∨
      ∃ x, y.st.samples = y0.st.samples ++ [x] ∧ x.now = t ∧ (triggers y0.st.port.trace).length ≤ x.heard) ∧
    (y.st.panicked = true → y0.st.panicked = true ∨ t < (machine y0.st.samples).1) := by
  have hs := (single (p := some (t, y0.st)) (env0 := env0) (s0 := s0) hD).inner hi (by
    intro t' ht'
    cases ht'
    show _ ≤ updateTick _ _
    rw [updateTick_max]; omega) ((holds hD h).start
      (fun h => ⟨h.closed, h.safe.mono (Nat.le_max_left ..), fun p hp => by cases hp; exact .inl rfl,
        fun hp q hq => by cases hq; exact .inl hp⟩)
      (fun h => by rw [h.begun] at hb; cases hb)
      (fun f w hf h => { h with safe := h.safe.mono (Nat.le_max_left ..), seen := (fun p hp => by cases hp; exact ⟨rfl, rfl, Nat.le_refl _⟩) }) ht)
  cases hs.ended ha hq with
  | dead h => exact ⟨.inl ⟨h.closed, h.few⟩, fun hp => h.fault hp _ rfl⟩
  | idle h _ => cases h.tick
  | busy w h _ => exact ⟨.inr (h.seen _ rfl), fun hp => by rw [h.panicked] at hp; cases hp⟩

/-- No input takes a sample. -/
theorem input_samples (i : Fallback.Input (Trigger N) E) (s : Adsr.State N S E) :
    ((adsr D o).input i now s).1.samples = s.samples ∧ ((adsr D o).input i now s).1.panicked = s.panicked := by
  cases i with
  | subscribe =>
    show (if s.begun.isSome = true then (s, []) else _ : Adsr.State N S E × List (Req (Nat × EnvState N))).1.samples = _ ∧
      (if s.begun.isSome = true then (s, []) else _ : Adsr.State N S E × List (Req (Nat × EnvState N))).1.panicked = _
    split <;> exact ⟨rfl, rfl⟩
  | close => exact ⟨rfl, rfl⟩
  | note n =>
    show (if s.begun.isNone = true then (s, []) else _ : Adsr.State N S E × List (Req (Nat × EnvState N))).1.samples = _ ∧
      (if s.begun.isNone = true then (s, []) else _ : Adsr.State N S E × List (Req (Nat × EnvState N))).1.panicked = _
    split
    · exact ⟨rfl, rfl⟩
    · cases n <;> exact ⟨rfl, rfl⟩

/-- Nothing is sampled between ticks. -/
theorem between {y0 y : Solo (adsr D o)} (hi : Solo.Inner y0 y) (ht : y0.tick = none) :
    y.st.samples = y0.st.samples ∧ y.st.panicked = y0.st.panicked := by
  induction hi with
  | refl => exact ⟨rfl, rfl⟩
  | tail hi hs hk ih =>
    have hn := hi.tick.trans ht
    cases hs with
    | input i => rw [Solo.input_st, (input_samples i _).1, (input_samples i _).2]; exact ih
    | start t _ => rw [hn] at hk; cases hk
    | work _ t pre post w w' res h1 => rw [h1] at hn; cases hn
    | pass t h1 => rw [h1] at hn; cases hn
    | finish t h1 => rw [h1] at hn; cases hn

end Rx.Timed.Adsr
