import Verif.Lemmas.ThrottleRate

/-!
# The scheduled work of throttle_time: panics, completion
-/

namespace Rx.Timed.Throttle
open Rx.Sched Rx.Timed

variable {S I E : Type} {D : Sub S I E} {s0 : S} {o : Output} {d : Nat}

theorem error_cases (D : Sub S I E) (e : E) (now : Nat) (s : State S I E) :
    (s.up.isClosed = true ∧ s.error D e now = ({ s with panicked := true }, false)) ∨
    (s.up.isClosed = false ∧ s.error D e now =
      (⟨s.port.give D (.error e) now, none, s.lastTick, none, { s.up with waiting := false, errored := true },
        s.panicked⟩, true)) := by
  unfold State.error SubscriberState.error
  cases h : s.up.isClosed with
  | true => left; simp [State.panic]
  | false => right; simp [State.clear]

theorem complete_cases (D : Sub S I E) (o : Output) (now : Nat) (s : State S I E) :
    (s.up.isClosed = true ∧ s.complete D o now = ({ s with panicked := true }, false)) ∨
    (s.up.isClosed = false ∧ s.complete D o now =
      (⟨s.port.give D .complete now, none, s.lastTick, none, { s.up with waiting := false, completed := true },
        s.panicked⟩, true)) ∨
    (s.up.isClosed = false ∧ s.deadline ≠ none ∧ s.lastValue ≠ none ∧ s.complete D o now =
      ({ s with up := { s.up with waiting := false, completed := true } }, false)) := by
  unfold State.complete SubscriberState.complete
  cases h : s.up.isClosed with
  | true => left; simp [State.panic]
  | false =>
    right
    simp only [Bool.false_eq_true, if_false]
    split
    · left; simp [State.clear]
    · right
      rename_i hn
      simp only [State.hasPending, Bool.or_eq_true, Option.isNone_iff_eq_none, Bool.not_eq_true', Bool.and_eq_false_iff,
        not_or, Bool.not_eq_false] at hn
      refine ⟨trivial, hn.1, ?_, rfl⟩
      intro hx
      rw [hx] at hn
      simp at hn

theorem unsubscribe_cases (D : Sub S I E) (o : Output) (now : Nat) (s : State S I E) :
    ((D.isClosed s.port.dest = true ∨ s.up.isClosed = true) ∧ s.unsubscribe D o now = (s, false)) ∨
    (D.isClosed s.port.dest = false ∧ s.up.isClosed = false ∧ s.unsubscribe D o now =
      (⟨s.port.give D .unsubscribe now, none, s.lastTick, none, { s.up with waiting := false, unsubscribed := true },
        s.panicked⟩, true)) ∨
    (D.isClosed s.port.dest = false ∧ s.up.isClosed = false ∧ s.deadline ≠ none ∧ s.lastValue ≠ none ∧
      s.unsubscribe D o now = ({ s with up := { s.up with waiting := false, unsubscribed := true } }, false)) := by
  unfold State.unsubscribe State.isClosed
  cases hc : D.isClosed s.port.dest with
  | true => left; simp
  | false =>
    cases h : s.up.isClosed with
    | true => left; simp
    | false =>
      right
      have hu : s.up.isUnsubscribed = false := by
        simp only [SubscriberState.isClosed, Bool.or_eq_false_iff] at h
        exact h.1
      simp only [Bool.or_self, Bool.false_eq_true, if_false, SubscriberState.unsubscribe, hu]
      split
      · left; simp [State.clear]
      · right
        rename_i hn
        simp only [State.hasPending, Bool.or_eq_true, Option.isNone_iff_eq_none, Bool.not_eq_true', Bool.and_eq_false_iff,
          not_or, Bool.not_eq_false] at hn
        refine ⟨trivial, trivial, hn.1, ?_, rfl⟩
        intro hx
        rw [hx] at hn
        simp at hn

theorem ending_keeps (s : State S I E) (now : Nat) (go : Bool) :
    (s.ending D now go).1.lastTick = s.lastTick ∧ (s.ending D now go).1.deadline = s.deadline ∧
    (s.ending D now go).1.lastValue = s.lastValue ∧ (s.ending D now go).1.up = s.up ∧
    (s.ending D now go).1.panicked = s.panicked := by
  unfold State.ending
  split
  · exact ⟨rfl, rfl, rfl, rfl, rfl⟩
  · split <;> exact ⟨rfl, rfl, rfl, rfl, rfl⟩

/-- If the destination is still open after the end of the closure, upstream has not ended and nothing was done. -/
theorem ending_open (hD : HigherOrder.Closes D) {s : State S I E} {now : Nat} {go : Bool}
    (h : D.isClosed (s.ending D now go).1.port.dest = false) :
    s.up.isClosed = false ∧ s.ending D now go = (s, if go then .pending else .done) := by
  unfold State.ending at h ⊢
  split at h
  · dsimp only at h; rw [give_end_closed hD _ rfl] at h; cases h
  · rename_i h1
    split at h
    · dsimp only at h; rw [give_end_closed hD _ rfl] at h; cases h
    · rename_i h2
      rw [if_neg h1, if_neg h2]
      refine ⟨?_, rfl⟩
      simp only [SubscriberState.isClosedButNotCompleted, Bool.and_eq_true, Bool.not_eq_true', Bool.or_eq_true,
        not_and, Bool.not_eq_false] at h1 h2
      simp only [Bool.not_eq_true] at h1
      simp only [SubscriberState.isClosed, SubscriberState.isFinished, h1, Bool.false_or, Bool.or_eq_false_iff]
      constructor
      · cases hu : s.up.isUnsubscribed with
        | false => rfl
        | true => have := h2 (.inl hu); rw [h1] at this; cases this
      · cases hu : s.up.isErrored with
        | false => rfl
        | true => have := h2 (.inr hu); rw [h1] at this; cases this

theorem ending_trace (s : State S I E) (now : Nat) (go : Bool) :
    ∃ new, (s.ending D now go).1.port.trace = s.port.trace ++ new ∧ ∀ m ∈ new, ∃ n, m.1 = .out n := by
  have give : ∀ n, ∃ new, (s.port.give D n now).trace = s.port.trace ++ new ∧ ∀ m ∈ new, ∃ n, m.1 = .out n := by
    intro n
    unfold Port.give
    split
    · exact ⟨[], by simp, by simp⟩
    · exact ⟨[(.out n, now)], rfl, by simp⟩
  unfold State.ending
  split
  · exact give _
  · split
    · exact give _
    · exact ⟨[], by simp, by simp⟩

/-! ### Deadlines -/

/-- When the deadline is. -/
structure Timely (D : Sub S I E) (o : Output) (d now : Nat) (s : State S I E) : Prop where
  last : s.lastTick ≤ now
  soon : ∀ dl, s.deadline = some dl → dl ≤ now + d
  lead : 0 < d → o = .leadingOnly → ∀ dl, s.deadline = some dl → s.lastTick < dl
  kept : 0 < d → s.lastValue ≠ none → ∀ dl, s.deadline = some dl → s.lastTick < dl
  ended : 0 < d → s.panicked = false → D.isClosed s.port.dest = false → s.up.isClosed = true →
    ∃ dl, s.deadline = some dl ∧ s.lastValue ≠ none ∧
      ∀ n k, Final n → (.arrived n, k) ∈ s.port.trace → dl ≤ k + d

theorem final_mem {τ : Line I I E} {m : Mark I I E × Nat} {n : SubscriberNotification I E} {k : Nat}
    (h : (.arrived n, k) ∈ τ ++ [m]) : (.arrived n, k) ∈ τ ∨ m = (.arrived n, k) := by
  rcases List.mem_append.1 h with h | h
  · exact .inl h
  · exact .inr (List.mem_singleton.1 h).symm

theorem give_mem {p : Port S I I E} {n n' : SubscriberNotification I E} {now k : Nat}
    (h : (.arrived n, k) ∈ (p.give D n' now).trace) : (.arrived n, k) ∈ p.trace := by
  unfold Port.give at h
  split at h
  · exact h
  · rcases final_mem h with h | h
    · exact h
    · cases h

theorem Timely.work (hD : HigherOrder.Closes D) {now t : Nat} {s : State S I E} (h : Timely D o d now s)
    (ht : t ≤ now) : Timely D o d now (s.work D o t now).1 := by
  rcases work_cases D o t now s with ⟨hd, h2⟩ | ⟨dl, hd, ⟨h1, h2⟩ | ⟨h1, h2⟩ | ⟨h1, h3, h2⟩ | ⟨h1, h3, v, hv, h2⟩⟩
  · rw [h2]
    refine ⟨ht, ?_, ?_, ?_, ?_⟩
    · intro dl h; dsimp only at h; rw [hd] at h; cases h
    · intro _ _ dl h; dsimp only at h; rw [hd] at h; cases h
    · intro _ _ dl h; dsimp only at h; rw [hd] at h; cases h
    · intro _ h; cases h
  · rw [h2]
    refine ⟨ht, h.soon, ?_, ?_, h.ended⟩
    · intro _ _ dl' h; dsimp only at h; rw [hd] at h; cases h; exact h1
    · intro _ _ dl' h; dsimp only at h; rw [hd] at h; cases h; exact h1
  · rw [h2]
    obtain ⟨k1, k2, k3, k4, k5⟩ := ending_keeps (D := D) { s with lastTick := t, deadline := none } now false
    refine ⟨by rw [k1]; exact ht, ?_, ?_, ?_, ?_⟩
    · intro dl h; rw [k2] at h; cases h
    · intro _ _ dl h; rw [k2] at h; cases h
    · intro _ _ dl h; rw [k2] at h; cases h
    · intro _ _ ho hu
      obtain ⟨h4, h5⟩ := ending_open hD ho
      rw [k4, h4] at hu; cases hu
  · rw [h2]
    obtain ⟨k1, k2, k3, k4, k5⟩ := ending_keeps (D := D) { s with lastTick := t, lastValue := none, deadline := none } now false
    refine ⟨by rw [k1]; exact ht, ?_, ?_, ?_, ?_⟩
    · intro dl h; rw [k2] at h; cases h
    · intro _ _ dl h; rw [k2] at h; cases h
    · intro _ _ dl h; rw [k2] at h; cases h
    · intro _ _ ho hu
      obtain ⟨h4, h5⟩ := ending_open hD ho
      rw [k4, h4] at hu; cases hu
  · rw [h2, deliver_some]
    have hlead : o ≠ .leadingOnly := emitsTrailing_iff.1 h3
    dsimp only
    split
    · rename_i hc
      refine ⟨ht, h.soon, fun _ hl => absurd hl hlead, (fun _ h => absurd rfl h), ?_⟩
      intro _ _ ho
      dsimp only at ho
      rw [hc] at ho
      cases ho
    · obtain ⟨k1, k2, k3, k4, k5⟩ := ending_keeps (D := D)
        { s with lastTick := t, lastValue := none, port := s.port.give D (.next v) now } now true
      refine ⟨by rw [k1]; exact ht, by rw [k2]; exact h.soon, fun _ hl => absurd hl hlead, ?_, ?_⟩
      · intro _ h; rw [k3] at h; exact absurd rfl h
      · intro _ _ ho hu
        obtain ⟨h4, h5⟩ := ending_open hD ho
        rw [k4, h4] at hu; cases hu

theorem Timely.quiet {now : Nat} {s s' : State S I E} (h : Timely D o d now s) (h1 : s'.lastTick = s.lastTick)
    (h2 : s'.deadline = s.deadline) (h4 : s'.lastValue = s.lastValue)
    (h5 : s'.panicked = false → D.isClosed s'.port.dest = false → s'.up.isClosed = true →
      s.panicked = false ∧ D.isClosed s.port.dest = false ∧ s.up.isClosed = true ∧
      ∀ n k, Final n → (.arrived n, k) ∈ s'.port.trace → (.arrived n, k) ∈ s.port.trace ∨ k = now) :
    Timely D o d now s' := by
  refine ⟨h1 ▸ h.last, h2 ▸ h.soon, ?_, ?_, ?_⟩
  · rw [h1, h2]; exact h.lead
  · rw [h1, h2, h4]; exact h.kept
  · intro hd hp ho hu
    obtain ⟨l1, l2, l3, l4⟩ := h5 hp ho hu
    obtain ⟨dl, m1, m2, m3⟩ := h.ended hd l1 l2 l3
    refine ⟨dl, by rw [h2]; exact m1, by rw [h4]; exact m2, fun n k hf hm => ?_⟩
    rcases l4 n k hf hm with h | rfl
    · exact m3 n k hf h
    · exact h.soon dl m1

theorem Timely.shut {now : Nat} {s : State S I E} (h1 : s.lastTick ≤ now) (h2 : s.deadline = none)
    (h3 : s.panicked = false → D.isClosed s.port.dest = true) : Timely D o d now s := by
  refine ⟨h1, ?_, ?_, ?_, ?_⟩
  · intro dl h; rw [h2] at h; cases h
  · intro _ _ dl h; rw [h2] at h; cases h
  · intro _ _ dl h; rw [h2] at h; cases h
  · intro _ hp ho; rw [h3 hp] at ho; cases ho

theorem Timely.next {now : Nat} {s : State S I E} (h : Timely D o d now s) (hp : s.panicked = false) (v : I) :
    Timely D o d now ((s.arrive (.next v) now).next D o d v now).1 := by
  have hl : s.lastTick ≤ now := h.last
  have hmem : ∀ n k, Final n → (.arrived n, k) ∈ (s.arrive (.next v) now).port.trace → (.arrived n, k) ∈ s.port.trace := by
    intro n k hf hm
    rcases final_mem hm with hm | hm
    · exact hm
    · cases hm; exact absurd rfl (hf v)
  have h' : Timely D o d now (s.arrive (.next v) now) :=
    h.quiet rfl rfl rfl (fun h1 h2 h3 => ⟨h1, h2, h3, fun n k hf hm => .inl (hmem n k hf hm)⟩)
  -- upstream has ended: there is a deadline in the future
  have hend : 0 < d → D.isClosed s.port.dest = false → s.up.isClosed = true → ∃ dl, s.deadline = some dl ∧ s.lastTick < dl ∧
      ∀ n k, Final n → (.arrived n, k) ∈ s.port.trace → dl ≤ k + d := by
    intro hd ho hu
    obtain ⟨dl, m1, m2, m3⟩ := h.ended hd hp ho hu
    exact ⟨dl, m1, h.kept hd m2 dl m1, m3⟩
  rcases next_cases D o d v now (s.arrive (.next v) now) with ⟨hd, h1, h2⟩ | ⟨hd, h1, h2⟩ |
    ⟨dl, hd, ⟨h3, h1, h2⟩ | ⟨_, h1, h2⟩ | ⟨h3, h1, h2⟩ | ⟨h3, h1, h2⟩⟩
  · rw [h2]
    refine ⟨hl, ?_, ?_, ?_, ?_⟩
    · intro dl h; cases h; show s.lastTick + d ≤ _; omega
    · intro hd _ dl h; cases h; show s.lastTick < s.lastTick + d; omega
    · intro hd _ dl h; cases h; show s.lastTick < s.lastTick + d; omega
    · intro h0 _ ho hu
      have ho' : D.isClosed s.port.dest = false := by
        cases hc : D.isClosed s.port.dest with
        | false => rfl
        | true =>
          dsimp only at ho
          rw [Port.give_closed (show D.isClosed (s.arrive (.next v) now).port.dest = true from hc)] at ho
          rw [show D.isClosed (s.arrive (.next v) now).port.dest = true from hc] at ho
          cases ho
      obtain ⟨dl, m1, _⟩ := hend h0 ho' hu
      rw [show s.deadline = none from hd] at m1
      cases m1
  · rw [h2]
    refine ⟨hl, ?_, ?_, ?_, ?_⟩
    · intro dl h; cases h; show s.lastTick + d ≤ _; omega
    · intro hd _ dl h; cases h; show s.lastTick < s.lastTick + d; omega
    · intro hd _ dl h; cases h; show s.lastTick < s.lastTick + d; omega
    · intro h0 _ ho hu
      obtain ⟨dl, m1, _⟩ := hend h0 ho hu
      rw [show s.deadline = none from hd] at m1
      cases m1
  · rw [h2]
    refine ⟨hl, h.soon, h'.lead, ?_, ?_⟩
    · intro _ _ dl' h; dsimp only at h; rw [hd] at h; cases h; exact h3
    · intro h0 _ ho hu
      obtain ⟨dl, m1, _, m3⟩ := hend h0 ho hu
      exact ⟨dl, m1, by simp, fun n k hf hm => m3 n k hf (hmem n k hf hm)⟩
  · rw [h2]; exact h'
  · rw [h2]
    refine ⟨hl, ?_, ?_, ?_, ?_⟩
    · intro dl h; cases h; show s.lastTick + d ≤ _; omega
    · intro hd _ dl h; cases h; show s.lastTick < s.lastTick + d; omega
    · intro hd _ dl h; cases h; show s.lastTick < s.lastTick + d; omega
    · intro h0 _ ho hu
      obtain ⟨dl', m1, m2, _⟩ := hend h0 ho hu
      rw [show s.deadline = some dl from hd] at m1
      cases m1
      have : dl ≤ s.lastTick := h3
      omega
  · rw [h2]
    exact ⟨hl, h'.soon, h'.lead, h'.kept, (fun _ h => by cases h)⟩

/-- Upstream ends with a value kept. -/
theorem Timely.pending {now : Nat} {s : State S I E} (h : Timely D o d now s)
    (hc : Core D s0 o now s.port s.lastValue s.up) (hu : s.up.isClosed = false) (hd : s.deadline ≠ none)
    (hv : s.lastValue ≠ none) (n : SubscriberNotification I E) (up : SubscriberState) :
    Timely D o d now { s.arrive n now with up := up } := by
  refine ⟨h.last, h.soon, h.lead, h.kept, ?_⟩
  intro _ _ ho _
  obtain ⟨dl, hdl⟩ := Option.ne_none_iff_exists'.1 hd
  refine ⟨dl, hdl, hv, fun n' k hf hm => ?_⟩
  rcases final_mem hm with hm | hm
  · rcases hc.ended n' hf ⟨k, hm⟩ with h1 | h1
    · rw [show D.isClosed s.port.dest = false from ho] at h1; cases h1
    · rw [hu] at h1; cases h1
  · cases hm
    exact h.soon dl hdl

theorem timely_stable (hD : HigherOrder.Closes D) (s0 : S) :
    Solo.Stable (throttle D o d) (· ≤ ·) (fun now s => Sound D s0 o now s ∧ Timely D o d now s) := by
  have hsd := sound_stable hD s0 o d (· ≤ ·)
  refine ⟨fun k k' s hk h => ⟨hsd.mono k k' s hk h.1, ?_⟩, fun b t now s ht h => ⟨hsd.exec b t now s ht h.1, ?_⟩,
    fun i now s h => ⟨hsd.input i now s h.1, ?_⟩⟩
  · obtain ⟨_, h⟩ := h
    exact ⟨Nat.le_trans h.last hk, fun dl hd => by have := h.soon dl hd; omega, h.lead, h.kept, h.ended⟩
  · obtain ⟨_, h⟩ := h
    dsimp only
    split
    · exact h
    · exact h.work hD ht
  · obtain ⟨hcore, h⟩ := h
    dsimp only
    split
    · exact h
    · rename_i hp
      have hp : s.panicked = false := by simpa using hp
      cases i with
      | close =>
        refine h.quiet rfl rfl rfl (fun _ ho => ?_)
        dsimp only at ho
        cases hc : D.isClosed s.port.dest with
        | true => rw [Port.close_closed hc, hc] at ho; cases ho
        | false =>
          rw [Port.close_open hc] at ho
          rw [show D.isClosed (D.unsubscribe s.port.dest) = true from hD _ .unsubscribe rfl] at ho
          cases ho
      | note n =>
        have hmem : ∀ n' k, Final n' → (.arrived n', k) ∈ (s.arrive n now).port.trace →
            (.arrived n', k) ∈ s.port.trace ∨ k = now := by
          intro n' k _ hm
          rcases final_mem hm with hm | hm
          · exact .inl hm
          · cases hm; exact .inr rfl
        cases n with
        | next v => exact h.next hp v
        | error e =>
          show Timely D o d now ((s.arrive (.error e) now).error D e now).1
          rcases error_cases D e now (s.arrive (.error e) now) with ⟨_, h2⟩ | ⟨_, h2⟩
          · rw [h2]; exact h.quiet rfl rfl rfl (fun h => by cases h)
          · rw [h2]; exact .shut h.last rfl (fun _ => give_end_closed hD _ rfl _)
        | complete =>
          show Timely D o d now ((s.arrive .complete now).complete D o now).1
          rcases complete_cases D o now (s.arrive .complete now) with ⟨_, h2⟩ | ⟨_, h2⟩ | ⟨h1, h3, h4, h2⟩
          · rw [h2]; exact h.quiet rfl rfl rfl (fun h => by cases h)
          · rw [h2]; exact .shut h.last rfl (fun _ => give_end_closed hD _ rfl _)
          · rw [h2]
            exact h.pending (hcore.core hp) h1 h3 h4 _ _
        | unsubscribe =>
          show Timely D o d now ((s.arrive .unsubscribe now).unsubscribe D o now).1
          rcases unsubscribe_cases D o now (s.arrive .unsubscribe now) with ⟨h1, h2⟩ | ⟨_, _, h2⟩ | ⟨_, h1, h3, h4, h2⟩
          · rw [h2]
            exact h.quiet rfl rfl rfl (fun h1 h2 h3 => ⟨h1, h2, h3, hmem⟩)
          · rw [h2]; exact .shut h.last rfl (fun _ => give_end_closed hD _ rfl _)
          · rw [h2]
            exact h.pending (hcore.core hp) h1 h3 h4 _ _

/-! ### The work, while the destination is open -/

/-- While the destination is open, work is scheduled exactly if there is a deadline. -/
structure Open (s : Solo (throttle D o d)) : Prop where
  works : (s.st.deadline = none ∧ s.active = [] ∧ s.queue = []) ∨
    ∃ dl l, s.st.deadline = some dl ∧
      ((∃ f, s.active = [(.continuous l (), f)] ∧ s.queue = []) ∨
        (s.active = [] ∧ s.queue = [.schedule (.continuous l ())]))
  ticked : ∀ t, s.tick = some t → ∀ w, s.active = [(w, true)] → s.st.lastTick = t

def OpenInv (s : Solo (throttle D o d)) : Prop :=
  s.st.panicked = false → D.isClosed s.st.port.dest = false → Open s

theorem mark_open {p : Port S I I E} {n : SubscriberNotification I E} {now : Nat} (h : D.isClosed p.dest = false) :
    D.isClosed (p.mark (.arrived n) now).dest = false := h

theorem give_open_of {p : Port S I I E} {n : SubscriberNotification I E} {now : Nat}
    (h : D.isClosed (p.give D n now).dest = false) : D.isClosed p.dest = false := by
  cases hc : D.isClosed p.dest with
  | false => rfl
  | true => rw [Port.give_closed hc, hc] at h; cases h

/-- Calls keep the destination closed. -/
theorem input_open {i : Input I E} {now : Nat} {s : State S I E}
    (hp : ((throttle D o d).input i now s).1.panicked = false)
    (ho : D.isClosed ((throttle D o d).input i now s).1.port.dest = false) :
    s.panicked = false ∧ D.isClosed s.port.dest = false := by
  dsimp only at hp ho
  by_cases hpan : s.panicked = true
  · rw [if_pos hpan] at hp; rw [hpan] at hp; cases hp
  · rw [if_neg hpan] at hp ho
    refine ⟨by simpa using hpan, ?_⟩
    cases i with
    | close =>
      dsimp only at ho
      cases hc : D.isClosed s.port.dest with
      | false => rfl
      | true => rw [Port.close_closed hc, hc] at ho; cases ho
    | note n =>
      cases n with
      | next v =>
        dsimp only at ho
        rcases next_cases D o d v now (s.arrive (.next v) now) with ⟨hd, h1, h2⟩ | ⟨hd, h1, h2⟩ |
          ⟨dl, hd, ⟨h3, h1, h2⟩ | ⟨_, h1, h2⟩ | ⟨h3, h1, h2⟩ | ⟨h3, h1, h2⟩⟩
        · rw [h2] at ho; exact give_open_of (p := (s.arrive (.next v) now).port) ho
        all_goals rw [h2] at ho; exact ho
      | error e =>
        dsimp only at ho
        rcases error_cases D e now (s.arrive (.error e) now) with ⟨_, h2⟩ | ⟨_, h2⟩
        · rw [h2] at ho; exact ho
        · rw [h2] at ho; exact give_open_of (p := (s.arrive (.error e) now).port) ho
      | complete =>
        dsimp only at ho
        rcases complete_cases D o now (s.arrive .complete now) with ⟨_, h2⟩ | ⟨_, h2⟩ | ⟨h1, h3, h4, h2⟩
        · rw [h2] at ho; exact ho
        · rw [h2] at ho; exact give_open_of (p := (s.arrive .complete now).port) ho
        · rw [h2] at ho; exact ho
      | unsubscribe =>
        dsimp only at ho
        rcases unsubscribe_cases D o now (s.arrive .unsubscribe now) with ⟨h1, h2⟩ | ⟨_, _, h2⟩ | ⟨_, h1, h3, h4, h2⟩
        · rw [h2] at ho; exact ho
        · rw [h2] at ho; exact give_open_of (p := (s.arrive .unsubscribe now).port) ho
        · rw [h2] at ho; exact ho

/-- What a call does while the destination stays open: nothing to the work, or it starts a window. -/
theorem input_effect (hD : HigherOrder.Closes D) {i : Input I E} {now : Nat} {s : State S I E}
    (hp : ((throttle D o d).input i now s).1.panicked = false)
    (ho : D.isClosed ((throttle D o d).input i now s).1.port.dest = false) :
    ((throttle D o d).input i now s).1.lastTick = s.lastTick ∧
    ((((throttle D o d).input i now s).2 = [] ∧
      ((((throttle D o d).input i now s).1.deadline = none) ↔ s.deadline = none)) ∨
    (s.deadline = none ∧ ((throttle D o d).input i now s).1.deadline = some (s.lastTick + d) ∧
      ((throttle D o d).input i now s).2 = [.schedule (.newContinuous ())])) := by
  obtain ⟨hp0, ho0⟩ := input_open hp ho
  have e1 : s.panicked ≠ true := by rw [hp0]; simp
  dsimp only at hp ho ⊢
  rw [if_neg e1] at hp ho ⊢
  cases i with
  | close =>
    dsimp only at ho
    rw [Port.close_open ho0] at ho
    rw [show D.isClosed (D.unsubscribe s.port.dest) = true from hD _ .unsubscribe rfl] at ho
    cases ho
  | note n =>
    cases n with
    | next v =>
      dsimp only at ho hp ⊢
      rcases next_cases D o d v now (s.arrive (.next v) now) with ⟨hd, h1, h2⟩ | ⟨hd, h1, h2⟩ |
        ⟨dl, hd, ⟨h3, h1, h2⟩ | ⟨_, h1, h2⟩ | ⟨h3, h1, h2⟩ | ⟨h3, h1, h2⟩⟩
      · rw [h2] at ho ⊢
        dsimp only at ho ⊢
        refine ⟨rfl, .inr ⟨hd, rfl, ?_⟩⟩
        rw [Port.teardown_of_open ho]; rfl
      · rw [h2] at ho ⊢
        refine ⟨rfl, .inr ⟨hd, rfl, ?_⟩⟩
        rw [Port.teardown_of_open ho]; rfl
      · rw [h2] at ho ⊢
        refine ⟨rfl, .inl ⟨?_, Iff.rfl⟩⟩
        rw [Port.teardown_of_open ho]; rfl
      · rw [h2] at ho ⊢
        refine ⟨rfl, .inl ⟨?_, Iff.rfl⟩⟩
        rw [Port.teardown_of_open ho]; rfl
      · rw [h2] at ho ⊢
        refine ⟨rfl, .inl ⟨?_, ?_⟩⟩
        · rw [Port.teardown_of_open ho]; rfl
        · have : s.deadline = some dl := hd
          simp [this]
      · rw [h2] at hp; cases hp
    | error e =>
      dsimp only at ho hp ⊢
      rcases error_cases D e now (s.arrive (.error e) now) with ⟨_, h2⟩ | ⟨_, h2⟩
      · rw [h2] at hp; cases hp
      · rw [h2] at ho; dsimp only at ho; rw [give_end_closed hD _ rfl] at ho; cases ho
    | complete =>
      dsimp only at ho hp ⊢
      rcases complete_cases D o now (s.arrive .complete now) with ⟨_, h2⟩ | ⟨_, h2⟩ | ⟨h1, h3, h4, h2⟩
      · rw [h2] at hp; cases hp
      · rw [h2] at ho; dsimp only at ho; rw [give_end_closed hD _ rfl] at ho; cases ho
      · rw [h2] at ho ⊢
        refine ⟨rfl, .inl ⟨?_, Iff.rfl⟩⟩
        rw [Port.teardown_of_open ho]; rfl
    | unsubscribe =>
      dsimp only at ho hp ⊢
      rcases unsubscribe_cases D o now (s.arrive .unsubscribe now) with ⟨h1, h2⟩ | ⟨_, _, h2⟩ | ⟨_, h1, h3, h4, h2⟩
      · rw [h2] at ho ⊢
        refine ⟨rfl, .inl ⟨?_, Iff.rfl⟩⟩
        rw [Port.teardown_of_open ho]; rfl
      · rw [h2] at ho; dsimp only at ho; rw [give_end_closed hD _ rfl] at ho; cases ho
      · rw [h2] at ho ⊢
        refine ⟨rfl, .inl ⟨?_, Iff.rfl⟩⟩
        rw [Port.teardown_of_open ho]; rfl

/-- What the closure does while the destination stays open. -/
theorem work_effect (hD : HigherOrder.Closes D) {now t : Nat} {s : State S I E}
    (hp : (s.work D o t now).1.panicked = false) (ho : D.isClosed (s.work D o t now).1.port.dest = false) :
    D.isClosed s.port.dest = false ∧ (s.work D o t now).1.lastTick = t ∧
    (((s.work D o t now).2 = .pending ∧ (s.work D o t now).1.deadline = s.deadline ∧ s.deadline ≠ none) ∨
      ((s.work D o t now).2 = .done ∧ (s.work D o t now).1.deadline = none)) := by
  rcases work_cases D o t now s with ⟨hd, h2⟩ | ⟨dl, hd, ⟨h1, h2⟩ | ⟨h1, h2⟩ | ⟨h1, h3, h2⟩ | ⟨h1, h3, v, hv, h2⟩⟩
  · rw [h2] at hp; cases hp
  · rw [h2] at ho ⊢
    exact ⟨ho, rfl, .inl ⟨rfl, rfl, by rw [hd]; simp⟩⟩
  · rw [h2] at ho ⊢
    obtain ⟨_, h4⟩ := ending_open hD ho
    rw [h4] at ho ⊢
    exact ⟨ho, rfl, .inr ⟨rfl, rfl⟩⟩
  · rw [h2] at ho ⊢
    obtain ⟨_, h4⟩ := ending_open hD ho
    rw [h4] at ho ⊢
    exact ⟨ho, rfl, .inr ⟨rfl, rfl⟩⟩
  · rw [h2, deliver_some] at ho ⊢
    dsimp only at ho ⊢
    split at ho
    · rename_i hc
      dsimp only at ho; rw [hc] at ho; cases ho
    · rename_i hc
      rw [if_neg hc]
      obtain ⟨_, h4⟩ := ending_open hD ho
      rw [h4] at ho ⊢
      exact ⟨give_open_of ho, rfl, .inl ⟨rfl, rfl, by rw [hd]; simp⟩⟩

theorem OpenInv.step (hD : HigherOrder.Closes D) {s s' : Solo (throttle D o d)} (h : OpenInv s) (hs : Solo.Step s s') :
    OpenInv s' := by
  intro hp ho
  cases hs with
  | input i =>
    obtain ⟨ka, kt, kc⟩ := Solo.input_keep (c := throttle D o d) i s
    have kst := Solo.input_st (c := throttle D o d) i s
    have kq := Solo.input_queue (c := throttle D o d) i s
    rw [kst] at hp ho
    obtain ⟨h1, h2⟩ := input_open hp ho
    have hop := h h1 h2
    obtain ⟨h3, h4⟩ := input_effect hD hp ho
    rcases h4 with ⟨h4, h5⟩ | ⟨h4, h5, h6⟩
    · rw [h4] at kq
      simp only [List.map_nil, List.append_nil] at kq
      refine ⟨?_, ?_⟩
      · rw [ka, kq, kst]
        rcases hop.works with ⟨h6, h7, h8⟩ | ⟨dl, l, h6, h7⟩
        · exact .inl ⟨h5.2 h6, h7, h8⟩
        · right
          cases hx : ((throttle D o d).input i s.clock s.st).1.deadline with
          | none => rw [h5.1 hx] at h6; cases h6
          | some dl' => exact ⟨dl', l, rfl, h7⟩
      · intro t ht w hw
        rw [ka] at hw
        rw [kt] at ht
        rw [kst, h3]
        exact hop.ticked t ht w hw
    · rcases hop.works with ⟨_, h7, h8⟩ | ⟨dl, l, h7, _⟩
      · rw [h6, h8] at kq
        refine ⟨.inr ⟨s.st.lastTick + d, 0, by rw [kst]; exact h5, .inr ⟨by rw [ka]; exact h7, ?_⟩⟩, ?_⟩
        · rw [kq]
          simp [Solo.onQueue, Work.newContinuous, Work.onScheduled]
        · intro t ht w hw
          rw [ka, h7] at hw
          cases hw
      · rw [h4] at h7; cases h7
  | start t h0 =>
    have hop := h hp ho
    rcases hop.works with ⟨h6, h7, h8⟩ | ⟨dl, l, h6, ⟨f, h7, h8⟩ | ⟨h7, h8⟩⟩
    · refine ⟨.inl ⟨h6, ?_, rfl⟩, ?_⟩
      · simp [Solo.drain, h7, h8]
      · intro t' _ w hw; simp [Solo.drain, h7, h8] at hw
    · refine ⟨.inr ⟨dl, l, h6, .inl ⟨false, ?_, rfl⟩⟩, ?_⟩
      · simp [Solo.drain, h7, h8]
      · intro t' _ w hw; simp [Solo.drain, h7, h8] at hw
    · refine ⟨.inr ⟨dl, l, h6, .inl ⟨false, ?_, rfl⟩⟩, ?_⟩
      · simp [Solo.drain, h7, h8, Solo.process]
      · intro t' _ w hw; simp [Solo.drain, h7, h8, Solo.process] at hw
  | work s1 t pre post w w' res h1 h2 h3 h4 =>
    dsimp only at hp ho
    -- the state before was open
    have hdead : s.st.panicked = true → s1.st.panicked = true := by
      intro hpan
      exact Solo.tickWork_keeps (P := fun x : Solo (throttle D o d) => x.st.panicked = true) (by
        intro b x hx
        dsimp only at hx ⊢
        rw [Solo.runBody_st]
        dsimp only
        rw [if_pos hx]; exact hx) hpan h4
    have hp0 : s.st.panicked = false := by
      cases hpan : s.st.panicked with
      | false => rfl
      | true => rw [hdead hpan] at hp; cases hp
    have hclosed : D.isClosed s.st.port.dest = true → D.isClosed s1.st.port.dest = true := by
      intro hc
      exact Solo.tickWork_keeps (P := fun x : Solo (throttle D o d) => D.isClosed x.st.port.dest = true) (by
        intro b x hx
        dsimp only at hx ⊢
        rw [Solo.runBody_st]
        dsimp only
        split
        · exact hx
        · dsimp only
          cases hpw : (x.st.work D o t x.clock).1.panicked with
          | true =>
            rcases work_cases D o t x.clock x.st with ⟨hd, h2⟩ | ⟨dl, hd, ⟨h1, h2⟩ | ⟨h1, h2⟩ | ⟨h1, h3, h2⟩ | ⟨h1, h3, v, hv, h2⟩⟩
            · rw [h2]; exact hx
            · rw [h2]; exact hx
            · cases ho : D.isClosed (x.st.work D o t x.clock).1.port.dest with
              | true => rfl
              | false =>
                rw [h2] at ho
                rw [(ending_open hD ho).2] at ho
                rw [show D.isClosed x.st.port.dest = false from ho] at hx; cases hx
            · cases ho : D.isClosed (x.st.work D o t x.clock).1.port.dest with
              | true => rfl
              | false =>
                rw [h2] at ho
                rw [(ending_open hD ho).2] at ho
                rw [show D.isClosed x.st.port.dest = false from ho] at hx; cases hx
            · rw [h2, deliver_some, Port.give_closed hx, if_pos hx]; exact hx
          | false =>
            cases ho : D.isClosed (x.st.work D o t x.clock).1.port.dest with
            | true => rfl
            | false => rw [(work_effect hD hpw ho).1] at hx; cases hx) hc h4
    have ho0 : D.isClosed s.st.port.dest = false := by
      cases hc : D.isClosed s.st.port.dest with
      | false => rfl
      | true => rw [hclosed hc] at ho; cases ho
    have hop := h hp0 ho0
    rcases hop.works with ⟨h6, h7, h8⟩ | ⟨dl, l, h6, ⟨f, h7, h8⟩ | ⟨h7, h8⟩⟩
    · rw [h7] at h2; cases pre <;> cases h2
    · have hpre : pre = [] ∧ post = [] ∧ w = .continuous l () ∧ f = false := by
        rw [h7] at h2
        cases pre with
        | nil => simp at h2; exact ⟨rfl, h2.2, h2.1.1.symm, h2.1.2⟩
        | cons p pre => cases pre <;> cases h2
      obtain ⟨rfl, rfl, rfl, rfl⟩ := hpre
      cases h4
      have kst := Solo.runBody_st (c := throttle D o d) t () s
      have kq := Solo.runBody_queue (c := throttle D o d) t () s
      have e1 : s.st.panicked ≠ true := by rw [hp0]; simp
      rw [kst] at hp ho
      dsimp only at hp ho kq kst
      rw [if_neg e1] at hp ho kq kst
      dsimp only at hp ho kq kst
      obtain ⟨_, m1, m2⟩ := work_effect hD hp ho
      rw [Port.teardown_of_open ho, h8] at kq
      have kres : (Solo.runBody (c := throttle D o d) t () s).2.2 = (s.st.work D o t s.clock).2 := by
        show ((throttle D o d).exec () t s.clock s.st).2.2.2 = _
        dsimp only
        rw [if_neg e1]
      rcases m2 with ⟨m2, m3, m4⟩ | ⟨m2, m3⟩
      · refine ⟨.inr ⟨dl, updateTick l t, ?_, .inl ⟨true, ?_, kq⟩⟩, ?_⟩
        · dsimp only; rw [kst, m3]; exact h6
        · dsimp only; rw [kres, m2]; rfl
        · intro t' ht' w' _
          dsimp only at ht' ⊢
          rw [(Solo.runBody_keeps t () s).tick, h1] at ht'
          cases ht'
          rw [kst]
          exact m1
      · refine ⟨.inl ⟨?_, ?_, kq⟩, ?_⟩
        · dsimp only; rw [kst]; exact m3
        · dsimp only; rw [kres, m2]; rfl
        · intro t' ht' w' hw'
          dsimp only at hw'
          rw [kres, m2] at hw'
          cases hw'
    · rw [h7] at h2; cases pre <;> cases h2
  | pass t h1 h2 =>
    have hop := h hp ho
    rcases hop.works with ⟨h6, h7, h8⟩ | ⟨dl, l, h6, ⟨f, h7, h8⟩ | ⟨h7, h8⟩⟩
    · refine ⟨.inl ⟨h6, ?_, rfl⟩, ?_⟩
      · simp [Solo.drain, h7, h8]
      · intro t' _ w hw; simp [Solo.drain, h7, h8] at hw
    · refine ⟨.inr ⟨dl, l, h6, .inl ⟨f, ?_, rfl⟩⟩, ?_⟩
      · simp [Solo.drain, h7, h8]
      · intro t' ht' w hw
        simp only [Solo.drain, h8, List.foldl_nil] at hw
        exact hop.ticked t' ht' w hw
    · refine ⟨.inr ⟨dl, l, h6, .inl ⟨false, ?_, rfl⟩⟩, ?_⟩
      · simp [Solo.drain, h7, h8, Solo.process]
      · intro t' _ w hw; simp [Solo.drain, h7, h8, Solo.process] at hw
  | finish t h1 h2 h3 =>
    have hop := h hp ho
    exact ⟨hop.works, (fun t ht => by cases ht)⟩

theorem openInv (hD : HigherOrder.Closes D) {st : State S I E} {s : Solo (throttle D o d)} (hr : Solo.Reachable st s)
    (h0 : st.deadline = none) : OpenInv s := by
  have key : ∀ {a b : Solo (throttle D o d)}, Solo.Steps a b → OpenInv a → OpenInv b := by
    intro a b hs h
    induction hs with
    | refl => exact h
    | tail _ h2 ih => exact ih.step hD h2
  refine key hr ?_
  intro _ _
  exact ⟨.inl ⟨h0, rfl, rfl⟩, (fun t ht => by cases ht)⟩

/-! ### No panic -/

/-- No panic, even after the destination is closed, if upstream does not end in a tick. -/
structure Safe (s : Solo (throttle D o d)) : Prop where
  fine : s.st.panicked = false
  cont : ∀ p ∈ s.active, ∃ l, p.1 = .continuous l ()
  reqs : ∀ r ∈ s.queue, r = .cancel ∨ ∃ l, r = .schedule (.continuous l ())
  idle : s.st.deadline = none → s.queue.foldl Solo.process s.active = []
  few : (s.queue.foldl Solo.process s.active).length ≤ 1
  busy : s.tick ≠ Option.none → s.active ≠ [] → s.st.deadline ≠ Option.none ∧ s.queue.foldl Solo.process [] = []
  fewer : s.tick ≠ Option.none → s.active.length ≤ 1

/-- How upstream may call. -/
structure Calm (s : Solo (throttle D o d)) (i : Input I E) : Prop where
  tick : s.tick ≠ none → ∀ n, i = .note n → Final n → n = .unsubscribe ∧ D.isClosed s.st.port.dest = true
  once : ∀ n, i = .note n → Final n → n ≠ .unsubscribe → s.st.up.isClosed = false

theorem teardown_cases {B : Type} (p p' : Port S I I E) :
    p.teardown (B := B) D p' = [] ∨ p.teardown (B := B) D p' = [.cancel] := by
  unfold Port.teardown
  split <;> simp

/-- What a call does: nothing to the work; it starts a window; or it cancels everything. -/
theorem input_safe {s' : State S I E} (hlead : o = .leadingOnly → ∀ dl, s'.deadline = some dl → s'.lastTick < dl)
    {i : Input I E} {now : Nat} (hp : s'.panicked = false)
    (honce : ∀ n, i = .note n → Final n → n ≠ .unsubscribe → s'.up.isClosed = false) :
    ((throttle D o d).input i now s').1.panicked = false ∧
    (((((throttle D o d).input i now s').2 = [] ∨ ((throttle D o d).input i now s').2 = [.cancel]) ∧
      ((((throttle D o d).input i now s').1.deadline = none) ↔ s'.deadline = none)) ∨
    (s'.deadline = none ∧ ((throttle D o d).input i now s').1.deadline ≠ none ∧
      (((throttle D o d).input i now s').2 = [.schedule (.newContinuous ())] ∨
      ((throttle D o d).input i now s').2 = [.cancel, .schedule (.newContinuous ())])) ∨
    ((∃ n, i = .note n ∧ Final n ∧ (n = .unsubscribe → D.isClosed s'.port.dest = false)) ∧
      ∃ rs, ((throttle D o d).input i now s').2 = .cancel :: rs ∧ (rs = [] ∨ rs = [.cancel]))) := by
  have e1 : s'.panicked ≠ true := by rw [hp]; simp
  dsimp only
  rw [if_neg e1]
  cases i with
  | close => exact ⟨hp, .inl ⟨teardown_cases _ _, Iff.rfl⟩⟩
  | note n =>
    cases n with
    | next v =>
      dsimp only
      rcases next_cases D o d v now (s'.arrive (.next v) now) with ⟨hd, h1, h2⟩ | ⟨hd, h1, h2⟩ |
        ⟨dl, hd, ⟨h3, h1, h2⟩ | ⟨_, h1, h2⟩ | ⟨h3, h1, h2⟩ | ⟨h3, h1, h2⟩⟩
      · rw [h2]
        refine ⟨hp, .inr (.inl ⟨hd, by simp, ?_⟩)⟩
        dsimp only
        rw [if_pos rfl]
        rcases teardown_cases (B := Unit) (D := D) (s'.arrive (.next v) now).port
          ((s'.arrive (.next v) now).port.give D (.next v) now) with h | h
        · rw [h]; exact .inl rfl
        · rw [h]; exact .inr rfl
      · rw [h2]
        refine ⟨hp, .inr (.inl ⟨hd, by simp, ?_⟩)⟩
        dsimp only
        rw [if_pos rfl]
        rcases teardown_cases (B := Unit) (D := D) (s'.arrive (.next v) now).port
          (s'.arrive (.next v) now).port with h | h
        · rw [h]; exact .inl rfl
        · rw [h]; exact .inr rfl
      · rw [h2]
        refine ⟨hp, .inl ⟨?_, Iff.rfl⟩⟩
        simp only [Bool.false_eq_true, if_false, List.append_nil]
        exact teardown_cases _ _
      · rw [h2]
        refine ⟨hp, .inl ⟨?_, Iff.rfl⟩⟩
        simp only [Bool.false_eq_true, if_false, List.append_nil]
        exact teardown_cases _ _
      · rw [h2]
        refine ⟨hp, .inl ⟨?_, ?_⟩⟩
        · simp only [Bool.false_eq_true, if_false, List.append_nil]
          exact teardown_cases _ _
        · have : s'.deadline = some dl := hd
          simp [this]
      · have h4 := hlead (emitsTrailing_false.1 h1) dl hd
        have h5 : dl ≤ s'.lastTick := h3
        omega
    | error e =>
      dsimp only
      have hu := honce _ rfl (by intro v hv; cases hv) (by simp)
      rcases error_cases D e now (s'.arrive (.error e) now) with ⟨h1, h2⟩ | ⟨_, h2⟩
      · rw [show (s'.arrive (.error e) now).up.isClosed = false from hu] at h1; cases h1
      · rw [h2]
        refine ⟨hp, .inr (.inr ⟨⟨_, rfl, (by intro v hv; cases hv), by simp⟩, ?_⟩)⟩
        dsimp only
        rw [if_pos rfl]
        exact ⟨_, rfl, teardown_cases _ _⟩
    | complete =>
      dsimp only
      have hu := honce _ rfl (by intro v hv; cases hv) (by simp)
      rcases complete_cases D o now (s'.arrive .complete now) with ⟨h1, h2⟩ | ⟨_, h2⟩ | ⟨h1, h3, h4, h2⟩
      · rw [show (s'.arrive .complete now).up.isClosed = false from hu] at h1; cases h1
      · rw [h2]
        refine ⟨hp, .inr (.inr ⟨⟨_, rfl, (by intro v hv; cases hv), by simp⟩, ?_⟩)⟩
        dsimp only
        rw [if_pos rfl]
        exact ⟨_, rfl, teardown_cases _ _⟩
      · rw [h2]
        refine ⟨hp, .inl ⟨?_, Iff.rfl⟩⟩
        simp only [Bool.false_eq_true, if_false, List.nil_append]
        exact teardown_cases _ _
    | unsubscribe =>
      dsimp only
      rcases unsubscribe_cases D o now (s'.arrive .unsubscribe now) with ⟨h1, h2⟩ | ⟨h1, _, h2⟩ | ⟨_, h1, h3, h4, h2⟩
      · rw [h2]
        refine ⟨hp, .inl ⟨?_, Iff.rfl⟩⟩
        simp only [Bool.false_eq_true, if_false, List.nil_append]
        exact teardown_cases _ _
      · rw [h2]
        refine ⟨hp, .inr (.inr ⟨⟨_, rfl, (by intro v hv; cases hv), fun _ => h1⟩, ?_⟩)⟩
        dsimp only
        rw [if_pos rfl]
        exact ⟨_, rfl, teardown_cases _ _⟩
      · rw [h2]
        refine ⟨hp, .inl ⟨?_, Iff.rfl⟩⟩
        simp only [Bool.false_eq_true, if_false, List.nil_append]
        exact teardown_cases _ _

theorem work_safe {now t : Nat} {s : State S I E} (hp : s.panicked = false) (hd : s.deadline ≠ none) :
    (s.work D o t now).1.panicked = false ∧
    ((s.work D o t now).2 = .done ∨ ((s.work D o t now).2 = .pending ∧ (s.work D o t now).1.deadline ≠ none)) := by
  have hend : ∀ (x : State S I E), x.panicked = false → (x.ending D now false).1.panicked = false ∧
      (x.ending D now false).2 = .done := by
    intro x hx
    refine ⟨by rw [(ending_keeps x now false).2.2.2.2]; exact hx, ?_⟩
    unfold State.ending
    split
    · rfl
    · split <;> rfl
  rcases work_cases D o t now s with ⟨h1, h2⟩ | ⟨dl, h1, ⟨_, h2⟩ | ⟨_, h2⟩ | ⟨_, _, h2⟩ | ⟨_, _, v, hv, h2⟩⟩
  · exact absurd h1 hd
  · rw [h2]; exact ⟨hp, .inr ⟨rfl, hd⟩⟩
  · rw [h2]
    have := hend { s with lastTick := t, deadline := none } hp
    exact ⟨this.1, .inl this.2⟩
  · rw [h2]
    have := hend { s with lastTick := t, lastValue := none, deadline := none } hp
    exact ⟨this.1, .inl this.2⟩
  · rw [h2, deliver_some]
    split
    · exact ⟨hp, .inl rfl⟩
    · have hk := ending_keeps (D := D) { s with lastTick := t, lastValue := none, port := s.port.give D (.next v) now } now true
      refine ⟨by rw [hk.2.2.2.2]; exact hp, ?_⟩
      have : (State.ending D now { s with lastTick := t, lastValue := none, port := s.port.give D (.next v) now } true).2 = .done ∨
          (State.ending D now { s with lastTick := t, lastValue := none, port := s.port.give D (.next v) now } true).2 = .pending := by
        unfold State.ending
        split
        · exact .inl rfl
        · split
          · exact .inl rfl
          · exact .inr rfl
      rcases this with h | h
      · exact .inl h
      · exact .inr ⟨h, by rw [hk.2.1]; exact hd⟩

theorem process_snoc (q : List (Req Unit)) (r : Req Unit) (a : List (Work Unit × Bool)) :
    (q ++ [r]).foldl (Solo.process (c := throttle D o d)) a = Solo.process (c := throttle D o d) (q.foldl (Solo.process (c := throttle D o d)) a) r := by
  rw [List.foldl_append]; rfl

theorem Safe.mk_drain {s s' : Solo (throttle D o d)} (h : Safe s) (hst : s'.st = s.st) (hq : s'.queue = [])
    (a : List (Work Unit × Bool)) (ha : a.length = s.active.length) (hc : ∀ p ∈ a, ∃ l, p.1 = .continuous l ())
    (hact : s'.active = s.queue.foldl (Solo.process (c := throttle D o d)) a) : Safe s' := by
  have hlen : s'.active.length = (s.queue.foldl (Solo.process (c := throttle D o d)) s.active).length := by
    rw [hact]; exact Solo.process_length ha _
  refine ⟨by rw [hst]; exact h.fine, ?_, by rw [hq]; simp, ?_, ?_, ?_, ?_⟩
  · rw [hact]
    have : ∀ (q : List (Req Unit)) (a : List (Work Unit × Bool)), (∀ r ∈ q, r = .cancel ∨ ∃ l, r = .schedule (.continuous l ())) →
        (∀ p ∈ a, ∃ l, p.1 = .continuous l ()) →
        ∀ p ∈ q.foldl (Solo.process (c := throttle D o d)) a, ∃ l, p.1 = .continuous l () := by
      intro q
      induction q with
      | nil => intro a _ ha; exact ha
      | cons r q ih =>
        intro a hq ha
        rw [List.foldl_cons]
        refine ih _ (fun r hr => hq r (List.mem_cons_of_mem _ hr)) ?_
        rcases hq r (List.mem_cons_self ..) with rfl | ⟨l, rfl⟩
        · intro p hp; cases hp
        · intro p hp
          rcases List.mem_append.1 hp with hp | hp
          · exact ha p hp
          · rw [List.mem_singleton.1 hp]; exact ⟨l, rfl⟩
    exact this _ _ h.reqs hc
  · intro hd
    rw [hst] at hd
    rw [hq, List.foldl_nil]
    rw [h.idle hd] at hlen
    exact List.length_eq_zero_iff.1 hlen
  · rw [hq, List.foldl_nil, hlen]; exact h.few
  · intro _ hne
    rw [hq]
    refine ⟨fun hd => hne ?_, rfl⟩
    rw [hst] at hd
    rw [h.idle hd] at hlen
    exact List.length_eq_zero_iff.1 hlen
  · intro _; rw [hlen]; exact h.few

theorem Safe.step {s s' : Solo (throttle D o d)} (h : Safe s) (hs : Solo.Step s s')
    (hlead : o = .leadingOnly → ∀ dl, s.st.deadline = some dl → s.st.lastTick < dl)
    (hcalm : ∀ i, s' = s.input i → Calm s i) : Safe s' := by
  cases hs with
  | input i =>
    obtain ⟨ka, kt, kc⟩ := Solo.input_keep (c := throttle D o d) i s
    have kst := Solo.input_st (c := throttle D o d) i s
    have kq := Solo.input_queue (c := throttle D o d) i s
    have hc := hcalm i rfl
    obtain ⟨h1, h2⟩ := input_safe (D := D) (o := o) (d := d) (now := s.clock) hlead h.fine hc.once
    rcases h2 with ⟨h2, h3⟩ | ⟨h2, h3, h4⟩ | ⟨⟨n, hn, hf, h2⟩, rs, h3, h4⟩
    · rcases h2 with h2 | h2
      · rw [h2] at kq
        simp only [List.map_nil, List.append_nil] at kq
        refine ⟨by rw [kst]; exact h1, by rw [ka]; exact h.cont, by rw [kq]; exact h.reqs, ?_, by rw [kq, ka]; exact h.few,
          ?_, by rw [kt, ka]; exact h.fewer⟩
        · rw [kst, kq, ka]; intro hd; exact h.idle (h3.1 hd)
        · rw [kst, kq, ka, kt]; intro ht ha
          obtain ⟨l1, l2⟩ := h.busy ht ha
          exact ⟨fun hd => l1 (h3.1 hd), l2⟩
      · rw [h2] at kq
        simp only [List.map_cons, List.map_nil] at kq
        refine ⟨by rw [kst]; exact h1, by rw [ka]; exact h.cont, ?_, ?_, ?_, ?_, by rw [kt, ka]; exact h.fewer⟩
        · rw [kq]; intro r hr
          rcases List.mem_append.1 hr with hr | hr
          · exact h.reqs r hr
          · rw [List.mem_singleton.1 hr]; exact .inl rfl
        · rw [kq, ka, process_snoc]; intro _; rfl
        · rw [kq, ka, process_snoc]; exact Nat.zero_le _
        · rw [kst, kq, ka, kt, process_snoc]; intro ht ha
          obtain ⟨l1, l2⟩ := h.busy ht ha
          exact ⟨fun hd => l1 (h3.1 hd), rfl⟩
    · -- a window starts
      have hW := h.idle h2
      have hact : s.tick ≠ none → s.active = [] := by
        intro ht
        cases ha : s.active with
        | nil => rfl
        | cons p l => exact absurd h2 (h.busy ht (by rw [ha]; simp)).1
      have hq : ∃ q, (∀ r ∈ q, r = .cancel ∨ ∃ l, r = .schedule (.continuous l ())) ∧
          q.foldl (Solo.process (c := throttle D o d)) s.active = [] ∧
          (Solo.input (c := throttle D o d) i s).queue = q ++ [.schedule (.continuous 0 ())] := by
        rcases h4 with h4 | h4
        · rw [h4] at kq
          exact ⟨s.queue, h.reqs, hW, by rw [kq]; simp [Solo.onQueue, Work.newContinuous, Work.onScheduled]⟩
        · rw [h4] at kq
          refine ⟨s.queue ++ [.cancel], ?_, by rw [process_snoc]; rfl,
            by rw [kq]; simp [Solo.onQueue, Work.newContinuous, Work.onScheduled]⟩
          intro r hr
          rcases List.mem_append.1 hr with hr | hr
          · exact h.reqs r hr
          · rw [List.mem_singleton.1 hr]; exact .inl rfl
      obtain ⟨q, q1, q2, q3⟩ := hq
      refine ⟨by rw [kst]; exact h1, by rw [ka]; exact h.cont, ?_, ?_, ?_, ?_, by rw [kt, ka]; exact h.fewer⟩
      · rw [q3]; intro r hr
        rcases List.mem_append.1 hr with hr | hr
        · exact q1 r hr
        · rw [List.mem_singleton.1 hr]; exact .inr ⟨0, rfl⟩
      · rw [kst]; intro hd; exact absurd hd h3
      · rw [q3, ka, process_snoc, q2]; simp [Solo.process]
      · rw [kt, ka]; intro ht ha; exact absurd (hact ht) ha
    · -- everything is cancelled, and no tick is going on
      have ht : s.tick = none := by
        cases ht : s.tick with
        | none => rfl
        | some t =>
          obtain ⟨l1, l2⟩ := hc.tick (by rw [ht]; simp) n hn hf
          rw [h2 l1] at l2; cases l2
      have hq : ∃ q, (∀ r ∈ q, r = .cancel ∨ ∃ l, r = .schedule (.continuous l ())) ∧
          (Solo.input (c := throttle D o d) i s).queue = q ++ [.cancel] := by
        rcases h4 with h4 | h4
        · rw [h3, h4] at kq
          exact ⟨s.queue, h.reqs, by rw [kq]; rfl⟩
        · rw [h3, h4] at kq
          refine ⟨s.queue ++ [.cancel], ?_, by rw [kq]; simp [Solo.onQueue]⟩
          intro r hr
          rcases List.mem_append.1 hr with hr | hr
          · exact h.reqs r hr
          · rw [List.mem_singleton.1 hr]; exact .inl rfl
      obtain ⟨q, q1, q3⟩ := hq
      refine ⟨by rw [kst]; exact h1, by rw [ka]; exact h.cont, ?_, ?_, ?_, ?_, ?_⟩
      · rw [q3]; intro r hr
        rcases List.mem_append.1 hr with hr | hr
        · exact q1 r hr
        · rw [List.mem_singleton.1 hr]; exact .inl rfl
      · rw [q3, ka, process_snoc]; intro _; rfl
      · rw [q3, ka, process_snoc]; exact Nat.zero_le _
      · rw [kt, ht]; intro h; exact absurd rfl h
      · rw [kt, ht]; intro h; exact absurd rfl h
  | start t h0 =>
    refine h.mk_drain rfl rfl (s.active.map fun p => (p.1, false)) (by simp) ?_ rfl
    intro p hp
    obtain ⟨p', hp', rfl⟩ := List.mem_map.1 hp
    exact h.cont p' hp'
  | work s1 t pre post w w' res h1 h2 h3 h4 =>
    have ht : s.tick ≠ none := by rw [h1]; simp
    have hlen := h.fewer ht
    have hpre : pre = [] ∧ post = [] := by
      rw [h2] at hlen
      simp only [List.length_append, List.length_cons] at hlen
      exact ⟨List.length_eq_zero_iff.1 (by omega), List.length_eq_zero_iff.1 (by omega)⟩
    obtain ⟨rfl, rfl⟩ := hpre
    obtain ⟨l, hw⟩ := h.cont (w, false) (by rw [h2]; simp)
    dsimp only at hw
    subst hw
    obtain ⟨hd, hq0⟩ := h.busy ht (by rw [h2]; simp)
    cases h4
    have kst := Solo.runBody_st (c := throttle D o d) t () s
    have kq := Solo.runBody_queue (c := throttle D o d) t () s
    have kk := Solo.runBody_keeps (c := throttle D o d) t () s
    have e1 : s.st.panicked ≠ true := by rw [h.fine]; simp
    have kres : (Solo.runBody (c := throttle D o d) t () s).2.2 = (s.st.work D o t s.clock).2 := by
      show ((throttle D o d).exec () t s.clock s.st).2.2.2 = _
      dsimp only
      rw [if_neg e1]
    dsimp only at kq kst
    rw [if_neg e1] at kq kst
    dsimp only at kq kst
    obtain ⟨m1, m2⟩ := work_safe (D := D) (o := o) (now := s.clock) (t := t) h.fine hd
    have hq : (∀ r ∈ (Solo.runBody (c := throttle D o d) t () s).2.1.queue, r = .cancel ∨ ∃ l, r = .schedule (.continuous l ())) ∧
        (Solo.runBody (c := throttle D o d) t () s).2.1.queue.foldl (Solo.process (c := throttle D o d)) [] = [] := by
      rcases teardown_cases (B := Unit) (D := D) s.st.port (s.st.work D o t s.clock).1.port with h | h
      · rw [h] at kq
        simp only [List.map_nil, List.append_nil] at kq
        rw [kq]; exact ⟨‹Safe s›.reqs, hq0⟩
      · rw [h] at kq
        rw [kq]
        refine ⟨?_, process_snoc _ _ _⟩
        intro r hr
        rcases List.mem_append.1 hr with hr | hr
        · exact ‹Safe s›.reqs r hr
        · rw [List.mem_singleton.1 hr]; exact .inl rfl
    rcases m2 with m2 | ⟨m2, m3⟩
    · have ha : ([] : List (Work Unit × Bool)) ++ (if (Solo.runBody (c := throttle D o d) t () s).2.2 = .done then []
          else [(Work.continuous (updateTick l t) (Solo.runBody (c := throttle D o d) t () s).1, true)]) ++ [] = [] := by
        rw [kres, m2]; rfl
      refine ⟨by dsimp only; rw [kst]; exact m1, ?_, hq.1, ?_, ?_, ?_, ?_⟩
      · intro p hp; dsimp only at hp; rw [ha] at hp; cases hp
      · intro _; dsimp only; rw [ha]; exact hq.2
      · dsimp only; rw [ha, hq.2]; exact Nat.zero_le _
      · intro _ hne; exact absurd ha hne
      · intro _; dsimp only; rw [ha]; exact Nat.zero_le _
    · have ha : ([] : List (Work Unit × Bool)) ++ (if (Solo.runBody (c := throttle D o d) t () s).2.2 = .done then []
          else [(Work.continuous (updateTick l t) (Solo.runBody (c := throttle D o d) t () s).1, true)]) ++ [] =
          [(Work.continuous (updateTick l t) (), true)] := by
        rw [kres, m2]; rfl
      refine ⟨by dsimp only; rw [kst]; exact m1, ?_, hq.1, ?_, ?_, ?_, ?_⟩
      · intro p hp; dsimp only at hp; rw [ha] at hp; rw [List.mem_singleton.1 hp]; exact ⟨_, rfl⟩
      · intro hd'; dsimp only at hd'; rw [kst] at hd'; exact absurd hd' m3
      · dsimp only
        rw [ha]
        have hl : ((Solo.runBody (c := throttle D o d) t () s).2.1.queue.foldl (Solo.process (c := throttle D o d))
            [(Work.continuous (updateTick l t) (), true)]).length ≤ 1 := by
          rcases teardown_cases (B := Unit) (D := D) s.st.port (s.st.work D o t s.clock).1.port with h' | h'
          · rw [h'] at kq
            simp only [List.map_nil, List.append_nil] at kq
            rw [kq, Solo.process_length (a' := s.active) (by rw [h2]; rfl)]
            exact h.few
          · rw [h'] at kq
            rw [kq]
            simp only [List.map_cons, List.map_nil]
            rw [process_snoc]
            exact Nat.zero_le _
        exact hl
      · intro _ _
        refine ⟨?_, hq.2⟩
        dsimp only; rw [kst]; exact m3
      · intro _; dsimp only; rw [ha]; exact Nat.le_refl _
  | pass t h1 h2 => exact h.mk_drain rfl rfl s.active rfl h.cont rfl
  | finish t h1 h2 h3 =>
    refine ⟨h.fine, h.cont, h.reqs, h.idle, h.few, ?_, ?_⟩
    · intro h; exact absurd rfl h
    · intro h; exact absurd rfl h

end Rx.Timed.Throttle
