import Verif.Lemmas.SchedulerForward

/-!
# throttle_time
-/

namespace Rx.Timed.Throttle
open Rx.Sched Rx.Timed

variable {S I E : Type} {D : Sub S I E} {s0 : S} {o : Output} {d : Nat}

/-! ### The closure, case by case -/

/-- The end of the closure. -/
def State.ending (D : Sub S I E) (now : Nat) (s : State S I E) (go : Bool) : State S I E × WorkResult :=
  if s.up.isCompleted then ({ s with port := s.port.give D .complete now }, .done)
  else if s.up.isClosedButNotCompleted then ({ s with port := s.port.give D .unsubscribe now }, .done)
  else (s, if go then .pending else .done)

theorem deliver_none (now : Nat) (s : State S I E) (go : Bool) : s.deliver D now go none = s.ending D now go := by
  simp [State.deliver, State.ending]

theorem deliver_some (now : Nat) (s : State S I E) (go : Bool) (v : I) :
    s.deliver D now go (some v) =
      if D.isClosed (s.port.give D (.next v) now).dest then ({ s with port := s.port.give D (.next v) now }, .done)
      else { s with port := s.port.give D (.next v) now }.ending D now go := by
  simp [State.deliver, State.ending]

theorem work_cases (D : Sub S I E) (o : Output) (t now : Nat) (s : State S I E) :
    (s.deadline = none ∧ s.work D o t now = ({ s with lastTick := t, panicked := true }, .done)) ∨
    ∃ dl, s.deadline = some dl ∧
      ((t < dl ∧ s.work D o t now = ({ s with lastTick := t }, .pending)) ∨
      (dl < t ∧ s.work D o t now = { s with lastTick := t, deadline := none }.ending D now false) ∨
      (t = dl ∧ (o.emitsTrailing = false ∨ s.lastValue = none) ∧
        s.work D o t now = { s with lastTick := t, lastValue := none, deadline := none }.ending D now false) ∨
      (t = dl ∧ o.emitsTrailing = true ∧ ∃ v, s.lastValue = some v ∧
        s.work D o t now = { s with lastTick := t, lastValue := none }.deliver D now true (some v))) := by
  unfold State.work
  dsimp only
  cases hd : s.deadline with
  | none => left; exact ⟨rfl, by simp [State.panic]⟩
  | some dl =>
    right
    refine ⟨dl, rfl, ?_⟩
    by_cases h1 : t < dl
    · left; refine ⟨h1, ?_⟩; simp [h1]
    · right
      by_cases h2 : dl < t
      · left
        refine ⟨h2, ?_⟩
        simp only [h1, if_false, State.window, h2, if_true, deliver_none]
      · right
        have h3 : t = dl := by omega
        cases ht : o.emitsTrailing with
        | false =>
          left
          refine ⟨h3, .inl rfl, ?_⟩
          simp [h1, State.window, h2, ht, deliver_none]
        | true =>
          cases hv : s.lastValue with
          | none =>
            left
            refine ⟨h3, .inr rfl, ?_⟩
            simp [h1, State.window, h2, ht, deliver_none]
          | some v =>
            right
            refine ⟨h3, rfl, v, rfl, ?_⟩
            simp [h1, State.window, h2, ht]

theorem next_cases (D : Sub S I E) (o : Output) (d : Nat) (v : I) (now : Nat) (s : State S I E) :
    (s.deadline = none ∧ o.emitsLeading = true ∧
      s.next D o d v now =
        ({ s with deadline := some (s.lastTick + d), port := s.port.give D (.next v) now }, true)) ∨
    (s.deadline = none ∧ o = .trailingOnly ∧
      s.next D o d v now = ({ s with deadline := some (s.lastTick + d), lastValue := some v }, true)) ∨
    ∃ dl, s.deadline = some dl ∧
      ((s.lastTick < dl ∧ o.emitsTrailing = true ∧ s.next D o d v now = ({ s with lastValue := some v }, false)) ∨
      (s.lastTick < dl ∧ o.emitsTrailing = false ∧ s.next D o d v now = (s, false)) ∨
      (dl ≤ s.lastTick ∧ o.emitsTrailing = true ∧
        s.next D o d v now = ({ s with deadline := some (s.lastTick + d), lastValue := some v }, false)) ∨
      (dl ≤ s.lastTick ∧ o.emitsTrailing = false ∧ s.next D o d v now = ({ s with panicked := true }, false))) := by
  unfold State.next
  cases hd : s.deadline with
  | none => cases o <;> simp [Output.emitsLeading, Output.emitsTrailing]
  | some dl =>
    right; right
    refine ⟨dl, rfl, ?_⟩
    by_cases h1 : s.lastTick < dl
    · cases o.emitsTrailing <;> simp [h1]
    · have : dl ≤ s.lastTick := by omega
      cases o.emitsTrailing <;> simp [h1, hd, this, State.panic]

/-! ### What is allowed -/

theorem allowed_arrived {n : SubscriberNotification I E} {now : Nat} {p : Port S I I E}
    (h : p.Right D s0 now)
    (hl : ∀ e k, p.trace.getLast? = some (.arrived (.error e), k) → D.isClosed p.dest = true) :
    Allowed D s0 o p.trace (.arrived n, now) := by
  refine ⟨h.orderly (fun hn => absurd rfl (hn n)), by simp, by simp, by simp, by simp, by simp, ?_⟩
  intro e k hk ho
  rw [← h.fed, hl e k hk] at ho
  cases ho

theorem allowed_out {p : Port S I I E} {now : Nat} {n : SubscriberNotification I E} (h : p.Right D s0 now)
    (ho : D.isClosed p.dest = false)
    (hl : ∀ e k, p.trace.getLast? = some (.arrived (.error e), k) → n = .error e ∧ now = k)
    (hv : ∀ v, n = .next v → ((o ≠ .trailingOnly ∧ p.trace.getLast? = some (.arrived (.next v), now)) ∨
      (o ≠ .leadingOnly ∧ Arrived (.next v) p.trace)) ∧
      (o = .trailingOnly → ∃ a, (arrivals p.trace).getLast? = some (v, a)))
    (hc : n = .complete → Arrived .complete p.trace)
    (hu : n = .unsubscribe → Arrived .unsubscribe p.trace)
    (he : ∀ e, n = .error e → p.trace.getLast? = some (.arrived (.error e), now)) :
    Allowed D s0 o p.trace (.out n, now) := by
  refine ⟨h.orderly (fun _ => ho), ?_, ?_, ?_, ?_, ?_, ?_⟩
  · intro v hn; exact (hv v (by simpa using hn)).1
  · intro v h1 hn; exact (hv v (by simpa using hn)).2 h1
  · intro hn; exact hc (by simpa using hn)
  · intro hn; exact hu (by simpa using hn)
  · intro e hn; exact he e (by simpa using hn)
  · intro e k hk _
    obtain ⟨rfl, rfl⟩ := hl e k hk
    rfl

theorem allowed_closed {p : Port S I I E} {now : Nat} (h : p.Right D s0 now)
    (ho : D.isClosed p.dest = false)
    (hl : ∀ e k, p.trace.getLast? = some (.arrived (.error e), k) → D.isClosed p.dest = true) :
    Allowed D s0 o p.trace (.closed, now) := by
  refine ⟨h.orderly (fun _ => ho), by simp, by simp, by simp, by simp, by simp, ?_⟩
  intro e k hk _
  rw [hl e k hk] at ho
  cases ho

/-- The destination, the value kept, and the state of upstream. -/
structure Core (D : Sub S I E) (s0 : S) (o : Output) (now : Nat) (p : Port S I I E) (lv : Option I)
    (up : SubscriberState) : Prop where
  right : p.Right D s0 now
  allowed : Throughout (Allowed D s0 o) p.trace
  atOnce : ∀ e k, p.trace.getLast? = some (.arrived (.error e), k) → D.isClosed p.dest = true
  lead : o = .leadingOnly → lv = none
  kept : ∀ v, lv = some v → Arrived (.next v) p.trace
  perm : ∃ rest, ((outs p.trace).map (·.1) ++ lv.toList ++ rest).Perm ((arrivals p.trace).map (·.1))
  order : o ≠ .leadingAndTrailing →
    ((outs p.trace).map (·.1) ++ lv.toList).Sublist ((arrivals p.trace).map (·.1))
  newest : o = .trailingOnly → ∀ v, lv = some v → ∃ a, (arrivals p.trace).getLast? = some (v, a)
  errored : D.isClosed p.dest = false → up.errored = false
  completed : D.isClosed p.dest = false → up.completed = true → Arrived .complete p.trace
  unsubscribed : D.isClosed p.dest = false → up.unsubscribed = true → Arrived .unsubscribe p.trace
  closed : up.isClosed = true → ∃ n, Final n ∧ Arrived n p.trace
  ended : ∀ n, Final n → Arrived n p.trace → D.isClosed p.dest = true ∨ up.isClosed = true

theorem Core.mono {now now' : Nat} {p : Port S I I E} {lv : Option I} {up : SubscriberState}
    (h : Core D s0 o now p lv up) (hn : now ≤ now') : Core D s0 o now' p lv up :=
  { h with right := h.right.mono hn }

theorem Core.drop {now : Nat} {p : Port S I I E} {lv : Option I} {up : SubscriberState}
    (h : Core D s0 o now p lv up) : Core D s0 o now p none up := by
  refine { h with lead := fun _ => rfl, kept := (fun v hv => by cases hv), perm := ?_, order := ?_,
                  newest := (fun _ v hv => by cases hv) }
  · obtain ⟨rest, hr⟩ := h.perm
    exact ⟨lv.toList ++ rest, by simpa using hr⟩
  · intro ho
    refine List.Sublist.trans ?_ (h.order ho)
    simp

/-- When something is given that is not a value, the destination closes. -/
theorem Core.give_end (hD : HigherOrder.Closes D) {now : Nat} {p : Port S I I E} {lv : Option I} {up : SubscriberState}
    (h : Core D s0 o now p lv up) {n : SubscriberNotification I E} (hn : n = .complete ∨ n = .unsubscribe)
    (ha : D.isClosed p.dest = false → Arrived n p.trace) :
    Core D s0 o now (p.give D n now) lv up ∧ D.isClosed (p.give D n now).dest = true := by
  cases hc : D.isClosed p.dest with
  | true => rw [Port.give_closed hc]; exact ⟨h, hc⟩
  | false =>
    have hcl : D.isClosed (p.give D n now).dest = true := by
      rw [Port.give_open hc]
      rcases hn with rfl | rfl
      · exact hD _ .complete rfl
      · exact hD _ .unsubscribe rfl
    have hv : ∀ v, n ≠ .next v := by rintro v rfl; simp at hn
    have htr : (p.give D n now).trace = p.trace ++ [(.out n, now)] := by rw [Port.give_open hc]
    have hout : outs (p.give D n now).trace = outs p.trace := by
      rw [htr, outs_append, outs_of_ne (by simpa using hv), List.append_nil]
    have harr : arrivals (p.give D n now).trace = arrivals p.trace := by
      rw [htr, arrivals_append, arrivals_of_ne (by simp), List.append_nil]
    have hmem : ∀ n', Arrived n' (p.give D n now).trace ↔ Arrived n' p.trace := by
      intro n'; rw [htr, arrived_snoc]; simp
    refine ⟨⟨h.right.give n, ?_, fun _ _ _ => hcl, h.lead, ?_, ?_, ?_, ?_, ?_, ?_, ?_, ?_, ?_⟩, hcl⟩
    · rw [htr]
      refine h.allowed.snoc (allowed_out h.right hc ?_ ?_ ?_ ?_ ?_)
      · intro e k hk; rw [h.atOnce e k hk] at hc; cases hc
      · intro v hn'; exact absurd hn' (hv v)
      · rintro rfl; exact ha hc
      · rintro rfl; exact ha hc
      · rintro e rfl; simp at hn
    · intro v hv; exact (hmem _).2 (h.kept v hv)
    · rw [hout, harr]; exact h.perm
    · rw [hout, harr]; exact h.order
    · rw [harr]; exact h.newest
    · intro ho; rw [hcl] at ho; cases ho
    · intro ho; rw [hcl] at ho; cases ho
    · intro ho; rw [hcl] at ho; cases ho
    · intro hu; obtain ⟨n', h1, h2⟩ := h.closed hu; exact ⟨n', h1, (hmem _).2 h2⟩
    · intro _ _ _; exact .inl hcl

/-- The kept value is given. -/
theorem Core.give_kept {now : Nat} {p : Port S I I E} {v : I} {up : SubscriberState}
    (h : Core D s0 o now p (some v) up) : Core D s0 o now (p.give D (.next v) now) none up := by
  cases hc : D.isClosed p.dest with
  | true => rw [Port.give_closed hc]; exact h.drop
  | false =>
    have htr : (p.give D (.next v) now).trace = p.trace ++ [(.out (.next v), now)] := by rw [Port.give_open hc]
    have hout : outs (p.give D (.next v) now).trace = outs p.trace ++ [(v, now)] := by
      rw [htr, outs_append, outs_next]
    have harr : arrivals (p.give D (.next v) now).trace = arrivals p.trace := by
      rw [htr, arrivals_append, arrivals_of_ne (by simp), List.append_nil]
    have hmem : ∀ n', Arrived n' (p.give D (.next v) now).trace ↔ Arrived n' p.trace := by
      intro n'; rw [htr, arrived_snoc]; simp
    refine ⟨h.right.give _, ?_, ?_, fun _ => rfl, (fun v hv => by cases hv), ?_, ?_, (fun _ v hv => by cases hv), ?_,
      ?_, ?_, ?_, ?_⟩
    · rw [htr]
      refine h.allowed.snoc (allowed_out h.right hc ?_ ?_ (by simp) (by simp) (by simp))
      · intro e k hk; rw [h.atOnce e k hk] at hc; cases hc
      · intro v' hn'
        cases hn'
        refine ⟨.inr ⟨?_, h.kept v rfl⟩, fun ho => h.newest ho v rfl⟩
        intro ho; cases h.lead ho
    · intro e k hk
      rw [htr] at hk
      simp at hk
    · obtain ⟨rest, hr⟩ := h.perm
      exact ⟨rest, by rw [hout, harr]; simpa using hr⟩
    · intro ho; rw [hout, harr]; simpa using h.order ho
    · intro _; exact h.errored hc
    · intro _ hu; exact (hmem _).2 (h.completed hc hu)
    · intro _ hu; exact (hmem _).2 (h.unsubscribed hc hu)
    · intro hu; obtain ⟨n', h1, h2⟩ := h.closed hu; exact ⟨n', h1, (hmem _).2 h2⟩
    · intro n h1 h3
      rcases h.ended n h1 ((hmem _).1 h3) with h4 | h4
      · rw [hc] at h4; cases h4
      · exact .inr h4

/-- A value arrives. -/
theorem Core.arrive {now : Nat} {p : Port S I I E} {lv : Option I} {up : SubscriberState}
    (h : Core D s0 o now p lv up) (v : I) :
    Core D s0 o now (p.mark (.arrived (.next v)) now) (if o = .trailingOnly then none else lv) up := by
  have htr : (p.mark (.arrived (.next v)) now).trace = p.trace ++ [(.arrived (.next v), now)] := rfl
  have hout : outs (p.mark (.arrived (.next v)) now).trace = outs p.trace := by
    rw [htr, outs_append, outs_of_ne (by simp), List.append_nil]
  have harr : arrivals (p.mark (.arrived (.next v)) now).trace = arrivals p.trace ++ [(v, now)] := by
    rw [htr, arrivals_append, arrivals_next]
  have hmem : ∀ n', Arrived n' (p.mark (.arrived (.next v)) now).trace ↔ Arrived n' p.trace ∨ n' = .next v := by
    intro n'; rw [htr, arrived_snoc]
    constructor
    · rintro (h | h)
      · exact .inl h
      · right; cases h; rfl
    · rintro (h | h)
      · exact .inl h
      · right; rw [h]
  have hd : Core D s0 o now p (if o = .trailingOnly then none else lv) up := by
    split
    · exact h.drop
    · exact h
  refine ⟨h.right.mark _, h.allowed.snoc (allowed_arrived h.right h.atOnce), ?_, hd.lead, ?_, ?_, ?_, ?_, h.errored, ?_, ?_,
    ?_, ?_⟩
  · intro e k hk; rw [htr] at hk; simp at hk
  · intro v' hv; exact (hmem _).2 (.inl (hd.kept v' hv))
  · obtain ⟨rest, hr⟩ := hd.perm
    refine ⟨rest ++ [v], ?_⟩
    rw [hout, harr, ← List.append_assoc, List.map_append]
    exact hr.append_right _
  · intro ho
    rw [hout, harr, List.map_append]
    exact (hd.order ho).trans (List.sublist_append_left _ _)
  · intro ho v' hv
    rw [if_pos ho] at hv; cases hv
  · intro h1 h2; exact (hmem _).2 (.inl (h.completed h1 h2))
  · intro h1 h2; exact (hmem _).2 (.inl (h.unsubscribed h1 h2))
  · intro hu; obtain ⟨n', h1, h2⟩ := h.closed hu; exact ⟨n', h1, (hmem _).2 (.inl h2)⟩
  · intro n h1 h3
    rcases (hmem _).1 h3 with h4 | h4
    · exact h.ended n h1 h4
    · exact absurd h4 (h1 v)

/-- A value arrives and is kept. -/
theorem Core.keep {now : Nat} {p : Port S I I E} {lv : Option I} {up : SubscriberState}
    (h : Core D s0 o now p lv up) (v : I) (ho : o ≠ .leadingOnly) :
    Core D s0 o now (p.mark (.arrived (.next v)) now) (some v) up := by
  have h' := h.arrive v
  have htr : (p.mark (.arrived (.next v)) now).trace = p.trace ++ [(.arrived (.next v), now)] := rfl
  have hout : outs (p.mark (.arrived (.next v)) now).trace = outs p.trace := by
    rw [htr, outs_append, outs_of_ne (by simp), List.append_nil]
  have harr : arrivals (p.mark (.arrived (.next v)) now).trace = arrivals p.trace ++ [(v, now)] := by
    rw [htr, arrivals_append, arrivals_next]
  refine { h' with lead := fun h => absurd h ho, kept := ?_, perm := ?_, order := ?_, newest := ?_ }
  · intro v' hv; cases hv; rw [htr, arrived_snoc]; exact .inr rfl
  · obtain ⟨rest, hr⟩ := h.drop.perm
    refine ⟨rest, ?_⟩
    rw [hout, harr]
    simp only [Option.toList_none, List.append_nil] at hr
    simp only [Option.toList_some, List.map_append, List.map_cons, List.map_nil, List.append_assoc]
    refine List.Perm.trans (List.Perm.append_left _ List.perm_append_comm) ?_
    rw [← List.append_assoc]
    exact hr.append_right _
  · intro ho
    rw [hout, harr, List.map_append]
    refine List.Sublist.append ?_ (List.Sublist.refl _)
    simpa using h.drop.order ho
  · intro _ v' hv
    cases hv
    exact ⟨now, by rw [harr]; simp⟩

/-- A value arrives and is given. -/
theorem Core.leading {now : Nat} {p : Port S I I E} {lv : Option I} {up : SubscriberState}
    (h : Core D s0 o now p lv up) (v : I) (ho : o ≠ .trailingOnly) :
    Core D s0 o now ((p.mark (.arrived (.next v)) now).give D (.next v) now) lv up := by
  have h' := h.arrive v
  rw [if_neg ho] at h'
  cases hc : D.isClosed p.dest with
  | true => rw [Port.give_closed (show D.isClosed (p.mark _ now).dest = true from hc)]; exact h'
  | false =>
    have hc' : D.isClosed (p.mark (.arrived (.next v)) now).dest = false := hc
    have htr : ((p.mark (.arrived (.next v)) now).give D (.next v) now).trace =
        p.trace ++ [(.arrived (.next v), now)] ++ [(.out (.next v), now)] := by
      rw [Port.give_open hc']; rfl
    have hout : outs ((p.mark (.arrived (.next v)) now).give D (.next v) now).trace = outs p.trace ++ [(v, now)] := by
      rw [htr, outs_append, outs_append, outs_next, outs_of_ne (by simp), List.append_nil]
    have harr : arrivals ((p.mark (.arrived (.next v)) now).give D (.next v) now).trace =
        arrivals p.trace ++ [(v, now)] := by
      rw [htr, arrivals_append, arrivals_append, arrivals_next, arrivals_of_ne (by simp), List.append_nil]
    have hmem : ∀ n', Arrived n' ((p.mark (.arrived (.next v)) now).give D (.next v) now).trace ↔
        Arrived n' (p.mark (.arrived (.next v)) now).trace := by
      intro n'; rw [htr, arrived_snoc]; simp [Port.mark_trace]
    refine ⟨h'.right.give _, ?_, ?_, h.lead, ?_, ?_, ?_, fun h => absurd h ho, ?_, ?_, ?_, ?_, ?_⟩
    · rw [Port.give_open hc']
      refine h'.allowed.snoc (allowed_out h'.right hc' ?_ ?_ (by simp) (by simp) (by simp))
      · intro e k hk; rw [Port.mark_trace] at hk; simp at hk
      · intro v' hn'
        cases hn'
        refine ⟨.inl ⟨ho, by rw [Port.mark_trace]; simp⟩, fun h => absurd h ho⟩
    · intro e k hk
      rw [htr] at hk
      simp at hk
    · intro v' hv; exact (hmem _).2 (h'.kept v' hv)
    · obtain ⟨rest, hr⟩ := h.perm
      refine ⟨rest, ?_⟩
      rw [hout, harr]
      simp only [List.map_append, List.map_cons, List.map_nil, List.append_assoc]
      refine List.Perm.trans (List.Perm.append_left _ List.perm_append_comm) ?_
      rw [← List.append_assoc, ← List.append_assoc]
      exact hr.append_right _
    · intro hb
      have hl : o = .leadingOnly := by cases o <;> simp_all
      have := h.order hb
      rw [hout, harr, h.lead hl]
      rw [h.lead hl] at this
      simp only [Option.toList_none, List.append_nil, List.map_append] at this ⊢
      exact this.append (List.Sublist.refl _)
    · intro _; exact h.errored hc
    · intro _ hu; exact (hmem _).2 (h'.completed hc hu)
    · intro _ hu; exact (hmem _).2 (h'.unsubscribed hc hu)
    · intro hu; obtain ⟨n', h1, h2⟩ := h'.closed hu; exact ⟨n', h1, (hmem _).2 h2⟩
    · intro n h1 h3
      rcases h'.ended n h1 ((hmem _).1 h3) with h4 | h4
      · rw [hc'] at h4; cases h4
      · exact .inr h4

/-- An end arrives that changes nothing else, other than the state of upstream. -/
theorem Core.final {now : Nat} {p : Port S I I E} {lv : Option I} {up up' : SubscriberState}
    (h : Core D s0 o now p lv up) {n : SubscriberNotification I E} (hn : n = .complete ∨ n = .unsubscribe)
    (he : up'.errored = up.errored)
    (hc : up'.completed = up.completed ∨ n = .complete) (hu : up'.unsubscribed = up.unsubscribed ∨ n = .unsubscribe)
    (hm : up.isClosed = true → up'.isClosed = true)
    (hx : D.isClosed p.dest = true ∨ up'.isClosed = true) :
    Core D s0 o now (p.mark (.arrived n) now) lv up' := by
  have htr : (p.mark (.arrived n) now).trace = p.trace ++ [(.arrived n, now)] := rfl
  have hv : ∀ v, n ≠ .next v := by rintro v rfl; simp at hn
  have hout : outs (p.mark (.arrived n) now).trace = outs p.trace := by
    rw [htr, outs_append, outs_of_ne (by simp), List.append_nil]
  have harr : arrivals (p.mark (.arrived n) now).trace = arrivals p.trace := by
    rw [htr, arrivals_append, arrivals_of_ne (by simpa using hv), List.append_nil]
  have hmem : ∀ n', Arrived n' (p.mark (.arrived n) now).trace ↔ Arrived n' p.trace ∨ n' = n := by
    intro n'; rw [htr, arrived_snoc]
    constructor
    · rintro (h | h)
      · exact .inl h
      · right; cases h; rfl
    · rintro (h | h)
      · exact .inl h
      · right; rw [h]
  refine ⟨h.right.mark _, h.allowed.snoc (allowed_arrived h.right h.atOnce), ?_, h.lead, ?_, ?_, ?_, ?_, ?_, ?_, ?_, ?_, ?_⟩
  · intro e k hk
    rw [htr] at hk
    simp only [List.getLast?_append, List.getLast?_singleton, Option.some_or, Option.some.injEq, Prod.mk.injEq,
      Mark.arrived.injEq] at hk
    rw [hk.1] at hn
    simp at hn
  · intro v hv; exact (hmem _).2 (.inl (h.kept v hv))
  · rw [hout, harr]; exact h.perm
  · rw [hout, harr]; exact h.order
  · rw [harr]; exact h.newest
  · intro ho; rw [he]; exact h.errored ho
  · intro ho h1
    rw [hmem]
    rcases hc with hc | hc
    · exact .inl (h.completed ho (hc ▸ h1))
    · exact .inr hc.symm
  · intro ho h1
    rw [hmem]
    rcases hu with hu | hu
    · exact .inl (h.unsubscribed ho (hu ▸ h1))
    · exact .inr hu.symm
  · intro _; exact ⟨n, hv, (hmem _).2 (.inr rfl)⟩
  · intro n' h1 h3
    rcases (hmem _).1 h3 with h4 | rfl
    · rcases h.ended n' h1 h4 with h5 | h5
      · exact .inl h5
      · exact .inr (hm h5)
    · exact hx

/-- An error arrives and is given. -/
theorem Core.error (hD : HigherOrder.Closes D) {now : Nat} {p : Port S I I E} {lv : Option I} {up up' : SubscriberState}
    (h : Core D s0 o now p lv up) (e : E) :
    Core D s0 o now ((p.mark (.arrived (.error e)) now).give D (.error e) now) none up' ∧
    D.isClosed ((p.mark (.arrived (.error e)) now).give D (.error e) now).dest = true := by
  have hcl : D.isClosed ((p.mark (.arrived (.error e)) now).give D (.error e) now).dest = true := by
    cases hc : D.isClosed (p.mark (.arrived (.error e)) now).dest with
    | true => rw [Port.give_closed hc]; exact hc
    | false => rw [Port.give_open hc]; exact hD _ (.error e) rfl
  have htr : (p.mark (.arrived (.error e)) now).trace = p.trace ++ [(.arrived (.error e), now)] := rfl
  have hall : Throughout (Allowed D s0 o) (p.mark (.arrived (.error e)) now).trace :=
    h.allowed.snoc (allowed_arrived h.right h.atOnce)
  have hr := h.right.mark (.error e)
  have hg : ∃ l : Line I I E, (l = [] ∨ l = [(.out (.error e), now)]) ∧
      ((p.mark (.arrived (.error e)) now).give D (.error e) now).trace =
        p.trace ++ [(.arrived (.error e), now)] ++ l := by
    cases hc : D.isClosed (p.mark (.arrived (.error e)) now).dest with
    | true => rw [Port.give_closed hc]; exact ⟨[], .inl rfl, by rw [htr]; simp⟩
    | false => rw [Port.give_open hc]; exact ⟨_, .inr rfl, rfl⟩
  obtain ⟨l, hl, hg⟩ := hg
  have hout : outs ((p.mark (.arrived (.error e)) now).give D (.error e) now).trace = outs p.trace := by
    rw [hg, outs_append, outs_append, outs_of_ne (by simp)]
    rcases hl with rfl | rfl
    · simp [outs]
    · rw [outs_of_ne (by simp)]; simp
  have harr : arrivals ((p.mark (.arrived (.error e)) now).give D (.error e) now).trace = arrivals p.trace := by
    rw [hg, arrivals_append, arrivals_append, arrivals_of_ne (by simp)]
    rcases hl with rfl | rfl
    · simp [arrivals]
    · rw [arrivals_of_ne (by simp)]; simp
  refine ⟨⟨hr.give _, ?_, fun _ _ _ => hcl, fun _ => rfl, (fun v hv => by cases hv), ?_, ?_, (fun _ v hv => by cases hv),
    ?_, ?_, ?_, ?_, fun _ _ _ => .inl hcl⟩, hcl⟩
  · cases hc : D.isClosed (p.mark (.arrived (.error e)) now).dest with
    | true => rw [Port.give_closed hc]; exact hall
    | false =>
      rw [Port.give_open hc]
      refine hall.snoc (allowed_out hr hc ?_ (by simp) (by simp) (by simp) ?_)
      · intro e' k hk
        rw [htr] at hk
        simp only [List.getLast?_append, List.getLast?_singleton, Option.some_or, Option.some.injEq, Prod.mk.injEq,
          Mark.arrived.injEq] at hk
        exact hk
      · intro e' he
        cases he
        rw [htr]; simp
  · rw [hout, harr]; exact h.drop.perm
  · rw [hout, harr]; exact h.drop.order
  · intro ho; rw [hcl] at ho; cases ho
  · intro ho; rw [hcl] at ho; cases ho
  · intro ho; rw [hcl] at ho; cases ho
  · intro _
    refine ⟨.error e, (fun v hv => by cases hv), now, ?_⟩
    rw [hg]
    simp

theorem Core.close (hD : HigherOrder.Closes D) {now : Nat} {p : Port S I I E} {lv : Option I} {up : SubscriberState}
    (h : Core D s0 o now p lv up) : Core D s0 o now (p.close D now) lv up ∧ D.isClosed (p.close D now).dest = true := by
  cases hc : D.isClosed p.dest with
  | true => rw [Port.close_closed hc]; exact ⟨h, hc⟩
  | false =>
    have hcl : D.isClosed (p.close D now).dest = true := by
      rw [Port.close_open hc]; exact hD _ .unsubscribe rfl
    have htr : (p.close D now).trace = p.trace ++ [(.closed, now)] := by rw [Port.close_open hc]
    have hout : outs (p.close D now).trace = outs p.trace := by
      rw [htr, outs_append, outs_of_ne (by simp), List.append_nil]
    have harr : arrivals (p.close D now).trace = arrivals p.trace := by
      rw [htr, arrivals_append, arrivals_of_ne (by simp), List.append_nil]
    have hmem : ∀ n', Arrived n' (p.close D now).trace ↔ Arrived n' p.trace := by
      intro n'; rw [htr, arrived_snoc]; simp
    refine ⟨⟨h.right.close, ?_, fun _ _ _ => hcl, h.lead, ?_, ?_, ?_, ?_, ?_, ?_, ?_, ?_, fun _ _ _ => .inl hcl⟩, hcl⟩
    · rw [htr]; exact h.allowed.snoc (allowed_closed h.right hc h.atOnce)
    · intro v hv; exact (hmem _).2 (h.kept v hv)
    · rw [hout, harr]; exact h.perm
    · rw [hout, harr]; exact h.order
    · rw [harr]; exact h.newest
    · intro ho; rw [hcl] at ho; cases ho
    · intro ho; rw [hcl] at ho; cases ho
    · intro ho; rw [hcl] at ho; cases ho
    · intro hu; obtain ⟨n', h1, h2⟩ := h.closed hu; exact ⟨n', h1, (hmem _).2 h2⟩

theorem Core.ending (hD : HigherOrder.Closes D) {now : Nat} {s : State S I E} {go : Bool}
    (h : Core D s0 o now s.port s.lastValue s.up) :
    Core D s0 o now (s.ending D now go).1.port (s.ending D now go).1.lastValue (s.ending D now go).1.up := by
  unfold State.ending
  split
  · rename_i hc
    exact (h.give_end hD (.inl rfl) (fun ho => h.completed ho hc)).1
  · split
    · rename_i hc
      refine (h.give_end hD (.inr rfl) (fun ho => h.unsubscribed ho ?_)).1
      have := h.errored ho
      simp [SubscriberState.isClosedButNotCompleted, SubscriberState.isUnsubscribed, SubscriberState.isErrored,
        this] at hc
      exact hc.1
    · exact h

theorem Core.deliver (hD : HigherOrder.Closes D) {now : Nat} {s : State S I E} {go : Bool} {v : I}
    (h : Core D s0 o now s.port (some v) s.up) (hs : s.lastValue = none) :
    Core D s0 o now (s.deliver D now go (some v)).1.port (s.deliver D now go (some v)).1.lastValue
      (s.deliver D now go (some v)).1.up := by
  have h' := h.give_kept
  rw [deliver_some]
  split
  · dsimp only; rw [hs]; exact h'
  · exact Core.ending hD (s := { s with port := s.port.give D (.next v) now }) (by dsimp only; rw [hs]; exact h')

/-- What holds even after a panic. -/
structure Weak (D : Sub S I E) (s0 : S) (o : Output) (now : Nat) (p : Port S I I E) : Prop where
  right : p.Right D s0 now
  allowed : Throughout (Allowed D s0 o) p.trace
  perm : ∃ rest, ((outs p.trace).map (·.1) ++ rest).Perm ((arrivals p.trace).map (·.1))
  order : o ≠ .leadingAndTrailing → ((outs p.trace).map (·.1)).Sublist ((arrivals p.trace).map (·.1))

theorem Core.weak {now : Nat} {p : Port S I I E} {lv : Option I} {up : SubscriberState} (h : Core D s0 o now p lv up) :
    Weak D s0 o now p := by
  refine ⟨h.right, h.allowed, ?_, ?_⟩
  · obtain ⟨rest, hr⟩ := h.drop.perm
    exact ⟨rest, by simpa using hr⟩
  · intro ho; simpa using h.drop.order ho

theorem Core.weak_mark {now : Nat} {p : Port S I I E} {lv : Option I} {up : SubscriberState}
    (h : Core D s0 o now p lv up) (n : SubscriberNotification I E) : Weak D s0 o now (p.mark (.arrived n) now) := by
  have hw := h.weak
  have hout : outs (p.mark (.arrived n) now).trace = outs p.trace := by
    rw [Port.mark_trace, outs_append, outs_of_ne (by simp), List.append_nil]
  refine ⟨h.right.mark n, h.allowed.snoc (allowed_arrived h.right h.atOnce), ?_, ?_⟩
  · obtain ⟨rest, hr⟩ := hw.perm
    refine ⟨rest ++ (arrivals [((.arrived n, now) : Mark I I E × Nat)]).map (·.1), ?_⟩
    rw [hout, Port.mark_trace, arrivals_append, List.map_append, ← List.append_assoc]
    exact hr.append_right _
  · intro ho
    rw [hout, Port.mark_trace, arrivals_append, List.map_append]
    exact (hw.order ho).trans (List.sublist_append_left _ _)

/-- The invariant of the state alone. -/
structure Sound (D : Sub S I E) (s0 : S) (o : Output) (now : Nat) (s : State S I E) : Prop where
  weak : Weak D s0 o now s.port
  core : s.panicked = false → Core D s0 o now s.port s.lastValue s.up

theorem Sound.init (D : Sub S I E) (s0 : S) (o : Output) : Sound D s0 o 0 { port := { dest := s0 } } := by
  have : Core (E := E) D s0 o 0 ({ dest := s0 } : Port S I I E) none .default := by
    refine ⟨⟨rfl, by simp⟩, Throughout.nil _, by simp, fun _ => rfl, (fun v hv => by cases hv), ⟨[], by simp [outs, arrivals]⟩,
      fun _ => by simp [outs, arrivals], (fun _ v hv => by cases hv), fun _ => rfl, (fun _ h => by cases h),
      (fun _ h => by cases h), (fun h => by cases h), ?_⟩
    rintro n _ ⟨k, hk⟩
    cases hk
  exact ⟨this.weak, fun _ => this⟩

theorem Sound.of_core {now : Nat} {s : State S I E} (h : Core D s0 o now s.port s.lastValue s.up) : Sound D s0 o now s :=
  ⟨h.weak, fun _ => h⟩

theorem Sound.work (hD : HigherOrder.Closes D) {now t : Nat} {s : State S I E} (h : Sound D s0 o now s)
    (hp : s.panicked = false) : Sound D s0 o now (s.work D o t now).1 := by
  have hc := h.core hp
  rcases work_cases D o t now s with ⟨_, h2⟩ | ⟨dl, _, ⟨_, h2⟩ | ⟨_, h2⟩ | ⟨_, _, h2⟩ | ⟨_, _, v, hv, h2⟩⟩
  · rw [h2]; exact .of_core hc
  · rw [h2]; exact .of_core hc
  · rw [h2]; exact .of_core (Core.ending hD (s := { s with lastTick := t, deadline := none }) hc)
  · rw [h2]
    exact .of_core (Core.ending hD (s := { s with lastTick := t, lastValue := none, deadline := none }) hc.drop)
  · rw [h2]
    rw [hv] at hc
    exact .of_core (Core.deliver hD (s := { s with lastTick := t, lastValue := none }) hc rfl)

theorem emitsLeading_iff {o : Output} : o.emitsLeading = true ↔ o ≠ .trailingOnly := by cases o <;> simp [Output.emitsLeading]

theorem emitsTrailing_iff {o : Output} : o.emitsTrailing = true ↔ o ≠ .leadingOnly := by cases o <;> simp [Output.emitsTrailing]

theorem emitsTrailing_false {o : Output} : o.emitsTrailing = false ↔ o = .leadingOnly := by
  cases o <;> simp [Output.emitsTrailing]

theorem Sound.next {now : Nat} {s : State S I E} (hc : Core D s0 o now s.port s.lastValue s.up)
    (v : I) : Sound D s0 o now ((s.arrive (.next v) now).next D o d v now).1 := by
  rcases next_cases D o d v now (s.arrive (.next v) now) with ⟨_, h1, h2⟩ | ⟨_, h1, h2⟩ |
    ⟨dl, _, ⟨_, h1, h2⟩ | ⟨_, h1, h2⟩ | ⟨_, h1, h2⟩ | ⟨_, h1, h2⟩⟩
  · rw [h2]; exact .of_core (hc.leading v (emitsLeading_iff.1 h1))
  · rw [h2]; exact .of_core (hc.keep v (by rw [h1]; simp))
  · rw [h2]; exact .of_core (hc.keep v (emitsTrailing_iff.1 h1))
  · rw [h2]
    have := hc.arrive v
    rw [if_neg (by rw [emitsTrailing_false.1 h1]; simp)] at this
    exact .of_core this
  · rw [h2]; exact .of_core (hc.keep v (emitsTrailing_iff.1 h1))
  · rw [h2]
    have := hc.arrive v
    rw [if_neg (by rw [emitsTrailing_false.1 h1]; simp)] at this
    exact .of_core this

theorem Sound.error (hD : HigherOrder.Closes D) {now : Nat} {s : State S I E}
    (hc : Core D s0 o now s.port s.lastValue s.up) (e : E) :
    Sound D s0 o now ((s.arrive (.error e) now).error D e now).1 := by
  unfold State.error
  split
  · exact ⟨hc.weak_mark _, (fun h => by cases h)⟩
  · exact .of_core (hc.error hD e).1

theorem Sound.complete (hD : HigherOrder.Closes D) {now : Nat} {s : State S I E}
    (hc : Core D s0 o now s.port s.lastValue s.up) :
    Sound D s0 o now ((s.arrive .complete now).complete D o now).1 := by
  unfold State.complete
  split
  · exact ⟨hc.weak_mark _, (fun h => by cases h)⟩
  · rename_i u hu
    have hu' : u = { s.up with waiting := false, completed := true } := by
      have : s.up.complete = some u := hu
      unfold SubscriberState.complete at this
      split at this
      · cases this
      · cases this; rfl
    have hf : Core D s0 o now (s.port.mark (.arrived .complete) now) s.lastValue u :=
      hc.final (.inl rfl) (by rw [hu']) (.inr rfl) (.inl (by rw [hu']))
        (by rw [hu']; simp [SubscriberState.isClosed, SubscriberState.isFinished, SubscriberState.isCompleted])
        (.inr (by rw [hu']; simp [SubscriberState.isClosed, SubscriberState.isFinished, SubscriberState.isCompleted]))
    dsimp only
    split
    · refine .of_core (Core.give_end hD hf.drop (.inl rfl) (fun _ => ⟨now, ?_⟩)).1
      rw [Port.mark_trace]; simp
    · exact .of_core hf

theorem Sound.unsubscribe (hD : HigherOrder.Closes D) {now : Nat} {s : State S I E}
    (hc : Core D s0 o now s.port s.lastValue s.up) :
    Sound D s0 o now ((s.arrive .unsubscribe now).unsubscribe D o now).1 := by
  unfold State.unsubscribe
  split
  · rename_i hcl
    refine .of_core (hc.final (.inr rfl) rfl (.inl rfl) (.inr rfl) id ?_)
    simpa [State.isClosed, State.arrive, Port.mark_dest] using hcl
  · split
    · exact ⟨hc.weak_mark _, (fun h => by cases h)⟩
    · rename_i u hu
      have hu' : u = { s.up with waiting := false, unsubscribed := true } := by
        have : s.up.unsubscribe = some u := hu
        unfold SubscriberState.unsubscribe at this
        split at this
        · cases this
        · cases this; rfl
      have hf : Core D s0 o now (s.port.mark (.arrived .unsubscribe) now) s.lastValue u :=
        hc.final (.inr rfl) (by rw [hu']) (.inl (by rw [hu'])) (.inr rfl)
          (by rw [hu']; simp [SubscriberState.isClosed, SubscriberState.isUnsubscribed])
          (.inr (by rw [hu']; simp [SubscriberState.isClosed, SubscriberState.isUnsubscribed]))
      dsimp only
      split
      · refine .of_core (Core.give_end hD hf.drop (.inr rfl) (fun _ => ⟨now, ?_⟩)).1
        rw [Port.mark_trace]; simp
      · exact .of_core hf

theorem Weak.mono {now now' : Nat} {p : Port S I I E} (h : Weak D s0 o now p) (hn : now ≤ now') : Weak D s0 o now' p :=
  { h with right := h.right.mono hn }

/-- The invariant is kept by everything. -/
theorem sound_stable (hD : HigherOrder.Closes D) (s0 : S) (o : Output) (d : Nat) (ok : Nat → Nat → Prop) :
    Solo.Stable (throttle D o d) ok (Sound D s0 o) := by
  refine ⟨fun k k' s hk h => ⟨h.weak.mono hk, fun hp => (h.core hp).mono hk⟩, ?_, ?_⟩
  · intro b t now s _ h
    show Sound D s0 o now ((throttle D o d).exec b t now s).2.1
    dsimp only
    split
    · exact h
    · rename_i hp
      exact h.work hD (by simpa using hp)
  · intro i now s h
    dsimp only
    split
    · exact h
    · rename_i hp
      have hc := h.core (by simpa using hp)
      cases i with
      | close => exact .of_core (hc.close hD).1
      | note n =>
        cases n with
        | next v => exact Sound.next hc v
        | error e => exact Sound.error hD hc e
        | complete => exact Sound.complete hD hc
        | unsubscribe => exact Sound.unsubscribe hD hc

end Rx.Timed.Throttle
