import Verif.Spec.Timed
import Verif.Spec.HigherOrder
import Verif.Lemmas.SchedulerClient
import Verif.Lemmas.Delivers

/-!
# Lemmas on timelines and on operators that use a scheduler
-/

namespace Rx.Sched

theorem updateTick_max (a b : Nat) : updateTick a b = max a b := by
  unfold updateTick
  split <;> omega

theorem updateTick_zero (a : Nat) : updateTick 0 a = a := by
  rw [updateTick_max]; omega

namespace Solo
variable {c : Client}

/-- What every closure keeps, a tick keeps. -/
theorem repLoop_keeps {t cur i m : Nat} {P : Solo c → Prop} (hP : ∀ b s, P s → P (runBody t b s).2.1) :
    ∀ (fuel : Nat) {start : Bool} {cu ex : Nat} {res : WorkResult} {b : c.B} {s : Solo c} {y}, P s →
    repLoop t cur i m fuel start cu ex res b s = some y → P y.2.2.1 := by
  intro fuel
  induction fuel with
  | zero => intro start cu ex res b s y _ hy; cases hy
  | succ fuel ih =>
    intro start cu ex res b s y h hy
    simp only [repLoop] at hy
    by_cases hc : (cu + i ≤ cur ∧ res ≠ .done) ∨ start = true
    · rw [if_pos hc] at hy
      by_cases he : ex < m
      · simp only [if_pos he] at hy
        exact ih (hP b s h) hy
      · simp only [if_neg he] at hy
        exact ih h hy
    · rw [if_neg hc] at hy
      cases hy
      exact h

theorem tickWork_keeps {t : Nat} {P : Solo c → Prop} (hP : ∀ b s, P s → P (runBody t b s).2.1) {s : Solo c}
    (h : P s) {w : Work c.B} {y} (hy : tickWork t s w = some y) : P y.2.1 := by
  cases w with
  | delayed w sch cu d =>
    simp only [tickWork] at hy
    split at hy
    · cases w with
      | none => cases hy; exact h
      | some b => cases hy; exact hP b s h
    · cases hy; exact h
  | immediate w =>
    simp only [tickWork] at hy
    cases w with
    | none => cases hy; exact h
    | some b => cases hy; exact hP b s h
  | repeating si cu cur i m b =>
    simp only [tickWork] at hy
    split at hy
    · rename_i hr
      cases hy
      exact repLoop_keeps hP _ h hr
    · cases hy
  | continuous l b => cases hy; exact hP b s h
  | invoked b => cases hy; exact hP b s h

theorem tickWork_own {t : Nat} {s : Solo c} {w : Work c.B} {y} (hy : tickWork t s w = some y) : Keeps s y.2.1 :=
  tickWork_keeps (P := Keeps s) (fun b s' h => h.trans (runBody_keeps t b s')) (Keeps.refl s) hy

end Solo
end Rx.Sched

namespace Rx.Timed
open Rx.Sched

variable {S I O E : Type}

theorem Throughout.nil (P : Line I O E → Mark I O E × Nat → Prop) : Throughout P [] := by
  intro past m rest h
  simp at h

theorem Throughout.snoc {P : Line I O E → Mark I O E × Nat → Prop} {τ : Line I O E} (h : Throughout P τ)
    {m : Mark I O E × Nat} (hm : P τ m) : Throughout P (τ ++ [m]) := by
  intro past m' rest he
  rcases List.eq_nil_or_concat rest with rfl | ⟨rest', x, rfl⟩
  · have := List.append_inj' he rfl
    obtain ⟨rfl, h2⟩ := this
    simp only [List.cons.injEq, and_true] at h2
    rw [← h2]; exact hm
  · have : τ ++ [m] = (past ++ m' :: rest') ++ [x] := by rw [he]; simp
    obtain ⟨h1, _⟩ := List.append_inj' this rfl
    exact h past m' rest' h1

theorem Throughout.imp {P Q : Line I O E → Mark I O E × Nat → Prop} (hPQ : ∀ τ m, P τ m → Q τ m) {τ : Line I O E}
    (h : Throughout P τ) : Throughout Q τ := fun past m rest he => hPQ _ _ (h past m rest he)

theorem Throughout.prefix {P : Line I O E → Mark I O E × Nat → Prop} {τ : Line I O E} {m : Mark I O E × Nat}
    (h : Throughout P (τ ++ [m])) : Throughout P τ := by
  intro past m' rest he
  exact h past m' (rest ++ [m]) (by rw [he]; simp)

theorem Throughout.last {P : Line I O E → Mark I O E × Nat → Prop} {τ : Line I O E} {m : Mark I O E × Nat}
    (h : Throughout P (τ ++ [m])) : P τ m := h τ m [] (by simp)

theorem fed_snoc (D : Sub S O E) (s : S) (τ : Line I O E) (m : Mark I O E × Nat) :
    fed D s (τ ++ [m]) = match m.1 with
      | .arrived _ => fed D s τ | .out n => D.push (fed D s τ) n | .closed => D.unsubscribe (fed D s τ) := by
  obtain ⟨m, k⟩ := m
  cases m <;> simp [fed, List.foldl_append]

theorem fed_arrived (D : Sub S O E) (s : S) (τ : Line I O E) (n : SubscriberNotification I E) (k : Nat) :
    fed D s (τ ++ [(.arrived n, k)]) = fed D s τ := by
  rw [fed_snoc]

theorem fed_out (D : Sub S O E) (s : S) (τ : Line I O E) (n : SubscriberNotification O E) (k : Nat) :
    fed D s (τ ++ [(.out n, k)]) = D.push (fed D s τ) n := by
  rw [fed_snoc]

theorem fed_closed (D : Sub S O E) (s : S) (τ : Line I O E) (k : Nat) :
    fed D s (τ ++ [(.closed, k)]) = D.unsubscribe (fed D s τ) := by
  rw [fed_snoc]

theorem arrivals_append (τ τ' : Line I O E) : arrivals (τ ++ τ') = arrivals τ ++ arrivals τ' := by simp [arrivals]

theorem outs_append (τ τ' : Line I O E) : outs (τ ++ τ') = outs τ ++ outs τ' := by simp [outs]

theorem arrivals_next (v : I) (k : Nat) : arrivals [((.arrived (.next v), k) : Mark I O E × Nat)] = [(v, k)] := rfl

theorem outs_next (v : O) (k : Nat) : outs [((.out (.next v), k) : Mark I O E × Nat)] = [(v, k)] := rfl

theorem arrivals_of_ne {m : Mark I O E × Nat} (h : ∀ v, m.1 ≠ .arrived (.next v)) : arrivals [m] = [] := by
  obtain ⟨m, k⟩ := m
  cases m with
  | arrived n => cases n <;> simp_all [arrivals]
  | out n => simp [arrivals]
  | closed => simp [arrivals]

theorem outs_of_ne {m : Mark I O E × Nat} (h : ∀ v, m.1 ≠ .out (.next v)) : outs [m] = [] := by
  obtain ⟨m, k⟩ := m
  cases m with
  | arrived n => simp [outs]
  | out n => cases n <;> simp_all [outs]
  | closed => simp [outs]

theorem Arrived.mono {n : SubscriberNotification I E} {τ τ' : Line I O E} (h : Arrived n τ) : Arrived n (τ ++ τ') := by
  obtain ⟨k, hk⟩ := h
  exact ⟨k, List.mem_append_left _ hk⟩

theorem arrived_snoc {n : SubscriberNotification I E} {τ : Line I O E} {m : Mark I O E × Nat} :
    Arrived n (τ ++ [m]) ↔ Arrived n τ ∨ m.1 = .arrived n := by
  constructor
  · rintro ⟨k, hk⟩
    rcases List.mem_append.1 hk with hk | hk
    · exact .inl ⟨k, hk⟩
    · rw [← List.mem_singleton.1 hk]; exact .inr rfl
  · rintro (h | h)
    · exact h.mono
    · exact ⟨m.2, List.mem_append_right _ (by rw [List.mem_singleton, ← h])⟩

/-- The times of arrivals, in order. -/
theorem arrivals_sorted {P : Line I O E → Mark I O E × Nat → Prop} {τ : Line I O E} (h : Throughout P τ)
    (hP : ∀ past m, P past m → ∀ x ∈ past, x.2 ≤ m.2) : (arrivals τ).Pairwise (fun a b => a.2 ≤ b.2) := by
  have key : τ.Pairwise (fun a b => a.2 ≤ b.2) := by
    have : ∀ (pre suf : Line I O E), τ = pre ++ suf → pre.Pairwise (fun a b => a.2 ≤ b.2) →
        τ.Pairwise (fun a b => a.2 ≤ b.2) := by
      intro pre suf
      induction suf generalizing pre with
      | nil => intro he hp; rw [he, List.append_nil]; exact hp
      | cons m suf ih =>
        intro he hp
        refine ih (pre ++ [m]) (by rw [he]; simp) (List.pairwise_append.2 ⟨hp, List.pairwise_singleton _ _, ?_⟩)
        intro a ha b hb
        rw [List.mem_singleton.1 hb]
        exact hP pre m (h pre m suf he) a ha
    exact this [] τ rfl List.Pairwise.nil
  unfold arrivals
  rw [List.pairwise_filterMap]
  refine key.imp ?_
  intro a b hab x hx y hy
  split at hx
  · cases hx
    split at hy
    · cases hy; exact hab
    · cases hy
  · cases hx

theorem arrivals_le {τ : Line I O E} {k : Nat} (h : ∀ x ∈ τ, x.2 ≤ k) : ∀ a ∈ arrivals τ, a.2 ≤ k := by
  intro a ha
  simp only [arrivals, List.mem_filterMap] at ha
  obtain ⟨m, hm, ha⟩ := ha
  split at ha
  · cases ha; exact h _ hm
  · cases ha

/-- Once the destination is closed, things can only arrive. -/
theorem closed_end {D : Sub S O E} {s : S} {past rest : Line I O E} (h : Throughout (Orderly D s) (past ++ rest))
    (hc : D.isClosed (fed D s past) = true) : ∀ m ∈ rest, ∃ n, m.1 = .arrived n := by
  have key : ∀ (r1 r2 : Line I O E), rest = r1 ++ r2 →
      fed D s (past ++ r1) = fed D s past ∧ ∀ m ∈ r1, ∃ n, m.1 = .arrived n := by
    intro r1
    induction r1 using Rx.snoc_induction with
    | nil => intro r2 _; simp
    | snoc r1 m ih =>
      intro r2 he
      obtain ⟨i1, i2⟩ := ih (m :: r2) (by rw [he]; simp)
      have hm := (h (past ++ r1) m r2 (by rw [he]; simp)).live
      rw [i1, hc] at hm
      obtain ⟨m, k⟩ := m
      cases m with
      | arrived n =>
        refine ⟨by rw [← List.append_assoc, fed_arrived, i1], fun m hm => ?_⟩
        rcases List.mem_append.1 hm with hm | hm
        · exact i2 m hm
        · exact ⟨n, by rw [List.mem_singleton.1 hm]⟩
      | out n => exact absurd (hm (by simp)) (by simp)
      | closed => exact absurd (hm (by simp)) (by simp)
  exact (key rest [] (by simp)).2

/-- A destination that was only given values is open, so if it is closed it was given something else. -/
theorem gave_of_closed {D : Sub S O E} (hP : HigherOrder.Patient D) {s : S} {τ : Line I O E} (hs : D.isClosed s = false)
    (hc : D.isClosed (fed D s τ) = true) {n : SubscriberNotification O E}
    (hm : ∀ m ∈ τ, (∃ n, m.1 = .arrived n) ∨ (∃ v, m.1 = .out (.next v)) ∨ m.1 = .out n) : Gave n τ := by
  have key : Gave n τ ∨ D.isClosed (fed D s τ) = false := by
    clear hc
    induction τ using Rx.snoc_induction with
    | nil => exact .inr hs
    | snoc τ m ih =>
      rcases ih (fun m' hm' => hm m' (List.mem_append_left _ hm')) with ⟨k, h⟩ | h
      · exact .inl ⟨k, List.mem_append_left _ h⟩
      · obtain ⟨m, k⟩ := m
        rcases hm (m, k) (by simp) with ⟨n', h'⟩ | ⟨v, h'⟩ | h'
        · simp only at h'; subst h'
          right
          rw [fed_arrived]; exact h
        · simp only at h'; subst h'
          right
          rw [fed_out]; exact hP _ _ h
        · simp only at h'; subst h'
          exact .inl ⟨k, by simp⟩
  rcases key with h | h
  · exact h
  · rw [hc] at h; cases h

namespace Port

theorem mark_dest (m : Mark I O E) (now : Nat) (p : Port S I O E) : (p.mark m now).dest = p.dest := rfl

theorem mark_trace (m : Mark I O E) (now : Nat) (p : Port S I O E) : (p.mark m now).trace = p.trace ++ [(m, now)] := rfl

theorem give_closed {D : Sub S O E} {p : Port S I O E} (h : D.isClosed p.dest = true) (n : SubscriberNotification O E)
    (now : Nat) : p.give D n now = p := by
  simp [give, h]

theorem give_open {D : Sub S O E} {p : Port S I O E} (h : D.isClosed p.dest = false) (n : SubscriberNotification O E)
    (now : Nat) : p.give D n now = ⟨D.push p.dest n, p.trace ++ [(.out n, now)]⟩ := by
  simp [give, h, mark]

theorem close_closed {D : Sub S O E} {p : Port S I O E} (h : D.isClosed p.dest = true) (now : Nat) :
    p.close D now = p := by
  simp [close, h]

theorem close_open {D : Sub S O E} {p : Port S I O E} (h : D.isClosed p.dest = false) (now : Nat) :
    p.close D now = ⟨D.unsubscribe p.dest, p.trace ++ [(.closed, now)]⟩ := by
  simp [close, h, mark]

theorem teardown_of_open {B : Type} {D : Sub S O E} {p p' : Port S I O E} (h : D.isClosed p'.dest = false) :
    p.teardown (B := B) D p' = [] := by
  simp [teardown, h]

/-- The record is right about the destination, and not from the future. -/
structure Right (D : Sub S O E) (s : S) (now : Nat) (p : Port S I O E) : Prop where
  fed : p.dest = fed D s p.trace
  times : ∀ x ∈ p.trace, x.2 ≤ now

theorem Right.mark {D : Sub S O E} {s : S} {now : Nat} {p : Port S I O E} (h : Right D s now p)
    (n : SubscriberNotification I E) : Right D s now (p.mark (.arrived n) now) := by
  refine ⟨?_, ?_⟩
  · rw [mark_dest, mark_trace, fed_arrived]; exact h.fed
  · intro x hx
    rw [mark_trace] at hx
    rcases List.mem_append.1 hx with hx | hx
    · exact h.times x hx
    · rw [List.mem_singleton.1 hx]; exact Nat.le_refl _

theorem Right.give {D : Sub S O E} {s : S} {now : Nat} {p : Port S I O E} (h : Right D s now p)
    (n : SubscriberNotification O E) : Right D s now (p.give D n now) := by
  cases hc : D.isClosed p.dest with
  | true => rw [give_closed hc]; exact h
  | false =>
    rw [give_open hc]
    refine ⟨?_, ?_⟩
    · rw [fed_out, ← h.fed]
    · intro x hx
      rcases List.mem_append.1 hx with hx | hx
      · exact h.times x hx
      · rw [List.mem_singleton.1 hx]; exact Nat.le_refl _

theorem Right.close {D : Sub S O E} {s : S} {now : Nat} {p : Port S I O E} (h : Right D s now p) :
    Right D s now (p.close D now) := by
  cases hc : D.isClosed p.dest with
  | true => rw [close_closed hc]; exact h
  | false =>
    rw [close_open hc]
    refine ⟨?_, ?_⟩
    · rw [fed_closed, ← h.fed]
    · intro x hx
      rcases List.mem_append.1 hx with hx | hx
      · exact h.times x hx
      · rw [List.mem_singleton.1 hx]; exact Nat.le_refl _

theorem Right.mono {D : Sub S O E} {s : S} {now now' : Nat} {p : Port S I O E} (h : Right D s now p) (hn : now ≤ now') :
    Right D s now' p := ⟨h.fed, fun x hx => Nat.le_trans (h.times x hx) hn⟩

theorem Right.orderly {D : Sub S O E} {s : S} {now : Nat} {p : Port S I O E} (h : Right D s now p) {m : Mark I O E}
    (hm : (∀ n, m ≠ .arrived n) → D.isClosed p.dest = false) : Orderly D s p.trace (m, now) :=
  ⟨fun hn => by rw [← h.fed]; exact hm hn, h.times⟩

end Port

/-! ### Time stamps -/

/-- The record `tr` of the operator grows at the end, by marks with the time of the clock. -/
structure Stamps (c : Client) (tr : c.St → Line I O E) : Prop where
  exec : ∀ b t now s, ∃ new, tr (c.exec b t now s).2.1 = tr s ++ new ∧ ∀ m ∈ new, m.2 = now
  input : ∀ i now s, ∃ new, tr (c.input i now s).1 = tr s ++ new ∧ ∀ m ∈ new, m.2 = now

/-- `τ'` continues `τ` at time `k`. -/
def Grew (k : Nat) (τ τ' : Line I O E) : Prop := ∃ new, τ' = τ ++ new ∧ ∀ m ∈ new, m.2 = k

theorem Grew.refl (k : Nat) (τ : Line I O E) : Grew k τ τ := ⟨[], by simp, by simp⟩

theorem Grew.trans {k : Nat} {a b c : Line I O E} (h : Grew k a b) (h' : Grew k b c) : Grew k a c := by
  obtain ⟨n1, rfl, h1⟩ := h
  obtain ⟨n2, rfl, h2⟩ := h'
  refine ⟨n1 ++ n2, by simp, fun m hm => ?_⟩
  rcases List.mem_append.1 hm with h | h
  · exact h1 m h
  · exact h2 m h

theorem Port.mark_grew (m : Mark I O E) (now : Nat) (p : Port S I O E) : Grew now p.trace (p.mark m now).trace :=
  ⟨[(m, now)], rfl, by simp⟩

theorem Port.give_grew (D : Sub S O E) (n : SubscriberNotification O E) (now : Nat) (p : Port S I O E) :
    Grew now p.trace (p.give D n now).trace := by
  unfold Port.give
  split
  · exact .refl _ _
  · exact ⟨[(.out n, now)], rfl, by simp⟩

theorem Port.close_grew (D : Sub S O E) (now : Nat) (p : Port S I O E) :
    Grew now p.trace (p.close D now).trace := by
  unfold Port.close
  split
  · exact .refl _ _
  · exact ⟨[(.closed, now)], rfl, by simp⟩

section
variable {c : Client} {tr : c.St → Line I O E}

theorem Stamps.runBody (h : Stamps c tr) (t : Nat) (b : c.B) (s : Solo c) :
    Grew s.clock (tr s.st) (tr (Solo.runBody t b s).2.1.st) := by
  have : (Solo.runBody t b s).2.1.st = (c.exec b t s.clock s.st).2.1 := (Solo.requests_keep _ _).2.2.2
  rw [this]
  exact h.exec b t s.clock s.st

theorem Stamps.step (h : Stamps c tr) {s s' : Solo c} (hs : Solo.Step s s') (ht : s'.tick = s.tick)
    (hc : ∀ t, s.tick = some t → t ≤ s.clock) : s'.clock = s.clock ∧ Grew s.clock (tr s.st) (tr s'.st) := by
  cases hs with
  | input i =>
    have : (s.input i).st = (c.input i s.clock s.st).1 := (Solo.requests_keep _ _).2.2.2
    rw [this]
    exact ⟨(Solo.input_keep i s).2.2, h.input i s.clock s.st⟩
  | start t h0 => rw [h0] at ht; cases ht
  | work s' t' pre post w w' res h1 h2 h3 h4 =>
    refine ⟨(Solo.tickWork_own h4).clock, ?_⟩
    have := Solo.tickWork_keeps (P := fun x => x.clock = s.clock ∧ Grew s.clock (tr s.st) (tr x.st)) ?_
      ⟨rfl, .refl _ _⟩ h4
    · exact this.2
    · intro b x hx
      refine ⟨(Solo.runBody_keeps _ _ _).clock.trans hx.1, hx.2.trans ?_⟩
      rw [← hx.1]
      exact h.runBody _ b x
  | pass t' h1 h2 =>
    refine ⟨?_, .refl _ _⟩
    show updateTick s.clock t' = _
    have := hc t' h1
    rw [updateTick_max]; omega
  | finish t' h1 h2 h3 => rw [h1] at ht; cases ht

theorem Stamps.inner (h : Stamps c tr) {s s' : Solo c} (hs : Solo.Inner s s') (hc : ∀ t, s.tick = some t → t ≤ s.clock) :
    s'.clock = s.clock ∧ Grew s.clock (tr s.st) (tr s'.st) := by
  induction hs with
  | refl => exact ⟨rfl, .refl _ _⟩
  | tail h1 h2 h3 ih =>
    rename_i b d
    obtain ⟨i1, i2⟩ := ih
    obtain ⟨j1, j2⟩ := h.step h2 h3 (fun t ht => by rw [i1]; exact hc t (h1.tick.symm.trans ht))
    exact ⟨j1.trans i1, i2.trans (by rw [← i1]; exact j2)⟩

variable {R : Rest c} {st : c.St} {x : R.Ctx} {n : Nat} {ops : List R.Op} {e0 e : Exec R.env}

/-- What a tick adds to the record has the time of the tick. -/
theorem Stamps.tickTo (h : Stamps c tr) (h0 : R.run (R.start st x n) ops = .ok e0) {t : Nat}
    (h1 : e0.tickTo t = .ok e) :
    e.world.sched.currentTick = max e0.world.sched.currentTick t ∧
    Grew e.world.sched.currentTick (tr e0.world.ctx.1) (tr e.world.ctx.1) := by
  obtain ⟨s0, s, _, _, k3, k4, k5, k6, _, _, k9, k10⟩ := solo_of_tick h0 h1
  obtain ⟨l1, l2⟩ := h.inner k5 (by
    intro t' ht'
    cases ht'
    show _ ≤ updateTick s0.clock _
    rw [updateTick_max]; omega)
  have hcl : (Solo.drain t { s0 with tick := some t, active := s0.active.map fun p => (p.1, false) }).clock =
      max s0.clock t := updateTick_max _ _
  rw [hcl] at l1 l2
  rw [← k3, ← k9, ← k4, ← k10, l1]
  exact ⟨rfl, l2⟩

end

end Rx.Timed
