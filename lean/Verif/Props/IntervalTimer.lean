import Verif.Lemmas.TimedInterval
import Verif.Props.Timed

/-!
# C52: interval and timer

See `Verif.Props.Timed` for what a history is; here the history also subscribes (`Source.Input.subscribe`), and
`begun` is the time of that.
-/

namespace Rx.Timed.Props
open Rx.Sched Rx.Timed
open Rx.HigherOrder (Closes Patient)

variable {S E : Type} {s : S} {d : Nat}

theorem paced_snoc {c : Client} {R : Rest c} {a : Nat} {op : R.Op} : ∀ {ops : List R.Op} {e : Exec R.env},
    Paced a e (ops ++ [op]) → Paced a e ops ∧ ∀ e1, R.run e ops = .ok e1 → ∀ e2, R.step e1 op = .ok e2 →
      e2.world.sched.currentTick ≤ e1.world.sched.currentTick + a := by
  intro ops
  induction ops with
  | nil =>
    intro e h
    refine ⟨trivial, fun e1 h1 e2 h2 => ?_⟩
    cases h1
    exact (h e2 h2).1
  | cons o ops ih =>
    intro e h
    refine ⟨fun e' he' => ⟨(h e' he').1, (ih (h e' he').2).1⟩, fun e1 h1 e2 h2 => ?_⟩
    simp only [Rest.run] at h1
    split at h1
    · rename_i e' he'
      exact (ih (h e' he').2).2 e1 h1 e2 h2
    · rename_i hx
      exact absurd h1 (hx e1)

/-- Ticks with given times that keep the pace. -/
def Gentle {c : Client} {R : Rest c} (a : Nat) : (clock : Nat) → List R.Op → Prop
  | _, [] => True
  | k, .act _ :: ops => Gentle a k ops
  | k, .tickTo t :: ops => t ≤ k + a ∧ Gentle a (max k t) ops
  | _, .tick _ :: _ => False

theorem Gentle.paced {c : Client} {R : Rest c} {a : Nat} {st : c.St} {x : R.Ctx} {n : Nat} :
    ∀ {ops ops0 : List R.Op} {e : Exec R.env}, R.run (R.start st x n) ops0 = .ok e →
    Gentle a e.world.sched.currentTick ops → Paced a e ops := by
  intro ops
  induction ops with
  | nil => intro ops0 e _ _; exact trivial
  | cons op ops ih =>
    intro ops0 e h0 hg e' he'
    have hh : R.run (R.start st x n) (ops0 ++ [op]) = .ok e' := by rw [Rest.run_snoc, h0]; exact he'
    cases op with
    | act b =>
      cases he'
      obtain ⟨s0, y, k1, k2, k3, k4, k5, k6, k7, k8⟩ := solo_of_act (a := b) h0
      have hc : (R.act b e.world).sched.currentTick = e.world.sched.currentTick := by rw [← k7, k8, k4]
      exact ⟨by dsimp only; omega, ih hh (by dsimp only; rw [hc]; exact hg)⟩
    | tickTo t =>
      obtain ⟨l1, _⟩ := Stamps.tickTo (I := Empty) (O := Empty) (E := Empty) (tr := fun _ : c.St => [])
        ⟨fun _ _ _ _ => ⟨[], rfl, by simp⟩, fun _ _ _ => ⟨[], rfl, by simp⟩⟩ h0 he'
      obtain ⟨g1, g2⟩ := hg
      exact ⟨by omega, ih hh (by rw [l1]; exact g2)⟩
    | tick d => exact hg.elim

section Timer
variable {D : Sub S Unit E} {R : Rest (timer D d)} {x : R.Ctx} {n : Nat} {ops : List R.Op} {e0 e : Exec R.env}

/-- C52. At every moment `timer(d)` does only what it may: it gives one value, not earlier than `d` after it was subscribed,
and completion right after it. What the destination has got is what the record says. -/
theorem C52_timer_allowed (hD : Closes D) (h : R.run (R.start { port := { dest := s } } x n) ops = .ok e) :
    Throughout (Timer.Allowed D s d e.world.ctx.1.begun) e.world.ctx.1.port.trace ∧
    e.world.ctx.1.port.dest = fed D s e.world.ctx.1.port.trace := by
  obtain ⟨y, h1, h2, h3, h4⟩ := solo_of_run h
  have := Timer.safe (Timer.holds hD h1)
  rw [← h3]
  exact ⟨this.all, this.right.fed⟩

/-- C52. After a tick at or after its time, the destination is closed. -/
theorem C52_timer_prompt (hD : Closes D) (h0 : R.run (R.start { port := { dest := s } } x n) ops = .ok e0) {t k : Nat}
    (h1 : e0.tickTo t = .ok e) (hb : e.world.ctx.1.begun = some k) (hk : k + d ≤ e.world.sched.currentTick) :
    D.isClosed e.world.ctx.1.port.dest = true := by
  obtain ⟨s0, y, k1, k2, k3, k4, k5, k6, k7, k8, k9, k10⟩ := solo_of_tick h0 h1
  rw [← k9] at hb ⊢
  rw [← k10] at hk
  exact Timer.prompt hD k1 k2 k5 k7 k8 hb hk

/-- C52. It fires on the first tick at or after its time: if before the tick the destination was open, and nobody
unsubscribes or closes it, then all that it was given is the value and completion, in this tick. -/
theorem C52_timer_fires (hD : Closes D) (hP : Patient D)
    (h0 : R.run (R.start { port := { dest := s } } x n) ops = .ok e0) {t k : Nat}
    (h1 : e0.tickTo t = .ok e) (hb : e.world.ctx.1.begun = some k) (hk : k + d ≤ e.world.sched.currentTick)
    (ho : D.isClosed e0.world.ctx.1.port.dest = false)
    (hu : ¬ Arrived .unsubscribe e.world.ctx.1.port.trace) (hx : ∀ k, (.closed, k) ∉ e.world.ctx.1.port.trace) :
    e.world.ctx.1.port.trace =
      [(.out (.next ()), e.world.sched.currentTick), (.out .complete, e.world.sched.currentTick)] := by
  have hcl := C52_timer_prompt hD h0 h1 hb hk
  have hh : R.run (R.start { port := { dest := s } } x n) (ops ++ [.tickTo t]) = .ok e := by
    rw [Rest.run_snoc, h0]; exact h1
  obtain ⟨hall, hfed⟩ := C52_timer_allowed hD hh
  obtain ⟨_, hfed0⟩ := C52_timer_allowed hD h0
  obtain ⟨l1, new, l2, l3⟩ := (Timer.stamps D d).tickTo h0 h1
  have houts0 : outs e0.world.ctx.1.port.trace = [] := by
    obtain ⟨y, g1, _, g3, _⟩ := solo_of_run h0
    rw [← g3] at ho ⊢
    exact Timer.open_outs (Timer.holds hD g1) ho
  rw [l2] at hall hu hx ⊢
  rw [hfed, l2] at hcl
  rw [hfed0] at ho
  generalize e0.world.ctx.1.port.trace = τ0 at *
  -- only values and completion
  have hkind : ∀ past m rest, τ0 ++ new = past ++ m :: rest → m.1 = .out (.next ()) ∨ m.1 = .out .complete := by
    intro past m rest he
    have ha := hall past m rest he
    have hm : m ∈ τ0 ++ new := by rw [he]; simp
    obtain ⟨m, k'⟩ := m
    cases m with
    | arrived n =>
      have := ha.arrived n rfl
      subst this
      exact absurd ⟨k', hm⟩ hu
    | closed => exact absurd hm (hx k')
    | out n =>
      cases n with
      | next v => exact .inl rfl
      | complete => exact .inr rfl
      | error u => exact absurd rfl (ha.error u)
      | unsubscribe =>
        exfalso
        refine hu ⟨k', ?_⟩
        rw [he]
        exact List.mem_append_left _ (List.mem_of_getLast? (ha.unsubscribe rfl))
  have h00 : τ0 = [] := by
    cases τ0 with
    | nil => rfl
    | cons m τ0 =>
      exfalso
      have ha := hall [] m (τ0 ++ new) (by simp)
      obtain ⟨m, k'⟩ := m
      rcases hkind [] (m, k') (τ0 ++ new) (by simp) with h | h <;> simp only at h <;> subst h
      · cases houts0
      · have := ha.complete rfl
        cases this
  subst h00
  rw [List.nil_append] at hall hcl hkind ⊢
  cases new with
  | nil => rw [show fed D s ([] : Line Empty Unit E) = s from rfl] at hcl ho; rw [hcl] at ho; cases ho
  | cons m new =>
    have ha := hall [] m new rfl
    have hmt := l3 m (by simp)
    obtain ⟨m, k'⟩ := m
    simp only at hmt
    subst hmt
    rcases hkind [] _ new rfl with h | h <;> simp only at h <;> subst h
    · have hopen : D.isClosed (fed D s [((.out (.next ()), e.world.sched.currentTick) : Mark Empty Unit E × Nat)]) = false :=
        hP _ _ (ha.orderly.live (by simp))
      cases new with
      | nil => rw [hopen] at hcl; cases hcl
      | cons m new =>
        have ha2 := hall [_] m new rfl
        have := ha2.atOnce _ rfl hopen
        subst this
        have hend := closed_end (past := [(.out (.next ()), e.world.sched.currentTick), (.out .complete, e.world.sched.currentTick)])
          (rest := new) (hall.imp (fun _ _ h => h.orderly)) (hD _ .complete rfl)
        cases new with
        | nil => rfl
        | cons m new =>
          exfalso
          obtain ⟨n', hn'⟩ := hend m (by simp)
          rcases hkind [_, _] m new rfl with h | h <;> rw [hn'] at h <;> cases h
    · have := ha.complete rfl
      cases this

end Timer

section Interval
variable {D : Sub S Nat E} {start : Bool} {max : Nat} {R : Rest (interval D d start max)} {x : R.Ctx} {n : Nat} {ops : List R.Op}
  {e0 e : Exec R.env}

/-- C52. At every moment `interval(d)` does only what it may: it gives 0, 1, 2, ..., value `v` not earlier than `v + 1`
periods after it was subscribed (`v` periods, if it starts on subscription). It never completes. -/
theorem C52_interval_allowed (hD : Closes D) (hd : 0 < d) (h : R.run (R.start { port := { dest := s } } x n) ops = .ok e) :
    Throughout (Interval.Allowed D s d start e.world.ctx.1.begun) e.world.ctx.1.port.trace ∧
    e.world.ctx.1.port.dest = fed D s e.world.ctx.1.port.trace := by
  obtain ⟨y, h1, h2, h3, h4⟩ := solo_of_run h
  have := Interval.safe (Interval.holds hD hd h1)
  rw [← h3]
  exact ⟨this.all, this.right.fed⟩

/-- C52. While the destination is open, a tick gives one value for each period that ended, up to the limit (and those
over the limit are skipped), with the time of the tick. -/
theorem C52_interval_tick (hD : Closes D) (hd : 0 < d) (h0 : R.run (R.start { port := { dest := s } } x n) ops = .ok e0)
    {t k : Nat} (h1 : e0.tickTo t = .ok e) (hb : e0.world.ctx.1.begun = some k)
    (ho : D.isClosed e.world.ctx.1.port.dest = false) :
    ∃ new, outs e.world.ctx.1.port.trace = outs e0.world.ctx.1.port.trace ++ new ∧
      new.length = min (Nat.max 1 max) ((e.world.sched.currentTick - k) / d - (e0.world.sched.currentTick - k) / d) ∧
      ∀ m ∈ new, m.2 = e.world.sched.currentTick := by
  obtain ⟨s0, y, k1, k2, k3, k4, k5, k6, k7, k8, k9, k10⟩ := solo_of_tick h0 h1
  obtain ⟨l1, new, l2, l3⟩ := (Interval.stamps D d start max).tickTo h0 h1
  have hc := Interval.count hD hd k1 k2 k5 k7 k8 (by rw [k3]; exact hb) (by rw [k9]; exact ho)
  rw [k9, k3, k4, k10] at hc
  refine ⟨outs new, ?_, ?_, ?_⟩
  · rw [l2, outs_append]
  · rw [l2, outs_append, List.length_append] at hc
    have hm : (if max = 0 then 1 else max) = Nat.max 1 max := by
      show _ = Max.max 1 max
      split <;> omega
    rw [hm] at hc
    omega
  · intro m hm
    simp only [outs, List.mem_filterMap] at hm
    obtain ⟨p, hp, hpe⟩ := hm
    split at hpe
    · cases hpe
      exact l3 _ hp
    · cases hpe

/-- C52. No drift: if no tick is longer than what the limit allows, then, while the destination is open, the values given
are 0, 1, 2, ... one for each whole period since it was subscribed (and one more, if it starts on subscription). -/
theorem C52_interval_exact (hD : Closes D) (hd : 0 < d) (h : R.run (R.start { port := { dest := s } } x n) ops = .ok e)
    (hp : Paced (Nat.max 1 max * d) (R.start { port := { dest := s } } x n) ops) {k : Nat}
    (hb : e.world.ctx.1.begun = some k) (ho : D.isClosed e.world.ctx.1.port.dest = false) :
    (outs e.world.ctx.1.port.trace).map (·.1) =
      List.range ((e.world.sched.currentTick - k) / d + if start then 1 else 0) := by
  have hlen : ∀ (ops : List R.Op) (e : Exec R.env), R.run (R.start { port := { dest := s } } x n) ops = .ok e →
      Paced (Nat.max 1 max * d) (R.start { port := { dest := s } } x n) ops →
      Interval.Full D d start e.world.sched.currentTick e.world.ctx.1 := by
    intro ops
    induction ops using Rx.snoc_induction with
    | nil => intro e h _; cases h; exact .inr (.inl ⟨rfl, rfl⟩)
    | snoc ops op ih =>
      intro e h hp
      obtain ⟨e1, h1, h2⟩ := Rest.run_append ops op h
      obtain ⟨p1, p2⟩ := paced_snoc hp
      have hf := ih e1 h1 p1
      have hp2 := p2 e1 h1 e h2
      have tk : ∀ t, e1.tickTo t = .ok e → Interval.Full D d start e.world.sched.currentTick e.world.ctx.1 := by
        intro t ht
        obtain ⟨s0, y, k1, k2, k3, k4, k5, k6, k7, k8, k9, k10⟩ := solo_of_tick h1 ht
        rw [← k9, ← k10]
        refine Interval.full_tick hD hd k1 k2 k5 k7 k8 (by rw [k3, k4]; exact hf) ?_
        rw [k4, k10]
        have hm : (if max = 0 then 1 else max) = Nat.max 1 max := by
          show _ = Max.max 1 max
          split <;> omega
        rw [hm]
        exact hp2
      cases op with
      | act a =>
        cases h2
        obtain ⟨s0, y, k1, k2, k3, k4, k5, k6, k7, k8⟩ := solo_of_act (a := a) h1
        rw [← k6, ← k7]
        exact Interval.full_inner hD k5 k2 (by rw [k3, k4]; exact hf)
      | tickTo t => exact tk t h2
      | tick t => exact tk _ h2
  rw [Interval.allowed_range (C52_interval_allowed hD hd h).1]
  congr 1
  rcases hlen ops e h hp with hf | ⟨hf, _⟩ | ⟨k', hf, _, hl⟩
  · rw [hf] at ho; cases ho
  · rw [hf] at hb; cases hb
  · rw [hb] at hf
    cases hf
    exact hl

end Interval

/-! ### Concrete cases -/

/-- A timer that is subscribed at time 2, and ticked before and after its time. -/
example : (after (c := timer (observerSubscriber (I := Unit) (E := Nat)) 3) { port := { dest := .new } }
    [.tickTo 2, .act (.input .subscribe), .tickTo 4, .tickTo 7, .tickTo 20]).map (fun s => (s.port.trace, s.begun)) =
      some ([(.out (.next ()), 7), (.out .complete, 7)], some 2) := by
  decide +kernel

/-- One that is unsubscribed in time. -/
example : (after (c := timer (observerSubscriber (I := Unit) (E := Nat)) 3) { port := { dest := .new } }
    [.act (.input .subscribe), .tickTo 2, .act (.input .unsubscribe), .tickTo 20]).map (fun s => s.port.trace) =
      some ([(.arrived .unsubscribe, 2), (.out .unsubscribe, 2)]) := by
  decide +kernel

/-- An interval with period 2 that is subscribed at time 1: at most three values in a tick. -/
example : (after (c := interval obs 2 false 3) { port := { dest := .new } }
    [.tickTo 1, .act (.input .subscribe), .tickTo 2, .tickTo 4, .tickTo 9, .tickTo 30, .act (.input .unsubscribe),
     .tickTo 40]).map (fun s => s.port.trace) =
      some [(.out (.next 0), 4), (.out (.next 1), 9), (.out (.next 2), 9), (.out (.next 3), 9), (.out (.next 4), 30),
        (.out (.next 5), 30), (.out (.next 6), 30), (.arrived .unsubscribe, 30), (.out .unsubscribe, 30)] := by
  decide +kernel

/-- One that starts on subscription, in a history that keeps the pace. -/
example : (after (c := interval obs 2 true 0) { port := { dest := .new } }
    [.act (.input .subscribe), .tickTo 1, .tickTo 3, .tickTo 4]).map (fun s => s.port.trace) =
      some [(.out (.next 0), 0), (.out (.next 1), 3), (.out (.next 2), 4)] := by
  decide +kernel

example : Paced (Nat.max 1 0 * 2) ((feeder (interval obs 2 true 0)).start { port := { dest := .new } } () 10)
    [.act (.input .subscribe), .tickTo 1, .tickTo 3, .tickTo 4] :=
  Gentle.paced (ops0 := []) rfl ⟨by decide, by decide, by decide, trivial⟩

/-- The pace is needed: when a tick is longer, values are skipped (they do not come later). -/
theorem C52_skips : (after (c := interval obs 2 false 1) { port := { dest := .new } }
    [.act (.input .subscribe), .tickTo 8, .tickTo 10]).map (fun s => s.port.trace) =
      some [(.out (.next 0), 8), (.out (.next 1), 10)] := by
  decide +kernel
end Rx.Timed.Props
