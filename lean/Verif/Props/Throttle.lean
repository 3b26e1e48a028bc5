import Verif.Lemmas.ThrottleSafe
import Verif.Props.Timed

/-!
# C49: throttle_time

See `Verif.Props.Timed` for what a history is. The property as stated does not hold: see the counterexamples at the end.
What holds is proved here.
-/

namespace Rx.Timed.Props
open Rx.Sched Rx.Timed Rx.Timed.Throttle
open Rx.HigherOrder (Closes Patient)

variable {S I E : Type} {D : Sub S I E} {s : S} {d : Nat}

section Throttle
variable {o : Output} {R : Rest (throttle D o d)} {x : R.Ctx} {n : Nat} {ops : List R.Op} {e0 e : Exec R.env}

theorem throttle_sound (hD : Closes D) (h : R.run (R.start { port := { dest := s } } x n) ops = .ok e) :
    Sound D s o e.world.sched.currentTick e.world.ctx.1 := by
  obtain ⟨y, h1, _, h3, h4⟩ := solo_of_run h
  rw [← h3, ← h4]
  exact (sound_stable hD s o d _).reach (Sound.init D s o) h1

/-- C49. At every moment `throttle_time` does only what it may: it gives values that arrived, on arrival if leading values
are wanted, or later if trailing ones are; with trailing values only, always the newest; completion and unsubscription only
after they arrived; errors at once. What the destination has got is what the record says. -/
theorem C49_throttle_allowed_partial (hD : Closes D) (h : R.run (R.start { port := { dest := s } } x n) ops = .ok e) :
    Throughout (Throttle.Allowed D s o) e.world.ctx.1.port.trace ∧
    e.world.ctx.1.port.dest = fed D s e.world.ctx.1.port.trace := by
  have hs := throttle_sound hD h
  exact ⟨hs.weak.allowed, hs.weak.right.fed⟩

/-- C49. No value is given more often than it arrived. -/
theorem C49_throttle_no_duplicates (hD : Closes D) (h : R.run (R.start { port := { dest := s } } x n) ops = .ok e) :
    ∃ dropped, ((outs e.world.ctx.1.port.trace).map (·.1) ++ dropped).Perm
      ((arrivals e.world.ctx.1.port.trace).map (·.1)) :=
  (throttle_sound hD h).weak.perm

/-- C49. Values are given in the order in which they arrived, unless both leading and trailing values are wanted
(then they need not be: `C49_out_of_order`). -/
theorem C49_throttle_order_partial (hD : Closes D) (h : R.run (R.start { port := { dest := s } } x n) ops = .ok e)
    (ho : o ≠ .leadingAndTrailing) :
    ((outs e.world.ctx.1.port.trace).map (·.1)).Sublist ((arrivals e.world.ctx.1.port.trace).map (·.1)) :=
  (throttle_sound hD h).weak.order ho

/-- C49. With trailing values only, if time does not go back, any two deliveries are at least one duration apart. -/
theorem C49_trailing_rate {R : Rest (throttle D .trailingOnly d)} {x : R.Ctx} {ops : List R.Op} {e : Exec R.env}
    (hD : Closes D) (hf : R.Forward (R.start { port := { dest := s } } x n) ops)
    (h : R.run (R.start { port := { dest := s } } x n) ops = .ok e) :
    Apart d 1 (outs e.world.ctx.1.port.trace) := by
  obtain ⟨y, h1, _, h3, _⟩ := solo_of_forward hf h
  rw [← h3]
  exact (rated_freach (pace_trailing d) hD (.nil _ _) ⟨.nil _ _, (fun x hx => by cases hx)⟩ h1).all

/-- C49. With leading values only, a delivery and the second next one are at least one duration apart (but not two
deliveries in a row: `C49_leading_too_close`). -/
theorem C49_leading_rate_partial {R : Rest (throttle D .leadingOnly d)} {x : R.Ctx} {ops : List R.Op} {e : Exec R.env}
    (hD : Closes D) (hf : R.Forward (R.start { port := { dest := s } } x n) ops)
    (h : R.run (R.start { port := { dest := s } } x n) ops = .ok e) :
    Apart d 2 (outs e.world.ctx.1.port.trace) := by
  obtain ⟨y, h1, _, h3, _⟩ := solo_of_forward hf h
  rw [← h3]
  refine (rated_freach (pace_leading d) hD (.nil _ _) ⟨fun _ => ⟨.nil _ _, ?_⟩, (fun x hx => by cases hx)⟩ h1).all
  intro i a ha; simp at ha

/-- C49. And, on average, there is at most one delivery per duration: the `i`-th is not before `i` durations have passed. -/
theorem C49_leading_average {R : Rest (throttle D .leadingOnly d)} {x : R.Ctx} {ops : List R.Op} {e : Exec R.env}
    (hD : Closes D) (hf : R.Forward (R.start { port := { dest := s } } x n) ops)
    (h : R.run (R.start { port := { dest := s } } x n) ops = .ok e) {i : Nat} {a : I × Nat}
    (ha : (outs e.world.ctx.1.port.trace)[i]? = some a) : i * d ≤ a.2 := by
  obtain ⟨y, h1, _, h3, _⟩ := solo_of_forward hf h
  rw [← h3] at ha
  exact (rated_freach (pace_leading_average d) hD (by intro i a ha; simp at ha) (by simp) h1).all i a ha

/-- C49. With both leading and trailing values, a delivery and the third next one are at least one duration apart (but not
closer ones: `C49_cooldown_too_short`). -/
theorem C49_both_rate_partial {R : Rest (throttle D .leadingAndTrailing d)} {x : R.Ctx} {ops : List R.Op}
    {e : Exec R.env}
    (hD : Closes D) (hf : R.Forward (R.start { port := { dest := s } } x n) ops)
    (h : R.run (R.start { port := { dest := s } } x n) ops = .ok e) :
    Apart d 3 (outs e.world.ctx.1.port.trace) := by
  obtain ⟨y, h1, _, h3, _⟩ := solo_of_forward hf h
  rw [← h3]
  refine (rated_freach (pace_both d) hD (.nil _ _) ⟨fun _ => ⟨.nil _ _, ?_⟩, (fun x hx => by cases hx)⟩ h1).all
  intro i a ha; simp at ha

/-- C49. And, on average, there are at most two deliveries per duration. -/
theorem C49_both_average {R : Rest (throttle D .leadingAndTrailing d)} {x : R.Ctx} {ops : List R.Op} {e : Exec R.env}
    (hD : Closes D) (hf : R.Forward (R.start { port := { dest := s } } x n) ops)
    (h : R.run (R.start { port := { dest := s } } x n) ops = .ok e) {i : Nat} {a : I × Nat}
    (ha : (outs e.world.ctx.1.port.trace)[i]? = some a) : (i + 1) / 2 * d ≤ a.2 := by
  obtain ⟨y, h1, _, h3, _⟩ := solo_of_forward hf h
  rw [← h3] at ha
  refine (rated_freach (pace_both_average d) hD (by intro i a ha; simp at ha) ⟨fun _ => ?_, (fun x hx => by cases hx)⟩
    h1).all i a ha
  simp

/-- C49. Once the stream has ended (at `k`), the destination is closed by any tick at least one duration later. -/
theorem C49_throttle_ends (hD : Closes D) (hd : 0 < d)
    (h0 : R.run (R.start { port := { dest := s } } x n) ops = .ok e0) {t k : Nat} (h1 : e0.tickTo t = .ok e)
    (hp : e.world.ctx.1.panicked = false) {m : SubscriberNotification I E} (hm : Final m)
    (ha : (.arrived m, k) ∈ e.world.ctx.1.port.trace) (hk : k + d ≤ t) :
    D.isClosed e.world.ctx.1.port.dest = true := by
  obtain ⟨s0, y, k1, k2, _, _, k5, k6, k7, k8, k9, k10⟩ := solo_of_tick h0 h1
  have hr : Solo.Reachable ({ port := { dest := s } } : Throttle.State S I E) y :=
    (k1.tail (.start s0 t k2)).trans k5.steps
  rw [← k9] at hp ha ⊢
  cases hc : D.isClosed y.st.port.dest with
  | true => rfl
  | false =>
    exfalso
    obtain ⟨f1, f2⟩ := (timely_stable (o := o) (d := d) hD s).reach (st := ({ port := { dest := s } } : Throttle.State S I E))
      ⟨Sound.init D s o, (Well.init D s o d).timely⟩ hr
    have hup : y.st.up.isClosed = true := ((f1.core hp).ended m hm ⟨k, ha⟩).resolve_left (by rw [hc]; simp)
    obtain ⟨dl, g1, g2, g3⟩ := f2.ended hd hp hc hup
    have hop := openInv hD hr rfl hp hc
    rcases hop.works with ⟨w1, _⟩ | ⟨dl', l, w1, ⟨f, w2, _⟩ | ⟨_, w3⟩⟩
    · rw [w1] at g1; cases g1
    · have hf : f = true := k7 (.continuous l (), f) (by rw [w2]; simp)
      subst hf
      have hl := hop.ticked t k6 _ w2
      have := f2.kept hd g2 dl g1
      have := g3 m k hm ha
      omega
    · rw [k8] at w3; cases w3

/-- C49. An error that arrives while the destination is open is given at once (if there was no panic); pending values are
never given. -/
theorem C49_throttle_error (hD : Closes D) (h : R.run (R.start { port := { dest := s } } x n) ops = .ok e)
    (hp : e.world.ctx.1.panicked = false) {past rest : Line I I E} {u : E} {k : Nat}
    (ht : e.world.ctx.1.port.trace = past ++ (.arrived (.error u), k) :: rest)
    (ho : D.isClosed (fed D s past) = false) :
    ∃ rest', rest = (.out (.error u), k) :: rest' ∧ ∀ m ∈ rest', ∃ n, m.1 = .arrived n := by
  have hs := throttle_sound hD h
  obtain ⟨hall, hf⟩ := C49_throttle_allowed_partial hD h
  have hfed : fed D s (past ++ [(.arrived (.error u), k)]) = fed D s past := fed_arrived ..
  cases rest with
  | nil =>
    exfalso
    have := (hs.core hp).atOnce u k (by rw [ht]; simp)
    rw [hf, ht, hfed, ho] at this
    cases this
  | cons m rest' =>
    have hm := hall (past ++ [(.arrived (.error u), k)]) m rest' (by rw [ht]; simp)
    have hme := hm.atOnce u k (by simp) (by rw [hfed]; exact ho)
    subst hme
    refine ⟨rest', rfl, closed_end (past := past ++ [(.arrived (.error u), k), (.out (.error u), k)])
      (hall.imp (fun τ m h => h.orderly) |> fun h => by rw [ht] at h; simpa using h) ?_⟩
    rw [show past ++ [(.arrived (.error u), k), (.out (.error u), k)] =
      (past ++ [(.arrived (.error u), k)]) ++ [(.out (.error u), k)] by simp, fed_out]
    exact hD _ _ rfl

/-- C49. `throttle_time` does not panic, if the duration is not zero or trailing values are wanted, upstream ends once,
and it does not end during a tick (it may be unsubscribed during a tick when the destination is closed). The conditions
are needed: `C49_panics`, `C49_panics_zero`. -/
theorem C49_no_panic_partial (hD : Closes D) (hd : 0 < d ∨ o ≠ .leadingOnly)
    (hg : R.During (fun st st' : Throttle.State S I E => Mild D s st.port.trace st'.port.trace)
      (R.start { port := { dest := s } } x n) ops)
    (h : R.run (R.start { port := { dest := s } } x n) ops = .ok e) (ho : Throughout Once e.world.ctx.1.port.trace) :
    e.world.ctx.1.panicked = false :=
  well_run hD hd hg h ho

end Throttle

/-! ### Concrete cases -/

/-- Trailing values: the newest one of each window. -/
example : (after (c := throttle obs .trailingOnly 10) { port := { dest := .new } }
    [.act (.input (.note (.next 1))), .tickTo 4, .act (.input (.note (.next 2))), .tickTo 10,
     .act (.input (.note (.next 3))), .tickTo 15, .tickTo 20, .act (.input (.note (.next 4))),
     .act (.input (.note .complete)), .tickTo 30]).map (fun s => (outs s.port.trace, s.port.dest.seen, s.panicked)) =
    some ([(2, 10), (3, 20), (4, 30)], [.next 2, .next 3, .next 4, .complete], false) := by
  decide +kernel

/-- Leading values. -/
example : (after (c := throttle obs .leadingOnly 10) { port := { dest := .new } }
    [.act (.input (.note (.next 1))), .tickTo 4, .act (.input (.note (.next 2))), .tickTo 10, .tickTo 11,
     .act (.input (.note (.next 3))), .act (.input (.note (.error 9)))]).map
      (fun s => (s.port.trace, s.port.dest.seen)) =
    some ([(.arrived (.next 1), 0), (.out (.next 1), 0), (.arrived (.next 2), 4), (.arrived (.next 3), 11),
      (.out (.next 3), 11), (.arrived (.error 9), 11), (.out (.error 9), 11)], [.next 1, .next 3, .error 9]) := by
  decide +kernel

/-- The conditions of `C49_no_panic_partial` are met: a value arrives in the tick, the end between ticks. -/
example : (feeder (throttle obs .leadingOnly 10)).During
    (fun st st' : Throttle.State _ _ _ => Mild obs .new st.port.trace st'.port.trace)
    ((feeder (throttle obs .leadingOnly 10)).start { port := { dest := .new } } () 10)
    [.act (.call (.scheduleWork (.newDelayed [.note (.next 1)] 2) 7)), .tickTo 2, .act (.input (.note .complete))] := by
  intro e1 h1
  refine ⟨trivial, fun e2 h2 => ⟨?_, fun _ _ => ⟨trivial, trivial⟩⟩⟩
  have key : (match (feeder (throttle obs .leadingOnly 10)).run
      ((feeder (throttle obs .leadingOnly 10)).start { port := { dest := .new } } () 10)
      [.act (.call (.scheduleWork (.newDelayed [.note (.next 1)] 2) 7)), .tickTo 2] with
      | .ok e => some e.world.ctx.1.port.trace
      | _ => none) = some [(.arrived (.next 1), 2), (.out (.next 1), 2)] := by decide +kernel
  simp only [Rest.run, h1, h2, Option.some.injEq] at key
  dsimp only
  rw [key]
  rintro past m rest he _ n hn hf
  rcases past with _ | ⟨a, _ | ⟨b, past⟩⟩
  · simp only [List.nil_append, List.cons.injEq] at he
    rw [← he.1] at hn
    cases hn
    exact absurd rfl (hf 1)
  · simp only [List.cons_append, List.nil_append, List.cons.injEq] at he
    rw [← he.2.1] at hn
    cases hn
  · simp at he

/-- A run with values in a tick, and the end afterwards. -/
example : (after (c := throttle obs .leadingAndTrailing 10) { port := { dest := .new } }
    [.act (.call (.scheduleWork (.newDelayed [.note (.next 1), .note (.next 2)] 2) 7)), .tickTo 2, .tickTo 10,
     .act (.input (.note (.next 3))), .act (.input (.note .complete)), .tickTo 20]).map
      (fun s => (outs s.port.trace, s.port.dest.seen, s.panicked)) =
    some ([(1, 2), (2, 10), (3, 20)], [.next 1, .next 2, .next 3, .complete], false) := by
  decide +kernel

/-! ### Where the property fails -/

/-- After a pause, windows start in the past, so two leading values are given one after the other. -/
theorem C49_leading_too_close : (after (c := throttle obs .leadingOnly 10) { port := { dest := .new } }
    [.tickTo 100, .act (.input (.note (.next 1))), .tickTo 101, .act (.input (.note (.next 2)))]).map
      (fun s => outs s.port.trace) = some [(1, 100), (2, 101)] := by
  decide +kernel

/-- After a trailing value, the next tick ends the window, and the next value is given at once. -/
theorem C49_cooldown_too_short : (after (c := throttle obs .leadingAndTrailing 10) { port := { dest := .new } }
    [.act (.input (.note (.next 1))), .tickTo 5, .act (.input (.note (.next 2))), .tickTo 10, .tickTo 11,
     .act (.input (.note (.next 3)))]).map
      (fun s => outs s.port.trace) = some [(1, 0), (2, 10), (3, 11)] := by
  decide +kernel

/-- If no tick comes at the very end of the window, the trailing value is kept, and given after a later value. -/
theorem C49_out_of_order : (after (c := throttle obs .leadingAndTrailing 10) { port := { dest := .new } }
    [.act (.input (.note (.next 1))), .tickTo 5, .act (.input (.note (.next 2))), .tickTo 11,
     .act (.input (.note (.next 3))), .tickTo 21]).map
      (fun s => outs s.port.trace) = some [(1, 0), (3, 11), (2, 21)] := by
  decide +kernel

/-- A trailing value is never given, although ticks come: they do not come at the very end of the window. -/
theorem C49_trailing_lost : (after (c := throttle obs .trailingOnly 10) { port := { dest := .new } }
    [.tickTo 11, .act (.input (.note (.next 1))), .tickTo 12, .tickTo 22, .tickTo 33]).map
      (fun s => outs s.port.trace) = some [] := by
  decide +kernel

/-- It is lost when the stream completes, too. -/
theorem C49_lost_at_completion : (after (c := throttle obs .trailingOnly 10) { port := { dest := .new } }
    [.act (.input (.note (.next 1))), .act (.input (.note .complete)), .tickTo 12]).map
      (fun s => s.port.dest.seen) = some [.complete] := by
  decide +kernel

/-- Completion that arrives in a tick, from work scheduled before, makes the scheduled work panic. -/
theorem C49_panics : (after (c := throttle obs .leadingOnly 10) { port := { dest := .new } }
    [.act (.call (.scheduleWork (.newDelayed [.note .complete] 2) 7)), .act (.input (.note (.next 1))), .tickTo 2]).map
      (fun s => s.panicked) = some true := by
  decide +kernel

/-- With a zero duration and leading values only, the second value panics. -/
theorem C49_panics_zero : (after (c := throttle obs .leadingOnly 0) { port := { dest := .new } }
    [.act (.input (.note (.next 1))), .act (.input (.note (.next 1)))]).map
      (fun s => s.panicked) = some true := by
  decide +kernel

end Rx.Timed.Props
