import Verif.Lemmas.TimedSources

/-!
# interval
-/

namespace Rx.Timed.Interval
open Rx.Sched
open Rx.HigherOrder (Closes)

variable {S E : Type} {D : Sub S Nat E} {s0 : S} {d max now : Nat} {start : Bool}

/-- What always holds. -/
abbrev Safe (D : Sub S Nat E) (s0 : S) (d : Nat) (start : Bool) (now : Nat) (s : Source.State S Nat E) : Prop :=
  s.port.Fits (Interval.Allowed D s0 d start s.begun) D s0 now

theorem unsubscribe {p : Port S Empty Nat E} {begun : Option Nat} (h : p.Fits (Interval.Allowed D s0 d start begun) D s0 now) :
    ((p.mark (.arrived .unsubscribe) now).give D .unsubscribe now).Fits (Interval.Allowed D s0 d start begun) D s0 now := by
  have h1 := h.mark (n := .unsubscribe) ⟨plain_arrived h.right, (fun v h => by cases h), (fun h => by cases h)⟩
  have hl : (p.mark (.arrived .unsubscribe) now).trace.getLast? = some (.arrived .unsubscribe, now) := by simp [Port.mark]
  exact h1.give (fun ho => ⟨plain_unsubscribe h1.right ho hl, (fun v h => by cases h), (fun h => by cases h)⟩)

theorem close {p : Port S Empty Nat E} {begun : Option Nat} (h : p.Fits (Interval.Allowed D s0 d start begun) D s0 now) :
    (p.close D now).Fits (Interval.Allowed D s0 d start begun) D s0 now :=
  h.close (fun ho => ⟨plain_closed h.right ho, (fun v h => by cases h), (fun h => by cases h)⟩)

theorem give {p : Port S Empty Nat E} {begun : Option Nat} (h : p.Fits (Interval.Allowed D s0 d start begun) D s0 now)
    {k : Nat} (hk : begun = some k) (hn : k + ((outs p.trace).length + if start then 0 else 1) * d ≤ now) :
    (p.give D (.next (outs p.trace).length) now).Fits (Interval.Allowed D s0 d start begun) D s0 now :=
  h.give (fun hc => ⟨plain_next h.right hc _, (fun v hv => by cases hv; exact ⟨rfl, k, hk, hn⟩), (fun h => by cases h)⟩)

/-- Closed. -/
def Dead (D : Sub S Nat E) (s0 : S) (d : Nat) (start : Bool) (now : Nat) (s : Source.State S Nat E) : Prop :=
  D.isClosed s.port.dest = true ∧ Safe D s0 d start now s

/-- Not subscribed yet. -/
structure Idle (D : Sub S Nat E) (s0 : S) (d : Nat) (start : Bool) (now : Nat) (s : Source.State S Nat E) : Prop where
  safe : Safe D s0 d start now s
  begun : s.begun = none
  outs : outs s.port.trace = []

/-- How many values were given when `q` periods are over: `acc` says what is known before the work is ticked. -/
def Counted (max : Nat) (acc : (given periods : Nat) → Prop) (q given : Nat) : Solo.Phase → Prop
  | .queued => acc given 0
  | .due _ => acc given q
  | .ticked => ∃ n0 q0, acc n0 q0 ∧ q0 ≤ q ∧ given = n0 + min max (q - q0)

/-- Subscribed, with `q` periods over. -/
structure Busy (D : Sub S Nat E) (s0 : S) (d : Nat) (start : Bool) (max : Nat) (acc : Nat → Nat → Nat → Prop) (now : Nat)
    (f : Solo.Phase) (w : Work Nat) (s : Source.State S Nat E) : Prop where
  live : D.isClosed s.port.dest = false
  safe : Safe D s0 d start now s
  work : ∃ k q cur, s.begun = some k ∧ w = .repeating false (k + q * d) cur d (if max = 0 then 1 else max) (outs s.port.trace).length ∧
    k + q * d ≤ cur ∧ cur < k + q * d + d ∧ cur ≤ now ∧ (outs s.port.trace).length ≤ q + (if start then 1 else 0) ∧
    Counted (if max = 0 then 1 else max) (acc k) q (outs s.port.trace).length f ∧
    (∀ t, f = .due t → Nat.max cur t = now) ∧ (f = .queued → cur = now ∧ q = 0) ∧ (f = .ticked → cur = now)

theorem outs_give {p : Port S Empty Nat E} (hc : D.isClosed p.dest = false) (v : Nat) :
    outs (p.give D (.next v) now).trace = outs p.trace ++ [(v, now)] := by
  rw [Port.give_open hc]
  show outs (p.trace ++ _) = _
  rw [outs_append, outs_next]

theorem exec_dead (b t : Nat) {s : Source.State S Nat E} (h : Dead D s0 d start now s) :
    Dead D s0 d start now ((interval D d start max).exec b t now s).2.1 := by
  show Dead D s0 d start now (if D.isClosed s.port.dest = true then _ else _ : Nat × Source.State S Nat E × List (Req Nat) × WorkResult).2.1
  rw [if_pos h.1]
  exact h

theorem exec_open (b t : Nat) {s : Source.State S Nat E} (h : D.isClosed s.port.dest = false) :
    (interval D d start max).exec b t now s = (b + 1, { s with port := s.port.give D (.next b) now },
      s.port.teardown D (s.port.give D (.next b) now), .pending) := by
  show (if D.isClosed s.port.dest = true then _ else _ : Nat × Source.State S Nat E × List (Req Nat) × WorkResult) = _
  rw [if_neg (by rw [h]; simp)]

/-- The loop of the work. -/
theorem loop {t k cur m : Nat} : ∀ (fuel : Nat) {q ex : Nat} {s : Solo (interval D d start max)} {y},
    D.isClosed s.st.port.dest = false → Safe D s0 d start s.clock s.st → s.st.begun = some k →
    k + q * d ≤ cur → cur ≤ s.clock → (outs s.st.port.trace).length ≤ q + (if start then 1 else 0) →
    Solo.repLoop t cur d m fuel false (k + q * d) ex .pending (outs s.st.port.trace).length s = some y →
    Dead D s0 d start s.clock y.2.2.1.st ∨
    (y.2.2.1.queue = s.queue ∧ y.2.2.2 = .pending ∧ D.isClosed y.2.2.1.st.port.dest = false ∧
      Safe D s0 d start s.clock y.2.2.1.st ∧ y.2.2.1.st.begun = some k ∧
      ∃ j, y.1 = k + (q + j) * d ∧ y.1 ≤ cur ∧ cur < y.1 + d ∧ y.2.1 = (outs y.2.2.1.st.port.trace).length ∧
        (outs y.2.2.1.st.port.trace).length = (outs s.st.port.trace).length + min (m - ex) j ∧
        (outs y.2.2.1.st.port.trace).length ≤ q + j + (if start then 1 else 0)) := by
  intro fuel
  induction fuel with
  | zero => intro q ex s y _ _ _ _ _ _ hy; cases hy
  | succ fuel ih =>
    intro q ex s y hc hs hb hq hcl hn hy
    simp only [Solo.repLoop] at hy
    by_cases hcond : k + q * d + d ≤ cur
    · rw [if_pos (.inl ⟨hcond, by simp⟩)] at hy
      have hq1 : k + q * d + d = k + (q + 1) * d := by rw [Nat.add_mul]; omega
      by_cases he : ex < m
      · simp only [if_pos he] at hy
        have hbody : Solo.runBody t (outs s.st.port.trace).length s = ((outs s.st.port.trace).length + 1,
            (s.st.port.teardown D (s.st.port.give D (.next (outs s.st.port.trace).length) s.clock)).foldl Solo.request
              { s with st := { s.st with port := s.st.port.give D (.next (outs s.st.port.trace).length) s.clock } }, .pending) := by
          unfold Solo.runBody
          rw [exec_open _ _ hc]
        have hs1 : Safe D s0 d start s.clock { s.st with port := s.st.port.give D (.next (outs s.st.port.trace).length) s.clock } := by
          refine give hs hb ?_
          have : (outs s.st.port.trace).length + (if start = true then 0 else 1) ≤ q + 1 := by
            cases start <;> simp at hn ⊢ <;> omega
          have := Nat.mul_le_mul_right d this
          omega
        cases hc1 : D.isClosed (s.st.port.give D (.next (outs s.st.port.trace).length) s.clock).dest with
        | true =>
          left
          have := Solo.repLoop_keeps (P := fun x => x.clock = s.clock ∧ Dead D s0 d start s.clock x.st) (by
            intro b x hx
            refine ⟨(Solo.runBody_keeps _ _ _).clock.trans hx.1, ?_⟩
            rw [Solo.runBody_st, hx.1]
            exact exec_dead _ _ hx.2) fuel (by
              refine ⟨(Solo.runBody_keeps _ _ _).clock, ?_⟩
              rw [Solo.runBody_st, exec_open _ _ hc]
              exact ⟨hc1, hs1⟩) hy
          exact this.2
        | false =>
          rw [hbody, Port.teardown_of_open hc1] at hy
          dsimp only [List.foldl_nil] at hy
          have hlen : (outs s.st.port.trace).length + 1 =
              (outs (s.st.port.give D (.next (outs s.st.port.trace).length) s.clock).trace).length := by
            rw [outs_give hc]; simp
          rw [hlen] at hy
          rw [hq1] at hy
          rcases ih (q := q + 1) (s := { s with st := { s.st with port := s.st.port.give D (.next (outs s.st.port.trace).length) s.clock } })
            hc1 hs1 hb (by omega) hcl (by rw [← hlen]; omega) hy with h | ⟨h1, h2, h3, h4, h5, j, h6, h7, h8, h9, h10, h11⟩
          · exact .inl h
          · refine .inr ⟨h1, h2, h3, h4, h5, j + 1, by rw [h6]; congr 2; omega, h7, h8, h9, ?_, by omega⟩
            rw [h10, ← hlen]
            omega
      · simp only [if_neg he] at hy
        rw [if_neg (by simp), hq1] at hy
        rcases ih (q := q + 1) hc hs hb (by omega) hcl (by omega) hy with h | ⟨h1, h2, h3, h4, h5, j, h6, h7, h8, h9, h10, h11⟩
        · exact .inl h
        · refine .inr ⟨h1, h2, h3, h4, h5, j + 1, by rw [h6]; congr 2; omega, h7, h8, h9, ?_, by omega⟩
          rw [h10]
          omega
    · rw [if_neg (by
        rintro (h | h)
        · exact hcond h.1
        · cases h)] at hy
      cases hy
      exact .inr ⟨rfl, rfl, hc, hs, hb, 0, rfl, hq, by omega, rfl, by simp, by omega⟩

variable {acc : Nat → Nat → Nat → Prop} {idle : Nat → Source.State S Nat E → Prop}

theorem busy_single (hD : Closes D)
    (hidle : ∀ i now s, idle now s → Dead D s0 d start now ((interval D d start max).input i now s).1 ∨
      (((interval D d start max).input i now s).2 = [] ∧ idle now ((interval D d start max).input i now s).1) ∨
      ∃ w, ((interval D d start max).input i now s).2 = [.schedule w] ∧
        Busy D s0 d start max acc now .queued (w.onScheduled now) ((interval D d start max).input i now s).1) :
    Solo.Single (interval D d start max) (Dead D s0 d start) idle (Busy D s0 d start max acc) where
  dead_exec b t now s _ h := exec_dead b t h
  dead_input i now s h := by
    cases i with
    | subscribe =>
      show Dead D s0 d start now (if s.begun.isSome = true then (s, []) else _ : Source.State S Nat E × List (Req Nat)).1
      split
      · exact h
      · rename_i hb
        refine ⟨?_, ?_⟩
        · show D.isClosed (if start = true then s.port.give D (.next 0) now else s.port).dest = true
          split
          · rw [Port.give_closed h.1]; exact h.1
          · exact h.1
        · show (if start = true then s.port.give D (.next 0) now else s.port).Fits (Interval.Allowed D s0 d start (some now)) D s0 now
          rw [Port.give_closed h.1, ite_self]
          refine h.2.imp ?_
          intro τ m hm
          refine ⟨hm.toPlain, fun v hv => ?_, hm.complete⟩
          obtain ⟨_, k, hk, _⟩ := hm.value v hv
          rw [hk] at hb
          exact absurd rfl hb
    | unsubscribe =>
      show Dead D s0 d start now (if s.begun.isNone = true then (s, []) else _ : Source.State S Nat E × List (Req Nat)).1
      split
      · exact h
      · exact ⟨Port.give_isClosed hD _ _ rfl, unsubscribe h.2⟩
    | close => exact ⟨Port.close_isClosed hD _ _, close h.2⟩
  idle_input := hidle
  busy_input i now f w s h := by
    obtain ⟨k, q, cur, hk, _⟩ := h.work
    cases i with
    | subscribe =>
      refine .inr ?_
      show (if s.begun.isSome = true then (s, []) else _ : Source.State S Nat E × List (Req Nat)).2 = _ ∧
        Busy D s0 d start max acc now f w (if s.begun.isSome = true then (s, []) else _ : Source.State S Nat E × List (Req Nat)).1
      rw [hk]
      exact ⟨rfl, h⟩
    | unsubscribe =>
      refine .inl ?_
      show Dead D s0 d start now (if s.begun.isNone = true then (s, []) else _ : Source.State S Nat E × List (Req Nat)).1
      rw [if_neg (by rw [hk]; simp)]
      exact ⟨Port.give_isClosed hD _ _ rfl, unsubscribe h.safe⟩
    | close => exact .inl ⟨Port.close_isClosed hD _ _, close h.safe⟩
  work t s w w' s' res ht h hw := by
    obtain ⟨k, q, cur, hk, rfl, hq, hcur, hnow, hlen, hcnt, hmax, _⟩ := h.work
    have hmax := hmax t rfl
    have hcl : updateTick cur t = s.clock := by rw [updateTick_max]; exact hmax
    simp only [Solo.tickWork, hcl] at hw
    split at hw
    · rename_i cu b s1 res' hr
      cases hw
      rcases loop (m := if max = 0 then 1 else max) _ h.live h.safe hk (by omega) (Nat.le_refl _) hlen hr with
        h1 | ⟨h1, h2, h3, h4, h5, j, h6, h7, h8, h9, h10, h11⟩
      · exact .inl h1
      · dsimp only at *
        subst h6 h9 h2
        refine .inr ⟨h1, .inr ⟨by simp, h3, h4, k, q + j, s.clock, h5, rfl, h7, h8, Nat.le_refl _, h11,
          ⟨_, q, hcnt, by omega, ?_⟩, by simp, by simp, by simp⟩⟩
        rw [h10]
        congr 2
        · omega
    · cases hw
  pass t now w s ht h := by
    obtain ⟨k, q, cur, hk, rfl, hq, hcur, hnow, hlen, hcnt, _, hqd, _⟩ := h.work
    obtain ⟨rfl, rfl⟩ := hqd rfl
    exact ⟨h.live, h.safe, k, 0, cur, hk, rfl, hq, hcur, hnow, hlen, hcnt,
      (fun t' ht' => by cases ht'; exact Nat.max_eq_left ht), by simp, by simp⟩

theorem idle_input (hD : Closes D) (hd : 0 < d) (i : Source.Input) {now : Nat} {s : Source.State S Nat E}
    (hacc : acc now (if start then 1 else 0) 0) (h : Idle D s0 d start now s) : Dead D s0 d start now ((interval D d start max).input i now s).1 ∨
      (((interval D d start max).input i now s).2 = [] ∧ Idle D s0 d start now ((interval D d start max).input i now s).1) ∨
      ∃ w, ((interval D d start max).input i now s).2 = [.schedule w] ∧
        Busy D s0 d start max acc now .queued (w.onScheduled now) ((interval D d start max).input i now s).1 := by
  cases i with
  | subscribe =>
    have hi : (interval D d start max).input .subscribe now s =
        ({ s with port := if start then s.port.give D (.next 0) now else s.port, begun := some now },
          .schedule (.newRepeating (if start then 1 else 0) d false max) ::
            if D.isClosed (if start then s.port.give D (.next 0) now else s.port).dest then [.cancel] else []) := by
      show (if s.begun.isSome = true then (s, []) else _ : Source.State S Nat E × List (Req Nat)) = _
      rw [h.begun]
      rfl
    have hs : s.port.Fits (Interval.Allowed D s0 d start (some now)) D s0 now := h.safe.imp (fun τ m hm =>
      ⟨hm.toPlain, (fun v hv => by
        obtain ⟨_, k, hk, _⟩ := hm.value v hv
        rw [h.begun] at hk; cases hk), hm.complete⟩)
    have hs1 : (if start then s.port.give D (.next 0) now else s.port).Fits (Interval.Allowed D s0 d start (some now)) D s0 now := by
      cases start with
      | false => exact hs
      | true =>
        have := give (now := now) hs rfl (by rw [h.outs]; simp)
        rw [h.outs] at this
        exact this
    rw [hi]
    dsimp only
    cases hc : D.isClosed (if start then s.port.give D (.next 0) now else s.port).dest with
    | true => exact .inl ⟨hc, hs1⟩
    | false =>
      have hlen : (outs (if start then s.port.give D (.next 0) now else s.port).trace).length = if start then 1 else 0 := by
        cases start with
        | false => simp [h.outs]
        | true =>
          have : D.isClosed s.port.dest = false := by
            cases hc0 : D.isClosed s.port.dest with
            | false => rfl
            | true => rw [if_pos rfl, Port.give_closed hc0, hc0] at hc; cases hc
          simp [outs_give this, h.outs]
      refine .inr (.inr ⟨_, rfl, hc, hs1, now, 0, now, rfl, ?_, by omega, by omega, Nat.le_refl _, ?_, ?_, by simp, by simp, by simp⟩)
      · dsimp only
        rw [hlen]
        show Work.repeating false (updateTick 0 now) (updateTick 0 now) d _ _ = _
        rw [updateTick_zero]
        simp
      · dsimp only
        rw [hlen]
        omega
      · dsimp only
        rw [hlen]
        exact hacc
  | unsubscribe =>
    refine .inr (.inl ?_)
    show (if s.begun.isNone = true then (s, []) else _ : Source.State S Nat E × List (Req Nat)).2 = _ ∧
      Idle D s0 d start now (if s.begun.isNone = true then (s, []) else _ : Source.State S Nat E × List (Req Nat)).1
    rw [h.begun]
    exact ⟨rfl, h⟩
  | close => exact .inl ⟨Port.close_isClosed hD _ _, close h.safe⟩

theorem single (hD : Closes D) (hd : 0 < d) :
    Solo.Single (interval D d start max) (Dead D s0 d start) (Idle D s0 d start) (Busy D s0 d start max (fun _ _ _ => True)) :=
  busy_single hD (fun i _ _ h => idle_input hD hd i trivial h)

theorem Busy.begin {acc' : Nat → Nat → Nat → Prop} {f : Solo.Phase} {w : Work Nat} {s : Source.State S Nat E} (t : Nat)
    (hf : ∀ t', f ≠ .due t') (h : Busy D s0 d start max acc now f w s)
    (ha : ∀ k, s.begun = some k → acc' k (outs s.port.trace).length ((now - k) / d)) :
    Busy D s0 d start max acc' (Nat.max now t) (.due t) w s := by
  obtain ⟨k, q, cur, hk, rfl, hq, hcur, hnow, hlen, hcnt, _, hqd, htk⟩ := h.work
  have hcn : cur = now := by
    cases f with
    | queued => exact (hqd rfl).1
    | due t => exact absurd rfl (hf t)
    | ticked => exact htk rfl
  subst hcn
  have hdiv : (cur - k) / d = q := by
    have h1 : cur - k = q * d + (cur - k - q * d) := by omega
    have h2 : cur - k - q * d < d := by omega
    rw [h1, Nat.add_comm, Nat.add_mul_div_right _ _ (by omega), Nat.div_eq_of_lt h2]
    omega
  refine ⟨h.live, h.safe.mono (Nat.le_max_left ..), k, q, cur, hk, rfl, hq, hcur, Nat.le_max_left .., hlen, ?_,
    (fun t' ht' => by cases ht'; rfl), by simp, by simp⟩
  have := ha k hk
  rw [hdiv] at this
  exact this

theorem mono : Solo.Mono (c := interval D d start max) (Dead D s0 d start) (Idle D s0 d start)
    (Busy D s0 d start max (fun _ _ _ => True)) where
  dead _ _ _ hk h := ⟨h.1, h.2.mono hk⟩
  idle _ _ _ hk h := ⟨h.safe.mono hk, h.begun, h.outs⟩
  busy t _ _ _ _ hf h := h.begin t hf (fun _ _ => trivial)

theorem holds (hD : Closes D) (hd : 0 < d) {y : Solo (interval D d start max)}
    (h : Solo.Reachable (c := interval D d start max) { port := { dest := s0 } } y) :
    Solo.Holds (Dead D s0 d start) (Idle D s0 d start) (Busy D s0 d start max (fun _ _ _ => True)) y :=
  (single hD hd).reach mono ⟨Port.Fits.init _ _ _ _, rfl, rfl⟩ h

theorem safe {y : Solo (interval D d start max)}
    (h : Solo.Holds (Dead D s0 d start) (Idle D s0 d start) (Busy D s0 d start max (fun _ _ _ => True)) y) :
    Safe D s0 d start y.clock y.st := by
  cases h with
  | dead h => exact h.2
  | idle h _ _ => exact h.safe
  | queued _ h _ _ => exact h.safe
  | due _ _ _ h _ _ => exact h.safe
  | ticked _ h _ _ => exact h.safe

/-- What a tick gives. -/
theorem count (hD : Closes D) (hd : 0 < d) {y0 y : Solo (interval D d start max)} {t k : Nat}
    (h : Solo.Reachable (c := interval D d start max) { port := { dest := s0 } } y0) (ht : y0.tick = none)
    (hi : Solo.Inner (Solo.drain t { y0 with tick := some t, active := y0.active.map fun p => (p.1, false) }) y)
    (ha : y.allTicked) (hq : y.queue = []) (hb : y0.st.begun = some k) (ho : D.isClosed y.st.port.dest = false) :
    (outs y.st.port.trace).length = (outs y0.st.port.trace).length +
      min (if max = 0 then 1 else max) ((y.clock - k) / d - (y0.clock - k) / d) := by
  have hs := (busy_single (idle := fun _ _ => False)
      (acc := fun k' n q => k' = k ∧ n = (outs y0.st.port.trace).length ∧ q = (y0.clock - k) / d) hD
      (fun i now s h => h.elim)).inner hi (by
    intro t' ht'
    cases ht'
    show _ ≤ updateTick _ _
    rw [updateTick_max]; omega) ((holds hD hd h).start (mono.dead _ _ _ (Nat.le_max_left ..))
      (fun h => by rw [h.begun] at hb; cases hb)
      (fun f w hf h => h.begin t hf (fun k' hk' => by
        rw [hb] at hk'
        cases hk'
        exact ⟨rfl, rfl, rfl⟩)) ht)
  cases hs.ended ha hq with
  | dead h => rw [h.1] at ho; cases ho
  | idle h _ => exact h.elim
  | busy w h _ =>
    obtain ⟨k', q, cur, hk, rfl, hq, hcur, hnow, hlen, ⟨n0, q0, ⟨rfl, rfl, rfl⟩, hq0, hn⟩, _, _, htk⟩ := h.work
    have hcn := htk rfl
    subst hcn
    have hdiv : (y.clock - k') / d = q := by
      have h1 : y.clock - k' = q * d + (y.clock - k' - q * d) := by omega
      have h2 : y.clock - k' - q * d < d := by omega
      rw [h1, Nat.add_comm, Nat.add_mul_div_right _ _ (by omega), Nat.div_eq_of_lt h2]
      omega
    rw [hdiv]
    exact hn

theorem stamps (D : Sub S Nat E) (d : Nat) (start : Bool) (max : Nat) :
    Stamps (interval D d start max) (fun s : Source.State S Nat E => s.port.trace) := by
  refine ⟨fun b t now s => ?_, fun i now s => ?_⟩
  · show Grew now s.port.trace (if D.isClosed s.port.dest = true then _ else _ : Nat × Source.State S Nat E × List (Req Nat) × WorkResult).2.1.port.trace
    split
    · exact Grew.refl _ _
    · exact Port.give_grew _ _ _ _
  cases i with
  | subscribe =>
    show Grew now s.port.trace (if s.begun.isSome = true then (s, []) else _ : Source.State S Nat E × List (Req Nat)).1.port.trace
    split
    · exact Grew.refl _ _
    · show Grew now s.port.trace (if start = true then s.port.give D (.next 0) now else s.port).trace
      split
      · exact Port.give_grew _ _ _ _
      · exact Grew.refl _ _
  | unsubscribe =>
    show Grew now s.port.trace (if s.begun.isNone = true then (s, []) else _ : Source.State S Nat E × List (Req Nat)).1.port.trace
    split
    · exact Grew.refl _ _
    · exact (Port.mark_grew _ _ _).trans (Port.give_grew _ _ _ _)
  | close => exact Port.close_grew _ _ _

theorem allowed_range {begun : Option Nat} {τ : Line Empty Nat E} (h : Throughout (Interval.Allowed D s0 d start begun) τ) :
    (outs τ).map (·.1) = List.range (outs τ).length := by
  induction τ using Rx.snoc_induction with
  | nil => rfl
  | snoc τ m ih =>
    have ih := ih h.prefix
    have hm := h.last
    obtain ⟨m, k⟩ := m
    by_cases hv : ∃ v, m = .out (.next v)
    · obtain ⟨v, rfl⟩ := hv
      rw [outs_append, outs_next, List.map_append, ih, (hm.value v rfl).1, List.length_append, List.length_singleton,
        List.range_succ]
      rfl
    · rw [outs_append, outs_of_ne (fun v h => hv ⟨v, h⟩), List.append_nil]
      exact ih

/-- All periods were counted. -/
def Full (D : Sub S Nat E) (d : Nat) (start : Bool) (now : Nat) (s : Source.State S Nat E) : Prop :=
  D.isClosed s.port.dest = true ∨ (s.begun = none ∧ outs s.port.trace = []) ∨
  ∃ k, s.begun = some k ∧ k ≤ now ∧ (outs s.port.trace).length = (now - k) / d + if start then 1 else 0

theorem full_input (hD : Closes D) (i : Source.Input) {s : Source.State S Nat E} (h : Full D d start now s) :
    Full D d start now ((interval D d start max).input i now s).1 := by
  cases i with
  | subscribe =>
    show Full D d start now (if s.begun.isSome = true then (s, []) else _ : Source.State S Nat E × List (Req Nat)).1
    split
    · exact h
    · rename_i hb
      rcases h with h | ⟨_, h⟩ | ⟨k, h, _⟩
      · left
        show D.isClosed (if start = true then s.port.give D (.next 0) now else s.port).dest = true
        rw [Port.give_closed h, ite_self]
        exact h
      · cases hc : D.isClosed s.port.dest with
        | true =>
          left
          show D.isClosed (if start = true then s.port.give D (.next 0) now else s.port).dest = true
          rw [Port.give_closed hc, ite_self]
          exact hc
        | false =>
          refine .inr (.inr ⟨now, rfl, Nat.le_refl _, ?_⟩)
          show (outs (if start = true then s.port.give D (.next 0) now else s.port).trace).length = _
          rw [Nat.sub_self, Nat.zero_div]
          cases start with
          | false => simp [h]
          | true => simp [outs_give hc, h]
      · rw [h] at hb; exact absurd rfl hb
  | unsubscribe =>
    show Full D d start now (if s.begun.isNone = true then (s, []) else _ : Source.State S Nat E × List (Req Nat)).1
    split
    · exact h
    · exact .inl (Port.give_isClosed hD _ _ rfl)
  | close => exact .inl (Port.close_isClosed hD _ _)

theorem full_inner (hD : Closes D) {y0 y : Solo (interval D d start max)} (hi : Solo.Inner y0 y) (ht : y0.tick = none)
    (h : Full D d start y0.clock y0.st) : Full D d start y.clock y.st := by
  induction hi with
  | refl => exact h
  | tail h1 h2 h3 ih =>
    have ht1 := h1.tick.trans ht
    cases h2 with
    | input i =>
      rw [(Solo.input_keep i _).2.2, Solo.input_st]
      exact full_input hD i ih
    | start t h0 => rw [ht1] at h3; cases h3
    | work s' t pre post w w' res k1 k2 k3 k4 => rw [ht1] at k1; cases k1
    | pass t k1 k2 => rw [ht1] at k1; cases k1
    | finish t k1 k2 k3 => rw [ht1] at k1; cases k1

theorem full_tick (hD : Closes D) (hd : 0 < d) {y0 y : Solo (interval D d start max)} {t : Nat}
    (h : Solo.Reachable (c := interval D d start max) { port := { dest := s0 } } y0) (ht : y0.tick = none)
    (hi : Solo.Inner (Solo.drain t { y0 with tick := some t, active := y0.active.map fun p => (p.1, false) }) y)
    (ha : y.allTicked) (hq : y.queue = []) (hf : Full D d start y0.clock y0.st)
    (hp : y.clock ≤ y0.clock + (if max = 0 then 1 else max) * d) : Full D d start y.clock y.st := by
  have hdr : (Solo.drain t { y0 with tick := some t, active := y0.active.map fun p => (p.1, false) }).clock =
      Nat.max y0.clock t := updateTick_max _ _
  have hle : ∀ t', (Solo.drain t { y0 with tick := some t, active := y0.active.map fun p => (p.1, false) }).tick = some t' →
      t' ≤ (Solo.drain t { y0 with tick := some t, active := y0.active.map fun p => (p.1, false) }).clock := by
    intro t' ht'
    cases ht'
    rw [hdr]
    exact Nat.le_max_right ..
  cases hc0 : D.isClosed y0.st.port.dest with
  | true =>
    have hs := (busy_single (idle := fun _ _ => False) (acc := fun _ _ _ => False) hD (fun i now s h => h.elim)).inner hi hle
      (.dead (by rw [hdr]; exact ⟨hc0, (safe (holds hD hd h)).mono (Nat.le_max_left ..)⟩))
    cases hs.ended ha hq with
    | dead h => exact .inl h.1
    | idle h _ => exact h.elim
    | busy w h _ =>
      obtain ⟨_, _, _, _, _, _, _, _, _, ⟨_, _, h, _⟩, _⟩ := h.work
      exact h.elim
  | false =>
  have hs := (busy_single (idle := fun now s => now = Nat.max y0.clock t ∧ Idle D s0 d start now s ∧ y0.st.begun = none)
      (acc := fun k n q => (y0.st.begun = some k ∧ n = (outs y0.st.port.trace).length ∧ q = (y0.clock - k) / d) ∨
        (y0.st.begun = none ∧ k = Nat.max y0.clock t ∧ n = (if start then 1 else 0) ∧ q = 0)) hD
      (fun i now s h => (idle_input hD hd i (.inr ⟨h.2.2, h.1, rfl, rfl⟩) h.2.1).imp id (Or.imp
        (fun h' => ⟨h'.1, h.1, h'.2, h.2.2⟩) id))).inner hi hle ((holds hD hd h).start (mono.dead _ _ _ (Nat.le_max_left ..))
      (fun h => ⟨rfl, mono.idle _ _ _ (Nat.le_max_left ..) h, h.begun⟩)
      (fun f w hf h => h.begin t hf (fun k' hk' => .inl ⟨hk', rfl, rfl⟩)) ht)
  have hcl := (stamps D d start max).inner hi hle
  rw [hdr] at hcl
  cases hs.ended ha hq with
  | dead h => exact .inl h.1
  | idle h _ => exact .inr (.inl ⟨h.2.1.begun, h.2.1.outs⟩)
  | busy w h _ =>
    obtain ⟨k', q, cur, hk, rfl, hq, hcur, hnow, hlen, ⟨n0, q0, hacc, hq0, hn⟩, _, _, htk⟩ := h.work
    have hcn := htk rfl
    subst hcn
    have hdiv : (y.clock - k') / d = q := by
      have h1 : y.clock - k' = q * d + (y.clock - k' - q * d) := by omega
      have h2 : y.clock - k' - q * d < d := by omega
      rw [h1, Nat.add_comm, Nat.add_mul_div_right _ _ (by omega), Nat.div_eq_of_lt h2]
      omega
    refine .inr (.inr ⟨k', hk, by omega, ?_⟩)
    rw [hdiv, hn]
    rcases hacc with ⟨hb, rfl, rfl⟩ | ⟨_, hb, rfl, rfl⟩
    · rcases hf with hf | ⟨hf, _⟩ | ⟨k, hf, hk0, hlen0⟩
      · exact absurd hf (by rw [hc0]; simp)
      · rw [hf] at hb; cases hb
      · rw [hf] at hb
        cases hb
        have : q ≤ (y0.clock - k') / d + (if max = 0 then 1 else max) := by
          rw [← hdiv, ← Nat.add_mul_div_right _ _ hd]
          exact Nat.div_le_div_right (by omega)
        rw [hlen0]
        omega
    · have : q = 0 := by
        rcases Nat.eq_zero_or_pos q with h | h
        · exact h
        · have := Nat.mul_le_mul_right d h
          omega
      subst this
      simp

end Rx.Timed.Interval
