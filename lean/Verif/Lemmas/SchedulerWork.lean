import Verif.Lemmas.SchedulerExec

/-!
# Each kind of work satisfies its laws
-/

namespace Rx.Sched

open Spec

variable {env : Env}

/-! ## Delayed work -/

def delayedJ (b : env.B) (s d : Nat) (tk : Bool) (ts : List Nat) (wk : Work env.B)
    (rs : List Nat) : Prop :=
  ∃ c seen, (if tk then ts = seen else ∃ t, ts = seen ++ [t]) ∧ wk = .delayed (some b) s c d ∧
    rs = [] ∧ s ≤ c ∧ (c < s + d ∨ d = 0) ∧
    seen.find? (fun t => decide (s + d ≤ max s t)) = none

def delayedG (s d : Nat) (ts rs : List Nat) : Prop :=
  ∃ t, ts.find? (fun t => decide (s + d ≤ max s t)) = some t ∧ rs = [t]

theorem delayed_laws (u : Nat) (b : env.B) (s d : Nat) :
    WorkLaws u s (.delayed (some b) s s d) (delayedJ b s d) (delayedG s d) where
  initOut := ⟨s, [], rfl, rfl, rfl, Nat.le_refl _, by omega, rfl⟩
  initIn t _ := ⟨s, [], ⟨t, rfl⟩, rfl, rfl, Nat.le_refl _, by omega, rfl⟩
  begin := by
    rintro ts wk rs t ⟨c, seen, h1, h2⟩
    refine ⟨c, seen, ⟨t, ?_⟩, h2⟩
    simp only [if_true] at h1; rw [h1]
  tick := by
    rintro ts t wk rs w wk' w' res ⟨c, seen, h1, rfl, rfl, h4, h5, h6⟩ h
    obtain ⟨t', h1⟩ := h1
    obtain ⟨rfl, h1⟩ := List.append_inj' h1 rfl
    simp only [Work.tick, updateTick_eq] at h
    have hd : s + d ≤ max c t ↔ s + d ≤ max s t := by omega
    split at h
    · rename_i hle
      cases h
      refine ⟨1, runCount_body _ _ _ _, ?_⟩
      refine ⟨t, ?_, by simp⟩
      rw [List.find?_append, h6, List.find?_cons]
      simp [hd.1 hle]
    · rename_i hle
      cases h
      refine ⟨0, rfl, ?_⟩
      refine ⟨max c t, ts ++ [t], rfl, rfl, by simp, by omega, by omega, ?_⟩
      rw [List.find?_append, h6, List.find?_cons]
      have : ¬ s + d ≤ max s t := fun h => hle (hd.2 h)
      simp [this]
  finished := by
    rintro ts rs t ⟨t', h1, h2⟩
    refine ⟨t', ?_, h2⟩
    rw [List.find?_append, h1]; rfl

/-! ## Immediate work -/

def immediateJ (b : env.B) (tk : Bool) (ts : List Nat) (wk : Work env.B) (rs : List Nat) : Prop :=
  (if tk then ts = [] else ∃ t, ts = [t]) ∧ wk = .immediate (some b) ∧ rs = []

def immediateG (ts rs : List Nat) : Prop := ts ≠ [] ∧ rs = ts.take 1

theorem immediate_laws (u s : Nat) (b : env.B) :
    WorkLaws u s (.immediate (some b)) (immediateJ b) immediateG where
  initOut := ⟨rfl, rfl, rfl⟩
  initIn t _ := ⟨⟨t, rfl⟩, rfl, rfl⟩
  begin := by
    rintro ts wk rs t ⟨h1, h2⟩
    simp only [if_true] at h1; subst h1
    exact ⟨⟨t, rfl⟩, h2⟩
  tick := by
    rintro ts t wk rs w wk' w' res ⟨⟨t', h1⟩, rfl, rfl⟩ h
    have : ts = [] ∧ t = t' := by
      cases ts with
      | nil => simpa using h1
      | cons a l => simp at h1
    obtain ⟨rfl, rfl⟩ := this
    simp only [Work.tick] at h
    cases h
    exact ⟨1, runCount_body _ _ _ _, by simp, by simp⟩
  finished := by
    rintro ts rs t ⟨h1, rfl⟩
    refine ⟨by simp, ?_⟩
    cases ts with
    | nil => exact absurd rfl h1
    | cons a l => simp

/-! ## Continuous work -/

def continuousJ (tk : Bool) (ts : List Nat) (wk : Work env.B) (rs : List Nat) : Prop :=
  (if tk then ts = rs else ∃ t, ts = rs ++ [t]) ∧ ∃ l b, wk = .continuous l b

def continuousG (ts rs : List Nat) : Prop := rs <+: ts

theorem continuous_laws (u s : Nat) (l : Nat) (b : env.B) :
    WorkLaws u s (.continuous l b) (continuousJ (env := env)) continuousG where
  initOut := ⟨rfl, _, _, rfl⟩
  initIn t _ := ⟨⟨t, rfl⟩, _, _, rfl⟩
  begin := by
    rintro ts wk rs t ⟨h1, h2⟩
    simp only [if_true] at h1; subst h1
    exact ⟨⟨t, rfl⟩, h2⟩
  tick := by
    rintro ts t wk rs w wk' w' res ⟨⟨t', h1⟩, l, b, rfl⟩ h
    obtain ⟨rfl, h1⟩ := List.append_inj' h1 rfl
    simp only [Work.tick] at h
    cases h
    refine ⟨1, runCount_body _ _ _ _, ?_⟩
    split
    · exact ⟨rfl, _, _, rfl⟩
    · exact List.prefix_refl _
  finished := fun ts rs t h => h.trans (List.prefix_append _ _)

/-! ## Repeated work -/

section Rep

variable {src : Src} {t cur i m : Nat}

/-- One iteration's effect on the run counter and result. -/
theorem rep_iter (ex : Nat) (res : WorkResult) (b : env.B) (w : World env) :
    let r := if ex < m then
          let x := runBody src b t w
          (x.1, x.2.1, res.addAssign x.2.2)
        else (b, w, res)
    runCount src r.2.1.log = runCount src w.log + (min m (ex + 1) - min m ex) := by
  intro r
  by_cases h : ex < m
  · simp only [r, if_pos h]
    rw [runCount_body]; omega
  · simp only [r, if_neg h]; omega

/-- What the loop does when it ends, for a positive interval. -/
theorem rep_result (hi : 0 < i) : ∀ (fuel : Nat) (start : Bool) (consumed ex : Nat)
    (res : WorkResult) (b : env.B) (w : World env) (r), consumed ≤ cur →
    repLoop src t cur i m fuel start consumed ex res b w = some r →
    ∃ n, runCount src r.2.2.1.log = runCount src w.log + n ∧
      n ≤ min m (ex + ((cur - consumed) / i + if start then 1 else 0)) - min m ex ∧
      (r.2.2.2 = .pending →
        n = min m (ex + ((cur - consumed) / i + if start then 1 else 0)) - min m ex ∧
        r.1 = consumed + i * ((cur - consumed) / i)) := by
  intro fuel
  induction fuel with
  | zero => intro _ _ _ _ _ _ _ _ h; simp [repLoop] at h
  | succ fuel ih =>
    intro start consumed ex res b w r hle h
    unfold repLoop at h
    split at h
    · rename_i hcond
      cases start with
      | true =>
        simp only [if_true] at h
        obtain ⟨n, h1, h2, h3⟩ := ih _ _ _ _ _ _ _ hle h
        have hit := rep_iter (src := src) (t := t) (m := m) ex res b w
        simp only at hit
        rw [hit] at h1
        refine ⟨(min m (ex + 1) - min m ex) + n, by rw [h1]; omega, ?_, ?_⟩
        · simp only [Bool.false_eq_true, if_false, Nat.add_zero, if_true] at h2 ⊢
          generalize (cur - consumed) / i = q at h2 ⊢
          omega
        · intro hp
          obtain ⟨h3, h4⟩ := h3 hp
          refine ⟨?_, h4⟩
          simp only [Bool.false_eq_true, if_false, Nat.add_zero, if_true] at h3 ⊢
          generalize (cur - consumed) / i = q at h3 ⊢
          omega
      | false =>
        simp only [Bool.false_eq_true, or_false, if_false] at h hcond
        obtain ⟨hc1, hc2⟩ := hcond
        obtain ⟨n, h1, h2, h3⟩ := ih _ _ _ _ _ _ _ hc1 h
        have hit := rep_iter (src := src) (t := t) (m := m) ex res b w
        simp only at hit
        rw [hit] at h1
        have hdiv : (cur - consumed) / i = (cur - (consumed + i)) / i + 1 := by
          rw [show cur - consumed = (cur - (consumed + i)) + i by omega, Nat.add_div_right _ hi]
        refine ⟨(min m (ex + 1) - min m ex) + n, by rw [h1]; omega, ?_, ?_⟩
        · simp only [Bool.false_eq_true, if_false, Nat.add_zero] at h2 ⊢
          rw [hdiv]
          generalize (cur - (consumed + i)) / i = q at h2 ⊢
          omega
        · intro hp
          obtain ⟨h3, h4⟩ := h3 hp
          simp only [Bool.false_eq_true, if_false, Nat.add_zero] at h3 ⊢
          rw [h4, hdiv, Nat.mul_add]
          refine ⟨?_, by omega⟩
          generalize (cur - (consumed + i)) / i = q at h3 ⊢
          omega
    · rename_i hcond
      cases h
      simp only [not_or, Bool.not_eq_true, not_and, Decidable.not_not] at hcond
      obtain ⟨hc1, hc2⟩ := hcond
      refine ⟨0, rfl, by omega, ?_⟩
      intro hp
      simp only at hp
      have : ¬ consumed + i ≤ cur := fun hle => by
        have := hc1 hle; rw [hp] at this; cases this
      have hdiv : (cur - consumed) / i = 0 := Nat.div_eq_of_lt (by omega)
      rw [hdiv, hc2]; simp

/-- For a positive interval the loop ends. -/
theorem rep_terminates (hi : 0 < i) : ∀ (fuel : Nat) (start : Bool) (consumed ex : Nat)
    (res : WorkResult) (b : env.B) (w : World env),
    (cur - consumed) + (if start then 2 else 1) ≤ fuel →
    ∃ r, repLoop src t cur i m fuel start consumed ex res b w = some r := by
  intro fuel
  induction fuel with
  | zero => intro start _ _ _ _ _ h; cases start <;> simp at h
  | succ fuel ih =>
    intro start consumed ex res b w h
    unfold repLoop
    split
    · rename_i hcond
      apply ih
      cases start with
      | true => simp at h ⊢; omega
      | false => simp at h hcond ⊢; omega
    · exact ⟨_, rfl⟩

/-- More fuel does not change the result. -/
theorem rep_mono : ∀ (fuel : Nat) (start : Bool) (consumed ex : Nat)
    (res : WorkResult) (b : env.B) (w : World env) (r) (k : Nat),
    repLoop src t cur i m fuel start consumed ex res b w = some r →
    repLoop src t cur i m (fuel + k) start consumed ex res b w = some r := by
  intro fuel
  induction fuel with
  | zero => intro _ _ _ _ _ _ _ _ h; simp [repLoop] at h
  | succ fuel ih =>
    intro start consumed ex res b w r k h
    rw [show fuel + 1 + k = (fuel + k) + 1 by omega]
    unfold repLoop at h ⊢
    split
    · rename_i hc
      rw [if_pos hc] at h
      exact ih _ _ _ _ _ _ _ _ h
    · rename_i hc
      rw [if_neg hc] at h
      exact h

/-- With a zero interval the loop is stuck once its allowance is used up. -/
theorem rep_stuck : ∀ (fuel : Nat) (consumed ex : Nat) (b : env.B) (w : World env),
    consumed ≤ cur → m ≤ ex →
    repLoop src t cur 0 m fuel false consumed ex .pending b w = none := by
  intro fuel
  induction fuel with
  | zero => intros; rfl
  | succ fuel ih =>
    intro consumed ex b w hle hex
    unfold repLoop
    rw [if_pos (by simp; exact hle)]
    simp only [Bool.false_eq_true, if_false, if_neg (Nat.not_lt.2 hex), Nat.add_zero]
    exact ih _ _ _ _ hle (by omega)

theorem rep_zero_exact : ∀ (n : Nat) (start : Bool) (consumed ex : Nat) (res : WorkResult) (b : env.B)
    (w : World env), (m - ex) + (if start then 2 else 1) ≤ n → consumed ≤ cur →
    repLoop src t cur 0 m n start consumed ex res b w = none →
    ∀ k, repLoop src t cur 0 m k start consumed ex res b w = none := by
  intro n
  induction n with
  | zero => intro start _ _ _ _ _ h; cases start <;> simp at h
  | succ n ih =>
    intro start consumed ex res b w hn hle h k
    cases k with
    | zero => rfl
    | succ k =>
      by_cases hs : start = false ∧ m ≤ ex
      · obtain ⟨rfl, hex⟩ := hs
        cases res with
        | pending => exact rep_stuck _ _ _ _ _ hle hex
        | done =>
          exfalso
          unfold repLoop at h
          simp at h
      · unfold repLoop at h ⊢
        split
        · rename_i hc
          rw [if_pos hc] at h
          refine ih _ _ _ _ _ _ ?_ ?_ h k
          · cases start with
            | true => simp at hn ⊢; omega
            | false => simp at hs hn ⊢; omega
          · split
            · exact hle
            · simpa using hle
        · rename_i hc
          rw [if_neg hc] at h
          cases h

/-- The fuel used by the model decides whether the loop ends. -/
theorem rep_fuel_exact {start : Bool} {consumed : Nat} {b : env.B} {w : World env}
    (hle : consumed ≤ cur)
    (h : repLoop src t cur i m (repFuel cur m) start consumed 0 .pending b w = none) (k : Nat) :
    repLoop src t cur i m k start consumed 0 .pending b w = none := by
  rcases Nat.eq_zero_or_pos i with rfl | hi
  · refine rep_zero_exact (repFuel cur m) _ _ _ _ _ _ ?_ hle h k
    unfold repFuel; split <;> omega
  · obtain ⟨r, hr⟩ := rep_terminates (src := src) (t := t) (cur := cur) (m := m) hi (repFuel cur m) start consumed
      0 .pending b w (by unfold repFuel; split <;> omega)
    rw [h] at hr; cases hr

end Rep

theorem foldl_max_ge (ts : List Nat) (c : Nat) : c ≤ ts.foldl max c := by
  induction ts generalizing c with
  | nil => exact Nat.le_refl _
  | cons t ts ih => exact Nat.le_trans (Nat.le_max_left _ _) (ih _)

theorem repeatedRuns_snoc (s i m : Nat) (ts : List Nat) (t : Nat) : ∀ (start : Bool) (clock : Nat),
    repeatedRuns s i m start clock (ts ++ [t]) = repeatedRuns s i m start clock ts ++
      List.replicate (min m ((max (ts.foldl max clock) t - s) / i - (ts.foldl max clock - s) / i +
        if start && ts.isEmpty then 1 else 0)) t := by
  induction ts with
  | nil => intro start clock; simp [repeatedRuns]
  | cons a ts ih =>
    intro start clock
    rw [List.cons_append]
    simp only [repeatedRuns, ih, List.foldl_cons, List.append_assoc, Bool.false_and,
      List.isEmpty_cons, Bool.and_false]

def repeatingJ (s i m : Nat) (si : Bool) (tk : Bool) (ts : List Nat) (wk : Work env.B)
    (rs : List Nat) : Prop :=
  ∃ seen cu c b, (if tk then ts = seen else ∃ t, ts = seen ++ [t]) ∧
    wk = .repeating (si && seen.isEmpty) cu c i m b ∧ c = seen.foldl max s ∧
    cu = s + i * ((c - s) / i) ∧ rs = repeatedRuns s i m si s seen

def repeatingG (s i m : Nat) (si : Bool) (ts rs : List Nat) : Prop :=
  rs <+: repeatedRuns s i m si s ts

theorem repeating_laws (u s i m : Nat) (hi : 0 < i) (si : Bool) (b : env.B) :
    WorkLaws u s (.repeating si s s i m b) (repeatingJ (env := env) s i m si)
      (repeatingG s i m si) where
  initOut := ⟨[], s, s, b, rfl, by simp, rfl, by simp, rfl⟩
  initIn t _ := ⟨[], s, s, b, ⟨t, rfl⟩, by simp, rfl, by simp, rfl⟩
  begin := by
    rintro ts wk rs t ⟨seen, cu, c, b, h1, h2⟩
    simp only [if_true] at h1; subst h1
    exact ⟨ts, cu, c, b, ⟨t, rfl⟩, h2⟩
  tick := by
    rintro ts t wk rs w wk' w' res ⟨seen, cu, c, b, ⟨t', h1⟩, rfl, hc, hcu, rfl⟩ h
    obtain ⟨rfl, h1⟩ := List.append_inj' h1 rfl
    simp only [Work.tick, updateTick_eq] at h
    have hsc : s ≤ c := by rw [hc]; exact foldl_max_ge _ _
    have hmul : i * ((c - s) / i) ≤ c - s := Nat.mul_div_le _ _
    split at h
    · rename_i cu' b' w1 res' heq
      cases h
      have hcule : cu ≤ max c t := by omega
      obtain ⟨n, h1, h2, h3⟩ := rep_result hi _ _ _ _ _ _ _ _ hcule heq
      simp only at h1 h2 h3
      have hsub : (max c t - cu) / i = (max c t - s) / i - (c - s) / i := by
        rw [hcu, show max c t - (s + i * ((c - s) / i)) = (max c t - s) - i * ((c - s) / i) by omega,
          Nat.sub_mul_div]
      have hmono : (c - s) / i ≤ (max c t - s) / i := Nat.div_le_div_right (by omega)
      rw [hsub, Nat.zero_add, Nat.min_zero, Nat.sub_zero] at h2
      refine ⟨n, h1, ?_⟩
      have hsn := repeatedRuns_snoc s i m ts t si s
      rw [← hc] at hsn
      cases res with
      | pending =>
        obtain ⟨h3, h4⟩ := h3 rfl
        rw [hsub, Nat.zero_add, Nat.min_zero, Nat.sub_zero] at h3
        refine ⟨ts ++ [t], cu', max c t, b', rfl, by simp, by simp [hc], ?_, ?_⟩
        · rw [h4, hsub, hcu, Nat.mul_sub]
          have := Nat.mul_le_mul_left i hmono
          omega
        · rw [hsn, h3]
      | done =>
        show repeatedRuns s i m si s ts ++ List.replicate n t <+:
          repeatedRuns s i m si s (ts ++ [t])
        rw [hsn]
        refine (List.prefix_append_right_inj _).2 ?_
        obtain ⟨k, hk⟩ := Nat.le.dest h2
        rw [← hk, ← List.replicate_append_replicate]
        exact List.prefix_append _ _
    · cases h
  finished := by
    intro ts rs t h
    refine List.IsPrefix.trans h ?_
    rw [repeatedRuns_snoc]
    exact List.prefix_append _ _

end Rx.Sched
