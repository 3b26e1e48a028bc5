import Verif.Lemmas.SharedClosingEnds

/-!
# Several threads that may close a shared subscriber: panics
-/

namespace Rx.Closing

variable {S I E : Type} {D : Dest S I E}

/-! ## The mutex is poisoned if a thread has panicked -/

local macro "pan" : tactic => `(tactic| (simp_all [State.goto, State.note, State.given, State.ret]))

theorem panic_advance (D : Dest S I E) (x : State S I E) (t : Nat) :
    ((advance D x t).poisoned = x.poisoned ∧
      ∀ w, (advance D x t).pc t = .panicked w ↔ x.pc t = .panicked w) ∨
    ((advance D x t).poisoned = true ∧ ∃ w, (advance D x t).pc t = .panicked w) := by
  unfold advance
  cases hp : x.pc t with
  | idle => pan
  | panicked w => left; exact ⟨rfl, fun w' => by dsimp only; rw [hp]⟩
  | check c => dsimp only; split <;> pan
  | asking c => dsimp only; split <;> pan
  | askHeld c => dsimp only; split <;> pan
  | observe c =>
    dsimp only
    cases hc : c.n with
    | unsubscribe => dsimp only; split <;> pan
    | _ => pan
  | attempt c => dsimp only; split <;> pan
  | top w k =>
    dsimp only
    split
    · pan
    · split
      · cases w with
        | own c => dsimp only; split <;> pan
        | after o => pan
      · pan
  | deliver w k =>
    dsimp only
    cases hr : x.rest with
    | nil => pan
    | cons c r => dsimp only; split <;> pan
  | marking w k c => pan
  | sealing c => pan
  | give c => dsimp only; split <;> pan
  | unlock w =>
    cases w with
    | own c => pan
    | after o => cases o <;> pan
  | deferring c => dsimp only; split <;> pan
  | recheck o => dsimp only; split <;> cases o <;> pan
  | apply o => dsimp only; split <;> cases o <;> pan
  | query => dsimp only; split <;> pan
  | queryAsk => dsimp only; split <;> pan
  | queryHeld => pan

theorem panic_step (D : Dest S I E) (x : State S I E) (t : Nat) (a : Turn I E) :
    ((step D x t a).poisoned = x.poisoned ∧ ∀ w, (step D x t a).pc t = .panicked w ↔ x.pc t = .panicked w) ∨
    ((step D x t a).poisoned = true ∧ ∃ w, (step D x t a).pc t = .panicked w) := by
  unfold step
  split
  · rename_i hi
    have hp := isIdle_eq hi
    cases a with
    | go => pan
    | call n => dsimp only; split <;> pan
    | ask => pan
    | drop => pan
  · exact panic_advance D x t

theorem run_panics (D : Dest S I E) (s : S) (l : List (Nat × Turn I E)) :
    (run D (init s) l).poisoned = true ↔ ∃ t w, (run D (init s) l).pc t = .panicked w := by
  suffices h : ∀ x : State S I E, Locks x → (x.poisoned = true ↔ ∃ t w, x.pc t = .panicked w) →
      ((run D x l).poisoned = true ↔ ∃ t w, (run D x l).pc t = .panicked w) from
    h _ (.init s) ⟨(fun h => by cases h), (fun ⟨t, w, h⟩ => by cases h)⟩
  induction l with
  | nil => exact fun x _ h => h
  | cons a l ih =>
    intro x hl h
    refine ih _ (hl.step a.1 a.2) ?_
    rcases panic_step D x a.1 a.2 with ⟨h1, h2⟩ | ⟨h1, h2⟩
    · rw [h1, h]
      refine exists_congr fun u => exists_congr fun w => ?_
      by_cases e : u = a.1
      · rw [e]; exact (h2 w).symm
      · rw [(hl.move (D := D) a.1 a.2).other e]
    · exact ⟨fun _ => ⟨_, h2⟩, fun _ => h1⟩

theorem AtRest.sound {s : S} {l : List (Nat × Turn I E)} (h : AtRest (run D (init s) l)) :
    (run D (init s) l).poisoned = false := by
  refine Bool.eq_false_iff.2 fun hp => ?_
  obtain ⟨t, w, ht⟩ := (run_panics D s l).1 hp
  have := isIdle_eq (h t)
  rw [ht] at this
  cases this

/-! ## How often the queue was drained -/

/-- How often the queue was drained by the thread since it took the lock. -/
def PC.rounds : PC I E → Nat
  | .top _ d => d
  | .deliver _ d | .marking _ d _ => d + 1
  | .panicked _ => maxDepth
  | _ => 0

def Rounds (x : State S I E) (t : Nat) (y : State S I E) : Prop :=
  (y.pc t).rounds = 0 ∨ ((y.pc t).rounds = (x.pc t).rounds ∧ (y.pc t).cur = (x.pc t).cur) ∨
    ((y.pc t).rounds = (x.pc t).rounds + 1 ∧ (y.pc t).cur = (x.pc t).cur ∧ y.queue = [] ∧ x.queue ≠ [] ∧
      y.trace = x.trace)

local macro "rnd" : tactic => `(tactic| (simp_all [Rounds, PC.rounds, PC.cur, State.goto, State.note, State.given, State.ret]))

theorem rounds_advance (D : Dest S I E) (x : State S I E) (t : Nat) : Rounds x t (advance D x t) := by
  unfold advance
  cases hp : x.pc t with
  | idle => rnd
  | panicked w => rnd
  | check c => dsimp only; split <;> rnd
  | asking c => dsimp only; split <;> rnd
  | askHeld c => dsimp only; split <;> rnd
  | observe c =>
    dsimp only
    cases hc : c.n with
    | unsubscribe => dsimp only; split <;> rnd
    | _ => rnd
  | attempt c => dsimp only; split <;> rnd
  | top w k =>
    dsimp only
    split
    · rnd
    · split
      · cases w with
        | own c => dsimp only; split <;> rnd
        | after o => rnd
      · rnd
  | deliver w k =>
    dsimp only
    cases hr : x.rest with
    | nil => rnd
    | cons c r => dsimp only; split <;> rnd
  | marking w k c => rnd
  | sealing c => rnd
  | give c => dsimp only; split <;> rnd
  | unlock w =>
    cases w with
    | own c => rnd
    | after o => cases o <;> rnd
  | deferring c => dsimp only; split <;> rnd
  | recheck o => dsimp only; split <;> cases o <;> rnd
  | apply o => dsimp only; split <;> cases o <;> rnd
  | query => dsimp only; split <;> rnd
  | queryAsk => dsimp only; split <;> rnd
  | queryHeld => rnd

theorem rounds_step (D : Dest S I E) (x : State S I E) (t : Nat) (a : Turn I E) : Rounds x t (step D x t a) := by
  unfold step
  split
  · rename_i hi
    have hp := isIdle_eq hi
    cases a with
    | go => rnd
    | call n => dsimp only; split <;> rnd
    | ask => rnd
    | drop => rnd
  · exact rounds_advance D x t

/-- What waits was sent while call `c` was going on, and `r` more that came back from their deferral. -/
structure Outrun (x : State S I E) (c : Call I E) (r : Nat) : Prop where
  queue : ∀ j ∈ x.queue, j.id ≠ c.id ∧ ¬ Before x.trace j.id c.id
  past : ∃ L : List Nat, L.Nodup ∧ L.length = r ∧ ∀ k ∈ L, k ≠ c.id ∧ (∃ u n, .call k u n ∈ x.trace) ∧
    ¬ Before x.trace k c.id ∧ (∀ j ∈ x.queue, j.id ≠ k) ∧ ∀ u d, (x.pc u).pend = some d → d.id ≠ k

/-- A thread has no more in its hands than it had, unless it begins a call. -/
theorem Move.pends {x y : State S I E} {t : Nat} (m : Move D x t y) :
    ∀ u d, (y.pc u).pend = some d → (x.pc u).pend = some d ∨ d.id = x.calls := by
  have key : ∀ p, y.pc = (x.goto t p).pc → (p.pend = none ∨ p.pend = (x.pc t).pend) → ∀ u d,
      (y.pc u).pend = some d → (x.pc u).pend = some d ∨ d.id = x.calls := by
    intro p pc h u d hd
    rw [pc, pc_goto] at hd
    split at hd
    · rename_i e
      subst e
      rcases h with h | h
      · rw [h] at hd; cases hd
      · rw [h] at hd; exact .inl hd
    · exact .inl hd
  cases m with
  | quiet p pc same cur pend => exact key p pc (.inr pend)
  | drop p c pc same cur cur₀ pend => exact key p pc (.inl pend)
  | drain p pc queue rest trace dest calls cur pend => exact key p pc (.inr pend)
  | skip p c r pc queue rest₀ rest trace dest calls cur pend => exact key p pc (.inr pend)
  | serve p c r pc queue rest₀ rest trace dest calls cur pend => exact key p pc (.inr pend)
  | give p c pc queue rest₀ rest trace dest calls cur cur₀ pend => exact key p pc (.inl pend)
  | defer p c pc queue rest trace dest calls cur cur₀ pend => exact key p pc (.inl pend)
  | ret c pc => exact key .idle pc (.inl rfl)
  | note p m pc queue rest trace dest calls cur pend => exact key p pc (.inl pend)
  | start p c pc queue rest trace dest calls id cur pend =>
    intro u d hd
    rw [pc, pc_goto] at hd
    split at hd
    · rw [pend] at hd; cases hd; exact .inr id
    · exact .inl hd

/-- What is new in the queue was in the hands of the thread. -/
theorem Move.queued {x y : State S I E} {t : Nat} (m : Move D x t y) : ∀ j ∈ y.queue, j ∈ x.queue ∨
    ((x.pc t).pend = some j ∧ (x.pc t).rounds = 0) := by
  intro j hj
  cases m with
  | quiet p pc same => rw [same.queue] at hj; exact .inl hj
  | drop p c pc same => rw [same.queue] at hj; exact .inl hj
  | drain p pc queue => rw [queue] at hj; cases hj
  | skip p c r pc queue => rw [queue] at hj; exact .inl hj
  | serve p c r pc queue => rw [queue] at hj; exact .inl hj
  | give p c pc queue => rw [queue] at hj; exact .inl hj
  | defer p c pc queue rest trace dest calls cur cur₀ pend pend₀ sure at₀ =>
    rw [queue, List.mem_append, List.mem_singleton] at hj
    rcases hj with hj | rfl
    · exact .inl hj
    · exact .inr ⟨pend₀, by rw [at₀]; rfl⟩
  | ret c pc queue => rw [queue] at hj; exact .inl hj
  | note p m pc queue => rw [queue] at hj; exact .inl hj
  | start p c pc queue => rw [queue] at hj; exact .inl hj

section
variable {s : S} {x y : State S I E} {t : Nat}

/-- A call that goes on is outrun by no fewer than before. -/
theorem Outrun.keep {c : Call I E} {r u : Nat} (h : Outrun x c r) (hi : Ids D s x)
    (m : Move D x t y) (hu : (x.pc u).cur = some c) (hr : u = t → (x.pc t).rounds ≠ 0) : Outrun y c r := by
  obtain ⟨b, hb⟩ := m.grows
  have back : ∀ k, Before y.trace k c.id → Before x.trace k c.id := by
    intro k hk
    rw [hb] at hk
    exact hk.backs (hi.cur u c hu).1
  refine ⟨fun j hj => ?_, ?_⟩
  · rcases m.queued j hj with h1 | ⟨h1, h2⟩
    · exact ⟨(h.queue j h1).1, fun hk => (h.queue j h1).2 (back _ hk)⟩
    · have e : t ≠ u := fun e => hr e.symm h2
      refine ⟨hi.mine (cur_of_pend h1) hu e, fun hk => ?_⟩
      exact (hi.cur t j (cur_of_pend h1)).2 (back _ hk).ret
  · obtain ⟨L, h1, h2, h3⟩ := h.past
    refine ⟨L, h1, h2, fun k hk => ?_⟩
    obtain ⟨h4, ⟨v, n, h5⟩, h6, h7, h8⟩ := h3 k hk
    refine ⟨h4, ⟨v, n, by rw [hb]; exact List.mem_append_left _ h5⟩, fun hk => h6 (back _ hk), fun j hj => ?_,
      fun v d hd => ?_⟩
    · rcases m.queued j hj with h9 | ⟨h9, -⟩
      · exact h7 j h9
      · exact h8 t j h9
    · rcases m.pends v d hd with h9 | h9
      · exact h8 v d h9
      · have := hi.ids _ _ _ h5; omega

theorem outrun_step (hi : Ids D s x) (m : Move D x t y) (hr : Rounds x t y)
    (h : ∀ u c r, (x.pc u).cur = some c → (x.pc u).rounds = r + 1 → Outrun x c r) :
    ∀ u c r, (y.pc u).cur = some c → (y.pc u).rounds = r + 1 → Outrun y c r := by
  intro u c r hc hn
  by_cases e : u = t
  · subst e
    rcases hr with hr | ⟨hr, hcur⟩ | ⟨hr, hcur, hq, hq0, htr⟩
    · rw [hr] at hn; cases hn
    · rw [hr] at hn
      rw [hcur] at hc
      exact (h u c r hc hn).keep hi m hc (fun _ => by omega)
    · rw [hcur] at hc
      refine ⟨(fun j hj => by rw [hq] at hj; cases hj), ?_⟩
      cases r with
      | zero => exact ⟨[], .nil, rfl, fun k hk => by cases hk⟩
      | succ r =>
        have ho := h u c r hc (by omega)
        obtain ⟨L, h1, h2, h3⟩ := ho.past
        obtain ⟨j, q, hj⟩ : ∃ j q, x.queue = j :: q := by
          cases hx : x.queue with
          | nil => exact absurd hx hq0
          | cons j q => exact ⟨j, q, rfl⟩
        have hjq : j ∈ x.queue := by rw [hj]; exact List.mem_cons_self
        have hjl : j ∈ x.line := mem_line (List.mem_append_right _ hjq)
        obtain ⟨v, hv⟩ := hi.line j hjl
        refine ⟨j.id :: L, List.nodup_cons.2 ⟨fun hk => (h3 _ hk).2.2.2.1 j hjq rfl, h1⟩, by simp [h2],
          fun k hk => ?_⟩
        have hy : ∀ j ∈ y.queue, j.id ≠ k := fun j hj => by rw [hq] at hj; cases hj
        rcases List.mem_cons.1 hk with rfl | hk
        · refine ⟨(ho.queue j hjq).1, ⟨v, _, by rw [htr]; exact hv⟩, by rw [htr]; exact (ho.queue j hjq).2, hy,
            fun w d hd => ?_⟩
          rcases m.pends w d hd with h9 | h9
          · exact (hi.not_line hjl h9).symm
          · have := hi.ids _ _ _ hv; omega
        · obtain ⟨h4, ⟨w, n, h5⟩, h6, h7, h8⟩ := h3 k hk
          refine ⟨h4, ⟨w, n, by rw [htr]; exact h5⟩, by rw [htr]; exact h6, hy, fun w d hd => ?_⟩
          rcases m.pends w d hd with h9 | h9
          · exact h8 w d h9
          · have := hi.ids _ _ _ h5; omega
  · rw [m.other e] at hc hn
    exact (h u c r hc hn).keep hi m hc (fun e' => absurd e' e)

end

theorem run_outrun (D : Dest S I E) (s : S) (l : List (Nat × Turn I E)) : ∀ u c r,
    ((run D (init s) l).pc u).cur = some c → ((run D (init s) l).pc u).rounds = r + 1 →
      Outrun (run D (init s) l) c r := by
  suffices h : ∀ x, Locks x → Ids D s x →
      (∀ u c r, (x.pc u).cur = some c → (x.pc u).rounds = r + 1 → Outrun x c r) →
      ∀ u c r, ((run D x l).pc u).cur = some c → ((run D x l).pc u).rounds = r + 1 → Outrun (run D x l) c r from
    h _ (.init s) (.init s) (fun u c r h => by cases h)
  induction l with
  | nil => exact fun x _ _ h => h
  | cons a l ih =>
    intro x hl hi h
    have m := hl.move (D := D) a.1 a.2
    exact ih _ (hl.step a.1 a.2) (hi.move m) (outrun_step hi m (rounds_step D x a.1 a.2) h)

end Rx.Closing
