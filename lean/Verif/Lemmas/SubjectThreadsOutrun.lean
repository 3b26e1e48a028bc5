import Verif.Lemmas.SubjectThreadsAlone

/-!
# Several threads that share a subject: what it takes to panic
-/

namespace Rx.Crowd

open Closing (Dest)

variable {S I E : Type} {D : Dest S I E} {debug : Bool}

/-! ## How often the queue was drained -/

/-- How often the queue was drained by the thread since it took the lock. -/
def PC.rounds : PC I E → Nat
  | .top _ d => d
  | .deliver _ d | .marking _ d _ => d + 1
  | _ => 0

/-- What a step of thread `t` does to rounds, panics and flags. -/
structure Rounds (debug : Bool) (x : State S I E) (t : Nat) (y : State S I E) : Prop where
  rounds : (y.pc t).rounds = 0 ∨ ((y.pc t).rounds = (x.pc t).rounds ∧ (y.pc t).cur = (x.pc t).cur) ∨
    ((y.pc t).rounds = (x.pc t).rounds + 1 ∧ (y.pc t).cur = (x.pc t).cur ∧ y.queue = [] ∧ x.queue ≠ [] ∧
      y.trace = x.trace)
  panic : ∀ w, y.pc t = .panicked w → x.pc t = .panicked w ∨
    (y.trace = x.trace ∧ w.cur = (x.pc t).cur ∧ (x.pc t).rounds = maxDepth) ∨
    (debug = true ∧ ∃ c, w = .own c ∧ c.op = .complete ∧ x.pc t = .observe c ∧
      (x.completed = true ∨ x.unsubscribed = true))
  completed : y.completed = true → x.completed = true ∨
    ∃ c, x.pc t = .observe c ∧ c.op = .complete ∧ y.pc t = .attempt c
  unsubscribed : y.unsubscribed = true → x.unsubscribed = true ∨
    ∃ c, x.pc t = .observe c ∧ c.op = .unsubscribe
  observe : ∀ c, y.pc t = .observe c → c.op = .complete → y.completed = false

local macro "rnd" : tactic => `(tactic| (constructor <;> simp_all [PC.rounds, PC.cur, Why.cur, State.goto, State.shut, State.note,
  State.ret, State.clean]))

set_option maxHeartbeats 1000000 in
theorem rounds_advance (x : State S I E) (t : Nat) : Rounds debug x t (advance D debug x t) := by
  unfold advance
  cases hp : x.pc t with
  | idle => rnd
  | panicked w => rnd
  | pre c => dsimp only; split <;> rnd
  | preApply c => dsimp only; split <;> rnd
  | greet c =>
    dsimp only
    split
    · rnd
    · split <;> rnd
  | check c => dsimp only; split <;> (split <;> rnd)
  | refuse c => rnd
  | leaving c => rnd
  | observe c =>
    dsimp only
    split
    · rnd
    · split
      · rnd
      · rnd
    · split <;> rnd
    · rnd
  | look c =>
    dsimp only
    split
    · split <;> rnd
    · rnd
  | attempt c => dsimp only; split <;> rnd
  | top w k =>
    dsimp only
    split
    · rnd
    · split
      · cases w with
        | own c => dsimp only; split <;> rnd
        | pre c => rnd
        | after o => rnd
      · rnd
  | deliver w k => dsimp only; split <;> rnd
  | marking w k c => rnd
  | sealing c => rnd
  | give c => rnd
  | unlock w =>
    cases w with
    | own c => dsimp only; split <;> rnd
    | pre c => rnd
    | after o => cases o <;> rnd
  | deferring c =>
    dsimp only
    split
    · split
      · split <;> rnd
      · split <;> rnd
    · split <;> rnd
  | recheck o =>
    dsimp only
    split
    · cases o <;> rnd
    · rnd
  | apply o =>
    dsimp only
    split
    · rnd
    · cases o <;> rnd

theorem rounds_step (x : State S I E) (t : Nat) (a : Turn I E) : Rounds debug x t (step D debug x t a) := by
  unfold step
  split
  · rename_i hi
    have hp := isIdle_eq hi
    cases a with
    | go => rnd
    | call op =>
      dsimp only
      split
      · rnd
      · cases op <;> simp only [entry, Op.used] <;> rnd
    | ask => rnd
    | drop => rnd
  · exact rounds_advance x t

/-! ## Who overtook whom -/

/-- That many other calls had not returned when call `k` began. -/
def Overtaken (tr : List (Mark I E)) (k r : Nat) : Prop :=
  ∃ L : List Nat, L.Nodup ∧ L.length = r ∧ ∀ j ∈ L, j ≠ k ∧ (∃ u n, .call j u n ∈ tr) ∧ ¬ Before tr j k

/-- What waits was sent while call `c` was going on, and `r` more that came back from their deferral. -/
structure Outrun (x : State S I E) (c : Call I E) (r : Nat) : Prop where
  queue : ∀ j ∈ x.queue, j.id ≠ c.id ∧ ¬ Before x.trace j.id c.id
  past : ∃ L : List Nat, L.Nodup ∧ L.length = r ∧ ∀ k ∈ L, k ≠ c.id ∧ (∃ u n, .call k u n ∈ x.trace) ∧
    ¬ Before x.trace k c.id ∧ (∀ j ∈ x.queue, j.id ≠ k) ∧ ∀ u d, (x.pc u).pend = some d → d.id ≠ k

/-- A thread has no more in its hands than it had, unless it begins a call. -/
theorem Move.pends {x y : State S I E} {t : Nat} (m : Move D x t y) :
    ∀ u d, (y.pc u).pend = some d → (x.pc u).pend = some d ∨ d.id = x.calls := by
  have key : ∀ p, y.pc = (x.goto t p).pc → (p.pend = none ∨ p.pend = (x.pc t).pend) → ∀ u d,
      (y.pc u).pend = some d → (x.pc u).pend = some d ∨ d.id = x.calls := by
    intro p pc h u d hd
    rw [pc, pc_goto] at hd
    split at hd
    · rename_i e
      subst e
      rcases h with h | h
      · rw [h] at hd; cases hd
      · rw [h] at hd; exact .inl hd
    · exact .inl hd
  cases m with
  | quiet p pc same cur pend => exact key p pc (.inr pend)
  | drop p c pc same cur cur₀ pend => exact key p pc (.inl pend)
  | speak p c n pc queue rest trace dests calls done members cur cur₀ pend pend₀ =>
    exact key p pc (pend.symm.imp_right fun h => h.trans pend₀.symm)
  | drain p pc queue rest trace dests calls done members cur pend => exact key p pc (.inr pend)
  | serve p c r b pc queue rest₀ rest handled calls done cur pend => exact key p pc (.inr pend)
  | give p c b pc queue rest₀ rest handled calls done cur cur₀ pend => exact key p pc (.inl pend)
  | defer p c pc queue rest trace dests calls done members cur cur₀ pend => exact key p pc (.inl pend)
  | ret c pc => exact key .idle pc (.inl rfl)
  | note bit pc => intro u d hd; rw [pc] at hd; exact .inl hd
  | start p c pc queue rest trace dests calls done members id cur pend =>
    intro u d hd
    rw [pc, pc_goto] at hd
    split at hd
    · rw [pend] at hd; cases hd; exact .inr id
    · exact .inl hd

/-- What is new in the queue was in the hands of the thread. -/
theorem Move.queued {x y : State S I E} {t : Nat} (m : Move D x t y) : ∀ j ∈ y.queue, j ∈ x.queue ∨
    ((x.pc t).pend = some j ∧ (x.pc t).rounds = 0) := by
  intro j hj
  cases m with
  | quiet p pc same => rw [same.queue] at hj; exact .inl hj
  | drop p c pc same => rw [same.queue] at hj; exact .inl hj
  | speak p c n pc queue => rw [queue] at hj; exact .inl hj
  | drain p pc queue => rw [queue] at hj; cases hj
  | serve p c r b pc queue => rw [queue] at hj; exact .inl hj
  | give p c b pc queue => rw [queue] at hj; exact .inl hj
  | defer p c pc queue rest trace dests calls done members cur cur₀ pend pend₀ sure at₀ =>
    rw [queue, List.mem_append, List.mem_singleton] at hj
    rcases hj with hj | rfl
    · exact .inl hj
    · exact .inr ⟨pend₀, by rw [at₀]; rfl⟩
  | ret c pc queue => rw [queue] at hj; exact .inl hj
  | note bit pc queue => rw [queue] at hj; exact .inl hj
  | start p c pc queue => rw [queue] at hj; exact .inl hj

section
variable {s : Nat → S} {x y : State S I E} {t : Nat}

theorem Overtaken.mono {k r u n} {b : List (Mark I E)} {tr : List (Mark I E)} (h : Overtaken tr k r)
    (hk : .call k u n ∈ tr) : Overtaken (tr ++ b) k r := by
  obtain ⟨L, h1, h2, h3⟩ := h
  refine ⟨L, h1, h2, fun j hj => ?_⟩
  obtain ⟨h4, ⟨v, m, h5⟩, h6⟩ := h3 j hj
  exact ⟨h4, ⟨v, m, List.mem_append_left _ h5⟩, fun hb => h6 (hb.backs hk)⟩

/-- A call that goes on is outrun by no fewer than before. -/
theorem Outrun.keep {c : Call I E} {r u : Nat} (h : Outrun x c r) (hi : Ids x)
    (m : Move D x t y) (g : Grow x t y) (hu : (x.pc u).cur = some c) (hr : u = t → (x.pc t).rounds ≠ 0) : Outrun y c r := by
  obtain ⟨b, hb⟩ := g.trace
  have back : ∀ k, Before y.trace k c.id → Before x.trace k c.id := by
    intro k hk
    rw [hb] at hk
    exact hk.backs (hi.cur u c hu).1
  refine ⟨fun j hj => ?_, ?_⟩
  · rcases m.queued j hj with h1 | ⟨h1, h2⟩
    · exact ⟨(h.queue j h1).1, fun hk => (h.queue j h1).2 (back _ hk)⟩
    · have e : u ≠ t := fun e => hr e h2
      refine ⟨(hi.cur_ne (cur_of_pend h1) hu e).symm, fun hk => ?_⟩
      exact (hi.cur t j (cur_of_pend h1)).2 (back _ hk).ret
  · obtain ⟨L, h1, h2, h3⟩ := h.past
    refine ⟨L, h1, h2, fun k hk => ?_⟩
    obtain ⟨h4, ⟨v, n, h5⟩, h6, h7, h8⟩ := h3 k hk
    refine ⟨h4, ⟨v, n, by rw [hb]; exact List.mem_append_left _ h5⟩, fun hk => h6 (back _ hk), fun j hj => ?_,
      fun v d hd => ?_⟩
    · rcases m.queued j hj with h9 | ⟨h9, -⟩
      · exact h7 j h9
      · exact h8 t j h9
    · rcases m.pends v d hd with h9 | h9
      · exact h8 v d h9
      · have := hi.ids _ _ _ h5; omega

theorem outrun_step (hi : Ids x) (m : Move D x t y) (g : Grow x t y) (hh : Held x t y) (hr : Rounds debug x t y)
    (h : ∀ u c r, (x.pc u).cur = some c → (x.pc u).rounds = r + 1 → Outrun x c r) :
    ∀ u c r, (y.pc u).cur = some c → (y.pc u).rounds = r + 1 → Outrun y c r := by
  intro u c r hc hn
  by_cases e : u = t
  · subst e
    rcases hr.rounds with hr | ⟨hr, hcur⟩ | ⟨hr, hcur, hq, hq0, htr⟩
    · rw [hr] at hn; cases hn
    · rw [hr] at hn
      rw [hcur] at hc
      exact (h u c r hc hn).keep hi m g hc (fun _ => by omega)
    · rw [hcur] at hc
      refine ⟨(fun j hj => by rw [hq] at hj; cases hj), ?_⟩
      cases r with
      | zero => exact ⟨[], .nil, rfl, fun k hk => by cases hk⟩
      | succ r =>
        have ho := h u c r hc (by omega)
        obtain ⟨L, h1, h2, h3⟩ := ho.past
        obtain ⟨j, q, hj⟩ : ∃ j q, x.queue = j :: q := by
          cases hx : x.queue with
          | nil => exact absurd hx hq0
          | cons j q => exact ⟨j, q, rfl⟩
        have hjq : j ∈ x.queue := by rw [hj]; exact List.mem_cons_self
        have hjl : j ∈ x.line := by simp [State.line, hjq]
        obtain ⟨v, hv⟩ := hi.line j hjl
        refine ⟨j.id :: L, List.nodup_cons.2 ⟨fun hk => (h3 _ hk).2.2.2.1 j hjq rfl, h1⟩, by simp [h2],
          fun k hk => ?_⟩
        have hy : ∀ j ∈ y.queue, j.id ≠ k := fun j hj => by rw [hq] at hj; cases hj
        rcases List.mem_cons.1 hk with rfl | hk
        · refine ⟨(ho.queue j hjq).1, ⟨v, _, by rw [htr]; exact hv⟩, by rw [htr]; exact (ho.queue j hjq).2, hy,
            fun w d hd => ?_⟩
          rcases m.pends w d hd with h9 | h9
          · intro e
            exact hi.pend w d h9 (List.mem_map.2 ⟨j, hjl, e.symm⟩)
          · have := hi.ids _ _ _ hv; omega
        · obtain ⟨h4, ⟨w, n, h5⟩, h6, h7, h8⟩ := h3 k hk
          refine ⟨h4, ⟨w, n, by rw [htr]; exact h5⟩, by rw [htr]; exact h6, hy, fun w d hd => ?_⟩
          rcases m.pends w d hd with h9 | h9
          · exact h8 w d h9
          · have := hi.ids _ _ _ h5; omega
  · rw [hh.other e] at hc hn
    exact (h u c r hc hn).keep hi m g hc (fun e' => absurd e' e)

/-! ## The debug assertion -/

/-- Another call, of `complete` or `unsubscribe`, had not returned when call `k` began. -/
def Disputed (tr : List (Mark I E)) (k : Nat) : Prop :=
  ∃ j u op, .call j u op ∈ tr ∧ (op = .complete ∨ op = .unsubscribe) ∧ j ≠ k ∧ ¬ Before tr j k

theorem Disputed.mono {k u n} {b tr : List (Mark I E)} (h : Disputed tr k) (hk : .call k u n ∈ tr) :
    Disputed (tr ++ b) k := by
  obtain ⟨j, v, op, h1, h2, h3, h4⟩ := h
  exact ⟨j, v, op, List.mem_append_left _ h1, h2, h3, fun hb => h4 (hb.backs hk)⟩

/-- Who set the flags. -/
structure Flags (x : State S I E) : Prop where
  completed : x.completed = true → ∃ j u, .call j u .complete ∈ x.trace ∧ ∀ v, x.pc v ≠ .observe ⟨j, .complete⟩
  unsubscribed : x.unsubscribed = true → ∃ j u, .call j u .unsubscribe ∈ x.trace

theorem Flags.step (h : Flags x) (hi : Ids x) (g : Grow x t y) (hh : Held x t y) (hr : Rounds debug x t y) : Flags y := by
  obtain ⟨b, hb⟩ := g.trace
  refine ⟨fun hc => ?_, fun hc => ?_⟩
  · rcases hr.completed hc with e | ⟨⟨i, op⟩, e1, e2, e3⟩
    · obtain ⟨j, u, h1, h2⟩ := h.completed e
      refine ⟨j, u, by rw [hb]; exact List.mem_append_left _ h1, fun v hv => ?_⟩
      by_cases ev : v = t
      · subst ev
        have := hr.observe _ hv rfl
        rw [hc] at this
        cases this
      · rw [hh.other ev] at hv
        exact h2 v hv
    · cases e2
      have hc' : (x.pc t).cur = some ⟨i, .complete⟩ := by rw [e1]; rfl
      refine ⟨i, t, by rw [hb]; exact List.mem_append_left _ (hi.cur t _ hc').1, fun v hv => ?_⟩
      by_cases ev : v = t
      · subst ev; rw [e3] at hv; cases hv
      · rw [hh.other ev] at hv
        exact hi.cur_ne hc' (by rw [hv]; rfl) ev rfl
  · rcases hr.unsubscribed hc with e | ⟨⟨i, op⟩, e1, e2⟩
    · obtain ⟨j, u, h1⟩ := h.unsubscribed e
      exact ⟨j, u, by rw [hb]; exact List.mem_append_left _ h1⟩
    · cases e2
      have hc' : (x.pc t).cur = some ⟨i, .unsubscribe⟩ := by rw [e1]; rfl
      exact ⟨i, t, by rw [hb]; exact List.mem_append_left _ (hi.cur t _ hc').1⟩

/-- Why a thread may have panicked. -/
structure Causes (debug : Bool) (x : State S I E) : Prop where
  flags : Flags x
  outrun : ∀ u c r, (x.pc u).cur = some c → (x.pc u).rounds = r + 1 → Outrun x c r
  panic : ∀ u w c, x.pc u = .panicked w → w.cur = some c → Overtaken x.trace c.id 9 ∨
    (debug = true ∧ c.op = .complete ∧ Disputed x.trace c.id)

theorem Causes.step (h : Causes debug x) (hi : Inv D s x) (m : Move D x t y) (g : Grow x t y) (hh : Held x t y)
    (hr : Rounds debug x t y) : Causes debug y := by
  refine ⟨h.flags.step hi.ids g hh hr, outrun_step hi.ids m g hh hr h.outrun, fun u w c hu hc => ?_⟩
  obtain ⟨b, hb⟩ := g.trace
  have old : x.pc u = .panicked w → Overtaken y.trace c.id 9 ∨
      (debug = true ∧ c.op = .complete ∧ Disputed y.trace c.id) := by
    intro hu
    have hk := (hi.ids.cur u c (by rw [hu]; exact hc)).1
    rw [hb]
    exact (h.panic u w c hu hc).imp (fun h => h.mono hk) fun h => ⟨h.1, h.2.1, h.2.2.mono hk⟩
  by_cases e : u = t
  · subst e
    rcases hr.panic w hu with e | ⟨e1, e2, e3⟩ | ⟨e1, d, rfl, e3, e4, e5⟩
    · exact old e
    · rw [hc] at e2
      obtain ⟨L, h1, h2, h3⟩ := (h.outrun u c 9 e2.symm e3).past
      rw [e1]
      exact .inl ⟨L, h1, h2, fun j hj => ⟨(h3 j hj).1, (h3 j hj).2.1, (h3 j hj).2.2.1⟩⟩
    · obtain rfl : d = c := Option.some.inj hc
      refine .inr ⟨e1, e3, ?_⟩
      have hk := hi.ids.cur u d (by rw [e4]; rfl)
      rw [hb]
      refine Disputed.mono ?_ hk.1
      have nb := hi.ends.passed u d (by rw [e4]; rfl) (by rw [e3]; rfl)
      rcases e5 with e5 | e5
      · obtain ⟨j, v, h1, h2⟩ := h.flags.completed e5
        refine ⟨j, v, _, h1, .inl rfl, ?_, nb j v _ h1 rfl⟩
        rintro rfl
        refine h2 u ?_
        rw [e4, ← e3]
      · obtain ⟨j, v, h1⟩ := h.flags.unsubscribed e5
        refine ⟨j, v, _, h1, .inr rfl, ?_, nb j v _ h1 rfl⟩
        rintro rfl
        have := (hi.ids.one _ _ _ _ _ h1 hk.1).2
        rw [e3] at this
        cases this
  · rw [hh.other e] at hu
    exact old hu

theorem run_causes (hD : D.Contract) (s : Nat → S) (l : List (Nat × Turn I E)) :
    Causes debug (run D debug (Crowd.init s) l) :=
  run_induction hD s (P := Causes debug)
    ⟨⟨(fun h => by cases h), (fun h => by cases h)⟩, (fun _ _ _ h => by cases h), fun _ _ _ h => by cases h⟩
    (fun x t a hi h => by
      obtain ⟨m, g, hh, -⟩ := hi.moves (debug := debug) hD t a
      exact h.step hi m g hh (rounds_step x t a)) l

end

end Rx.Crowd
