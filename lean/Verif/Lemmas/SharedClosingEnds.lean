import Verif.Lemmas.SharedClosing

/-!
# Several threads that may close a shared subscriber: closing
-/

namespace Rx.Closing

variable {S I E : Type} {D : Dest S I E}

theorem Move.other {x y : State S I E} {t : Nat} (m : Move D x t y) {u : Nat} (h : u ≠ t) : y.pc u = x.pc u := by
  have : ∃ p, y.pc = (x.goto t p).pc := by
    cases m <;> exact ⟨_, by assumption⟩
  obtain ⟨p, e⟩ := this
  rw [e, pc_goto, if_neg h]

/-- The trace grows. -/
theorem Move.grows {x y : State S I E} {t : Nat} (m : Move D x t y) : ∃ b, y.trace = x.trace ++ b := by
  cases m with
  | quiet p pc same => exact ⟨[], by rw [same.trace]; simp⟩
  | drop p c pc same => exact ⟨[], by rw [same.trace]; simp⟩
  | drain p pc queue rest trace => exact ⟨[], by rw [trace]; simp⟩
  | skip p c r pc queue rest₀ rest trace => exact ⟨[], by rw [trace]; simp⟩
  | serve p c r pc queue rest₀ rest trace => exact ⟨_, trace⟩
  | give p c pc queue rest₀ rest trace => exact ⟨_, trace⟩
  | defer p c pc queue rest trace => exact ⟨[], by rw [trace]; simp⟩
  | ret c pc queue rest trace => exact ⟨_, trace⟩
  | note p m pc queue rest trace => exact ⟨_, trace⟩
  | start p c pc queue rest trace => exact ⟨_, trace⟩

/-- A closed destination stays closed. -/
theorem Move.stays {x y : State S I E} {t : Nat} (hD : D.Contract) (m : Move D x t y)
    (h : D.isClosed x.dest = true) : D.isClosed y.dest = true := by
  have : y.dest = x.dest := by
    cases m with
    | quiet p pc same => exact same.dest
    | drop p c pc same => exact same.dest
    | serve p c r pc queue rest₀ rest trace dest => rw [dest, hD.inert _ _ h]
    | give p c pc queue rest₀ rest trace dest => rw [dest, hD.inert _ _ h]
    | _ => assumption
  rw [this]
  exact h

theorem noted_of_cur {p : PC I E} {c : Call I E} (h : p.cur = some c) (hp : p.pend = none) : p.noted = some c := by
  cases p <;> first | exact h | (cases hp; done) | (cases h; done)

theorem Late.backs {s : S} {x : State S I E} (hi : Ids D s x) {b : List (Mark I E)} {k t : Nat} {n}
    (hk : .call k t n ∈ x.trace) (one : ∀ k t n t' n', .call k t n ∈ x.trace ++ b →
      .call k t' n' ∈ x.trace ++ b → t = t' ∧ n = n') (h : Late (x.trace ++ b) k) : Late x.trace k := by
  obtain ⟨j, u, m, h1, h2, h3⟩ := h
  have h3 := h3.backs hk
  obtain ⟨u', m', hj⟩ := hi.rets j h3.ret
  have := one j u m u' m' h1 (List.mem_append_left _ hj)
  exact ⟨j, u', m', hj, this.2 ▸ h2, h3⟩

structure Ends (D : Dest S I E) (s : S) (x : State S I E) : Prop where
  sealing : ∀ t c, x.pc t = .sealing c → isUnsubscribe c.n = true
  shut : x.shut = true → ∃ j t n, .call j t n ∈ x.trace ∧ n.isClosing = true ∧
    ∀ u c, (x.pc u).unseen = some c → j ≠ c.id
  sealed : x.closed = true → ∃ j t n, .call j t n ∈ x.trace ∧ n.isClosing = true ∧
    ∀ u c, (x.pc u).unsealed = some c → j ≠ c.id
  hand : ∀ t c, (x.pc t).hand = some c → (∃ u, .call c.id u c.n ∈ x.trace) ∧
    (x.closed = true ∨ c ∈ gives x.trace) ∧ (c.n.isClosing = true → D.isClosed x.dest = true)
  closed : x.closed = true → D.isClosed x.dest = true ∨ ∃ t c, x.pc t = .give c ∧ isUnsubscribe c.n = true
  noted : ∀ t c, (x.pc t).noted = some c → c.n.isClosing = true → x.shut = true ∨ D.isClosed x.dest = true
  retd : ∀ k t n, .call k t n ∈ x.trace → n.isClosing = true → .ret k ∈ x.trace →
    x.shut = true ∨ D.isClosed x.dest = true
  passed : ∀ t c, (x.pc t).passed = some c → isUnsubscribe c.n = false → Late x.trace c.id →
    D.isClosed x.dest = true
  waits : ∀ c ∈ x.rest ++ x.queue, isUnsubscribe c.n = false → Late x.trace c.id → D.isClosed x.dest = true
  gave : ∀ a k n b, x.trace = a ++ .give k n :: b → isUnsubscribe n = false → Late x.trace k →
    D.isClosed (D.after s a) = true
  excused : x.closed = true → ∀ j ∈ x.rest ++ x.queue, Excused D s x.trace j.id
  armed : x.shut = true → D.isClosed x.dest = true ∨ (∃ c ∈ x.rest ++ x.queue, c.n.isClosing = true) ∨
    ∃ t c, (x.pc t).armed = some c ∧ c.n.isClosing = true
  kept : ∀ k t n, .call k t n ∈ x.trace → k ∈ x.line.map Call.id ∨ (x.pc t).pend = some ⟨k, n⟩ ∨
    Excused D s x.trace k

theorem Ends.init (s : S) : Ends D s (init s : State S I E) where
  sealing _ _ h := by cases h
  shut h := by cases h
  sealed h := by cases h
  hand _ _ h := by cases h
  closed h := by cases h
  noted _ _ h := by cases h
  retd _ _ _ h := by cases h
  passed _ _ h := by cases h
  waits _ h := by cases h
  gave a k n b h := by
    have : a ++ Mark.give k n :: b ≠ [] := by simp
    exact absurd h.symm this
  excused h := by cases h
  armed h := by cases h
  kept _ _ _ h := by cases h

theorem closing_of_unsubscribe {n : SubscriberNotification I E} (h : isUnsubscribe n = true) :
    n.isClosing = true := by
  cases n <;> first | rfl | cases h

theorem hand_cur_mid {p : PC I E} {c : Call I E} (h : p.hand = some c) : p.mid = true := by
  cases p <;> first | rfl | cases h

section
variable {s : S} {x y : State S I E} {t : Nat}

theorem Ends.sealing_step (h : Ends D s x) (m : Move D x t y) (f : Fine D x t y) :
    ∀ u c, y.pc u = .sealing c → isUnsubscribe c.n = true := by
  intro u c hc
  by_cases e : u = t
  · subst e; exact f.sealing c hc
  · rw [m.other e] at hc; exact h.sealing u c hc

theorem pend_of_unseen {p : PC I E} {c : Call I E} (h : p.unseen = some c) : p.pend = some c := by
  cases p <;> first | exact h | cases h

theorem pend_of_unsealed {p : PC I E} {c : Call I E} (h : p.unsealed = some c) : p.pend = some c := by
  cases p <;> first | exact h | cases h

/-- The call a thread is in is no other thread's. -/
theorem Ids.mine (hi : Ids D s x) {u v : Nat} {c d : Call I E} (hc : (x.pc u).cur = some c)
    (hd : (x.pc v).cur = some d) (e : u ≠ v) : c.id ≠ d.id := by
  intro h
  have h1 := (hi.cur u c hc).1
  have h2 := (hi.cur v d hd).1
  rw [← h] at h2
  exact e (hi.one _ _ _ _ _ h1 h2).1

theorem Ids.not_line (hi : Ids D s x) {v : Nat} {c d : Call I E} (hc : c ∈ x.line)
    (hd : (x.pc v).pend = some d) : c.id ≠ d.id := fun h =>
  hi.pend v d hd (h ▸ List.mem_map_of_mem hc)

theorem Ends.shut_step (h : Ends D s x) (hi : Ids D s x) (m : Move D x t y) (f : Fine D x t y)
    (hs : y.shut = true) : ∃ j t n, .call j t n ∈ y.trace ∧ n.isClosing = true ∧
      ∀ u c, (y.pc u).unseen = some c → j ≠ c.id := by
  obtain ⟨b, hb⟩ := m.grows
  have old : ∀ j v n, .call j v n ∈ x.trace → n.isClosing = true →
      (∀ u c, (x.pc u).unseen = some c → j ≠ c.id) → ∃ j t n, .call j t n ∈ y.trace ∧ n.isClosing = true ∧
      ∀ u c, (y.pc u).unseen = some c → j ≠ c.id := by
    intro j v n h1 h2 h3
    refine ⟨j, v, n, by rw [hb]; exact List.mem_append_left _ h1, h2, fun u c hc => ?_⟩
    by_cases e : u = t
    · subst e
      rcases f.unseen c hc with h4 | h4
      · exact h3 u c h4
      · have := hi.ids _ _ _ h1; omega
    · rw [m.other e] at hc; exact h3 u c hc
  rcases f.shut hs with h1 | ⟨c, h0, h1, h2⟩ | ⟨c, h1, h2⟩ | ⟨c, h1, h2⟩
  · obtain ⟨j, v, n, h2, h3, h4⟩ := h.shut h1
    exact old j v n h2 h3 h4
  · refine ⟨c.id, t, c.n, by rw [hb]; exact List.mem_append_left _ (hi.cur t c h1).1, h2, fun u d hd => ?_⟩
    by_cases e : u = t
    · subst e
      cases hp : y.pc u <;> rw [hp] at h0 hd <;> first | (cases hd; done) | (cases h0; done)
    · rw [m.other e] at hd
      exact hi.mine h1 (cur_of_pend (pend_of_unseen hd)) (Ne.symm e)
  · obtain ⟨⟨v, h3⟩, h4, -⟩ := h.hand t c h1
    rcases h4 with h4 | h4
    · obtain ⟨j, v, n, h2, h3, h4⟩ := h.shut (by simp [State.shut, h4])
      exact old j v n h2 h3 h4
    · exact old c.id v c.n h3 h2 fun u d hd =>
        hi.not_line (List.mem_append_left _ h4) (pend_of_unseen hd)
  · have hc : (x.pc t).cur = some c := by rw [h1]; rfl
    refine old c.id t c.n (hi.cur t c hc).1 (closing_of_unsubscribe (h.sealing t c h1)) fun u d hd => ?_
    by_cases e : u = t
    · subst e; rw [h1] at hd; cases hd
    · exact hi.mine hc (cur_of_pend (pend_of_unseen hd)) (Ne.symm e)

theorem Ends.sealed_step (h : Ends D s x) (hi : Ids D s x) (m : Move D x t y) (f : Fine D x t y)
    (hs : y.closed = true) : ∃ j t n, .call j t n ∈ y.trace ∧ n.isClosing = true ∧
      ∀ u c, (y.pc u).unsealed = some c → j ≠ c.id := by
  obtain ⟨b, hb⟩ := m.grows
  have old : ∀ j v n, .call j v n ∈ x.trace → n.isClosing = true →
      (∀ u c, (x.pc u).unsealed = some c → j ≠ c.id) → ∃ j t n, .call j t n ∈ y.trace ∧ n.isClosing = true ∧
      ∀ u c, (y.pc u).unsealed = some c → j ≠ c.id := by
    intro j v n h1 h2 h3
    refine ⟨j, v, n, by rw [hb]; exact List.mem_append_left _ h1, h2, fun u c hc => ?_⟩
    by_cases e : u = t
    · subst e
      rcases f.unsealed c hc with h4 | h4
      · exact h3 u c h4
      · have := hi.ids _ _ _ h1; omega
    · rw [m.other e] at hc; exact h3 u c hc
  rcases f.closed hs with h1 | ⟨c, h1, h2, -⟩ | ⟨c, h1, h2, -⟩
  · obtain ⟨j, v, n, h2, h3, h4⟩ := h.sealed h1
    exact old j v n h2 h3 h4
  · obtain ⟨⟨v, h3⟩, h4, -⟩ := h.hand t c h1
    rcases h4 with h4 | h4
    · obtain ⟨j, v, n, h2, h3, h4⟩ := h.sealed h4
      exact old j v n h2 h3 h4
    · exact old c.id v c.n h3 h2 fun u d hd =>
        hi.not_line (List.mem_append_left _ h4) (pend_of_unsealed hd)
  · have hc : (x.pc t).cur = some c := by rw [h1]; rfl
    refine ⟨c.id, t, c.n, by rw [hb]; exact List.mem_append_left _ (hi.cur t c hc).1,
      closing_of_unsubscribe (h.sealing t c h1), fun u d hd => ?_⟩
    by_cases e : u = t
    · subst e; rw [h2] at hd; cases hd
    · rw [m.other e] at hd
      exact hi.mine hc (cur_of_pend (pend_of_unsealed hd)) (Ne.symm e)

/-- While a thread handles drained notifications, the flag says that the destination is closed. -/
theorem Ends.closed_mid (h : Ends D s x) (hl : Locks x) (hm : (x.pc t).mid = true) (hc : x.closed = true) :
    D.isClosed x.dest = true := by
  rcases h.closed hc with hd | ⟨u, c, hu, -⟩
  · exact hd
  · have := hl.unique (holds_of_mid hm) (u := u) (by rw [hu]; rfl)
    subst this
    rw [hu] at hm
    cases hm

theorem Ends.hand_step (h : Ends D s x) (hl : Locks x) (hi : Ids D s x) (hD : D.Contract) (m : Move D x t y)
    (f : Fine D x t y) : ∀ u c, (y.pc u).hand = some c → (∃ u, .call c.id u c.n ∈ y.trace) ∧
    (y.closed = true ∨ c ∈ gives y.trace) ∧ (c.n.isClosing = true → D.isClosed y.dest = true) := by
  intro u c hc
  obtain ⟨b, hb⟩ := m.grows
  by_cases e : u = t
  · subst e
    obtain ⟨⟨r, hr⟩, h2, h3⟩ := f.hand c hc
    obtain ⟨v, hv⟩ := hi.line c (by rw [State.line, hr]; simp)
    refine ⟨⟨v, by rw [hb]; exact List.mem_append_left _ hv⟩, ?_, fun hcl => ?_⟩
    · rcases h2 with h2 | ⟨-, h2⟩
      · exact .inl (f.closed_mono h2)
      · exact .inr h2
    · rcases h2 with h2 | ⟨h2, -⟩
      · exact m.stays hD (h.closed_mid hl h3 h2)
      · rw [h2]; exact hD.closes _ _ hcl
  · rw [m.other e] at hc
    obtain ⟨⟨v, h1⟩, h2, h3⟩ := h.hand u c hc
    refine ⟨⟨v, by rw [hb]; exact List.mem_append_left _ h1⟩, ?_, fun hcl => m.stays hD (h3 hcl)⟩
    rcases h2 with h2 | h2
    · exact .inl (f.closed_mono h2)
    · exact .inr (by rw [hb, gives_append]; exact List.mem_append_left _ h2)

theorem Ends.closed_step (h : Ends D s x) (hD : D.Contract) (m : Move D x t y)
    (f : Fine D x t y) (hc : y.closed = true) : D.isClosed y.dest = true ∨
    ∃ t c, y.pc t = .give c ∧ isUnsubscribe c.n = true := by
  rcases f.closed hc with hc | ⟨c, h1, h2, h3, -⟩ | ⟨c, h1, h2, -⟩
  · rcases h.closed hc with hd | ⟨u, c, hu, hn⟩
    · exact .inl (m.stays hD hd)
    · by_cases e : u = t
      · subst e
        rcases f.give c hu with hg | hg
        · left; rw [hg]; exact hD.closes _ _ (closing_of_unsubscribe hn)
        · exact .inl (m.stays hD hg)
      · exact .inr ⟨u, c, by rw [m.other e]; exact hu, hn⟩
  · left; rw [h3]; exact (h.hand t c h1).2.2 h2
  · exact .inr ⟨t, c, h2, h.sealing t c h1⟩

theorem Ends.noted_step (h : Ends D s x) (hD : D.Contract) (m : Move D x t y) (f : Fine D x t y) :
    ∀ u c, (y.pc u).noted = some c → c.n.isClosing = true → y.shut = true ∨ D.isClosed y.dest = true := by
  intro u c hc hn
  have old : ∀ u, (x.pc u).noted = some c → y.shut = true ∨ D.isClosed y.dest = true := fun u hc =>
    (h.noted u c hc hn).imp f.shut_mono (m.stays hD)
  by_cases e : u = t
  · subst e
    rcases f.noted c hc with h1 | h1 | h1 | h1
    · exact old u h1
    · exact .inl h1
    · exact .inr (m.stays hD h1)
    · rw [hn] at h1; cases h1
  · rw [m.other e] at hc
    exact old u hc

theorem Ends.retd_step (h : Ends D s x) (hi : Ids D s x) (hi' : Ids D s y) (hD : D.Contract) (m : Move D x t y)
    (f : Fine D x t y) : ∀ k u n, .call k u n ∈ y.trace → n.isClosing = true → .ret k ∈ y.trace →
    y.shut = true ∨ D.isClosed y.dest = true := by
  intro k u n hk hn hr
  by_cases hr0 : Mark.ret k ∈ x.trace
  · obtain ⟨u', n', hk0⟩ := hi.rets k hr0
    obtain ⟨b, hb⟩ := m.grows
    have := (hi'.one _ _ _ _ _ hk (by rw [hb]; exact List.mem_append_left _ hk0)).2
    exact (h.retd k u' n' hk0 (this ▸ hn) hr0).imp f.shut_mono (m.stays hD)
  · cases m with
    | ret c pc queue rest trace dest calls cur₀ pend₀ =>
      rw [trace, List.mem_append, List.mem_singleton] at hr
      rcases hr with hr | hr
      · exact absurd hr hr0
      · cases hr
        have h0 := (hi.cur t c cur₀).1
        have := (hi'.one _ _ _ _ _ hk (by rw [trace]; exact List.mem_append_left _ h0)).2
        subst this
        refine (h.noted t c (noted_of_cur cur₀ pend₀) hn).imp f.shut_mono fun e => ?_
        rw [dest]; exact e
    | quiet p pc same => rw [same.trace] at hr; exact absurd hr hr0
    | drop p c pc same => rw [same.trace] at hr; exact absurd hr hr0
    | drain p pc queue rest trace => rw [trace] at hr; exact absurd hr hr0
    | skip p c r pc queue rest₀ rest trace => rw [trace] at hr; exact absurd hr hr0
    | serve p c r pc queue rest₀ rest trace => rw [trace] at hr; simp at hr; exact absurd hr hr0
    | give p c pc queue rest₀ rest trace => rw [trace] at hr; simp at hr; exact absurd hr hr0
    | defer p c pc queue rest trace => rw [trace] at hr; exact absurd hr hr0
    | note p m pc queue rest trace dest calls cur pend sure cur₀ mark =>
      rw [trace] at hr
      rcases mark with rfl | ⟨b, rfl⟩ <;> simp at hr <;> exact absurd hr hr0
    | start p c pc queue rest trace => rw [trace] at hr; simp at hr; exact absurd hr hr0

/-- A late call finds the flags set, or the destination is closed. -/
theorem Ends.late (h : Ends D s x) {k : Nat} (hl : Late x.trace k) : x.shut = true ∨ D.isClosed x.dest = true := by
  obtain ⟨j, u, n, h1, h2, h3⟩ := hl
  exact h.retd j u n h1 h2 h3.ret

theorem cur_of_passed {p : PC I E} {c : Call I E} (h : p.passed = some c) : p.pend = some c := by
  cases p <;> first | exact h | cases h

theorem Ends.passed_step (h : Ends D s x) (hi : Ids D s x) (hi' : Ids D s y) (hD : D.Contract) (m : Move D x t y)
    (f : Fine D x t y) : ∀ u c, (y.pc u).passed = some c → isUnsubscribe c.n = false → Late y.trace c.id →
    D.isClosed y.dest = true := by
  intro u c hc hn hl
  obtain ⟨b, hb⟩ := m.grows
  have old : ∀ u, (x.pc u).passed = some c → D.isClosed y.dest = true := fun u hc => by
    refine m.stays hD (h.passed u c hc hn ?_)
    rw [hb] at hl
    exact hl.backs hi (hi.cur u c (cur_of_pend (cur_of_passed hc))).1 (hb ▸ hi'.one)
  by_cases e : u = t
  · subst e
    rcases f.passed c hc with h1 | h1 | ⟨h1, h2⟩
    · exact old u h1
    · rw [hn] at h1; cases h1
    · rw [hb] at hl
      have hl := hl.backs hi (hi.cur u c h2).1 (hb ▸ hi'.one)
      rcases h.late hl with h3 | h3
      · rw [h1] at h3; cases h3
      · exact m.stays hD h3
  · rw [m.other e] at hc
    exact old u hc

/-- What is new in the trace. -/
theorem Move.grows_one (m : Move D x t y) : y.trace = x.trace ∨ ∃ k, y.trace = x.trace ++ [k] ∧
    ∀ i n, k = .give i n → ⟨i, n⟩ ∈ x.rest ∨ (x.pc t).sure = some ⟨i, n⟩ := by
  cases m with
  | quiet p pc same => exact .inl same.trace
  | drop p c pc same => exact .inl same.trace
  | drain p pc queue rest trace => exact .inl trace
  | skip p c r pc queue rest₀ rest trace => exact .inl trace
  | serve p c r pc queue rest₀ rest trace =>
    refine .inr ⟨_, trace, fun i n e => .inl ?_⟩
    cases e
    rw [rest₀]
    exact List.mem_cons_self
  | give p c pc queue rest₀ rest trace dest calls cur cur₀ pend pend₀ sure sure₀ =>
    refine .inr ⟨_, trace, fun i n e => .inr ?_⟩
    cases e
    exact sure₀
  | defer p c pc queue rest trace => exact .inl trace
  | ret c pc queue rest trace => exact .inr ⟨_, trace, fun i n e => by cases e⟩
  | note p m pc queue rest trace dest calls cur pend sure cur₀ mark =>
    exact .inr ⟨_, trace, fun i n e => by subst e; rcases mark with e | ⟨b, e⟩ <;> cases e⟩
  | start p c pc queue rest trace => exact .inr ⟨_, trace, fun i n e => by cases e⟩

/-- What is new among what waits. -/
theorem Move.waiting (m : Move D x t y) : ∀ c ∈ y.rest ++ y.queue, c ∈ x.rest ++ x.queue ∨
    ((x.pc t).passed = some c ∧ (x.pc t).unsealed = some c ∧ y.trace = x.trace) := by
  intro c hc
  cases m with
  | quiet p pc same => rw [same.rest, same.queue] at hc; exact .inl hc
  | drop p c pc same => rw [same.rest, same.queue] at hc; exact .inl hc
  | drain p pc queue rest trace => rw [queue, rest] at hc; left; simp at hc ⊢; exact .inr hc
  | skip p d r pc queue rest₀ rest trace =>
    rw [queue, rest] at hc; left; rw [rest₀]; exact List.mem_cons_of_mem _ hc
  | serve p d r pc queue rest₀ rest trace =>
    rw [queue, rest] at hc; left; rw [rest₀]; exact List.mem_cons_of_mem _ hc
  | give p d pc queue rest₀ rest trace => rw [queue, rest] at hc; left; rw [rest₀]; exact hc
  | defer p d pc queue rest trace dest calls cur cur₀ pend pend₀ sure at₀ =>
    rw [queue, rest, ← List.append_assoc, List.mem_append, List.mem_singleton] at hc
    rcases hc with hc | rfl
    · exact .inl hc
    · exact .inr ⟨by rw [at₀]; rfl, by rw [at₀]; rfl, trace⟩
  | ret d pc queue rest trace => rw [queue, rest] at hc; exact .inl hc
  | note p m pc queue rest trace => rw [queue, rest] at hc; exact .inl hc
  | start p d pc queue rest trace => rw [queue, rest] at hc; exact .inl hc

theorem mem_line {c : Call I E} (h : c ∈ x.rest ++ x.queue) : c ∈ x.line := List.mem_append_right _ h

theorem Ends.waits_step (h : Ends D s x) (hi : Ids D s x) (hi' : Ids D s y) (hD : D.Contract) (m : Move D x t y) :
    ∀ c ∈ y.rest ++ y.queue, isUnsubscribe c.n = false → Late y.trace c.id → D.isClosed y.dest = true := by
  intro c hc hn hl
  obtain ⟨b, hb⟩ := m.grows
  rcases m.waiting c hc with hc | ⟨hc, -, ht⟩
  · obtain ⟨u, hu⟩ := hi.line c (mem_line hc)
    rw [hb] at hl
    exact m.stays hD (h.waits c hc hn (hl.backs hi hu (hb ▸ hi'.one)))
  · rw [ht] at hl
    exact m.stays hD (h.passed t c hc hn hl)

theorem passed_of_sure {p : PC I E} {c : Call I E} (h : p.sure = some c) : p.passed = some c := by
  cases p <;> first | exact h | cases h

theorem Ends.gave_step (h : Ends D s x) (hi : Ids D s x) (hi' : Ids D s y) (m : Move D x t y) :
    ∀ a k n b, y.trace = a ++ .give k n :: b → isUnsubscribe n = false → Late y.trace k →
    D.isClosed (D.after s a) = true := by
  intro a k n b e hn hl
  have old : ∀ b', x.trace = a ++ .give k n :: b' → D.isClosed (D.after s a) = true := by
    intro b' e'
    obtain ⟨b, hb⟩ := m.grows
    obtain ⟨u, hu⟩ := hi.line ⟨k, n⟩ (by rw [State.line, e']; simp [gives])
    rw [hb] at hl
    exact h.gave a k n b' e' hn (hl.backs hi hu (hb ▸ hi'.one))
  rcases m.grows_one with ht | ⟨z, ht, hz⟩
  · exact old b (ht ▸ e)
  · rw [ht] at e
    rcases append_eq_snoc e with ⟨-, e2⟩ | ⟨b', e1, e2⟩
    · cases e2
    · cases b' with
      | nil =>
        cases e1
        rw [List.append_nil] at e2
        subst e2
        rw [← hi.dest]
        rcases hz k n rfl with hr | hr
        · obtain ⟨u, hu⟩ := hi.line ⟨k, n⟩ (mem_line (List.mem_append_left _ hr))
          rw [ht] at hl
          exact h.waits _ (List.mem_append_left _ hr) hn (hl.backs hi hu (ht ▸ hi'.one))
        · have hp := passed_of_sure hr
          rw [ht] at hl
          exact h.passed t _ hp hn
            (hl.backs hi (hi.cur t _ (cur_of_pend (cur_of_passed hp))).1 (ht ▸ hi'.one))
      | cons m' b'' =>
        rw [List.cons_append] at e1
        injection e1 with e3 e4
        subst e3
        exact old b'' e2

theorem Ends.excused_step (h : Ends D s x) (hl : Locks x) (hi : Ids D s x) (m : Move D x t y) (f : Fine D x t y)
    (hc : y.closed = true) : ∀ j ∈ y.rest ++ y.queue, Excused D s y.trace j.id := by
  intro j hj
  obtain ⟨b, hb⟩ := m.grows
  have one : ∀ k u n, .call k u n ∈ x.trace → ∀ t' n', .call k t' n' ∈ x.trace → n' = n :=
    fun k u n hk t' n' hk' => (hi.one _ _ _ _ _ hk' hk).2
  rcases f.closed hc with hc | ⟨c, h1, h2, -, h3, h4, h5⟩ | ⟨c, h1, h2, h3, h4, h5⟩
  · rcases m.waiting j hj with hj | ⟨hj, hu, ht⟩
    · rw [hb]; exact (h.excused hc j hj).mono _
    · have h1 := hi.cur t j (cur_of_pend (cur_of_passed hj))
      obtain ⟨k, u, n, h2, h3, h4⟩ := h.sealed hc
      rw [ht]
      exact ⟨x.trace, [], by simp, h1.2, .inl ⟨k, u, n, h4 t j hu, h2, h3⟩⟩
  · rw [h3, h4] at hj
    rw [h5]
    obtain ⟨⟨u, h6⟩, h7, -⟩ := h.hand t c h1
    rcases h7 with h7 | h7
    · exact h.excused h7 j hj
    · have hne : c.id ≠ j.id := by
        have := hi.nodup
        rw [State.line, List.map_append, List.nodup_append] at this
        exact this.2.2 _ (List.mem_map_of_mem h7) _ (List.mem_map_of_mem hj)
      refine excused_of_not_before h6 h2 (one _ _ _ h6) hne ?_
      have := hi.order
      rw [State.line, List.pairwise_append] at this
      exact this.2.2 c h7 j hj
  · rw [h3, h4] at hj
    rw [h5]
    have hs : (x.pc t).sure = some c := by rw [h1]; rfl
    have h6 := (hi.cur t c (cur_of_pend (pend_of_sure hs))).1
    refine excused_of_not_before h6 (closing_of_unsubscribe (h.sealing t c h1)) (one _ _ _ h6)
      (hi.not_line (mem_line hj) (pend_of_sure hs)).symm ?_
    rcases List.mem_append.1 hj with hj | hj
    · rw [hl.empty (t := t) (by rw [h1]; rfl) (by rw [h1]; rfl)] at hj; cases hj
    · exact hi.over t c hs j hj

theorem Ends.armed_step (h : Ends D s x) (hl : Locks x) (hD : D.Contract) (m : Move D x t y)
    (f : Fine D x t y) (hs : y.shut = true) :
    D.isClosed y.dest = true ∨ (∃ c ∈ y.rest ++ y.queue, c.n.isClosing = true) ∨
    ∃ t c, (y.pc t).armed = some c ∧ c.n.isClosing = true := by
  rcases f.shut hs with h1 | ⟨c, h1, -, h2⟩ | ⟨c, h1, h2⟩ | ⟨c, h1, h2⟩
  · rcases h.armed h1 with hd | ⟨c, hc, hn⟩ | ⟨u, c, hc, hn⟩
    · exact .inl (m.stays hD hd)
    · have keep : y.rest ++ y.queue = x.rest ++ x.queue → _ := fun e =>
        (.inr (.inl ⟨c, e ▸ hc, hn⟩) : D.isClosed y.dest = true ∨ (∃ c ∈ y.rest ++ y.queue, c.n.isClosing = true) ∨
          ∃ t c, (y.pc t).armed = some c ∧ c.n.isClosing = true)
      cases m with
      | quiet p pc same => exact keep (by rw [same.rest, same.queue])
      | drop p c pc same => exact keep (by rw [same.rest, same.queue])
      | drain p pc queue rest trace dest calls cur pend sure empty => exact keep (by rw [queue, rest, empty]; simp)
      | skip p d r pc queue rest₀ rest trace dest calls cur pend sure closed =>
        obtain ⟨v, hv⟩ := hl.rest (by rw [rest₀]; simp)
        left
        rw [dest]
        exact h.closed_mid hl hv closed
      | serve p d r pc queue rest₀ rest trace dest =>
        rw [rest₀, List.cons_append] at hc
        rcases List.mem_cons.1 hc with rfl | hc
        · left; rw [dest]; exact hD.closes _ _ hn
        · exact .inr (.inl ⟨c, by rw [rest, queue]; exact hc, hn⟩)
      | give p d pc queue rest₀ rest trace => exact keep (by rw [queue, rest, rest₀])
      | defer p d pc queue rest trace =>
        refine .inr (.inl ⟨c, ?_, hn⟩)
        rw [rest, queue, ← List.append_assoc]
        exact List.mem_append_left _ hc
      | ret d pc queue rest trace => exact keep (by rw [queue, rest])
      | note p m pc queue rest trace => exact keep (by rw [queue, rest])
      | start p d pc queue rest trace => exact keep (by rw [queue, rest])
    · by_cases e : u = t
      · subst e
        rcases f.armed c hc with h1 | h1 | h1 | ⟨h1, h2, -⟩ | h1
        · exact .inr (.inr ⟨u, c, h1, hn⟩)
        · exact .inr (.inl ⟨c, List.mem_append_right _ h1, hn⟩)
        · left; rw [h1]; exact hD.closes _ _ hn
        · rcases h.closed h1 with hd | ⟨v, d, hv, hd⟩
          · exact .inl (m.stays hD hd)
          · have : v ≠ u := fun e => by rw [e, h2] at hv; cases hv
            exact .inr (.inr ⟨v, d, by rw [m.other this, hv]; rfl, closing_of_unsubscribe hd⟩)
        · exact .inl (m.stays hD h1)
      · exact .inr (.inr ⟨u, c, by rw [m.other e]; exact hc, hn⟩)
  · exact .inr (.inr ⟨t, c, h1, h2⟩)
  · exact .inl (m.stays hD ((h.hand t c h1).2.2 h2))
  · exact .inr (.inr ⟨t, c, by rw [h2]; rfl, closing_of_unsubscribe (h.sealing t c h1)⟩)

theorem Ends.kept_step (h : Ends D s x) (hi : Ids D s x) (m : Move D x t y) :
    ∀ k u n, .call k u n ∈ y.trace → k ∈ y.line.map Call.id ∨ (y.pc u).pend = some ⟨k, n⟩ ∨
    Excused D s y.trace k := by
  intro k u n hk
  obtain ⟨b, hb⟩ := m.grows
  have old : .call k u n ∈ x.trace → k ∈ y.line.map Call.id ∨ (y.pc u).pend = some ⟨k, n⟩ ∨
      Excused D s y.trace k := by
    intro hk
    rcases h.kept k u n hk with h1 | h1 | h1
    · have keep : y.line = x.line → _ := fun e =>
        (.inl (e ▸ h1) : k ∈ y.line.map Call.id ∨ (y.pc u).pend = some ⟨k, n⟩ ∨ Excused D s y.trace k)
      cases m with
      | quiet p pc same => exact keep (by rw [State.line, State.line, same.rest, same.queue, same.trace])
      | drop p c pc same => exact keep (by rw [State.line, State.line, same.rest, same.queue, same.trace])
      | drain p pc queue rest trace dest calls cur pend sure empty =>
        exact keep (by rw [State.line, State.line, queue, rest, trace, empty]; simp)
      | skip p d r pc queue rest₀ rest trace dest calls cur pend sure closed =>
        obtain ⟨c, hc, rfl⟩ := List.mem_map.1 h1
        rw [State.line, rest₀] at hc
        simp only [List.mem_append, List.mem_cons, List.cons_append] at hc
        rcases hc with hc | rfl | hc
        · exact .inl (List.mem_map_of_mem (by rw [State.line, trace]; exact List.mem_append_left _ hc))
        · right; right
          rw [trace]
          exact h.excused closed _ (by rw [rest₀]; exact List.mem_cons_self)
        · exact .inl (List.mem_map_of_mem (by
            rw [State.line, rest, queue]; exact List.mem_append_right _ (List.mem_append.2 hc)))
      | serve p d r pc queue rest₀ rest trace dest =>
        exact keep (by rw [State.line, State.line, rest, queue, trace, rest₀]; simp)
      | give p d pc queue rest₀ rest trace =>
        left
        rw [State.line, rest₀] at h1
        rw [State.line, rest, queue, trace]
        simp only [List.nil_append, List.map_append, List.mem_append, gives_append] at h1 ⊢
        rcases h1 with h1 | h1
        · exact .inl (.inl h1)
        · exact .inr h1
      | defer p d pc queue rest trace =>
        left
        have : y.line = x.line ++ [d] := by rw [State.line, State.line, rest, queue, trace]; simp
        rw [this, List.map_append]
        exact List.mem_append_left _ h1
      | ret d pc queue rest trace => exact keep (by rw [State.line, State.line, rest, queue, trace]; simp)
      | note p m pc queue rest trace dest calls cur pend sure cur₀ mark =>
        have hg : gives [m] = [] := by rcases mark with rfl | ⟨b, rfl⟩ <;> rfl
        exact keep (by rw [State.line, State.line, rest, queue, trace, gives_append, hg, List.append_nil])
      | start p d pc queue rest trace => exact keep (by rw [State.line, State.line, rest, queue, trace]; simp)
    · by_cases e : u = t
      · subst e
        cases m with
        | quiet p pc same cur pend => right; left; rw [pc, pc_goto, if_pos rfl, pend]; exact h1
        | drop p c pc same cur cur₀ pend pend₀ sure why =>
          right; right
          rw [pend₀] at h1
          cases h1
          have h2 := hi.cur u _ cur₀
          rw [same.trace]
          refine ⟨x.trace, [], by simp, h2.2, ?_⟩
          rcases why with ⟨why, hu⟩ | ⟨why, hu⟩ | why
          · obtain ⟨j, v, m, h3, h4, h5⟩ := h.shut why
            exact .inl ⟨j, v, m, h5 u _ hu, h3, h4⟩
          · obtain ⟨j, v, m, h3, h4, h5⟩ := h.sealed why
            exact .inl ⟨j, v, m, h5 u _ hu, h3, h4⟩
          · right; rw [← hi.dest]; exact why
        | drain p pc queue rest trace dest calls cur pend =>
          right; left; rw [pc, pc_goto, if_pos rfl, pend]; exact h1
        | skip p d r pc queue rest₀ rest trace dest calls cur pend =>
          right; left; rw [pc, pc_goto, if_pos rfl, pend]; exact h1
        | serve p d r pc queue rest₀ rest trace dest calls cur pend =>
          right; left; rw [pc, pc_goto, if_pos rfl, pend]; exact h1
        | give p d pc queue rest₀ rest trace dest calls cur cur₀ pend pend₀ =>
          rw [pend₀] at h1
          cases h1
          left
          rw [State.line, trace]
          simp
        | defer p d pc queue rest trace dest calls cur cur₀ pend pend₀ =>
          rw [pend₀] at h1
          cases h1
          left
          rw [State.line, queue]
          simp
        | ret d pc queue rest trace dest calls cur₀ pend₀ => rw [pend₀] at h1; cases h1
        | note p m pc queue rest trace dest calls cur pend sure cur₀ =>
          rw [cur_of_pend h1] at cur₀; cases cur₀
        | start p d pc queue rest trace dest calls id cur pend sure idle => rw [idle] at h1; cases h1
      · right; left; rw [m.other e]; exact h1
    · right; right; rw [hb]; exact h1.mono _
  by_cases hk0 : Mark.call k u n ∈ x.trace
  · exact old hk0
  · cases m with
    | quiet p pc same => rw [same.trace] at hk; exact absurd hk hk0
    | drop p c pc same => rw [same.trace] at hk; exact absurd hk hk0
    | drain p pc queue rest trace => rw [trace] at hk; exact absurd hk hk0
    | skip p c r pc queue rest₀ rest trace => rw [trace] at hk; exact absurd hk hk0
    | serve p c r pc queue rest₀ rest trace => rw [trace] at hk; simp at hk; exact absurd hk hk0
    | give p c pc queue rest₀ rest trace => rw [trace] at hk; simp at hk; exact absurd hk hk0
    | defer p c pc queue rest trace => rw [trace] at hk; exact absurd hk hk0
    | ret c pc queue rest trace => rw [trace] at hk; simp at hk; exact absurd hk hk0
    | note p m pc queue rest trace dest calls cur pend sure cur₀ mark =>
      rw [trace] at hk
      rcases mark with rfl | ⟨b, rfl⟩ <;> simp at hk <;> exact absurd hk hk0
    | start p c pc queue rest trace dest calls id cur pend =>
      rw [trace, List.mem_append, List.mem_singleton] at hk
      rcases hk with hk | hk
      · exact absurd hk hk0
      · cases hk
        right; left
        rw [pc, pc_goto, if_pos rfl, pend]

theorem Ends.step (h : Ends D s x) (hl : Locks x) (hi : Ids D s x) (hD : D.Contract) (t : Nat) (a : Turn I E) :
    Ends D s (Closing.step D x t a) := by
  have m : Move D x t (Closing.step D x t a) := hl.move t a
  have f : Fine D x t (Closing.step D x t a) := fine_step x t a
  have hi' := hi.move m
  exact ⟨h.sealing_step m f, h.shut_step hi m f, h.sealed_step hi m f, h.hand_step hl hi hD m f, h.closed_step hD m f,
    h.noted_step hD m f, h.retd_step hi hi' hD m f, h.passed_step hi hi' hD m f, h.waits_step hi hi' hD m,
    h.gave_step hi hi' m, h.excused_step hl hi m f, h.armed_step hl hD m f, h.kept_step hi m⟩

end

/-! ## `is_closed` -/

def PC.asks : PC I E → Bool
  | .query | .queryAsk | .queryHeld => true
  | _ => false

/-- What a step of thread `t` does about `is_closed`. -/
structure Asks (D : Dest S I E) (x : State S I E) (t : Nat) (y : State S I E) : Prop where
  begin : y.pc t = .query → y.trace = x.trace ++ [.ask t]
  go : (y.pc t).asks = true → y.pc t ≠ .query → y.trace = x.trace ∧ y.dest = x.dest ∧
    ((x.pc t = .query ∧ x.shut = false) ∨ ((x.pc t).asks = true ∧ x.pc t ≠ .query))
  answer : ∀ u b, y.trace = x.trace ++ [.answer u b] → u = t ∧ (x.pc t).asks = true ∧
    (b = false → x.pc t ≠ .query) ∧ (b = true → x.shut = true ∨ D.isClosed x.dest = true)
  asked : ∀ u, y.trace = x.trace ++ [.ask u] → u = t

local macro "asks" : tactic => `(tactic| (constructor <;> simp_all [State.goto, State.note, State.given, State.ret,
  PC.asks]))

theorem asks_advance (x : State S I E) (t : Nat) : Asks D x t (advance D x t) := by
  unfold advance
  cases hp : x.pc t with
  | idle => asks
  | panicked w => asks
  | check c => dsimp only; split <;> asks
  | asking c => dsimp only; split <;> asks
  | askHeld c => dsimp only; split <;> asks
  | observe c =>
    dsimp only
    cases hc : c.n with
    | unsubscribe => dsimp only; split <;> asks
    | _ => asks
  | attempt c => dsimp only; split <;> asks
  | top w k =>
    dsimp only
    split
    · asks
    · split
      · cases w with
        | own c => dsimp only; split <;> asks
        | after o => asks
      · asks
  | deliver w k =>
    dsimp only
    cases hr : x.rest with
    | nil => asks
    | cons c r => dsimp only; split <;> asks
  | marking w k c => asks
  | sealing c => asks
  | give c => dsimp only; split <;> asks
  | unlock w =>
    cases w with
    | own c => asks
    | after o => cases o <;> asks
  | deferring c => dsimp only; split <;> asks
  | recheck o => dsimp only; split <;> cases o <;> asks
  | apply o => dsimp only; split <;> cases o <;> asks
  | query => dsimp only; split <;> asks
  | queryAsk => dsimp only; split <;> asks
  | queryHeld => asks

theorem asks_step (x : State S I E) (t : Nat) (a : Turn I E) : Asks D x t (step D x t a) := by
  unfold step
  split
  · rename_i hi
    have hp := isIdle_eq hi
    cases a with
    | go => asks
    | call n => dsimp only; split <;> asks
    | ask => asks
    | drop => asks
  · exact asks_advance x t

structure Told (D : Dest S I E) (s : S) (x : State S I E) : Prop where
  open_ : ∀ t, (x.pc t).asks = true → ∃ a b, x.trace = a ++ .ask t :: b ∧ .ask t ∉ b ∧
    (x.pc t ≠ .query → Shut a → D.isClosed x.dest = true)
  no : ∀ a t b, x.trace = a ++ .answer t false :: b → ∃ a₁ a₂, a = a₁ ++ .ask t :: a₂ ∧ .ask t ∉ a₂ ∧
    (Shut a₁ → D.isClosed (D.after s a) = true)
  yes : ∀ a t b, x.trace = a ++ .answer t true :: b → (∃ j u n, .call j u n ∈ a ∧ n.isClosing = true) ∨
    D.isClosed (D.after s a) = true

theorem Told.init (s : S) : Told D s (init s : State S I E) where
  open_ _ h := by cases h
  no a t b h := absurd h.symm (by simp [Closing.init])
  yes a t b h := absurd h.symm (by simp [Closing.init])

theorem Told.step {s : S} {x : State S I E} (h : Told D s x) (he : Ends D s x) (hl : Locks x) (hi : Ids D s x)
    (hD : D.Contract) (t : Nat) (a : Turn I E) : Told D s (Closing.step D x t a) := by
  have m : Move D x t (Closing.step D x t a) := hl.move t a
  have k : Asks D x t (Closing.step D x t a) := asks_step x t a
  generalize Closing.step D x t a = y at m k
  have hshut : Shut x.trace → x.shut = true ∨ D.isClosed x.dest = true := fun ⟨j, u, n, h1, h2, h3⟩ =>
    he.retd j u n h1 h2 h3
  have shut_mono : ∀ {a b : List (Mark I E)}, Shut a → Shut (a ++ b) := fun ⟨j, u, n, h1, h2, h3⟩ =>
    ⟨j, u, n, List.mem_append_left _ h1, h2, List.mem_append_left _ h3⟩
  refine ⟨fun u hu => ?_, fun a u b e => ?_, fun a u b e => ?_⟩
  · by_cases e : u = t
    · subst e
      by_cases hq : y.pc u = .query
      · exact ⟨x.trace, [], by rw [k.begin hq], by simp, fun h => absurd hq h⟩
      · obtain ⟨h1, h2, h3⟩ := k.go hu hq
        rw [h1, h2]
        rcases h3 with ⟨h3, h4⟩ | ⟨h3, h4⟩
        · obtain ⟨a, b, h5, h6, -⟩ := h.open_ u (by rw [h3]; rfl)
          refine ⟨a, b, h5, h6, fun _ hs => ?_⟩
          rcases hshut (by rw [h5]; exact shut_mono hs) with h7 | h7
          · rw [h4] at h7; cases h7
          · exact h7
        · obtain ⟨a, b, h5, h6, h7⟩ := h.open_ u h3
          exact ⟨a, b, h5, h6, fun _ => h7 h4⟩
    · rw [m.other e] at hu ⊢
      obtain ⟨a, b, h1, h2, h3⟩ := h.open_ u hu
      obtain ⟨b', hb⟩ := m.grows
      rcases m.grows_one with ht | ⟨z, ht, -⟩
      · exact ⟨a, b, ht.trans h1, h2, fun h4 h5 => m.stays hD (h3 h4 h5)⟩
      · refine ⟨a, b ++ [z], by rw [ht, h1]; simp, ?_, fun h4 h5 => m.stays hD (h3 h4 h5)⟩
        rw [List.mem_append, List.mem_singleton]
        rintro (h4 | h4)
        · exact h2 h4
        · subst h4
          exact e (k.asked u ht)
  · rcases m.grows_one with ht | ⟨z, ht, -⟩
    · exact h.no a u b (ht ▸ e)
    · rw [ht] at e
      rcases append_eq_snoc e with ⟨-, e2⟩ | ⟨b', e1, e2⟩
      · cases e2
      · cases b' with
        | nil =>
          cases e1
          rw [List.append_nil] at e2
          obtain ⟨h1, h2, h3, -⟩ := k.answer u false ht
          subst h1
          obtain ⟨a₁, a₂, h4, h5, h6⟩ := h.open_ u h2
          rw [← e2]
          exact ⟨a₁, a₂, h4, h5, fun hs => by rw [← hi.dest]; exact h6 (h3 rfl) hs⟩
        | cons m' b'' =>
          injection e1 with e3 e4
          subst e3
          exact h.no a u b'' e2
  · rcases m.grows_one with ht | ⟨z, ht, -⟩
    · exact h.yes a u b (ht ▸ e)
    · rw [ht] at e
      rcases append_eq_snoc e with ⟨-, e2⟩ | ⟨b', e1, e2⟩
      · cases e2
      · cases b' with
        | nil =>
          cases e1
          rw [List.append_nil] at e2
          obtain ⟨h1, h2, -, h3⟩ := k.answer u true ht
          rw [← e2]
          rcases h3 rfl with h4 | h4
          · obtain ⟨j, v, n, h5, h6, -⟩ := he.shut h4
            exact .inl ⟨j, v, n, h5, h6⟩
          · right; rw [← hi.dest]; exact h4
        | cons m' b'' =>
          injection e1 with e3 e4
          subst e3
          exact h.yes a u b'' e2

/-! ## All schedules -/

theorem run_snoc (D : Dest S I E) (x : State S I E) (l : List (Nat × Turn I E)) (a : Nat × Turn I E) :
    run D x (l ++ [a]) = step D (run D x l) a.1 a.2 := by
  simp [run]

theorem run_append (D : Dest S I E) (x : State S I E) (l l' : List (Nat × Turn I E)) :
    run D x (l ++ l') = run D (run D x l) l' := by
  simp [run]

theorem run_inv (D : Dest S I E) (s : S) (l : List (Nat × Turn I E)) :
    Locks (run D (init s) l) ∧ Ids D s (run D (init s) l) := by
  suffices h : ∀ x, Locks x → Ids D s x → Locks (run D x l) ∧ Ids D s (run D x l) from h _ (.init s) (.init s)
  induction l with
  | nil => exact fun x hl hi => ⟨hl, hi⟩
  | cons a l ih => exact fun x hl hi => ih _ (hl.step a.1 a.2) (hi.move (hl.move a.1 a.2))

theorem run_ends (hD : D.Contract) (s : S) (l : List (Nat × Turn I E)) : Ends D s (run D (init s) l) := by
  suffices h : ∀ x, Locks x → Ids D s x → Ends D s x → Ends D s (run D x l) from
    h _ (.init s) (.init s) (.init s)
  induction l with
  | nil => exact fun x _ _ h => h
  | cons a l ih => exact fun x hl hi h => ih _ (hl.step a.1 a.2) (hi.move (hl.move a.1 a.2)) (h.step hl hi hD a.1 a.2)

theorem run_told (hD : D.Contract) (s : S) (l : List (Nat × Turn I E)) : Told D s (run D (init s) l) := by
  suffices h : ∀ x, Locks x → Ids D s x → Ends D s x → Told D s x → Told D s (run D x l) from
    h _ (.init s) (.init s) (.init s) (.init s)
  induction l with
  | nil => exact fun x _ _ _ h => h
  | cons a l ih =>
    exact fun x hl hi he h => ih _ (hl.step a.1 a.2) (hi.move (hl.move a.1 a.2)) (he.step hl hi hD a.1 a.2)
      (h.step he hl hi hD a.1 a.2)

/-- Nothing is given before it is sent. -/
theorem run_sent (D : Dest S I E) (s : S) (l : List (Nat × Turn I E)) : ∀ a k n b,
    (run D (init s) l).trace = a ++ .give k n :: b → ∃ t, .call k t n ∈ a := by
  suffices h : ∀ x : State S I E, Locks x → Ids D s x →
      (∀ a k n b, x.trace = a ++ .give k n :: b → ∃ t, .call k t n ∈ a) →
      ∀ a k n b, (run D x l).trace = a ++ .give k n :: b → ∃ t, .call k t n ∈ a from
    h _ (.init s) (.init s) (fun a k n b h => absurd h.symm (by simp [Closing.init]))
  induction l with
  | nil => exact fun x _ _ h => h
  | cons c l ih =>
    refine fun x hl hi h => ih _ (hl.step c.1 c.2) (hi.move (hl.move c.1 c.2)) fun a k n b e => ?_
    have m : Move D x c.1 (step D x c.1 c.2) := hl.move c.1 c.2
    rcases m.grows_one with ht | ⟨z, ht, hz⟩
    · exact h a k n b (ht ▸ e)
    · rw [ht] at e
      rcases append_eq_snoc e with ⟨-, e2⟩ | ⟨b', e1, e2⟩
      · cases e2
      · cases b' with
        | nil =>
          cases e1
          rw [List.append_nil] at e2
          subst e2
          rcases hz k n rfl with hr | hr
          · exact hi.line ⟨k, n⟩ (mem_line (List.mem_append_left _ hr))
          · exact ⟨_, (hi.cur _ _ (cur_of_pend (pend_of_sure hr))).1⟩
        | cons m' b'' =>
          injection e1 with e3 e4
          subst e3
          exact h a k n b'' e2

/-- A call has returned or its thread is still in it. -/
theorem Move.back {x y : State S I E} {t : Nat} (m : Move D x t y)
    (h : ∀ k u n, .call k u n ∈ x.trace → .ret k ∈ x.trace ∨ (x.pc u).cur = some ⟨k, n⟩) :
    ∀ k u n, .call k u n ∈ y.trace → .ret k ∈ y.trace ∨ (y.pc u).cur = some ⟨k, n⟩ := by
  have key : ∀ p, y.pc = (x.goto t p).pc → p.cur = (x.pc t).cur → ∀ k u n, .call k u n ∈ x.trace →
      .ret k ∈ y.trace ∨ (y.pc u).cur = some ⟨k, n⟩ := by
    intro p pc cur k u n hk
    obtain ⟨b, hb⟩ := m.grows
    rcases h k u n hk with h1 | h1
    · exact .inl (by rw [hb]; exact List.mem_append_left _ h1)
    · right
      rw [pc, pc_goto]
      split
      · rename_i e; subst e; exact cur.trans h1
      · exact h1
  intro k u n hk
  cases m with
  | quiet p pc same cur => exact key p pc cur k u n (same.trace ▸ hk)
  | drop p c pc same cur cur₀ => exact key p pc (cur.trans cur₀.symm) k u n (same.trace ▸ hk)
  | drain p pc queue rest trace dest calls cur => exact key p pc cur k u n (trace ▸ hk)
  | skip p c r pc queue rest₀ rest trace dest calls cur => exact key p pc cur k u n (trace ▸ hk)
  | serve p c r pc queue rest₀ rest trace dest calls cur =>
    rw [trace] at hk; exact key p pc cur k u n (by simpa using hk)
  | give p c pc queue rest₀ rest trace dest calls cur cur₀ =>
    rw [trace] at hk; exact key p pc (cur.trans cur₀.symm) k u n (by simpa using hk)
  | defer p c pc queue rest trace dest calls cur cur₀ =>
    exact key p pc (cur.trans cur₀.symm) k u n (trace ▸ hk)
  | ret c pc queue rest trace dest calls cur₀ pend₀ =>
    have hk : .call k u n ∈ x.trace := by rw [trace] at hk; simpa using hk
    rcases h k u n hk with h1 | h1
    · exact .inl (by rw [trace]; exact List.mem_append_left _ h1)
    · by_cases e : u = t
      · subst e
        rw [cur₀] at h1
        cases h1
        left
        rw [trace]
        simp
      · right; rw [pc, pc_goto, if_neg e]; exact h1
  | note p m pc queue rest trace dest calls cur pend sure cur₀ mark =>
    refine key p pc (cur.trans cur₀.symm) k u n ?_
    rw [trace] at hk
    rcases mark with rfl | ⟨b, rfl⟩ <;> simpa using hk
  | start p c pc queue rest trace dest calls id cur pend sure idle =>
    rw [trace, List.mem_append, List.mem_singleton] at hk
    rcases hk with hk | hk
    · rcases h k u n hk with h1 | h1
      · exact .inl (by rw [trace]; exact List.mem_append_left _ h1)
      · right
        rw [pc, pc_goto]
        split
        · rename_i e; subst e; rw [idle] at h1; cases h1
        · exact h1
    · cases hk
      right
      rw [pc, pc_goto, if_pos rfl, cur]

theorem run_back (D : Dest S I E) (s : S) (l : List (Nat × Turn I E)) : ∀ k u n,
    .call k u n ∈ (run D (init s) l).trace →
      .ret k ∈ (run D (init s) l).trace ∨ ((run D (init s) l).pc u).cur = some ⟨k, n⟩ := by
  suffices h : ∀ x : State S I E, Locks x →
      (∀ k u n, .call k u n ∈ x.trace → .ret k ∈ x.trace ∨ (x.pc u).cur = some ⟨k, n⟩) →
      ∀ k u n, .call k u n ∈ (run D x l).trace →
        .ret k ∈ (run D x l).trace ∨ ((run D x l).pc u).cur = some ⟨k, n⟩ from
    h _ (.init s) (fun k u n h => by cases h)
  induction l with
  | nil => exact fun x _ h => h
  | cons c l ih => exact fun x hl h => ih _ (hl.step c.1 c.2) ((hl.move (D := D) c.1 c.2).back h)

/-! ## A poisoned mutex -/

theorem gives_frozen {x : State S I E} (hl : Locks x) (hp : x.poisoned = true) (t : Nat) (a : Turn I E) :
    gives (step D x t a).trace = gives x.trace ∧ (step D x t a).poisoned = true := by
  have no : (x.pc t).holds = false := by
    cases e : (x.pc t).holds with
    | false => rfl
    | true =>
      have := (hl.holds t).1 e
      rw [hl.dead hp] at this
      cases this
  unfold step
  split
  · cases a with
    | go => exact ⟨rfl, hp⟩
    | call n => dsimp only; split <;> exact ⟨by simp [State.goto, State.note], hp⟩
    | ask => exact ⟨by simp [State.goto, State.note], hp⟩
    | drop => exact ⟨rfl, hp⟩
  · have hf : x.free = false := by simp [State.free, hp]
    unfold advance
    cases e : x.pc t with
    | idle => exact ⟨rfl, hp⟩
    | panicked w => exact ⟨rfl, hp⟩
    | check c => exact ⟨rfl, hp⟩
    | asking c => dsimp only; rw [hf]; exact ⟨rfl, hp⟩
    | observe c => dsimp only; cases c.n <;> exact ⟨rfl, hp⟩
    | attempt c => dsimp only; rw [hf]; exact ⟨rfl, hp⟩
    | deferring c => dsimp only; split <;> exact ⟨rfl, hp⟩
    | recheck o =>
      dsimp only
      split
      · cases o <;> exact ⟨by simp [State.goto, State.note, State.ret], hp⟩
      · exact ⟨rfl, hp⟩
    | apply o =>
      dsimp only
      rw [hf]
      cases o <;> exact ⟨by simp [State.goto, State.note, State.ret], hp⟩
    | query => dsimp only; split <;> exact ⟨by simp [State.goto, State.note], hp⟩
    | queryAsk => dsimp only; rw [hf]; exact ⟨by simp [State.goto, State.note], hp⟩
    | _ => rw [e] at no; cases no

theorem run_frozen (D : Dest S I E) (l : List (Nat × Turn I E)) : ∀ x : State S I E, Locks x →
    x.poisoned = true → gives (run D x l).trace = gives x.trace := by
  induction l with
  | nil => exact fun _ _ _ => rfl
  | cons a l ih =>
    intro x hl hp
    obtain ⟨h1, h2⟩ := gives_frozen (D := D) hl hp a.1 a.2
    exact (ih _ (hl.step a.1 a.2) h2).trans h1

/-- A busy thread moves. -/
theorem moves (D : Dest S I E) (x : State S I E) (t : Nat) (h : (x.pc t).isIdle = false)
    (hp : ∀ w, x.pc t ≠ .panicked w) : (step D x t .go).pc t ≠ x.pc t := by
  unfold step
  rw [h]
  have pcs : ∀ (z : State S I E) p, (z.goto t p).pc t = p := fun z p => by rw [pc_goto, if_pos rfl]
  have rets : ∀ (z : State S I E) o, (z.ret t o).pc t = .idle := fun z o => by cases o <;> exact pcs _ _
  unfold advance
  cases e : x.pc t with
  | idle => rw [e] at h; cases h
  | panicked w => exact absurd e (hp w)
  | check c => simp only [Bool.false_eq_true, if_false]; split <;> simp [pcs]
  | asking c => simp only [Bool.false_eq_true, if_false]; split <;> simp [pcs]
  | askHeld c => simp only [Bool.false_eq_true, if_false]; split <;> simp [pcs]
  | observe c => simp only [Bool.false_eq_true, if_false]; cases c.n <;> dsimp only <;> try split
                 all_goals simp [pcs]
  | attempt c => simp only [Bool.false_eq_true, if_false]; split <;> simp [pcs]
  | top w k =>
    simp only [Bool.false_eq_true, if_false]
    split
    · simp [pcs]
    · split
      · cases w with
        | own c => dsimp only; split <;> simp [pcs]
        | after o => simp [pcs]
      · simp [pcs]
  | deliver w k => simp only [Bool.false_eq_true, if_false]; cases x.rest <;> dsimp only <;> simp [pcs]
  | marking w k c => simp [pcs]
  | sealing c => simp [pcs]
  | give c => simp [pcs]
  | unlock w => cases w <;> simp [pcs, rets]
  | deferring c => simp [pcs]
  | recheck o => simp only [Bool.false_eq_true, if_false]; split <;> simp [pcs, rets]
  | apply o => simp only [Bool.false_eq_true, if_false]; split <;> simp [pcs, rets]
  | query => simp only [Bool.false_eq_true, if_false]; split <;> simp [pcs]
  | queryAsk => simp only [Bool.false_eq_true, if_false]; split <;> simp [pcs]
  | queryHeld => simp [pcs]

/-! ## One thread alone -/

/-- Thread `t` alone goes on, from `x` to `y`. -/
def Goes (D : Dest S I E) (t : Nat) (x y : State S I E) : Prop :=
  ∃ m, y = run D x (List.replicate m (t, .go))

theorem Goes.refl (t : Nat) (x : State S I E) : Goes D t x x := ⟨0, rfl⟩

theorem Goes.trans {t : Nat} {x y z : State S I E} (h : Goes D t x y) (g : Goes D t y z) : Goes D t x z := by
  obtain ⟨m, rfl⟩ := h
  obtain ⟨k, rfl⟩ := g
  refine ⟨m + k, ?_⟩
  rw [← run_append, List.replicate_append_replicate]

theorem Goes.one {t : Nat} {x : State S I E} (h : (x.pc t).isIdle = false) : Goes D t x (advance D x t) :=
  ⟨1, by simp [run, step, h]⟩

/-- Only thread `t` is busy: it is at `p`, with that much drained and deferred. -/
structure At (x : State S I E) (t : Nat) (p : PC I E) (l : Option Nat) (r q : List (Call I E)) : Prop where
  pc : x.pc t = p
  lock : x.lock = l
  rest : x.rest = r
  queue : x.queue = q
  sound : x.poisoned = false
  others : ∀ u, u ≠ t → (x.pc u).isIdle = true

theorem At.goto {x y : State S I E} {t : Nat} {p p' : PC I E} {l l' r r' q q'} (h : At x t p l r q)
    (hpc : y.pc = (x.goto t p').pc) (hl : y.lock = l') (hr : y.rest = r') (hq : y.queue = q')
    (hp : y.poisoned = x.poisoned) : At y t p' l' r' q' :=
  ⟨by rw [hpc, pc_goto, if_pos rfl], hl, hr, hq, hp.trans h.sound,
    fun u hu => by rw [hpc, pc_goto, if_neg hu]; exact h.others u hu⟩

theorem At.free {x : State S I E} {t : Nat} {p : PC I E} {r q} (h : At x t p none r q) : x.free = true := by
  simp [State.free, h.lock, h.sound]

/-- The loop over the drained notifications. -/
theorem goes_deliver (D : Dest S I E) (t : Nat) (w : Why I E) (k : Nat) (q : List (Call I E)) (r) : ∀ (x : State S I E),
    At x t (.deliver w k) (some t) r q → ∃ y, Goes D t x y ∧ At y t (.top w (k + 1)) (some t) [] q := by
  induction r with
  | nil =>
    intro x h
    refine ⟨_, .one (by rw [h.pc]; rfl), ?_⟩
    simp only [advance, h.pc, h.rest]
    exact h.goto rfl h.lock h.rest h.queue rfl
  | cons c r ih =>
    intro x h
    have h1 : At (advance D x t) t (.marking w k c) (some t) r q := by
      simp only [advance, h.pc, h.rest]
      split <;> exact h.goto rfl h.lock rfl h.queue rfl
    have h2 : At (advance D (advance D x t) t) t (.deliver w k) (some t) r q := by
      rw [advance, h1.pc]
      exact h1.goto rfl h1.lock h1.rest h1.queue rfl
    obtain ⟨y, hy, ha⟩ := ih _ h2
    exact ⟨y, (Goes.one (by rw [h.pc]; rfl)).trans ((Goes.one (by rw [h1.pc]; rfl)).trans hy), ha⟩

/-- `apply_notification_queue` empties the queue. -/
theorem goes_top (D : Dest S I E) (t : Nat) (w : Why I E) (q : List (Call I E)) (x : State S I E)
    (h : At x t (.top w 0) (some t) [] q) :
    ∃ y k, Goes D t x y ∧ At y t (.top w k) (some t) [] [] ∧ k ≠ maxDepth := by
  cases hq : q with
  | nil => exact ⟨x, 0, .refl _ _, hq ▸ h, by simp [maxDepth]⟩
  | cons c q' =>
    have h1 : At (advance D x t) t (.deliver w 0) (some t) q [] := by
      rw [advance, h.pc]
      dsimp only
      rw [if_neg (by simp [maxDepth]), if_neg (by rw [h.queue, hq]; simp)]
      exact h.goto rfl h.lock h.queue rfl rfl
    obtain ⟨y, hy, ha⟩ := goes_deliver D t w 0 [] q _ h1
    exact ⟨y, 1, (Goes.one (by rw [h.pc]; rfl)).trans hy, ha, by simp [maxDepth]⟩

theorem goes_ret (t : Nat) (x : State S I E) (o) (l : Option Nat) {p l' r q} (h : At x t p l' r q)
    (hr : x.rest = []) : At ({ x with lock := l }.ret t o) t .idle l [] q := by
  obtain ⟨h1, h2, h3, h4⟩ := ret_goto { x with lock := l } t o
  refine h.goto h1 h2 (h4.trans hr) ?_ h3
  cases o <;> exact h.queue

/-- `try_apply_deferred` empties the queue. -/
theorem goes_recheck (D : Dest S I E) (t : Nat) (o : Option (Call I E)) (q : List (Call I E)) (x : State S I E)
    (h : At x t (.recheck o) none [] q) : ∃ y, Goes D t x y ∧ At y t .idle none [] [] := by
  cases hq : q with
  | nil =>
    refine ⟨_, .one (by rw [h.pc]; rfl), ?_⟩
    rw [advance, h.pc]
    dsimp only
    rw [if_pos (by rw [h.queue, hq]; rfl)]
    have := goes_ret t x o none (hq ▸ h) h.rest
    rw [← h.lock] at this
    rw [← h.lock]
    exact this
  | cons c q' =>
    have h1 : At (advance D x t) t (.apply o) none [] q := by
      rw [advance, h.pc]
      dsimp only
      rw [if_neg (by rw [h.queue, hq]; simp)]
      exact h.goto rfl h.lock h.rest h.queue rfl
    have h2 : At (advance D (advance D x t) t) t (.top (.after o) 0) (some t) [] q := by
      rw [advance, h1.pc]
      dsimp only
      rw [if_pos h1.free]
      exact h1.goto rfl rfl h1.rest h1.queue rfl
    obtain ⟨y, k, hy, ha, hk⟩ := goes_top D t (.after o) q _ h2
    have h3 : At (advance D y t) t (.unlock (.after o)) (some t) [] [] := by
      rw [advance, ha.pc]
      dsimp only
      rw [if_neg hk, if_pos (by rw [ha.queue]; rfl)]
      exact ha.goto rfl ha.lock ha.rest ha.queue rfl
    have h4 : At (advance D (advance D y t) t) t .idle none [] [] := by
      rw [advance, h3.pc]
      exact goes_ret t _ o none h3 h3.rest
    exact ⟨_, (Goes.one (by rw [h.pc]; rfl)).trans ((Goes.one (by rw [h1.pc]; rfl)).trans (hy.trans
      ((Goes.one (by rw [ha.pc]; rfl)).trans (Goes.one (by rw [h3.pc]; rfl))))), h4⟩

theorem goes_attempt (D : Dest S I E) (t : Nat) (c : Call I E) (q : List (Call I E)) (x : State S I E)
    (h : At x t (.attempt c) none [] q) : ∃ y, Goes D t x y ∧ At y t .idle none [] [] := by
  have h2 : At (advance D x t) t (.top (.own c) 0) (some t) [] q := by
    rw [advance, h.pc]
    dsimp only
    rw [if_pos h.free]
    exact h.goto rfl rfl h.rest h.queue rfl
  obtain ⟨y, k, hy, ha, hk⟩ := goes_top D t (.own c) q _ h2
  have give : ∀ z : State S I E, At z t (.give c) (some t) [] [] →
      ∃ y, Goes D t z y ∧ At y t .idle none [] [] := by
    intro z hz
    have h4 : At (advance D z t) t (.unlock (.own c)) (some t) [] [] := by
      rw [advance, hz.pc]
      dsimp only
      split <;> exact hz.goto rfl hz.lock hz.rest hz.queue rfl
    have h5 : At (advance D (advance D z t) t) t (.recheck (some c)) none [] [] := by
      rw [advance, h4.pc]
      exact h4.goto rfl rfl h4.rest h4.queue rfl
    obtain ⟨y, hy, ha⟩ := goes_recheck D t _ _ _ h5
    exact ⟨y, (Goes.one (by rw [hz.pc]; rfl)).trans ((Goes.one (by rw [h4.pc]; rfl)).trans hy), ha⟩
  have h0 := (Goes.one (D := D) (by rw [h.pc]; rfl)).trans (hy.trans (Goes.one (by rw [ha.pc]; rfl)))
  cases hu : isUnsubscribe c.n with
  | false =>
    have h3 : At (advance D y t) t (.give c) (some t) [] [] := by
      rw [advance, ha.pc]
      dsimp only
      rw [if_neg hk, if_pos (by rw [ha.queue]; rfl), hu]
      exact ha.goto rfl ha.lock ha.rest ha.queue rfl
    obtain ⟨z, hz, hz'⟩ := give _ h3
    exact ⟨z, h0.trans hz, hz'⟩
  | true =>
    have h3 : At (advance D y t) t (.sealing c) (some t) [] [] := by
      rw [advance, ha.pc]
      dsimp only
      rw [if_neg hk, if_pos (by rw [ha.queue]; rfl), hu]
      exact ha.goto rfl ha.lock ha.rest ha.queue rfl
    have h4 : At (advance D (advance D y t) t) t (.give c) (some t) [] [] := by
      rw [advance, h3.pc]
      exact h3.goto rfl h3.lock h3.rest h3.queue rfl
    obtain ⟨z, hz, hz'⟩ := give _ h4
    exact ⟨z, h0.trans ((Goes.one (by rw [h3.pc]; rfl)).trans hz), hz'⟩

theorem goes_observe (D : Dest S I E) (t : Nat) (c : Call I E) (q : List (Call I E)) (x : State S I E)
    (h : At x t (.observe c) none [] q) : ∃ y, Goes D t x y ∧ At y t .idle none [] [] := by
  have key : At (advance D x t) t (.attempt c) none [] q ∨ At (advance D x t) t (.recheck (some c)) none [] q := by
    rw [advance, h.pc]
    dsimp only
    cases c.n with
    | unsubscribe =>
      dsimp only
      split
      · exact .inr (h.goto rfl h.lock h.rest h.queue rfl)
      · exact .inl (h.goto rfl h.lock h.rest h.queue rfl)
    | _ => exact .inl (h.goto rfl h.lock h.rest h.queue rfl)
  have h0 := Goes.one (D := D) (x := x) (t := t) (by rw [h.pc]; rfl)
  rcases key with key | key
  · obtain ⟨y, hy, ha⟩ := goes_attempt D t _ _ _ key
    exact ⟨y, h0.trans hy, ha⟩
  · obtain ⟨y, hy, ha⟩ := goes_recheck D t _ _ _ key
    exact ⟨y, h0.trans hy, ha⟩

theorem goes_check (D : Dest S I E) (t : Nat) (c : Call I E) (q : List (Call I E)) (x : State S I E)
    (h : At x t (.check c) none [] q) : ∃ y, Goes D t x y ∧ At y t .idle none [] [] := by
  have key : At (advance D x t) t (.asking c) none [] q ∨ At (advance D x t) t (.recheck (some c)) none [] q := by
    rw [advance, h.pc]
    dsimp only
    split
    · exact .inr (h.goto rfl h.lock h.rest h.queue rfl)
    · exact .inl (h.goto rfl h.lock h.rest h.queue rfl)
  have h0 := Goes.one (D := D) (x := x) (t := t) (by rw [h.pc]; rfl)
  rcases key with key | key
  · have h1 : At (advance D (advance D x t) t) t (.askHeld c) (some t) [] q := by
      rw [advance, key.pc]
      dsimp only
      rw [if_pos key.free]
      exact key.goto rfl rfl key.rest key.queue rfl
    have h2 : At (advance D (advance D (advance D x t) t) t) t (.observe c) none [] q ∨
        At (advance D (advance D (advance D x t) t) t) t (.recheck (some c)) none [] q := by
      rw [advance, h1.pc]
      dsimp only
      split
      · exact .inr (h1.goto rfl rfl h1.rest h1.queue rfl)
      · exact .inl (h1.goto rfl rfl h1.rest h1.queue rfl)
    have h3 := h0.trans ((Goes.one (D := D) (by rw [key.pc]; rfl)).trans (Goes.one (by rw [h1.pc]; rfl)))
    rcases h2 with h2 | h2
    · obtain ⟨y, hy, ha⟩ := goes_observe D t _ _ _ h2
      exact ⟨y, h3.trans hy, ha⟩
    · obtain ⟨y, hy, ha⟩ := goes_recheck D t _ _ _ h2
      exact ⟨y, h3.trans hy, ha⟩
  · obtain ⟨y, hy, ha⟩ := goes_recheck D t _ _ _ key
    exact ⟨y, h0.trans hy, ha⟩

theorem AtRest.at {x : State S I E} (h : AtRest x) (hl : Locks x) (hp : x.poisoned = false) (t : Nat) :
    At x t .idle none [] x.queue := by
  have hf : x.lock = none := by
    cases e : x.lock with
    | none => rfl
    | some u =>
      have h1 := (hl.holds u).2 e
      have h2 := isIdle_eq (h u)
      rw [h2] at h1
      cases h1
  exact ⟨isIdle_eq (h t), hf, hl.free hf, rfl, hp, fun u _ => h u⟩

/-- A call, or dropping a clone, by one thread alone leaves nothing waiting. -/
theorem AtRest.flush {x : State S I E} (h : AtRest x) (hl : Locks x) (hp : x.poisoned = false) (t : Nat)
    (a : Turn I E) (ha : a = .drop ∨ ∃ n, a = .call n) :
    ∃ y, Goes D t (step D x t a) y ∧ At y t .idle none [] [] := by
  have h0 := h.at hl hp t
  rcases ha with rfl | ⟨n, rfl⟩
  · refine goes_recheck D t none x.queue _ ?_
    rw [step, if_pos (h t)]
    exact h0.goto rfl h0.lock h0.rest rfl rfl
  · rw [step, if_pos (h t)]
    dsimp only
    split
    · exact goes_observe D t ⟨x.calls, n⟩ x.queue _ (h0.goto rfl h0.lock h0.rest rfl rfl)
    · exact goes_check D t ⟨x.calls, n⟩ x.queue _ (h0.goto rfl h0.lock h0.rest rfl rfl)

end Rx.Closing
