import Verif.Lemmas.SubjectThreadsHeard

/-!
# Several threads that share a subject: how it ends
-/

namespace Rx.Crowd

open Closing (Dest append_eq_snoc)

variable {S I E : Type} {D : Dest S I E} {debug : Bool}

section
variable {s : Nat → S} {x y : State S I E} {t : Nat}

/-- Why subscriber `i` may be called with `n` on behalf of call `k`. -/
def Cause (x : State S I E) (k i : Nat) (n : SubscriberNotification I E) (op : Op I E) : Prop :=
  match n with
  | .next v => op = .next v
  | .error e => op = .error e ∨ (op = .subscribe ∧ k = i ∧ x.error = some e)
  | .complete => op = .complete ∨ (op = .subscribe ∧ k = i ∧ x.completed = true)
  | .unsubscribe => op = .unsubscribe ∨ op = .cancel i ∨ (op = .subscribe ∧ k = i ∧ x.shut = true)

/-- How the trace and the line of calls grow. -/
structure Grow (x : State S I E) (t : Nat) (y : State S I E) : Prop where
  trace : ∃ b, y.trace = x.trace ++ b
  lines : ∀ c ∈ y.line, c ∈ x.line ∨ (x.pc t).armed = some c
  mono : ∀ c ∈ x.line, c ∈ y.line
  done : ∀ c ∈ x.done, c ∈ y.done
  calls : ∀ k u op, .call k u op ∈ y.trace → .call k u op ∈ x.trace ∨
    (u = t ∧ k = x.calls ∧ op.void x.handles = false ∧ y.trace = x.trace ++ [.call k t op] ∧ y.pc t = entry ⟨k, op⟩)
  rets : ∀ k, .ret k ∈ y.trace → .ret k ∈ x.trace ∨
    ∃ c, (x.pc t).cur = some c ∧ (x.pc t).pend = none ∧ c.id = k
  gives : ∀ k i n, .give k i n ∈ y.trace → .give k i n ∈ x.trace ∨
    ((∃ op, Cause x k i n op ∧ ((⟨k, op⟩ : Call I E) ∈ x.line ∨ (x.pc t).pend = some ⟨k, op⟩)) ∧
      ((⟨i, .subscribe⟩ : Call I E) ∈ x.line ∨ (x.pc t).pend = some ⟨i, .subscribe⟩))

theorem Handled.cause {own c b} (h : Handled D own x c y b)
    (hf : own = false → x.closed = true → ∀ i ∈ x.members, D.isClosed (x.dests i) = true) {k i n}
    (hg : .give k i n ∈ b) : k = c.id ∧ Cause x k i n c.op := by
  obtain ⟨i', n', e⟩ := h.marks _ hg
  cases e
  refine ⟨rfl, ?_⟩
  rcases h.what _ _ _ hg with ⟨rfl, e⟩ | ⟨v, e, rfl⟩ | ⟨v, e, rfl⟩ | ⟨e, rfl⟩
  · rcases e with e | ⟨e, e1, e2⟩ | e | ⟨e1, rfl, e3⟩
    · exact .inl e
    · rcases h.to _ _ _ hg with hm | ⟨-, hs⟩
      · have := h.tells.deaf (hf e1 e2 i hm)
        rw [h.trace, givesTo_append] at this
        have hb : givesTo i b = [] := by simpa using this
        have : (.unsubscribe : SubscriberNotification I E) ∈ givesTo i b := by
          unfold givesTo
          exact List.mem_filterMap.2 ⟨_, hg, by simp⟩
        rw [hb] at this
        cases this
      · rw [hs] at e; cases e
    · exact .inr (.inl e)
    · exact .inr (.inr ⟨e1, rfl, by simp [State.shut, e3]⟩)
  · exact e
  · exact .inl e
  · exact .inl e

theorem Move.grow (m : Move D x t y) (hr : ∀ c, x.pc t = .refuse c → x.shut = true)
    (hs : ∀ i ∈ x.members, ⟨i, .subscribe⟩ ∈ x.done)
    (hf : x.closed = true → (x.pc t).mid = true → x.rest ≠ [] → ∀ i ∈ x.members, D.isClosed (x.dests i) = true) :
    Grow x t y := by
  cases m with
  | quiet p pc same =>
    obtain ⟨e1, e2, e3, e4, e5, e6, -⟩ := same
    have el : y.line = x.line := by rw [State.line, State.line, e1, e2, e6]
    exact ⟨⟨[], by rw [e3]; simp⟩, fun c hc => .inl (el ▸ hc), fun c hc => el ▸ hc, fun c hc => e6 ▸ hc,
      fun k u op h => .inl (e3 ▸ h), fun k h => .inl (e3 ▸ h), fun k i n h => .inl (e3 ▸ h)⟩
  | drop p c pc same =>
    obtain ⟨e1, e2, e3, e4, e5, e6, -⟩ := same
    have el : y.line = x.line := by rw [State.line, State.line, e1, e2, e6]
    exact ⟨⟨[], by rw [e3]; simp⟩, fun c hc => .inl (el ▸ hc), fun c hc => el ▸ hc, fun c hc => e6 ▸ hc,
      fun k u op h => .inl (e3 ▸ h), fun k h => .inl (e3 ▸ h), fun k i n h => .inl (e3 ▸ h)⟩
  | drain p pc e1 e2 e3 e4 e5 e6 members cur pend sure empty =>
    have el : y.line = x.line := by rw [State.line, State.line, e1, e2, e6, empty]; simp
    exact ⟨⟨[], by rw [e3]; simp⟩, fun c hc => .inl (el ▸ hc), fun c hc => el ▸ hc, fun c hc => e6 ▸ hc,
      fun k u op h => .inl (e3 ▸ h), fun k h => .inl (e3 ▸ h), fun k i n h => .inl (e3 ▸ h)⟩
  | speak p c n pc e1 e2 e3 e4 e5 e6 members cur cur₀ pend pend₀ sure sub closing what =>
    have el : y.line = x.line := by rw [State.line, State.line, e1, e2, e6]
    have e3' : y.trace = x.trace ++ (([c.id].filter fun i => !D.isClosed (x.dests i)).map fun i => .give c.id i n) := e3
    have hm := told_marks (id := c.id) (n := n) (L := [c.id]) (p := fun i => !D.isClosed (x.dests i))
    refine ⟨⟨_, e3'⟩, fun c hc => .inl (el ▸ hc), fun c hc => el ▸ hc, fun c hc => e6 ▸ hc,
      fun k u op h => .inl ?_, fun k h => .inl ?_, fun k i n' h => ?_⟩
    · rw [e3', List.mem_append] at h
      exact h.elim (fun h => h) (fun h => absurd rfl ((hm _ h).1 _ _ _))
    · rw [e3', List.mem_append] at h
      exact h.elim (fun h => h) (fun h => absurd rfl ((hm _ h).2 _))
    · rw [e3', List.mem_append] at h
      rcases h with h | h
      · exact .inl h
      · obtain ⟨j, hj, e⟩ := List.mem_map.1 h
        cases e
        have := List.mem_singleton.1 (List.mem_filter.1 hj).1
        subst this
        refine .inr ⟨⟨c.op, ?_, .inr pend₀⟩, .inr (by rw [← sub]; exact pend₀)⟩
        rcases what with ⟨rfl, e⟩ | ⟨v, rfl, e⟩ | ⟨rfl, e⟩
        · refine .inr (.inr ⟨sub, rfl, ?_⟩)
          rcases e with e | e
          · simp [State.shut, e]
          · exact hr _ e
        · exact .inr ⟨sub, rfl, e⟩
        · exact .inr ⟨sub, rfl, e⟩
  | serve p c r b pc queue rest₀ rest handled calls done cur pend sure mid hand =>
    have el : y.line = x.line := by rw [State.line, State.line, queue, rest, done, rest₀]; simp
    have hm := handled.marks'
    refine ⟨⟨_, handled.trace⟩, fun c hc => .inl (el ▸ hc), fun c hc => el ▸ hc, fun c hc => by rw [done]; exact List.mem_append_left _ hc,
      fun k u op h => .inl ?_, fun k h => .inl ?_, fun k i n' h => ?_⟩
    · rw [handled.trace, List.mem_append] at h
      exact h.elim (fun h => h) (fun h => absurd rfl ((hm _ h).1 _ _ _))
    · rw [handled.trace, List.mem_append] at h
      exact h.elim (fun h => h) (fun h => absurd rfl ((hm _ h).2 _))
    · rw [handled.trace, List.mem_append] at h
      rcases h with h | h
      · exact .inl h
      · obtain ⟨rfl, h2⟩ := handled.cause (fun _ hc => hf hc mid (by rw [rest₀]; simp)) h
        refine .inr ⟨⟨c.op, h2, .inl (by simp [State.line, rest₀])⟩, .inl ?_⟩
        rcases handled.to _ _ _ h with e | ⟨rfl, e⟩
        · simp [State.line, hs i e]
        · rw [← e]; simp [State.line, rest₀]
  | give p c b pc queue rest₀ rest handled calls done cur cur₀ pend pend₀ sure at₀ =>
    have hm := handled.marks'
    refine ⟨⟨_, handled.trace⟩, fun d hd => ?_, fun d hd => ?_, fun c hc => by rw [done]; exact List.mem_append_left _ hc,
      fun k u op h => .inl ?_, fun k h => .inl ?_, fun k i n' h => ?_⟩
    · simp only [State.line, queue, rest, done, List.mem_append, List.mem_singleton, List.nil_append] at hd
      rcases hd with (hd | rfl) | hd
      · exact .inl (by simp [State.line, hd])
      · exact .inr (by rw [at₀]; rfl)
      · exact .inl (by simp [State.line, hd])
    · simp only [State.line, rest₀, List.mem_append, List.nil_append] at hd
      rcases hd with hd | hd <;> simp [State.line, queue, done, hd]
    · rw [handled.trace, List.mem_append] at h
      exact h.elim (fun h => h) (fun h => absurd rfl ((hm _ h).1 _ _ _))
    · rw [handled.trace, List.mem_append] at h
      exact h.elim (fun h => h) (fun h => absurd rfl ((hm _ h).2 _))
    · rw [handled.trace, List.mem_append] at h
      rcases h with h | h
      · exact .inl h
      · obtain ⟨rfl, h2⟩ := handled.cause (fun h => by cases h) h
        refine .inr ⟨⟨c.op, h2, .inr pend₀⟩, ?_⟩
        rcases handled.to _ _ _ h with e | ⟨rfl, e⟩
        · exact .inl (by simp [State.line, hs i e])
        · exact .inr (by rw [← e]; exact pend₀)
  | defer p c pc queue rest e3 dests calls done members cur cur₀ pend pend₀ sure at₀ isOpen =>
    refine ⟨⟨[], by rw [e3]; simp⟩, fun d hd => ?_, fun d hd => ?_, fun c hc => done ▸ hc,
      fun k u op h => .inl (e3 ▸ h), fun k h => .inl (e3 ▸ h), fun k i n h => .inl (e3 ▸ h)⟩
    · simp only [State.line, queue, rest, done, List.mem_append, List.mem_singleton] at hd
      rcases hd with hd | hd | hd | rfl
      · exact .inl (by simp [State.line, hd])
      · exact .inl (by simp [State.line, hd])
      · exact .inl (by simp [State.line, hd])
      · exact .inr (by rw [at₀]; rfl)
    · simp only [State.line, List.mem_append] at hd
      rcases hd with hd | hd | hd <;> simp [State.line, queue, rest, done, hd]
  | ret c pc e1 e2 e3 dests calls e6 members cur₀ pend₀ =>
    have el : y.line = x.line := by rw [State.line, State.line, e1, e2, e6]
    refine ⟨⟨_, e3⟩, fun c hc => .inl (el ▸ hc), fun c hc => el ▸ hc, fun c hc => e6 ▸ hc,
      fun k u op h => .inl ?_, fun k h => ?_, fun k i n h => .inl ?_⟩
    · simpa [e3] using h
    · simp only [e3, List.mem_append, List.mem_singleton, Mark.ret.injEq] at h
      exact h.imp (fun h => h) (fun h => ⟨c, cur₀, pend₀, h.symm⟩)
    · simpa [e3] using h
  | note bit pc e1 e2 e3 dests calls e6 members =>
    have el : y.line = x.line := by rw [State.line, State.line, e1, e2, e6]
    exact ⟨⟨_, e3⟩, fun c hc => .inl (el ▸ hc), fun c hc => el ▸ hc, fun c hc => e6 ▸ hc,
      fun k u op h => .inl (by simpa [e3] using h), fun k h => .inl (by simpa [e3] using h), fun k i n h => .inl (by simpa [e3] using h)⟩
  | start p c pc e1 e2 e3 dests calls e6 members id cur pend sure idle void entry =>
    have el : y.line = x.line := by rw [State.line, State.line, e1, e2, e6]
    refine ⟨⟨_, e3⟩, fun c hc => .inl (el ▸ hc), fun c hc => el ▸ hc, fun c hc => e6 ▸ hc,
      fun k u op h => ?_, fun k h => .inl (by simpa [e3] using h), fun k i n h => .inl (by simpa [e3] using h)⟩
    simp only [e3, List.mem_append, List.mem_singleton, Mark.call.injEq] at h
    refine h.imp (fun h => h) ?_
    rintro ⟨rfl, rfl, rfl⟩
    exact ⟨rfl, id, void, e3, by rw [pc, pc_goto, if_pos rfl, entry]⟩

/-- How the subject ends. -/
structure Ends (x : State S I E) : Prop where
  retd : ∀ j u op, .call j u op ∈ x.trace → op.isClosing = true → .ret j ∈ x.trace → x.shut = true
  noted : ∀ u c, (x.pc u).noted = some c → c.op.isClosing = true → x.shut = true
  line : ∀ c ∈ x.line, c.op.isClosing = true → x.shut = true
  whyClosed : x.closed = true → (∃ c ∈ x.done, c.op.isClosing = true) ∨ ∃ u c, x.pc u = .give c ∧ c.op = .unsubscribe
  why : x.shut = true → (∃ c ∈ x.line, c.op.isClosing = true) ∨ ∃ u c, (x.pc u).armed = some c ∧ c.op.isClosing = true
  refuse : ∀ u c, x.pc u = .refuse c → x.shut = true
  passed : ∀ u c, (x.pc u).passed = some c → c.op.checked = true →
    ∀ j u' op, .call j u' op ∈ x.trace → op.isClosing = true → ¬ Before x.trace j c.id
  lined : ∀ c ∈ x.line, c.op.checked = true →
    ∀ j u' op, .call j u' op ∈ x.trace → op.isClosing = true → ¬ Before x.trace j c.id
  error : ∀ e, x.error = some e → ∃ j u, .call j u (.error e) ∈ x.trace
  completed : x.completed = true → ∃ j u, .call j u .complete ∈ x.trace
  handles : ∀ k ∈ x.handles, .ret k ∈ x.trace ∧ ∃ u, .call k u .subscribe ∈ x.trace
  cancels : ∀ j u i, .call j u (.cancel i) ∈ x.trace → Before x.trace i j ∧ ∃ u, .call i u .subscribe ∈ x.trace

theorem Ends.init (s : Nat → S) : Ends (init s : State S I E) where
  retd _ _ _ h := by cases h
  noted _ _ h := by cases h
  line _ h := by cases h
  whyClosed h := by cases h
  why h := by cases h
  refuse _ _ h := by cases h
  passed _ _ h := by cases h
  lined _ h := by cases h
  error _ h := by cases h
  completed h := by cases h
  handles _ h := by cases h
  cancels _ _ _ h := by cases h

theorem noted_of_cur {p : PC I E} {c} (h : p.cur = some c) (hp : p.pend = none) : p.noted = some c := by
  have hw : ∀ w : Why I E, w.cur = some c → w.pend = none → w.noted = some c := by
    intro w h hp; cases w <;> first | exact h | cases hp
  have hw' : ∀ w : Why I E, w.cur = some c → w.later = none → w.noted = some c := by
    intro w h hp; cases w <;> first | exact h | cases hp
  cases p <;> first | exact h | exact hw _ h hp | exact hw' _ h hp | (cases hp; done) | (cases h; done)

theorem noted_of_armed {p : PC I E} {c} (h : p.armed = some c) : p.noted = some c := by
  have hw : ∀ w : Why I E, w.armed = some c → w.noted = some c := by
    intro w h; cases w <;> first | exact h | cases h
  cases p <;> first | exact h | exact hw _ h | cases h

theorem passed_of_armed {p : PC I E} {c} (h : p.armed = some c) : p.passed = some c := by
  cases p <;> first | exact h | cases h

theorem pend_of_armed {p : PC I E} {c} (h : p.armed = some c) : p.pend = some c := by
  have hw : ∀ w : Why I E, w.armed = some c → w.pend = some c := by
    intro w h; cases w <;> first | exact h | cases h
  cases p <;> first | exact h | exact hw _ h | cases h

theorem pend_of_passed {p : PC I E} {c} (h : p.passed = some c) : p.pend = some c := by
  have hw : ∀ w : Why I E, w.armed = some c → w.pend = some c := by
    intro w h; cases w <;> first | exact h | cases h
  cases p <;> first | exact h | exact hw _ h | cases h

theorem armed_of_hand {p : PC I E} {c} (h : p = .sealing c) : p.armed = some c := by rw [h]; rfl

theorem shut_of_closed (h : x.closed = true) : x.shut = true := by simp [State.shut, h]

theorem Ends.move (h : Ends x) (hH : Heard D s x) (hi : Ids x) (hh : Held x t y) (f : Fine x t y) (g : Grow x t y) : Ends y := by
  obtain ⟨b, hb⟩ := g.trace
  have calls : ∀ {k u op}, .call k u op ∈ x.trace → .call k u op ∈ y.trace := fun h => by
    rw [hb]; exact List.mem_append_left _ h
  -- a call that closes and has returned in `x`
  have back : ∀ {j u op k u' op'}, .call j u op ∈ y.trace → op.isClosing = true → Before y.trace j k →
      .call k u' op' ∈ x.trace → Before x.trace j k ∧ .call j u op ∈ x.trace := by
    intro j u op k u' op' hj hc hbf hk
    rw [hb] at hbf
    have hbf := hbf.backs hk
    obtain ⟨u₁, op₁, h1⟩ := hi.rets _ hbf.ret
    refine ⟨hbf, ?_⟩
    rcases g.calls _ _ _ hj with e | ⟨-, e, -⟩
    · exact e
    · have := hi.ids _ _ _ h1
      omega
  have notedShut : ∀ u c, (y.pc u).noted = some c → c.op.isClosing = true → y.shut = true := by
    refine hh.threads (R := fun _ p => ∀ c, p.noted = some c → c.op.isClosing = true → y.shut = true) (fun c hc hcl => ?_)
      (fun u _ c hc hcl => f.shut_mono (h.noted u c hc hcl))
    rcases f.noted c hc with e | e | e
    · exact f.shut_mono (h.noted t c e hcl)
    · exact e
    · rw [e] at hcl; cases hcl
  have lineShut : ∀ c ∈ y.line, c.op.isClosing = true → y.shut = true := by
    intro c hc hcl
    rcases g.lines c hc with e | e
    · exact f.shut_mono (h.line c e hcl)
    · exact f.shut_mono (h.noted t c (noted_of_armed e) hcl)
  have passedOk : ∀ u c, (y.pc u).passed = some c → c.op.checked = true →
      ∀ j u' op, .call j u' op ∈ y.trace → op.isClosing = true → ¬ Before y.trace j c.id := by
    refine hh.threads (R := fun _ p => ∀ c, p.passed = some c → c.op.checked = true →
      ∀ j u' op, .call j u' op ∈ y.trace → op.isClosing = true → ¬ Before y.trace j c.id)
      (fun c hc hck j u' op hj hcl hbf => ?_) (fun u _ c hc hck j u' op hj hcl hbf => ?_)
    · rcases f.passed c hc with e | e | ⟨e1, e2⟩
      · obtain ⟨h1, h2⟩ := back hj hcl hbf (hi.cur t c (cur_of_pend (pend_of_passed e))).1
        exact h.passed t c e hck _ _ _ h2 hcl h1
      · rw [e] at hck; cases hck
      · obtain ⟨h1, h2⟩ := back hj hcl hbf (hi.cur t c (cur_of_pend e2)).1
        rw [h.retd _ _ _ h2 hcl h1.ret] at e1
        cases e1
    · obtain ⟨h1, h2⟩ := back hj hcl hbf (hi.cur u c (cur_of_pend (pend_of_passed hc))).1
      exact h.passed u c hc hck _ _ _ h2 hcl h1
  refine ⟨fun j u op hj hcl hr => ?_, notedShut, lineShut, fun hc => ?_, fun hs => ?_, ?_, passedOk, fun c hc hck j u' op hj hcl hbf => ?_,
    fun e he => ?_, fun hc => ?_, fun k hk => ?_, fun j u i hj => ?_⟩
  · -- retd
    rcases g.rets j hr with e | ⟨c, e1, e2, rfl⟩
    · rcases g.calls _ _ _ hj with e' | ⟨-, e', -⟩
      · exact f.shut_mono (h.retd _ _ _ e' hcl e)
      · obtain ⟨u₁, op₁, h1⟩ := hi.rets _ e
        have := hi.ids _ _ _ h1
        omega
    · have hc := (hi.cur t c e1).1
      have e' : .call c.id u op ∈ x.trace := by
        rcases g.calls _ _ _ hj with e' | ⟨-, e', -⟩
        · exact e'
        · have := hi.ids _ _ _ hc
          omega
      obtain ⟨-, rfl⟩ := hi.one _ _ _ _ _ hc e'
      exact f.shut_mono (h.noted t c (noted_of_cur e1 e2) hcl)
  · -- whyClosed
    have old : x.closed = true → (∃ c ∈ y.done, c.op.isClosing = true) ∨ ∃ u c, y.pc u = .give c ∧ c.op = .unsubscribe := by
      intro hx
      rcases h.whyClosed hx with ⟨c, h1, h2⟩ | ⟨u, c, h1, h2⟩
      · exact .inl ⟨c, g.done c h1, h2⟩
      · by_cases e : u = t
        · subst e
          exact .inl ⟨c, by rw [f.gave c h1]; simp, by rw [h2]; rfl⟩
        · exact .inr ⟨u, c, by rw [hh.other e]; exact h1, h2⟩
    rcases f.closed hc with e | ⟨c, e, e1, -⟩ | ⟨c, e, e1, -⟩
    · exact old e
    · exact .inl ⟨c, g.done c (hH.hand t c e).1, e1⟩
    · exact .inr ⟨t, c, e1, hH.sealing t c e⟩
  · -- why
    have old : x.shut = true → (∃ c ∈ y.line, c.op.isClosing = true) ∨ ∃ u c, (y.pc u).armed = some c ∧ c.op.isClosing = true := by
      intro hx
      rcases h.why hx with ⟨c, h1, h2⟩ | ⟨u, c, h1, h2⟩
      · exact .inl ⟨c, g.mono c h1, h2⟩
      · by_cases e : u = t
        · subst e
          rcases f.armed c h1 with e | e | e | ⟨e1, e2⟩
          · exact .inr ⟨u, c, e, h2⟩
          · exact .inl ⟨c, by simp [State.line, e], h2⟩
          · exact .inl ⟨c, by simp [State.line, e], h2⟩
          · rcases h.whyClosed e1 with ⟨d, h3, h4⟩ | ⟨v, d, h3, h4⟩
            · exact .inl ⟨d, g.mono d (by simp [State.line, h3]), h4⟩
            · have hv : v ≠ u := by
                rintro rfl
                rw [e2] at h3
                cases h3
              exact .inr ⟨v, d, by rw [hh.other hv, h3]; rfl, by rw [h4]; rfl⟩
        · exact .inr ⟨u, c, by rw [hh.other e]; exact h1, h2⟩
    rcases f.shut hs with e | e | ⟨c, e, e1⟩ | ⟨c, e⟩
    · exact old e
    · obtain ⟨c, e1, e2⟩ := e
      exact .inr ⟨t, c, e1, e2⟩
    · exact .inl ⟨c, g.mono c (by simp [State.line, (hH.hand t c e).1]), e1⟩
    · exact old (h.noted t c (noted_of_armed (armed_of_hand e)) (by rw [hH.sealing t c e]; rfl))
  · -- refuse
    exact hh.threads (R := fun _ p => ∀ c, p = .refuse c → y.shut = true) (fun c hc => f.shut_mono (f.refuse c hc))
      (fun u _ c hc => f.shut_mono (h.refuse u c hc))
  · -- lined
    rcases g.lines c hc with e | e
    · obtain ⟨u, hu⟩ := hi.line c e
      obtain ⟨h1, h2⟩ := back hj hcl hbf hu
      exact h.lined c e hck _ _ _ h2 hcl h1
    · obtain ⟨h1, h2⟩ := back hj hcl hbf (hi.cur t c (cur_of_pend (pend_of_armed e))).1
      exact h.passed t c (passed_of_armed e) hck _ _ _ h2 hcl h1
  · -- error
    rcases f.error e he with h1 | ⟨c, h1, h2⟩
    · obtain ⟨j, u, h3⟩ := h.error e h1
      exact ⟨j, u, calls h3⟩
    · exact ⟨c.id, t, calls (h2 ▸ (hi.cur t c h1).1)⟩
  · rcases f.completed hc with h1 | ⟨c, h1, h2⟩
    · obtain ⟨j, u, h3⟩ := h.completed h1
      exact ⟨j, u, calls h3⟩
    · exact ⟨c.id, t, calls (h2 ▸ (hi.cur t c h1).1)⟩
  · rcases f.handles k hk with h1 | ⟨c, h1, rfl, h2, h3⟩
    · obtain ⟨h4, u, h5⟩ := h.handles k h1
      exact ⟨by rw [hb]; exact List.mem_append_left _ h4, u, calls h5⟩
    · exact ⟨by rw [h3]; simp, t, calls (h2 ▸ (hi.cur t c h1).1)⟩
  · rcases g.calls _ _ _ hj with e | ⟨rfl, rfl, e2, e3, -⟩
    · obtain ⟨h1, u, h2⟩ := h.cancels _ _ _ e
      exact ⟨by rw [hb]; exact h1.mono _, u, calls h2⟩
    · have hk : i ∈ x.handles := by
        simpa [Op.void] using e2
      obtain ⟨h1, u, h2⟩ := h.handles i hk
      exact ⟨⟨x.trace, _, e3, h1, fun t' op' hx => Nat.lt_irrefl _ (hi.ids _ _ _ hx)⟩, u, calls h2⟩

theorem Ends.ending (h : Ends x) (hi : Ids x) (hs : x.shut = true) : Ending x.trace := by
  rcases h.why hs with ⟨c, h1, h2⟩ | ⟨u, c, h1, h2⟩
  · obtain ⟨v, hv⟩ := hi.line c h1
    exact ⟨c.id, v, c.op, hv, h2⟩
  · exact ⟨c.id, u, c.op, (hi.cur u c (cur_of_pend (pend_of_armed h1))).1, h2⟩

/-! ## What becomes of a call -/

/-- A call came to nothing, for a reason. -/
def Lost (D : Dest S I E) (x : State S I E) (k : Nat) (op : Op I E) : Prop :=
  match op with
  | .subscribe => D.isClosed (x.dests k) = true
  | .cancel i => D.isClosed (x.dests i) = true ∨ (Excused x.trace k ∧ x.shut = true ∧
      ∀ c, (c ∈ x.line ∨ ∃ u, (x.pc u).passed = some c) → c.op.checked = true → ¬ Before x.trace k c.id)
  | _ => Excused x.trace k

/-- What becomes of calls, and what subscribers do not hear. -/
structure Kept (D : Dest S I E) (x : State S I E) : Prop where
  kept : ∀ k u op, .call k u op ∈ x.trace → ⟨k, op⟩ ∈ x.line ∨ (x.pc u).pend = some ⟨k, op⟩ ∨ Lost D x k op
  gives : ∀ k i n, .give k i n ∈ x.trace → (∃ u op, .call k u op ∈ x.trace ∧ Reason x.trace k i op n) ∧
    ∃ u, .call i u .subscribe ∈ x.trace
  gave : ∀ k i v, .give k i (.next v) ∈ x.trace → ∀ j u, .call j u (.cancel i) ∈ x.trace → ¬ Before x.trace j k

theorem Kept.init (s : Nat → S) : Kept D (init s : State S I E) where
  kept _ _ _ h := by cases h
  gives _ _ _ h := by cases h
  gave _ _ _ h := by cases h

theorem Reason.mono {tr : List (Mark I E)} {k i : Nat} {op n} (h : Reason tr k i op n) (b) : Reason (tr ++ b) k i op n := by
  cases n with
  | next v => exact h
  | error e =>
    rcases h with h | ⟨h1, h2, j, u, h3⟩
    · exact .inl h
    · exact .inr ⟨h1, h2, j, u, List.mem_append_left _ h3⟩
  | complete =>
    rcases h with h | ⟨h1, h2, j, u, h3⟩
    · exact .inl h
    · exact .inr ⟨h1, h2, j, u, List.mem_append_left _ h3⟩
  | unsubscribe =>
    rcases h with h | h | ⟨h1, h2, h3⟩
    · exact .inl h
    · exact .inr (.inl h)
    · exact .inr (.inr ⟨h1, h2, h3.mono _⟩)

theorem Ends.reason (h : Ends x) (hi : Ids x) {k i op n} (hc : Cause x k i n op) : Reason x.trace k i op n := by
  cases n with
  | next v => exact hc
  | error e =>
    rcases hc with hc | ⟨h1, h2, h3⟩
    · exact .inl hc
    · exact .inr ⟨h1, h2, h.error e h3⟩
  | complete =>
    rcases hc with hc | ⟨h1, h2, h3⟩
    · exact .inl hc
    · exact .inr ⟨h1, h2, h.completed h3⟩
  | unsubscribe =>
    rcases hc with hc | hc | ⟨h1, h2, h3⟩
    · exact .inl hc
    · exact .inr (.inl hc)
    · exact .inr (.inr ⟨h1, h2, h.ending hi h3⟩)

theorem Lost.mono (hi : Ids x) (hh : Held x t y) (f : Fine x t y) (g : Grow x t y)
    (hs : ∀ i, D.isClosed (x.dests i) = true → D.isClosed (y.dests i) = true) {k op} (h : Lost D x k op) : Lost D y k op := by
  obtain ⟨b, hb⟩ := g.trace
  cases op with
  | subscribe => exact hs k h
  | cancel i =>
    rcases h with h | ⟨h1, h2, h3⟩
    · exact .inl (hs i h)
    · refine .inr ⟨by rw [hb]; exact h1.mono _, f.shut_mono h2, fun c hc hck hbf => ?_⟩
      rw [hb] at hbf
      rcases hc with hc | ⟨u, hc⟩
      · rcases g.lines c hc with e | e
        · obtain ⟨v, hv⟩ := hi.line c e
          exact h3 c (.inl e) hck (hbf.backs hv)
        · exact h3 c (.inr ⟨t, passed_of_armed e⟩) hck (hbf.backs (hi.cur t c (cur_of_pend (pend_of_armed e))).1)
      · have hx : (x.pc u).passed = some c := by
          by_cases e : u = t
          · subst e
            rcases f.passed c hc with e | e | ⟨e, -⟩
            · exact e
            · rw [e] at hck; cases hck
            · rw [h2] at e; cases e
          · rw [hh.other e] at hc; exact hc
        exact h3 c (.inr ⟨u, hx⟩) hck (hbf.backs (hi.cur u c (cur_of_pend (pend_of_passed hx))).1)
  | next v => show Excused y.trace k; rw [hb]; exact Excused.mono h _
  | error v => show Excused y.trace k; rw [hb]; exact Excused.mono h _
  | complete => show Excused y.trace k; rw [hb]; exact Excused.mono h _
  | unsubscribe => show Excused y.trace k; rw [hb]; exact Excused.mono h _

theorem mem_valuesTo {b : List (Mark I E)} {k i : Nat} {v : I} (h : .give k i (.next v) ∈ b) : (k, v) ∈ valuesTo i b := by
  unfold valuesTo
  rw [List.mem_filterMap]
  exact ⟨_, h, by simp⟩

theorem give_of_mem_valuesTo {b : List (Mark I E)} {k i : Nat} {v : I} (h : (k, v) ∈ valuesTo i b) : .give k i (.next v) ∈ b := by
  unfold valuesTo at h
  rw [List.mem_filterMap] at h
  obtain ⟨m, h1, h2⟩ := h
  split at h2
  · split at h2
    · rename_i e
      cases h2
      exact e ▸ h1
    · cases h2
  · cases h2

/-- A value handled now does not go to a subscriber whose subscription was unsubscribed before. -/
theorem Kept.fresh (h : Kept D x) (hH : Heard D s x) (hi : Ids x) (he : Ends x) {i j u k : Nat} {c : Call I E}
    (hm : i ∈ x.members) (ho : D.isClosed (x.dests i) = false) (hc : c ∈ x.line ∨ ∃ u, (x.pc u).passed = some c)
    (hck : c.op.checked = true) (hk : c.id = k) (hj : .call j u (.cancel i) ∈ x.trace)
    (hl : ∀ d ∈ x.rest ++ x.queue, d.id ≠ k → ¬ Before x.trace d.id k) (hne : j ≠ k) : ¬ Before x.trace j k := by
  subst hk
  intro hbf
  rcases h.kept j u _ hj with e | e | e
  · rw [State.line, List.mem_append] at e
    rcases e with e | e
    · have hsub := hH.subs i hm
      obtain ⟨a, b, hab⟩ := List.append_of_mem hsub
      rw [hab, List.mem_append, List.mem_cons] at e
      rcases e with e | e | e
      · have hord := hi.order
        rw [State.line, hab, List.append_assoc, List.pairwise_append] at hord
        exact hord.2.2 _ e ⟨i, .subscribe⟩ (by simp) (he.cancels _ _ _ hj).1
      · cases e
      · rw [hH.cancel i a b hab _ e rfl] at ho
        cases ho
    · exact hl _ e hne hbf
  · exact (hi.cur u _ (cur_of_pend e)).2 hbf.ret
  · rcases e with e | ⟨-, -, e⟩
    · rw [e] at ho; cases ho
    · exact e c hc hck hbf

theorem Kept.move (h : Kept D x) (hD : D.Contract) (hH : Heard D s x) (hi : Ids x) (he : Ends x) (hh : Held x t y) (f : Fine x t y) (g : Grow x t y)
    (m : Move D x t y) : Kept D y := by
  obtain ⟨b, hb⟩ := g.trace
  have stays : ∀ i, D.isClosed (x.dests i) = true → D.isClosed (y.dests i) = true := m.tells.choose_spec.stays
  have mono : ∀ {k op}, Lost D x k op → Lost D y k op := fun h => h.mono hi hh f g stays
  refine ⟨fun k u op hk => ?_, fun k i n hg => ?_, fun k i v hg j u hj hbf => ?_⟩
  · rcases g.calls _ _ _ hk with hk | ⟨rfl, rfl, -, -, e⟩
    · rcases h.kept k u op hk with e | e | e
      · exact .inl (g.mono _ e)
      · by_cases hu : u = t
        · subst hu
          have hr := (hi.cur u _ (cur_of_pend e)).2
          have lost : x.shut = true → ∀ z : State S I E, z.shut = true → z.trace = x.trace → op ≠ .subscribe → Lost D z k op := by
            intro hs z hz ht hsub
            have hex : Excused z.trace k := by
              rw [ht]
              exact ⟨x.trace, [], by simp, hr, he.ending hi hs⟩
            cases op with
            | subscribe => exact absurd rfl hsub
            | cancel i =>
              refine .inr ⟨hex, hz, fun c _ _ hbf => ?_⟩
              rw [ht] at hbf
              exact hr hbf.ret
            | _ => exact hex
          cases m with
          | quiet p pc same cur pend => exact .inr (.inl (by rw [pc, pc_goto, if_pos rfl, pend]; exact e))
          | drain p pc queue rest trace dests calls done members cur pend =>
            exact .inr (.inl (by rw [pc, pc_goto, if_pos rfl, pend]; exact e))
          | serve p c r b pc queue rest₀ rest handled calls done cur pend =>
            exact .inr (.inl (by rw [pc, pc_goto, if_pos rfl, pend]; exact e))
          | note bit pc => exact .inr (.inl (by rw [pc]; exact e))
          | drop p c pc same cur cur₀ pend pend₀ sure why =>
            rw [pend₀] at e
            cases e
            right; right
            rcases why with ⟨w1, -, w3⟩ | ⟨w1, -, w3⟩ | ⟨w1, w2, -⟩ | ⟨i, w1, w2⟩
            · exact lost w1 y (f.shut_mono w1) same.trace (fun e => by cases e; cases w3)
            · have w1 := shut_of_closed w1
              exact lost w1 y (f.shut_mono w1) same.trace (fun e => by cases e; cases w3)
            · have w1 : x.shut = true := by simp [State.shut, w1]
              exact lost w1 y (f.shut_mono w1) same.trace (fun e => by cases e; cases w2)
            · dsimp only at w1
              subst w1
              exact .inl (stays i w2)
          | speak p c n pc queue rest trace dests calls done members cur cur₀ pend pend₀ sure sub closing what =>
            rw [pend₀] at e
            cases e
            dsimp only at sub
            subst sub
            right; right
            show D.isClosed (y.dests k) = true
            rw [dests]
            exact told_closes hD _ _ closing _ _ (by simp)
          | give p c b pc queue rest₀ rest handled calls done cur cur₀ pend pend₀ =>
            rw [pend₀] at e
            cases e
            exact .inl (by simp [State.line, done])
          | defer p c pc queue rest trace dests calls done members cur cur₀ pend pend₀ =>
            rw [pend₀] at e
            cases e
            exact .inl (by simp [State.line, queue])
          | ret c pc queue rest trace dests calls done members cur₀ pend₀ => rw [pend₀] at e; cases e
          | start p c pc queue rest trace dests calls done members id cur pend sure idle => rw [idle] at e; cases e
        · exact .inr (.inl (by rw [hh.other hu]; exact e))
      · exact .inr (.inr (mono e))
    · exact .inr (.inl (by rw [e]; exact (entry_reads _).2.1))
  · rcases g.gives k i n hg with e | ⟨⟨op, e1, e2⟩, e3⟩
    · obtain ⟨⟨u, op, h1, h2⟩, u', h3⟩ := h.gives k i n e
      rw [hb]
      exact ⟨⟨u, op, List.mem_append_left _ h1, h2.mono _⟩, u', List.mem_append_left _ h3⟩
    · have hsub : ∃ u, .call i u .subscribe ∈ y.trace := by
        rw [hb]
        rcases e3 with e3 | e3
        · obtain ⟨u, hu⟩ := hi.line _ e3
          exact ⟨u, List.mem_append_left _ hu⟩
        · exact ⟨t, List.mem_append_left _ (hi.cur t _ (cur_of_pend e3)).1⟩
      refine ⟨?_, hsub⟩
      have hr := he.reason hi e1
      rw [hb]
      rcases e2 with e2 | e2
      · obtain ⟨u, hu⟩ := hi.line _ e2
        exact ⟨u, op, List.mem_append_left _ hu, hr.mono _⟩
      · exact ⟨t, op, List.mem_append_left _ (hi.cur t _ (cur_of_pend e2)).1, hr.mono _⟩
  · have hjx : ∀ {k u' op'}, .call k u' op' ∈ x.trace → Before y.trace j k → Before x.trace j k ∧ .call j u (.cancel i) ∈ x.trace := by
      intro k u' op' hk hbf
      rw [hb] at hbf
      have hbf := hbf.backs hk
      refine ⟨hbf, ?_⟩
      rcases g.calls _ _ _ hj with e | ⟨-, e, -⟩
      · exact e
      · obtain ⟨u₁, op₁, h1⟩ := hi.rets _ hbf.ret
        have := hi.ids _ _ _ h1
        omega
    have old : .give k i (.next v) ∈ x.trace → False := by
      intro hg
      obtain ⟨⟨u', op, h1, -⟩, -⟩ := h.gives k i _ hg
      obtain ⟨h2, h3⟩ := hjx h1 hbf
      exact h.gave k i v hg j u h3 h2
    cases m with
    | quiet p pc same => exact old (same.trace ▸ hg)
    | drop p c pc same => exact old (same.trace ▸ hg)
    | drain p pc queue rest trace => exact old (trace ▸ hg)
    | defer p c pc queue rest trace => exact old (trace ▸ hg)
    | ret c pc queue rest trace => exact old (by simpa [trace] using hg)
    | note bit pc queue rest trace => exact old (by simpa [trace] using hg)
    | start p c pc queue rest trace => exact old (by simpa [trace] using hg)
    | speak p c n pc queue rest trace dests calls done members cur cur₀ pend pend₀ sure sub closing what =>
      have e3' : y.trace = x.trace ++ (([c.id].filter fun i => !D.isClosed (x.dests i)).map fun i => .give c.id i n) := trace
      rw [e3', List.mem_append] at hg
      rcases hg with hg | hg
      · exact old hg
      · have := (what_told hg).1
        subst this
        cases closing
    | serve p c r b' pc queue rest₀ rest handled calls done cur pend sure mid hand =>
      rw [handled.trace, List.mem_append] at hg
      rcases hg with hg | hg
      · exact old hg
      · have hv := mem_valuesTo hg
        rw [handled.values] at hv
        split at hv
        · rename_i w hop
          split at hv
          · rename_i hmem
            rw [List.mem_singleton] at hv
            cases hv
            have hline : c ∈ x.line := by simp [State.line, rest₀]
            obtain ⟨u', hu'⟩ := hi.line c hline
            obtain ⟨h2, h3⟩ := hjx hu' hbf
            refine h.fresh hH hi he hmem.1.1 hmem.1.2 (.inl hline) (by rw [hop]; rfl) rfl h3 (fun d hd hne => ?_) ?_ h2
            · have hord := hi.order
              rw [State.line, List.pairwise_append, rest₀, List.cons_append, List.pairwise_cons] at hord
              rw [rest₀, List.cons_append, List.mem_cons] at hd
              rcases hd with rfl | hd
              · exact absurd rfl hne
              · exact hord.2.1.1 d hd
            · rintro rfl
              have := (hi.one _ _ _ _ _ h3 hu').2
              rw [hop] at this
              cases this
          · cases hv
        · cases hv
    | give p c b' pc queue rest₀ rest handled calls done cur cur₀ pend pend₀ sure at₀ =>
      rw [handled.trace, List.mem_append] at hg
      rcases hg with hg | hg
      · exact old hg
      · have hv := mem_valuesTo hg
        rw [handled.values] at hv
        split at hv
        · rename_i w hop
          split at hv
          · rename_i hmem
            rw [List.mem_singleton] at hv
            cases hv
            have hu' := (hi.cur t c cur₀).1
            obtain ⟨h2, h3⟩ := hjx hu' hbf
            refine h.fresh hH hi he hmem.1.1 hmem.1.2 (.inr ⟨t, by rw [at₀]; rfl⟩) (by rw [hop]; rfl) rfl h3 (fun d hd hne => ?_) ?_ h2
            · rw [rest₀, List.nil_append] at hd
              exact hi.over t c (by rw [at₀]; rfl) d hd
            · rintro rfl
              have := (hi.one _ _ _ _ _ h3 hu').2
              rw [hop] at this
              cases this
          · cases hv
        · cases hv

/-! ## All of it, in every run -/

structure Inv (D : Dest S I E) (s : Nat → S) (x : State S I E) : Prop where
  join : Join x
  look : Look x
  locks : Locks x
  ids : Ids x
  heard : Heard D s x
  ends : Ends x
  kept : Kept D x

theorem Inv.init (s : Nat → S) : Inv D s (Crowd.init s : State S I E) :=
  ⟨fun _ _ h => (by cases h), fun _ _ h => (by cases h), .init s, .init s, .init s, .init s, .init s⟩

theorem Inv.full (h : Inv D s x) (t : Nat) : x.closed = true → (x.pc t).mid = true → x.rest ≠ [] →
    ∀ i ∈ x.members, D.isClosed (x.dests i) = true := by
  intro hc hm hr i hi
  rcases h.heard.full hc with ⟨e, -⟩ | ⟨u, c, e, -⟩ | e
  · exact absurd e hr
  · have hu : (x.pc u).holds = true := by rw [e]; rfl
    have := h.locks.unique hu (holds_of_mid hm)
    subst this
    rw [e] at hm
    cases hm
  · exact e i (h.heard.subs i hi)

theorem Inv.step (h : Inv D s x) (hD : D.Contract) (t : Nat) (a : Turn I E) : Inv D s (Crowd.step D debug x t a) := by
  have f := fine_step (D := D) (debug := debug) x h.join h.look t a
  have hh := h.locks.held_step (D := D) (debug := debug) t a
  have m := h.locks.move (debug := debug) h.join hD h.heard.nodup t a
  have g := m.grow (h.ends.refuse t) h.heard.subs (h.full t)
  exact ⟨hh.threads (R := fun _ p => ∀ c, p.joining = some c → c.op = .subscribe) f.join (fun u _ => h.join u),
    hh.threads (R := fun _ p => ∀ c, p = .look c → ∃ k, c.op = .cancel k) f.look (fun u _ => h.look u),
    h.locks.held hh, h.ids.move m, h.heard.move h.locks h.ids hh f m, h.ends.move h.heard h.ids hh f g,
    h.kept.move hD h.heard h.ids h.ends hh f g m⟩

theorem run_snoc (x : State S I E) (l : List (Nat × Turn I E)) (a : Nat × Turn I E) :
    run D debug x (l ++ [a]) = step D debug (run D debug x l) a.1 a.2 := by simp [run]

theorem run_append (x : State S I E) (l m : List (Nat × Turn I E)) :
    run D debug x (l ++ m) = run D debug (run D debug x l) m := by simp [run]

theorem Inv.run (h : Inv D s x) (hD : D.Contract) (l : List (Nat × Turn I E)) : Inv D s (Crowd.run D debug x l) := by
  induction l using Rx.snoc_induction with
  | nil => exact h
  | snoc l a ih => rw [run_snoc]; exact ih.step hD _ _

theorem run_inv (hD : D.Contract) (s : Nat → S) (l : List (Nat × Turn I E)) : Inv D s (run D debug (Crowd.init s) l) :=
  (Inv.init s).run hD l

end

end Rx.Crowd
