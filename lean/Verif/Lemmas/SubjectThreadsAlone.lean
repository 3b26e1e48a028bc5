import Verif.Lemmas.SubjectThreadsEnds

/-!
# Several threads that share a subject: panics, and one thread alone
-/

namespace Rx.Crowd

open Closing (Dest append_eq_snoc)

variable {S I E : Type} {D : Dest S I E} {debug : Bool}

/-- What a step of thread `t` does to panics and to the flags. -/
structure Marks (debug : Bool) (x : State S I E) (t : Nat) (y : State S I E) : Prop where
  poison : x.poisoned = true → y.poisoned = true
  poisoned : y.poisoned = true → x.poisoned = true ∨ ∃ w, y.pc t = .panicked w
  dead : ∀ w, x.pc t = .panicked w → y.pc t = .panicked w
  panic : ∀ w, y.pc t = .panicked w → x.pc t = .panicked w ∨ y.poisoned = true ∨
    (debug = true ∧ ∃ c, w = .own c ∧ c.op = .complete ∧ (x.completed = true ∨ x.unsubscribed = true))
  errorMono : x.error.isSome = true → y.error.isSome = true
  completedMono : x.completed = true → y.completed = true
  kind : y.shut = true → x.shut = true ∨ (∃ c, (x.pc t).cur = some c ∧ c.op.isClosing = true ∧
      (∀ e, c.op = .error e → y.error = some e) ∧ (c.op = .complete → y.completed = true)) ∨
    (∃ c, (x.pc t).hand = some c ∧ c.op.isClosing = true) ∨ ∃ c, x.pc t = .sealing c

local macro "marks" : tactic => `(tactic| (constructor <;> simp_all [State.goto, State.shut, State.note, State.ret, State.clean,
  PC.cur, PC.hand, Why.cur, Op.isClosing]))

set_option maxHeartbeats 1000000 in
theorem marks_advance (x : State S I E) (t : Nat) : Marks debug x t (advance D debug x t) := by
  unfold advance
  cases hp : x.pc t with
  | idle => marks
  | panicked w => marks
  | pre c => dsimp only; split <;> marks
  | preApply c => dsimp only; split <;> marks
  | greet c =>
    dsimp only
    split
    · marks
    · split <;> marks
  | check c => dsimp only; split <;> (split <;> marks)
  | refuse c => marks
  | leaving c => marks
  | observe c =>
    dsimp only
    split
    · marks
    · split
      · rename_i h _
        marks
      · marks
    · split <;> marks
    · marks
  | look c =>
    dsimp only
    split
    · split <;> marks
    · marks
  | attempt c => dsimp only; split <;> marks
  | top w k =>
    dsimp only
    split
    · marks
    · split
      · cases w with
        | own c => dsimp only; split <;> marks
        | pre c => marks
        | after o => marks
      · marks
  | deliver w k => dsimp only; split <;> marks
  | marking w k c => marks <;> grind
  | sealing c => marks
  | give c => marks
  | unlock w =>
    cases w with
    | own c => dsimp only; split <;> marks
    | pre c => marks
    | after o => cases o <;> marks
  | deferring c =>
    dsimp only
    split
    · split
      · split <;> marks
      · split <;> marks
    · split <;> marks
  | recheck o =>
    dsimp only
    split
    · cases o <;> marks
    · marks
  | apply o =>
    dsimp only
    split
    · marks
    · cases o <;> marks

theorem marks_step (x : State S I E) (t : Nat) (a : Turn I E) : Marks debug x t (step D debug x t a) := by
  unfold step
  split
  · rename_i hi
    have hp := isIdle_eq hi
    cases a with
    | go => marks
    | call op =>
      dsimp only
      split
      · marks
      · cases op <;> simp only [entry, Op.used] <;> marks
    | ask => marks
    | drop => marks
  · exact marks_advance x t

section
variable {s : Nat → S} {x y : State S I E} {t : Nat}

/-! ## Returning -/

/-- A call has returned or its thread is still in it. -/
theorem Move.back (m : Move D x t y) (g : Grow x t y)
    (h : ∀ k u n, .call k u n ∈ x.trace → .ret k ∈ x.trace ∨ (x.pc u).cur = some ⟨k, n⟩) :
    ∀ k u n, .call k u n ∈ y.trace → .ret k ∈ y.trace ∨ (y.pc u).cur = some ⟨k, n⟩ := by
  intro k u n hk
  rcases g.calls k u n hk with hk | ⟨rfl, -, -, -, e⟩
  · rcases h k u n hk with h1 | h1
    · obtain ⟨b, hb⟩ := g.trace
      exact .inl (by rw [hb]; exact List.mem_append_left _ h1)
    · have key : ∀ p, y.pc = (x.goto t p).pc → p.cur = (x.pc t).cur → .ret k ∈ y.trace ∨ (y.pc u).cur = some ⟨k, n⟩ := by
        intro p pc cur
        right
        rw [pc, pc_goto]
        split
        · rename_i e; subst e; exact cur.trans h1
        · exact h1
      cases m with
      | quiet p pc same cur => exact key p pc cur
      | drop p c pc same cur cur₀ => exact key p pc (cur.trans cur₀.symm)
      | speak p c n pc queue rest trace dests calls done members cur cur₀ => exact key p pc (cur.trans cur₀.symm)
      | drain p pc queue rest trace dests calls done members cur => exact key p pc cur
      | serve p c r b pc queue rest₀ rest handled calls done cur => exact key p pc cur
      | give p c b pc queue rest₀ rest handled calls done cur cur₀ => exact key p pc (cur.trans cur₀.symm)
      | defer p c pc queue rest trace dests calls done members cur cur₀ => exact key p pc (cur.trans cur₀.symm)
      | ret c pc queue rest trace dests calls done members cur₀ =>
        by_cases e : u = t
        · subst e
          rw [cur₀] at h1
          cases h1
          left
          rw [trace]
          simp
        · right; rw [pc, pc_goto, if_neg e]; exact h1
      | note bit pc => right; rw [pc]; exact h1
      | start p c pc queue rest trace dests calls done members id cur pend sure idle =>
        right
        rw [pc, pc_goto]
        split
        · rename_i e; subst e; rw [idle] at h1; cases h1
        · exact h1
  · right
    rw [e, (entry_reads _).1]

/-- A step, seen from all sides. -/
theorem Inv.moves (h : Inv D s x) (hD : D.Contract) (t : Nat) (a : Turn I E) :
    Move D x t (Crowd.step D debug x t a) ∧ Grow x t (Crowd.step D debug x t a) ∧ Held x t (Crowd.step D debug x t a) ∧
      Marks debug x t (Crowd.step D debug x t a) :=
  have m := h.locks.move (debug := debug) h.join hD h.heard.nodup t a
  ⟨m, m.grow (h.ends.refuse t) h.heard.subs (h.full t), h.locks.held_step t a, marks_step x t a⟩

/-- An invariant of runs, with all others at hand. -/
theorem run_induction (hD : D.Contract) (s : Nat → S) {P : State S I E → Prop} (h0 : P (Crowd.init s))
    (hs : ∀ x t a, Inv D s x → P x → P (Crowd.step D debug x t a)) (l : List (Nat × Turn I E)) :
    P (run D debug (Crowd.init s) l) := by
  induction l using Rx.snoc_induction with
  | nil => exact h0
  | snoc l a ih => rw [run_snoc]; exact hs _ _ _ (run_inv hD s l) ih

theorem run_back (hD : D.Contract) (s : Nat → S) (l : List (Nat × Turn I E)) : ∀ k u n,
    .call k u n ∈ (run D debug (Crowd.init s) l).trace →
      .ret k ∈ (run D debug (Crowd.init s) l).trace ∨ ((run D debug (Crowd.init s) l).pc u).cur = some ⟨k, n⟩ :=
  run_induction hD s (P := fun x => ∀ k u n, .call k u n ∈ x.trace → .ret k ∈ x.trace ∨ (x.pc u).cur = some ⟨k, n⟩)
    (fun _ _ _ h => by cases h) (fun x t a hi h => by
      obtain ⟨m, g, -, -⟩ := hi.moves (debug := debug) hD t a
      exact m.back g h) l

/-! ## Panics -/

theorem run_panics (hD : D.Contract) (s : Nat → S) (l : List (Nat × Turn I E)) : ∀ t w,
    (run D debug (Crowd.init s) l).pc t = .panicked w → (run D debug (Crowd.init s) l).poisoned = true ∨
      (debug = true ∧ ∃ c, w = .own c ∧ c.op = .complete) :=
  run_induction hD s (P := fun x => ∀ t w, x.pc t = .panicked w → x.poisoned = true ∨
      (debug = true ∧ ∃ c, w = .own c ∧ c.op = .complete))
    (fun _ _ h => by cases h) (fun x t a hi h => by
      obtain ⟨-, -, hh, mk⟩ := hi.moves (debug := debug) hD t a
      refine hh.threads (R := fun _ p => ∀ w, p = .panicked w → (Crowd.step D debug x t a).poisoned = true ∨
        (debug = true ∧ ∃ c, w = .own c ∧ c.op = .complete)) (fun w hw => ?_) (fun u _ w hw => ?_)
      · rcases mk.panic w hw with e | e | ⟨e1, c, e2, e3, -⟩
        · exact (h t w e).imp mk.poison id
        · exact .inl e
        · exact .inr ⟨e1, c, e2, e3⟩
      · exact (h u w hw).imp mk.poison id) l

theorem Locks.no_holder (hl : Locks x) (hp : x.poisoned = true) (t : Nat) : (x.pc t).holds = false := by
  cases e : (x.pc t).holds with
  | false => rfl
  | true =>
    have := (hl.holds t).1 e
    rw [hl.dead hp] at this
    cases this

/-- Once the mutex is poisoned, nobody hears anything but those that are just subscribing. -/
theorem Move.frozen (m : Move D x t y) (hl : Locks x) (hp : x.poisoned = true) :
    (∀ i, valuesTo i y.trace = valuesTo i x.trace) ∧
      ∀ i, givesTo i y.trace = givesTo i x.trace ∨ (x.pc t).cur = some ⟨i, .subscribe⟩ := by
  have no := hl.no_holder hp t
  have sil : ∀ b : List (Mark I E), (∀ m ∈ b, m.silent = true) → y.trace = x.trace ++ b →
      (∀ i, valuesTo i y.trace = valuesTo i x.trace) ∧
      ∀ i, givesTo i y.trace = givesTo i x.trace ∨ (x.pc t).cur = some ⟨i, .subscribe⟩ := by
    intro b hb ht
    refine ⟨fun i => ?_, fun i => .inl ?_⟩
    · rw [ht, valuesTo_append, valuesTo_silent hb, List.append_nil]
    · rw [ht, givesTo_append, givesTo_silent hb, List.append_nil]
  cases m with
  | quiet p pc same => exact sil [] (by simp) (by rw [same.trace]; simp)
  | drop p c pc same => exact sil [] (by simp) (by rw [same.trace]; simp)
  | speak p c n pc queue rest trace dests calls done members cur cur₀ pend pend₀ sure sub closing what =>
    have e3 : y.trace = x.trace ++ (([c.id].filter fun i => !D.isClosed (x.dests i)).map fun i => .give c.id i n) := trace
    refine ⟨fun i => ?_, fun i => ?_⟩
    · rw [e3, valuesTo_append, valuesTo_map_closing i _ _ closing, List.append_nil]
    · by_cases hi : i = c.id
      · right
        rw [cur₀, hi, ← sub]
      · left
        rw [e3, givesTo_append]
        have : givesTo i (([c.id].filter fun i => !D.isClosed (x.dests i)).map fun i => (.give c.id i n : Mark I E)) = [] := by
          unfold givesTo
          rw [List.filterMap_eq_nil_iff]
          intro m hm
          obtain ⟨j, hj, rfl⟩ := List.mem_map.1 hm
          have := List.mem_singleton.1 (List.mem_filter.1 hj).1
          subst this
          dsimp only
          rw [if_neg (fun e => hi e.symm)]
        rw [this, List.append_nil]
  | drain p pc queue rest trace => exact sil [] (by simp) (by rw [trace]; simp)
  | serve p c r b pc queue rest₀ rest handled calls done cur pend sure mid =>
    rw [holds_of_mid mid] at no; cases no
  | give p c b pc queue rest₀ rest handled calls done cur cur₀ pend pend₀ sure at₀ =>
    rw [at₀] at no; cases no
  | defer p c pc queue rest trace => exact sil [] (by simp) (by rw [trace]; simp)
  | ret c pc queue rest trace => exact sil [_] (by simp [Mark.silent]) trace
  | note bit pc queue rest trace => exact sil [_] (by simp [Mark.silent]) trace
  | start p c pc queue rest trace => exact sil [_] (by simp [Mark.silent]) trace

theorem Inv.run_frozen (hD : D.Contract) (l : List (Nat × Turn I E)) : ∀ x : State S I E, Inv D s x → x.poisoned = true →
    (∀ i, valuesTo i (Crowd.run D debug x l).trace = valuesTo i x.trace) ∧
      ∀ i, .ret i ∈ x.trace → givesTo i (Crowd.run D debug x l).trace = givesTo i x.trace := by
  induction l with
  | nil => exact fun _ _ _ => ⟨fun _ => rfl, fun _ _ => rfl⟩
  | cons a l ih =>
    intro x hi hp
    obtain ⟨m, g, -, mk⟩ := hi.moves (debug := debug) hD a.1 a.2
    obtain ⟨h1, h2⟩ := m.frozen hi.locks hp
    obtain ⟨h3, h4⟩ := ih _ (hi.step hD a.1 a.2) (mk.poison hp)
    refine ⟨fun i => (h3 i).trans (h1 i), fun i hr => ?_⟩
    have hr' : .ret i ∈ (Crowd.step D debug x a.1 a.2).trace := by
      obtain ⟨b, hb⟩ := g.trace
      rw [hb]
      exact List.mem_append_left _ hr
    refine (h4 i hr').trans ((h2 i).resolve_right fun e => ?_)
    exact (hi.ids.cur _ _ e).2 hr

/-! ## What `is_closed` answers -/

/-- Read off every answer. -/
structure Told (x : State S I E) : Prop where
  yes : ∀ a t b, x.trace = a ++ .answer t true :: b → Ending a
  no : ∀ a t b, x.trace = a ++ .answer t false :: b → ¬ Ended a

theorem Told.step (h : Told x) (hi : Inv D s x) (m : Move D x t y) : Told y := by
  have other : ∀ b : List (Mark I E), (∀ m ∈ b, ∀ u c, m ≠ .answer u c) → y.trace = x.trace ++ b → Told y := by
    intro b hb ht
    have key : ∀ a u c d, y.trace = a ++ .answer u c :: d → ∃ d', x.trace = a ++ .answer u c :: d' := by
      intro a u c d e
      rw [ht] at e
      rcases List.append_eq_append_iff.1 e with ⟨as, ha, hb'⟩ | ⟨bs, hb', ha⟩
      · exact absurd rfl (hb (.answer u c) (by rw [hb']; simp) u c)
      · cases bs with
        | nil => exact absurd rfl (hb (.answer u c) (by rw [List.nil_append] at ha; rw [← ha]; simp) u c)
        | cons z bs =>
          rw [List.cons_append] at ha
          injection ha with h1 h2
          subst h1
          exact ⟨bs, hb'⟩
    refine ⟨fun a u d e => ?_, fun a u d e => ?_⟩ <;> obtain ⟨d', e'⟩ := key _ _ _ _ e
    · exact h.yes a u d' e'
    · exact h.no a u d' e'
  cases m with
  | quiet p pc same => exact other [] (by simp) (by rw [same.trace]; simp)
  | drop p c pc same => exact other [] (by simp) (by rw [same.trace]; simp)
  | speak p c n pc queue rest trace =>
    refine other _ (fun m hm u b => ?_) trace
    obtain ⟨j, -, rfl⟩ := List.mem_map.1 hm
    simp
  | drain p pc queue rest trace => exact other [] (by simp) (by rw [trace]; simp)
  | serve p c r b pc queue rest₀ rest handled =>
    refine other _ (fun m hm u b => ?_) handled.trace
    obtain ⟨i, n, rfl⟩ := handled.marks m hm
    simp
  | give p c b pc queue rest₀ rest handled =>
    refine other _ (fun m hm u b => ?_) handled.trace
    obtain ⟨i, n, rfl⟩ := handled.marks m hm
    simp
  | defer p c pc queue rest trace => exact other [] (by simp) (by rw [trace]; simp)
  | ret c pc queue rest trace => exact other [_] (by simp) trace
  | start p c pc queue rest trace => exact other [_] (by simp) trace
  | note bit pc queue rest trace dests calls done members answer =>
    refine ⟨fun a u d e => ?_, fun a u d e => ?_⟩ <;> rw [trace] at e <;>
      rcases split_snoc e with ⟨-, e1, rfl⟩ | ⟨d', -, e'⟩
    · cases e1
      exact hi.ends.ending hi.ids answer.symm
    · exact h.yes a u d' e'
    · cases e1
      rintro ⟨j, u, op, h1, h2, h3⟩
      rw [hi.ends.retd j u op h1 h2 h3] at answer
      cases answer
    · exact h.no a u d' e'

theorem run_told (hD : D.Contract) (s : Nat → S) (l : List (Nat × Turn I E)) : Told (run D debug (Crowd.init s) l) :=
  run_induction hD s (P := Told)
    ⟨fun a t b e => by have := congrArg List.length e; simp [Crowd.init] at this,
      fun a t b e => by have := congrArg List.length e; simp [Crowd.init] at this⟩
    (fun x t a hi h => by
      obtain ⟨m, -, -, -⟩ := hi.moves (debug := debug) hD t a
      exact h.step hi m) l

/-! ## No thread waits -/

theorem busy_moves (D : Dest S I E) (x : State S I E) (t : Nat) (h : (x.pc t).isIdle = false)
    (hp : ∀ w, x.pc t ≠ .panicked w) : (step D debug x t .go).pc t ≠ x.pc t := by
  unfold step
  rw [h]
  have pcs : ∀ (z : State S I E) p, (z.goto t p).pc t = p := fun z p => by rw [pc_goto, if_pos rfl]
  have rets : ∀ (z : State S I E) o, (z.ret t o).pc t = .idle := fun z o => by cases o <;> exact pcs _ _
  unfold advance
  simp only [Bool.false_eq_true, if_false]
  cases e : x.pc t with
  | idle => rw [e] at h; cases h
  | panicked w => exact absurd e (hp w)
  | pre c => dsimp only; rw [pcs]; split <;> simp
  | preApply c => dsimp only; split <;> simp [pcs]
  | greet c => simp [pcs]
  | check c => dsimp only; rw [pcs]; split <;> (split <;> simp)
  | refuse c => simp [pcs]
  | leaving c => simp [pcs]
  | observe c =>
    dsimp only
    split
    · simp [pcs]
    · split <;> simp [pcs]
    · rw [pcs]; split <;> simp
    · simp [pcs]
  | look c =>
    dsimp only
    split
    · split <;> simp [pcs]
    · simp [pcs]
  | attempt c => dsimp only; split <;> simp [pcs]
  | top w k =>
    dsimp only
    split
    · simp [pcs]
    · split
      · cases w with
        | own c => dsimp only; rw [pcs]; split <;> simp
        | pre c => simp [pcs]
        | after o => simp [pcs]
      · simp [pcs]
  | deliver w k => dsimp only; split <;> simp [pcs]
  | marking w k c => simp [pcs]
  | sealing c => simp [pcs]
  | give c => simp [pcs]
  | unlock w =>
    cases w with
    | own c => dsimp only; rw [pcs]; split <;> simp
    | pre c => simp [pcs]
    | after o => simp [rets]
  | deferring c => dsimp only; rw [pcs]; split <;> simp
  | recheck o => dsimp only; split <;> simp [pcs, rets]
  | apply o => dsimp only; split <;> simp [pcs, rets]

/-! ## One thread alone -/

/-- Thread `t` alone goes on, from `x` to `y`. -/
def Goes (D : Dest S I E) (debug : Bool) (t : Nat) (x y : State S I E) : Prop :=
  ∃ m, y = run D debug x (List.replicate m (t, .go))

theorem Goes.refl (t : Nat) (x : State S I E) : Goes D debug t x x := ⟨0, rfl⟩

theorem Goes.trans {z : State S I E} (h : Goes D debug t x y) (g : Goes D debug t y z) : Goes D debug t x z := by
  obtain ⟨m, rfl⟩ := h
  obtain ⟨k, rfl⟩ := g
  refine ⟨m + k, ?_⟩
  rw [← run_append, List.replicate_append_replicate]

theorem Goes.one (h : (x.pc t).isIdle = false) : Goes D debug t x (advance D debug x t) :=
  ⟨1, by simp [run, step, h]⟩

/-- Only thread `t` is busy: it is at `p`, with that much drained and deferred. -/
structure At (x : State S I E) (t : Nat) (p : PC I E) (l : Option Nat) (r q : List (Call I E)) : Prop where
  pc : x.pc t = p
  lock : x.lock = l
  rest : x.rest = r
  queue : x.queue = q
  sound : x.poisoned = false
  others : ∀ u, u ≠ t → (x.pc u).isIdle = true

theorem At.goto {p p' : PC I E} {l l' r r' q q'} (h : At x t p l r q)
    (hpc : y.pc = (x.goto t p').pc) (hl : y.lock = l') (hr : y.rest = r') (hq : y.queue = q')
    (hp : y.poisoned = x.poisoned) : At y t p' l' r' q' :=
  ⟨by rw [hpc, pc_goto, if_pos rfl], hl, hr, hq, hp.trans h.sound,
    fun u hu => by rw [hpc, pc_goto, if_neg hu]; exact h.others u hu⟩

theorem At.free {p : PC I E} {r q} (h : At x t p none r q) : x.free = true := by
  simp [State.free, h.lock, h.sound]

/-- The loop over the drained notifications. -/
theorem goes_deliver (D : Dest S I E) (t : Nat) (w : Why I E) (k : Nat) (q : List (Call I E)) (r) : ∀ (x : State S I E),
    At x t (.deliver w k) (some t) r q → ∃ y, Goes D debug t x y ∧ At y t (.top w (k + 1)) (some t) [] q := by
  induction r with
  | nil =>
    intro x h
    refine ⟨_, .one (by rw [h.pc]; rfl), ?_⟩
    simp only [advance, h.pc, h.rest]
    exact h.goto rfl h.lock h.rest h.queue rfl
  | cons c r ih =>
    intro x h
    have h1 : At (advance D debug x t) t (.marking w k c) (some t) r q := by
      simp only [advance, h.pc, h.rest]
      exact h.goto (by simp [State.goto]) (by simp [State.goto, h.lock]) (by simp [State.goto]) (by simp [State.goto, h.queue])
        (by simp [State.goto])
    have h2 : At (advance D debug (advance D debug x t) t) t (.deliver w k) (some t) r q := by
      rw [advance, h1.pc]
      exact h1.goto rfl h1.lock h1.rest h1.queue rfl
    obtain ⟨y, hy, ha⟩ := ih _ h2
    exact ⟨y, (Goes.one (by rw [h.pc]; rfl)).trans ((Goes.one (by rw [h1.pc]; rfl)).trans hy), ha⟩

/-- `apply_notification_queue` empties the queue. -/
theorem goes_top (D : Dest S I E) (t : Nat) (w : Why I E) (q : List (Call I E)) (x : State S I E)
    (h : At x t (.top w 0) (some t) [] q) :
    ∃ y k, Goes D debug t x y ∧ At y t (.top w k) (some t) [] [] ∧ k ≠ maxDepth := by
  cases hq : q with
  | nil => exact ⟨x, 0, .refl _ _, hq ▸ h, by simp [maxDepth]⟩
  | cons c q' =>
    have h1 : At (advance D debug x t) t (.deliver w 0) (some t) q [] := by
      rw [advance, h.pc]
      dsimp only
      rw [if_neg (by simp [maxDepth]), if_neg (by rw [h.queue, hq]; simp)]
      exact h.goto rfl h.lock h.queue rfl rfl
    obtain ⟨y, hy, ha⟩ := goes_deliver D t w 0 [] q _ h1
    exact ⟨y, 1, (Goes.one (by rw [h.pc]; rfl)).trans hy, ha, by simp [maxDepth]⟩

theorem ret_goto (x : State S I E) (t : Nat) (o) : (x.ret t o).pc = (x.goto t .idle).pc ∧ (x.ret t o).lock = x.lock ∧
    (x.ret t o).poisoned = x.poisoned ∧ (x.ret t o).rest = x.rest ∧ (x.ret t o).queue = x.queue := by
  cases o <;> exact ⟨rfl, rfl, rfl, rfl, rfl⟩

theorem goes_ret (t : Nat) (x : State S I E) (o) (l : Option Nat) {p l' r q} (h : At x t p l' r q)
    (hr : x.rest = []) : At ({ x with lock := l }.ret t o) t .idle l [] q := by
  obtain ⟨h1, h2, h3, h4, h5⟩ := ret_goto { x with lock := l } t o
  exact h.goto h1 h2 (h4.trans hr) (h5.trans h.queue) h3

/-- `try_apply_deferred` empties the queue. -/
theorem goes_recheck (D : Dest S I E) (t : Nat) (o : Option (Call I E)) (q : List (Call I E)) (x : State S I E)
    (h : At x t (.recheck o) none [] q) : ∃ y, Goes D debug t x y ∧ At y t .idle none [] [] := by
  cases hq : q with
  | nil =>
    refine ⟨_, .one (by rw [h.pc]; rfl), ?_⟩
    rw [advance, h.pc]
    dsimp only
    rw [if_pos (by rw [h.queue, hq]; rfl)]
    have := goes_ret t x o none (hq ▸ h) h.rest
    rw [← h.lock] at this
    rw [← h.lock]
    exact this
  | cons c q' =>
    have h1 : At (advance D debug x t) t (.apply o) none [] q := by
      rw [advance, h.pc]
      dsimp only
      rw [if_neg (by rw [h.queue, hq]; simp)]
      exact h.goto rfl h.lock h.rest h.queue rfl
    have h2 : At (advance D debug (advance D debug x t) t) t (.top (.after o) 0) (some t) [] q := by
      rw [advance, h1.pc]
      dsimp only
      rw [if_pos h1.free]
      exact h1.goto rfl rfl h1.rest h1.queue rfl
    obtain ⟨y, k, hy, ha, hk⟩ := goes_top (debug := debug) D t (.after o) q _ h2
    have h3 : At (advance D debug y t) t (.unlock (.after o)) (some t) [] [] := by
      rw [advance, ha.pc]
      dsimp only
      rw [if_neg hk, if_pos (by rw [ha.queue]; rfl)]
      exact ha.goto rfl ha.lock ha.rest ha.queue rfl
    have h4 : At (advance D debug (advance D debug y t) t) t .idle none [] [] := by
      rw [advance, h3.pc]
      exact goes_ret t _ o none h3 h3.rest
    exact ⟨_, (Goes.one (by rw [h.pc]; rfl)).trans ((Goes.one (by rw [h1.pc]; rfl)).trans (hy.trans
      ((Goes.one (by rw [ha.pc]; rfl)).trans (Goes.one (by rw [h3.pc]; rfl))))), h4⟩

theorem goes_leaving (D : Dest S I E) (t : Nat) (c : Call I E) (q : List (Call I E)) (x : State S I E)
    (h : At x t (.leaving c) none [] q) : ∃ y, Goes D debug t x y ∧ At y t .idle none [] q := by
  refine ⟨_, .one (by rw [h.pc]; rfl), ?_⟩
  rw [advance, h.pc]
  exact h.goto rfl h.lock h.rest h.queue rfl

theorem goes_attempt (D : Dest S I E) (t : Nat) (c : Call I E) (q : List (Call I E)) (x : State S I E)
    (h : At x t (.attempt c) none [] q) : ∃ y, Goes D debug t x y ∧ At y t .idle none [] [] := by
  have h2 : At (advance D debug x t) t (.top (.own c) 0) (some t) [] q := by
    rw [advance, h.pc]
    dsimp only
    rw [if_pos h.free]
    exact h.goto rfl rfl h.rest h.queue rfl
  obtain ⟨y, k, hy, ha, hk⟩ := goes_top (debug := debug) D t (.own c) q _ h2
  have give : ∀ z : State S I E, At z t (.give c) (some t) [] [] →
      ∃ y, Goes D debug t z y ∧ At y t .idle none [] [] := by
    intro z hz
    have h4 : At (advance D debug z t) t (.unlock (.own c)) (some t) [] [] := by
      rw [advance, hz.pc]
      exact hz.goto (by simp [State.goto]) (by simp [State.goto, hz.lock]) (by simp [State.goto, hz.rest])
        (by simp [State.goto, hz.queue]) (by simp [State.goto])
    have h5 : At (advance D debug (advance D debug z t) t) t (if c.op.isCancel then .leaving c else .recheck (some c)) none [] [] := by
      rw [advance, h4.pc]
      exact h4.goto rfl rfl h4.rest h4.queue rfl
    have : ∃ y, Goes D debug t (advance D debug (advance D debug z t) t) y ∧ At y t .idle none [] [] := by
      split at h5
      · exact goes_leaving D t _ _ _ h5
      · exact goes_recheck D t _ _ _ h5
    obtain ⟨y, hy, ha⟩ := this
    exact ⟨y, (Goes.one (by rw [hz.pc]; rfl)).trans ((Goes.one (by rw [h4.pc]; rfl)).trans hy), ha⟩
  have h0 := (Goes.one (D := D) (debug := debug) (by rw [h.pc]; rfl)).trans (hy.trans (Goes.one (by rw [ha.pc]; rfl)))
  cases hu : c.op.isUnsubscribe with
  | false =>
    have h3 : At (advance D debug y t) t (.give c) (some t) [] [] := by
      rw [advance, ha.pc]
      dsimp only
      rw [if_neg hk, if_pos (by rw [ha.queue]; rfl), hu]
      exact ha.goto rfl ha.lock ha.rest ha.queue rfl
    obtain ⟨z, hz, hz'⟩ := give _ h3
    exact ⟨z, h0.trans hz, hz'⟩
  | true =>
    have h3 : At (advance D debug y t) t (.sealing c) (some t) [] [] := by
      rw [advance, ha.pc]
      dsimp only
      rw [if_neg hk, if_pos (by rw [ha.queue]; rfl), hu]
      exact ha.goto rfl ha.lock ha.rest ha.queue rfl
    have h4 : At (advance D debug (advance D debug y t) t) t (.give c) (some t) [] [] := by
      rw [advance, h3.pc]
      exact h3.goto rfl h3.lock h3.rest h3.queue rfl
    obtain ⟨z, hz, hz'⟩ := give _ h4
    exact ⟨z, h0.trans ((Goes.one (by rw [h3.pc]; rfl)).trans hz), hz'⟩

theorem goes_observe (D : Dest S I E) (t : Nat) (c : Call I E) (q : List (Call I E)) (x : State S I E)
    (h : At x t (.observe c) none [] q) (hs : x.shut = false ∨ c.op = .unsubscribe) :
    ∃ y, Goes D debug t x y ∧ At y t .idle none [] [] := by
  have key : At (advance D debug x t) t (.attempt c) none [] q ∨ At (advance D debug x t) t (.recheck (some c)) none [] q := by
    rw [advance, h.pc]
    dsimp only
    cases hc : c.op with
    | unsubscribe =>
      dsimp only
      split
      · exact .inr (h.goto rfl h.lock h.rest h.queue rfl)
      · exact .inl (h.goto rfl h.lock h.rest h.queue rfl)
    | complete =>
      dsimp only
      rw [hc] at hs
      have hs := hs.resolve_right (by simp)
      rw [if_neg (by simp [State.shut] at hs; simp [hs])]
      exact .inl (h.goto rfl h.lock h.rest h.queue rfl)
    | _ => exact .inl (h.goto rfl h.lock h.rest h.queue rfl)
  have h0 := Goes.one (D := D) (debug := debug) (x := x) (t := t) (by rw [h.pc]; rfl)
  rcases key with key | key
  · obtain ⟨y, hy, ha⟩ := goes_attempt (debug := debug) D t _ _ _ key
    exact ⟨y, h0.trans hy, ha⟩
  · obtain ⟨y, hy, ha⟩ := goes_recheck (debug := debug) D t _ _ _ key
    exact ⟨y, h0.trans hy, ha⟩

theorem goes_check (D : Dest S I E) (t : Nat) (c : Call I E) (q : List (Call I E)) (x : State S I E)
    (h : At x t (.check c) none [] q) (hq : c.op = .subscribe → q = []) :
    ∃ y, Goes D debug t x y ∧ At y t .idle none [] [] := by
  have h0 := Goes.one (D := D) (debug := debug) (x := x) (t := t) (by rw [h.pc]; rfl)
  have e : advance D debug x t = x.goto t (if x.shut then if c.op.isSubscribe then .refuse c else .recheck (some c)
      else if c.op.isClosing then .observe c else .attempt c) := by rw [advance, h.pc]
  rw [e] at h0
  have h1 : ∀ p, At (x.goto t p) t p none [] q := fun p => h.goto rfl h.lock h.rest h.queue rfl
  cases hs : x.shut with
  | true =>
    rw [hs] at h0
    rw [if_pos rfl] at h0
    cases hc : c.op.isSubscribe with
    | true =>
      rw [hc, if_pos rfl] at h0
      have hq := hq (isSubscribe_iff.1 hc)
      have h2 : At (advance D debug (x.goto t (.refuse c)) t) t (.leaving c) none [] [] := by
        rw [advance, (h1 _).pc]
        exact (h1 (.refuse c)).goto (by simp [State.goto]) (by simp [State.goto, h.lock]) (by simp [State.goto, h.rest])
          (by simp [State.goto, h.queue, hq]) (by simp [State.goto])
      obtain ⟨y, hy, ha⟩ := goes_leaving (debug := debug) D t _ _ _ h2
      exact ⟨y, h0.trans ((Goes.one (by rw [(h1 _).pc]; rfl)).trans hy), ha⟩
    | false =>
      rw [hc, if_neg (by simp)] at h0
      obtain ⟨y, hy, ha⟩ := goes_recheck (debug := debug) D t _ _ _ (h1 _)
      exact ⟨y, h0.trans hy, ha⟩
  | false =>
    rw [hs, if_neg (by simp)] at h0
    split at h0
    · obtain ⟨y, hy, ha⟩ := goes_observe (debug := debug) D t _ _ _ (h1 _) (.inl hs)
      exact ⟨y, h0.trans hy, ha⟩
    · obtain ⟨y, hy, ha⟩ := goes_attempt (debug := debug) D t _ _ _ (h1 _)
      exact ⟨y, h0.trans hy, ha⟩

theorem goes_greet (D : Dest S I E) (t : Nat) (c : Call I E) (x : State S I E)
    (h : At x t (.greet c) none [] []) : ∃ y, Goes D debug t x y ∧ At y t .idle none [] [] := by
  have h1 : At (advance D debug x t) t (.check c) none [] [] := by
    rw [advance, h.pc]
    dsimp only
    split
    · exact h.goto (by simp [State.goto]) (by simp [State.goto, h.lock]) (by simp [State.goto, h.rest])
        (by simp [State.goto, h.queue]) (by simp [State.goto])
    · split
      · exact h.goto (by simp [State.goto]) (by simp [State.goto, h.lock]) (by simp [State.goto, h.rest])
          (by simp [State.goto, h.queue]) (by simp [State.goto])
      · exact h.goto rfl h.lock h.rest h.queue rfl
  obtain ⟨y, hy, ha⟩ := goes_check (debug := debug) D t _ _ _ h1 (fun _ => rfl)
  exact ⟨y, (Goes.one (by rw [h.pc]; rfl)).trans hy, ha⟩

theorem goes_pre (D : Dest S I E) (t : Nat) (c : Call I E) (q : List (Call I E)) (x : State S I E)
    (h : At x t (.pre c) none [] q) : ∃ y, Goes D debug t x y ∧ At y t .idle none [] [] := by
  have h0 := Goes.one (D := D) (debug := debug) (x := x) (t := t) (by rw [h.pc]; rfl)
  cases hq : q with
  | nil =>
    have h1 : At (advance D debug x t) t (.greet c) none [] [] := by
      rw [advance, h.pc]
      dsimp only
      rw [if_pos (by rw [h.queue, hq]; rfl)]
      exact h.goto rfl h.lock h.rest (h.queue.trans hq) rfl
    obtain ⟨y, hy, ha⟩ := goes_greet (debug := debug) D t _ _ h1
    exact ⟨y, h0.trans hy, ha⟩
  | cons d q' =>
    have h1 : At (advance D debug x t) t (.preApply c) none [] q := by
      rw [advance, h.pc]
      dsimp only
      rw [if_neg (by rw [h.queue, hq]; simp)]
      exact h.goto rfl h.lock h.rest h.queue rfl
    have h2 : At (advance D debug (advance D debug x t) t) t (.top (.pre c) 0) (some t) [] q := by
      rw [advance, h1.pc]
      dsimp only
      rw [if_pos h1.free]
      exact h1.goto rfl rfl h1.rest h1.queue rfl
    obtain ⟨y, k, hy, ha, hk⟩ := goes_top (debug := debug) D t (.pre c) q _ h2
    have h3 : At (advance D debug y t) t (.unlock (.pre c)) (some t) [] [] := by
      rw [advance, ha.pc]
      dsimp only
      rw [if_neg hk, if_pos (by rw [ha.queue]; rfl)]
      exact ha.goto rfl ha.lock ha.rest ha.queue rfl
    have h4 : At (advance D debug (advance D debug y t) t) t (.greet c) none [] [] := by
      rw [advance, h3.pc]
      exact h3.goto rfl rfl h3.rest h3.queue rfl
    obtain ⟨z, hz, hz'⟩ := goes_greet (debug := debug) D t _ _ h4
    exact ⟨z, h0.trans ((Goes.one (by rw [h1.pc]; rfl)).trans (hy.trans ((Goes.one (by rw [ha.pc]; rfl)).trans
      ((Goes.one (by rw [h3.pc]; rfl)).trans hz)))), hz'⟩

theorem AtRest.at (h : AtRest x) (hl : Locks x) (hp : x.poisoned = false) (t : Nat) : At x t .idle none [] x.queue := by
  have hf : x.lock = none := by
    cases e : x.lock with
    | none => rfl
    | some u =>
      have h1 := (hl.holds u).2 e
      have h2 := isIdle_eq (h u)
      rw [h2] at h1
      cases h1
  exact ⟨isIdle_eq (h t), hf, hl.free hf, rfl, hp, fun u _ => h u⟩

/-- A call, or dropping a clone, by one thread alone returns, and leaves nothing waiting, unless it is `unsubscribe`
of a subscription. -/
theorem AtRest.flush (h : AtRest x) (hl : Locks x) (hp : x.poisoned = false) (t : Nat)
    (a : Turn I E) (ha : a = .drop ∨ ∃ n, a = .call n) :
    ∃ y q, Goes D debug t (step D debug x t a) y ∧ At y t .idle none [] q ∧ (q = [] ∨ ∃ k, a = .call (.cancel k)) := by
  have h0 := h.at hl hp t
  have done : ∀ {z : State S I E}, (∃ y, Goes D debug t z y ∧ At y t .idle none [] []) →
      ∃ y q, Goes D debug t z y ∧ At y t .idle none [] q ∧ (q = [] ∨ ∃ k, a = .call (.cancel k)) := by
    rintro z ⟨y, h1, h2⟩
    exact ⟨y, [], h1, h2, .inl rfl⟩
  rcases ha with rfl | ⟨n, rfl⟩
  · apply done
    refine goes_recheck D t none x.queue _ ?_
    rw [step, if_pos (h t)]
    exact h0.goto rfl h0.lock h0.rest rfl rfl
  · rw [step, if_pos (h t)]
    dsimp only
    split
    · rename_i hv
      cases n with
      | cancel k => exact ⟨x, x.queue, .refl _ _, h0, .inr ⟨k, rfl⟩⟩
      | _ => cases hv
    · cases n with
      | subscribe =>
        apply done
        exact goes_pre D t ⟨x.calls, .subscribe⟩ x.queue _ (h0.goto rfl h0.lock h0.rest rfl rfl)
      | next v =>
        apply done
        exact goes_check D t ⟨x.calls, .next v⟩ x.queue _ (h0.goto rfl h0.lock h0.rest rfl rfl) (by simp)
      | error v =>
        apply done
        exact goes_check D t ⟨x.calls, .error v⟩ x.queue _ (h0.goto rfl h0.lock h0.rest rfl rfl) (by simp)
      | complete =>
        apply done
        exact goes_check D t ⟨x.calls, .complete⟩ x.queue _ (h0.goto rfl h0.lock h0.rest rfl rfl) (by simp)
      | unsubscribe =>
        apply done
        exact goes_observe D t ⟨x.calls, .unsubscribe⟩ x.queue _ (h0.goto rfl h0.lock h0.rest rfl rfl) (.inr rfl)
      | cancel k =>
        generalize hz : ({ x with calls := x.calls + 1, handles := Op.used (.cancel k) x.handles }.note
          (.call x.calls t (.cancel k) : Mark I E)).goto t (entry ⟨x.calls, .cancel k⟩) = z
        have h1 : At z t (.look ⟨x.calls, .cancel k⟩) none [] x.queue := by
          rw [← hz]; exact h0.goto rfl h0.lock h0.rest rfl rfl
        have h2 := Goes.one (D := D) (debug := debug) (x := z) (t := t) (by rw [h1.pc]; rfl)
        have h3 : At (advance D debug z t) t (.leaving ⟨x.calls, .cancel k⟩) none [] x.queue ∨
            At (advance D debug z t) t (.attempt ⟨x.calls, .cancel k⟩) none [] x.queue := by
          rw [advance, h1.pc]
          dsimp only
          split
          · exact .inl (h1.goto rfl h1.lock h1.rest h1.queue rfl)
          · exact .inr (h1.goto rfl h1.lock h1.rest h1.queue rfl)
        rcases h3 with h3 | h3
        · obtain ⟨y, hy, hy'⟩ := goes_leaving (debug := debug) D t _ _ _ h3
          exact ⟨y, _, h2.trans hy, hy', .inr ⟨k, rfl⟩⟩
        · obtain ⟨y, hy, hy'⟩ := goes_attempt (debug := debug) D t _ _ _ h3
          exact ⟨y, _, h2.trans hy, hy', .inr ⟨k, rfl⟩⟩

/-- While nobody is inside a call, the mutex is not poisoned. -/
theorem run_poison (hD : D.Contract) (s : Nat → S) (l : List (Nat × Turn I E)) :
    (run D debug (Crowd.init s) l).poisoned = true → ∃ t w, (run D debug (Crowd.init s) l).pc t = .panicked w :=
  run_induction hD s (P := fun x => x.poisoned = true → ∃ t w, x.pc t = .panicked w) (fun h => by cases h)
    (fun x t a hi h hp => by
      obtain ⟨-, -, hh, mk⟩ := hi.moves (debug := debug) hD t a
      rcases mk.poisoned hp with e | ⟨w, e⟩
      · obtain ⟨u, w, e⟩ := h e
        by_cases hu : u = t
        · subst hu
          exact ⟨u, w, mk.dead w e⟩
        · exact ⟨u, w, by rw [hh.other hu]; exact e⟩
      · exact ⟨t, w, e⟩) l

theorem AtRest.sound {l : List (Nat × Turn I E)} (h : AtRest (run D debug (Crowd.init s) l)) (hD : D.Contract) :
    (run D debug (Crowd.init s) l).poisoned = false := by
  cases e : (run D debug (Crowd.init s) l).poisoned with
  | false => rfl
  | true =>
    obtain ⟨t, w, e⟩ := run_poison hD s l e
    have := h t
    rw [e] at this
    cases this

/-! ## How it ended -/

/-- All calls that end the subject are of one kind. -/
def Only (p : Op I E → Prop) (tr : List (Mark I E)) : Prop := ∀ j t op, .call j t op ∈ tr → op.isClosing = true → p op

theorem Only.back {p : Op I E → Prop} {tr b : List (Mark I E)} (h : Only p (tr ++ b)) : Only p tr :=
  fun j t op hj => h j t op (List.mem_append_left _ hj)

/-- The flag is that of the kind of call. -/
structure Kinds (x : State S I E) : Prop where
  error : Only (fun op => ∃ e, op = .error e) x.trace → x.shut = true → x.error.isSome = true
  complete : Only (fun op => op = .complete) x.trace → x.shut = true → x.completed = true

theorem Kinds.step (h : Kinds x) (hi : Inv D s x) (g : Grow x t y) (mk : Marks debug x t y) : Kinds y := by
  obtain ⟨b, hb⟩ := g.trace
  have key : y.shut = true → x.shut = true ∨ (∃ c, (x.pc t).cur = some c ∧ c.op.isClosing = true ∧
      (∀ e, c.op = .error e → y.error = some e) ∧ (c.op = .complete → y.completed = true)) := by
    intro hs
    rcases mk.kind hs with e | e | ⟨c, e1, e2⟩ | ⟨c, e⟩
    · exact .inl e
    · exact .inr e
    · exact .inl (hi.ends.line c (by simp [State.line, (hi.heard.hand t c e1).1]) e2)
    · exact .inl (hi.ends.noted t c (by rw [e]; rfl) (by rw [hi.heard.sealing t c e]; rfl))
  refine ⟨fun ho hs => ?_, fun ho hs => ?_⟩
  · rcases key hs with e | ⟨c, e1, e2, e3, -⟩
    · exact mk.errorMono (h.error (hb ▸ ho).back e)
    · obtain ⟨v, hv⟩ := (hb ▸ ho).back _ _ _ (hi.ids.cur t c e1).1 e2
      rw [e3 v hv]; rfl
  · rcases key hs with e | ⟨c, e1, e2, -, e3⟩
    · exact mk.completedMono (h.complete (hb ▸ ho).back e)
    · exact e3 ((hb ▸ ho).back _ _ _ (hi.ids.cur t c e1).1 e2)

theorem run_kinds (hD : D.Contract) (s : Nat → S) (l : List (Nat × Turn I E)) : Kinds (run D debug (Crowd.init s) l) :=
  run_induction hD s (P := Kinds) ⟨fun _ h => (by cases h), fun _ h => (by cases h)⟩ (fun x t a hi h => by
    obtain ⟨-, g, -, mk⟩ := hi.moves (debug := debug) hD t a
    exact h.step hi g mk) l

end

end Rx.Crowd
