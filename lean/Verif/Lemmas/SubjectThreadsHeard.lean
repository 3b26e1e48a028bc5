import Verif.Lemmas.SubjectThreadsFine

/-!
# Several threads that share a subject: what subscribers hear
-/

namespace Rx.Crowd

open Closing (Dest append_eq_snoc)

variable {S I E : Type} {D : Dest S I E} {debug : Bool}

theorem nexts_append (a b : List (Call I E)) : nexts (a ++ b) = nexts a ++ nexts b := by simp [nexts]

theorem split_snoc {α : Type} {l a b : List α} {c z : α} (h : l ++ [c] = a ++ z :: b) :
    (b = [] ∧ c = z ∧ a = l) ∨ ∃ b', b = b' ++ [c] ∧ l = a ++ z :: b' := by
  rcases List.eq_nil_or_concat b with hb | ⟨b', m, hb⟩
  · subst hb
    obtain ⟨h1, h2⟩ := List.append_inj' h rfl
    cases h2
    exact .inl ⟨rfl, rfl, h1.symm⟩
  · subst hb
    rw [List.concat_eq_append, ← List.cons_append, ← List.append_assoc] at h
    obtain ⟨h1, h2⟩ := List.append_inj' h rfl
    cases h2
    exact .inr ⟨b', by simp, h1⟩

/-- What subscribers have heard. -/
structure Heard (D : Dest S I E) (s : Nat → S) (x : State S I E) : Prop where
  nodup : x.members.Nodup
  dests : ∀ i, x.dests i = afterTo D s i x.trace
  isOpen : ∀ a k i n b, x.trace = a ++ .give k i n :: b → D.isClosed (afterTo D s i a) = false
  subs : ∀ i ∈ x.members, ⟨i, .subscribe⟩ ∈ x.done
  mem : ∀ i, ⟨i, .subscribe⟩ ∈ x.done → D.isClosed (x.dests i) = false → i ∈ x.members
  none : ∀ i, ⟨i, .subscribe⟩ ∉ x.done → valuesTo i x.trace = []
  vals : ∀ i a b, x.done = a ++ ⟨i, .subscribe⟩ :: b → valuesTo i x.trace <+: nexts b ∧
    (D.isClosed (x.dests i) = false → valuesTo i x.trace = nexts b)
  closing : ∀ i a b, x.done = a ++ ⟨i, .subscribe⟩ :: b → ∀ c ∈ b, c.op.isClosing = true → D.isClosed (x.dests i) = true
  cancel : ∀ i a b, x.done = a ++ ⟨i, .subscribe⟩ :: b → ∀ c ∈ b, c.op = .cancel i → D.isClosed (x.dests i) = true
  hand : ∀ t c, (x.pc t).hand = some c → c ∈ x.done ∧
    (c.op.isClosing = true → x.closed = true ∨ ∀ i, ⟨i, .subscribe⟩ ∈ x.done → D.isClosed (x.dests i) = true)
  full : x.closed = true → (x.rest = [] ∧ x.queue = []) ∨ (∃ t c, x.pc t = .give c ∧ c.op = .unsubscribe) ∨
    ∀ i, ⟨i, .subscribe⟩ ∈ x.done → D.isClosed (x.dests i) = true
  give : ∀ t c, x.pc t = .give c → c.op ≠ .unsubscribe → x.closed = true → x.queue = []
  sealing : ∀ t c, x.pc t = .sealing c → c.op = .unsubscribe
  unsub : ∀ t c, (x.pc t).armed = some c → c.op = .unsubscribe → x.unsubscribed = true

theorem Heard.init (s : Nat → S) : Heard D s (init s : State S I E) where
  nodup := .nil
  dests _ := rfl
  isOpen a k i n b h := by
    have := congrArg List.length h
    simp [Crowd.init] at this
  subs _ h := by cases h
  mem _ h := by cases h
  none _ _ := rfl
  vals i a b h := by
    have := congrArg List.length h
    simp [Crowd.init] at this
  closing i a b h := by
    have := congrArg List.length h
    simp [Crowd.init] at this
  cancel i a b h := by
    have := congrArg List.length h
    simp [Crowd.init] at this
  hand _ _ h := by cases h
  full h := by cases h
  give _ _ h := by cases h
  sealing _ _ h := by cases h
  unsub _ _ h := by cases h

section
variable {s : Nat → S} {x y : State S I E} {t : Nat}

theorem afterTo_append (i : Nat) (a b : List (Mark I E)) :
    afterTo D s i (a ++ b) = (givesTo i b).foldl D.push (afterTo D s i a) := by
  simp [afterTo]

/-- Marks that are not calls of subscribers. -/
def Mark.silent : Mark I E → Bool
  | .give _ _ _ => false
  | _ => true

theorem givesTo_silent {b : List (Mark I E)} (h : ∀ m ∈ b, m.silent = true) (i : Nat) : givesTo i b = [] := by
  unfold givesTo
  rw [List.filterMap_eq_nil_iff]
  intro m hm
  have := h m hm
  cases m <;> first | rfl | cases this

theorem valuesTo_silent {b : List (Mark I E)} (h : ∀ m ∈ b, m.silent = true) (i : Nat) : valuesTo i b = [] := by
  unfold valuesTo
  rw [List.filterMap_eq_nil_iff]
  intro m hm
  have := h m hm
  cases m <;> first | rfl | cases this

/-- What a step does to subscribers. -/
structure Tells (D : Dest S I E) (x y : State S I E) (b : List (Mark I E)) : Prop where
  trace : y.trace = x.trace ++ b
  dests : ∀ i, y.dests i = (givesTo i b).foldl D.push (x.dests i)
  isOpen : ∀ a k i n d, b = a ++ .give k i n :: d → D.isClosed ((givesTo i a).foldl D.push (x.dests i)) = false
  stays : ∀ i, D.isClosed (x.dests i) = true → D.isClosed (y.dests i) = true

theorem Tells.silent {b : List (Mark I E)} (h : ∀ m ∈ b, m.silent = true) (ht : y.trace = x.trace ++ b)
    (hd : y.dests = x.dests) : Tells D x y b := by
  refine ⟨ht, fun i => by rw [givesTo_silent h, hd]; rfl, fun a k i n d e => ?_, fun i hi => by rw [hd]; exact hi⟩
  have := h (.give k i n) (by rw [e]; simp)
  cases this

theorem Handled.tells {own : Bool} {c b} (h : Handled D own x c y b) : Tells D x y b := ⟨h.1, h.3, h.4, h.5⟩

theorem told_tells {id : Nat} {n : SubscriberNotification I E} {i : Nat} (ht : y.trace = (told D id n [i] x).trace)
    (hd : y.dests = (told D id n [i] x).dests) :
    Tells D x y (([i].filter fun i => !D.isClosed (x.dests i)).map fun i => .give id i n) := by
  have he := told_eff (D := D) id n [i] (by simp) x
  exact ⟨ht, fun j => by rw [hd]; exact he.dests j, he.isOpen, fun j hj => by rw [hd, he.stays hj]; exact hj⟩

/-- A closed subscriber is not called. -/
theorem Tells.deaf {b : List (Mark I E)} (h : Tells D x y b) {i : Nat} (hc : D.isClosed (x.dests i) = true) :
    givesTo i y.trace = givesTo i x.trace := by
  have key : ∀ a d, b = a ++ d → givesTo i a = [] := by
    intro a
    induction a using Rx.snoc_induction with
    | nil => exact fun _ _ => rfl
    | snoc a m ih =>
      intro d e
      have h1 := ih (m :: d) (by rw [e]; simp)
      rw [givesTo_append, h1]
      cases m with
      | give k j n =>
        by_cases e' : j = i
        · subst e'
          have := h.isOpen a k j n d (by rw [e]; simp)
          rw [h1] at this
          exact absurd hc (by rw [show D.isClosed (x.dests j) = false from this]; simp)
        · simp [givesTo, e']
      | _ => rfl
  rw [h.trace, givesTo_append, key b [] (by simp)]
  simp

theorem Move.tells (m : Move D x t y) : ∃ b, Tells D x y b := by
  cases m with
  | quiet p pc same => exact ⟨[], .silent (by simp) (by rw [same.trace]; simp) same.dests⟩
  | drop p c pc same => exact ⟨[], .silent (by simp) (by rw [same.trace]; simp) same.dests⟩
  | speak p c n pc queue rest trace dests => exact ⟨_, told_tells trace dests⟩
  | drain p pc queue rest trace dests => exact ⟨[], .silent (by simp) (by rw [trace]; simp) dests⟩
  | serve p c r b pc queue rest₀ rest handled => exact ⟨b, handled.tells⟩
  | give p c b pc queue rest₀ rest handled => exact ⟨b, handled.tells⟩
  | defer p c pc queue rest trace dests => exact ⟨[], .silent (by simp) (by rw [trace]; simp) dests⟩
  | ret c pc queue rest trace dests => exact ⟨[_], .silent (by simp [Mark.silent]) trace dests⟩
  | note bit pc queue rest trace dests => exact ⟨[_], .silent (by simp [Mark.silent]) trace dests⟩
  | start p c pc queue rest trace dests => exact ⟨[_], .silent (by simp [Mark.silent]) trace dests⟩

theorem Heard.trace_step (h : Heard D s x) {b} (m : Tells D x y b) : (∀ i, y.dests i = afterTo D s i y.trace) ∧
    ∀ a k i n c, y.trace = a ++ .give k i n :: c → D.isClosed (afterTo D s i a) = false := by
  refine ⟨fun i => ?_, fun a k i n c e => ?_⟩
  · rw [m.dests, m.trace, afterTo_append, h.dests]
  · rw [m.trace] at e
    rcases List.append_eq_append_iff.1 e with ⟨as, ha, hb⟩ | ⟨bs, hb, ha⟩
    · rw [ha, afterTo_append, ← h.dests]
      exact m.isOpen as k i n c hb
    · cases bs with
      | nil =>
        simp only [List.append_nil] at hb
        rw [List.nil_append] at ha
        have := m.isOpen [] k i n c ha.symm
        rw [← hb, ← h.dests]
        exact this
      | cons z bs =>
        rw [List.cons_append] at ha
        injection ha with h1 h2
        subst h1
        exact h.isOpen a k i n bs hb

/-- The parts about `done`, when nothing is added to it. -/
theorem Heard.same (h : Heard D s x) {b} (m : Tells D x y b) (hd : y.done = x.done)
    (hv : ∀ i, valuesTo i b = []) (hn : y.members.Nodup) (hm : ∀ i ∈ y.members, i ∈ x.members)
    (hk : ∀ i ∈ x.members, D.isClosed (y.dests i) = false → i ∈ y.members)
    (hc : ∀ i, ⟨i, .subscribe⟩ ∈ x.done → y.dests i = x.dests i)
    (h1 : ∀ t c, (y.pc t).hand = some c → c ∈ y.done ∧
      (c.op.isClosing = true → y.closed = true ∨ ∀ i, ⟨i, .subscribe⟩ ∈ y.done → D.isClosed (y.dests i) = true))
    (h2 : y.closed = true → (y.rest = [] ∧ y.queue = []) ∨ (∃ t c, y.pc t = .give c ∧ c.op = .unsubscribe) ∨
      ∀ i, ⟨i, .subscribe⟩ ∈ y.done → D.isClosed (y.dests i) = true)
    (h3 : ∀ t c, y.pc t = .give c → c.op ≠ .unsubscribe → y.closed = true → y.queue = [])
    (h4 : ∀ t c, y.pc t = .sealing c → c.op = .unsubscribe)
    (h5 : ∀ t c, (y.pc t).armed = some c → c.op = .unsubscribe → y.unsubscribed = true) : Heard D s y := by
  have hvv : ∀ i, valuesTo i y.trace = valuesTo i x.trace := by
    intro i; rw [m.trace, valuesTo_append, hv]; simp
  have split : ∀ i a b, x.done = a ++ ⟨i, .subscribe⟩ :: b → (⟨i, .subscribe⟩ : Call I E) ∈ x.done := by
    intro i a b e; rw [e]; simp
  refine ⟨hn, (h.trace_step m).1, (h.trace_step m).2, fun i hi => by rw [hd]; exact h.subs i (hm i hi), fun i hi ho => ?_,
    fun i hi => by rw [hvv]; exact h.none i (hd ▸ hi), fun i a b e => ?_, fun i a b e c hcb hcc => ?_, fun i a b e c hcb hcc => ?_,
    h1, h2, h3, h4, h5⟩
  · rw [hd] at hi
    exact hk i (h.mem i hi (by rw [← hc i hi]; exact ho)) ho
  · rw [hd] at e
    rw [hvv, hc i (split i a b e)]
    exact h.vals i a b e
  · rw [hd] at e
    rw [hc i (split i a b e)]
    exact h.closing i a b e c hcb hcc
  · rw [hd] at e
    rw [hc i (split i a b e)]
    exact h.cancel i a b e c hcb hcc

theorem hand_holds {p : PC I E} {c} (h : p.hand = some c) : p.holds = true := by
  cases p <;> first | rfl | cases h

/-- Whoever is handling a drained notification finds that a closed subject has closed its subscribers. -/
theorem Heard.full_mid (h : Heard D s x) (hl : Locks x) (hm : (x.pc t).mid = true) {c r} (hr : x.rest = c :: r)
    (hc : x.closed = true) : ∀ i, ⟨i, .subscribe⟩ ∈ x.done → D.isClosed (x.dests i) = true := by
  rcases h.full hc with e | ⟨u, d, hu, -⟩ | e
  · rw [hr] at e; cases e.1
  · have : u = t := hl.unique (by rw [hu]; rfl) (holds_of_mid hm)
    subst this
    rw [hu] at hm
    cases hm
  · exact e

/-- The parts about `done`, when a call is handled. -/
theorem Heard.handled (h : Heard D s x) {own c b} (m : Handled D own x c y b) (hd : y.done = x.done ++ [c])
    (fresh : c.id ∉ x.done.map Call.id)
    (hfull : own = true ∨ x.closed = false ∨ ∀ i, ⟨i, .subscribe⟩ ∈ x.done → D.isClosed (x.dests i) = true)
    (h1 : ∀ t c, (y.pc t).hand = some c → c ∈ y.done ∧
      (c.op.isClosing = true → y.closed = true ∨ ∀ i, ⟨i, .subscribe⟩ ∈ y.done → D.isClosed (y.dests i) = true))
    (h2 : y.closed = true → (y.rest = [] ∧ y.queue = []) ∨ (∃ t c, y.pc t = .give c ∧ c.op = .unsubscribe) ∨
      ∀ i, ⟨i, .subscribe⟩ ∈ y.done → D.isClosed (y.dests i) = true)
    (h3 : ∀ t c, y.pc t = .give c → c.op ≠ .unsubscribe → y.closed = true → y.queue = [])
    (h4 : ∀ t c, y.pc t = .sealing c → c.op = .unsubscribe)
    (h5 : ∀ t c, (y.pc t).armed = some c → c.op = .unsubscribe → y.unsubscribed = true) : Heard D s y := by
  have notin : ∀ op, (⟨c.id, op⟩ : Call I E) ∉ x.done := fun op e => fresh (List.mem_map.2 ⟨_, e, rfl⟩)
  have notmem : c.id ∉ x.members := fun e => notin _ (h.subs _ e)
  have hv : ∀ i, valuesTo i y.trace = valuesTo i x.trace ++ valuesTo i b := fun i => by rw [m.trace, valuesTo_append]
  have noval : ∀ i, i ∉ x.members → valuesTo i b = [] := fun i hi => by
    rw [m.values]
    split
    · rw [if_neg (fun e => hi e.1.1)]
    · rfl
  have noval' : ∀ i, D.isClosed (x.dests i) = true → valuesTo i b = [] := fun i hi => by
    rw [m.values]
    split
    · rw [if_neg (fun e => by rw [e.1.2] at hi; cases hi)]
    · rfl
  have act : ∀ i, ⟨i, .subscribe⟩ ∈ x.done → D.isClosed (x.dests i) = false → own = true ∨ x.closed = false := by
    intro i hi ho
    rcases hfull with e | e | e
    · exact .inl e
    · exact .inr e
    · rw [e i hi] at ho; cases ho
  refine ⟨m.nodup notmem, (h.trace_step m.tells).1, (h.trace_step m.tells).2, fun i hi => ?_, fun i hi ho => ?_,
    fun i hi => ?_, fun i a b' e => ?_, fun i a b' e c' hcb hcc => ?_, fun i a b' e c' hcb hcc => ?_,
    h1, h2, h3, h4, h5⟩
  · rw [hd, List.mem_append, List.mem_singleton]
    rcases m.members i hi with hi | ⟨rfl, hs⟩
    · exact .inl (h.subs i hi)
    · right; rw [← hs]
  · rw [hd, List.mem_append, List.mem_singleton] at hi
    rcases hi with hi | hi
    · have hox : D.isClosed (x.dests i) = false := by
        cases hx : D.isClosed (x.dests i)
        · rfl
        · rw [m.stays i hx] at ho; cases ho
      rcases m.keep i (h.mem i hi hox) with e | e
      · exact e
      · rw [e] at ho; cases ho
    · rcases m.add (by rw [← hi]) with e | e
      · rw [← hi] at e; exact e
      · rw [← hi] at e; rw [e] at ho; cases ho
  · rw [hd, List.mem_append, List.mem_singleton, not_or] at hi
    rw [hv, h.none i hi.1, noval i (fun e => hi.1 (h.subs i e))]
    rfl
  · rw [hd] at e
    rcases split_snoc e with ⟨rfl, rfl, rfl⟩ | ⟨b'', rfl, e'⟩
    · rw [hv, h.none i (notin _), noval i notmem]
      exact ⟨List.prefix_refl _, fun _ => rfl⟩
    · obtain ⟨v1, v2⟩ := h.vals i a b'' e'
      have hin : ⟨i, .subscribe⟩ ∈ x.done := by rw [e']; simp
      rw [hv, nexts_append]
      cases hx : D.isClosed (x.dests i)
      · have hval : valuesTo i b = nexts [c] := by
          rw [m.values]
          unfold nexts
          rw [List.filterMap_cons]
          cases hop : c.op with
          | next v =>
            dsimp only
            rw [if_pos ⟨⟨h.mem i hin hx, hx⟩, act i hin hx⟩]
            rfl
          | _ => rfl
        rw [v2 hx, hval]
        exact ⟨List.prefix_refl _, fun _ => rfl⟩
      · rw [noval' i hx, List.append_nil]
        exact ⟨v1.trans (List.prefix_append _ _), fun ho => by rw [m.stays i hx] at ho; cases ho⟩
  · rw [hd] at e
    rcases split_snoc e with ⟨rfl, rfl, rfl⟩ | ⟨b'', rfl, e'⟩
    · cases hcb
    · have hin : ⟨i, .subscribe⟩ ∈ x.done := by rw [e']; simp
      rcases List.mem_append.1 hcb with hcb | hcb
      · exact m.stays i (h.closing i a b'' e' c' hcb hcc)
      · rw [List.mem_singleton] at hcb
        subst hcb
        cases hx : D.isClosed (x.dests i)
        · exact m.closing hcc (act i hin hx) i (h.mem i hin hx)
        · exact m.stays i hx
  · rw [hd] at e
    rcases split_snoc e with ⟨rfl, rfl, rfl⟩ | ⟨b'', rfl, e'⟩
    · cases hcb
    · have hin : ⟨i, .subscribe⟩ ∈ x.done := by rw [e']; simp
      rcases List.mem_append.1 hcb with hcb | hcb
      · exact m.stays i (h.cancel i a b'' e' c' hcb hcc)
      · rw [List.mem_singleton] at hcb
        subst hcb
        cases hx : D.isClosed (x.dests i)
        · exact m.cancel i hcc (act i hin hx) (h.mem i hin hx)
        · exact m.stays i hx

theorem Held.threads (hh : Held x t y) {R : Nat → PC I E → Prop} (ht : R t (y.pc t)) (hu : ∀ u, u ≠ t → R u (x.pc u)) :
    ∀ u, R u (y.pc u) := by
  intro u
  by_cases e : u = t
  · subst e; exact ht
  · rw [hh.other e]; exact hu u e

theorem Heard.sealing_step (h : Heard D s x) (hh : Held x t y) (f : Fine x t y) :
    ∀ u c, y.pc u = .sealing c → c.op = .unsubscribe :=
  hh.threads (R := fun _ p => ∀ c, p = .sealing c → c.op = .unsubscribe) (fun c hc => f.sealing c hc) (fun u _ c hc => h.sealing u c hc)

theorem Heard.unsub_step (h : Heard D s x) (hh : Held x t y) (f : Fine x t y) :
    ∀ u c, (y.pc u).armed = some c → c.op = .unsubscribe → y.unsubscribed = true := by
  refine hh.threads (R := fun _ p => ∀ c, p.armed = some c → c.op = .unsubscribe → y.unsubscribed = true) (fun c hc hu => ?_)
    (fun u _ c hc hu => f.unsub_mono (h.unsub u c hc hu))
  rcases f.armedUnsub c hc hu with e | e
  · exact f.unsub_mono (h.unsub t c e hu)
  · exact e

/-- Who closes holds the lock. -/
theorem Fine.closer (f : Fine x t y) (hc : y.closed = true) : x.closed = true ∨ (x.pc t).holds = true := by
  rcases f.closed hc with e | ⟨c, e, -⟩ | ⟨c, e, -⟩
  · exact .inl e
  · exact .inr (hand_holds e)
  · right; rw [e]; rfl

theorem Heard.give_step (h : Heard D s x) (hl : Locks x) (hh : Held x t y) (f : Fine x t y) (m : Move D x t y) :
    ∀ u c, y.pc u = .give c → c.op ≠ .unsubscribe → y.closed = true → y.queue = [] := by
  refine hh.threads (R := fun _ p => ∀ c, p = .give c → c.op ≠ .unsubscribe → y.closed = true → y.queue = [])
    (fun c hc hu _ => ?_) (fun u hut c hc hu hcl => ?_)
  · rcases f.give c hc with e | e
    · exact absurd (h.sealing t c e) hu
    · exact e.2
  · have hx : x.closed = true := by
      rcases f.closer hcl with e | e
      · exact e
      · exact absurd (hl.unique (by rw [hc]; rfl) e) hut
    have hq := h.give u c hc hu hx
    cases m with
    | quiet p pc same => rw [same.queue, hq]
    | drop p c pc same => rw [same.queue, hq]
    | drain p pc queue => exact queue
    | defer p d pc queue rest trace dests calls done members cur cur₀ pend pend₀ sure at₀ isOpen =>
      rcases isOpen with e | ⟨e1, e2⟩
      · rw [e] at hx; cases hx
      · rw [h.unsub t d (by rw [at₀]; rfl) e1] at e2; cases e2
    | _ => simp_all

/-- The parts about threads, when nothing is handled. -/
theorem Heard.hand_same (h : Heard D s x) (hh : Held x t y) (f : Fine x t y) (hd : y.done = x.done)
    (hc : ∀ i, ⟨i, .subscribe⟩ ∈ x.done → y.dests i = x.dests i) :
    ∀ u c, (y.pc u).hand = some c → c ∈ y.done ∧
      (c.op.isClosing = true → y.closed = true ∨ ∀ i, ⟨i, .subscribe⟩ ∈ y.done → D.isClosed (y.dests i) = true) := by
  refine hh.threads (R := fun _ p => ∀ c, p.hand = some c → c ∈ y.done ∧
    (c.op.isClosing = true → y.closed = true ∨ ∀ i, ⟨i, .subscribe⟩ ∈ y.done → D.isClosed (y.dests i) = true))
    (fun c hc => ?_) (fun u _ c hcu => ?_)
  · have := f.hand c hc
    rw [hd] at this
    have := congrArg List.length this
    simp at this
  · obtain ⟨h1, h2⟩ := h.hand u c hcu
    rw [hd]
    refine ⟨h1, fun hcl => ?_⟩
    rcases h2 hcl with e | e
    · exact .inl (f.closed_mono e)
    · exact .inr fun i hi => by rw [hc i hi]; exact e i hi

theorem Heard.full_same (h : Heard D s x) (hh : Held x t y) (f : Fine x t y) (hd : y.done = x.done)
    (hc : ∀ i, ⟨i, .subscribe⟩ ∈ x.done → y.dests i = x.dests i)
    (hw : x.closed = true → x.rest = [] → x.queue = [] → y.rest = [] ∧ y.queue = []) :
    y.closed = true → (y.rest = [] ∧ y.queue = []) ∨ (∃ t c, y.pc t = .give c ∧ c.op = .unsubscribe) ∨
      ∀ i, ⟨i, .subscribe⟩ ∈ y.done → D.isClosed (y.dests i) = true := by
  intro hcl
  have all : (∀ i, ⟨i, .subscribe⟩ ∈ x.done → D.isClosed (x.dests i) = true) →
      ∀ i, ⟨i, .subscribe⟩ ∈ y.done → D.isClosed (y.dests i) = true := by
    intro e i hi
    rw [hd] at hi
    rw [hc i hi]
    exact e i hi
  have old : x.closed = true → (y.rest = [] ∧ y.queue = []) ∨ (∃ t c, y.pc t = .give c ∧ c.op = .unsubscribe) ∨
      ∀ i, ⟨i, .subscribe⟩ ∈ y.done → D.isClosed (y.dests i) = true := fun hx => by
    rcases h.full hx with ⟨e1, e2⟩ | ⟨u, c, e1, e2⟩ | e
    · exact .inl (hw hx e1 e2)
    · refine .inr (.inl ⟨u, c, ?_, e2⟩)
      by_cases eu : u = t
      · subst eu
        have := f.gave c e1
        rw [hd] at this
        have := congrArg List.length this
        simp at this
      · rw [hh.other eu]; exact e1
    · exact .inr (.inr (all e))
  rcases f.closed hcl with hx | ⟨c, e, e1, -⟩ | ⟨c, e, e1, -⟩
  · exact old hx
  · rcases (h.hand t c e).2 e1 with hx | e
    · exact old hx
    · exact .inr (.inr (all e))
  · exact .inr (.inl ⟨t, c, e1, h.sealing t c e⟩)

theorem Heard.move (h : Heard D s x) (hl : Locks x) (hi : Ids x) (hh : Held x t y) (f : Fine x t y) (m : Move D x t y) :
    Heard D s y := by
  have h3 := h.give_step hl hh f m
  have h4 := h.sealing_step hh f
  have h5 := h.unsub_step hh f
  have same : ∀ b : List (Mark I E), (∀ m ∈ b, m.silent = true) → y.trace = x.trace ++ b → y.dests = x.dests → y.done = x.done →
      (y.members = x.members ∨ y.members = x.members.filter fun k => !D.isClosed (x.dests k)) →
      (x.closed = true → x.rest = [] → x.queue = [] → y.rest = [] ∧ y.queue = []) → Heard D s y := by
    intro b hb ht hdd hdn hm hw
    have hc : ∀ i, ⟨i, .subscribe⟩ ∈ x.done → y.dests i = x.dests i := fun i _ => by rw [hdd]
    refine h.same (.silent hb ht hdd) hdn (valuesTo_silent hb) ?_ (fun i hi => ?_) (fun i hi ho => ?_) hc
      (h.hand_same hh f hdn hc) (h.full_same hh f hdn hc hw) h3 h4 h5
    · rcases hm with e | e <;> rw [e]
      · exact h.nodup
      · exact h.nodup.sublist List.filter_sublist
    · rcases hm with e | e <;> rw [e] at hi
      · exact hi
      · exact (List.mem_filter.1 hi).1
    · rcases hm with e | e <;> rw [e]
      · exact hi
      · rw [List.mem_filter]
        exact ⟨hi, by rw [← hdd, ho]; rfl⟩
  cases m with
  | quiet p pc sm =>
    exact same [] (by simp) (by rw [sm.trace]; simp) sm.dests sm.done sm.members (fun _ e1 e2 => by rw [sm.rest, sm.queue]; exact ⟨e1, e2⟩)
  | drop p c pc sm =>
    exact same [] (by simp) (by rw [sm.trace]; simp) sm.dests sm.done sm.members (fun _ e1 e2 => by rw [sm.rest, sm.queue]; exact ⟨e1, e2⟩)
  | speak p c n pc queue rest trace dests calls done members cur cur₀ pend pend₀ sure sub closing what =>
    have hne : ∀ i, ⟨i, .subscribe⟩ ∈ x.done → i ≠ c.id := by
      rintro i hid rfl
      exact hi.pend t c pend₀ (List.mem_map.2 ⟨_, List.mem_append_left _ hid, rfl⟩)
    have hc : ∀ i, ⟨i, .subscribe⟩ ∈ x.done → y.dests i = x.dests i := fun i hid => by
      rw [dests]
      simp [told, hne i hid]
    refine h.same (told_tells trace dests) done (fun i => valuesTo_map_closing i _ _ closing _ _) (by rw [members]; exact h.nodup)
      (fun i hid => members ▸ hid) (fun i hid _ => by rw [members]; exact hid) hc
      (h.hand_same hh f done hc) (h.full_same hh f done hc (fun _ e1 e2 => by rw [rest, queue]; exact ⟨e1, e2⟩)) h3 h4 h5
  | drain p pc queue rest trace dests calls done members =>
    exact same [] (by simp) (by rw [trace]; simp) dests done (.inl members) (fun _ e1 e2 => by rw [rest, queue]; exact ⟨e2, rfl⟩)
  | serve p c r b pc queue rest₀ rest handled calls done cur pend sure mid hand =>
    have hx : y.closed = true → x.closed = true := fun e => by
      rcases f.closed e with e | ⟨_, _, _, _, _, _, e⟩ | ⟨_, _, _, e⟩
      · exact e
      · rw [done] at e; have := congrArg List.length e; simp at this
      · rw [done] at e; have := congrArg List.length e; simp at this
    have fullx := fun hc => h.full_mid hl mid rest₀ hc
    have fresh : c.id ∉ x.done.map Call.id := fun e => by
      have hn := hi.nodup
      rw [State.line, rest₀, List.map_append, List.nodup_append] at hn
      exact hn.2.2 _ e _ (by simp) rfl
    have ally : (x.closed = true ∨ c.op.isClosing = true) → ∀ i, ⟨i, .subscribe⟩ ∈ y.done → D.isClosed (y.dests i) = true := by
      intro hor i hid
      rw [done, List.mem_append, List.mem_singleton] at hid
      by_cases hcl : x.closed = true
      · rcases hid with hid | rfl
        · exact handled.stays i (fullx hcl i hid)
        · exact handled.late rfl rfl hcl
      · have hcl : x.closed = false := by simpa using hcl
        have hcc : c.op.isClosing = true := hor.resolve_left (by simp [hcl])
        rcases hid with hid | rfl
        · cases ho : D.isClosed (x.dests i)
          · exact handled.closing hcc (.inr hcl) i (h.mem i hid ho)
          · exact handled.stays i ho
        · cases hcc
    refine h.handled handled done fresh ?_ ?_ (fun hc => .inr (.inr (ally (.inl (hx hc))))) h3 h4 h5
    · cases hc : x.closed
      · exact .inr (.inl rfl)
      · exact .inr (.inr (fullx hc))
    · refine hh.threads (R := fun _ p => ∀ c, p.hand = some c → c ∈ y.done ∧
        (c.op.isClosing = true → y.closed = true ∨ ∀ i, ⟨i, .subscribe⟩ ∈ y.done → D.isClosed (y.dests i) = true))
        (fun d hd => ?_) (fun u hu d hd => ?_)
      · rw [pc, pc_goto, if_pos rfl, hand] at hd
        cases hd
        exact ⟨by rw [done]; simp, fun hcc => .inr (ally (.inr hcc))⟩
      · exact absurd (hl.unique (hand_holds hd) (holds_of_mid mid)) hu
  | give p c b pc queue rest₀ rest handled calls done cur cur₀ pend pend₀ sure at₀ =>
    have hx : y.closed = true → x.closed = true := fun e => by
      rcases f.closed e with e | ⟨_, _, _, _, _, _, e⟩ | ⟨_, _, _, e⟩
      · exact e
      · rw [done] at e; have := congrArg List.length e; simp at this
      · rw [done] at e; have := congrArg List.length e; simp at this
    have fresh : c.id ∉ x.done.map Call.id := fun e => by
      refine hi.pend t c pend₀ ?_
      rw [State.line, List.map_append]
      exact List.mem_append_left _ e
    have hol : (x.pc t).holds = true := by rw [at₀]; rfl
    refine h.handled handled done fresh (.inl rfl) ?_ (fun hc => ?_) h3 h4 h5
    · refine hh.threads (R := fun _ p => ∀ c, p.hand = some c → c ∈ y.done ∧
        (c.op.isClosing = true → y.closed = true ∨ ∀ i, ⟨i, .subscribe⟩ ∈ y.done → D.isClosed (y.dests i) = true))
        (fun d hd => ?_) (fun u hu d hd => ?_)
      · have e := f.hand d hd
        rw [done] at e
        have hcd : c = d := by simpa using e
        subst hcd
        refine ⟨by rw [done]; simp, fun hcc => .inr fun i hid => ?_⟩
        rw [done, List.mem_append, List.mem_singleton] at hid
        rcases hid with hid | rfl
        · cases ho : D.isClosed (x.dests i)
          · exact handled.closing hcc (.inl rfl) i (h.mem i hid ho)
          · exact handled.stays i ho
        · cases hcc
      · exact absurd (hl.unique (hand_holds hd) hol) hu
    · by_cases hu : c.op = .unsubscribe
      · right; right
        intro i hid
        rw [done, List.mem_append, List.mem_singleton] at hid
        rcases hid with hid | rfl
        · cases ho : D.isClosed (x.dests i)
          · exact handled.closing (by rw [hu]; rfl) (.inl rfl) i (h.mem i hid ho)
          · exact handled.stays i ho
        · cases hu
      · exact .inl ⟨rest, by rw [queue]; exact h.give t c at₀ hu (hx hc)⟩
  | defer p c pc queue rest trace dests calls done members cur cur₀ pend pend₀ sure at₀ isOpen =>
    refine same [] (by simp) (by rw [trace]; simp) dests done (.inl members) (fun hx _ _ => ?_)
    rcases isOpen with e | ⟨e1, e2⟩
    · rw [e] at hx; cases hx
    · rw [h.unsub t c (by rw [at₀]; rfl) e1] at e2; cases e2
  | ret c pc queue rest trace dests calls done members =>
    exact same [_] (by simp [Mark.silent]) trace dests done (.inl members) (fun _ e1 e2 => by rw [rest, queue]; exact ⟨e1, e2⟩)
  | note bit pc queue rest trace dests calls done members =>
    exact same [_] (by simp [Mark.silent]) trace dests done (.inl members) (fun _ e1 e2 => by rw [rest, queue]; exact ⟨e1, e2⟩)
  | start p c pc queue rest trace dests calls done members =>
    exact same [_] (by simp [Mark.silent]) trace dests done (.inl members) (fun _ e1 e2 => by rw [rest, queue]; exact ⟨e1, e2⟩)

end

end Rx.Crowd
