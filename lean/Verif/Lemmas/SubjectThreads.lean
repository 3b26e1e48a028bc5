import Verif.Spec.SubjectThreads
import Verif.Lemmas.SharedClosing
import Verif.Lemmas.Delivers

/-!
# Several threads that share a subject: invariants
-/

namespace Rx.Crowd

open Closing (Dest append_eq_snoc)

variable {S I E : Type} {D : Dest S I E} {debug : Bool}

/-! ## Reading a state -/

/-- The call a thread is in. -/
def Why.cur : Why I E → Option (Call I E)
  | .own c | .pre c => some c
  | .after o => o

/-- The call which is still in the hands of the thread. -/
def Why.pend : Why I E → Option (Call I E)
  | .own c | .pre c => some c
  | .after _ => none

def Why.later : Why I E → Option (Call I E)
  | .pre c => some c
  | _ => none

def Why.armed : Why I E → Option (Call I E)
  | .own c => some c
  | _ => none

def Why.noted : Why I E → Option (Call I E)
  | .own c => some c
  | .after o => o
  | .pre _ => none

namespace PC

def cur : PC I E → Option (Call I E)
  | .idle => none
  | .pre c | .preApply c | .greet c | .check c | .refuse c | .leaving c | .observe c | .look c | .attempt c
  | .sealing c | .give c | .deferring c => some c
  | .top w _ | .deliver w _ | .marking w _ _ | .unlock w | .panicked w => w.cur
  | .recheck o | .apply o => o

def pend : PC I E → Option (Call I E)
  | .pre c | .preApply c | .greet c | .check c | .refuse c | .observe c | .look c | .attempt c
  | .sealing c | .give c | .deferring c => some c
  | .top w _ | .deliver w _ | .marking w _ _ | .panicked w => w.pend
  | .unlock w => w.later
  | _ => none

/-- The queue was found empty. -/
def sure : PC I E → Option (Call I E)
  | .sealing c | .give c => some c
  | _ => none

/-- Past `is_closed`. -/
def passed : PC I E → Option (Call I E)
  | .observe c | .look c | .attempt c | .sealing c | .give c | .deferring c => some c
  | .top w _ | .deliver w _ | .marking w _ _ | .panicked w => w.armed
  | _ => none

/-- Noted, still in the hands of the thread. -/
def armed : PC I E → Option (Call I E)
  | .attempt c | .sealing c | .give c | .deferring c => some c
  | .top w _ | .deliver w _ | .marking w _ _ | .panicked w => w.armed
  | _ => none

/-- Noted. -/
def noted : PC I E → Option (Call I E)
  | .attempt c | .sealing c | .give c | .deferring c | .leaving c => some c
  | .top w _ | .deliver w _ | .marking w _ _ | .unlock w | .panicked w => w.noted
  | .recheck o | .apply o => o
  | _ => none

/-- The notification being handled. -/
def hand : PC I E → Option (Call I E)
  | .marking _ _ c => some c
  | _ => none

/-- In the loop over the drained notifications. -/
def mid : PC I E → Bool
  | .deliver _ _ | .marking _ _ _ => true
  | _ => false

/-- Only `subscribe` comes here. -/
def joining : PC I E → Option (Call I E)
  | .pre c | .preApply c | .greet c | .refuse c => some c
  | .top w _ | .deliver w _ | .marking w _ _ | .unlock w => w.later
  | _ => none

end PC

/-- Handled, drained, deferred. -/
def State.line (x : State S I E) : List (Call I E) := x.done ++ (x.rest ++ x.queue)

theorem pc_goto (x : State S I E) (t : Nat) (p : PC I E) (u : Nat) :
    (x.goto t p).pc u = if u = t then p else x.pc u := rfl

/-! ## Traces -/

theorem Before.mono {tr : List (Mark I E)} {j k : Nat} (h : Before tr j k) (m) : Before (tr ++ m) j k := by
  obtain ⟨a, b, rfl, h1, h2⟩ := h
  exact ⟨a, b ++ m, by simp, h1, h2⟩

theorem Before.backs {tr b : List (Mark I E)} {j k t : Nat} {n}
    (h : Before (tr ++ b) j k) (hk : .call k t n ∈ tr) : Before tr j k := by
  obtain ⟨a, a', e, h1, h2⟩ := h
  rcases List.append_eq_append_iff.1 e with ⟨as, ha, -⟩ | ⟨bs, ha, -⟩
  · rw [ha] at h2
    exact absurd (List.mem_append_left _ hk) (h2 t n)
  · exact ⟨a, bs, ha, h1, h2⟩

theorem Before.ret {tr : List (Mark I E)} {j k : Nat} (h : Before tr j k) : .ret j ∈ tr := by
  obtain ⟨a, b, rfl, h1, -⟩ := h
  exact List.mem_append_left _ h1

theorem Excused.mono {tr : List (Mark I E)} {k : Nat} (h : Excused tr k) (m) : Excused (tr ++ m) k := by
  obtain ⟨a, b, rfl, h⟩ := h
  exact ⟨a, b ++ m, by simp, h⟩

theorem Ending.mono {tr : List (Mark I E)} (h : Ending tr) (m) : Ending (tr ++ m) := by
  obtain ⟨j, t, op, h1, h2⟩ := h
  exact ⟨j, t, op, List.mem_append_left _ h1, h2⟩

/-- The part before the first return. -/
theorem split_ret {tr : List (Mark I E)} {k : Nat} (h : .ret k ∈ tr) :
    ∃ a b, tr = a ++ .ret k :: b ∧ .ret k ∉ a := by
  induction tr with
  | nil => cases h
  | cons m tr ih =>
    by_cases e : m = .ret k
    · subst e; exact ⟨[], tr, rfl, by simp⟩
    · rcases List.mem_cons.1 h with h | h
      · exact absurd h.symm e
      · obtain ⟨a, b, rfl, h2⟩ := ih h
        refine ⟨m :: a, b, rfl, ?_⟩
        simp only [List.mem_cons, not_or]
        exact ⟨fun h => e h.symm, h2⟩

theorem excused_of_not_before {tr : List (Mark I E)} {k j t : Nat} {n : Op I E}
    (hj : .call j t n ∈ tr) (hn : n.isClosing = true) (one : ∀ t' n', .call j t' n' ∈ tr → n' = n)
    (h : ¬ Before tr k j) : Excused tr k := by
  by_cases hk : Mark.ret k ∈ tr
  · obtain ⟨a, b, rfl, h2⟩ := split_ret hk
    by_cases ha : ∃ t n, Mark.call j t n ∈ a
    · obtain ⟨t, n', ha⟩ := ha
      have := one t n' (List.mem_append_left _ ha)
      exact ⟨a, _, rfl, h2, j, t, n', ha, this ▸ hn⟩
    · refine absurd ⟨a ++ [.ret k], b, by simp, by simp, fun t n hc => ?_⟩ h
      rcases List.mem_append.1 hc with hc | hc
      · exact ha ⟨t, n, hc⟩
      · simp at hc
  · exact ⟨tr, [], by simp, hk, j, t, n, hj, hn⟩

@[simp] theorem givesTo_append (i : Nat) (a b : List (Mark I E)) : givesTo i (a ++ b) = givesTo i a ++ givesTo i b := by
  simp [givesTo]

@[simp] theorem valuesTo_append (i : Nat) (a b : List (Mark I E)) :
    valuesTo i (a ++ b) = valuesTo i a ++ valuesTo i b := by
  simp [valuesTo]

/-! ## What is done to subscribers -/

/-- Those of `L` that are open are called. -/
def told (D : Dest S I E) (id : Nat) (n : SubscriberNotification I E) (L : List Nat) (x : State S I E) : State S I E :=
  { x with
    dests := fun i => if i ∈ L ∧ D.isClosed (x.dests i) = false then D.push (x.dests i) n else x.dests i
    trace := x.trace ++ (L.filter fun i => !D.isClosed (x.dests i)).map fun i => .give id i n }

theorem foldl_tell (id : Nat) (n : SubscriberNotification I E) (L : List Nat) (hL : L.Nodup) :
    ∀ x : State S I E, L.foldl (State.tell D id n) x = told D id n L x := by
  induction L with
  | nil => intro x; simp [told]
  | cons a L ih =>
    intro x
    obtain ⟨ha, hL⟩ := List.nodup_cons.1 hL
    rw [List.foldl_cons, ih hL]
    unfold State.tell
    by_cases hc : D.isClosed (x.dests a) = true
    · rw [if_pos hc]
      unfold told
      congr 1
      · funext i
        by_cases e : i = a
        · subst e; simp [hc]
        · simp [e]
      · simp [hc]
    · rw [if_neg hc]
      have hc : D.isClosed (x.dests a) = false := by simpa using hc
      unfold told
      dsimp only
      congr 1
      · funext i
        by_cases e : i = a
        · subst e; simp [hc, ha]
        · simp [e]
      · rw [List.filter_cons, hc]
        simp only [List.append_assoc, Bool.not_false, if_true, List.map_cons, List.singleton_append]
        congr 3
        refine List.filter_congr fun i hi => ?_
        have : i ≠ a := fun e => ha (e ▸ hi)
        rw [if_neg this]

theorem tell_eq (id : Nat) (n : SubscriberNotification I E) (x : State S I E) (i : Nat) :
    State.tell D id n x i = told D id n [i] x := foldl_tell id n [i] (by simp) x

theorem tellAll_eq (id : Nat) (n : SubscriberNotification I E) (x : State S I E) (h : x.members.Nodup) :
    State.tellAll D id n x = told D id n x.members x := foldl_tell id n _ h x

/-- Subscribers are called, those that are open, one after another. -/
structure Eff (D : Dest S I E) (id : Nat) (x y : State S I E) (b : List (Mark I E)) : Prop where
  state : y = { x with members := y.members, dests := y.dests, trace := x.trace ++ b }
  marks : ∀ m ∈ b, ∃ i n, m = .give id i n
  dests : ∀ i, y.dests i = (givesTo i b).foldl D.push (x.dests i)
  isOpen : ∀ a k i n c, b = a ++ .give k i n :: c → D.isClosed ((givesTo i a).foldl D.push (x.dests i)) = false

theorem Eff.refl (id : Nat) (x : State S I E) (m : List Nat) : Eff D id x { x with members := m } [] := by
  refine ⟨by simp, by simp, fun i => rfl, fun a k i n c h => ?_⟩
  have := congrArg List.length h
  simp at this

theorem Eff.trans {id : Nat} {x y z : State S I E} {b c} (h : Eff D id x y b) (g : Eff D id y z c) :
    Eff D id x z (b ++ c) := by
  refine ⟨?_, fun m hm => ?_, fun i => ?_, fun a k i n d e => ?_⟩
  · have h1 := h.state
    have h2 := g.state
    rw [h2]
    rw [h1]
    simp
  · rcases List.mem_append.1 hm with hm | hm
    · exact h.marks m hm
    · exact g.marks m hm
  · rw [g.dests, h.dests]; simp
  · rcases List.append_eq_append_iff.1 e with ⟨as, ha, hb⟩ | ⟨bs, hb, ha⟩
    · have := g.isOpen as k i n d hb
      rw [ha]
      simpa [h.dests] using this
    · cases bs with
      | nil =>
        simp only [List.append_nil] at hb
        rw [List.nil_append] at ha
        have := g.isOpen [] k i n d ha.symm
        rw [← hb, ← h.dests]
        exact this
      | cons m bs =>
        rw [List.cons_append] at ha
        injection ha with h1 h2
        subst h1
        exact h.isOpen a k i n bs hb

theorem mem_split_filter {α : Type} {p : α → Bool} {f : α → Mark I E} {L : List α} {a c : List (Mark I E)} {m}
    (h : (L.filter p).map f = a ++ m :: c) : ∃ l1 j l2, L = l1 ++ j :: l2 ∧ f j = m ∧ p j = true ∧ a = (l1.filter p).map f := by
  induction L generalizing a with
  | nil => have := congrArg List.length h; simp at this
  | cons j L ih =>
    rw [List.filter_cons] at h
    by_cases hp : p j = true
    · rw [if_pos hp, List.map_cons] at h
      cases a with
      | nil =>
        injection h with h1 h2
        exact ⟨[], j, L, rfl, h1, hp, rfl⟩
      | cons a0 a =>
        injection h with h1 h2
        obtain ⟨l1, j', l2, e, h3, h4, h5⟩ := ih h2
        exact ⟨j :: l1, j', l2, by rw [e]; rfl, h3, h4, by rw [List.filter_cons, if_pos hp, List.map_cons, h1, h5]⟩
    · rw [if_neg hp] at h
      obtain ⟨l1, j', l2, e, h3, h4, h5⟩ := ih h
      exact ⟨j :: l1, j', l2, by rw [e]; rfl, h3, h4, by rw [List.filter_cons, if_neg hp, h5]⟩

theorem givesTo_map (i id : Nat) (n : SubscriberNotification I E) (L : List Nat) (hL : L.Nodup) (p : Nat → Bool) :
    givesTo i ((L.filter p).map fun j => (.give id j n : Mark I E)) = if i ∈ L ∧ p i = true then [n] else [] := by
  induction L with
  | nil => simp [givesTo]
  | cons j L ih =>
    obtain ⟨hj, hL⟩ := List.nodup_cons.1 hL
    have ih := ih hL
    rw [List.filter_cons]
    by_cases hp : p j = true
    · rw [if_pos hp, List.map_cons, ← List.singleton_append, givesTo_append, ih]
      by_cases e : i = j
      · subst e; simp [givesTo, hp, hj]
      · have : ¬ j = i := fun h => e h.symm
        simp [givesTo, e, this]
    · rw [if_neg hp, ih]
      by_cases e : i = j
      · subst e; simp [hp]
      · simp [e]

theorem valuesTo_map (i id : Nat) (v : I) (L : List Nat) (hL : L.Nodup) (p : Nat → Bool) :
    valuesTo i ((L.filter p).map fun j => (.give id j (.next v) : Mark I E)) =
      if i ∈ L ∧ p i = true then [(id, v)] else [] := by
  induction L with
  | nil => simp [valuesTo]
  | cons j L ih =>
    obtain ⟨hj, hL⟩ := List.nodup_cons.1 hL
    have ih := ih hL
    rw [List.filter_cons]
    by_cases hp : p j = true
    · rw [if_pos hp, List.map_cons, ← List.singleton_append, valuesTo_append, ih]
      by_cases e : i = j
      · subst e; simp [valuesTo, hp, hj]
      · have : ¬ j = i := fun h => e h.symm
        simp [valuesTo, e, this]
    · rw [if_neg hp, ih]
      by_cases e : i = j
      · subst e; simp [hp]
      · simp [e]

theorem valuesTo_map_closing (i id : Nat) (n : SubscriberNotification I E) (hn : n.isClosing = true) (L : List Nat)
    (p : Nat → Bool) : valuesTo i ((L.filter p).map fun j => (.give id j n : Mark I E)) = [] := by
  unfold valuesTo
  rw [List.filterMap_eq_nil_iff]
  intro m hm
  obtain ⟨j, -, rfl⟩ := List.mem_map.1 hm
  cases n <;> first | rfl | cases hn

theorem told_eff (id : Nat) (n : SubscriberNotification I E) (L : List Nat) (hL : L.Nodup) (x : State S I E) :
    Eff D id x (told D id n L x) ((L.filter fun i => !D.isClosed (x.dests i)).map fun i => .give id i n) := by
  refine ⟨rfl, fun m hm => ?_, fun i => ?_, fun a k i n' c h => ?_⟩
  · obtain ⟨i, -, rfl⟩ := List.mem_map.1 hm
    exact ⟨i, n, rfl⟩
  · rw [givesTo_map _ _ _ _ hL]
    simp only [told, Bool.not_eq_true']
    split <;> rfl
  · obtain ⟨l1, j, l2, rfl, h1, h2, rfl⟩ := mem_split_filter h
    cases h1
    have hni : i ∉ l1 := fun hi => by
      rw [List.nodup_append] at hL
      exact hL.2.2 i hi i (by simp) rfl
    rw [givesTo_map _ _ _ _ (List.nodup_append.1 hL).1, if_neg (fun h => hni h.1)]
    simpa using h2

theorem givesTo_nil_of_closed {x y : State S I E} {id : Nat} {b} (h : Eff D id x y b) {i : Nat}
    (hc : D.isClosed (x.dests i) = true) : givesTo i b = [] := by
  have : ∀ a c, b = a ++ c → givesTo i a = [] := by
    intro a
    induction a using Rx.snoc_induction with
    | nil => intro c _; rfl
    | snoc a m ih =>
      intro c e
      have h0 := ih (m :: c) (by rw [e]; simp)
      obtain ⟨j, n, rfl⟩ := h.marks m (by rw [e]; simp)
      rw [givesTo_append, h0]
      by_cases ej : j = i
      · subst ej
        have := h.isOpen a id j n c (by rw [e]; simp)
        rw [h0] at this
        simp [hc] at this
      · simp [givesTo, ej]
  exact this b [] (by simp)

/-- A closed subscriber is left alone. -/
theorem Eff.stays {x y : State S I E} {id : Nat} {b} (h : Eff D id x y b) {i : Nat}
    (hc : D.isClosed (x.dests i) = true) : y.dests i = x.dests i := by
  rw [h.dests, givesTo_nil_of_closed h hc]
  rfl

/-- Call `c` is handled; `own`: by the thread that made it, otherwise from the queue. -/
structure Handled (D : Dest S I E) (own : Bool) (x : State S I E) (c : Call I E) (y : State S I E)
    (b : List (Mark I E)) : Prop where
  trace : y.trace = x.trace ++ b
  marks : ∀ m ∈ b, ∃ i n, m = .give c.id i n
  dests : ∀ i, y.dests i = (givesTo i b).foldl D.push (x.dests i)
  isOpen : ∀ a k i n d, b = a ++ .give k i n :: d → D.isClosed ((givesTo i a).foldl D.push (x.dests i)) = false
  stays : ∀ i, D.isClosed (x.dests i) = true → D.isClosed (y.dests i) = true
  values : ∀ i, valuesTo i b = match c.op with
    | .next v => if (i ∈ x.members ∧ D.isClosed (x.dests i) = false) ∧ (own = true ∨ x.closed = false)
        then [(c.id, v)] else []
    | _ => []
  what : ∀ k i n, .give k i n ∈ b → (n = .unsubscribe ∧ (c.op = .unsubscribe ∨ (c.op.isClosing = true ∧ own = false ∧ x.closed = true) ∨ c.op = .cancel i ∨
      (c.op = .subscribe ∧ i = c.id ∧ x.closed = true))) ∨ (∃ v, c.op = .next v ∧ n = .next v) ∨
    (∃ e, c.op = .error e ∧ n = .error e) ∨ (c.op = .complete ∧ n = .complete)
  keep : ∀ i ∈ x.members, i ∈ y.members ∨ D.isClosed (y.dests i) = true
  members : ∀ i ∈ y.members, i ∈ x.members ∨ (i = c.id ∧ c.op = .subscribe)
  nodup : c.id ∉ x.members → y.members.Nodup
  add : c.op = .subscribe → c.id ∈ y.members ∨ D.isClosed (y.dests c.id) = true
  late : c.op = .subscribe → own = false → x.closed = true → D.isClosed (y.dests c.id) = true
  closing : c.op.isClosing = true → (own = true ∨ x.closed = false) → ∀ i ∈ x.members, D.isClosed (y.dests i) = true
  cancel : ∀ k, c.op = .cancel k → (own = true ∨ x.closed = false) → k ∈ x.members →
    D.isClosed (y.dests k) = true
  to : ∀ k i n, .give k i n ∈ b → i ∈ x.members ∨ (i = c.id ∧ c.op = .subscribe)

theorem told_closes (hD : D.Contract) (id : Nat) (n : SubscriberNotification I E) (hn : n.isClosing = true)
    (L : List Nat) (x : State S I E) {i : Nat} (hi : i ∈ L) : D.isClosed ((told D id n L x).dests i) = true := by
  simp only [told]
  split
  · exact hD.closes _ _ hn
  · rename_i h
    simpa [hi] using h

theorem what_told {D : Dest S I E} {id : Nat} {n : SubscriberNotification I E} {L : List Nat} {x : State S I E} {k i m}
    (h : Mark.give k i m ∈ (L.filter fun i => !D.isClosed (x.dests i)).map fun i => (.give id i n : Mark I E)) : m = n ∧ i ∈ L := by
  obtain ⟨j, hj, e⟩ := List.mem_map.1 h
  cases e
  exact ⟨rfl, (List.mem_filter.1 hj).1⟩

/-- `dropAll`, and before it perhaps something else. -/
theorem dropAll_eff (hD : D.Contract) {id : Nat} {x y : State S I E} {b} (h : Eff D id x y b) (hn : y.members.Nodup) :
    ∃ c, Eff D id x (State.dropAll D id y) (b ++ c) ∧ (∀ i ∈ y.members, D.isClosed ((State.dropAll D id y).dests i) = true) ∧
      (∀ i, valuesTo i c = []) ∧ (∀ k i n, .give k i n ∈ c → n = .unsubscribe ∧ i ∈ y.members ∧ D.isClosed (y.dests i) = false) ∧
      (State.dropAll D id y).trace = y.trace ++ c := by
  have e : State.dropAll D id y = { told D id .unsubscribe y.members y with members := [] } := by
    rw [State.dropAll, tellAll_eq _ _ _ hn]
  refine ⟨_, ?_, fun i hi => ?_, fun i => ?_, fun k i n hk => ?_, by rw [e]; rfl⟩
  · rw [e]
    have := (told_eff (D := D) id .unsubscribe y.members hn y).trans (Eff.refl id _ [])
    rw [List.append_nil] at this
    exact h.trans this
  · rw [e]
    exact told_closes hD id .unsubscribe rfl _ y hi
  · exact valuesTo_map_closing i id _ rfl _ _
  · obtain ⟨j, hj, e⟩ := List.mem_map.1 hk
    cases e
    have := List.mem_filter.1 hj
    exact ⟨rfl, this.1, by simpa using this.2⟩

theorem Eff.keeps_members {id : Nat} {n : SubscriberNotification I E} {x : State S I E} :
    (told D id n x.members x).members = x.members := rfl

theorem handled_terminal (hD : D.Contract) (own : Bool) (x : State S I E) (c : Call I E) (hn : x.members.Nodup)
    (n : SubscriberNotification I E) (hc : n.isClosing = true)
    (hw : (∃ e, c.op = .error e ∧ n = .error e) ∨ (c.op = .complete ∧ n = .complete)) :
    Handled D own x c (told D c.id n x.members x)
      ((x.members.filter fun i => !D.isClosed (x.dests i)).map fun i => .give c.id i n) := by
  have he := told_eff (D := D) c.id n x.members hn x
  have ho : c.op.isClosing = true ∧ c.op ≠ .subscribe ∧ (∀ v, c.op ≠ .next v) ∧ ∀ k, c.op ≠ .cancel k := by
    rcases hw with ⟨e, h, -⟩ | ⟨h, -⟩ <;> rw [h] <;> simp [Op.isClosing]
  refine ⟨rfl, he.marks, he.dests, he.isOpen, fun i hi => by rw [he.stays hi]; exact hi, fun i => ?_,
    fun k i m hm => ?_, fun i hi => .inl hi, fun i hi => .inl hi, fun _ => hn, fun h => absurd h ho.2.1,
    fun h => absurd h ho.2.1, fun _ _ i hi => told_closes hD _ _ hc _ x hi, fun k h => absurd h (ho.2.2.2 k),
    fun k i m hm => .inl (what_told hm).2⟩
  · rw [valuesTo_map_closing i _ n hc]
    split
    · rename_i h; exact absurd h (ho.2.2.1 _)
    · rfl
  · have := (what_told hm).1
    subst this
    rcases hw with h | h
    · exact .inr (.inr (.inl h))
    · exact .inr (.inr (.inr h))

theorem handled_dropAll (hD : D.Contract) (own : Bool) (x y : State S I E) (c : Call I E) (hn : x.members.Nodup) {b}
    (he : Eff D c.id x y b) (hm : y.members = x.members) (hc : c.op.isClosing = true)
    (hv : ∀ i, valuesTo i b = [])
    (ht : (∀ i ∈ x.members, D.isClosed (y.dests i) = true) ∨ c.op = .unsubscribe ∨ (own = false ∧ x.closed = true))
    (hw : ∀ k i n, .give k i n ∈ b → ((∃ e, c.op = .error e ∧ n = .error e) ∨ (c.op = .complete ∧ n = .complete)) ∧
      i ∈ x.members) : ∃ d, Handled D own x c (State.dropAll D c.id y) d := by
  have ho : c.op ≠ .subscribe ∧ (∀ v, c.op ≠ .next v) ∧ ∀ k, c.op ≠ .cancel k := by
    refine ⟨fun h => ?_, fun v h => ?_, fun k h => ?_⟩ <;> rw [h] at hc <;> cases hc
  obtain ⟨d, hd, h1, h2, h3, h4⟩ := dropAll_eff hD he (hm ▸ hn)
  rw [hm] at h1
  have hmem : (State.dropAll D c.id y).members = [] := rfl
  refine ⟨b ++ d, ?_, hd.marks, hd.dests, hd.isOpen, fun i hi => by rw [hd.stays hi]; exact hi, fun i => ?_,
    fun k i m hk => ?_, fun i hi => .inr (h1 i hi), fun i hi => ?_, fun _ => ?_, fun h => absurd h ho.1,
    fun h => absurd h ho.1, fun _ _ i hi => h1 i hi, fun k h => absurd h (ho.2.2 k),
    fun k i m hk => .inl ?_⟩
  · have := congrArg State.trace hd.state
    exact this
  · rw [valuesTo_append, hv, h2]
    split
    · rename_i h; exact absurd h (ho.2.1 _)
    · rfl
  · rcases List.mem_append.1 hk with hk | hk
    · exact (hw k i m hk).1.elim (fun h => .inr (.inr (.inl h))) (fun h => .inr (.inr (.inr h)))
    · obtain ⟨e1, e2, e3⟩ := h3 k i m hk
      rcases ht with ht | ht | ht
      · rw [ht i (hm ▸ e2)] at e3; cases e3
      · exact .inl ⟨e1, .inl ht⟩
      · exact .inl ⟨e1, .inr (.inl ⟨hc, ht⟩)⟩
  · rw [hmem] at hi; cases hi
  · rw [hmem]; exact List.nodup_nil
  · rcases List.mem_append.1 hk with hk | hk
    · exact (hw k i m hk).2
    · exact hm ▸ (h3 k i m hk).2.1

theorem handled_none (own : Bool) (x : State S I E) (c : Call I E) (hn : x.members.Nodup)
    (hs : c.op ≠ .subscribe ∨ (D.isClosed (x.dests c.id) = true)) (hx : own = false) (hc : x.closed = true ∨ c.op = .subscribe) :
    Handled D own x c x [] := by
  refine ⟨by simp, by simp, fun i => rfl, fun a k i n d e => ?_, fun i hi => hi, fun i => ?_, fun k i n h => (by cases h),
    fun i hi => .inl hi, fun i hi => .inl hi, fun _ => hn, fun h => .inr (hs.resolve_left fun g => g h),
    fun h _ _ => hs.resolve_left fun g => g h, fun h1 h2 => ?_, fun k h1 h2 => ?_, fun k i n h => (by cases h)⟩
  · have := congrArg List.length e
    simp at this
  · split
    · rename_i h
      rw [if_neg]
      · rfl
      · rcases hc with hc | hc
        · simp [hx, hc]
        · rw [hc] at h; cases h
    · rfl
  · rcases hc with hc | hc
    · simp [hx, hc] at h2
    · rw [hc] at h1; cases h1
  · rcases hc with hc | hc
    · simp [hx, hc] at h2
    · rw [hc] at h1; cases h1

theorem handled_next (own : Bool) (x : State S I E) (c : Call I E) (hn : x.members.Nodup) (v : I) (hv : c.op = .next v)
    (hx : own = true ∨ x.closed = false) :
    Handled D own x c (told D c.id (.next v) x.members x)
      ((x.members.filter fun i => !D.isClosed (x.dests i)).map fun i => .give c.id i (.next v)) := by
  have he := told_eff (D := D) c.id (.next v) x.members hn x
  refine ⟨rfl, he.marks, he.dests, he.isOpen, fun i hi => by rw [he.stays hi]; exact hi, fun i => ?_,
    fun k i m hm => .inr (.inl ⟨v, hv, (what_told hm).1⟩), fun i hi => .inl hi, fun i hi => .inl hi, fun _ => hn,
    fun h => (by rw [hv] at h; cases h), fun h => (by rw [hv] at h; cases h),
    fun h => (by rw [hv] at h; cases h), fun k h => (by rw [hv] at h; cases h),
    fun k i m hm => .inl (what_told hm).2⟩
  rw [valuesTo_map _ _ _ _ hn, hv]
  simp [hx]

theorem handled_add (own : Bool) (x : State S I E) (c : Call I E) (hn : x.members.Nodup) (hv : c.op = .subscribe)
    (hx : own = true ∨ x.closed = false) :
    Handled D own x c { x with members := x.members ++ [c.id] } [] := by
  have he := Eff.refl (D := D) c.id x (x.members ++ [c.id])
  refine ⟨by simp, he.marks, he.dests, he.isOpen, fun i hi => hi, fun i => (by rw [hv]; rfl),
    fun k i m hm => (by cases hm), fun i hi => .inl (List.mem_append_left _ hi), fun i hi => ?_, fun h => ?_,
    fun _ => .inl (by simp), fun _ h1 h2 => (by simp [h1, h2] at hx),
    fun h => (by rw [hv] at h; cases h), fun k h => (by rw [hv] at h; cases h), fun k i m hm => (by cases hm)⟩
  · rcases List.mem_append.1 hi with hi | hi
    · exact .inl hi
    · exact .inr ⟨by simpa using hi, hv⟩
  · rw [List.nodup_append]
    refine ⟨hn, by simp, fun a ha b hb e => h ?_⟩
    rw [List.mem_singleton] at hb
    rw [← hb, ← e]
    exact ha

theorem handled_cancel (hD : D.Contract) (own : Bool) (x : State S I E) (c : Call I E) (hn : x.members.Nodup) (k : Nat)
    (hv : c.op = .cancel k) : ∃ b, Handled D own x c (State.remove D c.id k x) b := by
  unfold State.remove
  by_cases hk : k ∈ x.members
  · rw [if_pos hk, tell_eq]
    have he := (Eff.refl (D := D) c.id x (x.members.erase k)).trans
      (told_eff (D := D) c.id .unsubscribe [k] (by simp) { x with members := x.members.erase k })
    have hc : D.isClosed ((told D c.id .unsubscribe [k] { x with members := x.members.erase k }).dests k) = true :=
      told_closes hD _ _ rfl _ _ (by simp)
    refine ⟨_, rfl, he.marks, he.dests, he.isOpen, fun i hi => (by rw [he.stays hi]; exact hi), fun i => ?_,
      fun k' i m hm => .inl ⟨(what_told hm).1, .inr (.inr (.inl (by rw [hv, List.mem_singleton.1 (what_told hm).2])))⟩, fun i hi => ?_, fun i hi => .inl (List.mem_of_mem_erase hi),
      fun _ => hn.erase _,
      fun h => (by rw [hv] at h; cases h), fun h => (by rw [hv] at h; cases h), fun h => (by rw [hv] at h; cases h),
      fun k' h _ _ => ?_, fun k' i m hm => .inl (by rw [List.mem_singleton.1 (what_told hm).2]; exact hk)⟩
    · rw [valuesTo_map_closing i _ _ rfl, hv]
    · by_cases e : i = k
      · subst e; exact .inr hc
      · exact .inl ((List.mem_erase_of_ne e).2 hi)
    · rw [hv] at h
      cases h
      exact hc
  · rw [if_neg hk]
    have he := Eff.refl (D := D) c.id x x.members
    refine ⟨[], by simp, he.marks, he.dests, he.isOpen, fun i hi => hi, fun i => (by rw [hv]; rfl),
      fun k' i m hm => (by cases hm), fun i hi => .inl hi, fun i hi => .inl hi,
      fun _ => hn,
      fun h => (by rw [hv] at h; cases h), fun h => (by rw [hv] at h; cases h), fun h => (by rw [hv] at h; cases h),
      fun k' h _ h' => ?_, fun k' i m hm => (by cases hm)⟩
    rw [hv] at h
    cases h
    exact absurd h' hk

theorem handle_handled (hD : D.Contract) (x : State S I E) (c : Call I E) (hn : x.members.Nodup) :
    ∃ b, Handled D false x c (x.handle D c) b := by
  unfold State.handle
  cases hc : c.op with
  | subscribe =>
    dsimp only
    split
    · rename_i h
      exact ⟨_, handled_none _ _ _ hn (.inr h) rfl (.inr hc)⟩
    · split
      · rename_i h h2
        rw [tell_eq]
        have he := told_eff (D := D) c.id .unsubscribe [c.id] (by simp) x
        have hcl : D.isClosed ((told D c.id .unsubscribe [c.id] x).dests c.id) = true :=
          told_closes hD _ _ rfl _ _ (by simp)
        exact ⟨_, rfl, he.marks, he.dests, he.isOpen, fun i hi => (by rw [he.stays hi]; exact hi),
          fun i => (by rw [valuesTo_map_closing i _ _ rfl, hc]),
          fun k' i m hm => .inl ⟨(what_told hm).1, .inr (.inr (.inr ⟨hc, List.mem_singleton.1 (what_told hm).2, h2⟩))⟩, fun i hi => .inl hi, fun i hi => .inl hi,
          fun _ => hn, fun _ => .inr hcl, fun _ _ _ => hcl, fun h => (by rw [hc] at h; cases h),
          fun k' h => (by rw [hc] at h; cases h), fun k' i m hm => .inr ⟨List.mem_singleton.1 (what_told hm).2, hc⟩⟩
      · rename_i h h2
        exact ⟨_, handled_add _ _ _ hn hc (.inr (by simpa using h2))⟩
  | next v =>
    dsimp only
    split
    · rename_i h
      exact ⟨_, handled_none _ _ _ hn (.inl (by simp [hc])) rfl (.inl h)⟩
    · rename_i h
      rw [tellAll_eq _ _ _ hn]
      exact ⟨_, handled_next _ _ _ hn v hc (.inr (by simpa using h))⟩
  | error e =>
    dsimp only
    split
    · rename_i h
      exact handled_dropAll hD _ _ _ _ hn (Eff.refl c.id x x.members) rfl (by rw [hc]; rfl) (fun i => rfl) (.inr (.inr ⟨rfl, h⟩))
        (fun k i n h => by cases h)
    · rw [tellAll_eq _ _ _ hn]
      refine handled_dropAll hD _ _ _ _ hn (told_eff c.id (.error e) x.members hn x) rfl (by rw [hc]; rfl)
        (fun i => valuesTo_map_closing i _ _ rfl _ _) (.inl fun i hi => told_closes hD _ _ rfl _ x hi) (fun k i n h => ⟨.inl ⟨e, hc, (what_told h).1⟩, (what_told h).2⟩)
  | complete =>
    dsimp only
    split
    · rename_i h
      exact handled_dropAll hD _ _ _ _ hn (Eff.refl c.id x x.members) rfl (by rw [hc]; rfl) (fun i => rfl) (.inr (.inr ⟨rfl, h⟩))
        (fun k i n h => by cases h)
    · rw [tellAll_eq _ _ _ hn]
      refine handled_dropAll hD _ _ _ _ hn (told_eff c.id .complete x.members hn x) rfl (by rw [hc]; rfl)
        (fun i => valuesTo_map_closing i _ _ rfl _ _) (.inl fun i hi => told_closes hD _ _ rfl _ x hi) (fun k i n h => ⟨.inr ⟨hc, (what_told h).1⟩, (what_told h).2⟩)
  | unsubscribe =>
    dsimp only
    split
    · rename_i h
      exact ⟨_, handled_none _ _ _ hn (.inl (by simp [hc])) rfl (.inl h)⟩
    · exact handled_dropAll hD _ _ _ _ hn (Eff.refl c.id x x.members) rfl (by rw [hc]; rfl) (fun i => rfl) (.inr (.inl hc))
        (fun k i n h => by cases h)
  | cancel k =>
    dsimp only
    split
    · rename_i h
      exact ⟨_, handled_none _ _ _ hn (.inl (by simp [hc])) rfl (.inl h)⟩
    · exact handled_cancel hD _ _ _ hn k hc

theorem act_handled (hD : D.Contract) (x : State S I E) (c : Call I E) (hn : x.members.Nodup) :
    ∃ b, Handled D true x c (x.act D c) b := by
  unfold State.act
  cases hc : c.op with
  | subscribe => exact ⟨_, handled_add _ _ _ hn hc (.inl rfl)⟩
  | next v =>
    dsimp only
    rw [tellAll_eq _ _ _ hn]
    exact ⟨_, handled_next _ _ _ hn v hc (.inl rfl)⟩
  | error e =>
    dsimp only
    rw [tellAll_eq _ _ _ hn]
    exact ⟨_, handled_terminal hD _ _ _ hn _ rfl (.inl ⟨e, hc, rfl⟩)⟩
  | complete =>
    dsimp only
    rw [tellAll_eq _ _ _ hn]
    exact ⟨_, handled_terminal hD _ _ _ hn _ rfl (.inr ⟨hc, rfl⟩)⟩
  | unsubscribe =>
    exact handled_dropAll hD _ _ _ _ hn (Eff.refl c.id x x.members) rfl (by rw [hc]; rfl) (fun i => rfl) (.inr (.inl hc))
      (fun k i n h => by cases h)
  | cancel k => exact handled_cancel hD _ _ _ hn k hc

/-! ## What stays the same while subscribers are called -/

structure Keeps (x y : State S I E) : Prop where
  pc : y.pc = x.pc
  lock : y.lock = x.lock
  poisoned : y.poisoned = x.poisoned
  rest : y.rest = x.rest
  queue : y.queue = x.queue
  closed : y.closed = x.closed
  completed : y.completed = x.completed
  unsubscribed : y.unsubscribed = x.unsubscribed
  error : y.error = x.error
  handles : y.handles = x.handles
  calls : y.calls = x.calls
  done : y.done = x.done

theorem Keeps.refl (x : State S I E) : Keeps x x := ⟨rfl, rfl, rfl, rfl, rfl, rfl, rfl, rfl, rfl, rfl, rfl, rfl⟩

theorem Keeps.trans {x y z : State S I E} (h : Keeps x y) (g : Keeps y z) : Keeps x z :=
  ⟨g.1.trans h.1, g.2.trans h.2, g.3.trans h.3, g.4.trans h.4, g.5.trans h.5, g.6.trans h.6, g.7.trans h.7,
    g.8.trans h.8, g.9.trans h.9, g.10.trans h.10, g.11.trans h.11, g.12.trans h.12⟩

theorem Keeps.members {x y : State S I E} (h : Keeps x y) (m : List Nat) : Keeps x { y with members := m } :=
  ⟨h.1, h.2, h.3, h.4, h.5, h.6, h.7, h.8, h.9, h.10, h.11, h.12⟩

theorem keeps_tell (id : Nat) (n) (x : State S I E) (i : Nat) : Keeps x (x.tell D id n i) := by
  unfold State.tell
  split <;> exact ⟨rfl, rfl, rfl, rfl, rfl, rfl, rfl, rfl, rfl, rfl, rfl, rfl⟩

theorem keeps_foldl (id : Nat) (n) (L : List Nat) : ∀ x : State S I E, Keeps x (L.foldl (State.tell D id n) x) := by
  induction L with
  | nil => exact Keeps.refl
  | cons a L ih => exact fun x => (keeps_tell id n x a).trans (ih _)

theorem keeps_tellAll (id : Nat) (n) (x : State S I E) : Keeps x (x.tellAll D id n) := keeps_foldl _ _ _ _

theorem keeps_dropAll (id : Nat) (x : State S I E) : Keeps x (x.dropAll D id) := (keeps_tellAll _ _ _).members _

theorem keeps_remove (id k : Nat) (x : State S I E) : Keeps x (x.remove D id k) := by
  unfold State.remove
  split
  · exact ((Keeps.refl x).members _).trans (keeps_tell _ _ _ _)
  · exact Keeps.refl x

theorem keeps_handle (x : State S I E) (c : Call I E) : Keeps x (x.handle D c) := by
  unfold State.handle
  cases c.op with
  | subscribe =>
    dsimp only
    split
    · exact Keeps.refl x
    · split
      · exact keeps_tell _ _ _ _
      · exact (Keeps.refl x).members _
  | next v => dsimp only; split <;> first | exact Keeps.refl x | exact keeps_tellAll _ _ _
  | error e =>
    dsimp only
    split
    · exact keeps_dropAll _ _
    · exact (keeps_tellAll _ _ _).trans (keeps_dropAll _ _)
  | complete =>
    dsimp only
    split
    · exact keeps_dropAll _ _
    · exact (keeps_tellAll _ _ _).trans (keeps_dropAll _ _)
  | unsubscribe => dsimp only; split <;> first | exact Keeps.refl x | exact keeps_dropAll _ _
  | cancel k => dsimp only; split <;> first | exact Keeps.refl x | exact keeps_remove _ _ _

theorem keeps_act (x : State S I E) (c : Call I E) : Keeps x (x.act D c) := by
  unfold State.act
  cases c.op with
  | subscribe => exact (Keeps.refl x).members _
  | next v => exact keeps_tellAll _ _ _
  | error e => exact keeps_tellAll _ _ _
  | complete => exact keeps_tellAll _ _ _
  | unsubscribe => exact keeps_dropAll _ _
  | cancel k => exact keeps_remove _ _ _

@[simp] theorem handle_pc (x : State S I E) (c : Call I E) : (x.handle D c).pc = x.pc := (keeps_handle x c).pc
@[simp] theorem handle_lock (x : State S I E) (c : Call I E) : (x.handle D c).lock = x.lock := (keeps_handle x c).lock
@[simp] theorem handle_poisoned (x : State S I E) (c : Call I E) : (x.handle D c).poisoned = x.poisoned := (keeps_handle x c).poisoned
@[simp] theorem handle_rest (x : State S I E) (c : Call I E) : (x.handle D c).rest = x.rest := (keeps_handle x c).rest
@[simp] theorem handle_queue (x : State S I E) (c : Call I E) : (x.handle D c).queue = x.queue := (keeps_handle x c).queue
@[simp] theorem handle_closed (x : State S I E) (c : Call I E) : (x.handle D c).closed = x.closed := (keeps_handle x c).closed
@[simp] theorem handle_completed (x : State S I E) (c : Call I E) : (x.handle D c).completed = x.completed := (keeps_handle x c).completed
@[simp] theorem handle_unsubscribed (x : State S I E) (c : Call I E) : (x.handle D c).unsubscribed = x.unsubscribed := (keeps_handle x c).unsubscribed
@[simp] theorem handle_error (x : State S I E) (c : Call I E) : (x.handle D c).error = x.error := (keeps_handle x c).error
@[simp] theorem handle_handles (x : State S I E) (c : Call I E) : (x.handle D c).handles = x.handles := (keeps_handle x c).handles
@[simp] theorem handle_calls (x : State S I E) (c : Call I E) : (x.handle D c).calls = x.calls := (keeps_handle x c).calls
@[simp] theorem handle_done (x : State S I E) (c : Call I E) : (x.handle D c).done = x.done := (keeps_handle x c).done

@[simp] theorem act_pc (x : State S I E) (c : Call I E) : (x.act D c).pc = x.pc := (keeps_act x c).pc
@[simp] theorem act_lock (x : State S I E) (c : Call I E) : (x.act D c).lock = x.lock := (keeps_act x c).lock
@[simp] theorem act_poisoned (x : State S I E) (c : Call I E) : (x.act D c).poisoned = x.poisoned := (keeps_act x c).poisoned
@[simp] theorem act_rest (x : State S I E) (c : Call I E) : (x.act D c).rest = x.rest := (keeps_act x c).rest
@[simp] theorem act_queue (x : State S I E) (c : Call I E) : (x.act D c).queue = x.queue := (keeps_act x c).queue
@[simp] theorem act_closed (x : State S I E) (c : Call I E) : (x.act D c).closed = x.closed := (keeps_act x c).closed
@[simp] theorem act_completed (x : State S I E) (c : Call I E) : (x.act D c).completed = x.completed := (keeps_act x c).completed
@[simp] theorem act_unsubscribed (x : State S I E) (c : Call I E) : (x.act D c).unsubscribed = x.unsubscribed := (keeps_act x c).unsubscribed
@[simp] theorem act_error (x : State S I E) (c : Call I E) : (x.act D c).error = x.error := (keeps_act x c).error
@[simp] theorem act_handles (x : State S I E) (c : Call I E) : (x.act D c).handles = x.handles := (keeps_act x c).handles
@[simp] theorem act_calls (x : State S I E) (c : Call I E) : (x.act D c).calls = x.calls := (keeps_act x c).calls
@[simp] theorem act_done (x : State S I E) (c : Call I E) : (x.act D c).done = x.done := (keeps_act x c).done

@[simp] theorem tell_pc (x : State S I E) (id : Nat) (n : SubscriberNotification I E) (i : Nat) : (x.tell D id n i).pc = x.pc := (keeps_tell id n x i).pc
@[simp] theorem tell_lock (x : State S I E) (id : Nat) (n : SubscriberNotification I E) (i : Nat) : (x.tell D id n i).lock = x.lock := (keeps_tell id n x i).lock
@[simp] theorem tell_poisoned (x : State S I E) (id : Nat) (n : SubscriberNotification I E) (i : Nat) : (x.tell D id n i).poisoned = x.poisoned := (keeps_tell id n x i).poisoned
@[simp] theorem tell_rest (x : State S I E) (id : Nat) (n : SubscriberNotification I E) (i : Nat) : (x.tell D id n i).rest = x.rest := (keeps_tell id n x i).rest
@[simp] theorem tell_queue (x : State S I E) (id : Nat) (n : SubscriberNotification I E) (i : Nat) : (x.tell D id n i).queue = x.queue := (keeps_tell id n x i).queue
@[simp] theorem tell_closed (x : State S I E) (id : Nat) (n : SubscriberNotification I E) (i : Nat) : (x.tell D id n i).closed = x.closed := (keeps_tell id n x i).closed
@[simp] theorem tell_completed (x : State S I E) (id : Nat) (n : SubscriberNotification I E) (i : Nat) : (x.tell D id n i).completed = x.completed := (keeps_tell id n x i).completed
@[simp] theorem tell_unsubscribed (x : State S I E) (id : Nat) (n : SubscriberNotification I E) (i : Nat) : (x.tell D id n i).unsubscribed = x.unsubscribed := (keeps_tell id n x i).unsubscribed
@[simp] theorem tell_error (x : State S I E) (id : Nat) (n : SubscriberNotification I E) (i : Nat) : (x.tell D id n i).error = x.error := (keeps_tell id n x i).error
@[simp] theorem tell_handles (x : State S I E) (id : Nat) (n : SubscriberNotification I E) (i : Nat) : (x.tell D id n i).handles = x.handles := (keeps_tell id n x i).handles
@[simp] theorem tell_calls (x : State S I E) (id : Nat) (n : SubscriberNotification I E) (i : Nat) : (x.tell D id n i).calls = x.calls := (keeps_tell id n x i).calls
@[simp] theorem tell_done (x : State S I E) (id : Nat) (n : SubscriberNotification I E) (i : Nat) : (x.tell D id n i).done = x.done := (keeps_tell id n x i).done

/-! ## What a step does -/

structure Locks (x : State S I E) : Prop where
  holds : ∀ t, (x.pc t).holds = true ↔ x.lock = some t
  dead : x.poisoned = true → x.lock = none
  rest : x.rest ≠ [] → ∃ t, (x.pc t).mid = true

theorem holds_of_mid {p : PC I E} (h : p.mid = true) : p.holds = true := by
  cases p <;> first | rfl | cases h

/-- Outside the loop over the drained notifications, the holder of the lock has drained nothing. -/
theorem Locks.empty {x : State S I E} (h : Locks x) {t : Nat} (ht : (x.pc t).holds = true)
    (hm : (x.pc t).mid = false) : x.rest = [] := by
  cases hr : x.rest with
  | nil => rfl
  | cons c r =>
    obtain ⟨u, hu⟩ := h.rest (by rw [hr]; simp)
    have h1 := (h.holds u).1 (holds_of_mid hu)
    have h2 := (h.holds t).1 ht
    rw [h1] at h2
    cases h2
    rw [hm] at hu
    cases hu

theorem Locks.free {x : State S I E} (h : Locks x) (hf : x.lock = none) : x.rest = [] := by
  cases hr : x.rest with
  | nil => rfl
  | cons c r =>
    obtain ⟨u, hu⟩ := h.rest (by rw [hr]; simp)
    have h1 := (h.holds u).1 (holds_of_mid hu)
    rw [hf] at h1
    cases h1

theorem Locks.unique {x : State S I E} (h : Locks x) {t u : Nat} (ht : (x.pc t).holds = true)
    (hu : (x.pc u).holds = true) : t = u := by
  have h1 := (h.holds u).1 hu
  have h2 := (h.holds t).1 ht
  rw [h1] at h2
  cases h2
  rfl

theorem Locks.init (s : Nat → S) : Locks (init s : State S I E) :=
  ⟨fun t => by simp [Crowd.init, PC.holds], fun h => (by cases h), fun h => absurd rfl h⟩

/-- How a step may change the lock and what was drained. -/
structure Held (x : State S I E) (t : Nat) (y : State S I E) : Prop where
  pc : ∃ p, y.pc = (x.goto t p).pc
  lock : (y.lock = x.lock ∧ (y.pc t).holds = (x.pc t).holds) ∨
    (x.free = true ∧ y.lock = some t ∧ (y.pc t).holds = true) ∨
    ((x.pc t).holds = true ∧ y.lock = none ∧ (y.pc t).holds = false)
  dead : y.poisoned = true → x.poisoned = true ∨ y.lock = none
  rest : y.rest = [] ∨ (y.pc t).mid = true ∨ (y.rest = x.rest ∧ (x.pc t).mid = false)

theorem Held.other {x y : State S I E} {t : Nat} (m : Held x t y) {u : Nat} (h : u ≠ t) : y.pc u = x.pc u := by
  obtain ⟨p, e⟩ := m.pc
  rw [e, pc_goto, if_neg h]

theorem Locks.held {x y : State S I E} {t : Nat} (h : Locks x) (m : Held x t y) : Locks y := by
  have ht := h.holds t
  have ho := fun u => m.other (u := u)
  obtain ⟨-, hl, hd, hr⟩ := m
  refine ⟨fun u => ?_, fun e => ?_, fun e => ?_⟩
  · have hu := h.holds u
    by_cases e : u = t
    · subst e
      rcases hl with ⟨h1, h2⟩ | ⟨h1, h2, h3⟩ | ⟨h1, h2, h3⟩
      · rw [h1, h2]; exact hu
      · simp [h2, h3]
      · simp [h2, h3]
    · rw [ho u e]
      rcases hl with ⟨h1, h2⟩ | ⟨h1, h2, h3⟩ | ⟨h1, h2, h3⟩
      · rw [h1]; exact hu
      · have : x.lock = none := by simp [State.free] at h1; exact h1.1
        rw [hu, this, h2]; simp; exact fun h => e h.symm
      · rw [hu, h2, ht.1 h1]; simp; exact fun h => e h.symm
  · rcases hd e with hd | hd
    · have h0 := h.dead hd
      rcases hl with ⟨h1, h2⟩ | ⟨h1, h2, h3⟩ | ⟨h1, h2, h3⟩
      · rw [h1, h0]
      · simp [State.free, hd] at h1
      · exact h2
    · exact hd
  · rcases hr with hr | hr | ⟨hr, hm⟩
    · exact absurd hr e
    · exact ⟨t, hr⟩
    · rw [hr] at e
      obtain ⟨u, hu⟩ := h.rest e
      refine ⟨u, ?_⟩
      rw [ho u (fun e => by subst e; rw [hm] at hu; cases hu)]
      exact hu

theorem isIdle_eq {p : PC I E} (h : p.isIdle = true) : p = .idle := by
  cases p <;> first | rfl | cases h

local macro "held" : tactic => `(tactic| (refine ⟨⟨_, rfl⟩, ?_, ?_, ?_⟩ <;>
  simp_all [State.goto, State.note, State.ret, State.clean, PC.holds, PC.mid]))

theorem held_ret {x y : State S I E} {t : Nat} {o : Option (Call I E)} (h : Held x t (y.goto t .idle)) : Held x t (y.ret t o) := by
  cases o <;> exact ⟨h.1, h.2, h.3, h.4⟩

theorem held_keeps {x y z : State S I E} {t : Nat} {p : PC I E} (h : Held x t (y.goto t p)) (k : Keeps y z) : Held x t (z.goto t p) := by
  obtain ⟨⟨q, h1⟩, h2, h3, h4⟩ := h
  refine ⟨⟨q, ?_⟩, ?_, ?_, ?_⟩
  · rw [← h1]; simp [State.goto, k.pc]
  · simpa [State.goto, k.lock] using h2
  · simpa [State.goto, k.lock, k.poisoned] using h3
  · simpa [State.goto, k.rest] using h4

theorem Locks.held_advance {x : State S I E} (h : Locks x) (t : Nat) : Held x t (Crowd.advance D debug x t) := by
  unfold Crowd.advance
  have hm := h.empty (t := t)
  have id : Held x t x := by
    refine ⟨⟨x.pc t, ?_⟩, .inl ⟨rfl, rfl⟩, .inl, ?_⟩
    · funext u; rw [pc_goto]; split <;> simp_all
    · cases hp : (x.pc t).mid
      · exact .inr (.inr ⟨rfl, rfl⟩)
      · exact .inr (.inl rfl)
  cases hp : x.pc t with
  | idle => exact id
  | panicked w => exact id
  | pre c => dsimp only; split <;> held
  | preApply c => dsimp only; split <;> held
  | greet c =>
    dsimp only
    refine held_keeps (y := x) (by held) ?_
    split
    · exact keeps_tell _ _ _ _
    · split
      · exact keeps_tell _ _ _ _
      · exact Keeps.refl x
  | check c =>
    dsimp only
    split
    · split <;> held
    · split <;> held
  | refuse c => exact held_keeps (y := x) (by held) (keeps_tell _ _ _ _)
  | leaving c => held
  | observe c =>
    dsimp only
    split
    · held
    · split <;> held
    · split <;> held
    · held
  | look c =>
    dsimp only
    split
    · split <;> held
    · held
  | attempt c => dsimp only; split <;> held
  | top w k =>
    rw [hp] at hm
    dsimp only
    split
    · held
    · split
      · cases w with
        | own c => dsimp only; split <;> held
        | pre c => held
        | after o => held
      · held
  | deliver w k =>
    dsimp only
    split
    · held
    · refine held_keeps (y := { x with rest := _, done := _ }) ?_ (keeps_handle _ _)
      held
  | marking w k c => held
  | sealing c => held
  | give c => exact held_keeps (y := { x with done := x.done ++ [c] }) (by held) (keeps_act _ _)
  | unlock w =>
    cases w with
    | own c => dsimp only; split <;> held
    | pre c => held
    | after o => exact held_ret (by held)
  | deferring c =>
    dsimp only
    split
    · refine held_keeps (y := x) (by split <;> held) ?_
      split
      · exact keeps_tell _ _ _ _
      · exact Keeps.refl x
    · split <;> held
  | recheck o =>
    dsimp only
    split
    · exact held_ret (by held)
    · held
  | apply o =>
    dsimp only
    split
    · held
    · exact held_ret (by held)

theorem holds_entry (c : Call I E) : (entry c).holds = false := by
  unfold entry; split <;> rfl

theorem Locks.held_step {x : State S I E} (h : Locks x) (t : Nat) (a : Turn I E) :
    Held x t (Crowd.step D debug x t a) := by
  unfold Crowd.step
  have id : Held x t x := by
    refine ⟨⟨x.pc t, ?_⟩, .inl ⟨rfl, rfl⟩, .inl, ?_⟩
    · funext u; rw [pc_goto]; split <;> simp_all
    · cases hp : (x.pc t).mid
      · exact .inr (.inr ⟨rfl, rfl⟩)
      · exact .inr (.inl rfl)
  split
  · rename_i hi
    have hp := isIdle_eq hi
    cases a with
    | go => exact id
    | call op =>
      dsimp only
      split
      · exact id
      · refine ⟨⟨_, rfl⟩, .inl ⟨rfl, ?_⟩, .inl, .inr (.inr ⟨rfl, by rw [hp]; rfl⟩)⟩
        rw [pc_goto, if_pos rfl, holds_entry, hp]
        rfl
    | ask => exact ⟨id.1, id.2, id.3, id.4⟩
    | drop => held
  · exact h.held_advance t

end Rx.Crowd
