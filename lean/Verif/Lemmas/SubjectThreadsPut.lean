import Verif.Lemmas.SubjectThreadsLate

/-!
# Subscribers that were not brought along yet do not matter
-/

namespace Rx.Crowd

open Closing (Dest)

variable {S I E : Type} {D : Dest S I E} {debug : Bool} {s s' : Nat → S} {x : State S I E} {n t : Nat}

/-- Other subscribers, from number `n` on. -/
def put (n : Nat) (s' : Nat → S) (x : State S I E) : State S I E :=
  { x with dests := fun i => if i < n then x.dests i else s' i }

theorem put_goto (t : Nat) (p : PC I E) : put n s' (x.goto t p) = (put n s' x).goto t p := rfl
theorem put_note (m) : put n s' (x.note m) = (put n s' x).note m := rfl
theorem put_ret (t : Nat) (o) : put n s' (x.ret t o) = (put n s' x).ret t o := by cases o <;> rfl

theorem put_dests {i : Nat} (h : i < n) : (put n s' x).dests i = x.dests i := by simp [put, h]

theorem put_tell (id : Nat) (m) {i : Nat} (h : i < n) : (put n s' x).tell D id m i = put n s' (x.tell D id m i) := by
  unfold State.tell
  rw [put_dests h]
  split
  · rfl
  · simp only [put, State.mk.injEq, true_and, and_true]
    funext j
    by_cases hj : j = i
    · subst hj; simp [h]
    · simp [hj]

theorem put_foldl (id : Nat) (m) (L : List Nat) : ∀ x : State S I E, (∀ i ∈ L, i < n) →
    L.foldl (State.tell D id m) (put n s' x) = put n s' (L.foldl (State.tell D id m) x) := by
  induction L with
  | nil => intro x _; rfl
  | cons i L ih =>
    intro x h
    rw [List.foldl_cons, List.foldl_cons, put_tell _ _ (h i (by simp))]
    exact ih _ fun j hj => h j (by simp [hj])

theorem put_tellAll (id : Nat) (m) (h : ∀ i ∈ x.members, i < n) :
    (put n s' x).tellAll D id m = put n s' (x.tellAll D id m) := put_foldl _ _ _ _ h

theorem members_foldl (id : Nat) (m) (L : List Nat) : ∀ x : State S I E, (L.foldl (State.tell D id m) x).members = x.members := by
  induction L with
  | nil => intro x; rfl
  | cons i L ih =>
    intro x
    rw [List.foldl_cons, ih]
    unfold State.tell
    split <;> rfl

theorem members_tellAll (id : Nat) (m) : (x.tellAll D id m).members = x.members := members_foldl _ _ _ _

theorem put_dropAll (id : Nat) (h : ∀ i ∈ x.members, i < n) :
    (put n s' x).dropAll D id = put n s' (x.dropAll D id) := by
  unfold State.dropAll
  rw [put_tellAll _ _ h]
  rfl

theorem put_remove (id k : Nat) (h : ∀ i ∈ x.members, i < n) :
    (put n s' x).remove D id k = put n s' (x.remove D id k) := by
  unfold State.remove
  show (if k ∈ x.members then _ else _) = _
  split
  · rename_i hk
    exact put_tell (x := { x with members := x.members.erase k }) _ _ (h k hk)
  · rfl

theorem put_clean (h : ∀ i ∈ x.members, i < n) : (put n s' x).clean D = put n s' (x.clean D) := by
  unfold State.clean
  simp only [put, State.mk.injEq, true_and, and_true]
  apply List.filter_congr
  intro i hi
  rw [if_pos (h i hi)]

theorem put_handle (c : Call I E) (h : ∀ i ∈ x.members, i < n) (hc : c.id < n) :
    (put n s' x).handle D c = put n s' (x.handle D c) := by
  unfold State.handle
  cases c.op with
  | subscribe =>
    dsimp only
    rw [put_dests hc]
    split
    · rfl
    · show (if x.closed = true then _ else _) = _
      split
      · exact put_tell _ _ hc
      · rfl
  | next v =>
    dsimp only
    show (if x.closed = true then _ else _) = _
    split
    · rfl
    · exact put_tellAll _ _ h
  | error e =>
    dsimp only
    show State.dropAll D c.id (if x.closed = true then _ else _) = _
    split
    · exact put_dropAll _ h
    · rw [put_tellAll _ _ h]
      exact put_dropAll _ (by rw [members_tellAll]; exact h)
  | complete =>
    dsimp only
    show State.dropAll D c.id (if x.closed = true then _ else _) = _
    split
    · exact put_dropAll _ h
    · rw [put_tellAll _ _ h]
      exact put_dropAll _ (by rw [members_tellAll]; exact h)
  | unsubscribe =>
    dsimp only
    show (if x.closed = true then _ else _) = _
    split
    · rfl
    · exact put_dropAll _ h
  | cancel k =>
    dsimp only
    show (if x.closed = true then _ else _) = _
    split
    · rfl
    · exact put_remove _ _ h

theorem put_act (c : Call I E) (h : ∀ i ∈ x.members, i < n) : (put n s' x).act D c = put n s' (x.act D c) := by
  unfold State.act
  cases c.op with
  | subscribe => rfl
  | next v => exact put_tellAll _ _ h
  | error e => exact put_tellAll _ _ h
  | complete => exact put_tellAll _ _ h
  | unsubscribe => exact put_dropAll _ h
  | cancel k => exact put_remove _ _ h

/-- Everybody mentioned has a number below `n`. -/
structure Known (n : Nat) (x : State S I E) : Prop where
  members : ∀ i ∈ x.members, i < n
  cur : ∀ t c, (x.pc t).cur = some c → c.id < n
  look : ∀ t c k, x.pc t = .look c → c.op = .cancel k → k < n
  rest : ∀ c ∈ x.rest, c.id < n

theorem put_advance (h : Known n x) : advance D debug (put n s' x) t = put n s' (advance D debug x t) := by
  unfold advance
  have hc := h.cur t
  have hl := h.look t
  rw [show (put n s' x).pc t = x.pc t from rfl]
  cases hp : x.pc t with
  | idle => rfl
  | panicked w => rfl
  | pre c => rfl
  | preApply c => dsimp only; show (if x.free = true then _ else _) = _; split <;> rfl
  | greet c =>
    rw [hp] at hc
    have hc := hc c rfl
    dsimp only
    rw [put_goto]
    congr 1
    rw [show (put n s' x).error = x.error from rfl]
    cases x.error with
    | some e => exact put_tell _ _ hc
    | none =>
      dsimp only
      show (if x.completed = true then _ else _) = _
      split
      · exact put_tell _ _ hc
      · rfl
  | check c => rfl
  | refuse c =>
    rw [hp] at hc
    dsimp only
    rw [put_tell _ _ (hc c rfl)]
    rfl
  | leaving c => rfl
  | observe c =>
    dsimp only
    cases c.op with
    | error e => rfl
    | complete =>
      dsimp only
      show (if (debug && (x.completed || x.unsubscribed)) = true then _ else _) = _
      split <;> rfl
    | unsubscribe => rfl
    | subscribe => rfl
    | next v => rfl
    | cancel k => rfl
  | look c =>
    dsimp only
    cases ho : c.op with
    | cancel k =>
      dsimp only
      rw [put_dests (hl c k hp ho)]
      split <;> rfl
    | error e => rfl
    | complete => rfl
    | unsubscribe => rfl
    | subscribe => rfl
    | next v => rfl
  | attempt c => dsimp only; show (if x.free = true then _ else _) = _; split <;> rfl
  | top w k =>
    dsimp only
    split
    · rfl
    · show (if x.queue.isEmpty = true then _ else _) = _
      split <;> rfl
  | deliver w k =>
    dsimp only
    rw [show (put n s' x).rest = x.rest from rfl]
    cases hr : x.rest with
    | nil => dsimp only; rw [put_clean h.members]; rfl
    | cons c rest =>
      dsimp only
      exact congrArg (fun y : State S I E => y.goto t (.marking w k c))
        (put_handle (x := { x with rest := rest, done := x.done ++ [c] }) c h.members (h.rest c (by rw [hr]; simp)))
  | marking w k c => rfl
  | sealing c => rfl
  | give c =>
    dsimp only
    exact congrArg (fun y : State S I E => y.goto t (.unlock (.own c)))
      (put_act (x := { x with done := x.done ++ [c] }) c h.members)
  | unlock w =>
    cases w with
    | own c => rfl
    | pre c => rfl
    | after o => dsimp only; rw [put_ret]; rfl
  | deferring c =>
    rw [hp] at hc
    have hc := hc c rfl
    dsimp only
    rw [put_goto]
    congr 1
    show (if (x.closed && !(c.op.isUnsubscribe && !x.unsubscribed)) = true then _ else _) = _
    split
    · split
      · exact put_tell _ _ hc
      · rfl
    · rfl
  | recheck o =>
    dsimp only
    show (if x.queue.isEmpty = true then _ else _) = _
    split
    · rw [put_ret]
    · rfl
  | apply o =>
    dsimp only
    show (if x.free = true then _ else _) = _
    split
    · rfl
    · rw [put_ret]

theorem put_step (h : Known n x) (a : Turn I E) : step D debug (put n s' x) t a = put n s' (step D debug x t a) := by
  unfold step
  show (if (x.pc t).isIdle = true then _ else _) = _
  split
  · cases a with
    | go => rfl
    | call op =>
      dsimp only
      show (if op.void x.handles = true then _ else _) = _
      split <;> rfl
    | ask => rfl
    | drop => rfl
  · exact put_advance h

theorem Inv.known (h : Inv D s x) (hn : x.calls ≤ n) : Known n x where
  members i hi := by
    obtain ⟨t, ht⟩ := h.ids.line _ (by
      have := h.heard.subs i hi
      simp only [State.line, List.mem_append]
      exact .inl this)
    exact Nat.lt_of_lt_of_le (h.ids.ids _ _ _ ht) hn
  cur t c hc := Nat.lt_of_lt_of_le (h.ids.ids _ _ _ (h.ids.cur t c hc).1) hn
  look t c k hp ho := by
    obtain ⟨-, u, hu⟩ := h.ends.cancels c.id t k (by
      have := (h.ids.cur t c (by rw [hp]; rfl)).1
      rwa [ho] at this)
    exact Nat.lt_of_lt_of_le (h.ids.ids _ _ _ hu) hn
  rest c hc := by
    obtain ⟨t, ht⟩ := h.ids.line c (by simp only [State.line, List.mem_append]; exact .inr (.inl hc))
    exact Nat.lt_of_lt_of_le (h.ids.ids _ _ _ ht) hn

theorem calls_ret (y : State S I E) (t : Nat) (o) : (y.ret t o).calls = y.calls := by cases o <;> rfl

theorem calls_advance : (advance D debug x t).calls = x.calls := by
  unfold advance
  split
  case h_1 => rfl
  case h_2 => rfl
  case h_3 => rfl
  case h_4 => split <;> rfl
  case h_5 c _ =>
    show State.calls (match x.error with | some e => _ | none => _) = _
    split
    · exact (keeps_tell _ _ _ _).calls
    · split
      · exact (keeps_tell _ _ _ _).calls
      · rfl
  case h_6 => rfl
  case h_7 => exact (keeps_tell _ _ _ _).calls
  case h_8 => rfl
  case h_9 =>
    split
    · rfl
    · split <;> rfl
    · rfl
    · rfl
  case h_10 =>
    split
    · split <;> rfl
    · rfl
  case h_11 => split <;> rfl
  case h_12 =>
    split
    · rfl
    · split <;> rfl
  case h_13 =>
    split
    · rfl
    · exact (keeps_handle _ _).calls
  case h_14 => rfl
  case h_15 => rfl
  case h_16 => exact (keeps_act _ _).calls
  case h_17 => rfl
  case h_18 => rfl
  case h_19 => exact calls_ret _ _ _
  case h_20 =>
    dsimp only
    show State.calls (if _ then _ else _) = _
    split
    · split
      · exact (keeps_tell _ _ _ _).calls
      · rfl
    · rfl
  case h_21 =>
    split
    · exact calls_ret _ _ _
    · rfl
  case h_22 =>
    split
    · rfl
    · exact calls_ret _ _ _

theorem calls_step (a : Turn I E) : x.calls ≤ (step D debug x t a).calls := by
  unfold step
  split
  · cases a with
    | go => exact Nat.le_refl _
    | call op =>
      dsimp only
      split
      · exact Nat.le_refl _
      · exact Nat.le_succ _
    | ask => exact Nat.le_refl _
    | drop => exact Nat.le_refl _
  · rw [calls_advance]
    exact Nat.le_refl _

/-- Other subscribers that were not brought along make no difference. -/
theorem run_put (hD : D.Contract) (s s' : Nat → S) (l : List (Nat × Turn I E)) :
    (run D debug (init s) l).calls ≤ n →
      run D debug (init fun i => if i < n then s i else s' i) l = put n s' (run D debug (init s) l) := by
  induction l using Rx.snoc_induction with
  | nil => intro _; rfl
  | snoc l a ih =>
    rw [run_snoc, run_snoc]
    intro h
    have h' := Nat.le_trans (calls_step a.2) h
    rw [ih h', put_step ((run_inv hD s l).known h')]

/-- A subscriber that was not brought along was not called. -/
theorem Inv.fresh (h : Inv D s x) {i : Nat} (hi : x.calls ≤ i) : x.dests i = s i ∧ givesTo i x.trace = [] := by
  have : givesTo i x.trace = [] := by
    cases hg : givesTo i x.trace with
    | nil => rfl
    | cons n L =>
      obtain ⟨k, hk⟩ := give_of_mem_givesTo (i := i) (n := n) (b := x.trace) (by rw [hg]; simp)
      obtain ⟨-, u, hu⟩ := h.kept.gives _ _ _ hk
      have := h.ids.ids _ _ _ hu
      omega
  exact ⟨by rw [h.heard.dests, afterTo, this]; rfl, this⟩

end Rx.Crowd
