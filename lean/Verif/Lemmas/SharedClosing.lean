import Verif.Spec.SharedClosing

/-!
# Several threads that may close a shared subscriber: invariants
-/

namespace Rx.Closing

variable {S I E : Type} {D : Dest S I E}

/-! ## Reading a state -/

/-- The call a thread is in. -/
def Why.cur : Why I E → Option (Call I E)
  | .own c => some c
  | .after o => o

/-- The call whose notification is still in the hands of the thread. -/
def Why.pend : Why I E → Option (Call I E)
  | .own c => some c
  | .after _ => none

namespace PC

def cur : PC I E → Option (Call I E)
  | .idle | .query | .queryAsk | .queryHeld => none
  | .check c | .asking c | .askHeld c | .observe c | .attempt c | .sealing c | .give c | .deferring c =>
    some c
  | .top w _ | .deliver w _ | .marking w _ _ | .unlock w | .panicked w => w.cur
  | .recheck o | .apply o => o

def pend : PC I E → Option (Call I E)
  | .check c | .asking c | .askHeld c | .observe c | .attempt c | .sealing c | .give c | .deferring c =>
    some c
  | .top w _ | .deliver w _ | .marking w _ _ | .panicked w => w.pend
  | _ => none

/-- The queue was found empty. -/
def sure : PC I E → Option (Call I E)
  | .sealing c | .give c => some c
  | _ => none

/-- Past `is_closed`, or past looking at the deferred state in it. -/
def passed : PC I E → Option (Call I E)
  | .asking c | .askHeld c | .observe c | .attempt c | .sealing c | .give c | .deferring c => some c
  | .top w _ | .deliver w _ | .marking w _ _ | .panicked w => w.pend
  | _ => none

/-- Noted, still in the hands of the thread. -/
def armed : PC I E → Option (Call I E)
  | .attempt c | .sealing c | .give c | .deferring c => some c
  | .top w _ | .deliver w _ | .marking w _ _ | .panicked w => w.pend
  | _ => none

/-- Noted. -/
def noted : PC I E → Option (Call I E)
  | .attempt c | .sealing c | .give c | .deferring c => some c
  | .top w _ | .deliver w _ | .marking w _ _ | .panicked w | .unlock w => w.cur
  | .recheck o | .apply o => o
  | _ => none

/-- Not yet noted. -/
def unseen : PC I E → Option (Call I E)
  | .check c | .asking c | .askHeld c | .observe c => some c
  | _ => none

/-- In the hands of the thread, with the flag not yet set for it. -/
def unsealed : PC I E → Option (Call I E)
  | .check c | .asking c | .askHeld c | .observe c | .attempt c | .sealing c | .deferring c => some c
  | .top w _ | .deliver w _ | .marking w _ _ | .panicked w => w.pend
  | _ => none

/-- The notification being handled. -/
def hand : PC I E → Option (Call I E)
  | .marking _ _ c => some c
  | _ => none

/-- In the loop over the drained notifications. -/
def mid : PC I E → Bool
  | .deliver _ _ | .marking _ _ _ => true
  | _ => false

end PC

/-- Given, drained, deferred. -/
def State.line (x : State S I E) : List (Call I E) := gives x.trace ++ (x.rest ++ x.queue)

theorem pc_goto (x : State S I E) (t : Nat) (p : PC I E) (u : Nat) :
    (x.goto t p).pc u = if u = t then p else x.pc u := rfl

/-! ## Traces -/

@[simp] theorem gives_nil : gives ([] : List (Mark I E)) = [] := rfl

@[simp] theorem gives_append (a b : List (Mark I E)) : gives (a ++ b) = gives a ++ gives b := by
  simp [gives]

@[simp] theorem gives_give (k : Nat) (n : SubscriberNotification I E) : gives [.give k n] = [⟨k, n⟩] := rfl
@[simp] theorem gives_call (k t : Nat) (n : SubscriberNotification I E) : gives [.call k t n] = [] := rfl
@[simp] theorem gives_ret (k : Nat) : gives [(.ret k : Mark I E)] = [] := rfl
@[simp] theorem gives_ask (k : Nat) : gives [(.ask k : Mark I E)] = [] := rfl
@[simp] theorem gives_answer (k : Nat) (b : Bool) : gives [(.answer k b : Mark I E)] = [] := rfl

theorem after_append (s : S) (a b : List (Mark I E)) : D.after s (a ++ b) = D.after (D.after s a) b := by
  simp [Dest.after]

theorem append_eq_snoc {α : Type} {l : List α} {m : α} {a b : List α} (h : l ++ [m] = a ++ b) :
    (a = l ++ [m] ∧ b = []) ∨ ∃ b', b = b' ++ [m] ∧ l = a ++ b' := by
  rcases List.eq_nil_or_concat b with hb | ⟨b', m', hb⟩
  · subst hb; exact .inl ⟨by simpa using h.symm, rfl⟩
  · subst hb
    rw [List.concat_eq_append, ← List.append_assoc] at h
    obtain ⟨h1, h2⟩ := List.append_inj' h rfl
    cases h2
    exact .inr ⟨b', by simp, h1⟩

theorem Before.mono {tr : List (Mark I E)} {j k : Nat} (h : Before tr j k) (m) : Before (tr ++ m) j k := by
  obtain ⟨a, b, rfl, h1, h2⟩ := h
  exact ⟨a, b ++ m, by simp, h1, h2⟩

theorem Before.back {tr : List (Mark I E)} {m : Mark I E} {j k t : Nat} {n}
    (h : Before (tr ++ [m]) j k) (hk : .call k t n ∈ tr) : Before tr j k := by
  obtain ⟨a, b, e, h1, h2⟩ := h
  rcases append_eq_snoc e with ⟨ha, -⟩ | ⟨b', -, rfl⟩
  · subst ha; exact absurd (List.mem_append_left _ hk) (h2 t n)
  · exact ⟨a, b', rfl, h1, h2⟩

theorem Before.ret {tr : List (Mark I E)} {j k : Nat} (h : Before tr j k) : .ret j ∈ tr := by
  obtain ⟨a, b, rfl, h1, -⟩ := h
  exact List.mem_append_left _ h1

theorem Excused.mono {s : S} {tr : List (Mark I E)} {k : Nat} (h : Excused D s tr k) (m) :
    Excused D s (tr ++ m) k := by
  obtain ⟨a, b, rfl, h⟩ := h
  exact ⟨a, b ++ m, by simp, h⟩

/-- The part before the first return. -/
theorem split_ret {tr : List (Mark I E)} {k : Nat} (h : .ret k ∈ tr) :
    ∃ a b, tr = a ++ .ret k :: b ∧ .ret k ∉ a := by
  induction tr with
  | nil => cases h
  | cons m tr ih =>
    by_cases e : m = .ret k
    · subst e; exact ⟨[], tr, rfl, by simp⟩
    · rcases List.mem_cons.1 h with h | h
      · exact absurd h.symm e
      · obtain ⟨a, b, rfl, h2⟩ := ih h
        refine ⟨m :: a, b, rfl, ?_⟩
        simp only [List.mem_cons, not_or]
        exact ⟨fun h => e h.symm, h2⟩

theorem excused_of_not_before {s : S} {tr : List (Mark I E)} {k j t : Nat} {n}
    (hj : .call j t n ∈ tr) (hn : n.isClosing = true) (one : ∀ t' n', .call j t' n' ∈ tr → n' = n)
    (hjk : j ≠ k) (h : ¬ Before tr k j) : Excused D s tr k := by
  by_cases hk : Mark.ret k ∈ tr
  · obtain ⟨a, b, rfl, h2⟩ := split_ret hk
    by_cases ha : ∃ t n, Mark.call j t n ∈ a
    · obtain ⟨t, n', ha⟩ := ha
      have := one t n' (List.mem_append_left _ ha)
      exact ⟨a, _, rfl, h2, .inl ⟨j, t, n', hjk, ha, this ▸ hn⟩⟩
    · refine absurd ⟨a ++ [.ret k], b, by simp, by simp, fun t n hc => ?_⟩ h
      rcases List.mem_append.1 hc with hc | hc
      · exact ha ⟨t, n, hc⟩
      · simp at hc
  · exact ⟨tr, [], by simp, hk, .inl ⟨j, t, n, hjk, hj, hn⟩⟩

/-! ## The locks -/

structure Locks (x : State S I E) : Prop where
  holds : ∀ t, (x.pc t).holds = true ↔ x.lock = some t
  dead : x.poisoned = true → x.lock = none
  rest : x.rest ≠ [] → ∃ t, (x.pc t).mid = true

theorem holds_of_mid {p : PC I E} (h : p.mid = true) : p.holds = true := by
  cases p <;> first | rfl | cases h

/-- Outside the loop over the drained notifications, the holder of the lock has drained nothing. -/
theorem Locks.empty {x : State S I E} (h : Locks x) {t : Nat} (ht : (x.pc t).holds = true)
    (hm : (x.pc t).mid = false) : x.rest = [] := by
  cases hr : x.rest with
  | nil => rfl
  | cons c r =>
    obtain ⟨u, hu⟩ := h.rest (by rw [hr]; simp)
    have h1 := (h.holds u).1 (holds_of_mid hu)
    have h2 := (h.holds t).1 ht
    rw [h1] at h2
    cases h2
    rw [hm] at hu
    cases hu

theorem Locks.free {x : State S I E} (h : Locks x) (hf : x.lock = none) : x.rest = [] := by
  cases hr : x.rest with
  | nil => rfl
  | cons c r =>
    obtain ⟨u, hu⟩ := h.rest (by rw [hr]; simp)
    have h1 := (h.holds u).1 (holds_of_mid hu)
    rw [hf] at h1
    cases h1

theorem Locks.unique {x : State S I E} (h : Locks x) {t u : Nat} (ht : (x.pc t).holds = true)
    (hu : (x.pc u).holds = true) : t = u := by
  have h1 := (h.holds u).1 hu
  have h2 := (h.holds t).1 ht
  rw [h1] at h2
  cases h2
  rfl

theorem Locks.init (s : S) : Locks (init s : State S I E) :=
  ⟨fun t => by simp [Closing.init, PC.holds], fun h => (by cases h), fun h => absurd rfl h⟩

/-- The three ways a step may change the lock. -/
theorem Locks.goto {x y : State S I E} (h : Locks x) (t : Nat) (p : PC I E)
    (hpc : y.pc = (x.goto t p).pc)
    (hl : (y.lock = x.lock ∧ p.holds = (x.pc t).holds) ∨ (x.free = true ∧ y.lock = some t ∧ p.holds = true) ∨
      ((x.pc t).holds = true ∧ y.lock = none ∧ p.holds = false))
    (hd : y.poisoned = true → x.poisoned = true ∨ y.lock = none)
    (hr : y.rest = [] ∨ p.mid = true ∨ (y.rest = x.rest ∧ (x.pc t).mid = false)) : Locks y := by
  have ht := h.holds t
  refine ⟨fun u => ?_, fun e => ?_, fun e => ?_⟩
  · have hu := h.holds u
    rw [hpc, pc_goto]
    by_cases e : u = t
    · subst e
      rw [if_pos rfl]
      rcases hl with ⟨h1, h2⟩ | ⟨h1, h2, h3⟩ | ⟨h1, h2, h3⟩
      · rw [h1, h2]; exact hu
      · simp [h2, h3]
      · simp [h2, h3]
    · rw [if_neg e]
      rcases hl with ⟨h1, h2⟩ | ⟨h1, h2, h3⟩ | ⟨h1, h2, h3⟩
      · rw [h1]; exact hu
      · have : x.lock = none := by simp [State.free] at h1; exact h1.1
        rw [hu, this, h2]; simp; exact fun h => e h.symm
      · rw [hu, h2, ht.1 h1]; simp; exact fun h => e h.symm
  · rcases hd e with hd | hd
    · have h0 := h.dead hd
      rcases hl with ⟨h1, h2⟩ | ⟨h1, h2, h3⟩ | ⟨h1, h2, h3⟩
      · rw [h1, h0]
      · simp [State.free, hd] at h1
      · exact h2
    · exact hd
  · rcases hr with hr | hr | ⟨hr, hm⟩
    · exact absurd hr e
    · exact ⟨t, by rw [hpc, pc_goto, if_pos rfl]; exact hr⟩
    · rw [hr] at e
      obtain ⟨u, hu⟩ := h.rest e
      refine ⟨u, ?_⟩
      rw [hpc, pc_goto, if_neg (fun e => by subst e; rw [hm] at hu; cases hu)]
      exact hu

theorem ret_goto (x : State S I E) (t : Nat) (o : Option (Call I E)) :
    (x.ret t o).pc = (x.goto t .idle).pc ∧ (x.ret t o).lock = x.lock ∧ (x.ret t o).poisoned = x.poisoned ∧
      (x.ret t o).rest = x.rest := by
  cases o <;> exact ⟨rfl, rfl, rfl, rfl⟩

theorem Locks.advance {x : State S I E} (h : Locks x) (t : Nat) : Locks (advance D x t) := by
  unfold Closing.advance
  have hm := h.empty (t := t)
  cases hp : x.pc t with
  | idle => exact h
  | panicked w => exact h
  | check c =>
    dsimp only
    split <;> exact h.goto t _ rfl (.inl ⟨rfl, by rw [hp]; rfl⟩) .inl (.inr (.inr ⟨rfl, by rw [hp]; rfl⟩))
  | asking c =>
    dsimp only
    split
    · rename_i hf
      exact h.goto t _ rfl (.inr (.inl ⟨hf, rfl, rfl⟩)) .inl (.inr (.inr ⟨rfl, by rw [hp]; rfl⟩))
    · exact h.goto t _ rfl (.inl ⟨rfl, by rw [hp]; rfl⟩) .inl (.inr (.inr ⟨rfl, by rw [hp]; rfl⟩))
  | askHeld c =>
    dsimp only
    split <;> exact h.goto t _ rfl (.inr (.inr ⟨by rw [hp]; rfl, rfl, rfl⟩)) .inl
      (.inr (.inr ⟨rfl, by rw [hp]; rfl⟩))
  | observe c =>
    dsimp only
    cases c.n with
    | unsubscribe =>
      dsimp only
      split <;> exact h.goto t _ rfl (.inl ⟨rfl, by rw [hp]; rfl⟩) .inl (.inr (.inr ⟨rfl, by rw [hp]; rfl⟩))
    | _ => exact h.goto t _ rfl (.inl ⟨rfl, by rw [hp]; rfl⟩) .inl (.inr (.inr ⟨rfl, by rw [hp]; rfl⟩))
  | attempt c =>
    dsimp only
    split
    · rename_i hf
      exact h.goto t _ rfl (.inr (.inl ⟨hf, rfl, rfl⟩)) .inl (.inr (.inr ⟨rfl, by rw [hp]; rfl⟩))
    · exact h.goto t _ rfl (.inl ⟨rfl, by rw [hp]; rfl⟩) .inl (.inr (.inr ⟨rfl, by rw [hp]; rfl⟩))
  | top w k =>
    rw [hp] at hm
    dsimp only
    split
    · exact h.goto t _ rfl (.inr (.inr ⟨by rw [hp]; rfl, rfl, rfl⟩)) (fun _ => .inr rfl)
        (.inl (hm rfl rfl))
    · split
      · cases w with
        | own c =>
          dsimp only
          split <;> exact h.goto t _ rfl (.inl ⟨rfl, by rw [hp]; rfl⟩) .inl (.inr (.inr ⟨rfl, by rw [hp]; rfl⟩))
        | after o =>
          exact h.goto t _ rfl (.inl ⟨rfl, by rw [hp]; rfl⟩) .inl (.inr (.inr ⟨rfl, by rw [hp]; rfl⟩))
      · exact h.goto t _ rfl (.inl ⟨rfl, by rw [hp]; rfl⟩) .inl (.inr (.inl rfl))
  | deliver w k =>
    dsimp only
    cases hr : x.rest with
    | nil => exact h.goto t _ rfl (.inl ⟨rfl, by rw [hp]; rfl⟩) .inl (.inl hr)
    | cons c r =>
      dsimp only
      split <;> exact h.goto t _ rfl (.inl ⟨rfl, by rw [hp]; rfl⟩) .inl (.inr (.inl rfl))
  | marking w k c => exact h.goto t _ rfl (.inl ⟨rfl, by rw [hp]; rfl⟩) .inl (.inr (.inl rfl))
  | sealing c => exact h.goto t _ rfl (.inl ⟨rfl, by rw [hp]; rfl⟩) .inl (.inr (.inr ⟨rfl, by rw [hp]; rfl⟩))
  | give c =>
    dsimp only
    split <;> exact h.goto t _ rfl (.inl ⟨rfl, by rw [hp]; rfl⟩) .inl (.inr (.inr ⟨rfl, by rw [hp]; rfl⟩))
  | unlock w =>
    cases w with
    | own c =>
      exact h.goto t _ rfl (.inr (.inr ⟨by rw [hp]; rfl, rfl, rfl⟩)) .inl (.inr (.inr ⟨rfl, by rw [hp]; rfl⟩))
    | after o =>
      obtain ⟨h1, h2, h3, h4⟩ := ret_goto { x with lock := none } t o
      exact h.goto t .idle h1 (.inr (.inr ⟨by rw [hp]; rfl, h2, rfl⟩)) (fun e => .inl (h3 ▸ e))
        (.inr (.inr ⟨h4, by rw [hp]; rfl⟩))
  | deferring c =>
    dsimp only
    split <;> exact h.goto t _ rfl (.inl ⟨rfl, by rw [hp]; rfl⟩) .inl (.inr (.inr ⟨rfl, by rw [hp]; rfl⟩))
  | recheck o =>
    dsimp only
    split
    · obtain ⟨h1, h2, h3, h4⟩ := ret_goto x t o
      exact h.goto t .idle h1 (.inl ⟨h2, by rw [hp]; rfl⟩) (fun e => .inl (h3 ▸ e))
        (.inr (.inr ⟨h4, by rw [hp]; rfl⟩))
    · exact h.goto t _ rfl (.inl ⟨rfl, by rw [hp]; rfl⟩) .inl (.inr (.inr ⟨rfl, by rw [hp]; rfl⟩))
  | apply o =>
    dsimp only
    split
    · rename_i hf
      exact h.goto t _ rfl (.inr (.inl ⟨hf, rfl, rfl⟩)) .inl (.inr (.inr ⟨rfl, by rw [hp]; rfl⟩))
    · obtain ⟨h1, h2, h3, h4⟩ := ret_goto x t o
      exact h.goto t .idle h1 (.inl ⟨h2, by rw [hp]; rfl⟩) (fun e => .inl (h3 ▸ e))
        (.inr (.inr ⟨h4, by rw [hp]; rfl⟩))
  | query =>
    dsimp only
    split <;> exact h.goto t _ rfl (.inl ⟨rfl, by rw [hp]; rfl⟩) .inl (.inr (.inr ⟨rfl, by rw [hp]; rfl⟩))
  | queryAsk =>
    dsimp only
    split
    · rename_i hf
      exact h.goto t _ rfl (.inr (.inl ⟨hf, rfl, rfl⟩)) .inl (.inr (.inr ⟨rfl, by rw [hp]; rfl⟩))
    · exact h.goto t _ rfl (.inl ⟨rfl, by rw [hp]; rfl⟩) .inl (.inr (.inr ⟨rfl, by rw [hp]; rfl⟩))
  | queryHeld =>
    exact h.goto t _ rfl (.inr (.inr ⟨by rw [hp]; rfl, rfl, rfl⟩)) .inl (.inr (.inr ⟨rfl, by rw [hp]; rfl⟩))

theorem isIdle_eq {p : PC I E} (h : p.isIdle = true) : p = .idle := by
  cases p <;> first | rfl | cases h

theorem Locks.step {x : State S I E} (h : Locks x) (t : Nat) (a : Turn I E) : Locks (step D x t a) := by
  unfold Closing.step
  split
  · rename_i hi
    have hp := isIdle_eq hi
    cases a with
    | go => exact h
    | call n =>
      dsimp only
      split <;> exact h.goto t _ rfl (.inl ⟨rfl, by rw [hp]; rfl⟩) .inl (.inr (.inr ⟨rfl, by rw [hp]; rfl⟩))
    | ask => exact h.goto t _ rfl (.inl ⟨rfl, by rw [hp]; rfl⟩) .inl (.inr (.inr ⟨rfl, by rw [hp]; rfl⟩))
    | drop => exact h.goto t _ rfl (.inl ⟨rfl, by rw [hp]; rfl⟩) .inl (.inr (.inr ⟨rfl, by rw [hp]; rfl⟩))
  · exact h.advance t

/-! ## What a step does -/

structure Same (x y : State S I E) : Prop where
  queue : y.queue = x.queue
  rest : y.rest = x.rest
  trace : y.trace = x.trace
  dest : y.dest = x.dest
  calls : y.calls = x.calls

inductive Move (D : Dest S I E) (x : State S I E) (t : Nat) (y : State S I E) : Prop
  | quiet (p : PC I E) (pc : y.pc = (x.goto t p).pc) (same : Same x y) (cur : p.cur = (x.pc t).cur)
      (pend : p.pend = (x.pc t).pend) (sure : p.sure = none ∨ p.sure = (x.pc t).sure ∨ x.queue = [])
  | drop (p : PC I E) (c : Call I E) (pc : y.pc = (x.goto t p).pc) (same : Same x y) (cur : p.cur = some c)
      (cur₀ : (x.pc t).cur = some c) (pend : p.pend = none) (pend₀ : (x.pc t).pend = some c)
      (sure : p.sure = none) (why : (x.shut = true ∧ (x.pc t).unseen = some c) ∨
        (x.closed = true ∧ (x.pc t).unsealed = some c) ∨ D.isClosed x.dest = true)
  | drain (p : PC I E) (pc : y.pc = (x.goto t p).pc) (queue : y.queue = []) (rest : y.rest = x.queue)
      (trace : y.trace = x.trace) (dest : y.dest = x.dest) (calls : y.calls = x.calls)
      (cur : p.cur = (x.pc t).cur) (pend : p.pend = (x.pc t).pend) (sure : p.sure = none) (empty : x.rest = [])
  | skip (p : PC I E) (c r) (pc : y.pc = (x.goto t p).pc) (queue : y.queue = x.queue)
      (rest₀ : x.rest = c :: r) (rest : y.rest = r)
      (trace : y.trace = x.trace) (dest : y.dest = x.dest) (calls : y.calls = x.calls)
      (cur : p.cur = (x.pc t).cur) (pend : p.pend = (x.pc t).pend) (sure : p.sure = none)
      (closed : x.closed = true)
  | serve (p : PC I E) (c r) (pc : y.pc = (x.goto t p).pc) (queue : y.queue = x.queue)
      (rest₀ : x.rest = c :: r) (rest : y.rest = r)
      (trace : y.trace = x.trace ++ [.give c.id c.n]) (dest : y.dest = D.push x.dest c.n)
      (calls : y.calls = x.calls)
      (cur : p.cur = (x.pc t).cur) (pend : p.pend = (x.pc t).pend) (sure : p.sure = none)
  | give (p : PC I E) (c) (pc : y.pc = (x.goto t p).pc) (queue : y.queue = x.queue)
      (rest₀ : x.rest = []) (rest : y.rest = [])
      (trace : y.trace = x.trace ++ [.give c.id c.n]) (dest : y.dest = D.push x.dest c.n)
      (calls : y.calls = x.calls) (cur : p.cur = some c) (cur₀ : (x.pc t).cur = some c)
      (pend : p.pend = none) (pend₀ : (x.pc t).pend = some c) (sure : p.sure = none)
      (sure₀ : (x.pc t).sure = some c)
  | defer (p : PC I E) (c) (pc : y.pc = (x.goto t p).pc) (queue : y.queue = x.queue ++ [c])
      (rest : y.rest = x.rest) (trace : y.trace = x.trace) (dest : y.dest = x.dest)
      (calls : y.calls = x.calls) (cur : p.cur = some c) (cur₀ : (x.pc t).cur = some c)
      (pend : p.pend = none) (pend₀ : (x.pc t).pend = some c) (sure : p.sure = none)
      (at₀ : x.pc t = .deferring c)
  | ret (c : Call I E) (pc : y.pc = (x.goto t .idle).pc) (queue : y.queue = x.queue)
      (rest : y.rest = x.rest) (trace : y.trace = x.trace ++ [.ret c.id]) (dest : y.dest = x.dest)
      (calls : y.calls = x.calls) (cur₀ : (x.pc t).cur = some c) (pend₀ : (x.pc t).pend = none)
  | note (p : PC I E) (m : Mark I E) (pc : y.pc = (x.goto t p).pc) (queue : y.queue = x.queue)
      (rest : y.rest = x.rest) (trace : y.trace = x.trace ++ [m]) (dest : y.dest = x.dest)
      (calls : y.calls = x.calls) (cur : p.cur = none) (pend : p.pend = none) (sure : p.sure = none)
      (cur₀ : (x.pc t).cur = none) (mark : m = .ask t ∨ ∃ b, m = .answer t b)
  | start (p : PC I E) (c : Call I E) (pc : y.pc = (x.goto t p).pc) (queue : y.queue = x.queue)
      (rest : y.rest = x.rest) (trace : y.trace = x.trace ++ [.call c.id t c.n]) (dest : y.dest = x.dest)
      (calls : y.calls = x.calls + 1) (id : c.id = x.calls) (cur : p.cur = some c) (pend : p.pend = some c)
      (sure : p.sure = none) (idle : x.pc t = .idle)

theorem Move.retd {x : State S I E} {t : Nat} (l : Option Nat) (o : Option (Call I E)) (ho : (x.pc t).cur = o)
    (hp : (x.pc t).pend = none) : Move D x t ({ x with lock := l }.ret t o) := by
  cases o with
  | none => exact .quiet .idle rfl ⟨rfl, rfl, rfl, rfl, rfl⟩ ho.symm hp.symm (.inl rfl)
  | some c => exact .ret c rfl rfl rfl rfl rfl rfl ho hp

theorem Locks.move_advance {x : State S I E} (h : Locks x) (t : Nat) : Move D x t (Closing.advance D x t) := by
  unfold Closing.advance
  have hm := h.empty (t := t)
  have id : Move D x t x := .quiet (x.pc t) (by funext u; rw [pc_goto]; split <;> simp_all)
    ⟨rfl, rfl, rfl, rfl, rfl⟩ rfl rfl (.inr (.inl rfl))
  cases hp : x.pc t with
  | idle => exact id
  | panicked w => exact id
  | check c =>
    dsimp only
    split
    · rename_i hs
      exact .drop _ c rfl ⟨rfl, rfl, rfl, rfl, rfl⟩ rfl (by rw [hp]; rfl) rfl (by rw [hp]; rfl) rfl (.inl ⟨hs, by rw [hp]; rfl⟩)
    · exact .quiet _ rfl ⟨rfl, rfl, rfl, rfl, rfl⟩ (by rw [hp]; rfl) (by rw [hp]; rfl) (.inl rfl)
  | asking c =>
    dsimp only
    split <;> exact .quiet _ rfl ⟨rfl, rfl, rfl, rfl, rfl⟩ (by rw [hp]; rfl) (by rw [hp]; rfl) (.inl rfl)
  | askHeld c =>
    dsimp only
    split
    · rename_i hs
      exact .drop _ c rfl ⟨rfl, rfl, rfl, rfl, rfl⟩ rfl (by rw [hp]; rfl) rfl (by rw [hp]; rfl) rfl (.inr (.inr hs))
    · exact .quiet _ rfl ⟨rfl, rfl, rfl, rfl, rfl⟩ (by rw [hp]; rfl) (by rw [hp]; rfl) (.inl rfl)
  | observe c =>
    dsimp only
    cases c.n with
    | unsubscribe =>
      dsimp only
      split
      · rename_i hs
        exact .drop _ c rfl ⟨rfl, rfl, rfl, rfl, rfl⟩ rfl (by rw [hp]; rfl) rfl (by rw [hp]; rfl) rfl
          (.inl ⟨by simp [State.shut, hs], by rw [hp]; rfl⟩)
      · exact .quiet _ rfl ⟨rfl, rfl, rfl, rfl, rfl⟩ (by rw [hp]; rfl) (by rw [hp]; rfl) (.inl rfl)
    | _ => exact .quiet _ rfl ⟨rfl, rfl, rfl, rfl, rfl⟩ (by rw [hp]; rfl) (by rw [hp]; rfl) (.inl rfl)
  | attempt c =>
    dsimp only
    split <;> exact .quiet _ rfl ⟨rfl, rfl, rfl, rfl, rfl⟩ (by rw [hp]; rfl) (by rw [hp]; rfl) (.inl rfl)
  | top w k =>
    rw [hp] at hm
    dsimp only
    split
    · exact .quiet _ rfl ⟨rfl, rfl, rfl, rfl, rfl⟩ (by rw [hp]; rfl) (by rw [hp]; rfl) (.inl rfl)
    · split
      · rename_i hq
        have hq : x.queue = [] := by simpa using hq
        cases w with
        | own c =>
          dsimp only
          split <;> exact .quiet _ rfl ⟨rfl, rfl, rfl, rfl, rfl⟩ (by rw [hp]; rfl) (by rw [hp]; rfl)
            (.inr (.inr hq))
        | after o =>
          exact .quiet _ rfl ⟨rfl, rfl, rfl, rfl, rfl⟩ (by rw [hp]; rfl) (by rw [hp]; rfl) (.inl rfl)
      · exact .drain _ rfl rfl rfl rfl rfl rfl (by rw [hp]; rfl) (by rw [hp]; rfl) rfl (hm rfl rfl)
  | deliver w k =>
    dsimp only
    cases hr : x.rest with
    | nil => exact .quiet _ rfl ⟨rfl, rfl, rfl, rfl, rfl⟩ (by rw [hp]; rfl) (by rw [hp]; rfl) (.inl rfl)
    | cons c r =>
      dsimp only
      split
      · rename_i hc
        exact .skip _ c r rfl rfl hr rfl rfl rfl rfl (by rw [hp]; rfl) (by rw [hp]; rfl) rfl hc
      · exact .serve _ c r rfl rfl hr rfl rfl rfl rfl (by rw [hp]; rfl) (by rw [hp]; rfl) rfl
  | marking w k c =>
    exact .quiet _ rfl ⟨rfl, rfl, rfl, rfl, rfl⟩ (by rw [hp]; rfl) (by rw [hp]; rfl) (.inl rfl)
  | sealing c =>
    exact .quiet _ rfl ⟨rfl, rfl, rfl, rfl, rfl⟩ (by rw [hp]; rfl) (by rw [hp]; rfl)
      (.inr (.inl (by rw [hp]; rfl)))
  | give c =>
    rw [hp] at hm
    dsimp only
    split
    · rename_i hc
      simp only [Bool.and_eq_true] at hc
      exact .drop _ c rfl ⟨rfl, rfl, rfl, rfl, rfl⟩ rfl (by rw [hp]; rfl) rfl (by rw [hp]; rfl) rfl (.inr (.inr hc.2))
    · exact .give _ c rfl rfl (hm rfl rfl) (hm rfl rfl) rfl rfl rfl rfl (by rw [hp]; rfl) rfl
        (by rw [hp]; rfl) rfl (by rw [hp]; rfl)
  | unlock w =>
    cases w with
    | own c => exact .quiet _ rfl ⟨rfl, rfl, rfl, rfl, rfl⟩ (by rw [hp]; rfl) (by rw [hp]; rfl) (.inl rfl)
    | after o => exact .retd _ _ (by rw [hp]; rfl) (by rw [hp]; rfl)
  | deferring c =>
    dsimp only
    split
    · rename_i hc
      simp only [Bool.and_eq_true] at hc
      exact .drop _ c rfl ⟨rfl, rfl, rfl, rfl, rfl⟩ rfl (by rw [hp]; rfl) rfl (by rw [hp]; rfl) rfl
        (.inr (.inl ⟨hc.1, by rw [hp]; rfl⟩))
    · exact .defer _ c rfl rfl rfl rfl rfl rfl rfl (by rw [hp]; rfl) rfl (by rw [hp]; rfl) rfl
        hp
  | recheck o =>
    dsimp only
    split
    · exact .retd x.lock _ (by rw [hp]; rfl) (by rw [hp]; rfl)
    · exact .quiet _ rfl ⟨rfl, rfl, rfl, rfl, rfl⟩ (by rw [hp]; rfl) (by rw [hp]; rfl) (.inl rfl)
  | apply o =>
    dsimp only
    split
    · exact .quiet _ rfl ⟨rfl, rfl, rfl, rfl, rfl⟩ (by rw [hp]; rfl) (by rw [hp]; rfl) (.inl rfl)
    · exact .retd x.lock _ (by rw [hp]; rfl) (by rw [hp]; rfl)
  | query =>
    dsimp only
    split
    · exact .note _ _ rfl rfl rfl rfl rfl rfl rfl rfl rfl (by rw [hp]; rfl) (.inr ⟨_, rfl⟩)
    · exact .quiet _ rfl ⟨rfl, rfl, rfl, rfl, rfl⟩ (by rw [hp]; rfl) (by rw [hp]; rfl) (.inl rfl)
  | queryAsk =>
    dsimp only
    split
    · exact .quiet _ rfl ⟨rfl, rfl, rfl, rfl, rfl⟩ (by rw [hp]; rfl) (by rw [hp]; rfl) (.inl rfl)
    · exact .note _ _ rfl rfl rfl rfl rfl rfl rfl rfl rfl (by rw [hp]; rfl) (.inr ⟨_, rfl⟩)
  | queryHeld => exact .note _ _ rfl rfl rfl rfl rfl rfl rfl rfl rfl (by rw [hp]; rfl) (.inr ⟨_, rfl⟩)

theorem Locks.move {x : State S I E} (h : Locks x) (t : Nat) (a : Turn I E) : Move D x t (Closing.step D x t a) := by
  unfold Closing.step
  split
  · rename_i hi
    have hp := isIdle_eq hi
    cases a with
    | go => exact .quiet (x.pc t) (by funext u; rw [pc_goto]; split <;> simp_all)
              ⟨rfl, rfl, rfl, rfl, rfl⟩ rfl rfl (.inr (.inl rfl))
    | call n =>
      dsimp only
      split <;> exact .start _ ⟨x.calls, n⟩ rfl rfl rfl rfl rfl rfl rfl rfl rfl rfl hp
    | ask => exact .note _ _ rfl rfl rfl rfl rfl rfl rfl rfl rfl (by rw [hp]; rfl) (.inl rfl)
    | drop => exact .quiet _ rfl ⟨rfl, rfl, rfl, rfl, rfl⟩ (by rw [hp]; rfl) (by rw [hp]; rfl) (.inl rfl)
  · exact h.move_advance t

/-! ## Calls and their order -/

structure Ids (D : Dest S I E) (s : S) (x : State S I E) : Prop where
  dest : x.dest = D.after s x.trace
  ids : ∀ k t n, .call k t n ∈ x.trace → k < x.calls
  one : ∀ k t n t' n', .call k t n ∈ x.trace → .call k t' n' ∈ x.trace → t = t' ∧ n = n'
  rets : ∀ k, .ret k ∈ x.trace → ∃ t n, .call k t n ∈ x.trace
  cur : ∀ t c, (x.pc t).cur = some c → .call c.id t c.n ∈ x.trace ∧ .ret c.id ∉ x.trace
  line : ∀ c ∈ x.line, ∃ t, .call c.id t c.n ∈ x.trace
  nodup : (x.line.map Call.id).Nodup
  pend : ∀ t c, (x.pc t).pend = some c → c.id ∉ x.line.map Call.id
  order : x.line.Pairwise fun a b => ¬ Before x.trace b.id a.id
  over : ∀ t c, (x.pc t).sure = some c → ∀ j ∈ x.queue, ¬ Before x.trace j.id c.id

theorem cur_of_pend {p : PC I E} {c : Call I E} (h : p.pend = some c) : p.cur = some c := by
  have : ∀ w : Why I E, w.pend = some c → w.cur = some c := by
    intro w h
    cases w with
    | own d => exact h
    | after o => cases h
  cases p <;> first | exact h | exact this _ h | cases h

theorem pend_of_sure {p : PC I E} {c : Call I E} (h : p.sure = some c) : p.pend = some c := by
  cases p <;> first | exact h | cases h

theorem Ids.init (s : S) : Ids D s (init s : State S I E) where
  dest := rfl
  ids _ _ _ h := by cases h
  one _ _ _ _ _ h := by cases h
  rets _ h := by cases h
  cur _ _ h := by cases h
  line _ h := by cases h
  nodup := .nil
  pend _ _ h := by cases h
  order := .nil
  over _ _ h := by cases h

/-- A property of all threads, when one moves. -/
theorem forall_goto {x y : State S I E} {t : Nat} {p : PC I E} (hpc : y.pc = (x.goto t p).pc)
    (f : PC I E → Option (Call I E)) {R : Nat → Call I E → Prop} (ht : ∀ c, f p = some c → R t c)
    (hu : ∀ u, u ≠ t → ∀ c, f (x.pc u) = some c → R u c) : ∀ u c, f (y.pc u) = some c → R u c := by
  intro u
  rw [hpc, pc_goto]
  by_cases e : u = t
  · subst e; rw [if_pos rfl]; exact ht
  · rw [if_neg e]; exact hu u e

/-- Two calls in progress are different. -/
theorem Ids.cur_ne {s : S} {x : State S I E} (h : Ids D s x) {t u : Nat} {c d : Call I E}
    (hc : (x.pc t).cur = some c) (hd : (x.pc u).cur = some d) (hu : u ≠ t) : d.id ≠ c.id := by
  intro e
  have h1 := (h.cur t c hc).1
  have h2 := (h.cur u d hd).1
  rw [e] at h2
  exact hu (h.one _ _ _ _ _ h2 h1).1

theorem Before.backs {tr b : List (Mark I E)} {j k t : Nat} {n}
    (h : Before (tr ++ b) j k) (hk : .call k t n ∈ tr) : Before tr j k := by
  obtain ⟨a, a', e, h1, h2⟩ := h
  rcases List.append_eq_append_iff.1 e with ⟨as, ha, -⟩ | ⟨bs, ha, -⟩
  · rw [ha] at h2
    exact absurd (List.mem_append_left _ hk) (h2 t n)
  · exact ⟨a, bs, ha, h1, h2⟩

/-- Nothing is called, and nothing returns. -/
theorem Ids.inside {s : S} {x y : State S I E} {t : Nat} {p : PC I E} (b : List (Mark I E)) (h : Ids D s x)
    (pc : y.pc = (x.goto t p).pc) (trace : y.trace = x.trace ++ b)
    (hb : ∀ m ∈ b, (∀ k t n, m ≠ .call k t n) ∧ ∀ k, m ≠ .ret k)
    (calls : y.calls = x.calls) (dest : y.dest = D.after x.dest b)
    (cur : p.cur = (x.pc t).cur)
    (mem : ∀ d ∈ y.line, d ∈ x.line ∨ (x.pc t).pend = some d)
    (nodup : (y.line.map Call.id).Nodup)
    (pend : ∀ c, p.pend = some c → (x.pc t).pend = some c ∧ c.id ∉ y.line.map Call.id)
    (order : y.line.Pairwise fun a b => ¬ Before x.trace b.id a.id)
    (queue : ∀ j ∈ y.queue, j ∈ x.queue ∨ (x.pc t).cur = some j)
    (sure : ∀ c, p.sure = some c → ∀ j ∈ y.queue, ¬ Before x.trace j.id c.id) : Ids D s y := by
  have calls' : ∀ {k t n}, .call k t n ∈ y.trace ↔ .call k t n ∈ x.trace := by
    intro k t n
    rw [trace, List.mem_append]
    exact ⟨fun e => e.elim (fun e => e) (fun e => absurd rfl ((hb _ e).1 k t n)), .inl⟩
  have rets' : ∀ {k}, .ret k ∈ y.trace ↔ .ret k ∈ x.trace := by
    intro k
    rw [trace, List.mem_append]
    exact ⟨fun e => e.elim (fun e => e) (fun e => absurd rfl ((hb _ e).2 k)), .inl⟩
  have line : ∀ c ∈ y.line, ∃ t, .call c.id t c.n ∈ x.trace := by
    intro c hc
    rcases mem c hc with hc | hc
    · exact h.line c hc
    · exact ⟨t, (h.cur t c (cur_of_pend hc)).1⟩
  have hcur : ∀ u c, (y.pc u).cur = some c → .call c.id u c.n ∈ x.trace ∧ .ret c.id ∉ x.trace :=
    forall_goto pc PC.cur (fun c hc => h.cur t c (cur ▸ hc)) (fun u _ c hc => h.cur u c hc)
  refine ⟨by rw [dest, trace, after_append, h.dest],
    fun k t n hk => by rw [calls]; exact h.ids k t n (calls'.1 hk),
    fun k t n t' n' hk hk' => h.one k t n t' n' (calls'.1 hk) (calls'.1 hk'),
    fun k hk => let ⟨t, n, e⟩ := h.rets k (rets'.1 hk); ⟨t, n, calls'.2 e⟩,
    fun u c hc => ⟨calls'.2 (hcur u c hc).1, fun e => (hcur u c hc).2 (rets'.1 e)⟩,
    fun d hd => let ⟨t, e⟩ := line d hd; ⟨t, calls'.2 e⟩, nodup, ?_, ?_, ?_⟩
  · refine forall_goto pc PC.pend (fun c hc => (pend c hc).2) (fun u hu c hc hin => ?_)
    obtain ⟨d, hd, e⟩ := List.mem_map.1 hin
    rcases mem d hd with hd | hd
    · exact h.pend u c hc (e ▸ List.mem_map_of_mem hd)
    · exact h.cur_ne (cur_of_pend hd) (cur_of_pend hc) hu e.symm
  · rw [trace]
    refine order.imp_of_mem fun {a b'} ha _ hn hb => hn ?_
    obtain ⟨t, e⟩ := line a ha
    exact hb.backs e
  · rw [trace]
    intro u c hc j hj hbf
    have hbf := hbf.backs (hcur u c (cur_of_pend (pend_of_sure hc))).1
    refine forall_goto pc PC.sure (R := fun u c => ¬ Before x.trace j.id c.id) (fun c hc => sure c hc j hj)
      (fun u _ c hc hbf => ?_) u c hc hbf
    rcases queue j hj with hj | hj
    · exact h.over u c hc j hj hbf
    · exact (h.cur t j hj).2 hbf.ret

theorem Ids.move {s : S} {x y : State S I E} {t : Nat} (h : Ids D s x) (m : Move D x t y) : Ids D s y := by
  cases m with
  | quiet p pc same cur pend sure =>
    obtain ⟨e1, e2, e3, e4, e5⟩ := same
    have el : y.line = x.line := by rw [State.line, State.line, e1, e2, e3]
    refine h.inside [] pc (by rw [e3]; simp) (by simp) e5 e4 cur (fun d hd => .inl (el ▸ hd)) (el ▸ h.nodup)
      (fun c hc => ⟨pend ▸ hc, by rw [el]; exact h.pend t c (pend ▸ hc)⟩) (by rw [el]; exact h.order)
      (fun j hj => .inl (e1 ▸ hj)) (fun c hc j hj => ?_)
    rw [e1] at hj
    rcases sure with e | e | e
    · rw [e] at hc; cases hc
    · exact h.over t c (e ▸ hc) j hj
    · rw [e] at hj; cases hj
  | drop p c pc same cur cur₀ pend pend₀ sure why =>
    obtain ⟨e1, e2, e3, e4, e5⟩ := same
    have el : y.line = x.line := by rw [State.line, State.line, e1, e2, e3]
    exact h.inside [] pc (by rw [e3]; simp) (by simp) e5 e4 (cur.trans cur₀.symm) (fun d hd => .inl (el ▸ hd))
      (el ▸ h.nodup) (fun c hc => by rw [pend] at hc; cases hc) (by rw [el]; exact h.order)
      (fun j hj => .inl (e1 ▸ hj)) (fun c hc => by rw [sure] at hc; cases hc)
  | drain p pc queue rest trace dest calls cur pend sure empty =>
    have el : y.line = x.line := by rw [State.line, State.line, queue, rest, trace, empty]; simp
    exact h.inside [] pc (by rw [trace]; simp) (by simp) calls dest cur (fun d hd => .inl (el ▸ hd)) (el ▸ h.nodup)
      (fun c hc => ⟨pend ▸ hc, by rw [el]; exact h.pend t c (pend ▸ hc)⟩) (by rw [el]; exact h.order)
      (fun j hj => by rw [queue] at hj; cases hj) (fun c hc => by rw [sure] at hc; cases hc)
  | skip p c r pc queue rest₀ rest trace dest calls cur pend sure closed =>
    have el : x.line = gives x.trace ++ c :: (r ++ x.queue) := by rw [State.line, rest₀]; rfl
    have el' : y.line = gives x.trace ++ (r ++ x.queue) := by rw [State.line, rest, queue, trace]
    have sub : y.line.Sublist x.line := by
      rw [el, el']
      exact (List.Sublist.refl _).append (List.sublist_cons_self _ _)
    exact h.inside [] pc (by rw [trace]; simp) (by simp) calls dest cur (fun d hd => .inl (sub.subset hd))
      (h.nodup.sublist (sub.map _))
      (fun c hc => ⟨pend ▸ hc, fun hin => h.pend t c (pend ▸ hc) ((sub.map _).subset hin)⟩)
      (h.order.sublist sub) (fun j hj => .inl (queue ▸ hj)) (fun c hc => by rw [sure] at hc; cases hc)
  | serve p c r pc queue rest₀ rest trace dest calls cur pend sure =>
    have el : y.line = x.line := by
      rw [State.line, State.line, rest, queue, trace, rest₀]
      simp
    exact h.inside [.give c.id c.n] pc trace (by simp) calls dest cur (fun d hd => .inl (el ▸ hd)) (el ▸ h.nodup)
      (fun c hc => ⟨pend ▸ hc, by rw [el]; exact h.pend t c (pend ▸ hc)⟩) (by rw [el]; exact h.order)
      (fun j hj => .inl (queue ▸ hj)) (fun c hc => by rw [sure] at hc; cases hc)
  | give p c pc queue rest₀ rest trace dest calls cur cur₀ pend pend₀ sure sure₀ =>
    have el : x.line = gives x.trace ++ x.queue := by rw [State.line, rest₀]; rfl
    have el' : y.line = gives x.trace ++ c :: x.queue := by rw [State.line, rest, queue, trace]; simp
    obtain ⟨c1, c2⟩ := h.cur t c cur₀
    have fresh := h.pend t c pend₀
    have ho := h.order
    have hn := h.nodup
    rw [el] at fresh ho hn
    refine h.inside [.give c.id c.n] pc trace (by simp) calls dest (cur.trans cur₀.symm) (fun d hd => ?_) ?_
      (fun c hc => by rw [pend] at hc; cases hc) ?_
      (fun j hj => .inl (queue ▸ hj)) (fun c hc => by rw [sure] at hc; cases hc)
    · rw [el'] at hd
      rw [el]
      simp only [List.mem_append, List.mem_cons] at hd ⊢
      rcases hd with hd | rfl | hd
      · exact .inl (.inl hd)
      · exact .inr pend₀
      · exact .inl (.inr hd)
    · rw [el']
      simp only [List.map_append, List.map_cons, List.nodup_append, List.nodup_cons, List.mem_append,
        List.mem_map, not_or] at fresh hn ⊢
      refine ⟨hn.1, ⟨fresh.2, hn.2.1⟩, fun a ha b hb e => ?_⟩
      rcases List.mem_cons.1 hb with hb | hb
      · exact fresh.1 (by rw [← hb, ← e]; exact ha)
      · exact hn.2.2 a ha b (List.mem_map.1 hb) e
    · rw [el']
      rw [List.pairwise_append] at ho ⊢
      refine ⟨ho.1, List.pairwise_cons.2 ⟨h.over t c sure₀, ho.2.1⟩, fun a ha b hb => ?_⟩
      rcases List.mem_cons.1 hb with rfl | hb
      · exact fun e => c2 e.ret
      · exact ho.2.2 a ha b hb
  | defer p c pc queue rest trace dest calls cur cur₀ pend pend₀ sure at₀ =>
    have el : y.line = x.line ++ [c] := by
      rw [State.line, State.line, rest, queue, trace]; simp
    obtain ⟨c1, c2⟩ := h.cur t c cur₀
    have fresh := h.pend t c pend₀
    refine h.inside [] pc (by rw [trace]; simp) (by simp) calls dest (cur.trans cur₀.symm) (fun d hd => ?_) ?_
      (fun c hc => by rw [pend] at hc; cases hc) ?_ (fun j hj => ?_) (fun c hc => by rw [sure] at hc; cases hc)
    · rw [el, List.mem_append, List.mem_singleton] at hd
      rcases hd with hd | rfl
      · exact .inl hd
      · exact .inr pend₀
    · rw [el, List.map_append, List.nodup_append]
      refine ⟨h.nodup, by simp, fun a ha b hb e => ?_⟩
      rw [List.map_singleton, List.mem_singleton] at hb
      exact fresh (by rw [← hb, ← e]; exact ha)
    · rw [el, List.pairwise_append]
      refine ⟨h.order, by simp, fun a _ b hb => ?_⟩
      rw [List.mem_singleton] at hb
      subst hb
      exact fun e => c2 e.ret
    · rw [queue, List.mem_append, List.mem_singleton] at hj
      rcases hj with hj | rfl
      · exact .inl hj
      · exact .inr cur₀
  | note p m pc queue rest trace dest calls cur pend sure cur₀ mark =>
    have hg : gives [m] = [] := by rcases mark with rfl | ⟨b, rfl⟩ <;> rfl
    have el : y.line = x.line := by rw [State.line, State.line, rest, queue, trace, gives_append, hg, List.append_nil]
    refine h.inside [m] pc trace (fun m' hm => ?_) calls ?_ (cur.trans cur₀.symm)
      (fun d hd => .inl (el ▸ hd)) (el ▸ h.nodup) (fun c hc => by rw [pend] at hc; cases hc)
      (by rw [el]; exact h.order) (fun j hj => .inl (queue ▸ hj)) (fun c hc => by rw [sure] at hc; cases hc)
    · rw [List.mem_singleton] at hm
      subst hm
      rcases mark with rfl | ⟨b, rfl⟩ <;> simp
    · rw [dest, Dest.after, hg]; rfl
  | ret c pc queue rest trace dest calls cur₀ pend₀ =>
    have el : y.line = x.line := by rw [State.line, State.line, rest, queue, trace]; simp
    have calls' : ∀ {k t n}, .call k t n ∈ y.trace ↔ .call k t n ∈ x.trace := by
      intro k t n; rw [trace]; simp
    refine ⟨by rw [dest, trace, after_append, h.dest]; rfl,
      fun k t n hk => by rw [calls]; exact h.ids k t n (calls'.1 hk),
      fun k t n t' n' hk hk' => h.one k t n t' n' (calls'.1 hk) (calls'.1 hk'), fun k hk => ?_, ?_,
      fun d hd => let ⟨t, e⟩ := h.line d (el ▸ hd); ⟨t, calls'.2 e⟩, el ▸ h.nodup, ?_, ?_, ?_⟩
    · rw [trace, List.mem_append, List.mem_singleton] at hk
      rcases hk with hk | hk
      · obtain ⟨t, n, e⟩ := h.rets k hk
        exact ⟨t, n, calls'.2 e⟩
      · cases hk
        exact ⟨t, _, calls'.2 (h.cur t c cur₀).1⟩
    · refine forall_goto pc PC.cur (fun c hc => by cases hc) (fun u hu d hd => ?_)
      obtain ⟨h1, h2⟩ := h.cur u d hd
      refine ⟨calls'.2 h1, fun e => ?_⟩
      rw [trace, List.mem_append, List.mem_singleton] at e
      rcases e with e | e
      · exact h2 e
      · injection e with e
        exact h.cur_ne cur₀ hd hu e
    · rw [el]
      exact forall_goto pc PC.pend (fun c hc => by cases hc) (fun u _ c hc => h.pend u c hc)
    · rw [el, trace]
      refine h.order.imp_of_mem fun {a b'} ha _ hn hb => hn ?_
      obtain ⟨t, e⟩ := h.line a ha
      exact hb.back e
    · rw [queue, trace]
      refine forall_goto pc PC.sure (fun c hc => by cases hc) (fun u _ d hd j hj hb => ?_)
      exact h.over u d hd j hj (hb.back (h.cur u d (cur_of_pend (pend_of_sure hd))).1)
  | start p c pc queue rest trace dest calls id cur pend sure idle =>
    have el : y.line = x.line := by rw [State.line, State.line, rest, queue, trace]; simp
    have fresh : ∀ {t n}, .call c.id t n ∉ x.trace := fun {t n} e => by
      have := h.ids _ t n e
      omega
    have calls' : ∀ {k u n}, .call k u n ∈ y.trace ↔ .call k u n ∈ x.trace ∨ (k = c.id ∧ u = t ∧ n = c.n) := by
      intro k u n; rw [trace]; simp
    have rets' : ∀ {k}, .ret k ∈ y.trace ↔ .ret k ∈ x.trace := by
      intro k; rw [trace]; simp
    have noret : .ret c.id ∉ x.trace := fun e => by
      obtain ⟨t, n, e⟩ := h.rets _ e
      exact fresh e
    refine ⟨by rw [dest, trace, after_append, h.dest]; rfl, fun k t n hk => ?_, fun k t n t' n' hk hk' => ?_,
      fun k hk => let ⟨t, n, e⟩ := h.rets k (rets'.1 hk); ⟨t, n, calls'.2 (.inl e)⟩, ?_,
      fun d hd => let ⟨t, e⟩ := h.line d (el ▸ hd); ⟨t, calls'.2 (.inl e)⟩, el ▸ h.nodup, ?_, ?_, ?_⟩
    · rw [calls]
      rcases calls'.1 hk with hk | ⟨hk, -, -⟩
      · exact Nat.lt_succ_of_lt (h.ids k t n hk)
      · omega
    · rcases calls'.1 hk with hk | ⟨rfl, rfl, rfl⟩ <;> rcases calls'.1 hk' with hk' | ⟨e1, e2, e3⟩
      · exact h.one k t n t' n' hk hk'
      · rw [e1] at hk; exact absurd hk fresh
      · exact absurd hk' fresh
      · exact ⟨e2.symm, e3.symm⟩
    · refine forall_goto pc PC.cur (fun d hd => ?_) (fun u hu d hd => ?_)
      · rw [cur] at hd
        cases hd
        exact ⟨calls'.2 (.inr ⟨rfl, rfl, rfl⟩), fun e => noret (rets'.1 e)⟩
      · obtain ⟨h1, h2⟩ := h.cur u d hd
        exact ⟨calls'.2 (.inl h1), fun e => h2 (rets'.1 e)⟩
    · rw [el]
      refine forall_goto pc PC.pend (fun d hd hin => ?_) (fun u _ c hc => h.pend u c hc)
      rw [pend] at hd
      cases hd
      obtain ⟨d, hd, e⟩ := List.mem_map.1 hin
      obtain ⟨t, hd⟩ := h.line d hd
      rw [e] at hd
      exact fresh hd
    · rw [el, trace]
      refine h.order.imp_of_mem fun {a b'} ha _ hn hb => hn ?_
      obtain ⟨t, e⟩ := h.line a ha
      exact hb.back e
    · rw [queue, trace]
      refine forall_goto pc PC.sure (fun d hd => by rw [sure] at hd; cases hd) (fun u _ d hd j hj hb => ?_)
      exact h.over u d hd j hj (hb.back (h.cur u d (cur_of_pend (pend_of_sure hd))).1)

/-! ## Closing -/

/-- What a step of thread `t` does about closing. -/
structure Fine (D : Dest S I E) (x : State S I E) (t : Nat) (y : State S I E) : Prop where
  shut_mono : x.shut = true → y.shut = true
  closed_mono : x.closed = true → y.closed = true
  shut : y.shut = true → x.shut = true ∨
    (∃ c, (y.pc t).armed = some c ∧ (x.pc t).cur = some c ∧ c.n.isClosing = true) ∨
    (∃ c, (x.pc t).hand = some c ∧ c.n.isClosing = true) ∨ ∃ c, x.pc t = .sealing c ∧ y.pc t = .give c
  closed : y.closed = true → x.closed = true ∨
    (∃ c, (x.pc t).hand = some c ∧ c.n.isClosing = true ∧ y.dest = x.dest ∧ y.rest = x.rest ∧
      y.queue = x.queue ∧ y.trace = x.trace) ∨
    ∃ c, x.pc t = .sealing c ∧ y.pc t = .give c ∧ y.rest = x.rest ∧ y.queue = x.queue ∧ y.trace = x.trace
  noted : ∀ c, (y.pc t).noted = some c → (x.pc t).noted = some c ∨ y.shut = true ∨
    D.isClosed x.dest = true ∨ c.n.isClosing = false
  passed : ∀ c, (y.pc t).passed = some c → (x.pc t).passed = some c ∨ isUnsubscribe c.n = true ∨
    (x.shut = false ∧ (x.pc t).cur = some c)
  armed : ∀ c, (x.pc t).armed = some c → (y.pc t).armed = some c ∨ c ∈ y.queue ∨
    y.dest = D.push x.dest c.n ∨ (x.closed = true ∧ x.pc t = .deferring c ∧ y.dest = x.dest) ∨ D.isClosed x.dest = true
  hand : ∀ c, (y.pc t).hand = some c → (∃ r, x.rest = c :: r) ∧
    (x.closed = true ∨ (y.dest = D.push x.dest c.n ∧ c ∈ gives y.trace)) ∧ (x.pc t).mid = true
  sealing : ∀ c, y.pc t = .sealing c → isUnsubscribe c.n = true
  unseen : ∀ c, (y.pc t).unseen = some c → (x.pc t).unseen = some c ∨ c.id = x.calls
  unsealed : ∀ c, (y.pc t).unsealed = some c → (x.pc t).unsealed = some c ∨ c.id = x.calls
  give : ∀ c, x.pc t = .give c → y.dest = D.push x.dest c.n ∨ D.isClosed x.dest = true

local macro "fine" : tactic => `(tactic| (constructor <;> simp_all [State.goto, State.shut, State.note, State.given, State.ret, PC.armed, PC.cur, PC.hand,
      PC.noted, PC.passed, PC.unseen, PC.unsealed, PC.mid, Why.pend, Why.cur]))

theorem fine_advance (x : State S I E) (t : Nat) : Fine D x t (advance D x t) := by
  unfold advance
  cases hp : x.pc t with
  | idle => fine
  | panicked w => cases w <;> fine
  | check c => dsimp only; split <;> fine
  | asking c => dsimp only; split <;> fine
  | askHeld c => dsimp only; split <;> fine
  | observe c =>
    dsimp only
    cases hc : c.n with
    | next v => fine; exact .inr (.inr rfl)
    | error e => fine; exact .inr rfl
    | complete => fine; exact .inr rfl
    | unsubscribe =>
      dsimp only
      split
      · fine
      · fine; exact .inr rfl
  | attempt c => dsimp only; split <;> fine
  | top w k =>
    dsimp only
    split
    · cases w <;> fine
    · split
      · cases w with
        | own c => dsimp only; split <;> fine
        | after o => fine
      · cases w <;> fine
  | deliver w k =>
    dsimp only
    cases hr : x.rest with
    | nil => cases w <;> fine
    | cons c r => dsimp only; split <;> cases w <;> fine
  | marking w k c => cases w <;> fine <;> grind
  | sealing c => fine
  | give c => dsimp only; split <;> fine
  | unlock w =>
    cases w with
    | own c => fine
    | after o => cases o <;> fine
  | deferring c => dsimp only; split <;> fine
  | recheck o => dsimp only; split <;> cases o <;> fine
  | apply o => dsimp only; split <;> cases o <;> fine
  | query => dsimp only; split <;> fine
  | queryAsk => dsimp only; split <;> fine
  | queryHeld => fine

theorem fine_step (x : State S I E) (t : Nat) (a : Turn I E) : Fine D x t (step D x t a) := by
  unfold step
  split
  · rename_i hi
    have hp := isIdle_eq hi
    cases a with
    | go => fine
    | call n => dsimp only; split <;> fine
    | ask => fine
    | drop => fine
  · exact fine_advance x t

end Rx.Closing
