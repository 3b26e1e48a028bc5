import Verif.Lemmas.SubjectThreads

/-!
# Several threads that share a subject: calls and their order
-/

namespace Rx.Crowd

open Closing (Dest append_eq_snoc)

variable {S I E : Type} {D : Dest S I E} {debug : Bool}

/-- Only `subscribe` is where only `subscribe` comes. -/
def Join (x : State S I E) : Prop := ∀ t c, (x.pc t).joining = some c → c.op = .subscribe

/-- Only `unsubscribe` of a subscription looks at the subscriber. -/
def Look (x : State S I E) : Prop := ∀ t c, x.pc t = .look c → ∃ k, c.op = .cancel k

structure Same (D : Dest S I E) (x y : State S I E) : Prop where
  queue : y.queue = x.queue
  rest : y.rest = x.rest
  trace : y.trace = x.trace
  dests : y.dests = x.dests
  calls : y.calls = x.calls
  done : y.done = x.done
  members : y.members = x.members ∨ y.members = x.members.filter fun k => !D.isClosed (x.dests k)

/-- What a step of thread `t` can do. -/
inductive Move (D : Dest S I E) (x : State S I E) (t : Nat) (y : State S I E) : Prop
  | quiet (p : PC I E) (pc : y.pc = (x.goto t p).pc) (same : Same D x y) (cur : p.cur = (x.pc t).cur)
      (pend : p.pend = (x.pc t).pend) (sure : p.sure = none ∨ p.sure = (x.pc t).sure ∨ x.queue = [])
  | drop (p : PC I E) (c : Call I E) (pc : y.pc = (x.goto t p).pc) (same : Same D x y) (cur : p.cur = some c)
      (cur₀ : (x.pc t).cur = some c) (pend : p.pend = none) (pend₀ : (x.pc t).pend = some c)
      (sure : p.sure = none) (why : (x.shut = true ∧ x.pc t = .check c ∧ c.op.isSubscribe = false) ∨
        (x.closed = true ∧ x.pc t = .deferring c ∧ c.op.isSubscribe = false) ∨
        (x.unsubscribed = true ∧ c.op = .unsubscribe ∧ x.pc t = .observe c) ∨
        ∃ k, c.op = .cancel k ∧ D.isClosed (x.dests k) = true)
  | speak (p : PC I E) (c : Call I E) (n : SubscriberNotification I E) (pc : y.pc = (x.goto t p).pc)
      (queue : y.queue = x.queue) (rest : y.rest = x.rest) (trace : y.trace = (told D c.id n [c.id] x).trace)
      (dests : y.dests = (told D c.id n [c.id] x).dests) (calls : y.calls = x.calls) (done : y.done = x.done)
      (members : y.members = x.members) (cur : p.cur = some c) (cur₀ : (x.pc t).cur = some c)
      (pend : p.pend = some c ∨ p.pend = none) (pend₀ : (x.pc t).pend = some c) (sure : p.sure = none)
      (sub : c.op = .subscribe) (closing : n.isClosing = true)
      (what : (n = .unsubscribe ∧ (x.closed = true ∨ x.pc t = .refuse c)) ∨ (∃ e, n = .error e ∧ x.error = some e) ∨ (n = .complete ∧ x.completed = true))
  | drain (p : PC I E) (pc : y.pc = (x.goto t p).pc) (queue : y.queue = []) (rest : y.rest = x.queue)
      (trace : y.trace = x.trace) (dests : y.dests = x.dests) (calls : y.calls = x.calls) (done : y.done = x.done)
      (members : y.members = x.members)
      (cur : p.cur = (x.pc t).cur) (pend : p.pend = (x.pc t).pend) (sure : p.sure = none) (empty : x.rest = [])
  | serve (p : PC I E) (c r b) (pc : y.pc = (x.goto t p).pc) (queue : y.queue = x.queue)
      (rest₀ : x.rest = c :: r) (rest : y.rest = r) (handled : Handled D false x c y b)
      (calls : y.calls = x.calls) (done : y.done = x.done ++ [c])
      (cur : p.cur = (x.pc t).cur) (pend : p.pend = (x.pc t).pend) (sure : p.sure = none)
      (mid : (x.pc t).mid = true) (hand : p.hand = some c)
  | give (p : PC I E) (c b) (pc : y.pc = (x.goto t p).pc) (queue : y.queue = x.queue)
      (rest₀ : x.rest = []) (rest : y.rest = []) (handled : Handled D true x c y b)
      (calls : y.calls = x.calls) (done : y.done = x.done ++ [c]) (cur : p.cur = some c) (cur₀ : (x.pc t).cur = some c)
      (pend : p.pend = none) (pend₀ : (x.pc t).pend = some c) (sure : p.sure = none)
      (at₀ : x.pc t = .give c)
  | defer (p : PC I E) (c) (pc : y.pc = (x.goto t p).pc) (queue : y.queue = x.queue ++ [c])
      (rest : y.rest = x.rest) (trace : y.trace = x.trace) (dests : y.dests = x.dests)
      (calls : y.calls = x.calls) (done : y.done = x.done) (members : y.members = x.members)
      (cur : p.cur = some c) (cur₀ : (x.pc t).cur = some c)
      (pend : p.pend = none) (pend₀ : (x.pc t).pend = some c) (sure : p.sure = none)
      (at₀ : x.pc t = .deferring c) (isOpen : x.closed = false ∨ (c.op = .unsubscribe ∧ x.unsubscribed = false))
  | ret (c : Call I E) (pc : y.pc = (x.goto t .idle).pc) (queue : y.queue = x.queue)
      (rest : y.rest = x.rest) (trace : y.trace = x.trace ++ [.ret c.id]) (dests : y.dests = x.dests)
      (calls : y.calls = x.calls) (done : y.done = x.done) (members : y.members = x.members)
      (cur₀ : (x.pc t).cur = some c) (pend₀ : (x.pc t).pend = none)
  | note (bit : Bool) (pc : y.pc = x.pc) (queue : y.queue = x.queue)
      (rest : y.rest = x.rest) (trace : y.trace = x.trace ++ [.answer t bit]) (dests : y.dests = x.dests)
      (calls : y.calls = x.calls) (done : y.done = x.done) (members : y.members = x.members)
      (answer : bit = x.shut)
  | start (p : PC I E) (c : Call I E) (pc : y.pc = (x.goto t p).pc) (queue : y.queue = x.queue)
      (rest : y.rest = x.rest) (trace : y.trace = x.trace ++ [.call c.id t c.op]) (dests : y.dests = x.dests)
      (calls : y.calls = x.calls + 1) (done : y.done = x.done) (members : y.members = x.members)
      (id : c.id = x.calls) (cur : p.cur = some c) (pend : p.pend = some c)
      (sure : p.sure = none) (idle : x.pc t = .idle) (void : c.op.void x.handles = false) (entry : p = entry c)

theorem Move.retd {x : State S I E} {t : Nat} (l : Option Nat) (o : Option (Call I E)) (ho : (x.pc t).cur = o)
    (hp : (x.pc t).pend = none) : Move D x t ({ x with lock := l }.ret t o) := by
  cases o with
  | none => exact .quiet .idle rfl ⟨rfl, rfl, rfl, rfl, rfl, rfl, .inl rfl⟩ ho.symm hp.symm (.inl rfl)
  | some c => exact .ret c rfl rfl rfl rfl rfl rfl rfl rfl ho hp

theorem isSubscribe_iff {op : Op I E} : op.isSubscribe = true ↔ op = .subscribe := by
  cases op <;> simp [Op.isSubscribe]

theorem isUnsubscribe_iff {op : Op I E} : op.isUnsubscribe = true ↔ op = .unsubscribe := by
  cases op <;> simp [Op.isUnsubscribe]

theorem Handled.congr {own : Bool} {x x' y y' : State S I E} {c b} (h : Handled D own x c y b) (e1 : x'.trace = x.trace)
    (e2 : x'.dests = x.dests) (e3 : x'.members = x.members) (e4 : x'.closed = x.closed) (e5 : y'.trace = y.trace)
    (e6 : y'.dests = y.dests) (e7 : y'.members = y.members) : Handled D own x' c y' b := by
  obtain ⟨h1, h2, h3, h4, h5, h6, h7, h8, h9, h10, h11, h12, h13, h14, h15⟩ := h
  constructor <;> (try simp only [e1, e2, e3, e4, e5, e6, e7]) <;> assumption

local macro "quiet" : tactic => `(tactic| exact .quiet _ rfl ⟨rfl, rfl, rfl, rfl, rfl, rfl, .inl rfl⟩ (by simp_all [PC.cur, Why.cur])
  (by simp_all [PC.pend, Why.pend, Why.later]) (by simp_all [PC.sure]))

theorem speak_of {x : State S I E} {t : Nat} {c : Call I E} {n : SubscriberNotification I E} {p : PC I E} (cur : p.cur = some c)
    (pend : p.pend = some c ∨ p.pend = none) (sure : p.sure = none) (cur₀ : (x.pc t).cur = some c)
    (pend₀ : (x.pc t).pend = some c) (sub : c.op = .subscribe) (closing : n.isClosing = true)
    (what : (n = .unsubscribe ∧ (x.closed = true ∨ x.pc t = .refuse c)) ∨ (∃ e, n = .error e ∧ x.error = some e) ∨ (n = .complete ∧ x.completed = true)) :
    Move D x t ((x.tell D c.id n c.id).goto t p) := by
  rw [tell_eq]
  exact .speak p c n rfl rfl rfl rfl rfl rfl rfl rfl cur cur₀ pend pend₀ sure sub closing what

theorem Locks.move_advance {x : State S I E} (h : Locks x) (hj : Join x) (hD : D.Contract) (hn : x.members.Nodup) (t : Nat) :
    Move D x t (Crowd.advance D debug x t) := by
  unfold Crowd.advance
  have hm := h.empty (t := t)
  have hj := hj t
  have id : Move D x t x := .quiet (x.pc t) (by funext u; rw [pc_goto]; split <;> simp_all)
    ⟨rfl, rfl, rfl, rfl, rfl, rfl, .inl rfl⟩ rfl rfl (.inr (.inl rfl))
  cases hp : x.pc t with
  | idle => exact id
  | panicked w => exact id
  | pre c => dsimp only; split <;> quiet
  | preApply c => dsimp only; split <;> quiet
  | greet c =>
    rw [hp] at hj
    dsimp only
    split
    · rename_i e he
      exact speak_of rfl (.inl rfl) rfl (by rw [hp]; rfl) (by rw [hp]; rfl) (hj c rfl) rfl (.inr (.inl ⟨e, rfl, he⟩))
    · split
      · rename_i hc
        exact speak_of rfl (.inl rfl) rfl (by rw [hp]; rfl) (by rw [hp]; rfl) (hj c rfl) rfl (.inr (.inr ⟨rfl, hc⟩))
      · quiet
  | check c =>
    dsimp only
    split
    · rename_i hs
      split
      · quiet
      · rename_i hsub
        exact .drop _ c rfl ⟨rfl, rfl, rfl, rfl, rfl, rfl, .inl rfl⟩ rfl (by rw [hp]; rfl) rfl (by rw [hp]; rfl) rfl
          (.inl ⟨hs, hp, by simpa using hsub⟩)
    · split <;> quiet
  | refuse c =>
    rw [hp] at hj
    exact speak_of rfl (.inr rfl) rfl (by rw [hp]; rfl) (by rw [hp]; rfl) (hj c rfl) rfl (.inl ⟨rfl, .inr hp⟩)
  | leaving c => exact .ret c rfl rfl rfl rfl rfl rfl rfl rfl (by rw [hp]; rfl) (by rw [hp]; rfl)
  | observe c =>
    dsimp only
    split
    · quiet
    · split <;> quiet
    · rename_i hc
      split
      · rename_i hu
        exact .drop _ c rfl ⟨rfl, rfl, rfl, rfl, rfl, rfl, .inl rfl⟩ rfl (by rw [hp]; rfl) rfl (by rw [hp]; rfl) rfl
          (.inr (.inr (.inl ⟨hu, hc, hp⟩)))
      · quiet
    · quiet
  | look c =>
    dsimp only
    split
    · rename_i k hk
      split
      · rename_i hc
        exact .drop _ c rfl ⟨rfl, rfl, rfl, rfl, rfl, rfl, .inl rfl⟩ rfl (by rw [hp]; rfl) rfl (by rw [hp]; rfl) rfl
          (.inr (.inr (.inr ⟨k, hk, hc⟩)))
      · quiet
    · quiet
  | attempt c => dsimp only; split <;> quiet
  | top w k =>
    rw [hp] at hm
    dsimp only
    split
    · quiet
    · split
      · rename_i hq
        have hq : x.queue = [] := by simpa using hq
        cases w with
        | own c =>
          dsimp only
          split <;> exact .quiet _ rfl ⟨rfl, rfl, rfl, rfl, rfl, rfl, .inl rfl⟩ (by rw [hp]; rfl) (by rw [hp]; rfl)
            (.inr (.inr hq))
        | pre c => quiet
        | after o => quiet
      · exact .drain _ rfl rfl rfl rfl rfl rfl rfl rfl (by rw [hp]; rfl) (by rw [hp]; rfl) rfl (hm rfl rfl)
  | deliver w k =>
    dsimp only
    split
    · exact .quiet _ rfl ⟨rfl, rfl, rfl, rfl, rfl, rfl, .inr rfl⟩ (by rw [hp]; rfl) (by rw [hp]; rfl) (.inl rfl)
    · rename_i c r hr
      obtain ⟨b, hb⟩ := handle_handled hD { x with rest := r, done := x.done ++ [c] } c hn
      refine .serve (.marking w k c) c r b ?_ ?_ hr ?_ (hb.congr rfl rfl rfl rfl rfl rfl rfl) ?_ ?_ (by rw [hp]; rfl) (by rw [hp]; rfl) rfl
        (by rw [hp]; rfl) rfl <;> simp [State.goto]
  | marking w k c => quiet
  | sealing c =>
    exact .quiet _ rfl ⟨rfl, rfl, rfl, rfl, rfl, rfl, .inl rfl⟩ (by rw [hp]; rfl) (by rw [hp]; rfl)
      (.inr (.inl (by rw [hp]; rfl)))
  | give c =>
    rw [hp] at hm
    obtain ⟨b, hb⟩ := act_handled hD { x with done := x.done ++ [c] } c hn
    have hr := hm rfl rfl
    refine .give (.unlock (.own c)) c b ?_ ?_ hr ?_ (hb.congr rfl rfl rfl rfl rfl rfl rfl) ?_ ?_ rfl (by rw [hp]; rfl) rfl (by rw [hp]; rfl)
      rfl hp <;> simp [State.goto, hr]
  | unlock w =>
    cases w with
    | own c => dsimp only; split <;> quiet
    | pre c => quiet
    | after o => exact .retd _ _ (by rw [hp]; rfl) (by rw [hp]; rfl)
  | deferring c =>
    dsimp only
    have hpp : ∀ p : PC I E, p = (if c.op.isCancel = true then PC.leaving c else PC.recheck (some c)) →
        p.cur = some c ∧ p.pend = none ∧ p.sure = none := by
      rintro p rfl
      split <;> exact ⟨rfl, rfl, rfl⟩
    obtain ⟨p1, p2, p3⟩ := hpp _ rfl
    split
    · rename_i hc
      simp only [Bool.and_eq_true] at hc
      split
      · rename_i hs
        exact speak_of p1 (.inr p2) p3 (by rw [hp]; rfl) (by rw [hp]; rfl) (isSubscribe_iff.1 hs) rfl (.inl ⟨rfl, .inl hc.1⟩)
      · rename_i hs
        exact .drop _ c rfl ⟨rfl, rfl, rfl, rfl, rfl, rfl, .inl rfl⟩ p1 (by rw [hp]; rfl) p2 (by rw [hp]; rfl) p3
          (.inr (.inl ⟨hc.1, hp, by simpa using hs⟩))
    · rename_i hc
      refine .defer _ c rfl rfl rfl rfl rfl rfl rfl rfl p1 (by rw [hp]; rfl) p2 (by rw [hp]; rfl) p3 hp ?_
      cases hcl : x.closed
      · exact .inl rfl
      · simp only [hcl, Bool.true_and, Bool.not_eq_true', Bool.not_eq_false, Bool.and_eq_true, Bool.not_eq_true'] at hc
        exact .inr ⟨isUnsubscribe_iff.1 hc.1, hc.2⟩
  | recheck o =>
    dsimp only
    split
    · exact .retd x.lock _ (by rw [hp]; rfl) (by rw [hp]; rfl)
    · quiet
  | apply o =>
    dsimp only
    split
    · quiet
    · exact .retd x.lock _ (by rw [hp]; rfl) (by rw [hp]; rfl)

theorem entry_reads (c : Call I E) : (entry c).cur = some c ∧ (entry c).pend = some c ∧ (entry c).sure = none := by
  unfold entry; split <;> exact ⟨rfl, rfl, rfl⟩

theorem Locks.move {x : State S I E} (h : Locks x) (hj : Join x) (hD : D.Contract) (hn : x.members.Nodup) (t : Nat)
    (a : Turn I E) : Move D x t (Crowd.step D debug x t a) := by
  unfold Crowd.step
  have id : Move D x t x := .quiet (x.pc t) (by funext u; rw [pc_goto]; split <;> simp_all)
    ⟨rfl, rfl, rfl, rfl, rfl, rfl, .inl rfl⟩ rfl rfl (.inr (.inl rfl))
  split
  · rename_i hi
    have hp := isIdle_eq hi
    cases a with
    | go => exact id
    | call op =>
      dsimp only
      split
      · exact id
      · rename_i hv
        obtain ⟨h1, h2, h3⟩ := entry_reads (⟨x.calls, op⟩ : Call I E)
        exact .start _ ⟨x.calls, op⟩ rfl rfl rfl rfl rfl rfl rfl rfl rfl h1 h2 h3 hp (by simpa using hv) rfl
    | ask => exact .note _ rfl rfl rfl rfl rfl rfl rfl rfl rfl
    | drop => quiet
  · exact h.move_advance hj hD hn t

/-! ## Calls and their order -/

structure Ids (x : State S I E) : Prop where
  ids : ∀ k t n, .call k t n ∈ x.trace → k < x.calls
  one : ∀ k t n t' n', .call k t n ∈ x.trace → .call k t' n' ∈ x.trace → t = t' ∧ n = n'
  rets : ∀ k, .ret k ∈ x.trace → ∃ t n, .call k t n ∈ x.trace
  cur : ∀ t c, (x.pc t).cur = some c → .call c.id t c.op ∈ x.trace ∧ .ret c.id ∉ x.trace
  line : ∀ c ∈ x.line, ∃ t, .call c.id t c.op ∈ x.trace
  nodup : (x.line.map Call.id).Nodup
  pend : ∀ t c, (x.pc t).pend = some c → c.id ∉ x.line.map Call.id
  order : x.line.Pairwise fun a b => ¬ Before x.trace b.id a.id
  over : ∀ t c, (x.pc t).sure = some c → ∀ j ∈ x.queue, ¬ Before x.trace j.id c.id

theorem cur_of_pend {p : PC I E} {c : Call I E} (h : p.pend = some c) : p.cur = some c := by
  have : ∀ w : Why I E, w.pend = some c → w.cur = some c := by
    intro w h
    cases w with
    | own d => exact h
    | pre d => exact h
    | after o => cases h
  have this' : ∀ w : Why I E, w.later = some c → w.cur = some c := by
    intro w h
    cases w with
    | own d => cases h
    | pre d => exact h
    | after o => cases h
  cases p <;> first | exact h | exact this _ h | exact this' _ h | cases h

theorem pend_of_sure {p : PC I E} {c : Call I E} (h : p.sure = some c) : p.pend = some c := by
  cases p <;> first | exact h | cases h

theorem Ids.init (s : Nat → S) : Ids (init s : State S I E) where
  ids _ _ _ h := by cases h
  one _ _ _ _ _ h := by cases h
  rets _ h := by cases h
  cur _ _ h := by cases h
  line _ h := by cases h
  nodup := .nil
  pend _ _ h := by cases h
  order := .nil
  over _ _ h := by cases h

/-- A property of all threads, when one moves. -/
theorem forall_goto {x y : State S I E} {t : Nat} {p : PC I E} (hpc : y.pc = (x.goto t p).pc)
    (f : PC I E → Option (Call I E)) {R : Nat → Call I E → Prop} (ht : ∀ c, f p = some c → R t c)
    (hu : ∀ u, u ≠ t → ∀ c, f (x.pc u) = some c → R u c) : ∀ u c, f (y.pc u) = some c → R u c := by
  intro u
  rw [hpc, pc_goto]
  by_cases e : u = t
  · subst e; rw [if_pos rfl]; exact ht
  · rw [if_neg e]; exact hu u e

/-- Two calls in progress are different. -/
theorem Ids.cur_ne {x : State S I E} (h : Ids x) {t u : Nat} {c d : Call I E}
    (hc : (x.pc t).cur = some c) (hd : (x.pc u).cur = some d) (hu : u ≠ t) : d.id ≠ c.id := by
  intro e
  have h1 := (h.cur t c hc).1
  have h2 := (h.cur u d hd).1
  rw [e] at h2
  exact hu (h.one _ _ _ _ _ h2 h1).1

/-- Nothing is called, and nothing returns. -/
theorem Ids.inside {x y : State S I E} {t : Nat} {p : PC I E} (b : List (Mark I E)) (h : Ids x)
    (pc : y.pc = (x.goto t p).pc) (trace : y.trace = x.trace ++ b)
    (hb : ∀ m ∈ b, (∀ k t n, m ≠ .call k t n) ∧ ∀ k, m ≠ .ret k)
    (calls : y.calls = x.calls)
    (cur : p.cur = (x.pc t).cur)
    (mem : ∀ d ∈ y.line, d ∈ x.line ∨ (x.pc t).pend = some d)
    (nodup : (y.line.map Call.id).Nodup)
    (pend : ∀ c, p.pend = some c → (x.pc t).pend = some c ∧ c.id ∉ y.line.map Call.id)
    (order : y.line.Pairwise fun a b => ¬ Before x.trace b.id a.id)
    (queue : ∀ j ∈ y.queue, j ∈ x.queue ∨ (x.pc t).cur = some j)
    (sure : ∀ c, p.sure = some c → ∀ j ∈ y.queue, ¬ Before x.trace j.id c.id) : Ids y := by
  have calls' : ∀ {k t n}, .call k t n ∈ y.trace ↔ .call k t n ∈ x.trace := by
    intro k t n
    rw [trace, List.mem_append]
    exact ⟨fun e => e.elim (fun e => e) (fun e => absurd rfl ((hb _ e).1 k t n)), .inl⟩
  have rets' : ∀ {k}, .ret k ∈ y.trace ↔ .ret k ∈ x.trace := by
    intro k
    rw [trace, List.mem_append]
    exact ⟨fun e => e.elim (fun e => e) (fun e => absurd rfl ((hb _ e).2 k)), .inl⟩
  have line : ∀ c ∈ y.line, ∃ t, .call c.id t c.op ∈ x.trace := by
    intro c hc
    rcases mem c hc with hc | hc
    · exact h.line c hc
    · exact ⟨t, (h.cur t c (cur_of_pend hc)).1⟩
  have hcur : ∀ u c, (y.pc u).cur = some c → .call c.id u c.op ∈ x.trace ∧ .ret c.id ∉ x.trace :=
    forall_goto pc PC.cur (fun c hc => h.cur t c (cur ▸ hc)) (fun u _ c hc => h.cur u c hc)
  refine ⟨
    fun k t n hk => by rw [calls]; exact h.ids k t n (calls'.1 hk),
    fun k t n t' n' hk hk' => h.one k t n t' n' (calls'.1 hk) (calls'.1 hk'),
    fun k hk => let ⟨t, n, e⟩ := h.rets k (rets'.1 hk); ⟨t, n, calls'.2 e⟩,
    fun u c hc => ⟨calls'.2 (hcur u c hc).1, fun e => (hcur u c hc).2 (rets'.1 e)⟩,
    fun d hd => let ⟨t, e⟩ := line d hd; ⟨t, calls'.2 e⟩, nodup, ?_, ?_, ?_⟩
  · refine forall_goto pc PC.pend (fun c hc => (pend c hc).2) (fun u hu c hc hin => ?_)
    obtain ⟨d, hd, e⟩ := List.mem_map.1 hin
    rcases mem d hd with hd | hd
    · exact h.pend u c hc (e ▸ List.mem_map_of_mem hd)
    · exact h.cur_ne (cur_of_pend hd) (cur_of_pend hc) hu e.symm
  · rw [trace]
    refine order.imp_of_mem fun {a b'} ha _ hn hb => hn ?_
    obtain ⟨t, e⟩ := line a ha
    exact hb.backs e
  · rw [trace]
    intro u c hc j hj hbf
    have hbf := hbf.backs (hcur u c (cur_of_pend (pend_of_sure hc))).1
    refine forall_goto pc PC.sure (R := fun u c => ¬ Before x.trace j.id c.id) (fun c hc => sure c hc j hj)
      (fun u _ c hc hbf => ?_) u c hc hbf
    rcases queue j hj with hj | hj
    · exact h.over u c hc j hj hbf
    · exact (h.cur t j hj).2 hbf.ret

theorem Handled.marks' {own : Bool} {x y : State S I E} {c b} (h : Handled D own x c y b) :
    ∀ m ∈ b, (∀ k t n, m ≠ .call k t n) ∧ ∀ k, m ≠ .ret k := by
  intro m hm
  obtain ⟨i, n, rfl⟩ := h.marks m hm
  simp

theorem told_marks {id : Nat} {n : SubscriberNotification I E} {L : List Nat} {p : Nat → Bool} :
    ∀ m ∈ (L.filter p).map fun i => (.give id i n : Mark I E), (∀ k t n, m ≠ .call k t n) ∧ ∀ k, m ≠ .ret k := by
  intro m hm
  obtain ⟨i, -, rfl⟩ := List.mem_map.1 hm
  simp

theorem Ids.move {x y : State S I E} {t : Nat} (h : Ids x) (m : Move D x t y) : Ids y := by
  cases m with
  | quiet p pc same cur pend sure =>
    obtain ⟨e1, e2, e3, e4, e5, e6, -⟩ := same
    have el : y.line = x.line := by rw [State.line, State.line, e1, e2, e6]
    refine h.inside [] pc (by rw [e3]; simp) (by simp) e5 cur (fun d hd => .inl (el ▸ hd)) (el ▸ h.nodup)
      (fun c hc => ⟨pend ▸ hc, by rw [el]; exact h.pend t c (pend ▸ hc)⟩) (by rw [el]; exact h.order)
      (fun j hj => .inl (e1 ▸ hj)) (fun c hc j hj => ?_)
    rw [e1] at hj
    rcases sure with e | e | e
    · rw [e] at hc; cases hc
    · exact h.over t c (e ▸ hc) j hj
    · rw [e] at hj; cases hj
  | drop p c pc same cur cur₀ pend pend₀ sure why =>
    obtain ⟨e1, e2, e3, e4, e5, e6, -⟩ := same
    have el : y.line = x.line := by rw [State.line, State.line, e1, e2, e6]
    exact h.inside [] pc (by rw [e3]; simp) (by simp) e5 (cur.trans cur₀.symm) (fun d hd => .inl (el ▸ hd))
      (el ▸ h.nodup) (fun c hc => by rw [pend] at hc; cases hc) (by rw [el]; exact h.order)
      (fun j hj => .inl (e1 ▸ hj)) (fun c hc => by rw [sure] at hc; cases hc)
  | speak p c n pc queue rest trace dests calls done members cur cur₀ pend pend₀ sure sub closing what =>
    have el : y.line = x.line := by rw [State.line, State.line, queue, rest, done]
    refine h.inside _ pc trace told_marks calls (cur.trans cur₀.symm) (fun d hd => .inl (el ▸ hd))
      (el ▸ h.nodup) (fun d hd => ?_) (by rw [el]; exact h.order)
      (fun j hj => .inl (queue ▸ hj)) (fun c hc => by rw [sure] at hc; cases hc)
    rcases pend with e | e
    · rw [e] at hd
      cases hd
      exact ⟨pend₀, by rw [el]; exact h.pend t c pend₀⟩
    · rw [e] at hd; cases hd
  | drain p pc queue rest trace dests calls done members cur pend sure empty =>
    have el : y.line = x.line := by rw [State.line, State.line, queue, rest, done, empty]; simp
    exact h.inside [] pc (by rw [trace]; simp) (by simp) calls cur (fun d hd => .inl (el ▸ hd)) (el ▸ h.nodup)
      (fun c hc => ⟨pend ▸ hc, by rw [el]; exact h.pend t c (pend ▸ hc)⟩) (by rw [el]; exact h.order)
      (fun j hj => by rw [queue] at hj; cases hj) (fun c hc => by rw [sure] at hc; cases hc)
  | serve p c r b pc queue rest₀ rest handled calls done cur pend sure mid hand =>
    have el : y.line = x.line := by
      rw [State.line, State.line, rest, queue, done, rest₀]
      simp
    exact h.inside b pc handled.trace handled.marks' calls cur (fun d hd => .inl (el ▸ hd)) (el ▸ h.nodup)
      (fun c hc => ⟨pend ▸ hc, by rw [el]; exact h.pend t c (pend ▸ hc)⟩) (by rw [el]; exact h.order)
      (fun j hj => .inl (queue ▸ hj)) (fun c hc => by rw [sure] at hc; cases hc)
  | give p c b pc queue rest₀ rest handled calls done cur cur₀ pend pend₀ sure at₀ =>
    have sure₀ : (x.pc t).sure = some c := by rw [at₀]; rfl
    have el : x.line = x.done ++ x.queue := by rw [State.line, rest₀]; rfl
    have el' : y.line = x.done ++ c :: x.queue := by rw [State.line, rest, queue, done]; simp
    obtain ⟨c1, c2⟩ := h.cur t c cur₀
    have fresh := h.pend t c pend₀
    have ho := h.order
    have hn := h.nodup
    rw [el] at fresh ho hn
    refine h.inside b pc handled.trace handled.marks' calls (cur.trans cur₀.symm) (fun d hd => ?_) ?_
      (fun c hc => by rw [pend] at hc; cases hc) ?_
      (fun j hj => .inl (queue ▸ hj)) (fun c hc => by rw [sure] at hc; cases hc)
    · rw [el'] at hd
      rw [el]
      simp only [List.mem_append, List.mem_cons] at hd ⊢
      rcases hd with hd | rfl | hd
      · exact .inl (.inl hd)
      · exact .inr pend₀
      · exact .inl (.inr hd)
    · rw [el']
      simp only [List.map_append, List.map_cons, List.nodup_append, List.nodup_cons, List.mem_append,
        List.mem_map, not_or] at fresh hn ⊢
      refine ⟨hn.1, ⟨fresh.2, hn.2.1⟩, fun a ha b hb e => ?_⟩
      rcases List.mem_cons.1 hb with hb | hb
      · exact fresh.1 (by rw [← hb, ← e]; exact ha)
      · exact hn.2.2 a ha b (List.mem_map.1 hb) e
    · rw [el']
      rw [List.pairwise_append] at ho ⊢
      refine ⟨ho.1, List.pairwise_cons.2 ⟨h.over t c sure₀, ho.2.1⟩, fun a ha b hb => ?_⟩
      rcases List.mem_cons.1 hb with rfl | hb
      · exact fun e => c2 e.ret
      · exact ho.2.2 a ha b hb
  | defer p c pc queue rest trace dests calls done members cur cur₀ pend pend₀ sure at₀ isOpen =>
    have el : y.line = x.line ++ [c] := by
      rw [State.line, State.line, rest, queue, done]; simp
    obtain ⟨c1, c2⟩ := h.cur t c cur₀
    have fresh := h.pend t c pend₀
    refine h.inside [] pc (by rw [trace]; simp) (by simp) calls (cur.trans cur₀.symm) (fun d hd => ?_) ?_
      (fun c hc => by rw [pend] at hc; cases hc) ?_ (fun j hj => ?_) (fun c hc => by rw [sure] at hc; cases hc)
    · rw [el, List.mem_append, List.mem_singleton] at hd
      rcases hd with hd | rfl
      · exact .inl hd
      · exact .inr pend₀
    · rw [el, List.map_append, List.nodup_append]
      refine ⟨h.nodup, by simp, fun a ha b hb e => ?_⟩
      rw [List.map_singleton, List.mem_singleton] at hb
      exact fresh (by rw [← hb, ← e]; exact ha)
    · rw [el, List.pairwise_append]
      refine ⟨h.order, by simp, fun a _ b hb => ?_⟩
      rw [List.mem_singleton] at hb
      subst hb
      exact fun e => c2 e.ret
    · rw [queue, List.mem_append, List.mem_singleton] at hj
      rcases hj with hj | rfl
      · exact .inl hj
      · exact .inr cur₀
  | note bit pc queue rest trace dests calls done members answer =>
    have el : y.line = x.line := by rw [State.line, State.line, rest, queue, done]
    exact h.inside (p := x.pc t) [.answer t bit] (by rw [pc]; funext u; rw [pc_goto]; split <;> simp_all) trace (by simp) calls rfl
      (fun d hd => .inl (el ▸ hd)) (el ▸ h.nodup) (fun c hc => ⟨hc, by rw [el]; exact h.pend t c hc⟩)
      (by rw [el]; exact h.order) (fun j hj => .inl (queue ▸ hj)) (fun c hc j hj => h.over t c hc j (queue ▸ hj))
  | ret c pc queue rest trace dests calls done members cur₀ pend₀ =>
    have el : y.line = x.line := by rw [State.line, State.line, rest, queue, done]
    have calls' : ∀ {k t n}, .call k t n ∈ y.trace ↔ .call k t n ∈ x.trace := by
      intro k t n; rw [trace]; simp
    refine ⟨
      fun k t n hk => by rw [calls]; exact h.ids k t n (calls'.1 hk),
      fun k t n t' n' hk hk' => h.one k t n t' n' (calls'.1 hk) (calls'.1 hk'), fun k hk => ?_, ?_,
      fun d hd => let ⟨t, e⟩ := h.line d (el ▸ hd); ⟨t, calls'.2 e⟩, el ▸ h.nodup, ?_, ?_, ?_⟩
    · rw [trace, List.mem_append, List.mem_singleton] at hk
      rcases hk with hk | hk
      · obtain ⟨t, n, e⟩ := h.rets k hk
        exact ⟨t, n, calls'.2 e⟩
      · cases hk
        exact ⟨t, _, calls'.2 (h.cur t c cur₀).1⟩
    · refine forall_goto pc PC.cur (fun c hc => by cases hc) (fun u hu d hd => ?_)
      obtain ⟨h1, h2⟩ := h.cur u d hd
      refine ⟨calls'.2 h1, fun e => ?_⟩
      rw [trace, List.mem_append, List.mem_singleton] at e
      rcases e with e | e
      · exact h2 e
      · injection e with e
        exact h.cur_ne cur₀ hd hu e
    · rw [el]
      exact forall_goto pc PC.pend (fun c hc => by cases hc) (fun u _ c hc => h.pend u c hc)
    · rw [el, trace]
      refine h.order.imp_of_mem fun {a b'} ha _ hn hb => hn ?_
      obtain ⟨t, e⟩ := h.line a ha
      exact hb.backs e
    · rw [queue, trace]
      refine forall_goto pc PC.sure (fun c hc => by cases hc) (fun u _ d hd j hj hb => ?_)
      exact h.over u d hd j hj (hb.backs (h.cur u d (cur_of_pend (pend_of_sure hd))).1)
  | start p c pc queue rest trace dests calls done members id cur pend sure idle void entry =>
    have el : y.line = x.line := by rw [State.line, State.line, rest, queue, done]
    have fresh : ∀ {t n}, .call c.id t n ∉ x.trace := fun {t n} e => by
      have := h.ids _ t n e
      omega
    have calls' : ∀ {k u n}, .call k u n ∈ y.trace ↔ .call k u n ∈ x.trace ∨ (k = c.id ∧ u = t ∧ n = c.op) := by
      intro k u n; rw [trace]; simp
    have rets' : ∀ {k}, .ret k ∈ y.trace ↔ .ret k ∈ x.trace := by
      intro k; rw [trace]; simp
    have noret : .ret c.id ∉ x.trace := fun e => by
      obtain ⟨t, n, e⟩ := h.rets _ e
      exact fresh e
    refine ⟨fun k t n hk => ?_, fun k t n t' n' hk hk' => ?_,
      fun k hk => let ⟨t, n, e⟩ := h.rets k (rets'.1 hk); ⟨t, n, calls'.2 (.inl e)⟩, ?_,
      fun d hd => let ⟨t, e⟩ := h.line d (el ▸ hd); ⟨t, calls'.2 (.inl e)⟩, el ▸ h.nodup, ?_, ?_, ?_⟩
    · rw [calls]
      rcases calls'.1 hk with hk | ⟨hk, -, -⟩
      · exact Nat.lt_succ_of_lt (h.ids k t n hk)
      · omega
    · rcases calls'.1 hk with hk | ⟨rfl, rfl, rfl⟩ <;> rcases calls'.1 hk' with hk' | ⟨e1, e2, e3⟩
      · exact h.one k t n t' n' hk hk'
      · rw [e1] at hk; exact absurd hk fresh
      · exact absurd hk' fresh
      · exact ⟨e2.symm, e3.symm⟩
    · refine forall_goto pc PC.cur (fun d hd => ?_) (fun u hu d hd => ?_)
      · rw [cur] at hd
        cases hd
        exact ⟨calls'.2 (.inr ⟨rfl, rfl, rfl⟩), fun e => noret (rets'.1 e)⟩
      · obtain ⟨h1, h2⟩ := h.cur u d hd
        exact ⟨calls'.2 (.inl h1), fun e => h2 (rets'.1 e)⟩
    · rw [el]
      refine forall_goto pc PC.pend (fun d hd hin => ?_) (fun u _ c hc => h.pend u c hc)
      rw [pend] at hd
      cases hd
      obtain ⟨d, hd, e⟩ := List.mem_map.1 hin
      obtain ⟨t, hd⟩ := h.line d hd
      rw [e] at hd
      exact fresh hd
    · rw [el, trace]
      refine h.order.imp_of_mem fun {a b'} ha _ hn hb => hn ?_
      obtain ⟨t, e⟩ := h.line a ha
      exact hb.backs e
    · rw [queue, trace]
      refine forall_goto pc PC.sure (fun d hd => by rw [sure] at hd; cases hd) (fun u _ d hd j hj hb => ?_)
      exact h.over u d hd j hj (hb.backs (h.cur u d (cur_of_pend (pend_of_sure hd))).1)

end Rx.Crowd
