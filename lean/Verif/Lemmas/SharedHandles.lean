import Verif.Spec.SharedHandles

/-!
# Lemmas on shared subscriptions used by several threads (C84)
-/

namespace Rx.Handles

open Rx.Spec.Handles

/-- The thread holds the lock. -/
def PC.holds : PC → Bool
  | .top .. | .deliver .. | .running .. | .marking .. | .sealing | .closing | .ownRunning | .unlock _
  | .addHeld _ | .queryHeld => true
  | _ => false

/-- It is the first to unsubscribe and has not been let in yet. -/
def PC.first : PC → Bool
  | .attempt | .deferring => true
  | _ => false

/-- The first to unsubscribe has got in, or has deferred. -/
def PC.late : PC → Bool
  | .startApply | .finishApply | .dropApply | .top .. | .deliver .. | .running .. | .marking .. | .sealing | .closing
  | .ownRunning | .unlock _ => true
  | _ => false

/-- The queue has been seen to by the holder of the lock. -/
def PC.drained : PC → Bool
  | .deliver .. | .running .. | .marking .. | .sealing | .closing | .ownRunning | .unlock _ => true
  | .top .own _ => true
  | .top _ d => d != 0
  | _ => false

/-- It is going to unsubscribe the data. -/
def PC.carries : PC → Bool
  | .attempt | .deferring | .sealing | .closing => true
  | .top .own _ => true
  | .deliver _ _ (_ + 1) => true
  | .deliver .own _ _ => true
  | _ => false

/-- It is running the teardowns. -/
def PC.runs : PC → Bool
  | .running .. | .ownRunning => true
  | _ => false

/-- It has seen that an unsubscribe was seen. -/
def PC.seen : PC → Bool
  | .finish => true
  | _ => false

/-- The rounds of the queue. -/
def PC.few : PC → Bool
  | .top _ d => d ≤ 1
  | .deliver _ d n => d = 0 && n ≤ 1
  | .running _ d n => d = 0 && n = 0
  | .marking _ d n => d = 0 && n = 0
  | .panicked => false
  | _ => true

/-- It is about to close the flag of the deferred state. -/
def PC.marks : PC → Bool
  | .marking .. => true
  | _ => false

/-- It is at the start of `unsubscribe`. -/
def PC.asks : PC → Bool
  | .start | .startApply | .observe | .top .start _ | .deliver .start _ _ | .running .start _ _ | .marking .start _ _
  | .unlock .start => true
  | _ => false

/-- What is true in all reachable states. -/
structure Good (x : State) : Prop where
  lockOf : ∀ t, (x.pc t).holds = true → x.lock = some t
  ofLock : ∀ t, x.lock = some t → (x.pc t).holds = true
  clean : x.poisoned = false
  owns : ∀ t, x.pc t ≠ .idle → t ∈ x.handles
  counts : ∀ td, timesAdded x.trace td = timesRan x.trace td + x.finalizers.count td
  done : x.closed = true → x.finalizers ≠ [] → ∃ t, (x.pc t).runs = true
  runs : ∀ t, (x.pc t).runs = true → x.closed = true
  flagged : x.flag = true → x.closed = true ∨ ∃ t, x.pc t = .closing
  marks : ∀ t, (x.pc t).marks = true → x.closed = true
  closedBy : x.closed = true → x.observed = true ∨ x.handles = []
  flagBy : x.flag = true → x.observed = true ∨ x.handles = []
  asked : x.observed = true → Asked x.trace
  asking : ∀ t, (x.pc t).asks = true → Asked x.trace
  fst : ∀ t u, (x.pc t).first = true → (x.pc u).first = true → t = u
  fst0 : ∀ t, (x.pc t).first = true → x.queue = 0 ∧ x.flag = false ∧ x.closed = false ∧ x.observed = true
  lateBy : ∀ t, (x.pc t).late = true → x.observed = true
  late : ∀ t u, (x.pc t).late = true → (x.pc u).first = false
  queue1 : x.queue ≤ 1
  queue0 : x.queue ≠ 0 → x.observed = true ∧ x.closed = false ∧ x.flag = false
  drained : ∀ t, (x.pc t).drained = true → x.queue = 0
  few : ∀ t, (x.pc t).few = true
  held : x.queue ≠ 0 → ∃ t, t ∈ x.handles ∧ x.pc t ≠ .leaving
  seen : ∀ t, (x.pc t).seen = true → x.observed = true
  ret : Returned x.trace → x.observed = true
  carried : x.observed = true → x.closed = true ∨ x.queue ≠ 0 ∨ ∃ t, (x.pc t).carries = true

theorem ex_goto (P : PC → Prop) {f : Nat → PC} {t : Nat} {p : PC} (h : ∃ u, P (f u)) (hp : P (f t) → P p) :
    ∃ u, P (if u = t then p else f u) := by
  obtain ⟨u, hu⟩ := h
  by_cases e : u = t
  · exact ⟨t, by rw [if_pos rfl]; exact hp (e ▸ hu)⟩
  · exact ⟨u, by rw [if_neg e]; exact hu⟩

theorem free_iff {x : State} (h : x.free = true) : x.lock = none := by
  simp only [State.free, Bool.and_eq_true, Option.isNone_iff_eq_none] at h; exact h.1

theorem not_free {x : State} (hg : Good x) (h : ¬ x.free = true) : ∃ t, x.lock = some t := by
  simp only [State.free, hg.clean, Bool.not_false, Bool.and_true] at h
  cases hl : x.lock with
  | none => simp [hl] at h
  | some t => exact ⟨t, rfl⟩

theorem ex_held {l : List Nat} {f : Nat → PC} {t : Nat} {p : PC} (h : ∃ u, u ∈ l ∧ f u ≠ .leaving) (hp : p ≠ .leaving) :
    ∃ u, u ∈ l ∧ (if u = t then p else f u) ≠ .leaving := by
  obtain ⟨u, hu, hv⟩ := h
  refine ⟨u, hu, ?_⟩
  split
  · exact hp
  · exact hv

/-- What the invariant says of one thread. -/
theorem Good.at {x : State} (hg : Good x) (t : Nat) :
    ((x.pc t).holds = true → x.lock = some t) ∧ (x.lock = some t → (x.pc t).holds = true) ∧ (x.pc t ≠ .idle → t ∈ x.handles) ∧
    ((x.pc t).runs = true → x.closed = true) ∧ ((x.pc t).marks = true → x.closed = true) ∧ ((x.pc t).asks = true → Asked x.trace) ∧
    ((x.pc t).first = true → x.queue = 0 ∧ x.flag = false ∧ x.closed = false ∧ x.observed = true) ∧
    ((x.pc t).late = true → x.observed = true) ∧ ((x.pc t).drained = true → x.queue = 0) ∧ ((x.pc t).few = true) ∧
    ((x.pc t).seen = true → x.observed = true) :=
  ⟨hg.lockOf t, hg.ofLock t, hg.owns t, hg.runs t, hg.marks t, hg.asking t, hg.fst0 t, hg.lateBy t, hg.drained t, hg.few t, hg.seen t⟩

/-- What it says of none. -/
theorem Good.all {x : State} (hg : Good x) :
    x.poisoned = false ∧ (x.closed = true → x.observed = true ∨ x.handles = []) ∧ (x.flag = true → x.observed = true ∨ x.handles = []) ∧
    (x.observed = true → Asked x.trace) ∧ x.queue ≤ 1 ∧ (x.queue ≠ 0 → x.observed = true ∧ x.closed = false ∧ x.flag = false) ∧
    (Returned x.trace → x.observed = true) :=
  ⟨hg.clean, hg.closedBy, hg.flagBy, hg.asked, hg.queue1, hg.queue0, hg.ret⟩

/-- Uses what is known of the thread `t` that takes the step, at `p`. -/
macro "about" hg:ident hp:ident t:ident : tactic => `(tactic| (
  have at1 := ($hg).at $t
  have all1 := ($hg).all
  rw [$hp:ident] at at1
  simp only [PC.holds, PC.first, PC.late, PC.drained, PC.carries, PC.runs, PC.seen, PC.few, PC.marks, PC.asks, ne_eq, reduceCtorEq, not_false_eq_true, true_imp_iff, false_imp_iff, Bool.false_eq_true, and_true, true_and,
    forall_const, imp_false, not_true_eq_false] at at1))

theorem ex_three {x : State} {a b : Prop} {t : Nat} {p : PC} (h : x.closed = true ∨ x.queue ≠ 0 ∨ ∃ u, (x.pc u).carries = true)
    (ha : x.closed = true → a) (hb : x.queue ≠ 0 → b) (hp : (x.pc t).carries = true → p.carries = true) :
    a ∨ b ∨ ∃ u, (if u = t then p else x.pc u).carries = true := by
  rcases h with h | h | h
  · exact Or.inl (ha h)
  · exact Or.inr (Or.inl (hb h))
  · exact Or.inr (Or.inr (ex_goto (fun p => p.carries = true) h hp))

theorem ex_two {x : State} {a : Prop} {t : Nat} {p : PC} (h : x.closed = true ∨ ∃ u, x.pc u = .closing)
    (ha : x.closed = true → a) (hp : x.pc t = .closing → p = .closing) : a ∨ ∃ u, (if u = t then p else x.pc u) = .closing := by
  rcases h with h | h
  · exact Or.inl (ha h)
  · exact Or.inr (ex_goto (fun p => p = .closing) h hp)

theorem drained_late (p : PC) (h : p.drained = true) : p.late = true := by
  cases p <;> simp_all [PC.drained, PC.late]

/-- Proves all parts of the invariant after a step. -/
macro "keep" x:ident hg:ident hp:ident t:ident : tactic => `(tactic| (
  about $hg $hp $t
  constructor
  all_goals simp only [State.take, State.release, State.note, State.goto]
  · intro u; have a := ($hg).at u; split; (simp only [PC.holds, PC.first, PC.late, PC.drained, PC.carries, PC.runs, PC.seen, PC.few, PC.marks, PC.asks] <;> grind); grind
  · intro u; have a := ($hg).at u; split; (simp only [PC.holds, PC.first, PC.late, PC.drained, PC.carries, PC.runs, PC.seen, PC.few, PC.marks, PC.asks] <;> grind); grind
  · grind
  · intro u; have a := ($hg).at u; split <;> grind
  · intro td; have a := ($hg).counts td; grind [timesAdded, timesRan]
  · intro a b; first | grind | (refine ex_goto (fun p => p.runs = true) (($hg).done ?_ ?_) ?_; grind; grind; (simp [$hp:ident, PC.holds, PC.first, PC.late, PC.drained, PC.carries, PC.runs, PC.seen, PC.few, PC.marks, PC.asks]; done)) | (refine ⟨$t, ?_⟩; simp [PC.holds, PC.first, PC.late, PC.drained, PC.carries, PC.runs, PC.seen, PC.few, PC.marks, PC.asks]; done)
  · intro u; have a := ($hg).at u; split; (simp only [PC.holds, PC.first, PC.late, PC.drained, PC.carries, PC.runs, PC.seen, PC.few, PC.marks, PC.asks] <;> grind); grind
  · intro a
    first
    | (refine Or.inr ⟨$t, ?_⟩; simp; done)
    | (refine Or.inl ?_; grind)
    | (refine ex_two (($hg).flagged ?_) ?_ ?_; grind; grind; (simp [$hp:ident]; done))
    | grind
  · intro u; have a := ($hg).at u; split; (simp only [PC.holds, PC.first, PC.late, PC.drained, PC.carries, PC.runs, PC.seen, PC.few, PC.marks, PC.asks] <;> grind); grind
  · grind
  · grind
  · grind [Asked]
  · intro u; have a := ($hg).at u; split; (simp only [PC.holds, PC.first, PC.late, PC.drained, PC.carries, PC.runs, PC.seen, PC.few, PC.marks, PC.asks] <;> grind [Asked]); grind [Asked]
  · intro u v; have a := ($hg).fst u v; have a' := ($hg).at u; have c := ($hg).at v; have d := ($hg).fst u $t; have d' := ($hg).fst $t v; rw [$hp:ident] at d d'; (try simp only [PC.first.eq_1, PC.first.eq_2, PC.first.eq_3, PC.late.eq_1, PC.late.eq_2, PC.late.eq_3, PC.late.eq_4, PC.late.eq_5, PC.late.eq_6, PC.late.eq_7, PC.late.eq_8, PC.late.eq_9, PC.late.eq_10, PC.late.eq_11, PC.late.eq_12] at d d'); split <;> split <;> (try simp only [PC.first.eq_1, PC.first.eq_2, PC.first.eq_3, PC.late.eq_1, PC.late.eq_2, PC.late.eq_3, PC.late.eq_4, PC.late.eq_5, PC.late.eq_6, PC.late.eq_7, PC.late.eq_8, PC.late.eq_9, PC.late.eq_10, PC.late.eq_11, PC.late.eq_12]) <;> grind
  · intro u; have a := ($hg).at u; have b := ($hg).fst u $t; have c := ($hg).late $t u; rw [$hp:ident] at b c; (try simp only [PC.first.eq_1, PC.first.eq_2, PC.first.eq_3, PC.late.eq_1, PC.late.eq_2, PC.late.eq_3, PC.late.eq_4, PC.late.eq_5, PC.late.eq_6, PC.late.eq_7, PC.late.eq_8, PC.late.eq_9, PC.late.eq_10, PC.late.eq_11, PC.late.eq_12] at b c); split; (simp only [PC.holds, PC.first, PC.late, PC.drained, PC.carries, PC.runs, PC.seen, PC.few, PC.marks, PC.asks] <;> grind); grind
  · intro u; have a := ($hg).at u; split; (simp only [PC.holds, PC.first, PC.late, PC.drained, PC.carries, PC.runs, PC.seen, PC.few, PC.marks, PC.asks] <;> grind); grind
  · intro u v
    have a := ($hg).late u v; have a' := ($hg).at u; have b := ($hg).late $t v; have c := ($hg).at v; have d := ($hg).fst $t v; have d' := ($hg).late u $t
    rw [$hp:ident] at b d d'; (try simp only [PC.first.eq_1, PC.first.eq_2, PC.first.eq_3, PC.late.eq_1, PC.late.eq_2, PC.late.eq_3, PC.late.eq_4, PC.late.eq_5, PC.late.eq_6, PC.late.eq_7, PC.late.eq_8, PC.late.eq_9, PC.late.eq_10, PC.late.eq_11, PC.late.eq_12] at b d d'); split <;> split <;> (try simp only [PC.first.eq_1, PC.first.eq_2, PC.first.eq_3, PC.late.eq_1, PC.late.eq_2, PC.late.eq_3, PC.late.eq_4, PC.late.eq_5, PC.late.eq_6, PC.late.eq_7, PC.late.eq_8, PC.late.eq_9, PC.late.eq_10, PC.late.eq_11, PC.late.eq_12]) <;> grind
  · grind
  · grind
  · intro u; have a := ($hg).at u; have b := ($hg).late u $t; have k := drained_late (($x).pc u); rw [$hp:ident] at b; (try simp only [PC.first.eq_1, PC.first.eq_2, PC.first.eq_3, PC.late.eq_1, PC.late.eq_2, PC.late.eq_3, PC.late.eq_4, PC.late.eq_5, PC.late.eq_6, PC.late.eq_7, PC.late.eq_8, PC.late.eq_9, PC.late.eq_10, PC.late.eq_11, PC.late.eq_12] at b); split; (simp only [PC.holds, PC.first, PC.late, PC.drained, PC.carries, PC.runs, PC.seen, PC.few, PC.marks, PC.asks] <;> grind); grind
  · intro u; have a := ($hg).at u; split; (simp only [PC.holds, PC.first, PC.late, PC.drained, PC.carries, PC.runs, PC.seen, PC.few, PC.marks, PC.asks] <;> grind); grind
  · first | assumption | skip
    all_goals intro a; first | grind | (refine ex_held (($hg).held ?_) ?_; grind; (simp; done)) | (refine ⟨$t, ?_⟩; grind)
  · intro u; have a := ($hg).at u; split; (simp only [PC.holds, PC.first, PC.late, PC.drained, PC.carries, PC.runs, PC.seen, PC.few, PC.marks, PC.asks] <;> grind); grind
  · grind [Returned]
  · intro a
    first
    | (refine Or.inr (Or.inr ⟨$t, ?_⟩); simp [PC.holds, PC.first, PC.late, PC.drained, PC.carries, PC.runs, PC.seen, PC.few, PC.marks, PC.asks]; done)
    | (refine Or.inl ?_; grind)
    | (refine Or.inr (Or.inl ?_); grind)
    | (refine ex_three (($hg).carried ?_) ?_ ?_ ?_; grind; grind; grind; (simp [$hp:ident, PC.holds, PC.first, PC.late, PC.drained, PC.carries, PC.runs, PC.seen, PC.few, PC.marks, PC.asks]; done))))

theorem good_start {x : State} (hg : Good x) {t : Nat} (hp : x.pc t = .start) : Good (advance x t) := by
  rw [advance, hp]; dsimp only; split <;> keep x hg hp t

theorem good_startApply {x : State} (hg : Good x) {t : Nat} (hp : x.pc t = .startApply) : Good (advance x t) := by
  rw [advance, hp]; dsimp only; split
  · rename_i hf
    have hl := free_iff hf
    keep x hg hp t
  · keep x hg hp t

theorem good_observe {x : State} (hg : Good x) {t : Nat} (hp : x.pc t = .observe) : Good (advance x t) := by
  rw [advance, hp]; dsimp only; split <;> keep x hg hp t

theorem good_attempt {x : State} (hg : Good x) {t : Nat} (hp : x.pc t = .attempt) : Good (advance x t) := by
  rw [advance, hp]; dsimp only; split
  · rename_i hf
    have hl := free_iff hf
    keep x hg hp t
  · keep x hg hp t

theorem good_deferring {x : State} (hg : Good x) {t : Nat} (hp : x.pc t = .deferring) : Good (advance x t) := by
  rw [advance, hp]; dsimp only; split <;> keep x hg hp t

theorem good_finish {x : State} (hg : Good x) {t : Nat} (hp : x.pc t = .finish) : Good (advance x t) := by
  rw [advance, hp]; dsimp only; split <;> keep x hg hp t

theorem good_finishApply {x : State} (hg : Good x) {t : Nat} (hp : x.pc t = .finishApply) : Good (advance x t) := by
  rw [advance, hp]; dsimp only; split
  · rename_i hf
    have hl := free_iff hf
    keep x hg hp t
  · keep x hg hp t

theorem good_top {x : State} (hg : Good x) {t : Nat} {w : Why} {d : Nat} (hp : x.pc t = .top w d) : Good (advance x t) := by
  have hd : d ≠ maxDepth := by
    have := hg.few t
    simp only [hp, PC.few, decide_eq_true_eq] at this
    simp only [maxDepth]; omega
  rw [advance, hp]; dsimp only; rw [if_neg hd]; split
  · cases w <;> keep x hg hp t
  · have hq : x.queue = 1 := by have := hg.queue1; omega
    rw [hq]
    cases w <;> keep x hg hp t

theorem good_deliver {x : State} (hg : Good x) {t : Nat} {w : Why} {d : Nat} {n : Nat} (hp : x.pc t = .deliver w d n) : Good (advance x t) := by
  rw [advance, hp]
  cases n with
  | zero => cases w <;> keep x hg hp t
  | succ n =>
    dsimp only; split
    · rename_i hc
      have hc : x.closed = true := by
        rcases Bool.or_eq_true_iff.1 hc with h | h
        · rcases hg.flagged h with h | ⟨u, hu⟩
          · exact h
          · have a := hg.lockOf u (by rw [hu]; rfl)
            have b := hg.lockOf t (by rw [hp]; rfl)
            rw [a] at b
            cases b
            rw [hu] at hp
            cases hp
        · exact h
      cases w <;> keep x hg hp t
    · cases w <;> keep x hg hp t

theorem good_ran {x : State} (hg : Good x) {t td : Nat} {rest : List Nat} (hp : (x.pc t).runs = true) (hf : x.finalizers = td :: rest) :
    Good ({ x with finalizers := rest }.note (.ran td)) := by
  refine { hg with counts := fun i => ?_, done := fun _ _ => ⟨t, hp⟩, asked := fun h => ?_, asking := fun u h => ?_, ret := fun h => ?_ }
  · have a := hg.counts i
    simp only [timesAdded, timesRan, hf, List.count_cons, State.note, List.count_append, List.count_nil] at a ⊢
    grind
  · obtain ⟨u, hu⟩ := hg.asked h; exact ⟨u, by simp [State.note, hu]⟩
  · obtain ⟨v, hv⟩ := hg.asking u h; exact ⟨v, by simp [State.note, hv]⟩
  · obtain ⟨u, hu⟩ := h; exact hg.ret ⟨u, by simpa [State.note] using hu⟩

theorem good_running {x : State} (hg : Good x) {t : Nat} {w : Why} {d : Nat} {n : Nat} (hp : x.pc t = .running w d n) : Good (advance x t) := by
  rw [advance, hp]; dsimp only; split
  · cases w <;> keep x hg hp t
  · rename_i hf; exact good_ran hg (by rw [hp]; rfl) hf

theorem good_marking {x : State} (hg : Good x) {t : Nat} {w : Why} {d : Nat} {n : Nat} (hp : x.pc t = .marking w d n) : Good (advance x t) := by
  rw [advance, hp]; dsimp only; cases w <;> keep x hg hp t

theorem good_sealing {x : State} (hg : Good x) {t : Nat} (hp : x.pc t = .sealing) : Good (advance x t) := by
  rw [advance, hp]; dsimp only; keep x hg hp t

theorem good_closing {x : State} (hg : Good x) {t : Nat} (hp : x.pc t = .closing) : Good (advance x t) := by
  rw [advance, hp]; dsimp only; split <;> keep x hg hp t

theorem good_ownRunning {x : State} (hg : Good x) {t : Nat} (hp : x.pc t = .ownRunning) : Good (advance x t) := by
  rw [advance, hp]; dsimp only; split
  · keep x hg hp t
  · rename_i hf; exact good_ran hg (by rw [hp]; rfl) hf

theorem good_unlock {x : State} (hg : Good x) {t : Nat} {w : Why} (hp : x.pc t = .unlock w) : Good (advance x t) := by
  rw [advance, hp]; cases w <;> keep x hg hp t

theorem good_adding {x : State} (hg : Good x) {t : Nat} {td : Nat} (hp : x.pc t = .adding td) : Good (advance x t) := by
  rw [advance, hp]; dsimp only; split
  · rename_i hf
    have hl := free_iff hf
    keep x hg hp t
  · exact hg

theorem good_addHeld {x : State} (hg : Good x) {t : Nat} {td : Nat} (hp : x.pc t = .addHeld td) : Good (advance x t) := by
  rw [advance, hp]; dsimp only; split <;> keep x hg hp t

theorem good_query {x : State} (hg : Good x) {t : Nat} (hp : x.pc t = .query) : Good (advance x t) := by
  rw [advance, hp]; dsimp only; split <;> keep x hg hp t

theorem good_queryAsk {x : State} (hg : Good x) {t : Nat} (hp : x.pc t = .queryAsk) : Good (advance x t) := by
  rw [advance, hp]; dsimp only; split
  · rename_i hf
    have hl := free_iff hf
    keep x hg hp t
  · keep x hg hp t

theorem good_queryHeld {x : State} (hg : Good x) {t : Nat} (hp : x.pc t = .queryHeld) : Good (advance x t) := by
  rw [advance, hp]; dsimp only; keep x hg hp t

theorem good_dropping {x : State} (hg : Good x) {t : Nat} (hp : x.pc t = .dropping) : Good (advance x t) := by
  rw [advance, hp]; dsimp only; split <;> keep x hg hp t

theorem good_dropApply {x : State} (hg : Good x) {t : Nat} (hp : x.pc t = .dropApply) : Good (advance x t) := by
  rw [advance, hp]; dsimp only; split
  · rename_i hf
    have hl := free_iff hf
    keep x hg hp t
  · rename_i hf
    obtain ⟨u, hu⟩ := not_free hg hf
    have hw : x.queue ≠ 0 → ∃ v, v ∈ x.handles ∧ (if v = t then PC.leaving else x.pc v) ≠ .leaving := by
      intro _
      have hh := hg.ofLock u hu
      have hne : u ≠ t := by intro e; rw [e, hp] at hh; cases hh
      refine ⟨u, hg.owns u ?_, ?_⟩
      · intro e; rw [e] at hh; cases hh
      · rw [if_neg hne]; intro e; rw [e] at hh; cases hh
    keep x hg hp t

theorem good_left {x : State} (hg : Good x) {t : Nat} (hp : x.pc t = .leaving) : Good (x.goto t .idle) := by
  keep x hg hp t

theorem good_leaving {x : State} (hg : Good x) {t : Nat} (hp : x.pc t = .leaving) : Good (advance x t) := by
  have h0 := good_left hg hp
  have hq : x.queue ≠ 0 → ∃ u, u ∈ x.handles.erase t ∧ (x.goto t .idle).pc u ≠ .leaving := by
    intro h
    obtain ⟨u, h1, h2⟩ := hg.held h
    have hne : u ≠ t := by intro e; exact h2 (e ▸ hp)
    exact ⟨u, (List.mem_erase_of_ne hne).2 h1, by simp only [State.goto, if_neg hne]; exact h2⟩
  have ho : ∀ u, (x.goto t .idle).pc u ≠ .idle → u ∈ x.handles.erase t := by
    intro u h
    have hne : u ≠ t := by intro e; apply h; simp [State.goto, e]
    exact (List.mem_erase_of_ne hne).2 (h0.owns u h)
  have ht : t ∈ x.handles := hg.owns t (by rw [hp]; simp)
  rw [advance, hp]
  dsimp only
  split
  · rename_i he
    have he : x.handles.erase t = [] := by simpa [State.goto] using he
    have hi : ∀ u, (x.goto t .idle).pc u = .idle := by
      intro u
      by_cases h : (x.goto t .idle).pc u = .idle
      · exact h
      · have := ho u h; rw [he] at this; cases this
    have hz : x.queue = 0 := by
      by_cases h : x.queue = 0
      · exact h
      · obtain ⟨u, h1, _⟩ := hq h; rw [he] at h1; cases h1
    have hf : x.closed = true → x.finalizers = [] := by
      intro h
      by_cases h' : x.finalizers = []
      · exact h'
      · obtain ⟨u, hu⟩ := h0.done h h'; rw [hi u] at hu; cases hu
    have hpc : ∀ u, (State.last (State.goto { x with handles := x.handles.erase t } t .idle)).pc u = .idle := hi
    have hla : ∀ m, m ∈ (State.last (State.goto { x with handles := x.handles.erase t } t .idle)).trace ↔
        m ∈ x.trace ∨ (x.closed = false ∧ m ∈ x.finalizers.map Mark.ran) ∨ m = .gone := by
      intro m
      cases hc : x.closed <;> simp [State.last, State.goto, hz, hc]
    constructor
    · intro u h; rw [hpc u] at h; cases h
    · intro u h
      have := h0.ofLock u h
      rw [hi u] at this; cases this
    · exact hg.clean
    · intro u h; exact absurd (hpc u) h
    · intro td
      have a := hg.counts td
      simp only [timesAdded, timesRan, State.last, State.goto, hz, if_true, List.append_nil, List.count_append, List.count_nil] at a ⊢
      have e1 : ∀ l : List Nat, (l.map Mark.ran).count (Mark.added td) = 0 := by
        intro l; induction l with
        | nil => rfl
        | cons i l ih => simp [ih]
      have e2 : ∀ l : List Nat, (l.map Mark.ran).count (Mark.ran td) = l.count td := by
        intro l; induction l with
        | nil => rfl
        | cons i l ih => simp only [List.map_cons, List.count_cons, ih]; congr 1; grind
      cases hc : x.closed
      · simp [e1, e2, a]
      · simp [a, hf hc]
    · intro _ h; exact absurd rfl h
    · intro u h; rw [hpc u] at h; cases h
    · intro _; exact Or.inl rfl
    · intro u h; rw [hpc u] at h; cases h
    · intro _; exact Or.inr he
    · intro _; exact Or.inr he
    · intro h
      obtain ⟨u, hu⟩ := hg.asked h
      exact ⟨u, (hla _).2 (Or.inl hu)⟩
    · intro u h; rw [hpc u] at h; cases h
    · intro u v h; rw [hpc u] at h; cases h
    · intro u h; rw [hpc u] at h; cases h
    · intro u h; rw [hpc u] at h; cases h
    · intro u v h; rw [hpc u] at h; cases h
    · exact hg.queue1
    · intro h; exact absurd hz h
    · intro u h; rw [hpc u] at h; cases h
    · intro u; rw [hpc u]; rfl
    · intro h; exact absurd hz h
    · intro u h; rw [hpc u] at h; cases h
    · rintro ⟨u, hu⟩
      have hu := (hla _).1 hu
      refine hg.ret ⟨u, ?_⟩
      rcases hu with h | ⟨_, h⟩ | h
      · exact h
      · simp at h
      · cases h
    · intro _; exact Or.inl rfl
  · refine { h0 with owns := ho, closedBy := fun h => ?_, flagBy := fun h => ?_, held := hq }
    · rcases hg.closedBy h with h | h
      · exact Or.inl h
      · rw [h] at ht; cases ht
    · rcases hg.flagBy h with h | h
      · exact Or.inl h
      · rw [h] at ht; cases ht

theorem good_advance {x : State} (hg : Good x) (t : Nat) : Good (advance x t) := by
  cases hp : x.pc t with
  | idle => rw [advance, hp]; exact hg
  | panicked => rw [advance, hp]; exact hg
  | start => exact good_start hg hp
  | startApply => exact good_startApply hg hp
  | observe => exact good_observe hg hp
  | attempt => exact good_attempt hg hp
  | deferring => exact good_deferring hg hp
  | finish => exact good_finish hg hp
  | finishApply => exact good_finishApply hg hp
  | top w d => exact good_top hg hp
  | deliver w d n => exact good_deliver hg hp
  | running w d n => exact good_running hg hp
  | marking w d n => exact good_marking hg hp
  | sealing => exact good_sealing hg hp
  | closing => exact good_closing hg hp
  | ownRunning => exact good_ownRunning hg hp
  | unlock w => exact good_unlock hg hp
  | adding td => exact good_adding hg hp
  | addHeld td => exact good_addHeld hg hp
  | query => exact good_query hg hp
  | queryAsk => exact good_queryAsk hg hp
  | queryHeld => exact good_queryHeld hg hp
  | dropping => exact good_dropping hg hp
  | dropApply => exact good_dropApply hg hp
  | leaving => exact good_leaving hg hp

theorem good_step {x : State} (hg : Good x) (t : Nat) (a : Turn) : Good (step x t a) := by
  unfold step
  split
  · rename_i hp
    split
    · rename_i ht
      cases a with
      | go => exact hg
      | unsubscribe => keep x hg hp t
      | add td => keep x hg hp t
      | ask => keep x hg hp t
      | drop => keep x hg hp t
      | clone =>
        refine { hg with owns := fun u h => List.mem_cons_of_mem _ (hg.owns u h), closedBy := fun h => ?_, flagBy := fun h => ?_, held := fun h => ?_ }
        · rcases hg.closedBy h with h | h
          · exact Or.inl h
          · rw [h] at ht; cases ht
        · rcases hg.flagBy h with h | h
          · exact Or.inl h
          · rw [h] at ht; cases ht
        · obtain ⟨u, h1, h2⟩ := hg.held h
          exact ⟨u, List.mem_cons_of_mem _ h1, h2⟩
      | pass u =>
        dsimp only
        split
        · rename_i hu
          have ho : ∀ v, v ≠ t → v ∈ x.handles → v ∈ u :: x.handles.erase t := fun v h h' =>
            List.mem_cons_of_mem _ ((List.mem_erase_of_ne h).2 h')
          refine { hg with owns := fun v h => ho v ?_ (hg.owns v h), closedBy := fun h => ?_, flagBy := fun h => ?_, held := fun h => ?_ }
          · intro e; exact h (e ▸ hp)
          · rcases hg.closedBy h with h | h
            · exact Or.inl h
            · rw [h] at ht; cases ht
          · rcases hg.flagBy h with h | h
            · exact Or.inl h
            · rw [h] at ht; cases ht
          · exact ⟨u, List.mem_cons_self, by rw [hu]; simp⟩
        · exact hg
    · exact hg
  · exact good_advance hg t

theorem good_init (l : List Nat) : Good (init l) := by
  constructor <;> simp [init, PC.holds, PC.first, PC.late, PC.drained, PC.carries, PC.runs, PC.seen, PC.few, PC.marks, PC.asks, timesAdded, timesRan, Returned]

theorem good_run {x : State} (hg : Good x) (l : List (Nat × Turn)) : Good (run x l) := by
  induction l generalizing x with
  | nil => exact hg
  | cons a l ih => exact ih (good_step hg a.1 a.2)

end Rx.Handles
