import Verif.Lemmas.SharedHandles

/-!
# More lemmas on shared subscriptions used by several threads (C84)
-/

namespace Rx.Handles

open Rx.Spec.Handles

/-! ## What is seen -/

theorem heard_append (l : List Mark) (m : Mark) : heard (l ++ [m]) = (heard l).hear m := by simp [heard]

/-- What is true in all reachable states, of what is seen. -/
structure More (owners : List Nat) (x : State) : Prop where
  ran : ∀ td, Mark.ran td ∈ x.trace → x.closed = true
  over : x.handles = [] → owners ≠ [] → Mark.gone ∈ x.trace
  gone : Mark.gone ∈ x.trace → x.handles = [] ∧ x.closed = true
  dirty : Mark.dirty ∉ x.trace
  panic : Mark.panic ∉ x.trace
  hAsked : (heard x.trace).asked = true ↔ Asked x.trace
  hReturned : (heard x.trace).returned = true ↔ Returned x.trace
  sure : ∀ t, x.pc t = .queryAsk ∨ x.pc t = .queryHeld → (heard x.trace).sure t = false
  lie : (heard x.trace).lie = false

theorem more_quiet {o : List Nat} {x y : State} (hm : More o x) {t : Nat} (hi : t ∈ x.handles) (hc : x.closed = true → y.closed = true) (hh : y.handles = x.handles)
    (ht : y.trace = x.trace) (hpc : ∀ u, u ≠ t → y.pc u = x.pc u)
    (hq : y.pc t = .queryAsk ∨ y.pc t = .queryHeld → (heard x.trace).sure t = false) : More o y := by
  refine ⟨fun td h => hc (hm.ran td (ht ▸ h)), fun h => ht ▸ hm.over (hh ▸ h), fun h => ?_, ht ▸ hm.dirty, ht ▸ hm.panic, ht ▸ hm.hAsked, ht ▸ hm.hReturned, fun u h => ?_, ht ▸ hm.lie⟩
  · have := (hm.gone (ht ▸ h)).1; rw [this] at hi; cases hi
  · rw [ht]
    by_cases e : u = t
    · subst e; exact hq h
    · rw [hpc u e] at h; exact hm.sure u h

theorem more_mark {o : List Nat} {x y : State} (hm : More o x) {t : Nat} {m : Mark} (hi : t ∈ x.handles) (hc : x.closed = true → y.closed = true) (hh : y.handles = x.handles)
    (ht : y.trace = x.trace ++ [m]) (hpc : ∀ u, u ≠ t → y.pc u = x.pc u) (hq : y.pc t ≠ .queryAsk ∧ y.pc t ≠ .queryHeld)
    (hn : match m with
      | .unsub _ | .unsubRet _ | .added _ => True
      | .ask u => u = t
      | .ran _ => y.closed = true
      | .answer u b => u = t ∧ ((heard x.trace).sure t = true → b = true) ∧ (b = true → Asked x.trace)
      | _ => False) : More o y := by
  have hg : Mark.gone ∉ x.trace := fun h => by have := (hm.gone h).1; rw [this] at hi; cases hi
  constructor
  · intro td h
    rw [ht, List.mem_append, List.mem_singleton] at h
    rcases h with h | h
    · exact hc (hm.ran td h)
    · subst h; exact hn
  · intro h h'; exact absurd (hm.over (hh ▸ h) h') hg
  · intro h
    rw [ht, List.mem_append, List.mem_singleton] at h
    rcases h with h | h
    · exact absurd h hg
    · subst h; cases hn
  · rw [ht, List.mem_append, List.mem_singleton]; rintro (h | h)
    · exact hm.dirty h
    · subst h; cases hn
  · rw [ht, List.mem_append, List.mem_singleton]; rintro (h | h)
    · exact hm.panic h
    · subst h; cases hn
  · rw [ht, heard_append]
    have := hm.hAsked
    cases m <;> first | exact False.elim hn | (simp [Listener.hear, Asked, this]; done)
  · rw [ht, heard_append]
    have := hm.hReturned
    cases m <;> first | exact False.elim hn | (simp [Listener.hear, Returned, this]; done)
  · intro u h
    have e : u ≠ t := by rintro rfl; rcases h with h | h; exact hq.1 h; exact hq.2 h
    rw [hpc u e] at h
    have := hm.sure u h
    rw [ht, heard_append]
    cases m <;> first | exact False.elim hn | (simpa [Listener.hear] using this; done) | skip
    have h' : _ = t := hn
    subst h'
    simp only [Listener.hear]; rw [if_neg e]; exact this
  · rw [ht, heard_append]
    have h1 := hm.lie
    have h2 := hm.hAsked
    cases m with
    | answer u b =>
      obtain ⟨rfl, h3, h4⟩ := hn
      simp only [Listener.hear, h1, Bool.false_or]
      cases b
      · cases hs : (heard x.trace).sure u
        · rfl
        · cases h3 hs
      · simp [h2.2 (h4 rfl)]
    | _ => first | exact False.elim hn | simpa [Listener.hear] using h1

theorem heard_sure (l : List Mark) (t : Nat) : (heard l).sure t = true → Returned l := by
  have h : ∀ (l : List Mark) (h : Listener), (h.sure t = true → h.returned = true) →
      ((l.foldl .hear h).sure t = true → h.returned = true ∨ Returned l) := by
    intro l
    induction l with
    | nil => exact fun h h1 h2 => Or.inl (h1 h2)
    | cons m l ih =>
      intro h h1 h2
      have h3 : Returned l → Returned (m :: l) := fun ⟨u, hu⟩ => ⟨u, List.mem_cons_of_mem _ hu⟩
      have h4 := ih (h.hear m) (by cases m <;> simp only [Listener.hear] <;> first | exact h1 | exact fun _ => rfl | exact fun _ => trivial | (split; exact fun h => h; exact h1)) h2
      rcases h4 with h4 | h4
      · cases m <;> first | exact Or.inl h4 | exact Or.inr ⟨_, List.mem_cons_self⟩
      · exact Or.inr (h3 h4)
  intro h'
  rcases h l {} (fun h => h) h' with h | h
  · cases h
  · exact h

theorem heard_last (l : List Mark) (f : List Nat) : heard (l ++ f.map .ran ++ [.gone]) = heard l := by
  rw [heard_append]
  have h : ∀ (f : List Nat) (h : Listener), (f.map Mark.ran).foldl .hear h = h := by
    intro f
    induction f with
    | nil => exact fun _ => rfl
    | cons a f ih => exact fun h => ih h
  simp only [heard, List.foldl_append, h, Listener.hear]

theorem free_of {x : State} (hg : Good x) (h : x.lock = none) : x.free = true := by
  simp [State.free, h, hg.clean]

theorem more_advance {o : List Nat} {x : State} (hg : Good x) (hm : More o x) (t : Nat) (hb : x.pc t ≠ .idle) : More o (advance x t) := by
  have hi := hg.owns t hb
  have hne : x.handles ≠ [] := by intro h; rw [h] at hi; cases hi
  have hco : x.closed = true → Asked x.trace := fun h => by
    rcases hg.closedBy h with h | h
    · exact hg.asked h
    · exact absurd h hne
  have hfo : x.flag = true → Asked x.trace := fun h => by
    rcases hg.flagBy h with h | h
    · exact hg.asked h
    · exact absurd h hne
  have hrun := hg.runs t
  have hfew := hg.few t
  unfold advance
  cases hp : x.pc t with
  | idle => exact absurd hp hb
  | panicked => exact hm
  | start | observe | marking | sealing | dropping =>
    refine more_quiet hm (t := t) hi ?_ rfl rfl ?_ ?_
    · exact fun h => h
    · intro u e; simp [State.goto, e]
    · simp only [State.goto, if_pos]; intro h; repeat' split at h
      all_goals simp at h
  | startApply | attempt | dropApply | closing =>
    dsimp only; split
    all_goals
      refine more_quiet hm (t := t) hi ?_ rfl rfl ?_ ?_
      · first | exact fun h => h | exact fun _ => rfl
      · intro u e; simp [State.goto, State.take, e]
      · simp [State.goto]
  | deferring =>
    dsimp only; split
    all_goals
      refine more_quiet hm (t := t) hi ?_ rfl rfl ?_ ?_
      · first | exact fun h => h | exact fun _ => rfl
      · intro u e; simp [State.goto, State.take, e]
      · simp [State.goto]
  | finish | finishApply =>
    dsimp only; split
    all_goals first
      | (refine more_quiet hm (t := t) hi (fun h => h) rfl rfl ?_ ?_
         · intro u e; simp [State.goto, State.take, e]
         · simp [State.goto])
      | (refine more_mark hm (t := t) (m := .unsubRet t) hi (fun h => h) rfl rfl ?_ ?_ trivial
         · intro u e; simp [State.goto, State.note, e]
         · simp [State.goto])
  | top w d =>
    have hd : d ≠ maxDepth := by
      simp only [hp, PC.few, decide_eq_true_eq] at hfew
      simp only [maxDepth]; omega
    dsimp only; rw [if_neg hd]; split
    · cases w
      all_goals
        refine more_quiet hm (t := t) hi (fun h => h) rfl rfl ?_ ?_
        · intro u e; simp [State.goto, e]
        · simp [State.goto]
    · refine more_quiet hm (t := t) hi (fun h => h) rfl rfl ?_ ?_
      · intro u e; simp [State.goto, e]
      · simp [State.goto]
  | deliver w d n =>
    cases n with
    | zero =>
      refine more_quiet hm (t := t) hi (fun h => h) rfl rfl ?_ ?_
      · intro u e; simp [State.goto, e]
      · simp [State.goto]
    | succ n =>
      dsimp only; split
      all_goals
        refine more_quiet hm (t := t) hi ?_ rfl rfl ?_ ?_
        · first | exact fun h => h | exact fun _ => rfl
        · intro u e; simp [State.goto, State.take, e]
        · simp [State.goto]
  | running | ownRunning =>
    dsimp only
    rw [hp] at hrun
    have hcl := hrun rfl
    cases hf : x.finalizers with
    | nil =>
      dsimp only
      refine more_quiet hm (t := t) hi (fun h => h) rfl rfl ?_ ?_
      · intro u e; simp [State.goto, e]
      · simp [State.goto]
    | cons td rest =>
      dsimp only
      refine more_mark hm (t := t) (m := .ran td) hi (fun h => h) rfl rfl (fun u e => rfl) ?_ hcl
      simp [State.note, hp]
  | unlock w =>
    cases w
    case finish =>
      refine more_mark hm (t := t) (m := .unsubRet t) hi (fun h => h) rfl rfl ?_ ?_ trivial
      · intro u e; simp [State.goto, State.note, State.release, e]
      · simp [State.goto]
    all_goals
      refine more_quiet hm (t := t) hi (fun h => h) rfl rfl ?_ ?_
      · intro u e; simp [State.goto, State.release, e]
      · simp [State.goto]
  | adding td =>
    dsimp only; split
    · refine more_quiet hm (t := t) hi (fun h => h) rfl rfl ?_ ?_
      · intro u e; simp [State.goto, State.take, e]
      · simp [State.goto]
    · exact hm
  | addHeld td =>
    dsimp only; split
    · rename_i hcl
      have h1 : More o (x.note (.added td)) := by
        refine more_mark hm (t := t) (m := .added td) hi (fun h => h) rfl rfl (fun u e => rfl) ?_ trivial
        simp [State.note, hp]
      refine more_mark h1 (t := t) (m := .ran td) hi (fun h => h) rfl rfl ?_ ?_ hcl
      · intro u e; simp [State.goto, State.note, State.release, e]
      · simp [State.goto]
    · refine more_mark hm (t := t) (m := .added td) hi (fun h => h) rfl rfl ?_ ?_ trivial
      · intro u e; simp [State.goto, State.note, State.release, e]
      · simp [State.goto]
  | query =>
    dsimp only; split
    · rename_i hfl
      refine more_mark hm (t := t) (m := .answer t true) hi (fun h => h) rfl rfl ?_ ?_ ⟨rfl, fun _ => rfl, fun _ => ?_⟩
      · intro u e; simp [State.goto, State.note, e]
      · simp [State.goto]
      · simp only [Bool.or_eq_true] at hfl
        rcases hfl with h | h
        · exact hfo h
        · exact hg.asked h
    · rename_i hfl
      refine more_quiet hm (t := t) hi (fun h => h) rfl rfl ?_ (fun _ => ?_)
      · intro u e; simp [State.goto, e]
      · cases hs : (heard x.trace).sure t
        · rfl
        · exact absurd (by rw [hg.ret (heard_sure _ _ hs), Bool.or_true]) hfl
  | queryAsk =>
    have hs := hm.sure t (Or.inl hp)
    dsimp only; split
    · refine more_quiet hm (t := t) hi (fun h => h) rfl rfl ?_ ?_
      · intro u e; simp [State.goto, State.take, e]
      · exact fun _ => hs
    · refine more_mark hm (t := t) (m := .answer t false) hi (fun h => h) rfl rfl ?_ ?_ ⟨rfl, fun h => ?_, fun h => by cases h⟩
      · intro u e; simp [State.goto, State.note, e]
      · simp [State.goto]
      · rw [hs] at h; cases h
  | queryHeld =>
    have hs := hm.sure t (Or.inr hp)
    refine more_mark hm (t := t) (m := .answer t x.closed) hi (fun h => h) rfl rfl ?_ ?_ ⟨rfl, fun h => ?_, hco⟩
    · intro u e; simp [State.goto, State.note, State.release, e]
    · simp [State.goto]
    · rw [hs] at h; cases h
  | leaving =>
    have hgn : Mark.gone ∉ x.trace := fun h => hne (hm.gone h).1
    have h0 : ∀ u, u ∈ x.handles.erase t → u ∈ x.handles := fun u h => List.mem_of_mem_erase h
    dsimp only
    split
    · rename_i he
      have he : x.handles.erase t = [] := by simpa [State.goto] using he
      have hz : x.queue = 0 := by
        by_cases h : x.queue = 0
        · exact h
        · obtain ⟨u, h1, h2⟩ := hg.held h
          have hne : u ≠ t := by intro e; exact h2 (e ▸ hp)
          have := (List.mem_erase_of_ne hne).2 h1
          rw [he] at this; cases this
      obtain ⟨f, hf⟩ : ∃ f : List Nat, ({ x with handles := x.handles.erase t }.goto t .idle).last.trace = x.trace ++ f.map Mark.ran ++ [.gone] := by
        simp only [State.last, State.goto, hz, if_pos, List.append_nil]
        cases x.closed
        · exact ⟨x.finalizers, rfl⟩
        · exact ⟨[], rfl⟩
      have hh := heard_last x.trace f
      rw [← hf] at hh
      constructor
      · exact fun _ _ => rfl
      · intro _ _; rw [hf]; simp
      · exact fun _ => ⟨he, rfl⟩
      · rw [hf]; have := hm.dirty; simp [this]
      · rw [hf]; have := hm.panic; simp [this]
      · rw [hh, hm.hAsked, hf]; simp [Asked]
      · rw [hh, hm.hReturned, hf]; simp [Returned]
      · intro u h
        by_cases e : u = t
        · subst e; simp [State.last, State.goto] at h
        · rw [hh]; exact hm.sure u (by simpa [State.last, State.goto, e] using h)
      · rw [hh]; exact hm.lie
    · rename_i he
      refine ⟨hm.ran, fun h _ => ?_, fun h => absurd h hgn, hm.dirty, hm.panic, hm.hAsked, hm.hReturned, fun u h => ?_, hm.lie⟩
      · exact absurd (by rw [h]; rfl) he
      · by_cases e : u = t
        · subst e; simp [State.goto] at h
        · exact hm.sure u (by simpa [State.goto, e] using h)

theorem more_step {o : List Nat} {x : State} (hg : Good x) (hm : More o x) (t : Nat) (a : Turn) : More o (step x t a) := by
  unfold step
  split
  · rename_i hp
    split
    · rename_i hi
      have hgn : Mark.gone ∉ x.trace := fun h => by have := (hm.gone h).1; rw [this] at hi; cases hi
      cases a with
      | go => exact hm
      | unsubscribe =>
        refine more_mark hm (t := t) (m := .unsub t) hi (fun h => h) rfl rfl ?_ ?_ trivial
        · intro u e; simp [State.goto, State.note, e]
        · simp [State.goto]
      | add td =>
        refine more_quiet hm (t := t) hi (fun h => h) rfl rfl ?_ ?_
        · intro u e; simp [State.goto, e]
        · simp [State.goto]
      | ask =>
        refine more_mark hm (t := t) (m := .ask t) hi (fun h => h) rfl rfl ?_ ?_ rfl
        · intro u e; simp [State.goto, State.note, e]
        · simp [State.goto]
      | drop =>
        refine more_quiet hm (t := t) hi (fun h => h) rfl rfl ?_ ?_
        · intro u e; simp [State.goto, e]
        · simp [State.goto]
      | clone => exact ⟨hm.ran, fun h _ => (by cases h), fun h => absurd h hgn, hm.dirty, hm.panic, hm.hAsked, hm.hReturned, hm.sure, hm.lie⟩
      | pass u =>
        dsimp only; split
        · exact ⟨hm.ran, fun h _ => (by cases h), fun h => absurd h hgn, hm.dirty, hm.panic, hm.hAsked, hm.hReturned, hm.sure, hm.lie⟩
        · exact hm
    · exact hm
  · rename_i hp
    exact more_advance hg hm t hp

theorem more_init (o : List Nat) : More o (init o) := by
  refine ⟨?_, fun h h' => absurd h h', ?_, ?_, ?_, ?_, ?_, ?_, rfl⟩ <;> simp [init, heard, Asked, Returned]

theorem more_run {o : List Nat} {x : State} (hg : Good x) (hm : More o x) (l : List (Nat × Turn)) : More o (run x l) := by
  induction l generalizing x with
  | nil => exact hm
  | cons a l ih => exact ih (good_step hg a.1 a.2) (more_step hg hm a.1 a.2)

theorem closed_step {x : State} (t : Nat) (a : Turn) (h : x.closed = true) : (step x t a).closed = true := by
  unfold step advance
  repeat' split
  all_goals first
    | exact h
    | rfl
    | (cases a <;> first | exact h | (dsimp only; split <;> exact h))
    | (dsimp only; repeat' split) <;> first | exact h | rfl

theorem closed_run {x : State} (l : List (Nat × Turn)) (h : x.closed = true) : (run x l).closed = true := by
  induction l generalizing x with
  | nil => exact h
  | cons a l ih => exact ih (closed_step a.1 a.2 h)

theorem allRan_of {x : State} (hg : Good x) (hq : Quiet x) (hc : x.closed = true) : AllRan x.trace := by
  have hf : x.finalizers = [] := by
    by_cases h : x.finalizers = []
    · exact h
    · obtain ⟨t, ht⟩ := hg.done hc h; rw [hq t] at ht; cases ht
  intro td
  have := hg.counts td
  rw [hf] at this
  simpa using this.symm

/-! ## One thread goes on, the others rest -/

/-- How far it is from returning, apart from the teardowns it may have to run. -/
def PC.far : PC → Nat
  | .idle | .panicked => 0
  | .unlock .finish => 1
  | .top .finish d => if d = 0 then 7 else 2
  | .deliver .finish _ n => if n = 0 then 3 else 6
  | .marking .finish _ _ => 4
  | .running .finish _ _ => 5
  | .finishApply => 8
  | .finish => 9
  | .unlock .own => 10
  | .ownRunning => 11
  | .closing => 12
  | .sealing => 13
  | .top .own d => if d = 0 then 19 else 14
  | .deliver .own _ n => if n = 0 then 15 else 18
  | .marking .own _ _ => 16
  | .running .own _ _ => 17
  | .deferring => 20
  | .attempt => 21
  | .observe => 22
  | .unlock .start => 23
  | .top .start d => if d = 0 then 29 else 24
  | .deliver .start _ n => if n = 0 then 25 else 28
  | .marking .start _ _ => 26
  | .running .start _ _ => 27
  | .startApply => 30
  | .start => 31
  | .leaving => 1
  | .unlock .drop => 2
  | .top .drop d => if d = 0 then 8 else 3
  | .deliver .drop _ n => if n = 0 then 4 else 7
  | .marking .drop _ _ => 5
  | .running .drop _ _ => 6
  | .dropApply => 9
  | .dropping => 10
  | .addHeld _ => 2
  | .adding _ => 3
  | .queryHeld => 1
  | .queryAsk => 2
  | .query => 3

/-- The lock is not held by another thread. -/
def Can (x : State) (t : Nat) : Prop := x.lock = none ∨ x.lock = some t

/-- It is in `unsubscribe`, and has not found the lock taken. -/
def PC.calls : PC → Bool
  | .start | .startApply | .observe | .attempt | .finish | .finishApply | .sealing | .closing | .ownRunning => true
  | .top w _ | .deliver w _ _ | .running w _ _ | .marking w _ _ | .unlock w => w != .drop
  | _ => false

/-- It is in `drop`. -/
def PC.drops : PC → Bool
  | .dropping | .dropApply | .leaving => true
  | .top w _ | .deliver w _ _ | .running w _ _ | .marking w _ _ | .unlock w => w == .drop
  | _ => false

/-- What one step of it does. -/
structure Forth (x y : State) (t : Nat) : Prop where
  can : Can y t
  less : (y.pc t).far + y.finalizers.length < (x.pc t).far + x.finalizers.length
  others : ∀ u, u ≠ t → y.pc u = x.pc u
  calls : (x.pc t).calls = true → (y.pc t).calls = true ∨ (y.pc t = .idle ∧ y.queue = 0 ∧ y.observed = true)
  drops : (x.pc t).drops = true → (x.pc t = .leaving → x.queue = 0) →
    ((y.pc t).drops = true ∧ (y.pc t = .leaving → y.queue = 0) ∨ (y.pc t = .idle ∧ y.queue = 0)) ∧ (x.observed = true → y.observed = true)

theorem forth {x : State} (hg : Good x) (t : Nat) (hb : x.pc t ≠ .idle) (hc : Can x t) : Forth x (advance x t) t := by
  have hfew := hg.few t
  have hdr := hg.drained t
  have hl := hg.ofLock t
  have hl' := hg.lockOf t
  have hseen := hg.seen t
  have hlate := hg.lateBy t
  have hq := hg.queue1
  have hfree : (x.pc t).holds = false → x.free = true := by
    intro h
    refine free_of hg ?_
    rcases hc with h' | h'
    · exact h'
    · rw [hl h'] at h; cases h
  unfold advance
  cases hp : x.pc t with
  | idle => exact absurd hp hb
  | panicked => rw [hp] at hfew; cases hfew
  | top w d =>
    rw [hp] at hfew hdr hlate hl'
    simp only [PC.few, decide_eq_true_eq] at hfew
    have hk := hl' rfl
    have hd : d ≠ maxDepth := by simp only [maxDepth]; omega
    dsimp only; rw [if_neg hd]
    by_cases h0 : x.queue = 0
    · rw [if_pos h0]
      cases w <;> (refine ⟨Or.inr hk, ?_, ?_, ?_, ?_⟩ <;> simp [State.goto, hp, PC.far, PC.calls, PC.drops]) <;> first | (split <;> omega) | (intro u h1 h2; exact absurd h2 h1) | exact h0 | skip
    · rw [if_neg h0]
      have hd0 : d = 0 := by
        by_cases h : d = 0
        · exact h
        · cases w <;> exact absurd (hdr (by simp [PC.drained, h])) h0
      cases w <;> (refine ⟨Or.inr hk, ?_, ?_, ?_, ?_⟩ <;> simp [State.goto, hp, PC.far, PC.calls, PC.drops, hd0, h0]) <;> first | (intro u h1 h2; exact absurd h2 h1) | skip
  | deliver w d n =>
    rw [hp] at hfew hdr hlate hl'
    simp only [PC.few, Bool.and_eq_true, decide_eq_true_eq] at hfew
    have hk := hl' rfl
    cases n with
    | zero => cases w <;> (refine ⟨Or.inr hk, ?_, ?_, ?_, ?_⟩ <;> simp [State.goto, hp, PC.far, PC.calls, PC.drops]) <;> (intro u h1 h2; exact absurd h2 h1)
    | succ n =>
      dsimp only
      split
      all_goals cases w <;> (refine ⟨Or.inr hk, ?_, ?_, ?_, ?_⟩ <;> simp [State.goto, hp, PC.far, PC.calls, PC.drops]) <;> (intro u h1 h2; exact absurd h2 h1)
  | marking w d n =>
    rw [hp] at hfew hdr hlate hl'
    simp only [PC.few, Bool.and_eq_true, decide_eq_true_eq] at hfew
    have hk := hl' rfl
    cases w <;> (refine ⟨Or.inr hk, ?_, ?_, ?_, ?_⟩ <;> simp [State.goto, hp, PC.far, PC.calls, PC.drops, hfew.2]) <;> (intro u h1 h2; exact absurd h2 h1)
  | running w d n =>
    rw [hp] at hl'
    have hk := hl' rfl
    dsimp only
    cases hf : x.finalizers with
    | nil => cases w <;> (refine ⟨Or.inr hk, ?_, ?_, ?_, ?_⟩ <;> simp [State.goto, hp, PC.far, PC.calls, PC.drops, hf]) <;> (intro u h1 h2; exact absurd h2 h1)
    | cons td rest => cases w <;> (refine ⟨Or.inr hk, ?_, ?_, ?_, ?_⟩ <;> simp [State.note, hp, PC.far, PC.calls, PC.drops, hf])
  | ownRunning =>
    rw [hp] at hl'
    have hk := hl' rfl
    dsimp only
    cases hf : x.finalizers with
    | nil => (refine ⟨Or.inr hk, ?_, ?_, ?_, ?_⟩ <;> simp [State.goto, hp, PC.far, PC.calls, PC.drops, hf]) <;> first | (intro u h1 h2; exact absurd h2 h1) | decide
    | cons td rest => refine ⟨Or.inr hk, ?_, ?_, ?_, ?_⟩ <;> simp [State.note, hp, PC.far, PC.calls, PC.drops, hf]
  | start | observe | sealing =>
    refine ⟨?_, ?_, ?_, ?_, ?_⟩
    · exact hc
    all_goals (simp only [State.goto, hp, if_pos]; try split) <;> simp [PC.far, PC.calls, PC.drops]
    all_goals (intro u h1 h2; exact absurd h2 h1)
  | closing =>
    dsimp only; split <;> (refine ⟨hc, ?_, ?_, ?_, ?_⟩ <;> simp [State.goto, hp, PC.far, PC.calls, PC.drops]) <;> first | (intro u h1 h2; exact absurd h2 h1) | decide
  | startApply | attempt | dropApply | queryAsk | adding =>
    rw [hp] at hfree
    have hf := hfree rfl
    dsimp only
    rw [if_pos hf]
    (refine ⟨Or.inr rfl, ?_, ?_, ?_, ?_⟩ <;> simp [State.goto, State.take, hp, PC.far, PC.calls, PC.drops]) <;> first | (intro u h1 h2; exact absurd h2 h1) | decide
  | finishApply =>
    rw [hp] at hfree
    have hf := hfree rfl
    dsimp only
    rw [if_pos hf]
    (refine ⟨Or.inr rfl, ?_, ?_, ?_, ?_⟩ <;> simp [State.goto, State.take, hp, PC.far, PC.calls, PC.drops]) <;> first | (intro u h1 h2; exact absurd h2 h1) | decide
  | deferring =>
    dsimp only
    split <;> (refine ⟨hc, ?_, ?_, ?_, ?_⟩ <;> simp [State.goto, hp, PC.far, PC.calls, PC.drops]) <;> (intro u h1 h2; exact absurd h2 h1)
  | finish =>
    rw [hp] at hseen
    have hs := hseen rfl
    dsimp only
    split
    · rename_i h0
      (refine ⟨hc, ?_, ?_, ?_, ?_⟩ <;> simp [State.goto, State.note, hp, PC.far, PC.calls, PC.drops, h0, hs]) <;> (intro u h1 h2; exact absurd h2 h1)
    · (refine ⟨hc, ?_, ?_, ?_, ?_⟩ <;> simp [State.goto, hp, PC.far, PC.calls, PC.drops]) <;> (intro u h1 h2; exact absurd h2 h1)
  | unlock w =>
    rw [hp] at hdr hlate
    have h0 := hdr rfl
    have hs := hlate rfl
    cases w <;> (refine ⟨Or.inl rfl, ?_, ?_, ?_, ?_⟩ <;> simp [State.goto, State.note, State.release, hp, PC.far, PC.calls, PC.drops, h0, hs]) <;> first | (intro u h1 h2; exact absurd h2 h1) | decide
  | addHeld td =>
    dsimp only
    split <;> (refine ⟨Or.inl rfl, ?_, ?_, ?_, ?_⟩ <;> simp [State.goto, State.note, State.release, hp, PC.far, PC.calls, PC.drops]) <;> first | (intro u h1 h2; exact absurd h2 h1) | omega
  | query =>
    dsimp only
    split <;> (refine ⟨hc, ?_, ?_, ?_, ?_⟩ <;> simp [State.goto, State.note, hp, PC.far, PC.calls, PC.drops]) <;> (intro u h1 h2; exact absurd h2 h1)
  | queryHeld =>
    (refine ⟨Or.inl rfl, ?_, ?_, ?_, ?_⟩ <;> simp [State.goto, State.note, State.release, hp, PC.far, PC.calls, PC.drops]) <;> (intro u h1 h2; exact absurd h2 h1)
  | dropping =>
    by_cases h0 : x.queue = 0
    · (refine ⟨hc, ?_, ?_, ?_, ?_⟩ <;> simp [State.goto, hp, PC.far, PC.calls, PC.drops, h0]) <;> (intro u h1 h2; exact absurd h2 h1)
    · (refine ⟨hc, ?_, ?_, ?_, ?_⟩ <;> simp [State.goto, hp, PC.far, PC.calls, PC.drops, h0]) <;> (intro u h1 h2; exact absurd h2 h1)
  | leaving =>
    dsimp only
    split <;> (refine ⟨hc, ?_, ?_, ?_, ?_⟩ <;> simp [State.goto, State.last, hp, PC.far, PC.calls, PC.drops]) <;> first | (intro u h1 h2; exact absurd h2 h1) | omega | skip

theorem run_go (x : State) (t : Nat) (k : Nat) (hb : x.pc t ≠ .idle) :
    run x (List.replicate (k + 1) (t, .go)) = run (advance x t) (List.replicate k (t, .go)) := by
  show run (step x t .go) _ = _
  rw [step, if_neg hb]

theorem run_rest (x : State) (t : Nat) (k : Nat) (hb : x.pc t = .idle) : run x (List.replicate k (t, .go)) = x := by
  induction k with
  | zero => rfl
  | succ k ih =>
    have : step x t .go = x := by unfold step; rw [if_pos hb]; split <;> rfl
    show run (step x t .go) _ = _
    rw [this, ih]

/-- A thread that is not kept from the lock returns. -/
theorem returns {x : State} (hg : Good x) (t : Nat) (hc : Can x t) :
    ∃ k, (run x (List.replicate k (t, .go))).pc t = .idle ∧ ∀ u, u ≠ t → (run x (List.replicate k (t, .go))).pc u = x.pc u := by
  generalize hn : (x.pc t).far + x.finalizers.length = n
  induction n using Nat.strongRecOn generalizing x with
  | _ n ih =>
    by_cases hb : x.pc t = .idle
    · exact ⟨0, hb, fun _ _ => rfl⟩
    · have hf := forth hg t hb hc
      have hg' : Good (advance x t) := good_advance hg t
      obtain ⟨k, h1, h2⟩ := ih _ (by rw [← hn]; exact hf.less) hg' hf.can rfl
      refine ⟨k + 1, ?_, fun u hu => ?_⟩
      · rw [run_go x t k hb]; exact h1
      · rw [run_go x t k hb, h2 u hu, hf.others u hu]

/-- Once it has returned from `unsubscribe`, nothing is deferred. -/
theorem called {x : State} (hg : Good x) (t : Nat) (hc : Can x t)
    (h : (x.pc t).calls = true ∨ (x.pc t = .idle ∧ x.queue = 0 ∧ x.observed = true)) (k : Nat)
    (hi : (run x (List.replicate k (t, .go))).pc t = .idle) :
    (run x (List.replicate k (t, .go))).queue = 0 ∧ (run x (List.replicate k (t, .go))).observed = true ∧
      ∀ u, u ≠ t → (run x (List.replicate k (t, .go))).pc u = x.pc u := by
  induction k generalizing x with
  | zero =>
    rcases h with h | h
    · have hi : x.pc t = .idle := hi
      rw [hi] at h; cases h
    · exact ⟨h.2.1, h.2.2, fun _ _ => rfl⟩
  | succ k ih =>
    by_cases hb : x.pc t = .idle
    · rw [run_rest x t _ hb]
      rcases h with h | h
      · rw [hb] at h; cases h
      · exact ⟨h.2.1, h.2.2, fun _ _ => rfl⟩
    · have hf := forth hg t hb hc
      rw [run_go x t k hb] at hi ⊢
      rcases h with h | h
      · obtain ⟨h1, h2, h3⟩ := ih (good_advance hg t) hf.can (hf.calls h) hi
        exact ⟨h1, h2, fun u hu => by rw [h3 u hu, hf.others u hu]⟩
      · exact absurd h.1 hb

/-- Once it has returned from `drop`, nothing is deferred. -/
theorem dropped {x : State} (hg : Good x) (t : Nat) (hc : Can x t)
    (h : (x.pc t).drops = true ∧ (x.pc t = .leaving → x.queue = 0) ∨ (x.pc t = .idle ∧ x.queue = 0)) (k : Nat)
    (hi : (run x (List.replicate k (t, .go))).pc t = .idle) :
    (run x (List.replicate k (t, .go))).queue = 0 ∧ (x.observed = true → (run x (List.replicate k (t, .go))).observed = true) ∧
      ∀ u, u ≠ t → (run x (List.replicate k (t, .go))).pc u = x.pc u := by
  induction k generalizing x with
  | zero =>
    rcases h with h | h
    · have hi : x.pc t = .idle := hi
      rw [hi] at h; cases h.1
    · exact ⟨h.2, fun h => h, fun _ _ => rfl⟩
  | succ k ih =>
    by_cases hb : x.pc t = .idle
    · rw [run_rest x t _ hb]
      rcases h with h | h
      · rw [hb] at h; cases h.1
      · exact ⟨h.2, fun h => h, fun _ _ => rfl⟩
    · have hf := forth hg t hb hc
      rw [run_go x t k hb] at hi ⊢
      rcases h with h | h
      · obtain ⟨h1, h2, h3⟩ := ih (good_advance hg t) hf.can (hf.drops h.1 h.2).1 hi
        exact ⟨h1, fun ho => h2 ((hf.drops h.1 h.2).2 ho), fun u hu => by rw [h3 u hu, hf.others u hu]⟩
      · exact absurd h.1 hb

theorem quiet_lock {x : State} (hg : Good x) (hq : Quiet x) : x.lock = none := by
  cases h : x.lock with
  | none => rfl
  | some t => have := hg.ofLock t h; rw [hq t] at this; cases this

theorem run_append (x : State) (l m : List (Nat × Turn)) : run x (l ++ m) = run (run x l) m := by simp [run]

/-- Whatever is going on can be finished. -/
theorem settles {x : State} (hg : Good x) (l : List Nat) (hl : ∀ t, x.pc t ≠ .idle → t ∈ l) :
    ∃ m : List Nat, Quiet (run x (m.map (·, .go))) := by
  have rep : ∀ (k t : Nat), (List.replicate k t).map (fun t => (t, Turn.go)) = List.replicate k (t, Turn.go) := by
    intro k t; simp
  have key : ∀ (l : List Nat) (x : State), Good x → (∀ t, x.pc t ≠ .idle → t ∈ l) → x.lock = none →
      ∃ m : List Nat, Quiet (run x (m.map (·, .go))) := by
    intro l
    induction l with
    | nil =>
      intro x hg hl _
      refine ⟨[], fun t => ?_⟩
      show x.pc t = .idle
      by_cases h : x.pc t = .idle
      · exact h
      · cases hl t h
    | cons t l ih =>
      intro x hg hl hn
      obtain ⟨k, h1, h2⟩ := returns hg t (Or.inl hn)
      have hg' := good_run hg (List.replicate k (t, .go))
      have hn' : (run x (List.replicate k (t, .go))).lock = none := by
        cases h : (run x (List.replicate k (t, .go))).lock with
        | none => rfl
        | some u =>
          have hu := hg'.ofLock u h
          by_cases e : u = t
          · subst e; rw [h1] at hu; cases hu
          · rw [h2 u e] at hu
            have := hg.lockOf u hu; rw [hn] at this; cases this
      obtain ⟨m, hm⟩ := ih _ hg' (fun u hu => by
        by_cases e : u = t
        · subst e; exact absurd h1 hu
        · rw [h2 u e] at hu
          exact (List.mem_cons.1 (hl u hu)).resolve_left e) hn'
      exact ⟨List.replicate k t ++ m, by rw [List.map_append, run_append, rep]; exact hm⟩
  cases h : x.lock with
  | none => exact key l x hg hl h
  | some t =>
    obtain ⟨k, h1, h2⟩ := returns hg t (Or.inr h)
    have hg' := good_run hg (List.replicate k (t, .go))
    have hn' : (run x (List.replicate k (t, .go))).lock = none := by
      cases h3 : (run x (List.replicate k (t, .go))).lock with
      | none => rfl
      | some u =>
        have hu := hg'.ofLock u h3
        by_cases e : u = t
        · subst e; rw [h1] at hu; cases hu
        · rw [h2 u e] at hu
          have := hg.lockOf u hu; rw [h] at this; cases this; exact absurd rfl e
    obtain ⟨m, hm⟩ := key l _ hg' (fun u hu => by
      by_cases e : u = t
      · subst e; exact absurd h1 hu
      · rw [h2 u e] at hu; exact hl u hu) hn'
    exact ⟨List.replicate k t ++ m, by rw [List.map_append, run_append, rep]; exact hm⟩

theorem closed_of {x : State} (hg : Good x) (hq : Quiet x) (ho : x.observed = true) (h0 : x.queue = 0) : x.closed = true := by
  rcases hg.carried ho with h | h | ⟨t, h⟩
  · exact h
  · exact absurd h0 h
  · rw [hq t] at h; cases h

/-! ## Calls that keep out of each other's way -/

theorem holder {p : PC} (h : p.holds = true) (h' : p.late = false) : looking p = true := by
  cases p <;> simp_all [PC.holds, PC.late, looking]

/-- Nothing has been deferred, or is going to be. -/
def Clear (x : State) : Prop := x.queue = 0 ∧ ∀ t, x.pc t ≠ .deferring

theorem clear_goto {x y : State} {t : Nat} {p : PC} (h : Clear x) (hp : p ≠ .deferring) (hpc : ∀ u, y.pc u = if u = t then p else x.pc u)
    (hq : y.queue = 0) : Clear y := by
  refine ⟨hq, fun u => ?_⟩
  rw [hpc]; split
  · exact hp
  · exact h.2 u

theorem clear_step {x : State} (hg : Good x) (ha : Apart x) (hc : Clear x) (t : Nat) (a : Turn) : Clear (step x t a) := by
  unfold step
  split
  · split
    · cases a with
      | go => exact hc
      | pass u => dsimp only; split <;> exact hc
      | clone => exact hc
      | unsubscribe => exact clear_goto hc (p := .start) (by simp) (fun _ => rfl) hc.1
      | add td => exact clear_goto hc (p := .adding td) (by simp) (fun _ => rfl) hc.1
      | ask => exact clear_goto hc (p := .query) (by simp) (fun _ => rfl) hc.1
      | drop => exact clear_goto hc (p := .dropping) (by simp) (fun _ => rfl) hc.1
    · exact hc
  · unfold advance
    have h0 := hc.1
    cases hp : x.pc t with
    | deferring => exact absurd hp (hc.2 t)
    | attempt =>
      dsimp only
      split
      · exact clear_goto hc (p := .top .own 0) (by simp) (fun _ => rfl) hc.1
      · rename_i hf
        obtain ⟨u, hu⟩ := not_free hg hf
        have h1 := hg.ofLock u hu
        have h2 : (x.pc u).late = false := by
          cases h : (x.pc u).late
          · rfl
          · have := hg.late u t h; rw [hp] at this; cases this
        exact absurd ⟨by rw [hp]; rfl, holder h1 h2⟩ (ha t u)
    | idle | panicked => exact hc
    | leaving =>
      dsimp only; split <;> exact clear_goto hc (p := .idle) (by simp) (fun _ => rfl) hc.1
    | addHeld td =>
      dsimp only; split <;> exact clear_goto hc (p := .idle) (by simp) (fun _ => rfl) hc.1
    | start => exact clear_goto hc (p := if x.queue = 0 then .observe else .startApply) (by split <;> simp) (fun _ => rfl) hc.1
    | observe => exact clear_goto hc (p := if x.observed then .finish else .attempt) (by split <;> simp) (fun _ => rfl) hc.1
    | dropping => exact clear_goto hc (p := if x.queue = 0 then .leaving else .dropApply) (by split <;> simp) (fun _ => rfl) hc.1
    | running w d n =>
      dsimp only
      cases x.finalizers with
      | nil => exact clear_goto hc (p := .marking w d n) (by simp) (fun _ => rfl) hc.1
      | cons td rest => exact hc
    | ownRunning =>
      dsimp only
      cases x.finalizers with
      | nil => exact clear_goto hc (p := .unlock .own) (by simp) (fun _ => rfl) hc.1
      | cons td rest => exact hc
    | top w d =>
      dsimp only
      rw [if_pos h0]
      split
      · exact clear_goto hc (p := .panicked) (by simp) (fun _ => rfl) hc.1
      · exact clear_goto hc (p := match w with | .own => .sealing | w => .unlock w) (by cases w <;> simp) (fun _ => by cases w <;> rfl) hc.1
    | deliver w d n =>
      cases n with
      | zero => exact clear_goto hc (p := .top w (d + 1)) (by simp) (fun _ => rfl) hc.1
      | succ n =>
        dsimp only; split
        · exact clear_goto hc (p := .marking w d n) (by simp) (fun _ => rfl) hc.1
        · exact clear_goto hc (p := .running w d n) (by simp) (fun _ => rfl) hc.1
    | marking w d n => exact clear_goto hc (p := .deliver w d n) (by simp) (fun _ => rfl) hc.1
    | sealing => exact clear_goto hc (p := .closing) (by simp) (fun _ => rfl) hc.1
    | unlock w => cases w <;> first
      | exact clear_goto hc (p := .observe) (by simp) (fun _ => rfl) hc.1
      | exact clear_goto hc (p := .finish) (by simp) (fun _ => rfl) hc.1
      | exact clear_goto hc (p := .idle) (by simp) (fun _ => rfl) hc.1
      | exact clear_goto hc (p := .leaving) (by simp) (fun _ => rfl) hc.1
    | queryHeld => exact clear_goto hc (p := .idle) (by simp) (fun _ => rfl) hc.1
    | startApply =>
      dsimp only; split
      · exact clear_goto hc (p := .top .start 0) (by simp) (fun _ => rfl) hc.1
      · exact clear_goto hc (p := .observe) (by simp) (fun _ => rfl) hc.1
    | finish =>
      dsimp only; rw [if_pos h0]
      exact clear_goto hc (p := .idle) (by simp) (fun _ => rfl) hc.1
    | finishApply =>
      dsimp only; split
      · exact clear_goto hc (p := .top .finish 0) (by simp) (fun _ => rfl) hc.1
      · exact clear_goto hc (p := .idle) (by simp) (fun _ => rfl) hc.1
    | closing =>
      dsimp only; split
      · exact clear_goto hc (p := .unlock .own) (by simp) (fun _ => rfl) hc.1
      · exact clear_goto hc (p := .ownRunning) (by simp) (fun _ => rfl) hc.1
    | adding td =>
      dsimp only; split
      · exact clear_goto hc (p := .addHeld td) (by simp) (fun _ => rfl) hc.1
      · exact hc
    | query =>
      dsimp only; split
      · exact clear_goto hc (p := .idle) (by simp) (fun _ => rfl) hc.1
      · exact clear_goto hc (p := .queryAsk) (by simp) (fun _ => rfl) hc.1
    | queryAsk =>
      dsimp only; split
      · exact clear_goto hc (p := .queryHeld) (by simp) (fun _ => rfl) hc.1
      · exact clear_goto hc (p := .idle) (by simp) (fun _ => rfl) hc.1
    | dropApply =>
      dsimp only; split
      · exact clear_goto hc (p := .top .drop 0) (by simp) (fun _ => rfl) hc.1
      · exact clear_goto hc (p := .leaving) (by simp) (fun _ => rfl) hc.1

theorem clear_run {x : State} (hg : Good x) (hc : Clear x) (l : List (Nat × Turn)) (ha : ∀ p, p <+: l → Apart (run x p)) :
    Clear (run x l) := by
  induction l generalizing x with
  | nil => exact hc
  | cons a l ih =>
    refine ih (good_step hg a.1 a.2) (clear_step hg (ha [] List.nil_prefix) hc a.1 a.2) fun p hp => ?_
    exact ha (a :: p) (List.cons_prefix_cons.2 ⟨rfl, hp⟩)

end Rx.Handles
