import Verif.Lemmas.SubjectThreadsPut
import Verif.Spec.CachingThreads

/-!
# Several threads that share a subject that remembers values
-/

namespace Rx.Keeping

open Closing (Dest)
open Caching (Memory)

variable {V S I E : Type} {M : Memory V I} {D : Dest S I E} {debug : Bool} {m : V} {s : Nat → S} {x : State V S I E} {t : Nat}

/-! ## Traces -/

theorem inner_append (a b : List (Mark I E)) : inner (a ++ b) = inner a ++ inner b := by simp [inner]
theorem sent_append (a b : List (Mark I E)) : sent (a ++ b) = sent a ++ sent b := by simp [sent]
theorem heardBy_append (i : Nat) (a b : List (Mark I E)) : heardBy i (a ++ b) = heardBy i a ++ heardBy i b := by simp [heardBy]
theorem replaysTo_append (i : Nat) (a b : List (Mark I E)) : replaysTo i (a ++ b) = replaysTo i a ++ replaysTo i b := by
  simp [replaysTo]
theorem recall_append (a b : List (Mark I E)) :
    recall M m (a ++ b) = ((sent b).map Prod.snd).foldl M.write (recall M m a) := by
  simp [recall, sent_append]
theorem givesTo_append (i : Nat) (a b : List (Crowd.Mark I E)) :
    Crowd.givesTo i (a ++ b) = Crowd.givesTo i a ++ Crowd.givesTo i b := by simp [Crowd.givesTo]

theorem inner_core (b : List (Crowd.Mark I E)) : inner (b.map .core) = b := by
  induction b with
  | nil => rfl
  | cons m b ih => simp only [List.map_cons, inner, List.filterMap_cons]; exact congrArg _ ih

theorem replaysTo_core (i : Nat) (b : List (Crowd.Mark I E)) : replaysTo i (b.map .core) = [] := by
  induction b with
  | nil => rfl
  | cons m b ih => simpa only [List.map_cons, replaysTo, List.filterMap_cons] using ih

theorem heardBy_core (i : Nat) (b : List (Crowd.Mark I E)) : heardBy i (b.map .core) = Crowd.givesTo i b := by
  induction b with
  | nil => rfl
  | cons m b ih =>
    simp only [List.map_cons, heardBy, Crowd.givesTo, List.filterMap_cons] at ih ⊢
    cases m with
    | give k j n => by_cases h : j = i <;> simp [h, ih]
    | call k t op => simpa using ih
    | ret k => simpa using ih
    | answer t b => simpa using ih

theorem sent_core {b : List (Crowd.Mark I E)} (h : ∀ k u op, .call k u op ∉ b) : sent (b.map .core) = [] := by
  induction b with
  | nil => rfl
  | cons m b ih =>
    have ih := ih fun k u op hk => h k u op (List.mem_cons_of_mem _ hk)
    simp only [List.map_cons, sent, List.filterMap_cons] at ih ⊢
    cases m with
    | call k t op => exact absurd List.mem_cons_self (h k t op)
    | give k j n => simpa using ih
    | ret k => simpa using ih
    | answer t b => simpa using ih

theorem inner_replays (i : Nat) (vs : List I) : inner (vs.map (Mark.replay i) : List (Mark I E)) = [] := by
  induction vs with
  | nil => rfl
  | cons v vs ih => simpa only [List.map_cons, inner, List.filterMap_cons] using ih

theorem sent_replays (i : Nat) (vs : List I) : sent (vs.map (Mark.replay i) : List (Mark I E)) = [] := by
  induction vs with
  | nil => rfl
  | cons v vs ih => simpa only [List.map_cons, sent, List.filterMap_cons] using ih

theorem replaysTo_replays (i j : Nat) (vs : List I) :
    replaysTo i (vs.map (Mark.replay j) : List (Mark I E)) = if j = i then vs else [] := by
  induction vs with
  | nil => simp [replaysTo]
  | cons v vs ih =>
    simp only [List.map_cons, replaysTo, List.filterMap_cons] at ih ⊢
    by_cases h : j = i <;> simp [h] at ih ⊢ <;> exact ih

theorem heardBy_replays (i j : Nat) (vs : List I) :
    heardBy i (vs.map (Mark.replay j) : List (Mark I E)) = if j = i then vs.map .next else [] := by
  induction vs with
  | nil => simp [heardBy]
  | cons v vs ih =>
    simp only [List.map_cons, heardBy, List.filterMap_cons] at ih ⊢
    by_cases h : j = i <;> simp [h] at ih ⊢ <;> exact ih

theorem inner_one (m : Crowd.Mark I E) : inner [.core m] = [m] := rfl
theorem replaysTo_one (i : Nat) (m : Crowd.Mark I E) : replaysTo i [.core m] = [] := rfl
theorem heardBy_one (i : Nat) (m : Crowd.Mark I E) : heardBy i [.core m] = Crowd.givesTo i [m] := heardBy_core i [m]

theorem mem_inner {tr : List (Mark I E)} {m : Crowd.Mark I E} : m ∈ inner tr ↔ .core m ∈ tr := by
  simp only [inner, List.mem_filterMap]
  constructor
  · rintro ⟨n, h1, h2⟩
    cases n with
    | core n => cases h2; exact h1
    | _ => cases h2
  · exact fun h => ⟨_, h, rfl⟩

theorem split_old {α : Type} {x b a c : List α} {m : α} (h : x ++ b = a ++ m :: c) (hm : m ∉ b) :
    ∃ c', x = a ++ m :: c' := by
  rcases List.append_eq_append_iff.1 h with ⟨as, ha, hb⟩ | ⟨bs, ha, hb⟩
  · exact absurd (by rw [hb]; simp) hm
  · cases bs with
    | nil => exact absurd (by simp at hb; rw [← hb]; simp) hm
    | cons m' bs =>
      simp only [List.cons_append, List.cons.injEq] at hb
      exact ⟨bs, by rw [ha, hb.1]⟩

theorem split_new {α : Type} {x a c : List α} {m : α} (h : x ++ [m] = a ++ m :: c) (hm : m ∉ x) : a = x := by
  rcases List.append_eq_append_iff.1 h with ⟨as, ha, hb⟩ | ⟨bs, ha, hb⟩
  · cases as with
    | nil => simpa using ha
    | cons m' as =>
      have := congrArg List.length hb
      simp at this
  · cases bs with
    | nil => simpa using ha.symm
    | cons m' bs =>
      simp only [List.cons_append, List.cons.injEq] at hb
      exact absurd (by rw [ha, hb.1]; simp) hm

/-! ## What a turn of the publish subject adds -/

theorem turn_trace (hD : D.Contract) {s : Nat → S} {x : Crowd.State S I E} (h : Crowd.Inv D s x) (t : Nat) (a : Crowd.Turn I E)
    (hc : (Crowd.step D debug x t a).calls = x.calls) :
    ∃ b, (Crowd.step D debug x t a).trace = x.trace ++ b ∧ ∀ k u op, .call k u op ∉ b := by
  obtain ⟨mv, -, -, -⟩ := h.moves (debug := debug) hD t a
  generalize Crowd.step D debug x t a = y at *
  cases mv with
  | quiet p pc same cur pend sure => exact ⟨[], by simp [same.trace], by simp⟩
  | drop p c pc same cur cur₀ pend pend₀ sure why => exact ⟨[], by simp [same.trace], by simp⟩
  | speak p c n pc queue rest trace dests calls done members cur cur₀ pend pend₀ sure sub closing what =>
    rw [Crowd.told] at trace
    exact ⟨_, trace, fun k u op hk => by simp at hk⟩
  | drain p pc queue rest trace dests calls done members cur pend sure empty => exact ⟨[], by simp [trace], by simp⟩
  | serve p c r b pc queue rest₀ rest handled calls done cur pend sure mid hand =>
    refine ⟨b, handled.trace, fun k u op hk => ?_⟩
    obtain ⟨i, n, e⟩ := handled.marks _ hk
    cases e
  | give p c b pc queue rest₀ rest handled calls done cur cur₀ pend pend₀ sure at₀ =>
    refine ⟨b, handled.trace, fun k u op hk => ?_⟩
    obtain ⟨i, n, e⟩ := handled.marks _ hk
    cases e
  | defer p c pc queue rest trace => exact ⟨[], by simp [trace], by simp⟩
  | ret c pc queue rest trace => exact ⟨_, trace, by simp⟩
  | note bit pc queue rest trace => exact ⟨_, trace, by simp⟩
  | start p c pc queue rest trace dests calls => omega

theorem step_call {x : Crowd.State S I E} {op : Crowd.Op I E} (hp : x.pc t = .idle) (hv : op.void x.handles = false) :
    Crowd.step D debug x t (.call op) =
      ({ x with calls := x.calls + 1, handles := op.used x.handles }.note (.call x.calls t op)).goto t
        (Crowd.entry ⟨x.calls, op⟩) := by
  unfold Crowd.step
  rw [hp]
  simp [Crowd.PC.isIdle, hv]

theorem step_busy {x : Crowd.State S I E} (hp : (x.pc t).isIdle = false) (a : Crowd.Turn I E) :
    (Crowd.step D debug x t a).calls = x.calls := by
  unfold Crowd.step
  rw [hp]
  exact Crowd.calls_advance

theorem turn_eq {y : Crowd.State S I E} {b : List (Crowd.Mark I E)} (h : y.trace = x.core.trace ++ b) :
    x.moves y = { x with core := y, trace := x.trace ++ b.map .core } := by
  unfold State.moves
  rw [h]
  simp

/-- The new subscriber has heard the values. -/
def primed (D : Dest S I E) (vs : List I) (x : Crowd.State S I E) : Crowd.State S I E :=
  { x with dests := fun i => if i = x.calls then vs.foldl (fun s v => D.push s (.next v)) (x.dests i) else x.dests i }

/-- What a turn of thread `t` can do. -/
inductive Change (M : Memory V I) (D : Dest S I E) (debug : Bool) (x : State V S I E) (t : Nat) (y : State V S I E) : Prop
  | quiet (a : Crowd.Turn I E) (b : List (Crowd.Mark I E)) (asked₀ : x.asked t = false)
      (core : y.core = Crowd.step D debug x.core t a) (marks : y.core.trace = x.core.trace ++ b)
      (calls : ∀ k u op, .call k u op ∉ b) (count : y.core.calls = x.core.calls)
      (trace : y.trace = x.trace ++ b.map .core) (memory : y.memory = x.memory) (asked : y.asked = x.asked)
  | call (op : Crowd.Op I E) (sub : op ≠ .subscribe) (asked₀ : x.asked t = false) (idle : x.core.pc t = .idle)
      (void : op.void x.core.handles = false)
      (core : y.core = Crowd.step D debug x.core t (.call op)) (trace : y.trace = x.trace ++ [.core (.call x.core.calls t op)])
      (memory : y.memory = recall M x.memory [.core (.call x.core.calls t op)]) (asked : y.asked = x.asked)
  | enter (asked₀ : x.asked t = false) (idle : x.core.pc t = .idle) (error : x.core.error = none)
      (core : y.core = x.core) (trace : y.trace = x.trace ++ [.enter t]) (memory : y.memory = x.memory)
      (asked : y.asked = fun u => if u = t then true else x.asked u)
  | refused (asked₀ : x.asked t = false) (idle : x.core.pc t = .idle) (error : x.core.error.isSome = true)
      (core : y.core = Crowd.step D debug x.core t (.call .subscribe))
      (trace : y.trace = (x.trace ++ [.enter t]) ++ [.core (.call x.core.calls t .subscribe)])
      (memory : y.memory = x.memory) (asked : y.asked = x.asked)
  | copy (asked₀ : x.asked t = true)
      (core : y.core = Crowd.step D debug (primed D (M.read x.memory) x.core) t (.call .subscribe))
      (trace : y.trace = (x.trace ++ (M.read x.memory).map (.replay x.core.calls)) ++
        [.core (.call x.core.calls t .subscribe)])
      (memory : y.memory = x.memory) (asked : y.asked = fun u => if u = t then false else x.asked u)
  | read (core : y.core = x.core) (trace : y.trace = x.trace ++ [.read t (M.read x.memory)])
      (memory : y.memory = x.memory) (asked : y.asked = x.asked)

theorem change_turn (hD : D.Contract) {s : Nat → S} (h : Crowd.Inv D s x.core) (ha : x.asked t = false) (a : Crowd.Turn I E)
    (hc : (Crowd.step D debug x.core t a).calls = x.core.calls) : Change M D debug x t (x.turn D debug t a) := by
  obtain ⟨b, h1, h2⟩ := turn_trace (debug := debug) hD h t a hc
  unfold State.turn
  rw [turn_eq h1]
  exact .quiet a b ha rfl h1 h2 hc rfl rfl rfl

theorem change_step (hD : D.Contract) {s : Nat → S} (h : Crowd.Inv D s x.core)
    (hi : ∀ t, x.asked t = true → x.core.pc t = .idle) (a : Turn I E) : Change M D debug x t (step M D debug x t a) := by
  unfold step
  split
  · rename_i ha
    have hp := hi t ha
    refine .copy ha rfl ?_ rfl rfl
    unfold State.turn
    rw [turn_eq (b := [.call x.core.calls t .subscribe]) (by rw [step_call (by exact hp) rfl]; rfl)]
    rfl
  · rename_i ha
    have ha := Bool.eq_false_iff.2 ha
    split
    · rename_i hp
      have hp := Crowd.isIdle_eq hp
      have call : ∀ op : Crowd.Op I E, op ≠ .subscribe → (∀ v, op ≠ .next v) →
          Change M D debug x t (x.turn D debug t (.call op)) := by
        intro op h1 h2
        cases hv : op.void x.core.handles with
        | true =>
          refine change_turn hD h ha _ ?_
          unfold Crowd.step
          rw [hp]
          simp [Crowd.PC.isIdle, hv]
        | false =>
          unfold State.turn
          rw [turn_eq (b := [.call x.core.calls t op]) (by rw [step_call hp hv]; rfl)]
          refine .call op h1 ha hp hv rfl rfl ?_ rfl
          cases op with
          | next v => exact absurd rfl (h2 v)
          | _ => rfl
      cases a with
      | read => exact .read rfl rfl rfl rfl
      | core a =>
        cases a with
        | go => exact change_turn hD h ha _ (by unfold Crowd.step; rw [hp]; rfl)
        | ask => exact change_turn hD h ha _ (by unfold Crowd.step; rw [hp]; rfl)
        | drop => exact change_turn hD h ha _ (by unfold Crowd.step; rw [hp]; rfl)
        | call op =>
          cases op with
          | next v =>
            dsimp only
            unfold State.turn
            rw [turn_eq (b := [.call x.core.calls t (.next v)]) (by rw [step_call hp rfl]; rfl)]
            exact .call (.next v) (by simp) ha hp rfl rfl rfl rfl rfl
          | subscribe =>
            dsimp only
            split
            · rename_i he
              unfold State.turn
              rw [turn_eq (b := [.call x.core.calls t .subscribe]) (by rw [step_call hp rfl]; rfl)]
              exact .refused ha hp he rfl rfl rfl rfl
            · rename_i he
              exact .enter ha hp (by simpa using he) rfl rfl rfl rfl
          | error e => exact call _ (by simp) (by simp)
          | complete => exact call _ (by simp) (by simp)
          | unsubscribe => exact call _ (by simp) (by simp)
          | cancel k => exact call _ (by simp) (by simp)
    · rename_i hp
      exact change_turn hD h ha _ (step_busy (Bool.eq_false_iff.2 hp) _)

theorem Silent.nil : Silent t ([] : List (Mark I E)) := ⟨by simp, by simp⟩

theorem Silent.append {a b : List (Mark I E)} (h : Silent t a) (g : Silent t b) : Silent t (a ++ b) :=
  ⟨fun hm => (List.mem_append.1 hm).elim h.1 g.1, fun k op hm => (List.mem_append.1 hm).elim (h.2 k op) (g.2 k op)⟩

/-! ## The invariant -/

/-- The subscribers as they are when they are subscribed to the publish subject. -/
def primedAll (D : Dest S I E) (s : Nat → S) (tr : List (Mark I E)) (i : Nat) : S :=
  (replaysTo i tr).foldl (fun s v => D.push s (.next v)) (s i)

/-- All that is known. -/
structure Good (M : Memory V I) (D : Dest S I E) (debug : Bool) (m : V) (s : Nat → S) (x : State V S I E) : Prop where
  inner : inner x.trace = x.core.trace
  follows : ∃ l, x.core = Crowd.run D debug (Crowd.init (primedAll D s x.trace)) l
  later : ∀ i, x.core.calls ≤ i → replaysTo i x.trace = []
  memory : x.memory = recall M m x.trace
  idle : ∀ t, x.asked t = true → x.core.pc t = .idle
  heard : ∀ i, heardBy i x.trace = (replaysTo i x.trace).map .next ++ Crowd.givesTo i (Keeping.inner x.trace)
  reads : ∀ a t vs b, x.trace = a ++ .read t vs :: b → vs = M.read (recall M m a)
  asked : ∀ t, x.asked t = true → ∃ a b, x.trace = a ++ .enter t :: b ∧ Silent t b ∧
    Unfailed (Keeping.inner a)
  subs : ∀ a b i t, x.trace = a ++ .core (.call i t .subscribe) :: b → ∃ a1 a2, a = a1 ++ .enter t :: a2 ∧
    Silent t a2 ∧
    ((replaysTo i x.trace = M.read (recall M m a) ∧ Unfailed (Keeping.inner a1)) ∨
      (replaysTo i x.trace = [] ∧ ∃ j u e, .call j u (.error e) ∈ Keeping.inner a1))

theorem Good.inv (h : Good M D debug m s x) (hD : D.Contract) : Crowd.Inv D (primedAll D s x.trace) x.core := by
  obtain ⟨l, e⟩ := h.follows
  rw [e]
  exact Crowd.run_inv hD _ l

theorem Good.init : Good M D debug m s (init m s) where
  inner := rfl
  follows := ⟨[], rfl⟩
  later _ _ := rfl
  memory := rfl
  idle _ h := by cases h
  heard _ := rfl
  reads a t vs b h := by have := congrArg List.length h; simp [Keeping.init] at this
  asked _ h := by cases h
  subs a b i t h := by have := congrArg List.length h; simp [Keeping.init] at this

theorem unfailed (hD : D.Contract) (h : Good M D debug m s x) (he : x.core.error = none) : Unfailed (inner x.trace) := by
  intro ho hend
  obtain ⟨l, e⟩ := h.follows
  have hk := Crowd.run_kinds (debug := debug) hD (primedAll D s x.trace) l
  rw [← e] at hk
  rw [h.inner] at ho hend
  obtain ⟨j, u, op, h1, h2, h3⟩ := hend
  have := hk.error ho ((h.inv hD).ends.retd j u op h1 h2 h3)
  rw [he] at this
  cases this

theorem Good.step (h : Good M D debug m s x) (hD : D.Contract) (t : Nat) (a : Turn I E) :
    Good M D debug m s (Keeping.step M D debug x t a) := by
  have hi := h.inv hD
  obtain ⟨l, hl⟩ := h.follows
  have hc := change_step (debug := debug) (M := M) (t := t) hD hi h.idle a
  generalize Keeping.step M D debug x t a = y at *
  have others : ∀ (z : Crowd.State S I E) (b : Crowd.Turn I E) (r : Nat → S), Crowd.Inv D r z → ∀ u, u ≠ t →
      (Crowd.step D debug z t b).pc u = z.pc u := fun z b r hz u hu => (hz.locks.held_step t b).other hu
  cases hc with
  | quiet a b asked₀ core marks calls count trace memory asked =>
    have hr : ∀ i, replaysTo i y.trace = replaysTo i x.trace := fun i => by
      rw [trace, replaysTo_append, replaysTo_core, List.append_nil]
    have hp : primedAll D s y.trace = primedAll D s x.trace := by funext i; simp only [primedAll, hr]
    refine ⟨?_, ⟨l ++ [(t, a)], ?_⟩, fun i hi => ?_, ?_, fun u hu => ?_, fun i => ?_, fun a' t' vs b' e => ?_,
      fun u hu => ?_, fun a' b' i t' e => ?_⟩
    · rw [trace, inner_append, inner_core, marks, h.inner]
    · rw [Crowd.run_snoc, hp, ← hl, core]
    · rw [hr]; exact h.later i (by rw [← count]; exact hi)
    · rw [memory, trace, recall_append, sent_core calls, h.memory]; rfl
    · rw [asked] at hu
      rw [core, others _ _ _ hi u (fun e => by subst e; rw [asked₀] at hu; cases hu)]
      exact h.idle u hu
    · rw [hr, trace, heardBy_append, heardBy_core, inner_append, inner_core, givesTo_append, h.heard, List.append_assoc]
    · rw [trace] at e
      obtain ⟨c, e⟩ := split_old e (by simp)
      exact h.reads _ _ _ _ e
    · rw [asked] at hu
      obtain ⟨a', b', e1, e2, e3⟩ := h.asked u hu
      refine ⟨a', b' ++ b.map .core, by rw [trace, e1]; simp, e2.append ⟨by simp, fun k op hk => ?_⟩, e3⟩
      simp only [List.mem_map, Mark.core.injEq, exists_eq_right] at hk
      exact calls _ _ _ hk
    · rw [trace] at e
      obtain ⟨c, e⟩ := split_old e (by
        simp only [List.mem_map, Mark.core.injEq, exists_eq_right]
        exact calls _ _ _)
      rw [hr]
      exact h.subs _ _ _ _ e
  | call op sub asked₀ idle void core trace memory asked =>
    have hr : ∀ i, replaysTo i y.trace = replaysTo i x.trace := fun i => by
      rw [trace, replaysTo_append, replaysTo_one, List.append_nil]
    have hp : primedAll D s y.trace = primedAll D s x.trace := by funext i; simp only [primedAll, hr]
    have hy := core
    rw [step_call idle void] at hy
    refine ⟨?_, ⟨l ++ [(t, .call op)], ?_⟩, fun i hi => ?_, ?_, fun u hu => ?_, fun i => ?_, fun a' t' vs b' e => ?_,
      fun u hu => ?_, fun a' b' i t' e => ?_⟩
    · rw [trace, inner_append, hy, h.inner]; rfl
    · rw [Crowd.run_snoc, hp, ← hl, core]
    · rw [hr]; exact h.later i (by rw [hy] at hi; exact Nat.le_trans (Nat.le_succ _) hi)
    · rw [memory, trace, recall_append, h.memory]; rfl
    · rw [asked] at hu
      rw [core, others _ _ _ hi u (fun e => by subst e; rw [asked₀] at hu; cases hu)]
      exact h.idle u hu
    · rw [hr, trace, heardBy_append, heardBy_one, inner_append, inner_one, givesTo_append, h.heard, List.append_assoc]
    · rw [trace] at e
      obtain ⟨c, e⟩ := split_old e (by simp)
      exact h.reads _ _ _ _ e
    · rw [asked] at hu
      obtain ⟨a', b', e1, e2, e3⟩ := h.asked u hu
      refine ⟨a', b' ++ [.core (.call x.core.calls t op)], by rw [trace, e1]; simp, e2.append ⟨by simp, fun k op' hk => ?_⟩, e3⟩
      simp only [List.mem_singleton, Mark.core.injEq, Crowd.Mark.call.injEq] at hk
      obtain ⟨-, rfl, -⟩ := hk
      rw [asked₀] at hu; cases hu
    · rw [trace] at e
      obtain ⟨c, e⟩ := split_old e (by
        simp only [List.mem_singleton, Mark.core.injEq, Crowd.Mark.call.injEq]
        rintro ⟨-, -, e⟩
        exact sub e.symm)
      rw [hr]
      exact h.subs _ _ _ _ e
  | enter asked₀ idle error core trace memory asked =>
    have hr : ∀ i, replaysTo i y.trace = replaysTo i x.trace := fun i => by
      rw [trace, replaysTo_append]; simp [replaysTo]
    have hp : primedAll D s y.trace = primedAll D s x.trace := by funext i; simp only [primedAll, hr]
    refine ⟨?_, ⟨l, ?_⟩, fun i hi => ?_, ?_, fun u hu => ?_, fun i => ?_, fun a' t' vs b' e => ?_,
      fun u hu => ?_, fun a' b' i t' e => ?_⟩
    · rw [trace, inner_append, core, h.inner]; simp [Keeping.inner]
    · rw [hp, ← hl, core]
    · rw [hr]; exact h.later i (by rw [core] at hi; exact hi)
    · rw [memory, trace, recall_append, h.memory]; rfl
    · rw [core]
      by_cases e : u = t
      · rw [e]; exact idle
      · rw [asked] at hu; simp [e] at hu; exact h.idle u hu
    · rw [hr, trace, heardBy_append, inner_append, givesTo_append, h.heard, List.append_assoc]; simp [heardBy, Keeping.inner, Crowd.givesTo]
    · rw [trace] at e
      obtain ⟨c, e⟩ := split_old e (by simp)
      exact h.reads _ _ _ _ e
    · by_cases e : u = t
      · subst e
        exact ⟨x.trace, [], trace, .nil, unfailed hD h error⟩
      · rw [asked] at hu; simp [e] at hu
        obtain ⟨a', b', e1, e2, e3⟩ := h.asked u hu
        exact ⟨a', b' ++ [.enter t], by rw [trace, e1]; simp, e2.append ⟨by simpa using e, by simp⟩, e3⟩
    · rw [trace] at e
      obtain ⟨c, e⟩ := split_old e (by simp)
      rw [hr]
      exact h.subs _ _ _ _ e
  | read core trace memory asked =>
    have hr : ∀ i, replaysTo i y.trace = replaysTo i x.trace := fun i => by
      rw [trace, replaysTo_append]; simp [replaysTo]
    have hp : primedAll D s y.trace = primedAll D s x.trace := by funext i; simp only [primedAll, hr]
    refine ⟨?_, ⟨l, ?_⟩, fun i hi => ?_, ?_, fun u hu => ?_, fun i => ?_, fun a' t' vs b' e => ?_,
      fun u hu => ?_, fun a' b' i t' e => ?_⟩
    · rw [trace, inner_append, core, h.inner]; simp [Keeping.inner]
    · rw [hp, ← hl, core]
    · rw [hr]; exact h.later i (by rw [core] at hi; exact hi)
    · rw [memory, trace, recall_append, h.memory]; rfl
    · rw [asked] at hu; rw [core]; exact h.idle u hu
    · rw [hr, trace, heardBy_append, inner_append, givesTo_append, h.heard, List.append_assoc]; simp [heardBy, Keeping.inner, Crowd.givesTo]
    · rw [trace] at e
      by_cases e' : (.read t' vs : Mark I E) = .read t (M.read x.memory)
      · simp only [Mark.read.injEq] at e'
        obtain ⟨rfl, rfl⟩ := e'
        rcases List.append_eq_append_iff.1 e with ⟨as, ha, hb⟩ | ⟨bs, ha, hb⟩
        · cases as with
          | nil => simp only [List.append_nil] at ha; rw [ha, h.memory]
          | cons n as => have := congrArg List.length hb; simp at this
        · cases bs with
          | nil => simp only [List.append_nil] at ha; rw [← ha, h.memory]
          | cons n bs =>
            simp only [List.cons_append, List.cons.injEq] at hb
            obtain ⟨rfl, -⟩ := hb
            exact h.reads _ _ _ _ ha
      · obtain ⟨c, e⟩ := split_old e (by simpa using e')
        exact h.reads _ _ _ _ e
    · rw [asked] at hu
      obtain ⟨a', b', e1, e2, e3⟩ := h.asked u hu
      exact ⟨a', b' ++ [.read t (M.read x.memory)], by rw [trace, e1]; simp, e2.append ⟨by simp, by simp⟩, e3⟩
    · rw [trace] at e
      obtain ⟨c, e⟩ := split_old e (by simp)
      rw [hr]
      exact h.subs _ _ _ _ e
  | refused asked₀ idle error core trace memory asked =>
    have hr : ∀ i, replaysTo i y.trace = replaysTo i x.trace := fun i => by
      rw [trace, replaysTo_append, replaysTo_append]; simp [replaysTo]
    have hp : primedAll D s y.trace = primedAll D s x.trace := by funext i; simp only [primedAll, hr]
    have hy := core
    rw [step_call idle rfl] at hy
    refine ⟨?_, ⟨l ++ [(t, .call .subscribe)], ?_⟩, fun i hi => ?_, ?_, fun u hu => ?_, fun i => ?_,
      fun a' t' vs b' e => ?_, fun u hu => ?_, fun a' b' i t' e => ?_⟩
    · rw [trace, inner_append, inner_append, hy, h.inner]; simp [Keeping.inner]; rfl
    · rw [Crowd.run_snoc, hp, ← hl, core]
    · rw [hr]; exact h.later i (by rw [hy] at hi; exact Nat.le_trans (Nat.le_succ _) hi)
    · rw [memory, trace, recall_append, recall_append, h.memory]; rfl
    · rw [asked] at hu
      rw [core, others _ _ _ hi u (fun e => by subst e; rw [asked₀] at hu; cases hu)]
      exact h.idle u hu
    · rw [hr, trace, heardBy_append, heardBy_append, inner_append, inner_append, givesTo_append, givesTo_append, h.heard]
      simp [heardBy, Keeping.inner, Crowd.givesTo]
    · rw [trace, List.append_assoc] at e
      obtain ⟨c, e⟩ := split_old e (by simp)
      exact h.reads _ _ _ _ e
    · rw [asked] at hu
      obtain ⟨a', b', e1, e2, e3⟩ := h.asked u hu
      refine ⟨a', b' ++ [.enter t, .core (.call x.core.calls t .subscribe)], by rw [trace, e1]; simp, e2.append ?_, e3⟩
      have hut : u ≠ t := fun e => by subst e; rw [asked₀] at hu; cases hu
      exact ⟨by simpa using hut, by simp [hut]⟩
    · rw [hr]
      by_cases hn : i = x.core.calls
      · subst hn
        have hnew : ∀ u op, .core (.call x.core.calls u op) ∉ x.trace := fun u op hu => by
          have := hi.ids.ids _ _ _ (h.inner ▸ mem_inner.2 hu)
          omega
        have ht : t' = t := by
          have : .core (.call x.core.calls t' .subscribe) ∈ y.trace := by rw [e]; simp
          rw [trace] at this
          simp only [List.mem_append, List.mem_singleton] at this
          rcases this with (h1 | h1) | h1
          · exact absurd h1 (hnew _ _)
          · cases h1
          · simp only [Mark.core.injEq, Crowd.Mark.call.injEq] at h1; exact h1.2.1
        subst ht
        rw [trace] at e
        have := split_new e (by
          simp only [List.mem_append, List.mem_singleton]
          rintro (h1 | h1)
          · exact hnew _ _ h1
          · cases h1)
        refine ⟨x.trace, [], this, .nil, .inr ⟨h.later _ (Nat.le_refl _), ?_⟩⟩
        obtain ⟨e', he⟩ := Option.isSome_iff_exists.1 error
        obtain ⟨j, u, hj⟩ := hi.ends.error _ he
        exact ⟨j, u, e', h.inner ▸ hj⟩
      · rw [trace, List.append_assoc] at e
        obtain ⟨c, e⟩ := split_old e (by simp [hn])
        exact h.subs _ _ _ _ e
  | copy asked₀ core trace memory asked =>
    have idle := h.idle t asked₀
    have hr : ∀ i, replaysTo i y.trace = if i = x.core.calls then M.read x.memory else replaysTo i x.trace := fun i => by
      rw [trace, replaysTo_append, replaysTo_append, replaysTo_replays, replaysTo_one]
      by_cases hn : i = x.core.calls
      · subst hn; simp [h.later _ (Nat.le_refl _)]
      · simp [hn, Ne.symm hn]
    have hfresh : ∀ i, x.core.calls ≤ i → x.core.dests i = s i := fun i hn => by
      rw [(hi.fresh hn).1, primedAll, h.later i hn]; rfl
    have hput : primed D (M.read x.memory) x.core = Crowd.put x.core.calls (primedAll D s y.trace) x.core := by
      unfold primed Crowd.put
      congr 1
      funext i
      by_cases hn : i < x.core.calls
      · simp [hn, Nat.ne_of_lt hn]
      · rw [if_neg hn, primedAll, hr, hfresh i (by omega)]
        by_cases hn' : i = x.core.calls
        · simp [hn']
        · rw [if_neg hn', if_neg hn', h.later i (by omega)]; rfl
    have hrun : Crowd.run D debug (Crowd.init (primedAll D s y.trace)) l = primed D (M.read x.memory) x.core := by
      have := Crowd.run_put (debug := debug) (n := x.core.calls) hD (primedAll D s x.trace) (primedAll D s y.trace) l
        (by rw [← hl]; exact Nat.le_refl _)
      rw [← hl] at this
      rw [hput, ← this]
      congr 2
      funext i
      split
      · rename_i hn
        rw [primedAll, primedAll, hr, if_neg (Nat.ne_of_lt hn)]
      · rfl
    have hi' : Crowd.Inv D (primedAll D s y.trace) (primed D (M.read x.memory) x.core) := hrun ▸ Crowd.run_inv hD _ l
    have hy := core
    rw [step_call (by exact idle) rfl] at hy
    have hnew : ∀ u op, .core (.call x.core.calls u op) ∉ x.trace := fun u op hu => by
      have := hi.ids.ids _ _ _ (h.inner ▸ mem_inner.2 hu)
      omega
    refine ⟨?_, ⟨l ++ [(t, .call .subscribe)], ?_⟩, fun i hi => ?_, ?_, fun u hu => ?_, fun i => ?_,
      fun a' t' vs b' e => ?_, fun u hu => ?_, fun a' b' i t' e => ?_⟩
    · rw [trace, inner_append, inner_append, inner_replays, inner_one, hy, h.inner, List.append_nil]; rfl
    · rw [Crowd.run_snoc, hrun, core]
    · have : x.core.calls + 1 ≤ i := by rw [hy] at hi; exact hi
      rw [hr, if_neg (by omega)]; exact h.later i (by omega)
    · rw [memory, trace, recall_append, recall_append, sent_replays, h.memory]; rfl
    · rw [asked] at hu
      by_cases e : u = t
      · simp [e] at hu
      · simp [e] at hu
        rw [core, others _ _ _ hi' u e]
        exact h.idle u hu
    · rw [hr, trace, heardBy_append, heardBy_append, heardBy_replays, heardBy_one, inner_append, inner_append,
        inner_replays, inner_one, givesTo_append, h.heard, List.append_nil]
      by_cases hn : i = x.core.calls
      · subst hn
        have := (hi.fresh (Nat.le_refl _)).2
        rw [← h.inner] at this
        rw [this, h.later _ (Nat.le_refl _)]
        simp [Crowd.givesTo]
      · simp [hn, Ne.symm hn, Crowd.givesTo]
    · rw [trace, List.append_assoc] at e
      obtain ⟨c, e⟩ := split_old e (by simp)
      exact h.reads _ _ _ _ e
    · rw [asked] at hu
      by_cases e : u = t
      · simp [e] at hu
      · simp [e] at hu
        obtain ⟨a', b', e1, e2, e3⟩ := h.asked u hu
        refine ⟨a', b' ++ ((M.read x.memory).map (.replay x.core.calls) ++ [.core (.call x.core.calls t .subscribe)]),
          by rw [trace, e1]; simp, e2.append ⟨by simp, by simp [e]⟩, e3⟩
    · rw [hr]
      by_cases hn : i = x.core.calls
      · subst hn
        rw [if_pos rfl]
        have ht : t' = t := by
          have : .core (.call x.core.calls t' .subscribe) ∈ y.trace := by rw [e]; simp
          rw [trace] at this
          simp only [List.mem_append, List.mem_singleton] at this
          rcases this with (h1 | h1) | h1
          · exact absurd h1 (hnew _ _)
          · simp at h1
          · simp only [Mark.core.injEq, Crowd.Mark.call.injEq] at h1; exact h1.2.1
        subst ht
        rw [trace] at e
        have ha := split_new e (by
          simp only [List.mem_append]
          rintro (h1 | h1)
          · exact hnew _ _ h1
          · simp at h1)
        obtain ⟨a1, b1, e1, e2, e3⟩ := h.asked _ asked₀
        refine ⟨a1, b1 ++ (M.read x.memory).map (.replay x.core.calls), by rw [ha, e1]; simp,
          e2.append ⟨by simp, by simp⟩, .inl ⟨?_, e3⟩⟩
        rw [ha, recall_append, sent_replays, h.memory]; rfl
      · rw [if_neg hn]
        rw [trace, List.append_assoc] at e
        obtain ⟨c, e⟩ := split_old e (by simp [hn])
        exact h.subs _ _ _ _ e

theorem run_snoc (x : State V S I E) (l : List (Nat × Turn I E)) (a : Nat × Turn I E) :
    run M D debug x (l ++ [a]) = step M D debug (run M D debug x l) a.1 a.2 := by simp [run]

theorem run_good (hD : D.Contract) (m : V) (s : Nat → S) (l : List (Nat × Turn I E)) :
    Good M D debug m s (run M D debug (init m s) l) := by
  induction l using Rx.snoc_induction with
  | nil => exact .init
  | snoc l a ih => rw [run_snoc]; exact ih.step hD _ _

end Rx.Keeping
