import Verif.Spec.SharedThreads

/-!
# Several threads: nothing is lost, the order of each thread is kept
-/

namespace Rx.Threads

variable {I : Type}

@[simp] theorem mine_nil (t : Nat) : mine t ([] : List (Nat × I)) = [] := rfl
@[simp] theorem mine_append (t : Nat) (a b : List (Nat × I)) : mine t (a ++ b) = mine t a ++ mine t b := by
  simp [mine]
@[simp] theorem mine_self (t : Nat) (v : I) : mine t [(t, v)] = [v] := by simp [mine]
theorem mine_other {t u : Nat} (h : u ≠ t) (v : I) : mine t [(u, v)] = [] := by simp [mine, h]
theorem mine_cons (t : Nat) (a : Nat × I) (l) : mine t (a :: l) = mine t [a] ++ mine t l := by
  rw [← mine_append]; rfl

/-- Drained, not yet passed on. -/
def PC.rest : PC I → List (Nat × I)
  | .ownDeliver r _ => r
  | .applyDeliver r => r
  | _ => []

/-- The thread's own value, not yet passed on or deferred. -/
def PC.pending : PC I → List I
  | .asking v | .askHeld v | .attempt v | .own v | .ownDeliver _ v | .give v | .deferring v => [v]
  | _ => []

def State.rest (x : State I) : List (Nat × I) :=
  match x.lock with
  | some h => (x.pc h).rest
  | none => []

structure Inv (x : State I) : Prop where
  holds : ∀ t, (x.pc t).holds = true ↔ x.lock = some t
  order : ∀ t, mine t (x.delivered ++ x.rest ++ x.queue) ++ (x.pc t).pending = mine t x.sent
  give : ∀ t v, x.pc t = .give v → mine t x.queue = []

theorem Inv.init : Inv (I := I) init :=
  ⟨fun t => by simp [Threads.init, PC.holds], fun t => by simp [Threads.init, State.rest, PC.pending],
    fun t v h => rfl⟩

theorem rest_of_not_holds {p : PC I} (h : p.holds = false) : p.rest = [] := by
  cases p <;> first | rfl | cases h

/-- The lock is free or another thread's: the rest does not depend on this thread. -/
theorem rest_goto {x : State I} {t : Nat} {p : PC I} (h : x.lock ≠ some t) : (x.goto t p).rest = x.rest := by
  cases hl : x.lock with
  | none => simp [State.rest, State.goto, hl]
  | some u =>
    have : u ≠ t := fun e => h (by rw [hl, e])
    simp [State.rest, State.goto, hl, this]

theorem rest_held {x : State I} {t : Nat} (h : x.lock = some t) : x.rest = (x.pc t).rest := by
  simp [State.rest, h]

theorem rest_goto_held {x : State I} {t : Nat} {p : PC I} (h : x.lock = some t) :
    (x.goto t p).rest = p.rest := by
  simp [State.rest, State.goto, h]

theorem rest_free {x : State I} (h : x.lock = none) : x.rest = [] := by simp [State.rest, h]

/-- The three ways a step may change the lock. -/
theorem holds_step {x : State I} (hh : ∀ t, (x.pc t).holds = true ↔ x.lock = some t) (t : Nat) (p : PC I)
    (q d s) (l : Option Nat)
    (h : (l = x.lock ∧ p.holds = (x.pc t).holds) ∨ (x.lock = none ∧ l = some t ∧ p.holds = true) ∨
      ((x.pc t).holds = true ∧ l = none ∧ p.holds = false)) :
    ∀ u, (((⟨x.pc, l, q, d, s⟩ : State I).goto t p).pc u).holds = true ↔
      ((⟨x.pc, l, q, d, s⟩ : State I).goto t p).lock = some u := by
  intro u
  simp only [State.goto]
  have ht := hh t
  have hu := hh u
  by_cases e : u = t
  · subst e
    simp only [if_true]
    rcases h with ⟨h1, h2⟩ | ⟨h1, h2, h3⟩ | ⟨h1, h2, h3⟩
    · rw [h1, h2]; exact hu
    · simp [h2, h3]
    · simp [h2, h3]
  · simp only [if_neg e]
    rcases h with ⟨h1, h2⟩ | ⟨h1, h2, h3⟩ | ⟨h1, h2, h3⟩
    · rw [h1]; exact hu
    · rw [hu, h1, h2]; simp; exact fun h => e h.symm
    · rw [hu, h2, ht.mp h1]; simp; exact fun h => e h.symm

theorem order_same {x y : State I} {t : Nat} {p : PC I} (hy : y.pc = (x.goto t p).pc)
    (ho : ∀ u, mine u (x.delivered ++ x.rest ++ x.queue) ++ (x.pc u).pending = mine u x.sent)
    (hs : y.sent = x.sent) (hp : p.pending = (x.pc t).pending)
    (hw : y.delivered ++ y.rest ++ y.queue = x.delivered ++ x.rest ++ x.queue) (u) :
    mine u (y.delivered ++ y.rest ++ y.queue) ++ (y.pc u).pending = mine u y.sent := by
  rw [hw, hs, hy, ← ho u]
  congr 1
  simp only [State.goto]
  split
  · rename_i e; subst e; exact hp
  · rfl

theorem give_same {x y : State I} {t : Nat} {p : PC I} (hy : y.pc = (x.goto t p).pc)
    (hg : ∀ u v, x.pc u = .give v → mine u x.queue = []) (hp : ∀ v, p = .give v → mine t y.queue = [])
    (hq : ∀ u, u ≠ t → mine u x.queue = [] → mine u y.queue = []) (u v) (h : y.pc u = .give v) :
    mine u y.queue = [] := by
  rw [hy] at h
  simp only [State.goto] at h
  split at h
  · rename_i e; subst e; exact hp v h
  · rename_i e; exact hq u e (hg u v h)

theorem Inv.step {x y : State I} {t : Nat} (h : Inv x) (st : Step x t y) : Inv y := by
  obtain ⟨hh, ho, hg⟩ := h
  have hht := hh t
  cases st with
  | call v hpc =>
    rw [hpc] at hht
    have hl : x.lock ≠ some t := fun e => by have := hht.mpr e; cases this
    refine ⟨holds_step hh t _ _ _ _ _ (.inl ⟨rfl, by rw [hpc]; rfl⟩), fun u => ?_,
      give_same (x := x) rfl hg (fun v h => by cases h) (fun u _ h => h)⟩
    rw [rest_goto (by exact hl)]
    have := ho u
    simp only [State.goto, State.rest, mine_append] at this ⊢
    by_cases e : u = t
    · subst e
      rw [hpc] at this
      simp only [PC.pending, List.append_nil] at this
      simp [PC.pending, ← this]
    · rw [if_neg e, this, mine_other (fun h => e h.symm)]; simp
  | ask v hpc hl =>
    refine ⟨holds_step hh t _ _ _ _ _ (.inr (.inl ⟨hl, rfl, rfl⟩)),
      order_same (x := x) rfl ho rfl (by rw [hpc]; rfl) ?_, give_same (x := x) rfl hg (fun v h => by cases h) (fun u _ h => h)⟩
    rw [rest_free hl, rest_goto_held (by rfl)]; simp [State.goto, PC.rest]
  | askFails v hpc hl =>
    rw [hpc] at hht
    have hl : x.lock ≠ some t := fun e => by have := hht.mpr e; cases this
    refine ⟨holds_step hh t _ _ _ _ _ (.inl ⟨rfl, by rw [hpc]; rfl⟩),
      order_same (x := x) rfl ho rfl (by rw [hpc]; rfl) ?_, give_same (x := x) rfl hg (fun v h => by cases h) (fun u _ h => h)⟩
    rw [rest_goto hl]; rfl
  | asked v hpc =>
    rw [hpc] at hht
    have hl := hht.mp rfl
    refine ⟨holds_step hh t _ _ _ _ _ (.inr (.inr ⟨by rw [hpc]; rfl, rfl, rfl⟩)),
      order_same (x := x) rfl ho rfl (by rw [hpc]; rfl) ?_, give_same (x := x) rfl hg (fun v h => by cases h) (fun u _ h => h)⟩
    rw [rest_free rfl, rest_held hl, hpc]; simp [State.goto, PC.rest]
  | lock v hpc hl =>
    refine ⟨holds_step hh t _ _ _ _ _ (.inr (.inl ⟨hl, rfl, rfl⟩)),
      order_same (x := x) rfl ho rfl (by rw [hpc]; rfl) ?_, give_same (x := x) rfl hg (fun v h => by cases h) (fun u _ h => h)⟩
    rw [rest_free hl, rest_goto_held (by rfl)]; simp [State.goto, PC.rest]
  | lockFails v hpc hl =>
    rw [hpc] at hht
    have hl : x.lock ≠ some t := fun e => by have := hht.mpr e; cases this
    refine ⟨holds_step hh t _ _ _ _ _ (.inl ⟨rfl, by rw [hpc]; rfl⟩),
      order_same (x := x) rfl ho rfl (by rw [hpc]; rfl) ?_, give_same (x := x) rfl hg (fun v h => by cases h) (fun u _ h => h)⟩
    rw [rest_goto hl]; rfl
  | ownEmpty v hpc hq =>
    rw [hpc] at hht
    have hl := hht.mp rfl
    refine ⟨holds_step hh t _ _ _ _ _ (.inl ⟨rfl, by rw [hpc]; rfl⟩),
      order_same (x := x) rfl ho rfl (by rw [hpc]; rfl) ?_,
      give_same (x := x) rfl hg (fun v h => by simp [State.goto, hq]) (fun u _ h => h)⟩
    rw [rest_goto_held (by exact hl), rest_held hl, hpc]; simp [State.goto, PC.rest]
  | ownDrain v hpc hq =>
    rw [hpc] at hht
    have hl := hht.mp rfl
    refine ⟨holds_step hh t _ _ _ _ _ (.inl ⟨rfl, by rw [hpc]; rfl⟩),
      order_same (x := x) rfl ho rfl (by rw [hpc]; rfl) ?_,
      give_same (x := x) rfl hg (fun v h => by cases h) (fun u _ h => rfl)⟩
    rw [rest_goto_held (by exact hl), rest_held hl, hpc]; simp [State.goto, PC.rest]
  | ownDeliver n rest v hpc =>
    rw [hpc] at hht
    have hl := hht.mp rfl
    refine ⟨holds_step hh t _ _ _ _ _ (.inl ⟨rfl, by rw [hpc]; rfl⟩),
      order_same (x := x) rfl ho rfl (by rw [hpc]; rfl) ?_,
      give_same (x := x) rfl hg (fun v h => by cases h) (fun u _ h => h)⟩
    rw [rest_goto_held (by exact hl), rest_held hl, hpc]; simp [State.goto, PC.rest]
  | ownDelivered v hpc =>
    rw [hpc] at hht
    have hl := hht.mp rfl
    refine ⟨holds_step hh t _ _ _ _ _ (.inl ⟨rfl, by rw [hpc]; rfl⟩),
      order_same (x := x) rfl ho rfl (by rw [hpc]; rfl) ?_,
      give_same (x := x) rfl hg (fun v h => by cases h) (fun u _ h => h)⟩
    rw [rest_goto_held (by exact hl), rest_held hl, hpc]; simp [State.goto, PC.rest]
  | give v hpc =>
    rw [hpc] at hht
    have hl := hht.mp rfl
    refine ⟨holds_step hh t _ _ _ _ _ (.inl ⟨rfl, by rw [hpc]; rfl⟩), fun u => ?_,
      give_same (x := x) rfl hg (fun v h => by cases h) (fun u _ h => h)⟩
    have := ho u
    rw [rest_held hl, hpc] at this
    rw [rest_goto_held (by exact hl)]
    simp only [State.goto, if_true, PC.rest, List.append_nil, mine_append] at this ⊢
    by_cases e : u = t
    · subst e
      rw [hpc] at this
      simp only [PC.pending, if_true, hg u v hpc, List.append_nil] at this ⊢
      simpa using this
    · rw [if_neg e, mine_other (fun h => e h.symm)]
      simpa using this
  | unlock1 hpc =>
    rw [hpc] at hht
    have hl := hht.mp rfl
    refine ⟨holds_step hh t _ _ _ _ _ (.inr (.inr ⟨by rw [hpc]; rfl, rfl, rfl⟩)),
      order_same (x := x) rfl ho rfl (by rw [hpc]; rfl) ?_, give_same (x := x) rfl hg (fun v h => by cases h) (fun u _ h => h)⟩
    rw [rest_free rfl, rest_held hl, hpc]; simp [State.goto, PC.rest]
  | defer v hpc =>
    rw [hpc] at hht
    have hl : x.lock ≠ some t := fun e => by have := hht.mpr e; cases this
    refine ⟨holds_step hh t _ _ _ _ _ (.inl ⟨rfl, by rw [hpc]; rfl⟩), fun u => ?_,
      give_same (x := x) rfl hg (fun v h => by cases h)
        (fun u e h => by simp [State.goto, h, mine_other (fun h => e h.symm)])⟩
    rw [rest_goto (by exact hl)]
    have := ho u
    simp only [State.goto, State.rest, mine_append] at this ⊢
    by_cases e : u = t
    · subst e
      rw [hpc] at this
      simp only [PC.pending, if_true, mine_self, List.append_nil] at this ⊢
      rw [← this]; simp
    · rw [if_neg e, mine_other (fun h => e h.symm), List.append_nil]; exact this
  | clean hpc hq =>
    rw [hpc] at hht
    have hl : x.lock ≠ some t := fun e => by have := hht.mpr e; cases this
    refine ⟨holds_step hh t _ _ _ _ _ (.inl ⟨rfl, by rw [hpc]; rfl⟩),
      order_same (x := x) rfl ho rfl (by rw [hpc]; rfl) ?_, give_same (x := x) rfl hg (fun v h => by cases h) (fun u _ h => h)⟩
    rw [rest_goto hl]; rfl
  | dirty hpc hq =>
    rw [hpc] at hht
    have hl : x.lock ≠ some t := fun e => by have := hht.mpr e; cases this
    refine ⟨holds_step hh t _ _ _ _ _ (.inl ⟨rfl, by rw [hpc]; rfl⟩),
      order_same (x := x) rfl ho rfl (by rw [hpc]; rfl) ?_, give_same (x := x) rfl hg (fun v h => by cases h) (fun u _ h => h)⟩
    rw [rest_goto hl]; rfl
  | apply hpc hl =>
    refine ⟨holds_step hh t _ _ _ _ _ (.inr (.inl ⟨hl, rfl, rfl⟩)),
      order_same (x := x) rfl ho rfl (by rw [hpc]; rfl) ?_, give_same (x := x) rfl hg (fun v h => by cases h) (fun u _ h => h)⟩
    rw [rest_free hl, rest_goto_held (by rfl)]; simp [State.goto, PC.rest]
  | applyFails hpc hl =>
    rw [hpc] at hht
    have hl : x.lock ≠ some t := fun e => by have := hht.mpr e; cases this
    refine ⟨holds_step hh t _ _ _ _ _ (.inl ⟨rfl, by rw [hpc]; rfl⟩),
      order_same (x := x) rfl ho rfl (by rw [hpc]; rfl) ?_, give_same (x := x) rfl hg (fun v h => by cases h) (fun u _ h => h)⟩
    rw [rest_goto hl]; rfl
  | applyEmpty hpc hq =>
    rw [hpc] at hht
    have hl := hht.mp rfl
    refine ⟨holds_step hh t _ _ _ _ _ (.inl ⟨rfl, by rw [hpc]; rfl⟩),
      order_same (x := x) rfl ho rfl (by rw [hpc]; rfl) ?_,
      give_same (x := x) rfl hg (fun v h => by cases h) (fun u _ h => h)⟩
    rw [rest_goto_held (by exact hl), rest_held hl, hpc]; simp [State.goto, PC.rest]
  | applyDrain hpc hq =>
    rw [hpc] at hht
    have hl := hht.mp rfl
    refine ⟨holds_step hh t _ _ _ _ _ (.inl ⟨rfl, by rw [hpc]; rfl⟩),
      order_same (x := x) rfl ho rfl (by rw [hpc]; rfl) ?_,
      give_same (x := x) rfl hg (fun v h => by cases h) (fun u _ h => rfl)⟩
    rw [rest_goto_held (by exact hl), rest_held hl, hpc]; simp [State.goto, PC.rest]
  | applyDeliver n rest hpc =>
    rw [hpc] at hht
    have hl := hht.mp rfl
    refine ⟨holds_step hh t _ _ _ _ _ (.inl ⟨rfl, by rw [hpc]; rfl⟩),
      order_same (x := x) rfl ho rfl (by rw [hpc]; rfl) ?_,
      give_same (x := x) rfl hg (fun v h => by cases h) (fun u _ h => h)⟩
    rw [rest_goto_held (by exact hl), rest_held hl, hpc]; simp [State.goto, PC.rest]
  | applyDelivered hpc =>
    rw [hpc] at hht
    have hl := hht.mp rfl
    refine ⟨holds_step hh t _ _ _ _ _ (.inl ⟨rfl, by rw [hpc]; rfl⟩),
      order_same (x := x) rfl ho rfl (by rw [hpc]; rfl) ?_,
      give_same (x := x) rfl hg (fun v h => by cases h) (fun u _ h => h)⟩
    rw [rest_goto_held (by exact hl), rest_held hl, hpc]; simp [State.goto, PC.rest]
  | unlock2 hpc =>
    rw [hpc] at hht
    have hl := hht.mp rfl
    refine ⟨holds_step hh t _ _ _ _ _ (.inr (.inr ⟨by rw [hpc]; rfl, rfl, rfl⟩)),
      order_same (x := x) rfl ho rfl (by rw [hpc]; rfl) ?_, give_same (x := x) rfl hg (fun v h => by cases h) (fun u _ h => h)⟩
    rw [rest_free rfl, rest_held hl, hpc]; simp [State.goto, PC.rest]
  | query hpc hl =>
    refine ⟨holds_step hh t _ _ _ _ _ (.inr (.inl ⟨hl, rfl, rfl⟩)),
      order_same (x := x) rfl ho rfl (by rw [hpc]; rfl) ?_, give_same (x := x) rfl hg (fun v h => by cases h) (fun u _ h => h)⟩
    rw [rest_free hl, rest_goto_held (by rfl)]; simp [State.goto, PC.rest]
  | queried hpc =>
    rw [hpc] at hht
    have hl := hht.mp rfl
    refine ⟨holds_step hh t _ _ _ _ _ (.inr (.inr ⟨by rw [hpc]; rfl, rfl, rfl⟩)),
      order_same (x := x) rfl ho rfl (by rw [hpc]; rfl) ?_, give_same (x := x) rfl hg (fun v h => by cases h) (fun u _ h => h)⟩
    rw [rest_free rfl, rest_held hl, hpc]; simp [State.goto, PC.rest]

theorem Reachable.inv {x : State I} (h : Reachable x) : Inv x := by
  induction h with
  | init => exact Inv.init
  | step _ st ih => exact ih.step st

/-! ## One thread alone -/

theorem goto_pc (x : State I) (t : Nat) (p : PC I) : (x.goto t p).pc t = p := by simp [State.goto]

theorem goto_goto (x : State I) (t : Nat) (p q : PC I) : (x.goto t p).goto t q = x.goto t q := by
  simp only [State.goto]
  congr 1
  funext u
  split <;> rfl

/-- A busy thread has only one way to go on. -/
theorem step_unique {x y z : State I} {t : Nat} (hb : x.pc t ≠ .idle) (h : Step x t y) (g : Step x t z) :
    y = z := by
  cases h <;> rename_i h1 <;> cases g <;> simp_all

theorem Busy.trans {t : Nat} {x y z : State I} (h : Busy t x y) (g : Busy t y z) : Busy t x z := by
  induction h with
  | refl => exact g
  | step hb s _ ih => exact .step hb s (ih g)

theorem Busy.unique {t : Nat} {x y z : State I} (h : Busy t x y) (g : Busy t x z) (hy : y.pc t = .idle)
    (hz : z.pc t = .idle) : y = z := by
  induction h with
  | refl x =>
    cases g with
    | refl => rfl
    | step hb _ _ => exact absurd hy hb
  | step hb s _ ih =>
    cases g with
    | refl => exact absurd hz hb
    | step hb' s' g' =>
      have := step_unique hb s s'
      subst this
      exact ih g' hy

theorem busy_deliver (t : Nat) (v : I) (rest) : ∀ (pc : Nat → PC I) l q d s,
    Busy t ((⟨pc, l, q, d, s⟩ : State I).goto t (.ownDeliver rest v))
      ((⟨pc, l, q, d ++ rest, s⟩ : State I).goto t (.ownDeliver [] v)) := by
  induction rest with
  | nil => intro pc l q d s; rw [List.append_nil]; exact .refl _
  | cons n rest ih =>
    intro pc l q d s
    refine .step (by rw [goto_pc]; simp) (.ownDeliver _ t n rest v (goto_pc _ _ _)) ?_
    have := ih pc l q (d ++ [n]) s
    rw [List.append_assoc] at this
    have e : ({ (⟨pc, l, q, d, s⟩ : State I).goto t (.ownDeliver (n :: rest) v) with
        delivered := ((⟨pc, l, q, d, s⟩ : State I).goto t (.ownDeliver (n :: rest) v)).delivered ++ [n] }).goto t
          (.ownDeliver rest v) = (⟨pc, l, q, d ++ [n], s⟩ : State I).goto t (.ownDeliver rest v) := by
      simp only [State.goto]
      congr 1
      funext u
      split <;> rfl
    rw [e]
    exact this

theorem step_eq {x y y' : State I} {t : Nat} (h : Step x t y) (e : y = y') : Step x t y' := e ▸ h

theorem goto_congr (pc : Nat → PC I) (l q d s) (t : Nat) (p : PC I) (pc' : Nat → PC I)
    (h : ∀ u, u ≠ t → pc u = pc' u) :
    (⟨pc, l, q, d, s⟩ : State I).goto t p = (⟨pc', l, q, d, s⟩ : State I).goto t p := by
  simp only [State.goto]
  congr 1
  funext u
  split
  · rfl
  · rename_i e; exact h u e

/-- A call on its own, the lock being free, delivers what was waiting, then its value. -/
theorem busy_call (t : Nat) (v : I) (pc : Nat → PC I) (q d s) (_ : pc t = .idle) :
    Busy t ((⟨pc, none, q, d, s⟩ : State I).goto t (.asking v))
      ((⟨pc, none, [], d ++ q ++ [(t, v)], s⟩ : State I).goto t .idle) := by
  have nb : ∀ (x : State I) (p : PC I), p ≠ .idle → (x.goto t p).pc t ≠ .idle := by
    intro x p h; rw [goto_pc]; exact h
  have gg : ∀ (l q d s) (p p' : PC I), (⟨((⟨pc, l, q, d, s⟩ : State I).goto t p).pc, l, q, d, s⟩ : State I).goto t p' =
      (⟨pc, l, q, d, s⟩ : State I).goto t p' := fun l q d s p p' => goto_goto _ t p p'
  -- up to the loop
  have first : Busy t ((⟨pc, none, q, d, s⟩ : State I).goto t (.asking v))
      ((⟨pc, some t, q, d, s⟩ : State I).goto t (.own v)) := by
    refine .step (nb _ _ (by simp)) (step_eq (.ask _ t v (goto_pc _ _ _) rfl)
      (y' := (⟨pc, some t, q, d, s⟩ : State I).goto t (.askHeld v)) ?_) ?_
    · exact goto_congr _ _ _ _ _ _ _ _ (fun u h => by simp [State.goto, h])
    refine .step (nb _ _ (by simp)) (step_eq (.asked _ t v (goto_pc _ _ _))
      (y' := (⟨pc, none, q, d, s⟩ : State I).goto t (.attempt v)) ?_) ?_
    · exact goto_congr _ _ _ _ _ _ _ _ (fun u h => by simp [State.goto, h])
    refine .step (nb _ _ (by simp)) (step_eq (.lock _ t v (goto_pc _ _ _) rfl)
      (y' := (⟨pc, some t, q, d, s⟩ : State I).goto t (.own v)) ?_) (.refl _)
    exact goto_congr _ _ _ _ _ _ _ _ (fun u h => by simp [State.goto, h])
  -- empty the queue
  have second : Busy t ((⟨pc, some t, q, d, s⟩ : State I).goto t (.own v))
      ((⟨pc, some t, [], d ++ q, s⟩ : State I).goto t (.own v)) := by
    by_cases hq : q = []
    · subst hq; rw [List.append_nil]; exact .refl _
    · refine .step (nb _ _ (by simp)) (step_eq (.ownDrain _ t v (goto_pc _ _ _) hq)
        (y' := (⟨pc, some t, [], d, s⟩ : State I).goto t (.ownDeliver q v)) ?_) ?_
      · exact goto_congr _ _ _ _ _ _ _ _ (fun u h => by simp [State.goto, h])
      refine (busy_deliver t v q pc (some t) [] d s).trans ?_
      refine .step (nb _ _ (by simp)) (step_eq (.ownDelivered _ t v (goto_pc _ _ _)) ?_) (.refl _)
      exact goto_congr _ _ _ _ _ _ _ _ (fun u h => by simp [State.goto, h])
  refine first.trans (second.trans ?_)
  refine .step (nb _ _ (by simp)) (step_eq (.ownEmpty _ t v (goto_pc _ _ _) rfl)
    (y' := (⟨pc, some t, [], d ++ q, s⟩ : State I).goto t (.give v)) ?_) ?_
  · exact goto_congr _ _ _ _ _ _ _ _ (fun u h => by simp [State.goto, h])
  refine .step (nb _ _ (by simp)) (step_eq (.give _ t v (goto_pc _ _ _))
    (y' := (⟨pc, some t, [], d ++ q ++ [(t, v)], s⟩ : State I).goto t .unlock1) ?_) ?_
  · exact goto_congr _ _ _ _ _ _ _ _ (fun u h => by simp [State.goto, h])
  refine .step (nb _ _ (by simp)) (step_eq (.unlock1 _ t (goto_pc _ _ _))
    (y' := (⟨pc, none, [], d ++ q ++ [(t, v)], s⟩ : State I).goto t .recheck) ?_) ?_
  · exact goto_congr _ _ _ _ _ _ _ _ (fun u h => by simp [State.goto, h])
  refine .step (nb _ _ (by simp)) (step_eq (.clean _ t (goto_pc _ _ _) rfl) ?_) (.refl _)
  exact goto_congr _ _ _ _ _ _ _ _ (fun u h => by simp [State.goto, h])

end Rx.Threads
