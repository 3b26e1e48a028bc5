import Verif.Spec.Scheduler

/-!
# Effects of running closures and of ticking work
-/

namespace Rx.Sched

open Spec

variable {env : Env}

@[simp] theorem track_nil {B : Type} (u : Nat) : track u ([] : List (Ev B)) = {} := rfl

theorem track_snoc {B : Type} (u : Nat) (log : List (Ev B)) (e : Ev B) :
    track u (log ++ [e]) = (track u log).step u e := by
  simp [track]

theorem updateTick_eq (a b : Nat) : updateTick a b = max a b := by
  unfold updateTick; split <;> omega

/-- One elementary effect of a closure run by `src` with tick `t`. -/
inductive WStep (src : Src) (t : Nat) : World env → World env → Prop where
  | run (w) : WStep src t w (w.emit (.run src t))
  | ctx (w) (c : env.Ctx) : WStep src t w { w with ctx := c }
  | call (w) (c : Call env.B) : WStep src t w (w.call c)

/-- Any number of elementary effects. -/
inductive Steps (src : Src) (t : Nat) : World env → World env → Prop where
  | refl (w) : Steps src t w w
  | tail {a b c} : Steps src t a b → WStep src t b c → Steps src t a c

namespace Steps

variable {src : Src} {t : Nat}

theorem one {a b : World env} (h : WStep src t a b) : Steps src t a b := .tail (.refl _) h

theorem trans {a b c : World env} (h₁ : Steps src t a b) (h₂ : Steps src t b c) :
    Steps src t a c := by
  induction h₂ with
  | refl => exact h₁
  | tail _ h ih => exact .tail ih h

theorem inv {P : World env → Prop} (hP : ∀ a b, WStep src t a b → P a → P b) {a b : World env}
    (h : Steps src t a b) : P a → P b := by
  induction h with
  | refl => exact id
  | tail _ h ih => exact fun ha => hP _ _ h (ih ha)

theorem calls (cs : List (Call env.B)) (w : World env) :
    Steps src t w (cs.foldl World.call w) := by
  induction cs generalizing w with
  | nil => exact .refl _
  | cons c cs ih => exact (one (.call w c)).trans (ih _)

theorem body (b : env.B) (w : World env) : Steps src t w (runBody src b t w).2.1 :=
  ((one (.run w)).trans (one (.ctx _ _))).trans (calls _ _)

theorem rep {cur interval maxW : Nat} : ∀ (fuel : Nat) (start : Bool) (consumed ex : Nat)
    (res : WorkResult) (b : env.B) (w : World env) (r),
    repLoop src t cur interval maxW fuel start consumed ex res b w = some r →
    Steps src t w r.2.2.1 := by
  intro fuel
  induction fuel with
  | zero => intro _ _ _ _ _ _ _ h; simp [repLoop] at h
  | succ n ih =>
    intro start consumed ex res b w r h
    unfold repLoop at h
    split at h
    · have := ih _ _ _ _ _ _ _ h
      refine Steps.trans ?_ this
      split
      · exact body b w
      · exact .refl _
    · cases h; exact .refl _

theorem tick {wk : Work env.B} {w : World env} {r}
    (h : wk.tick src t w = some r) : Steps src t w r.2.1 := by
  cases wk with
  | delayed work s c d =>
    simp only [Work.tick] at h
    split at h
    · cases work <;> (cases h; first | exact body _ _ | exact .refl _)
    · cases h; exact .refl _
  | immediate work =>
    cases work <;> (simp only [Work.tick] at h; cases h; first | exact body _ _ | exact .refl _)
  | repeating si cu c i m b =>
    simp only [Work.tick] at h
    split at h
    · rename_i heq; cases h; exact rep _ _ _ _ _ _ _ _ heq
    · cases h
  | continuous l b => simp only [Work.tick] at h; cases h; exact body _ _
  | invoked b => simp only [Work.tick] at h; cases h; exact body _ _

end Steps

theorem runCount_call (src : Src) (w : World env) (c : Call env.B) :
    runCount src (w.call c).log = runCount src w.log := by
  cases c <;> simp [World.call, runCount, List.countP_append]

theorem runCount_calls (src : Src) (cs : List (Call env.B)) (w : World env) :
    runCount src (cs.foldl World.call w).log = runCount src w.log := by
  induction cs generalizing w with
  | nil => rfl
  | cons c cs ih => simp only [List.foldl_cons, ih, runCount_call]

theorem runCount_body (src : Src) (b : env.B) (t : Nat) (w : World env) :
    runCount src (runBody src b t w).2.1.log = runCount src w.log + 1 := by
  simp only [runBody, runCount_calls]
  simp [World.emit, runCount, List.countP_append]

/-- What cannot change, and how the rest changes, while closures of `src` run in a tick `t`. -/
structure Frame (src : Src) (t : Nat) (a b : World env) : Prop where
  clock : b.sched.currentTick = a.sched.currentTick
  queue : ∃ ext, b.sched.queue = a.sched.queue ++ ext

theorem Steps.frame {src : Src} {t : Nat} {a b : World env} (h : Steps src t a b) :
    Frame src t a b := by
  refine h.inv (P := fun b => Frame src t a b) ?_ ⟨rfl, [], by simp⟩
  rintro x y h ⟨h1, ext, h2⟩
  cases h with
  | run => exact ⟨h1, ext, h2⟩
  | ctx => exact ⟨h1, ext, h2⟩
  | call c =>
    cases c <;> first
      | exact ⟨h1, ext, h2⟩
      | exact ⟨h1, _, by simp only [World.call, h2, List.append_assoc]; rfl⟩

end Rx.Sched
