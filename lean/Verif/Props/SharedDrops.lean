import Verif.Lemmas.SharedDrops
import Verif.Props.Panics

/-!
# C88: dropping the handles of a shared subscriber
-/

namespace Rx.Drops

open Rx.Panics (Touchy Out)

variable {S I E : Type}

/-- C88. The destination is dropped with the last handle, once, whatever panicked. -/
theorem C88_dropped_with_the_last (R : Touchy S I E) (bad : Nat → Bool) (s : S) (ops : List (Op I E)) :
    (run R bad (.new s) ops).freed = if held 1 ops = 0 then 1 else 0 := by
  have h := run_freed (R := R) (bad := bad) ops (x := State.new s) rfl
  unfold Freed at h
  rw [h, run_handles]
  rfl

/-- C88. Cloning and dropping handles is not noticed by the destination: it is as if all calls had been made through one
handle that is kept, whatever panicked; in particular dropping a handle does not unsubscribe it. As long as there is a handle
nothing else can tell the difference either. Nobody hands over teardowns. -/
theorem C88_not_noticed (R : Touchy S I E) (bad : Nat → Bool) (s : S) (ops : List (Op I E)) (hn : NotesOnly ops) :
    (run R bad (.new s) ops).core.dest = (Panics.Shared.run R bad { dest := s } (callsOf 1 ops)).dest ∧
    (held 1 ops ≠ 0 → (run R bad (.new s) ops).core = Panics.Shared.run R bad { dest := s } (callsOf 1 ops)) := by
  obtain ⟨h1, _, _, h2⟩ := run_core (R := R) (bad := bad) ops hn (x := State.new s) (.inr rfl) (by simp [State.new])
  exact ⟨h1, h2⟩

/-- C88. A drop of a handle delivers what is pending (a teardown that is added while the destination is closed may leave some):
if the mutex is not poisoned and the destination does not panic when it is given it, nothing is pending afterwards, and the drop
does not panic. -/
theorem C88_delivers (R : Touchy S I E) (bad : Nat → Bool) (s : S) (ops : List (Op I E)) (h0 : held 1 ops ≠ 0)
    (hp : (run R bad (.new s) ops).core.poisoned = false)
    (hd : (Panics.Shared.tryApplyDeferred R (run R bad (.new s) ops).core).panicked = false) :
    (run R bad (.new s) (ops ++ [.drop])).core.deferred.queue = [] ∧
    (run R bad (.new s) (ops ++ [.drop])).core.dest =
      (Panics.Shared.tryApplyDeferred R (run R bad (.new s) ops).core).st.dest ∧
    (step R bad (run R bad (.new s) ops) .drop).panicked = false ∧
    (run R bad (.new s) (ops ++ [.drop])).asserted = false := by
  have hk : (run R bad (.new s) ops).handles ≠ 0 := by rw [run_handles]; exact h0
  have ht := run_told (R := R) (bad := bad) ops (x := State.new s) ⟨fun h => (by cases h), fun h => (by cases h)⟩
  have ha : (run R bad (.new s) ops).asserted = false := by
    cases hx : (run R bad (.new s) ops).asserted with
    | false => rfl
    | true => exact absurd (ht.1 hx).2 hk
  have he := tryApply_empties hp hd
  rw [run_append]
  generalize run R bad (.new s) ops = x at *
  have e : run R bad x [.drop] = (x.drop R).st := by
    simp only [run, List.foldl_cons, List.foldl_nil, step, if_neg hk]
  have e2 : step R bad x .drop = x.drop R := by simp only [step, if_neg hk]
  rw [e, e2]
  unfold State.drop
  dsimp only
  split
  · simp [he, hd, Deferred.isDirty]
  · exact ⟨he, rfl, hd, ha⟩

/-- C88. The assertion that nothing is pending when the last handle goes fails only if the mutex is poisoned: because the
destination had panicked, or the limit of recursion was exceeded. -/
theorem C88_assertion_partial (R : Touchy S I E) (bad : Nat → Bool) (s : S) (ops : List (Op I E))
    (h : (run R bad (.new s) ops).asserted = true) :
    (run R bad (.new s) ops).core.poisoned = true ∧ held 1 ops = 0 := by
  have ht := run_told (R := R) (bad := bad) ops (x := State.new s) ⟨fun h => (by cases h), fun h => (by cases h)⟩
  obtain ⟨h1, h2⟩ := ht.1 h
  rw [run_handles] at h2
  exact ⟨h1, h2⟩

/-- C88. Nothing panics if the destination does not call back and neither it nor a teardown panics. -/
theorem C88_no_panic (R : Touchy S I E) (hR : Plain R) (s : S) (ops : List (Op I E)) (op : Op I E) :
    (step R (fun _ => false) (run R (fun _ => false) (.new s) ops) op).panicked = false :=
  (step_plain hR op (run_plain hR ops (x := State.new s) ⟨rfl, rfl⟩)).1

/-- C88. The full property fails: the destination has panicked once, the panic was caught; then every value that is sent makes
the drop of the last handle panic. -/
theorem C88_counterexample (vs : List Nat) (hv : vs ≠ []) :
    (run touchySubscriber (fun _ => false) (.new ([], false))
      (.clone :: .call (.note (.next 7)) :: .drop :: vs.map (fun v => .call (.note (.next v))) ++ [.drop])).asserted = true := by
  have hk : ∀ (vs : List Nat) (x : State (List Nat × Bool) Nat Unit), x.handles = 1 → run touchySubscriber (fun _ => false) x
      (vs.map (fun v => .call (.note (.next v)))) =
      { x with core := (Panics.Shared.run touchySubscriber (fun _ => false) x.core
          ((vs.map SubscriberNotification.next).map .note)) } := by
    intro vs
    induction vs with
    | nil => intro x _; rfl
    | cons v vs ih =>
      intro x hx
      rw [List.map_cons, run_cons]
      have e : (step touchySubscriber (fun _ => false) x (.call (.note (.next v)))).st =
          { x with core := (Panics.Shared.step touchySubscriber (fun _ => false) x.core (.note (.next v))).st } := by
        unfold step; rw [if_neg (by omega)]
      rw [e, ih _ (by exact hx)]
      rfl
  have e0 : run touchySubscriber (fun _ => false) (.new ([], false)) [.clone, .call (.note (.next 7)), .drop] =
      ({ core := { dest := ([7], false), poisoned := true } } : State (List Nat × Bool) Nat Unit) := rfl
  have e1 : (.clone :: .call (.note (.next 7)) :: .drop :: vs.map (fun v => .call (.note (.next v))) ++ [.drop] : List (Op Nat Unit)) =
      [.clone, .call (.note (.next 7)), .drop] ++ (vs.map (fun v => .call (.note (.next v))) ++ [.drop]) := rfl
  rw [e1, run_append, e0, run_append, hk vs _ rfl]
  have hq := C77_piles_up touchySubscriber (fun _ => false)
    ({ dest := ([7], false), poisoned := true } : Panics.Shared.State (List Nat × Bool) Nat Unit) rfl rfl vs
  have hp : (Panics.Shared.run touchySubscriber (fun _ => false)
    ({ dest := ([7], false), poisoned := true } : Panics.Shared.State (List Nat × Bool) Nat Unit)
    ((vs.map SubscriberNotification.next).map .note)).poisoned = true := by rw [Panics.Shared.run_dead rfl]
  generalize Panics.Shared.run touchySubscriber (fun _ => false)
    ({ dest := ([7], false), poisoned := true } : Panics.Shared.State (List Nat × Bool) Nat Unit)
    ((vs.map SubscriberNotification.next).map .note) = c at *
  simp only [run, List.foldl_cons, List.foldl_nil, step, State.drop, tryApply_idle (.inl hp), if_true]
  simp only [Nat.one_ne_zero, if_false, Deferred.isDirty, hq]
  cases vs with
  | nil => exact absurd rfl hv
  | cons v vs => rfl

namespace Demo

/-- Sends itself 7 when it is handed a teardown; when it is given 7 it sends itself 8 and panics. -/
def selfish : Touchy (List Nat) Nat Unit :=
  ⟨fun s n => match n with
    | .next 7 => .call (.next 8) (.panic (s ++ [7]))
    | .next v => .done (s ++ [v])
    | _ => .done s, fun s _ => .call (.next 7) (.done s), fun _ => false⟩

/-- The same without the panic. -/
def calling : Touchy (List Nat) Nat Unit :=
  ⟨fun s n => match n with
    | .next 7 => .call (.next 8) (.done (s ++ [7]))
    | .next v => .done (s ++ [v])
    | _ => .done s, fun s _ => .call (.next 7) (.done s), fun _ => false⟩

/-- Three handles, one dropped: values still arrive. -/
example : (run touchySubscriber (fun _ => false) (.new ([], false))
    [.clone, .call (.note (.next 1)), .clone, .drop, .call (.note (.next 2)), .drop]).core.dest = ([1, 2], false) := by decide

example : NotesOnly ([.clone, .call (.note (.next 1)), .clone, .drop, .call (.note (.next 2)), .drop] : List (Op Nat Unit)) := by
  intro t h; simp at h

/-- Pending values are delivered by the drop. -/
example : (run calling (fun _ => false) (.new []) [.clone, .call (.addTeardown (some 1))]).core.dest = [] ∧
    (run calling (fun _ => false) (.new []) [.clone, .call (.addTeardown (some 1)), .drop]).core.dest = [7, 8] ∧
    (run calling (fun _ => false) (.new []) [.call (.addTeardown (some 1)), .drop]).asserted = false := by decide

example : Plain (⟨fun s n => .done (n :: s), fun s _ => .done s, fun _ => false⟩ :
    Touchy (List (SubscriberNotification Nat Unit)) Nat Unit) := ⟨fun _ _ => ⟨_, rfl⟩, fun _ _ => ⟨_, rfl⟩⟩

end Demo

/-- C88. It can even abort the program: a value is pending, the drop of the last handle delivers it, the destination sends
itself another and panics, and while unwinding the assertion fails. -/
theorem C88_abort :
    (run Demo.selfish (fun _ => false) (.new []) [.call (.addTeardown (some 1)), .drop]).aborted = true := by decide

end Rx.Drops
