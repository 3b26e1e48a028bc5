import Verif.Lemmas.Callbacks

/-!
# C80: observers made of callbacks
-/

namespace Rx.Callbacks

variable {I E : Type}

/-- C80. While nothing panics: the callbacks are run with exactly what the subscription delivers, in order, up to the first end or
until it is unsubscribed, what there is no callback for being left out; it is closed from then on; the teardowns handed over run,
in order, once it is closed, and not before. -/
theorem C80_callbacks (bad : ObserverNotification I E → Bool) (x : Obs I E) (hx : Made x) (cs : List (Call I E))
    (hq : ∀ n ∈ heard cs, panics bad x n = false) :
    (({ obs := x } : State I E).run bad cs).1.obs.ran = (heard cs).filter (holds x) ∧
    (({ obs := x } : State I E).run bad cs).1.data.isClosed = over cs ∧
    (({ obs := x } : State I E).run bad cs).1.tornDown = (if over cs then added cs else []) ∧
    (({ obs := x } : State I E).run bad cs).2 = List.replicate cs.length false := by
  obtain ⟨h1, h2, h3, h4, _⟩ := State.run_quiet (bad := bad) hx cs { obs := x } (Same.refl x) rfl hq
  refine ⟨?_, ?_, ?_, h4⟩
  · rw [h1]; cases hx <;> rfl
  · rw [h2]; cases over cs <;> rfl
  · rw [h3]; cases over cs <;> rfl

/-- C80. The first panic: an error for which there is no callback is not swallowed, the call panics (in `NoopObserver` in debug
builds only); so does a callback that panics. The full statement is that the subscription is closed then, if it was an end, as it
is after any other end. It is not, whatever was called: `C80_open_counterexample`. -/
theorem C80_panic_partial (bad : ObserverNotification I E → Bool) (x : Obs I E) (hx : Made x) (cs : List (Call I E))
    (ho : over cs = false) (hq : ∀ n ∈ heard cs, panics bad x n = false) (n : ObserverNotification I E)
    (hn : panics bad x n = true) :
    let c : Call I E := .note (match n with | .next v => .next v | .error e => .error e | .complete => .complete)
    (({ obs := x } : State I E).run bad (cs ++ [c])).2 = List.replicate cs.length false ++ [true] ∧
    (({ obs := x } : State I E).run bad (cs ++ [c])).1.obs.ran = (heard cs ++ [n]).filter (holds x) ∧
    (({ obs := x } : State I E).run bad (cs ++ [c])).1.data.isClosed = false := by
  intro c
  obtain ⟨h1, h2, h3, h4, h5⟩ := State.run_quiet (bad := bad) hx cs { obs := x } (Same.refl x) rfl hq
  rw [ho] at h2
  have hc : (({ obs := x } : State I E).run bad cs).1.data.isClosed = false := by rw [h2]; rfl
  obtain ⟨p1, p2, _⟩ := push_spec (bad := bad) hx (h5 ho) n
  have hx0 : x.ran = [] := by cases hx <;> rfl
  have h1 : (({ obs := x } : State I E).run bad cs).1.obs.ran = (heard cs).filter (holds x) := by
    rw [h1]; show x.ran ++ _ = _; rw [hx0]; rfl
  rw [State.run_append]
  generalize (({ obs := x } : State I E).run bad cs).1 = s at *
  have e : s.step bad c = ⟨{ s with obs := (s.obs.push bad n).st }, true⟩ := by
    cases n with
    | next v =>
      show (if (!s.data.isClosed) = true then s.give bad (.next v) else _) = _
      rw [hc]
      show (⟨_, (s.obs.push bad (.next v)).panicked⟩ : Panics.Out (State I E)) = _
      rw [p1, hn]
    | error e =>
      show (if (!s.data.isClosed) = true then (s.give bad (.error e)).andThen _ _ else _) = _
      rw [hc]
      show (if (s.obs.push bad (.error e)).panicked = true then _ else _) = _
      rw [p1, hn]; rfl
    | complete =>
      show (if (!s.data.isClosed) = true then (s.give bad .complete).andThen _ _ else _) = _
      rw [hc]
      show (if (s.obs.push bad .complete).panicked = true then _ else _) = _
      rw [p1, hn]; rfl
  have r : s.run bad [c] = ((s.step bad c).st, [(s.step bad c).panicked]) := rfl
  rw [r, e, h4]
  refine ⟨rfl, ?_, hc⟩
  show (s.obs.push bad n).st.ran = _
  rw [p2, h1, List.filter_append]
  cases hh : holds x n <;> simp [hh]

/-- C80. In every history, whatever panics: the callback for errors is run at most once, and so is the one for completion. -/
theorem C80_once (bad : ObserverNotification I E → Bool) (x : Obs I E) (hx : Made x) (cs : List (Call I E)) :
    ((({ obs := x } : State I E).run bad cs).1.obs.ran.filter isError).length ≤ 1 ∧
    ((({ obs := x } : State I E).run bad cs).1.obs.ran.filter isComplete).length ≤ 1 := by
  have := State.Inv.run (bad := bad) cs (State.Inv.start hx)
  have h1 := this.errors
  have h2 := this.completes
  omega

/-- C80. In every history, whatever panics: callbacks are run only with what was called, each at most as often, in that order. -/
theorem C80_nothing_made_up (bad : ObserverNotification I E → Bool) (x : Obs I E) (hx : Made x) (cs : List (Call I E)) :
    (({ obs := x } : State I E).run bad cs).1.obs.ran.Sublist (notes cs) := by
  obtain ⟨l, h1, h2⟩ := State.run_sublist (bad := bad) cs { obs := x }
  have hx0 : x.ran = [] := by cases hx <;> rfl
  rw [h1]; show (x.ran ++ l).Sublist _; rw [hx0]; exact h2

/-- C80. In every history, whatever panics: once it is unsubscribed (which dropping it also does), it is closed and every teardown
handed over has run exactly once, in the order in which they were handed over. -/
theorem C80_released (bad : ObserverNotification I E → Bool) (x : Obs I E) (hx : Made x) (cs : List (Call I E)) :
    (({ obs := x } : State I E).run bad (cs ++ [.note .unsubscribe])).1.data.isClosed = true ∧
    (({ obs := x } : State I E).run bad (cs ++ [.note .unsubscribe])).1.tornDown = added cs := by
  have h := State.Inv.run (bad := bad) (cs ++ [.note .unsubscribe]) (State.Inv.start hx)
  have hc : (({ obs := x } : State I E).run bad (cs ++ [.note .unsubscribe])).1.data.closed = true := by
    rw [State.run_append]
    generalize (({ obs := x } : State I E).run bad cs).1 = s
    show s.unsubscribe.data.closed = true
    rw [State.unsubscribe, SubscriptionData.unsubscribe]
    cases hs : s.data.isClosed with
    | true => exact hs
    | false => rfl
  have ha : added (cs ++ [.note .unsubscribe] : List (Call I E)) = added cs := by
    clear h hc
    induction cs with
    | nil => rfl
    | cons c cs ih =>
      cases c with
      | note n => exact ih
      | addTeardown t => cases t with
        | none => exact ih
        | some t => exact congrArg (t :: ·) ih
  have ht := h.teardowns
  rw [h.closed hc, List.append_nil, List.nil_append, ha] at ht
  exact ⟨hc, ht⟩

/-- Where the code is not as stated: an error for which there is no callback leaves the subscription open, the teardown is not run,
and a value that comes after the error is handed to the callback. -/
theorem C80_open_counterexample :
    let r := ({ obs := .newDyn true false true } : State Nat Nat).run (fun _ => false)
      [.addTeardown (some 3), .note (.next 1), .note (.error 7), .note (.next 2)]
    r.2 = [false, false, true, false] ∧ r.1.obs.ran = [.next 1, .next 2] ∧ r.1.tornDown = [] ∧ r.1.data.isClosed = false := by
  decide +kernel

/-- The same of a callback for completion that panics. -/
theorem C80_complete_counterexample :
    let r := ({ obs := .newFn } : State Nat Nat).run (· == .complete) [.note .complete, .note (.next 2)]
    r.2 = [true, false] ∧ r.1.obs.ran = [.complete, .next 2] ∧ r.1.data.isClosed = false := by decide +kernel

/-! The hypotheses are met. -/

def sample : List (Call Nat Nat) :=
  [.addTeardown (some 1), .note (.next 5), .addTeardown (some 2), .note (.next 6), .note .complete, .note (.next 7), .addTeardown (some 3)]

example : Made (.newDyn true false false : Obs Nat Nat) ∧
    (∀ n ∈ heard sample, panics (fun _ => false) (.newDyn true false false : Obs Nat Nat) n = false) ∧
    (heard sample).filter (holds (.newDyn true false false : Obs Nat Nat)) = [.next 5, .next 6] ∧ over sample = true ∧
    added sample = [1, 2, 3] := by
  refine ⟨.dyn _ _ _, ?_⟩
  decide +kernel

example : over [(.note (.next 5) : Call Nat Nat)] = false ∧ panics (fun _ => false) (.newNone : Obs Nat Nat) (.error 1) = true ∧
    panics (fun _ => false) (.newNoop true : Obs Nat Nat) (.error 1) = true ∧
    panics (fun _ => false) (.newNoop false : Obs Nat Nat) (.error 1) = false ∧
    panics (fun _ => false) (.newFn : Obs Nat Nat) (.error 1) = false := by decide +kernel

end Rx.Callbacks
