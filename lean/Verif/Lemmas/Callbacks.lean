import Verif.Spec.Callbacks

/-! Observers made of callbacks. -/

namespace Rx.Callbacks

open Rx.Panics (Out)

variable {I E : Type} {bad : ObserverNotification I E → Bool}

/-- `y` is `x` with some callbacks run, of the ends none. -/
structure Same (x y : Obs I E) : Prop where
  kind : y.kind = x.kind
  next : y.onNext = x.onNext
  error : y.onError = x.onError
  complete : y.onComplete = x.onComplete

theorem Same.refl (x : Obs I E) : Same x x := ⟨rfl, rfl, rfl, rfl⟩

theorem Made.fnNext {x : Obs I E} (h : Made x) : x.kind = .fn → x.onNext = true ∧ x.onError = true := by
  cases h <;> simp [Obs.newFn, Obs.newDyn, Obs.newNoop, Obs.newNone]

theorem Made.noCallbacks {x : Obs I E} (h : Made x) : x.kind ≠ .fn → x.kind ≠ .dyn →
    x.onNext = false ∧ x.onError = false ∧ x.onComplete = false := by
  cases h <;> simp [Obs.newFn, Obs.newDyn, Obs.newNoop, Obs.newNone]

/-- One notification for an observer that has had no end. -/
theorem push_spec {x y : Obs I E} (hm : Made x) (h : Same x y) (n : ObserverNotification I E) :
    (y.push bad n).panicked = panics bad x n ∧
    (y.push bad n).st.ran = y.ran ++ (if holds x n then [n] else []) ∧
    (∀ v, n = .next v → Same x (y.push bad n).st) := by
  obtain ⟨k, a, b, c, r⟩ := y
  obtain ⟨h1, h2, h3, h4⟩ := h
  dsimp only at h1 h2 h3 h4
  subst h1; subst h2; subst h3; subst h4
  cases hm with
  | dyn a b c =>
    cases a <;> cases b <;> cases c <;> cases n <;>
      simp [Obs.push, panics, holds, strict, Obs.call, Obs.newDyn] <;> exact ⟨rfl, rfl, rfl, rfl⟩
  | fn =>
    cases n <;> simp [Obs.push, panics, holds, Obs.call, Obs.newFn] <;> exact ⟨rfl, rfl, rfl, rfl⟩
  | noop debug =>
    cases n <;> simp [Obs.push, panics, holds, strict, Obs.newNoop] <;> exact ⟨rfl, rfl, rfl, rfl⟩
  | none =>
    cases n <;> simp [Obs.push, panics, holds, strict, Obs.newNone] <;> exact ⟨rfl, rfl, rfl, rfl⟩

namespace State

/-- Nothing but teardowns once it is closed. -/
theorem run_closed : ∀ (cs : List (Call I E)) (s : State I E), s.data.closed = true → s.data.finalizers = [] →
    (s.run bad cs).1.obs = s.obs ∧ (s.run bad cs).1.data = s.data ∧ (s.run bad cs).1.tornDown = s.tornDown ++ added cs ∧
      (s.run bad cs).2 = List.replicate cs.length false
  | [], s, _, _ => ⟨rfl, rfl, by simp [added, run], rfl⟩
  | c :: cs, s, h, hf => by
    have hc : s.data.isClosed = true := h
    have hu : s.unsubscribe = s := by
      rw [unsubscribe, SubscriptionData.unsubscribe, hc]; simp
    have key : (s.step bad c).st.obs = s.obs ∧ (s.step bad c).st.data = s.data ∧
        (s.step bad c).st.tornDown = s.tornDown ++ added [c] ∧ (s.step bad c).panicked = false := by
      cases c with
      | note n => cases n <;> simp [step, hc, hu, added]
      | addTeardown t =>
        cases t <;> simp [step, SubscriptionData.addTeardown, hc, Teardown.execute, added]
    obtain ⟨k1, k2, k3, k4⟩ := key
    obtain ⟨h1, h2, h3, h4⟩ := run_closed cs (s.step bad c).st (by rw [k2]; exact h) (by rw [k2]; exact hf)
    refine ⟨h1.trans k1, h2.trans k2, ?_, ?_⟩
    · refine h3.trans ?_
      rw [k3, List.append_assoc]
      congr 1
      cases c with
      | note n => rfl
      | addTeardown t => cases t <;> rfl
    · show (s.step bad c).panicked :: ((s.step bad c).st.run bad cs).2 = _
      rw [k4, h4]; rfl

/-- While nothing panics. -/
theorem run_quiet {x : Obs I E} (hm : Made x) : ∀ (cs : List (Call I E)) (s : State I E), Same x s.obs → s.data.closed = false →
    (∀ n ∈ heard cs, panics bad x n = false) →
      (s.run bad cs).1.obs.ran = s.obs.ran ++ (heard cs).filter (holds x) ∧
      (s.run bad cs).1.data = (if over cs then ⟨true, []⟩ else ⟨false, s.data.finalizers ++ added cs⟩) ∧
      (s.run bad cs).1.tornDown = s.tornDown ++ (if over cs then s.data.finalizers ++ added cs else []) ∧
      (s.run bad cs).2 = List.replicate cs.length false ∧
      (over cs = false → Same x (s.run bad cs).1.obs)
  | [], s, hs, hc, _ => ⟨by simp [run, heard], by
      obtain ⟨o, ⟨d, f⟩, t⟩ := s
      cases hc
      simp [run, over, added], by simp [run, over], rfl, fun _ => hs⟩
  | c :: cs, s, hs, hc, hq => by
    have hcl : s.data.isClosed = false := hc
    have hrun : s.run bad (c :: cs) = ((((s.step bad c).st).run bad cs).1, (s.step bad c).panicked :: (((s.step bad c).st).run bad cs).2) := rfl
    have ended : ∀ (n : ObserverNotification I E), (s.step bad c) = (s.give bad n).andThen (fun s => ⟨s.unsubscribe, false⟩) id →
        panics bad x n = false → heard (c :: cs) = [n] → over (c :: cs) = true → added (c :: cs) = added cs →
        (s.run bad (c :: cs)).1.obs.ran = s.obs.ran ++ (heard (c :: cs)).filter (holds x) ∧
        (s.run bad (c :: cs)).1.data = (if over (c :: cs) then ⟨true, []⟩ else ⟨false, s.data.finalizers ++ added (c :: cs)⟩) ∧
        (s.run bad (c :: cs)).1.tornDown = s.tornDown ++ (if over (c :: cs) then s.data.finalizers ++ added (c :: cs) else []) ∧
        (s.run bad (c :: cs)).2 = List.replicate (c :: cs).length false ∧
        (over (c :: cs) = false → Same x (s.run bad (c :: cs)).1.obs) := fun n h1 h2 h3 h4 h5 => by
      obtain ⟨p1, p2, _⟩ := push_spec (bad := bad) hm hs n
      have e1 : s.step bad c = ⟨State.unsubscribe { s with obs := (s.obs.push bad n).st }, false⟩ := by
        rw [h1]
        show (if (s.obs.push bad n).panicked = true then _ else _) = _
        rw [p1, h2]; rfl
      have e2 : State.unsubscribe { s with obs := (s.obs.push bad n).st } =
          ⟨(s.obs.push bad n).st, ⟨true, []⟩, s.tornDown ++ s.data.finalizers⟩ := by
        rw [unsubscribe, SubscriptionData.unsubscribe, hcl]; rfl
      rw [e2] at e1
      obtain ⟨r1, r2, r3, r4⟩ := run_closed (bad := bad) cs (s.step bad c).st (by rw [e1]) (by rw [e1])
      rw [hrun, h3, h4, h5]
      refine ⟨?_, ?_, ?_, ?_, fun h => absurd h (by decide)⟩
      · show (((s.step bad c).st).run bad cs).1.obs.ran = _
        rw [r1, e1]
        show (s.obs.push bad n).st.ran = _
        rw [p2]
        cases hh : holds x n <;> simp [hh]
      · show (((s.step bad c).st).run bad cs).1.data = _
        rw [r2, e1]; rfl
      · show (((s.step bad c).st).run bad cs).1.tornDown = _
        rw [r3, e1, if_pos rfl, List.append_assoc]
      · show (s.step bad c).panicked :: (((s.step bad c).st).run bad cs).2 = _
        rw [r4, e1]; rfl
    cases c with
    | note n =>
      cases n with
      | next v =>
        have h0 := hq (.next v) (by simp [heard])
        obtain ⟨p1, p2, p3⟩ := push_spec (bad := bad) hm hs (.next v)
        have e1 : s.step bad (.note (.next v)) = ⟨{ s with obs := (s.obs.push bad (.next v)).st }, false⟩ := by
          show (if (!s.data.isClosed) = true then s.give bad (.next v) else _) = _
          rw [hcl]
          show (⟨_, (s.obs.push bad (.next v)).panicked⟩ : Out (State I E)) = _
          rw [p1, h0]
        obtain ⟨r1, r2, r3, r4, r5⟩ := run_quiet hm cs (s.step bad (.note (.next v))).st (by rw [e1]; exact p3 v rfl)
          (by rw [e1]; exact hc) (fun n hn => hq n (by simp [heard, hn]))
        rw [hrun]
        refine ⟨?_, ?_, ?_, ?_, r5⟩
        · show (((s.step bad (.note (.next v))).st).run bad cs).1.obs.ran = _
          rw [r1, e1]
          show (s.obs.push bad (.next v)).st.ran ++ _ = _
          rw [p2, heard, List.append_assoc]
          cases hh : holds x (.next v) <;> simp [hh]
        · show (((s.step bad (.note (.next v))).st).run bad cs).1.data = _
          rw [r2, e1]; rfl
        · show (((s.step bad (.note (.next v))).st).run bad cs).1.tornDown = _
          rw [r3, e1]; rfl
        · show (s.step bad (.note (.next v))).panicked :: (((s.step bad (.note (.next v))).st).run bad cs).2 = _
          rw [r4, e1]; rfl
      | error e =>
        exact ended (.error e) (by show (if (!s.data.isClosed) = true then _ else _) = _; rw [hcl]; rfl)
          (hq _ (by simp [heard])) rfl rfl rfl
      | complete =>
        exact ended .complete (by show (if (!s.data.isClosed) = true then _ else _) = _; rw [hcl]; rfl)
          (hq _ (by simp [heard])) rfl rfl rfl
      | unsubscribe =>
        have e1 : s.step bad (.note .unsubscribe) = ⟨⟨s.obs, ⟨true, []⟩, s.tornDown ++ s.data.finalizers⟩, false⟩ := by
          show (⟨s.unsubscribe, false⟩ : Out (State I E)) = _
          rw [unsubscribe, SubscriptionData.unsubscribe, hcl]; rfl
        obtain ⟨r1, r2, r3, r4⟩ := run_closed (bad := bad) cs (s.step bad (.note .unsubscribe)).st (by rw [e1]) (by rw [e1])
        rw [hrun]
        refine ⟨?_, ?_, ?_, ?_, fun h => absurd h (by simp [over])⟩
        · show (((s.step bad (.note .unsubscribe)).st).run bad cs).1.obs.ran = _
          rw [r1, e1]; simp [heard]
        · show (((s.step bad (.note .unsubscribe)).st).run bad cs).1.data = _
          rw [r2, e1]; rfl
        · show (((s.step bad (.note .unsubscribe)).st).run bad cs).1.tornDown = _
          have ho : over (.note .unsubscribe :: cs : List (Call I E)) = true := rfl
          rw [r3, e1, ho, if_pos rfl, List.append_assoc]; rfl
        · show (s.step bad (.note .unsubscribe)).panicked :: (((s.step bad (.note .unsubscribe)).st).run bad cs).2 = _
          rw [r4, e1]; rfl
    | addTeardown t =>
      have e1 : s.step bad (.addTeardown t) = ⟨⟨s.obs, ⟨false, s.data.finalizers ++ t.toList⟩, s.tornDown⟩, false⟩ := by
        obtain ⟨o, ⟨d, f⟩, td⟩ := s
        cases hc
        cases t <;> simp [step, SubscriptionData.addTeardown, SubscriptionData.isClosed, Teardown.take]
      obtain ⟨r1, r2, r3, r4, r5⟩ := run_quiet hm cs (s.step bad (.addTeardown t)).st (by rw [e1]; exact hs)
        (by rw [e1]) (fun n hn => hq n hn)
      have ha : added (.addTeardown t :: cs) = t.toList ++ added cs := by cases t <;> rfl
      rw [hrun]
      refine ⟨?_, ?_, ?_, ?_, r5⟩
      · show (((s.step bad (.addTeardown t)).st).run bad cs).1.obs.ran = _
        rw [r1, e1]; rfl
      · show (((s.step bad (.addTeardown t)).st).run bad cs).1.data = _
        rw [r2, e1, ha, over, List.append_assoc]
      · show (((s.step bad (.addTeardown t)).st).run bad cs).1.tornDown = _
        rw [r3, e1, ha, over, List.append_assoc]
      · show (s.step bad (.addTeardown t)).panicked :: (((s.step bad (.addTeardown t)).st).run bad cs).2 = _
        rw [r4, e1]; rfl

theorem run_append : ∀ (a b : List (Call I E)) (s : State I E),
    s.run bad (a ++ b) = (((s.run bad a).1.run bad b).1, (s.run bad a).2 ++ ((s.run bad a).1.run bad b).2)
  | [], _, _ => rfl
  | c :: a, b, s => by
    show ((((s.step bad c).st).run bad (a ++ b)).1, _ :: (((s.step bad c).st).run bad (a ++ b)).2) = _
    rw [run_append a b]; rfl

/-- What holds in every history, whatever panics: the teardowns are kept or were run, and no end has been run whose callback is
still there. -/
structure Inv (s : State I E) (a : List Nat) : Prop where
  teardowns : s.tornDown ++ s.data.finalizers = a
  closed : s.data.closed = true → s.data.finalizers = []
  kept : s.data.closed = false → s.tornDown = []
  errors : (s.obs.ran.filter isError).length + (if s.obs.onError then 1 else 0) ≤ 1
  completes : (s.obs.ran.filter isComplete).length + (if s.obs.onComplete then 1 else 0) ≤ 1

theorem push_once (x : Obs I E) (n : ObserverNotification I E) :
    ((x.push bad n).st.ran.filter isError).length + (if (x.push bad n).st.onError then 1 else 0) ≤
      (x.ran.filter isError).length + (if x.onError then 1 else 0) ∧
    ((x.push bad n).st.ran.filter isComplete).length + (if (x.push bad n).st.onComplete then 1 else 0) ≤
      (x.ran.filter isComplete).length + (if x.onComplete then 1 else 0) := by
  have i1 : ∀ v, isError (.next v : ObserverNotification I E) = false := fun _ => rfl
  have i2 : ∀ e, isError (.error e : ObserverNotification I E) = true := fun _ => rfl
  have i3 : isError (.complete : ObserverNotification I E) = false := rfl
  have j1 : ∀ v, isComplete (.next v : ObserverNotification I E) = false := fun _ => rfl
  have j2 : ∀ e, isComplete (.error e : ObserverNotification I E) = false := fun _ => rfl
  have j3 : isComplete (.complete : ObserverNotification I E) = true := rfl
  obtain ⟨k, a, b, c, r⟩ := x
  cases k <;> cases a <;> cases b <;> cases c <;> cases n <;>
    simp [Obs.push, Obs.call, i1, i2, i3, j1, j2, j3]

theorem Inv.push {s : State I E} {a : List Nat} (h : s.Inv a) (n : ObserverNotification I E) :
    Inv { s with obs := (s.obs.push bad n).st } a :=
  ⟨h.teardowns, h.closed, h.kept, Nat.le_trans (push_once s.obs n).1 h.errors, Nat.le_trans (push_once s.obs n).2 h.completes⟩

theorem Inv.unsubscribe {s : State I E} {a : List Nat} (h : s.Inv a) : s.unsubscribe.Inv a := by
  rw [State.unsubscribe, SubscriptionData.unsubscribe]
  cases hc : s.data.closed with
  | true =>
    have hcl : s.data.isClosed = true := hc
    rw [hcl]
    exact ⟨(by simpa using h.teardowns), h.closed, fun k => absurd (hc.symm.trans k) (by decide), h.errors, h.completes⟩
  | false =>
    have hcl : s.data.isClosed = false := hc
    rw [hcl]
    exact ⟨(by simpa using h.teardowns), fun _ => rfl, fun k => absurd (show true = false from k) (by decide), h.errors, h.completes⟩

theorem Inv.step {s : State I E} {a : List Nat} (h : s.Inv a) (c : Call I E) :
    (s.step bad c).st.Inv (a ++ added [c]) := by
  cases c with
  | note n =>
    have ha : added [(.note n : Call I E)] = [] := rfl
    rw [ha, List.append_nil]
    cases n with
    | next v =>
      rw [State.step]
      split
      · exact h.push _
      · exact h
    | error e =>
      rw [State.step]
      split
      · rw [Out.andThen]
        split
        · exact h.push _
        · exact (h.push _).unsubscribe
      · exact h
    | complete =>
      rw [State.step]
      split
      · rw [Out.andThen]
        split
        · exact h.push _
        · exact (h.push _).unsubscribe
      · exact h
    | unsubscribe => exact h.unsubscribe
  | addTeardown t =>
    have ha : added [(.addTeardown t : Call I E)] = t.toList := by cases t <;> rfl
    rw [ha]
    rw [State.step, SubscriptionData.addTeardown]
    cases hc : s.data.closed with
    | true =>
      have hcl : s.data.isClosed = true := hc
      rw [hcl]
      have hf := h.closed hc
      have ht := h.teardowns
      rw [hf, List.append_nil] at ht
      refine ⟨?_, h.closed, fun k => absurd (hc.symm.trans k) (by decide), h.errors, h.completes⟩
      show (s.tornDown ++ t.toList) ++ s.data.finalizers = a ++ t.toList
      rw [hf, List.append_nil, ht]
    | false =>
      have hcl : s.data.isClosed = false := hc
      rw [hcl]
      have ht := h.teardowns
      cases t with
      | none =>
        exact ⟨(by simpa [Teardown.take] using ht), fun k => absurd (hc.symm.trans k) (by decide),
          fun _ => (by simpa [Teardown.take] using h.kept hc), h.errors, h.completes⟩
      | some t =>
        refine ⟨?_, fun k => absurd (show false = true from k) (by decide),
          fun _ => (by simpa [Teardown.take] using h.kept hc), h.errors, h.completes⟩
        show (s.tornDown ++ []) ++ (s.data.finalizers ++ [t]) = a ++ [t]
        rw [List.append_nil, ← List.append_assoc, ht]

theorem Inv.run : ∀ (cs : List (Call I E)) {s : State I E} {a : List Nat}, s.Inv a → (s.run bad cs).1.Inv (a ++ added cs)
  | [], _, _, h => by simpa [State.run, added] using h
  | c :: cs, s, a, h => by
    have := Inv.run cs (h.step (bad := bad) c)
    have ha : added (c :: cs) = added [c] ++ added cs := by
      cases c with
      | note n => rfl
      | addTeardown t => cases t <;> rfl
    rw [ha, ← List.append_assoc]; exact this

theorem Inv.start {x : Obs I E} (h : Made x) : Inv ({ obs := x } : State I E) [] := by
  cases h with
  | fn => exact ⟨rfl, fun _ => rfl, fun _ => rfl, Nat.le_refl 1, Nat.le_refl 1⟩
  | dyn n e c => cases e <;> cases c <;> exact ⟨rfl, fun _ => rfl, fun _ => rfl, by simp [Obs.newDyn], by simp [Obs.newDyn]⟩
  | noop d => exact ⟨rfl, fun _ => rfl, fun _ => rfl, by simp [Obs.newNoop], by simp [Obs.newNoop]⟩
  | none => exact ⟨rfl, fun _ => rfl, fun _ => rfl, by simp [Obs.newNone], by simp [Obs.newNone]⟩

/-- Callbacks are run with what was called, in that order. -/
theorem run_sublist : ∀ (cs : List (Call I E)) (s : State I E), ∃ l, (s.run bad cs).1.obs.ran = s.obs.ran ++ l ∧ l.Sublist (notes cs)
  | [], s => ⟨[], by simp [run], List.Sublist.refl _⟩
  | c :: cs, s => by
    have push : ∀ n, (s.obs.push bad n).st.ran = s.obs.ran ∨ (s.obs.push bad n).st.ran = s.obs.ran ++ [n] := fun n => by
      unfold Obs.push
      split <;> (try split) <;> simp [Obs.call]
    have key : ∃ l, (s.step bad c).st.obs.ran = s.obs.ran ++ l ∧ l.Sublist (notes [c]) := by
      have give : ∀ n (f : State I E → State I E), (∀ s, (f s).obs = s.obs) → notes [c] = [n] →
          ∃ l, (f { s with obs := (s.obs.push bad n).st }).obs.ran = s.obs.ran ++ l ∧ l.Sublist (notes [c]) := fun n f hf hn => by
        rw [hf, hn]
        rcases push n with h | h
        · exact ⟨[], by simpa using h, by simp⟩
        · exact ⟨[n], h, List.Sublist.refl _⟩
      cases c with
      | note n =>
        cases n with
        | next v =>
          rw [step]
          split
          · exact give (.next v) id (fun _ => rfl) rfl
          · exact ⟨[], by simp, by simp⟩
        | error e =>
          rw [step]
          split
          · rw [Out.andThen]
            split
            · exact give (.error e) id (fun _ => rfl) rfl
            · exact give (.error e) State.unsubscribe (fun _ => rfl) rfl
          · exact ⟨[], by simp, by simp⟩
        | complete =>
          rw [step]
          split
          · rw [Out.andThen]
            split
            · exact give .complete id (fun _ => rfl) rfl
            · exact give .complete State.unsubscribe (fun _ => rfl) rfl
          · exact ⟨[], by simp, by simp⟩
        | unsubscribe => exact ⟨[], by simp [step, unsubscribe], by simp⟩
      | addTeardown t => exact ⟨[], by simp [step], by simp⟩
    obtain ⟨l1, h1, h2⟩ := key
    obtain ⟨l2, h3, h4⟩ := run_sublist cs (s.step bad c).st
    have hn : notes (c :: cs) = notes [c] ++ notes cs := by
      cases c with
      | note n => cases n <;> rfl
      | addTeardown t => rfl
    refine ⟨l1 ++ l2, ?_, by rw [hn]; exact List.Sublist.append h2 h4⟩
    show (((s.step bad c).st).run bad cs).1.obs.ran = _
    rw [h3, h1, List.append_assoc]

end State
end Rx.Callbacks
