import Verif.Spec.SubjectFeeds

/-!
# The inputs of a subject
-/

namespace Rx.Feeds

open Rx.Publish (Fault)

variable {X S I E : Type} {st : X → Publish.Op S I E → Except Fault X}

theorem made_snoc (h : List (Op S I E)) (op : Op S I E) :
    made (h ++ [op]) = made h + (match op with | .connect => 1 | _ => 0) := by
  simp only [made, List.filter_append, List.length_append]
  cases op <;> rfl

theorem made_le (a b : List (Op S I E)) : made a ≤ made (a ++ b) := by
  simp [made]

theorem Over.snoc {j : Nat} {h : List (Op S I E)} (o : Over j h) (op : Op S I E) : Over j (h ++ [op]) := by
  obtain ⟨pre, n, post, h1, h2, h3⟩ := o
  exact ⟨pre, n, post ++ [op], by simp [h1], h2, h3⟩

theorem Over.made {j : Nat} {h : List (Op S I E)} (o : Over j h) : j < Feeds.made h := by
  obtain ⟨pre, n, post, h1, h2, h3⟩ := o
  have := made_le pre (.push j n :: post)
  rw [← h1] at this
  omega

/-- What ended by the last operation. -/
theorem over_snoc {j : Nat} {h : List (Op S I E)} {op : Op S I E} (o : Over j (h ++ [op])) :
    Over j h ∨ ∃ n, op = .push j n ∧ j < made h ∧ n.isClosing = true := by
  obtain ⟨pre, n, post, h1, h2, h3⟩ := o
  rcases List.eq_nil_or_concat post with hp | ⟨post', z, hp⟩
  · subst hp
    obtain ⟨e1, e2⟩ := List.append_inj' h1 rfl
    cases e2
    subst e1
    exact .inr ⟨n, rfl, h2, h3⟩
  · rw [List.concat_eq_append] at hp
    subst hp
    rw [← List.cons_append, ← List.append_assoc] at h1
    obtain ⟨e1, _⟩ := List.append_inj' h1 rfl
    exact .inl ⟨pre, n, post', e1, h2, h3⟩

theorem addedTo_snoc (j : Nat) : ∀ (h : List (Op S I E)) (n : Nat) (op : Op S I E),
    addedTo j n (h ++ [op]) = addedTo j n h ++
      (match op with | .addTeardown k t => if k = j ∧ j < n + made h then [t] else [] | _ => []) := by
  intro h
  induction h with
  | nil =>
    intro n op
    cases op with
    | addTeardown k t =>
      by_cases hk : k = j ∧ j < n <;> simp [addedTo, made, hk]
    | _ => rfl
  | cons o h ih =>
    intro n op
    cases o with
    | connect =>
      have : made (Op.connect :: h : List (Op S I E)) = made h + 1 := by simp [made]
      simp only [List.cons_append, addedTo, ih, this]
      have : n + 1 + made h = n + (made h + 1) := by omega
      rw [this]
    | addTeardown k t =>
      have : made (Op.addTeardown k t :: h : List (Op S I E)) = made h := by simp [made]
      simp only [List.cons_append, addedTo, ih, this]
      split <;> rfl
    | direct o =>
      have : made (Op.direct o :: h : List (Op S I E)) = made h := by simp [made]
      simp only [List.cons_append, addedTo, ih, this]
    | push k m =>
      have : made (Op.push k m :: h : List (Op S I E)) = made h := by simp [made]
      simp only [List.cons_append, addedTo, ih, this]

/-- What an input is, by its history. -/
def Agrees (j : Nat) (h : List (Op S I E)) (a : Input) : Prop :=
  (a.isClosed = true ↔ Over j h) ∧
    a.tornDown ++ a.teardown.finalizers = addedTo j 0 h ∧ (if a.isClosed then a.teardown.finalizers = [] else a.tornDown = [])

structure Inv (h : List (Op S I E)) (x : State X) : Prop where
  len : x.inputs.length = made h
  each : ∀ j a, x.inputs[j]? = some a → Agrees j h a

theorem Inv.init (s : X) : Inv ([] : List (Op S I E)) (init s) := ⟨rfl, fun j a h => by simp [Feeds.init] at h⟩

theorem Agrees.other {j : Nat} {h : List (Op S I E)} {a : Input} (g : Agrees j h a) {op : Op S I E}
    (h1 : ∀ n, op = .push j n → n.isClosing = true → a.isClosed = true)
    (h2 : ∀ t, op ≠ .addTeardown j t) : Agrees j (h ++ [op]) a := by
  refine ⟨⟨fun hc => (g.1.1 hc).snoc op, fun o => ?_⟩, ?_, g.2.2⟩
  · rcases over_snoc o with o | ⟨n, e, _, hn⟩
    · exact g.1.2 o
    · exact h1 n e hn
  · rw [addedTo_snoc, g.2.1]
    cases op with
    | addTeardown k t =>
      have : k ≠ j := fun hk => h2 t (by rw [hk])
      simp [this]
    | _ => simp

theorem Agrees.unsubscribe {j : Nat} {h : List (Op S I E)} {a : Input} (g : Agrees j h a) (hj : j < made h)
    {n : SubscriberNotification I E} (hn : n.isClosing = true) : Agrees j (h ++ [.push j n]) a.unsubscribe := by
  obtain ⟨td, dn⟩ := a
  obtain ⟨c, f⟩ := td
  obtain ⟨g1, g2, g3⟩ := g
  refine ⟨⟨fun _ => ⟨h, n, [], rfl, hj, hn⟩, fun _ => ?_⟩, ?_, ?_⟩
  · cases c <;> rfl
  · rw [addedTo_snoc, ← g2]
    cases c <;> simp [Input.unsubscribe, SubscriptionData.unsubscribe, SubscriptionData.isClosed]
  · cases c with
    | false => simp [Input.unsubscribe, SubscriptionData.unsubscribe, SubscriptionData.isClosed, Input.isClosed]
    | true => simpa [Input.unsubscribe, SubscriptionData.unsubscribe, SubscriptionData.isClosed, Input.isClosed] using g3

theorem Agrees.add {j t : Nat} {h : List (Op S I E)} {a : Input} (g : Agrees j h a) (hj : j < made h) :
    Agrees j (h ++ [.addTeardown j t]) (a.addTeardown t) := by
  obtain ⟨td, dn⟩ := a
  obtain ⟨c, f⟩ := td
  obtain ⟨g1, g2, g3⟩ := g
  have ho : Over j (h ++ [.addTeardown j t]) ↔ Over j h := by
    refine ⟨fun o => ?_, fun o => o.snoc _⟩
    rcases over_snoc o with o | ⟨n, e, _⟩
    · exact o
    · cases e
  refine ⟨?_, ?_, ?_⟩
  · rw [ho, ← g1]
    cases c <;> rfl
  · rw [addedTo_snoc, ← g2]
    simp only [Nat.zero_add, hj, and_self, if_true]
    cases c with
    | false => simp [Input.addTeardown, SubscriptionData.addTeardown, SubscriptionData.isClosed, Teardown.take]
    | true =>
      have : f = [] := by simpa [Input.isClosed, SubscriptionData.isClosed] using g3
      simp [Input.addTeardown, SubscriptionData.addTeardown, SubscriptionData.isClosed, Teardown.execute, this]
  · cases c with
    | false =>
      have : dn = [] := by simpa [Input.isClosed, SubscriptionData.isClosed] using g3
      simp [Input.addTeardown, SubscriptionData.addTeardown, SubscriptionData.isClosed, Input.isClosed, Teardown.take, this]
    | true =>
      have : f = [] := by simpa [Input.isClosed, SubscriptionData.isClosed] using g3
      simp [Input.addTeardown, SubscriptionData.addTeardown, SubscriptionData.isClosed, Input.isClosed, this]

/-- An operation that leaves the inputs alone. -/
theorem Inv.same {h : List (Op S I E)} {x y : State X} (v : Inv h x) (hy : y.inputs = x.inputs) (op : Op S I E)
    (h0 : op ≠ .connect) (h1 : ∀ j n a, op = .push j n → x.inputs[j]? = some a → n.isClosing = true → a.isClosed = true)
    (h2 : ∀ j t, op = .addTeardown j t → made h ≤ j) : Inv (h ++ [op]) y := by
  refine ⟨?_, ?_⟩
  · rw [hy, v.len, made_snoc]
    cases op with
    | connect => exact absurd rfl h0
    | _ => rfl
  · intro j a ha
    rw [hy] at ha
    refine (v.each j a ha).other (fun n e hn => h1 j n a e ha hn) ?_
    intro t e
    have := h2 j t e
    rw [← v.len] at this
    rw [List.getElem?_eq_none this] at ha
    cases ha

/-- An operation that changes one input. -/
theorem Inv.one {h : List (Op S I E)} {x y : State X} (v : Inv h x) {j : Nat} {a : Input} (hy : y.inputs = x.inputs.set j a)
    (op : Op S I E) (h0 : op ≠ .connect) (h1 : ∀ k n, op = .push k n → k = j) (h2 : ∀ k t, op = .addTeardown k t → k = j)
    (ha : j < made h → Agrees j (h ++ [op]) a) : Inv (h ++ [op]) y := by
  refine ⟨?_, ?_⟩
  · rw [hy, List.length_set, v.len, made_snoc]
    cases op with
    | connect => exact absurd rfl h0
    | _ => rfl
  · intro k b hb
    rw [hy, List.getElem?_set] at hb
    by_cases hk : j = k
    · subst hk
      simp only [if_true] at hb
      split at hb
      · cases hb
        rename_i hl
        rw [v.len] at hl
        exact ha hl
      · cases hb
    · simp only [hk, if_false] at hb
      exact (v.each k b hb).other (fun n e _ => absurd (h1 k n e).symm hk) (fun t e => hk (h2 k t e).symm)

/-- One operation: what the subject is told, and what becomes of the inputs. -/
theorem step_told {h : List (Op S I E)} {x : State X} (v : Inv h x) (op : Op S I E) :
    ∃ tell, Tells h op tell ∧
      (step st x op).map (·.subject) = tell.foldlM st x.subject ∧
      ∀ y, step st x op = .ok y → Inv (h ++ [op]) y := by
  cases op with
  | direct o =>
    refine ⟨[o], .direct o, ?_, ?_⟩
    · simp only [step, List.foldlM_cons, List.foldlM_nil]
      cases st x.subject o <;> rfl
    · intro y hy
      simp only [step] at hy
      split at hy
      · cases hy
        rename_i s1 _
        exact v.same (y := ⟨s1, x.inputs⟩) rfl (.direct o) (fun e => by cases e) (fun _ _ _ e => by cases e) (fun _ _ e => by cases e)
      · cases hy
  | connect =>
    refine ⟨[], .connect, rfl, ?_⟩
    intro y hy
    cases hy
    refine ⟨by simp [made_snoc, v.len], ?_⟩
    intro j a ha
    by_cases hj : j < x.inputs.length
    · rw [List.getElem?_append_left hj] at ha
      exact (v.each j a ha).other (by intro _ h; cases h) (by intro _ h; cases h)
    · rw [List.getElem?_append_right (by omega)] at ha
      have hj0 : j - x.inputs.length = 0 := by
        rcases Nat.eq_zero_or_pos (j - x.inputs.length) with h | h
        · exact h
        · rw [List.getElem?_eq_none (by simp; omega)] at ha; cases ha
      rw [hj0] at ha
      cases ha
      have hjm : made h ≤ j := by rw [← v.len]; omega
      refine ⟨⟨(fun hc => by cases hc), fun o => ?_⟩, ?_, rfl⟩
      · rcases over_snoc o with o | ⟨_, e, _⟩
        · have := o.made; omega
        · cases e
      · rw [addedTo_snoc]
        have : ∀ (h : List (Op S I E)) (n : Nat), n + made h ≤ j → addedTo j n h = [] := by
          intro h
          induction h with
          | nil => intro n _; rfl
          | cons o h ih =>
            intro n hn
            cases o with
            | connect =>
              have : made (Op.connect :: h : List (Op S I E)) = made h + 1 := by simp [made]
              exact ih (n + 1) (by omega)
            | addTeardown k t =>
              have : made (Op.addTeardown k t :: h : List (Op S I E)) = made h := by simp [made]
              simp only [addedTo]
              rw [if_neg (by omega)]
              exact ih n (by omega)
            | direct o =>
              have : made (Op.direct o :: h : List (Op S I E)) = made h := by simp [made]
              exact ih n (by omega)
            | push k m =>
              have : made (Op.push k m :: h : List (Op S I E)) = made h := by simp [made]
              exact ih n (by omega)
        rw [this h 0 (by omega)]
        rfl
  | addTeardown j t =>
    refine ⟨[], .addTeardown j t, ?_, ?_⟩
    · simp only [step]
      split <;> rfl
    · intro y hy
      simp only [step] at hy
      split at hy
      · rename_i a ha
        cases hy
        exact v.one rfl _ (by intro h; cases h) (by intro _ _ h; cases h) (by intro _ _ h; cases h; rfl)
          (fun hj => (v.each j a ha).add hj)
      · rename_i ha
        cases hy
        refine v.same rfl _ (by intro h; cases h) (by intro _ _ _ h; cases h) ?_
        intro k t' e
        cases e
        rw [← v.len]
        exact List.getElem?_eq_none_iff.1 ha
  | push j n =>
    cases ha : x.inputs[j]? with
    | none =>
      have hj : made h ≤ j := by rw [← v.len]; exact List.getElem?_eq_none_iff.1 ha
      refine ⟨[], .unknown j n hj, ?_, ?_⟩
      · simp only [step, ha]; rfl
      · intro y hy
        simp only [step, ha] at hy
        cases hy
        refine v.same rfl _ (by intro h; cases h) ?_ (by intro _ _ h; cases h)
        intro k m a e hk
        cases e
        rw [ha] at hk
        cases hk
    | some a =>
      have hj : j < made h := by
        rw [← v.len]
        rcases Nat.lt_or_ge j x.inputs.length with h | h
        · exact h
        · rw [List.getElem?_eq_none h] at ha; cases ha
      have hag := v.each j a ha
      have hquiet : ∀ (y : State X) (m : SubscriberNotification I E), y.inputs = x.inputs →
          (m.isClosing = true → a.isClosed = true) → Inv (h ++ [.push j m]) y := by
        intro y m hy hm
        refine v.same hy _ (by intro h; cases h) ?_ (by intro _ _ h; cases h)
        intro k m' b e hk hc
        cases e
        rw [ha] at hk
        cases hk
        exact hm hc
      have hclose : ∀ (y : State X) (m : SubscriberNotification I E), y.inputs = x.inputs.set j a.unsubscribe →
          m.isClosing = true → Inv (h ++ [.push j m]) y := fun y m hy hm =>
        v.one hy _ (by intro h; cases h) (by intro _ _ h; cases h; rfl) (by intro _ _ h; cases h) (fun _ => hag.unsubscribe hj hm)
      cases hc : a.isClosed with
      | true =>
        refine ⟨[], .over j n (hag.1.1 hc), ?_, ?_⟩
        · cases n <;> simp only [step, ha, State.push, hc] <;> rfl
        · intro y hy
          cases n with
          | unsubscribe =>
            simp only [step, ha, State.push] at hy
            cases hy
            exact hclose _ _ rfl rfl
          | _ =>
            simp only [step, ha, State.push, hc, Bool.not_true, Bool.false_eq_true, if_false] at hy
            cases hy
            exact hquiet _ _ rfl (fun _ => hc)
      | false =>
        have hno : ¬ Over j h := fun o => by rw [hag.1.2 o] at hc; cases hc
        cases n with
        | unsubscribe =>
          refine ⟨[], .unsubscribe j, ?_, ?_⟩
          · simp only [step, ha, State.push]; rfl
          · intro y hy
            simp only [step, ha, State.push] at hy
            cases hy
            exact hclose _ _ rfl rfl
        | next w =>
          refine ⟨[.note (.next w)], .value j _ hj hno (by intro h; cases h), ?_, ?_⟩
          · simp only [step, ha, State.push, hc, Bool.not_false, if_true, List.foldlM_cons, List.foldlM_nil]
            cases st x.subject (.note (.next w)) <;> rfl
          · intro y hy
            simp only [step, ha, State.push, hc, Bool.not_false, if_true] at hy
            split at hy
            · cases hy; exact hquiet _ _ rfl (fun h => by cases h)
            · cases hy
        | error w =>
          refine ⟨[.note (.error w)], .value j _ hj hno (by intro h; cases h), ?_, ?_⟩
          · simp only [step, ha, State.push, hc, Bool.not_false, if_true, List.foldlM_cons, List.foldlM_nil]
            cases st x.subject (.note (.error w)) <;> rfl
          · intro y hy
            simp only [step, ha, State.push, hc, Bool.not_false, if_true] at hy
            split at hy
            · cases hy; exact hclose _ _ rfl rfl
            · cases hy
        | complete =>
          refine ⟨[.note .complete], .value j _ hj hno (by intro h; cases h), ?_, ?_⟩
          · simp only [step, ha, State.push, hc, Bool.not_false, if_true, List.foldlM_cons, List.foldlM_nil]
            cases st x.subject (.note .complete) <;> rfl
          · intro y hy
            simp only [step, ha, State.push, hc, Bool.not_false, if_true] at hy
            split at hy
            · cases hy; exact hclose _ _ rfl rfl
            · cases hy

theorem run_told (ops : List (Op S I E)) : ∀ {h : List (Op S I E)} {x : State X}, Inv h x →
    ∀ {y : State X}, run st x ops = .ok y →
      Inv (h ++ ops) y ∧ ∃ told, Told h ops told ∧ told.foldlM st x.subject = .ok y.subject := by
  induction ops with
  | nil => intro h x v y hy; cases hy; exact ⟨by simpa using v, [], .nil h, rfl⟩
  | cons op ops ih =>
    intro h x v y hy
    obtain ⟨tell, t1, t2, t3⟩ := step_told (st := st) v op
    simp only [run] at hy
    split at hy
    · rename_i z hz
      obtain ⟨a1, b, a2, a3⟩ := ih (t3 z hz) hy
      refine ⟨by simpa using a1, tell ++ b, .cons t1 a2, ?_⟩
      rw [hz] at t2
      rw [List.foldlM_append, ← t2]
      exact a3
    · cases hy

/-- A subject that does not fail keeps the whole from failing. -/
theorem run_total (ops : List (Op S I E)) : ∀ {h : List (Op S I E)} {x : State X}, Inv h x →
    (∀ told : List (Publish.Op S I E), ∃ s, told.foldlM st x.subject = .ok s) → ∃ y, run st x ops = .ok y := by
  induction ops with
  | nil => intro h x _ _; exact ⟨x, rfl⟩
  | cons op ops ih =>
    intro h x v ht
    obtain ⟨tell, t1, t2, t3⟩ := step_told (st := st) v op
    obtain ⟨s, hs⟩ := ht tell
    rw [hs] at t2
    cases hz : step st x op with
    | error f => rw [hz] at t2; cases t2
    | ok z =>
      rw [hz] at t2
      have hzs : z.subject = s := by cases t2; rfl
      simp only [run, hz]
      refine ih (t3 z hz) ?_
      intro told
      obtain ⟨s', hs'⟩ := ht (tell ++ told)
      rw [List.foldlM_append, hs] at hs'
      rw [hzs]
      exact ⟨s', hs'⟩

/-- What the subject is told is determined. -/
theorem Told.fun {ops : List (Op S I E)} : ∀ {h : List (Op S I E)} {a b}, Told h ops a → Told h ops b → a = b := by
  induction ops with
  | nil => intro h a b ha hb; cases ha; cases hb; rfl
  | cons op ops ih =>
    intro h a b ha hb
    cases ha with
    | cons a1 a2 =>
      cases hb with
      | cons b1 b2 =>
        rw [ih a2 b2]
        congr 1
        cases a1 <;> cases b1 <;> first | rfl | contradiction | omega

theorem Told.split (c : List (Op S I E)) : ∀ (a : List (Op S I E)) (h t), Told h (a ++ c) t →
    ∃ t1 t2, t = t1 ++ t2 ∧ Told h a t1 ∧ Told (h ++ a) c t2 := by
  intro a
  induction a with
  | nil => intro h t ht; exact ⟨[], t, rfl, .nil h, by simpa using ht⟩
  | cons op a ih =>
    intro h t ht
    cases ht with
    | cons t1 t2 =>
      obtain ⟨u1, u2, e, k1, k2⟩ := ih _ _ t2
      exact ⟨_, u2, by rw [e, List.append_assoc], .cons t1 k1, by simpa using k2⟩

/-- A history with a direct subscription in it. -/
theorem run_around {x0 : X} (ht : ∀ told : List (Publish.Op S I E), ∃ s, told.foldlM st x0 = .ok s) (s : S)
    (a b : List (Op S I E)) :
    ∃ x told told', run st (init x0) (a ++ .direct (.subscribe s) :: b) = .ok x ∧
      Told [] a told ∧ Told (a ++ [.direct (.subscribe s)]) b told' ∧
      (told ++ .subscribe s :: told').foldlM st x0 = .ok x.subject := by
  obtain ⟨x, hx⟩ := run_total (a ++ .direct (.subscribe s) :: b) (Inv.init x0) ht
  obtain ⟨_, all, h1, h2⟩ := run_told _ (Inv.init x0) hx
  obtain ⟨told, t2, e, k1, k2⟩ := Told.split _ _ _ _ h1
  cases k2 with
  | cons d k3 =>
    cases d
    rename_i told'
    subst e
    exact ⟨x, told, told', hx, k1, by simpa using k3, h2⟩

theorem run_append {a b : List (Op S I E)} : ∀ {u v : State X}, run st u a = .ok v → run st u (a ++ b) = run st v b := by
  induction a with
  | nil => intro u v h; cases h; rfl
  | cons op a ih =>
    intro u v h
    simp only [run, List.cons_append] at h ⊢
    split at h
    · exact ih h
    · cases h

end Rx.Feeds
