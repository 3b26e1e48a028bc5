import Verif.Lemmas.Delivers
import Verif.Spec.Combine

/-!
# Combination subscribers deliver what their rules say: common part
-/

namespace Rx

open Spec

variable {A E₁ B E₂ O F I E S α : Type}

/-! ## The grammar, one notification at a time -/

/-- What may follow. -/
def MayFollow (ns : List (SubscriberNotification I E)) : SubscriberNotification I E → Prop
  | .unsubscribe => unsubscribed ns = false
  | _ => completed ns = false ∧ unsubscribed ns = false ∧ errorOf ns = none

theorem valsOf_snoc (ns : List (SubscriberNotification I E)) (n) :
    valsOf (ns ++ [n]) = valsOf ns ++ (match n with | .next v => [v] | _ => []) := by
  cases n <;> simp [valsOf]

theorem completed_snoc (ns : List (SubscriberNotification I E)) (n) :
    completed (ns ++ [n]) = (completed ns || match n with | .complete => true | _ => false) := by
  cases n <;> simp [completed]

theorem unsubscribed_snoc (ns : List (SubscriberNotification I E)) (n) :
    unsubscribed (ns ++ [n]) = (unsubscribed ns || match n with | .unsubscribe => true | _ => false) := by
  cases n <;> simp [unsubscribed]

theorem errorOf_snoc (ns : List (SubscriberNotification I E)) (n) :
    errorOf (ns ++ [n]) = (errorOf ns).or (match n with | .error e => some e | _ => none) := by
  cases n <;> simp [errorOf, List.findSome?_append]

theorem Hist.read (h : Hist I E) : valsOf h.notes = h.vals ∧
    completed h.notes = (match h.term with | some .complete => true | _ => false) ∧
    errorOf h.notes = (match h.term with | some (.error e) => some e | _ => none) ∧
    unsubscribed h.notes = h.unsub := by
  obtain ⟨vs, t, u⟩ := h
  have h1 : valsOf (E := E) (vs.map .next) = vs := by
    induction vs with
    | nil => rfl
    | cons v vs ih => simp only [valsOf, List.map_cons, List.filterMap_cons] at ih ⊢; rw [ih]
  have h2 : completed (E := E) (vs.map .next) = false := by
    simp [completed]
  have h3 : errorOf (E := E) (vs.map .next) = none := by
    simp [errorOf]
  have h4 : unsubscribed (E := E) (vs.map .next) = false := by
    simp [unsubscribed]
  rcases t with _ | (e | _) <;> cases u <;>
    simp only [Hist.notes, Option.map_none, Option.map_some, Option.toList_none, Option.toList_some,
      List.append_nil, if_true, Bool.false_eq_true, if_false, valsOf_snoc, completed_snoc,
      unsubscribed_snoc, errorOf_snoc, h1, h2, h3, h4, Term.note] <;> simp

theorem grammar_prefix {ns : List (SubscriberNotification I E)} {n}
    (h : RxGrammar (ns ++ [n])) : RxGrammar ns ∧ MayFollow ns n := by
  obtain ⟨⟨vs, t, u⟩, h⟩ := h
  have mk : ∀ h' : Hist I E, ns = h'.notes → MayFollow h'.notes n → RxGrammar ns ∧ MayFollow ns n :=
    fun h' e m => ⟨⟨h', e⟩, e ▸ m⟩
  cases u with
  | true =>
    have := List.append_inj' (s₂ := vs.map .next ++ (t.map Term.note).toList) (t₂ := [.unsubscribe])
      (h.trans (by simp [Hist.notes])) rfl
    obtain ⟨h1, h2⟩ := this
    cases h2
    exact mk ⟨vs, t, false⟩ (by simp [Hist.notes, h1]) (by simp [MayFollow, Hist.read])
  | false =>
    cases t with
    | some t =>
      have := List.append_inj' (s₂ := vs.map .next) (t₂ := [t.note])
        (h.trans (by simp [Hist.notes])) rfl
      obtain ⟨h1, h2⟩ := this
      cases h2
      refine mk ⟨vs, none, false⟩ (by simp [Hist.notes, h1]) ?_
      cases t <;> simp [MayFollow, Hist.read, Term.note]
    | none =>
      rcases List.eq_nil_or_concat vs with rfl | ⟨vs, v, rfl⟩
      · simp [Hist.notes] at h
      · have := List.append_inj' (s₂ := vs.map .next) (t₂ := [.next v])
          (h.trans (by simp [Hist.notes])) rfl
        obtain ⟨h1, h2⟩ := this
        cases h2
        exact mk ⟨vs, none, false⟩ (by simp [Hist.notes, h1]) (by simp [MayFollow, Hist.read])

theorem left_snoc1 (h : List (Either2 A E₁ B E₂)) (n) : left (h ++ [.o1 n]) = left h ++ [n] := by
  simp [left]
theorem left_snoc2 (h : List (Either2 A E₁ B E₂)) (n) : left (h ++ [.o2 n]) = left h := by
  simp [left]
theorem right_snoc1 (h : List (Either2 A E₁ B E₂)) (n) : right (h ++ [.o1 n]) = right h := by
  simp [right]
theorem right_snoc2 (h : List (Either2 A E₁ B E₂)) (n) : right (h ++ [.o2 n]) = right h ++ [n] := by
  simp [right]

theorem Conforming.prefix {h : List (Either2 A E₁ B E₂)} {e} (hc : Conforming (h ++ [e])) :
    Conforming h := by
  obtain ⟨h1, h2⟩ := hc
  cases e with
  | o1 n => rw [left_snoc1] at h1; rw [right_snoc1] at h2; exact ⟨(grammar_prefix h1).1, h2⟩
  | o2 n => rw [left_snoc2] at h1; rw [right_snoc2] at h2; exact ⟨h1, (grammar_prefix h2).1⟩

/-! ## From one step to histories -/

/-- Same state, or both closed and not distinguishable. -/
def Agree (D : Sub S O F) (obs : S → α) (s t : S) : Prop :=
  s = t ∨ (D.isClosed s = true ∧ D.isClosed t = true ∧ obs s = obs t)

theorem Agree.obs {D : Sub S O F} {ob : S → α} {s t : S} (h : Agree D ob s t) :
    ob s = ob t ∧ D.isClosed s = D.isClosed t := by
  rcases h with rfl | ⟨h1, h2, h3⟩
  · exact ⟨rfl, rfl⟩
  · exact ⟨h3, by rw [h1, h2]⟩

theorem Sub.run_append (D : Sub S I E) (s : S) (a b) : D.run s (a ++ b) = D.run (D.run s a) b := by
  simp [Sub.run]

theorem Lawful.run_inv {D : Sub S O F} {obs : S → α} {Inv : S → Prop} {ec : Bool}
    (hD : Lawful D obs Inv ec) {s : S} (hs : Inv s) (ns) : Inv (D.run s ns) :=
  hD.path_inv (D.path_run s ns) hs

theorem Lawful.run_closed {D : Sub S O F} {obs : S → α} {Inv : S → Prop} {ec : Bool}
    (hD : Lawful D obs Inv ec) {s : S} (hs : Inv s) (hc : D.isClosed s = true) (ns) :
    obs (D.run s ns) = obs s ∧ D.isClosed (D.run s ns) = true :=
  ⟨hD.path_frozen (D.path_run s ns) hs hc, hD.path_mono (D.path_run s ns) hs hc⟩

theorem Lawful.closing {D : Sub S O F} {obs : S → α} {Inv : S → Prop}
    (hD : Lawful D obs Inv true) {s : S} (hs : Inv s) (n) (hn : n.isClosing = true) :
    D.isClosed (D.push s n) = true := by
  cases n with
  | next v => simp [SubscriberNotification.isClosing, SubscriberNotification.isTerminal] at hn
  | error e => exact hD.errorCloses rfl s e hs
  | complete => exact hD.completeCloses s hs
  | unsubscribe => exact hD.unsubscribeCloses s hs

/-- `next` only when open, like a `SharedSubscriber` or a check of `is_closed`. -/
theorem Lawful.agree_if {D : Sub S O F} {obs : S → α} {Inv : S → Prop} {ec : Bool}
    (hD : Lawful D obs Inv ec) {s : S} (hs : Inv s) (n) :
    Agree D obs (if D.isClosed s then s else D.push s n) (D.push s n) := by
  cases hc : D.isClosed s with
  | false => exact .inl rfl
  | true =>
    have := hD.run_closed hs hc [n]
    exact .inr ⟨hc, this.2, this.1.symm⟩

/-- What one event must do, for a combiner to deliver what a rule says: `Rep` relates histories to
states, `P` restricts the histories. -/
structure Combiner.Implements (C : Combiner A E₁ B E₂ O F) (R : Rule A E₁ B E₂ O F)
    (P : List (Either2 A E₁ B E₂) → Prop) (Rep : List (Either2 A E₁ B E₂) → C.St → Prop) : Prop where
  init : Rep [] C.init
  pre : ∀ h e, P (h ++ [e]) → P h
  ends : ∀ h t, R.ends h = some t → t.isClosing = true
  step : ∀ {S α : Type} (D : Sub S O F) (obs : S → α) (Inv : S → Prop), Lawful D obs Inv true →
    ∀ s, Inv s → D.isClosed s = false → ∀ h e st, P (h ++ [e]) → Rep h st →
    ∃ st' s', C.next D (st, s) e = some (st', s') ∧ (R.ends (h ++ [e]) = none → Rep (h ++ [e]) st') ∧
      Agree D obs s' (D.run s ((R.emits (h ++ [e])).map .next ++ (R.ends (h ++ [e])).toList))

theorem Combiner.run_closed (C : Combiner A E₁ B E₂ O F) (D : Sub S O F) (x : C.St × S)
    (hc : D.isClosed x.2 = true) (es) : C.run D x es = some x := by
  induction es with
  | nil => rfl
  | cons e es ih =>
    simp only [Combiner.run, List.foldlM_cons, Combiner.step, hc, if_true] at ih ⊢
    exact ih

theorem Combiner.Implements.delivers {C : Combiner A E₁ B E₂ O F} {R : Rule A E₁ B E₂ O F} {P Rep}
    (hC : C.Implements R P Rep) {D : Sub S O F} {obs : S → α} {Inv : S → Prop}
    (hD : Lawful D obs Inv true) :
    ∀ es h s st, Inv s → P (h ++ es) → Rep h st →
      ∃ x, C.run D (st, s) es = some x ∧ obs x.2 = obs (D.run s (R.deliverFrom h es)) ∧
        D.isClosed x.2 = D.isClosed (D.run s (R.deliverFrom h es)) := by
  intro es
  induction es with
  | nil => intro h s st _ _ _; exact ⟨_, rfl, rfl, rfl⟩
  | cons e es ih =>
    intro h s st hs hp hr
    cases hc : D.isClosed s with
    | true =>
      refine ⟨_, C.run_closed D (st, s) hc _, ?_, ?_⟩
      · exact (hD.run_closed hs hc _).1.symm
      · rw [(hD.run_closed hs hc _).2]; exact hc
    | false =>
      have hp' : P ((h ++ [e]) ++ es) := by simpa using hp
      have hpe : P (h ++ [e]) := by
        clear ih hp
        induction es using snoc_induction with
        | nil => simpa using hp'
        | snoc es e' ih => exact ih (hC.pre _ e' (by simpa using hp'))
      obtain ⟨st', s', h1, h2, h3⟩ := hC.step D obs Inv hD s hs hc h e st hpe hr
      simp only [Rule.deliverFrom]
      have hrun : C.run D (st, s) (e :: es) = C.run D (st', s') es := by
        simp only [Combiner.run, List.foldlM_cons, Combiner.step, hc, Bool.false_eq_true, if_false, h1]
        rfl
      rw [hrun]
      cases hend : R.ends (h ++ [e]) with
      | some t =>
        rw [hend] at h3
        simp only [Option.toList_some] at h3
        have hcl : D.isClosed (D.run s ((R.emits (h ++ [e])).map .next ++ [t])) = true := by
          rw [Sub.run_append]
          exact hD.closing (hD.run_inv hs _) t (hC.ends _ _ hend)
        refine ⟨_, C.run_closed D (st', s') (h3.obs.2.trans hcl) _, h3.obs.1, h3.obs.2⟩
      | none =>
        rw [hend] at h3
        simp only [Option.toList_none, List.append_nil] at h3
        rw [Sub.run_append]
        rcases h3 with rfl | ⟨hc1, hc2, ho⟩
        · exact ih (h ++ [e]) _ st' (hD.run_inv hs _) hp' (h2 hend)
        · refine ⟨_, C.run_closed D (st', s') hc1 _, ?_, ?_⟩
          · rw [(hD.run_closed (hD.run_inv hs _) hc2 _).1]; exact ho
          · rw [(hD.run_closed (hD.run_inv hs _) hc2 _).2]; exact hc1

/-! ## `NotificationState` -/

/-- The state after the notifications `ns` without an error. -/
structure NRep (ns : List (SubscriberNotification I E)) (s : NotificationState I E) : Prop where
  value : s.value = (valsOf ns).getLast?
  err : s.err = none
  noErr : errorOf ns = none
  state : s.state = ⟨ns.isEmpty, !(valsOf ns).isEmpty, completed ns, false, unsubscribed ns⟩

theorem NRep.default : NRep (I := I) (E := E) [] .default := ⟨rfl, rfl, rfl, rfl⟩

theorem NRep.push {ns : List (SubscriberNotification I E)} {s : NotificationState I E} (h : NRep ns s)
    {n} (hn : MayFollow ns n) : ∃ s', s.push n = some s' ∧ s'.err = errorOf (ns ++ [n]) ∧
      (errorOf (ns ++ [n]) = none → NRep (ns ++ [n]) s') := by
  obtain ⟨v, e, st⟩ := s
  obtain ⟨h1, h2, h3, h4⟩ := h
  simp only at h1 h2 h4
  subst h1 h2 h4
  cases n with
  | next v =>
    obtain ⟨k1, k2, k3⟩ := hn
    refine ⟨_, by simp only [NotificationState.push, SubscriberState.next, SubscriberState.isClosed, SubscriberState.isUnsubscribed, SubscriberState.isFinished, SubscriberState.isCompleted, SubscriberState.isErrored, k1, k2]; rfl, ?_, ?_⟩
    · simp [errorOf_snoc, h3]
    · intro _
      exact ⟨by simp [valsOf_snoc], rfl, by simp [errorOf_snoc, h3], by
        simp [valsOf_snoc, completed_snoc, unsubscribed_snoc, k1, k2]⟩
  | error e =>
    obtain ⟨k1, k2, k3⟩ := hn
    refine ⟨_, by simp only [NotificationState.push, SubscriberState.error, SubscriberState.isClosed, SubscriberState.isUnsubscribed, SubscriberState.isFinished, SubscriberState.isCompleted, SubscriberState.isErrored, k1, k2]; rfl, ?_, ?_⟩
    · simp [errorOf_snoc, h3]
    · intro h
      simp [errorOf_snoc, h3] at h
  | complete =>
    obtain ⟨k1, k2, k3⟩ := hn
    refine ⟨_, by simp only [NotificationState.push, SubscriberState.complete, SubscriberState.isClosed, SubscriberState.isUnsubscribed, SubscriberState.isFinished, SubscriberState.isCompleted, SubscriberState.isErrored, k1, k2]; rfl, ?_, ?_⟩
    · simp [errorOf_snoc, h3]
    · intro _
      exact ⟨by simp [valsOf_snoc], rfl, by simp [errorOf_snoc, h3], by
        simp [valsOf_snoc, completed_snoc, unsubscribed_snoc, k1, k2]⟩
  | unsubscribe =>
    have k1 : unsubscribed ns = false := hn
    refine ⟨_, by simp only [NotificationState.push, SubscriberState.unsubscribe, SubscriberState.isUnsubscribed, k1]; rfl, ?_, ?_⟩
    · simp [errorOf_snoc, h3]
    · intro _
      exact ⟨by simp [valsOf_snoc], rfl, by simp [errorOf_snoc, h3], by
        simp [valsOf_snoc, completed_snoc, unsubscribed_snoc, k1]⟩

end Rx
