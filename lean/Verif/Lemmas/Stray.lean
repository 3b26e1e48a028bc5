import Verif.Lemmas.Zip

/-!
# Inputs that do not keep to the grammar
-/

namespace Rx

open Spec

variable {A E₁ B E₂ O F I E S α : Type}

theorem allows_mayFollow {ns : List (SubscriberNotification I E)} {n} : allows ns n = true ↔ MayFollow ns n := by
  cases n <;> simp [allows, MayFollow, finished, and_assoc]

theorem grammar_snoc {ns : List (SubscriberNotification I E)} {n} (h : RxGrammar ns) (hn : MayFollow ns n) :
    RxGrammar (ns ++ [n]) := by
  obtain ⟨⟨vs, t, u⟩, rfl⟩ := h
  cases n with
  | unsubscribe =>
    simp only [MayFollow, Hist.read] at hn
    cases u
    · exact ⟨⟨vs, t, true⟩, by simp [Hist.notes]⟩
    · simp at hn
  | _ =>
    obtain ⟨h1, h2, h3⟩ := hn
    cases u
    · cases t with
      | none =>
        first
        | exact ⟨⟨vs ++ [_], none, false⟩, by simp [Hist.notes]; rfl⟩
        | exact ⟨⟨vs, some (.error _), false⟩, by simp [Hist.notes, Term.note]; rfl⟩
        | exact ⟨⟨vs, some .complete, false⟩, by simp [Hist.notes, Term.note]⟩
      | some t => cases t <;> simp [Hist.notes, completed, errorOf, Term.note, List.findSome?_append] at h1 h3
    · simp [Hist.notes, unsubscribed] at h2

theorem allows2_conforming {h : List (Either2 A E₁ B E₂)} {e} (hc : Conforming h) : allows2 h e = true ↔ Conforming (h ++ [e]) := by
  cases e with
  | o1 n =>
    simp only [allows2, allows_mayFollow, Conforming, left_snoc1, right_snoc1]
    exact ⟨fun hn => ⟨grammar_snoc hc.1 hn, hc.2⟩, fun hn => (grammar_prefix hn.1).2⟩
  | o2 n =>
    simp only [allows2, allows_mayFollow, Conforming, left_snoc2, right_snoc2]
    exact ⟨fun hn => ⟨hc.1, grammar_snoc hc.2 hn⟩, fun hn => (grammar_prefix hn.2).2⟩

theorem NRep.invalid {ns : List (SubscriberNotification I E)} {s : NotificationState I E} (h : NRep ns s) (n : SubscriberNotification I E) :
    s.state.updateWouldBeInvalid n = !allows ns n := by
  have hc := h.closed
  cases n with
  | unsubscribe =>
    rw [h.state]
    simp [SubscriberState.updateWouldBeInvalid, SubscriberState.isUnsubscribed, allows]
  | _ => simp [SubscriberState.updateWouldBeInvalid, hc, allows]

/-- What is not allowed changes nothing. -/
theorem join_stray (i₁ : E₁ → F) (i₂ : E₂ → F) {D : Sub S (A × B) F} {s : S} {h : List (Either2 A E₁ B E₂)}
    {st : (joinCombiner (A := A) (B := B) i₁ i₂).St} (hr : NRep2 h st) (he : (joinRule i₁ i₂).ends h = none) {e} (hn : allows2 h e = false) :
    (joinCombiner (A := A) (B := B) i₁ i₂).next D (st, s) e = some (st, s) := by
  obtain ⟨⟨v₁, e₁, ss₁⟩, ⟨v₂, e₂, ss₂⟩⟩ := st
  obtain ⟨r1, r2⟩ := hr
  have k1 := r1.completed
  have k2 := r2.completed
  have k3 := r1.closed
  have k4 := r2.closed
  have k5 := r1.err
  have k6 := r2.err
  simp only at k1 k2 k3 k4 k5 k6 r1 r2
  subst k5 k6
  have hend : (ss₁.isCompleted && ss₂.isCompleted) = false ∧ (ss₁.isClosed && ss₂.isClosed) = false := by
    simp only [joinRule] at he
    rw [k1, k2, k3, k4]
    split at he
    · cases he
    · split at he
      · cases he
      · split at he
        · cases he
        · rename_i h1 h2
          exact ⟨by simpa using h1, by simpa using h2⟩
  cases e with
  | o1 n =>
    have hv := r1.invalid n
    rw [show allows (left h) n = false from hn] at hv
    simp only at hv
    simp only [joinCombiner, hv]
    simp only [NotificationState.takeError, Option.bind_eq_bind, Option.bind_some, hend.1, hend.2, Bool.and_false, Bool.not_false, Bool.not_true, Bool.false_eq_true, if_false, if_true]
    rfl
  | o2 n =>
    have hv := r2.invalid n
    rw [show allows (right h) n = false from hn] at hv
    simp only at hv
    simp only [joinCombiner, hv]
    simp only [NotificationState.takeError, Option.bind_eq_bind, Option.bind_some, hend.1, hend.2, Bool.and_false, Bool.not_false, Bool.not_true, Bool.false_eq_true, if_false, if_true]
    rfl

theorem join_any (i₁ : E₁ → F) (i₂ : E₂ → F) {D : Sub S (A × B) F} {obs : S → α} {Inv : S → Prop}
    (hD : Lawful D obs Inv true) :
    ∀ es h s st, Inv s → Conforming h → NRep2 h st → (joinRule i₁ i₂).ends h = none →
      ∃ x, (joinCombiner (A := A) (B := B) i₁ i₂).run D (st, s) es = some x ∧
        obs x.2 = obs (D.run s ((joinRule i₁ i₂).deliverFrom h (lawfulFrom h es))) ∧
        D.isClosed x.2 = D.isClosed (D.run s ((joinRule i₁ i₂).deliverFrom h (lawfulFrom h es))) := by
  have hC := join_implements (A := A) (B := B) i₁ i₂
  intro es
  induction es with
  | nil => intro h s st _ _ _ _; exact ⟨_, rfl, rfl, rfl⟩
  | cons e es ih =>
    intro h s st hs hp hr hend0
    cases hc : D.isClosed s with
    | true =>
      refine ⟨_, Combiner.run_closed (joinCombiner (A := A) (B := B) i₁ i₂) D (st, s) hc _, ?_, ?_⟩
      · exact (hD.run_closed hs hc _).1.symm
      · rw [(hD.run_closed hs hc _).2]; exact hc
    | false =>
      cases ha : allows2 h e with
      | false =>
        have hrun : (joinCombiner (A := A) (B := B) i₁ i₂).run D (st, s) (e :: es) =
            (joinCombiner (A := A) (B := B) i₁ i₂).run D (st, s) es := by
          simp only [Combiner.run, List.foldlM_cons, Combiner.step, hc, Bool.false_eq_true, if_false, join_stray i₁ i₂ hr hend0 ha]
          rfl
        rw [hrun, lawfulFrom, ha]
        exact ih h s st hs hp hr hend0
      | true =>
        have hpe := (allows2_conforming hp).1 ha
        rw [lawfulFrom, ha, if_pos rfl]
        obtain ⟨st', s', h1, h2, h3⟩ := hC.step D obs Inv hD s hs hc h e st hpe hr
        simp only [Rule.deliverFrom]
        have hrun : (joinCombiner (A := A) (B := B) i₁ i₂).run D (st, s) (e :: es) =
            (joinCombiner (A := A) (B := B) i₁ i₂).run D (st', s') es := by
          simp only [Combiner.run, List.foldlM_cons, Combiner.step, hc, Bool.false_eq_true, if_false, h1]
          rfl
        rw [hrun]
        cases hend : (joinRule i₁ i₂).ends (h ++ [e]) with
        | some t =>
          rw [hend] at h3
          simp only [Option.toList_some] at h3
          have hcl : D.isClosed (D.run s (((joinRule i₁ i₂).emits (h ++ [e])).map .next ++ [t])) = true := by
            rw [Sub.run_append]
            exact hD.closing (hD.run_inv hs _) t (hC.ends _ _ hend)
          exact ⟨_, Combiner.run_closed (joinCombiner (A := A) (B := B) i₁ i₂) D (st', s') (h3.obs.2.trans hcl) _, h3.obs.1, h3.obs.2⟩
        | none =>
          rw [hend] at h3
          simp only [Option.toList_none, List.append_nil] at h3
          rw [Sub.run_append]
          rcases h3 with rfl | ⟨hc1, hc2, ho⟩
          · exact ih (h ++ [e]) _ st' (hD.run_inv hs _) hpe (h2 hend) hend
          · refine ⟨_, Combiner.run_closed (joinCombiner (A := A) (B := B) i₁ i₂) D (st', s') hc1 _, ?_, ?_⟩
            · rw [(hD.run_closed (hD.run_inv hs _) hc2 _).1]; exact ho
            · rw [(hD.run_closed (hD.run_inv hs _) hc2 _).2]; exact hc1

theorem lawfulFrom_conforming (es : List (Either2 A E₁ B E₂)) :
    ∀ h, Conforming h → Conforming (h ++ lawfulFrom h es) ∧ (lawfulFrom h es).Sublist es ∧
      (Conforming (h ++ es) → lawfulFrom h es = es) := by
  induction es with
  | nil => intro h hc; exact ⟨by simpa [lawfulFrom] using hc, by simp [lawfulFrom], fun _ => rfl⟩
  | cons e es ih =>
    intro h hc
    have hpre : ∀ l, Conforming (h ++ [e] ++ l) → Conforming (h ++ [e]) := by
      intro l
      induction l using snoc_induction with
      | nil => intro h; simpa using h
      | snoc l e' ihl => intro h; exact ihl (Conforming.prefix (e := e') (by simpa using h))
    cases ha : allows2 h e with
    | true =>
      have := ih (h ++ [e]) ((allows2_conforming hc).1 ha)
      rw [lawfulFrom, ha, if_pos rfl]
      exact ⟨by simpa using this.1, this.2.1.cons_cons e, fun hh => by rw [this.2.2 (by simpa using hh)]⟩
    | false =>
      have := ih h hc
      rw [lawfulFrom, ha]
      refine ⟨this.1, this.2.1.trans (List.sublist_cons_self e es), fun hh => ?_⟩
      have := (allows2_conforming hc).2 (hpre es (by simpa using hh))
      rw [ha] at this
      cases this

/-- A store after any notifications that keep to the grammar. -/
theorem store_from (ns : List (SubscriberNotification I E)) : ∀ s : NotificationState I E, (s.state.feed ns).isSome = true →
    (s.err.isSome = true → s.state.isClosed = true) →
    ∃ s', ns.foldlM NotificationState.push s = some s' ∧ s'.value = (valsOf ns).getLast?.or s.value ∧
      s'.err = s.err.or (errorOf ns) ∧ s.state.feed ns = some s'.state := by
  induction ns with
  | nil => intro s _ _; exact ⟨s, rfl, rfl, by simp [errorOf], rfl⟩
  | cons n ns ih =>
    intro s hf he
    cases hu : s.state.updateWithNotification n with
    | none => simp [SubscriberState.feed, hu] at hf
    | some st =>
      have hp : ∃ s1, s.push n = some s1 ∧ s1.state = st ∧ s1.value = (match n with | .next v => some v | _ => s.value) ∧
          s1.err = (match n with | .error e => some e | _ => s.err) ∧ (s1.err.isSome = true → st.isClosed = true) ∧
          ((∃ e, n = .error e) → s.err = none) := by
        obtain ⟨sv, se, ss⟩ := s
        cases n with
        | next v =>
          simp only [SubscriberState.updateWithNotification] at hu
          refine ⟨⟨some v, se, st⟩, by simp [NotificationState.push, hu], rfl, rfl, rfl, ?_, by simp⟩
          intro h
          simp [SubscriberState.next, he h] at hu
        | error e =>
          simp only [SubscriberState.updateWithNotification] at hu
          refine ⟨⟨sv, some e, st⟩, by simp [NotificationState.push, hu], rfl, rfl, rfl, ?_, ?_⟩
          · intro _
            simp only [SubscriberState.error] at hu
            split at hu
            · cases hu
            · cases hu; simp [SubscriberState.isClosed, SubscriberState.isFinished, SubscriberState.isErrored]
          · intro _
            cases se with
            | none => rfl
            | some x => simp [SubscriberState.error, he rfl] at hu
        | complete =>
          simp only [SubscriberState.updateWithNotification] at hu
          refine ⟨⟨sv, se, st⟩, by simp [NotificationState.push, hu], rfl, rfl, rfl, ?_, by simp⟩
          intro h
          simp [SubscriberState.complete, he h] at hu
        | unsubscribe =>
          simp only [SubscriberState.updateWithNotification, SubscriberState.unsubscribe] at hu
          split at hu
          · cases hu
          · rename_i hq
            cases hu
            refine ⟨⟨sv, se, _⟩, by simp [NotificationState.push, hq, SubscriberState.unsubscribe], rfl, rfl, rfl, ?_, by simp⟩
            intro _
            simp [SubscriberState.isClosed, SubscriberState.isUnsubscribed]
      obtain ⟨s1, p1, p2, p3, p4, p5, p6⟩ := hp
      have hf' : (s1.state.feed ns).isSome = true := by
        rw [p2]
        simpa [SubscriberState.feed, hu] using hf
      obtain ⟨s', q1, q2, q3, q4⟩ := ih s1 hf' (by rw [p2]; exact p5)
      refine ⟨s', by simp [List.foldlM_cons, p1, q1], ?_, ?_, by simpa [SubscriberState.feed, hu, p2] using q4⟩
      · rw [q2, p3]
        cases n <;> simp [valsOf, List.getLast?_cons]
      · rw [q3, p4]
        cases n with
        | error e => simp [errorOf, p6 ⟨e, rfl⟩]
        | _ => simp [errorOf]

end Rx
