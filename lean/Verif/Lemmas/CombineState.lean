import Verif.Lemmas.Combine

/-!
# combine_latest, combine_changes, join and with_latest_from follow their rules
-/

namespace Rx

open Spec

variable {A E₁ B E₂ O F I E S α : Type}

theorem NRep.closed {ns : List (SubscriberNotification I E)} {s : NotificationState I E}
    (h : NRep ns s) : s.state.isClosed = finished ns := by
  rw [h.state]
  simp only [SubscriberState.isClosed, SubscriberState.isUnsubscribed, SubscriberState.isFinished,
    SubscriberState.isCompleted, SubscriberState.isErrored, finished, h.noErr]
  cases completed ns <;> cases unsubscribed ns <;> rfl

theorem NRep.completed {ns : List (SubscriberNotification I E)} {s : NotificationState I E}
    (h : NRep ns s) : s.state.isCompleted = Spec.completed ns := by
  rw [h.state]; rfl

theorem NRep.primed {ns : List (SubscriberNotification I E)} {s : NotificationState I E}
    (h : NRep ns s) : s.state.isPrimed = !(valsOf ns).isEmpty := by
  rw [h.state]; rfl

theorem NRep.waiting {ns : List (SubscriberNotification I E)} {s : NotificationState I E}
    (h : NRep ns s) : s.state.isWaiting = ns.isEmpty := by
  rw [h.state]; rfl

theorem NRep.takeError {ns : List (SubscriberNotification I E)} {s : NotificationState I E}
    (h : NRep ns s) : s.takeError = (s, none) := by
  obtain ⟨v, e, st⟩ := s
  have := h.err
  simp only at this
  subst this
  rfl

theorem completed_finished {ns : List (SubscriberNotification I E)} (h : completed ns = true) :
    finished ns = true := by simp [finished, h]

theorem empty_not_finished {ns : List (SubscriberNotification I E)} (h : ns.isEmpty = true) :
    finished ns = false := by rw [List.isEmpty_iff.1 h]; rfl

/-- Both sides of a combiner whose state is a pair of `NotificationState`. -/
def NRep2 (h : List (Either2 A E₁ B E₂)) (st : NotificationState A E₁ × NotificationState B E₂) : Prop :=
  NRep (left h) st.1 ∧ NRep (right h) st.2

/-- The input that sent the last event, if that is a value, has emitted and is not finished. -/
def Live (h : List (Either2 A E₁ B E₂)) : Prop :=
  (lastIsLeft h = true → finished (left h) = false ∧ (valsOf (left h)).isEmpty = false) ∧
  (lastIsRight h = true → finished (right h) = false ∧ (valsOf (right h)).isEmpty = false)

theorem lastIsValue_eq (h : List (Either2 A E₁ B E₂)) :
    lastIsValue h = (lastIsLeft h || lastIsRight h) := by
  unfold lastIsValue lastIsLeft lastIsRight
  split <;> simp_all

theorem live_snoc {h : List (Either2 A E₁ B E₂)} {e} (hc : Conforming (h ++ [e])) :
    Live (h ++ [e]) := by
  obtain ⟨h1, h2⟩ := hc
  cases e with
  | o1 n =>
    rw [left_snoc1] at h1
    have hm := (grammar_prefix h1).2
    cases n with
    | next v =>
      obtain ⟨k1, k2, k3⟩ := hm
      refine ⟨fun _ => ?_, fun hl => by simp [lastIsRight] at hl⟩
      simp [left_snoc1, finished, completed_snoc, unsubscribed_snoc, errorOf_snoc, valsOf_snoc, k1, k2, k3]
    | _ => exact ⟨fun hl => by simp [lastIsLeft] at hl, fun hl => by simp [lastIsRight] at hl⟩
  | o2 n =>
    rw [right_snoc2] at h2
    have hm := (grammar_prefix h2).2
    cases n with
    | next v =>
      obtain ⟨k1, k2, k3⟩ := hm
      refine ⟨fun hl => by simp [lastIsLeft] at hl, fun _ => ?_⟩
      simp [right_snoc2, finished, completed_snoc, unsubscribed_snoc, errorOf_snoc, valsOf_snoc, k1, k2, k3]
    | _ => exact ⟨fun hl => by simp [lastIsLeft] at hl, fun hl => by simp [lastIsRight] at hl⟩

/-- What pushing an event does: either it is an error, or both sides still represent the history. -/
theorem push2 {i₁ : E₁ → F} {i₂ : E₂ → F} {h : List (Either2 A E₁ B E₂)} {st} (hr : NRep2 h st) :
    (∀ n, Conforming (h ++ [.o1 n]) → ∃ s', st.1.push n = some s' ∧
      ((∃ er, n = .error er ∧ s'.err = some er ∧ anyError i₁ i₂ (h ++ [.o1 n]) = some (i₁ er)) ∨
       (anyError i₁ i₂ (h ++ [.o1 n]) = none ∧ NRep2 (h ++ [.o1 n]) (s', st.2)))) ∧
    (∀ n, Conforming (h ++ [.o2 n]) → ∃ s', st.2.push n = some s' ∧
      ((∃ er, n = .error er ∧ s'.err = some er ∧ anyError i₁ i₂ (h ++ [.o2 n]) = some (i₂ er)) ∨
       (anyError i₁ i₂ (h ++ [.o2 n]) = none ∧ NRep2 (h ++ [.o2 n]) (st.1, s')))) := by
  obtain ⟨r1, r2⟩ := hr
  refine ⟨fun n hc => ?_, fun n hc => ?_⟩
  · have hg := hc.1; rw [left_snoc1] at hg
    obtain ⟨s', h1, h2, h3⟩ := r1.push (grammar_prefix hg).2
    refine ⟨s', h1, ?_⟩
    cases n with
    | error er =>
      refine .inl ⟨er, rfl, ?_, ?_⟩
      · rw [h2, errorOf_snoc, r1.noErr]; rfl
      · simp [anyError, left_snoc1, errorOf_snoc, r1.noErr]
    | _ =>
      refine .inr ⟨?_, ?_, ?_⟩
      · simp [anyError, left_snoc1, right_snoc1, errorOf_snoc, r1.noErr, r2.noErr]
      · rw [left_snoc1]; exact h3 (by simp [errorOf_snoc, r1.noErr])
      · rw [right_snoc1]; exact r2
  · have hg := hc.2; rw [right_snoc2] at hg
    obtain ⟨s', h1, h2, h3⟩ := r2.push (grammar_prefix hg).2
    refine ⟨s', h1, ?_⟩
    cases n with
    | error er =>
      refine .inl ⟨er, rfl, ?_, ?_⟩
      · rw [h2, errorOf_snoc, r2.noErr]; rfl
      · simp [anyError, left_snoc2, right_snoc2, errorOf_snoc, r1.noErr, r2.noErr]
    | _ =>
      refine .inr ⟨?_, ?_, ?_⟩
      · simp [anyError, left_snoc2, right_snoc2, errorOf_snoc, r1.noErr, r2.noErr]
      · rw [left_snoc2]; exact r1
      · rw [right_snoc2]; exact h3 (by simp [errorOf_snoc, r2.noErr])

theorem latestPair_eq {h : List (Either2 A E₁ B E₂)} {st} (hr : NRep2 h st) :
    latestPair h = (match st.1.value, st.2.value with
      | some a, some b => some (a, b)
      | _, _ => none) := by
  rw [hr.1.value, hr.2.value]; rfl

theorem isEmpty_getLast? {T : Type} (l : List T) : l.isEmpty = l.getLast?.isNone := by
  cases l <;> simp [List.getLast?_cons]

/-! ## combine_latest -/

theorem cl_core {D : Sub S (A × B) F} {obs : S → α} {Inv : S → Prop} (hD : Lawful D obs Inv true)
    {s : S} (hs : Inv s) (hcl : D.isClosed s = false) (c1 c2 d1 d2 v1 v2 w1 w2 x1 x2 x : Bool)
    (o1 : Option A) (o2 : Option B) (g1 : w1 = true → d1 = false) (g2 : w2 = true → d2 = false)
    (e1 : v1 = o1.isNone) (e2 : v2 = o2.isNone) (f1 : c1 = true → d1 = true) (f2 : c2 = true → d2 = true)
    (hx : x = (x1 || x2))
    (l1 : x1 = true → d1 = false ∧ v1 = false) (l2 : x2 = true → d2 = false ∧ v2 = false) :
    Agree D obs
      (let sA := if !D.isClosed s && ((c1 && c2) || (!v1 && (c2 && !!v2)) || ((c1 && !!v1) && !v2))
        then D.complete s else s
       let sB := if !D.isClosed sA && ((d1 && d2) || (w1 && (d2 && !!v2)) || ((d1 && !!v1) && w2))
        then D.unsubscribe sA else sA
       if x && !D.isClosed sB then
          match (generalizing := false) o1, o2 with
          | some v₁, some v₂ => D.next sB (v₁, v₂)
          | _, _ => sB
        else sB)
      (D.run s ((if x then (match (generalizing := false) o1, o2 with | some a, some b => some (a, b) | _, _ => none).toList
          else []).map .next ++
        (if c1 && c2 then some .complete
          else if (c1 && (d1 && v1) && !v2) || (c2 && (d2 && v2) && !v1) then some .complete
          else if d1 && d2 then some .unsubscribe
          else if ((d1 && v1) && w2) || ((d2 && v2) && w1) then some .unsubscribe
          else none : Option (SubscriberNotification (A × B) F)).toList)) := by
  have hcc := hD.completeCloses s hs
  have huc := hD.unsubscribeCloses s hs
  subst hx e1 e2
  cases o1 <;> cases o2 <;> cases c1 <;> cases c2 <;> cases d1 <;> cases d2 <;> simp at f1 f2 <;>
    cases w1 <;> cases w2 <;> simp at g1 g2 <;> cases x1 <;> cases x2 <;> simp at l1 l2 <;>
    simp [Sub.run, Sub.push, hcc, huc, hcl, Agree]

theorem combineLatest_implements (i₁ : E₁ → F) (i₂ : E₂ → F) :
    (combineLatestCombiner (A := A) (B := B) i₁ i₂).Implements (combineLatestActualRule i₁ i₂)
      Conforming NRep2 where
  init := ⟨.default, .default⟩
  pre _ _ := Conforming.prefix
  ends h t ht := by
    simp only [combineLatestActualRule] at ht
    (repeat' split at ht) <;> cases ht <;> rfl
  step D obs Inv hD s hs hcl h e st hc hr := by
    have hlive := live_snoc hc
    have core : ∀ (s₁ : NotificationState A E₁) (s₂ : NotificationState B E₂),
        anyError i₁ i₂ (h ++ [e]) = none → NRep2 (h ++ [e]) (s₁, s₂) →
        Agree D obs
          (let sA := if !D.isClosed s &&
              ((s₁.state.isCompleted && s₂.state.isCompleted) ||
              (s₁.state.isPrimed && s₂.state.isCompletedButNotPrimed) ||
              (s₁.state.isCompletedButNotPrimed && s₂.state.isPrimed))
            then D.complete s else s
           let sB := if !D.isClosed sA &&
              ((s₁.state.isClosed && s₂.state.isClosed) ||
              (s₁.state.isWaiting && s₂.state.isClosedButNotPrimed) ||
              (s₁.state.isClosedButNotPrimed && s₂.state.isWaiting))
            then D.unsubscribe sA else sA
           if lastIsValue (h ++ [e]) && !D.isClosed sB then
              match s₁.value, s₂.value with
              | some v₁, some v₂ => D.next sB (v₁, v₂)
              | _, _ => sB
            else sB)
          (D.run s (((combineLatestActualRule i₁ i₂).emits (h ++ [e])).map .next ++
            ((combineLatestActualRule i₁ i₂).ends (h ++ [e])).toList)) := by
      intro s₁ s₂ he hr
      have hp := latestPair_eq hr
      obtain ⟨r1, r2⟩ := hr
      have e1 := isEmpty_getLast? (valsOf (left (h ++ [e])))
      have e2 := isEmpty_getLast? (valsOf (right (h ++ [e])))
      rw [← r1.value] at e1
      rw [← r2.value] at e2
      simp only [combineLatestActualRule, he, hopeless, SubscriberState.isCompletedButNotPrimed,
        SubscriberState.isClosedButNotPrimed, r1.closed, r2.closed, r1.completed, r2.completed,
        r1.primed, r2.primed, r1.waiting, r2.waiting, hp]
      exact cl_core hD hs hcl _ _ _ _ _ _ _ _ _ _ _ _ _
        empty_not_finished empty_not_finished
        e1 e2 completed_finished completed_finished (lastIsValue_eq _) hlive.1 hlive.2
    cases e with
    | o1 n =>
      obtain ⟨s', h1, h2⟩ := (push2 (i₁ := i₁) (i₂ := i₂) hr).1 n hc
      rcases h2 with ⟨er, rfl, h3, h4⟩ | ⟨h3, h4⟩
      · obtain ⟨v, er', ss⟩ := s'
        cases h3
        refine ⟨_, _, by simp only [combineLatestCombiner, h1, Option.map_some]; rfl, ?_, ?_⟩
        · simp [combineLatestActualRule, h4]
        · left
          simp [combineLatestActualRule, h4, lastIsValue, Sub.run, Sub.push]
      · have hlv : lastIsValue (h ++ [.o1 n]) = n.isNext := by
          cases n <;> simp [lastIsValue, SubscriberNotification.isNext]
        have := core s' st.2 h3 h4
        rw [hlv] at this
        obtain ⟨v₁, e₁, ss₁⟩ := s'
        have he₁ := h4.1.err
        cases he₁
        obtain ⟨st₁, ⟨v₂, e₂, ss₂⟩⟩ := st
        have he₂ := h4.2.err
        cases he₂
        exact ⟨_, _, by simp only [combineLatestCombiner, h1, Option.map_some]; rfl, fun _ => h4, this⟩
    | o2 n =>
      obtain ⟨s', h1, h2⟩ := (push2 (i₁ := i₁) (i₂ := i₂) hr).2 n hc
      rcases h2 with ⟨er, rfl, h3, h4⟩ | ⟨h3, h4⟩
      · obtain ⟨v, er', ss⟩ := s'
        cases h3
        obtain ⟨⟨v₁, e₁, ss₁⟩, st₂⟩ := st
        have := hr.1.err
        cases this
        refine ⟨_, _, by simp only [combineLatestCombiner, h1, Option.map_some]; rfl, ?_, ?_⟩
        · simp [combineLatestActualRule, h4]
        · left
          simp [combineLatestActualRule, h4, lastIsValue, Sub.run, Sub.push]
      · have hlv : lastIsValue (h ++ [.o2 n]) = n.isNext := by
          cases n <;> simp [lastIsValue, SubscriberNotification.isNext]
        have := core st.1 s' h3 h4
        rw [hlv] at this
        obtain ⟨v₁, e₁, ss₁⟩ := s'
        have he₁ := h4.2.err
        cases he₁
        obtain ⟨⟨v₂, e₂, ss₂⟩, st₂⟩ := st
        have he₂ := h4.1.err
        cases he₂
        exact ⟨_, _, by simp only [combineLatestCombiner, h1, Option.map_some]; rfl, fun _ => h4, this⟩

/-! ## combine_changes -/

theorem cc_core {D : Sub S (Change A × Change B) F} {obs : S → α} {Inv : S → Prop}
    (hD : Lawful D obs Inv true) {s : S} (hs : Inv s) (hcl : D.isClosed s = false)
    (c1 c2 d1 d2 x1 x2 x : Bool) (v : Change A × Change B)
    (f1 : c1 = true → d1 = true) (f2 : c2 = true → d2 = true) (hx : x = (x1 || x2))
    (l1 : x1 = true → d1 = false) (l2 : x2 = true → d2 = false) :
    Agree D obs
      (let sA := if !D.isClosed s && (c1 && c2) then D.complete s else s
       let sB := if !D.isClosed sA && (d1 && d2) then D.unsubscribe sA else sA
       if !D.isClosed sB && (x1 || x2) then D.next sB v else sB)
      (D.run s ((if x then [v] else []).map .next ++
        (if c1 && c2 then some .complete
          else if d1 && d2 then some .unsubscribe
          else none : Option (SubscriberNotification (Change A × Change B) F)).toList)) := by
  have hcc := hD.completeCloses s hs
  have huc := hD.unsubscribeCloses s hs
  subst hx
  cases c1 <;> cases c2 <;> cases d1 <;> cases d2 <;> simp at f1 f2 <;>
    cases x1 <;> cases x2 <;> simp at l1 l2 <;>
    simp [Sub.run, Sub.push, hcc, huc, hcl, Agree]

theorem change_of {T : Type} (b : Bool) (o : Option T) : change b o = Change.of b o := by
  cases o <;> rfl

theorem combineChanges_implements (i₁ : E₁ → F) (i₂ : E₂ → F) :
    (combineChangesCombiner (A := A) (B := B) i₁ i₂).Implements (combineChangesRule i₁ i₂)
      Conforming NRep2 where
  init := ⟨.default, .default⟩
  pre _ _ := Conforming.prefix
  ends h t ht := by
    simp only [combineChangesRule] at ht
    (repeat' split at ht) <;> cases ht <;> rfl
  step D obs Inv hD s hs hcl h e st hc hr := by
    have hlive := live_snoc hc
    have core : ∀ (s₁ : NotificationState A E₁) (s₂ : NotificationState B E₂),
        anyError i₁ i₂ (h ++ [e]) = none → NRep2 (h ++ [e]) (s₁, s₂) →
        Agree D obs
          (let sA := if !D.isClosed s && (s₁.state.isCompleted && s₂.state.isCompleted)
            then D.complete s else s
           let sB := if !D.isClosed sA && (s₁.state.isClosed && s₂.state.isClosed)
            then D.unsubscribe sA else sA
           if !D.isClosed sB && (lastIsLeft (h ++ [e]) || lastIsRight (h ++ [e]))
            then D.next sB (.of (lastIsLeft (h ++ [e])) s₁.value, .of (lastIsRight (h ++ [e])) s₂.value)
            else sB)
          (D.run s (((combineChangesRule i₁ i₂).emits (h ++ [e])).map .next ++
            ((combineChangesRule i₁ i₂).ends (h ++ [e])).toList)) := by
      intro s₁ s₂ he hr
      obtain ⟨r1, r2⟩ := hr
      simp only [combineChangesRule, he, r1.closed, r2.closed, r1.completed, r2.completed,
        ← r1.value, ← r2.value, change_of]
      exact cc_core hD hs hcl _ _ _ _ _ _ _ _ completed_finished completed_finished (lastIsValue_eq _)
        (fun h => (hlive.1 h).1) (fun h => (hlive.2 h).1)
    cases e with
    | o1 n =>
      obtain ⟨s', h1, h2⟩ := (push2 (i₁ := i₁) (i₂ := i₂) hr).1 n hc
      rcases h2 with ⟨er, rfl, h3, h4⟩ | ⟨h3, h4⟩
      · obtain ⟨v, er', ss⟩ := s'
        cases h3
        refine ⟨_, _, by simp only [combineChangesCombiner, h1, Option.map_some]; rfl, ?_, ?_⟩
        · simp [combineChangesRule, h4]
        · left
          simp [combineChangesRule, h4, lastIsValue, Sub.run, Sub.push]
      · have := core s' st.2 h3 h4
        have hl : lastIsLeft (h ++ [.o1 n]) = n.isNext := by
          cases n <;> simp [lastIsLeft, SubscriberNotification.isNext]
        have hrt : lastIsRight (h ++ [.o1 n]) = false := by
          cases n <;> simp [lastIsRight, SubscriberNotification.isNext]
        rw [hl, hrt] at this
        obtain ⟨v₁, e₁, ss₁⟩ := s'
        have he₁ := h4.1.err
        cases he₁
        obtain ⟨st₁, ⟨v₂, e₂, ss₂⟩⟩ := st
        have he₂ := h4.2.err
        cases he₂
        exact ⟨_, _, by simp only [combineChangesCombiner, h1, Option.map_some]; rfl, fun _ => h4, this⟩
    | o2 n =>
      obtain ⟨s', h1, h2⟩ := (push2 (i₁ := i₁) (i₂ := i₂) hr).2 n hc
      rcases h2 with ⟨er, rfl, h3, h4⟩ | ⟨h3, h4⟩
      · obtain ⟨v, er', ss⟩ := s'
        cases h3
        obtain ⟨⟨v₁, e₁, ss₁⟩, st₂⟩ := st
        have := hr.1.err
        cases this
        refine ⟨_, _, by simp only [combineChangesCombiner, h1, Option.map_some]; rfl, ?_, ?_⟩
        · simp [combineChangesRule, h4]
        · left
          simp [combineChangesRule, h4, lastIsValue, Sub.run, Sub.push]
      · have := core st.1 s' h3 h4
        have hl : lastIsLeft (h ++ [.o2 n]) = false := by
          cases n <;> simp [lastIsLeft, SubscriberNotification.isNext]
        have hrt : lastIsRight (h ++ [.o2 n]) = n.isNext := by
          cases n <;> simp [lastIsRight, SubscriberNotification.isNext]
        rw [hl, hrt] at this
        obtain ⟨v₁, e₁, ss₁⟩ := s'
        have he₁ := h4.2.err
        cases he₁
        obtain ⟨⟨v₂, e₂, ss₂⟩, st₂⟩ := st
        have he₂ := h4.1.err
        cases he₂
        exact ⟨_, _, by simp only [combineChangesCombiner, h1, Option.map_some]; rfl, fun _ => h4, this⟩

/-! ## join -/

theorem NRep.valid {ns : List (SubscriberNotification I E)} {s : NotificationState I E}
    (h : NRep ns s) {n} (hn : MayFollow ns n) : s.state.updateWouldBeInvalid n = false := by
  have hc := h.closed
  cases n with
  | unsubscribe => rw [h.state]; exact hn
  | _ =>
    obtain ⟨k1, k2, k3⟩ := hn
    simp only [SubscriberState.updateWouldBeInvalid, hc]
    simp [finished, k1, k2, k3]

theorem join_core {D : Sub S (A × B) F} {obs : S → α} {Inv : S → Prop}
    (hD : Lawful D obs Inv true) {s : S} (hs : Inv s) (hcl : D.isClosed s = false)
    (c1 c2 d1 d2 : Bool) (o1 : Option A) (o2 : Option B) :
    Agree D obs
      (let sA := if !D.isClosed s && (c1 && c2) then
          D.complete (match o1, o2 with
            | some v₁, some v₂ => D.next s (v₁, v₂)
            | _, _ => s)
         else s
       if !D.isClosed sA && (d1 && d2) then D.unsubscribe sA else sA)
      (D.run s ((if c1 && c2 then
          (match o1, o2 with | some a, some b => some (a, b) | _, _ => none).toList
          else []).map .next ++
        (if c1 && c2 then some .complete
          else if d1 && d2 then some .unsubscribe
          else none : Option (SubscriberNotification (A × B) F)).toList)) := by
  have hcc := hD.completeCloses s hs
  have hnc : ∀ v, D.isClosed (D.complete (D.next s v)) = true := fun v =>
    hD.completeCloses _ (hD.run_inv hs [.next v])
  cases c1 <;> cases c2 <;> cases d1 <;> cases d2 <;> cases o1 <;> cases o2 <;>
    simp [Sub.run, Sub.push, hcc, hcl, Agree, hnc]

theorem join_implements (i₁ : E₁ → F) (i₂ : E₂ → F) :
    (joinCombiner (A := A) (B := B) i₁ i₂).Implements (joinRule i₁ i₂)
      Conforming NRep2 where
  init := ⟨.default, .default⟩
  pre _ _ := Conforming.prefix
  ends h t ht := by
    simp only [joinRule] at ht
    (repeat' split at ht) <;> cases ht <;> rfl
  step D obs Inv hD s hs hcl h e st hc hr := by
    have core : ∀ (s₁ : NotificationState A E₁) (s₂ : NotificationState B E₂),
        anyError i₁ i₂ (h ++ [e]) = none → NRep2 (h ++ [e]) (s₁, s₂) →
        Agree D obs
          (let sA := if !D.isClosed s && (s₁.state.isCompleted && s₂.state.isCompleted) then
              D.complete (match s₁.value, s₂.value with
                | some v₁, some v₂ => D.next s (v₁, v₂)
                | _, _ => s)
            else s
           if !D.isClosed sA && (s₁.state.isClosed && s₂.state.isClosed)
            then D.unsubscribe sA else sA)
          (D.run s (((joinRule i₁ i₂).emits (h ++ [e])).map .next ++
            ((joinRule i₁ i₂).ends (h ++ [e])).toList)) := by
      intro s₁ s₂ he hr
      have hp := latestPair_eq hr
      obtain ⟨r1, r2⟩ := hr
      simp only [joinRule, he, r1.closed, r2.closed, r1.completed, r2.completed, hp,
        Option.isNone_none, Bool.and_true]
      exact join_core hD hs hcl _ _ _ _ _ _
    cases e with
    | o1 n =>
      obtain ⟨s', h1, h2⟩ := (push2 (i₁ := i₁) (i₂ := i₂) hr).1 n hc
      have hg := hc.1; rw [left_snoc1] at hg
      have hval := hr.1.valid (grammar_prefix hg).2
      rcases h2 with ⟨er, rfl, h3, h4⟩ | ⟨h3, h4⟩
      · obtain ⟨v, er', ss⟩ := s'
        cases h3
        refine ⟨_, _, by simp only [joinCombiner, hval, Bool.not_false, if_true, h1, Option.map_some]; rfl, ?_, ?_⟩
        · simp [joinRule, h4]
        · left
          simp [joinRule, h4, lastIsValue, Sub.run, Sub.push]
      · have := core s' st.2 h3 h4
        obtain ⟨v₁, e₁, ss₁⟩ := s'
        have he₁ := h4.1.err
        cases he₁
        obtain ⟨st₁, ⟨v₂, e₂, ss₂⟩⟩ := st
        have he₂ := h4.2.err
        cases he₂
        exact ⟨_, _, by simp only [joinCombiner, hval, Bool.not_false, if_true, h1, Option.map_some]; rfl, fun _ => h4, this⟩
    | o2 n =>
      obtain ⟨s', h1, h2⟩ := (push2 (i₁ := i₁) (i₂ := i₂) hr).2 n hc
      have hg := hc.2; rw [right_snoc2] at hg
      have hval := hr.2.valid (grammar_prefix hg).2
      rcases h2 with ⟨er, rfl, h3, h4⟩ | ⟨h3, h4⟩
      · obtain ⟨v, er', ss⟩ := s'
        cases h3
        obtain ⟨⟨v₁, e₁, ss₁⟩, st₂⟩ := st
        have := hr.1.err
        cases this
        refine ⟨_, _, by simp only [joinCombiner, hval, Bool.not_false, if_true, h1, Option.map_some]; rfl, ?_, ?_⟩
        · simp [joinRule, h4]
        · left
          simp [joinRule, h4, lastIsValue, Sub.run, Sub.push]
      · have := core st.1 s' h3 h4
        obtain ⟨v₁, e₁, ss₁⟩ := s'
        have he₁ := h4.2.err
        cases he₁
        obtain ⟨⟨v₂, e₂, ss₂⟩, st₂⟩ := st
        have he₂ := h4.1.err
        cases he₂
        exact ⟨_, _, by simp only [joinCombiner, hval, Bool.not_false, if_true, h1, Option.map_some]; rfl, fun _ => h4, this⟩

/-! ## with_latest_from -/

/-- `with_latest_from` as a combiner. -/
def withLatestCombiner : Combiner A F B F (A × B) F where
  St := WithLatestSt B
  init := withLatestInit
  next D x n := some (withLatestStep D x n)

theorem withLatestStep_closed (D : Sub S (A × B) F) (x : WithLatestSt B × S) (n : Either2 A F B F)
    (hc : D.isClosed x.2 = true) : (withLatestStep D x n).2 = x.2 := by
  cases n with
  | o1 n =>
    cases n with
    | next v =>
      simp only [withLatestStep]
      split <;> simp [Sub.guarded, hc]
    | _ => simp [withLatestStep, Sub.guarded, hc]
  | o2 n =>
    simp only [withLatestStep]
    split
    · cases n <;> simp only [Sub.guarded, hc, if_true] <;> split <;> rfl
    · rfl

theorem withLatestRun_closed (D : Sub S (A × B) F) (es : List (Either2 A F B F)) :
    ∀ x : WithLatestSt B × S, D.isClosed x.2 = true → (withLatestRun D x es).2 = x.2 := by
  induction es with
  | nil => intro x _; rfl
  | cons e es ih =>
    intro x hc
    have h := withLatestStep_closed D x e hc
    have := ih (withLatestStep D x e) (by rw [h]; exact hc)
    simp only [withLatestRun, List.foldl_cons] at this ⊢
    rw [this, h]

theorem Combiner.run_cons (C : Combiner A E₁ B E₂ O F) (D : Sub S O F) (x : C.St × S) (e) (es)
    {y : C.St × S} (h : C.step D x e = some y) : C.run D x (e :: es) = C.run D y es := by
  unfold Combiner.run
  rw [List.foldlM_cons, h]
  rfl

theorem withLatestRun_eq (D : Sub S (A × B) F) (es : List (Either2 A F B F)) :
    ∀ x : WithLatestSt B × S, ∃ y, (withLatestCombiner (A := A) (F := F)).run D x es = some y ∧
      (withLatestRun D x es).2 = y.2 := by
  induction es with
  | nil => intro x; exact ⟨x, rfl, rfl⟩
  | cons e es ih =>
    intro x
    cases hc : D.isClosed x.2 with
    | true =>
      exact ⟨x, (withLatestCombiner (A := A) (F := F)).run_closed D x hc _, withLatestRun_closed D _ x hc⟩
    | false =>
      obtain ⟨y, h1, h2⟩ := ih (withLatestStep D x e)
      refine ⟨y, ?_, ?_⟩
      · have : (withLatestCombiner (A := A) (F := F)).step D x e = some (withLatestStep D x e) := by
          unfold Combiner.step
          rw [if_neg (by simp [hc])]
          rfl
        exact (Combiner.run_cons (withLatestCombiner (A := A) (F := F)) D x e es this).trans h1
      · exact h2

/-- The state of `with_latest_from` for a history after which it has not ended. -/
structure WRep (h : List (Either2 A F B F)) (st : WithLatestSt B) : Prop where
  latest : st.inner.latest = (valsOf (right h)).getLast?
  isOpen : st.isOpen = !finished (right h)
  isFinished : st.inner.isFinished = completed (right h)
  ends : withLatestRule.ends h = none

theorem anyError_none {h : List (Either2 A E₁ B E₂)} {i₁ : E₁ → F} {i₂ : E₂ → F}
    (hn : anyError i₁ i₂ h = none) : errorOf (left h) = none ∧ errorOf (right h) = none := by
  simp only [anyError] at hn
  cases h1 : errorOf (left h) <;> cases h2 : errorOf (right h) <;> simp_all

theorem withLatest_open {h : List (Either2 A F B F)} (hn : withLatestRule.ends h = none) :
    completed (left h) = false ∧ unsubscribed (left h) = false ∧ errorOf (left h) = none ∧
    errorOf (right h) = none ∧ (completed (right h) && (valsOf (right h)).isEmpty) = false := by
  simp only [withLatestRule] at hn
  cases he : anyError id id h with
  | some e => simp [he] at hn
  | none =>
    obtain ⟨h1, h2⟩ := anyError_none he
    simp only [he] at hn
    (repeat' split at hn) <;> simp_all

theorem withLatest_implements :
    (withLatestCombiner (A := A) (B := B) (F := F)).Implements withLatestRule Conforming WRep where
  init := ⟨rfl, rfl, rfl, rfl⟩
  pre _ _ := Conforming.prefix
  ends h t ht := by
    simp only [withLatestRule] at ht
    (repeat' split at ht) <;> cases ht <;> rfl
  step D obs Inv hD s hs hcl h e st hc hr := by
    refine ⟨(withLatestStep D (st, s) e).1, (withLatestStep D (st, s) e).2, rfl, ?_⟩
    obtain ⟨⟨la, er, co⟩, op⟩ := st
    obtain ⟨r1, r2, r3, r4⟩ := hr
    obtain ⟨k1, k2, k3, k4, k5⟩ := withLatest_open r4
    simp only [LatestState.isFinished] at r1 r2 r3
    have hgr : ∀ n : SubscriberNotification (A × B) F, D.guarded s n = D.push s n := by
      intro n; simp [Sub.guarded, hcl]
    have k5' : completed (right h) = true → ¬valsOf (right h) = [] := by simpa using k5
    have e1 := isEmpty_getLast? (valsOf (right h))
    rw [← r1] at e1
    obtain ⟨g1, g2⟩ := hc
    cases e with
    | o1 n =>
      rw [left_snoc1] at g1
      cases n with
      | next v =>
        have hend : withLatestRule.ends (h ++ [.o1 (.next v)]) = none := by
          simp [withLatestRule, anyError, left_snoc1, right_snoc1, completed_snoc, unsubscribed_snoc,
            errorOf_snoc, k1, k2, k3, k4]
          exact k5'
        rw [hend]
        cases la with
        | none =>
          refine ⟨fun _ => ⟨?_, ?_, ?_, hend⟩, ?_⟩
          · rw [right_snoc1]; exact r1
          · rw [right_snoc1]; exact r2
          · rw [right_snoc1]; exact r3
          · left
            simp [withLatestStep, withLatestRule, latestPair, left_snoc1, right_snoc1, valsOf_snoc, ← r1, Sub.run]
        | some b =>
          refine ⟨fun _ => ⟨?_, ?_, ?_, hend⟩, ?_⟩
          · rw [right_snoc1]; exact r1
          · rw [right_snoc1]; exact r2
          · rw [right_snoc1]; exact r3
          · left
            simp [withLatestStep, withLatestRule, latestPair, left_snoc1, right_snoc1, valsOf_snoc, ← r1,
              Sub.run, hgr, lastIsLeft]
      | error x =>
        have hend : withLatestRule.ends (h ++ [.o1 (.error x)]) = some (.error x) := by
          simp [withLatestRule, anyError, left_snoc1, errorOf_snoc, k3]
        rw [hend]
        exact ⟨fun h => (by cases h), .inl (by
          simp [withLatestStep, withLatestRule, lastIsLeft, Sub.run, hgr])⟩
      | complete =>
        have hend : withLatestRule.ends (h ++ [.o1 .complete]) = some .complete := by
          simp [withLatestRule, anyError, left_snoc1, right_snoc1, errorOf_snoc, completed_snoc, k3, k4]
        rw [hend]
        exact ⟨fun h => (by cases h), .inl (by
          simp [withLatestStep, withLatestRule, lastIsLeft, Sub.run, hgr])⟩
      | unsubscribe =>
        have hend : withLatestRule.ends (h ++ [.o1 .unsubscribe]) = some .unsubscribe := by
          simp [withLatestRule, anyError, left_snoc1, right_snoc1, errorOf_snoc, completed_snoc,
            unsubscribed_snoc, k1, k3, k4]
        rw [hend]
        exact ⟨fun h => (by cases h), .inl (by
          simp [withLatestStep, withLatestRule, lastIsLeft, Sub.run, hgr])⟩
    | o2 n =>
      rw [right_snoc2] at g2
      have hm := (grammar_prefix g2).2
      cases n with
      | next v =>
        obtain ⟨m1, m2, m3⟩ := hm
        have hop : op = true := by rw [r2]; simp [finished, m1, m2, m3]
        subst hop
        rw [m1] at r3
        have hend : withLatestRule.ends (h ++ [.o2 (.next v)]) = none := by
          simp [withLatestRule, anyError, left_snoc2, right_snoc2, completed_snoc, unsubscribed_snoc,
            errorOf_snoc, k1, k2, k3, k4, m1]
        rw [hend]
        refine ⟨fun _ => ⟨?_, ?_, ?_, hend⟩, ?_⟩
        · simp [withLatestStep, LatestState.isFinished, r3, right_snoc2, valsOf_snoc]
        · simp [withLatestStep, LatestState.isFinished, r3, right_snoc2, finished, completed_snoc,
            unsubscribed_snoc, errorOf_snoc, m1, m2, m3]
        · simp only [withLatestStep, LatestState.isFinished, r3, right_snoc2, completed_snoc, m1]
          simp [r3]
        · left
          simp [withLatestStep, LatestState.isFinished, r3, withLatestRule, lastIsLeft, Sub.run]
      | error x =>
        obtain ⟨m1, m2, m3⟩ := hm
        have hop : op = true := by rw [r2]; simp [finished, m1, m2, m3]
        subst hop
        have hend : withLatestRule.ends (h ++ [.o2 (.error x)]) = some (.error x) := by
          simp [withLatestRule, anyError, left_snoc2, right_snoc2, errorOf_snoc, k3, k4]
        rw [hend]
        exact ⟨fun h => (by cases h), .inl (by
          simp [withLatestStep, withLatestRule, lastIsLeft, Sub.run, hgr])⟩
      | complete =>
        obtain ⟨m1, m2, m3⟩ := hm
        have hop : op = true := by rw [r2]; simp [finished, m1, m2, m3]
        subst hop
        rw [m1] at r3
        cases la with
        | none =>
          simp only [Option.isNone_none] at e1
          have hend : withLatestRule.ends (h ++ [.o2 .complete]) = some .complete := by
            simp only [withLatestRule, anyError, left_snoc2, right_snoc2, errorOf_snoc, k1, k2, k3, k4,
              completed_snoc, valsOf_snoc]
            simp [e1]
          rw [hend]
          exact ⟨fun h => (by cases h), .inl (by
            simp [withLatestStep, withLatestRule, lastIsLeft, Sub.run, hgr])⟩
        | some b =>
          simp only [Option.isNone_some] at e1
          have hend : withLatestRule.ends (h ++ [.o2 .complete]) = none := by
            simp only [withLatestRule, anyError, left_snoc2, right_snoc2, errorOf_snoc, k1, k2, k3, k4,
              completed_snoc, valsOf_snoc]
            simp [e1]
          rw [hend]
          refine ⟨fun _ => ⟨?_, ?_, ?_, hend⟩, ?_⟩
          · simp [withLatestStep, LatestState.isFinished, r3, right_snoc2, valsOf_snoc, ← r1]
          · simp [withLatestStep, LatestState.isFinished, r3, right_snoc2, finished, completed_snoc]
          · simp only [withLatestStep, LatestState.isFinished, r3, right_snoc2, completed_snoc, m1]
            simp
          · left
            simp [withLatestStep, LatestState.isFinished, r3, withLatestRule, lastIsLeft, Sub.run]
      | unsubscribe =>
        have hend : withLatestRule.ends (h ++ [.o2 .unsubscribe]) = none := by
          simp [withLatestRule, anyError, left_snoc2, right_snoc2, completed_snoc, unsubscribed_snoc,
            errorOf_snoc, valsOf_snoc, k1, k2, k3, k4]
          exact k5'
        rw [hend]
        have hst : withLatestStep D (⟨⟨la, er, co⟩, op⟩, s) (.o2 .unsubscribe) = (⟨⟨la, er, co⟩, false⟩, s) := by
          cases op <;> simp [withLatestStep]
        rw [hst]
        refine ⟨fun _ => ⟨?_, ?_, ?_, hend⟩, ?_⟩
        · simp [right_snoc2, valsOf_snoc, ← r1]
        · simp [right_snoc2, finished, unsubscribed_snoc]
        · simpa [right_snoc2, completed_snoc, LatestState.isFinished] using r3
        · left
          simp [withLatestRule, lastIsLeft, Sub.run]

end Rx
