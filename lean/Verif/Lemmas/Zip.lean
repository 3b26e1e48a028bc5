import Verif.Lemmas.Queue
import Verif.Lemmas.CombineState

/-!
# zip follows its rule
-/

namespace Rx

open Spec

variable {A E₁ B E₂ O F I E S α : Type}

/-- The queue of an input of which `k` values have been paired. -/
structure ZSide (o : QueueOverflowOptions) (k : Nat) (ns : List (SubscriberNotification I E))
    (q : NotificationQueue I E) : Prop where
  rep : QRep ((valsOf ns).drop k) (completed ns) (unsubscribed ns) (!(valsOf ns).isEmpty) ns.isEmpty q
  options : q.options = o
  noErr : errorOf ns = none

def ZRep (o : QueueOverflowOptions) (h : List (Either2 A E₁ B E₂))
    (st : NotificationQueue A E₁ × NotificationQueue B E₂) : Prop :=
  ZSide o (pairs h).length (left h) st.1 ∧ ZSide o (pairs h).length (right h) st.2

theorem vals_ne {ns : List (SubscriberNotification I E)} {k : Nat} (h : (valsOf ns).drop k ≠ []) :
    (!(valsOf ns).isEmpty) = true ∧ ns.isEmpty = false := by
  cases ns with
  | nil => simp [valsOf] at h
  | cons a l =>
    refine ⟨?_, rfl⟩
    cases hv : valsOf (a :: l) with
    | nil => simp [hv] at h
    | cons => rfl

theorem isEmpty_snoc {T : Type} (l : List T) (x : T) : (l ++ [x]).isEmpty = false := by
  cases l <;> rfl

theorem ZSide.push {o : QueueOverflowOptions} {k : Nat} {ns : List (SubscriberNotification I E)}
    {q : NotificationQueue I E} (h : ZSide o k ns q) {n} (hn : MayFollow ns n)
    (hlim : ∀ v, n = .next v → (valsOf ns).length - k < o.maxQueueLength)
    (hk : k ≤ (valsOf ns).length) :
    ∃ q', q.push n = some q' ∧
      ((∃ e, n = .error e ∧ q'.err = some e) ∨ (errorOf (ns ++ [n]) = none ∧ ZSide o k (ns ++ [n]) q')) := by
  obtain ⟨hr, ho, he⟩ := h
  cases n with
  | next v =>
    obtain ⟨k1, k2, k3⟩ := hn
    rw [k1, k2] at hr
    have hl := hlim v rfl
    obtain ⟨q', h1, h2, h3⟩ := hr.push_next (fun h => vals_ne h) (by rw [ho]; omega) v
    refine ⟨q', h1, .inr ⟨by simp [errorOf_snoc, he], ?_, h2.trans ho, by simp [errorOf_snoc, he]⟩⟩
    have hb : boundedPush q.options ((valsOf ns).drop k) v = (valsOf (ns ++ [.next v])).drop k := by
      rw [boundedPush, if_neg (by rw [ho, List.length_drop]; omega), valsOf_snoc,
        List.drop_append_of_le_length hk]
    rw [hb] at h3
    simpa [isEmpty_snoc, completed_snoc, unsubscribed_snoc, valsOf_snoc, k1, k2] using h3
  | error e =>
    obtain ⟨k1, k2, k3⟩ := hn
    rw [k1, k2] at hr
    obtain ⟨q', h1, h2⟩ := hr.push_error e
    exact ⟨q', h1, .inl ⟨e, rfl, h2⟩⟩
  | complete =>
    obtain ⟨k1, k2, k3⟩ := hn
    rw [k1, k2] at hr
    obtain ⟨q', h1, h2, h3⟩ := hr.push_complete (fun h => (vals_ne h).2)
    refine ⟨q', h1, .inr ⟨by simp [errorOf_snoc, he], ?_, h2.trans ho, by simp [errorOf_snoc, he]⟩⟩
    simpa [isEmpty_snoc, completed_snoc, unsubscribed_snoc, valsOf_snoc, k1, k2] using h3
  | unsubscribe =>
    have k2 : unsubscribed ns = false := hn
    rw [k2] at hr
    obtain ⟨q', h1, h2, h3⟩ := hr.push_unsubscribe (by
      rintro (h | h)
      · exact (vals_ne h).2
      · cases ns with
        | nil => simp [completed] at h
        | cons => rfl)
    refine ⟨q', h1, .inr ⟨by simp [errorOf_snoc, he], ?_, h2.trans ho, by simp [errorOf_snoc, he]⟩⟩
    simpa [isEmpty_snoc, completed_snoc, unsubscribed_snoc, valsOf_snoc, k2] using h3

theorem ZSide.pop {o : QueueOverflowOptions} {k : Nat} {ns : List (SubscriberNotification I E)}
    {q : NotificationQueue I E} (h : ZSide o k ns q) {a : I} {l} (ha : (valsOf ns).drop k = a :: l) :
    ∃ q', q.popNextIfInFront = some (q', some a) ∧ ZSide o (k + 1) ns q' := by
  obtain ⟨hr, ho, he⟩ := h
  obtain ⟨p1, p2⟩ := vals_ne (ns := ns) (k := k) (by rw [ha]; simp)
  rw [p1, p2, ha] at hr
  obtain ⟨q', h1, h2, h3⟩ := hr.pop
  refine ⟨q', h1, ?_, h2.trans ho, he⟩
  have : (valsOf ns).drop (k + 1) = l := by
    rw [← List.drop_drop, ha]; rfl
  rw [p1, p2, this]
  exact h3

/-- Completing, or else unsubscribing, with the checks in between. -/
theorem ends_agree {D : Sub S O F} {obs : S → α} {Inv : S → Prop} (hD : Lawful D obs Inv true)
    {s : S} (hs : Inv s) (c u : Bool) :
    Agree D obs
      (let sA := if !D.isClosed s && c then D.complete s else s
       if !D.isClosed sA && u then D.unsubscribe sA else sA)
      (D.run s (if c then [.complete] else if u then [.unsubscribe] else [])) := by
  have hcc := hD.completeCloses s hs
  have huc := hD.unsubscribeCloses s hs
  cases hcl : D.isClosed s with
  | false => cases c <;> cases u <;> simp [Sub.run, Sub.push, hcc, hcl, Agree]
  | true =>
    right
    have := fun ns => hD.run_closed hs hcl ns
    refine ⟨?_, (this _).2, ?_⟩
    · simp [hcl]
    · rw [(this _).1]; simp [hcl]

theorem zip_ends (i₁ : E₁ → F) (i₂ : E₂ → F) {h : List (Either2 A E₁ B E₂)}
    (he : anyError i₁ i₂ h = none) {k : Nat} (hk : k = (pairs h).length) :
    let r1 := ((valsOf (left h)).drop k).isEmpty
    let r2 := ((valsOf (right h)).drop k).isEmpty
    let c1 := completed (left h); let c2 := completed (right h)
    let u1 := unsubscribed (left h); let u2 := unsubscribed (right h)
    ((zipActualRule i₁ i₂).ends h).toList =
      if ((c1 && r1) && (c2 && r2)) || ((c1 && r1) && (r2 && !c2 && !u2)) || ((r1 && !c1 && !u1) && (c2 && r2))
        then [.complete]
      else if (((c1 || u1) && r1) && ((c2 || u2) && r2)) || ((r1 && !c1 && !u1) && ((c2 || u2) && r2)) ||
          (((c1 || u1) && r1) && (r2 && !c2 && !u2))
        then [.unsubscribe] else [] := by
  obtain ⟨e1, e2⟩ := anyError_none he
  simp only [zipActualRule, he, finished, e1, e2, Option.isSome_none, Bool.or_false]
  have hl : ((valsOf (left h)).length = (valsOf (right h)).length) ↔
      (((valsOf (left h)).drop k).isEmpty = true ∧ ((valsOf (right h)).drop k).isEmpty = true) := by
    simp only [List.isEmpty_iff, List.drop_eq_nil_iff, hk, pairs, List.length_zip]
    omega
  simp only [hl]
  clear hl
  generalize ((valsOf (left h)).drop k).isEmpty = r1
  generalize ((valsOf (right h)).drop k).isEmpty = r2
  cases completed (left h) <;> cases completed (right h) <;> cases unsubscribed (left h) <;>
    cases unsubscribed (right h) <;> cases r1 <;> cases r2 <;> simp

/-- `try_complete` and `try_unsubscribe`. -/
def zipEnd (D : Sub S (A × B) F) (q₁ : NotificationQueue A E₁) (q₂ : NotificationQueue B E₂) (s : S) : S :=
  let s := if !D.isClosed s &&
      ((q₁.state.isCompleted && q₂.state.isCompleted) || (q₁.state.isCompleted && q₂.isEmpty) ||
        (q₁.isEmpty && q₂.state.isCompleted))
    then D.complete s else s
  if !D.isClosed s &&
      ((q₁.state.isClosed && q₂.state.isClosed) || (q₁.isEmpty && q₂.state.isClosed) ||
        (q₁.state.isClosed && q₂.isEmpty))
    then D.unsubscribe s else s

theorem zip_implements (o : QueueOverflowOptions) (i₁ : E₁ → F) (i₂ : E₂ → F) :
    (zipCombiner (A := A) (B := B) o i₁ i₂).Implements (zipActualRule i₁ i₂)
      (fun h => Conforming h ∧ WithinLimit o.maxQueueLength h) (ZRep o) where
  init := ⟨⟨.new o, rfl, rfl⟩, ⟨.new o, rfl, rfl⟩⟩
  pre h e hp := ⟨Conforming.prefix hp.1, fun p hpp => hp.2 p (hpp.trans (List.prefix_append _ _))⟩
  ends h t ht := by
    simp only [zipActualRule] at ht
    (repeat' split at ht) <;> cases ht <;> rfl
  step {S _} D obs Inv hD s hs hcl h e st hc hr := by
    obtain ⟨hc, hlim⟩ := hc
    have hl1 := hlim _ (List.prefix_append h [e])
    have hl2 := hlim _ (List.prefix_rfl)
    -- what follows the pushes
    have core : ∀ (q₁ : NotificationQueue A E₁) (q₂ : NotificationQueue B E₂),
        anyError i₁ i₂ (h ++ [e]) = none → ZSide o (pairs h).length (left (h ++ [e])) q₁ →
        ZSide o (pairs h).length (right (h ++ [e])) q₂ →
        ((lastIsValue (h ++ [e]) = false ∧ pairs (h ++ [e]) = pairs h) ∨
         (lastIsValue (h ++ [e]) = true ∧ (valsOf (left (h ++ [e]))).length + (valsOf (right (h ++ [e]))).length =
          (valsOf (left h)).length + (valsOf (right h)).length + 1 ∧
          (valsOf (left h)).length ≤ (valsOf (left (h ++ [e]))).length ∧
          (valsOf (right h)).length ≤ (valsOf (right (h ++ [e]))).length)) →
        ∃ st' s', (do
          let (q₁, q₂, s) ←
            if lastIsValue (h ++ [e]) && !D.isClosed s && (q₁.hasNext && q₂.hasNext) then do
              let (q₁, v₁) ← q₁.popNextIfInFront
              let (q₂, v₂) ← q₂.popNextIfInFront
              match v₁, v₂ with
              | some v₁, some v₂ => pure (q₁, q₂, D.next s (v₁, v₂))
              | _, _ => pure (q₁, q₂, s)
            else pure (q₁, q₂, s)
          let s := if !D.isClosed s &&
              ((q₁.state.isCompleted && q₂.state.isCompleted) || (q₁.state.isCompleted && q₂.isEmpty) ||
                (q₁.isEmpty && q₂.state.isCompleted))
            then D.complete s else s
          let s := if !D.isClosed s &&
              ((q₁.state.isClosed && q₂.state.isClosed) || (q₁.isEmpty && q₂.state.isClosed) ||
                (q₁.state.isClosed && q₂.isEmpty))
            then D.unsubscribe s else s
          pure ((q₁, q₂), s)) = some (st', s') ∧ ZRep o (h ++ [e]) st' ∧
          Agree D obs s' (D.run s (((zipActualRule i₁ i₂).emits (h ++ [e])).map .next ++
            ((zipActualRule i₁ i₂).ends (h ++ [e])).toList)) := by
      intro q₁ q₂ he hz1 hz2 hv
      have fin : ∀ (q₁ : NotificationQueue A E₁) (q₂ : NotificationQueue B E₂) (s : S),
          ZSide o (pairs (h ++ [e])).length (left (h ++ [e])) q₁ →
          ZSide o (pairs (h ++ [e])).length (right (h ++ [e])) q₂ → Inv s →
          Agree D obs
            (zipEnd D q₁ q₂ s)
            (D.run s ((zipActualRule i₁ i₂).ends (h ++ [e])).toList) := by
        intro q₁ q₂ s h1 h2 hs
        rw [zipEnd, zip_ends i₁ i₂ he rfl, h1.rep.isCompleted, h2.rep.isCompleted, h1.rep.isEmpty, h2.rep.isEmpty,
          h1.rep.isClosed, h2.rep.isClosed]
        exact ends_agree hD hs _ _
      have hplen : (pairs (h ++ [e])).length =
          min (valsOf (left (h ++ [e]))).length (valsOf (right (h ++ [e]))).length := by
        simp [pairs]
      have hplen0 : (pairs h).length = min (valsOf (left h)).length (valsOf (right h)).length := by
        simp [pairs]
      by_cases hpop : lastIsValue (h ++ [e]) = true ∧ q₁.hasNext = true ∧ q₂.hasNext = true
      · obtain ⟨hx, hn1, hn2⟩ := hpop
        rcases hv with hv | ⟨-, hv, hv1, hv2⟩
        · rw [hv.1] at hx; cases hx
        rw [hz1.rep.hasNext] at hn1
        rw [hz2.rep.hasNext] at hn2
        obtain ⟨a, l1, ha⟩ : ∃ a l, (valsOf (left (h ++ [e]))).drop (pairs h).length = a :: l := by
          cases hh : (valsOf (left (h ++ [e]))).drop (pairs h).length with
          | nil => simp [hh] at hn1
          | cons a l => exact ⟨a, l, rfl⟩
        obtain ⟨b, l2, hb⟩ : ∃ a l, (valsOf (right (h ++ [e]))).drop (pairs h).length = a :: l := by
          cases hh : (valsOf (right (h ++ [e]))).drop (pairs h).length with
          | nil => simp [hh] at hn2
          | cons a l => exact ⟨a, l, rfl⟩
        have la := congrArg List.length ha
        have lb := congrArg List.length hb
        simp only [List.length_drop, List.length_cons] at la lb
        have hk : (pairs (h ++ [e])).length = (pairs h).length + 1 := by omega
        obtain ⟨q₁', p1, z1⟩ := hz1.pop ha
        obtain ⟨q₂', p2, z2⟩ := hz2.pop hb
        rw [← hk] at z1 z2
        have hnp : newPairs (h ++ [e]) = [(a, b)] := by
          have hlen : (newPairs (h ++ [e])).length = 1 := by
            simp only [newPairs, List.length_drop, List.dropLast_concat, hk]; omega
          have : newPairs (h ++ [e]) = (a, b) :: (l1.zip l2) := by
            simp only [newPairs, List.dropLast_concat]
            generalize (pairs h).length = k at ha hb
            rw [pairs, List.zip_eq_zipWith, List.drop_zipWith, ha, hb]
            rfl
          rw [this] at hlen ⊢
          simp only [List.length_cons] at hlen
          rw [List.length_eq_zero_iff.1 (by omega : (l1.zip l2).length = 0)]
        have hag := fin q₁' q₂' (D.next s (a, b)) z1 z2 (hD.run_inv hs [.next (a, b)])
        refine ⟨(q₁', q₂'), zipEnd D q₁' q₂' (D.next s (a, b)), ?_, ⟨z1, z2⟩, ?_⟩
        rotate_left
        · have : (zipActualRule i₁ i₂).emits (h ++ [e]) = [(a, b)] := hnp
          rw [this, Sub.run_append]
          exact hag
        · rw [hz1.rep.hasNext, hz2.rep.hasNext, hn1, hn2, hx, hcl]
          simp only [p1, p2, Bool.not_false, Bool.and_self, if_true]
          rfl
      · have hk : (pairs (h ++ [e])).length = (pairs h).length := by
          rcases hv with hv | ⟨hx, hv, hv1, hv2⟩
          · rw [hv.2]
          · rw [hz1.rep.hasNext, hz2.rep.hasNext] at hpop
            simp only [hx, true_and, Bool.not_eq_true', ← Bool.not_eq_true, List.isEmpty_iff,
              List.drop_eq_nil_iff] at hpop
            omega
        have hnp : newPairs (h ++ [e]) = [] := by
          rw [newPairs, List.dropLast_concat, List.drop_eq_nil_iff]; omega
        rw [← hk] at hz1 hz2
        have hag := fin q₁ q₂ s hz1 hz2 hs
        refine ⟨(q₁, q₂), zipEnd D q₁ q₂ s, ?_, ⟨hz1, hz2⟩, ?_⟩
        rotate_left
        · have : (zipActualRule i₁ i₂).emits (h ++ [e]) = [] := hnp
          rw [this]
          exact hag
        · have : (lastIsValue (h ++ [e]) && !D.isClosed s && (q₁.hasNext && q₂.hasNext)) = false := by
            rw [hcl]
            cases h1 : lastIsValue (h ++ [e]) <;> cases h2 : q₁.hasNext <;> cases h3 : q₂.hasNext <;> simp_all
          simp only [this, Bool.false_eq_true, if_false]
          rfl
    have hplen0 : (pairs h).length = min (valsOf (left h)).length (valsOf (right h)).length := by
      simp [pairs]
    cases e with
    | o1 n =>
      have hg := hc.1; rw [left_snoc1] at hg
      obtain ⟨q', h1, h2⟩ := hr.1.push (grammar_prefix hg).2 (by
        rintro v rfl
        simp only [left_snoc1, right_snoc1, valsOf_snoc, List.length_append, List.length_singleton] at hl1 hl2
        omega) (by omega)
      rcases h2 with ⟨er, rfl, h3⟩ | ⟨h3, h4⟩
      · have h4 : anyError i₁ i₂ (h ++ [.o1 (.error er)]) = some (i₁ er) := by
          simp [anyError, left_snoc1, errorOf_snoc, hr.1.noErr]
        obtain ⟨v, er', ss, oo⟩ := q'
        cases h3
        refine ⟨_, _, by simp only [zipCombiner, h1, Option.map_some]; rfl, ?_, ?_⟩
        · simp [zipActualRule, h4]
        · left
          have : newPairs (h ++ [.o1 (.error er)]) = [] := by
            rw [newPairs, List.dropLast_concat, List.drop_eq_nil_iff, pairs, left_snoc1, right_snoc1,
              valsOf_snoc, List.append_nil, ← pairs]
            exact Nat.le_refl _
          simp [zipActualRule, h4, this, Sub.run, Sub.push]
      · have hlv : lastIsValue (h ++ [.o1 n]) = n.isNext := by
          cases n <;> simp [lastIsValue, SubscriberNotification.isNext]
        have := core q' st.2 (by
            simp only [anyError, left_snoc1, right_snoc1, h3, hr.2.noErr]; rfl)
          (by rw [left_snoc1]; exact h4) (by rw [right_snoc1]; exact hr.2) (by
            cases n with
            | next v => right; simp [lastIsValue, left_snoc1, right_snoc1, valsOf_snoc]; omega
            | _ => left; simp [lastIsValue, pairs, left_snoc1, right_snoc1, valsOf_snoc])
        obtain ⟨st', s', k1, k2, k3⟩ := this
        refine ⟨st', s', ?_, fun _ => k2, k3⟩
        rw [hlv] at k1
        have e1 := h4.rep.takeError
        have e2 := hr.2.rep.takeError
        simp only [zipCombiner, h1, Option.map_some, Option.bind_eq_bind, Option.bind_some, e1, e2]
        exact k1
    | o2 n =>
      have hg := hc.2; rw [right_snoc2] at hg
      obtain ⟨q', h1, h2⟩ := hr.2.push (grammar_prefix hg).2 (by
        rintro v rfl
        simp only [left_snoc2, right_snoc2, valsOf_snoc, List.length_append, List.length_singleton] at hl1 hl2
        omega) (by omega)
      have e1 := hr.1.rep.takeError
      rcases h2 with ⟨er, rfl, h3⟩ | ⟨h3, h4⟩
      · have h4 : anyError i₁ i₂ (h ++ [.o2 (.error er)]) = some (i₂ er) := by
          simp [anyError, left_snoc2, right_snoc2, errorOf_snoc, hr.1.noErr, hr.2.noErr]
        obtain ⟨v, er', ss, oo⟩ := q'
        cases h3
        refine ⟨(st.1, ⟨v, none, ss, oo⟩), D.error s (i₂ er), ?_, ?_, ?_⟩
        · simp only [zipCombiner, h1, Option.map_some, Option.bind_eq_bind, Option.bind_some, e1]
          rfl
        · simp [zipActualRule, h4]
        · left
          have : newPairs (h ++ [.o2 (.error er)]) = [] := by
            rw [newPairs, List.dropLast_concat, List.drop_eq_nil_iff, pairs, left_snoc2, right_snoc2,
              valsOf_snoc, List.append_nil, ← pairs]
            exact Nat.le_refl _
          simp [zipActualRule, h4, this, Sub.run, Sub.push]
      · have hlv : lastIsValue (h ++ [.o2 n]) = n.isNext := by
          cases n <;> simp [lastIsValue, SubscriberNotification.isNext]
        have := core st.1 q' (by
            simp only [anyError, left_snoc2, right_snoc2, h3, hr.1.noErr]; rfl)
          (by rw [left_snoc2]; exact hr.1) (by rw [right_snoc2]; exact h4) (by
            cases n with
            | next v => right; simp [lastIsValue, left_snoc2, right_snoc2, valsOf_snoc]; omega
            | _ => left; simp [lastIsValue, pairs, left_snoc2, right_snoc2, valsOf_snoc])
        obtain ⟨st', s', k1, k2, k3⟩ := this
        refine ⟨st', s', ?_, fun _ => k2, k3⟩
        rw [hlv] at k1
        have e2 := h4.rep.takeError
        simp only [zipCombiner, h1, Option.map_some, Option.bind_eq_bind, Option.bind_some, e1, e2]
        exact k1

end Rx
