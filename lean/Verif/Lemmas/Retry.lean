import Verif.Spec.Retry
import Verif.Lemmas.Recovery

/-!
# retry
-/

namespace Rx.Retry
open Rx.HigherOrder (Closes)
open Rx.Catch (feed feed_open feed_closed feed_append)

variable {S I E : Type} {D : Sub S I E} {max : Nat} {src : Source I E}

/-- No attempt is going on. -/
def idle (d : S) (c : Option E) (ad : Bool) (b : List Nat) (f : Nat → Nat) (k : Nat) (l : List (Log I E)) : State S I E :=
  { dest := d, caught := c, added := ad, busy := b, retries := f, count := k, log := l }

/-- Attempt `k` is going on. -/
def going (d : S) (ad : Bool) (b : List Nat) (f : Nat → Nat) (k : Nat) (l : List (Log I E)) : State S I E :=
  { dest := d, last := some k, added := ad, busy := b, retries := f, opened := [k], count := k + 1, log := l }

/-- It is over. -/
structure Over (D : Sub S I E) (d : S) (b : List Nat) (x : State S I E) : Prop where
  dest : x.dest = d
  closed : D.isClosed x.dest = true
  opened : x.opened = []
  busy : x.busy = b
  caught : x.caught = none
  last : x.last = none

theorem during_over {d : S} {b : List Nat} {x : State S I E} (h : Over D d b x) (k : Nat) :
    ∀ ns : List (SubscriberNotification I E), ns.foldl (during D k) x = x
  | [] => rfl
  | n :: ns => by
    rw [List.foldl_cons, show during D k x n = x by simp [during, h.opened]]
    exact during_over h k ns

/-- While being subscribed. -/
def starting (d : S) (ad : Bool) (b : List Nat) (f : Nat → Nat) (k : Nat) (l : List (Log I E)) : State S I E :=
  { dest := d, stolen := true, added := ad, busy := k :: b, retries := f, opened := [k], count := k + 1, log := l }

theorem during_run (hD : Closes D) (ad : Bool) (b : List Nat) (f : Nat → Nat) (k : Nat) :
    ∀ (ns : List (SubscriberNotification I E)) {d : S} (_ : D.isClosed d = false) (l : List (Log I E)),
    let y := ns.foldl (during D k) (starting d ad b f k l)
    match outcome ns with
    | (vs, none) =>
      (D.isClosed (feed D d (vs.map .next)) = true ∧ Over D (feed D d (vs.map .next)) (k :: b) y ∧ y.count = k + 1) ∨
      (D.isClosed (feed D d (vs.map .next)) = false ∧ ∃ l', y = starting (feed D d (vs.map .next)) ad b f k l')
    | (vs, some (.error e)) =>
      (D.isClosed (feed D d (vs.map .next)) = true ∧ Over D (feed D d (vs.map .next)) (k :: b) y ∧ y.count = k + 1) ∨
      (D.isClosed (feed D d (vs.map .next)) = false ∧
        ∃ l', y = { idle (feed D d (vs.map .next)) (some e) ad (k :: b) f (k + 1) l' with stolen := true })
    | (vs, some t) => D.isClosed (feed D d (vs.map .next ++ [t])) = true ∧
        Over D (feed D d (vs.map .next ++ [t])) (k :: b) y ∧ y.count = k + 1
  | [], d, hd, l => .inr ⟨hd, l, rfl⟩
  | .next v :: ns, d, hd, l => by
    cases hv : D.isClosed (D.push d (.next v))
    · have h := during_run hD ad b f k ns hv (l ++ [.out (.next v)])
      have e : during D k (starting d ad b f k l) (.next v) = starting (D.push d (.next v)) ad b f k (l ++ [.out (.next v)]) := by
        simp [during, starting, give, hd, hv]
      simp only [List.foldl_cons, e, outcome]
      revert h
      rcases outcome ns with ⟨vs, _ | t⟩
      · intro h
        simpa only [List.map_cons, feed_open hd] using h
      · cases t <;> intro h <;> simpa only [List.map_cons, List.cons_append, feed_open hd] using h
    · have ho : Over D (D.push d (.next v)) (k :: b) (during D k (starting d ad b f k l) (.next v)) ∧
          (during D k (starting d ad b f k l) (.next v)).count = k + 1 := by
        cases ad <;> refine ⟨⟨?_, ?_, ?_, ?_, ?_, ?_⟩, ?_⟩ <;>
          simp [during, starting, give, hd, hv, unsubscribe, finish, outerUnsubscribe, ended]
      simp only [List.foldl_cons, outcome, during_over ho.1]
      rcases outcome ns with ⟨vs, _ | t⟩
      · simp only [List.map_cons, feed_open hd, feed_closed hv]
        exact .inl ⟨hv, ho⟩
      · cases t <;> simp only [List.map_cons, List.cons_append, feed_open hd, feed_closed hv]
        · exact ⟨hv, ho⟩
        · exact .inl ⟨hv, ho⟩
        · exact ⟨hv, ho⟩
        · exact ⟨hv, ho⟩
  | .error e :: ns, d, hd, l => by
    simp only [List.foldl_cons, outcome]
    refine .inr ⟨hd, l ++ [.done k], ?_⟩
    have e : during D k (starting d ad b f k l) (.error e) =
        { idle d (some e) ad (k :: b) f (k + 1) (l ++ [.done k]) with stolen := true } := by
      simp [during, starting, ended, idle]
    rw [e]
    clear e
    induction ns with
    | nil => rfl
    | cons n ns ih => rw [List.foldl_cons]; simpa [during, idle] using ih
  | .complete :: ns, d, hd, l => by
    have hv : D.isClosed (D.push d .complete) = true := hD d _ rfl
    have ho : Over D (D.push d .complete) (k :: b) (during D k (starting d ad b f k l) .complete) ∧
        (during D k (starting d ad b f k l) .complete).count = k + 1 := by
      cases ad <;> refine ⟨⟨?_, ?_, ?_, ?_, ?_, ?_⟩, ?_⟩ <;>
        simp [during, starting, give, hd, hv, finish, outerUnsubscribe, ended]
    simp only [List.foldl_cons, outcome, during_over ho.1, List.map_nil, List.nil_append, feed_open hd, feed_closed hv]
    exact ⟨hv, ho⟩
  | .unsubscribe :: ns, d, hd, l => by
    have hv : D.isClosed (D.push d .unsubscribe) = true := hD d _ rfl
    have ho : Over D (D.push d .unsubscribe) (k :: b) (during D k (starting d ad b f k l) .unsubscribe) ∧
        (during D k (starting d ad b f k l) .unsubscribe).count = k + 1 := by
      cases ad <;> refine ⟨⟨?_, ?_, ?_, ?_, ?_, ?_⟩, ?_⟩ <;>
        simp [during, starting, give, hd, hv, finish, outerUnsubscribe, ended, unsubscribe]
    simp only [List.foldl_cons, outcome, during_over ho.1, List.map_nil, List.nil_append, feed_open hd, feed_closed hv]
    exact ⟨hv, ho⟩

/-- The source is subscribed once more. -/
theorem attempt_run (hD : Closes D) (ad : Bool) (b : List Nat) (f : Nat → Nat) (k r : Nat) {d : S}
    (hd : D.isClosed d = false) (l : List (Log I E)) (st : Bool) (y : State S I E)
    (hy : attempt D src r { idle d none ad b f k l with stolen := st } = y) :
    match outcome (src k) with
    | (vs, none) =>
      (D.isClosed (feed D d (vs.map .next)) = true ∧ Over D (feed D d (vs.map .next)) b y ∧ y.count = k + 1) ∨
      (D.isClosed (feed D d (vs.map .next)) = false ∧
        ∃ f' l', f' k = r ∧ y = going (feed D d (vs.map .next)) ad b f' k l')
    | (vs, some (.error e)) =>
      (D.isClosed (feed D d (vs.map .next)) = true ∧ Over D (feed D d (vs.map .next)) b y ∧ y.count = k + 1) ∨
      (D.isClosed (feed D d (vs.map .next)) = false ∧
        ∃ f' l', y = idle (feed D d (vs.map .next)) (some e) ad b f' (k + 1) l')
    | (vs, some t) => D.isClosed (feed D d (vs.map .next ++ [t])) = true ∧
        Over D (feed D d (vs.map .next ++ [t])) b y ∧ y.count = k + 1 := by
  have h := during_run hD ad b (fun b => if b = k then r else f b) k (src k) hd (l ++ [.sub k])
  have hy' : y = (let z := (src k).foldl (during D k) (starting d ad b (fun b => if b = k then r else f b) k (l ++ [.sub k]))
      let z := { z with stolen := false, busy := b }
      if k ∈ z.opened then { z with last := some k } else z) := hy.symm
  have hov : ∀ {z : State S I E} {d'}, Over D d' (k :: b) z → z.count = k + 1 →
      Over D d' b (let z := { z with stolen := false, busy := b }; if k ∈ z.opened then { z with last := some k } else z) ∧
      (let z := { z with stolen := false, busy := b }; if k ∈ z.opened then { z with last := some k } else z).count = k + 1 := by
    intro z d' h hc
    have ho : ¬ k ∈ ({ z with stolen := false, busy := b } : State S I E).opened := by
      intro hk
      have hk : k ∈ z.opened := hk
      rw [h.opened] at hk
      cases hk
    simp only
    rw [if_neg ho]
    exact ⟨⟨h.dest, h.closed, h.opened, rfl, h.caught, h.last⟩, hc⟩
  rw [hy']
  clear hy' hy y
  revert h
  rcases outcome (src k) with ⟨vs, _ | t⟩
  · rintro (⟨h1, h2, h3⟩ | ⟨h1, l', h2⟩)
    · exact .inl ⟨h1, hov h2 h3⟩
    · refine .inr ⟨h1, (fun b => if b = k then r else f b), l', by simp, ?_⟩
      rw [h2]
      simp [starting, going]
  · cases t with
    | error e =>
      rintro (⟨h1, h2, h3⟩ | ⟨h1, l', h2⟩)
      · exact .inl ⟨h1, hov h2 h3⟩
      · refine .inr ⟨h1, (fun b => if b = k then r else f b), l', ?_⟩
        rw [h2]
        simp [idle]
    | next v => exact fun ⟨h1, h2, h3⟩ => ⟨h1, hov h2 h3⟩
    | complete => exact fun ⟨h1, h2, h3⟩ => ⟨h1, hov h2 h3⟩
    | unsubscribe => exact fun ⟨h1, h2, h3⟩ => ⟨h1, hov h2 h3⟩

theorem over_outer {d : S} {b : List Nat} {x : State S I E} (h : Over D d b x) :
    Over D d b (outerUnsubscribe D x) ∧ (outerUnsubscribe D x).count = x.count := by
  unfold outerUnsubscribe
  split
  · exact ⟨h, rfl⟩
  · have hl := h.last
    dsimp only
    split
    · rename_i a ha
      rw [hl] at ha
      cases ha
    · exact ⟨⟨h.dest, h.closed, h.opened, h.busy, h.caught, h.last⟩, rfl⟩

theorem over_give {d : S} {b : List Nat} {x : State S I E} (h : Over D d b x) (n : SubscriberNotification I E) :
    give D n x = x := by
  simp [give, h.closed]

theorem over_add {d : S} {b : List Nat} {x : State S I E} (h : Over D d b x) :
    Over D d b (addLast D x) ∧ (addLast D x).count = x.count := by
  unfold addLast
  split
  · simp only [h.last]
    exact ⟨h, trivial⟩
  · exact ⟨⟨h.dest, h.closed, h.opened, h.busy, h.caught, h.last⟩, rfl⟩

theorem over_finish {d : S} {b : List Nat} {x : State S I E} (h : Over D d b x) (n : Option (SubscriberNotification I E)) :
    Over D d b (finish D n x) ∧ (finish D n x).count = x.count := by
  unfold finish
  cases n with
  | none => simp only [over_give (over_outer h).1]; exact over_outer h
  | some n => simp only [over_give h, over_give (over_outer h).1]; exact over_outer h

/-- The three ways an attempt can go. -/
theorem attempt_cases (hD : Closes D) (ad : Bool) (b : List Nat) (f : Nat → Nat) (k r : Nat) {d : S}
    (hd : D.isClosed d = false) (l : List (Log I E)) (st : Bool) (y : State S I E)
    (hy : attempt D src r { idle d none ad b f k l with stolen := st } = y) :
    ∃ vs, (outcome (src k) = (vs, none) ∧
      ((D.isClosed (feed D d (vs.map .next)) = true ∧ Over D (feed D d (vs.map .next)) b y ∧ y.count = k + 1) ∨
       (D.isClosed (feed D d (vs.map .next)) = false ∧
        ∃ f' l', f' k = r ∧ y = going (feed D d (vs.map .next)) ad b f' k l'))) ∨
    (∃ e, outcome (src k) = (vs, some (.error e)) ∧
      ((D.isClosed (feed D d (vs.map .next)) = true ∧ Over D (feed D d (vs.map .next)) b y ∧ y.count = k + 1) ∨
       (D.isClosed (feed D d (vs.map .next)) = false ∧
        ∃ f' l', y = idle (feed D d (vs.map .next)) (some e) ad b f' (k + 1) l'))) ∨
    (∃ t, outcome (src k) = (vs, some t) ∧ (∀ e, t ≠ .error e) ∧
      D.isClosed (feed D d (vs.map .next ++ [t])) = true ∧
        Over D (feed D d (vs.map .next ++ [t])) b y ∧ y.count = k + 1) := by
  have h := attempt_run (src := src) hD ad b f k r hd l st y hy
  clear hy
  revert h
  rcases outcome (src k) with ⟨vs, _ | t⟩
  · exact fun h => ⟨vs, .inl ⟨rfl, h⟩⟩
  · cases t with
    | error e => exact fun h => ⟨vs, .inr (.inl ⟨e, rfl, h⟩)⟩
    | next v => exact fun h => ⟨vs, .inr (.inr ⟨_, rfl, by simp, h⟩)⟩
    | complete => exact fun h => ⟨vs, .inr (.inr ⟨_, rfl, by simp, h⟩)⟩
    | unsubscribe => exact fun h => ⟨vs, .inr (.inr ⟨_, rfl, by simp, h⟩)⟩

theorem start_none {vs : List I} {k : Nat} (h : outcome (src k) = (vs, none)) (left : Nat) :
    Ideal.start src left k = ⟨vs.map .next, some k, k + 1⟩ := by
  unfold Ideal.start
  simp only [h]

theorem start_error_zero {vs : List I} {k : Nat} {e : E} (h : outcome (src k) = (vs, some (.error e))) :
    Ideal.start src 0 k = ⟨vs.map .next ++ [.error e], none, k + 1⟩ := by
  unfold Ideal.start
  simp only [h]

theorem start_error_succ {vs : List I} {k : Nat} {e : E} (h : outcome (src k) = (vs, some (.error e))) (left : Nat) :
    Ideal.start src (left + 1) k =
      { Ideal.start src left (k + 1) with out := vs.map .next ++ (Ideal.start src left (k + 1)).out } := by
  conv => lhs; unfold Ideal.start
  simp only [h]

theorem start_end {vs : List I} {k : Nat} {t : SubscriberNotification I E} (h : outcome (src k) = (vs, some t))
    (ht : ∀ e, t ≠ .error e) (left : Nat) :
    Ideal.start src left k = ⟨vs.map .next ++ [t], none, k + 1⟩ := by
  unfold Ideal.start
  simp only [h]

theorem le_made (src : Source I E) : ∀ left k, k + 1 ≤ (Ideal.start src left k).made ∧
    (Ideal.start src left k).made ≤ k + left + 1
  | left, k => by
    rcases h : outcome (src k) with ⟨vs, _ | t⟩
    · rw [start_none h]; exact ⟨Nat.le_refl _, by simp⟩
    · by_cases ht : ∃ e, t = .error e
      · obtain ⟨e, rfl⟩ := ht
        cases left with
        | zero => rw [start_error_zero h]; exact ⟨Nat.le_refl _, by simp⟩
        | succ left =>
          rw [start_error_succ h]
          have := le_made src left (k + 1)
          simp only
          omega
      · rw [start_end h (fun e he => ht ⟨e, he⟩)]; exact ⟨Nat.le_refl _, by simp⟩

theorem subscribeLoop_run (hD : Closes D) : ∀ (left k : Nat) {d : S} (_ : D.isClosed d = false) (c : Option E)
    (f : Nat → Nat) (l : List (Log I E)),
    let y := subscribeLoop D src (left + 1) k (idle d c false [] f k l)
    let r := Ideal.start src left k
    y.1 = y.2.count ∧
    ((D.isClosed (feed D d r.out) = true ∧ Over D (feed D d r.out) [] y.2 ∧ y.2.count ≤ r.made) ∨
     (∃ a f' l', r.current = some a ∧ r.made = a + 1 ∧ f' a = a ∧ D.isClosed (feed D d r.out) = false ∧
        y.2 = going (feed D d r.out) true [] f' a l') ∨
     (∃ out e f' l', r = ⟨out ++ [.error e], none, k + left + 1⟩ ∧ D.isClosed (feed D d out) = false ∧
        y.2 = idle (feed D d out) (some e) false [] f' (k + left + 1) l')) := by
  intro left
  induction left with
  | zero =>
    intro k d hd c f l
    have he : subscribeLoop D src (0 + 1) k (idle d c false [] f k l) =
        (if (attempt D src k { idle d none false [] f k l with stolen := false }).caught.isSome then
          (k + 1, cancelLast D (attempt D src k { idle d none false [] f k l with stolen := false }))
        else if D.isClosed (attempt D src k { idle d none false [] f k l with stolen := false }).dest then
          (k + 1, attempt D src k { idle d none false [] f k l with stolen := false })
        else (k + 1, addLast D (attempt D src k { idle d none false [] f k l with stolen := false }))) := rfl
    rw [he]
    clear he
    generalize hz : attempt D src k { idle d none false [] f k l with stolen := false } = z
    obtain ⟨vs, ⟨h, h' | h'⟩ | ⟨e, h, h' | h'⟩ | ⟨t, h, ht, h'⟩⟩ := attempt_cases (src := src) hD false [] f k k hd l false z hz
    · rw [start_none h]
      simp only [h'.2.1.caught, h'.2.1.closed, Option.isSome_none, Bool.false_eq_true, if_false, if_true]
      exact ⟨h'.2.2.symm, .inl ⟨h'.1, h'.2.1, Nat.le_of_eq h'.2.2⟩⟩
    · obtain ⟨h1, f', l', h2, h3⟩ := h'
      rw [start_none h, h3]
      simp only [going, Option.isSome_none, Bool.false_eq_true, if_false, h1]
      exact ⟨rfl, .inr (.inl ⟨k, f', l', by simp, by simp, h2, by simp, rfl⟩)⟩
    · rw [start_error_zero h]
      simp only [h'.2.1.caught, h'.2.1.closed, Option.isSome_none, Bool.false_eq_true, if_false, if_true, feed_append,
        feed_closed h'.1]
      exact ⟨h'.2.2.symm, .inl ⟨h'.1, h'.2.1, Nat.le_of_eq h'.2.2⟩⟩
    · obtain ⟨h1, f', l', h3⟩ := h'
      rw [start_error_zero h, h3]
      simp only [idle, Option.isSome_some, if_true]
      exact ⟨rfl, .inr (.inr ⟨vs.map .next, e, f', l', rfl, h1, rfl⟩)⟩
    · rw [start_end h ht]
      simp only [h'.2.1.caught, h'.2.1.closed, Option.isSome_none, Bool.false_eq_true, if_false, if_true]
      exact ⟨h'.2.2.symm, .inl ⟨h'.1, h'.2.1, Nat.le_of_eq h'.2.2⟩⟩
  | succ left ih =>
    intro k d hd c f l
    have he : subscribeLoop D src (left + 1 + 1) k (idle d c false [] f k l) =
        (if (attempt D src k { idle d none false [] f k l with stolen := false }).caught.isSome then
          subscribeLoop D src (left + 1) (k + 1) (cancelLast D (attempt D src k { idle d none false [] f k l with stolen := false }))
        else if D.isClosed (attempt D src k { idle d none false [] f k l with stolen := false }).dest then
          (k + 1, attempt D src k { idle d none false [] f k l with stolen := false })
        else (k + 1, addLast D (attempt D src k { idle d none false [] f k l with stolen := false }))) := rfl
    rw [he]
    clear he
    generalize hz : attempt D src k { idle d none false [] f k l with stolen := false } = z
    obtain ⟨vs, ⟨h, h' | h'⟩ | ⟨e, h, h' | h'⟩ | ⟨t, h, ht, h'⟩⟩ := attempt_cases (src := src) hD false [] f k k hd l false z hz
    · rw [start_none h]
      simp only [h'.2.1.caught, h'.2.1.closed, Option.isSome_none, Bool.false_eq_true, if_false, if_true]
      exact ⟨h'.2.2.symm, .inl ⟨h'.1, h'.2.1, Nat.le_of_eq h'.2.2⟩⟩
    · obtain ⟨h1, f', l', h2, h3⟩ := h'
      rw [start_none h, h3]
      simp only [going, Option.isSome_none, Bool.false_eq_true, if_false, h1]
      exact ⟨rfl, .inr (.inl ⟨k, f', l', by simp, by simp, h2, by simp, rfl⟩)⟩
    · rw [start_error_succ h]
      simp only [h'.2.1.caught, h'.2.1.closed, Option.isSome_none, Bool.false_eq_true, if_false, if_true, feed_append,
        feed_closed h'.1]
      exact ⟨h'.2.2.symm, .inl ⟨h'.1, h'.2.1, by have := le_made src left (k + 1); omega⟩⟩
    · obtain ⟨h1, f', l', h3⟩ := h'
      rw [start_error_succ h, h3]
      have h4 := ih (k + 1) h1 (some e) f' l'
      simp only at h4
      simp only [idle, Option.isSome_some, if_true, feed_append]
      refine ⟨h4.1, ?_⟩
      rcases h4.2 with h4 | h4 | ⟨out, e', f'', l'', h5, h6, h7⟩
      · exact .inl h4
      · exact .inr (.inl h4)
      · refine .inr (.inr ⟨vs.map .next ++ out, e', f'', l'', ?_, ?_, ?_⟩)
        · rw [h5]
          simp only [List.append_assoc, Ideal.mk.injEq, true_and]
          omega
        · rw [feed_append]; exact h6
        · rw [feed_append, show k + (left + 1) + 1 = k + 1 + left + 1 by omega]
          exact h7
    · rw [start_end h ht]
      simp only [h'.2.1.caught, h'.2.1.closed, Option.isSome_none, Bool.false_eq_true, if_false, if_true]
      exact ⟨h'.2.2.symm, .inl ⟨h'.1, h'.2.1, Nat.le_of_eq h'.2.2⟩⟩

theorem errorLoop_run (hD : Closes D) (b : List Nat) : ∀ (left r : Nat) {d : S} (_ : D.isClosed d = false) (c : Option E)
    (f : Nat → Nat) (l : List (Log I E)),
    let y := errorLoop D src (left + 1) r (idle d c true b f (r + 1) l)
    let i := Ideal.start src left (r + 1)
    y.1 + 1 = y.2.count ∧
    ((D.isClosed (feed D d i.out) = true ∧ Over D (feed D d i.out) b y.2 ∧ y.2.count ≤ i.made) ∨
     (∃ a f' l', i.current = some a ∧ i.made = a + 1 ∧ f' a = a ∧ D.isClosed (feed D d i.out) = false ∧
        y.2 = going (feed D d i.out) true b f' a l') ∨
     (∃ out e f' l', i = ⟨out ++ [.error e], none, r + 1 + left + 1⟩ ∧ D.isClosed (feed D d out) = false ∧
        y.2 = idle (feed D d out) (some e) true b f' (r + 1 + left + 1) l')) := by
  intro left
  induction left with
  | zero =>
    intro r d hd c f l
    have he : errorLoop D src (0 + 1) r (idle d c true b f (r + 1) l) =
        (if (attempt D src (r + 1) { idle d none true b f (r + 1) l with stolen := true }).caught.isSome then
          (r + 1, attempt D src (r + 1) { idle d none true b f (r + 1) l with stolen := true })
        else (r + 1, addLast D (attempt D src (r + 1) { idle d none true b f (r + 1) l with stolen := true }))) := rfl
    rw [he]
    clear he
    generalize hz : attempt D src (r + 1) { idle d none true b f (r + 1) l with stolen := true } = z
    obtain ⟨vs, ⟨h, h' | h'⟩ | ⟨e, h, h' | h'⟩ | ⟨t, h, ht, h'⟩⟩ := attempt_cases (src := src) hD true b f (r + 1) (r + 1) hd l true z hz
    · rw [start_none h]
      simp only [h'.2.1.caught, Option.isSome_none, Bool.false_eq_true, if_false]
      have h'' := over_add h'.2.1
      exact ⟨by rw [h''.2]; exact h'.2.2.symm, .inl ⟨h'.1, h''.1, by rw [h''.2]; exact Nat.le_of_eq h'.2.2⟩⟩
    · obtain ⟨h1, f', l', h2, h3⟩ := h'
      rw [start_none h, h3]
      simp only [going, Option.isSome_none, Bool.false_eq_true, if_false, h1]
      exact ⟨rfl, .inr (.inl ⟨r + 1, f', l', by simp, by simp, h2, by simp, rfl⟩)⟩
    · rw [start_error_zero h]
      simp only [h'.2.1.caught, Option.isSome_none, Bool.false_eq_true, if_false, feed_append, feed_closed h'.1]
      have h'' := over_add h'.2.1
      exact ⟨by rw [h''.2]; exact h'.2.2.symm, .inl ⟨h'.1, h''.1, by rw [h''.2]; exact Nat.le_of_eq h'.2.2⟩⟩
    · obtain ⟨h1, f', l', h3⟩ := h'
      rw [start_error_zero h, h3]
      simp only [idle, Option.isSome_some, if_true]
      exact ⟨by simp, .inr (.inr ⟨vs.map .next, e, f', l', rfl, h1, rfl⟩)⟩
    · rw [start_end h ht]
      simp only [h'.2.1.caught, Option.isSome_none, Bool.false_eq_true, if_false]
      have h'' := over_add h'.2.1
      exact ⟨by rw [h''.2]; exact h'.2.2.symm, .inl ⟨h'.1, h''.1, by rw [h''.2]; exact Nat.le_of_eq h'.2.2⟩⟩
  | succ left ih =>
    intro r d hd c f l
    have he : errorLoop D src (left + 1 + 1) r (idle d c true b f (r + 1) l) =
        (if (attempt D src (r + 1) { idle d none true b f (r + 1) l with stolen := true }).caught.isSome then
          errorLoop D src (left + 1) (r + 1) (attempt D src (r + 1) { idle d none true b f (r + 1) l with stolen := true })
        else (r + 1, addLast D (attempt D src (r + 1) { idle d none true b f (r + 1) l with stolen := true }))) := rfl
    rw [he]
    clear he
    generalize hz : attempt D src (r + 1) { idle d none true b f (r + 1) l with stolen := true } = z
    obtain ⟨vs, ⟨h, h' | h'⟩ | ⟨e, h, h' | h'⟩ | ⟨t, h, ht, h'⟩⟩ := attempt_cases (src := src) hD true b f (r + 1) (r + 1) hd l true z hz
    · rw [start_none h]
      simp only [h'.2.1.caught, Option.isSome_none, Bool.false_eq_true, if_false]
      have h'' := over_add h'.2.1
      exact ⟨by rw [h''.2]; exact h'.2.2.symm, .inl ⟨h'.1, h''.1, by rw [h''.2]; exact Nat.le_of_eq h'.2.2⟩⟩
    · obtain ⟨h1, f', l', h2, h3⟩ := h'
      rw [start_none h, h3]
      simp only [going, Option.isSome_none, Bool.false_eq_true, if_false, h1]
      exact ⟨rfl, .inr (.inl ⟨r + 1, f', l', by simp, by simp, h2, by simp, rfl⟩)⟩
    · rw [start_error_succ h]
      simp only [h'.2.1.caught, Option.isSome_none, Bool.false_eq_true, if_false, feed_append, feed_closed h'.1]
      have h'' := over_add h'.2.1
      exact ⟨by rw [h''.2]; exact h'.2.2.symm, .inl ⟨h'.1, h''.1, by rw [h''.2]; have := le_made src left (r + 1 + 1); have := h'.2.2; omega⟩⟩
    · obtain ⟨h1, f', l', h3⟩ := h'
      rw [start_error_succ h, h3]
      have h4 := ih (r + 1) h1 (some e) f' l'
      simp only at h4
      simp only [idle, Option.isSome_some, if_true, feed_append]
      refine ⟨h4.1, ?_⟩
      rcases h4.2 with h4 | h4 | ⟨out, e', f'', l'', h5, h6, h7⟩
      · exact .inl h4
      · exact .inr (.inl h4)
      · refine .inr (.inr ⟨vs.map .next ++ out, e', f'', l'', ?_, ?_, ?_⟩)
        · rw [h5]
          simp only [List.append_assoc, Ideal.mk.injEq, true_and]
          omega
        · rw [feed_append]; exact h6
        · rw [feed_append, show r + 1 + (left + 1) + 1 = r + 1 + 1 + left + 1 by omega]
          exact h7
    · rw [start_end h ht]
      simp only [h'.2.1.caught, Option.isSome_none, Bool.false_eq_true, if_false]
      have h'' := over_add h'.2.1
      exact ⟨by rw [h''.2]; exact h'.2.2.symm, .inl ⟨h'.1, h''.1, by rw [h''.2]; exact Nat.le_of_eq h'.2.2⟩⟩

/-- The ideal has been exhausted by attempts that failed at once. -/
def Exhausted (i : Ideal I E) (n : Nat) : Prop := ∃ out e, i = ⟨out ++ [.error e], none, n⟩

theorem start_more (src : Source I E) : ∀ left k,
    Ideal.start src (left + 1) k = Ideal.start src left k ∨ Exhausted (Ideal.start src left k) (k + left + 1)
  | left, k => by
    rcases h : outcome (src k) with ⟨vs, _ | t⟩
    · rw [start_none h, start_none h]; exact .inl rfl
    · by_cases ht : ∃ e, t = .error e
      · obtain ⟨e, rfl⟩ := ht
        cases left with
        | zero => rw [start_error_zero h]; exact .inr ⟨_, e, rfl⟩
        | succ left =>
          rcases start_more src left (k + 1) with h' | ⟨out, e', h'⟩
          · exact .inl (by rw [start_error_succ h, start_error_succ h, h'])
          · refine .inr ⟨vs.map .next ++ out, e', ?_⟩
            rw [start_error_succ h, h']
            simp only [List.append_assoc, Ideal.mk.injEq, true_and]
            omega
      · exact .inl (by rw [start_end h (fun e he => ht ⟨e, he⟩), start_end h (fun e he => ht ⟨e, he⟩)])

/-- The code follows the ideal, making at most `c` more attempts. -/
def Rel (D : Sub S I E) (c : Nat) (s : S) (x : State S I E) (i : Ideal I E) : Prop :=
  (D.isClosed x.dest = true ∧ x.dest = feed D s i.out ∧ x.opened = [] ∧ x.count ≤ i.made + c) ∨
  (∃ a f l, i.current = some a ∧ i.made = a + 1 ∧ f a = a ∧ D.isClosed (feed D s i.out) = false ∧
    x = going (feed D s i.out) true [] f a l)

theorem Over.rel {s : S} {b : List Nat} {x : State S I E} {i : Ideal I E} {c : Nat} (h : Over D (feed D s i.out) b x)
    (hc : x.count ≤ i.made + c) : Rel D c s x i :=
  .inl ⟨h.closed, h.dest, h.opened, hc⟩

theorem subscribe_rel (hD : Closes D) {s : S} (hs : D.isClosed s = false)
    (hm : (Ideal.start src max 0).current ≠ some max) (c : Nat) :
    Rel D c s (subscribe D max src s) (Ideal.start src max 0) := by
  have h := subscribeLoop_run (src := src) hD max 0 hs none (fun _ => 0) []
  dsimp only at h
  change _ = (subscribeLoop D src (max + 1) 0 { dest := s }).2.count ∧ _ at h
  unfold subscribe
  have hidle : (idle s none false [] (fun _ => 0) 0 [] : State S I E) = { dest := s } := rfl
  rw [hidle] at h
  generalize subscribeLoop D src (max + 1) 0 { dest := s } = y at h ⊢
  obtain ⟨i, x⟩ := y
  obtain ⟨h1, h2⟩ := h
  simp only at h1 h2 ⊢
  rcases h2 with ⟨h2, h3, h4⟩ | ⟨a, f, l, h2, h3, h4, h5, h6⟩ | ⟨out, e, f, l, h2, h3, h4⟩
  · split
    · simp only [h3.caught, over_give h3]
      exact (over_outer h3).1.rel (by rw [(over_outer h3).2]; omega)
    · exact h3.rel (by omega)
  · have : a ≠ max := fun e => hm (e ▸ h2)
    have := (le_made src max 0).2
    have hc : x.count = a + 1 := by rw [h6]; rfl
    rw [if_neg (by omega)]
    exact .inr ⟨a, f, l, h2, h3, h4, h5, h6⟩
  · have hc : x.count = 0 + max + 1 := by rw [h4]; rfl
    rw [if_pos (by omega), h2, h4]
    have hv : D.isClosed (D.push (feed D s out) (.error e)) = true := hD _ _ rfl
    left
    simp only [idle, give, h3, hv, outerUnsubscribe, feed_append, feed_open h3, feed_closed hv, Bool.false_eq_true,
      if_false, if_true]
    exact ⟨trivial, trivial, trivial, by omega⟩

theorem later_closed {x : State S I E} (h : x.opened = []) (a : Nat) (n : SubscriberNotification I E) :
    later D max src a n x = x := by
  simp [later, h]

theorem outer_closed {x : State S I E} (h : x.opened = []) :
    (outerUnsubscribe D x).dest = x.dest ∧ (outerUnsubscribe D x).opened = [] ∧ (outerUnsubscribe D x).count = x.count := by
  unfold outerUnsubscribe
  split
  · exact ⟨rfl, h, rfl⟩
  · dsimp only
    split
    · split
      · simp [cancelShut, h]
      · exact ⟨rfl, h, rfl⟩
    · exact ⟨rfl, h, rfl⟩

/-- The attempt going on is the last one made. -/
def Ideal.Ok (max : Nat) (i : Ideal I E) : Prop := (∀ a, i.current = some a → i.made = a + 1) ∧ i.made ≤ max + 1

theorem start_ok (src : Source I E) : ∀ left k a, (Ideal.start src left k).current = some a →
    (Ideal.start src left k).made = a + 1
  | left, k, a => by
    rcases h : outcome (src k) with ⟨vs, _ | t⟩
    · rw [start_none h]; intro ha; cases ha; rfl
    · by_cases ht : ∃ e, t = .error e
      · obtain ⟨e, rfl⟩ := ht
        cases left with
        | zero => rw [start_error_zero h]; intro ha; cases ha
        | succ left => rw [start_error_succ h]; exact start_ok src left (k + 1) a
      · rw [start_end h (fun e he => ht ⟨e, he⟩)]; intro ha; cases ha

theorem ideal_step {i : Ideal I E} (h : i.Ok max) (e : Event I E) :
    (i.step max src e).Ok max ∧ i.made ≤ (i.step max src e).made ∧ ∃ more, (i.step max src e).out = i.out ++ more := by
  cases e with
  | unsubscribe =>
    simp only [Ideal.step]
    split
    · exact ⟨⟨(fun a ha => by cases ha), h.2⟩, Nat.le_refl _, _, rfl⟩
    · exact ⟨h, Nat.le_refl _, [], by simp⟩
  | source a n =>
    simp only [Ideal.step]
    split
    · rename_i ha
      have hm := h.1 a ha
      cases n with
      | next v => exact ⟨h, Nat.le_refl _, _, rfl⟩
      | complete => exact ⟨⟨(fun a ha => by cases ha), h.2⟩, Nat.le_refl _, _, rfl⟩
      | unsubscribe => exact ⟨⟨(fun a ha => by cases ha), h.2⟩, Nat.le_refl _, _, rfl⟩
      | error e =>
        simp only
        split
        · have := le_made src (max - (a + 1)) (a + 1)
          refine ⟨⟨fun b hb => start_ok src _ _ b hb, ?_⟩, ?_, _, rfl⟩ <;> simp only <;> omega
        · exact ⟨⟨(fun a ha => by cases ha), h.2⟩, Nat.le_refl _, _, rfl⟩
    · exact ⟨h, Nat.le_refl _, [], by simp⟩

theorem errorLoop_last (a n : Nat) (d : S) (f : Nat → Nat) (k : Nat) (l : List (Log I E)) :
    errorLoop D src (n + 1) a { idle d none true [a] f k l with last := some a } =
      errorLoop D src (n + 1) a (idle d none true [a] f k l) := by
  simp [errorLoop, cancelLast, cancel, idle]
  rfl

theorem error_rel (hD : Closes D) {s : S} {i : Ideal I E} {c a : Nat} {f : Nat → Nat} {l : List (Log I E)} {u : E}
    (ha : i.current = some a) (hm : i.made = a + 1) (hf : f a = a) (hd : D.isClosed (feed D s i.out) = false)
    (hi : i.Ok max)
    (h1 : a < max → ¬ Exhausted (Ideal.start src (max - (a + 1)) (a + 1)) (max + 1))
    (h2 : a = max → 1 ≤ c ∧ outcome (src (max + 1)) = ([], none)) :
    Rel D c s (step D max src (going (feed D s i.out) true [] f a l) (.source a (.error u)))
      (i.step max src (.source a (.error u))) := by
  have hle : a ≤ max := by have := hi.2; omega
  have hx : step D max src (going (feed D s i.out) true [] f a l) (.source a (.error u)) =
      (let y := errorLoop D src (max - a + 1) a (idle (feed D s i.out) none true [a] f (a + 1) (l ++ [.done a]))
       { (if y.1 > max then finish D (some (.error u)) y.2 else y.2) with busy := [] }) := by
    rw [← errorLoop_last]
    simp [step, later, going, ended, error, hf, idle, show max + 1 - a = max - a + 1 by omega]
  rw [hx]
  clear hx
  have h := errorLoop_run (src := src) hD [a] (max - a) a hd none f (l ++ [.done a])
  generalize errorLoop D src (max - a + 1) a (idle (feed D s i.out) none true [a] f (a + 1) (l ++ [.done a])) = y at h ⊢
  obtain ⟨r, x⟩ := y
  obtain ⟨g1, g2⟩ := h
  simp only at g1 g2 ⊢
  by_cases hlt : a < max
  · have hbig : Ideal.start src (max - a) (a + 1) = Ideal.start src (max - (a + 1)) (a + 1) := by
      rcases start_more src (max - (a + 1)) (a + 1) with h | h
      · rw [show max - a = max - (a + 1) + 1 by omega]; exact h
      · exact absurd h (by rw [show a + 1 + (max - (a + 1)) + 1 = max + 1 by omega]; exact h1 hlt)
    rw [hbig] at g2
    have hmade := le_made src (max - (a + 1)) (a + 1)
    simp only [Ideal.step, ha, if_true, hlt]
    rcases g2 with ⟨g2, g3, g4⟩ | ⟨b, f', l', g2, g3, g4, g5, g6⟩ | ⟨out, e, f', l', g2, g3, g4⟩
    · left
      simp only [feed_append]
      split
      · have := over_finish g3 (some (.error u))
        exact ⟨this.1.closed, this.1.dest, this.1.opened, by rw [this.2]; omega⟩
      · exact ⟨g3.closed, g3.dest, g3.opened, by omega⟩
    · right
      have hc : x.count = b + 1 := by rw [g6]; rfl
      rw [if_neg (by omega)]
      refine ⟨b, f', l', g2, g3, g4, ?_, ?_⟩
      · simp only [feed_append]; exact g5
      · simp only [feed_append, g6, going]
    · rw [g2] at hmade
      simp only at hmade
      omega
  · have : a = max := by omega
    subst this
    obtain ⟨h3, h4⟩ := h2 rfl
    simp only [Ideal.step, ha, if_true, Nat.lt_irrefl, if_false]
    rw [start_none h4] at g2
    simp only [List.map_nil, feed] at g2
    rcases g2 with ⟨g2, g3, g4⟩ | ⟨b, f', l', g2, g3, g4, g5, g6⟩ | ⟨out, e, f', l', g2, g3, g4⟩
    · rw [hd] at g2; cases g2
    · cases g2
      have hv : D.isClosed (D.push (feed D s i.out) (.error u)) = true := hD _ _ rfl
      have hc : x.count = a + 1 + 1 := by rw [g6]; rfl
      rw [if_pos (by omega), g6]
      left
      simp only [feed_append, feed_open hd, feed_closed hv]
      simp [finish, outerUnsubscribe, going, cancelShut, ended, give, hd, hv, hm]
      omega
    · simp at g2

theorem step_rel (hD : Closes D) {s : S} {x : State S I E} {i : Ideal I E} {c : Nat} (h : Rel D c s x i) (e : Event I E)
    (hi : i.Ok max)
    (h1 : ∀ a u, e = .source a (.error u) → i.current = some a → a < max →
      ¬ Exhausted (Ideal.start src (max - (a + 1)) (a + 1)) (max + 1))
    (h2 : ∀ u, e = .source max (.error u) → i.current = some max → 1 ≤ c ∧ outcome (src (max + 1)) = ([], none)) :
    Rel D c s (step D max src x e) (i.step max src e) := by
  rcases h with ⟨hc, hd, ho, hn⟩ | ⟨a, f, l, ha, hm, hf, hd, rfl⟩
  · obtain ⟨g1, g2, more, g3⟩ := ideal_step (src := src) hi e
    have : (step D max src x e).dest = x.dest ∧ (step D max src x e).opened = [] ∧ (step D max src x e).count = x.count := by
      cases e with
      | source a n => rw [step, later_closed ho]; exact ⟨rfl, ho, rfl⟩
      | unsubscribe => exact outer_closed ho
    refine .inl ⟨by rw [this.1]; exact hc, ?_, this.2.1, by rw [this.2.2]; omega⟩
    rw [this.1, g3, feed_append, ← hd, feed_closed hc]
  · cases e with
    | unsubscribe =>
      have hv : D.isClosed (D.push (feed D s i.out) .unsubscribe) = true := hD _ _ rfl
      left
      simp only [Ideal.step, ha, Option.isSome_some, if_true, feed_append, feed_open hd, feed_closed hv]
      simp [step, outerUnsubscribe, going, cancelShut, ended, give, hd, hv, hm]
    | source b n =>
      by_cases hb : a = b
      · subst hb
        cases n with
        | complete =>
          have hv : D.isClosed (D.push (feed D s i.out) .complete) = true := hD _ _ rfl
          left
          simp only [Ideal.step, ha, if_true, feed_append, feed_open hd, feed_closed hv]
          simp [step, later, finish, outerUnsubscribe, going, cancelShut, ended, give, hd, hv, hm]
        | unsubscribe =>
          have hv : D.isClosed (D.push (feed D s i.out) .unsubscribe) = true := hD _ _ rfl
          left
          simp only [Ideal.step, ha, if_true, feed_append, feed_open hd, feed_closed hv]
          simp [step, later, finish, unsubscribe, outerUnsubscribe, going, cancelShut, ended, give, hd, hv, hm]
        | next v =>
          cases hv : D.isClosed (D.push (feed D s i.out) (.next v))
          · right
            refine ⟨a, f, l ++ [.out (.next v)], ?_, ?_, hf, ?_, ?_⟩ <;>
              simp only [Ideal.step, ha, if_true, feed_append, feed_open hd]
            · exact hm
            · exact hv
            · simp [step, later, going, give, hd, hv, feed]
          · left
            simp only [Ideal.step, ha, if_true, feed_append, feed_open hd, feed_closed hv]
            simp [step, later, finish, unsubscribe, outerUnsubscribe, going, cancelShut, ended, give, hd, hv, hm]
        | error u => exact error_rel hD ha hm hf hd hi (h1 a u rfl ha) (fun e => h2 u (e ▸ rfl) (e ▸ ha))
      · right
        refine ⟨a, f, l, ?_, ?_, hf, ?_, ?_⟩ <;> simp only [Ideal.step, ha, Option.some.injEq, hb, if_false, hm, hd]
        simp [step, later, going, Ne.symm hb]

/-- The whole history. -/
theorem run_rel (hD : Closes D) {s : S} (hs : D.isClosed s = false) (c : Nat)
    (h0 : (Ideal.start src max 0).current ≠ some max) : ∀ es : List (Event I E),
    (∀ p a u, p ++ [Event.source a (.error u)] <+: es → (ideal max src p).current = some a → a < max →
      ¬ Exhausted (Ideal.start src (max - (a + 1)) (a + 1)) (max + 1)) →
    (∀ p u, p ++ [Event.source max (.error u)] <+: es → (ideal max src p).current = some max →
      1 ≤ c ∧ outcome (src (max + 1)) = ([], none)) →
    (ideal max src es).Ok max ∧ Rel D c s (run D max src s es) (ideal max src es) := by
  intro es
  induction es using Rx.snoc_induction with
  | nil =>
    intro _ _
    refine ⟨⟨start_ok src max 0, ?_⟩, subscribe_rel hD hs h0 c⟩
    have := (le_made src max 0).2
    simp only [ideal, List.foldl_nil]
    omega
  | snoc es e ih =>
    intro h1 h2
    have h := ih (fun p a u hp => h1 p a u (hp.trans (List.prefix_append _ _)))
      (fun p u hp => h2 p u (hp.trans (List.prefix_append _ _)))
    have e1 : run D max src s (es ++ [e]) = step D max src (run D max src s es) e := by
      simp [run, List.foldl_append]
    have e2 : ideal max src (es ++ [e]) = (ideal max src es).step max src e := by
      simp [ideal, List.foldl_append]
    rw [e1, e2]
    refine ⟨(ideal_step h.1 e).1, step_rel hD h.2 e h.1 (fun a u he => ?_) (fun u he => ?_)⟩
    · exact h1 es a u (by rw [he]; exact List.prefix_refl _)
    · exact h2 es u (by rw [he]; exact List.prefix_refl _)

theorem made_mono : ∀ {p es : List (Event I E)}, p <+: es → (ideal max src p).Ok max →
    (ideal max src p).made ≤ (ideal max src es).made := by
  rintro p _ ⟨q, rfl⟩ h
  rw [show ideal max src (p ++ q) = q.foldl (Ideal.step max src) (ideal max src p) by simp [ideal, List.foldl_append]]
  change _ ≤ (q.foldl (Ideal.step max src) (ideal max src p)).made
  generalize ideal max src p = i at *
  induction q generalizing i with
  | nil => exact Nat.le_refl _
  | cons e q ih =>
    have := ideal_step (src := src) h e
    exact Nat.le_trans this.2.1 (ih _ this.1)

theorem ideal_ok (max : Nat) (src : Source I E) (es : List (Event I E)) : (ideal max src es).Ok max := by
  induction es using Rx.snoc_induction with
  | nil =>
    refine ⟨start_ok src max 0, ?_⟩
    have := (le_made src max 0).2
    simp only [ideal, List.foldl_nil]
    omega
  | snoc es e ih =>
    rw [ideal, List.foldl_append]
    exact (ideal_step ih e).1

end Rx.Retry
