import Verif.Lemmas.TimedIterator
import Verif.Props.IntervalTimer
import Verif.Props.Sources

/-!
# C53: iterator and iterator_on_tick

An iterator is `f`: its items in order, up to the first `none`, if there is one.
-/

namespace Rx.Sources
variable {S O E α : Type} {D : Sub S O E} {obs : S → α} {Inv : S → Prop} {ec : Bool} {f : Nat → Option O}

/-- The values `vs` are the first items of the iterator. -/
def FirstItems (f : Nat → Option O) (vs : List O) : Prop := vs.map some = (List.range vs.length).map f

/-- What `iterator` gives to a destination: the first items, in order, each while the destination is open, until there are
no more, or the destination is closed. -/
structure GivenTo (D : Sub S O E) (f : Nat → Option O) (s : S) (vs : List O) : Prop where
  items : FirstItems f vs
  live : ∀ a v b, vs = a ++ v :: b → D.isClosed (D.run s (a.map .next)) = false
  until_end : f vs.length = none ∨ D.isClosed (D.run s (vs.map .next)) = true

theorem loop_spec {i : Nat} {s : S} {n : Nat} {t : S} (h : Loop D f i s n t) :
    ∃ vs : List O, (∀ j, (hj : j < vs.length) → f (i + j) = some vs[j]) ∧
      (∀ a v b, vs = a ++ v :: b → D.isClosed (D.run s (a.map .next)) = false) ∧
      t = D.run s (vs.map .next) ∧
      ((f (i + vs.length) = none ∧ n = i + vs.length) ∨
        ((f (i + vs.length)).isSome = true ∧ D.isClosed t = true ∧ n = i + vs.length + 1)) := by
  induction h with
  | exhausted hf =>
    exact ⟨[], (fun j hj => by simp at hj), (fun a v b h => by simp at h), rfl, .inl ⟨hf, rfl⟩⟩
  | closed hf hc =>
    exact ⟨[], (fun j hj => by simp at hj), (fun a v b h => by simp at h), rfl, .inr ⟨by simp [hf], hc, rfl⟩⟩
  | @item i s v n t hf hc _ ih =>
    obtain ⟨vs, h1, h2, h3, h4⟩ := ih
    refine ⟨v :: vs, ?_, ?_, h3, ?_⟩
    · intro j hj
      cases j with
      | zero => exact hf
      | succ j =>
        have := h1 j (by simpa using hj)
        rw [show i + 1 + j = i + (j + 1) by omega] at this
        exact this
    · intro a w b hab
      cases a with
      | nil => exact hc
      | cons x a =>
        simp only [List.cons_append, List.cons.injEq] at hab
        obtain ⟨rfl, hab⟩ := hab
        exact h2 a w b hab
    · rw [List.length_cons, show i + (vs.length + 1) = i + 1 + vs.length by omega]
      rcases h4 with h4 | ⟨h4, h5, h6⟩
      · exact .inl h4
      · exact .inr ⟨h4, h5, h6⟩

/-- C53. When subscribing `iterator` returns, the destination was given the first items of the iterator, until the end or
until it was closed, and completion if it was still open; then it is closed, and so is the subscription. At most one item
was taken from the iterator that was not given. -/
theorem C53_iterator (hD : Lawful D obs Inv ec) {s : S} (hs : Inv s) {n : Nat} {h : Handle} {t : S}
    (hi : Iterates D f s n h t) : ∃ vs, GivenTo D f s vs ∧ obs t = obs (D.run s (vs.map .next ++ [.complete])) ∧
      D.isClosed t = true ∧ h.isClosed D t = true ∧ vs.length ≤ n ∧ n ≤ vs.length + 1 := by
  obtain ⟨u, hu, ht⟩ := hi
  obtain ⟨vs, h1, h2, rfl, h4⟩ := loop_spec hu
  have hinv := hD.run_inv hs (vs.map .next)
  refine ⟨vs, ⟨?_, h2, ?_⟩, ?_⟩
  · apply List.ext_getElem
    · simp
    · intro j hj hj'
      simpa using (h1 j (by simpa using hj)).symm
  · rcases h4 with ⟨h4, _⟩ | ⟨_, h4, _⟩
    · exact .inl (by simpa using h4)
    · exact .inr h4
  have hn : vs.length ≤ n ∧ n ≤ vs.length + 1 := by
    rcases h4 with ⟨_, h4⟩ | ⟨_, _, h4⟩ <;> omega
  have key : ∀ w, Inv w → D.isClosed w = true → (h, t) = inert.run D w →
      obs t = obs w ∧ D.isClosed t = true ∧ h.isClosed D t = true := by
    intro w hw hc hh
    unfold inert at hh
    simp only [Prog.run, hc, Bool.not_true] at hh
    cases hh
    exact ⟨rfl, hc, rfl⟩
  rw [Sub.run_append]
  cases hc : D.isClosed (D.run s (vs.map .next)) with
  | false =>
    rw [hc] at ht
    obtain ⟨k1, k2, k3⟩ := key _ (hD.inv _ (.note .complete) hinv) (hD.completeCloses _ hinv) ht
    exact ⟨k1, k2, k3, hn⟩
  | true =>
    rw [hc] at ht
    obtain ⟨k1, k2, k3⟩ := key _ hinv hc ht
    exact ⟨k1.trans (hD.run_closed hinv hc _).1.symm, k2, k3, hn⟩

/-- C53. For an iterator with a last item, the destination observes what it does if it is given all items and completion. -/
theorem C53_iterator_finite (hD : Lawful D obs Inv ec) {s : S} (hs : Inv s) {vs : List O} {n : Nat} {h : Handle} {t : S}
    (hi : Iterates D (fun i => vs[i]?) s n h t) : obs t = obs (D.run s (vs.map .next ++ [.complete])) := by
  obtain ⟨ws, ⟨hw1, hw2, hw3⟩, ho, -⟩ := C53_iterator hD hs hi
  have hpre : ws.length ≤ vs.length ∧ ws = vs.take ws.length := by
    have hle : ws.length ≤ vs.length := by
      refine Nat.le_of_not_lt fun hlt => ?_
      have := congrArg (fun l => l[vs.length]?) hw1
      simp [hlt] at this
    refine ⟨hle, ?_⟩
    apply List.ext_getElem
    · simp [hle]
    · intro j hj hj'
      have := congrArg (fun l => l[j]?) hw1
      simp [hj] at this
      rw [List.getElem?_eq_getElem (by omega)] at this
      rw [List.getElem_take]
      exact (Option.some.inj this)
  rcases hw3 with hw3 | hw3
  · rw [List.getElem?_eq_none_iff] at hw3
    have : ws = vs := by rw [hpre.2, List.take_of_length_le hw3]
    rw [ho, this]
  · have hws := hD.run_closed (hD.run_inv hs (ws.map .next)) hw3
    rw [ho, Sub.run_append, (hws [.complete]).1]
    have : vs.map .next ++ [.complete] = ws.map .next ++
        ((vs.drop ws.length).map .next ++ [(.complete : SubscriberNotification O E)]) := by
      rw [← List.append_assoc, ← List.map_append]
      congr 2
      conv => lhs; rw [← List.take_append_drop ws.length vs, ← hpre.2]
    rw [this, Sub.run_append, (hws _).1]

/-- C53. Subscribing `iterator` returns if and only if the iterator has an end, or the destination is closed after some of
the items: taking a few of the items of an iterator without end does return, ... -/
theorem C53_iterator_returns {s : S} : (∃ n h t, Iterates D f s n h t) ↔
    (∃ m, f m = none) ∨ ∃ vs, FirstItems f vs ∧ D.isClosed (D.run s (vs.map .next)) = true := by
  constructor
  · rintro ⟨n, h, t, u, hu, _⟩
    obtain ⟨vs, h1, h2, rfl, h4⟩ := loop_spec hu
    rcases h4 with ⟨h4, _⟩ | ⟨_, h4, _⟩
    · exact .inl ⟨_, h4⟩
    · refine .inr ⟨vs, ?_, h4⟩
      apply List.ext_getElem
      · simp
      · intro j hj hj'
        simpa using (h1 j (by simpa using hj)).symm
  · intro hh
    suffices hl : ∃ n u, Loop D f 0 s n u by
      obtain ⟨n, u, hu⟩ := hl
      exact ⟨n, _, _, u, hu, rfl⟩
    rcases hh with ⟨m, hm⟩ | ⟨vs, hv, hc⟩
    · suffices h : ∀ k i, ∀ s : S, i + k = m → ∃ n u, Loop D f i s n u from h m 0 s (by omega)
      intro k
      induction k with
      | zero => intro i s hi; exact ⟨_, _, .exhausted (by rw [← hm, ← hi]; rfl)⟩
      | succ k ih =>
        intro i s hi
        cases hf : f i with
        | none => exact ⟨_, _, .exhausted hf⟩
        | some v =>
          cases hc : D.isClosed s with
          | true => exact ⟨_, _, .closed hf hc⟩
          | false =>
            obtain ⟨n, u, hu⟩ := ih (i + 1) (D.next s v) (by omega)
            exact ⟨n, u, .item hf hc hu⟩
    · have hv' : ∀ j, (hj : j < vs.length) → f (0 + j) = some vs[j] := by
        intro j hj
        have := congrArg (fun l => l[j]?) hv
        simp [hj] at this
        simpa using this.symm
      revert hv' hc
      clear hv
      generalize 0 = i
      induction vs generalizing s i with
      | nil =>
        intro hc _
        cases hf : f i with
        | none => exact ⟨_, _, .exhausted hf⟩
        | some v => exact ⟨_, _, .closed hf hc⟩
      | cons v vs ih =>
        intro hc hv
        have hf : f i = some v := hv 0 (by simp)
        cases ho : D.isClosed s with
        | true => exact ⟨_, _, .closed hf ho⟩
        | false =>
          obtain ⟨n, u, hu⟩ := ih (s := D.next s v) (i + 1) hc (by
            intro j hj
            have := hv (j + 1) (by simpa using hj)
            rw [show i + 1 + j = i + (j + 1) by omega]
            exact this)
          exact ⟨n, u, .item hf ho hu⟩

theorem loop_unique {i : Nat} {s : S} {n n' : Nat} {t t' : S} (h : Loop D f i s n t) (h' : Loop D f i s n' t') :
    n = n' ∧ t = t' := by
  induction h with
  | exhausted hf =>
    cases h' with
    | exhausted _ => exact ⟨rfl, rfl⟩
    | closed hf' _ => rw [hf] at hf'; cases hf'
    | item hf' _ _ => rw [hf] at hf'; cases hf'
  | closed hf hc =>
    cases h' with
    | exhausted hf' => rw [hf] at hf'; cases hf'
    | closed _ _ => exact ⟨rfl, rfl⟩
    | item _ hc' _ => rw [hc] at hc'; cases hc'
  | item hf hc _ ih =>
    cases h' with
    | exhausted hf' => rw [hf] at hf'; cases hf'
    | closed _ hc' => rw [hc] at hc'; cases hc'
    | item hf' _ hh =>
      rw [hf] at hf'
      cases hf'
      exact ih hh

/-- ... and always with the same result. -/
theorem C53_iterator_unique {s : S} {n n' : Nat} {h h' : Handle} {t t' : S} (hi : Iterates D f s n h t)
    (hi' : Iterates D f s n' h' t') : n = n' ∧ h = h' ∧ t = t' := by
  obtain ⟨u, hu, ht⟩ := hi
  obtain ⟨u', hu', ht'⟩ := hi'
  obtain ⟨rfl, rfl⟩ := loop_unique hu hu'
  rw [← ht'] at ht
  cases ht
  exact ⟨rfl, rfl, rfl⟩

/-! ### Concrete cases -/

/-- All items of a list, to an observer. -/
example : Iterates (observerSubscriber Nat Nat) (fun i => [7, 8][i]?) .new 2 .inert
    ⟨⟨true, []⟩, [.seen (.next 7), .seen (.next 8), .seen .complete]⟩ :=
  ⟨_, .item rfl rfl (.item rfl rfl (.exhausted rfl)), rfl⟩

/-- Two of the natural numbers, with `take(2)`: a third item is taken from the iterator, and lost. -/
theorem C53_iterator_extra : ∃ t, Iterates ((takeOp (I := Nat) (E := Nat) 2).sub (observerSubscriber Nat Nat)) some
    ((takeOp 2).init (observerSubscriber Nat Nat) .new) 3 .inert t ∧ t.2.seen = [.next 0, .next 1, .complete] :=
  ⟨_, ⟨_, .item rfl rfl (.item rfl rfl (.closed rfl rfl)), rfl⟩, rfl⟩

/-- All natural numbers, to an observer: that does not return. -/
example : ¬ ∃ n h t, Iterates (observerSubscriber Nat Nat) some .new n h t := by
  rw [C53_iterator_returns]
  rintro (⟨m, hm⟩ | ⟨vs, -, hc⟩)
  · cases hm
  · have h : ∀ (vs : List Nat) (s : ObsState Nat Nat), s.teardown.closed = false →
        (observerSubscriber Nat Nat).isClosed ((observerSubscriber Nat Nat).run s (vs.map .next)) = false := by
      intro vs
      induction vs with
      | nil => intro s h; exact h
      | cons v vs ih =>
        intro s h
        exact ih _ (by simp [observerSubscriber, SubscriptionData.isClosed, h, Sub.push])
    rw [h vs .new rfl] at hc
    cases hc

end Rx.Sources

namespace Rx.Timed.Props
open Rx.Sched Rx.Timed
open Rx.HigherOrder (Closes Patient)

variable {S O E : Type} {s : S} {D : Sub S O E} {f : Nat → Option O} {n : Nat} {start : Bool}
  {R : Rest (iteratorOnTick D f n start)} {x : R.Ctx} {fuel : Nat} {ops : List R.Op} {e0 e : Exec R.env}

/-- C53. At every moment `iterator_on_tick` does only what it may: it gives the items in order, and completion right after
the last of them. What the destination has got is what the record says. -/
theorem C53_on_tick_allowed (hD : Closes D) (h : R.run (R.start { port := { dest := s } } x fuel) ops = .ok e) :
    Throughout (IteratorOnTick.Allowed D s f start) e.world.ctx.1.port.trace ∧
    e.world.ctx.1.port.dest = fed D s e.world.ctx.1.port.trace := by
  obtain ⟨y, h1, h2, h3, h4⟩ := solo_of_run h
  rw [← h3]
  rcases Nat.eq_zero_or_pos n with rfl | hn
  · have := (IteratorOnTick.off hD h1).safe
    exact ⟨this.all, this.right.fed⟩
  · have := IteratorOnTick.safe (IteratorOnTick.holds hD hn h1)
    exact ⟨this.all, this.right.fed⟩

/-- C53. The values given are the first items of the iterator. -/
theorem C53_on_tick_items (hD : Closes D) (h : R.run (R.start { port := { dest := s } } x fuel) ops = .ok e) :
    Sources.FirstItems f ((outs e.world.ctx.1.port.trace).map (·.1)) := by
  have := IteratorOnTick.allowed_items (C53_on_tick_allowed hD h).1
  simpa [Sources.FirstItems, Function.comp_def] using this

/-- How often a history ticks. -/
def ticksIn {c : Client} {R : Rest c} (ops : List R.Op) : Nat := ops.countP fun | .act _ => false | _ => true

/-- C53. As long as the destination is open, every `n`-th tick after the subscription has given the next item (and
subscribing has given the first one, if it starts on subscription); no item is left only if there never was one, or
only the one that was given on subscription. -/
theorem C53_on_tick_cadence (hD : Closes D) (hn : 0 < n) {ops0 : List R.Op} {a : Act _ R.B} {e1 : Exec R.env}
    (h0 : R.run (R.start { port := { dest := s } } x fuel) ops0 = .ok e0) (hb0 : e0.world.ctx.1.begun = none)
    (h1 : R.run (R.start { port := { dest := s } } x fuel) (ops0 ++ [.act a]) = .ok e1)
    (hb1 : e1.world.ctx.1.begun.isSome = true)
    (h : R.run (R.start { port := { dest := s } } x fuel) (ops0 ++ [.act a] ++ ops) = .ok e)
    (ho : D.isClosed e.world.ctx.1.port.dest = false) :
    ((outs e.world.ctx.1.port.trace).length = (if start = true ∧ (f 0).isSome then 1 else 0) + ticksIn ops / n ∧
      f (outs e.world.ctx.1.port.trace).length ≠ none) ∨
    (f (outs e.world.ctx.1.port.trace).length = none ∧ (outs e.world.ctx.1.port.trace = [] ∨
      (start = true ∧ (outs e.world.ctx.1.port.trace).length = 1))) := by
  have key : ∀ (ops : List R.Op) (e : Exec R.env),
      R.run (R.start { port := { dest := s } } x fuel) (ops0 ++ [.act a] ++ ops) = .ok e →
      D.isClosed e.world.ctx.1.port.dest = true ∨
        (e.world.ctx.1.begun.isSome = true ∧ e.world.ctx.1.ticks = ticksIn ops) := by
    intro ops
    induction ops using Rx.snoc_induction with
    | nil =>
      intro e he
      rw [List.append_nil, h1] at he
      cases he
      rw [Rest.run_snoc, h0] at h1
      cases h1
      obtain ⟨y0, y, k1, k2, k3, k4, k5, k6, k7, k8⟩ := solo_of_act (a := a) h0
      dsimp only
      rw [← k6]
      have hh := IteratorOnTick.holds hD hn k1
      cases hc : D.isClosed y0.st.port.dest with
      | true =>
        exact .inl (IteratorOnTick.closed_inner hD k5 (by rw [k2]; intro t ht; cases ht)
          ⟨hc, IteratorOnTick.safe hh⟩).1
      | false =>
        right
        rw [← k3] at hb0
        rw [(IteratorOnTick.inner_ticks k5 k2).1, IteratorOnTick.idle_ticks hh hb0 hc, k6]
        exact ⟨hb1, rfl⟩
    | snoc ops op ih =>
      intro e he
      rw [← List.append_assoc] at he
      obtain ⟨e2, g1, g2⟩ := Rest.run_append _ op he
      have ih := ih e2 g1
      have tk : ∀ t, e2.tickTo t = .ok e → D.isClosed e.world.ctx.1.port.dest = true ∨
          (e.world.ctx.1.begun.isSome = true ∧ e.world.ctx.1.ticks = ticksIn ops + 1) := by
        intro t ht
        obtain ⟨y0, y, k1, k2, k3, k4, k5, k6, k7, k8, k9, k10⟩ := solo_of_tick g1 ht
        have hh := IteratorOnTick.holds hD hn k1
        rw [← k9]
        rw [← k3] at ih
        have hle : ∀ t', (Solo.drain t { y0 with tick := some t, active := y0.active.map fun p => (p.1, false) }).tick = some t' →
            t' ≤ (Solo.drain t { y0 with tick := some t, active := y0.active.map fun p => (p.1, false) }).clock := by
          intro t' ht'
          cases ht'
          show _ ≤ updateTick _ _
          rw [updateTick_max]; omega
        cases hc : D.isClosed y0.st.port.dest with
        | true =>
          exact .inl (IteratorOnTick.closed_inner hD k5 hle ⟨hc, (IteratorOnTick.safe hh).mono (by
            show _ ≤ updateTick _ _
            rw [updateTick_max]; exact Nat.le_max_left ..)⟩).1
        | false =>
          cases hc' : D.isClosed y.st.port.dest with
          | true => exact .inl rfl
          | false =>
            right
            rcases ih with ih | ⟨i1, i2⟩
            · rw [ih] at hc; cases hc
            · obtain ⟨j1, j2⟩ := IteratorOnTick.tick hD hn k1 k2 k5 k7 k8 i1 hc'
              exact ⟨j2, by rw [j1, i2]⟩
      cases op with
      | act b =>
        cases g2
        obtain ⟨y0, y, k1, k2, k3, k4, k5, k6, k7, k8⟩ := solo_of_act (a := b) g1
        dsimp only
        rw [← k6]
        rw [← k3] at ih
        obtain ⟨j1, j2⟩ := IteratorOnTick.inner_ticks k5 k2
        rcases ih with ih | ⟨i1, i2⟩
        · exact .inl (IteratorOnTick.closed_inner hD k5 (by rw [k2]; intro t ht; cases ht)
            ⟨ih, IteratorOnTick.safe (IteratorOnTick.holds hD hn k1)⟩).1
        · refine .inr ⟨j2 i1, ?_⟩
          rw [j1, i2]
          simp [ticksIn]
      | tickTo t => simpa [ticksIn] using tk t g2
      | tick t => simpa [ticksIn] using tk _ g2
  rcases key ops e h with hk | ⟨hk1, hk2⟩
  · rw [hk] at ho; cases ho
  · obtain ⟨y, g1, g2, g3, g4⟩ := solo_of_run h
    rw [← g3] at hk1 hk2 ho ⊢
    obtain ⟨ph, w, hb⟩ := IteratorOnTick.busy (IteratorOnTick.holds hD hn g1) hk1 ho
    cases hf : f (outs y.st.port.trace).length with
    | none => exact .inr ⟨rfl, hb.more hf⟩
    | some v =>
      rcases IteratorOnTick.given hb with hg | hg
      · rw [hf] at hg; cases hg
      · rw [hk2] at hg
        exact .inl ⟨hg, by simp⟩

/-- C53. If there is an item (two, if it starts on subscription), then as long as the destination is open, there are items
left: with the last one, the destination is closed. -/
theorem C53_on_tick_completes_partial (hD : Closes D) (hn : 0 < n) {ops0 : List R.Op} {a : Act _ R.B} {e1 : Exec R.env}
    (h0 : R.run (R.start { port := { dest := s } } x fuel) ops0 = .ok e0) (hb0 : e0.world.ctx.1.begun = none)
    (h1 : R.run (R.start { port := { dest := s } } x fuel) (ops0 ++ [.act a]) = .ok e1)
    (hb1 : e1.world.ctx.1.begun.isSome = true)
    (h : R.run (R.start { port := { dest := s } } x fuel) (ops0 ++ [.act a] ++ ops) = .ok e)
    (hf0 : (f 0).isSome = true) (hf1 : start = true → (f 1).isSome = true)
    (ho : D.isClosed e.world.ctx.1.port.dest = false) :
    (outs e.world.ctx.1.port.trace).length = (if start = true then 1 else 0) + ticksIn ops / n ∧
    f (outs e.world.ctx.1.port.trace).length ≠ none := by
  rcases C53_on_tick_cadence hD hn h0 hb0 h1 hb1 h ho with hh | ⟨hh, hx | ⟨hs, hx⟩⟩
  · simpa [hf0] using hh
  · rw [hx] at hh
    rw [show f 0 = none from hh] at hf0
    cases hf0
  · rw [hx] at hh
    have := hf1 hs
    rw [hh] at this
    cases this

/-- The full claim of C53 includes iterators without items, and with one item. But one without items is never completed,
whatever happens. -/
theorem C53_empty_never_completed (hD : Closes D) (h : R.run (R.start { port := { dest := s } } x fuel) ops = .ok e)
    (hf : f 0 = none) : ¬ Gave .complete e.world.ctx.1.port.trace := by
  rintro ⟨k, hk⟩
  obtain ⟨past, rest, hpr⟩ := List.append_of_mem hk
  have hall := (C53_on_tick_allowed hD h).1
  obtain ⟨-, ⟨v, hv⟩, -⟩ := (hall past _ rest hpr).complete rfl
  rw [hpr] at hall
  have hitems := IteratorOnTick.allowed_items (τ := past) (fun a m b he => hall a m (b ++ _) (by rw [he, List.append_assoc]; rfl))
  have hmem : (v, k) ∈ outs past := by
    have := List.mem_of_getLast? hv
    simp only [outs, List.mem_filterMap]
    exact ⟨_, this, rfl⟩
  cases ho : outs past with
  | nil => rw [ho] at hmem; cases hmem
  | cons m l =>
    rw [ho] at hitems
    simp [List.range_succ_eq_map, hf] at hitems

/-- And one with a single item, that starts on subscription, is not either. -/
theorem C53_single_never_completed (hD : Closes D) (h : R.run (R.start { port := { dest := s } } x fuel) ops = .ok e)
    (hs : start = true) (hf : f 1 = none) : ¬ Gave .complete e.world.ctx.1.port.trace := by
  rintro ⟨k, hk⟩
  obtain ⟨past, rest, hpr⟩ := List.append_of_mem hk
  have hall := (C53_on_tick_allowed hD h).1
  obtain ⟨-, -, hl⟩ := (hall past _ rest hpr).complete rfl
  rw [hpr] at hall
  have hitems := IteratorOnTick.allowed_items (τ := past) (fun a m b he => hall a m (b ++ _) (by rw [he, List.append_assoc]; rfl))
  rw [hs] at hl
  have hl : 1 < (outs past).length := hl.resolve_left (by simp)
  have := congrArg (fun l => l[1]?) hitems
  simp [hl, hf] at this

/-- With `emit_at_every_nth_tick = 0`, nothing is ever given. -/
theorem C53_zero (hD : Closes D) (h : R.run (R.start { port := { dest := s } } x fuel) ops = .ok e) (hn : n = 0) :
    outs e.world.ctx.1.port.trace = [] := by
  subst hn
  obtain ⟨y, h1, h2, h3, h4⟩ := solo_of_run h
  rw [← h3]
  exact (IteratorOnTick.off hD h1).outs

/-! ### Concrete cases -/

/-- Three items, one on every second tick. -/
example : (after (c := iteratorOnTick obs (fun i => [7, 8, 9][i]?) 2 false) { port := { dest := .new } }
    [.tickTo 1, .act (.input .subscribe), .tickTo 2, .tickTo 4, .tickTo 5, .tickTo 6, .tickTo 7, .tickTo 8, .tickTo 9]).map
      (fun s => s.port.trace) =
      some [(.out (.next 7), 4), (.out (.next 8), 6), (.out (.next 9), 8), (.out .complete, 8)] := by
  decide +kernel

/-- The same, when it starts on subscription. -/
example : (after (c := iteratorOnTick obs (fun i => [7, 8, 9][i]?) 2 true) { port := { dest := .new } }
    [.tickTo 1, .act (.input .subscribe), .tickTo 2, .tickTo 4, .tickTo 5, .tickTo 6, .tickTo 7, .tickTo 8, .tickTo 9]).map
      (fun s => s.port.trace) =
      some [(.out (.next 7), 1), (.out (.next 8), 4), (.out (.next 9), 6), (.out .complete, 6)] := by
  decide +kernel

/-- The natural numbers, until it is unsubscribed. -/
example : (after (c := iteratorOnTick obs some 1 false) { port := { dest := .new } }
    [.act (.input .subscribe), .tickTo 2, .tickTo 4, .act (.input .unsubscribe), .tickTo 5]).map (fun s => s.port.trace) =
      some [(.out (.next 0), 2), (.out (.next 1), 4), (.arrived .unsubscribe, 4), (.out .unsubscribe, 4)] := by
  decide +kernel

/-- A single item that is given on subscription; then nothing more, and the destination stays open. -/
example : (after (c := iteratorOnTick obs (fun i => [7][i]?) 1 true) { port := { dest := .new } }
    [.act (.input .subscribe), .tickTo 2, .tickTo 4]).map (fun s => (s.port.trace, obs.isClosed s.port.dest)) =
      some ([(.out (.next 7), 0)], false) := by
  decide +kernel

end Rx.Timed.Props
