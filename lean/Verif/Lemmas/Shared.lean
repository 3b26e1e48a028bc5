import Verif.Spec.Shared

/-!
# The shared subscriber serves first-in first-out
-/

namespace Rx

open Spec

variable {S I E : Type}

/-- Up to and including the first closing notification. -/
def upTo : List (SubscriberNotification I E) → List (SubscriberNotification I E)
  | [] => []
  | n :: ns => if n.isClosing then [n] else n :: upTo ns

abbrev anyClosing (ns : List (SubscriberNotification I E)) : Bool := ns.any (·.isClosing)

theorem upTo_append_closing {l m : List (SubscriberNotification I E)} (h : anyClosing l = true) :
    upTo (l ++ m) = upTo l := by
  induction l with
  | nil => simp at h
  | cons n l ih =>
    simp only [List.cons_append, upTo]
    cases hn : n.isClosing with
    | true => simp
    | false =>
      simp only [List.any_cons, hn, Bool.false_or] at h
      simp [ih h]

theorem upTo_append_open {l m : List (SubscriberNotification I E)} (h : anyClosing l = false) :
    upTo (l ++ m) = l ++ upTo m := by
  induction l with
  | nil => simp
  | cons n l ih =>
    simp only [List.any_cons, Bool.or_eq_false_iff] at h
    simp [upTo, h.1, ih h.2]

theorem upTo_open {l : List (SubscriberNotification I E)} (h : anyClosing l = false) : upTo l = l := by
  simpa [upTo] using upTo_append_open (m := []) h

theorem isClosing_unsubscribe : (SubscriberNotification.unsubscribe (I := I) (E := E)).isClosing = true := rfl
theorem isClosing_complete : (SubscriberNotification.complete (I := I) (E := E)).isClosing = true := rfl
theorem isClosing_error (e : E) : (SubscriberNotification.error (I := I) e).isClosing = true := rfl
theorem isClosing_next (v : I) : (SubscriberNotification.next (E := E) v).isClosing = false := rfl

/-! ## Handling -/

theorem Deferred.call_ended {d : Deferred I E} (hc : d.closedFlag = false) (he : d.isClosed = true) (n) :
    ∃ extra, (d.call n).queue = d.queue ++ extra ∧ (d.call n).closedFlag = false ∧
      (d.call n).isClosed = true := by
  cases n with
  | unsubscribe =>
    simp only [Deferred.call]
    cases hu : d.observedUnsubscribe with
    | true => exact ⟨[], by simp [hc, he]⟩
    | false => exact ⟨[.unsubscribe], by simp [Deferred.defer, hc, Deferred.isClosed]⟩
  | _ => exact ⟨[], by simp [Deferred.call, hc, he]⟩

theorem Deferred.call_open {d : Deferred I E} (he : d.isClosed = false) (n) :
    (d.call n).queue = d.queue ++ [n] ∧ (d.call n).closedFlag = false ∧
      (d.call n).isClosed = n.isClosing := by
  simp only [Deferred.isClosed, Bool.or_eq_false_iff] at he
  obtain ⟨⟨⟨h1, h2⟩, h3⟩, h4⟩ := he
  cases n <;> simp [Deferred.call, Deferred.defer, Deferred.isClosed, h1, h2, h3, h4,
    SubscriberNotification.isClosing, SubscriberNotification.isTerminal]

/-- Handling once a closing call was made: only junk is added to the queue. -/
theorem runLocked_ended (r : React S I E) : ∀ {d : Deferred I E}, d.closedFlag = false → d.isClosed = true →
    (d.runLocked r).1 = (handle true r).1 ∧ (handle true r).2.1 = [] ∧ (handle true r).2.2 = true ∧
    (∃ extra, (d.runLocked r).2.queue = d.queue ++ extra) ∧
    (d.runLocked r).2.closedFlag = false ∧ (d.runLocked r).2.isClosed = true := by
  induction r with
  | done s => intro d hc he; exact ⟨rfl, rfl, rfl, ⟨[], by simp [Deferred.runLocked]⟩, hc, he⟩
  | call n k ih =>
    intro d hc he
    obtain ⟨extra, h1, h2, h3⟩ := Deferred.call_ended hc he n
    obtain ⟨k1, k2, k3, ⟨ex, k4⟩, k5, k6⟩ := ih h2 h3
    refine ⟨by simpa [Deferred.runLocked, handle] using k1, by simpa [handle] using k2,
      by simpa [handle] using k3, ⟨extra ++ ex, ?_⟩, k5, k6⟩
    simp [Deferred.runLocked, k4, h1]
  | isClosed k ih =>
    intro d hc he
    have := ih true hc he
    simpa [Deferred.runLocked, handle, he] using this

theorem runLocked_open (r : React S I E) : ∀ {d : Deferred I E}, d.isClosed = false →
    ∃ extra, (d.runLocked r).2.queue = d.queue ++ extra ∧
    (d.runLocked r).1 = (handle false r).1 ∧ (handle false r).2.1 = upTo extra ∧
    (handle false r).2.2 = anyClosing extra ∧
    (d.runLocked r).2.closedFlag = false ∧ (d.runLocked r).2.isClosed = anyClosing extra := by
  induction r with
  | done s =>
    intro d he
    refine ⟨[], ?_⟩
    have : d.closedFlag = false := by simp [Deferred.isClosed] at he; exact he.1.1.1
    simp [Deferred.runLocked, handle, upTo, this, he]
  | call n k ih =>
    intro d he
    obtain ⟨h1, h2, h3⟩ := Deferred.call_open he n
    cases hn : n.isClosing with
    | true =>
      obtain ⟨k1, k2, k3, ⟨ex, k4⟩, k5, k6⟩ := runLocked_ended k h2 (h3.trans hn)
      refine ⟨n :: ex, ?_, ?_, ?_, ?_, k5, ?_⟩
      · simp [Deferred.runLocked, k4, h1]
      · simpa [Deferred.runLocked, handle, hn] using k1
      · simp [handle, hn, k2, upTo]
      · simp [handle, hn, k3]
      · simpa [Deferred.runLocked, hn] using k6
    | false =>
      obtain ⟨ex, k1, k2, k3, k4, k5, k6⟩ := ih (h3.trans hn)
      refine ⟨n :: ex, ?_, ?_, ?_, ?_, k5, ?_⟩
      · simp [Deferred.runLocked, k1, h1]
      · simpa [Deferred.runLocked, handle, hn] using k2
      · simp [handle, hn, k3, upTo]
      · simp [handle, hn, k4]
      · simpa [Deferred.runLocked, hn] using k6
  | isClosed k ih =>
    intro d he
    have := ih false he
    simpa [Deferred.runLocked, handle, he] using this

/-! ## Rounds -/

/-- What is still to be served: the rest `r` of this round (generation `g`), then the queue. -/
def pend (g : Nat) (r q : List (SubscriberNotification I E)) : List (Nat × SubscriberNotification I E) :=
  if anyClosing r then (upTo r).map (g, ·) else r.map (g, ·) ++ (upTo q).map (g + 1, ·)

theorem pend_cons (g : Nat) (n) (r q : List (SubscriberNotification I E)) :
    pend g (n :: r) q = (g, n) :: (if n.isClosing then [] else pend g r q) := by
  cases hn : n.isClosing with
  | true => simp [pend, hn, upTo]
  | false =>
    simp only [pend, List.any_cons, hn, Bool.false_or, Bool.false_eq_true, if_false, upTo]
    split <;> simp

theorem pend_shift (g : Nat) (q : List (SubscriberNotification I E)) :
    pend g [] q = pend (g + 1) q [] := by
  simp only [pend, List.any_nil, Bool.false_eq_true, if_false, List.map_nil, List.nil_append, upTo,
    List.append_nil]
  cases h : anyClosing q with
  | true => simp
  | false => simp [upTo_open h]

/-- One notification that does not close. -/
theorem handle_step {d : Deferred I E} {ended : Bool} {r} (hc : d.closedFlag = false)
    (he : d.isClosed = ended) (ha : ended = (anyClosing r || anyClosing d.queue)) (g : Nat)
    (t : React S I E) :
    (d.runLocked t).1 = (handle ended t).1 ∧ (d.runLocked t).2.closedFlag = false ∧
    (d.runLocked t).2.isClosed = (handle ended t).2.2 ∧
    (handle ended t).2.2 = (anyClosing r || anyClosing (d.runLocked t).2.queue) ∧
    pend g r (d.runLocked t).2.queue =
      pend g r d.queue ++ (handle ended t).2.1.map fun c => (g + 1, c) := by
  cases ended with
  | true =>
    obtain ⟨k1, k2, k3, ⟨ex, k4⟩, k5, k6⟩ := runLocked_ended t hc he
    refine ⟨k1, k5, by rw [k6, k3], ?_, ?_⟩
    · rw [k3, k4]
      simp only [anyClosing, List.any_append] at ha ⊢
      rw [← Bool.or_assoc, ← ha]; rfl
    · rw [k2, k4]
      simp only [pend, List.map_nil, List.append_nil]
      split
      · rfl
      · rename_i hr
        have hq : anyClosing d.queue = true := by
          rw [Bool.not_eq_true] at hr
          rw [hr] at ha
          simpa using ha.symm
        rw [upTo_append_closing hq]
  | false =>
    obtain ⟨ex, k1, k2, k3, k4, k5, k6⟩ := runLocked_open t he
    obtain ⟨hr, hq⟩ : anyClosing r = false ∧ anyClosing d.queue = false := by
      simpa [Bool.or_eq_false_iff] using ha.symm
    refine ⟨k2, k5, by rw [k6, k4], ?_, ?_⟩
    · rw [k4, k1]
      simp only [anyClosing, List.any_append] at hr hq ⊢
      rw [hr, hq]; rfl
    · rw [k3, k1]
      simp only [pend, hr, Bool.false_eq_true, if_false]
      rw [upTo_append_open hq, upTo_open hq]
      simp

/-- Once closed, nothing reaches the destination. -/
theorem deliverAll_closed (R : ReDest S I E) (r) : ∀ x : S × Deferred I E, x.2.closedFlag = true →
    Shared.deliverAll R r x = x := by
  induction r with
  | nil => intro x _; rfl
  | cons n r ih =>
    intro x hx
    obtain ⟨s, d⟩ := x
    have hx' : d.closedFlag = true := hx
    simp only [Shared.deliverAll, hx', if_true]
    have : (if n.isClosing then ({ d with closedFlag := true } : Deferred I E) else d) = d := by
      obtain ⟨q, c, u, o, e⟩ := d
      cases hx'
      split <;> rfl
    rw [this]
    exact ih (s, d) hx

theorem applyQueue_closed (R : ReDest S I E) (k : Nat) (x : S × Deferred I E) (hx : x.2.closedFlag = true) :
    Shared.applyQueue R (k + 2) x = some (x.1, { x.2 with queue := [] }) := by
  obtain ⟨s, d⟩ := x
  have hx' : d.closedFlag = true := hx
  unfold Shared.applyQueue
  split
  · rename_i h
    rw [List.isEmpty_iff] at h
    obtain ⟨q, c, u, o, e⟩ := d
    simp only at h
    subst h
    rfl
  · rw [deliverAll_closed R _ _ (by exact hx')]
    unfold Shared.applyQueue
    rfl

theorem applyQueue_closed' (R : ReDest S I E) (k : Nat) (x y : S × Deferred I E) (hx : x.2.closedFlag = true)
    (h : Shared.applyQueue R k x = some y) : y = (x.1, { x.2 with queue := [] }) := by
  match k, h with
  | 0, h => cases h
  | 1, h =>
    unfold Shared.applyQueue at h
    split at h
    · rename_i hq
      rw [List.isEmpty_iff] at hq
      cases h
      obtain ⟨s, q, c, u, o, e⟩ := x
      simp only at hq
      subst hq
      rfl
    · cases h
  | k + 2, h => rw [applyQueue_closed R k x hx] at h; exact (Option.some.inj h).symm

/-- What holds when all is served. -/
def Quiet (R : ReDest S I E) (ended : Bool) (x : S × Deferred I E) : Prop :=
  x.2.queue = [] ∧ x.2.closedFlag = ended ∧ x.2.isClosed = ended

theorem rounds_fifo (R : ReDest S I E) : ∀ k r (s : S) (d : Deferred I E) (ended : Bool) (g : Nat) y,
    g + k = 10 → d.closedFlag = false → d.isClosed = ended →
    ended = (anyClosing r || anyClosing d.queue) →
    Shared.applyQueue R k (Shared.deliverAll R r (s, d)) = some y →
    ∃ ended', Fifo R 9 s (pend g r d.queue) ended y.1 ended' ∧ Quiet R ended' y := by
  intro k
  induction k with
  | zero => intro r s d ended g y _ _ _ _ h; cases h
  | succ k ihk =>
    intro r
    induction r with
    | nil =>
      intro s d ended g y hg hc he ha h
      simp only [Shared.deliverAll] at h
      unfold Shared.applyQueue at h
      split at h
      · rename_i hq
        rw [List.isEmpty_iff] at hq
        simp only at hq
        cases h
        have : ended = false := by rw [ha, hq]; rfl
        subst this
        refine ⟨false, ?_, hq, hc, he⟩
        rw [hq]
        exact Fifo.nil s _
      · rw [pend_shift]
        exact ihk d.queue s { d with queue := [] } ended (g + 1) y (by omega) hc he
          (by simpa using ha) h
    | cons n r ih =>
      intro s d ended g y hg hc he ha h
      rw [pend_cons]
      simp only [Shared.deliverAll, hc, Bool.false_eq_true, if_false] at h
      cases hn : n.isClosing with
      | true =>
        simp only [hn, if_true] at h
        rw [deliverAll_closed R r _ rfl] at h
        have hy := applyQueue_closed' R _ _ y rfl h
        have he' : ended = true := by rw [ha]; simp [hn]
        subst he'
        obtain ⟨k1, _⟩ := runLocked_ended (R.push s n) hc he
        refine ⟨true, ?_, ?_⟩
        · have := Fifo.closing (R := R) (L := 9) (s := s) (g := g) (n := n) (pending := []) (ended := true)
            hn (by omega)
          rw [hy]
          simpa [k1] using this
        · rw [hy]; exact ⟨rfl, rfl, by simp [Deferred.isClosed]⟩
      | false =>
        simp only [hn, Bool.false_eq_true, if_false] at h ⊢
        have ha' : ended = (anyClosing r || anyClosing d.queue) := by simpa [hn] using ha
        obtain ⟨h1, h2, h3, h4, h5⟩ := handle_step hc he ha' g (R.push s n)
        obtain ⟨ended', f, q⟩ := ih (d.runLocked (R.push s n)).1 (d.runLocked (R.push s n)).2 _ g y hg h2 h3 h4 h
        refine ⟨ended', Fifo.next hn (by omega) ?_, q⟩
        rw [← h1, ← h5]
        exact f

theorem rounds_served (R : ReDest S I E) : ∀ k r (s : S) (d : Deferred I E) (ended : Bool) (g : Nat) s' ended',
    g + k = 10 → d.closedFlag = false → d.isClosed = ended →
    ended = (anyClosing r || anyClosing d.queue) → (r ≠ [] ∨ 1 ≤ k) →
    Fifo R 8 s (pend g r d.queue) ended s' ended' →
    ∃ y, Shared.applyQueue R k (Shared.deliverAll R r (s, d)) = some y := by
  intro k
  induction k with
  | zero =>
    intro r s d ended g s' ended' hg hc he ha hr f
    rcases hr with hr | hr
    · cases r with
      | nil => exact absurd rfl hr
      | cons n r =>
        rw [pend_cons] at f
        cases f <;> omega
    · omega
  | succ k ihk =>
    intro r
    induction r with
    | nil =>
      intro s d ended g s' ended' hg hc he ha _ f
      simp only [Shared.deliverAll]
      unfold Shared.applyQueue
      split
      · exact ⟨_, rfl⟩
      · rename_i hq
        rw [pend_shift] at f
        refine ihk d.queue s { d with queue := [] } ended (g + 1) s' ended' (by omega) hc he
          (by simpa using ha) (Or.inl ?_) f
        intro h; apply hq; simp [h]
    | cons n r ih =>
      intro s d ended g s' ended' hg hc he ha _ f
      rw [pend_cons] at f
      simp only [Shared.deliverAll, hc, Bool.false_eq_true, if_false]
      cases f with
      | next hn hgl f =>
        simp only [hn, Bool.false_eq_true, if_false] at f ⊢
        have ha' : ended = (anyClosing r || anyClosing d.queue) := by simpa [hn] using ha
        obtain ⟨h1, h2, h3, h4, h5⟩ := handle_step hc he ha' g (R.push s n)
        rw [← h1, ← h5] at f
        exact ih (d.runLocked (R.push s n)).1 (d.runLocked (R.push s n)).2 _ g s' ended' hg h2 h3 h4
          (Or.inr (by omega)) f
      | closing hn hgl =>
        simp only [hn, if_true]
        rw [deliverAll_closed R r _ rfl]
        obtain ⟨j, rfl⟩ : ∃ j, k = j + 1 := ⟨k - 1, by omega⟩
        exact ⟨_, applyQueue_closed R j _ rfl⟩

/-! ## Calls from outside -/

theorem handle_ended (t : React S I E) : ∀ ended,
    (handle ended t).2.2 = (ended || anyClosing (handle ended t).2.1) := by
  induction t with
  | done s => intro ended; simp [handle]
  | call n k ih =>
    intro ended
    cases ended with
    | true => simp [handle, ih true]
    | false => simp [handle, ih n.isClosing]
  | isClosed k ih => intro ended; simpa [handle] using ih ended ended

theorem handle_closes {R : ReDest S I E} (t : React S I E) : ∀ ended, EndsClosed R t →
    R.isClosed (handle ended t).1 = true := by
  induction t with
  | done s => intro ended h; exact h
  | call n k ih =>
    intro ended h
    cases ended with
    | true => simpa [handle] using ih true h
    | false => simpa [handle] using ih n.isClosing h
  | isClosed k ih => intro ended h; simpa [handle] using ih ended ended (h ended)

theorem fifo_closed {R : ReDest S I E} (hR : Contract R) {L s p ended s' ended'}
    (f : Fifo R L s p ended s' ended') : ended = anyClosing (p.map (·.2)) → ended' = true →
    R.isClosed s' = true := by
  induction f with
  | nil s ended => intro h1 h2; subst h2; simp at h1
  | next hn hg f ih =>
    rename_i s g n pending ended s' ended'
    intro h1 h2
    refine ih ?_ h2
    rw [handle_ended]
    simp only [List.map_cons, List.any_cons, hn, Bool.false_or] at h1
    rw [h1]
    simp [List.any_append, Function.comp_def, List.any_map]
  | closing hn hg => intro _ _; exact handle_closes _ _ (hR.closes _ _ hn)

/-- A dead deferred state accepts nothing. -/
theorem runLocked_dead (t : React S I E) : ∀ {d : Deferred I E}, d.observedUnsubscribe = true →
    d.runLocked t = ((handle true t).1, d) := by
  induction t with
  | done s => intro d _; rfl
  | call n k ih =>
    intro d hu
    have : d.call n = d := by
      cases n <;> simp [Deferred.call, Deferred.isClosed, hu]
    simp [Deferred.runLocked, handle, this, ih hu]
  | isClosed k ih =>
    intro d hu
    have : d.isClosed = true := by simp [Deferred.isClosed, hu]
    simpa [Deferred.runLocked, handle, this] using ih true hu

theorem deliverAll_inert {R : ReDest S I E} (hR : Contract R) (r) : ∀ (s : S) (d : Deferred I E),
    R.isClosed s = true → (Shared.deliverAll R r (s, d)).1 = s ∧
      (Shared.deliverAll R r (s, d)).2.queue = d.queue := by
  induction r with
  | nil => intro s d _; exact ⟨rfl, rfl⟩
  | cons n r ih =>
    intro s d hs
    have : (if d.closedFlag then (s, d) else d.runLocked (R.push s n)) = (s, d) := by
      rw [hR.inert s n hs]; simp [Deferred.runLocked]
    simp only [Shared.deliverAll, this]
    split
    · exact ih s _ hs
    · exact ih s _ hs

theorem applyQueue_empty (R : ReDest S I E) (k : Nat) (s : S) (d : Deferred I E) (hq : d.queue = []) :
    Shared.applyQueue R (k + 1) (s, d) = some (s, d) := by
  simp [Shared.applyQueue, hq]

theorem applyQueue_inert {R : ReDest S I E} (hR : Contract R) (k : Nat) (s : S) (d : Deferred I E)
    (hs : R.isClosed s = true) :
    ∃ d', Shared.applyQueue R (k + 2) (s, d) = some (s, d') ∧ d'.queue = [] := by
  unfold Shared.applyQueue
  split
  · rename_i h; exact ⟨d, rfl, by simpa using h⟩
  · obtain ⟨h1, h2⟩ := deliverAll_inert hR d.queue s { d with queue := [] } hs
    generalize Shared.deliverAll R d.queue (s, { d with queue := [] }) = z at h1 h2
    obtain ⟨z1, z2⟩ := z
    simp only at h1 h2
    subst h1
    exact ⟨z2, applyQueue_empty R k z1 z2 h2, h2⟩

theorem tryApply_eq (R : ReDest S I E) (x : S × Deferred I E) :
    Shared.tryApplyDeferred R x = Shared.applyQueue R 10 x := by
  unfold Shared.tryApplyDeferred
  split
  · rfl
  · rename_i h
    rw [applyQueue_empty R 9 x.1 x.2 (by simpa [Deferred.isDirty] using h)]

/-- Between calls from outside. -/
def Idle (R : ReDest S I E) (ended : Bool) (x : S × Deferred I E) : Prop :=
  x.2.queue = [] ∧ (R.isClosed x.1 = false → x.2.isClosed = false ∧ ended = false)

theorem call_closed {R : ReDest S I E} {ended : Bool} {x : S × Deferred I E} (hi : Idle R ended x)
    (hs : R.isClosed x.1 = true) (n) :
    ∃ d, Shared.call R x n = some (x.1, d) ∧ Idle R ended (x.1, d) := by
  obtain ⟨s, d⟩ := x
  obtain ⟨hq, hi⟩ := hi
  simp only at hq hi hs
  have idle : ∀ d : Deferred I E, d.queue = [] → Idle R ended (s, d) :=
    fun d h => ⟨h, fun h' => by rw [hs] at h'; cases h'⟩
  have hcl : Shared.isClosed R (s, d) = true := by simp [Shared.isClosed, hs]
  cases n with
  | unsubscribe =>
    cases hu : d.observedUnsubscribe with
    | true =>
      exact ⟨d, by simp [Shared.call, hu, tryApply_eq, applyQueue_empty R 9 s d hq], idle d hq⟩
    | false =>
      refine ⟨⟨[], true, true, d.observedCompletion, d.observedError⟩, ?_, idle _ rfl⟩
      simp [Shared.call, hu, Shared.maxRecursionDepth, applyQueue_empty R 9 s, hq, hs, tryApply_eq]
  | _ => exact ⟨d, by simp [Shared.call, hcl, tryApply_eq, applyQueue_empty R 9 s d hq], idle d hq⟩

/-- A closing call on an open shared subscriber. -/
theorem call_closing {R : ReDest S I E} (hR : Contract R) {ended : Bool} {s : S} {d : Deferred I E}
    (hi : Idle R ended (s, d)) (hs : R.isClosed s = false) {n} (hn : n.isClosing = true) :
    ∃ d', Shared.call R (s, d) n = some ((handle true (R.push s n)).1, d') ∧
      Idle R true ((handle true (R.push s n)).1, d') := by
  obtain ⟨hq, hi⟩ := hi
  obtain ⟨hd, -⟩ := hi hs
  simp only at hq hd
  have hd' := hd
  simp only [Deferred.isClosed, Bool.or_eq_false_iff] at hd'
  obtain ⟨⟨⟨h1, h2⟩, h3⟩, h4⟩ := hd'
  have hcl : Shared.isClosed R (s, d) = false := by simp [Shared.isClosed, hs, hd]
  have hend : R.isClosed (handle true (R.push s n)).1 = true := handle_closes _ _ (hR.closes _ _ hn)
  have idle : ∀ d : Deferred I E, d.queue = [] → Idle R true ((handle true (R.push s n)).1, d) :=
    fun d h => ⟨h, fun h' => by rw [hend] at h'; cases h'⟩
  have fin : ∀ d : Deferred I E, d.queue = [] → d.closedFlag = false → d.isClosed = true →
      ∃ d', Shared.tryApplyDeferred R (d.runLocked (R.push s n)) =
        some ((handle true (R.push s n)).1, d') ∧ d'.queue = [] := by
    intro d hq hc he
    obtain ⟨k1, _⟩ := runLocked_ended (R.push s n) hc he
    rw [tryApply_eq]
    obtain ⟨d', e1, e2⟩ := applyQueue_inert hR 8 (handle true (R.push s n)).1
      (d.runLocked (R.push s n)).2 hend
    exact ⟨d', by rw [← e1, ← k1], e2⟩
  cases n with
  | next v => cases hn
  | error e =>
    obtain ⟨d', e1, e2⟩ := fin { d with observedError := true } hq h1 (by simp [Deferred.isClosed])
    refine ⟨d', ?_, idle d' e2⟩
    simp only [Shared.call, hcl, Bool.false_eq_true, if_false, Shared.maxRecursionDepth]
    rw [applyQueue_empty R 9 s _ (by exact hq)]
    exact e1
  | complete =>
    obtain ⟨d', e1, e2⟩ := fin { d with observedCompletion := true } hq h1 (by simp [Deferred.isClosed])
    refine ⟨d', ?_, idle d' e2⟩
    simp only [Shared.call, hcl, Bool.false_eq_true, if_false, Shared.maxRecursionDepth]
    rw [applyQueue_empty R 9 s _ (by exact hq)]
    exact e1
  | unsubscribe =>
    refine ⟨⟨d.queue, true, true, d.observedCompletion, d.observedError⟩, ?_, idle _ hq⟩
    simp only [Shared.call, h3, Bool.false_eq_true, if_false, Shared.maxRecursionDepth]
    rw [applyQueue_empty R 9 s _ (by exact hq)]
    simp only [Option.bind_eq_bind, Option.bind_some, hs, Bool.false_eq_true, if_false, Option.pure_def]
    rw [runLocked_dead _ (by rfl), tryApply_eq, applyQueue_empty R 9 _ _ (by exact hq)]

/-- A value sent to an open shared subscriber. -/
theorem call_next {R : ReDest S I E} {ended : Bool} {s : S} {d : Deferred I E}
    (hi : Idle R ended (s, d)) (hs : R.isClosed s = false) (v : I) :
    Shared.call R (s, d) (.next v) = Shared.applyQueue R 10 (Shared.deliverAll R [.next v] (s, d)) ∧
      d.closedFlag = false ∧ d.isClosed = false ∧ d.queue = [] := by
  obtain ⟨hq, hi⟩ := hi
  obtain ⟨hd, -⟩ := hi hs
  simp only at hq hd
  have hd' := hd
  simp only [Deferred.isClosed, Bool.or_eq_false_iff] at hd'
  obtain ⟨⟨⟨h1, h2⟩, h3⟩, h4⟩ := hd'
  have hcl : Shared.isClosed R (s, d) = false := by simp [Shared.isClosed, hs, hd]
  refine ⟨?_, h1, hd, hq⟩
  simp only [Shared.call, hcl, Bool.false_eq_true, if_false, Shared.maxRecursionDepth]
  rw [applyQueue_empty R 9 s _ hq]
  simp only [Option.bind_eq_bind, Option.bind_some, Option.pure_def, tryApply_eq, Shared.deliverAll, h1,
    Bool.false_eq_true, if_false, isClosing_next]

theorem run_served {R : ReDest S I E} (hR : Contract R) (ns) : ∀ {x y : S × Deferred I E} {ended},
    Idle R ended x → Shared.run R x ns = some y →
    ∃ ended', Served R 9 x.1 ended ns y.1 ended' ∧ Idle R ended' y := by
  induction ns with
  | nil =>
    intro x y ended hi h
    cases h
    exact ⟨ended, Served.nil _ _, hi⟩
  | cons n ns ih =>
    intro x y ended hi h
    simp only [Shared.run, List.foldlM_cons, Option.bind_eq_bind] at h
    cases hs : R.isClosed x.1 with
    | true =>
      obtain ⟨d, h1, h2⟩ := call_closed hi hs n
      rw [h1] at h
      obtain ⟨e', k1, k2⟩ := ih h2 h
      exact ⟨e', Served.ignored (by simp [hs]) k1, k2⟩
    | false =>
      obtain ⟨s, d⟩ := x
      have hend : ended = false := (hi.2 hs).2
      subst hend
      cases hn : n.isClosing with
      | true =>
        obtain ⟨d', h1, h2⟩ := call_closing hR hi hs hn
        rw [h1] at h
        obtain ⟨e', k1, k2⟩ := ih h2 h
        exact ⟨e', Served.served hs (Fifo.closing hn (by omega)) k1, k2⟩
      | false =>
        cases n with
        | next v =>
          obtain ⟨h1, h2, h3, h4⟩ := call_next hi hs v
          rw [h1] at h
          cases hy : Shared.applyQueue R 10 (Shared.deliverAll R [.next v] (s, d)) with
          | none => rw [hy] at h; cases h
          | some z =>
            rw [hy] at h
            obtain ⟨e1, f, q1, q2, q3⟩ := rounds_fifo R 10 [.next v] s d false 0 z rfl h2 h3
              (by simp [h4, isClosing_next]) hy
            have hp : pend 0 [.next v] d.queue = [(0, .next v)] := by
              simp [h4, pend, isClosing_next, upTo]
            rw [hp] at f
            have hz : Idle R e1 z := ⟨q1, fun hc => by
              cases e1 with
              | true => rw [fifo_closed hR f (by simp [isClosing_next]) rfl] at hc; cases hc
              | false => exact ⟨q3, rfl⟩⟩
            obtain ⟨e', k1, k2⟩ := ih hz h
            exact ⟨e', Served.served hs f k1, k2⟩
        | error e => cases hn
        | complete => cases hn
        | unsubscribe => cases hn

/-- First-in first-out serving is deterministic. -/
theorem Spec.Fifo.unique {R : ReDest S I E} {L L' s p ended s₁ e₁ s₂ e₂}
    (f : Fifo R L s p ended s₁ e₁) (g : Fifo R L' s p ended s₂ e₂) : s₁ = s₂ ∧ e₁ = e₂ := by
  induction f with
  | nil s ended => cases g; exact ⟨rfl, rfl⟩
  | next hn hg f ih =>
    cases g with
    | next hn' hg' g => exact ih g
    | closing hn' hg' => rw [hn] at hn'; cases hn'
  | closing hn hg =>
    cases g with
    | next hn' hg' g => rw [hn] at hn'; cases hn'
    | closing hn' hg' => exact ⟨rfl, rfl⟩

theorem served_run {R : ReDest S I E} (hR : Contract R) (ns) : ∀ {x : S × Deferred I E} {ended s' ended'},
    Idle R ended x → Served R 8 x.1 ended ns s' ended' → ∃ y, Shared.run R x ns = some y := by
  induction ns with
  | nil => intro x ended s' ended' _ _; exact ⟨x, rfl⟩
  | cons n ns ih =>
    intro x ended s' ended' hi h
    simp only [Shared.run, List.foldlM_cons, Option.bind_eq_bind]
    cases hs : R.isClosed x.1 with
    | true =>
      obtain ⟨d, h1, h2⟩ := call_closed hi hs n
      rw [h1]
      cases h with
      | ignored _ h => exact ih h2 h
      | served hs' f h => rw [hs] at hs'; cases hs'
    | false =>
      obtain ⟨s, d⟩ := x
      have hend : ended = false := (hi.2 hs).2
      subst hend
      cases h with
      | ignored hh h => simp [hs] at hh
      | @served _ _ _ s₁ e₀ _ _ hs' f h =>
        cases hn : n.isClosing with
        | true =>
          obtain ⟨d', h1, h2⟩ := call_closing hR hi hs hn
          rw [h1]
          cases f with
          | next hn' _ _ => rw [hn] at hn'; cases hn'
          | closing _ _ => exact ih h2 h
        | false =>
          cases n with
          | next v =>
            obtain ⟨h1, h2, h3, h4⟩ := call_next hi hs v
            have hp : pend 0 [.next v] d.queue = [(0, .next v)] := by
              simp [h4, pend, isClosing_next, upTo]
            rw [hn] at f
            obtain ⟨z, hz⟩ := rounds_served R 10 [.next v] s d false 0 _ _ rfl h2 h3
              (by simp [h4, isClosing_next]) (Or.inr (by omega)) (by rw [hp]; exact f)
            rw [h1, hz]
            obtain ⟨e1, f', q1, q2, q3⟩ := rounds_fifo R 10 [.next v] s d false 0 z rfl h2 h3
              (by simp [h4, isClosing_next]) hz
            rw [hp] at f'
            obtain ⟨u1, u2⟩ := f.unique f'
            rw [u1, u2] at h
            refine ih (x := z) (ended := e1) ⟨q1, fun hc => ?_⟩ h
            cases e1 with
            | true => rw [fifo_closed hR f' (by simp [isClosing_next]) rfl] at hc; cases hc
            | false => exact ⟨q3, rfl⟩
          | error e => cases hn
          | complete => cases hn
          | unsubscribe => cases hn

end Rx
