import Verif.Lemmas.OpDelivers
import Verif.Lemmas.Sim
import Verif.Spec.Observed
import Verif.Props.Pipelines

/-!
# C08 - C18: what each composable operator delivers

For every operator there are two theorems: `…_delivers` speaks about any downstream that obeys the
subscriber contract, in any state (also one that closes on its own at any point); the other one is
its instance for a fresh observer, in plain list terms.
-/

namespace Rx

variable {I E O F : Type}

theorem observer_nexts (s : ObsState I E) (hs : s.teardown.closed = false) (vs : List I) :
    (observerSubscriber I E).nexts s vs =
      ⟨s.teardown, s.log ++ vs.map (fun v => .seen (.next v))⟩ := by
  induction vs generalizing s with
  | nil => simp
  | cons v vs ih =>
    rw [Sub.nexts_cons]
    simp only [observerSubscriber, SubscriptionData.isClosed, hs]
    have := ih ⟨s.teardown, s.log ++ [.seen (.next v)]⟩ hs
    simp only [observerSubscriber, SubscriptionData.isClosed, hs] at this
    simpa using this

/-- A fresh observer fed a history sees its values and terminal signal and is closed iff it ended. -/
theorem observer_run (h : Hist I E) :
    ((observerSubscriber I E).run ObsState.new h.notes).seen = Spec.seen h ∧
    (observerSubscriber I E).isClosed ((observerSubscriber I E).run ObsState.new h.notes) = h.ended := by
  obtain ⟨vals, t, u⟩ := h
  rw [Sub.run_notes, observer_nexts _ rfl]
  have hs : ∀ vs : List I, List.filterMap Event.asSeen
      (vs.map fun v => (Event.seen (.next v) : Event I E)) = vs.map .next := by
    intro vs; induction vs with
    | nil => rfl
    | cons v vs ih => simp [Event.asSeen, ih]
  rcases t with _ | (e | _) <;> cases u <;>
    simp [Sub.term, Sub.unsubIf, observerSubscriber, ObsState.new, SubscriptionData.isClosed,
      SubscriptionData.default, ObsState.unsubscribe, SubscriptionData.unsubscribe, ObsState.seen,
      Spec.seen, Hist.ended, Spec.termNotification, Event.asSeen, hs]

/-- From arbitrary downstreams to a fresh observer. -/
theorem Delivers.observed {P : OpImpl I E O F} {b : Bool} {spec : Hist I E → Hist O F}
    (hd : Delivers P b spec) (h : Hist I E) :
    observe P h = Spec.seen (spec h) ∧ closedAfter P h = (spec h).ended := by
  obtain ⟨h1, h2⟩ := hd _ _ _ _ _ _ (observerSubscriber_lawful O F) (fun _ => rfl) ObsState.new trivial h
  obtain ⟨h3, h4⟩ := observer_run (spec h)
  exact ⟨h1.trans h3, h2.trans h4⟩

/-! ## C08 -/

theorem C08_map_delivers (f : I → O) : Delivers (mapOp (E := E) f) false (Spec.map f) := mapOp_delivers f
theorem C08_map (f : I → O) (h : Hist I E) :
    observe (mapOp f) h = (h.vals.map f).map .next ++ h.termSeen := (C08_map_delivers f).observed h |>.1

theorem C08_map_into_delivers (f : I → O) (g : E → F) :
    Delivers (mapIntoOp f g) false (Spec.mapBoth f g) := mapIntoOp_delivers f g

theorem C08_map_error_delivers (f : E → F) : Delivers (mapErrorOp (I := I) f) true (Spec.mapError f) :=
  mapErrorOp_delivers f
theorem C08_map_error (f : E → F) (h : Hist I E) :
    observe (mapErrorOp f) h = h.vals.map .next ++ (match h.term with
      | some (.error e) => [.error (f e)] | some .complete => [.complete] | none => []) := by
  rw [((C08_map_error_delivers f).observed h).1]
  rcases h with ⟨vals, _ | (e | _), u⟩ <;> simp [Spec.seen, Spec.mapError, Spec.mapTermError, Spec.termNotification]

/-- map_never_error / error_boundary, map_never_next, map_never_both only change types. -/
theorem C08_map_never_delivers :
    Delivers (mapNeverErrorOp (I := I) F) false (Spec.mapBoth id (nomatch ·)) ∧
    Delivers (mapNeverNextOp (E := E) O) false (Spec.mapBoth (nomatch ·) id) ∧
    Delivers (mapNeverBothOp O F) false (Spec.mapBoth (nomatch ·) (nomatch ·)) :=
  ⟨mapNeverErrorOp_delivers, mapNeverNextOp_delivers, mapNeverBothOp_delivers⟩

theorem C08_filter_delivers (p : I → Nat → Bool) : Delivers (filterOp (E := E) p) false (Spec.filter p) :=
  filterOp_delivers p
/-- Below `usize::MAX` values the predicate is given the position of the value. -/
theorem C08_filter (p : I → Nat → Bool) (h : Hist I E) (hlen : h.vals.length ≤ 18446744073709551615) :
    observe (filterOp p) h =
      ((h.vals.zipIdx.filter fun vi => p vi.1 vi.2).map fun vi => .next vi.1) ++ h.termSeen := by
  rw [((C08_filter_delivers p).observed h).1]
  simp only [Spec.seen, Spec.filter, Hist.termSeen, List.map_map, Function.comp_def]
  congr 2
  apply List.filter_congr
  intro vi hvi
  have := List.snd_lt_of_mem_zipIdx hvi
  have hi : Spec.idx vi.2 = vi.2 := by simp only [Spec.idx]; omega
  rw [hi]

theorem C08_filter_map_delivers (f : I → Option O) :
    Delivers (filterMapOp (E := E) f) false (Spec.filterMap f) := filterMapOp_delivers f
theorem C08_filter_map (f : I → Option O) (h : Hist I E) :
    observe (filterMapOp f) h = (h.vals.filterMap f).map .next ++ h.termSeen :=
  (C08_filter_map_delivers f).observed h |>.1

theorem C08_lift_option_delivers : Delivers (liftOptionOp (I := I) (E := E)) false (Spec.filterMap id) :=
  liftOptionOp_delivers
theorem C08_lift_option (h : Hist (Option I) E) :
    observe liftOptionOp h = (h.vals.filterMap id).map .next ++ h.termSeen :=
  C08_lift_option_delivers.observed h |>.1

theorem C08_identity_delivers : Delivers (identityOp (I := I) (E := E)) false id := identityOp_delivers

theorem C08_tap_next_delivers {σ : Type} (f : σ → I → σ) (c : σ) :
    Delivers (tapNextOp (E := E) f c) false id := tapNextOp_delivers f c
/-- and its callback has been run on every value in order -/
theorem C08_tap_next_callback {S σ : Type} (f : σ → I → σ) (c : σ) (D : Sub S I E) (s : S)
    (h : Hist I E) :
    (((tapNextOp f c).sub D).run ((tapNextOp f c).init D s) h.notes).1 = h.vals.foldl f c := by
  rw [Sub.run_notes, nexts_of_step D s (fun vs => vs.foldl f c) id (fun _ v => [v]) rfl
    (fun _ _ _ => by simp [tapNextOp, mkSub, Sub.nexts]) (by simp)]
  rcases h with ⟨vals, _ | (e | _), _ | _⟩ <;> rfl

/-- A callback of `on_next` that emits the values `(f st v).1`, then decides to keep the value. -/
def emitting {σ : Type} (f : σ → I → List I × Bool × σ) : σ → I → Prog I E (Bool × σ) :=
  fun st v => (f st v).1.foldr (fun w k => .call (.note (.next w)) k) (.ret (f st v).2)

/-- Output of `on_next` for such a callback. -/
def emitted {σ : Type} (f : σ → I → List I × Bool × σ) : σ → List I → List I
  | _, [] => []
  | st, v :: vs => (f st v).1 ++ (if (f st v).2.1 then [v] else []) ++ emitted f (f st v).2.2 vs

theorem emitting_run {S σ β : Type} (D : Sub S I E) (ws : List I) (r : β) (s : S) :
    ((ws.foldr (fun w k => Prog.call (.note (.next w)) k) (.ret r)) : Prog I E β).run D s =
      (r, D.nexts s ws) := by
  induction ws generalizing s with
  | nil => rfl
  | cons w ws ih => exact ih _

theorem onNext_nexts {S α σ : Type} (f : σ → I → List I × Bool × σ) {D : Sub S I E} {obs : S → α}
    {Inv : S → Prop} {ec : Bool} (hD : Lawful D obs Inv ec) (c : σ) (vs : List I) (y y' : S)
    (hy : Inv y) (hy' : Inv y')
    (h : y = y' ∨ (D.isClosed y = true ∧ D.isClosed y' = true ∧ obs y = obs y')) :
    let z := (((onNextOp (emitting f) c).sub D).nexts (c, y) vs).2
    let z' := D.nexts y' (emitted f c vs)
    Inv z ∧ (z = z' ∨ (D.isClosed z = true ∧ D.isClosed z' = true ∧ obs z = obs z')) := by
  suffices H : ∀ (st : σ), let z := (((onNextOp (emitting f) c).sub D).nexts (st, y) vs).2
      let z' := D.nexts y' (emitted f st vs)
      Inv z ∧ (z = z' ∨ (D.isClosed z = true ∧ D.isClosed z' = true ∧ obs z = obs z')) from H c
  induction vs generalizing y y' with
  | nil => exact fun st => ⟨hy, h⟩
  | cons v vs ih =>
    intro st
    simp only [Sub.nexts_cons, emitted, Sub.nexts_append]
    have hr := emitting_run (E := E) (σ := σ) D (f st v).1 (f st v).2 y
    have hnx : ((onNextOp (emitting f) c).sub D).next (st, y) v =
        ((f st v).2.2, if (f st v).2.1 && !D.isClosed (D.nexts y (f st v).1)
          then D.next (D.nexts y (f st v).1) v else D.nexts y (f st v).1) := by
      simp only [onNextOp, mkSub, emitting, hr]
    rw [hnx]
    have i1 := hD.path_inv (Sub.path_nexts D y (f st v).1) hy
    have i1' := hD.path_inv (Sub.path_nexts D y' (f st v).1) hy'
    apply ih
    · split
      · exact hD.path_inv (.next .refl) i1
      · exact i1
    · exact hD.path_inv (Sub.path_nexts D _ _) i1'
    · rcases h with rfl | ⟨h1, h2, h3⟩
      · cases hk : (f st v).2.1 with
        | false => simp
        | true =>
          cases hc : D.isClosed (D.nexts y (f st v).1) with
          | false => simp
          | true =>
            right
            simp only [Bool.not_true, Bool.and_false, if_true, Sub.nexts_cons, Sub.nexts_nil]
            exact ⟨hc, hD.path_mono (.next .refl) i1 hc, (hD.frozen _ (.next v) i1 hc).symm⟩
      · right
        have c1 := hD.path_mono (Sub.path_nexts D y (f st v).1) hy h1
        have c1' := hD.path_mono (Sub.path_nexts D y' (f st v).1) hy' h2
        have o1 := hD.path_frozen (Sub.path_nexts D y (f st v).1) hy h1
        have o1' := hD.path_frozen (Sub.path_nexts D y' (f st v).1) hy' h2
        simp only [c1, Bool.not_true, Bool.and_false]
        refine ⟨c1, hD.path_mono (Sub.path_nexts D _ _) i1' c1', ?_⟩
        rw [hD.path_frozen (Sub.path_nexts D _ _) i1' c1', o1']
        exact o1.trans h3

/-- **C08** on_next, for callbacks that emit extra values and decide whether to keep the value
(callbacks that also send terminal signals are covered by C01/C02 only). -/
theorem C08_on_next_delivers {σ : Type} (f : σ → I → List I × Bool × σ) (c : σ) :
    Delivers (onNextOp (E := E) (emitting f) c) true
      (fun h => ⟨emitted f c h.vals, h.term, h.unsub⟩) := by
  intro S α D obs Inv ec hD hec s hs h
  have hr := hec rfl; subst hr
  obtain ⟨vals, t, u⟩ := h
  have hzn :
      let z := (((onNextOp (E := E) (emitting f) c).sub D).nexts
        ((onNextOp (E := E) (emitting f) c).init D s) vals).2
      let z' := D.nexts s (emitted f c vals)
      Inv z ∧ (z = z' ∨ (D.isClosed z = true ∧ D.isClosed z' = true ∧ obs z = obs z')) :=
    onNext_nexts f hD c vals s s hs hs (.inl rfl)
  have hinv := hD.path_inv (Sub.path_nexts D s (emitted f c vals)) hs
  rw [Sub.run_notes, Sub.run_notes]
  generalize ((onNextOp (E := E) (emitting f) c).sub D).nexts
    ((onNextOp (E := E) (emitting f) c).init D s) vals = x at hzn ⊢
  obtain ⟨st, y⟩ := x
  obtain ⟨hy, hn⟩ := hzn
  simp only at hy hn
  have p1 := (Sub.path_term D y t).trans (Sub.path_unsubIf D (D.term y t) u)
  have p2 := (Sub.path_term D (D.nexts s (emitted f c vals)) t).trans
    (Sub.path_unsubIf D (D.term (D.nexts s (emitted f c vals)) t) u)
  have hx : (((onNextOp (E := E) (emitting f) c).sub D).unsubIf
      (((onNextOp (E := E) (emitting f) c).sub D).term (st, y) t) u) =
      (st, D.unsubIf (D.term y t) u) := by
    rcases t with _ | (e | _) <;> cases u <;> rfl
  rw [hx]
  rcases hn with rfl | ⟨h1, h2, h3⟩
  · exact ⟨rfl, rfl⟩
  · refine ⟨?_, ?_⟩
    · rw [hD.path_frozen p2 hinv h2]
      exact (hD.path_frozen p1 hy h1).trans h3
    · rw [hD.path_mono p2 hinv h2]
      exact hD.path_mono p1 hy h1

example : observe (filterOp (E := Nat) fun v i => v % 2 == 0 || i == 3) ⟨[4, 1, 2, 5, 7], some .complete, true⟩ =
    [.next 4, .next 2, .next 5, .complete] := by rfl
example : observe (onNextOp (E := Nat) (emitting fun (st : Nat) v => ([v + st], st % 2 == 0, st + 1)) 0)
    ⟨[10, 20, 30], some (.error 1), false⟩ =
    [.next 10, .next 10, .next 21, .next 32, .next 30, .error 1] := by rfl

/-! ## C09 -/

theorem C09_take_delivers (n : Nat) : Delivers (takeOp (I := I) (E := E) n) true (Spec.take n) :=
  takeOp_delivers n

/-- with at least `n` values: the first `n` and completion, whatever follows -/
theorem C09_take_enough (n : Nat) (h : Hist I E) (hn : n ≤ h.vals.length) :
    observe (takeOp n) h = (h.vals.take n).map .next ++ [.complete] ∧ closedAfter (takeOp n) h = true := by
  obtain ⟨h1, h2⟩ := (C09_take_delivers n).observed h
  rw [h1, h2, Spec.take, if_pos hn]
  exact ⟨rfl, rfl⟩

/-- with fewer: unchanged -/
theorem C09_take_fewer (n : Nat) (h : Hist I E) (hn : h.vals.length < n) :
    observe (takeOp n) h = h.vals.map .next ++ h.termSeen ∧ closedAfter (takeOp n) h = h.ended := by
  obtain ⟨h1, h2⟩ := (C09_take_delivers n).observed h
  rw [h1, h2, Spec.take, if_neg (by omega)]
  exact ⟨rfl, rfl⟩

/-- completion happens at the `n`-th value, without waiting for anything else -/
theorem C09_take_immediate (vs : List I) :
    observe (takeOp (E := E) vs.length) ⟨vs, none, false⟩ = vs.map .next ++ [.complete] ∧
    closedAfter (takeOp (E := E) vs.length) ⟨vs, none, false⟩ = true := by
  simpa using C09_take_enough vs.length (⟨vs, none, false⟩ : Hist I E) (Nat.le_refl _)

/-- `take(0)` completes the destination while subscribing. -/
theorem C09_take_zero_on_subscribe {S : Type} (D : Sub S I E) (s : S) (hs : D.isClosed s = false) :
    ((takeOp 0).init D s).2 = D.complete s := by
  simp [takeOp, hs]

example : observe (takeOp (E := Nat) 2) ⟨[7, 8, 9], some (.error 3), true⟩ = [.next 7, .next 8, .complete] := by rfl
example : (2 : Nat) ≤ [7, 8, 9].length ∧ [7].length < 2 := by decide

/-! ## C10 -/

theorem C10_skip_delivers (n : Nat) : Delivers (skipOp (I := I) (E := E) n) false (Spec.skip n) :=
  skipOp_delivers n
theorem C10_skip (n : Nat) (h : Hist I E) :
    observe (skipOp n) h = (h.vals.drop n).map .next ++ h.termSeen := (C10_skip_delivers n).observed h |>.1

example : observe (skipOp (E := Nat) 2) ⟨[7, 8, 9], some .complete, true⟩ = [.next 9, .complete] := by rfl

/-! ## C11 -/

theorem C11_scan_delivers (f : O → I → O) (seed : O) :
    Delivers (scanOp (E := E) f seed) false (Spec.scan f seed) := scanOp_delivers f seed
theorem C11_scan (f : O → I → O) (seed : O) (h : Hist I E) :
    observe (scanOp f seed) h =
      ((List.range h.vals.length).map fun i => .next ((h.vals.take (i + 1)).foldl f seed)) ++ h.termSeen := by
  rw [((C11_scan_delivers f seed).observed h).1]
  simp [Spec.seen, Spec.scan, Hist.termSeen]

theorem C11_reduce_delivers (f : O → I → O) (seed : O) :
    Delivers (reduceOp (E := E) f seed) false (Spec.reduce f seed) := reduceOp_delivers f seed
theorem C11_reduce (f : O → I → O) (seed : O) (h : Hist I E) :
    observe (reduceOp f seed) h = match h.term with
      | some .complete => [.next (h.vals.foldl f seed), .complete]
      | some (.error e) => [.error e]
      | none => [] := by
  rw [((C11_reduce_delivers f seed).observed h).1]
  rcases h with ⟨vals, _ | (e | _), u⟩ <;> rfl

theorem C11_count_delivers : Delivers (countOp (I := I) (E := E)) false Spec.count := countOp_delivers
theorem C11_count (h : Hist I E) :
    observe countOp h = match h.term with
      | some .complete => [.next h.vals.length, .complete]
      | some (.error e) => [.error e]
      | none => [] := by
  rw [(C11_count_delivers.observed h).1]
  rcases h with ⟨vals, _ | (e | _), u⟩ <;> rfl

example : observe (scanOp (E := Nat) (fun a v => 10 * a + v) 0) ⟨[1, 2, 3], some .complete, true⟩ =
    [.next 1, .next 12, .next 123, .complete] := by rfl
example : observe (reduceOp (E := Nat) (fun a v => 10 * a + v) 0) ⟨[1, 2, 3], some .complete, true⟩ =
    [.next 123, .complete] := by rfl

/-! ## C12 -/

theorem C12_enumerate_delivers : Delivers (enumerateOp (I := I) (E := E)) false Spec.enumerate :=
  enumerateOp_delivers
theorem C12_enumerate (h : Hist I E) (hlen : h.vals.length ≤ 18446744073709551615) :
    observe enumerateOp h = h.vals.zipIdx.map .next ++ h.termSeen := by
  rw [(C12_enumerate_delivers.observed h).1]
  simp only [Spec.seen, Spec.enumerate, Hist.termSeen, List.map_map]
  congr 1
  apply List.map_congr_left
  intro vi hvi
  have := List.snd_lt_of_mem_zipIdx hvi
  have hi : Spec.idx vi.2 = vi.2 := by simp only [Spec.idx]; omega
  simp [hi]

theorem C12_pairwise_delivers : Delivers (pairwiseOp (I := I) (E := E)) false Spec.pairwise :=
  pairwiseOp_delivers
theorem C12_pairwise (h : Hist I E) :
    observe pairwiseOp h = (h.vals.zip (h.vals.drop 1)).map .next ++ h.termSeen :=
  C12_pairwise_delivers.observed h |>.1

theorem C12_buffer_count_delivers {n : Nat} (hn : 0 < n) :
    Delivers (bufferCountOp (I := I) (E := E) n) false (Spec.bufferCount n) := bufferCountOp_delivers hn

/-- buffers with their values -/
theorem C12_buffer_count {n : Nat} (hn : 0 < n) (h : Hist I E) :
    observe (bufferCountOp n) h = (Spec.bufferCount n h).vals.map .next ++ h.termSeen :=
  (C12_buffer_count_delivers hn).observed h |>.1

/-- The complete groups and the remainder partition the values; every group has length `n`, the
remainder is shorter. -/
theorem C12_buffer_count_partition {n : Nat} (hn : 0 < n) (vs : List I) :
    (Spec.fullChunks n vs).flatten ++ Spec.remainder n vs = vs ∧
    (∀ b ∈ Spec.fullChunks n vs, b.length = n) ∧ (Spec.remainder n vs).length < n := by
  refine ⟨?_, ?_, ?_⟩
  · induction vs using snoc_induction with
    | nil => simp [Spec.fullChunks, Spec.remainder]
    | snoc vs v ih =>
      rw [fullChunks_snoc hn, remainder_snoc hn]
      conv => rhs; rw [← ih]
      split <;> simp
  · intro b hb
    simp only [Spec.fullChunks, List.mem_map, List.mem_range] at hb
    obtain ⟨i, hi, rfl⟩ := hb
    have hle := Nat.div_mul_le_self vs.length n
    have h2 : (i + 1) * n ≤ vs.length / n * n := Nat.mul_le_mul_right _ hi
    rw [Nat.add_mul] at h2
    simp only [Spec.chunk, List.length_take, List.length_drop]; omega
  · rw [remainder_length]; exact Nat.mod_lt _ hn

/-- Hence on completion nothing is lost, duplicated or reordered. -/
theorem C12_buffer_count_lossless {n : Nat} (hn : 0 < n) (vs : List I) (u : Bool) :
    (Spec.bufferCount n (⟨vs, some .complete, u⟩ : Hist I E)).vals.flatten = vs := by
  have := (C12_buffer_count_partition hn vs).1
  simp only [Spec.bufferCount, List.flatten_append]
  split
  · simp_all
  · simpa using this

example : observe (bufferCountOp (E := Nat) 2) ⟨[1, 2, 3, 4, 5], some .complete, true⟩ =
    [.next [1, 2], .next [3, 4], .next [5], .complete] := by rfl
example : observe (bufferCountOp (E := Nat) 2) ⟨[1, 2, 3], some (.error 0), true⟩ =
    [.next [1, 2], .error 0] := by rfl
example : observe (pairwiseOp (E := Nat)) ⟨[1, 2, 3], none, true⟩ = [.next (1, 2), .next (2, 3)] := by rfl

/-! ## C13 -/

theorem C13_first_delivers : Delivers (firstOp (I := I) (E := E)) true Spec.first := firstOp_delivers
theorem C13_find_delivers (p : I → Bool) : Delivers (findOp (E := E) p) true (Spec.find p) :=
  findOp_delivers p
theorem C13_find_index_delivers (p : I → Bool) :
    Delivers (findIndexOp (E := E) p) true (Spec.findIndex p) := findIndexOp_delivers p
theorem C13_element_at_delivers (i : Nat) (d : Option I) :
    Delivers (elementAtOp (E := E) i d) true (Spec.elementAt i d) := elementAtOp_delivers i d
theorem C13_is_empty_delivers : Delivers (isEmptyOp (I := I) (E := E)) false Spec.isEmpty :=
  isEmptyOp_delivers

theorem C13_first (h : Hist I E) : observe firstOp h =
    match h.vals, h.term with
    | v :: _, _ => [.next v, .complete]
    | [], some .complete => [.error .noNextObservedBeforeComplete]
    | [], some (.error e) => [.error (.upstream e)]
    | [], none => [] := by
  rw [(C13_first_delivers.observed h).1]
  rcases h with ⟨_ | ⟨v, vals⟩, _ | (e | _), u⟩ <;> rfl

theorem C13_find (p : I → Bool) (h : Hist I E) : observe (findOp p) h =
    match h.vals.find? p, h.term with
    | some v, _ => [.next v, .complete]
    | none, some .complete =>
      [.error (if h.vals = [] then .noNextObservedBeforeComplete else .noMatchObserved)]
    | none, some (.error e) => [.error (.upstream e)]
    | none, none => [] := by
  rw [((C13_find_delivers p).observed h).1]
  obtain ⟨vals, t, u⟩ := h
  simp only [Spec.seen, Spec.find, Spec.search]
  cases hf : vals.find? p with
  | some v => rfl
  | none => rcases t with _ | (e | _) <;> cases vals <;> rfl

theorem C13_find_index (p : I → Bool) (h : Hist I E) : observe (findIndexOp p) h =
    match h.vals.findIdx? p, h.term with
    | some i, _ => [.next i, .complete]
    | none, some .complete =>
      [.error (if h.vals = [] then .noNextObservedBeforeComplete else .noMatchObserved)]
    | none, some (.error e) => [.error (.upstream e)]
    | none, none => [] := by
  rw [((C13_find_index_delivers p).observed h).1]
  obtain ⟨vals, t, u⟩ := h
  simp only [Spec.seen, Spec.findIndex, Spec.search]
  cases hf : vals.findIdx? p with
  | some v => rfl
  | none => rcases t with _ | (e | _) <;> cases vals <;> rfl

theorem C13_element_at (i : Nat) (d : Option I) (h : Hist I E) : observe (elementAtOp i d) h =
    match h.vals[i]?, h.term, d with
    | some v, _, _ => [.next v, .complete]
    | none, some .complete, some d => [.next d, .complete]
    | none, some .complete, none => [.error (.indexOutOfRange i h.vals.length)]
    | none, some (.error e), _ => [.error (.upstream e)]
    | none, none, _ => [] := by
  rw [((C13_element_at_delivers i d).observed h).1]
  obtain ⟨vals, t, u⟩ := h
  simp only [Spec.seen, Spec.elementAt]
  cases hf : vals[i]? with
  | some v => rfl
  | none => rcases t with _ | (e | _) <;> cases d <;> rfl

theorem C13_is_empty (h : Hist I E) : observe isEmptyOp h =
    match h.vals, h.term with
    | _ :: _, _ => [.next false, .complete]
    | [], some .complete => [.next true, .complete]
    | [], some (.error e) => [.error e]
    | [], none => [] := by
  rw [(C13_is_empty_delivers.observed h).1]
  rcases h with ⟨_ | ⟨v, vals⟩, _ | (e | _), u⟩ <;> rfl

/-- The found value is delivered, and the stream completed, at once: nothing more of the upstream
is needed. -/
theorem C13_immediate (pre : List I) (v : I) (p : I → Bool) (hv : p v = true)
    (hpre : ∀ w ∈ pre, p w = false) :
    observe (findOp (E := E) p) ⟨pre ++ [v], none, false⟩ = [.next v, .complete] ∧
    observe (findIndexOp (E := E) p) ⟨pre ++ [v], none, false⟩ = [.next pre.length, .complete] := by
  rw [C13_find, C13_find_index]
  have h1 : (pre ++ [v]).find? p = some v := by
    rw [List.find?_eq_some_iff_append]
    exact ⟨hv, pre, [], rfl, by simpa using hpre⟩
  have h2 : (pre ++ [v]).findIdx? p = some pre.length := by
    rw [List.findIdx?_eq_some_iff_getElem]
    refine ⟨by simp, by simpa using hv, fun j hj => ?_⟩
    rw [List.getElem_append_left hj]
    simpa using hpre _ (List.getElem_mem hj)
  simp [h1, h2]

example : observe (findOp (E := Nat) (· > 5)) ⟨[1, 7, 8], none, false⟩ = [.next 7, .complete] := by rfl
example : observe (elementAtOp (E := Nat) 4 none) ⟨[1, 7, 8], some .complete, false⟩ =
    [.error (.indexOutOfRange 4 3)] := by rfl

/-! ## C14 -/

theorem C14_start_with_delivers (v : I) : Delivers (startWithOp (E := E) v) false (Spec.startWith v) :=
  startWithOp_delivers v
theorem C14_start_with (v : I) (h : Hist I E) :
    observe (startWithOp v) h = .next v :: h.vals.map .next ++ h.termSeen :=
  (C14_start_with_delivers v).observed h |>.1

theorem C14_end_with_delivers (v : I) : Delivers (endWithOp (E := E) v) false (Spec.endWith v) :=
  endWithOp_delivers v
theorem C14_end_with (v : I) (h : Hist I E) : observe (endWithOp v) h = h.vals.map .next ++
    match h.term with
    | some .complete => [.next v, .complete]
    | some (.error e) => [.error e]
    | none => [] := by
  rw [((C14_end_with_delivers v).observed h).1]
  rcases h with ⟨vals, _ | (e | _), u⟩ <;> simp [Spec.seen, Spec.endWith, Spec.termNotification]

/-- on_subscribe runs its program against the destination, once, before anything else. -/
theorem C14_on_subscribe {S : Type} (p : Prog I E Unit) (D : Sub S I E) (s : S)
    (ns : List (SubscriberNotification I E)) :
    (((onSubscribeOp p).sub D).run ((onSubscribeOp p).init D s) ns).2 = D.run (p.run D s).2 ns := by
  have : ∀ (x : Unit × S), (((onSubscribeOp p).sub D).run x ns).2 = D.run x.2 ns := by
    induction ns with
    | nil => intro x; rfl
    | cons n ns ih => intro x; rw [show D.run x.2 (n :: ns) = D.run (D.push x.2 n) ns from rfl,
        ← show (((onSubscribeOp p).sub D).push x n).2 = D.push x.2 n by cases n <;> rfl]; exact ih _
  exact this _

/-- Observer states that look alike from outside, except for registered teardowns. -/
def SameView (s s' : ObsState I E) : Prop :=
  s.seen = s'.seen ∧ s.teardown.closed = s'.teardown.closed

theorem seen_append_tornDown (l : List (Event I E)) (ts : List Nat) :
    List.filterMap Event.asSeen (l ++ ts.map .tornDown) = List.filterMap Event.asSeen l := by
  simp [Function.comp_def, Event.asSeen]

theorem sameView_sim : Sim (observerSubscriber I E) (observerSubscriber I E) SameView := by
  have un : ∀ s s' : ObsState I E, SameView s s' → SameView s.unsubscribe s'.unsubscribe := by
    rintro ⟨⟨c, f⟩, l⟩ ⟨⟨c', f'⟩, l'⟩ ⟨h1, h2⟩
    simp only at h2; subst h2
    simp only [ObsState.seen] at h1
    refine ⟨?_, ?_⟩
    · simp only [ObsState.seen, ObsState.unsubscribe]
      rw [seen_append_tornDown, seen_append_tornDown, h1]
    · cases c <;> rfl
  have ap : ∀ (s s' : ObsState I E) (n : ObserverNotification I E), SameView s s' →
      SameView { s with log := s.log ++ [.seen n] } { s' with log := s'.log ++ [.seen n] } := by
    rintro s s' n ⟨h1, h2⟩
    simp only [ObsState.seen] at h1
    exact ⟨by simp [ObsState.seen, h1], h2⟩
  refine ⟨fun s s' h => h.2, ?_, ?_, ?_, un, ?_⟩
  · intro s s' v h
    have hc : s.teardown.isClosed = s'.teardown.isClosed := h.2
    simp only [observerSubscriber, hc]
    split
    · exact ap _ _ _ h
    · exact h
  · intro s s' e h
    have hc : s.teardown.isClosed = s'.teardown.isClosed := h.2
    simp only [observerSubscriber, hc]
    split
    · exact un _ _ (ap _ _ _ h)
    · exact h
  · intro s s' h
    have hc : s.teardown.isClosed = s'.teardown.isClosed := h.2
    simp only [observerSubscriber, hc]
    split
    · exact un _ _ (ap _ _ _ h)
    · exact h
  · rintro ⟨⟨c, f⟩, l⟩ ⟨⟨c', f'⟩, l'⟩ t ⟨h1, h2⟩
    simp only at h2; subst h2
    simp only [ObsState.seen] at h1
    refine ⟨?_, ?_⟩
    · simp only [ObsState.seen, observerSubscriber]
      rw [seen_append_tornDown, seen_append_tornDown, h1]
    · cases c <;> cases t <;> rfl

theorem sameView_refl (s : ObsState I E) : SameView s s := ⟨rfl, rfl⟩

theorem sameView_trans {a b c : ObsState I E} (h : SameView a b) (h' : SameView b c) : SameView a c :=
  ⟨h.1.trans h'.1, h.2.trans h'.2⟩

theorem sameView_add (s : ObsState I E) (t : Teardown) :
    SameView ((observerSubscriber I E).addTeardown s t) s := by
  obtain ⟨⟨c, f⟩, l⟩ := s
  refine ⟨?_, ?_⟩
  · simp only [ObsState.seen, observerSubscriber]
    rw [seen_append_tornDown]
  · cases c <;> cases t <;> rfl

/-- The `add_teardown` of a chain reaches the bottom and touches nothing else. -/
theorem Pipeline.rel_add : {I E O F : Type} → (p : Pipeline I E O F) → (x : p.St (ObsState O F)) →
    (t : Teardown) → p.Rel SameView ((p.sub (observerSubscriber O F)).addTeardown x t) x
  | _, _, _, _, .nil, x, t => sameView_add x t
  | _, _, _, _, .cons op rest, x, t => by
    have := op.good.add (rest.sub (observerSubscriber _ _)) x t
    simp only [Pipeline.sub, this]
    exact ⟨rfl, rest.rel_add x.2 t⟩

theorem Pipeline.rel_refl : {I E O F : Type} → (p : Pipeline I E O F) → (x : p.St (ObsState O F)) →
    p.Rel SameView x x
  | _, _, _, _, .nil, x => sameView_refl x
  | _, _, _, _, .cons _ rest, x => ⟨rfl, rest.rel_refl x.2⟩

theorem Pipeline.rel_trans : {I E O F : Type} → (p : Pipeline I E O F) → (x y z : p.St (ObsState O F)) →
    p.Rel SameView x y → p.Rel SameView y z → p.Rel SameView x z
  | _, _, _, _, .nil, _, _, _, h, h' => sameView_trans h h'
  | _, _, _, _, .cons _ rest, x, y, z, h, h' => ⟨h.1.trans h'.1, rest.rel_trans _ _ _ h.2 h'.2⟩

/-- A chain with and without a `finalize` somewhere in it cannot be told apart. -/
theorem finalize_sim {M G O F : Type} (q : Pipeline M G O F) (cb : Nat) :
    {I E : Type} → (p : Pipeline I E M G) →
    ∃ R : (p.append (.cons (.finalize cb) q)).St (ObsState O F) → (p.append q).St (ObsState O F) → Prop,
      Sim ((p.append (.cons (.finalize cb) q)).sub (observerSubscriber O F))
        ((p.append q).sub (observerSubscriber O F)) R ∧
      R ((p.append (.cons (.finalize cb) q)).init (observerSubscriber O F) ObsState.new)
        ((p.append q).init (observerSubscriber O F) ObsState.new) ∧
      ∀ x y, R x y → SameView ((p.append (.cons (.finalize cb) q)).bottom x) ((p.append q).bottom y)
  | _, _, .nil => by
    have h := q.sim sameView_sim
    refine ⟨fun x y => q.Rel SameView x.2 y, ⟨?_, ?_, ?_, ?_, ?_, ?_⟩, ?_, ?_⟩
    · exact fun x y hr => h.closed _ _ hr
    · exact fun x y v hr => h.next _ _ v hr
    · exact fun x y v hr => h.error _ _ v hr
    · exact fun x y hr => h.complete _ _ hr
    · exact fun x y hr => h.unsubscribe _ _ hr
    · exact fun x y v hr => h.add _ _ v hr
    · exact q.rel_add _ _
    · exact fun x y hr => q.rel_bottom x.2 y hr
  | _, _, .cons op p => by
    obtain ⟨R, h1, h2, h3⟩ := finalize_sim q cb p
    exact ⟨onState R, op.param.sub h1, op.param.init h1 _ _ h2, fun x y hr => h3 x.2 y.2 hr.2⟩

/-- **C14** finalize is invisible to the observer and to the source, wherever it stands in a chain
and whatever the source does. -/
theorem C14_finalize_transparent {I E M G O F β : Type} (p : Pipeline I E M G) (q : Pipeline M G O F)
    (cb : Nat) (src : Prog I E β) :
    (runToEnd (p.append (.cons (.finalize cb) q)) src).seen = (runToEnd (p.append q) src).seen ∧
    ((p.append (.cons (.finalize cb) q)).subscribe src (observerSubscriber O F) ObsState.new).1 =
      ((p.append q).subscribe src (observerSubscriber O F) ObsState.new).1 := by
  obtain ⟨R, h1, h2, h3⟩ := finalize_sim q cb p
  obtain ⟨h4, h5⟩ := h1.prog h2 src
  exact ⟨(h3 _ _ h5).1, h4⟩

theorem Pipeline.finalizers_append {I E M G O F : Type} (p : Pipeline I E M G) (q : Pipeline M G O F) :
    (p.append q).finalizers = q.finalizers ++ p.finalizers := by
  induction p with
  | nil => simp [Pipeline.append, Pipeline.finalizers]
  | cons op rest ih =>
    simp only [Pipeline.append, Pipeline.finalizers, ih, List.append_assoc]
    cases op <;> rfl

/-- **C14** The callback of a `finalize` runs exactly once if the subscription has ended - by
completion, error or unsubscription - and not before. (`cb` is not used for anything else.) -/
theorem C14_finalize_once {I E M G O F : Type} (p : Pipeline I E M G) (q : Pipeline M G O F) (cb : Nat)
    (hp : (p.append (.cons (.finalize cb) q)).noRawClosures = true)
    (cs : List (Call I E)) (h1 : cb ∉ p.finalizers) (h2 : cb ∉ q.finalizers) (h3 : cb ∉ Call.tdss cs) :
    let s := (p.append (.cons (.finalize cb) q)).bottom (afterCalls _ cs)
    s.tornDown.count cb = if s.teardown.isClosed then 1 else 0 := by
  intro s
  have := C05_each_teardown_once _ hp cs
  simp only [Pipeline.finalizers_append, Pipeline.finalizers] at this
  change s.tornDown = _ at this
  rw [this]
  change List.count cb (if s.teardown.isClosed = true then _ else _) = _
  split
  · simp [List.count_append, List.count_eq_zero.2 h1, List.count_eq_zero.2 h2, List.count_eq_zero.2 h3]
  · rfl

example : (runToEnd ((.cons (.map (· + 1)) .nil : Pipeline Nat Nat Nat Nat).append
    (.cons (.finalize 3) (.cons (.take 1) .nil)))
    (callsProg [.note (.next 1), .note (.next 2)])).log = [.seen (.next 2), .seen .complete, .tornDown 3] := by
  rfl

/-! ## C15 -/

theorem C15_materialize_delivers : Delivers (materializeOp (I := I) (E := E)) false Spec.materialize :=
  materializeOp_delivers
theorem C15_dematerialize_delivers :
    Delivers (dematerializeOp (I := I) (E := E)) true Spec.dematerialize := dematerializeOp_delivers

/-- Materialized streams never error and complete right after the terminal notification value. -/
theorem C15_materialize (h : Hist I E) : observe materializeOp h =
    (h.vals.map fun v => .next (.next v)) ++ match h.term with
      | some (.error e) => [.next (.error e), .complete]
      | some .complete => [.next .complete, .complete]
      | none => [] := by
  rw [(C15_materialize_delivers.observed h).1]
  rcases h with ⟨vals, _ | (e | _), u⟩ <;>
    simp [Spec.seen, Spec.materialize, Spec.termNotification]

theorem dematerialize_materialize (h : Hist I E) : Spec.dematerialize (Spec.materialize h) = h := by
  rcases h with ⟨vals, _ | (e | _), u⟩
  · have h1 := liveValues_map (E := E) vals []
    simp only [List.append_nil] at h1
    simp [Spec.dematerialize, Spec.materialize, h1, Spec.liveValues, Spec.firstTerminal]
  · have h1 := liveValues_map (E := E) vals [.error e]
    simp [Spec.dematerialize, Spec.materialize, Spec.termNotification, h1, Spec.liveValues,
      Spec.firstTerminal]
  · have h1 := liveValues_map (E := E) vals [.complete]
    simp [Spec.dematerialize, Spec.materialize, Spec.termNotification, h1, Spec.liveValues,
      Spec.firstTerminal]

/-- Two operators in a row deliver the composition of what each delivers. -/
theorem Delivers.comp {M G : Type} {a : OpImpl I E M G} {b : OpImpl M G O F} {na nb : Bool}
    {f : Hist I E → Hist M G} {g : Hist M G → Hist O F} {mb : OpMeta b.St} (ha : Delivers a na f)
    (hb : Delivers b nb g) (hgood : b.Good mb) (hreq : mb.req true = true)
    (hgives : na = true → mb.gives true = true) :
    Delivers (compositeOp a b) true (g ∘ f) := by
  intro S α D obs Inv ec hD hec s hs h
  have hr := hec rfl; subst hr
  have hL := hgood.lawful D obs Inv true hD hreq
  have hi : Inv (b.init D s).2 ∧ (mb.latched (b.init D s).1 = true → D.isClosed (b.init D s).2 = true) := by
    obtain ⟨ts, _, hp⟩ := hgood.pathInit D s
    exact ⟨hD.path_inv hp hs, hgood.initLatch D obs Inv true hD hreq s hs⟩
  obtain ⟨h1, h2⟩ := ha _ _ _ _ _ _ hL hgives _ hi h
  obtain ⟨h3, h4⟩ := hb _ _ D obs Inv true hD (fun _ => rfl) s hs (f h)
  have key : ∀ (ns : List (SubscriberNotification I E)) (x : a.St × (b.St × S)),
      ((compositeOp a b).sub D).run (((x.1, x.2.1), x.2.2)) ns =
        (fun y : a.St × (b.St × S) => ((y.1, y.2.1), y.2.2)) ((a.sub (b.sub D)).run x ns) := by
    intro ns
    induction ns with
    | nil => intro x; rfl
    | cons n ns ih =>
      intro x
      have : ((compositeOp a b).sub D).push ((x.1, x.2.1), x.2.2) n =
          (fun y : a.St × (b.St × S) => ((y.1, y.2.1), y.2.2)) ((a.sub (b.sub D)).push x n) := by
        cases n <;> rfl
      simp only [Sub.run, List.foldl_cons] at ih ⊢
      rw [this]
      exact ih _
  have hk : ((compositeOp a b).sub D).run ((compositeOp a b).init D s) h.notes = _ :=
    key h.notes (a.init (b.sub D) (b.init D s))
  rw [hk]
  exact ⟨h1.trans h3, h2.trans h4⟩

/-- **C15** materialize followed by dematerialize delivers exactly the upstream, to any downstream
that closes on error. -/
theorem C15_roundtrip :
    Delivers (compositeOp (materializeOp (I := I) (E := E)) dematerializeOp) true id := by
  have := Delivers.comp (C15_materialize_delivers (I := I) (E := E)) C15_dematerialize_delivers
    dematerializeOp_good rfl (fun h => by cases h)
  have he : Spec.dematerialize ∘ Spec.materialize = (id : Hist I E → Hist I E) :=
    funext dematerialize_materialize
  rwa [he] at this

example : observe (compositeOp (materializeOp (I := Nat) (E := Nat)) dematerializeOp)
    ⟨[1, 2], some (.error 5), true⟩ = [.next 1, .next 2, .error 5] := by rfl

/-! ## C16 -/

theorem C16_into_result_delivers : Delivers (intoResultOp (I := I) (E := E)) false Spec.intoResult :=
  intoResultOp_delivers
theorem C16_lift_result_delivers : Delivers (liftResultOp (I := I) (E := E)) true Spec.liftResult :=
  liftResultOp_delivers

theorem C16_into_result (h : Hist I E) : observe intoResultOp h =
    (h.vals.map fun v => .next (.ok v)) ++ match h.term with
      | some (.error e) => [.next (.error e)]
      | some .complete => [.complete]
      | none => [] := by
  rw [(C16_into_result_delivers.observed h).1]
  rcases h with ⟨vals, _ | (e | _), u⟩ <;> simp [Spec.seen, Spec.intoResult, Spec.termNotification]

theorem liftResult_intoResult (h : Hist I E) : Spec.liftResult (Spec.intoResult h) = h := by
  have hp : ∀ (vals : List I) (rest : List (Except E I)),
      Spec.okPrefix (vals.map .ok ++ rest) = vals ++ Spec.okPrefix rest ∧
      Spec.firstErr (vals.map .ok ++ rest) = Spec.firstErr rest := by
    intro vals rest
    induction vals with
    | nil => simp
    | cons v vs ih => simp [Spec.okPrefix, Spec.firstErr, ih]
  rcases h with ⟨vals, _ | (e | _), u⟩
  · have h1 := hp vals []
    simp only [List.append_nil] at h1
    simp [Spec.liftResult, Spec.intoResult, h1, Spec.okPrefix, Spec.firstErr]
  · have h1 := hp vals [.error e]
    simp [Spec.liftResult, Spec.intoResult, h1, Spec.okPrefix, Spec.firstErr]
  · have h1 := hp vals []
    simp only [List.append_nil] at h1
    simp [Spec.liftResult, Spec.intoResult, h1, Spec.okPrefix, Spec.firstErr, Spec.neverTerm]

/-- **C16** into_result followed by lift_result delivers exactly the upstream. -/
theorem C16_roundtrip :
    Delivers (compositeOp (intoResultOp (I := I) (E := E)) liftResultOp) true id := by
  have := Delivers.comp (C16_into_result_delivers (I := I) (E := E)) C16_lift_result_delivers
    liftResultOp_good rfl (fun h => by cases h)
  have he : Spec.liftResult ∘ Spec.intoResult = (id : Hist I E → Hist I E) :=
    funext liftResult_intoResult
  rwa [he] at this

/-- **C16, the part that fails**: "a stream that ended upstream has ended downstream" is false for
into_result alone: after an error upstream nothing tells downstream that the stream is over. Full
statement: `∀ h, h.term.isSome → closedAfter intoResultOp h = true`. -/
theorem C16_into_result_end_counterexample :
    ∃ h : Hist Nat Nat, h.term.isSome = true ∧ closedAfter intoResultOp h = false :=
  ⟨⟨[1], some (.error 5), false⟩, rfl, rfl⟩

/-- It holds for streams that complete. -/
theorem C16_into_result_end_partial (h : Hist I E) (hc : h.term = some .complete) :
    closedAfter intoResultOp h = true := by
  rw [(C16_into_result_delivers.observed h).2]
  obtain ⟨vals, t, u⟩ := h
  simp only at hc; subst hc; rfl

example : observe (intoResultOp (I := Nat)) ⟨[1, 2], some (.error 5), true⟩ =
    [.next (.ok 1), .next (.ok 2), .next (.error 5)] := by rfl

/-! ## C17 -/

/-- The downstream of tap gets exactly the upstream. -/
theorem C17_tap_delivers (side : ObsState I E) : Delivers (tapOp side) false id := tapOp_delivers side

/-- The side observer of a fresh tap sees exactly the upstream. -/
theorem C17_tap_side {S : Type} (D : Sub S I E) (s : S) (h : Hist I E) :
    (((tapOp .new).sub D).run ((tapOp .new).init D s) h.notes).1.seen = Spec.seen h := by
  have hu := (observer_run (⟨h.vals, h.term, false⟩ : Hist I E)).1
  rw [Sub.run_notes] at hu ⊢
  rw [nexts_of_step (P := tapOp .new) D s (fun vs => (observerSubscriber I E).nexts .new vs) id
    (fun _ v => [v]) rfl (fun _ _ _ => by rw [Sub.nexts_append]; rfl) (by simp)]
  rw [show Spec.seen h = Spec.seen ⟨h.vals, h.term, false⟩ from rfl, ← hu]
  rcases h with ⟨vals, _ | (e | _), _ | _⟩ <;> rfl

/-- `tapShared` on separate states is `tapOp`. -/
theorem tapOp_eq_tapShared {S : Type} (side : ObsState I E) (D : Sub S I E) :
    (tapOp side).sub D = tapShared
      { next := fun x v => ((observerSubscriber I E).next x.1 v, x.2)
        error := fun x e => ((observerSubscriber I E).error x.1 e, x.2)
        complete := fun x => ((observerSubscriber I E).complete x.1, x.2)
        unsubscribe := fun x => ((observerSubscriber I E).unsubscribe x.1, x.2)
        isClosed := fun x => (observerSubscriber I E).isClosed x.1
        addTeardown := fun x t => ((observerSubscriber I E).addTeardown x.1 t, x.2) }
      { next := fun x v => (x.1, D.next x.2 v)
        error := fun x e => (x.1, D.error x.2 e)
        complete := fun x => (x.1, D.complete x.2)
        unsubscribe := fun x => (x.1, D.unsubscribe x.2)
        isClosed := fun x => D.isClosed x.2
        addTeardown := fun x t => (x.1, D.addTeardown x.2 t) } := rfl

/-- A subscriber that only writes the calls it receives to a shared log, tagged with its name. -/
def logger (name : String) : Sub (List (String × SubscriberNotification I E)) I E where
  next l v := l ++ [(name, .next v)]
  error l e := l ++ [(name, .error e)]
  complete l := l ++ [(name, .complete)]
  unsubscribe l := l ++ [(name, .unsubscribe)]
  isClosed _ := false
  addTeardown l _ := l

/-- **C17** Every value and terminal signal reaches the side observer right before downstream; an
unsubscription only reaches downstream. -/
theorem C17_tap_order (ns : List (SubscriberNotification I E)) :
    (tapShared (logger "side") (logger "down")).run [] ns = ns.flatMap fun
      | .unsubscribe => [("down", .unsubscribe)]
      | n => [("side", n), ("down", n)] := by
  have : ∀ l, (tapShared (logger "side") (logger "down")).run l ns = l ++ ns.flatMap fun
      | .unsubscribe => [("down", .unsubscribe)]
      | n => [("side", n), ("down", n)] := by
    induction ns with
    | nil => intro l; simp [Sub.run]
    | cons n ns ih =>
      intro l
      simp only [Sub.run, List.foldl_cons] at ih ⊢
      rw [ih]
      cases n <;> simp [Sub.push, tapShared, logger]
  simpa using this []

/-- **C17, the part that fails**: the side observer is shared by all subscriptions of a tapped
observable and is closed by the first terminal signal, so it does not see later subscriptions. Full
statement: for every `side` left behind by an earlier subscription and every history, the side
observer additionally sees the history. -/
theorem C17_tap_second_subscription_counterexample :
    let first := (((tapOp .new).sub (observerSubscriber Nat Nat)).run
      ((tapOp .new).init (observerSubscriber Nat Nat) .new)
      (Hist.notes ⟨[1], some .complete, true⟩)).1
    let second := ((tapOp first).sub (observerSubscriber Nat Nat)).run
      ((tapOp first).init (observerSubscriber Nat Nat) .new) (Hist.notes ⟨[2, 3], some .complete, true⟩)
    second.2.seen = [.next 2, .next 3, .complete] ∧ second.1.seen = [.next 1, .complete] :=
  ⟨rfl, rfl⟩

/-! ## C18 -/

/-- **C18** A composite operator behaves exactly like the same operators piped one after the other:
for every source program it gives the source the same answers and leaves the destination in the same
state. -/
theorem C18_composite_eq_pipe {I E O F S β : Type} (p : Pipeline I E O F) (D : Sub S O F) (s : S)
    (src : Prog I E β) :
    (src.run (p.composite.sub D) (p.composite.init D s)).1 = (p.subscribe src D s).1 ∧
    (src.run (p.composite.sub D) (p.composite.init D s)).2.2 = p.bottom (p.subscribe src D s).2 := by
  have main : ∀ {I E O F : Type} (p : Pipeline I E O F) (D : Sub S O F),
      ∃ R : p.composite.St × S → p.St S → Prop,
        Sim (p.composite.sub D) (p.sub D) R ∧ R (p.composite.init D s) (p.init D s) ∧
        ∀ x y, R x y → x.2 = p.bottom y := by
    intro I E O F p D
    induction p with
    | nil =>
      refine ⟨fun x y => x.2 = y, ⟨?_, ?_, ?_, ?_, ?_, ?_⟩, rfl, fun _ _ h => h⟩
      · rintro ⟨_, s⟩ _ rfl; rfl
      · rintro ⟨_, s⟩ _ v rfl; rfl
      · rintro ⟨_, s⟩ _ v rfl; rfl
      · rintro ⟨_, s⟩ _ rfl; rfl
      · rintro ⟨_, s⟩ _ rfl; rfl
      · rintro ⟨_, s⟩ _ v rfl; rfl
    | cons op rest ih =>
      obtain ⟨R, h1, h2, h3⟩ := ih D
      have hs := op.param.sub h1
      refine ⟨fun x y => onState R (x.1.1, (x.1.2, x.2)) y, ⟨?_, ?_, ?_, ?_, ?_, ?_⟩, ?_, ?_⟩
      · exact fun x y hr => hs.closed _ _ hr
      · exact fun x y v hr => hs.next _ _ v hr
      · exact fun x y v hr => hs.error _ _ v hr
      · exact fun x y hr => hs.complete _ _ hr
      · exact fun x y hr => hs.unsubscribe _ _ hr
      · exact fun x y v hr => hs.add _ _ v hr
      · exact op.param.init h1 _ _ h2
      · exact fun x y hr => h3 _ _ hr.2
  obtain ⟨R, h1, h2, h3⟩ := main p D
  obtain ⟨h4, h5⟩ := h1.prog h2 src
  exact ⟨h4, h3 _ _ h5⟩

/-- What an operator delivers, for the operators that are functions of the upstream history.
(`on_next`/`on_subscribe` run user code against the subscriber; `finalize` is covered by
`C14_finalize_transparent`.) -/
def Op.spec {I E O F : Type} : Op I E O F → Option (Hist I E → Hist O F)
  | .map f => some (Spec.map f)
  | .mapError f => some (Spec.mapError f)
  | .mapInto f g => some (Spec.mapBoth f g)
  | .mapNeverError _ => some (Spec.mapBoth id (nomatch ·))
  | .mapNeverNext _ => some (Spec.mapBoth (nomatch ·) id)
  | .mapNeverBoth _ _ => some (Spec.mapBoth (nomatch ·) (nomatch ·))
  | .filter p => some (Spec.filter p)
  | .filterMap f => some (Spec.filterMap f)
  | .liftOption => some (Spec.filterMap id)
  | .tapNext _ _ => some id
  | .onNext _ _ => none
  | .identity => some id
  | .take n => some (Spec.take n)
  | .skip n => some (Spec.skip n)
  | .scan f s => some (Spec.scan f s)
  | .reduce f s => some (Spec.reduce f s)
  | .count => some Spec.count
  | .enumerate => some Spec.enumerate
  | .pairwise => some Spec.pairwise
  | .bufferCount n => if 0 < n then some (Spec.bufferCount n) else none
  | .first => some Spec.first
  | .find p => some (Spec.find p)
  | .findIndex p => some (Spec.findIndex p)
  | .elementAt i d => some (Spec.elementAt i d)
  | .isEmpty => some Spec.isEmpty
  | .startWith v => some (Spec.startWith v)
  | .endWith v => some (Spec.endWith v)
  | .finalize _ => none
  | .onSubscribe _ => none
  | .tap _ => some id
  | .materialize => some Spec.materialize
  | .dematerialize => some Spec.dematerialize
  | .intoResult => some Spec.intoResult
  | .liftResult => some Spec.liftResult

/-- The composition of the specifications of a chain. -/
def Pipeline.spec : {I E O F : Type} → Pipeline I E O F → Option (Hist I E → Hist O F)
  | _, _, _, _, .nil => some id
  | _, _, _, _, .cons op rest =>
    match op.spec, rest.spec with
    | some f, some g => some (g ∘ f)
    | _, _ => none

/-- What an operator needs of downstream. -/
theorem Op.delivers {I E O F : Type} (op : Op I E O F) (f : Hist I E → Hist O F)
    (hf : op.spec = some f) : Delivers op.impl (!op.meta.req false) f := by
  cases op <;> simp only [Op.spec, Option.some.injEq, reduceCtorEq] at hf
  case bufferCount n =>
    split at hf
    · cases hf; exact bufferCountOp_delivers (by assumption)
    · cases hf
  all_goals subst hf
  · exact mapOp_delivers _
  · exact mapErrorOp_delivers _
  · exact mapIntoOp_delivers _ _
  · exact mapNeverErrorOp_delivers
  · exact mapNeverNextOp_delivers
  · exact mapNeverBothOp_delivers
  · exact filterOp_delivers _
  · exact filterMapOp_delivers _
  · exact liftOptionOp_delivers
  · exact tapNextOp_delivers _ _
  · exact identityOp_delivers
  · exact takeOp_delivers _
  · exact skipOp_delivers _
  · exact scanOp_delivers _ _
  · exact reduceOp_delivers _ _
  · exact countOp_delivers
  · exact enumerateOp_delivers
  · exact pairwiseOp_delivers
  · exact firstOp_delivers
  · exact findOp_delivers _
  · exact findIndexOp_delivers _
  · exact elementAtOp_delivers _ _
  · exact isEmptyOp_delivers
  · exact startWithOp_delivers _
  · exact endWithOp_delivers _
  · exact tapOp_delivers _
  · exact materializeOp_delivers
  · exact dematerializeOp_delivers
  · exact intoResultOp_delivers
  · exact liftResultOp_delivers

theorem Op.req_true {I E O F : Type} (op : Op I E O F) : op.meta.req true = true := by
  cases op <;> rfl

theorem pipeline_delivers {O F S α : Type} (D : Sub S O F) (obs : S → α) (Inv : S → Prop)
    (ec : Bool) (hD : Lawful D obs Inv ec) (s : S) (hs : Inv s) :
    {I E : Type} → (p : Pipeline I E O F) → (f : Hist I E → Hist O F) → p.spec = some f →
    p.req ec = true → (h : Hist I E) →
    obs (p.bottom ((p.sub D).run (p.init D s) h.notes)) = obs (D.run s (f h).notes) ∧
    (p.sub D).isClosed ((p.sub D).run (p.init D s) h.notes) = D.isClosed (D.run s (f h).notes)
  | _, _, .nil, f, hf, _, h => by
    simp only [Pipeline.spec, Option.some.injEq] at hf
    subst hf
    exact ⟨rfl, rfl⟩
  | _, _, .cons op rest, f, hf, hr, h => by
    simp only [Pipeline.req, Bool.and_eq_true] at hr
    simp only [Pipeline.spec] at hf
    split at hf
    · rename_i f1 g1 hf1 hg1
      simp only [Option.some.injEq] at hf
      subst hf
      have hL := rest.lawful D obs Inv ec hD hr.1
      have hi := rest.init_inv D obs Inv ec hD hr.1 s hs
      obtain ⟨h1, h2⟩ := op.delivers f1 hf1 _ _ _ _ _ _ hL
        (fun hb => by
          cases hg : rest.gives ec with
          | true => rfl
          | false => rw [hg] at hr; simp [hr.2] at hb) _ hi h
      obtain ⟨h3, h4⟩ := pipeline_delivers D obs Inv ec hD s hs rest g1 hg1 hr.1 (f1 h)
      exact ⟨h1.trans h3, h2.trans h4⟩
    · cases hf

/-- **C18** The observer at the end of any chain sees exactly the composition of what the operators
deliver, and the head of the chain is closed iff that composition has ended. `p.req true` rules out
exactly the chains with an operator that needs its downstream to close on error above an
`into_result` (which does not, see `C16_into_result_end_counterexample`). -/
theorem C18_chain_is_composition {I E O F : Type} (p : Pipeline I E O F) (f : Hist I E → Hist O F)
    (hf : p.spec = some f) (hr : p.req true = true) (h : Hist I E) :
    (runToEnd p (callsProg (h.notes.map .note))).seen = Spec.seen (f h) ∧
    headClosed p (afterCalls p (h.notes.map .note)) = (f h).ended := by
  have hrun : ∀ {S : Type} (D : Sub S I E) (ns : List (SubscriberNotification I E)) (s : S),
      D.calls s (ns.map .note) = D.run s ns := by
    intro S D ns
    induction ns with
    | nil => intro s; rfl
    | cons n ns ih => intro s; exact ih _
  obtain ⟨h1, h2⟩ := pipeline_delivers _ _ _ _ (observerSubscriber_lawful O F) ObsState.new trivial
    p f hf hr h
  obtain ⟨h3, h4⟩ := observer_run (f h)
  refine ⟨?_, ?_⟩
  · rw [runToEnd, Pipeline.subscribe, callsProg_run, hrun]
    exact h1.trans h3
  · rw [headClosed, afterCalls, hrun]
    exact h2.trans h4

/-- the same for any downstream that obeys the contract, in any state -/
theorem C18_chain_delivers {I E O F S α : Type} (D : Sub S O F) (obs : S → α) (Inv : S → Prop)
    (hD : Lawful D obs Inv true) (s : S) (hs : Inv s) (p : Pipeline I E O F)
    (f : Hist I E → Hist O F) (hf : p.spec = some f) (hr : p.req true = true) (h : Hist I E) :
    obs (p.bottom ((p.sub D).run (p.init D s) h.notes)) = obs (D.run s (f h).notes) ∧
    (p.sub D).isClosed ((p.sub D).run (p.init D s) h.notes) = D.isClosed (D.run s (f h).notes) :=
  pipeline_delivers D obs Inv true hD s hs p f hf hr h

example : ∃ f, (.cons (.map (· + 1)) (.cons (.take 2) (.cons .count .nil)) : Pipeline Nat Nat Nat Nat).spec = some f ∧
    Spec.seen (f ⟨[4, 5, 6], none, false⟩) = [.next 2, .complete] := ⟨_, rfl, rfl⟩

end Rx
