import Verif.Lemmas.MergeConcat
import Verif.Props.HigherOrder

/-!
# The observables `merge` and `concat`: C69

`D` is any destination that closes when told so, `inputs` any inputs, `l` anything that happens after `subscribe`.
-/

namespace Rx.HigherOrder.Props

open Concurrent

variable {S I E : Type} {D : Sub S I E} {s : S} {limit : Nat} {inputs : List (Src I E)} {l : List (After I E)}
  {y : State S I E}

/-- The limit, but at least one. -/
theorem atLeastOne (limit : Nat) : (if limit = 0 then 1 else limit) = max limit 1 := by
  split <;> omega

theorem concat_is_merge : concat D s inputs l = merge D s 1 inputs l := rfl

theorem merge_run : merge D s limit inputs l =
    Concurrent.run D (max limit 1) { dest := s } (handOver inputs ++ l.map After.event) := by
  rw [merge, atLeastOne]

/-- C69. None of the debug assertions fails, and no counter goes below zero. -/
theorem C69_no_panic (hD : Closes D) (hs : D.isClosed s = false) (limit : Nat) (inputs : List (Src I E))
    (l : List (After I E)) : ∃ y, merge D s limit inputs l = .ok y := by
  rw [merge_run]
  exact C39_no_panic (by omega) hD hs (conforming_whole inputs l)

/-- C69. At no moment are more than `limit` inputs active (one, if the limit is zero). -/
theorem C69_limit (hD : Closes D) (hs : D.isClosed s = false) (hy : merge D s limit inputs l = .ok y) :
    ∀ p, p <+: y.log → (live p).length ≤ max limit 1 :=
  C39_limit (by omega) hD hs (conforming_whole inputs l) (merge_run ▸ hy)

/-- C69. No input is subscribed twice. -/
theorem C69_once (hD : Closes D) (hs : D.isClosed s = false) (hy : merge D s limit inputs l = .ok y) :
    (subsOf y.log).Nodup ∧ ∀ a ∈ subsOf y.log, a < inputs.length := by
  have := C39_once (by omega) hD hs (conforming_whole inputs l) (merge_run ▸ hy)
  rwa [arrivals_whole] at this

/-- C69. The inputs are subscribed in the order given, and while the destination is open none is skipped, and some
wait only while `limit` are active, if none of them stops without completing or an error.
Missing: inputs that do (`C69_stuck`). -/
theorem C69_order_partial (hD : Closes D) (hs : D.isClosed s = false) (ht : NoneStops inputs l)
    (hy : merge D s limit inputs l = .ok y) :
    (subsOf y.log).Pairwise (· < ·) ∧ (D.isClosed y.dest = false → subsOf y.log <+: List.range inputs.length ∧
      ((subsOf y.log).length < inputs.length → (live y.log).length = max limit 1)) := by
  refine ⟨C39_order_partial (by omega) hD hs (conforming_whole inputs l) ht.tidy (merge_run ▸ hy), fun ho => ?_⟩
  have := C39_slots_used_partial (by omega) hD hs (conforming_whole inputs l) ht.tidy (merge_run ▸ hy) ho
  rwa [arrivals_whole] at this

/-- C69. A value an active input emits is delivered at once, and that is all that happens. -/
theorem C69_values (hD : Closes D) (hp : Patient D) (hs : D.isClosed s = false) (hy : merge D s limit inputs l = .ok y)
    (ho : D.isClosed y.dest = false) (a : Nat) (ha : a ∈ live y.log) (v : I) :
    ∃ z, merge D s limit inputs (l ++ [.input a (.next v)]) = .ok z ∧ z.log = y.log ++ [.out (some a) (.next v)] ∧
      z.dest = D.next y.dest v := by
  obtain ⟨z, hz⟩ := C69_no_panic hD hs limit inputs (l ++ [.input a (.next v)])
  refine ⟨z, hz, ?_⟩
  rw [merge_run, List.map_append, ← List.append_assoc] at hz
  exact C39_values (by omega) hD hs (conforming_whole inputs l) (merge_run ▸ hy) ho a ha v (hp _ _ ho) hz

/-- C69. The destination is closed at most once, by the last thing it is told. -/
theorem C69_ends_once (hD : Closes D) (hs : D.isClosed s = false) (hy : merge D s limit inputs l = .ok y) :
    ∀ n ∈ (outsOf y.log).dropLast, n.isClosing = false :=
  C43_ends_once (by omega) hD hs (conforming_whole inputs l) (merge_run ▸ hy)

/-- C69. The destination completes exactly when every input has completed, if none of them fails or stops without
completing. Missing: inputs that stop (`C69_stuck`). -/
theorem C69_completes_iff_partial (hD : Closes D) (hp : Patient D) (hs : D.isClosed s = false) (hw : AllWell inputs l)
    (hy : merge D s limit inputs l = .ok y) :
    .complete ∈ outsOf y.log ↔ ∀ a < inputs.length, a ∈ donesOf y.log := by
  have := C43_completes_iff (by omega) hD hp hs (conforming_whole inputs l) hw.clean (merge_run ▸ hy)
  rw [arrivals_whole] at this
  exact this.trans ⟨fun h => h.2, fun h => ⟨complete_whole inputs l, h⟩⟩

/-- C69. An error of an active input is delivered; then every input is unsubscribed, and nothing happens any more. -/
theorem C69_error (hD : Closes D) (hs : D.isClosed s = false) (hy : merge D s limit inputs l = .ok y)
    (ho : D.isClosed y.dest = false) (a : Nat) (ha : a ∈ live y.log) (e : E) :
    ∃ (z : State S I E) (ended : List Nat), merge D s limit inputs (l ++ [.input a (.error e)]) = .ok z ∧
      z.log = y.log ++ .out (some a) (.error e) :: ended.map Log.done ∧ live z.log = [] ∧
      ∀ l', ∃ w, merge D s limit inputs (l ++ .input a (.error e) :: l') = .ok w ∧ w.log = z.log := by
  obtain ⟨z, d, hz, h1, h2, h3⟩ :=
    C43_inner_error (by omega) hD hs (conforming_whole inputs l) (merge_run ▸ hy) ho a ha e
  refine ⟨z, d, ?_, h1, h2, fun l' => ?_⟩
  · rw [merge_run, List.map_append, ← List.append_assoc]
    exact hz
  · obtain ⟨w, hw, h⟩ := h3 (l'.map After.event)
    refine ⟨w, ?_, h⟩
    rw [merge_run, show l ++ .input a (.error e) :: l' = (l ++ [.input a (.error e)]) ++ l' by simp, List.map_append,
      List.map_append, ← List.append_assoc, ← List.append_assoc, run_append]
    show (Concurrent.run D (max limit 1) { dest := s } (handOver inputs ++ l.map After.event ++ [.inner a (.error e)]) >>= _) = _
    rw [hz]
    exact hw

/-- C69. An error delivered, also one of an input while it is being subscribed, is the end of every input. -/
theorem C69_error_ends_everything (hD : Closes D) (hs : D.isClosed s = false) (hy : merge D s limit inputs l = .ok y)
    (e : E) (he : .error e ∈ outsOf y.log) :
    live y.log = [] ∧ ∀ l', ∃ z, merge D s limit inputs (l ++ l') = .ok z ∧ z.log = y.log := by
  rw [merge_run] at hy
  obtain ⟨h1, h2⟩ := C43_error_ends_everything (by omega) hD hs (conforming_whole inputs l) hy e he
  refine ⟨h1, fun l' => ?_⟩
  obtain ⟨z, hz, h⟩ := h2 (l'.map After.event)
  refine ⟨z, ?_, h⟩
  rw [merge_run, List.map_append, ← List.append_assoc, run_append, hy]
  exact hz

/-- C69. If the inputs emit everything while they are being subscribed, the destination is given what they emit one
after the other, until one fails, and completes if none does: whatever the limit. No input is active any more, and
nothing happens afterwards. -/
theorem C69_synchronous (hD : Closes D) (hp : Patient D) (hs : D.isClosed s = false) (limit : Nat) (ps : List (Sync I E))
    (l : List (After I E)) :
    ∃ y, merge D s limit (ps.map Sync.src) l = .ok y ∧ outsOf y.log = playAll ps ∧
      y.dest = (playAll ps).foldl D.push s ∧ live y.log = [] := by
  have hidle : Idle D ({ dest := s } : State S I E) := ⟨hs, rfl, rfl, rfl, rfl, rfl, rfl, rfl, rfl⟩
  obtain ⟨x, h1, h2, h3, h4⟩ := play (limit := max limit 1) (by omega) hD hp ps hidle
  obtain ⟨y, k1, k2, k3, k4⟩ := dead_all (limit := max limit 1) (l.map After.event) h2
  have hy : merge D s limit (ps.map Sync.src) l = .ok y := by
    rw [merge_run, run_append, h1]
    exact k1
  refine ⟨y, hy, ?_, k3.trans h3, ?_⟩
  · rw [k2, h4]
    rfl
  · have h := inv_any (limit := max limit 1) (by omega) hD hs (conforming_whole _ l) (merge_run ▸ hy)
    exact live_dead h.base k4

/-- C69, `concat`. An input is subscribed only when all those subscribed before have ended. -/
theorem C69_concat_one_by_one (hD : Closes D) (hs : D.isClosed s = false) (hy : concat D s inputs l = .ok y)
    (p q : List (Log I E)) (b : Nat) (h : y.log = p ++ .sub b :: q) : ∀ a ∈ subsOf p, a ∈ donesOf p :=
  C40_one_after_the_other hD hs (conforming_whole inputs l) hy p q b h

theorem mem_valuesFrom {p : List (Log I E)} {a : Nat} (h : a ∈ valuesFrom p) :
    ∃ v p1 p2, p = p1 ++ .out (some a) (.next v) :: p2 := by
  simp only [valuesFrom, List.mem_filterMap] at h
  obtain ⟨x, hx, h⟩ := h
  obtain ⟨p1, p2, rfl⟩ := List.append_of_mem hx
  match x, h with
  | .out (some b) (.next v), h =>
    cases h
    exact ⟨v, p1, p2, rfl⟩

/-- C69, `concat`. The values of an input come before those of every later input, if no input stops without
completing or an error. Missing: inputs that do; there the order is that of `C69_concat_one_by_one`. -/
theorem C69_concat_values_partial (hD : Closes D) (hs : D.isClosed s = false) (ht : NoneStops inputs l)
    (hy : concat D s inputs l = .ok y) : (valuesFrom y.log).Pairwise (· ≤ ·) := by
  have hord := (C69_order_partial (limit := 1) hD hs ht hy).1
  suffices h : ∀ p, p <+: y.log → (valuesFrom p).Pairwise (· ≤ ·) from h _ (List.prefix_refl _)
  intro p
  refine snoc_induction (motive := fun p => p <+: y.log → (valuesFrom p).Pairwise (· ≤ ·)) (fun _ => List.Pairwise.nil) ?_ p
  intro p x ih hpx
  have hp : p <+: y.log := (List.prefix_append p [x]).trans hpx
  have ih := ih hp
  rw [valuesFrom, List.filterMap_append, List.pairwise_append]
  refine ⟨ih, ?_, ?_⟩
  · cases hx : x.valueOf <;> simp [hx]
  intro a ha b hb
  have hx : x.valueOf = some b := by
    cases hx : x.valueOf <;> simp_all
  obtain ⟨v, rfl⟩ : ∃ v, x = .out (some b) (.next v) := by
    match x, hx with
    | .out (some c) (.next v), h =>
      cases h
      exact ⟨v, rfl⟩
  obtain ⟨q, hq⟩ := hpx
  have hb := (C40_values hD hs (conforming_whole inputs l) hy p q b v (by rw [← hq]; simp)).1
  obtain ⟨w, p1, p2, rfl⟩ := mem_valuesFrom ha
  have ha := (C40_values hD hs (conforming_whole inputs l) hy p1 (p2 ++ .out (some b) (.next v) :: q) a w
    (by rw [← hq]; simp)).1
  apply Nat.le_of_not_lt
  intro hlt
  have ha : a ∈ subsOf p1 := (List.mem_filter.1 ha).1
  simp only [subsOf, List.mem_filterMap] at ha
  obtain ⟨z, hz, ha⟩ := ha
  obtain rfl : z = .sub a := by
    match z, ha with
    | .sub c, ha =>
      cases ha
      rfl
  obtain ⟨r1, r2, rfl⟩ := List.append_of_mem hz
  obtain ⟨hbs, hbd⟩ := List.mem_filter.1 hb
  rw [← hq] at hord
  have hone := C69_concat_one_by_one hD hs hy r1
    (r2 ++ .out (some a) (.next w) :: p2 ++ .out (some b) (.next v) :: q) a (by rw [← hq]; simp) b
  have hbr : b ∈ subsOf r1 := by
    simp only [subsOf, List.filterMap_append, List.filterMap_cons, Log.asSub, List.append_assoc] at hbs hord ⊢
    rcases List.mem_append.1 hbs with h | h
    · exact h
    · exfalso
      have h1 := (List.pairwise_append.1 hord).2.1
      rcases List.mem_cons.1 h with h | h
      · omega
      · have := (List.pairwise_cons.1 h1).1 b (by
          rcases List.mem_append.1 h with h | h
          · exact List.mem_append_left _ h
          · exact List.mem_append_right _ (List.mem_append_left _ h))
        omega
  have := hone hbr
  have hd : b ∈ donesOf (r1 ++ .sub a :: r2 ++ .out (some a) (.next w) :: p2) := by
    simp only [donesOf, List.filterMap_append, List.append_assoc] at this ⊢
    exact List.mem_append_left _ this
  simp at hbd hd
  exact hbd hd

/-- C69, `concat`, inputs that emit everything while they are being subscribed. -/
theorem C69_concat_synchronous (hD : Closes D) (hp : Patient D) (hs : D.isClosed s = false) (ps : List (Sync I E)) :
    ∃ y, concat D s (ps.map Sync.src) [] = .ok y ∧ outsOf y.log = playAll ps ∧
      y.dest = (playAll ps).foldl D.push s ∧ live y.log = [] :=
  C69_synchronous hD hp hs 1 ps []

/-- C69. With a limit above one, unsubscribing unsubscribes every input, and that is the end.
Missing: `concat`, and `merge` with a limit of one (`C69_concat_leaks`). -/
theorem C69_unsubscribe_partial (hl : 2 ≤ limit) (hD : Closes D) (hs : D.isClosed s = false)
    (hy : merge D s limit inputs (l ++ [.unsubscribe]) = .ok y) :
    live y.log = [] ∧ D.isClosed y.dest = true ∧
      ∀ l', ∃ z, merge D s limit inputs (l ++ .unsubscribe :: l') = .ok z ∧ z.log = y.log := by
  rw [merge_run, List.map_append, ← List.append_assoc] at hy
  have hc := conforming_whole inputs (l ++ [.unsubscribe])
  rw [List.map_append, ← List.append_assoc] at hc
  obtain ⟨h1, h2, h3⟩ := C43_unsubscribe_partial (by omega) hD hs hc hy
  refine ⟨h1, h2, fun l' => ?_⟩
  obtain ⟨z, hz, h⟩ := h3 (l'.map After.event)
  refine ⟨z, ?_, h⟩
  rw [merge_run, show l ++ .unsubscribe :: l' = (l ++ [.unsubscribe]) ++ l' by simp, List.map_append,
      List.map_append, ← List.append_assoc, ← List.append_assoc, run_append, hy]
  exact hz

/-! ## Concrete cases and counterexamples -/

/-- What happens if the destination is an observer. -/
def mergedLog (limit : Nat) (inputs : List (Src Nat Nat)) (l : List (After Nat Nat)) : Option (List (Log Nat Nat)) :=
  match merge (observerSubscriber Nat Nat) .new limit inputs l with
  | .ok y => some y.log
  | .error _ => none

/-- Three inputs, two at a time; all is well, and the destination completes with the last of them. -/
example : AllWell (E := Nat) [[], [.next 5], [.next 7, .complete]]
      [.input 0 (.next 4), .input 1 .complete, .input 0 .complete] ∧
    mergedLog 2 [[], [.next 5], [.next 7, .complete]] [.input 0 (.next 4), .input 1 .complete, .input 0 .complete] =
      some [.sub 0, .sub 1, .out (some 1) (.next 5), .out (some 0) (.next 4), .done 1, .sub 2,
        .out (some 2) (.next 7), .done 2, .done 0, .out (some 0) .complete] := by
  refine ⟨?_, by decide +kernel⟩
  simp [AllWell, NoneStops]

/-- The same, one at a time (a limit of zero is taken for one). What input 1 does before it is subscribed is not
listened to, so it never completes. -/
example : mergedLog 0 [[], [.next 5], [.next 7, .complete]] [.input 0 (.next 4), .input 1 .complete, .input 0 .complete] =
    some [.sub 0, .out (some 0) (.next 4), .done 0, .sub 1, .out (some 1) (.next 5)] := by
  decide +kernel

example : mergedLog 1 (([⟨[1, 2], none⟩, ⟨[], none⟩, ⟨[3], some 9⟩, ⟨[4], none⟩] : List (Sync Nat Nat)).map Sync.src) [] =
      some [.sub 0, .out (some 0) (.next 1), .out (some 0) (.next 2), .done 0, .sub 1, .done 1, .sub 2,
        .out (some 2) (.next 3), .out (some 2) (.error 9), .done 2] ∧
    playAll ([⟨[1, 2], none⟩, ⟨[], none⟩, ⟨[3], some 9⟩, ⟨[4], none⟩] : List (Sync Nat Nat)) =
      [.next 1, .next 2, .next 3, .error 9] := by
  decide +kernel

/-- Nothing to play. -/
example : mergedLog 4 [] [] = some [.out none .complete] := by decide +kernel

/-- Two active, one waiting, and the whole is unsubscribed. -/
example : mergedLog 2 [[], [], []] [.unsubscribe] = some [.sub 0, .sub 1, .out none .unsubscribe, .done 0, .done 1] := by
  decide +kernel

/-- C69 fails: unsubscribing a `concat` subscribes the input waiting, which stays subscribed. -/
theorem C69_concat_leaks :
    (match concat (observerSubscriber Nat Nat) .new [[], []] [.unsubscribe] with
      | .ok y => some (y.log, live y.log)
      | .error _ => none) = some ([.sub 0, .out none .unsubscribe, .done 0, .sub 1], [1]) := by
  decide +kernel

/-- C69 fails: an input that stops without completing does not give way to the one waiting, if one has completed
before, which is never subscribed; the destination waits for ever. -/
theorem C69_stuck :
    mergedLog 1 [[.complete], [], [.next 3, .complete]] [.input 1 .unsubscribe] =
      some [.sub 0, .done 0, .sub 1, .done 1] := by
  decide +kernel

end Rx.HigherOrder.Props
