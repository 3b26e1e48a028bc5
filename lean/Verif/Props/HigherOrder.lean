import Verif.Lemmas.Single

/-!
# Higher-order operators: C39 - C43

`D` is any destination that closes when told so. `es` is any history of the outer and the inner observables;
`Conforming` is about the outer one: it does not go on after `error` or `complete`.
-/

namespace Rx.HigherOrder.Props

variable {S I E : Type}

theorem meets_any (e : Event I E) : Concurrent.Meets False False e := ⟨fun h => h.elim, fun h => h.elim, fun h => h.elim⟩

theorem meets_tidy {es : List (Event I E)} (h : Tidy es) : ∀ e ∈ es, Concurrent.Meets True False e :=
  fun e he => ⟨fun _ => h e he, fun h => h.elim, fun h => h.elim⟩

theorem only_imp {p q : SubscriberNotification I E → Prop} (h : ∀ n, p n → q n) {e : Event I E} (he : e.Only p) : e.Only q := by
  cases e with
  | inner a n => exact h n he
  | outer n =>
    cases n with
    | next src => exact fun m hm => h m (he m hm)
    | error _ => trivial
    | complete => trivial
    | unsubscribe => trivial

theorem meets_clean {es : List (Event I E)} (h : Clean es) : ∀ e ∈ es, Concurrent.Meets True True e := by
  intro e he
  refine ⟨fun _ => only_imp (fun _ h => h.1) (h.1 e he), fun _ => only_imp (fun _ h => h.2) (h.1 e he), ?_⟩
  rintro _ n rfl
  exact h.2 n (List.mem_filterMap.2 ⟨_, he, rfl⟩)

section Concurrent
open Concurrent
variable {D : Sub S I E} {limit : Nat} {s : S} {es : List (Event I E)} {y : State S I E}

/-! ## C39: merge -/

/-- None of the debug assertions fails, and no counter goes below zero. -/
theorem C39_no_panic (hl : 0 < limit) (hD : Closes D) (hs : D.isClosed s = false) (hc : Conforming (outerNotes es)) :
    ∃ y, run D limit { dest := s } es = .ok y :=
  let ⟨y, hy, _⟩ := run_inv (tidy := False) (clean := False) hl hD (fun h => h.elim) (fun h => h.elim) hs es hc
    (fun e _ => meets_any e)
  ⟨y, hy⟩

theorem inv_any (hl : 0 < limit) (hD : Closes D) (hs : D.isClosed s = false) (hc : Conforming (outerNotes es))
    (hy : run D limit { dest := s } es = .ok y) : Inv D limit False False es y := by
  obtain ⟨z, hz, h⟩ := run_inv (tidy := False) (clean := False) hl hD (fun h => h.elim) (fun h => h.elim) hs es hc
    (fun e _ => meets_any e)
  rw [hy] at hz
  cases hz
  exact h

theorem inv_tidy (hl : 0 < limit) (hD : Closes D) (hs : D.isClosed s = false) (hc : Conforming (outerNotes es))
    (ht : Tidy es) (hy : run D limit { dest := s } es = .ok y) : Inv D limit True False es y := by
  obtain ⟨z, hz, h⟩ := run_inv (tidy := True) (clean := False) hl hD (fun h => h.elim) (fun _ => trivial) hs es hc
    (meets_tidy ht)
  rw [hy] at hz
  cases hz
  exact h

theorem inv_clean (hl : 0 < limit) (hD : Closes D) (hp : Patient D) (hs : D.isClosed s = false)
    (hc : Conforming (outerNotes es)) (ht : Clean es) (hy : run D limit { dest := s } es = .ok y) :
    Inv D limit True True es y := by
  obtain ⟨z, hz, h⟩ := run_inv (tidy := True) (clean := True) hl hD (fun _ => hp) (fun _ => trivial) hs es hc
    (meets_clean ht)
  rw [hy] at hz
  cases hz
  exact h

/-- C39. At no moment are more than `limit` inner observables active. -/
theorem C39_limit (hl : 0 < limit) (hD : Closes D) (hs : D.isClosed s = false) (hc : Conforming (outerNotes es))
    (hy : run D limit { dest := s } es = .ok y) : ∀ p, p <+: y.log → (live p).length ≤ limit :=
  (inv_any hl hD hs hc hy).base.bound

/-- C39. None is subscribed twice, and only ones that have arrived. -/
theorem C39_once (hl : 0 < limit) (hD : Closes D) (hs : D.isClosed s = false) (hc : Conforming (outerNotes es))
    (hy : run D limit { dest := s } es = .ok y) :
    (subsOf y.log).Nodup ∧ ∀ a ∈ subsOf y.log, a < arrivals es := by
  have h := inv_any hl hD hs hc hy
  refine ⟨(List.nodup_append.1 h.base.once).1, fun a ha => ?_⟩
  rw [← h.arrived]
  exact h.base.lt a (List.mem_append_left _ ha)

/-- C39. They are subscribed in the order of their arrival, if none of them is just unsubscribed.
Missing: inner observables that unsubscribe their subscriber without completing (`C40_overtaken`). -/
theorem C39_order_partial (hl : 0 < limit) (hD : Closes D) (hs : D.isClosed s = false) (hc : Conforming (outerNotes es))
    (ht : Tidy es) (hy : run D limit { dest := s } es = .ok y) : (subsOf y.log).Pairwise (· < ·) :=
  (List.pairwise_append.1 ((inv_tidy hl hD hs hc ht hy).base.order trivial)).1

/-- C39. None is skipped, and some wait only while `limit` are active: a free slot is used at once.
Missing: as above. -/
theorem C39_slots_used_partial (hl : 0 < limit) (hD : Closes D) (hs : D.isClosed s = false)
    (hc : Conforming (outerNotes es)) (ht : Tidy es) (hy : run D limit { dest := s } es = .ok y)
    (ho : D.isClosed y.dest = false) :
    subsOf y.log <+: List.range (arrivals es) ∧
      ((subsOf y.log).length < arrivals es → (live y.log).length = limit) := by
  have h := inv_tidy hl hD hs hc ht hy
  have hop := (inv_open h (by rw [(inv_closed h).2]; exact ho)).1
  have hall := hop.all trivial
  rw [h.arrived] at hall
  refine ⟨⟨_, hall⟩, fun hlt => ?_⟩
  have hq : y.queue ≠ [] := fun hq => by
    rw [hq] at hall
    simp only [List.map_nil, List.append_nil] at hall
    rw [hall, List.length_range] at hlt
    omega
  have := hop.full trivial hq
  have := h.base.len
  simp only [List.length_nil] at *
  omega

/-- C39. A value of an active inner observable is delivered at once, as the only effect. -/
theorem C39_values (hl : 0 < limit) (hD : Closes D) (hs : D.isClosed s = false) (hc : Conforming (outerNotes es))
    (hy : run D limit { dest := s } es = .ok y) (ho : D.isClosed y.dest = false) (a : Nat) (ha : a ∈ live y.log) (v : I)
    (hv : D.isClosed (D.next y.dest v) = false) {z : State S I E}
    (hz : run D limit { dest := s } (es ++ [.inner a (.next v)]) = .ok z) :
    z.log = y.log ++ [.out (some a) (.next v)] ∧ z.dest = D.next y.dest v := by
  have h := inv_any hl hD hs hc hy
  exact value_step h (by rw [(inv_closed h).2]; exact ho) ha v (run_snoc hy hz) hv

/-- C39. Inner observables that are not active are not listened to. -/
theorem C39_inactive_ignored (hl : 0 < limit) (hD : Closes D) (hs : D.isClosed s = false)
    (hc : Conforming (outerNotes es)) (hy : run D limit { dest := s } es = .ok y) (a : Nat) (ha : a ∉ live y.log)
    (n : SubscriberNotification I E) : run D limit { dest := s } (es ++ [.inner a n]) = .ok y := by
  rw [run_append, hy]
  simp only [run, bind, Except.bind, List.foldlM_cons, List.foldlM_nil,
    ignored_step (inv_any hl hD hs hc hy) ha n, pure, Except.pure]

/-- C39. If there is a free slot, an arriving inner observable is subscribed at once, and what it emits then is
delivered. -/
theorem C39_started (hl : 0 < limit) (hD : Closes D) (hp : Patient D) (hs : D.isClosed s = false)
    (hc : Conforming (outerNotes es)) (hy : run D limit { dest := s } es = .ok y) (ho : D.isClosed y.dest = false)
    (hfree : (live y.log).length < limit) (vs : List I) {z : State S I E}
    (hz : run D limit { dest := s } (es ++ [.outer (.next (vs.map .next))]) = .ok z) :
    z.log = y.log ++ .sub (arrivals es) :: vs.map fun v => .out (some (arrivals es)) (.next v) := by
  have h := inv_any hl hD hs hc hy
  exact start_step h (by rw [(inv_closed h).2]; exact ho) hfree hp vs (run_snoc hy hz)

/-! ## C40: concat -/

/-- C40. With a limit of one, an inner observable is subscribed when all earlier ones have ended. -/
theorem C40_one_after_the_other (hD : Closes D) (hs : D.isClosed s = false) (hc : Conforming (outerNotes es))
    (hy : run D 1 { dest := s } es = .ok y) (p q : List (Log I E)) (b : Nat) (h : y.log = p ++ .sub b :: q) :
    ∀ a ∈ subsOf p, a ∈ donesOf p :=
  (inv_any (by omega) hD hs hc hy).base.one_after h

/-- C40. When a value is delivered, every other inner observable subscribed so far has ended. -/
theorem C40_values (hD : Closes D) (hs : D.isClosed s = false) (hc : Conforming (outerNotes es))
    (hy : run D 1 { dest := s } es = .ok y) (p q : List (Log I E)) (b : Nat) (v : I)
    (h : y.log = p ++ .out (some b) (.next v) :: q) : b ∈ live p ∧ ∀ a ∈ subsOf p, a ≠ b → a ∈ donesOf p :=
  (inv_any (by omega) hD hs hc hy).base.alone h

/-- C40. The inner observables are played in the order of their arrival, none skipped, if none of them is just
unsubscribed. Missing: those that unsubscribe their subscriber without completing (`C40_overtaken`). -/
theorem C40_order_partial (hD : Closes D) (hs : D.isClosed s = false) (hc : Conforming (outerNotes es)) (ht : Tidy es)
    (hy : run D 1 { dest := s } es = .ok y) :
    (subsOf y.log).Pairwise (· < ·) ∧ (D.isClosed y.dest = false → subsOf y.log <+: List.range (arrivals es)) :=
  ⟨C39_order_partial (by omega) hD hs hc ht hy, fun ho => (C39_slots_used_partial (by omega) hD hs hc ht hy ho).1⟩

/-! ## C43: completion and errors -/

/-- C43. The destination is closed at most once, by the last thing it is told. -/
theorem C43_ends_once (hl : 0 < limit) (hD : Closes D) (hs : D.isClosed s = false) (hc : Conforming (outerNotes es))
    (hy : run D limit { dest := s } es = .ok y) : ∀ n ∈ (outsOf y.log).dropLast, n.isClosing = false :=
  (inv_any hl hD hs hc hy).base.outs

/-- C43. The destination completes exactly when the outer observable has completed and every inner observable
that arrived has completed. -/
theorem C43_completes_iff (hl : 0 < limit) (hD : Closes D) (hp : Patient D) (hs : D.isClosed s = false)
    (hc : Conforming (outerNotes es)) (ht : Clean es) (hy : run D limit { dest := s } es = .ok y) :
    .complete ∈ outsOf y.log ↔ .complete ∈ outerNotes es ∧ ∀ a < arrivals es, a ∈ donesOf y.log := by
  have h := inv_clean hl hD hp hs hc ht hy
  constructor
  · intro hm
    obtain ⟨h1, h2, h3, h4⟩ := h.base.compl hm
    refine ⟨h.upC h1, fun a ha => Classical.not_not.1 fun hd => ?_⟩
    have hsub : a ∈ subsOf y.log := by
      rw [h4 trivial, h.arrived]
      exact List.mem_range.2 ha
    have := mem_live.2 ⟨hsub, hd⟩
    rw [h2] at this
    cases this
  · rintro ⟨hm, hall⟩
    cases hd : D.isClosed y.dest
    · have ho : y.outerClosed = false := by rw [(inv_closed h).2]; exact hd
      obtain ⟨hop, hw⟩ := inv_open h ho
      rcases hw ho (h.upO ho hm) with hne | hne
      · obtain ⟨a, ha⟩ := List.exists_mem_of_ne_nil _ hne
        have hlv := mem_live.1 ((opened_live h a).1 ha)
        refine absurd (hall a ?_) hlv.2
        rw [← h.arrived]
        exact h.base.lt a (List.mem_append_left _ hlv.1)
      · obtain ⟨⟨a, src⟩, ha⟩ := List.exists_mem_of_ne_nil _ hne
        have haq : a ∈ y.queue.map (·.1) := List.mem_map.2 ⟨_, ha, rfl⟩
        have hd := hall a (by rw [← h.arrived]; exact h.base.lt a (List.mem_append_right _ haq))
        exact absurd rfl ((List.nodup_append.1 h.base.once).2.2 a (h.base.dsub a hd) a haq)
    · exact h.base.endc trivial hd

/-- C43. The error of an active inner observable is delivered at once; all others are unsubscribed, and nothing
happens any more. -/
theorem C43_inner_error (hl : 0 < limit) (hD : Closes D) (hs : D.isClosed s = false) (hc : Conforming (outerNotes es))
    (hy : run D limit { dest := s } es = .ok y) (ho : D.isClosed y.dest = false) (a : Nat) (ha : a ∈ live y.log) (e : E) :
    ∃ (z : State S I E) (l : List Nat), run D limit { dest := s } (es ++ [.inner a (.error e)]) = .ok z ∧
      z.log = y.log ++ .out (some a) (.error e) :: l.map Log.done ∧ live z.log = [] ∧
      ∀ es', ∃ w, run D limit z es' = .ok w ∧ w.log = z.log := by
  have h := inv_any hl hD hs hc hy
  obtain ⟨z, hz⟩ := C39_no_panic (es := es ++ [.inner a (.error e)]) hl hD hs (by rw [outerNotes_snoc_inner]; exact hc)
  obtain ⟨⟨l, h1⟩, h2, h3⟩ := error_step hl hD h (by rw [(inv_closed h).2]; exact ho) ha e (fun h => h) (run_snoc hy hz)
  exact ⟨z, l, hz, h1, live_dead h3 h2, fun es' => dead_run es' h2⟩

/-- C43. The same for an error of the outer observable. -/
theorem C43_outer_error (hl : 0 < limit) (hD : Closes D) (hs : D.isClosed s = false)
    (hy : run D limit { dest := s } es = .ok y) (ho : D.isClosed y.dest = false) (e : E)
    (hc : Conforming (outerNotes (es ++ [.outer (.error e)]))) :
    ∃ (z : State S I E) (l : List Nat), run D limit { dest := s } (es ++ [.outer (.error e)]) = .ok z ∧
      z.log = y.log ++ .out none (.error e) :: l.map Log.done ∧ live z.log = [] ∧
      ∀ es', ∃ w, run D limit z es' = .ok w ∧ w.log = z.log := by
  have hc' := hc
  rw [outerNotes_snoc_outer, conforming_snoc] at hc'
  have h := inv_any hl hD hs hc'.1 hy
  have hxo : y.outerClosed = false := by rw [(inv_closed h).2]; exact ho
  obtain ⟨z, hz, h1, _, h2⟩ := error_inv hD h e hc (fun h => h)
  obtain ⟨l, h3⟩ := h2 hxo
  have hcl : D.isClosed z.dest = true := by
    cases hd : D.isClosed z.dest
    · have := h1.base.quiet hd (.error e) (by rw [h3]; simp [outsOf, Log.asOut])
      cases this
    · rfl
  have hdead : Dead D [] z := by
    rcases h1.phase with ⟨k, _⟩ | k | ⟨_, ⟨_, k⟩, _⟩
    · rw [k.dest] at hcl; cases hcl
    · exact k
    · exfalso
      rw [h3] at k
      have hm : SubscriberNotification.unsubscribe ∈ outsOf y.log := by
        simpa [outsOf, Log.asOut] using k
      have := h.base.quiet ho _ hm
      cases this
  refine ⟨z, l, ?_, h3, live_dead h1.base hdead, fun es' => dead_run es' hdead⟩
  rw [run_append, hy]
  simp only [run, bind, Except.bind, List.foldlM_cons, List.foldlM_nil, step, hz, pure, Except.pure]

/-- C43. Whatever the source of an error delivered (also an inner observable that fails while it is being
subscribed), everything has ended then. -/
theorem C43_error_ends_everything (hl : 0 < limit) (hD : Closes D) (hs : D.isClosed s = false)
    (hc : Conforming (outerNotes es)) (hy : run D limit { dest := s } es = .ok y) (e : E) (he : .error e ∈ outsOf y.log) :
    live y.log = [] ∧ ∀ es', ∃ z, run D limit y es' = .ok z ∧ z.log = y.log := by
  have h := inv_any hl hD hs hc hy
  have hdead : Dead D [] y := by
    rcases h.phase with ⟨k, _⟩ | k | ⟨_, ⟨_, k⟩, _⟩
    · have := h.base.quiet k.dest _ he
      cases this
    · exact k
    · exfalso
      have hlast : ∀ n ∈ outsOf y.log, n.isClosing = true → (outsOf y.log).getLast? = some n := fun n hn hcl => by
        rcases List.eq_nil_or_concat (outsOf y.log) with h0 | ⟨l, m, hl⟩
        · rw [h0] at hn; cases hn
        · have := h.base.outs n
          rw [hl] at this hn ⊢
          rw [List.concat_eq_append] at *
          rw [List.dropLast_concat] at this
          rcases List.mem_append.1 hn with h | h
          · rw [this h] at hcl; cases hcl
          · rw [List.mem_singleton.1 h]; simp
      have h1 := hlast _ he rfl
      rw [hlast _ k rfl] at h1
      cases h1
  exact ⟨live_dead h.base hdead, fun es' => dead_run es' hdead⟩

/-- C43. With a limit above one, unsubscribing unsubscribes all inner observables, and that is the end.
Missing: `concat` (`C43_concat_leaks`). -/
theorem C43_unsubscribe_partial (hl : 2 ≤ limit) (hD : Closes D) (hs : D.isClosed s = false)
    (hc : Conforming (outerNotes (es ++ [.outer .unsubscribe])))
    (hy : run D limit { dest := s } (es ++ [.outer .unsubscribe]) = .ok y) :
    live y.log = [] ∧ D.isClosed y.dest = true ∧ ∀ es', ∃ z, run D limit y es' = .ok z ∧ z.log = y.log := by
  have hc' := hc
  rw [outerNotes_snoc_outer, conforming_snoc] at hc'
  obtain ⟨x, hx⟩ := C39_no_panic (es := es) (limit := limit) (by omega) hD hs hc'.1
  have h0 := inv_any (by omega) hD hs hc'.1 hx
  obtain ⟨z, hz, _, _, _, hcl⟩ := unsubscribe_inv (by omega) hD h0 hc (fun h => h)
  have hzy : z = y := by
    have := run_snoc hx hy
    simp only [step] at this
    rw [hz] at this
    cases this
    rfl
  subst hzy
  have h := inv_any (by omega) hD hs hc hy
  have hdead : Dead D [] z := by
    rcases h.phase with ⟨k, _⟩ | k | ⟨k, _⟩
    · rw [k.outer] at hcl; cases hcl
    · exact k
    · omega
  exact ⟨live_dead h.base hdead, hdead.dest, fun es' => dead_run es' hdead⟩

end Concurrent

/-! ## C41: switch -/

section Switch
variable {D : Sub S I E} {s : S} {es : List (Event I E)} {y : State S I E}

theorem inv_switch (hD : Closes D) (hs : D.isClosed s = false) (hc : Conforming (outerNotes es))
    (hy : Switch.run D { dest := s } es = .ok y) : Single.Inv D (Single.Kind.switch = .switch) False es y := by
  rcases Single.run_inv .switch (clean := False) hD (fun h => h.elim) hs es hc (fun h => h.elim) with ⟨z, hz, h⟩ | ⟨_, hz⟩
  · have := hy.symm.trans hz
    cases this
    exact h
  · have := hy.symm.trans hz
    cases this

theorem inv_switch_clean (hD : Closes D) (hp : Patient D) (hs : D.isClosed s = false) (hc : Conforming (outerNotes es))
    (ht : Clean es) (hy : Switch.run D { dest := s } es = .ok y) : Single.Inv D (Single.Kind.switch = .switch) True es y := by
  rcases Single.run_inv .switch (clean := True) hD (fun _ => hp) hs es hc (fun _ => ht) with ⟨z, hz, h⟩ | ⟨_, hz⟩
  · have := hy.symm.trans hz
    cases this
    exact h
  · have := hy.symm.trans hz
    cases this

/-- C41. None of the debug assertions fails, and no counter goes below zero, if the destination does not close
itself. Missing: destinations that do (`C41_panics`). -/
theorem C41_no_panic_partial (hD : Closes D) (hp : Patient D) (hs : D.isClosed s = false) (hc : Conforming (outerNotes es)) :
    ∃ y, Switch.run D { dest := s } es = .ok y := by
  rcases Single.run_inv .switch (clean := False) hD (fun h => h.elim) hs es hc (fun h => h.elim) with ⟨z, hz, _⟩ | ⟨hn, _⟩
  · exact ⟨z, hz⟩
  · exact absurd hp hn

/-- C41. An inner observable is subscribed when all earlier ones have ended. At most one is active. -/
theorem C41_one_at_a_time (hD : Closes D) (hs : D.isClosed s = false) (hc : Conforming (outerNotes es))
    (hy : Switch.run D { dest := s } es = .ok y) :
    (∀ p, p <+: y.log → (live p).length ≤ 1) ∧
    ∀ (p q : List (Log I E)) (b : Nat), y.log = p ++ .sub b :: q → ∀ a ∈ subsOf p, a ∈ donesOf p :=
  ⟨(inv_switch hD hs hc hy).core.base.bound, fun _ _ _ h => (inv_switch hD hs hc hy).core.base.one_after h⟩

/-- C41. Each is subscribed at most once, in the order of arrival. -/
theorem C41_order (hD : Closes D) (hs : D.isClosed s = false) (hc : Conforming (outerNotes es))
    (hy : Switch.run D { dest := s } es = .ok y) :
    (subsOf y.log).Pairwise (· < ·) ∧ ∀ a ∈ subsOf y.log, a < arrivals es := by
  have h := inv_switch hD hs hc hy
  refine ⟨h.sorted, fun a ha => ?_⟩
  rw [← h.arrived]
  exact h.core.base.lt a (by simpa using ha)

/-- C41. A value delivered is one of the latest inner observable subscribed, which has not ended. -/
theorem C41_latest (hD : Closes D) (hs : D.isClosed s = false) (hc : Conforming (outerNotes es))
    (hy : Switch.run D { dest := s } es = .ok y) (p q : List (Log I E)) (b : Nat) (v : I)
    (h : y.log = p ++ .out (some b) (.next v) :: q) : (subsOf p).getLast? = some b ∧ b ∈ live p :=
  ⟨(inv_switch hD hs hc hy).core.base.latest h, (inv_switch hD hs hc hy).core.base.source p b v q h⟩

/-- C41. A value of the active inner observable is delivered at once, as the only effect. -/
theorem C41_values (hD : Closes D) (hs : D.isClosed s = false) (hc : Conforming (outerNotes es))
    (hy : Switch.run D { dest := s } es = .ok y) (ho : D.isClosed y.dest = false) (a : Nat) (ha : a ∈ live y.log) (v : I)
    (hv : D.isClosed (D.next y.dest v) = false) :
    ∃ z, Switch.run D { dest := s } (es ++ [.inner a (.next v)]) = .ok z ∧
      z.log = y.log ++ [.out (some a) (.next v)] ∧ z.dest = D.next y.dest v := by
  obtain ⟨z, hz, h⟩ := Single.value_step .switch (inv_switch hD hs hc hy) ho ha v hv
  exact ⟨z, (Single.run_snoc' hy).trans hz, h⟩

/-- C41. Inner observables that are not active are not listened to. -/
theorem C41_inactive_ignored (hD : Closes D) (hs : D.isClosed s = false) (hc : Conforming (outerNotes es))
    (hy : Switch.run D { dest := s } es = .ok y) (a : Nat) (ha : a ∉ live y.log) (n : SubscriberNotification I E) :
    Switch.run D { dest := s } (es ++ [.inner a n]) = .ok y :=
  (Single.run_snoc' hy).trans (Single.ignored_step .switch (inv_switch hD hs hc hy) ha n)

/-- C41, C43. The destination is closed at most once, by the last thing it is told. -/
theorem C43_switch_ends_once (hD : Closes D) (hs : D.isClosed s = false) (hc : Conforming (outerNotes es))
    (hy : Switch.run D { dest := s } es = .ok y) : ∀ n ∈ (outsOf y.log).dropLast, n.isClosing = false :=
  (inv_switch hD hs hc hy).core.base.outs

/-- C41, C43. The destination completes exactly when the outer observable has completed and no inner observable is
active. -/
theorem C41_completes_iff (hD : Closes D) (hp : Patient D) (hs : D.isClosed s = false)
    (hc : Conforming (outerNotes es)) (ht : Clean es) (hy : Switch.run D { dest := s } es = .ok y) :
    .complete ∈ outsOf y.log ↔ .complete ∈ outerNotes es ∧ live y.log = [] := by
  have h := inv_switch_clean hD hp hs hc ht hy
  constructor
  · intro hm
    have := h.core.base.compl hm
    exact ⟨h.upC this.1, this.2.1⟩
  · rintro ⟨hm, hl⟩
    rcases h.phase with ho | hl | hd
    · exact absurd (h.core.opened.trans hl) (ho.waits (h.upO ho.outer hm))
    · exact absurd hp hl.impatient
    · exact h.core.base.endc trivial hd.dest

/-- C43. The error of the active inner observable is delivered at once, and nothing happens any more. -/
theorem C43_switch_inner_error (hD : Closes D) (hs : D.isClosed s = false) (hc : Conforming (outerNotes es))
    (hy : Switch.run D { dest := s } es = .ok y) (ho : D.isClosed y.dest = false) (a : Nat) (ha : a ∈ live y.log) (e : E) :
    ∃ z : State S I E, Switch.run D { dest := s } (es ++ [.inner a (.error e)]) = .ok z ∧
      z.log = y.log ++ [.out (some a) (.error e), .done a] ∧ live z.log = [] ∧
      ∀ es', ∃ w, Switch.run D z es' = .ok w ∧ w.log = z.log := by
  obtain ⟨z, hz, h1, h2, h3⟩ := Single.error_step .switch hD (inv_switch hD hs hc hy) ho ha e (fun h => h)
  exact ⟨z, (Single.run_snoc' hy).trans hz, h1, h3.opened.symm.trans h2.none, fun es' => Single.dead_run .switch es' h2⟩

/-- C43. The same for an error of the outer observable; the active inner observable is unsubscribed. -/
theorem C43_switch_outer_error (hD : Closes D) (hs : D.isClosed s = false)
    (hy : Switch.run D { dest := s } es = .ok y) (ho : D.isClosed y.dest = false) (e : E)
    (hc : Conforming (outerNotes (es ++ [.outer (.error e)]))) :
    ∃ z : State S I E, Switch.run D { dest := s } (es ++ [.outer (.error e)]) = .ok z ∧
      z.log = y.log ++ .out none (.error e) :: (live y.log).map .done ∧ live z.log = [] ∧
      ∀ es', ∃ w, Switch.run D z es' = .ok w ∧ w.log = z.log := by
  have hc' := hc
  rw [Concurrent.outerNotes_snoc_outer, Concurrent.conforming_snoc] at hc'
  have h := inv_switch hD hs hc'.1 hy
  obtain ⟨z, hz, h1, h2, h3, h4⟩ := Single.error_inv hD (Single.switch_ends hD) h e hc (fun h => h)
  refine ⟨z, (Single.run_snoc' hy).trans hz, ?_, h1.core.opened.symm.trans h3.none, fun es' => Single.dead_run .switch es' h3⟩
  rw [← h.core.opened]
  refine h4 ?_
  rcases h.phase with h | h | h
  · exact h
  · rw [h.dest] at ho; cases ho
  · rw [h.dest] at ho; cases ho

/-- C43. Unsubscribing unsubscribes the active inner observable, and that is the end. -/
theorem C43_switch_unsubscribe (hD : Closes D) (hs : D.isClosed s = false)
    (hc : Conforming (outerNotes (es ++ [.outer .unsubscribe])))
    (hy : Switch.run D { dest := s } es = .ok y) :
    ∃ z : State S I E, Switch.run D { dest := s } (es ++ [.outer .unsubscribe]) = .ok z ∧
      live z.log = [] ∧ D.isClosed z.dest = true ∧ ∀ es', ∃ w, Switch.run D z es' = .ok w ∧ w.log = z.log := by
  rw [Concurrent.outerNotes_snoc_outer, Concurrent.conforming_snoc] at hc
  have h := inv_switch hD hs hc.1 hy
  obtain ⟨z, hz, h1, h2, h3⟩ := Single.unsubscribe_inv (Single.switch_ends hD) h (fun h => h)
  exact ⟨z, (Single.run_snoc' hy).trans hz, h1.core.opened.symm.trans h3.none, h3.dest, fun es' => Single.dead_run .switch es' h3⟩

/-- C41. While the destination is open, every inner observable is subscribed when it arrives, and the one before it,
if it is active, is unsubscribed first. -/
theorem C41_switches (hD : Closes D) (hs : D.isClosed s = false)
    (hy : Switch.run D { dest := s } es = .ok y) (ho : D.isClosed y.dest = false) (src : Src I E)
    (hc : Conforming (outerNotes (es ++ [.outer (.next src)]))) {z : State S I E}
    (hz : Switch.run D { dest := s } (es ++ [.outer (.next src)]) = .ok z) :
    y.log ++ ((live y.log).map .done ++ [.sub (arrivals es)]) <+: z.log := by
  have hc' := hc
  rw [Concurrent.outerNotes_snoc_outer, Concurrent.conforming_snoc] at hc'
  have h := inv_switch hD hs hc'.1 hy
  have hxo : y.outerClosed = false := by
    rcases h.phase with h | h | h
    · exact h.outer
    · rw [h.dest] at ho; cases ho
    · rw [h.dest] at ho; cases ho
  rcases Single.switch_next_inv hD (fun h => h.elim) h src hc (fun h => h.elim) with ⟨w, hw, _, _, h2⟩ | ⟨_, hw⟩
  · have : z = w := by
      have := (Single.run_snoc' hy).symm.trans hz
      have := this.symm.trans hw
      cases this
      rfl
    subst this
    have := h2 hxo
    rwa [h.core.opened, h.arrived] at this
  · have := (Single.run_snoc' hy).symm.trans hz
    have := this.symm.trans hw
    cases this

/-- C41. None is skipped. -/
theorem C41_all (hD : Closes D) (hs : D.isClosed s = false) (hc : Conforming (outerNotes es))
    (hy : Switch.run D { dest := s } es = .ok y) (ho : D.isClosed y.dest = false) :
    subsOf y.log = List.range (arrivals es) := by
  have h := inv_switch hD hs hc hy
  have hxo : y.outerClosed = false := by
    rcases h.phase with h | h | h
    · exact h.outer
    · rw [h.dest] at ho; cases ho
    · rw [h.dest] at ho; cases ho
  rw [h.all rfl hxo, h.arrived]

end Switch

/-! ## C42: exhaust -/

theorem conforming_left {ns : List (SubscriberNotification (Src I E) E)} : ∀ (ms : List (SubscriberNotification (Src I E) E)),
    Conforming (ms ++ ns) → Conforming ms
  | [], _ => trivial
  | _ :: ms, h => ⟨fun ht m hm => h.1 ht m (List.mem_append_left _ hm), conforming_left ms h.2⟩

section Exhaust
variable {D : Sub S I E} {s : S} {es : List (Event I E)} {y : State S I E}

theorem inv_exhaust (hD : Closes D) (hs : D.isClosed s = false) (hc : Conforming (outerNotes es))
    (hy : Exhaust.run D { dest := s } es = .ok y) : Single.Inv D (Single.Kind.exhaust = .switch) False es y := by
  rcases Single.run_inv .exhaust (clean := False) hD (fun h => h.elim) hs es hc (fun h => h.elim) with ⟨z, hz, h⟩ | ⟨_, hz⟩
  · have := hy.symm.trans hz
    cases this
    exact h
  · have := hy.symm.trans hz
    cases this

theorem inv_exhaust_clean (hD : Closes D) (hp : Patient D) (hs : D.isClosed s = false) (hc : Conforming (outerNotes es))
    (ht : Clean es) (hy : Exhaust.run D { dest := s } es = .ok y) : Single.Inv D (Single.Kind.exhaust = .switch) True es y := by
  rcases Single.run_inv .exhaust (clean := True) hD (fun _ => hp) hs es hc (fun _ => ht) with ⟨z, hz, h⟩ | ⟨_, hz⟩
  · have := hy.symm.trans hz
    cases this
    exact h
  · have := hy.symm.trans hz
    cases this

/-- C42. None of the debug assertions fails, and no counter goes below zero, if the destination does not close
itself. Missing: destinations that do (`C42_panics`). -/
theorem C42_no_panic_partial (hD : Closes D) (hp : Patient D) (hs : D.isClosed s = false) (hc : Conforming (outerNotes es)) :
    ∃ y, Exhaust.run D { dest := s } es = .ok y := by
  rcases Single.run_inv .exhaust (clean := False) hD (fun h => h.elim) hs es hc (fun h => h.elim) with ⟨z, hz, _⟩ | ⟨hn, _⟩
  · exact ⟨z, hz⟩
  · exact absurd hp hn

/-- C42. An inner observable is subscribed when all earlier ones have ended. At most one is active. -/
theorem C42_one_at_a_time (hD : Closes D) (hs : D.isClosed s = false) (hc : Conforming (outerNotes es))
    (hy : Exhaust.run D { dest := s } es = .ok y) :
    (∀ p, p <+: y.log → (live p).length ≤ 1) ∧
    ∀ (p q : List (Log I E)) (b : Nat), y.log = p ++ .sub b :: q → ∀ a ∈ subsOf p, a ∈ donesOf p :=
  ⟨(inv_exhaust hD hs hc hy).core.base.bound, fun _ _ _ h => (inv_exhaust hD hs hc hy).core.base.one_after h⟩

/-- C42. Each is subscribed at most once, in the order of arrival. -/
theorem C42_order (hD : Closes D) (hs : D.isClosed s = false) (hc : Conforming (outerNotes es))
    (hy : Exhaust.run D { dest := s } es = .ok y) :
    (subsOf y.log).Pairwise (· < ·) ∧ ∀ a ∈ subsOf y.log, a < arrivals es := by
  have h := inv_exhaust hD hs hc hy
  refine ⟨h.sorted, fun a ha => ?_⟩
  rw [← h.arrived]
  exact h.core.base.lt a (by simpa using ha)

/-- C42. A value delivered is one of the latest inner observable subscribed, which has not ended. -/
theorem C42_latest (hD : Closes D) (hs : D.isClosed s = false) (hc : Conforming (outerNotes es))
    (hy : Exhaust.run D { dest := s } es = .ok y) (p q : List (Log I E)) (b : Nat) (v : I)
    (h : y.log = p ++ .out (some b) (.next v) :: q) : (subsOf p).getLast? = some b ∧ b ∈ live p :=
  ⟨(inv_exhaust hD hs hc hy).core.base.latest h, (inv_exhaust hD hs hc hy).core.base.source p b v q h⟩

/-- C42. A value of the active inner observable is delivered at once, as the only effect. -/
theorem C42_values (hD : Closes D) (hs : D.isClosed s = false) (hc : Conforming (outerNotes es))
    (hy : Exhaust.run D { dest := s } es = .ok y) (ho : D.isClosed y.dest = false) (a : Nat) (ha : a ∈ live y.log) (v : I)
    (hv : D.isClosed (D.next y.dest v) = false) :
    ∃ z, Exhaust.run D { dest := s } (es ++ [.inner a (.next v)]) = .ok z ∧
      z.log = y.log ++ [.out (some a) (.next v)] ∧ z.dest = D.next y.dest v := by
  obtain ⟨z, hz, h⟩ := Single.value_step .exhaust (inv_exhaust hD hs hc hy) ho ha v hv
  exact ⟨z, (Single.run_snoc' hy).trans hz, h⟩

/-- C42. Inner observables that are not active are not listened to. -/
theorem C42_inactive_ignored (hD : Closes D) (hs : D.isClosed s = false) (hc : Conforming (outerNotes es))
    (hy : Exhaust.run D { dest := s } es = .ok y) (a : Nat) (ha : a ∉ live y.log) (n : SubscriberNotification I E) :
    Exhaust.run D { dest := s } (es ++ [.inner a n]) = .ok y :=
  (Single.run_snoc' hy).trans (Single.ignored_step .exhaust (inv_exhaust hD hs hc hy) ha n)

/-- C42, C43. The destination is closed at most once, by the last thing it is told. -/
theorem C43_exhaust_ends_once (hD : Closes D) (hs : D.isClosed s = false) (hc : Conforming (outerNotes es))
    (hy : Exhaust.run D { dest := s } es = .ok y) : ∀ n ∈ (outsOf y.log).dropLast, n.isClosing = false :=
  (inv_exhaust hD hs hc hy).core.base.outs

/-- C42, C43. The destination completes exactly when the outer observable has completed and no inner observable is
active. -/
theorem C42_completes_iff (hD : Closes D) (hp : Patient D) (hs : D.isClosed s = false)
    (hc : Conforming (outerNotes es)) (ht : Clean es) (hy : Exhaust.run D { dest := s } es = .ok y) :
    .complete ∈ outsOf y.log ↔ .complete ∈ outerNotes es ∧ live y.log = [] := by
  have h := inv_exhaust_clean hD hp hs hc ht hy
  constructor
  · intro hm
    have := h.core.base.compl hm
    exact ⟨h.upC this.1, this.2.1⟩
  · rintro ⟨hm, hl⟩
    rcases h.phase with ho | hl | hd
    · exact absurd (h.core.opened.trans hl) (ho.waits (h.upO ho.outer hm))
    · exact absurd hp hl.impatient
    · exact h.core.base.endc trivial hd.dest

/-- C43. The error of the active inner observable is delivered at once, and nothing happens any more. -/
theorem C43_exhaust_inner_error (hD : Closes D) (hs : D.isClosed s = false) (hc : Conforming (outerNotes es))
    (hy : Exhaust.run D { dest := s } es = .ok y) (ho : D.isClosed y.dest = false) (a : Nat) (ha : a ∈ live y.log) (e : E) :
    ∃ z : State S I E, Exhaust.run D { dest := s } (es ++ [.inner a (.error e)]) = .ok z ∧
      z.log = y.log ++ [.out (some a) (.error e), .done a] ∧ live z.log = [] ∧
      ∀ es', ∃ w, Exhaust.run D z es' = .ok w ∧ w.log = z.log := by
  obtain ⟨z, hz, h1, h2, h3⟩ := Single.error_step .exhaust hD (inv_exhaust hD hs hc hy) ho ha e (fun h => h)
  exact ⟨z, (Single.run_snoc' hy).trans hz, h1, h3.opened.symm.trans h2.none, fun es' => Single.dead_run .exhaust es' h2⟩

/-- C43. The same for an error of the outer observable; the active inner observable is unsubscribed. -/
theorem C43_exhaust_outer_error (hD : Closes D) (hs : D.isClosed s = false)
    (hy : Exhaust.run D { dest := s } es = .ok y) (ho : D.isClosed y.dest = false) (e : E)
    (hc : Conforming (outerNotes (es ++ [.outer (.error e)]))) :
    ∃ z : State S I E, Exhaust.run D { dest := s } (es ++ [.outer (.error e)]) = .ok z ∧
      z.log = y.log ++ .out none (.error e) :: (live y.log).map .done ∧ live z.log = [] ∧
      ∀ es', ∃ w, Exhaust.run D z es' = .ok w ∧ w.log = z.log := by
  have hc' := hc
  rw [Concurrent.outerNotes_snoc_outer, Concurrent.conforming_snoc] at hc'
  have h := inv_exhaust hD hs hc'.1 hy
  obtain ⟨z, hz, h1, h2, h3, h4⟩ := Single.error_inv hD (Single.exhaust_ends hD) h e hc (fun h => h)
  refine ⟨z, (Single.run_snoc' hy).trans hz, ?_, h1.core.opened.symm.trans h3.none, fun es' => Single.dead_run .exhaust es' h3⟩
  rw [← h.core.opened]
  refine h4 ?_
  rcases h.phase with h | h | h
  · exact h
  · rw [h.dest] at ho; cases ho
  · rw [h.dest] at ho; cases ho

/-- C43. Unsubscribing unsubscribes the active inner observable, and that is the end. -/
theorem C43_exhaust_unsubscribe (hD : Closes D) (hs : D.isClosed s = false)
    (hc : Conforming (outerNotes (es ++ [.outer .unsubscribe])))
    (hy : Exhaust.run D { dest := s } es = .ok y) :
    ∃ z : State S I E, Exhaust.run D { dest := s } (es ++ [.outer .unsubscribe]) = .ok z ∧
      live z.log = [] ∧ D.isClosed z.dest = true ∧ ∀ es', ∃ w, Exhaust.run D z es' = .ok w ∧ w.log = z.log := by
  rw [Concurrent.outerNotes_snoc_outer, Concurrent.conforming_snoc] at hc
  have h := inv_exhaust hD hs hc.1 hy
  obtain ⟨z, hz, h1, h2, h3⟩ := Single.unsubscribe_inv (Single.exhaust_ends hD) h (fun h => h)
  exact ⟨z, (Single.run_snoc' hy).trans hz, h1.core.opened.symm.trans h3.none, h3.dest, fun es' => Single.dead_run .exhaust es' h3⟩

/-- C42. While the destination is open, an arriving inner observable is subscribed if none is active. -/
theorem C42_subscribed (hD : Closes D) (hs : D.isClosed s = false)
    (hy : Exhaust.run D { dest := s } es = .ok y) (ho : D.isClosed y.dest = false) (hl : live y.log = []) (src : Src I E)
    (hc : Conforming (outerNotes (es ++ [.outer (.next src)]))) {z : State S I E}
    (hz : Exhaust.run D { dest := s } (es ++ [.outer (.next src)]) = .ok z) :
    y.log ++ [.sub (arrivals es)] <+: z.log := by
  have hc' := hc
  rw [Concurrent.outerNotes_snoc_outer, Concurrent.conforming_snoc] at hc'
  have h := inv_exhaust hD hs hc'.1 hy
  have hxo : y.outerClosed = false := by
    rcases h.phase with h | h | h
    · exact h.outer
    · rw [h.dest] at ho; cases ho
    · rw [h.dest] at ho; cases ho
  have hf : (Single.Kind.exhaust = Single.Kind.switch) = False := eq_false (by simp)
  rw [hf] at h
  rcases Single.exhaust_next_inv hD (fun h => h.elim) h src hc (fun h => h.elim) with ⟨w, hw, _, _, h2, _⟩ | ⟨_, hw⟩
  · have : z = w := by
      have := (Single.run_snoc' hy).symm.trans hz
      have := this.symm.trans hw
      cases this
      rfl
    subst this
    have := h2 hxo (h.core.opened.trans hl)
    rwa [h.arrived] at this
  · have := (Single.run_snoc' hy).symm.trans hz
    have := this.symm.trans hw
    cases this

/-- C42. It is ignored if one is active. -/
theorem C42_ignored (hD : Closes D) (hs : D.isClosed s = false)
    (hy : Exhaust.run D { dest := s } es = .ok y) (hl : live y.log ≠ []) (src : Src I E)
    (hc : Conforming (outerNotes (es ++ [.outer (.next src)]))) :
    ∃ z : State S I E, Exhaust.run D { dest := s } (es ++ [.outer (.next src)]) = .ok z ∧ z.log = y.log ∧ z.dest = y.dest := by
  have hc' := hc
  rw [Concurrent.outerNotes_snoc_outer, Concurrent.conforming_snoc] at hc'
  have h := inv_exhaust hD hs hc'.1 hy
  have ho : y.opened ≠ [] := fun he => hl (h.core.opened.symm.trans he)
  have hlen : y.nonUnsubscribed ≠ 0 := by
    have := List.length_pos_iff.2 ho
    rw [h.core.nonU]
    omega
  refine ⟨{ y with arrived := y.arrived + 1 }, (Single.run_snoc' hy).trans ?_, rfl, rfl⟩
  simp only [Exhaust.step, Exhaust.next]
  rw [if_neg (by simp [hlen])]

/-- C42. One that was ignored is never subscribed. -/
theorem C42_ignored_for_good (hD : Closes D) (hs : D.isClosed s = false)
    (hy : Exhaust.run D { dest := s } es = .ok y) (es' : List (Event I E)) (hc : Conforming (outerNotes (es ++ es')))
    {z : State S I E} (hz : Exhaust.run D { dest := s } (es ++ es') = .ok z) (a : Nat) (ha : a < arrivals es)
    (hn : a ∉ subsOf y.log) : a ∉ subsOf z.log := by
  have hc' : Conforming (outerNotes es) := by
    rw [outerNotes, List.filterMap_append] at hc
    exact conforming_left _ hc
  have h := inv_exhaust hD hs hc' hy
  have hr : es'.foldlM (Exhaust.step D) y = .ok z := by
    have hz' : (es ++ es').foldlM (Exhaust.step D) { dest := s } = .ok z := hz
    rw [List.foldlM_append, show es.foldlM (Exhaust.step D) { dest := s } = .ok y from hy] at hz'
    exact hz'
  rcases Single.more_inv .exhaust hD h es' hc with ⟨w, hw, _, hg⟩ | ⟨_, hw⟩
  · have := hr.symm.trans hw
    cases this
    intro hm
    rcases hg.subs a hm with hm | hm
    · exact hn hm
    · rw [h.arrived] at hm
      omega
  · have := hr.symm.trans hw
    cases this

end Exhaust

/-! ## Concrete cases and counterexamples for merge and concat -/

/-- What happens if the destination is an observer. -/
def mergeLog (limit : Nat) (es : List (Event Nat Nat)) : Option (List (Log Nat Nat)) :=
  match Concurrent.run (observerSubscriber Nat Nat) limit { dest := .new } es with
  | .ok y => some y.log
  | .error _ => none

theorem observer_closes (I E : Type) : Closes (observerSubscriber I E) := by
  intro s n hn
  cases hs : s.teardown.isClosed <;> cases n <;>
    simp_all [Sub.push, observerSubscriber, ObsState.unsubscribe, SubscriptionData.unsubscribe,
      SubscriptionData.isClosed, SubscriberNotification.isClosing, SubscriberNotification.isTerminal]

theorem observer_patient (I E : Type) : Patient (observerSubscriber I E) := by
  intro s v hs
  simp_all [observerSubscriber]

/-- Two at a time. The third waits, and is started when one completes. A clean, conforming history. -/
def mergeTwo : List (Event Nat Nat) :=
  [.outer (.next []), .outer (.next [.next 5]), .outer (.next [.next 7, .complete]), .inner 0 (.next 4),
   .inner 1 .complete, .outer .complete, .inner 0 .complete]

example : Closes (observerSubscriber Nat Nat) ∧ Patient (observerSubscriber Nat Nat) ∧
    (observerSubscriber Nat Nat).isClosed (.new : ObsState Nat Nat) = false ∧
    Conforming (outerNotes mergeTwo) ∧ Clean mergeTwo ∧ Tidy mergeTwo ∧
    mergeLog 2 mergeTwo = some [.sub 0, .sub 1, .out (some 1) (.next 5), .out (some 0) (.next 4), .done 1, .sub 2,
      .out (some 2) (.next 7), .done 2, .done 0, .out (some 0) .complete] := by
  refine ⟨observer_closes _ _, observer_patient _ _, rfl, ?_, ⟨?_, ?_⟩, ?_, by decide +kernel⟩
  · simp [mergeTwo, outerNotes, Conforming, SubscriberNotification.isTerminal]
  · simp [mergeTwo, Event.Only]
  · simp [mergeTwo, outerNotes]
  · simp [mergeTwo, Event.Only, Tidy]

/-- The same history, one at a time. -/
example : mergeLog 1 mergeTwo = some [.sub 0, .out (some 0) (.next 4), .done 0, .sub 1, .out (some 1) (.next 5)] := by
  decide +kernel

/-- An error of one inner observable: the others are unsubscribed. -/
example : mergeLog 2 [.outer (.next []), .outer (.next [.next 5]), .outer (.next []), .inner 1 (.error 3),
      .inner 0 (.next 1)] =
    some [.sub 0, .sub 1, .out (some 1) (.next 5), .out (some 1) (.error 3), .done 0, .done 1] := by
  decide +kernel

/-- Unsubscribing with two active and one waiting. -/
example : mergeLog 2 [.outer (.next []), .outer (.next []), .outer (.next []), .outer .unsubscribe] =
    some [.sub 0, .sub 1, .out none .unsubscribe, .done 0, .done 1] := by
  decide +kernel

/-- C40 fails: an inner observable that unsubscribes its subscriber without completing does not give way to
the one waiting, if an earlier one has completed; the next to arrive overtakes it, and is played instead. -/
theorem C40_overtaken :
    mergeLog 1 [.outer (.next [.complete]), .outer (.next []), .outer (.next []), .inner 1 .unsubscribe,
      .outer (.next [.next 9])] =
    some [.sub 0, .done 0, .sub 1, .done 1, .sub 3, .out (some 3) (.next 9)] := by
  decide +kernel

/-- C39 fails likewise: of two slots one stays empty although an inner observable is waiting. -/
theorem C39_slot_lost :
    mergeLog 2 [.outer (.next [.complete]), .outer (.next [.complete]), .outer (.next []), .outer (.next []),
      .outer (.next []), .inner 2 .unsubscribe, .outer .complete] =
    some [.sub 0, .done 0, .sub 1, .done 1, .sub 2, .sub 3, .done 2] := by
  decide +kernel

/-- C43 fails likewise: the outer observable has completed, no inner observable is active, and the
destination waits for ever, for the one that is waiting. -/
theorem C43_stuck :
    mergeLog 1 [.outer (.next [.complete]), .outer (.next []), .outer (.next []), .inner 1 .unsubscribe,
      .outer .complete] =
    some [.sub 0, .done 0, .sub 1, .done 1] := by
  decide +kernel

/-- C43 fails: unsubscribing a `concat` subscribes the inner observable waiting, which stays subscribed. -/
theorem C43_concat_leaks :
    mergeLog 1 [.outer (.next []), .outer (.next []), .outer .unsubscribe] =
    some [.sub 0, .out none .unsubscribe, .done 0, .sub 1] := by
  decide +kernel

/-- Not only that: what it does is still run for all of those waiting. -/
theorem C43_concat_leaks_all :
    mergeLog 1 [.outer (.next []), .outer (.next [.complete]), .outer (.next [.complete]), .outer (.next []),
      .outer .unsubscribe] =
    some [.sub 0, .out none .unsubscribe, .done 0, .sub 1, .done 1, .sub 2, .done 2, .sub 3] := by
  decide +kernel

/-- The outer observable must not complete twice: the subscriber does not guard against it (debug builds
panic), it is not closed while inner observables are active. -/
theorem C43_second_completion :
    mergeLog 2 [.outer (.next []), .outer .complete, .outer .complete] = none := by
  decide +kernel

/-! ## Concrete cases and counterexamples for switch and exhaust -/

def switchLog (es : List (Event Nat Nat)) : Option (List (Log Nat Nat)) :=
  match Switch.run (observerSubscriber Nat Nat) { dest := .new } es with
  | .ok y => some y.log
  | .error _ => none

def exhaustLog (es : List (Event Nat Nat)) : Option (List (Log Nat Nat)) :=
  match Exhaust.run (observerSubscriber Nat Nat) { dest := .new } es with
  | .ok y => some y.log
  | .error _ => none

/-- A clean, conforming history. -/
def switchTwo : List (Event Nat Nat) :=
  [.outer (.next []), .inner 0 (.next 4), .outer (.next [.next 5]), .inner 0 (.next 6), .inner 1 .complete,
   .outer (.next [.next 7]), .outer .complete, .inner 2 (.next 8), .inner 2 .complete]

example : Conforming (outerNotes switchTwo) ∧ Clean switchTwo ∧
    switchLog switchTwo = some [.sub 0, .out (some 0) (.next 4), .done 0, .sub 1, .out (some 1) (.next 5), .done 1,
      .sub 2, .out (some 2) (.next 7), .out (some 2) (.next 8), .done 2, .out (some 2) .complete] ∧
    exhaustLog switchTwo = some [.sub 0, .out (some 0) (.next 4), .out (some 0) (.next 6)] := by
  refine ⟨?_, ⟨?_, ?_⟩, by decide +kernel, by decide +kernel⟩
  · simp [switchTwo, outerNotes, Conforming, SubscriberNotification.isTerminal]
  · simp [switchTwo, Event.Only]
  · simp [switchTwo, outerNotes]

/-- The one active has completed when the third arrives, not when the second does. -/
example : exhaustLog [.outer (.next [.next 1]), .outer (.next [.next 2]), .inner 0 .complete, .outer (.next [.next 3]),
      .outer .complete, .inner 1 (.next 4), .inner 2 .complete] =
    some [.sub 0, .out (some 0) (.next 1), .done 0, .sub 2, .out (some 2) (.next 3), .done 2, .out (some 2) .complete] := by
  decide +kernel

/-- Errors and unsubscription. -/
example : switchLog [.outer (.next []), .outer (.error 2), .inner 0 (.next 1)] =
      some [.sub 0, .out none (.error 2), .done 0] ∧
    exhaustLog [.outer (.next []), .inner 0 (.error 2), .outer (.next [])] =
      some [.sub 0, .out (some 0) (.error 2), .done 0] ∧
    switchLog [.outer (.next []), .outer .unsubscribe, .inner 0 (.next 1)] =
      some [.sub 0, .out none .unsubscribe, .done 0] ∧
    exhaustLog [.outer (.next []), .outer .unsubscribe, .inner 0 (.next 1)] =
      some [.sub 0, .done 0, .out none .unsubscribe] := by
  decide +kernel

/-- A destination that takes one value. -/
abbrev TakeOne := takeOp (I := Nat) (E := Nat) 1

def switchTake (es : List (Event Nat Nat)) : Option (List (Log Nat Nat)) :=
  match Switch.run (TakeOne.sub (observerSubscriber Nat Nat)) { dest := TakeOne.init (observerSubscriber Nat Nat) .new } es with
  | .ok y => some y.log
  | .error _ => none

def exhaustTake (es : List (Event Nat Nat)) : Option (List (Log Nat Nat)) :=
  match Exhaust.run (TakeOne.sub (observerSubscriber Nat Nat)) { dest := TakeOne.init (observerSubscriber Nat Nat) .new } es with
  | .ok y => some y.log
  | .error _ => none

/-- C42 fails: the destination has all it wants and is closed, the next inner observable to arrive is subscribed
nonetheless, and stays so. -/
theorem C42_leak :
    exhaustTake [.outer (.next [.next 1]), .outer (.next [])] =
    some [.sub 0, .out (some 0) (.next 1), .done 0, .sub 1] := by
  decide +kernel

/-- C41. The same for switch, which notices afterwards. -/
theorem C41_late :
    switchTake [.outer (.next []), .inner 0 (.next 1), .outer (.next [.next 2])] =
    some [.sub 0, .out (some 0) (.next 1), .done 0, .sub 1, .done 1] := by
  decide +kernel

/-- C41, C42 fail: in the same situation an inner observable that fails causes a panic in debug builds. -/
theorem C41_panics :
    switchTake [.outer (.next []), .inner 0 (.next 1), .outer (.next [.error 2])] = none := by
  decide +kernel

theorem C42_panics :
    exhaustTake [.outer (.next [.next 1]), .outer (.next []), .inner 1 (.error 2)] = none := by
  decide +kernel

/-- C43 fails: if the inner observable unsubscribes its subscriber without completing, the destination does not
complete when the outer observable has completed. -/
theorem C43_switch_unsubscribed :
    switchLog [.outer (.next []), .outer .complete, .inner 0 .unsubscribe] =
      some [.sub 0, .done 0, .out none .unsubscribe] ∧
    exhaustLog [.outer (.next []), .outer .complete, .inner 0 .unsubscribe] =
      some [.sub 0, .done 0, .out none .unsubscribe] := by
  decide +kernel

end Rx.HigherOrder.Props
