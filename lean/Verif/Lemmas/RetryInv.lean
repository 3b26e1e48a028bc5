import Verif.Lemmas.Retry

/-!
# retry: what holds in every history
-/

namespace Rx.Retry

variable {S I E : Type} {D : Sub S I E} {max : Nat} {src : Source I E}

/-- What holds of the attempts made so far. -/
structure Inv (x : State S I E) : Prop where
  subs : subsOf x.log = List.range x.count
  nodup : x.opened.Nodup
  opened : ∀ a, a ∈ x.opened ↔ a < x.count ∧ a ∉ donesOf x.log
  latest : ∀ a ∈ x.opened, a + 1 = x.count
  retries : ∀ a ∈ x.opened, x.retries a = a
  dones : ∀ a ∈ donesOf x.log, a < x.count

theorem subsOf_append (l m : List (Log I E)) : subsOf (l ++ m) = subsOf l ++ subsOf m := List.filterMap_append
theorem donesOf_append (l m : List (Log I E)) : donesOf (l ++ m) = donesOf l ++ donesOf m := List.filterMap_append

/-- Whether the destination has been notified an error. -/
def failed (l : List (Log I E)) : Prop := ∃ e, .out (.error e) ∈ l

/-- Something that makes no attempt. -/
structure Keep (x y : State S I E) : Prop where
  inv : Inv x → Inv y
  count : y.count = x.count
  sub : ∀ a ∈ y.opened, a ∈ x.opened
  caught : y.caught = x.caught
  failed : failed y.log → failed x.log

theorem Keep.rfl {x : State S I E} : Keep x x := ⟨id, Eq.refl _, fun _ h => h, Eq.refl _, id⟩

theorem Keep.trans {x y z : State S I E} (h : Keep x y) (g : Keep y z) : Keep x z :=
  ⟨g.inv ∘ h.inv, g.count.trans h.count, fun a ha => h.sub a (g.sub a ha), g.caught.trans h.caught, h.failed ∘ g.failed⟩

/-- Only fields that do not matter. -/
theorem Keep.same {x y : State S I E} (h1 : y.log = x.log) (h2 : y.count = x.count) (h3 : y.opened = x.opened)
    (h4 : y.retries = x.retries) (h5 : y.caught = x.caught) : Keep x y :=
  ⟨fun h => ⟨by rw [h1, h2]; exact h.subs, by rw [h3]; exact h.nodup, by rw [h1, h2, h3]; exact h.opened,
    by rw [h2, h3]; exact h.latest, by rw [h3, h4]; exact h.retries, by rw [h1, h2]; exact h.dones⟩, h2, by rw [h3]; exact fun _ h => h, h5, by rw [h1]; exact id⟩

theorem inv_out {x : State S I E} (h : Inv x) (d : S) (n : SubscriberNotification I E) :
    Inv { x with dest := d, log := x.log ++ [.out n] } := by
  have h1 : subsOf (x.log ++ [.out n]) = subsOf x.log := by rw [subsOf_append]; exact List.append_nil _
  have h2 : donesOf (x.log ++ [.out n]) = donesOf x.log := by rw [donesOf_append]; exact List.append_nil _
  exact ⟨h1.trans h.subs, h.nodup, by simp only [h2]; exact h.opened, h.latest, h.retries, by simp only [h2]; exact h.dones⟩

theorem inv_done {x : State S I E} (h : Inv x) {a : Nat} (ha : a ∈ x.opened) :
    Inv { x with opened := x.opened.erase a, log := x.log ++ [.done a] } := by
  have h1 : subsOf (x.log ++ [.done a]) = subsOf x.log := by rw [subsOf_append]; exact List.append_nil _
  have h2 : donesOf (x.log ++ [.done a]) = donesOf x.log ++ [a] := by rw [donesOf_append]; rfl
  refine ⟨h1.trans h.subs, h.nodup.erase a, fun b => ?_,
    fun b hb => h.latest b (List.mem_of_mem_erase hb), fun b hb => h.retries b (List.mem_of_mem_erase hb), ?_⟩
  · simp only [h.nodup.mem_erase_iff, h2, List.mem_append, List.mem_singleton, h.opened b, not_or]
    exact ⟨fun ⟨g1, g2, g3⟩ => ⟨g2, g3, g1⟩, fun ⟨g2, g3, g1⟩ => ⟨g1, g2, g3⟩⟩
  · simp only [h2, List.mem_append, List.mem_singleton]
    rintro b (hb | rfl)
    · exact h.dones b hb
    · exact ((h.opened b).1 ha).1

theorem keep_give {n : SubscriberNotification I E} (hn : ∀ e, n ≠ .error e) (x : State S I E) : Keep x (give D n x) := by
  unfold give
  split
  · exact .rfl
  · refine ⟨fun h => inv_out h _ n, Eq.refl _, fun _ h => h, Eq.refl _, ?_⟩
    rintro ⟨e, he⟩
    simp only [List.mem_append, List.mem_singleton, Log.out.injEq] at he
    rcases he with he | he
    · exact ⟨e, he⟩
    · exact absurd he.symm (hn e)

theorem keep_ended (a : Nat) (x : State S I E) : Keep x (ended a x) := by
  unfold ended
  split
  · rename_i h
    refine ⟨fun h' => inv_done h' h, Eq.refl _, fun _ h => List.mem_of_mem_erase h, Eq.refl _, ?_⟩
    rintro ⟨e, he⟩
    simp only [List.mem_append, List.mem_singleton, reduceCtorEq, or_false] at he
    exact ⟨e, he⟩
  · exact .rfl

theorem keep_cancelShut (a : Nat) (x : State S I E) : Keep x (cancelShut D a x) := by
  unfold cancelShut
  split
  · simp only
    split
    · exact keep_ended a x
    · exact (keep_ended a x).trans (keep_give (by simp) _)
  · exact .rfl

theorem keep_outer (x : State S I E) : Keep x (outerUnsubscribe D x) := by
  unfold outerUnsubscribe
  split
  · exact .rfl
  · simp only
    split
    · split
      · exact (Keep.same (x := x) (y := { x with outerClosed := true }) (Eq.refl _) (Eq.refl _) (Eq.refl _) (Eq.refl _) (Eq.refl _)).trans (keep_cancelShut _ _)
      · exact Keep.same (Eq.refl _) (Eq.refl _) (Eq.refl _) (Eq.refl _) (Eq.refl _)
    · exact Keep.same (Eq.refl _) (Eq.refl _) (Eq.refl _) (Eq.refl _) (Eq.refl _)

theorem keep_finish {n : Option (SubscriberNotification I E)} (hn : ∀ e, n ≠ some (.error e)) (x : State S I E) :
    Keep x (finish D n x) := by
  unfold finish
  cases n with
  | none => exact (keep_outer x).trans (keep_give (by simp) _)
  | some n =>
    exact ((keep_give (fun e he => hn e (by rw [he])) x).trans (keep_outer _)).trans (keep_give (by simp) _)

theorem keep_unsubscribe (x : State S I E) : Keep x (unsubscribe D x) := by
  unfold unsubscribe
  split
  · exact .rfl
  · exact keep_finish (by simp) x

theorem keep_cancel (a : Nat) (x : State S I E) : Keep x (cancel D a x) := by
  unfold cancel
  split
  · simp only
    split
    · exact keep_ended a x
    · exact (keep_ended a x).trans (keep_unsubscribe _)
  · exact .rfl

theorem keep_cancelLast (x : State S I E) : Keep x (cancelLast D x) := by
  unfold cancelLast
  split
  · exact (Keep.same (x := x) (y := { x with last := none }) (Eq.refl _) (Eq.refl _) (Eq.refl _) (Eq.refl _) (Eq.refl _)).trans (keep_cancel _ _)
  · exact .rfl

theorem keep_addLast (x : State S I E) : Keep x (addLast D x) := by
  unfold addLast
  split
  · split
    · exact keep_cancelShut _ _
    · exact .rfl
  · exact Keep.same (Eq.refl _) (Eq.refl _) (Eq.refl _) (Eq.refl _) (Eq.refl _)

theorem not_mem_ended {a : Nat} {x : State S I E} (h : Inv x) : a ∉ (ended a x).opened := by
  unfold ended
  split
  · intro ha
    exact (h.nodup.mem_erase_iff.1 ha).1 rfl
  · assumption

/-- What an attempt does while it is being subscribed keeps the invariant; once an error is caught it is over. -/
structure Begun (k : Nat) (x : State S I E) : Prop where
  inv : Inv x
  count : x.count = k + 1
  caught : x.caught.isSome = true → x.opened = []

theorem opened_nil {k : Nat} {x : State S I E} (h : Inv x) (hc : x.count = k + 1) (hk : k ∉ x.opened) : x.opened = [] := by
  cases ho : x.opened with
  | nil => rfl
  | cons a l =>
    have ha : a ∈ x.opened := by rw [ho]; exact List.mem_cons_self
    have := h.latest a ha
    have : a = k := by omega
    exact absurd (this ▸ ha) hk

theorem begun_during {k : Nat} {x : State S I E} (h : Begun k x) (n : SubscriberNotification I E) :
    Begun k (during D k x n) ∧ (failed (during D k x n).log → failed x.log) := by
  unfold during
  split
  · rename_i hk
    have hcn : x.caught = none := by
      cases hc : x.caught with
      | none => rfl
      | some e => rw [h.caught (by rw [hc]; rfl)] at hk; cases hk
    have fin : ∀ {y : State S I E}, Keep x y → Begun k y ∧ (failed y.log → failed x.log) := fun {y} hy =>
      ⟨⟨hy.inv h.inv, hy.count.trans h.count, fun hc => by rw [hy.caught, hcn] at hc; cases hc⟩, hy.failed⟩
    cases n with
    | next v =>
      simp only
      split
      · exact fin (((keep_give (by simp) x).trans (keep_unsubscribe _)).trans (keep_ended _ _))
      · exact fin (keep_give (by simp) x)
    | complete => exact fin ((keep_ended k x).trans (keep_finish (by simp) _))
    | unsubscribe => exact fin ((keep_ended k x).trans (keep_unsubscribe _))
    | error e =>
      have hi : Inv { x with caught := some e } := ⟨h.inv.subs, h.inv.nodup, h.inv.opened, h.inv.latest, h.inv.retries, h.inv.dones⟩
      have hk := keep_ended k { x with caught := some e }
      refine ⟨⟨hk.inv hi, hk.count.trans h.count, fun _ => ?_⟩, fun hf => hk.failed hf⟩
      exact opened_nil (hk.inv hi) (hk.count.trans h.count) (not_mem_ended hi)
  · exact ⟨h, id⟩

theorem begun_fold {k : Nat} : ∀ (ns : List (SubscriberNotification I E)) {x : State S I E}, Begun k x →
    Begun k (ns.foldl (during D k) x) ∧ (failed (ns.foldl (during D k) x).log → failed x.log)
  | [], _, h => ⟨h, id⟩
  | n :: ns, _, h =>
    have h1 := begun_during h n
    have h2 := begun_fold ns h1.1
    ⟨h2.1, h1.2 ∘ h2.2⟩

theorem begun_attempt {x : State S I E} (h : Inv x) (ho : x.opened = []) (hc : x.caught = none) :
    let y := attempt D src x.count x
    Begun x.count y ∧ (failed y.log → failed x.log) := by
  have h1 : subsOf (x.log ++ [.sub x.count]) = subsOf x.log ++ [x.count] := by rw [subsOf_append]; rfl
  have h2 : donesOf (x.log ++ [.sub x.count]) = donesOf x.log := by rw [donesOf_append]; exact List.append_nil _
  have h0 : Begun x.count { x with
      stolen := true, count := x.count + 1, opened := x.opened ++ [x.count], busy := x.count :: x.busy,
      retries := (fun b => if b = x.count then x.count else x.retries b), log := x.log ++ [.sub x.count] } := by
    refine ⟨⟨?_, ?_, ?_, ?_, ?_, ?_⟩, rfl, ?_⟩
    · simp only [h1, h.subs, List.range_succ]
    · simp [ho]
    · intro a
      simp only [ho, List.nil_append, List.mem_singleton, h2]
      constructor
      · rintro rfl
        exact ⟨Nat.lt_succ_self _, fun hd => Nat.lt_irrefl _ (h.dones _ hd)⟩
      · rintro ⟨g1, g2⟩
        by_cases ha : a = x.count
        · exact ha
        · have := (h.opened a).2 ⟨by omega, g2⟩
          rw [ho] at this
          cases this
    · simp [ho]
    · simp [ho]
    · simp only [h2]
      exact fun a ha => Nat.lt_succ_of_lt (h.dones a ha)
    · simp [hc]
  have h3 : failed (x.log ++ [Log.sub x.count]) → failed x.log := by
    rintro ⟨e, he⟩
    simp only [List.mem_append, List.mem_singleton, reduceCtorEq, or_false] at he
    exact ⟨e, he⟩
  have h4 := begun_fold (D := D) (src x.count) h0
  unfold attempt
  simp only
  generalize (src x.count).foldl (during D x.count) _ = y at h4 ⊢
  have hb : Begun x.count { y with stolen := false, busy := x.busy } :=
    ⟨⟨h4.1.inv.subs, h4.1.inv.nodup, h4.1.inv.opened, h4.1.inv.latest, h4.1.inv.retries, h4.1.inv.dones⟩, h4.1.count, h4.1.caught⟩
  split
  · exact ⟨⟨⟨hb.inv.subs, hb.inv.nodup, hb.inv.opened, hb.inv.latest, hb.inv.retries, hb.inv.dones⟩, hb.count, hb.caught⟩, h3 ∘ h4.2⟩
  · exact ⟨hb, h3 ∘ h4.2⟩

theorem begun_attempt' {x : State S I E} (h : Inv x) (ho : x.opened = []) (hc : x.caught = none) {k : Nat}
    (hk : x.count = k) : Begun k (attempt D src k x) ∧ (failed (attempt D src k x).log → failed x.log) := by
  subst hk
  exact begun_attempt h ho hc

theorem inv_caught {x : State S I E} (h : Inv x) (c : Option E) : Inv { x with caught := c } :=
  ⟨h.subs, h.nodup, h.opened, h.latest, h.retries, h.dones⟩

theorem nil_of_keep {x y : State S I E} (h : Keep x y) (ho : x.opened = []) : y.opened = [] := by
  cases hy : y.opened with
  | nil => rfl
  | cons a l =>
    have := h.sub a (by rw [hy]; exact List.mem_cons_self)
    rw [ho] at this
    cases this

theorem inv_subscribeLoop : ∀ (fuel i : Nat) {x : State S I E}, Inv x → x.opened = [] → i = x.count →
    let y := subscribeLoop D src fuel i x
    Inv y.2 ∧ y.1 = y.2.count ∧ y.1 ≤ i + fuel ∧ (failed y.2.log → failed x.log)
  | 0, i, x, h, _, hi => ⟨h, hi, Nat.le_refl _, id⟩
  | fuel + 1, i, x, h, ho, hi => by
    subst hi
    have hb := begun_attempt (D := D) (src := src) (inv_caught h none) ho rfl
    simp only at hb
    simp only [subscribeLoop]
    generalize attempt D src x.count { x with caught := none } = y at hb ⊢
    split
    · rename_i hc
      have hk := keep_cancelLast (D := D) y
      have := inv_subscribeLoop fuel (x.count + 1) (hk.inv hb.1.inv) (nil_of_keep hk (hb.1.caught hc)) (by rw [hk.count, hb.1.count])
      exact ⟨this.1, this.2.1, by have := this.2.2.1; omega, hb.2 ∘ hk.failed ∘ this.2.2.2⟩
    · split
      · exact ⟨hb.1.inv, hb.1.count.symm, by simp only; omega, hb.2⟩
      · have hk := keep_addLast (D := D) y
        exact ⟨hk.inv hb.1.inv, (hk.count.trans hb.1.count).symm, by simp only; omega, hb.2 ∘ hk.failed⟩

theorem inv_errorLoop : ∀ (fuel r : Nat) {x : State S I E}, Inv x → x.opened = [] → r + 1 = x.count →
    let y := errorLoop D src fuel r x
    Inv y.2 ∧ y.1 + 1 = y.2.count ∧ (r ≤ y.1 ∧ y.1 ≤ r + fuel) ∧ (failed y.2.log → failed x.log)
  | 0, i, x, h, _, hi => ⟨h, hi, ⟨Nat.le_refl _, Nat.le_refl _⟩, id⟩
  | fuel + 1, r, x, h, ho, hi => by
    have hk := (Keep.same (x := x) (y := { x with stolen := true }) rfl rfl rfl rfl rfl).trans (keep_cancelLast (D := D) { x with stolen := true })
    simp only [errorLoop]
    generalize cancelLast D { x with stolen := true } = z at hk ⊢
    have hb := begun_attempt' (D := D) (src := src) (inv_caught (hk.inv h) none) (show z.opened = [] from nil_of_keep hk ho) rfl
      (hk.count.trans hi.symm)
    generalize attempt D src (r + 1) _ = y at hb ⊢
    split
    · rename_i hc
      have := inv_errorLoop fuel (r + 1) hb.1.inv (hb.1.caught hc) hb.1.count.symm
      exact ⟨this.1, this.2.1, by have := this.2.2.1; omega, hk.failed ∘ hb.2 ∘ this.2.2.2⟩
    · have hk' := keep_addLast (D := D) y
      exact ⟨hk'.inv hb.1.inv, (hk'.count.trans hb.1.count).symm, by simp only; omega, hk.failed ∘ hb.2 ∘ hk'.failed⟩

theorem inv_give {x : State S I E} (h : Inv x) (n : SubscriberNotification I E) :
    Inv (give D n x) ∧ (give D n x).count = x.count := by
  unfold give
  split
  · exact ⟨h, rfl⟩
  · exact ⟨inv_out h _ n, rfl⟩

theorem inv_finish {x : State S I E} (h : Inv x) (n : SubscriberNotification I E) :
    Inv (finish D (some n) x) ∧ (finish D (some n) x).count = x.count := by
  have h1 := inv_give (D := D) h n
  have h2 := (keep_outer (D := D) (give D n x)).trans (keep_give (D := D) (n := .unsubscribe) (by simp) _)
  exact ⟨h2.inv h1.1, h2.count.trans h1.2⟩

/-- What holds in every history. -/
structure Good (max : Nat) (x : State S I E) : Prop where
  inv : Inv x
  le : x.count ≤ max + 2
  failed : failed x.log → max + 1 ≤ x.count

theorem Good.keep {x y : State S I E} (h : Good max x) (hk : Keep x y) : Good max y :=
  ⟨hk.inv h.inv, by rw [hk.count]; exact h.le, fun hf => by rw [hk.count]; exact h.failed (hk.failed hf)⟩

theorem good_subscribe (s : S) : Good max (subscribe D max src s) := by
  have h0 : Inv ({ dest := s } : State S I E) := ⟨rfl, List.nodup_nil, fun a => by simp [donesOf], by simp, by simp, by simp [donesOf]⟩
  have h := inv_subscribeLoop (D := D) (src := src) (max + 1) 0 h0 rfl rfl
  unfold subscribe
  generalize subscribeLoop D src (max + 1) 0 { dest := s } = y at h ⊢
  obtain ⟨i, x⟩ := y
  obtain ⟨h1, h2, h3, h4⟩ := h
  simp only at h1 h2 h3 h4 ⊢
  have hnf : ¬ failed x.log := fun hf => by obtain ⟨e, he⟩ := h4 hf; cases he
  split
  · have hx : ∀ {z : State S I E}, Inv z → z.count = x.count → Good max (outerUnsubscribe D (give D .unsubscribe z)) := by
      intro z hz hc
      have hk := (keep_give (D := D) (n := .unsubscribe) (by simp) z).trans (keep_outer (D := D) _)
      exact ⟨hk.inv hz, by rw [hk.count]; omega, fun _ => by rw [hk.count]; omega⟩
    split
    · have := inv_give (D := D) (inv_caught h1 none) (.error ‹E›)
      exact hx this.1 this.2
    · exact hx h1 rfl
  · exact ⟨h1, by omega, fun hf => absurd hf hnf⟩

theorem good_step {x : State S I E} (h : Good max x) (e : Event I E) : Good max (step D max src x e) := by
  cases e with
  | unsubscribe => exact h.keep (keep_outer x)
  | source a n =>
    simp only [step, later]
    split
    · rename_i ha
      have hb : ∀ {y : State S I E}, Good max y → Good max { y with busy := x.busy } := fun hy =>
        hy.keep (.same rfl rfl rfl rfl rfl)
      have h0 : Good max { x with busy := a :: x.busy } := h.keep (.same rfl rfl rfl rfl rfl)
      cases n with
      | next v =>
        simp only
        split
        · exact hb (h0.keep (((keep_give (by simp) _).trans (keep_unsubscribe _)).trans (keep_ended _ _)))
        · exact hb (h0.keep (keep_give (by simp) _))
      | complete => exact hb (h0.keep ((keep_ended a _).trans (keep_finish (by simp) _)))
      | unsubscribe => exact hb (h0.keep ((keep_ended a _).trans (keep_unsubscribe _)))
      | error e =>
        apply hb
        have hk := keep_ended a { x with busy := a :: x.busy }
        have hr : (ended a { x with busy := a :: x.busy }).retries a = a := by
          have : (ended a { x with busy := a :: x.busy }).retries = x.retries := by
            unfold ended; split <;> rfl
          rw [this]; exact h.inv.retries a ha
        have hc : a + 1 = (ended a { x with busy := a :: x.busy }).count := by
          rw [hk.count]; exact h.inv.latest a ha
        have hn : (ended a { x with busy := a :: x.busy }).opened = [] :=
          opened_nil (hk.inv h0.inv) hc.symm (not_mem_ended h0.inv)
        have hg := h0.keep hk
        generalize ended a { x with busy := a :: x.busy } = y at hr hc hn hg
        unfold error
        rw [hr]
        have := inv_errorLoop (D := D) (src := src) (max + 1 - a) a hg.inv hn hc
        generalize errorLoop D src (max + 1 - a) a y = z at this ⊢
        obtain ⟨r, z⟩ := z
        obtain ⟨g1, g2, g3, g4⟩ := this
        simp only at g1 g2 g3 g4 ⊢
        have := hg.le
        split
        · have := inv_finish (D := D) g1 (.error e)
          exact ⟨this.1, by rw [this.2]; omega, fun _ => by rw [this.2]; omega⟩
        · exact ⟨g1, by omega, fun hf => by have := hg.failed (g4 hf); omega⟩
    · exact h

theorem good_run (s : S) (es : List (Event I E)) : Good max (run D max src s es) := by
  induction es using Rx.snoc_induction with
  | nil => exact good_subscribe s
  | snoc es e ih => rw [run, List.foldl_append]; exact good_step ih e

/-- At most one attempt is going on, the last one made. -/
theorem live_eq {x : State S I E} (h : Inv x) : live x.log = x.opened := by
  have hf : live x.log = (List.range x.count).filter (fun a => a ∈ x.opened) := by
    unfold live
    rw [h.subs]
    apply List.filter_congr
    intro a ha
    have := h.opened a
    simp only [List.mem_range] at ha
    simp [this, ha]
  rw [hf]
  cases ho : x.opened with
  | nil => simp
  | cons a l =>
    have ha := h.latest a (by rw [ho]; exact List.mem_cons_self)
    have hl : l = [] := by
      cases l with
      | nil => rfl
      | cons b l =>
        have hb := h.latest b (by rw [ho]; simp)
        have hn := h.nodup
        rw [ho] at hn
        simp at hn
        omega
    subst hl
    rw [← ha, List.range_succ, List.filter_append]
    have : (List.range a).filter (fun b => decide (b ∈ [a])) = [] := by
      rw [List.filter_eq_nil_iff]
      intro b hb
      simp only [List.mem_range] at hb
      simp only [List.mem_singleton, decide_eq_true_eq]
      omega
    rw [this]
    simp

end Rx.Retry
