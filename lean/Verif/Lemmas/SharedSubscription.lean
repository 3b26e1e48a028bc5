import Verif.Spec.SharedSubscription

/-!
# Lemmas about graphs of subscriptions
-/

namespace Rx.Graph

@[simp] theorem update_same (w : World) (k : Nat) (f : Node → Node) :
    (w.update k f).node k = f (w.node k) := by simp [World.update]

theorem update_ne {w : World} {k j : Nat} {f : Node → Node} (h : j ≠ k) :
    (w.update k f).node j = w.node j := by simp [World.update, h]

@[simp] theorem update_log (w : World) (k : Nat) (f : Node → Node) : (w.update k f).log = w.log := rfl

/-- What holds whenever any user code may run. -/
structure Inv (shared : Nat → Bool) (n : Nat) (w : World) : Prop where
  empty : ∀ j, (w.node j).queue = 0
  lockedClosed : ∀ j, (w.node j).locked = true → (w.node j).closed = true
  drained : ∀ j, (w.node j).closed = true → (w.node j).finalizers = []
  observed : ∀ j, shared j = true → (w.node j).observed = (w.node j).closed
  flag : ∀ j, shared j = true → (w.node j).closedFlag = (w.node j).closed
  below : ∀ j i, Tear.unsub i ∈ (w.node j).finalizers → i < n
  found : ∀ p ∈ w.found, p.2.closed = true ∧ (shared p.1 = true → p.2.observed = true ∧ p.2.closedFlag = true)
  recorded : w.found.map Prod.fst = w.log.map Prod.fst

def opens (n : Nat) (w : World) : Nat :=
  ((List.range n).filter fun j => !(w.node j).closed).length

/-- Progress from `w` to `w'`, while the teardowns `ts` taken out of node `k` are run. -/
structure Ext (w w' : World) (k : Nat) (ts : List Tear) : Prop where
  mono : ∀ j, (w.node j).closed = true → (w'.node j).closed = true
  locked : ∀ j, (w'.node j).locked = (w.node j).locked
  fin : ∀ j, (w'.node j).closed = false → (w'.node j).finalizers = (w.node j).finalizers
  cons : ∀ j c, called j c w' + (w'.node j).finalizers.count (.call c) =
    called j c w + (w.node j).finalizers.count (.call c) + if j = k then ts.count (.call c) else 0
  targets : ∀ i, .unsub i ∈ ts → (w'.node i).closed = true
  closes : ∀ j, (w.node j).closed = false → (w'.node j).closed = true →
    ∀ i, .unsub i ∈ (w.node j).finalizers → (w'.node i).closed = true
  reach : ∀ j, (w.node j).closed = false → (w'.node j).closed = true →
    ∃ i, .unsub i ∈ ts ∧ Reach w i j

theorem bool_cases (b : Bool) : b = false ∨ b = true := by cases b <;> simp

theorem Ext.fin_mem {w w' : World} {k : Nat} {ts : List Tear} {sh n} (h : Ext w w' k ts)
    (hI : Inv sh n w') {j : Nat} {t : Tear} (ht : t ∈ (w'.node j).finalizers) :
    t ∈ (w.node j).finalizers := by
  rcases bool_cases (w'.node j).closed with hc | hc
  · rw [← h.fin j hc]; exact ht
  · rw [hI.drained j hc] at ht; cases ht

theorem Reach.back {w w' : World} (h : ∀ j t, t ∈ (w'.node j).finalizers → t ∈ (w.node j).finalizers)
    {k j : Nat} (hr : Reach w' k j) : Reach w k j := by
  induction hr with
  | refl => exact .refl _
  | step _ hm ih => exact .step ih (h _ _ hm)

theorem Reach.trans {w : World} {a b c : Nat} (h1 : Reach w a b) (h2 : Reach w b c) : Reach w a c := by
  induction h2 with
  | refl => exact h1
  | step _ hm ih => exact .step ih hm

theorem opens_mono {n : Nat} {w w' : World}
    (h : ∀ j, (w.node j).closed = true → (w'.node j).closed = true) : opens n w' ≤ opens n w := by
  unfold opens
  rw [← List.countP_eq_length_filter, ← List.countP_eq_length_filter]
  apply List.countP_mono_left
  intro j _ hj
  rcases bool_cases (w.node j).closed with hc | hc
  · simp [hc]
  · simp [h j hc] at hj

theorem filter_lt_of {α : Type} {p q : α → Bool} {l : List α} {a : α} (ha : a ∈ l)
    (hqp : ∀ x, q x = true → p x = true) (hp : p a = true) (hq : q a = false) :
    (l.filter q).length < (l.filter p).length := by
  induction l with
  | nil => cases ha
  | cons b l ih =>
    have hle : (l.filter q).length ≤ (l.filter p).length := by
      rw [← List.countP_eq_length_filter, ← List.countP_eq_length_filter]
      exact List.countP_mono_left fun x _ hx => hqp x hx
    rcases List.mem_cons.1 ha with rfl | ha
    · simp [hp, hq]; omega
    · have := ih ha
      rcases bool_cases (q b) with hb | hb
      · rcases bool_cases (p b) with hb' | hb'
        · simp [hb, hb']; exact this
        · simp [hb, hb']; omega
      · simp [hb, hqp b hb]; exact this

theorem opens_close {n k : Nat} {w w' : World} (hk : k < n) (ho : (w.node k).closed = false)
    (hc : (w'.node k).closed = true)
    (h : ∀ j, (w.node j).closed = true → (w'.node j).closed = true) : opens n w' < opens n w := by
  unfold opens
  refine filter_lt_of (List.mem_range.2 hk) (fun j hj => ?_) (by simp [ho]) (by simp [hc])
  rcases bool_cases (w.node j).closed with hd | hd
  · simp [hd]
  · simp [h j hd] at hj

/-- What a call of `unsubscribe` achieves. -/
def Does (sh : Nat → Bool) (n : Nat) (un : World → Nat → Option World) (m : Nat) : Prop :=
  ∀ w k, Inv sh n w → k < n → opens n w ≤ m →
    ∃ w', un w k = some w' ∧ Inv sh n w' ∧ Ext w w' k [.unsub k] 

theorem Ext.change_owner {w w' : World} {k k' : Nat} {i : Nat} (h : Ext w w' k [.unsub i]) :
    Ext w w' k' [.unsub i] where
  mono := h.mono
  locked := h.locked
  fin := h.fin
  cons j c := by have := h.cons j c; simpa using this
  targets := h.targets
  closes := h.closes
  reach := h.reach

theorem Ext.append {sh n} {w w' w'' : World} {k : Nat} {ts us : List Tear} (h : Ext w w' k ts)
    (hI : Inv sh n w') (g : Ext w' w'' k us) : Ext w w'' k (ts ++ us) where
  mono j hj := g.mono j (h.mono j hj)
  locked j := (g.locked j).trans (h.locked j)
  fin j hj := by
    rw [g.fin j hj]
    refine h.fin j ?_
    rcases bool_cases (w'.node j).closed with hc | hc
    · exact hc
    · rw [g.mono j hc] at hj; cases hj
  cons j c := by
    have h1 := h.cons j c
    have h2 := g.cons j c
    split at h1 <;> rename_i hjk
    · rw [if_pos hjk] at h2
      simp only [hjk, if_true, List.count_append]
      subst hjk
      omega
    · rw [if_neg hjk] at h2
      simp only [hjk, if_false]
      omega
  targets i hi := by
    rcases List.mem_append.1 hi with hi | hi
    · exact g.mono i (h.targets i hi)
    · exact g.targets i hi
  closes j ho hc i hi := by
    rcases bool_cases (w'.node j).closed with hd | hd
    · exact g.closes j hd hc i (by rw [h.fin j hd]; exact hi)
    · exact g.mono i (h.closes j ho hd i hi)
  reach j ho hc := by
    rcases bool_cases (w'.node j).closed with hd | hd
    · obtain ⟨i, hi, hr⟩ := g.reach j hd hc
      exact ⟨i, List.mem_append_right _ hi, hr.back fun j t ht => h.fin_mem hI ht⟩
    · obtain ⟨i, hi, hr⟩ := h.reach j ho hd
      exact ⟨i, List.mem_append_left _ hi, hr⟩

theorem Ext.refl (w : World) (k : Nat) : Ext w w k [] where
  mono _ h := h
  locked _ := rfl
  fin _ _ := rfl
  cons j c := by simp
  targets i hi := by cases hi
  closes j ho hc := by rw [ho] at hc; cases hc
  reach j ho hc := by rw [ho] at hc; cases hc

theorem Ext.call (w : World) (k c : Nat) :
    Ext w { w with log := w.log ++ [(k, c)], found := w.found ++ [(k, w.node k)] } k [.call c] where
  mono _ h := h
  locked _ := rfl
  fin _ _ := rfl
  cons j d := by
    simp only [called, List.count_append, List.count_singleton]
    by_cases hj : j = k
    · by_cases hd : d = c
      · subst hj; subst hd; simp; omega
      · have h1 : ((k, c) == (j, d)) = false := by simp; intro _ h; exact hd h.symm
        have h2 : (Tear.call c == Tear.call d) = false := by simp; exact fun h => hd h.symm
        simp [h1, h2]
    · have h1 : ((k, c) == (j, d)) = false := by simp; intro h; exact absurd h.symm hj
      simp [hj, h1]
  targets i hi := by simp at hi
  closes j ho hc := by rw [show (w.node j).closed = true from hc] at ho; cases ho
  reach j ho hc := by rw [show (w.node j).closed = true from hc] at ho; cases ho

theorem runTears_does {sh n un m} (hun : Does sh n un m) (k : Nat) (ts : List Tear) :
    ∀ w, Inv sh n w → (w.node k).closed = true → (∀ i, .unsub i ∈ ts → i < n) → opens n w ≤ m →
    ∃ w', runTears un k ts w = some w' ∧ Inv sh n w' ∧ Ext w w' k ts := by
  induction ts with
  | nil => exact fun w hI _ _ _ => ⟨w, rfl, hI, .refl w k⟩
  | cons t ts ih =>
    intro w hI hk hb ho
    cases t with
    | call c =>
      have hI1 : Inv sh n { w with log := w.log ++ [(k, c)], found := w.found ++ [(k, w.node k)] } := by
        refine ⟨hI.empty, hI.lockedClosed, hI.drained, hI.observed, hI.flag, hI.below, fun p hp => ?_, by simp [hI.recorded]⟩
        rcases List.mem_append.1 hp with hp | hp
        · exact hI.found p hp
        · simp at hp
          subst hp
          exact ⟨hk, fun hs => ⟨(hI.observed k hs).trans hk, (hI.flag k hs).trans hk⟩⟩
      obtain ⟨w', h1, h2, h3⟩ := ih _ hI1 hk (fun i hi => hb i (List.mem_cons_of_mem _ hi)) ho
      exact ⟨w', h1, h2, (Ext.call w k c).append hI1 h3⟩
    | unsub i =>
      obtain ⟨w1, h1, hI1, h3⟩ := hun w i hI (hb i (by simp)) ho
      obtain ⟨w', g1, g2, g3⟩ := ih w1 hI1 (h3.mono k hk) (fun i hi => hb i (List.mem_cons_of_mem _ hi))
        (Nat.le_trans (opens_mono h3.mono) ho)
      exact ⟨w', by simp [runTears, h1, g1], g2, (h3.change_owner (k' := k)).append hI1 g3⟩

/-- The state in which the teardowns of an unsubscribed node run. -/
theorem Ext.close {sh n} {w w1 w' : World} {k : Nat} (_hw : Inv sh n w) (_hI : Inv sh n w')
    (_hk : (w.node k).closed = false)
    (hne : ∀ j, j ≠ k → w1.node j = w.node j) (hlog : w1.log = w.log)
    (hc : (w1.node k).closed = true) (hf : (w1.node k).finalizers = [])
    (h : Ext w1 w' k (w.node k).finalizers)
    (w'' : World) (hne' : ∀ j, j ≠ k → w''.node j = w'.node j) (hlog' : w''.log = w'.log)
    (hc' : (w''.node k).closed = (w'.node k).closed)
    (hf' : (w''.node k).finalizers = (w'.node k).finalizers)
    (hl' : (w''.node k).locked = (w.node k).locked) :
    Ext w w'' k [.unsub k] := by
  have hall : ∀ j, (w''.node j).closed = (w'.node j).closed := fun j => by
    by_cases hj : j = k
    · subst hj; exact hc'
    · rw [hne' j hj]
  have hallf : ∀ j, (w''.node j).finalizers = (w'.node j).finalizers := fun j => by
    by_cases hj : j = k
    · subst hj; exact hf'
    · rw [hne' j hj]
  have hk' : (w'.node k).closed = true := h.mono k hc
  have hmem : ∀ j t, t ∈ (w1.node j).finalizers → t ∈ (w.node j).finalizers := fun j t ht => by
    by_cases hj : j = k
    · subst hj; rw [hf] at ht; cases ht
    · rw [hne j hj] at ht; exact ht
  refine ⟨fun j hj => ?_, fun j => ?_, fun j hj => ?_, fun j c => ?_, fun i hi => ?_, fun j ho hd i hi => ?_,
    fun j ho hd => ⟨k, by simp, ?_⟩⟩
  · rw [hall]
    by_cases hjk : j = k
    · subst hjk; exact hk'
    · exact h.mono j (by rw [hne j hjk]; exact hj)
  · by_cases hjk : j = k
    · subst hjk; exact hl'
    · rw [hne' j hjk, h.locked, hne j hjk]
  · rw [hall] at hj
    by_cases hjk : j = k
    · subst hjk; rw [hk'] at hj; cases hj
    · rw [hne' j hjk, h.fin j hj, hne j hjk]
  · have := h.cons j c
    rw [hallf]
    simp only [called, hlog', hlog] at this ⊢
    by_cases hjk : j = k
    · subst hjk
      simp only [if_true, hf] at this ⊢
      simp at this ⊢
      omega
    · simp only [hjk, if_false, hne j hjk] at this ⊢
      exact this
  · simp at hi; subst hi; rw [hall]; exact hk'
  · rw [hall] at hd ⊢
    by_cases hjk : j = k
    · subst hjk; exact h.targets i hi
    · exact h.closes j (by rw [hne j hjk]; exact ho) hd i (by rw [hne j hjk]; exact hi)
  · rw [hall] at hd
    by_cases hjk : j = k
    · subst hjk; exact .refl _
    · obtain ⟨i, hi, hr⟩ := h.reach j (by rw [hne j hjk]; exact ho) hd
      exact (Reach.step (.refl k) hi).trans (hr.back hmem)

theorem Ext.already {w w' : World} {k : Nat} (hk : (w.node k).closed = true)
    (hc : ∀ j, (w'.node j).closed = (w.node j).closed)
    (hf : ∀ j, (w'.node j).finalizers = (w.node j).finalizers)
    (hl : ∀ j, (w'.node j).locked = (w.node j).locked) (hlog : w'.log = w.log) :
    Ext w w' k [.unsub k] where
  mono j h := by rw [hc]; exact h
  locked := hl
  fin j _ := hf j
  cons j c := by simp [called, hlog, hf]
  targets i hi := by simp at hi; subst hi; rw [hc]; exact hk
  closes j ho h := by rw [hc, ho] at h; cases h
  reach j ho h := by rw [hc, ho] at h; cases h

theorem update_id {w : World} {k : Nat} {f : Node → Node} (h : f (w.node k) = w.node k) :
    w.update k f = w := by
  unfold World.update
  cases w with
  | mk node log =>
    congr
    funext j
    by_cases hj : j = k
    · subst hj; simp; exact h
    · simp [hj]

theorem tryApply_empty (un) {w : World} {k : Nat} (h : (w.node k).queue = 0) :
    tryApplyDeferred un w k = some w := by
  simp [tryApplyDeferred, h]

theorem applyQueue_empty (un) {w : World} {k d : Nat} (h : (w.node k).queue = 0) :
    applyQueue un k (d + 1) w = some w := by
  simp [applyQueue, h]

theorem unsubscribe_does (sh : Nat → Bool) (n : Nat) : ∀ m, Does sh n (unsubscribe sh (m + 1)) m := by
  intro m
  induction m with
  | zero => ?_
  | succ m ih => ?_
  all_goals
    intro w k hI hk ho
    have hclosed : ∀ f, (w.node k).closed = true →
        ∃ w', unsubscribe sh (f + 1) w k = some w' ∧ Inv sh n w' ∧ Ext w w' k [.unsub k] := by
      intro f hc
      rcases bool_cases (sh k) with hs | hs
      · exact ⟨w, by simp [unsubscribe, hs, dataUnsubscribe, hc], hI,
          Ext.already hc (fun _ => rfl) (fun _ => rfl) (fun _ => rfl) rfl⟩
      · have hob : (w.node k).observed = true := by rw [hI.observed k hs]; exact hc
        refine ⟨w, ?_, hI, Ext.already hc (fun _ => rfl) (fun _ => rfl) (fun _ => rfl) rfl⟩
        have hid : (w.update k fun n => { n with observed := true }) = w := by
          apply update_id
          cases hn : w.node k with
          | mk a b c d e f => rw [hn] at hob; simp at hob; subst hob; rfl
        simp [unsubscribe, hs, tryApply_empty _ (hI.empty k), hob, hid]
  · rcases bool_cases (w.node k).closed with hc | hc
    · exfalso
      have : opens n (w.update k fun n => { n with closed := true }) < opens n w :=
        opens_close hk hc (by simp) (fun j hj => by
          by_cases hjk : j = k
          · subst hjk; simp
          · rw [update_ne hjk]; exact hj)
      omega
    · exact hclosed _ hc
  · rcases bool_cases (w.node k).closed with hc | hc
    · have hlk : (w.node k).locked = false := by
        rcases bool_cases (w.node k).locked with h | h
        · exact h
        · rw [hI.lockedClosed k h] at hc; cases hc
      rcases bool_cases (sh k) with hs | hs
      · let w1 := w.update k fun n => { n with closed := true, finalizers := [] }
        have hne : ∀ j, j ≠ k → w1.node j = w.node j := fun j hj => update_ne hj
        have hwk : w1.node k = { w.node k with closed := true, finalizers := [] } := update_same ..
        have hI1 : Inv sh n w1 := by
          refine ⟨fun j => ?_, fun j hl => ?_, fun j hl => ?_, fun j hj => ?_, fun j hj => ?_, fun j i hi => ?_,
            hI.found, hI.recorded⟩
          all_goals by_cases hjk : j = k
          · subst hjk; rw [hwk]; exact hI.empty j
          · rw [hne j hjk]; exact hI.empty j
          · subst hjk; rw [hwk]
          · rw [hne j hjk] at hl ⊢; exact hI.lockedClosed j hl
          · subst hjk; rw [hwk]
          · rw [hne j hjk] at hl ⊢; exact hI.drained j hl
          · subst hjk; rw [hs] at hj; cases hj
          · rw [hne j hjk]; exact hI.observed j hj
          · subst hjk; rw [hs] at hj; cases hj
          · rw [hne j hjk]; exact hI.flag j hj
          · subst hjk; rw [hwk] at hi; cases hi
          · rw [hne j hjk] at hi; exact hI.below j i hi
        have hlt : opens n w1 < opens n w := opens_close hk hc (by rw [hwk]) (fun j hj => by
          by_cases hjk : j = k
          · subst hjk; rw [hwk]
          · rw [hne j hjk]; exact hj)
        obtain ⟨w', h1, h2, h3⟩ := runTears_does ih k (w.node k).finalizers w1 hI1
          (by rw [hwk]) (fun i hi => hI.below k i hi) (by omega)
        refine ⟨w', ?_, h2, h3.close hI h2 hc hne rfl (by rw [hwk]) (by rw [hwk]) w' (fun _ _ => rfl)
          rfl rfl rfl ?_⟩
        · rw [unsubscribe]; simp only [hs, Bool.false_eq_true, if_false, dataUnsubscribe, hc]; exact h1
        · rw [h3.locked, hwk]
      · have hob : (w.node k).observed = false := by rw [hI.observed k hs]; exact hc
        let f : Node → Node := fun n =>
          { n with observed := true, locked := true, closedFlag := true, closed := true, finalizers := [] }
        let w1 := w.update k f
        have hne : ∀ j, j ≠ k → w1.node j = w.node j := fun j hj => update_ne hj
        have hwk : w1.node k = f (w.node k) := update_same ..
        have hI1 : Inv sh n w1 := by
          refine ⟨fun j => ?_, fun j hl => ?_, fun j hl => ?_, fun j hj => ?_, fun j hj => ?_, fun j i hi => ?_,
            hI.found, hI.recorded⟩
          all_goals by_cases hjk : j = k
          · subst hjk; rw [hwk]; exact hI.empty j
          · rw [hne j hjk]; exact hI.empty j
          · subst hjk; rw [hwk]
          · rw [hne j hjk] at hl ⊢; exact hI.lockedClosed j hl
          · subst hjk; rw [hwk]
          · rw [hne j hjk] at hl ⊢; exact hI.drained j hl
          · subst hjk; rw [hwk]
          · rw [hne j hjk]; exact hI.observed j hj
          · subst hjk; rw [hwk]
          · rw [hne j hjk]; exact hI.flag j hj
          · subst hjk; rw [hwk] at hi; cases hi
          · rw [hne j hjk] at hi; exact hI.below j i hi
        have hlt : opens n w1 < opens n w := opens_close hk hc (by rw [hwk]) (fun j hj => by
          by_cases hjk : j = k
          · subst hjk; rw [hwk]
          · rw [hne j hjk]; exact hj)
        obtain ⟨w', h1, h2, h3⟩ := runTears_does ih k (w.node k).finalizers w1 hI1
          (by rw [hwk]) (fun i hi => hI.below k i hi) (by omega)
        let w'' := w'.update k fun n => { n with locked := false }
        have hne' : ∀ j, j ≠ k → w''.node j = w'.node j := fun j hj => update_ne hj
        have hwk' : w''.node k = { w'.node k with locked := false } := update_same ..
        have hI2 : Inv sh n w'' := by
          refine ⟨fun j => ?_, fun j hl => ?_, fun j hl => ?_, fun j hj => ?_, fun j hj => ?_, fun j i hi => ?_,
            h2.found, h2.recorded⟩
          all_goals by_cases hjk : j = k
          · subst hjk; rw [hwk']; exact h2.empty j
          · rw [hne' j hjk]; exact h2.empty j
          · subst hjk; rw [hwk'] at hl; cases hl
          · rw [hne' j hjk] at hl ⊢; exact h2.lockedClosed j hl
          · subst hjk; rw [hwk'] at hl ⊢; exact h2.drained j hl
          · rw [hne' j hjk] at hl ⊢; exact h2.drained j hl
          · subst hjk; rw [hwk']; exact h2.observed j hj
          · rw [hne' j hjk]; exact h2.observed j hj
          · subst hjk; rw [hwk']; exact h2.flag j hj
          · rw [hne' j hjk]; exact h2.flag j hj
          · subst hjk; rw [hwk'] at hi; exact h2.below j i hi
          · rw [hne' j hjk] at hi; exact h2.below j i hi
        refine ⟨w'', ?_, hI2, h3.close hI h2 hc hne rfl (by rw [hwk]) (by rw [hwk]) w'' hne' rfl
          (by rw [hwk']) (by rw [hwk']) (by rw [hwk', hlk])⟩
        have hq := hI.empty k
        let un := unsubscribe sh (m + 1)
        let wo := w.update k fun n => { n with observed := true }
        have e1 : tryUnsubscribe un wo k = some w'' := by
          unfold tryUnsubscribe
          rw [show (10 : Nat) = 9 + 1 from rfl, applyQueue_empty un (by simp [wo, hq])]
          simp only [Option.bind_some, dataUnsubscribe]
          have e2 : ((((wo.update k fun n => { n with locked := true }).update k fun n =>
              { n with closedFlag := true }).update k fun n =>
              { n with closed := true, finalizers := [] })) = w1 := by
            simp only [wo, w1, World.update]
            congr 1
            funext j
            by_cases hj : j = k <;> simp [hj, f]
          have e3 : (((wo.update k fun n => { n with locked := true }).update k fun n =>
              { n with closedFlag := true }).node k).finalizers = (w.node k).finalizers := by simp [wo]
          have e4 : (((wo.update k fun n => { n with locked := true }).update k fun n =>
              { n with closedFlag := true }).node k).closed = false := by simp [wo, hc]
          rw [e4, e3, e2]
          simp only [Bool.false_eq_true, if_false]
          rw [h1]
          rfl
        have e5 : unsubscribe sh (m + 1 + 1) w k =
            ((if (w.node k).observed then some wo else if (wo.node k).locked then some (defer wo k)
              else tryUnsubscribe un wo k).bind fun w => tryApplyDeferred un w k) := by
          rw [unsubscribe]
          simp only [hs, if_true]
          rw [tryApply_empty _ hq]
          rfl
        rw [e5, hob, show (wo.node k).locked = false by simp [wo, hlk]]
        simp only [Bool.false_eq_true, if_false, e1, Option.bind_some]
        exact tryApply_empty _ (hI2.empty k)
    · exact hclosed _ hc

theorem opens_le (n : Nat) (w : World) : opens n w ≤ n := by
  have := List.length_filter_le (fun j => !(w.node j).closed) (List.range n)
  simpa [opens] using this

/-- Between the calls of users nothing is locked. -/
structure Idle (sh : Nat → Bool) (n : Nat) (w : World) : Prop extends Inv sh n w where
  unlocked : ∀ j, (w.node j).locked = false

theorem idle_init (sh n) : Idle sh n init where
  empty _ := rfl
  found p hp := by cases hp
  recorded := rfl
  lockedClosed _ h := by cases h
  drained _ _ := rfl
  observed _ _ := rfl
  flag _ _ := rfl
  below j i hi := by cases hi
  unlocked _ := rfl

theorem Idle.unsub {sh n w} (h : Idle sh n w) {k : Nat} (hk : k < n) :
    ∃ w', unsubscribe sh (n + 1) w k = some w' ∧ Idle sh n w' ∧ Ext w w' k [.unsub k] := by
  obtain ⟨w', h1, h2, h3⟩ := unsubscribe_does sh n n w k h.toInv hk (opens_le n w)
  exact ⟨w', h1, ⟨h2, fun j => by rw [h3.locked, h.unlocked]⟩, h3⟩

theorem Idle.isClosed {sh n w} (h : Idle sh n w) (k : Nat) : isClosed sh w k = (w.node k).closed := by
  unfold Graph.isClosed
  split
  · rename_i hs
    rw [h.observed k hs, h.flag k hs, h.unlocked k]
    simp
  · rfl

theorem update_update (w : World) (k : Nat) (f g : Node → Node) :
    (w.update k f).update k g = w.update k fun n => g (f n) := by
  simp only [World.update]
  congr 1
  funext j
  by_cases hj : j = k <;> simp [hj]

theorem Idle.lock_unlock {sh n w} (h : Idle sh n w) (k : Nat) :
    ((w.update k fun n => { n with locked := true }).update k fun n => { n with locked := false }) = w := by
  rw [update_update]
  apply update_id
  have := h.unlocked k
  cases hn : w.node k with
  | mk a b c d e f => rw [hn] at this; simp at this; subst this; rfl

theorem Idle.add {sh n w} (h : Idle sh n w) {k : Nat} {t : Option Tear}
    (ht : ∀ i, t = some (.unsub i) → i < n) :
    ∃ w', addTeardown sh (n + 1) w k t = some w' ∧ Idle sh n w' ∧
      ((w.node k).closed = false → (∀ j, j ≠ k → w'.node j = w.node j) ∧ w'.log = w.log ∧
        (w'.node k).finalizers = (w.node k).finalizers ++ t.toList ∧ (w'.node k).closed = false) ∧
      ((w.node k).closed = true → Ext w w' k t.toList) := by
  cases t with
  | none =>
    refine ⟨w, ?_, h, fun hc => ⟨fun _ _ => rfl, rfl, by simp, hc⟩, fun _ => Ext.refl w k⟩
    simp only [addTeardown, Option.map_some]
    rw [h.lock_unlock]
  | some t =>
    let wl := w.update k fun n => { n with locked := true }
    have hnel : ∀ j, j ≠ k → wl.node j = w.node j := fun j hj => update_ne hj
    have hwl : wl.node k = { w.node k with locked := true } := update_same ..
    rcases bool_cases (w.node k).closed with hc | hc
    · let w' := w.update k fun n => { n with finalizers := n.finalizers ++ [t] }
      have hne : ∀ j, j ≠ k → w'.node j = w.node j := fun j hj => update_ne hj
      have hwk : w'.node k = { w.node k with finalizers := (w.node k).finalizers ++ [t] } := update_same ..
      have hidle : Idle sh n w' := by
        refine ⟨⟨fun j => ?_, fun j hl => ?_, fun j hl => ?_, fun j hj => ?_, fun j hj => ?_,
          fun j i hi => ?_, h.found, h.recorded⟩, fun j => ?_⟩
        all_goals by_cases hjk : j = k
        · subst hjk; rw [hwk]; exact h.empty j
        · rw [hne j hjk]; exact h.empty j
        · subst hjk; rw [hwk] at hl ⊢; exact h.lockedClosed j hl
        · rw [hne j hjk] at hl ⊢; exact h.lockedClosed j hl
        · subst hjk; rw [hwk] at hl; rw [show (w.node j).closed = true from hl] at hc; cases hc
        · rw [hne j hjk] at hl ⊢; exact h.drained j hl
        · subst hjk; rw [hwk]; exact h.observed j hj
        · rw [hne j hjk]; exact h.observed j hj
        · subst hjk; rw [hwk]; exact h.flag j hj
        · rw [hne j hjk]; exact h.flag j hj
        · subst hjk; rw [hwk] at hi
          rcases List.mem_append.1 hi with hi | hi
          · exact h.below j i hi
          · simp at hi; exact ht i (by rw [hi])
        · rw [hne j hjk] at hi; exact h.below j i hi
        · subst hjk; rw [hwk]; exact h.unlocked j
        · rw [hne j hjk]; exact h.unlocked j
      refine ⟨w', ?_, hidle, fun _ => ⟨hne, rfl, by rw [hwk]; rfl, by rw [hwk]; exact hc⟩,
        fun hc' => by rw [hc] at hc'; cases hc'⟩
      simp only [addTeardown]
      rw [show ((w.update k fun n => { n with locked := true }).node k).closed = false by simp [hc]]
      simp only [Bool.false_eq_true, if_false, Option.map_some]
      rw [update_update, update_update]
      congr 1
      simp only [w', World.update]
      congr 1
      funext j
      by_cases hj : j = k
      · have := h.unlocked k
        simp only [hj, if_true]
        cases hn : w.node k with
        | mk a b c d e f => rw [hn] at this; simp at this; subst this; rfl
      · simp [hj]
    · have hIl : Inv sh n wl := by
        refine ⟨fun j => ?_, fun j hl => ?_, fun j hl => ?_, fun j hj => ?_, fun j hj => ?_, fun j i hi => ?_,
          h.found, h.recorded⟩
        all_goals by_cases hjk : j = k
        · subst hjk; rw [hwl]; exact h.empty j
        · rw [hnel j hjk]; exact h.empty j
        · subst hjk; rw [hwl]; exact hc
        · rw [hnel j hjk] at hl ⊢; exact h.lockedClosed j hl
        · subst hjk; rw [hwl] at hl ⊢; exact h.drained j hl
        · rw [hnel j hjk] at hl ⊢; exact h.drained j hl
        · subst hjk; rw [hwl]; exact h.observed j hj
        · rw [hnel j hjk]; exact h.observed j hj
        · subst hjk; rw [hwl]; exact h.flag j hj
        · rw [hnel j hjk]; exact h.flag j hj
        · subst hjk; rw [hwl] at hi; exact h.below j i hi
        · rw [hnel j hjk] at hi; exact h.below j i hi
      obtain ⟨w1, h1, hI1, h3⟩ := runTears_does (unsubscribe_does sh n n) k [t] wl hIl
        (by rw [hwl]; exact hc) (fun i hi => by simp at hi; exact ht i (by rw [hi])) (opens_le n wl)
      let w' := w1.update k fun n => { n with locked := false }
      have hne : ∀ j, j ≠ k → w'.node j = w1.node j := fun j hj => update_ne hj
      have hwk : w'.node k = { w1.node k with locked := false } := update_same ..
      have hcl : ∀ j, (wl.node j).closed = (w.node j).closed := fun j => by
        by_cases hj : j = k
        · subst hj; rw [hwl]
        · rw [hnel j hj]
      have hfl : ∀ j, (wl.node j).finalizers = (w.node j).finalizers := fun j => by
        by_cases hj : j = k
        · subst hj; rw [hwl]
        · rw [hnel j hj]
      have hcl' : ∀ j, (w'.node j).closed = (w1.node j).closed := fun j => by
        by_cases hj : j = k
        · subst hj; rw [hwk]
        · rw [hne j hj]
      have hfl' : ∀ j, (w'.node j).finalizers = (w1.node j).finalizers := fun j => by
        by_cases hj : j = k
        · subst hj; rw [hwk]
        · rw [hne j hj]
      have hlk : ∀ j, (w'.node j).locked = false := fun j => by
        by_cases hj : j = k
        · subst hj; rw [hwk]
        · rw [hne j hj, h3.locked, hnel j hj]; exact h.unlocked j
      refine ⟨w', ?_, ⟨⟨fun j => ?_, fun j hl => ?_, fun j hl => ?_, fun j hj => ?_, fun j hj => ?_,
        fun j i hi => ?_, hI1.found, hI1.recorded⟩, hlk⟩, fun hc' => (by rw [hc] at hc'; cases hc'), fun _ => ?_⟩
      · simp only [addTeardown]
        rw [show ((w.update k fun n => { n with locked := true }).node k).closed = true by simp [hc]]
        simp only [if_true]
        rw [h1]
        rfl
      · by_cases hjk : j = k
        · subst hjk; rw [hwk]; exact hI1.empty j
        · rw [hne j hjk]; exact hI1.empty j
      · rw [hlk] at hl; cases hl
      · rw [hfl']; rw [hcl'] at hl; exact hI1.drained j hl
      · rw [hcl']
        by_cases hjk : j = k
        · subst hjk; rw [hwk]; exact hI1.observed j hj
        · rw [hne j hjk]; exact hI1.observed j hj
      · rw [hcl']
        by_cases hjk : j = k
        · subst hjk; rw [hwk]; exact hI1.flag j hj
        · rw [hne j hjk]; exact hI1.flag j hj
      · rw [hfl'] at hi; exact hI1.below j i hi
      · refine ⟨fun j hj => ?_, fun j => ?_, fun j hj => ?_, fun j c => ?_, fun i hi => ?_,
          fun j ho hd i hi => ?_, fun j ho hd => ?_⟩
        · rw [hcl']; exact h3.mono j (by rw [hcl]; exact hj)
        · rw [hlk, h.unlocked]
        · rw [hfl', ← hfl]; exact h3.fin j (by rw [← hcl']; exact hj)
        · rw [hfl', ← hfl]; exact h3.cons j c
        · rw [hcl']; exact h3.targets i hi
        · rw [hcl'] at hd ⊢; exact h3.closes j (by rw [hcl]; exact ho) hd i (by rw [hfl]; exact hi)
        · obtain ⟨i, hi, hr⟩ := h3.reach j (by rw [hcl]; exact ho) (by rw [← hcl']; exact hd)
          exact ⟨i, hi, hr.back fun j t ht => by rw [hfl] at ht; exact ht⟩

/-- As long as a subscription is open, none of its callbacks is called. -/
def Quiet (w w' : World) : Prop :=
  ∀ k, (w'.node k).closed = false → (w.node k).closed = false ∧ ∀ c, called k c w' = called k c w

theorem Ext.quiet {w w' : World} {k : Nat} {ts : List Tear} (h : Ext w w' k ts) (j : Nat)
    (hj : (w'.node j).closed = false) (hjk : j ≠ k) :
    (w.node j).closed = false ∧ ∀ c, called j c w' = called j c w := by
  refine ⟨?_, fun c => ?_⟩
  · rcases bool_cases (w.node j).closed with hc | hc
    · exact hc
    · rw [h.mono j hc] at hj; cases hj
  · have := h.cons j c
    rw [h.fin j hj, if_neg hjk] at this
    omega

/-- Callbacks are neither lost nor repeated by one call. -/
theorem step_does {sh n w} (h : Idle sh n w) {op : Op} (hop : Below n op) :
    ∃ w', step sh (n + 1) w op = some w' ∧ Idle sh n w' ∧
      (∀ k c, called k c w' + (w'.node k).finalizers.count (.call c) =
        called k c w + (w.node k).finalizers.count (.call c) + added k c [op]) ∧
      Quiet w w' := by
  have key : ∀ (k : Nat) (t : Option Tear) (ht : ∀ i, t = some (.unsub i) → i < n),
      ∃ w', addTeardown sh (n + 1) w k t = some w' ∧ Idle sh n w' ∧
      (∀ j c, called j c w' + (w'.node j).finalizers.count (.call c) =
        called j c w + (w.node j).finalizers.count (.call c) +
          if j = k then t.toList.count (.call c) else 0) ∧ Quiet w w' := by
    intro k t ht
    obtain ⟨w', h1, h2, h3, h4⟩ := h.add (k := k) ht
    refine ⟨w', h1, h2, fun j c => ?_, fun j hj => ?_⟩
    · rcases bool_cases (w.node k).closed with hc | hc
      · obtain ⟨g1, g2, g3, -⟩ := h3 hc
        by_cases hj : j = k
        · subst hj; simp [called, g2, g3, List.count_append]; omega
        · simp [called, g2, g1 j hj, hj]
      · exact (h4 hc).cons j c
    · rcases bool_cases (w.node k).closed with hc | hc
      · obtain ⟨g1, g2, -, g4⟩ := h3 hc
        refine ⟨?_, fun c => by simp [called, g2]⟩
        by_cases hjk : j = k
        · subst hjk; exact hc
        · rw [← g1 j hjk]; exact hj
      · refine (h4 hc).quiet j hj fun hjk => ?_
        subst hjk
        rw [(h4 hc).mono j hc] at hj
        cases hj
  cases op with
  | addCall k c =>
    obtain ⟨w', h1, h2, h3, hq⟩ := key k (some (.call c)) (by simp)
    refine ⟨w', h1, h2, fun j d => ?_, hq⟩
    rw [h3 j d]
    congr 1
    simp only [added, List.count_singleton, Option.toList_some]
    by_cases hj : j = k
    · subst hj
      by_cases hd : d = c
      · subst hd; simp
      · have h1 : (Tear.call c == Tear.call d) = false := by simp; exact fun h => hd h.symm
        have h2 : (Op.addCall j c == Op.addCall j d) = false := by simp; exact fun h => hd h.symm
        simp [h1, h2]
    · have h2 : (Op.addCall k c == Op.addCall j d) = false := by simp; intro h; exact absurd h.symm hj
      simp [hj, h2]
  | addSub k j =>
    obtain ⟨w', h1, h2, h3, hq⟩ := key k (if isClosed sh w j then none else some (.unsub j)) (by
      intro i hi
      split at hi
      · cases hi
      · simp at hi; subst hi; exact hop.2)
    refine ⟨w', h1, h2, fun i d => ?_, hq⟩
    rw [h3 i d]
    congr 1
    have h2 : added i d [Op.addSub k j] = 0 := by simp [added]
    rw [h2]
    split
    · split <;> simp
    · rfl
  | unsub k =>
    obtain ⟨w', h1, h2, h3⟩ := h.unsub (k := k) hop
    refine ⟨w', h1, h2, fun i d => ?_, fun j hj => h3.quiet j hj fun hjk => ?_⟩
    · rw [h3.cons i d]
      simp [added]
    · subst hjk; rw [h3.targets j (by simp)] at hj; cases hj

theorem run_does {sh n} (ops : List Op) : ∀ {w}, Idle sh n w → (∀ op ∈ ops, Below n op) →
    ∃ w', run sh (n + 1) w ops = some w' ∧ Idle sh n w' ∧
      (∀ k c, called k c w' + (w'.node k).finalizers.count (.call c) =
        called k c w + (w.node k).finalizers.count (.call c) + added k c ops) ∧ Quiet w w' := by
  induction ops with
  | nil => exact fun {w} h _ => ⟨w, rfl, h, fun k c => (by simp [added]), fun k hk => ⟨hk, fun _ => rfl⟩⟩
  | cons op ops ih =>
    intro w h hb
    obtain ⟨w1, h1, h2, h3, h4⟩ := step_does h (hb op (by simp))
    obtain ⟨w', g1, g2, g3, g4⟩ := ih h2 fun o ho => hb o (List.mem_cons_of_mem _ ho)
    refine ⟨w', by simp [run, List.foldlM_cons, h1]; exact g1, g2, fun k c => ?_, fun k hk =>
      ⟨(h4 k (g4 k hk).1).1, fun c => ((g4 k hk).2 c).trans ((h4 k (g4 k hk).1).2 c)⟩⟩
    rw [g3, h3]
    have : added k c (op :: ops) = added k c [op] + added k c ops := by
      simp only [added]; rw [← List.count_append]; rfl
    omega

theorem Ext.all_reached {w w' : World} {k : Nat} (h : Ext w w' k [.unsub k]) {sh n} (hI : Inv sh n w)
    {j : Nat} (hr : Reach w k j) : (w'.node j).closed = true := by
  induction hr with
  | refl => exact h.targets k (by simp)
  | step _ hm ih =>
    rename_i i j _
    rcases bool_cases (w.node i).closed with hc | hc
    · exact h.closes _ hc ih _ hm
    · rw [hI.drained _ hc] at hm; cases hm

/-- What the history says about the graph. -/
structure Tracks (ops : List Op) (w : World) : Prop where
  sound : ∀ j, (w.node j).closed = true → ∃ k, .unsub k ∈ ops ∧ Linked ops k j
  start : ∀ k, .unsub k ∈ ops → (w.node k).closed = true
  link : ∀ a b, .addSub a b ∈ ops → (w.node b).closed = true ∨
    ((w.node a).closed = false ∧ .unsub b ∈ (w.node a).finalizers)
  edge : ∀ a b, .unsub b ∈ (w.node a).finalizers → .addSub a b ∈ ops

theorem Linked.mono {ops ops' : List Op} (h : ∀ op ∈ ops, op ∈ ops') {k j : Nat} (hl : Linked ops k j) :
    Linked ops' k j := by
  induction hl with
  | refl => exact .refl _
  | step _ hm ih => exact .step ih (h _ hm)

theorem Linked.trans {ops : List Op} {a b c : Nat} (h1 : Linked ops a b) (h2 : Linked ops b c) :
    Linked ops a c := by
  induction h2 with
  | refl => exact h1
  | step _ hm ih => exact .step ih hm

theorem Tracks.linked {ops : List Op} {w : World} (h : Tracks ops w) {k j : Nat} (hr : Reach w k j) :
    Linked ops k j := by
  induction hr with
  | refl => exact .refl _
  | step _ hm ih => exact .step ih (h.edge _ _ hm)

/-- A closing of whatever is reached from `i`. -/
theorem Tracks.ext {ops : List Op} {op : Op} {w w' : World} {k : Nat} {ts : List Tear} {sh n}
    (h : Tracks ops w) (hI : Inv sh n w') (he : Ext w w' k ts)
    (hts : ∀ i, .unsub i ∈ ts → ∃ k, .unsub k ∈ ops ++ [op] ∧ Linked (ops ++ [op]) k i)
    (hu : ∀ k, op = .unsub k → (w'.node k).closed = true)
    (ha : ∀ a b, op = .addSub a b → (w'.node b).closed = true) : Tracks (ops ++ [op]) w' where
  sound j hj := by
    have hin : ∀ o ∈ ops, o ∈ ops ++ [op] := fun o ho => List.mem_append_left _ ho
    rcases bool_cases (w.node j).closed with hc | hc
    · obtain ⟨i, hi, hr⟩ := he.reach j hc hj
      obtain ⟨k, hk, hl⟩ := hts i hi
      exact ⟨k, hk, hl.trans ((h.linked hr).mono hin)⟩
    · obtain ⟨k, hk, hl⟩ := h.sound j hc
      exact ⟨k, hin _ hk, hl.mono hin⟩
  start k hk := by
    rcases List.mem_append.1 hk with hk | hk
    · exact he.mono k (h.start k hk)
    · simp at hk; exact hu k hk.symm
  link a b hab := by
    rcases List.mem_append.1 hab with hab | hab
    · rcases h.link a b hab with hb | ⟨hb, hf⟩
      · exact .inl (he.mono b hb)
      · rcases bool_cases (w'.node a).closed with hc | hc
        · exact .inr ⟨hc, by rw [he.fin a hc]; exact hf⟩
        · exact .inl (he.closes a hb hc b hf)
    · simp at hab; exact .inl (ha a b hab.symm)
  edge a b hab := List.mem_append_left _ (h.edge a b (he.fin_mem hI hab))

theorem Tracks.step {sh n} {ops : List Op} {op : Op} {w w' : World} (h : Tracks ops w) (hi : Idle sh n w)
    (hop : Below n op) (hw : Graph.step sh (n + 1) w op = some w') : Tracks (ops ++ [op]) w' := by
  have hin : ∀ o ∈ ops, o ∈ ops ++ [op] := fun o ho => List.mem_append_left _ ho
  have hstore : ∀ (k : Nat) (t : Option Tear), (w.node k).closed = false →
      (∀ j, j ≠ k → w'.node j = w.node j) → w'.log = w.log →
      (w'.node k).finalizers = (w.node k).finalizers ++ t.toList → (w'.node k).closed = false →
      (∀ j, op ≠ .unsub j) →
      (∀ b, t = some (.unsub b) → op = .addSub k b) →
      (∀ a b, op = .addSub a b → (w'.node b).closed = true ∨ (a = k ∧ t = some (.unsub b))) →
      Tracks (ops ++ [op]) w' := by
    intro k t hc hne _ hf hc' hnu ht ha
    have hcl : ∀ j, (w'.node j).closed = (w.node j).closed := fun j => by
      by_cases hj : j = k
      · subst hj; rw [hc, hc']
      · rw [hne j hj]
    have hsub : ∀ j x, x ∈ (w.node j).finalizers → x ∈ (w'.node j).finalizers := fun j x hx => by
      by_cases hj : j = k
      · subst hj; rw [hf]; exact List.mem_append_left _ hx
      · rw [hne j hj]; exact hx
    refine ⟨fun j hj => ?_, fun j hj => ?_, fun a b hab => ?_, fun a b hab => ?_⟩
    · rw [hcl] at hj
      obtain ⟨k, hk, hl⟩ := h.sound j hj
      exact ⟨k, hin _ hk, hl.mono hin⟩
    · rw [hcl]
      rcases List.mem_append.1 hj with hj | hj
      · exact h.start j hj
      · simp at hj; exact absurd hj.symm (hnu j)
    · rcases List.mem_append.1 hab with hab | hab
      · rcases h.link a b hab with hb | ⟨hb, hm⟩
        · exact .inl (by rw [hcl]; exact hb)
        · exact .inr ⟨by rw [hcl]; exact hb, hsub _ _ hm⟩
      · simp at hab
        rcases ha a b hab.symm with hb | ⟨rfl, hb⟩
        · exact .inl hb
        · exact .inr ⟨hc', by rw [hf, hb]; simp⟩
    · by_cases hak : a = k
      · subst hak
        rw [hf] at hab
        rcases List.mem_append.1 hab with hab | hab
        · exact hin _ (h.edge a b hab)
        · simp at hab; rw [ht b hab]; simp
      · rw [hne a hak] at hab
        exact hin _ (h.edge a b hab)
  cases op with
  | addCall k c =>
    obtain ⟨w1, h1, h2, h3, h4⟩ := hi.add (k := k) (t := some (.call c)) (by simp)
    rw [show Graph.step sh (n + 1) w (.addCall k c) = _ from h1] at hw
    obtain rfl := Option.some.inj hw
    rcases bool_cases (w.node k).closed with hc | hc
    · obtain ⟨g1, g2, g3, g4⟩ := h3 hc
      exact hstore k (some (.call c)) hc g1 g2 g3 g4 (by simp) (by simp) (by simp)
    · exact h.ext h2.toInv (h4 hc) (by simp) (by simp) (by simp)
  | addSub k j =>
    obtain ⟨w1, h1, h2, h3, h4⟩ := hi.add (k := k)
      (t := if isClosed sh w j then none else some (.unsub j)) (by
      intro i hi
      split at hi
      · cases hi
      · simp at hi; subst hi; exact hop.2)
    rw [show Graph.step sh (n + 1) w (.addSub k j) = _ from h1] at hw
    obtain rfl := Option.some.inj hw
    rw [hi.isClosed] at h3 h4
    rcases bool_cases (w.node k).closed with hc | hc
    · obtain ⟨g1, g2, g3, g4⟩ := h3 hc
      refine hstore k _ hc g1 g2 g3 g4 (by simp) (fun b hb => ?_) (fun a b hab => ?_)
      · split at hb
        · cases hb
        · simp at hb; subst hb; rfl
      · obtain ⟨rfl, rfl⟩ : k = a ∧ j = b := by simpa using hab
        rcases bool_cases (w.node j).closed with hj | hj
        · exact .inr ⟨rfl, by simp [hj]⟩
        · refine .inl ?_
          by_cases hjk : j = k
          · subst hjk; rw [hc] at hj; cases hj
          · rw [g1 j hjk]; exact hj
    · refine h.ext h2.toInv (h4 hc) (fun i hi' => ?_) (by simp) (fun a b hab => ?_)
      · rcases bool_cases (w.node j).closed with hj | hj
        · simp [hj] at hi'
          subst hi'
          obtain ⟨k', hk', hl⟩ := h.sound k hc
          exact ⟨k', hin _ hk', (hl.mono hin).step (by simp)⟩
        · simp [hj] at hi'
      · obtain ⟨rfl, rfl⟩ : k = a ∧ j = b := by simpa using hab
        rcases bool_cases (w.node j).closed with hj | hj
        · exact (h4 hc).targets j (by simp [hj])
        · exact (h4 hc).mono j hj
  | unsub k =>
    obtain ⟨w1, h1, h2, h3⟩ := hi.unsub (k := k) hop
    rw [show Graph.step sh (n + 1) w (.unsub k) = _ from h1] at hw
    obtain rfl := Option.some.inj hw
    refine h.ext h2.toInv h3 (fun i hi' => ?_) (fun k' hk' => ?_) (by simp)
    · simp at hi'; subst hi'; exact ⟨i, by simp, .refl _⟩
    · simp at hk'; subst hk'; exact h3.targets k (by simp)

theorem tracks_run {sh n} (ops : List Op) : ∀ {w w' : World} (past : List Op), Idle sh n w → Tracks past w →
    (∀ op ∈ ops, Below n op) → run sh (n + 1) w ops = some w' → Tracks (past ++ ops) w' := by
  induction ops with
  | nil =>
    intro w w' past _ h _ hw
    obtain rfl := Option.some.inj hw
    simpa using h
  | cons op ops ih =>
    intro w w' past hi h hb hw
    obtain ⟨w1, h1, h2, -⟩ := step_does hi (hb op (by simp))
    simp only [run, List.foldlM_cons, h1] at hw
    have := ih (past ++ [op]) h2 (h.step hi (hb op (by simp)) h1)
      (fun o ho => hb o (List.mem_cons_of_mem _ ho)) hw
    simpa using this

theorem tracks_init : Tracks [] init where
  sound j hj := by cases hj
  start k hk := by cases hk
  link a b hab := by cases hab
  edge a b hab := by cases hab

theorem Tracks.closed_of_linked {ops : List Op} {w : World} (h : Tracks ops w) {k j : Nat}
    (hl : Linked ops k j) (hk : (w.node k).closed = true) : (w.node j).closed = true := by
  induction hl with
  | refl => exact hk
  | step _ hm ih =>
    rcases h.link _ _ hm with hb | ⟨ha, -⟩
    · exact hb
    · rw [ih] at ha; cases ha

end Rx.Graph
