import Verif.Spec.Testing

/-!
# Lemmas about what tests are written with
-/

namespace Rx.Testing

variable {I E : Type}

theorem len_eq (c : Collector I E) : c.len = c.all.length := by
  simp [Collector.len, Collector.all]

theorem tryNth_eq (c : Collector I E) (n : Nat) : c.tryNth n = c.all[n]? := by
  unfold Collector.tryNth Collector.all
  rw [List.getElem?_append]

theorem nthExists_eq (c : Collector I E) (n : Nat) : c.nthExists n = (c.tryNth n).isSome := by
  unfold Collector.nthExists Collector.tryNth
  split <;> rfl

theorem push_all {c : Collector I E} (h : c.closed = false → c.afterClose = []) (n : SubscriberNotification I E) :
    (c.push n).all = c.all ++ [n] ∧ ((c.push n).closed = false → (c.push n).afterClose = []) := by
  unfold Collector.push Collector.all
  cases hc : c.closed
  · simp [h hc]
  · simp

theorem pushes_all (l : List (SubscriberNotification I E)) {c : Collector I E} (h : c.closed = false → c.afterClose = []) :
    (l.foldl Collector.push c).all = c.all ++ l := by
  induction l generalizing c with
  | nil => simp
  | cons n l ih =>
    rw [List.foldl_cons, ih (push_all h n).2, (push_all h n).1]
    simp

theorem all_recorded (l : List (SubscriberNotification I E)) : (recorded l).all = l := by
  unfold recorded
  rw [pushes_all l (fun _ => rfl)]
  rfl

theorem pushes_closed (l : List (SubscriberNotification I E)) {c : Collector I E} (h : c.closed = true) :
    l.foldl Collector.push c = { c with afterClose := c.afterClose ++ l } := by
  induction l generalizing c with
  | nil => simp
  | cons n l ih =>
    rw [List.foldl_cons, show c.push n = { c with afterClose := c.afterClose ++ [n] } from by simp [Collector.push, h], ih (by exact h)]
    simp

theorem pushes_parts (l : List (SubscriberNotification I E)) {c : Collector I E} (h : c.closed = false) :
    (l.foldl Collector.push c).observed = c.observed ++ upToUnsubscribe l ∧
      (l.foldl Collector.push c).afterClose = c.afterClose ++ behindUnsubscribe l := by
  induction l generalizing c with
  | nil => simp [upToUnsubscribe, behindUnsubscribe]
  | cons n l ih =>
    rw [List.foldl_cons]
    cases n with
    | unsubscribe =>
      rw [pushes_closed l (by simp [Collector.push, h, Collector.isUnsubscribe])]
      simp [Collector.push, h, upToUnsubscribe, behindUnsubscribe]
    | next v =>
      obtain ⟨h1, h2⟩ := ih (c := c.push (.next v)) (by simp [Collector.push, h, Collector.isUnsubscribe])
      rw [h1, h2]
      simp [Collector.push, h, upToUnsubscribe, behindUnsubscribe]
    | error e =>
      obtain ⟨h1, h2⟩ := ih (c := c.push (.error e)) (by simp [Collector.push, h, Collector.isUnsubscribe])
      rw [h1, h2]
      simp [Collector.push, h, upToUnsubscribe, behindUnsubscribe]
    | complete =>
      obtain ⟨h1, h2⟩ := ih (c := c.push .complete) (by simp [Collector.push, h, Collector.isUnsubscribe])
      rw [h1, h2]
      simp [Collector.push, h, upToUnsubscribe, behindUnsubscribe]

theorem parts_recorded (l : List (SubscriberNotification I E)) :
    (recorded l).observed = upToUnsubscribe l ∧ (recorded l).afterClose = behindUnsubscribe l := by
  have := pushes_parts l (c := ({} : Collector I E)) rfl
  simpa [recorded] using this

theorem behind_nil (l : List (SubscriberNotification I E)) :
    behindUnsubscribe l = [] ↔ ∀ a b, l = a ++ .unsubscribe :: b → b = [] := by
  induction l with
  | nil => simp [behindUnsubscribe]
  | cons n l ih =>
    have key : n ≠ .unsubscribe → ((∀ a b, n :: l = a ++ .unsubscribe :: b → b = []) ↔ ∀ a b, l = a ++ .unsubscribe :: b → b = []) := by
      intro hn
      constructor
      · intro h a b e
        exact h (n :: a) b (by rw [e]; rfl)
      · intro h a b e
        cases a with
        | nil => cases e; exact (hn rfl).elim
        | cons x a => cases e; exact h a b rfl
    cases n with
    | unsubscribe =>
      simp only [behindUnsubscribe]
      constructor
      · rintro rfl a b e
        cases a with
        | nil => cases e; rfl
        | cons x a => cases a <;> cases e
      · intro h
        exact h [] l rfl
    | _ =>
      rw [key (by simp)]
      exact ih

theorem assertAll_iff [DecidableEq I] [DecidableEq E] {c : Collector I E} {l : List (SubscriberNotification I E)}
    (h : ∀ n, c.tryNth n = l[n]?) (ns : List (SubscriberNotification I E)) (offset : Nat) (noMore : Bool) :
    c.assertAll offset ns noMore = true ↔
      (l.drop offset).take ns.length = ns ∧ (noMore = true → l.length ≤ offset + ns.length) := by
  induction ns generalizing offset with
  | nil =>
    simp only [Collector.assertAll, h]
    cases noMore <;> simp
  | cons n ns ih =>
    simp only [Collector.assertAll, Bool.and_eq_true, ih, Collector.assertNth, h]
    have e : (l.drop offset).take (n :: ns).length = n :: ns ↔ l[offset]? = some n ∧ (l.drop (offset + 1)).take ns.length = ns := by
      cases hl : l[offset]? with
      | none =>
        have : l.length ≤ offset := List.getElem?_eq_none_iff.1 hl
        simp [List.drop_eq_nil_of_le this]
      | some x =>
        obtain ⟨hlt, hx⟩ := List.getElem?_eq_some_iff.1 hl
        rw [List.drop_eq_getElem_cons hlt, List.length_cons, List.take_succ_cons, hx]
        simp
    rw [e]
    have e2 : offset + 1 + ns.length = offset + (n :: ns).length := by simp; omega
    rw [e2]
    cases l[offset]? <;> simp [and_assoc]

/-! ## Mock observers -/

theorem mock_note (m : Mocks I E) (i : Nat) (n : SubscriberNotification I E) :
    (m.note i n).collector = m.collector.push n ∧
      ∀ k, ((m.note i n).data k).isClosed = ((m.data k).isClosed || (i == k && n.isClosing)) := by
  have hu : ∀ d : SubscriptionData, d.unsubscribe.1.isClosed = true := by
    intro d
    cases h : d.closed <;> simp [SubscriptionData.unsubscribe, SubscriptionData.isClosed, h]
  cases n with
  | next v => simp [Mocks.note, Mocks.record, SubscriberNotification.isClosing, SubscriberNotification.isTerminal]
  | _ =>
    refine ⟨rfl, fun k => ?_⟩
    by_cases hk : k = i
    · subst hk
      simp [Mocks.note, Mocks.put, Mocks.record, hu, SubscriberNotification.isClosing, SubscriberNotification.isTerminal]
    · have : (i == k) = false := by simp; exact fun h => hk h.symm
      simp [Mocks.note, Mocks.put, Mocks.record, hk, this]

theorem mock_add (m : Mocks I E) (i : Nat) (t : Teardown) :
    ∀ k, ((m.put i ((m.data i).addTeardown t)).data k).isClosed = (m.data k).isClosed := by
  intro k
  by_cases hk : k = i
  · subst hk
    simp only [Mocks.put, if_true, SubscriptionData.addTeardown]
    split
    · rfl
    · cases t <;> rfl
  · simp [Mocks.put, hk]

theorem mocks_run {m : Mocks I E} (before : List (MockOp I E)) (h : ∀ i, (m.data i).isClosed = before.any (MockOp.closes i))
    (l : List (MockOp I E)) :
    (m.run l).collector = (toRecord before l).foldl Collector.push m.collector ∧
      ∀ i, ((m.run l).data i).isClosed = (before ++ l).any (MockOp.closes i) := by
  induction l generalizing m before with
  | nil => exact ⟨rfl, by rw [List.append_nil]; exact h⟩
  | cons op l ih =>
    have key : ∀ i, ((m.step op).data i).isClosed = (before ++ [op]).any (MockOp.closes i) := by
      intro i
      rw [List.any_append, ← h i]
      cases op with
      | note k n => simp [Mocks.step, (mock_note m k n).2, MockOp.closes]
      | addTeardown k t => simp [Mocks.step, mock_add m k t i, MockOp.closes]
      | drop k =>
        simp only [Mocks.step]
        split
        · rw [(mock_note m k .unsubscribe).2]
          simp [MockOp.closes, SubscriberNotification.isClosing]
        · rename_i hc
          simp only [Bool.not_eq_true, Bool.not_eq_false'] at hc
          by_cases hk : k = i
          · subst hk; simp [hc]
          · simp [MockOp.closes, hk]
    obtain ⟨h1, h2⟩ := ih (m := m.step op) (before ++ [op]) key
    refine ⟨?_, fun i => by
      have := h2 i
      rw [List.append_assoc] at this
      exact this⟩
    show ((m.step op).run l).collector = _
    rw [h1]
    unfold toRecord
    rw [← toRecord.eq_def, List.foldl_append]
    congr 1
    cases op with
    | note k n => exact (mock_note m k n).1
    | addTeardown k t => rfl
    | drop k =>
      simp only [Mocks.step, h k]
      cases before.any (MockOp.closes k)
      · exact (mock_note m k .unsubscribe).1
      · rfl

/-- What of it is that of the `i`-th. -/
def ranBy (i : Nat) (l : List (Nat × Nat)) : List Nat := l.filterMap fun x => if x.1 = i then some x.2 else none

theorem ranBy_put (i k : Nat) (r : List Nat) (l : List (Nat × Nat)) :
    ranBy i (l ++ r.map fun t => (k, t)) = ranBy i l ++ if k = i then r else [] := by
  unfold ranBy
  rw [List.filterMap_append]
  congr 1
  by_cases h : k = i
  · simp [h, List.filterMap_map, Function.comp_def]
  · simp [h, List.filterMap_map, Function.comp_def]

/-- Once closed, nothing waits and all have run; before, all wait and none has run. -/
def Kept (m : Mocks I E) (i : Nat) (ts : List Nat) : Prop :=
  ranBy i m.ran = (if (m.data i).isClosed then ts else []) ∧ (m.data i).finalizers = if (m.data i).isClosed then [] else ts

theorem kept_unsubscribe {m : Mocks I E} {i : Nat} {ts : List Nat} (h : Kept m i ts) (k : Nat) :
    Kept (m.put k (m.data k).unsubscribe) i ts := by
  obtain ⟨h1, h2⟩ := h
  unfold Kept
  by_cases hk : i = k
  · subst hk
    simp only [Mocks.put, if_true]
    rw [ranBy_put, if_pos rfl, h1]
    cases hc : (m.data i).isClosed
    · have e : (m.data i).unsubscribe = (⟨true, []⟩, (m.data i).finalizers) := by simp [SubscriptionData.unsubscribe, hc]
      rw [e]
      rw [h2, hc]
      simp [SubscriptionData.isClosed]
    · have e : (m.data i).unsubscribe = (m.data i, []) := by simp [SubscriptionData.unsubscribe, hc]
      rw [e]
      simp [h2, hc]
  · simp only [Mocks.put, hk, if_false]
    rw [ranBy_put, if_neg (fun h => hk h.symm), List.append_nil]
    exact ⟨h1, h2⟩

theorem kept_note {m : Mocks I E} {i : Nat} {ts : List Nat} (h : Kept m i ts) (k : Nat) (n : SubscriberNotification I E) :
    Kept (m.note k n) i ts := by
  cases n with
  | next v => exact h
  | error e => exact kept_unsubscribe (m := m.record (.error e)) h k
  | complete => exact kept_unsubscribe (m := m.record .complete) h k
  | unsubscribe => exact kept_unsubscribe h k

theorem kept_add {m : Mocks I E} {i : Nat} {ts : List Nat} (h : Kept m i ts) (k : Nat) (t : Teardown) :
    Kept (m.put k ((m.data k).addTeardown t)) i (ts ++ if k = i then t.toList else []) := by
  obtain ⟨h1, h2⟩ := h
  unfold Kept
  by_cases hk : i = k
  · subst hk
    simp only [Mocks.put, if_true]
    rw [ranBy_put, if_pos rfl, h1]
    cases hc : (m.data i).isClosed
    · cases t with
      | none =>
        have e : (m.data i).addTeardown none = (m.data i, []) := by simp [SubscriptionData.addTeardown, hc, Teardown.take]
        rw [e]
        simp [h2, hc]
      | some f =>
        have e : (m.data i).addTeardown (some f) = ({ (m.data i) with finalizers := (m.data i).finalizers ++ [f] }, []) := by
          simp [SubscriptionData.addTeardown, hc, Teardown.take]
        rw [e]
        have hc' : (m.data i).closed = false := hc
        simp [SubscriptionData.isClosed, h2, hc']
    · have e : (m.data i).addTeardown t = (m.data i, t.execute) := by simp [SubscriptionData.addTeardown, hc]
      rw [e]
      simp [h2, hc, Teardown.execute]
  · simp only [Mocks.put, hk, if_false]
    have hk' : ¬k = i := fun h => hk h.symm
    rw [ranBy_put, if_neg hk', if_neg hk', List.append_nil, List.append_nil]
    exact ⟨h1, h2⟩

theorem kept_run (l : List (MockOp I E)) {m : Mocks I E} {i : Nat} {ts : List Nat} (h : Kept m i ts) :
    Kept (m.run l) i (ts ++ teardownsOf i l) := by
  induction l generalizing m ts with
  | nil =>
    rw [show teardownsOf i ([] : List (MockOp I E)) = [] from rfl, List.append_nil]
    exact h
  | cons op l ih =>
    show Kept ((m.step op).run l) _ _
    cases op with
    | note k n =>
      exact ih (kept_note h k n)
    | addTeardown k t =>
      have := ih (kept_add h k t)
      rw [List.append_assoc] at this
      exact this
    | drop k =>
      have h' : Kept (m.step (.drop k)) i ts := by
        simp only [Mocks.step]
        split
        · exact kept_note h k _
        · exact h
      exact ih h'

theorem mocks_ran (l : List (MockOp I E)) (i : Nat) :
    (ranBy i (Mocks.run {} l).ran = if ((Mocks.run {} l).data i).isClosed then teardownsOf i l else []) ∧
      ((Mocks.run {} l).data i).finalizers = if ((Mocks.run {} l).data i).isClosed then [] else teardownsOf i l := by
  have := kept_run l (m := ({} : Mocks I E)) (i := i) (ts := []) ⟨rfl, rfl⟩
  simpa [Kept] using this

/-! ## The destination of the harness -/

theorem harness_all (l : List (SubscriberNotification I E)) (h : Harness I E) (hn : h.takes = none) :
    (h.run l).mock.collector = l.foldl Collector.push h.mock.collector := by
  induction l generalizing h with
  | nil => rfl
  | cons n l ih =>
    have e : h.note n = { h with mock := h.mock.note 0 n } := by
      cases n <;> simp [Harness.note, hn]
    show ((h.note n).run l).mock.collector = _
    rw [e, ih _ (by exact hn), List.foldl_cons, (mock_note h.mock 0 n).1]

theorem harness_none (vs : List I) (h : Harness I E) (hn : h.takes = some 0) :
    h.run (vs.map .next) = h := by
  induction vs with
  | nil => rfl
  | cons v vs ih =>
    have e : h.note (.next v) = h := by simp [Harness.note, hn]
    show (h.note (.next v)).run (vs.map .next) = h
    rw [e, ih]

theorem harness_takes (vs : List I) (k : Nat) (m : Mocks I E) (hm : (m.data 0).isClosed = false) :
    (Harness.run { mock := m, takes := some (k + 1) } (vs.map .next)).mock.collector =
      ((vs.take (k + 1)).map SubscriberNotification.next ++ if k + 1 ≤ vs.length then [SubscriberNotification.complete] else []).foldl Collector.push m.collector := by
  induction vs generalizing k m with
  | nil => simp [Harness.run]
  | cons v vs ih =>
    have hc : ((m.note 0 (.next v)).data 0).isClosed = false := hm
    cases k with
    | zero =>
      have e : Harness.note { mock := m, takes := some (0 + 1) } (.next v) =
          ({ mock := (m.note 0 (.next v)).note 0 .complete, takes := some 0 } : Harness I E) := by
        simp [Harness.note, hc]
      show (Harness.run (Harness.note { mock := m, takes := some (0 + 1) } (.next v)) (vs.map .next)).mock.collector = _
      rw [e, harness_none _ _ rfl]
      simp [(mock_note _ 0 _).1]
    | succ k =>
      have e : Harness.note { mock := m, takes := some (k + 1 + 1) } (.next v) =
          ({ mock := m.note 0 (.next v), takes := some (k + 1) } : Harness I E) := by
        simp [Harness.note]
      show (Harness.run (Harness.note { mock := m, takes := some (k + 1 + 1) } (.next v)) (vs.map .next)).mock.collector = _
      rw [e, ih k (m.note 0 (.next v)) hc, (mock_note m 0 (.next v)).1]
      simp

/-! ## Rounds -/

theorem rounds_get (rs : List Nat) (rounds : List Nat) (made : Nat) (hn : rounds.Nodup) (hm : ∀ c ∈ rounds, c < made)
    (h : ∀ a r b, rs = a ++ r :: b → ∀ k < r, k < rounds.length ∨ k ∈ a) :
    ∃ cs out, getRounds rounds made rs = some (cs, out) ∧ cs.length = rs.length ∧
      (out.Nodup ∧ ∀ i (hi : i < rs.length), cs[i]? = out[rs[i]]? ∧ rs[i] < out.length) ∧
      ∀ r, r < out.length ↔ r < rounds.length ∨ r ∈ rs := by
  suffices hs : ∃ cs out, getRounds rounds made rs = some (cs, out) ∧ cs.length = rs.length ∧
      (out.Nodup ∧ ∀ i (hi : i < rs.length), cs[i]? = out[rs[i]]? ∧ rs[i] < out.length) ∧
      (∀ r, r < out.length ↔ r < rounds.length ∨ r ∈ rs) ∧ rounds <+: out by
    obtain ⟨cs, out, h1, h2, h3, h4, -⟩ := hs
    exact ⟨cs, out, h1, h2, h3, h4⟩
  induction rs generalizing rounds made with
  | nil => exact ⟨[], rounds, rfl, rfl, ⟨hn, by simp⟩, by simp, List.prefix_refl _⟩
  | cons r rs ih =>
    have hr : r ≤ rounds.length := by
      by_cases h0 : r = 0
      · omega
      · have := h [] r rs rfl (r - 1) (by omega)
        simp at this
        omega
    have key : ∃ c rounds', getRound rounds made r = some (c, rounds') ∧ rounds'.Nodup ∧ (∀ c ∈ rounds', c < made + 1) ∧
        rounds'[r]? = some c ∧ rounds <+: rounds' ∧ (∀ k, k < rounds'.length ↔ k < rounds.length ∨ k = r) := by
      by_cases hlt : r < rounds.length
      · refine ⟨rounds[r], rounds, ?_, hn, fun c hc => Nat.lt_succ_of_lt (hm c hc), List.getElem?_eq_getElem hlt, List.prefix_refl _,
          fun k => ⟨.inl, fun h => by rcases h with h | rfl <;> assumption⟩⟩
        simp [getRound, List.getElem?_eq_getElem hlt]
      · have e : r = rounds.length := by omega
        subst e
        refine ⟨made, rounds ++ [made], ?_, ?_, ?_, by simp, List.prefix_append _ _, fun k => by simp; omega⟩
        · simp [getRound, List.insertIdx_length_self]
        · rw [List.nodup_append]
          refine ⟨hn, by simp, ?_⟩
          intro a ha b hb
          simp at hb
          subst hb
          exact Nat.ne_of_lt (hm a ha)
        · intro c hc
          rcases List.mem_append.1 hc with hc | hc
          · exact Nat.lt_succ_of_lt (hm c hc)
          · simp at hc; omega
    obtain ⟨c, rounds', g1, g2, g3, g4, g5, g6⟩ := key
    obtain ⟨cs, out, h1, h2, h3, h4, h5⟩ := ih rounds' (made + 1) g2 g3 (by
      intro a r' b e k hk
      rcases h (r :: a) r' b (by rw [e]; rfl) k hk with h | h
      · exact .inl ((g6 k).2 (.inl h))
      · rcases List.mem_cons.1 h with h | h
        · exact .inl ((g6 k).2 (.inr h))
        · exact .inr h)
    have hrl : r < rounds'.length := (g6 r).2 (.inr rfl)
    have ho : out[r]? = some c := by
      obtain ⟨z, rfl⟩ := h5
      rw [List.getElem?_append_left hrl, g4]
    refine ⟨c :: cs, out, ?_, by simp [h2], ⟨h3.1, ?_⟩, ?_, g5.trans h5⟩
    · simp [getRounds, g1, h1]
    · intro i hi
      cases i with
      | zero => exact ⟨by simp [ho], by
          simp only [List.getElem_cons_zero]
          exact Nat.lt_of_lt_of_le hrl h5.length_le⟩
      | succ i =>
        have := h3.2 i (by simpa using hi)
        simpa using this
    · intro k
      rw [h4 k, g6 k]
      simp [or_assoc]

/-! ## Tracked iterators -/

/-- What an operation does to what is known of the `i`-th. -/
def tracked (i : Nat) (op : TrackOp α) (xs : List α) (n : Nat) (f : Bool) : List α × Nat × Bool :=
  match op with
  | .iter _ => (xs, n, f)
  | .next k => if k = i then (match xs with | _ :: ys => (ys, n + 1, f) | [] => ([], n, true)) else (xs, n, f)

theorem tracked_step (t : Tracking α) (op : TrackOp α) (i : Nat) (xs : List α) (n : Nat) (f : Bool)
    (h : t.instances[i]? = some (xs, n, f)) :
    (t.step op).1.instances[i]? = some (tracked i op xs n f) := by
  obtain ⟨hlt, hx⟩ := List.getElem?_eq_some_iff.1 h
  cases op with
  | iter items =>
    simp only [Tracking.step, tracked]
    rw [List.getElem?_append_left hlt, h]
  | next k =>
    simp only [Tracking.step, tracked]
    by_cases hk : k = i
    · subst hk
      rw [h, if_pos rfl]
      cases xs <;> simp [hlt]
    · rw [if_neg hk]
      split
      · rw [List.getElem?_set_ne hk, h]
      · rw [List.getElem?_set_ne hk, h]
      · exact h

theorem tracked_run (l : List (TrackOp α)) (t : Tracking α) (i : Nat) (xs : List α) (n : Nat) (f : Bool)
    (h : t.instances[i]? = some (xs, n, f)) :
    ∃ rest m g, (t.run l).instances[i]? = some (rest, m, g) ∧ m = n + min (nexts i l) xs.length ∧ rest = xs.drop (m - n) ∧
      (g = true ↔ f = true ∨ xs.length < nexts i l) := by
  induction l generalizing t xs n f with
  | nil => exact ⟨xs, n, f, h, by simp [nexts], by simp, by simp [nexts]⟩
  | cons op l ih =>
    have hs := tracked_step t op i xs n f h
    cases op with
    | iter items =>
      obtain ⟨rest, m, g, h1, h2, h3, h4⟩ := ih _ _ _ _ hs
      exact ⟨rest, m, g, h1, by simpa [nexts] using h2, h3, by simpa [nexts] using h4⟩
    | next k =>
      by_cases hk : k = i
      · subst hk
        have e : nexts k (.next k :: l : List (TrackOp α)) = nexts k l + 1 := by simp [nexts]
        simp only [tracked, if_true] at hs
        cases xs with
        | nil =>
          obtain ⟨rest, m, g, h1, h2, h3, h4⟩ := ih _ _ _ _ hs
          refine ⟨rest, m, g, h1, by simpa using h2, h3, ?_⟩
          rw [h4, e]
          simp
        | cons x xs =>
          obtain ⟨rest, m, g, h1, h2, h3, h4⟩ := ih _ _ _ _ hs
          refine ⟨rest, m, g, h1, ?_, ?_, ?_⟩
          · rw [e, h2, List.length_cons]; omega
          · have : m - n = (m - (n + 1)) + 1 := by
              rw [h2]
              omega
            rw [this, List.drop_succ_cons]; exact h3
          · rw [h4, e, List.length_cons, Nat.add_lt_add_iff_right]
      · have e : nexts i (.next k :: l : List (TrackOp α)) = nexts i l := by simp [nexts, hk]
        simp only [tracked, if_neg hk] at hs
        rw [e]
        exact ih _ _ _ _ hs

end Rx.Testing
