import Verif.Lemmas.CachingThreads

/-!
# What subscribers hear if nothing overlaps
-/

namespace Rx.Crowd

open Closing (Dest)

variable {S I E : Type} {D : Dest S I E} {debug : Bool} {s : Nat → S} {x : State S I E} {i t : Nat}

/-- The numbers of the calls, in order. -/
def callIds (tr : List (Mark I E)) : List Nat :=
  tr.filterMap fun m => match m with | .call k _ _ => some k | _ => none

/-- The values sent, in order. -/
def sentOf (tr : List (Mark I E)) : List (Nat × I) :=
  tr.filterMap fun m => match m with | .call k _ (.next v) => some (k, v) | _ => none

theorem mem_callIds {tr : List (Mark I E)} {k : Nat} : k ∈ callIds tr ↔ ∃ u op, .call k u op ∈ tr := by
  simp only [callIds, List.mem_filterMap]
  constructor
  · rintro ⟨m, h1, h2⟩
    cases m with
    | call k u op => cases h2; exact ⟨u, op, h1⟩
    | _ => cases h2
  · rintro ⟨u, op, h⟩
    exact ⟨_, h, rfl⟩

theorem mem_sentOf {tr : List (Mark I E)} {k : Nat} {v : I} : (k, v) ∈ sentOf tr ↔ ∃ u, .call k u (.next v) ∈ tr := by
  simp only [sentOf, List.mem_filterMap]
  constructor
  · rintro ⟨m, h1, h2⟩
    cases m with
    | call k u op =>
      cases op with
      | next v => cases h2; exact ⟨u, h1⟩
      | _ => cases h2
    | _ => cases h2
  · rintro ⟨u, h⟩
    exact ⟨_, h, rfl⟩

theorem callIds_append (a b : List (Mark I E)) : callIds (a ++ b) = callIds a ++ callIds b := by simp [callIds]
theorem sentOf_append (a b : List (Mark I E)) : sentOf (a ++ b) = sentOf a ++ sentOf b := by simp [sentOf]

theorem callIds_nil {b : List (Mark I E)} (h : ∀ k u op, .call k u op ∉ b) : callIds b = [] := by
  cases e : callIds b with
  | nil => rfl
  | cons k L =>
    obtain ⟨u, op, hk⟩ := mem_callIds.1 (show k ∈ callIds b by rw [e]; simp)
    exact absurd hk (h _ _ _)

/-- Calls are numbered in the order in which they begin, and return after that. -/
structure Times (tr : List (Mark I E)) : Prop where
  ascending : (callIds tr).Pairwise (· < ·)
  began : ∀ a k b, tr = a ++ .ret k :: b → ∃ u op, .call k u op ∈ a

theorem run_times (hD : D.Contract) (s : Nat → S) (l : List (Nat × Turn I E)) : Times (run D debug (Crowd.init s) l).trace :=
  run_induction hD s (P := fun x => Times x.trace)
    ⟨.nil, fun a k b e => by have := congrArg List.length e; simp [Crowd.init] at this⟩
    (fun x t a hi h => by
      obtain ⟨-, g, -, -⟩ := hi.moves (debug := debug) hD t a
      obtain ⟨b, hb⟩ := g.trace
      refine ⟨?_, fun a' k c e => ?_⟩
      · by_cases hn : ∃ k u op, .call k u op ∈ b
        · obtain ⟨k, u, op, hk⟩ := hn
          have : ∀ k u op, .call k u op ∈ b → .call k u op ∉ x.trace →
              (Crowd.step D debug x t a).trace = x.trace ++ [.call x.calls t op] := by
            intro k u op hk hx
            rcases g.calls k u op (by rw [hb]; exact List.mem_append_right _ hk) with h' | ⟨-, rfl, -, h', -⟩
            · exact absurd h' hx
            · exact h'
          by_cases hc : (Crowd.step D debug x t a).calls = x.calls
          · obtain ⟨b', h1, h2⟩ := Keeping.turn_trace (debug := debug) hD hi t a hc
            rw [hb] at h1
            rw [List.append_cancel_left h1] at hk
            exact absurd hk (h2 _ _ _)
          · have e : ∃ op, (Crowd.step D debug x t a).trace = x.trace ++ [.call x.calls t op] := by
              unfold Crowd.step at hc ⊢
              split
              · cases a with
                | call op =>
                  dsimp only
                  split
                  · rename_i h1 h2; rw [if_pos h1] at hc; simp [h2] at hc
                  · exact ⟨op, rfl⟩
                | _ => rename_i h1; rw [if_pos h1] at hc; exact absurd rfl hc
              · rename_i h1; rw [if_neg h1] at hc; exact absurd calls_advance hc
            obtain ⟨op, e⟩ := e
            rw [e, callIds_append, List.pairwise_append]
            refine ⟨h.ascending, by simp [callIds], fun j hj k hk => ?_⟩
            obtain ⟨u, op, hj⟩ := mem_callIds.1 hj
            have := hi.ids.ids _ _ _ hj
            simp only [callIds, List.filterMap_cons, List.filterMap_nil, List.mem_singleton] at hk
            omega
        · have hn : ∀ k u op, .call k u op ∉ b := fun k u op hk => hn ⟨k, u, op, hk⟩
          rw [hb, callIds_append, callIds_nil hn, List.append_nil]
          exact h.ascending
      · have hr : .ret k ∈ (Crowd.step D debug x t a).trace := by rw [e]; simp
        have hx : ∃ u op, .call k u op ∈ x.trace := by
          rcases g.rets k hr with h' | ⟨c, h1, -, rfl⟩
          · exact hi.ids.rets k h'
          · exact ⟨t, c.op, (hi.ids.cur t c h1).1⟩
        rw [hb] at e
        rcases List.append_eq_append_iff.1 e with ⟨as, ha, -⟩ | ⟨bs, ha, hbs⟩
        · obtain ⟨u, op, h1⟩ := hx
          exact ⟨u, op, by rw [ha]; exact List.mem_append_left _ h1⟩
        · cases bs with
          | nil =>
            obtain ⟨u, op, h1⟩ := hx
            exact ⟨u, op, by rw [ha] at h1; simpa using h1⟩
          | cons m bs =>
            simp only [List.cons_append, List.cons.injEq] at hbs
            exact h.began a' k bs (by rw [ha, ← hbs.1])) l

theorem Times.began_mem {tr a b : List (Mark I E)} (h : Times tr) (e : tr = a ++ b) {k : Nat} (hk : .ret k ∈ a) :
    ∃ u op, .call k u op ∈ a := by
  obtain ⟨a1, a2, rfl⟩ := List.append_of_mem hk
  obtain ⟨u, op, h1⟩ := h.began a1 k (a2 ++ b) (by rw [e]; simp)
  exact ⟨u, op, List.mem_append_left _ h1⟩

theorem Times.lt {tr : List (Mark I E)} (h : Times tr) {j k u : Nat} {op : Op I E} (hb : Before tr j k)
    (hk : .call k u op ∈ tr) : j < k := by
  obtain ⟨a, b, e, h1, h2⟩ := hb
  obtain ⟨v, op', h3⟩ := h.began_mem e h1
  have h4 : .call k u op ∈ b := (List.mem_append.1 (e ▸ hk)).resolve_left (h2 _ _)
  have := h.ascending
  rw [e, callIds_append, List.pairwise_append] at this
  exact this.2.2 j (mem_callIds.2 ⟨_, _, h3⟩) k (mem_callIds.2 ⟨_, _, h4⟩)

theorem Times.after {tr a b : List (Mark I E)} (h : Times tr) (e : tr = a ++ .call i t .subscribe :: b) :
    sentOf b = (sentOf tr).filter fun p => decide (i < p.1) := by
  have hp := h.ascending
  rw [e, callIds_append, List.pairwise_append] at hp
  obtain ⟨-, h2, h3⟩ := hp
  have e2 : callIds (.call i t .subscribe :: b) = i :: callIds b := rfl
  rw [e2, List.pairwise_cons] at h2
  have h4 : sentOf (.call i t .subscribe :: b) = sentOf b := rfl
  rw [e, sentOf_append, List.filter_append, h4]
  have h5 : (sentOf a).filter (fun p => decide (i < p.1)) = [] := by
    rw [List.filter_eq_nil_iff]
    rintro ⟨k, v⟩ hk
    obtain ⟨u, hu⟩ := mem_sentOf.1 hk
    have := h3 k (mem_callIds.2 ⟨_, _, hu⟩) i (by rw [e2]; simp)
    simp only [decide_eq_true_eq]
    omega
  have h6 : (sentOf b).filter (fun p => decide (i < p.1)) = sentOf b := by
    rw [List.filter_eq_self]
    rintro ⟨k, v⟩ hk
    obtain ⟨u, hu⟩ := mem_sentOf.1 hk
    simpa using h2.1 k (mem_callIds.2 ⟨_, _, hu⟩)
  rw [h5, h6, List.nil_append]

theorem pairwise_sentOf {tr : List (Mark I E)} (h : Times tr) : (sentOf tr).Pairwise fun p q => p.1 < q.1 := by
  have : ∀ tr : List (Mark I E), (callIds tr).Pairwise (· < ·) → (sentOf tr).Pairwise fun p q => p.1 < q.1 := by
    intro tr
    induction tr with
    | nil => intro _; exact .nil
    | cons m tr ih =>
      intro h
      cases m with
      | call k u op =>
        have e : callIds (.call k u op :: tr) = k :: callIds tr := rfl
        rw [e, List.pairwise_cons] at h
        cases op with
        | next v =>
          show ((k, v) :: sentOf tr).Pairwise _
          refine List.pairwise_cons.2 ⟨?_, ih h.2⟩
          rintro ⟨j, w⟩ hj
          obtain ⟨u, hu⟩ := mem_sentOf.1 hj
          exact h.1 j (mem_callIds.2 ⟨_, _, hu⟩)
        | _ => exact ih h.2
      | _ => exact ih h
  exact this tr h.ascending

theorem closed_foldl (hD : D.Contract) {n : SubscriberNotification I E} (hn : n.isClosing = true) :
    ∀ (ns : List (SubscriberNotification I E)) (s : S), n ∈ ns → D.isClosed (ns.foldl D.push s) = true := by
  have stay : ∀ (ns : List (SubscriberNotification I E)) (s : S), D.isClosed s = true → D.isClosed (ns.foldl D.push s) = true := by
    intro ns
    induction ns with
    | nil => exact fun _ h => h
    | cons m ns ih => exact fun s h => ih _ (by rw [hD.inert _ _ h]; exact h)
  intro ns
  induction ns with
  | nil => intro s h; cases h
  | cons m ns ih =>
    intro s h
    rcases List.mem_cons.1 h with rfl | h
    · exact stay ns _ (hD.closes _ _ hn)
    · exact ih _ h

theorem givesTo_of_values {tr : List (Mark I E)} (h : ∀ n ∈ givesTo i tr, n.isClosing = false) :
    givesTo i tr = (valuesTo i tr).map fun p => .next p.2 := by
  induction tr with
  | nil => rfl
  | cons m tr ih =>
    cases m with
    | give k j n =>
      by_cases e : j = i
      · subst e
        have e1 : givesTo j (.give k j n :: tr) = n :: givesTo j tr := by simp [givesTo]
        rw [e1] at h ⊢
        have h1 := h n (by simp)
        have ih := ih fun n hn => h n (by simp [hn])
        cases n with
        | next v =>
          have e2 : valuesTo j (.give k j (.next v) :: tr) = (k, v) :: valuesTo j tr := by simp [valuesTo]
          rw [e2, ih]; rfl
        | _ => cases h1
      · have e1 : givesTo i (.give k j n :: tr) = givesTo i tr := by simp [givesTo, e]
        have e2 : valuesTo i (.give k j n :: tr) = valuesTo i tr := by
          cases n <;> simp [valuesTo, e]
        rw [e1] at h ⊢
        rw [e2]
        exact ih h
    | _ => exact ih h

theorem pairwise_nexts {R : Nat → Nat → Prop} {l : List (Call I E)} (h : l.Pairwise fun a b => R a.id b.id) :
    (nexts l).Pairwise fun p q => R p.1 q.1 := by
  induction l with
  | nil => exact .nil
  | cons c l ih =>
    rw [List.pairwise_cons] at h
    obtain ⟨k, op⟩ := c
    cases op with
    | next v =>
      show ((k, v) :: nexts l).Pairwise _
      refine List.pairwise_cons.2 ⟨?_, ih h.2⟩
      rintro ⟨j, w⟩ hj
      exact h.1 _ (mem_nexts.1 hj)
    | _ => exact ih h.2

/-- No call of `next` overlaps with call `i`: once everything is settled, subscriber `i`, if open, has heard exactly
the values sent after it was subscribed. -/
theorem Inv.exactly (h : Inv D s x) (ht : Times x.trace) (hs : Settled x)
    (hback : ∀ k u n, .call k u n ∈ x.trace → .ret k ∈ x.trace ∨ (x.pc u).cur = some ⟨k, n⟩)
    (he : ¬ Ending x.trace) (hi : .call i t .subscribe ∈ x.trace) (ho : D.isClosed (x.dests i) = false)
    (hn : ∀ k u v, .call k u (.next v) ∈ x.trace → Before x.trace k i ∨ Before x.trace i k) :
    (valuesTo i x.trace).Perm ((sentOf x.trace).filter fun p => decide (i < p.1)) ∧
    ((∀ j k t u v w, .call j t (.next v) ∈ x.trace → .call k u (.next w) ∈ x.trace → j ≠ k →
        Before x.trace j k ∨ Before x.trace k j) →
      valuesTo i x.trace = (sentOf x.trace).filter fun p => decide (i < p.1)) := by
  have hd : ⟨i, .subscribe⟩ ∈ x.done := by
    rcases h.kept.kept _ _ _ hi with h1 | h1 | h1
    · exact hs.done h1
    · exact (hs.pend h1).elim
    · exact absurd (show D.isClosed (x.dests i) = true from h1) (by rw [ho]; simp)
  obtain ⟨a, b, e⟩ := List.append_of_mem hd
  have hv := (h.heard.vals i a b e).2 ho
  have hnodup : (x.done.map Call.id).Nodup := by
    have := h.ids.nodup
    rw [State.line, List.map_append, List.nodup_append] at this
    exact this.1
  have hpw : (nexts b).Pairwise fun p q => p.1 ≠ q.1 := by
    rw [e, List.map_append, List.nodup_append] at hnodup
    have := hnodup.2.1
    rw [List.map_cons, List.nodup_cons] at this
    exact pairwise_nexts (R := fun a b => a ≠ b) (List.pairwise_map.1 this.2)
  have hmem : ∀ p, p ∈ valuesTo i x.trace ↔ p ∈ (sentOf x.trace).filter fun p => decide (i < p.1) := by
    rintro ⟨k, v⟩
    rw [hv, mem_nexts, List.mem_filter, mem_sentOf]
    constructor
    · intro hk
      have hk' : ⟨k, .next v⟩ ∈ x.done := by rw [e]; simp [hk]
      obtain ⟨u, hu⟩ := h.ids.line _ (show ⟨k, .next v⟩ ∈ x.line by simp [State.line, hk'])
      refine ⟨⟨u, hu⟩, ?_⟩
      simp only [decide_eq_true_eq]
      rcases hn k u v hu with h1 | h1
      · exact absurd h1 (h.order_of e hk)
      · exact ht.lt h1 hu
    · rintro ⟨⟨u, hu⟩, hlt⟩
      simp only [decide_eq_true_eq] at hlt
      have hb : Before x.trace i k := by
        rcases hn k u v hu with h1 | h1
        · have := ht.lt h1 hi; omega
        · exact h1
      have hret : .ret k ∈ x.trace := (hback k u _ hu).resolve_right fun e' => by
        rw [isIdle_eq (hs.rest u)] at e'; cases e'
      rcases h.missed hi hu hret hb with h1 | h1 | h1 | h1
      · rw [hv] at h1; exact mem_nexts.1 h1
      · rw [ho] at h1; cases h1
      · rw [hs.empty, hs.queue] at h1; cases h1
      · obtain ⟨a', b', e', -, j, w, op, h2, h3⟩ := h1
        exact absurd ⟨j, w, op, by rw [e']; exact List.mem_append_left _ h2, h3⟩ he
  have hs' : ((sentOf x.trace).filter fun p => decide (i < p.1)).Pairwise fun p q => p.1 < q.1 :=
    (pairwise_sentOf ht).filter _
  have hperm : (valuesTo i x.trace).Perm ((sentOf x.trace).filter fun p => decide (i < p.1)) := by
    refine (List.perm_ext_iff_of_nodup ?_ ?_).2 hmem
    · rw [hv]; exact hpw.imp fun h e => h (by rw [e])
    · exact hs'.imp fun h e => by rw [e] at h; omega
  refine ⟨hperm, fun hord => ?_⟩
  refine List.Perm.eq_of_pairwise (le := fun p q => p.1 < q.1) (fun p q _ _ h1 h2 => by omega) ?_ hs' hperm
  rw [hv]
  have h1 : b.Pairwise fun p q => ¬ Before x.trace q.id p.id := by
    have := h.ids.order
    rw [State.line, List.pairwise_append] at this
    have := this.1
    rw [e, List.pairwise_append] at this
    exact (List.pairwise_cons.1 this.2.1).2
  have h2 := pairwise_nexts (R := fun p q => ¬ Before x.trace q p) h1
  refine (h2.and hpw).imp_of_mem ?_
  rintro ⟨j, v⟩ ⟨k, w⟩ hj hk ⟨h3, h4⟩
  rw [← hv] at hj hk
  obtain ⟨u, hu⟩ := mem_sentOf.1 (List.mem_filter.1 ((hmem _).1 hj)).1
  obtain ⟨u', hu'⟩ := mem_sentOf.1 (List.mem_filter.1 ((hmem _).1 hk)).1
  rcases hord _ _ _ _ _ _ hu hu' h4 with h5 | h5
  · exact ht.lt h5 hu'
  · exact absurd h5 h3

end Rx.Crowd
