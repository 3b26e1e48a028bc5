import Verif.Lemmas.SubjectThreadsExact

/-!
# Subscribers that were called before they are subscribed
-/

namespace Rx.Crowd

open Closing (Dest)

variable {S I E : Type} {D : Dest S I E} {debug : Bool} {s : Nat → S} {x : State S I E} {r : Nat → List I}

/-- Subscriber `i` was given the values `r i` beforehand. -/
def given (D : Dest S I E) (s : Nat → S) (r : Nat → List I) (i : Nat) : S :=
  (r i).foldl (fun s v => D.push s (.next v)) (s i)

/-- The state is one of a run whose subscribers were given the values `r` beforehand. -/
structure Follows (D : Dest S I E) (debug : Bool) (s : Nat → S) (r : Nat → List I) (x : State S I E) : Prop where
  run : ∃ l, x = Crowd.run D debug (Crowd.init (given D s r)) l
  later : ∀ i, x.calls ≤ i → r i = []

theorem Follows.init : Follows D debug s (fun _ => []) (Crowd.init s) := ⟨⟨[], rfl⟩, fun _ _ => rfl⟩

theorem Follows.inv (h : Follows D debug s r x) (hD : D.Contract) : Inv D (given D s r) x := by
  obtain ⟨l, e⟩ := h.run
  rw [e]
  exact run_inv hD _ l

theorem Follows.step (h : Follows D debug s r x) (t : Nat) (a : Turn I E) : Follows D debug s r (Crowd.step D debug x t a) := by
  obtain ⟨l, e⟩ := h.run
  exact ⟨⟨l ++ [(t, a)], by rw [run_snoc, ← e]⟩, fun i hi => h.later i (Nat.le_trans (calls_step a) hi)⟩

/-- The subscriber that the next call brings along is given values. -/
theorem Follows.prime (h : Follows D debug s r x) (hD : D.Contract) (vs : List I) :
    ∃ l, Keeping.primed D vs x = Crowd.run D debug (Crowd.init (given D s fun i => if i = x.calls then vs else r i)) l := by
  obtain ⟨l, e⟩ := h.run
  have hi := h.inv hD
  have hput : Keeping.primed D vs x = put x.calls (given D s fun i => if i = x.calls then vs else r i) x := by
    unfold Keeping.primed put
    congr 1
    funext i
    by_cases hn : i < x.calls
    · simp [hn, Nat.ne_of_lt hn]
    · rw [if_neg hn, (hi.fresh (i := i) (by omega)).1, given, given, h.later i (by omega)]
      by_cases hn' : i = x.calls <;> simp [hn']
  have hrun : Crowd.run D debug (Crowd.init (given D s fun i => if i = x.calls then vs else r i)) l =
      Keeping.primed D vs x := by
    have := run_put (debug := debug) (n := x.calls) hD (given D s r) (given D s fun i => if i = x.calls then vs else r i) l
      (by rw [← e]; exact Nat.le_refl _)
    rw [← e] at this
    rw [hput, ← this]
    congr 2
    funext i
    split
    · rename_i hn
      simp [given, Nat.ne_of_lt hn]
    · rfl
  exact ⟨l, hrun.symm⟩

theorem Follows.primed (h : Follows D debug s r x) (hD : D.Contract) (vs : List I) :
    Inv D (given D s fun i => if i = x.calls then vs else r i) (Keeping.primed D vs x) := by
  obtain ⟨l, e⟩ := h.prime hD vs
  rw [e]
  exact run_inv hD _ l

/-- It is given values, and then subscribed. -/
theorem Follows.subscribe (h : Follows D debug s r x) (hD : D.Contract) {t : Nat} (hp : x.pc t = .idle) (vs : List I) :
    Follows D debug s (fun i => if i = x.calls then vs else r i)
      (Crowd.step D debug (Keeping.primed D vs x) t (.call .subscribe)) := by
  obtain ⟨l, e⟩ := h.prime hD vs
  refine ⟨⟨l ++ [(t, .call .subscribe)], by rw [run_snoc, e]⟩, fun i hi => ?_⟩
  rw [Keeping.step_call (by exact hp) rfl] at hi
  have : x.calls + 1 ≤ i := hi
  rw [if_neg (by omega)]
  exact h.later i (by omega)

/-! ## Who finds the subject ended when it subscribes -/

/-- Subscriber `i` came when the subject was ended. -/
structure Shunned (i : Nat) (x : State S I E) : Prop where
  shut : x.shut = true
  line : ⟨i, .subscribe⟩ ∉ x.line
  passed : ∀ t, (x.pc t).passed ≠ some ⟨i, .subscribe⟩

theorem Shunned.step {i : Nat} (h : Shunned i x) (hi : Inv D s x) (hD : D.Contract) (t : Nat) (a : Turn I E) :
    Shunned i (Crowd.step D debug x t a) := by
  obtain ⟨-, g, hh, -⟩ := hi.moves (debug := debug) hD t a
  have f := fine_step (D := D) (debug := debug) x hi.join hi.look t a
  generalize Crowd.step D debug x t a = y at *
  refine ⟨f.shut_mono h.shut, fun hm => ?_, fun u hu => ?_⟩
  · rcases g.lines _ hm with e | e
    · exact h.line e
    · exact h.passed t (passed_of_armed e)
  · by_cases e : u = t
    · subst e
      rcases f.passed _ hu with e | e | ⟨e, -⟩
      · exact h.passed _ e
      · cases e
      · rw [h.shut] at e; cases e
    · rw [hh.other e] at hu
      exact h.passed _ hu

theorem Shunned.begin {i t : Nat} (hs : x.shut = true) (hi : Inv D s x) (hp : x.pc t = .idle) (e : i = x.calls) :
    Shunned i (Crowd.step D debug x t (.call .subscribe)) := by
  subst e
  rw [Keeping.step_call hp rfl]
  refine ⟨hs, fun hm => ?_, fun u hu => ?_⟩
  · obtain ⟨t', h1⟩ := hi.ids.line _ hm
    exact Nat.lt_irrefl _ (hi.ids.ids _ _ _ h1)
  · by_cases e : u = t
    · subst e
      simp [State.goto, entry, PC.passed] at hu
    · simp only [State.goto, e, if_false, State.note] at hu
      have := (hi.ids.cur u _ (cur_of_pend (pend_of_passed hu))).1
      exact Nat.lt_irrefl _ (hi.ids.ids _ _ _ this)

theorem Shunned.values {i : Nat} (h : Shunned i x) (hi : Inv D s x) : valuesTo i x.trace = [] :=
  hi.heard.none i fun hm => h.line (by simp [State.line, hm])

/-! ## Nothing overtakes a value -/

/-- Whatever subscriber `i` is called with on behalf of call `j`, it was given all values before that had to be handed
over before. -/
def Caught (x : State S I E) : Prop := ∀ a j i n b, x.trace = a ++ .give j i n :: b → ∀ k t u v,
  .call i t .subscribe ∈ x.trace → .call k u (.next v) ∈ x.trace → Before x.trace i k → Before x.trace k j →
  (k, v) ∈ valuesTo i a ∨ Excused x.trace k

theorem Caught.step (h : Caught x) (hi : Inv D s x) (ht : Times (Crowd.step D debug x t a).trace) (hD : D.Contract) :
    Caught (Crowd.step D debug x t a) := by
  have hy := hi.step (debug := debug) hD t a
  obtain ⟨mv, g, -, -⟩ := hi.moves (debug := debug) hD t a
  generalize Crowd.step D debug x t a = y at *
  obtain ⟨d, hd⟩ := g.trace
  intro a j i n b e k t' u v hsub hk hik hkj
  rw [hd] at e
  have hor : (∃ as, a = x.trace ++ as ∧ d = as ++ .give j i n :: b) ∨ ∃ bs, x.trace = a ++ .give j i n :: bs := by
    rcases List.append_eq_append_iff.1 e with ⟨as, ha, hb⟩ | ⟨bs, ha, hb⟩
    · exact .inl ⟨as, ha, hb⟩
    · cases bs with
      | nil => exact .inl ⟨[], by simpa using ha.symm, hb.symm⟩
      | cons m bs =>
        simp only [List.cons_append, List.cons.injEq] at hb
        exact .inr ⟨bs, by rw [ha, hb.1]⟩
  rcases hor with ⟨as, ha, hb⟩ | ⟨bs, ha⟩
  · -- called just now
    have hnew : .give j i n ∈ d := by rw [hb]; simp
    have key : ∀ own c, Handled D own x c y d → y.done = x.done ++ [c] → (k, v) ∈ valuesTo i a ∨ Excused y.trace k := by
      intro own c hh hdone
      obtain ⟨i', n', e'⟩ := hh.marks _ hnew
      cases e'
      rcases hh.to _ _ _ hnew with hm | ⟨rfl, -⟩
      · have ho : D.isClosed (x.dests i) = false := by
          cases hc : D.isClosed (x.dests i) with
          | false => rfl
          | true =>
            have h1 := hh.isOpen as _ _ _ _ hb
            have : ∀ (ns : List (SubscriberNotification I E)) (s : S), D.isClosed s = true → D.isClosed (ns.foldl D.push s) = true := by
              intro ns
              induction ns with
              | nil => exact fun _ h => h
              | cons m ns ih => exact fun s h => ih _ (by rw [hD.inert _ _ h]; exact h)
            rw [this _ _ hc] at h1; cases h1
        rcases hy.kept.kept _ _ _ hk with h1 | h1 | h1
        · have hkd : ⟨k, .next v⟩ ∈ x.done := by
            have hord := hy.ids.order
            rw [State.line, hdone] at hord h1
            rw [List.append_assoc, List.mem_append] at h1
            rcases h1 with h1 | h1
            · exact h1
            · rw [List.singleton_append, List.mem_cons] at h1
              rw [List.append_assoc, List.pairwise_append] at hord
              have hord := hord.2.1
              rw [List.singleton_append, List.pairwise_cons] at hord
              rcases h1 with rfl | h1
              · exact absurd (ht.lt hkj hk) (Nat.lt_irrefl _)
              · exact absurd hkj (hord.1 _ h1)
          rcases before_or (hi.heard.subs i hm) hkd (by simp) with ⟨a1, b1, e1, h2⟩ | ⟨a1, b1, e1, h2⟩
          · left
            rw [ha, valuesTo_append, (hi.heard.vals i a1 b1 e1).2 ho]
            exact List.mem_append_left _ (mem_nexts.2 h2)
          · refine absurd hik ?_
            have := hy.order_of (a := a1) (b := b1 ++ [c]) (p := ⟨k, .next v⟩) (by rw [hdone, e1]; simp) (List.mem_append_left _ h2)
            exact this
        · exact absurd hkj.ret (hy.ids.cur _ _ (cur_of_pend h1)).2
        · exact .inr h1
      · exact absurd (ht.lt hik hk) (Nat.not_lt_of_gt (ht.lt hkj hsub))
    have none : d = [] → False := fun e => by rw [e] at hnew; cases hnew
    have hd' : ∀ {d'}, y.trace = x.trace ++ d' → d' = d := fun h => List.append_cancel_left (h.symm.trans hd)
    cases mv with
    | quiet p pc same => exact (none (hd' (by simp [same.trace])).symm).elim
    | drop p c pc same => exact (none (hd' (by simp [same.trace])).symm).elim
    | speak p c n pc queue rest trace dests calls done members cur cur₀ pend pend₀ sure sub closing what =>
      rw [told] at trace
      rw [← hd' trace] at hnew
      simp only [List.mem_map, List.mem_filter, List.mem_singleton, Mark.give.injEq] at hnew
      obtain ⟨i', ⟨rfl, -⟩, rfl, rfl, -⟩ := hnew
      exact absurd (ht.lt hik hk) (Nat.not_lt_of_gt (ht.lt hkj hsub))
    | drain p pc queue rest trace => exact (none (hd' (by simp [trace])).symm).elim
    | serve p c r b pc queue rest₀ rest handled calls done cur pend sure mid hand =>
      rw [hd' handled.trace] at handled
      exact key _ _ handled done
    | give p c b pc queue rest₀ rest handled calls done cur cur₀ pend pend₀ sure at₀ =>
      rw [hd' handled.trace] at handled
      exact key _ _ handled done
    | defer p c pc queue rest trace => exact (none (hd' (by simp [trace])).symm).elim
    | ret c pc queue rest trace => rw [← hd' trace] at hnew; simp at hnew
    | note bit pc queue rest trace => rw [← hd' trace] at hnew; simp at hnew
    | start p c pc queue rest trace => rw [← hd' trace] at hnew; simp at hnew
  · -- called before
    have hg : .give j i n ∈ x.trace := by rw [ha]; simp
    obtain ⟨⟨u', op', h1, -⟩, t'', h2⟩ := hi.kept.gives _ _ _ hg
    rw [hd] at hkj hik hk
    have hkj' := hkj.backs h1
    obtain ⟨u'', op'', h3⟩ := hi.ids.rets _ hkj'.ret
    have hik' := hik.backs h3
    have := hy.ids.one _ _ _ _ _ (hd ▸ List.mem_append_left _ h3) (hd ▸ hk)
    obtain ⟨rfl, rfl⟩ := this
    rcases h a j i n bs ha k t'' _ v h2 h3 hik' hkj' with h4 | h4
    · exact .inl h4
    · rw [hd]; exact .inr (h4.mono _)

theorem run_caught (hD : D.Contract) (s : Nat → S) (l : List (Nat × Turn I E)) : Caught (run D debug (Crowd.init s) l) := by
  induction l using Rx.snoc_induction with
  | nil => intro a j i n b e; have := congrArg List.length e; simp [run, Crowd.init] at this
  | snoc l a ih =>
    have := run_times (D := D) (debug := debug) hD s (l ++ [a])
    rw [run_snoc] at this ⊢
    exact ih.step (run_inv hD s l) this hD

/-! ## Who is told when it subscribes that the subject has ended -/

/-- Whoever was called by its own call of `subscribe`: a call that ends the subject did not come after that. -/
def Welcomed (x : State S I E) : Prop := ∀ i n, .give i i n ∈ x.trace →
  ∃ j u op, .call j u op ∈ x.trace ∧ op.isClosing = true ∧ ¬ Before x.trace i j

theorem Welcomed.step (h : Welcomed x) (hi : Inv D s x) (hD : D.Contract) : Welcomed (Crowd.step D debug x t a) := by
  have hy := hi.step (debug := debug) hD t a
  obtain ⟨mv, g, -, -⟩ := hi.moves (debug := debug) hD t a
  generalize Crowd.step D debug x t a = y at *
  obtain ⟨d, hd⟩ := g.trace
  intro i n hg
  by_cases hold : .give i i n ∈ x.trace
  · obtain ⟨j, u, op, h1, h2, h3⟩ := h i n hold
    rw [hd]
    exact ⟨j, u, op, List.mem_append_left _ h1, h2, fun hb => h3 (hb.backs h1)⟩
  · have hnew : .give i i n ∈ d := (List.mem_append.1 (hd ▸ hg)).resolve_left hold
    have hsub : ∃ u, .call i u .subscribe ∈ y.trace := (hy.kept.gives _ _ _ hg).2
    obtain ⟨u₀, hsub⟩ := hsub
    have hd' : ∀ {d'}, y.trace = x.trace ++ d' → d' = d := fun h => List.append_cancel_left (h.symm.trans hd)
    have late : ∀ own c, Handled D own x c y d → y.done = x.done ++ [c] → (∃ u, .call c.id u c.op ∈ x.trace) →
        (∀ u c', x.pc u = .give c' → c'.op = .unsubscribe → False) →
        ∃ j u op, .call j u op ∈ y.trace ∧ op.isClosing = true ∧ ¬ Before y.trace i j := by
      intro own c hh hdone hcall hno
      obtain ⟨i', n', e⟩ := hh.marks _ hnew
      simp only [Mark.give.injEq] at e
      obtain ⟨rfl, rfl, rfl⟩ := e
      obtain ⟨u, hcall⟩ := hcall
      have hop : c.op = .subscribe := (hy.ids.one _ _ _ _ _ (hd ▸ List.mem_append_left _ hcall) hsub).2
      have hcl : x.closed = true := by
        rcases hh.what _ _ _ hnew with ⟨-, e | ⟨e, -⟩ | e | ⟨-, -, e⟩⟩ | ⟨v, e, -⟩ | ⟨v, e, -⟩ | ⟨e, -⟩
        · rw [hop] at e; cases e
        · rw [hop] at e; cases e
        · rw [hop] at e; cases e
        · exact e
        all_goals (rw [hop] at e; cases e)
      rcases hi.ends.whyClosed hcl with ⟨c', h1, h2⟩ | ⟨u', c', h1, h2⟩
      · obtain ⟨u', h3⟩ := hi.ids.line c' (by simp [State.line, h1])
        refine ⟨c'.id, u', c'.op, hd ▸ List.mem_append_left _ h3, h2, ?_⟩
        have := hy.ids.order
        rw [State.line, hdone, List.append_assoc, List.pairwise_append] at this
        exact this.2.2 c' h1 c (by simp)
      · exact (hno u' c' h1 h2).elim
    have none : d = [] → False := fun e => by rw [e] at hnew; cases hnew
    cases mv with
    | quiet p pc same => exact (none (hd' (by simp [same.trace])).symm).elim
    | drop p c pc same => exact (none (hd' (by simp [same.trace])).symm).elim
    | speak p c n pc queue rest trace dests calls done members cur cur₀ pend pend₀ sure sub closing what =>
      rw [told] at trace
      rw [← hd' trace] at hnew
      simp only [List.mem_map, List.mem_filter, List.mem_singleton, Mark.give.injEq] at hnew
      obtain ⟨i', ⟨rfl, -⟩, rfl, -, -⟩ := hnew
      have hend : Ending x.trace := by
        have shut : x.shut = true → Ending x.trace := by
          intro hs
          rcases hi.ends.why hs with ⟨c', h1, h2⟩ | ⟨u, c', h1, h2⟩
          · obtain ⟨u, h3⟩ := hi.ids.line c' h1
            exact ⟨_, _, _, h3, h2⟩
          · exact ⟨_, _, _, (hi.ids.cur u c' (cur_of_pend (pend_of_armed h1))).1, h2⟩
        rcases what with ⟨-, e | e⟩ | ⟨e, -, h1⟩ | ⟨-, h1⟩
        · exact shut (by simp [State.shut, e])
        · exact shut (hi.ends.refuse _ _ e)
        · exact shut (by simp [State.shut, h1])
        · exact shut (by simp [State.shut, h1])
      obtain ⟨j, u, op, h1, h2⟩ := hend
      refine ⟨j, u, op, hd ▸ List.mem_append_left _ h1, h2, fun hb => ?_⟩
      have hr := hb.ret
      rw [trace, List.mem_append] at hr
      rcases hr with hr | hr
      · exact (hi.ids.cur t c cur₀).2 hr
      · simp at hr
    | drain p pc queue rest trace => exact (none (hd' (by simp [trace])).symm).elim
    | serve p c r b pc queue rest₀ rest handled calls done cur pend sure mid hand =>
      rw [hd' handled.trace] at handled
      refine late _ _ handled done (hi.ids.line c (by simp [State.line, rest₀])) fun u c' h1 h2 => ?_
      have hu : (x.pc u).holds = true := by rw [h1]; rfl
      have := hi.locks.unique hu (holds_of_mid mid)
      subst this
      rw [h1] at mid
      cases mid
    | give p c b pc queue rest₀ rest handled calls done cur cur₀ pend pend₀ sure at₀ =>
      rw [hd' handled.trace] at handled
      have hcall := (hi.ids.cur t c cur₀).1
      by_cases hop : c.op = .unsubscribe
      · obtain ⟨i', n', e⟩ := handled.marks _ hnew
        simp only [Mark.give.injEq] at e
        obtain ⟨rfl, rfl, rfl⟩ := e
        have := (hy.ids.one _ _ _ _ _ (hd ▸ List.mem_append_left _ hcall) hsub).2
        rw [hop] at this; cases this
      · refine late _ _ handled done ⟨t, hcall⟩ fun u c' h1 h2 => ?_
        have hu : (x.pc u).holds = true := by rw [h1]; rfl
        have ht : (x.pc t).holds = true := by rw [at₀]; rfl
        have := hi.locks.unique hu ht
        subst this
        rw [at₀] at h1
        cases h1
        exact hop h2
    | defer p c pc queue rest trace => exact (none (hd' (by simp [trace])).symm).elim
    | ret c pc queue rest trace => rw [← hd' trace] at hnew; simp at hnew
    | note bit pc queue rest trace => rw [← hd' trace] at hnew; simp at hnew
    | start p c pc queue rest trace => rw [← hd' trace] at hnew; simp at hnew

theorem run_welcomed (hD : D.Contract) (s : Nat → S) (l : List (Nat × Turn I E)) :
    Welcomed (run D debug (Crowd.init s) l) :=
  run_induction hD s (P := Welcomed) (fun i n h => by cases h) (fun x t a hi h => h.step hi hD) l

end Rx.Crowd
