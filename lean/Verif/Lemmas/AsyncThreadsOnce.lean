import Verif.Lemmas.AsyncThreads

/-!
# When `complete` is called once
-/

namespace Rx.Awaiting

open Closing (Dest)

variable {S I E : Type} {f : I → I → I} {D : Dest S I E} {debug : Bool} {s : Nat → S} {x : State S I E} {t : Nat}

/-! ## Who has called `complete` completes the subject -/

/-- Whoever has called `complete` is about to complete the subject, or has begun to. -/
def Pursued (x : State S I E) : Prop := ∀ a t b, x.trace = a ++ .finish t :: b →
  x.stage t = .finishing ∨ ∃ k, .core (.call k t .complete) ∈ b

theorem Pursued.step (h : Pursued x) (hg : Good f D debug s x) (hD : D.Contract) (t : Nat) (a : Turn I E) :
    Pursued (Awaiting.step f D debug x t a) := by
  have hc := change_step (debug := debug) (f := f) (t := t) hD (hg.inv hD) hg.idle a
  generalize Awaiting.step f D debug x t a = y at *
  -- nobody calls `complete` now
  have quiet : ∀ d, y.trace = x.trace ++ d → (∀ u, .finish u ∉ d) →
      (∀ u, x.stage u = .finishing → y.stage u = .finishing ∨ ∃ k, .core (.call k u .complete) ∈ d) → Pursued y := by
    intro d hd hno hst a u b e
    rw [hd] at e
    rcases List.append_eq_append_iff.1 e with ⟨as, ha, hb⟩ | ⟨bs, ha, hb⟩
    · exact absurd (by rw [hb]; simp) (hno u)
    · cases bs with
      | nil => exact absurd (by rw [List.nil_append] at hb; rw [← hb]; simp) (hno u)
      | cons n bs =>
        simp only [List.cons_append, List.cons.injEq] at hb
        rcases h a u bs (by rw [ha, hb.1]) with h1 | ⟨k, h1⟩
        · rcases hst u h1 with h2 | ⟨k, h2⟩
          · exact .inl h2
          · exact .inr ⟨k, by rw [hb.2]; exact List.mem_append_right _ h2⟩
        · exact .inr ⟨k, by rw [hb.2]; exact List.mem_append_left _ h1⟩
  have same : ∀ p, x.stage t ≠ .finishing → y.stage = (fun u => if u = t then p else x.stage u) →
      ∀ u, x.stage u = .finishing → y.stage u = .finishing := by
    intro p hp hy u hu
    rw [hy]
    by_cases e : u = t
    · subst e; exact absurd hu hp
    · simpa [e] using hu
  cases hc with
  | quiet a b st core marks calls trace value stage =>
    exact quiet _ trace (fun u hu => by simp at hu) fun u hu => .inl (by rw [stage]; exact hu)
  | call d op p pc void core trace value stage why =>
    rcases why with ⟨h1, rfl, rfl, h2, h3, h4⟩ | ⟨h1, rfl, rfl, rfl, h2⟩ | ⟨h1, rfl, rfl, v, rfl, h2⟩ | ⟨h1, rfl, rfl, rfl⟩ |
      ⟨h1, rfl, rfl, rfl, h2⟩
    · exact quiet [_] (by rw [trace, List.append_nil]) (by simp) fun u hu => .inl (same .out (by rw [h1]; simp) stage u hu)
    · intro a u b e
      rw [trace, List.append_assoc] at e
      rcases List.append_eq_append_iff.1 e with ⟨as, ha, hb⟩ | ⟨bs, ha, hb⟩
      · match as, hb with
        | [], hb =>
          simp only [List.singleton_append, List.nil_append, List.cons.injEq, Mark.finish.injEq] at hb
          obtain ⟨rfl, rfl⟩ := hb
          exact .inr ⟨x.core.calls, by simp⟩
        | [_], hb => simp at hb
        | _ :: _ :: _, hb => have := congrArg List.length hb; simp at this
      · cases bs with
        | nil =>
          simp only [List.singleton_append, List.nil_append, List.cons.injEq, Mark.finish.injEq] at hb
          obtain ⟨rfl, rfl⟩ := hb
          exact .inr ⟨x.core.calls, by simp⟩
        | cons n bs =>
          simp only [List.cons_append, List.cons.injEq] at hb
          rcases h a u bs (by rw [ha, hb.1]) with h1' | ⟨k, h1'⟩
          · exact .inl (same .out (by rw [h1]; simp) stage u h1')
          · exact .inr ⟨k, by rw [hb.2]; exact List.mem_append_left _ h1'⟩
    · intro a u b e
      rw [trace, List.append_assoc] at e
      have ht : y.stage t = .finishing := by rw [stage]; simp
      rcases List.append_eq_append_iff.1 e with ⟨as, ha, hb⟩ | ⟨bs, ha, hb⟩
      · match as, hb with
        | [], hb =>
          simp only [List.singleton_append, List.nil_append, List.cons.injEq, Mark.finish.injEq] at hb
          rw [← hb.1]; exact .inl ht
        | [_], hb => simp at hb
        | _ :: _ :: _, hb => have := congrArg List.length hb; simp at this
      · cases bs with
        | nil =>
          simp only [List.singleton_append, List.nil_append, List.cons.injEq, Mark.finish.injEq] at hb
          rw [hb.1]; exact .inl ht
        | cons n bs =>
          simp only [List.cons_append, List.cons.injEq] at hb
          rcases h a u bs (by rw [ha, hb.1]) with h1' | ⟨k, h1'⟩
          · exact .inl (same .finishing (by rw [h1]; simp) stage u h1')
          · exact .inr ⟨k, by rw [hb.2]; exact List.mem_append_left _ h1'⟩
    · refine quiet [_] (by rw [trace, List.append_nil]) (by simp) fun u hu => ?_
      by_cases e : u = t
      · subst e; exact .inr ⟨x.core.calls, by simp⟩
      · rw [stage]; exact .inl (by simpa [e] using hu)
    · exact quiet [.enter t, _] (by rw [trace, List.append_assoc]; rfl) (by simp) fun u hu =>
        .inl (same .out (by rw [h1]; simp) stage u hu)
  | store v st core trace value stage => exact quiet _ trace (by simp) fun u hu => .inl (by rw [stage]; exact hu)
  | found st pc shut' core trace value stage =>
    exact quiet _ trace (by simp) fun u hu => .inl (same .found (by rw [st]; simp) stage u hu)
  | copy st core trace value stage =>
    exact quiet [] (by rw [trace]; simp) (by simp) fun u hu => .inl (same (.copied x.value) (by rw [st]; simp) stage u hu)
  | read core trace value stage => exact quiet _ trace (by simp) fun u hu => .inl (by rw [stage]; exact hu)
  | subscribe o st core trace value stage =>
    exact quiet _ (by rw [trace, List.append_assoc]) (by simp) fun u hu => .inl (same .out (by rw [st]; simp) stage u hu)

theorem run_pursued (hD : D.Contract) (s : Nat → S) (l : List (Nat × Turn I E)) :
    Pursued (run f D debug (init s) l) := by
  induction l using Rx.snoc_induction with
  | nil => intro a t b e; have := congrArg List.length e; simp [run, init] at this
  | snoc l a ih => rw [run_snoc]; exact ih.step (run_good hD s l) hD _ _

/-! ## At most one value -/

theorem finishes_append (a b : List (Mark I E)) : finishes (a ++ b) = finishes a + finishes b := by simp [finishes]

theorem finishes_last {a a' : List (Mark I E)} (h : a = a' ++ [.finish t]) : 1 ≤ finishes a := by
  rw [h, finishes_append]; simp [finishes]

theorem finishes_mem {a : List (Mark I E)} (h : .finish t ∈ a) : 1 ≤ finishes a := by
  obtain ⟨b, c, rfl⟩ := List.append_of_mem h
  rw [finishes_append]; simp [finishes]; omega

/-- Two values are published only by two calls of `complete`. -/
theorem Law.two {tr a b c : List (Mark I E)} {j k u v : Nat} {p q : I} (h : Law f tr)
    (e : tr = a ++ .core (.call j u (.next p)) :: b ++ .core (.call k v (.next q)) :: c) : 2 ≤ finishes tr := by
  obtain ⟨a', h1, -⟩ := h a (.core (.call j u (.next p))) _ (by rw [e, List.append_assoc]; rfl)
  obtain ⟨b', h2, -⟩ := h (a ++ .core (.call j u (.next p)) :: b) (.core (.call k v (.next q))) c e
  have h3 := finishes_last h1
  have h4 : 1 ≤ finishes b := by
    rcases List.eq_nil_or_concat b with hb | ⟨b'', m, hb⟩
    · subst hb
      have := (List.append_inj' h2 rfl).2
      simp at this
    · rw [List.concat_eq_append] at hb
      subst hb
      rw [show a ++ Mark.core (Crowd.Mark.call j u (Crowd.Op.next p)) :: (b'' ++ [m]) =
        (a ++ Mark.core (Crowd.Mark.call j u (Crowd.Op.next p)) :: b'') ++ [m] by simp] at h2
      have := (List.append_inj' h2 rfl).2
      simp only [List.cons.injEq, and_true] at this
      subst this
      exact finishes_last rfl
  rw [e, List.append_assoc, finishes_append, List.cons_append, ← List.singleton_append, finishes_append, finishes_append]
  omega

theorem Law.one_next {tr : List (Mark I E)} {j k u v : Nat} {p q : I} (h : Law f tr) (h1 : finishes tr ≤ 1)
    (hj : .call j u (.next p) ∈ inner tr) (hk : .call k v (.next q) ∈ inner tr) : j = k ∧ p = q := by
  refine Classical.byContradiction fun hne => ?_
  obtain ⟨a, b, e⟩ := List.append_of_mem (mem_inner.1 hj)
  have hk := mem_inner.1 hk
  rw [e, List.mem_append, List.mem_cons] at hk
  rcases hk with hk | hk | hk
  · obtain ⟨a1, a2, rfl⟩ := List.append_of_mem hk
    have := h.two e
    omega
  · simp only [Mark.core.injEq, Crowd.Mark.call.injEq, Crowd.Op.next.injEq] at hk
    exact hne ⟨hk.1.symm, hk.2.2.symm⟩
  · obtain ⟨a1, a2, rfl⟩ := List.append_of_mem hk
    have := h.two (a := a) (b := a1) (c := a2) (j := j) (k := k) (u := u) (v := v) (p := p) (q := q) (by rw [e]; simp)
    omega

theorem replays_le {tr : List (Mark I E)} (h : Law f tr) (i : Nat) : (replaysTo i tr).length ≤ 1 := by
  induction tr using Rx.snoc_induction with
  | nil => simp [replaysTo]
  | snoc tr m ih =>
    have hm := h tr m [] rfl
    have ih := ih fun a n b e => h a n (b ++ [m]) (by rw [e]; simp)
    rw [replaysTo_append]
    cases m with
    | replay j v =>
      by_cases hj : j = i
      · subst hj
        rw [hm.2.1]
        simp [replaysTo]
      · simpa [replaysTo, hj] using ih
    | _ => simpa [replaysTo] using ih

theorem valuesOf_append (a b : List (SubscriberNotification I E)) : valuesOf (a ++ b) = valuesOf a ++ valuesOf b := by
  simp [valuesOf]

theorem valuesOf_next (vs : List I) : valuesOf (vs.map .next : List (SubscriberNotification I E)) = vs := by
  induction vs with
  | nil => rfl
  | cons v vs ih => exact congrArg (v :: ·) ih

theorem valuesOf_gives (i : Nat) (tr : List (Crowd.Mark I E)) :
    valuesOf (Crowd.givesTo i tr) = (Crowd.valuesTo i tr).map Prod.snd := by
  induction tr with
  | nil => rfl
  | cons m tr ih =>
    rw [← List.singleton_append, Keeping.givesTo_append, valuesOf_append, Crowd.valuesTo_append, List.map_append, ih]
    congr 1
    cases m with
    | give k j n =>
      by_cases e : j = i
      · cases n <;> simp [Crowd.givesTo, Crowd.valuesTo, valuesOf, e]
      · cases n <;> simp [Crowd.givesTo, Crowd.valuesTo, valuesOf, e]
    | _ => rfl

/-- The values published to a subscriber are those of different calls. -/
theorem values_nodup (h : Crowd.Inv D s y) (i : Nat) : ((Crowd.valuesTo i y.trace).map Prod.fst).Nodup := by
  by_cases hi : ⟨i, .subscribe⟩ ∈ y.done
  · obtain ⟨a, b, e⟩ := List.append_of_mem hi
    have hn := h.ids.nodup
    rw [Crowd.State.line, List.map_append, List.nodup_append, e, List.map_append, List.nodup_append, List.map_cons,
      List.nodup_cons] at hn
    have hb := hn.1.2.1.2
    refine List.Nodup.sublist ((h.heard.vals i a b e).1.sublist.map _) (List.Nodup.sublist ?_ hb)
    generalize b = l
    induction l with
    | nil => exact .slnil
    | cons c l ih =>
      obtain ⟨k, op⟩ := c
      cases op <;> first | exact ih.cons_cons _ | exact ih.cons _
  · rw [h.heard.none i hi]; exact .nil

theorem Good.values_le (h : Good f D debug s x) (hD : D.Contract) (h1 : finishes x.trace ≤ 1) (i : Nat) :
    (Crowd.valuesTo i x.core.trace).length ≤ 1 := by
  have hi := h.inv hD
  have hn := values_nodup hi i
  have hall : ∀ p ∈ Crowd.valuesTo i x.core.trace, ∃ u, .call p.1 u (.next p.2) ∈ Awaiting.inner x.trace := by
    rintro ⟨k, v⟩ hp
    obtain ⟨⟨u, op, h2, h3⟩, -⟩ := hi.kept.gives _ _ _ (Crowd.give_of_mem_valuesTo hp)
    cases h3
    exact ⟨u, by rw [h.inner]; exact h2⟩
  match hv : Crowd.valuesTo i x.core.trace with
  | [] => simp
  | [_] => simp
  | p :: q :: l =>
    rw [hv] at hn hall
    obtain ⟨u, hp⟩ := hall p (by simp)
    obtain ⟨u', hq⟩ := hall q (by simp)
    have := (h.law.one_next h1 hp hq).1
    simp [this] at hn

theorem Good.once (h : Good f D debug s x) (hD : D.Contract) (h1 : finishes x.trace ≤ 1) (i : Nat) :
    (valuesOf (heardBy i x.trace)).length ≤ 1 := by
  rw [h.heard, valuesOf_append, valuesOf_next, valuesOf_gives, h.inner]
  by_cases hr : replaysTo i x.trace = []
  · rw [hr]
    simpa using h.values_le hD h1 i
  · rw [(h.shunned i hr).values (h.inv hD)]
    simpa using replays_le h.law i

/-! ## What is heard then -/

theorem finish_unique {a b a' b' : List (Mark I E)} {t u : Nat} (e : a ++ .finish t :: b = a' ++ .finish u :: b')
    (ha : ∀ w, .finish w ∉ a) (hb : ∀ w, .finish w ∉ b) : a' = a ∧ u = t ∧ b' = b := by
  rcases List.append_eq_append_iff.1 e with ⟨as, h1, h2⟩ | ⟨bs, h1, h2⟩
  · cases as with
    | nil =>
      simp only [List.nil_append, List.cons.injEq, Mark.finish.injEq] at h2
      exact ⟨by simpa using h1, h2.1.symm, h2.2.symm⟩
    | cons m as =>
      simp only [List.cons_append, List.cons.injEq] at h2
      exact absurd (by rw [h2.2]; simp) (hb u)
  · cases bs with
    | nil =>
      simp only [List.nil_append, List.cons.injEq, Mark.finish.injEq] at h2
      exact ⟨by simpa using h1.symm, h2.1, h2.2⟩
    | cons m bs =>
      simp only [List.cons_append, List.cons.injEq] at h2
      exact absurd (by rw [h1, h2.1]; simp) (ha u)

theorem inner_split : ∀ {tr : List (Mark I E)} {r1 r2 : List (Crowd.Mark I E)} {m : Crowd.Mark I E},
    inner tr = r1 ++ m :: r2 → ∃ p q, tr = p ++ .core m :: q ∧ inner p = r1
  | [], _, _, _, h => by have := congrArg List.length h; simp [inner] at this
  | n :: tr, r1, r2, m, h => by
    have other : inner (n :: tr) = inner tr → ∃ p q, n :: tr = p ++ .core m :: q ∧ inner p = r1 ∨ inner [n] ≠ [] := fun e => by
      obtain ⟨p, q, e1, e2⟩ := inner_split (e ▸ h)
      refine ⟨n :: p, q, ?_⟩
      by_cases hn : inner [n] = []
      · left; exact ⟨by rw [e1]; rfl, by rw [← List.singleton_append, inner_append, hn, e2]; rfl⟩
      · exact .inr hn
    cases n with
    | core n =>
      have h : n :: inner tr = r1 ++ m :: r2 := h
      cases r1 with
      | nil =>
        simp only [List.nil_append, List.cons.injEq] at h
        exact ⟨[], tr, by rw [h.1]; rfl, rfl⟩
      | cons k r1 =>
        simp only [List.cons_append, List.cons.injEq] at h
        obtain ⟨p, q, e1, e2⟩ := inner_split h.2
        exact ⟨.core n :: p, q, by rw [e1]; rfl, by rw [← h.1, ← e2]; rfl⟩
    | _ =>
      obtain ⟨p, q, h1 | h1⟩ := other rfl
      · exact ⟨p, q, h1⟩
      · exact absurd rfl h1

/-- What precedes the completion of the subject. -/
theorem Law.completes {tr a b p q : List (Mark I E)} {t k u : Nat} (h : Law f tr) (e : tr = a ++ .finish t :: b)
    (ha : ∀ w, .finish w ∉ a) (hb : ∀ w, .finish w ∉ b) (e' : tr = p ++ .core (.call k u .complete) :: q) :
    (result f a = none ∧ p = a ++ [.finish t]) ∨ ∃ j v c, p = a ++ .finish t :: .core (.call j t (.next v)) :: c ∧
      result f a = some v ∧ .ret j ∈ inner c := by
  rcases h p (.core (.call k u .complete)) q e' with ⟨a', rfl, h1⟩ | ⟨a', j, v, c, rfl, h1, -, h2⟩
  · rw [List.append_assoc] at e'
    obtain ⟨rfl, rfl, -⟩ := finish_unique (e.symm.trans e') ha hb
    exact .inl ⟨h1, rfl⟩
  · rw [List.append_assoc, List.cons_append] at e'
    obtain ⟨rfl, rfl, -⟩ := finish_unique (e.symm.trans e') ha hb
    exact .inr ⟨j, v, c, rfl, h1, h2⟩

theorem Good.hears (h : Good f D debug s x) (hD : D.Contract) (hp : Pursued x) (hr : AtRest x) (hq : x.core.queue = [])
    {a b : List (Mark I E)} {t i u : Nat} (e : x.trace = a ++ .finish t :: b) (ha : ∀ w, .finish w ∉ a)
    (hb : ∀ w, .finish w ∉ b) (hc : ∀ j w op, .call j w op ∈ Awaiting.inner x.trace → op.isClosing = true → op = .complete)
    (hx : ∀ j w, .call j w (.cancel i) ∉ Awaiting.inner x.trace)
    (hi : .call i u .subscribe ∈ Awaiting.inner a) (hret : .ret i ∈ Awaiting.inner a)
    (ho : D.isClosed (((result f a).toList.map SubscriberNotification.next).foldl D.push (s i)) = false) :
    heardBy i x.trace = (result f a).toList.map .next ++ [.complete] := by
  have inv := h.inv hD
  have ht := h.times hD
  obtain ⟨l, hl⟩ := h.follows.run
  have hcaught := Crowd.run_caught (D := D) (debug := debug) hD (Crowd.given D s fun i => replaysTo i x.trace) l
  have hwel := Crowd.run_welcomed (D := D) (debug := debug) hD (Crowd.given D s fun i => replaysTo i x.trace) l
  have hrest : Crowd.AtRest x.core := fun t => (hr t).1
  have hset : Crowd.Settled x.core := by
    rw [hl] at hrest hq ⊢
    exact hrest.settled hD hq
  rw [← hl] at hcaught hwel
  have hin : x.core.trace = Awaiting.inner a ++ Awaiting.inner b := by rw [← h.inner, e, inner_append]; rfl
  -- nobody completes the subject before
  have hno : ∀ j w, .call j w .complete ∉ Awaiting.inner a := by
    intro j w hj
    obtain ⟨p, q, e'⟩ := List.append_of_mem (mem_inner.1 hj)
    rcases h.law p (.core (.call j w .complete)) (q ++ .finish t :: b) (by rw [e, e']; simp) with ⟨p', rfl, -⟩ | ⟨p', k, v, c, rfl, -⟩
    · exact ha w (by rw [e']; simp)
    · exact ha w (by rw [e']; simp)
  have hend : ¬ Crowd.Ending (Awaiting.inner a) := by
    rintro ⟨j, w, op, h1, h2⟩
    have := hc j w op (by rw [h.inner, hin]; exact List.mem_append_left _ h1) h2
    subst this
    exact hno _ _ h1
  have hbefore : ∀ j w op, .call j w op ∈ Awaiting.inner b → Crowd.Before x.core.trace i j := by
    intro j w op hj
    refine ⟨_, _, hin, hret, fun w' op' hj' => ?_⟩
    have := ht.ascending
    rw [hin, Crowd.callIds_append, List.pairwise_append] at this
    have := this.2.2 j (Crowd.mem_callIds.2 ⟨_, _, hj'⟩) j (Crowd.mem_callIds.2 ⟨_, _, hj⟩)
    omega
  have hclose : ∀ j w op, .call j w op ∈ x.core.trace → op.isClosing = true → .call j w op ∈ Awaiting.inner b := by
    intro j w op hj hop
    rw [hin, List.mem_append] at hj
    exact hj.resolve_left fun h1 => hend ⟨j, w, op, h1, hop⟩
  have hu : Crowd.Undisturbed x.core.trace i := fun j w op hj hop => .inl (hbefore j w op (hclose j w op hj hop))
  -- it is given nothing beforehand
  have hrep : replaysTo i x.trace = [] := by
    obtain ⟨p, q, rfl⟩ := List.append_of_mem (mem_inner.1 hi)
    obtain ⟨a1, a2, rfl, -, ⟨-, h1, -⟩ | ⟨h1, -⟩⟩ := h.law p (.core (.call i u .subscribe)) (q ++ .finish t :: b) (by rw [e]; simp)
    · have hb' : ∀ c, c ∈ q ++ .finish t :: b → ∀ v, c ≠ .replay i v := by
        rintro c hc' v rfl
        obtain ⟨c1, c2, e'⟩ := List.append_of_mem hc'
        have := h.law ((a1 ++ .enter u :: a2) ++ .core (.call i u .subscribe) :: c1) (.replay i v) c2 (by
          rw [e, List.append_assoc, List.cons_append, e']; simp)
        exact this.1 u .subscribe (by simp)
      rw [e, List.append_assoc, List.cons_append, replaysTo_append, h1, List.nil_append]
      rw [replaysTo, List.filterMap_eq_nil_iff]
      intro m hm
      rw [List.mem_cons] at hm
      rcases hm with rfl | hm
      · rfl
      · cases m with
        | replay j v =>
          by_cases hj : j = i
          · subst hj; exact absurd rfl (hb' _ hm v)
          · simp [hj]
        | _ => rfl
    · obtain ⟨j, w, op, h2, h3⟩ := h1
      exact absurd ⟨j, w, op, by rw [inner_append, inner_append]; simp [h2], h3⟩ hend
  have hgiven : Crowd.given D s (fun i => replaysTo i x.trace) i = s i := by rw [Crowd.given, hrep]; rfl
  -- the subject is completed
  obtain ⟨k₀, hk₀⟩ := (hp a t b e).resolve_left (by rw [(hr t).2]; simp)
  have hk₀' : .call k₀ t .complete ∈ x.core.trace := by rw [hin]; exact List.mem_append_right _ (mem_inner.2 hk₀)
  have hfin : finishes x.trace ≤ 1 := by
    have hz : ∀ c : List (Mark I E), (∀ w, .finish w ∉ c) → finishes c = 0 := by
      intro c hc'
      rw [finishes, List.countP_eq_zero]
      intro m hm
      cases m with
      | finish w => exact absurd hm (hc' w)
      | _ => simp
    rw [e, finishes_append, hz a ha, ← List.singleton_append, finishes_append, hz b hb]
    simp [finishes]
  have hvals := h.values_le hD hfin i
  have hisub : .call i u .subscribe ∈ x.core.trace := by rw [hin]; exact List.mem_append_left _ hi
  -- what is published is the result
  have hnext : ∀ j w v, .call j w (.next v) ∈ x.core.trace → result f a = some v := by
    intro j w v hj
    rw [← h.inner] at hj
    obtain ⟨p, q, e'⟩ := List.append_of_mem (mem_inner.1 hj)
    obtain ⟨p', rfl, h1⟩ := h.law p (.core (.call j w (.next v))) q e'
    rw [List.append_assoc] at e'
    obtain ⟨rfl, -, -⟩ := finish_unique (e.symm.trans e') ha hb
    exact h1
  have hgive : ∀ k v, (k, v) ∈ Crowd.valuesTo i x.core.trace → result f a = some v := by
    intro k v hk
    obtain ⟨⟨w, op, h2, h3⟩, -⟩ := inv.kept.gives _ _ _ (Crowd.give_of_mem_valuesTo hk)
    cases h3
    exact hnext k w v h2
  -- it is told how the subject ended, and by whom
  have hwhy : ∀ k n, .give k i n ∈ x.core.trace → n.isClosing = true → n = .complete ∧ ∃ w, .call k w .complete ∈ x.core.trace := by
    intro k n hg hn
    obtain ⟨⟨w, op, h2, h3⟩, -⟩ := inv.kept.gives _ _ _ hg
    have hself : k ≠ i := by
      rintro rfl
      obtain ⟨j, w', op', h4, h5, h6⟩ := hwel _ _ hg
      exact h6 (hbefore j w' op' (hclose j w' op' h4 h5))
    cases n with
    | next v => cases hn
    | error e' =>
      rcases h3 with rfl | ⟨-, rfl, -⟩
      · have := hc k w _ (by rw [h.inner]; exact h2) rfl
        cases this
      · exact absurd rfl hself
    | complete =>
      rcases h3 with rfl | ⟨-, rfl, -⟩
      · exact ⟨rfl, w, h2⟩
      · exact absurd rfl hself
    | unsubscribe =>
      rcases h3 with rfl | rfl | ⟨-, rfl, -⟩
      · have := hc k w _ (by rw [h.inner]; exact h2) rfl
        cases this
      · exact absurd (by rw [h.inner]; exact h2) (hx k w)
      · exact absurd rfl hself
  have hclosed := inv.ends_all hset (fun k u op hk => h.back hD hk) ⟨_, _, _, hk₀', rfl⟩ hisub hu
  have hone : ∀ vs : List (Nat × I), vs.length ≤ 1 → (∀ k v, (k, v) ∈ vs → result f a = some v) →
      vs = [] ∨ ∃ k v, vs = [(k, v)] ∧ result f a = some v := by
    intro vs h1 h2
    match vs with
    | [] => exact .inl rfl
    | [(k, v)] => exact .inr ⟨k, v, rfl, h2 k v (by simp)⟩
    | _ :: _ :: _ => simp at h1
  -- the completion is among what it hears
  have hsome : ∃ n ∈ Crowd.givesTo i x.core.trace, n.isClosing = true := by
    refine Classical.byContradiction fun hno' => ?_
    have hall : ∀ n ∈ Crowd.givesTo i x.core.trace, n.isClosing = false := fun n hn => by
      cases hcl : n.isClosing with
      | false => rfl
      | true => exact absurd ⟨n, hn, hcl⟩ hno'
    rw [inv.heard.dests i, Crowd.afterTo, hgiven, Crowd.givesTo_of_values hall] at hclosed
    rcases hone _ hvals hgive with h1 | ⟨k, v, h1, h2⟩
    · rw [h1] at hclosed
      have hcl : D.isClosed (s i) = true := hclosed
      cases hres : result f a with
      | none => rw [hres] at ho; have ho : D.isClosed (s i) = false := ho; rw [ho] at hcl; cases hcl
      | some v =>
        rw [hres] at ho
        have ho : D.isClosed (D.push (s i) (.next v)) = false := ho
        rw [hD.inert _ _ hcl, hcl] at ho
        cases ho
    · rw [h2] at ho
      rw [h1] at hclosed
      have hclosed : D.isClosed (D.push (s i) (.next v)) = true := hclosed
      have ho : D.isClosed (D.push (s i) (.next v)) = false := ho
      rw [ho] at hclosed
      cases hclosed
  obtain ⟨n, hn, hncl⟩ := hsome
  obtain ⟨k, hk⟩ := Crowd.give_of_mem_givesTo hn
  obtain ⟨rfl, w, hkw⟩ := hwhy k n hk hncl
  obtain ⟨p, q, hpq⟩ := List.append_of_mem hk
  have hopen := inv.heard.isOpen p k i _ q hpq
  rw [Crowd.afterTo, hgiven] at hopen
  have hpv : ∀ m ∈ Crowd.givesTo i p, m.isClosing = false := fun m hm => by
    cases hcl : m.isClosing with
    | false => rfl
    | true => rw [Crowd.closed_foldl hD hcl _ _ hm] at hopen; cases hopen
  have hqn : Crowd.givesTo i q = [] := by
    refine Classical.byContradiction fun hq' => ?_
    obtain ⟨m, hm⟩ := List.exists_mem_of_ne_nil _ hq'
    obtain ⟨k', hk'⟩ := Crowd.give_of_mem_givesTo hm
    obtain ⟨q1, q2, rfl⟩ := List.append_of_mem hk'
    have := inv.heard.isOpen (p ++ .give k i .complete :: q1) k' i m q2 (by rw [hpq]; simp)
    rw [Crowd.afterTo, Crowd.closed_foldl hD (n := .complete) rfl _ _ (by
      rw [Keeping.givesTo_append]; simp [Crowd.givesTo])] at this
    cases this
  have hgives : Crowd.givesTo i x.core.trace = (Crowd.valuesTo i p).map (fun p => .next p.2) ++ [.complete] := by
    rw [hpq, Keeping.givesTo_append, Crowd.givesTo_of_values hpv]
    rw [← List.singleton_append, Keeping.givesTo_append, hqn]
    simp [Crowd.givesTo]
  have hvp : (Crowd.valuesTo i p).length ≤ 1 := by
    rw [hpq, Crowd.valuesTo_append] at hvals
    simp only [List.length_append] at hvals
    omega
  have hgp : ∀ k v, (k, v) ∈ Crowd.valuesTo i p → result f a = some v := fun k v hkv => hgive k v (by
    rw [hpq, Crowd.valuesTo_append]; exact List.mem_append_left _ hkv)
  rw [h.heard, hrep, h.inner, hgives, List.map_nil, List.nil_append]
  congr 1
  -- and the result comes before it
  rcases hone _ hvp hgp with h1 | ⟨k', v, h1, h2⟩
  · cases hres : result f a with
    | none => rw [h1]; rfl
    | some v =>
      exfalso
      have key : ∀ k w r1 r2, x.core.trace = r1 ++ .call k w .complete :: r2 →
          ∃ j, .call j t (.next v) ∈ Awaiting.inner b ∧ .ret j ∈ r1 := by
        intro k w r1 r2 hr'
        rw [← h.inner] at hr'
        obtain ⟨P, Q, e', rfl⟩ := inner_split hr'
        rcases h.law.completes e ha hb e' with ⟨h3, -⟩ | ⟨j, v', c, rfl, h3, h4⟩
        · rw [hres] at h3; cases h3
        · rw [hres] at h3
          cases h3
          refine ⟨j, ?_, by rw [inner_append]; exact List.mem_append_right _ (mem_inner.2 (by simp [mem_inner.1 h4]))⟩
          rw [e, List.append_assoc] at e'
          have := List.append_cancel_left e'
          simp only [List.cons_append, List.cons.injEq, true_and] at this
          rw [this]
          exact mem_inner.2 (by simp)
      obtain ⟨r1, r2, hr'⟩ := List.append_of_mem hkw
      obtain ⟨j, hj, hjr⟩ := key k w r1 r2 hr'
      have hjT : .call j t (.next v) ∈ x.core.trace := by rw [hin]; exact List.mem_append_right _ hj
      have hjk : Crowd.Before x.core.trace j k := by
        refine ⟨r1, _, hr', hjr, fun w' op' h3 => ?_⟩
        have := ht.ascending
        rw [hr', Crowd.callIds_append, List.pairwise_append] at this
        have := this.2.2 k (Crowd.mem_callIds.2 ⟨_, _, h3⟩) k (Crowd.mem_callIds.2 ⟨w, .complete, by simp⟩)
        omega
      rcases hcaught p k i _ q hpq j u t v hisub hjT (hbefore j t _ hj) hjk with h3 | ⟨p', q', e', h3, k', w', op', h4, h5⟩
      · rw [h1] at h3; cases h3
      · have := hc k' w' op' (by rw [h.inner, e']; exact List.mem_append_left _ h4) h5
        subst this
        obtain ⟨r1', r2', rfl⟩ := List.append_of_mem h4
        obtain ⟨j', hj', hjr'⟩ := key k' w' r1' (r2' ++ q') (by rw [e']; simp)
        have := (h.law.one_next hfin (by rw [h.inner]; exact hjT) (by rw [h.inner, hin]; exact List.mem_append_right _ hj')).1
        subst this
        exact h3 (List.mem_append_left _ hjr')
  · rw [h1, h2]; rfl

end Rx.Awaiting
