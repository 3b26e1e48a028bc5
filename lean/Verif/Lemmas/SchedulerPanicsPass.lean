import Verif.Lemmas.SchedulerPanics

/-!
# Through a pass, a tick and a history with panics
-/

namespace Rx.Sched

open Spec

variable {env : Env} {P : Panics env}

/-- The log only grows. -/
def Ext (a b : World env) : Prop := ∃ ext, b.log = a.log ++ ext

theorem Ext.refl (a : World env) : Ext a a := ⟨[], by simp⟩

theorem Ext.trans {a b c : World env} (h1 : Ext a b) (h2 : Ext b c) : Ext a c := by
  obtain ⟨x, hx⟩ := h1
  obtain ⟨y, hy⟩ := h2
  exact ⟨x ++ y, by rw [hy, hx, List.append_assoc]⟩

theorem Ext.emit (w : World env) (e : Ev env.B) : Ext w (w.emit e) := ⟨[e], rfl⟩

theorem Ext.steps {src : Src} {t : Nat} {a b : World env} (h : Steps src t a b) : Ext a b := by
  refine h.inv (P := fun b => Ext a b) ?_ (Ext.refl a)
  intro x y hxy hx
  refine hx.trans ?_
  cases hxy with
  | run => exact Ext.emit _ _
  | ctx => exact Ext.refl _
  | call c => cases c <;> exact ⟨_, rfl⟩

theorem Ext.runs {u : Nat} {a b : World env} (h : Ext a b) (ha : runsOf u a.log ≠ []) : runsOf u b.log ≠ [] := by
  obtain ⟨x, hx⟩ := h
  rw [hx, runsOf_append]
  intro h
  exact ha (List.append_eq_nil_iff.1 h).1

/-- The work was ticked between two moments. -/
def TickedIn (u t : Nat) (a b : World env) : Prop := ∃ ext, b.log = a.log ++ ext ∧ .ticked u t ∈ ext

theorem TickedIn.mono {u t : Nat} {a b c d : World env} (h1 : Ext a b) (h : TickedIn u t b c) (h2 : Ext c d) :
    TickedIn u t a d := by
  obtain ⟨x, hx⟩ := h1
  obtain ⟨y, hy, hm⟩ := h
  obtain ⟨z, hz⟩ := h2
  exact ⟨x ++ y ++ z, by rw [hz, hy, hx]; simp, by simp [hm]⟩

variable {u : Nat} {M : Nat → Work env.B → Work env.B → List Nat → Prop}
  {G : Nat → Work env.B → Bool → List Nat → Prop} {Due : Nat → Work env.B → Nat → Prop}

/-- Both parts of the invariant for a list of work, some of what the executor has. -/
structure Part (u : Nat) (M : Nat → Work env.B → Work env.B → List Nat → Prop)
    (G : Nat → Work env.B → Bool → List Nat → Prop) (keys : List Nat) (nw : Nat) (cm : Nat → List Nat)
    (act : List (Nat × Work env.B)) (w : World env) : Prop where
  tab : Tab u keys nw cm w
  snd : Snd u M G act nw w
  sub : (act.map (·.1)).Sublist keys

section

variable {keys : List Nat} {nw : Nat} {cm : Nat → List Nat}

theorem Part.bound {act : List (Nat × Work env.B)} {w : World env} (h : Part u M G keys nw cm act w) :
    ∀ p ∈ act, p.1 < nw :=
  fun _ hp => h.tab.bound _ (h.sub.subset (List.mem_map_of_mem hp))

/-- One work is ticked: the invariant for the list with the work as it is afterwards, before its answer is looked at. -/
theorem Part.tick (L : KeepLaws P u M G Due) {id t : Nat} {wk wk' : Work env.B} {pre rest : List (Nat × Work env.B)}
    {w w' : World env} {a : Answer} (h : Part u M G keys nw cm (pre ++ (id, wk) :: rest) w)
    (ht : wk.tickP P (.work id) t w = some (wk', w', a)) :
    Part u M G keys nw cm (pre ++ (id, wk') :: rest) w' ∧
      (id = u → a = .said .done → ∀ r, (track u w'.log).seen = some r → G r.now r.work true (runsOf u w'.log)) ∧
      (id = u → ∀ r, (track u w'.log).seen = some r → Due r.now r.work t → runsOf u w'.log ≠ []) := by
  have hs := tickP_steps ht
  have htab := h.tab.steps hs
  have hsub : ((pre ++ (id, wk') :: rest).map (·.1)).Sublist keys := by
    have := h.sub
    simpa using this
  by_cases hid : id = u
  · subst hid
    have hlt : id < nw := h.bound (id, wk) (by simp)
    have hlt' : id < w.sched.nextUid := Nat.lt_of_lt_of_le hlt h.tab.uids.le
    obtain ⟨_, hrec⟩ := rec_steps hlt' hs
    have hsort := h.tab.sorted.sublist h.sub
    simp only [List.map_append, List.map_cons, List.pairwise_append, List.pairwise_cons] at hsort
    have hnot : ∀ x, (id, x) ∉ rest := by
      intro x hx
      have := hsort.2.1.1 id (List.mem_map.2 ⟨_, hx, rfl⟩)
      omega
    have hnot' : ∀ x, (id, x) ∉ pre := by
      intro x hx
      have := hsort.2.2 id (List.mem_map.2 ⟨_, hx, rfl⟩) id (by simp)
      omega
    have key : ∀ r', (track id w'.log).seen = some r' →
        M r'.now r'.work wk' (runsOf id w'.log) ∧ G r'.now r'.work r'.done (runsOf id w'.log) ∧
        (a = .said .done → G r'.now r'.work true (runsOf id w'.log)) ∧
        (Due r'.now r'.work t → runsOf id w'.log ≠ []) := by
      intro r' hr'
      obtain ⟨r, hr, hsame, hd⟩ := hrec r' hr'
      rw [hsame.now, hsame.work, hd]
      exact L.tick _ _ _ _ _ _ _ _ _ (h.snd.act wk r (by simp) hr) (h.snd.good _ hr) ht
    refine ⟨⟨htab, ⟨fun hn => by omega, ?_, fun r hr => (key r hr).2.1⟩, hsub⟩,
      fun _ ha r hr => (key r hr).2.2.1 ha, fun _ r hr => (key r hr).2.2.2⟩
    intro x r hx hr
    rcases List.mem_append.1 hx with hx | hx
    · exact absurd hx (hnot' x)
    · rcases List.mem_cons.1 hx with hx | hx
      · cases hx; exact (key r hr).1
      · exact absurd hx (hnot x)
  · refine ⟨⟨htab, ?_, hsub⟩, fun he => absurd he hid, fun he => absurd he hid⟩
    have := Snd.steps L (t := t) (src := .work id) (by intro he; cases he; exact hid rfl) h.snd h.bound h.tab.uids hs
    refine ⟨this.norun, ?_, this.good⟩
    intro x r hx hr
    refine this.act x r ?_ hr
    rcases List.mem_append.1 hx with hx | hx
    · exact List.mem_append_left _ hx
    · rcases List.mem_cons.1 hx with hx | hx
      · cases hx; exact absurd rfl hid
      · exact List.mem_append_right _ (List.mem_cons_of_mem _ hx)

theorem Part.emit {act : List (Nat × Work env.B)} {w : World env} (h : Part u M G keys nw cm act w) (e : Ev env.B)
    (he : ∀ v c now wk, e ≠ .scheduled v c now wk) (hr : ∀ t, e ≠ .run (.work u) t) (hd : e ≠ .done (.work u)) :
    Part u M G keys nw cm act (w.emit e) :=
  ⟨h.tab.emit e he, h.snd.emit e he hr hd, h.sub⟩

/-- The answer is noted. -/
theorem Part.done {act : List (Nat × Work env.B)} {w : World env} (h : Part u M G keys nw cm act w) (id : Nat)
    (hg : id = u → ∀ r, (track u w.log).seen = some r → G r.now r.work true (runsOf u w.log)) :
    Part u M G keys nw cm act (w.emit (.done (.work id))) := by
  by_cases hid : id = u
  · subst hid
    refine ⟨h.tab.emit _ (by intro _ _ _ _ h; cases h), ?_, h.sub⟩
    have hrun : runsOf id (w.emit (.done (.work id))).log = runsOf id w.log := runsOf_snoc (by intro t h; cases h)
    refine ⟨fun hn => by rw [hrun]; exact h.snd.norun hn, ?_, ?_⟩
    · intro wk r' hm hr'
      obtain ⟨r, hr, hs, _⟩ := rec_snoc (by intro _ _ _ h; cases h) hr'
      rw [hrun, hs.now, hs.work]
      exact h.snd.act wk r hm hr
    · intro r' hr'
      obtain ⟨r, hr, hs, _, hd, _⟩ := rec_snoc (by intro _ _ _ h; cases h) hr'
      rw [hrun, hs.now, hs.work, hd rfl]
      exact hg rfl r hr
  · exact h.emit _ (by intro _ _ _ _ h; cases h) (by intro t h; cases h) (by intro h; cases h; exact hid rfl)

/-- Something that, once true of what the log says of `u`, stays true. -/
def Fact (u : Nat) (Q : Nat → Work env.B → Bool → List Nat → Prop) (w : World env) : Prop :=
  u < w.sched.nextUid ∧ ∀ r, (track u w.log).seen = some r → Q r.now r.work r.done (runsOf u w.log)

/-- It survives more runs and being done. -/
def Stays (Q : Nat → Work env.B → Bool → List Nat → Prop) : Prop :=
  ∀ now work dn dn' runs ext, (dn = true → dn' = true) → Q now work dn runs → Q now work dn' (runs ++ ext)

theorem Fact.snoc {Q : Nat → Work env.B → Bool → List Nat → Prop} (hQ : Stays Q) {w : World env} (h : Fact u Q w)
    {w' : World env} {e : Ev env.B} (hl : w'.log = w.log ++ [e]) (hn : w.sched.nextUid ≤ w'.sched.nextUid)
    (he : ∀ c now wk, e ≠ .scheduled u c now wk) : Fact u Q w' := by
  refine ⟨Nat.lt_of_lt_of_le h.1 hn, fun r' hr' => ?_⟩
  rw [hl] at hr' ⊢
  obtain ⟨r, hr, hs, _, hd1, hd2⟩ := rec_snoc he hr'
  rw [hs.now, hs.work, runsOf_append]
  refine hQ _ _ _ _ _ _ ?_ (h.2 r hr)
  intro hd
  by_cases hev : e = .done (.work u)
  · exact hd1 hev
  · rw [hd2 hev]; exact hd

theorem Fact.step {Q : Nat → Work env.B → Bool → List Nat → Prop} (hQ : Stays Q) {src : Src} {t : Nat} {a b : World env}
    (hab : WStep src t a b) (h : Fact u Q a) : Fact u Q b := by
  cases hab with
  | run => exact h.snoc hQ rfl (Nat.le_refl _) (by intro _ _ _ h; cases h)
  | ctx => exact h
  | call c =>
    cases c with
    | scheduleWork work cid =>
      refine h.snoc hQ rfl (by simp [World.call]) ?_
      intro c now wk he
      cases he
      have := h.1
      omega
    | _ => exact h.snoc hQ rfl (Nat.le_refl _) (by intro _ _ _ h; cases h)

theorem tickPassP_inv {I : World env → Prop} (hP : ∀ src x a b, WStep src x a b → I a → I b)
    (ht : ∀ v x w, I w → I (w.emit (.ticked v x))) (hd : ∀ s w, I w → I (w.emit (.done s)))
    {already : Nat → Bool} {t : Nat} : ∀ (l : List (Nat × Work env.B)) (w : World env) (r),
      tickPassP P already t l w = some r → I w → I r.2.1 := by
  intro l
  induction l with
  | nil => intro w r h hw; simp only [tickPassP] at h; cases h; exact hw
  | cons p l ih =>
    obtain ⟨id, wk⟩ := p
    intro w r h hw
    simp only [tickPassP] at h
    split at h
    · split at h
      · rename_i heq; cases h; have := ih _ _ heq hw; exact this
      · cases h
    · split at h
      · cases h
      · rename_i wk' w1 hk
        cases h
        exact (tickP_steps hk).inv (hP _ _) (ht _ _ _ hw)
      · rename_i wk' w1 res hk
        split at h
        · rename_i heq
          cases h
          have h1 : I w1 := (tickP_steps hk).inv (hP _ _) (ht _ _ _ hw)
          have h2 : I (if res = WorkResult.done then w1.emit (Ev.done (Src.work id)) else w1) := by
            split
            · exact hd _ _ h1
            · exact h1
          have := ih _ _ heq h2
          exact this
        · cases h

theorem execInvokedP_inv {I : World env → Prop}
    (hP : ∀ i x a b, WStep (.invoked i) x a b → I a → I b)
    (hd : ∀ i w, I w → I (w.emit (.done (.invoked i)))) {t : Nat} :
    ∀ (l : List Nat) (inv) (w : World env) (r),
      execInvokedP P t l inv w = some r → I w → I r.2.1 := by
  intro l
  induction l with
  | nil => intro inv w r h hw; simp only [execInvokedP] at h; cases h; exact hw
  | cons i l ih =>
    intro inv w r h hw
    simp only [execInvokedP] at h
    split at h
    · exact ih _ _ _ h hw
    · split at h
      · cases h
      · rename_i wk' w1 hk
        cases h
        exact (tickP_steps hk).inv (hP _ _) hw
      · rename_i wk' w1 res hk
        have h1 : I w1 := (tickP_steps hk).inv (hP _ _) hw
        split at h
        · exact ih _ _ _ h (hd _ _ h1)
        · exact ih _ _ _ h h1

theorem Ext.wstep {a : World env} (src : Src) (x : Nat) (b c : World env) (h : WStep src x b c) (hb : Ext a b) : Ext a c :=
  hb.trans (Ext.steps (Steps.one h))

theorem tickPassP_ext {already : Nat → Bool} {t : Nat} {l : List (Nat × Work env.B)} {w : World env} {r}
    (h : tickPassP P already t l w = some r) : Ext w r.2.1 :=
  tickPassP_inv (I := fun b => Ext w b) Ext.wstep (fun _ _ _ h => h.trans (Ext.emit _ _))
    (fun _ _ h => h.trans (Ext.emit _ _)) l w r h (Ext.refl w)

theorem execInvokedP_ext {t : Nat} {l : List Nat} {inv : Nat → Option (Work env.B)} {w : World env} {r}
    (h : execInvokedP P t l inv w = some r) : Ext w r.2.1 :=
  execInvokedP_inv (I := fun b => Ext w b) (fun _ => Ext.wstep _) (fun _ _ h => h.trans (Ext.emit _ _)) l inv w r h
    (Ext.refl w)

theorem tickPassP_fact {Q : Nat → Work env.B → Bool → List Nat → Prop} (hQ : Stays Q) {already : Nat → Bool} {t : Nat}
    {l : List (Nat × Work env.B)} {w : World env} {r}
    (h : tickPassP P already t l w = some r) (hw : Fact u Q w) : Fact u Q r.2.1 :=
  tickPassP_inv (I := fun b => Fact u Q b) (fun _ _ _ _ hs h => h.step hQ hs)
    (fun _ _ _ h => h.snoc hQ rfl (Nat.le_refl _) (by intro _ _ _ h; cases h))
    (fun _ _ h => h.snoc hQ rfl (Nat.le_refl _) (by intro _ _ _ h; cases h)) l w r h hw

theorem execInvokedP_fact {Q : Nat → Work env.B → Bool → List Nat → Prop} (hQ : Stays Q) {t : Nat}
    {l : List Nat} {inv : Nat → Option (Work env.B)} {w : World env} {r}
    (h : execInvokedP P t l inv w = some r) (hw : Fact u Q w) : Fact u Q r.2.1 :=
  execInvokedP_inv (I := fun b => Fact u Q b) (fun _ _ _ _ hs h => h.step hQ hs)
    (fun _ _ h => h.snoc hQ rfl (Nat.le_refl _) (by intro _ _ _ h; cases h)) l inv w r h hw

/-- It answered `Done`. -/
def doneFact (_ : Nat) (_ : Work env.B) (dn : Bool) (_ : List Nat) : Prop := dn = true

theorem doneFact_stays : Stays (doneFact (env := env)) := fun _ _ _ _ _ _ h h' => h h'

/-- It has run if it was due. -/
def hasRun (Due : Nat → Work env.B → Nat → Prop) (t : Nat) (now : Nat) (work : Work env.B) (_ : Bool) (runs : List Nat) : Prop :=
  Due now work t → runs ≠ []

theorem hasRun_stays (t : Nat) : Stays (hasRun Due t) := by
  intro now work dn dn' runs ext _ h hdue he
  exact h hdue (List.append_eq_nil_iff.1 he).1

/-- A pass over the work. -/
theorem Part.pass (L : KeepLaws P u M G Due) {already : Nat → Bool} {t : Nat} : ∀ (l : List (Nat × Work env.B))
    (pre : List (Nat × Work env.B)) (w : World env) (out w' p), tickPassP P already t l w = some (out, w', p) →
    Part u M G keys nw cm (pre ++ l) w →
    Part u M G keys nw cm (pre ++ out.map (fun p => (p.1, p.2.1))) w' ∧ out.map (·.1) = l.map (·.1) ∧
      ((∃ wk, (u, wk, some .done) ∈ out) → Fact u doneFact w') ∧
      (p = false → already u = false → u ∈ l.map (·.1) → TickedIn u t w w' ∧ Fact u (hasRun Due t) w') := by
  intro l
  induction l with
  | nil =>
    intro pre w out w' p h hw
    simp only [tickPassP, Option.some.injEq, Prod.mk.injEq] at h
    obtain ⟨rfl, rfl, rfl⟩ := h
    exact ⟨hw, rfl, (fun h => by obtain ⟨wk, h⟩ := h; cases h), (fun _ _ h => by cases h)⟩
  | cons q l ih =>
    obtain ⟨id, wk⟩ := q
    intro pre w out w' p h hw
    have hassoc : ∀ (x : Nat × Work env.B) (y : List (Nat × Work env.B)), pre ++ x :: y = (pre ++ [x]) ++ y := by
      intro x y; simp
    simp only [tickPassP] at h
    split at h
    · rename_i hal
      split at h
      · rename_i out1 w1 p1 heq
        simp only [Option.some.injEq, Prod.mk.injEq] at h
        obtain ⟨rfl, rfl, rfl⟩ := h
        obtain ⟨a1, a2, a3, a4⟩ := ih (pre ++ [(id, wk)]) _ _ _ _ heq (by rw [← hassoc]; exact hw)
        refine ⟨by rw [List.map_cons, hassoc]; exact a1, by simp [a2], ?_, ?_⟩
        · rintro ⟨x, hx⟩
          rcases List.mem_cons.1 hx with hx | hx
          · cases hx
          · exact a3 ⟨x, hx⟩
        · intro hp hu hm
          refine a4 hp hu ?_
          rcases List.mem_cons.1 hm with hm | hm
          · simp only at hm; rw [← hm, hu] at hal; cases hal
          · exact hm
      · cases h
    · have hw0 := hw.emit (.ticked id t) (by intro _ _ _ _ h; cases h) (by intro _ h; cases h) (by intro h; cases h)
      split at h
      · cases h
      · rename_i wk1 w1 hk
        simp only [Option.some.injEq, Prod.mk.injEq] at h
        obtain ⟨rfl, rfl, rfl⟩ := h
        obtain ⟨b1, _, _⟩ := hw0.tick L hk
        refine ⟨?_, by simp, ?_, (fun h => by cases h)⟩
        · simpa [Function.comp_def] using b1
        · rintro ⟨x, hx⟩
          rcases List.mem_cons.1 hx with hx | hx
          · cases hx
          · obtain ⟨y, _, hy⟩ := List.mem_map.1 hx
            cases hy
      · rename_i wk1 w1 res hk
        obtain ⟨b1, b2, b3⟩ := hw0.tick L hk
        have hlt : id = u → u < w1.sched.nextUid := by
          intro he
          have := b1.bound (id, wk1) (by simp)
          have := b1.tab.uids.le
          simp only at *
          omega
        have b4 : Part u M G keys nw cm (pre ++ (id, wk1) :: l)
            (if res = .done then w1.emit (.done (.work id)) else w1) := by
          split
          · rename_i hres
            exact b1.done id (fun he => b2 he (by rw [hres]))
          · exact b1
        split at h
        · rename_i out1 w2 p1 heq
          simp only [Option.some.injEq, Prod.mk.injEq] at h
          obtain ⟨rfl, rfl, rfl⟩ := h
          obtain ⟨a1, a2, a3, a4⟩ := ih (pre ++ [(id, wk1)]) _ _ _ _ heq (by rw [← hassoc]; exact b4)
          have hext : Ext (w.emit (.ticked id t)) w2 := by
            refine Ext.trans (Ext.steps (tickP_steps hk)) (Ext.trans ?_ (tickPassP_ext heq))
            dsimp only
            split
            · exact Ext.emit _ _
            · exact Ext.refl _
          refine ⟨by rw [List.map_cons, hassoc]; exact a1, by simp [a2], ?_, ?_⟩
          · rintro ⟨x, hx⟩
            rcases List.mem_cons.1 hx with hx | hx
            · simp only [Prod.mk.injEq, Option.some.injEq] at hx
              obtain ⟨h1, _, h2⟩ := hx
              refine tickPassP_fact doneFact_stays heq ?_
              rw [if_pos h2.symm]
              refine ⟨hlt h1.symm, fun r hr => ?_⟩
              obtain ⟨_, _, _, _, hd, _⟩ := rec_snoc (by intro _ _ _ h; cases h) hr
              exact hd (by rw [h1])
            · exact a3 ⟨x, hx⟩
          · intro hp hu hm
            by_cases hid : id = u
            · refine ⟨?_, ?_⟩
              · obtain ⟨x, hx⟩ := hext
                refine ⟨.ticked id t :: x, ?_, by rw [hid]; exact List.mem_cons_self ..⟩
                rw [hx]
                simp [World.emit]
              · have f1 : Fact u (hasRun Due t) w1 := ⟨hlt hid, fun r hr hdue => b3 hid r hr hdue⟩
                have hst : Stays (hasRun (env := env) Due t) := hasRun_stays t
                refine tickPassP_fact hst heq ?_
                split
                · exact f1.snoc hst rfl (Nat.le_refl _) (by intro _ _ _ h; cases h)
                · exact f1
            · have hm' : u ∈ l.map (·.1) := by
                rcases List.mem_cons.1 hm with hm | hm
                · exact absurd hm.symm hid
                · exact hm
              obtain ⟨c1, c2⟩ := a4 hp hu hm'
              refine ⟨TickedIn.mono ?_ c1 (Ext.refl _), c2⟩
              refine Ext.trans (Ext.emit _ _) (Ext.trans (Ext.steps (tickP_steps hk)) ?_)
              dsimp only
              split
              · exact Ext.emit _ _
              · exact Ext.refl _
        · cases h

end

end Rx.Sched
