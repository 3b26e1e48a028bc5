import Verif.Lemmas.PipelineLaws

/-!
# Operators cannot tell similar destinations apart

Operators act on their destination only through its functions. Hence destinations related by a
simulation stay related under the same operator.
-/

namespace Rx

variable {I E O F S S' : Type}

/-- `R` relates states of two subscribers that answer and evolve alike. -/
structure Sim (D : Sub S I E) (D' : Sub S' I E) (R : S → S' → Prop) : Prop where
  closed : ∀ s s', R s s' → D.isClosed s = D'.isClosed s'
  next : ∀ s s' v, R s s' → R (D.next s v) (D'.next s' v)
  error : ∀ s s' e, R s s' → R (D.error s e) (D'.error s' e)
  complete : ∀ s s', R s s' → R (D.complete s) (D'.complete s')
  unsubscribe : ∀ s s', R s s' → R (D.unsubscribe s) (D'.unsubscribe s')
  add : ∀ s s' t, R s s' → R (D.addTeardown s t) (D'.addTeardown s' t)

theorem Sim.call {D : Sub S I E} {D' : Sub S' I E} {R} (h : Sim D D' R) {s s'} (hr : R s s')
    (c : Call I E) : R (D.call s c) (D'.call s' c) := by
  cases c with
  | note n => cases n with
    | next v => exact h.next _ _ _ hr
    | error e => exact h.error _ _ _ hr
    | complete => exact h.complete _ _ hr
    | unsubscribe => exact h.unsubscribe _ _ hr
  | addTeardown t => exact h.add _ _ _ hr

theorem Sim.prog {β : Type} {D : Sub S I E} {D' : Sub S' I E} {R} (h : Sim D D' R) {s s'}
    (hr : R s s') (p : Prog I E β) : (p.run D s).1 = (p.run D' s').1 ∧ R (p.run D s).2 (p.run D' s').2 := by
  induction p generalizing s s' with
  | ret a => exact ⟨rfl, hr⟩
  | call c k ih => exact ih (h.call hr c)
  | query k ih =>
    simp only [Prog.run, h.closed _ _ hr]
    exact ih _ hr

/-- A relation on destinations as one on operator states. -/
def onState {St : Type} (R : S → S' → Prop) (x : St × S) (y : St × S') : Prop := x.1 = y.1 ∧ R x.2 y.2

/-- The operator preserves simulations. -/
structure OpImpl.Parametric (P : OpImpl I E O F) : Prop where
  sub : ∀ {S S' : Type} {D : Sub S O F} {D' : Sub S' O F} {R : S → S' → Prop}, Sim D D' R →
    Sim (P.sub D) (P.sub D') (onState R)
  init : ∀ {S S' : Type} {D : Sub S O F} {D' : Sub S' O F} {R : S → S' → Prop}, Sim D D' R →
    ∀ s s', R s s' → onState R (P.init D s) (P.init D' s')

/-- solves one obligation of `Sim` after unfolding -/
macro "sim_step" h:ident : tactic => `(tactic|
  repeat (first
    | exact ⟨rfl, ‹_›⟩
    | assumption
    | refine ⟨rfl, ?_⟩
    | apply Sim.next $h
    | apply Sim.error $h
    | apply Sim.complete $h
    | apply Sim.unsubscribe $h
    | apply Sim.add $h))

/-- proves that a simple operator is parametric -/
macro "param" : tactic => `(tactic|
  (constructor
   · intro S S' D D' R h
     refine ⟨?_, ?_, ?_, ?_, ?_, ?_⟩
     · rintro ⟨st, s⟩ ⟨st', s'⟩ ⟨h1, h2⟩
       simp only at h1 h2; subst h1
       exact h.closed _ _ h2
     · rintro ⟨st, s⟩ ⟨st', s'⟩ v ⟨h1, h2⟩
       simp only at h1 h2; subst h1
       first
         | exact ⟨rfl, h.next _ _ _ h2⟩
         | exact ⟨rfl, h2⟩
         | exact nomatch v
     · rintro ⟨st, s⟩ ⟨st', s'⟩ e ⟨h1, h2⟩
       simp only at h1 h2; subst h1
       first
         | exact ⟨rfl, h.error _ _ _ h2⟩
         | exact ⟨rfl, h.next _ _ _ h2⟩
         | exact ⟨rfl, h.complete _ _ (h.next _ _ _ h2)⟩
         | exact nomatch e
     · rintro ⟨st, s⟩ ⟨st', s'⟩ ⟨h1, h2⟩
       simp only at h1 h2; subst h1
       first
         | exact ⟨rfl, h.complete _ _ h2⟩
         | exact ⟨rfl, h.complete _ _ (h.next _ _ _ h2)⟩
     · rintro ⟨st, s⟩ ⟨st', s'⟩ ⟨h1, h2⟩
       simp only at h1 h2; subst h1
       exact ⟨rfl, h.unsubscribe _ _ h2⟩
     · rintro ⟨st, s⟩ ⟨st', s'⟩ t ⟨h1, h2⟩
       simp only at h1 h2; subst h1
       exact ⟨rfl, h.add _ _ _ h2⟩
   · intro S S' D D' R h s s' hr
     first
       | exact ⟨rfl, hr⟩
       | exact ⟨rfl, h.next _ _ _ hr⟩
       | exact ⟨rfl, h.add _ _ _ hr⟩))

/-- The general form: each obligation after splitting all branches. -/
macro "param_split" "[" ls:Lean.Parser.Tactic.simpLemma,* "]" : tactic => `(tactic|
  (constructor
   · intro S S' D D' R h
     refine ⟨?_, ?_, ?_, ?_, ?_, ?_⟩
     · rintro ⟨st, s⟩ ⟨st', s'⟩ ⟨h1, h2⟩
       simp only at h1 h2; subst h1
       simp only [$ls,*, h.closed _ _ h2]
     · rintro ⟨st, s⟩ ⟨st', s'⟩ v ⟨h1, h2⟩
       simp only at h1 h2; subst h1
       have h3 := fun v => h.closed _ _ (h.next _ _ v h2)
       simp only [$ls,*, h.closed _ _ h2, h3]
       repeat' split
       all_goals sim_step h
     · rintro ⟨st, s⟩ ⟨st', s'⟩ e ⟨h1, h2⟩
       simp only at h1 h2; subst h1
       simp only [$ls,*, h.closed _ _ h2]
       repeat' split
       all_goals sim_step h
     · rintro ⟨st, s⟩ ⟨st', s'⟩ ⟨h1, h2⟩
       simp only at h1 h2; subst h1
       have h3 := fun v => h.closed _ _ (h.next _ _ v h2)
       simp only [$ls,*, h.closed _ _ h2, h3]
       repeat' split
       all_goals sim_step h
     · rintro ⟨st, s⟩ ⟨st', s'⟩ ⟨h1, h2⟩
       simp only at h1 h2; subst h1
       simp only [$ls,*, h.closed _ _ h2]
       repeat' split
       all_goals sim_step h
     · rintro ⟨st, s⟩ ⟨st', s'⟩ t ⟨h1, h2⟩
       simp only at h1 h2; subst h1
       exact ⟨rfl, h.add _ _ _ h2⟩
   · intro S S' D D' R h s s' hr
     have h3 := h.closed _ _ (h.complete _ _ hr)
     simp only [$ls,*, h.closed _ _ hr]
     first
       | exact ⟨rfl, hr⟩
       | (split <;> simp only [h.closed _ _ hr, h3] <;> sim_step h)))

theorem mapOp_param (f : I → O) : (mapOp (E := E) f).Parametric := by param
theorem mapIntoOp_param (f : I → O) (g : E → F) : (mapIntoOp f g).Parametric := by param
theorem mapNeverErrorOp_param : (mapNeverErrorOp (I := I) F).Parametric := by param
theorem mapNeverNextOp_param : (mapNeverNextOp (E := E) O).Parametric := by param
theorem mapNeverBothOp_param : (mapNeverBothOp O F).Parametric := by param
theorem identityOp_param : (identityOp (I := I) (E := E)).Parametric := by param
theorem tapNextOp_param {σ : Type} (f : σ → I → σ) (c : σ) : (tapNextOp (E := E) f c).Parametric := by param
theorem scanOp_param (f : O → I → O) (c : O) : (scanOp (E := E) f c).Parametric := by param
theorem reduceOp_param (f : O → I → O) (c : O) : (reduceOp (E := E) f c).Parametric := by param
theorem countOp_param : (countOp (I := I) (E := E)).Parametric := by param
theorem enumerateOp_param : (enumerateOp (I := I) (E := E)).Parametric := by param
theorem startWithOp_param (v : I) : (startWithOp (E := E) v).Parametric := by param
theorem finalizeOp_param (cb : Nat) : (finalizeOp (I := I) (E := E) cb).Parametric := by param
theorem tapOp_param (s : ObsState I E) : (tapOp s).Parametric := by param
theorem materializeOp_param : (materializeOp (I := I) (E := E)).Parametric := by param
theorem intoResultOp_param : (intoResultOp (I := I) (E := E)).Parametric := by param

theorem mapErrorOp_param (f : E → F) : (mapErrorOp (I := I) f).Parametric := by
  param_split [mapErrorOp, mkSub]
theorem filterOp_param (p : I → Nat → Bool) : (filterOp (E := E) p).Parametric := by
  param_split [filterOp, mkSub]
theorem liftOptionOp_param : (liftOptionOp (I := I) (E := E)).Parametric := by
  param_split [liftOptionOp, mkSub]
theorem takeOp_param (n : Nat) : (takeOp (I := I) (E := E) n).Parametric := by
  param_split [takeOp]
theorem skipOp_param (n : Nat) : (skipOp (I := I) (E := E) n).Parametric := by
  param_split [skipOp, mkSub]
theorem pairwiseOp_param : (pairwiseOp (I := I) (E := E)).Parametric := by
  param_split [pairwiseOp, mkSub]
theorem bufferCountOp_param (n : Nat) : (bufferCountOp (I := I) (E := E) n).Parametric := by
  param_split [bufferCountOp, mkSub]
theorem firstOp_param : (firstOp (I := I) (E := E)).Parametric := by
  param_split [firstOp, mkSub]
theorem findOp_param (p : I → Bool) : (findOp (E := E) p).Parametric := by
  param_split [findOp, mkSub]
theorem findIndexOp_param (p : I → Bool) : (findIndexOp (E := E) p).Parametric := by
  param_split [findIndexOp, mkSub]
theorem elementAtOp_param (i : Nat) (d : Option I) : (elementAtOp (E := E) i d).Parametric := by
  param_split [elementAtOp]
theorem isEmptyOp_param : (isEmptyOp (I := I) (E := E)).Parametric := by
  param_split [isEmptyOp, mkSub]
theorem endWithOp_param (v : I) : (endWithOp (E := E) v).Parametric := by
  param_split [endWithOp, mkSub]
theorem liftResultOp_param : (liftResultOp (I := I) (E := E)).Parametric := by
  param_split [liftResultOp, mkSub]
theorem dematerializeOp_param : (dematerializeOp (I := I) (E := E)).Parametric := by
  param_split [dematerializeOp, mkSub]

theorem onNextOp_param {σ : Type} (f : σ → I → Prog I E (Bool × σ)) (c : σ) :
    (onNextOp f c).Parametric := by
  constructor
  · intro S S' D D' R h
    refine ⟨?_, ?_, ?_, ?_, ?_, ?_⟩
    · rintro ⟨st, s⟩ ⟨st', s'⟩ ⟨h1, h2⟩
      exact h.closed _ _ h2
    · rintro ⟨st, s⟩ ⟨st', s'⟩ v ⟨h1, h2⟩
      simp only at h1 h2; subst h1
      obtain ⟨h3, h4⟩ := h.prog h2 (f st v)
      simp only [onNextOp, mkSub, h3, h.closed _ _ h4]
      split
      · exact ⟨rfl, h.next _ _ _ h4⟩
      · exact ⟨rfl, h4⟩
    · rintro ⟨st, s⟩ ⟨st', s'⟩ e ⟨h1, h2⟩
      exact ⟨h1, h.error _ _ _ h2⟩
    · rintro ⟨st, s⟩ ⟨st', s'⟩ ⟨h1, h2⟩
      exact ⟨h1, h.complete _ _ h2⟩
    · rintro ⟨st, s⟩ ⟨st', s'⟩ ⟨h1, h2⟩
      exact ⟨h1, h.unsubscribe _ _ h2⟩
    · rintro ⟨st, s⟩ ⟨st', s'⟩ t ⟨h1, h2⟩
      exact ⟨h1, h.add _ _ _ h2⟩
  · intro S S' D D' R h s s' hr
    exact ⟨rfl, hr⟩

theorem onSubscribeOp_param (p : Prog I E Unit) : (onSubscribeOp p).Parametric :=
  ⟨fun h => identityOp_param.sub h, fun h _ _ hr => ⟨(h.prog hr p).1, (h.prog hr p).2⟩⟩

theorem compositeOp_param {M G : Type} {a : OpImpl I E M G} {b : OpImpl M G O F}
    (ha : a.Parametric) (hb : b.Parametric) : (compositeOp a b).Parametric := by
  constructor
  · intro S S' D D' R h
    have hs := ha.sub (hb.sub h)
    have up : ∀ (x : (a.St × b.St) × S) (y : (a.St × b.St) × S'), onState R x y →
        onState (onState R) ((x.1.1, (x.1.2, x.2)) : a.St × (b.St × S)) (y.1.1, (y.1.2, y.2)) := by
      rintro ⟨⟨a1, b1⟩, s⟩ ⟨⟨a2, b2⟩, s'⟩ ⟨h1, h2⟩
      simp only [Prod.mk.injEq] at h1
      exact ⟨h1.1, h1.2, h2⟩
    have down : ∀ (x : a.St × (b.St × S)) (y : a.St × (b.St × S')), onState (onState R) x y →
        onState R ((x.1, x.2.1), x.2.2) ((y.1, y.2.1), y.2.2) := by
      rintro ⟨a1, b1, s⟩ ⟨a2, b2, s'⟩ ⟨h1, h2, h3⟩
      simp only at h1 h2 h3
      exact ⟨by rw [h1, h2], h3⟩
    refine ⟨?_, ?_, ?_, ?_, ?_, ?_⟩
    · exact fun x y hxy => hs.closed _ _ (up x y hxy)
    · exact fun x y v hxy => down _ _ (hs.next _ _ v (up x y hxy))
    · exact fun x y v hxy => down _ _ (hs.error _ _ v (up x y hxy))
    · exact fun x y hxy => down _ _ (hs.complete _ _ (up x y hxy))
    · exact fun x y hxy => down _ _ (hs.unsubscribe _ _ (up x y hxy))
    · exact fun x y v hxy => down _ _ (hs.add _ _ v (up x y hxy))
  · intro S S' D D' R h s s' hr
    obtain ⟨h1, h2, h3⟩ := ha.init (hb.sub h) _ _ (hb.init h s s' hr)
    exact ⟨Prod.ext h1 h2, h3⟩

theorem Op.param {I E O F : Type} (op : Op I E O F) : op.impl.Parametric := by
  cases op with
  | map f => exact mapOp_param f
  | mapError f => exact mapErrorOp_param f
  | mapInto f g => exact mapIntoOp_param f g
  | mapNeverError => exact mapNeverErrorOp_param
  | mapNeverNext => exact mapNeverNextOp_param
  | mapNeverBoth => exact mapNeverBothOp_param
  | filter p => exact filterOp_param p
  | filterMap f => exact compositeOp_param (mapOp_param f) liftOptionOp_param
  | liftOption => exact liftOptionOp_param
  | tapNext f c => exact tapNextOp_param f c
  | onNext f c => exact onNextOp_param f c
  | identity => exact identityOp_param
  | take n => exact takeOp_param n
  | skip n => exact skipOp_param n
  | scan f s => exact scanOp_param f s
  | reduce f s => exact reduceOp_param f s
  | count => exact countOp_param
  | enumerate => exact enumerateOp_param
  | pairwise => exact pairwiseOp_param
  | bufferCount n => exact bufferCountOp_param n
  | first => exact firstOp_param
  | find p => exact findOp_param p
  | findIndex p => exact findIndexOp_param p
  | elementAt i d => exact elementAtOp_param i d
  | isEmpty => exact isEmptyOp_param
  | startWith v => exact startWithOp_param v
  | endWith v => exact endWithOp_param v
  | finalize cb => exact finalizeOp_param cb
  | onSubscribe p => exact onSubscribeOp_param p
  | tap s => exact tapOp_param s
  | materialize => exact materializeOp_param
  | dematerialize => exact dematerializeOp_param
  | intoResult => exact intoResultOp_param
  | liftResult => exact liftResultOp_param

namespace Pipeline

/-- A relation on destinations as one on the states of a chain. -/
def Rel (R : S → S' → Prop) : {I E O F : Type} → (p : Pipeline I E O F) → p.St S → p.St S' → Prop
  | _, _, _, _, .nil => R
  | _, _, _, _, .cons _ rest => onState (rest.Rel R)

theorem sim {D : Sub S O F} {D' : Sub S' O F} {R : S → S' → Prop} (h : Sim D D' R) :
    {I E : Type} → (p : Pipeline I E O F) → Sim (p.sub D) (p.sub D') (p.Rel R)
  | _, _, .nil => h
  | _, _, .cons op rest => op.param.sub (rest.sim h)

theorem sim_init {D : Sub S O F} {D' : Sub S' O F} {R : S → S' → Prop} (h : Sim D D' R) {s s'}
    (hr : R s s') : {I E : Type} → (p : Pipeline I E O F) → p.Rel R (p.init D s) (p.init D' s')
  | _, _, .nil => hr
  | _, _, .cons op rest => op.param.init (rest.sim h) _ _ (rest.sim_init h hr)

theorem rel_bottom {R : S → S' → Prop} : {I E O F : Type} → (p : Pipeline I E O F) →
    (x : p.St S) → (y : p.St S') → p.Rel R x y → R (p.bottom x) (p.bottom y)
  | _, _, _, _, .nil, _, _, h => h
  | _, _, _, _, .cons _ rest, x, y, h => rest.rel_bottom x.2 y.2 h.2

end Pipeline

end Rx
