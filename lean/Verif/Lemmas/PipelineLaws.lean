import Verif.Lemmas.OpLaws

/-!
# Every pipeline preserves the subscriber contract
-/

namespace Rx

/-- Bookkeeping for each operator. -/
def Op.meta {I E O F : Type} : (op : Op I E O F) → OpMeta op.impl.St
  | .map _ => {}
  | .mapError _ => { req := id, latched := fun (st : Option _) => st.isNone }
  | .mapInto _ _ => {}
  | .mapNeverError _ => {}
  | .mapNeverNext _ => {}
  | .mapNeverBoth _ _ => {}
  | .filter _ => {}
  | .filterMap _ => {}
  | .liftOption => {}
  | .tapNext _ _ => {}
  | .onNext _ _ => { quiet := false }
  | .identity => {}
  | .take _ => { req := id, latched := fun (st : TakeSt) => st.closed }
  | .skip _ => {}
  | .scan _ _ => {}
  | .reduce _ _ => {}
  | .count => {}
  | .enumerate => {}
  | .pairwise => {}
  | .bufferCount _ => {}
  | .first => { req := id, latched := fun (st : Bool) => st }
  | .find _ => { req := id, latched := fun (st : FindSt) => st.matchObserved }
  | .findIndex _ => { req := id, latched := fun (st : FindIndexSt) => st.matchObserved }
  | .elementAt _ _ => { req := id, latched := fun (st : ElementAtSt) => st.closed }
  | .isEmpty => {}
  | .startWith _ => {}
  | .endWith _ => {}
  | .finalize cb => { itds := [cb] }
  | .onSubscribe _ => { quiet := false }
  | .tap _ => {}
  | .materialize => { gives := fun _ => true }
  | .dematerialize => { req := id }
  | .intoResult => { gives := fun _ => false }
  | .liftResult => { req := id }

theorem Op.good {I E O F : Type} (op : Op I E O F) : op.impl.Good op.meta := by
  cases op with
  | map f => exact mapOp_good f
  | mapError f => exact mapErrorOp_good f
  | mapInto f g => exact mapIntoOp_good f g
  | mapNeverError => exact mapNeverErrorOp_good
  | mapNeverNext => exact mapNeverNextOp_good
  | mapNeverBoth => exact mapNeverBothOp_good
  | filter p => exact filterOp_good p
  | filterMap f => exact filterMapOp_good f
  | liftOption => exact liftOptionOp_good
  | tapNext f c => exact tapNextOp_good f c
  | onNext f c => exact onNextOp_good f c
  | identity => exact identityOp_good
  | take n => exact takeOp_good n
  | skip n => exact skipOp_good n
  | scan f s => exact scanOp_good f s
  | reduce f s => exact reduceOp_good f s
  | count => exact countOp_good
  | enumerate => exact enumerateOp_good
  | pairwise => exact pairwiseOp_good
  | bufferCount n => exact bufferCountOp_good n
  | first => exact firstOp_good
  | find p => exact findOp_good p
  | findIndex p => exact findIndexOp_good p
  | elementAt i d => exact elementAtOp_good i d
  | isEmpty => exact isEmptyOp_good
  | startWith v => exact startWithOp_good v
  | endWith v => exact endWithOp_good v
  | finalize cb => exact finalizeOp_good cb
  | onSubscribe p => exact onSubscribeOp_good p
  | tap s => exact tapOp_good s
  | materialize => exact materializeOp_good
  | dematerialize => exact dematerializeOp_good
  | intoResult => exact intoResultOp_good
  | liftResult => exact liftResultOp_good

/-- Closedness is monotone through each operator, for destinations that are not required to obey the
rest of the contract. -/
theorem Op.mono {I E O F S : Type} (op : Op I E O F) (D : Sub S O F)
    (hD : ∀ s c, D.isClosed s = true → D.isClosed (D.call s c) = true)
    (x : op.impl.St × S) (c : Call I E) (h : (op.impl.sub D).isClosed x = true) :
    (op.impl.sub D).isClosed ((op.impl.sub D).call x c) = true := by
  obtain ⟨ts, -, hp⟩ := op.good.path D x c
  have hmono : D.isClosed x.2 = true → D.isClosed ((op.impl.sub D).call x c).2 = true :=
    fun hc => hp.preserves (fun s => D.isClosed s = true) hD hc
  cases op
  case take n =>
    obtain ⟨⟨k, cl⟩, s⟩ := x
    simp only [Op.impl, takeOp, Bool.or_eq_true] at h hmono ⊢
    rcases h with h | h
    · left
      subst h
      cases c with
      | note m =>
        cases m with
        | next v => 
          simp only [Sub.call, Sub.push]
          split
          · split <;> rfl
          · rfl
        | error | complete | unsubscribe => rfl
      | addTeardown t => rfl
    · exact Or.inr (hmono h)
  case elementAt i d =>
    obtain ⟨⟨k, cl⟩, s⟩ := x
    simp only [Op.impl, elementAtOp, Bool.or_eq_true] at h hmono ⊢
    rcases h with h | h
    · left
      subst h
      cases c with
      | note m =>
        cases m with
        | next | error | complete | unsubscribe => simp [Sub.call, Sub.push]
      | addTeardown t => rfl
    · exact Or.inr (hmono h)
  all_goals exact hmono h

/-- The head is closed whenever the destination is. -/
theorem Op.closed_of_dest {I E O F S : Type} (op : Op I E O F) (D : Sub S O F)
    (x : op.impl.St × S) (h : D.isClosed x.2 = true) : (op.impl.sub D).isClosed x = true := by
  cases op
  case take n => simp [Op.impl, takeOp, h]
  case elementAt i d => simp [Op.impl, elementAtOp, h]
  all_goals exact h

namespace Pipeline

/-- `p.req ec`: every operator of the chain that relies on its downstream closing on error has one
that does. Only `into_result` (not followed upstream by `materialize`) breaks this. -/
def gives : {I E O F : Type} → Pipeline I E O F → Bool → Bool
  | _, _, _, _, .nil, ec => ec
  | _, _, _, _, .cons op rest, ec => op.meta.gives (rest.gives ec)

def req : {I E O F : Type} → Pipeline I E O F → Bool → Bool
  | _, _, _, _, .nil, _ => true
  | _, _, _, _, .cons op rest, ec => rest.req ec && op.meta.req (rest.gives ec)

def quiet : {I E O F : Type} → Pipeline I E O F → Bool
  | _, _, _, _, .nil => true
  | _, _, _, _, .cons op rest => op.meta.quiet && rest.quiet

/-- teardowns added by the operators while subscribing, in order -/
def itds : {I E O F : Type} → Pipeline I E O F → List Nat
  | _, _, _, _, .nil => []
  | _, _, _, _, .cons op rest => rest.itds ++ op.meta.itds

def Inv {S : Type} : {I E O F : Type} → (p : Pipeline I E O F) → Sub S O F → (S → Prop) → p.St S → Prop
  | _, _, _, _, .nil, _, Inv0 => Inv0
  | _, _, _, _, .cons op rest, D, Inv0 => fun x =>
    rest.Inv D Inv0 x.2 ∧ (op.meta.latched x.1 = true → (rest.sub D).isClosed x.2 = true)

theorem lawful {S α : Type} : {I E O F : Type} → (p : Pipeline I E O F) → (D : Sub S O F) →
    (obs : S → α) → (Inv0 : S → Prop) → (ec : Bool) → Lawful D obs Inv0 ec → p.req ec = true →
    Lawful (p.sub D) (fun x => obs (p.bottom x)) (p.Inv D Inv0) (p.gives ec)
  | _, _, _, _, .nil, _, _, _, _, hD, _ => hD
  | _, _, _, _, .cons op rest, D, obs, Inv0, ec, hD, hr => by
    simp only [req, Bool.and_eq_true] at hr
    exact op.good.lawful _ _ _ _ (rest.lawful D obs Inv0 ec hD hr.1) hr.2

theorem init_inv {S α : Type} : {I E O F : Type} → (p : Pipeline I E O F) → (D : Sub S O F) →
    (obs : S → α) → (Inv0 : S → Prop) → (ec : Bool) → Lawful D obs Inv0 ec → p.req ec = true →
    ∀ s, Inv0 s → p.Inv D Inv0 (p.init D s)
  | _, _, _, _, .nil, _, _, _, _, _, _, _, hs => hs
  | _, _, _, _, .cons op rest, D, obs, Inv0, ec, hD, hr, s, hs => by
    simp only [req, Bool.and_eq_true] at hr
    have h1 := rest.init_inv D obs Inv0 ec hD hr.1 s hs
    have h2 := rest.lawful D obs Inv0 ec hD hr.1
    obtain ⟨ts, -, hp⟩ := op.good.pathInit (rest.sub D) (rest.init D s)
    exact ⟨h2.path_inv hp h1, op.good.initLatch _ _ _ _ h2 hr.2 _ h1⟩

theorem closed_eq {S : Type} : {I E O F : Type} → (p : Pipeline I E O F) → (D : Sub S O F) →
    (Inv0 : S → Prop) → (x : p.St S) → p.Inv D Inv0 x → (p.sub D).isClosed x = D.isClosed (p.bottom x)
  | _, _, _, _, .nil, _, _, _, _ => rfl
  | _, _, _, _, .cons op rest, D, Inv0, x, h => by
    exact (op.good.closed (rest.sub D) x h.2).trans (rest.closed_eq D Inv0 x.2 h.1)

theorem closed_of_bottom {S : Type} : {I E O F : Type} → (p : Pipeline I E O F) → (D : Sub S O F) →
    (x : p.St S) → D.isClosed (p.bottom x) = true → (p.sub D).isClosed x = true
  | _, _, _, _, .nil, _, _, h => h
  | _, _, _, _, .cons op rest, D, x, h => op.closed_of_dest (rest.sub D) x (rest.closed_of_bottom D x.2 h)

theorem mono {S : Type} : {I E O F : Type} → (p : Pipeline I E O F) → (D : Sub S O F) →
    (∀ s c, D.isClosed s = true → D.isClosed (D.call s c) = true) → (x : p.St S) → (c : Call I E) →
    (p.sub D).isClosed x = true → (p.sub D).isClosed ((p.sub D).call x c) = true
  | _, _, _, _, .nil, _, hD, x, c, h => hD x c h
  | _, _, _, _, .cons op rest, D, hD, x, c, h =>
    op.mono (rest.sub D) (rest.mono D hD) x c h

theorem liftPath {S I E O F : Type} (p : Pipeline I E O F) (D : Sub S O F)
    (h1 : ∀ x c, ∃ ts, (p.quiet = true → ts = c.tds) ∧
      Path D (p.bottom x) ts (p.bottom ((p.sub D).call x c)))
    {x y ts} (h : Path (p.sub D) x ts y) :
    ∃ ts', (p.quiet = true → ts' = ts) ∧ Path D (p.bottom x) ts' (p.bottom y) := by
  induction h with
  | refl => exact ⟨_, fun _ => rfl, .refl⟩
  | @next ts t v h ih =>
    obtain ⟨ts', a, b⟩ := ih
    obtain ⟨us, a', b'⟩ := h1 t (.note (.next v))
    exact ⟨_, fun hq => by rw [a hq, a' hq]; simp [Call.tds], b.trans b'⟩
  | @error ts t v h ih =>
    obtain ⟨ts', a, b⟩ := ih
    obtain ⟨us, a', b'⟩ := h1 t (.note (.error v))
    exact ⟨_, fun hq => by rw [a hq, a' hq]; simp [Call.tds], b.trans b'⟩
  | @complete ts t h ih =>
    obtain ⟨ts', a, b⟩ := ih
    obtain ⟨us, a', b'⟩ := h1 t (.note .complete)
    exact ⟨_, fun hq => by rw [a hq, a' hq]; simp [Call.tds], b.trans b'⟩
  | @unsubscribe ts t h ih =>
    obtain ⟨ts', a, b⟩ := ih
    obtain ⟨us, a', b'⟩ := h1 t (.note .unsubscribe)
    exact ⟨_, fun hq => by rw [a hq, a' hq]; simp [Call.tds], b.trans b'⟩
  | @addTeardown ts t u h ih =>
    obtain ⟨ts', a, b⟩ := ih
    obtain ⟨us, a', b'⟩ := h1 t (.addTeardown u)
    exact ⟨_, fun hq => by rw [a hq, a' hq]; simp [Call.tds], b.trans b'⟩

theorem path {S : Type} : {I E O F : Type} → (p : Pipeline I E O F) → (D : Sub S O F) →
    (x : p.St S) → (c : Call I E) → ∃ ts, (p.quiet = true → ts = c.tds) ∧
      Path D (p.bottom x) ts (p.bottom ((p.sub D).call x c))
  | _, _, _, _, .nil, D, x, c => ⟨_, fun _ => rfl, Path.refl.call c⟩
  | _, _, _, _, .cons op rest, D, x, c => by
    obtain ⟨ts, a, b⟩ := op.good.path (rest.sub D) x c
    obtain ⟨ts', a', b'⟩ := rest.liftPath D (rest.path D) b
    refine ⟨ts', fun hq => ?_, b'⟩
    simp only [quiet, Bool.and_eq_true] at hq
    rw [a' hq.2, a hq.1]

theorem pathInit {S : Type} : {I E O F : Type} → (p : Pipeline I E O F) → (D : Sub S O F) →
    (s : S) → ∃ ts, (p.quiet = true → ts = p.itds) ∧ Path D s ts (p.bottom (p.init D s))
  | _, _, _, _, .nil, D, s => ⟨_, fun _ => rfl, .refl⟩
  | _, _, _, _, .cons op rest, D, s => by
    obtain ⟨us, ha, hb⟩ := rest.pathInit D s
    obtain ⟨ts, a, b⟩ := op.good.pathInit (rest.sub D) (rest.init D s)
    obtain ⟨ts', a', b'⟩ := rest.liftPath D (rest.path D) b
    refine ⟨us ++ ts', fun hq => ?_, hb.trans b'⟩
    simp only [quiet, Bool.and_eq_true] at hq
    rw [a' hq.2, a hq.1, ha hq.2]; rfl

theorem pathCalls {S I E O F : Type} (p : Pipeline I E O F) (D : Sub S O F)
    (x : p.St S) (cs : List (Call I E)) : ∃ ts, (p.quiet = true → ts = Call.tdss cs) ∧
      Path D (p.bottom x) ts (p.bottom ((p.sub D).calls x cs)) := by
  have := p.liftPath D (p.path D) ((Path.refl (D := p.sub D) (s := x)).calls cs)
  simpa using this

theorem pathProg {S I E O F β : Type} (p : Pipeline I E O F) (D : Sub S O F)
    (x : p.St S) (src : Prog I E β) : ∃ ts, Path D (p.bottom x) ts (p.bottom (src.run (p.sub D) x).2) := by
  obtain ⟨ts, h⟩ := Path.prog (D := p.sub D) src x
  obtain ⟨ts', -, h'⟩ := p.liftPath D (p.path D) h
  exact ⟨ts', h'⟩

end Pipeline

end Rx
