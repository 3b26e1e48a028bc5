import Verif.Model.Operators
import Verif.Spec.Grammar

/-!
# Laws of subscribers

`Lawful D obs Inv ec` is the contract a destination is assumed to obey: what is closed stays closed,
a closed destination is inert, `complete`/`unsubscribe` close it, and `error` does so when `ec`
(all destinations except those behind `into_result`). `Inv` is an invariant of the states that can
occur. Every operator preserves this contract, so the theorems about operators apply to each other.
-/

namespace Rx

variable {S I E α : Type}

/-- `Path D s ts t`: `t` is reached from `s` by calls on `D`; `ts` are the teardowns added. -/
inductive Path (D : Sub S I E) (s : S) : List Nat → S → Prop where
  | refl : Path D s [] s
  | next {ts t v} : Path D s ts t → Path D s ts (D.next t v)
  | error {ts t e} : Path D s ts t → Path D s ts (D.error t e)
  | complete {ts t} : Path D s ts t → Path D s ts (D.complete t)
  | unsubscribe {ts t} : Path D s ts t → Path D s ts (D.unsubscribe t)
  | addTeardown {ts t} (x : Teardown) : Path D s ts t → Path D s (ts ++ x.toList) (D.addTeardown t x)

/-- The teardown closures a call hands over. -/
def Call.tds : Call I E → List Nat
  | .note _ => []
  | .addTeardown t => t.toList

/-- The teardown closures a sequence of calls hands over. -/
def Call.tdss (cs : List (Call I E)) : List Nat := cs.flatMap Call.tds

theorem Path.push {D : Sub S I E} {ts s t} (h : Path D s ts t) (n) : Path D s ts (D.push t n) := by
  cases n <;> simp only [Sub.push] <;> constructor <;> exact h

theorem Path.call {D : Sub S I E} {ts s t} (h : Path D s ts t) (c : Call I E) :
    Path D s (ts ++ c.tds) (D.call t c) := by
  cases c with
  | note n => simpa [Call.tds, Sub.call] using h.push n
  | addTeardown x => exact h.addTeardown x

theorem Path.trans {D : Sub S I E} {ts us s t u} (h : Path D s ts t) (h' : Path D t us u) :
    Path D s (ts ++ us) u := by
  induction h' with
  | refl => simpa using h
  | next _ ih => exact ih.next
  | error _ ih => exact ih.error
  | complete _ ih => exact ih.complete
  | unsubscribe _ ih => exact ih.unsubscribe
  | addTeardown x _ ih => rw [← List.append_assoc]; exact ih.addTeardown x

theorem Path.calls {D : Sub S I E} {ts s t} (h : Path D s ts t) (cs : List (Call I E)) :
    Path D s (ts ++ Call.tdss cs) (D.calls t cs) := by
  induction cs generalizing ts t with
  | nil => simpa [Call.tdss, Sub.calls] using h
  | cons c cs ih =>
    have := ih (h.call c)
    simpa [Call.tdss, Sub.calls, List.append_assoc] using this

theorem Path.prog {β : Type} {D : Sub S I E} (p : Prog I E β) (s : S) :
    ∃ ts, Path D s ts (p.run D s).2 := by
  induction p generalizing s with
  | ret a => exact ⟨_, .refl⟩
  | call c k ih =>
    obtain ⟨ts, h⟩ := ih (D.call s c)
    exact ⟨_, (Path.refl.call c).trans h⟩
  | query k ih => exact ih _ s

/-- A property preserved by every call on `D` is preserved along a path. -/
theorem Path.preserves {D : Sub S I E} {ts s t} (h : Path D s ts t) (P : S → Prop)
    (hP : ∀ s c, P s → P (D.call s c)) (hs : P s) : P t := by
  induction h with
  | refl => exact hs
  | @next _ t v _ ih => exact hP t (.note (.next v)) ih
  | @error _ t v _ ih => exact hP t (.note (.error v)) ih
  | @complete _ t _ ih => exact hP t (.note .complete) ih
  | @unsubscribe _ t _ ih => exact hP t (.note .unsubscribe) ih
  | addTeardown x _ ih => exact hP _ (.addTeardown x) ih

/-- The contract of a subscriber; see the module comment. -/
structure Lawful (D : Sub S I E) (obs : S → α) (Inv : S → Prop) (ec : Bool) : Prop where
  inv : ∀ s c, Inv s → Inv (D.call s c)
  mono : ∀ s c, Inv s → D.isClosed s = true → D.isClosed (D.call s c) = true
  frozen : ∀ s n, Inv s → D.isClosed s = true → obs (D.push s n) = obs s
  addObs : ∀ s t, Inv s → obs (D.addTeardown s t) = obs s
  addClosed : ∀ s t, Inv s → D.isClosed (D.addTeardown s t) = D.isClosed s
  completeCloses : ∀ s, Inv s → D.isClosed (D.complete s) = true
  unsubscribeCloses : ∀ s, Inv s → D.isClosed (D.unsubscribe s) = true
  errorCloses : ec = true → ∀ s e, Inv s → D.isClosed (D.error s e) = true

namespace Lawful
variable {D : Sub S I E} {obs : S → α} {Inv : S → Prop} {ec : Bool}

theorem path_inv (hD : Lawful D obs Inv ec) {ts s t} (h : Path D s ts t) (hs : Inv s) : Inv t :=
  h.preserves Inv hD.inv hs

theorem path_mono (hD : Lawful D obs Inv ec) {ts s t} (h : Path D s ts t) (hs : Inv s)
    (hc : D.isClosed s = true) : D.isClosed t = true :=
  (h.preserves (fun s => Inv s ∧ D.isClosed s = true)
    (fun s c h => ⟨hD.inv s c h.1, hD.mono s c h.1 h.2⟩) ⟨hs, hc⟩).2

theorem path_frozen (hD : Lawful D obs Inv ec) {ts s t} (h : Path D s ts t) (hs : Inv s)
    (hc : D.isClosed s = true) : obs t = obs s :=
  (h.preserves (fun t => Inv t ∧ D.isClosed t = true ∧ obs t = obs s)
    (fun t c h => ⟨hD.inv t c h.1, hD.mono t c h.1 h.2.1, by
      cases c with
      | note n => exact (hD.frozen t n h.1 h.2.1).trans h.2.2
      | addTeardown x => exact (hD.addObs t x h.1).trans h.2.2⟩) ⟨hs, hc, rfl⟩).2.2

/-- How the law of an operator's subscriber is obtained from that of its destination. `latched st`
are the operator states in which the destination has already been closed by the operator. -/
theorem lift {St J G : Type} {U : Sub (St × S) J G} (hD : Lawful D obs Inv ec) {ec' : Bool}
    (latched own : St → Bool)
    (hpath : ∀ x c, ∃ ts, Path D x.2 ts (U.call x c).2)
    (hclosed : ∀ st s, U.isClosed (st, s) = (own st || D.isClosed s))
    (hown : ∀ st, own st = true → latched st = true)
    (hadd : ∀ st s t, U.addTeardown (st, s) t = (st, D.addTeardown s t))
    (hlatch : ∀ st s n, Inv s → (latched st = true → D.isClosed s = true) →
      latched (U.push (st, s) n).1 = true → D.isClosed (U.push (st, s) n).2 = true)
    (hcomplete : ∀ st s, Inv s → (latched st = true → D.isClosed s = true) →
      D.isClosed (U.complete (st, s)).2 = true)
    (hunsub : ∀ st s, Inv s → (latched st = true → D.isClosed s = true) →
      D.isClosed (U.unsubscribe (st, s)).2 = true)
    (herror : ec' = true → ∀ st s e, Inv s → (latched st = true → D.isClosed s = true) →
      D.isClosed (U.error (st, s) e).2 = true) :
    Lawful U (fun x => obs x.2) (fun x => Inv x.2 ∧ (latched x.1 = true → D.isClosed x.2 = true)) ec' := by
  have key : ∀ x : St × S, (latched x.1 = true → D.isClosed x.2 = true) →
      U.isClosed x = D.isClosed x.2 := by
    rintro ⟨st, s⟩ h
    rw [hclosed]
    cases ho : own st with
    | false => rfl
    | true => simp [h (hown st ho)]
  have hinv : ∀ (x : St × S) (c : Call J G), Inv x.2 ∧ (latched x.1 = true → D.isClosed x.2 = true) →
      Inv (U.call x c).2 ∧ (latched (U.call x c).1 = true → D.isClosed (U.call x c).2 = true) := by
    rintro ⟨st, s⟩ c ⟨h1, h2⟩
    obtain ⟨ts, hp⟩ := hpath (st, s) c
    refine ⟨hD.path_inv hp h1, ?_⟩
    cases c with
    | note n => exact hlatch st s n h1 h2
    | addTeardown t =>
      simp only [Sub.call, hadd]
      intro hl
      rw [hD.addClosed _ _ h1]; exact h2 hl
  constructor
  · exact hinv
  · intro x c hx hc
    rw [key _ hx.2] at hc
    rw [key _ (hinv x c hx).2]
    obtain ⟨ts, hp⟩ := hpath x c
    exact hD.path_mono hp hx.1 hc
  · intro x n hx hc
    rw [key _ hx.2] at hc
    obtain ⟨ts, hp⟩ := hpath x (.note n)
    exact hD.path_frozen hp hx.1 hc
  · rintro ⟨st, s⟩ t hx
    simp only [hadd]
    exact hD.addObs _ _ hx.1
  · rintro ⟨st, s⟩ t hx
    simp only [hadd, hclosed, hD.addClosed _ _ hx.1]
  · rintro ⟨st, s⟩ hx
    refine (key _ (hinv (st, s) (.note .complete) hx).2).trans ?_
    exact hcomplete st s hx.1 hx.2
  · rintro ⟨st, s⟩ hx
    refine (key _ (hinv (st, s) (.note .unsubscribe) hx).2).trans ?_
    exact hunsub st s hx.1 hx.2
  · rintro he ⟨st, s⟩ e hx
    refine (key _ (hinv (st, s) (.note (.error e)) hx).2).trans ?_
    exact herror he st s e hx.1 hx.2

end Lawful

/-- The bottom of a pipeline obeys the contract. -/
theorem observerSubscriber_lawful (I E : Type) :
    Lawful (observerSubscriber I E) ObsState.seen (fun _ => True) true := by
  constructor
  · intros; trivial
  · intro s c _ h
    simp only [observerSubscriber, SubscriptionData.isClosed] at h
    cases c with
    | note n => cases n <;>
        simp [Sub.call, Sub.push, observerSubscriber, SubscriptionData.isClosed, h,
          ObsState.unsubscribe, SubscriptionData.unsubscribe]
    | addTeardown t => simp [Sub.call, observerSubscriber, SubscriptionData.isClosed, h,
        SubscriptionData.addTeardown]
  · intro s n _ h
    simp only [observerSubscriber, SubscriptionData.isClosed] at h
    cases n <;> simp [Sub.push, observerSubscriber, SubscriptionData.isClosed, h,
      ObsState.unsubscribe, SubscriptionData.unsubscribe, ObsState.seen]
  · intro s t _
    simp [observerSubscriber, ObsState.seen, Function.comp_def, Event.asSeen]
  · rintro ⟨⟨_ | _, fin⟩, log⟩ t _ <;> cases t <;> rfl
  · rintro ⟨⟨_ | _, fin⟩, log⟩ _ <;> rfl
  · rintro ⟨⟨_ | _, fin⟩, log⟩ _ <;> rfl
  · rintro _ ⟨⟨_ | _, fin⟩, log⟩ e _ <;> rfl

end Rx
