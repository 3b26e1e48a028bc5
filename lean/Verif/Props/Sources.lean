import Verif.Model.Sources
import Verif.Props.Pipelines
import Verif.Lemmas.Combine

/-!
# C57: simple sources

A destination is any lawful one (`Lawful`): in particular any chain of operators that ends in an observer
(`Pipeline.lawful`), open or closed, in whatever state. `obs` is what can be observed of it.
-/

namespace Rx.Sources
variable {S O E α : Type} {D : Sub S O E} {obs : S → α} {Inv : S → Prop} {ec : Bool}

/-- The sources whose notifications are fixed. -/
inductive Simple (O E : Type) where
  | just (v : O)
  | empty
  | throw (e : E)
  | never
  | closed

/-- The observable. -/
def Simple.cold : Simple O E → Cold O E
  | .just v => Sources.just v
  | .empty => Sources.empty
  | .throw e => Sources.throw e
  | .never => Sources.never
  | .closed => Sources.closed

/-- What each of them gives to whoever subscribes. -/
def Simple.gives : Simple O E → List (SubscriberNotification O E)
  | .just v => [.next v, .complete]
  | .empty => [.complete]
  | .throw e => [.error e, .unsubscribe]
  | .never => []
  | .closed => [.unsubscribe]

theorem inert_run (hD : Lawful D obs Inv ec) {s : S} (hs : Inv s) :
    (inert.run D s).1 = .inert ∧ D.isClosed (inert.run D s).2 = true ∧
    obs (inert.run D s).2 = obs (D.run s [.unsubscribe]) := by
  unfold inert
  cases hc : D.isClosed s with
  | true => simpa [Prog.run, hc] using (hD.run_closed hs hc [.unsubscribe]).1.symm
  | false =>
    simp only [Prog.run, hc, Bool.not_false, if_true]
    exact ⟨trivial, hD.unsubscribeCloses s hs, rfl⟩

/-- C57. Subscribing one of these sources has the effect of giving the destination its notifications, and nothing else.
Then the subscription is closed if and only if the destination is, which is the case for all of them but `never`. -/
theorem C57_gives (hD : Lawful D obs Inv ec) {s : S} (hs : Inv s) (x : Simple O E) {h : Handle} {t : S}
    (hx : (h, t) = (x.cold.subscribe x.cold.ob).1.run D s) :
    obs t = obs (D.run s x.gives) ∧ D.isClosed t = D.isClosed (D.run s x.gives) ∧ h.isClosed D t = D.isClosed t ∧
    (x ≠ .never → D.isClosed t = true) := by
  have key : ∀ ns : List (SubscriberNotification O E), (h, t) = inert.run D (D.run s ns) →
      obs t = obs (D.run s (ns ++ [.unsubscribe])) ∧ D.isClosed t = D.isClosed (D.run s (ns ++ [.unsubscribe])) ∧
        h.isClosed D t = D.isClosed t ∧ D.isClosed t = true := by
    intro ns hh
    obtain ⟨h1, h2, h3⟩ := inert_run hD (hD.run_inv hs ns)
    rw [← hh] at h1 h2 h3
    simp only at h1 h2 h3
    subst h1
    rw [Sub.run_append]
    exact ⟨h3, by rw [h2]; exact (hD.unsubscribeCloses _ (hD.run_inv hs ns)).symm, h2.symm, h2⟩
  have done : ∀ ns : List (SubscriberNotification O E), D.isClosed (D.run s ns) = true →
      obs (D.run s (ns ++ [.unsubscribe])) = obs (D.run s ns) := by
    intro ns hc
    rw [Sub.run_append]
    exact (hD.run_closed (hD.run_inv hs ns) hc _).1
  cases x with
  | just v =>
    have hc : D.isClosed (D.run s [.next v, .complete]) = true := hD.completeCloses _ (hD.run_inv hs [.next v])
    obtain ⟨h1, h2, h3, h4⟩ := key [.next v, .complete] hx
    exact ⟨h1.trans (done _ hc), by rw [h4]; exact hc.symm, h3, fun _ => h4⟩
  | empty =>
    have hc : D.isClosed (D.run s [.complete]) = true := hD.completeCloses _ hs
    obtain ⟨h1, h2, h3, h4⟩ := key [.complete] hx
    exact ⟨h1.trans (done _ hc), by rw [h4]; exact hc.symm, h3, fun _ => h4⟩
  | throw e =>
    obtain ⟨h1, h2, h3, h4⟩ := key [.error e] hx
    exact ⟨h1, h2, h3, fun _ => h4⟩
  | never => cases hx; exact ⟨rfl, rfl, rfl, fun h => absurd rfl h⟩
  | closed =>
    obtain ⟨h1, h2, h3, h4⟩ := key [] hx
    exact ⟨h1, h2, h3, fun _ => h4⟩

/-- C57. `throw` gives just the error to a destination that closes on errors (all but those with `into_result`, which makes
a value of it). -/
theorem C57_throw_error (hD : Lawful D obs Inv true) {s : S} (hs : Inv s) (e : E) :
    obs ((((throw e).subscribe e).1.run D s)).2 = obs (D.run s [.error e]) := by
  refine (C57_gives hD hs (.throw e) rfl).1.trans ?_
  exact (hD.run_closed (hD.run_inv hs [.error e]) (hD.errorCloses rfl s e hs) [.unsubscribe]).1

/-- C57. A destination that is already closed observes nothing of any of them. -/
theorem C57_already_closed (hD : Lawful D obs Inv ec) {s : S} (hs : Inv s) (hc : D.isClosed s = true) (x : Simple O E) :
    obs ((x.cold.subscribe x.cold.ob).1.run D s).2 = obs s := by
  refine (C57_gives hD hs x rfl).1.trans ?_
  exact (hD.run_closed hs hc _).1

/-- C57. A teardown that is added to the subscription of a source that has ended is run at once; one that is added to
that of `never` while the destination is open is handed to the destination. -/
theorem C57_teardown (hD : Lawful D obs Inv ec) {s : S} (hs : Inv s) (x : Simple O E) (td : Teardown) {h : Handle} {t : S}
    (hx : (h, t) = (x.cold.subscribe x.cold.ob).1.run D s) :
    (x ≠ .never → h.addTeardown D t td = (t, td.toList)) ∧
    (x = .never → h.addTeardown D t td = (D.addTeardown s td, [])) := by
  have hi : ∀ ns : List (SubscriberNotification O E), (h, t) = inert.run D (D.run s ns) → h = .inert := by
    intro ns hh
    have := (inert_run hD (hD.run_inv hs ns)).1
    rwa [← hh] at this
  cases x with
  | just v => rw [hi [.next v, .complete] hx]; exact ⟨fun _ => rfl, fun h => by cases h⟩
  | empty => rw [hi [.complete] hx]; exact ⟨fun _ => rfl, fun h => by cases h⟩
  | throw e => rw [hi [.error e] hx]; exact ⟨fun _ => rfl, fun h => by cases h⟩
  | never => cases hx; exact ⟨fun h => absurd rfl h, fun _ => rfl⟩
  | closed => rw [hi [] hx]; exact ⟨fun _ => rfl, fun h => by cases h⟩

/-- C57. Unsubscribing the subscription of a source that has ended does nothing; unsubscribing that of `never` unsubscribes the
destination. -/
theorem C57_unsubscribe (hD : Lawful D obs Inv ec) {s : S} (hs : Inv s) (x : Simple O E) {h : Handle} {t : S}
    (hx : (h, t) = (x.cold.subscribe x.cold.ob).1.run D s) :
    (x ≠ .never → h.unsubscribe D t = t) ∧ (x = .never → h.unsubscribe D t = D.call s (.note .unsubscribe)) := by
  have hi : ∀ ns : List (SubscriberNotification O E), (h, t) = inert.run D (D.run s ns) → h = .inert := by
    intro ns hh
    have := (inert_run hD (hD.run_inv hs ns)).1
    rwa [← hh] at this
  cases x with
  | just v => rw [hi [.next v, .complete] hx]; exact ⟨fun _ => rfl, fun h => by cases h⟩
  | empty => rw [hi [.complete] hx]; exact ⟨fun _ => rfl, fun h => by cases h⟩
  | throw e => rw [hi [.error e] hx]; exact ⟨fun _ => rfl, fun h => by cases h⟩
  | never => cases hx; exact ⟨fun h => absurd rfl h, fun _ => rfl⟩
  | closed => rw [hi [] hx]; exact ⟨fun _ => rfl, fun h => by cases h⟩

theorem prog_bind_run {β γ : Type} (p : Prog O E β) (k : β → Prog O E γ) (s : S) :
    (p.bind k).run D s = (k (p.run D s).1).run D (p.run D s).2 := by
  induction p generalizing s with
  | ret a => rfl
  | call c p ih => exact ih _
  | query p ih => exact ih _ _

/-- The notifications a program gives to `D` in state `s`, in order. -/
def notes (D : Sub S O E) : Prog O E Unit → S → List (Call O E)
  | .ret _, _ => []
  | .call c p, s => c :: notes D p (D.call s c)
  | .query p, s => notes D (p (D.isClosed s)) s

/-- C57. `create` runs its producer once, with the destination, and does nothing else with it; the subscription is closed if
and only if the destination is, and unsubscribing it unsubscribes the destination. -/
theorem C57_create (producer : Prog O E Unit) (s : S) {h : Handle} {t : S}
    (hx : (h, t) = ((create producer).subscribe (create producer).ob).1.run D s) :
    t = D.calls s (notes D producer s) ∧ h.isClosed D t = D.isClosed t ∧
      h.unsubscribe D t = D.call t (.note .unsubscribe) := by
  have : ((create producer).subscribe (create producer).ob).1.run D s = (.live, (producer.run D s).2) := by
    show (producer.bind _).run D s = _
    rw [prog_bind_run]; rfl
  rw [this] at hx
  cases hx
  refine ⟨?_, rfl, rfl⟩
  induction producer generalizing s with
  | ret a => rfl
  | call c p ih => exact ih _ (by show (p.bind _).run D _ = _; rw [prog_bind_run]; rfl)
  | query p ih => exact ih _ _ (by show ((p _).bind _).run D _ = _; rw [prog_bind_run]; rfl)

/-- Sources that are cold: subscribing does not change them. -/
inductive IsCold : Cold O E → Prop where
  | simple (x : Simple O E) : IsCold x.cold
  | create (p : Prog O E Unit) : IsCold (create p)

/-- C57. However often such a source is subscribed, and whatever the destinations before did, each destination gets what it
would if it were the first. -/
theorem C57_independent {c : Cold O E} (hc : IsCold c) (ss : List S) :
    c.subscribeAll D c.ob ss = ss.map fun s => (c.subscribe c.ob).1.run D s := by
  have hob : (c.subscribe c.ob).2 = c.ob := by
    cases hc with
    | simple x => cases x <;> rfl
    | create p => rfl
  induction ss with
  | nil => rfl
  | cons s ss ih => simp only [Cold.subscribeAll, hob, ih, List.map_cons]

/-- The sources the closure of `deferred` makes, call after call. -/
def made {F : Type} (creator : F → Cold O E × F) (f : F) : Nat → List (Cold O E)
  | 0 => []
  | n + 1 => (creator f).1 :: made creator (creator f).2 n

/-- C57. Subscribing `deferred` subscribes what its closure makes: it is called once for each subscription, and the
destination gets what it would if it were subscribed to the source that was made. -/
theorem C57_deferred {F : Type} (creator : F → Cold O E × F) (f : F) (ss : List S) :
    (deferred creator f).subscribeAll D f ss =
      List.zipWith (fun c s => (c.subscribe c.ob).1.run D s) (made creator f ss.length) ss := by
  suffices h : ∀ f', (deferred creator f).subscribeAll D f' ss =
      List.zipWith (fun c s => (c.subscribe c.ob).1.run D s) (made creator f' ss.length) ss from h f
  induction ss with
  | nil => intro f'; rfl
  | cons s ss ih => intro f'; exact congrArg (_ :: ·) (ih (creator f').2)

/-- C57. What the observer at the end of any chain of operators sees is what it sees if the chain is given these
notifications, one call after the other. -/
theorem C57_pipeline {P F : Type} (p : Pipeline O E P F) (hp : p.req true = true) (x : Simple O E) :
    (runToEnd p (x.cold.subscribe x.cold.ob).1).seen = (runToEnd p (callsProg (x.gives.map .note))).seen := by
  have hl := p.lawful (observerSubscriber P F) ObsState.seen (fun _ => True) true (observerSubscriber_lawful P F) hp
  have hi := p.init_inv (observerSubscriber P F) ObsState.seen (fun _ => True) true (observerSubscriber_lawful P F) hp
    ObsState.new trivial
  have h1 := (C57_gives hl hi x rfl).1
  unfold runToEnd Pipeline.subscribe
  rw [callsProg_run, show ∀ s, (p.sub (observerSubscriber P F)).calls s (x.gives.map .note) =
    (p.sub (observerSubscriber P F)).run s x.gives from fun s => by simp [Sub.calls, Sub.run, List.foldl_map, Sub.call]]
  exact h1

/-! ### Concrete cases -/

/-- What a plain observer sees. -/
example (v : O) : (runToEnd (E := E) (F := E) .nil ((just v).subscribe v).1).seen = [.next v, .complete] := rfl
example : (runToEnd (O := O) (F := E) .nil (empty.subscribe ()).1).seen = [.complete] := rfl
example (e : E) : (runToEnd (O := O) .nil ((throw e).subscribe e).1).seen = [.error e] := rfl
example : (runToEnd (O := O) (F := E) .nil (never.subscribe ()).1) = .new := rfl
example : (runToEnd (O := O) (F := E) .nil (closed.subscribe ()).1) = ⟨⟨true, []⟩, []⟩ := rfl

/-- The same source, subscribed twice; the first destination is already closed. -/
example : ((just (E := Nat) 7).subscribeAll (observerSubscriber Nat Nat) 7
    [(observerSubscriber Nat Nat).unsubscribe .new, .new]).map (fun x => x.2.seen) = [[], [.next 7, .complete]] := rfl

/-- A producer that looks whether it may go on, but then goes on too long. -/
example : let p : Prog Nat Nat Unit := .call (.note (.next 1)) (.query fun c => if c then .ret () else
    .call (.note (.error 3)) (.call (.note (.next 2)) (.ret ())))
    (runToEnd (E := Nat) .nil ((create p).subscribe (create p).ob).1).seen = [.next 1, .error 3] := rfl

/-- A closure that makes another source each time. -/
example : ((deferred (E := Nat) (fun n => (just n, n + 1)) 5).subscribeAll (observerSubscriber Nat Nat) (5 : Nat)
    [.new, .new]).map (fun x => x.2.seen) = [[.next 5, .complete], [.next 6, .complete]] := rfl

end Rx.Sources
