import Verif.Lemmas.BevyHistory
import Verif.Spec.BevyCommands

/-!
# Satellites of entities with observables
-/

namespace Rx.Bevy.World

variable {c : Cfg} {todo : List Command} {q : List Nat} {w w' : World}

/-- Each observable has its satellite. -/
structure Tidy (w : World) : Prop where
  owner : ∀ s y e o, w.ent s = some y → y.watches = some (e, o) →
    ∃ x, w.ent e = some x ∧ o ∈ x.observables ∧ x.ref o = some s
  satellite : ∀ e x o, w.ent e = some x → o ∈ x.observables → ∃ s y, w.ent s = some y ∧ y.watches = some (e, o)
  bare : ∀ e x, w.ent e = some x → x.watches.isSome = true → x.observables = []

theorem Tidy.start : Tidy {} := ⟨fun _ _ _ _ h => (nomatch h), fun _ _ _ h => (nomatch h), fun _ _ h => (nomatch h)⟩

/-- What satellites are about. -/
def shape (x : Option Entity) : Option (List Nat × (Nat → Option Nat) × Option (Nat × Nat)) :=
  x.map fun x => (x.observables, x.ref, x.watches)

theorem shape_some {x : Option Entity} {y : Entity} {x' : Option Entity} (h : shape x' = shape x) (hy : x' = some y) :
    ∃ z, x = some z ∧ y.observables = z.observables ∧ y.ref = z.ref ∧ y.watches = z.watches := by
  subst hy
  cases x with
  | none => cases h
  | some z =>
    simp only [shape, Option.map_some, Option.some.injEq, Prod.mk.injEq] at h
    exact ⟨z, rfl, h.1, h.2.1, h.2.2⟩

theorem Tidy.shape (h : Tidy w) (hs : ∀ e, World.shape (w'.ent e) = World.shape (w.ent e)) : Tidy w' := by
  refine ⟨fun s y e o hy hw => ?_, fun e x o hx ho => ?_, fun e x hx hw => ?_⟩
  · obtain ⟨z, hz, h1, h2, h3⟩ := shape_some (hs s) hy
    rw [h3] at hw
    obtain ⟨x, hx, h4, h5⟩ := h.owner s z e o hz hw
    obtain ⟨x', hx', h6, h7, h8⟩ := shape_some (hs e).symm hx
    exact ⟨x', hx', by rw [← h6]; exact h4, by rw [← h7]; exact h5⟩
  · obtain ⟨z, hz, h1, h2, h3⟩ := shape_some (hs e) hx
    rw [h1] at ho
    obtain ⟨s, y, hy, h4⟩ := h.satellite e z o hz ho
    obtain ⟨x', hx', h6, h7, h8⟩ := shape_some (hs s).symm hy
    exact ⟨s, x', hx', by rw [← h8]; exact h4⟩
  · obtain ⟨z, hz, h1, h2, h3⟩ := shape_some (hs e) hx
    rw [h1]; rw [h3] at hw; exact h.bare e z hz hw

/-- The entities that are left when some are despawned. -/
structure Cut (l : List Nat) (w w' : World) : Prop where
  old : ∀ d x', w'.ent d = some x' → d ∉ l ∧ ∃ x, w.ent d = some x ∧ x'.observables = x.observables ∧
    x'.watches = x.watches ∧ ∀ o s, s ∉ l → x.ref o = some s → x'.ref o = some s
  left : ∀ d x, w.ent d = some x → d ∉ l → ∃ x', w'.ent d = some x'

theorem despawnSatellites_cut (l : List Nat) (w : World) : Cut l w (l.foldl (fun w s => w.despawnSatellite s) w) := by
  induction l generalizing w with
  | nil => exact ⟨fun d x' h => ⟨by simp, x', h, rfl, rfl, fun _ _ _ h => h⟩, fun d x h _ => ⟨x, h⟩⟩
  | cons e l ih =>
    have a := ih (w.despawnSatellite e)
    refine ⟨fun d x' h => ?_, fun d x h hd => ?_⟩
    · obtain ⟨h1, x1, hx1, h2, h3, h4⟩ := a.old d x' h
      obtain ⟨h5, x, hx, h6⟩ := despawnSatellite_old hx1
      refine ⟨by simp [h1, h5], x, hx, ?_, ?_, fun o s hs ho => h4 o s (fun h => hs (by simp [h])) ?_⟩
      · rw [h2]; rcases h6 with rfl | rfl <;> rfl
      · rw [h3]; rcases h6 with rfl | rfl <;> rfl
      · rcases h6 with rfl | rfl
        · exact ho
        · unfold Entity.forget
          dsimp only
          rw [if_neg (fun h => hs (by rw [ho] at h; cases h; simp))]
          exact ho
    · have h1 : ∃ x1, (w.despawnSatellite e).ent d = some x1 := by
        rw [despawnSatellite_ent, if_neg (fun h => hd (by simp [h])), h]
        split
        · exact ⟨_, rfl⟩
        · exact ⟨_, rfl⟩
      obtain ⟨x1, hx1⟩ := h1
      exact a.left d x1 hx1 fun h => hd (by simp [h])

theorem removeSubscription_shape (e d : Nat) (w : World) :
    World.shape ((w.removeSubscription e).ent d) = World.shape (w.ent d) := by
  unfold World.removeSubscription
  split
  · rename_i x hx
    split
    · rw [close_ent]
      dsimp only
      by_cases hd : d = e
      · subst hd; rw [set_same, hx]; rfl
      · rw [set_other _ _ hd]
    · rfl
  · rfl

theorem despawn_cut (e : Nat) (w : World) :
    Cut ((w.removeSubscription e).satellites e ++ [e]) (w.removeSubscription e) (w.despawn e) := by
  have := despawnSatellites_cut ((w.removeSubscription e).satellites e ++ [e]) (w.removeSubscription e)
  rw [List.foldl_append] at this
  exact this

theorem Plain.lt (hp : w.Plain) {e : Nat} {x : Entity} (h : w.ent e = some x) : e < w.next :=
  Nat.lt_of_not_le fun h' => by rw [hp.1 e h'] at h; cases h

theorem Tidy.despawn (h : Tidy w) (hp : w.Plain) (e : Nat) (he : ∀ x, w.ent e = some x → x.watches = none) :
    Tidy (w.despawn e) := by
  have h1 : Tidy (w.removeSubscription e) := h.shape fun d => removeSubscription_shape e d w
  have hp1 := (removeSubscription_lose (e := e) hp).plain hp
  have a := despawn_cut e w
  have he1 : ∀ x, (w.removeSubscription e).ent e = some x → x.watches = none := by
    intro x hx
    obtain ⟨z, hz, _, _, h3⟩ := shape_some (removeSubscription_shape e e w) hx
    rw [h3]; exact he z hz
  generalize w.removeSubscription e = w1 at h1 hp1 a he1
  have hmem : ∀ d, d ∈ w1.satellites e ++ [e] ↔ d = e ∨ ∃ x o, w1.ent d = some x ∧ x.watches = some (e, o) := by
    intro d
    rw [List.mem_append, List.mem_singleton, mem_satellites]
    constructor
    · rintro (⟨_, h⟩ | h)
      · exact .inr h
      · exact .inl h
    · rintro (h | ⟨x, o, h, h'⟩)
      · exact .inr h
      · exact .inl ⟨hp1.lt h, x, o, h, h'⟩
  refine ⟨fun s y d o hy hw => ?_, fun d x o hx ho => ?_, fun d x hx hw => ?_⟩
  · obtain ⟨hs, y1, hy1, _, h2, _⟩ := a.old s y hy
    rw [h2] at hw
    obtain ⟨x, hx, ho, hr⟩ := h1.owner s y1 d o hy1 hw
    have hd : d ∉ w1.satellites e ++ [e] := by
      rw [hmem]
      rintro (hd | ⟨x', o', hx', hw'⟩)
      · exact hs ((hmem s).2 (.inr ⟨y1, o, hy1, by rw [hw, hd]⟩))
      · rw [hx] at hx'; cases hx'
        rw [h1.bare d x hx (by simp [hw'])] at ho; cases ho
    obtain ⟨x', hx'⟩ := a.left d x hx hd
    obtain ⟨_, x2, hx2, h3, _, h5⟩ := a.old d x' hx'
    rw [hx] at hx2; cases hx2
    exact ⟨x', hx', by rw [h3]; exact ho, h5 o s hs hr⟩
  · obtain ⟨hd, x1, hx1, h2, _⟩ := a.old d x hx
    rw [h2] at ho
    obtain ⟨s, y, hy, hw⟩ := h1.satellite d x1 o hx1 ho
    have hs : s ∉ w1.satellites e ++ [e] := by
      rw [hmem]
      rintro (hs | ⟨x', o', hx', hw'⟩)
      · subst hs; rw [he1 y hy] at hw; cases hw
      · rw [hy] at hx'; cases hx'
        rw [hw] at hw'; cases hw'
        exact hd ((hmem _).2 (.inl rfl))
    obtain ⟨y', hy'⟩ := a.left s y hy hs
    obtain ⟨_, y2, hy2, _, h4, _⟩ := a.old s y' hy'
    rw [hy] at hy2; cases hy2
    exact ⟨s, y', hy', by rw [h4]; exact hw⟩
  · obtain ⟨_, x1, hx1, h2, h3, _⟩ := a.old d x hx
    rw [h2]; rw [h3] at hw; exact h1.bare d x1 hx1 hw

theorem Tidy.fresh (h : Tidy w) (hp : w.Plain) {x : Entity} (hx : x.observables = []) (hw : x.watches = none)
    (he : w'.ent = set w.ent w.next (some x)) : Tidy w' := by
  have hcase : ∀ d y, w'.ent d = some y → (d = w.next ∧ y = x) ∨ (d ≠ w.next ∧ w.ent d = some y) := by
    intro d y hy
    rw [he] at hy
    by_cases hd : d = w.next
    · subst hd; rw [set_same] at hy; cases hy; exact .inl ⟨rfl, rfl⟩
    · rw [set_other _ _ hd] at hy; exact .inr ⟨hd, hy⟩
  have hkeep : ∀ d y, w.ent d = some y → w'.ent d = some y := by
    intro d y hy
    have := hp.lt hy
    rw [he, set_other _ _ (by omega)]; exact hy
  refine ⟨fun s y e o hy hw' => ?_, fun e y o hy ho => ?_, fun e y hy hw' => ?_⟩
  · rcases hcase s y hy with ⟨_, rfl⟩ | ⟨_, hy⟩
    · rw [hw] at hw'; cases hw'
    · obtain ⟨z, hz, h1⟩ := h.owner s y e o hy hw'
      exact ⟨z, hkeep _ _ hz, h1⟩
  · rcases hcase e y hy with ⟨_, rfl⟩ | ⟨_, hy⟩
    · rw [hx] at ho; cases ho
    · obtain ⟨s, z, hz, h1⟩ := h.satellite e y o hy ho
      exact ⟨s, z, hkeep _ _ hz, h1⟩
  · rcases hcase e y hy with ⟨_, rfl⟩ | ⟨_, hy⟩
    · exact hx
    · exact h.bare e y hy hw'

theorem Tidy.insertObservable (h : Tidy w) (hp : w.Plain) (e o : Nat) (hn : ∀ x, w.ent e = some x → o ∉ x.observables) :
    Tidy (w.insertObservable e o) := by
  unfold World.insertObservable
  split
  · rename_i x hx
    split
    · exact h
    · rename_i hw
      have hlt := hp.lt hx
      have hno := hn x hx
      rw [if_neg hno]
      generalize hx' : ({ x with observables := x.observables ++ [o], ref := set x.ref o (some w.next) } : Entity) = x'
      have hobs : x'.observables = x.observables ++ [o] := by rw [← hx']
      have href : x'.ref = set x.ref o (some w.next) := by rw [← hx']
      have hwat : x'.watches = x.watches := by rw [← hx']
      generalize hw' : ({ w with
        ent := set (set w.ent e (some x')) w.next (some { watches := some (e, o) })
        next := w.next + 1 } : World) = w'
      have hent : w'.ent = set (set w.ent e (some x')) w.next (some { watches := some (e, o) }) := by rw [← hw']
      have hcase : ∀ d y, w'.ent d = some y → (d = w.next ∧ y = { watches := some (e, o) }) ∨ (d = e ∧ y = x') ∨
          (d ≠ e ∧ d ≠ w.next ∧ w.ent d = some y) := by
        intro d y hy
        rw [hent] at hy
        by_cases hd : d = w.next
        · subst hd; rw [set_same] at hy; cases hy; exact .inl ⟨rfl, rfl⟩
        · rw [set_other _ _ hd] at hy
          by_cases hd' : d = e
          · subst hd'; rw [set_same] at hy; cases hy; exact .inr (.inl ⟨rfl, rfl⟩)
          · rw [set_other _ _ hd'] at hy; exact .inr (.inr ⟨hd', hd, hy⟩)
      have hE : w'.ent e = some x' := by rw [hent, set_other _ _ (by omega), set_same]
      have hN : w'.ent w.next = some { watches := some (e, o) } := by rw [hent, set_same]
      have hO : ∀ d y, d ≠ e → w.ent d = some y → w'.ent d = some y := by
        intro d y hd hy
        have := hp.lt hy
        rw [hent, set_other _ _ (by omega), set_other _ _ hd]; exact hy
      have hfree : ∀ s y, w.ent s = some y → y.watches ≠ some (e, o) := by
        intro s y hy hc
        obtain ⟨z, hz, h1, _⟩ := h.owner s y e o hy hc
        rw [hx] at hz; cases hz
        exact hno h1
      refine ⟨fun s y d p hy hw => ?_, fun d y p hy ho => ?_, fun d y hy hws => ?_⟩
      · have old : ∀ y, w.ent s = some y → y.watches = some (d, p) → ∃ x, w'.ent d = some x ∧ p ∈ x.observables ∧ x.ref p = some s := by
          intro y hy hw
          obtain ⟨z, hz, h1, h2⟩ := h.owner s y d p hy hw
          by_cases hd : d = e
          · subst hd
            rw [hx] at hz; cases hz
            have hpo : p ≠ o := fun he => hfree s y hy (by rw [hw, he])
            exact ⟨x', hE, by rw [hobs]; simp [h1], by rw [href, set_other _ _ hpo]; exact h2⟩
          · exact ⟨z, hO d z hd hz, h1, h2⟩
        rcases hcase s y hy with ⟨rfl, rfl⟩ | ⟨rfl, rfl⟩ | ⟨_, _, hy⟩
        · simp only [Option.some.injEq, Prod.mk.injEq] at hw
          obtain ⟨rfl, rfl⟩ := hw
          exact ⟨x', hE, by rw [hobs]; simp, by rw [href, set_same]⟩
        · rw [hwat] at hw; exact old x hx hw
        · exact old y hy hw
      · have old : ∀ y, w.ent d = some y → p ∈ y.observables → ∃ s y, w'.ent s = some y ∧ y.watches = some (d, p) := by
          intro y hy ho
          obtain ⟨s, z, hz, h1⟩ := h.satellite d y p hy ho
          by_cases hs : s = e
          · subst hs
            rw [hx] at hz; cases hz
            exact ⟨s, x', hE, by rw [hwat]; exact h1⟩
          · exact ⟨s, z, hO s z hs hz, h1⟩
        rcases hcase d y hy with ⟨rfl, rfl⟩ | ⟨rfl, rfl⟩ | ⟨_, _, hy⟩
        · cases ho
        · rw [hobs, List.mem_append, List.mem_singleton] at ho
          rcases ho with ho | rfl
          · exact old x hx ho
          · exact ⟨_, _, hN, rfl⟩
        · exact old y hy ho
      · rcases hcase d y hy with ⟨rfl, rfl⟩ | ⟨rfl, rfl⟩ | ⟨_, _, hy⟩
        · rfl
        · rw [hwat] at hws; exact absurd hws hw
        · exact h.bare d y hy hws
  · exact h

theorem Tidy.removeObservable (h : Tidy w) (e o : Nat) : Tidy (w.removeObservable e o) := by
  unfold World.removeObservable
  split
  · rename_i x hx
    split
    · rename_i ho
      obtain ⟨s, y, hy, hw⟩ := h.satellite e x o hx ho
      have hr : x.ref o = some s := by
        obtain ⟨z, hz, _, h2⟩ := h.owner s y e o hy hw
        rw [hx] at hz; cases hz; exact h2
      have hxw : x.watches = none := by
        cases hc : x.watches with
        | none => rfl
        | some _ => rw [h.bare e x hx (by simp [hc])] at ho; cases ho
      have hse : s ≠ e := fun hse => by subst hse; rw [hx] at hy; cases hy; rw [hxw] at hw; cases hw
      dsimp only
      rw [hr]
      dsimp only
      generalize hx' : ({ x with observables := x.observables.filter (· != o) } : Entity) = x'
      have hobs : ∀ p, p ∈ x'.observables ↔ p ∈ x.observables ∧ p ≠ o := by intro p; rw [← hx']; simp
      have href : x'.ref = x.ref := by rw [← hx']
      have hwat : x'.watches = x.watches := by rw [← hx']
      generalize hw1 : ({ w with ent := set w.ent e (some x') } : World) = w1
      have hent : w1.ent = set w.ent e (some x') := by rw [← hw1]
      have hE : w1.ent e = some x' := by rw [hent, set_same]
      have hO : ∀ d, d ≠ e → w1.ent d = w.ent d := fun d hd => by rw [hent, set_other _ _ hd]
      have a := despawnSatellites_cut [s] w1
      simp only [List.foldl_cons, List.foldl_nil] at a
      have hold : ∀ d z, w1.ent d = some z → ∃ z0, w.ent d = some z0 ∧ z.watches = z0.watches := by
        intro d z hz
        by_cases hd : d = e
        · subst hd; rw [hE] at hz; cases hz; exact ⟨x, hx, hwat⟩
        · rw [hO d hd] at hz; exact ⟨z, hz, rfl⟩
      have huniq : ∀ t z, w.ent t = some z → z.watches = some (e, o) → t = s := by
        intro t z hz hwz
        obtain ⟨z', hz', _, h2⟩ := h.owner t z e o hz hwz
        rw [hx] at hz'; cases hz'
        rw [hr] at h2; cases h2; rfl
      refine ⟨fun t z d p hz hwz => ?_, fun d z p hz hp' => ?_, fun d z hz hwz => ?_⟩
      · obtain ⟨ht, z1, hz1, _, h2, _⟩ := a.old t z hz
        rw [h2] at hwz
        obtain ⟨z0, hz0, h3⟩ := hold t z1 hz1
        rw [h3] at hwz
        obtain ⟨b, hb, h4, h5⟩ := h.owner t z0 d p hz0 hwz
        have hds : d ≠ s := fun hds => by
          subst hds
          rw [hy] at hb; cases hb
          rw [h.bare d y hy (by simp [hw])] at h4; cases h4
        have hb1 : ∃ b1, w1.ent d = some b1 ∧ p ∈ b1.observables ∧ b1.ref p = some t := by
          by_cases hd : d = e
          · subst hd
            rw [hx] at hb; cases hb
            refine ⟨x', hE, (hobs p).2 ⟨h4, fun hpo => ?_⟩, by rw [href]; exact h5⟩
            subst hpo
            exact ht (by simp [huniq t z0 hz0 hwz])
          · exact ⟨b, by rw [hO d hd]; exact hb, h4, h5⟩
        obtain ⟨b1, hb1, h6, h7⟩ := hb1
        obtain ⟨b2, hb2⟩ := a.left d b1 hb1 (by simp [hds])
        obtain ⟨_, b3, hb3, h8, _, h9⟩ := a.old d b2 hb2
        rw [hb1] at hb3; cases hb3
        exact ⟨b2, hb2, by rw [h8]; exact h6, h9 p t ht h7⟩
      · obtain ⟨hd, z1, hz1, h1, _, _⟩ := a.old d z hz
        rw [h1] at hp'
        have hz0 : ∃ z0, w.ent d = some z0 ∧ p ∈ z0.observables ∧ (d = e → p ≠ o) := by
          by_cases hde : d = e
          · subst hde
            rw [hE] at hz1; cases hz1
            exact ⟨x, hx, ((hobs p).1 hp').1, fun _ => ((hobs p).1 hp').2⟩
          · rw [hO d hde] at hz1; exact ⟨z1, hz1, hp', fun h => absurd h hde⟩
        obtain ⟨z0, hz0, h2, h3⟩ := hz0
        obtain ⟨t, b, hb, hwb⟩ := h.satellite d z0 p hz0 h2
        have hts : t ≠ s := fun hts => by
          subst hts
          rw [hy] at hb; cases hb
          rw [hw] at hwb; cases hwb
          exact h3 rfl rfl
        have hb1 : ∃ b1, w1.ent t = some b1 ∧ b1.watches = some (d, p) := by
          by_cases hte : t = e
          · subst hte; rw [hx] at hb; cases hb; exact ⟨x', hE, by rw [hwat]; exact hwb⟩
          · exact ⟨b, by rw [hO t hte]; exact hb, hwb⟩
        obtain ⟨b1, hb1, h4⟩ := hb1
        obtain ⟨b2, hb2⟩ := a.left t b1 hb1 (by simp [hts])
        obtain ⟨_, b3, hb3, _, h5, _⟩ := a.old t b2 hb2
        rw [hb1] at hb3; cases hb3
        exact ⟨t, b2, hb2, by rw [h5]; exact h4⟩
      · obtain ⟨_, z1, hz1, h1, h2, _⟩ := a.old d z hz
        rw [h1]; rw [h2] at hwz
        by_cases hde : d = e
        · subst hde
          rw [hE] at hz1; cases hz1
          rw [hwat, hxw] at hwz; cases hwz
        · rw [hO d hde] at hz1; exact h.bare d z1 hz1 hwz
    · exact h
  · exact h

theorem Tidy.close (h : Tidy w) (k : Nat) : Tidy (w.close k) := h.shape fun e => by rw [close_ent]

theorem Inv.body_cmd {cmd : Command} (h : Inv c (cmd :: todo) q w) (x : Entity) (hx : w.ent cmd.reserved = some x) :
    x.watches = none := by
  obtain ⟨⟨c0, hc0, hcmd⟩, _⟩ := h.pend cmd (by simp)
  have hr : c0.reserved = cmd.reserved := by rw [hcmd]
  exact h.body _ c0 x hc0 (by rw [hr]; exact hx)

theorem Tidy.attach {cmd : Command} (h : Tidy w) (hp : w.Plain) (hb : ∀ x, w.ent cmd.reserved = some x → x.watches = none) :
    Tidy (w.attach c cmd) := by
  unfold World.attach
  split
  · refine (h.close _).despawn ((close_keeps _ _).plain hp) _ fun x hx => ?_
    rw [close_ent] at hx
    exact hb x hx
  · dsimp only
    split
    · rename_i x hx
      refine h.shape fun e => ?_
      dsimp only at hx ⊢
      by_cases he : e = cmd.reserved
      · subst he; rw [set_same, hx]; rfl
      · rw [set_other _ _ he]
    · exact Tidy.close (w := { w with
        teardown := set w.teardown cmd.k (some cmd.reserved), faults := w.faults ++ [cmd.k] })
        (h.shape fun e => rfl) _

theorem Tidy.apply {cmd : Command} (h : Tidy w) (hi : Inv c (cmd :: todo) q w) : Tidy (w.apply c cmd) := by
  have h1 : Tidy { w with attempts := set w.attempts cmd.k (w.attempts cmd.k + 1) } := h.shape fun _ => rfl
  rw [apply_observers]
  split
  · unfold World.trigger
    split
    · exact h1.close _
    · have give : Tidy (if c.drops cmd.k then
          ({ w with attempts := set w.attempts cmd.k (w.attempts cmd.k + 1) } : World).close cmd.k else
          { w with attempts := set w.attempts cmd.k (w.attempts cmd.k + 1) }) := by
        split
        · exact h1.close _
        · exact h1
      split
      · split
        · refine Tidy.attach (w := { w with
            attempts := set w.attempts cmd.k (w.attempts cmd.k + 1)
            made := set w.made cmd.k (w.made cmd.k ++ [(cmd.target, _)]) }) (h.shape fun _ => rfl) hi.plain hi.body_cmd
        · exact give
      · exact give
  · split
    · exact h.shape fun _ => rfl
    · exact h1.close _

theorem Tidy.applyAll (l : List Command) (h : Tidy w) (hi : Inv c l w.despawns w) :
    Tidy (l.foldl (fun w cmd => w.apply c cmd) w) := by
  induction l generalizing w with
  | nil => exact h
  | cons cmd l ih => exact ih (h.apply hi) hi.apply

theorem Tidy.issue (h : Tidy w) (hp : w.Plain) (t y : Nat) : Tidy (w.issue t y) :=
  h.fresh hp (x := { unfinished := true }) rfl rfl rfl

theorem Tidy.despawnAll (l : List Nat) (h : Tidy w) (hp : w.Plain)
    (hl : ∀ e ∈ l, e < w.next ∧ ∀ x, w.ent e = some x → x.watches = none) : Tidy (l.foldl (fun w e => w.despawn e) w) := by
  induction l generalizing w with
  | nil => exact h
  | cons e l ih =>
    have a := despawn_lose (e := e) hp
    refine ih (h.despawn hp e (hl e (by simp)).2) (a.plain hp) fun d hd => ⟨?_, fun x hx => ?_⟩
    · rw [a.next_eq]; exact (hl d (by simp [hd])).1
    · obtain ⟨y, hy, hw⟩ := a.watches d x (hl d (by simp [hd])).1 hx
      rw [hw]; exact (hl d (by simp [hd])).2 y hy

theorem Tidy.retry (h : Tidy w) (hi : Inv c [] w.despawns w) : Tidy (w.retry c) :=
  Tidy.applyAll (w := { w with pending := [] }) _ (h.shape fun _ => rfl) hi.requeue

theorem Tidy.step (h : Tidy w) (hi : Inv c [] w.despawns w) (hf : Fine c w) {op : Op} (ho : w.Proper op) :
    Tidy (w.step c op) := by
  cases op with
  | spawn => exact h.fresh hi.plain (x := {}) rfl rfl rfl
  | insertObservable e o => exact h.insertObservable hi.plain e o fun x hx hm => ho ⟨x, hx, hm⟩
  | removeObservable e o => exact h.removeObservable e o
  | removeSubscription e => exact h.shape fun d => removeSubscription_shape e d w
  | despawn e => exact h.despawn hi.plain e ho
  | subscribe t y => exact (h.issue hi.plain t y).apply (hi.subscribe_todo t y)
  | close k =>
    unfold World.step
    dsimp only
    split
    · exact h.close k
    · exact h
  | retry => exact h.retry hi
  | clean =>
    refine h.despawnAll _ hi.plain fun e he => ?_
    rw [List.mem_filter, List.mem_range] at he
    refine ⟨he.1, fun x hx => ?_⟩
    have hu := he.2
    rw [hx] at hu
    cases hw : x.watches with
    | none => rfl
    | some _ =>
      have := (hi.plain.2.1 e x hx (by simp [hw])).2
      simp [this] at hu
  | tick =>
    refine Tidy.despawnAll (w := { w with despawns := [] }) _ (h.shape fun _ => rfl) hi.plain fun e he => ?_
    obtain ⟨k, cmd, h1, h2, _⟩ := hf.despawns e he
    subst h2
    exact ⟨(hi.old k cmd h1).2, fun x hx => hi.body k cmd x h1 hx⟩
  | exit =>
    have h1 := h.retry hi
    show Tidy (w.exit c)
    unfold World.exit
    dsimp only
    generalize ((List.range (w.retry c).next).filterMap fun e => ((w.retry c).ent e).bind (·.subscription)) = l
    generalize w.retry c = w1 at h1
    induction l generalizing w1 with
    | nil => exact h1
    | cons k l ih => exact ih _ (h1.close k)

theorem Tidy.run {ops : List Op} (h : ProperHistory c {} ops) : Tidy (World.run c ops) := by
  unfold World.run
  suffices ∀ w : World, Inv c [] w.despawns w → Fine c w → Tidy w → ProperHistory c w ops →
      Tidy (ops.foldl (World.step c) w) from this _ .start .start .start h
  clear h
  induction ops with
  | nil => exact fun _ _ _ h _ => h
  | cons op ops ih => exact fun w hi hf h ho => ih _ (hi.step op) (hf.step hi op) (h.step hi hf ho.1) ho.2

/-- With an observable for it, a command subscribes. -/
theorem Inv.apply_subscribes {cmd : Command} (h : Inv c (cmd :: todo) w.despawns w) (ht : Tidy w)
    (hord : ∀ l, (c.ord l).Perm l) {o : Nat} (ho : w.HasObservable cmd.target o) (hy : c.out o = cmd.types) :
    ∃ o', w.HasObservable cmd.target o' ∧ c.out o' = cmd.types ∧ (w.apply c cmd).made cmd.k = [(cmd.target, o')] ∧
      (c.sync cmd.k = false → w.closed cmd.k = false → w.ent cmd.reserved ≠ none →
        (w.apply c cmd).closed cmd.k = false) := by
  obtain ⟨x, hx, hox⟩ := ho
  obtain ⟨_, hm0, _, _⟩ := h.pend cmd (by simp)
  obtain ⟨s, y, hs, hw⟩ := ht.satellite _ x o hx hox
  have hmem : o ∈ w.observers c cmd.target cmd.types := mem_observers.2 ⟨hy, s, y, h.plain.lt hs, hs, hw⟩
  have hmem' := (hord (w.observers c cmd.target cmd.types)).mem_iff.2 hmem
  rw [apply_observers, if_pos (by cases hl : w.observers c cmd.target cmd.types with
    | nil => rw [hl] at hmem; cases hmem
    | cons _ _ => rfl)]
  unfold World.trigger
  rw [show ({ w with attempts := set w.attempts cmd.k (w.attempts cmd.k + 1) } : World).observers c cmd.target cmd.types =
    w.observers c cmd.target cmd.types from rfl]
  cases hl : c.ord (w.observers c cmd.target cmd.types) with
  | nil => rw [hl] at hmem'; cases hmem'
  | cons o' l =>
    have ho' : o' ∈ w.observers c cmd.target cmd.types := (hord _).mem_iff.1 (by rw [hl]; simp)
    obtain ⟨hy', s', y', _, hs', hw'⟩ := mem_observers.1 ho'
    obtain ⟨x', hx', hox', _⟩ := ht.owner s' y' _ _ hs' hw'
    rw [hx] at hx'; cases hx'
    dsimp only
    rw [hx]
    dsimp only
    rw [if_pos hox', hm0]
    refine ⟨o', ⟨x, hx, hox'⟩, hy', ?_, fun hsync hopen halive => ?_⟩
    · unfold World.attach
      split
      · rw [(despawn_lose ((close_keeps _ _).plain (by exact h.plain))).made, (close_rest _ _).made]
        exact set_same ..
      · dsimp only
        split
        · exact set_same ..
        · rw [(close_rest _ _).made]; exact set_same ..
    · unfold World.attach
      dsimp only
      rw [hsync, hopen]
      simp only [Bool.or_false, Bool.false_eq_true, if_false]
      split
      · exact hopen
      · rename_i hn; exact absurd hn halive

/-- Without one, it is tried again, or given up. -/
theorem Tidy.no_observers (h : Tidy w) {e y : Nat} (hn : ∀ o, w.HasObservable e o → c.out o ≠ y) :
    w.observers c e y = [] := by
  cases hl : w.observers c e y with
  | nil => rfl
  | cons o l =>
    obtain ⟨hy, s, z, _, hs, hw⟩ := mem_observers.1 (show o ∈ w.observers c e y by rw [hl]; simp)
    obtain ⟨x, hx, ho, _⟩ := h.owner s z _ _ hs hw
    exact absurd hy (hn o ⟨x, hx, ho⟩)

/-- Other entities keep their observables. -/
theorem Tidy.despawn_has (h : Tidy w) {e t o : Nat} (hte : t ≠ e) (ho : w.HasObservable t o) :
    (w.despawn e).HasObservable t o := by
  obtain ⟨x, hx, hox⟩ := ho
  have h1 : Tidy (w.removeSubscription e) := h.shape fun d => removeSubscription_shape e d w
  obtain ⟨x1, hx1, h2, _, h3⟩ := shape_some (removeSubscription_shape e t w).symm hx
  have hox1 : o ∈ x1.observables := by rw [← h2]; exact hox
  have a := despawn_cut e w
  obtain ⟨x', hx'⟩ := a.left t x1 hx1 (by
    rw [List.mem_append, List.mem_singleton, not_or]
    refine ⟨fun hm => ?_, hte⟩
    obtain ⟨_, x2, o2, hx2, hw2⟩ := mem_satellites.1 hm
    rw [hx1] at hx2; cases hx2
    rw [h1.bare t x1 hx1 (by simp [hw2])] at hox1; cases hox1)
  obtain ⟨_, x3, hx3, h4, _⟩ := a.old t x' hx'
  rw [hx1] at hx3; cases hx3
  exact ⟨x', hx', by rw [h4]; exact hox1⟩

theorem close_has {k t o : Nat} : (w.close k).HasObservable t o ↔ w.HasObservable t o := by
  unfold HasObservable; rw [close_ent]

theorem Tidy.apply_has {cmd : Command} (h : Tidy w) {t o : Nat} (ht : t ≠ cmd.reserved) (ho : w.HasObservable t o) :
    (w.apply c cmd).HasObservable t o := by
  have h1 : ({ w with attempts := set w.attempts cmd.k (w.attempts cmd.k + 1) } : World).HasObservable t o := ho
  rw [apply_observers]
  split
  · unfold World.trigger
    split
    · exact close_has.2 h1
    · have give : (if c.drops cmd.k then
          ({ w with attempts := set w.attempts cmd.k (w.attempts cmd.k + 1) } : World).close cmd.k else
          { w with attempts := set w.attempts cmd.k (w.attempts cmd.k + 1) }).HasObservable t o := by
        split
        · exact close_has.2 h1
        · exact h1
      split
      · split
        · unfold World.attach
          split
          · refine Tidy.despawn_has ?_ ht (close_has.2 (by exact ho))
            exact Tidy.close (w := { w with
              attempts := set w.attempts cmd.k (w.attempts cmd.k + 1)
              made := set w.made cmd.k (w.made cmd.k ++ [(cmd.target, _)]) }) (h.shape fun _ => rfl) _
          · dsimp only
            split
            · obtain ⟨x, hx, hox⟩ := ho
              exact ⟨x, (set_other _ _ ht).trans hx, hox⟩
            · exact close_has.2 ho
        · exact give
      · exact give
  · split
    · exact ho
    · exact close_has.2 h1

end Rx.Bevy.World
