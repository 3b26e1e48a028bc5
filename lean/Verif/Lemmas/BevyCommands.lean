import Verif.Model.BevyCommands

/-!
# Invariants of subscribing through commands
-/

namespace Rx.Bevy

theorem set_same {α : Type} (f : Nat → α) (i : Nat) (a : α) : set f i a i = a := by simp [set]
theorem set_other {α : Type} (f : Nat → α) {i j : Nat} (a : α) (h : j ≠ i) : set f i a j = f j := by simp [set, h]

namespace World

/-- What matters of an entity that is not a satellite. -/
def look : Option Entity → Option (Bool × Option Nat)
  | some x => if x.watches.isNone then some (x.unfinished, x.subscription) else none
  | none => none

def view (w : World) (e : Nat) : Option (Bool × Option Nat) := look (w.ent e)

/-- Satellites are only satellites. -/
def Plain (w : World) : Prop :=
  (∀ e, w.next ≤ e → w.ent e = none) ∧
  (∀ e x, w.ent e = some x → x.watches.isSome = true → x.subscription = none ∧ x.unfinished = false) ∧
  ∀ e x o s, w.ent e = some x → x.ref o = some s → s < w.next ∧ ∀ y, w.ent s = some y → y.watches = some (e, o)

/-- Entities do not become satellites, and do not come back. -/
structure Keeps (w w' : World) : Prop where
  next : w.next ≤ w'.next
  plain : w.Plain → w'.Plain
  watches : ∀ e x', e < w.next → w'.ent e = some x' → ∃ x, w.ent e = some x ∧ x'.watches = x.watches

theorem Keeps.refl (w : World) : Keeps w w := ⟨Nat.le_refl _, id, fun _ x _ h => ⟨x, h, rfl⟩⟩

theorem Keeps.trans {a b d : World} (h : Keeps a b) (h' : Keeps b d) : Keeps a d :=
  ⟨Nat.le_trans h.next h'.next, fun p => h'.plain (h.plain p), fun e x he hx => by
    obtain ⟨y, hy, h1⟩ := h'.watches e x (Nat.lt_of_lt_of_le he h.next) hx
    obtain ⟨z, hz, h2⟩ := h.watches e y he hy
    exact ⟨z, hz, h1.trans h2⟩⟩

/-- The other fields stay as they are. -/
structure Rest (w w' : World) : Prop where
  pending : w'.pending = w.pending
  size : w'.size = w.size
  teardown : w'.teardown = w.teardown
  issued : w'.issued = w.issued
  made : w'.made = w.made
  attempts : w'.attempts = w.attempts
  faults : w'.faults = w.faults

theorem Rest.refl (w : World) : Rest w w := ⟨rfl, rfl, rfl, rfl, rfl, rfl, rfl⟩

theorem Rest.trans {a b d : World} (h : Rest a b) (h' : Rest b d) : Rest a d :=
  ⟨h'.pending.trans h.pending, h'.size.trans h.size, h'.teardown.trans h.teardown, h'.issued.trans h.issued,
    h'.made.trans h.made, h'.attempts.trans h.attempts, h'.faults.trans h.faults⟩

/-- Nothing but satellites and references changed, and new entities. -/
structure Alike (w w' : World) : Prop extends Keeps w w', Rest w w' where
  view : ∀ e, e < w.next → w'.view e = w.view e
  fresh : ∀ e, w.next ≤ e → w'.view e = none ∨ w'.view e = some (false, none)
  closed : w'.closed = w.closed
  despawns : w'.despawns = w.despawns

theorem Plain.view {w : World} (h : w.Plain) {e : Nat} (he : w.next ≤ e) : w.view e = none := by
  unfold World.view; rw [h.1 e he]; rfl

theorem Alike.trans {a b d : World} (h : Alike a b) (h' : Alike b d) : Alike a d :=
  ⟨h.toKeeps.trans h'.toKeeps, h.toRest.trans h'.toRest,
    fun e he => (h'.view e (Nat.lt_of_lt_of_le he h.next)).trans (h.view e he),
    fun e he => by
      by_cases hb : e < b.next
      · rw [h'.view e hb]; exact h.fresh e he
      · exact h'.fresh e (by omega),
    h'.closed.trans h.closed, h'.despawns.trans h.despawns⟩

theorem look_forget (s : Nat) (x : Option Entity) : look (x.map (·.forget s)) = look x := by
  cases x <;> rfl

/-! ## despawnSatellite -/

theorem despawnSatellite_rest (s : Nat) (w : World) : Rest w (w.despawnSatellite s) := by
  unfold despawnSatellite
  split
  · exact ⟨rfl, rfl, rfl, rfl, rfl, rfl, rfl⟩
  · exact .refl w

theorem despawnSatellite_next (s : Nat) (w : World) : (w.despawnSatellite s).next = w.next := by
  unfold despawnSatellite; split <;> rfl

theorem despawnSatellite_closed (s : Nat) (w : World) : (w.despawnSatellite s).closed = w.closed := by
  unfold despawnSatellite; split <;> rfl

theorem despawnSatellite_despawns (s : Nat) (w : World) : (w.despawnSatellite s).despawns = w.despawns := by
  unfold despawnSatellite; split <;> rfl

theorem despawnSatellite_ent (s : Nat) (w : World) (e : Nat) :
    (w.despawnSatellite s).ent e = if e = s then none else
      match w.ent s with | some _ => (w.ent e).map (·.forget s) | none => w.ent e := by
  unfold despawnSatellite
  split
  · rename_i h; rw [h]
  · rename_i h
    rw [h]
    split
    · rename_i he; subst he; exact h
    · rfl

theorem despawnSatellite_view (s : Nat) (w : World) (e : Nat) :
    (w.despawnSatellite s).view e = if e = s then none else w.view e := by
  unfold view
  rw [despawnSatellite_ent]
  split
  · rfl
  · split
    · exact look_forget ..
    · rfl

/-- What is left of an entity. -/
theorem despawnSatellite_old {s e : Nat} {w : World} {x : Entity} (h : (w.despawnSatellite s).ent e = some x) :
    e ≠ s ∧ ∃ y, w.ent e = some y ∧ (x = y ∨ x = y.forget s) := by
  rw [despawnSatellite_ent] at h
  split at h
  · cases h
  · rename_i hes
    refine ⟨hes, ?_⟩
    split at h
    · cases hy : w.ent e with
      | none => rw [hy] at h; cases h
      | some y => rw [hy] at h; cases h; exact ⟨y, rfl, .inr rfl⟩
    · exact ⟨x, h, .inl rfl⟩

theorem despawnSatellite_keeps (s : Nat) (w : World) : Keeps w (w.despawnSatellite s) := by
  refine ⟨Nat.le_of_eq (despawnSatellite_next s w).symm, fun h => ⟨fun e he => ?_, fun e x hx hs => ?_,
    fun e x o t hx ht => ?_⟩, fun e x _ hx => ?_⟩
  · rw [despawnSatellite_next] at he
    rw [despawnSatellite_ent, h.1 e he]
    split
    · rfl
    · split <;> rfl
  · obtain ⟨_, y, hy, rfl | rfl⟩ := despawnSatellite_old hx
    · exact h.2.1 e x hy hs
    · exact h.2.1 e y hy hs
  · have key : ∃ y, w.ent e = some y ∧ y.ref o = some t := by
      obtain ⟨_, y, hy, rfl | rfl⟩ := despawnSatellite_old hx
      · exact ⟨x, hy, ht⟩
      · refine ⟨y, hy, ?_⟩
        unfold Entity.forget at ht
        dsimp only at ht
        split at ht
        · cases ht
        · exact ht
    obtain ⟨y, hy, hr⟩ := key
    rw [despawnSatellite_next]
    refine ⟨(h.2.2 e y o t hy hr).1, fun z hz => ?_⟩
    obtain ⟨_, a, ha, rfl | rfl⟩ := despawnSatellite_old hz
    · exact (h.2.2 e y o t hy hr).2 z ha
    · exact (h.2.2 e y o t hy hr).2 a ha
  · obtain ⟨_, y, hy, rfl | rfl⟩ := despawnSatellite_old hx
    · exact ⟨x, hy, rfl⟩
    · exact ⟨y, hy, rfl⟩

theorem Alike.refl {w : World} (h : w.Plain) : Alike w w :=
  ⟨.refl w, .refl w, fun _ _ => rfl, fun _ he => .inl (h.view he), rfl, rfl⟩

theorem despawnSatellite_alike {s : Nat} {w : World} (hp : w.Plain) (h : w.view s = none) :
    Alike w (w.despawnSatellite s) := by
  refine ⟨despawnSatellite_keeps s w, despawnSatellite_rest s w, fun e _ => ?_, fun e he => .inl ?_,
    despawnSatellite_closed s w, despawnSatellite_despawns s w⟩
  · rw [despawnSatellite_view]
    split
    · rename_i he; subst he; exact h.symm
    · rfl
  · rw [despawnSatellite_view, hp.view he]
    split <;> rfl

theorem despawnSatellites_alike (l : List Nat) (w : World) (hp : w.Plain) (h : ∀ s ∈ l, w.view s = none) :
    Alike w (l.foldl (fun w s => w.despawnSatellite s) w) := by
  induction l generalizing w with
  | nil => exact .refl hp
  | cons s l ih =>
    have h1 := despawnSatellite_alike hp (h s (by simp))
    refine h1.trans (ih _ (h1.plain hp) fun t ht => ?_)
    rw [despawnSatellite_view]
    split
    · rfl
    · exact h t (by simp [ht])

theorem despawnSatellites_next (l : List Nat) (w : World) :
    (l.foldl (fun w s => w.despawnSatellite s) w).next = w.next := by
  induction l generalizing w with
  | nil => rfl
  | cons s l ih => exact (ih _).trans (despawnSatellite_next s w)

theorem mem_satellites {e s : Nat} {w : World} :
    s ∈ w.satellites e ↔ s < w.next ∧ ∃ x o, w.ent s = some x ∧ x.watches = some (e, o) := by
  unfold satellites
  rw [List.mem_filter, List.mem_range]
  refine and_congr_right fun _ => ?_
  constructor
  · intro h
    split at h
    · rename_i x hx
      split at h
      · rename_i e' o ho
        exact ⟨x, o, hx, by rw [ho, show e' = e by simpa using h]⟩
      · cases h
    · cases h
  · rintro ⟨x, o, hx, ho⟩
    rw [hx]
    simp [ho]

theorem satellites_view {e s : Nat} {w : World} (h : s ∈ w.satellites e) : w.view s = none := by
  obtain ⟨_, x, o, hx, ho⟩ := mem_satellites.1 h
  unfold view look
  rw [hx]
  simp [ho]

/-! ## Losing a subscription -/

/-- An entity loses its subscription, or is lost itself. -/
structure Lose (e : Nat) (z : Option (Bool × Option Nat)) (w w' : World) : Prop extends Keeps w w', Rest w w' where
  next_eq : w'.next = w.next
  view : ∀ d, w'.view d = if d = e then z else w.view d
  left : z = none ∨ ∃ u s, w.view e = some (u, s) ∧ z = some (u, none)
  closed : ∀ k, w'.closed k = true ↔ w.closed k = true ∨ ∃ u, w.view e = some (u, some k)
  despawns : ∀ d ∈ w.despawns, d ∈ w'.despawns
  asked : ∀ k u d, w.view e = some (u, some k) → w.closed k = false → w.teardown k = some d → d ∈ w'.despawns

theorem close_rest (k : Nat) (w : World) : Rest w (w.close k) := by
  unfold close; split
  · exact .refl w
  · exact ⟨rfl, rfl, rfl, rfl, rfl, rfl, rfl⟩

theorem close_ent (k : Nat) (w : World) : (w.close k).ent = w.ent := by
  unfold close; split <;> rfl

theorem close_next (k : Nat) (w : World) : (w.close k).next = w.next := by
  unfold close; split <;> rfl

theorem close_closed (k i : Nat) (w : World) : (w.close k).closed i = true ↔ w.closed i = true ∨ i = k := by
  unfold close; split
  · rename_i h
    exact ⟨.inl, fun h' => h'.elim id fun e => by rw [e]; exact h⟩
  · by_cases hi : i = k
    · subst hi; simp [set_same]
    · simp [set_other _ _ hi, hi]

theorem close_despawns (k d : Nat) (w : World) :
    d ∈ (w.close k).despawns ↔ d ∈ w.despawns ∨ (w.closed k = false ∧ w.teardown k = some d) := by
  unfold close; split
  · rename_i h; simp [h]
  · rename_i h
    simp only [List.mem_append, Option.mem_toList]
    simp [h]

theorem close_keeps (k : Nat) (w : World) : Keeps w (w.close k) := by
  refine ⟨Nat.le_of_eq (close_next k w).symm, fun h => ?_, fun e x _ hx => ?_⟩
  · unfold Plain; rw [close_ent, close_next]; exact h
  · rw [close_ent] at hx; exact ⟨x, hx, rfl⟩

theorem close_view (k : Nat) (w : World) : (w.close k).view = w.view := by
  funext e; unfold view; rw [close_ent]

theorem view_some {w : World} {e : Nat} {u : Bool} {s : Option Nat} :
    w.view e = some (u, s) ↔ ∃ x, w.ent e = some x ∧ x.watches = none ∧ x.unfinished = u ∧ x.subscription = s := by
  unfold view look
  constructor
  · intro h
    split at h
    · rename_i x hx
      split at h
      · rename_i hw
        cases h
        exact ⟨x, hx, by simpa using hw, rfl, rfl⟩
      · cases h
    · cases h
  · rintro ⟨x, hx, hw, rfl, rfl⟩
    rw [hx]
    simp [hw]

theorem removeSubscription_lose {e : Nat} {w : World} (hp : w.Plain) :
    Lose e ((w.view e).map fun v => (v.1, none)) w (w.removeSubscription e) := by
  have hnone : (∀ x, w.ent e = some x → x.subscription = none) → Lose e ((w.view e).map fun v => (v.1, none)) w w := by
    intro hx
    have hs : ∀ u k, w.view e ≠ some (u, some k) := by
      intro u k hv
      obtain ⟨x, h, _, _, h'⟩ := view_some.1 hv
      rw [hx x h] at h'; cases h'
    refine ⟨.refl w, .refl w, rfl, fun d => ?_, ?_, fun k => ?_, fun _ h => h, fun k u d h => absurd h (hs u k)⟩
    · split
      · rename_i h
        subst h
        cases hv : w.view d with
        | none => rfl
        | some v =>
          obtain ⟨u, s⟩ := v
          cases s with
          | none => rfl
          | some k => exact absurd hv (hs u k)
      · rfl
    · cases hv : w.view e with
      | none => exact .inl rfl
      | some v => exact .inr ⟨v.1, v.2, rfl, rfl⟩
    · constructor
      · exact .inl
      · rintro (h | ⟨u, h⟩)
        · exact h
        · exact absurd h (hs u k)
  unfold removeSubscription
  split
  · rename_i x hx
    split
    · rename_i k hk
      have hw : x.watches = none := by
        cases hw : x.watches with
        | none => rfl
        | some _ =>
          have := (hp.2.1 e x hx (by simp [hw])).1
          rw [hk] at this; cases this
      have hv : w.view e = some (x.unfinished, some k) := view_some.2 ⟨x, hx, hw, rfl, hk⟩
      have hlt : e < w.next := Nat.lt_of_not_le fun h => by rw [hp.1 e h] at hx; cases hx
      generalize hw1 : ({ w with ent := set w.ent e (some { x with subscription := none }) } : World) = w1
      have hent : w1.ent = set w.ent e (some { x with subscription := none }) := by rw [← hw1]
      have hview : ∀ d, w1.view d = if d = e then some (x.unfinished, none) else w.view d := by
        intro d
        unfold view
        rw [hent]
        by_cases h : d = e
        · subst h; rw [set_same]; simp [look, hw]
        · rw [set_other _ _ h]; simp [h]
      have hkeeps : Keeps w w1 := by
        refine ⟨by rw [← hw1]; exact Nat.le_refl _, fun h => ⟨fun d hd => ?_, fun d y hy hs => ?_, fun d y o t hy ht => ?_⟩, fun d y _ hy => ?_⟩
        · rw [show w1.next = w.next by rw [← hw1]] at hd
          rw [hent, set_other _ _ (show d ≠ e by omega)]; exact h.1 d hd
        · by_cases hde : d = e
          · subst hde
            rw [hent, set_same] at hy
            cases hy
            rw [show ({ x with subscription := none } : Entity).watches = x.watches from rfl, hw] at hs
            cases hs
          · rw [hent, set_other _ _ hde] at hy
            exact h.2.1 d y hy hs
        · rw [show w1.next = w.next by rw [← hw1]]
          have key : t < w.next ∧ ∀ z, w.ent t = some z → z.watches = some (d, o) := by
            by_cases hde : d = e
            · subst hde
              rw [hent, set_same] at hy
              cases hy
              exact h.2.2 d x o t hx ht
            · rw [hent, set_other _ _ hde] at hy
              exact h.2.2 d y o t hy ht
          refine ⟨key.1, fun z hz => ?_⟩
          by_cases hte : t = e
          · subst hte
            rw [hent, set_same] at hz
            cases hz
            exact key.2 x hx
          · rw [hent, set_other _ _ hte] at hz
            exact key.2 z hz
        · by_cases hde : d = e
          · subst hde
            rw [hent, set_same] at hy
            cases hy
            exact ⟨x, hx, rfl⟩
          · rw [hent, set_other _ _ hde] at hy
            exact ⟨y, hy, rfl⟩
      have hrest : Rest w w1 := by rw [← hw1]; exact ⟨rfl, rfl, rfl, rfl, rfl, rfl, rfl⟩
      refine ⟨hkeeps.trans (close_keeps k w1), hrest.trans (close_rest k w1), ?_, fun d => ?_,
        .inr ⟨x.unfinished, some k, hv, by rw [hv]; rfl⟩, fun i => ?_, fun d hd => ?_, fun i u d hi hc ht => ?_⟩
      · rw [close_next, ← hw1]
      · rw [close_view, hview, hv]; rfl
      · rw [close_closed, hv, show w1.closed = w.closed by rw [← hw1]]
        refine or_congr_right ⟨fun h => ⟨_, by rw [h]⟩, fun ⟨u, h⟩ => by cases h; rfl⟩
      · rw [close_despawns, show w1.despawns = w.despawns by rw [← hw1]]; exact .inl hd
      · rw [hv] at hi
        cases hi
        rw [close_despawns, show w1.closed = w.closed by rw [← hw1], hrest.teardown]
        exact .inr ⟨hc, ht⟩
    · rename_i h
      refine hnone fun y hy => ?_
      rw [hx] at hy; cases hy; exact h
  · rename_i h
    refine hnone fun y hy => ?_
    rw [h] at hy; cases hy

theorem despawn_lose {e : Nat} {w : World} (hp : w.Plain) : Lose e none w (w.despawn e) := by
  unfold despawn
  have h1 := removeSubscription_lose (e := e) hp
  generalize w.removeSubscription e = w1 at h1
  have hp1 := h1.plain hp
  have h2 := despawnSatellites_alike (w1.satellites e) w1 hp1 fun _ h => satellites_view h
  have h2n := despawnSatellites_next (w1.satellites e) w1
  dsimp only
  generalize (w1.satellites e).foldl (fun w s => w.despawnSatellite s) w1 = w2 at h2 h2n
  refine ⟨(h1.toKeeps.trans h2.toKeeps).trans (despawnSatellite_keeps e w2),
    (h1.toRest.trans h2.toRest).trans (despawnSatellite_rest e w2), ?_, fun d => ?_, .inl rfl, fun k => ?_,
    fun d hd => ?_, fun k u d hv hc ht => ?_⟩
  · rw [despawnSatellite_next, h2n, h1.next_eq]
  · rw [despawnSatellite_view]
    split
    · rfl
    · rename_i hde
      have : w2.view d = w1.view d := by
        by_cases hd : d < w1.next
        · exact h2.view d hd
        · rw [(h2.plain hp1).view (show w2.next ≤ d by omega), hp1.view (show w1.next ≤ d by omega)]
      rw [this, h1.view, if_neg hde]
  · rw [despawnSatellite_closed, h2.closed]; exact h1.closed k
  · rw [despawnSatellite_despawns, h2.despawns]; exact h1.despawns d hd
  · rw [despawnSatellite_despawns, h2.despawns]; exact h1.asked k u d hv hc ht

/-! ## The invariant -/

/-- `todo` are the commands being retried, `q` the entities that are going to be despawned. -/
structure Inv (c : Cfg) (todo : List Command) (q : List Nat) (w : World) : Prop where
  plain : w.Plain
  fresh : ∀ k, w.size ≤ k → w.issued k = none ∧ w.made k = [] ∧ w.attempts k = 0
  old : ∀ k cmd, w.issued k = some cmd → cmd.k = k ∧ cmd.reserved < w.next
  known : ∀ k, k < w.size → ∃ cmd, w.issued k = some cmd
  inj : ∀ k i a b, w.issued k = some a → w.issued i = some b → a.reserved = b.reserved → k = i
  body : ∀ k cmd x, w.issued k = some cmd → w.ent cmd.reserved = some x → x.watches = none
  once : ∀ k, (w.made k).length ≤ 1
  live : ∀ k cmd, w.issued k = some cmd → w.made k ≠ [] → w.closed k = false → w.view cmd.reserved = some (false, some k)
  held : ∀ e u k, w.view e = some (u, some k) →
    u = false ∧ w.made k ≠ [] ∧ w.teardown k = some e ∧ ∃ cmd, w.issued k = some cmd ∧ cmd.reserved = e
  queued : ∀ k cmd, w.issued k = some cmd → w.made k ≠ [] → w.closed k = true → w.view cmd.reserved ≠ none →
    cmd.reserved ∈ q
  pend : ∀ cmd, cmd ∈ w.pending ++ todo →
    (∃ c0, w.issued cmd.k = some c0 ∧ cmd = { c0 with retries := cmd.retries }) ∧ w.made cmd.k = [] ∧
    w.attempts cmd.k + cmd.retries = maxRetries ∧ ∀ v, w.view cmd.reserved = some v → v = (true, none)
  nodup : ((w.pending ++ todo).map (·.k)).Nodup
  bound : ∀ k, w.attempts k ≤ maxRetries + 1
  settled : ∀ k, k < w.size → k ∈ (w.pending ++ todo).map (·.k) ∨ w.made k ≠ [] ∨ w.closed k = true ∨ c.drops k = false

variable {c : Cfg} {todo : List Command} {q : List Nat} {w w' : World}

theorem Inv.mono (h : Inv c todo q w) {q' : List Nat} (hq : ∀ d ∈ q, d ∈ q') : Inv c todo q' w :=
  { h with queued := fun k cmd hi hm hc hv => hq _ (h.queued k cmd hi hm hc hv) }

theorem Inv.start : Inv c [] [] {} where
  plain := ⟨fun _ _ => rfl, ⟨fun _ _ h => (nomatch h), fun _ _ _ _ h => (nomatch h)⟩⟩
  fresh _ _ := ⟨rfl, rfl, rfl⟩
  old _ _ h := by cases h
  known _ h := by cases h
  inj _ _ _ _ h := by cases h
  body _ _ _ h := by cases h
  once _ := Nat.zero_le _
  live _ _ h := by cases h
  held _ _ _ h := by cases h
  queued _ _ h := by cases h
  pend _ h := by cases h
  nodup := .nil
  bound _ := Nat.zero_le _
  settled _ h := by cases h

theorem Inv.alike (h : Inv c todo q w) (a : Alike w w') : Inv c todo q w' where
  plain := a.plain h.plain
  fresh k hk := by rw [a.size] at hk; rw [a.issued, a.made, a.attempts]; exact h.fresh k hk
  old k cmd hi := by
    rw [a.issued] at hi
    exact ⟨(h.old k cmd hi).1, Nat.lt_of_lt_of_le (h.old k cmd hi).2 a.next⟩
  known k hk := by rw [a.size] at hk; rw [a.issued]; exact h.known k hk
  inj k i x y hx hy := by rw [a.issued] at hx hy; exact h.inj k i x y hx hy
  body k cmd x hi hx := by
    rw [a.issued] at hi
    obtain ⟨y, hy, hw⟩ := a.watches _ x (h.old k cmd hi).2 hx
    rw [hw]; exact h.body k cmd y hi hy
  once k := by rw [a.made]; exact h.once k
  live k cmd hi hm hc := by
    rw [a.issued] at hi; rw [a.made] at hm; rw [a.closed] at hc
    rw [a.view _ (h.old k cmd hi).2]; exact h.live k cmd hi hm hc
  held e u k hv := by
    by_cases he : e < w.next
    · rw [a.view e he] at hv; rw [a.made, a.teardown, a.issued]; exact h.held e u k hv
    · rcases a.fresh e (by omega) with h' | h' <;> rw [h'] at hv <;> cases hv
  queued k cmd hi hm hc hv := by
    rw [a.issued] at hi; rw [a.made] at hm; rw [a.closed] at hc
    rw [a.view _ (h.old k cmd hi).2] at hv
    exact h.queued k cmd hi hm hc hv
  pend cmd hc := by
    rw [a.pending] at hc
    obtain ⟨⟨c0, h1, h1'⟩, h2, h3, h4⟩ := h.pend cmd hc
    refine ⟨⟨c0, by rw [a.issued]; exact h1, h1'⟩, by rw [a.made]; exact h2, by rw [a.attempts]; exact h3, ?_⟩
    have : cmd.reserved < w.next := by rw [h1']; exact (h.old _ c0 h1).2
    rw [a.view _ this]; exact h4
  nodup := by rw [a.pending]; exact h.nodup
  bound k := by rw [a.attempts]; exact h.bound k
  settled k hk := by
    rw [a.size] at hk
    rw [a.pending, a.made, a.closed]; exact h.settled k hk

/-- An entity that loses its subscription. -/
theorem Inv.lose (e : Nat) (z : Option (Bool × Option Nat)) (h : Inv c todo (e :: q) w) (a : Lose e z w w')
    (hq : z ≠ none → ∀ k cmd, w.issued k = some cmd → cmd.reserved = e → w.made k ≠ [] → w'.closed k = true → e ∈ q) :
    Inv c todo q w' where
  plain := a.plain h.plain
  fresh k hk := by rw [a.size] at hk; rw [a.issued, a.made, a.attempts]; exact h.fresh k hk
  old k cmd hi := by
    rw [a.issued] at hi
    exact ⟨(h.old k cmd hi).1, Nat.lt_of_lt_of_le (h.old k cmd hi).2 a.next⟩
  known k hk := by rw [a.size] at hk; rw [a.issued]; exact h.known k hk
  inj k i x y hx hy := by rw [a.issued] at hx hy; exact h.inj k i x y hx hy
  body k cmd x hi hx := by
    rw [a.issued] at hi
    obtain ⟨y, hy, hw⟩ := a.watches _ x (h.old k cmd hi).2 hx
    rw [hw]; exact h.body k cmd y hi hy
  once k := by rw [a.made]; exact h.once k
  live k cmd hi hm hc := by
    rw [a.issued] at hi; rw [a.made] at hm
    have hn := mt (a.closed k).2 (by rw [hc]; simp)
    have hl := h.live k cmd hi hm (by cases hk : w.closed k <;> simp_all)
    rw [a.view]
    split
    · rename_i he
      exact absurd (.inr ⟨false, he ▸ hl⟩) hn
    · exact hl
  held d u k hv := by
    rw [a.view] at hv
    split at hv
    · rcases a.left with h' | ⟨_, _, _, h'⟩ <;> rw [h'] at hv <;> cases hv
    · rw [a.made, a.teardown, a.issued]; exact h.held d u k hv
  queued k cmd hi hm hc hv := by
    rw [a.issued] at hi; rw [a.made] at hm
    rw [a.view] at hv
    split at hv
    · rename_i he; rw [he]; exact hq hv k cmd hi he hm hc
    · rename_i he
      have : w.closed k = true := by
        rcases (a.closed k).1 hc with h' | ⟨u, h'⟩
        · exact h'
        · obtain ⟨_, _, _, cmd', h1, h2⟩ := h.held e u k h'
          rw [hi] at h1; cases h1
          exact absurd h2 he
      rcases List.mem_cons.1 (h.queued k cmd hi hm this hv) with h' | h'
      · exact absurd h' he
      · exact h'
  pend cmd hc := by
    rw [a.pending] at hc
    obtain ⟨h1, h2, h3, h4⟩ := h.pend cmd hc
    refine ⟨by rw [a.issued]; exact h1, by rw [a.made]; exact h2, by rw [a.attempts]; exact h3, fun v hv => ?_⟩
    rw [a.view] at hv
    split at hv
    · rename_i he
      rcases a.left with h' | ⟨u, s, hs, h'⟩
      · rw [h'] at hv; cases hv
      · rw [h'] at hv
        cases hv
        rw [← he] at hs
        have := h4 _ hs
        cases this; rfl
    · exact h4 v hv
  nodup := by rw [a.pending]; exact h.nodup
  bound k := by rw [a.attempts]; exact h.bound k
  settled k hk := by
    rw [a.size] at hk
    rw [a.pending, a.made]
    rcases h.settled k hk with h' | h' | h' | h'
    · exact .inl h'
    · exact .inr (.inl h')
    · exact .inr (.inr (.inl ((a.closed k).2 (.inl h'))))
    · exact .inr (.inr (.inr h'))

theorem Inv.despawn (e : Nat) (h : Inv c todo (e :: q) w) : Inv c todo q (w.despawn e) :=
  h.lose e none (despawn_lose h.plain) fun h => absurd rfl h

theorem Inv.removeSubscription (e : Nat) (h : Inv c todo w.despawns w) :
    Inv c todo (w.removeSubscription e).despawns (w.removeSubscription e) := by
  have a := removeSubscription_lose (e := e) h.plain
  refine (h.mono fun d hd => List.mem_cons_of_mem e (a.despawns d hd)).lose e _ a fun hz k cmd hi he hm hc => ?_
  have hv : w.view e ≠ none := fun hv => hz (by rw [hv]; rfl)
  cases hk : w.closed k with
  | true => exact he ▸ a.despawns _ (h.queued k cmd hi hm hk (he ▸ hv))
  | false =>
    have hl := h.live k cmd hi hm hk
    rw [he] at hl
    exact a.asked k false e hl hk (h.held e false k hl).2.2.1

theorem Inv.close (k : Nat) (h : Inv c todo w.despawns w) : Inv c todo (w.close k).despawns (w.close k) := by
  have r := close_rest k w
  have hv := close_view k w
  exact {
    plain := (close_keeps k w).plain h.plain
    fresh := fun i hi => by rw [r.size] at hi; rw [r.issued, r.made, r.attempts]; exact h.fresh i hi
    old := fun i cmd hi => by rw [r.issued] at hi; rw [close_next]; exact h.old i cmd hi
    known := fun i hi => by rw [r.size] at hi; rw [r.issued]; exact h.known i hi
    inj := fun i j x y hx hy => by rw [r.issued] at hx hy; exact h.inj i j x y hx hy
    body := fun i cmd x hi hx => by rw [r.issued] at hi; rw [close_ent] at hx; exact h.body i cmd x hi hx
    once := fun i => by rw [r.made]; exact h.once i
    live := fun i cmd hi hm hc => by
      rw [r.issued] at hi; rw [r.made] at hm; rw [hv]
      refine h.live i cmd hi hm ?_
      cases hk : w.closed i with
      | false => rfl
      | true => rw [(close_closed k i w).2 (.inl hk)] at hc; cases hc
    held := fun e u i hi => by rw [hv] at hi; rw [r.made, r.teardown, r.issued]; exact h.held e u i hi
    queued := fun i cmd hi hm hc hne => by
      rw [r.issued] at hi; rw [r.made] at hm; rw [hv] at hne
      rw [close_despawns]
      cases hk : w.closed i with
      | true => exact .inl (h.queued i cmd hi hm hk hne)
      | false =>
        rcases (close_closed k i w).1 hc with h' | h'
        · rw [h'] at hk; cases hk
        · subst h'
          exact .inr ⟨hk, (h.held _ _ _ (h.live i cmd hi hm hk)).2.2.1⟩
    pend := fun cmd hc => by
      rw [r.pending] at hc; rw [r.issued, r.made, r.attempts, hv]; exact h.pend cmd hc
    nodup := by rw [r.pending]; exact h.nodup
    bound := fun i => by rw [r.attempts]; exact h.bound i
    settled := fun i hi => by
      rw [r.size] at hi; rw [r.pending, r.made]
      rcases h.settled i hi with h' | h' | h' | h'
      · exact .inl h'
      · exact .inr (.inl h')
      · exact .inr (.inr (.inl ((close_closed k i w).2 (.inl h'))))
      · exact .inr (.inr (.inr h')) }

theorem Inv.spawn (h : Inv c todo q w) :
    Inv c todo q { w with ent := set w.ent w.next (some {}), next := w.next + 1 } := by
  refine h.alike ⟨⟨Nat.le_succ _, fun hp => ⟨fun e he => ?_, fun e x hx hs => ?_,
    fun e x o t hx ht => ?_⟩, fun e x he hx => ?_⟩,
    ⟨rfl, rfl, rfl, rfl, rfl, rfl, rfl⟩, fun e he => ?_, fun e he => ?_, rfl, rfl⟩
  · exact (set_other _ _ (show e ≠ w.next by simp only at he; omega)).trans (hp.1 e (by simp only at he; omega))
  · by_cases hen : e = w.next
    · subst hen
      dsimp only at hx
      rw [set_same] at hx
      cases hx; cases hs
    · exact hp.2.1 e x ((set_other _ _ hen).symm.trans hx) hs
  · dsimp only at hx ⊢
    by_cases hen : e = w.next
    · subst hen
      rw [set_same] at hx
      cases hx; cases ht
    · rw [set_other _ _ hen] at hx
      have key := hp.2.2 e x o t hx ht
      refine ⟨by omega, fun z hz => key.2 z ?_⟩
      rwa [set_other _ _ (show t ≠ w.next by omega)] at hz
  · exact ⟨x, (set_other _ _ (show e ≠ w.next by omega)).symm.trans hx, rfl⟩
  · unfold view; dsimp only; rw [set_other _ _ (show e ≠ w.next by omega)]
  · by_cases hen : e = w.next
    · subst hen; right; unfold view; dsimp only; rw [set_same]; rfl
    · left; unfold view; dsimp only; rw [set_other _ _ hen, h.plain.1 e he]; rfl

theorem Inv.insertObservable (e o : Nat) (h : Inv c todo q w) : Inv c todo q (w.insertObservable e o) := by
  unfold World.insertObservable
  split
  · rename_i x hx
    split
    · exact h
    · rename_i hw
      have hlt : e < w.next := Nat.lt_of_not_le fun h' => by rw [h.plain.1 e h'] at hx; cases hx
      generalize hx' : ({ x with
          observables := if o ∈ x.observables then x.observables else x.observables ++ [o],
          ref := set x.ref o (some w.next) } : Entity) = x'
      have h1 : x'.watches = x.watches := by rw [← hx']
      have h2 : look (some x') = look (some x) := by rw [← hx']; rfl
      have he : ∀ d y, set (set w.ent e (some x')) w.next (some { watches := some (e, o) }) d = some y →
          (d = w.next ∧ y = { watches := some (e, o) }) ∨ (d = e ∧ y = x') ∨ (d ≠ e ∧ d ≠ w.next ∧ w.ent d = some y) := by
        intro d y hy
        by_cases hd : d = w.next
        · subst hd; rw [set_same] at hy; cases hy; exact .inl ⟨rfl, rfl⟩
        · rw [set_other _ _ hd] at hy
          by_cases hd' : d = e
          · subst hd'; rw [set_same] at hy; cases hy; exact .inr (.inl ⟨rfl, rfl⟩)
          · rw [set_other _ _ hd'] at hy; exact .inr (.inr ⟨hd', hd, hy⟩)
      refine h.alike ⟨⟨Nat.le_succ _, fun hp => ⟨fun d hd => ?_, fun d y hy hs => ?_,
        fun d y p t hy ht => ?_⟩, fun d y hd hy => ?_⟩, ⟨rfl, rfl, rfl, rfl, rfl, rfl, rfl⟩, fun d hd => ?_, fun d hd => ?_, rfl, rfl⟩
      · simp only at hd
        exact (set_other _ _ (show d ≠ w.next by omega)).trans ((set_other _ _ (show d ≠ e by omega)).trans (hp.1 d (by omega)))
      · rcases he d y hy with ⟨_, rfl⟩ | ⟨rfl, rfl⟩ | ⟨_, _, hy⟩
        · exact ⟨rfl, rfl⟩
        · rw [h1] at hs; exact absurd hs hw
        · exact hp.2.1 d y hy hs
      · dsimp only at hy ⊢
        have old : ∀ y, w.ent d = some y → y.ref p = some t → t < w.next + 1 ∧
            ∀ z, set (set w.ent e (some x')) w.next (some { watches := some (e, o) }) t = some z →
              z.watches = some (d, p) := by
          intro y hy ht
          have key := hp.2.2 d y p t hy ht
          refine ⟨by omega, fun z hz => ?_⟩
          rcases he t z hz with ⟨ht', _⟩ | ⟨rfl, rfl⟩ | ⟨_, _, hz⟩
          · omega
          · rw [h1]; exact key.2 x hx
          · exact key.2 z hz
        rcases he d y hy with ⟨_, rfl⟩ | ⟨rfl, rfl⟩ | ⟨_, _, hy⟩
        · cases ht
        · by_cases hpo : p = o
          · subst hpo
            rw [← hx'] at ht
            dsimp only at ht
            rw [set_same] at ht
            cases ht
            refine ⟨by omega, fun z hz => ?_⟩
            rw [set_same] at hz
            cases hz; rfl
          · refine old x hx ?_
            rw [← hx'] at ht
            dsimp only at ht
            rwa [set_other _ _ hpo] at ht
        · exact old y hy ht
      · rcases he d y hy with ⟨hd', _⟩ | ⟨rfl, rfl⟩ | ⟨_, _, hy⟩
        · omega
        · exact ⟨x, hx, h1⟩
        · exact ⟨y, hy, rfl⟩
      · unfold view
        dsimp only
        rw [set_other _ _ (show d ≠ w.next by omega)]
        by_cases hd' : d = e
        · subst hd'; rw [set_same, h2, hx]
        · rw [set_other _ _ hd']
      · left
        unfold view
        dsimp only
        by_cases hd' : d = w.next
        · subst hd'; rw [set_same]; rfl
        · rw [set_other _ _ hd', set_other _ _ (show d ≠ e by omega), h.plain.1 d hd]; rfl
  · exact h

theorem Inv.removeObservable (e o : Nat) (h : Inv c todo q w) : Inv c todo q (w.removeObservable e o) := by
  unfold World.removeObservable
  split
  · rename_i x hx
    split
    · have hlt : e < w.next := Nat.lt_of_not_le fun h' => by rw [h.plain.1 e h'] at hx; cases hx
      generalize hx' : ({ x with observables := x.observables.filter (· != o) } : Entity) = x'
      have h1 : x'.watches = x.watches := by rw [← hx']
      have h2 : look (some x') = look (some x) := by rw [← hx']; rfl
      have h3 : x'.ref = x.ref := by rw [← hx']
      have h4 : x'.subscription = x.subscription ∧ x'.unfinished = x.unfinished := by rw [← hx']; exact ⟨rfl, rfl⟩
      have hold : ∀ d y, set w.ent e (some x') d = some y →
          ∃ z, w.ent d = some z ∧ y.watches = z.watches ∧ y.ref = z.ref ∧
            y.subscription = z.subscription ∧ y.unfinished = z.unfinished := by
        intro d y hy
        by_cases hd : d = e
        · subst hd
          rw [set_same] at hy
          cases hy
          exact ⟨x, hx, h1, h3, h4⟩
        · rw [set_other _ _ hd] at hy; exact ⟨y, hy, rfl, rfl, rfl, rfl⟩
      have hnone : ∀ d, w.next ≤ d → set w.ent e (some x') d = none := fun d hd =>
        (set_other _ _ (show d ≠ e by omega)).trans (h.plain.1 d hd)
      have g : Inv c todo q { w with ent := set w.ent e (some x') } := by
        refine h.alike ⟨⟨Nat.le_refl _, fun hp => ⟨hnone, fun d y hy hs => ?_, fun d y p t hy ht => ?_⟩,
          fun d y hd hy => ?_⟩, ⟨rfl, rfl, rfl, rfl, rfl, rfl, rfl⟩, fun d hd => ?_, fun d hd => .inl ?_, rfl, rfl⟩
        · obtain ⟨z, hz, a1, a2, a3, a4⟩ := hold d y hy
          rw [a3, a4]
          rw [a1] at hs
          exact hp.2.1 d z hz hs
        · obtain ⟨z, hz, a1, a2, a3, a4⟩ := hold d y hy
          rw [a2] at ht
          have key := hp.2.2 d z p t hz ht
          refine ⟨key.1, fun b hb => ?_⟩
          obtain ⟨b', hb', c1, _⟩ := hold t b hb
          rw [c1]; exact key.2 b' hb'
        · obtain ⟨z, hz, a1, _⟩ := hold d y hy
          exact ⟨z, hz, a1⟩
        · unfold view
          dsimp only
          by_cases hd' : d = e
          · subst hd'; rw [set_same, h2, hx]
          · rw [set_other _ _ hd']
        · unfold view; dsimp only; rw [hnone d hd]; rfl
      dsimp only
      split
      · rename_i s hs
        refine g.alike (despawnSatellite_alike g.plain ?_)
        have key := (g.plain.2.2 e x' o s (set_same ..) (by rw [h3]; exact hs)).2
        unfold view look
        split
        · rename_i y hy
          simp [key y hy]
        · rfl
      · exact g
    · exact h
  · exact h

/-! ## Applying a command -/

/-- The end of a subscribe command. -/
structure Take (c : Cfg) (cmd : Command) (q : List Nat) (w w' : World) : Prop extends Keeps w w' where
  next_eq : w'.next = w.next
  pending : w'.pending = w.pending
  size : w'.size = w.size
  issued : w'.issued = w.issued
  attempts : w'.attempts = set w.attempts cmd.k (w.attempts cmd.k + 1)
  made : ∀ i, i ≠ cmd.k → w'.made i = w.made i
  once : (w'.made cmd.k).length ≤ 1
  closed : ∀ i, i ≠ cmd.k → w'.closed i = w.closed i
  teardown : ∀ i, i ≠ cmd.k → w'.teardown i = w.teardown i
  view : ∀ d, d ≠ cmd.reserved → w'.view d = w.view d
  live : w'.made cmd.k ≠ [] → w'.closed cmd.k = false → w'.view cmd.reserved = some (false, some cmd.k)
  held : ∀ u i, w'.view cmd.reserved = some (u, some i) →
    i = cmd.k ∧ u = false ∧ w'.made cmd.k ≠ [] ∧ w'.teardown cmd.k = some cmd.reserved
  queued : w'.made cmd.k ≠ [] → w'.closed cmd.k = true → w'.view cmd.reserved ≠ none → cmd.reserved ∈ q
  settled : w'.made cmd.k ≠ [] ∨ w'.closed cmd.k = true ∨ c.drops cmd.k = false
  despawns : ∀ d ∈ w.despawns, d ∈ w'.despawns

theorem Inv.take {cmd : Command} (h : Inv c (cmd :: todo) q w) (a : Take c cmd q w w') : Inv c todo q w' := by
  obtain ⟨⟨c0, hc0, hcmd⟩, hm0, ha0, hv0⟩ := h.pend cmd (by simp)
  have hr0 : c0.reserved = cmd.reserved := by rw [hcmd]
  have hres : ∀ i ci, w.issued i = some ci → i ≠ cmd.k → ci.reserved ≠ cmd.reserved := fun i ci hi hik hr =>
    hik (h.inj i cmd.k ci c0 hi hc0 (hr.trans hr0.symm))
  have hks : cmd.k < w.size := Nat.lt_of_not_le fun h' => by rw [(h.fresh _ h').1] at hc0; cases hc0
  have hnd : ∀ d ∈ w.pending ++ todo, d.k ≠ cmd.k := by
    have := h.nodup
    intro d hd hk
    rw [List.map_append, List.map_cons, List.nodup_append] at this
    obtain ⟨_, h2, h3⟩ := this
    rcases List.mem_append.1 hd with hd | hd
    · exact h3 _ (List.mem_map_of_mem hd) cmd.k (by simp) hk
    · exact (List.nodup_cons.1 h2).1 (hk ▸ List.mem_map_of_mem hd)
  exact {
    plain := a.plain h.plain
    fresh := fun i hi => by
      rw [a.size] at hi
      have hik : i ≠ cmd.k := by omega
      rw [a.issued, a.made i hik, a.attempts, set_other _ _ hik]; exact h.fresh i hi
    old := fun i ci hi => by rw [a.issued] at hi; rw [a.next_eq]; exact h.old i ci hi
    known := fun i hi => by rw [a.size] at hi; rw [a.issued]; exact h.known i hi
    inj := fun i j x y hx hy => by rw [a.issued] at hx hy; exact h.inj i j x y hx hy
    body := fun i ci x hi hx => by
      rw [a.issued] at hi
      obtain ⟨y, hy, hw⟩ := a.watches _ x (h.old i ci hi).2 hx
      rw [hw]; exact h.body i ci y hi hy
    once := fun i => by
      by_cases hi : i = cmd.k
      · subst hi; exact a.once
      · rw [a.made i hi]; exact h.once i
    live := fun i ci hi hm hc => by
      rw [a.issued] at hi
      by_cases hik : i = cmd.k
      · subst hik
        rw [hc0] at hi; cases hi
        rw [hr0]; exact a.live hm hc
      · rw [a.view _ (hres i ci hi hik)]
        rw [a.made i hik] at hm
        rw [a.closed i hik] at hc
        exact h.live i ci hi hm hc
    held := fun e u i hv => by
      rw [a.issued]
      by_cases he : e = cmd.reserved
      · subst he
        obtain ⟨rfl, hu, hm, ht⟩ := a.held u i hv
        exact ⟨hu, hm, ht, c0, hc0, hr0⟩
      · rw [a.view e he] at hv
        obtain ⟨hu, hm, ht, ci, hi, hr⟩ := h.held e u i hv
        have hik : i ≠ cmd.k := fun hik => by
          subst hik
          rw [hc0] at hi; cases hi
          exact he (hr.symm.trans hr0)
        rw [a.made i hik, a.teardown i hik]
        exact ⟨hu, hm, ht, ci, hi, hr⟩
    queued := fun i ci hi hm hc hv => by
      rw [a.issued] at hi
      by_cases hik : i = cmd.k
      · subst hik
        rw [hc0] at hi; cases hi
        rw [hr0] at hv ⊢; exact a.queued hm hc hv
      · rw [a.view _ (hres i ci hi hik)] at hv
        rw [a.made i hik] at hm
        rw [a.closed i hik] at hc
        exact h.queued i ci hi hm hc hv
    pend := fun d hd => by
      rw [a.pending] at hd
      have hdk := hnd d hd
      obtain ⟨⟨c1, hc1, hd1⟩, h2, h3, h4⟩ := h.pend d (by
        rcases List.mem_append.1 hd with h' | h'
        · exact List.mem_append_left _ h'
        · exact List.mem_append_right _ (List.mem_cons_of_mem _ h'))
      have hr : d.reserved ≠ cmd.reserved := by
        rw [hd1]; exact hres d.k c1 hc1 hdk
      refine ⟨⟨c1, by rw [a.issued]; exact hc1, hd1⟩, by rw [a.made _ hdk]; exact h2,
        by rw [a.attempts, set_other _ _ hdk]; exact h3, by rw [a.view _ hr]; exact h4⟩
    nodup := by
      rw [a.pending]
      have := h.nodup
      rw [List.map_append, List.map_cons, List.nodup_append] at this
      obtain ⟨h1, h2, h3⟩ := this
      rw [List.map_append, List.nodup_append]
      exact ⟨h1, (List.nodup_cons.1 h2).2, fun x hx y hy => h3 x hx y (List.mem_cons_of_mem _ hy)⟩
    bound := fun i => by
      rw [a.attempts]
      by_cases hi : i = cmd.k
      · subst hi; rw [set_same]; omega
      · rw [set_other _ _ hi]; exact h.bound i
    settled := fun i hi => by
      rw [a.size] at hi
      by_cases hik : i = cmd.k
      · subst hik; exact .inr a.settled
      · rw [a.pending, a.made i hik, a.closed i hik]
        rcases h.settled i hi with h' | h' | h' | h'
        · left
          rw [List.map_append, List.map_cons] at h'
          rw [List.map_append]
          rcases List.mem_append.1 h' with h' | h'
          · exact List.mem_append_left _ h'
          · rcases List.mem_cons.1 h' with h' | h'
            · exact absurd h' hik
            · exact List.mem_append_right _ h'
        · exact .inr (.inl h')
        · exact .inr (.inr (.inl h'))
        · exact .inr (.inr (.inr h')) }

/-- The destination is given up. -/
theorem Inv.giveUp {cmd : Command} (h : Inv c (cmd :: todo) w.despawns w) (hs : c.drops cmd.k = false) :
    Take c cmd w.despawns w { w with attempts := set w.attempts cmd.k (w.attempts cmd.k + 1) } := by
  obtain ⟨⟨c0, hc0, hcmd⟩, hm0, ha0, hv0⟩ := h.pend cmd (by simp)
  have hm : ∀ {P : Prop}, w.made cmd.k ≠ [] → P := fun h' => absurd hm0 h'
  exact {
    next := Nat.le_refl _
    plain := id
    watches := fun e x _ hx => ⟨x, hx, rfl⟩
    next_eq := rfl
    pending := rfl
    size := rfl
    issued := rfl
    attempts := rfl
    made := fun _ _ => rfl
    once := h.once _
    closed := fun _ _ => rfl
    teardown := fun _ _ => rfl
    view := fun _ _ => rfl
    live := fun h' => hm h'
    held := fun u i hi => by
      have := hv0 _ (show w.view cmd.reserved = some (u, some i) from hi)
      cases this
    queued := fun h' => hm h'
    settled := .inr (.inr hs)
    despawns := fun _ h => h }

theorem Inv.closeTodo {cmd : Command} (h : Inv c (cmd :: todo) w.despawns w) :
    Take c cmd w.despawns w
      (({ w with attempts := set w.attempts cmd.k (w.attempts cmd.k + 1) } : World).close cmd.k) := by
  obtain ⟨⟨c0, hc0, hcmd⟩, hm0, ha0, hv0⟩ := h.pend cmd (by simp)
  generalize hw1 : ({ w with attempts := set w.attempts cmd.k (w.attempts cmd.k + 1) } : World) = w1
  have r := close_rest cmd.k w1
  have hv1 : (w1.close cmd.k).view = w.view := by rw [close_view, ← hw1]; rfl
  have hm1 : (w1.close cmd.k).made = w.made := by rw [r.made, ← hw1]
  have hk1 : Keeps w w1 := by rw [← hw1]; exact ⟨Nat.le_refl _, id, fun e x _ hx => ⟨x, hx, rfl⟩⟩
  have hm : ∀ {P : Prop}, (w1.close cmd.k).made cmd.k ≠ [] → P := fun h' => by
    rw [hm1] at h'; exact absurd hm0 h'
  exact {
    toKeeps := hk1.trans (close_keeps _ _)
    next_eq := by rw [close_next, ← hw1]
    pending := by rw [r.pending, ← hw1]
    size := by rw [r.size, ← hw1]
    issued := by rw [r.issued, ← hw1]
    attempts := by rw [r.attempts, ← hw1]
    made := fun _ _ => by rw [hm1]
    once := by rw [hm1]; exact h.once _
    closed := fun i hi => by
      have := close_closed cmd.k i w1
      rw [show w1.closed = w.closed by rw [← hw1]] at this
      exact Bool.eq_iff_iff.2 (this.trans (or_iff_left hi))
    teardown := fun _ _ => by rw [r.teardown, ← hw1]
    view := fun _ _ => by rw [hv1]
    live := fun h' => hm h'
    held := fun u i hi => by
      rw [hv1] at hi
      have := hv0 _ hi
      cases this
    queued := fun h' => hm h'
    settled := .inr (.inl ((close_closed _ _ _).2 (.inr rfl)))
    despawns := fun d hd => (close_despawns _ _ _).2 (.inl (by rw [← hw1]; exact hd)) }

/-- The destination is subscribed. -/
theorem Inv.attach {cmd : Command} {t o : Nat} (h : Inv c (cmd :: todo) w.despawns w) :
    ∃ w', ({ w with
        attempts := set w.attempts cmd.k (w.attempts cmd.k + 1)
        made := set w.made cmd.k (w.made cmd.k ++ [(t, o)]) } : World).attach c cmd = w' ∧ Take c cmd w.despawns w w' := by
  refine ⟨_, rfl, ?_⟩
  obtain ⟨⟨c0, hc0, hcmd⟩, hm0, ha0, hv0⟩ := h.pend cmd (by simp)
  have hns : ∀ u i, w.view cmd.reserved ≠ some (u, some i) := fun u i hi => by cases hv0 _ hi
  generalize hw1 : ({ w with
    attempts := set w.attempts cmd.k (w.attempts cmd.k + 1)
    made := set w.made cmd.k (w.made cmd.k ++ [(t, o)]) } : World) = w1
  have hmade : w1.made = set w.made cmd.k [(t, o)] := by rw [← hw1, hm0]; rfl
  have hatt : w1.attempts = set w.attempts cmd.k (w.attempts cmd.k + 1) := by rw [← hw1]
  have hk1 : Keeps w w1 := by rw [← hw1]; exact ⟨Nat.le_refl _, id, fun e x _ hx => ⟨x, hx, rfl⟩⟩
  have hn1 : w1.next = w.next := by rw [← hw1]
  have hv1 : w1.view = w.view := by rw [← hw1]; rfl
  have hp1 : w1.pending = w.pending := by rw [← hw1]
  have hs1 : w1.size = w.size := by rw [← hw1]
  have hi1 : w1.issued = w.issued := by rw [← hw1]
  have ht1 : w1.teardown = w.teardown := by rw [← hw1]
  have hc1 : w1.closed = w.closed := by rw [← hw1]
  have hd1 : w1.despawns = w.despawns := by rw [← hw1]
  unfold World.attach
  split
  · -- closed already
    have r := close_rest cmd.k w1
    have hk2 := hk1.trans (close_keeps cmd.k w1)
    have hn2 := (close_next cmd.k w1).trans hn1
    have hv2 := (close_view cmd.k w1).trans hv1
    have hcl : ∀ i, (w1.close cmd.k).closed i = true ↔ w.closed i = true ∨ i = cmd.k := fun i => by
      rw [close_closed, hc1]
    have hdd : ∀ d ∈ w.despawns, d ∈ (w1.close cmd.k).despawns := fun d hd =>
      (close_despawns _ _ _).2 (.inl (by rw [hd1]; exact hd))
    generalize w1.close cmd.k = w2 at r hk2 hn2 hv2 hcl hdd
    have l := despawn_lose (e := cmd.reserved) (hk2.plain h.plain)
    have hcl3 : ∀ i, (w2.despawn cmd.reserved).closed i = w2.closed i := fun i => by
      have := l.closed i
      rw [hv2] at this
      have hno : ¬ ∃ u, w.view cmd.reserved = some (u, some i) := fun ⟨u, hu⟩ => hns u i hu
      exact Bool.eq_iff_iff.2 (this.trans (or_iff_left hno))
    have hvr : (w2.despawn cmd.reserved).view cmd.reserved = none := by rw [l.view, if_pos rfl]
    exact {
      toKeeps := hk2.trans l.toKeeps
      next_eq := l.next_eq.trans hn2
      pending := by rw [l.pending, r.pending, hp1]
      size := by rw [l.size, r.size, hs1]
      issued := by rw [l.issued, r.issued, hi1]
      attempts := by rw [l.attempts, r.attempts, hatt]
      made := fun i hi => by rw [l.made, r.made, hmade, set_other _ _ hi]
      once := by rw [l.made, r.made, hmade, set_same]; exact Nat.le_refl _
      closed := fun i hi => by
        rw [hcl3]
        exact Bool.eq_iff_iff.2 ((hcl i).trans (or_iff_left hi))
      teardown := fun i hi => by rw [l.teardown, r.teardown, ht1]
      view := fun d hd => by rw [l.view, if_neg hd, hv2]
      live := fun _ hc => by rw [hcl3, (hcl _).2 (.inr rfl)] at hc; cases hc
      held := fun u i hv => by rw [hvr] at hv; cases hv
      queued := fun _ _ hv => absurd hvr hv
      settled := .inr (.inl (by rw [hcl3]; exact (hcl _).2 (.inr rfl)))
      despawns := fun d hd => l.despawns d (hdd d hd) }
  · rename_i hopen
    rw [Bool.or_eq_true, not_or] at hopen
    have hcf : w.closed cmd.k = false := by rw [hc1] at hopen; exact Bool.eq_false_iff.2 hopen.2
    dsimp only
    split
    · rename_i x hx
      have hx0 : w.ent cmd.reserved = some x := by
        have : w1.ent = w.ent := by rw [← hw1]
        rw [← this]; exact hx
      have hxw : x.watches = none := by
        have := h.body _ c0 x hc0
        rw [show c0.reserved = cmd.reserved by rw [hcmd]] at this
        exact this hx0
      have hent : w1.ent = w.ent := by rw [← hw1]
      have hlt : cmd.reserved < w.next := Nat.lt_of_not_le fun h' => by rw [h.plain.1 _ h'] at hx0; cases hx0
      generalize hx' : ({ x with subscription := some cmd.k, unfinished := false } : Entity) = x'
      have hold : ∀ d y, set w1.ent cmd.reserved (some x') d = some y →
          ∃ z, w.ent d = some z ∧ y.watches = z.watches ∧ y.ref = z.ref ∧
            (z.watches ≠ none → y.subscription = z.subscription ∧ y.unfinished = z.unfinished) := by
        intro d y hy
        rw [hent] at hy
        by_cases hd : d = cmd.reserved
        · subst hd
          rw [set_same] at hy
          cases hy
          exact ⟨x, hx0, by rw [← hx'], by rw [← hx'], fun h => absurd hxw h⟩
        · rw [set_other _ _ hd] at hy; exact ⟨y, hy, rfl, rfl, fun _ => ⟨rfl, rfl⟩⟩
      have hview : ∀ d, look (set w1.ent cmd.reserved (some x') d) =
          if d = cmd.reserved then some (false, some cmd.k) else w.view d := by
        intro d
        rw [hent]
        by_cases hd : d = cmd.reserved
        · subst hd; rw [set_same, ← hx']; simp [look, hxw]
        · rw [set_other _ _ hd]; simp [hd, World.view]
      exact {
        next := Nat.le_of_eq hn1.symm
        plain := fun hp => by
          refine ⟨fun d hd => ?_, fun d y hy hs => ?_, fun d y p t hy ht => ?_⟩
          · dsimp only at hd ⊢
            rw [hn1] at hd
            rw [hent, set_other _ _ (show d ≠ cmd.reserved by omega)]; exact hp.1 d hd
          · obtain ⟨z, hz, a1, a2, a3⟩ := hold d y hy
            rw [a1] at hs
            have := a3 (fun hn => by rw [hn] at hs; cases hs)
            rw [this.1, this.2]
            exact hp.2.1 d z hz hs
          · obtain ⟨z, hz, a1, a2, a3⟩ := hold d y hy
            rw [a2] at ht
            have key := hp.2.2 d z p t hz ht
            refine ⟨by dsimp only; rw [hn1]; exact key.1, fun b hb => ?_⟩
            obtain ⟨b', hb', e1, _⟩ := hold t b hb
            rw [e1]; exact key.2 b' hb'
        watches := fun e y _ hy => by
          obtain ⟨z, hz, a1, _⟩ := hold e y hy
          exact ⟨z, hz, a1⟩
        next_eq := hn1
        pending := hp1
        size := hs1
        issued := hi1
        attempts := hatt
        made := fun i hi => by dsimp only; rw [hmade, set_other _ _ hi]
        once := by dsimp only; rw [hmade, set_same]; exact Nat.le_refl _
        closed := fun i hi => by dsimp only; rw [hc1]
        teardown := fun i hi => by dsimp only; rw [set_other _ _ hi, ht1]
        view := fun d hd => (hview d).trans (if_neg hd)
        live := fun _ _ => (hview _).trans (if_pos rfl)
        held := fun u i hv => by
          have := ((hview cmd.reserved).trans (if_pos rfl)).symm.trans hv
          cases this
          exact ⟨rfl, rfl, by dsimp only; rw [hmade, set_same]; simp, set_same ..⟩
        queued := fun _ hc => by dsimp only at hc; rw [hc1, hcf] at hc; cases hc
        settled := .inl (by dsimp only; rw [hmade, set_same]; simp)
        despawns := fun d hd => by dsimp only; rw [hd1]; exact hd }
    · rename_i hx
      have hx0 : w.ent cmd.reserved = none := by
        have : w1.ent = w.ent := by rw [← hw1]
        rw [← this]; exact hx
      have hvr : w.view cmd.reserved = none := by unfold World.view; rw [hx0]; rfl
      generalize hw2 : ({ w1 with
        teardown := set w1.teardown cmd.k (some cmd.reserved)
        faults := w1.faults ++ [cmd.k] } : World) = w2
      have r := close_rest cmd.k w2
      have hk2 : Keeps w w2 := by rw [← hw2]; exact ⟨hk1.next, hk1.plain, hk1.watches⟩
      have hv2 : (w2.close cmd.k).view = w.view := by rw [close_view, ← hw2]; exact hv1
      exact {
        toKeeps := hk2.trans (close_keeps _ _)
        next_eq := by rw [close_next, ← hw2]; exact hn1
        pending := by rw [r.pending, ← hw2]; exact hp1
        size := by rw [r.size, ← hw2]; exact hs1
        issued := by rw [r.issued, ← hw2]; exact hi1
        attempts := by rw [r.attempts, ← hw2]; exact hatt
        made := fun i hi => by rw [r.made, ← hw2]; dsimp only; rw [hmade, set_other _ _ hi]
        once := by rw [r.made, ← hw2]; dsimp only; rw [hmade, set_same]; exact Nat.le_refl _
        closed := fun i hi => by
          have := close_closed cmd.k i w2
          have hc2 : w2.closed = w.closed := by rw [← hw2]; exact hc1
          rw [hc2] at this
          exact Bool.eq_iff_iff.2 (this.trans (or_iff_left hi))
        teardown := fun i hi => by rw [r.teardown, ← hw2]; dsimp only; rw [set_other _ _ hi, ht1]
        view := fun d hd => by rw [hv2]
        live := fun _ hc => by rw [(close_closed _ _ _).2 (.inr rfl)] at hc; cases hc
        held := fun u i hv => by rw [hv2, hvr] at hv; cases hv
        queued := fun _ _ hv => by rw [hv2] at hv; exact absurd hvr hv
        settled := .inr (.inl ((close_closed _ _ _).2 (.inr rfl)))
        despawns := fun d hd => (close_despawns _ _ _).2 (.inl (by rw [← hw2]; dsimp only; rw [hd1]; exact hd)) }

theorem apply_observers {cmd : Command} : (w.apply c cmd) =
    if (w.observers c cmd.target cmd.types).isEmpty = false then
      ({ w with attempts := set w.attempts cmd.k (w.attempts cmd.k + 1) } : World).trigger c cmd
    else if 0 < cmd.retries then
      { w with
        attempts := set w.attempts cmd.k (w.attempts cmd.k + 1)
        pending := w.pending ++ [{ cmd with retries := cmd.retries - 1 }] }
    else ({ w with attempts := set w.attempts cmd.k (w.attempts cmd.k + 1) } : World).close cmd.k := rfl

/-- A subscribe command ends, or is retried. -/
theorem Inv.apply_cases {cmd : Command} (h : Inv c (cmd :: todo) w.despawns w) :
    Take c cmd w.despawns w (w.apply c cmd) ∨ (0 < cmd.retries ∧ w.apply c cmd =
      { w with
        attempts := set w.attempts cmd.k (w.attempts cmd.k + 1)
        pending := w.pending ++ [{ cmd with retries := cmd.retries - 1 }] }) := by
  rw [apply_observers]
  split
  · left
    unfold World.trigger
    split
    · exact h.closeTodo
    · have give : Take c cmd w.despawns w (if c.drops cmd.k then
          ({ w with attempts := set w.attempts cmd.k (w.attempts cmd.k + 1) } : World).close cmd.k else
          { w with attempts := set w.attempts cmd.k (w.attempts cmd.k + 1) }) := by
        split
        · exact h.closeTodo
        · rename_i hd
          exact h.giveUp (Bool.eq_false_iff.2 hd)
      split
      · split
        · obtain ⟨w', hw', h'⟩ := h.attach (t := cmd.target) (o := _)
          dsimp only
          rw [hw']; exact h'
        · exact give
      · exact give
  · split
    · rename_i hr
      exact .inr ⟨hr, rfl⟩
    · exact .inl h.closeTodo

theorem Inv.apply {cmd : Command} (h : Inv c (cmd :: todo) w.despawns w) :
    Inv c todo (w.apply c cmd).despawns (w.apply c cmd) := by
  rcases h.apply_cases with tk | ⟨hr, he⟩
  · exact (h.take tk).mono tk.despawns
  · rw [he]
    · obtain ⟨⟨c0, hc0, hcmd⟩, hm0, ha0, hv0⟩ := h.pend cmd (by simp)
      have hnd := h.nodup
      have hmem : ∀ d ∈ (w.pending ++ [{ cmd with retries := cmd.retries - 1 }]) ++ todo,
          d = { cmd with retries := cmd.retries - 1 } ∨ d ∈ w.pending ++ todo := by
        intro d hd
        simp only [List.append_assoc, List.mem_append, List.mem_cons, List.not_mem_nil, or_false] at hd ⊢
        rcases hd with hd | hd | hd
        · exact .inr (.inl hd)
        · exact .inl hd
        · exact .inr (.inr hd)
      have hne : ∀ d ∈ w.pending ++ todo, d.k ≠ cmd.k := by
        intro d hd hk
        rw [List.map_append, List.map_cons, List.nodup_append] at hnd
        obtain ⟨_, h2, h3⟩ := hnd
        rcases List.mem_append.1 hd with hd | hd
        · exact h3 _ (List.mem_map_of_mem hd) cmd.k (by simp) hk
        · exact (List.nodup_cons.1 h2).1 (hk ▸ List.mem_map_of_mem hd)
      have hkeys : ((w.pending ++ [({ cmd with retries := cmd.retries - 1 } : Command)]) ++ todo).map (·.k) =
          (w.pending ++ cmd :: todo).map (·.k) := by simp
      have hks : cmd.k < w.size := Nat.lt_of_not_le fun h' => by rw [(h.fresh _ h').1] at hc0; cases hc0
      exact {
        plain := h.plain
        fresh := fun i hi => by
          dsimp only at hi ⊢
          rw [set_other _ _ (show i ≠ cmd.k by omega)]; exact h.fresh i hi
        old := h.old
        known := h.known
        inj := h.inj
        body := h.body
        once := h.once
        live := h.live
        held := h.held
        queued := h.queued
        pend := fun d hd => by
          rcases hmem d hd with rfl | hd'
          · refine ⟨⟨c0, hc0, ?_⟩, hm0, ?_, hv0⟩
            · dsimp only; rw [hcmd]
            · dsimp only; rw [set_same]; omega
          · dsimp only
            rw [set_other _ _ (hne d hd')]
            exact h.pend d (by
              rcases List.mem_append.1 hd' with h' | h'
              · exact List.mem_append_left _ h'
              · exact List.mem_append_right _ (List.mem_cons_of_mem _ h'))
        nodup := by dsimp only; rw [hkeys]; exact hnd
        bound := fun i => by
          dsimp only
          by_cases hi : i = cmd.k
          · subst hi; rw [set_same]; omega
          · rw [set_other _ _ hi]; exact h.bound i
        settled := fun i hi => by dsimp only; rw [hkeys]; exact h.settled i hi }

/-- A subscribe command is issued. -/
@[reducible] def issue (t y : Nat) (w : World) : World :=
  { w with
    ent := set w.ent w.next (some { unfinished := true })
    next := w.next + 1
    size := w.size + 1
    issued := set w.issued w.size (some ⟨w.size, t, y, w.next, maxRetries⟩) }

theorem subscribe_issue (t y : Nat) (w : World) :
    w.subscribe c t y = (w.issue t y).apply c ⟨w.size, t, y, w.next, maxRetries⟩ := rfl

theorem Inv.subscribe_todo (t y : Nat) (h : Inv c [] w.despawns w) :
    Inv c [⟨w.size, t, y, w.next, maxRetries⟩] (w.issue t y).despawns (w.issue t y) := by
  have hres : ∀ k cmd, w.issued k = some cmd → cmd.reserved ≠ w.next := fun k cmd hk he => by
    have := (h.old k cmd hk).2; omega
  have hks : ∀ k cmd, w.issued k = some cmd → k ≠ w.size := fun k cmd hk he => by
    rw [he, (h.fresh _ (Nat.le_refl _)).1] at hk; cases hk
  have hview : ∀ d, look (set w.ent w.next (some { unfinished := true }) d) =
      if d = w.next then some (true, none) else w.view d := by
    intro d
    by_cases hd : d = w.next
    · subst hd; rw [set_same]; simp [look]
    · rw [set_other _ _ hd]; simp [hd, World.view]
  have hiss : ∀ k cmd, set w.issued w.size (some ⟨w.size, t, y, w.next, maxRetries⟩) k = some cmd →
      (k = w.size ∧ cmd = ⟨w.size, t, y, w.next, maxRetries⟩) ∨ (k ≠ w.size ∧ w.issued k = some cmd) := by
    intro k cmd hk
    by_cases hk' : k = w.size
    · subst hk'; rw [set_same] at hk; cases hk; exact .inl ⟨rfl, rfl⟩
    · rw [set_other _ _ hk'] at hk; exact .inr ⟨hk', hk⟩
  have hf := h.fresh w.size (Nat.le_refl _)
  exact {
    plain := by
      refine ⟨fun e he => ?_, fun e x hx hs => ?_, fun e x o s hx ht => ?_⟩
      · dsimp only at he ⊢
        rw [set_other _ _ (show e ≠ w.next by omega)]; exact h.plain.1 e (by omega)
      · dsimp only at hx
        by_cases hen : e = w.next
        · subst hen; rw [set_same] at hx; cases hx; cases hs
        · rw [set_other _ _ hen] at hx; exact h.plain.2.1 e x hx hs
      · dsimp only at hx ⊢
        by_cases hen : e = w.next
        · subst hen; rw [set_same] at hx; cases hx; cases ht
        · rw [set_other _ _ hen] at hx
          have key := h.plain.2.2 e x o s hx ht
          refine ⟨by omega, fun z hz => key.2 z ?_⟩
          rwa [set_other _ _ (show s ≠ w.next by omega)] at hz
    fresh := fun i hi => by
      dsimp only at hi ⊢
      rw [set_other _ _ (show i ≠ w.size by omega)]; exact h.fresh i (by omega)
    old := fun i ci hi => by
      dsimp only
      rcases hiss i ci hi with ⟨rfl, rfl⟩ | ⟨_, hi⟩
      · exact ⟨rfl, Nat.lt_succ_self _⟩
      · exact ⟨(h.old i ci hi).1, Nat.lt_succ_of_lt (h.old i ci hi).2⟩
    known := fun i hi => by
      dsimp only at hi ⊢
      by_cases hi' : i = w.size
      · subst hi'; rw [set_same]; exact ⟨_, rfl⟩
      · rw [set_other _ _ hi']; exact h.known i (by omega)
    inj := fun i j a b ha hb hr => by
      rcases hiss i a ha with ⟨rfl, rfl⟩ | ⟨_, ha⟩ <;> rcases hiss j b hb with ⟨rfl, rfl⟩ | ⟨_, hb⟩
      · rfl
      · exact absurd hr.symm (hres j b hb)
      · exact absurd hr (hres i a ha)
      · exact h.inj i j a b ha hb hr
    body := fun i ci x hi hx => by
      dsimp only at hx
      rcases hiss i ci hi with ⟨rfl, rfl⟩ | ⟨_, hi⟩
      · dsimp only at hx; rw [set_same] at hx; cases hx; rfl
      · rw [set_other _ _ (hres i ci hi)] at hx; exact h.body i ci x hi hx
    once := h.once
    live := fun i ci hi hm hc => by
      rcases hiss i ci hi with ⟨rfl, rfl⟩ | ⟨_, hi⟩
      · exact absurd hf.2.1 hm
      · exact ((hview _).trans (if_neg (hres i ci hi))).trans (h.live i ci hi hm hc)
    held := fun e u i hv => by
      have hv' := (hview e).symm.trans hv
      split at hv'
      · cases hv'
      · obtain ⟨h1, h2, h3, ci, h4, h5⟩ := h.held e u i hv'
        exact ⟨h1, h2, h3, ci, (set_other _ _ (hks i ci h4)).trans h4, h5⟩
    queued := fun i ci hi hm hc hv => by
      rcases hiss i ci hi with ⟨rfl, rfl⟩ | ⟨_, hi⟩
      · exact absurd hf.2.1 hm
      · refine h.queued i ci hi hm hc fun hn => hv ?_
        exact ((hview _).trans (if_neg (hres i ci hi))).trans hn
    pend := fun d hd => by
      dsimp only at hd
      rcases List.mem_append.1 hd with hd | hd
      · obtain ⟨⟨c1, hc1, hd1⟩, h2, h3, h4⟩ := h.pend d (List.mem_append_left _ hd)
        have hr : d.reserved ≠ w.next := by rw [hd1]; exact hres _ c1 hc1
        refine ⟨⟨c1, (set_other _ _ (hks _ c1 hc1)).trans hc1, hd1⟩, h2, h3, fun v hv => h4 v ?_⟩
        exact ((hview _).trans (if_neg hr)).symm.trans hv
      · rw [List.mem_singleton] at hd
        subst hd
        refine ⟨⟨_, set_same .., rfl⟩, hf.2.1, ?_, fun v hv => ?_⟩
        · dsimp only; rw [hf.2.2]; exact Nat.zero_add _
        · have := ((hview w.next).trans (if_pos rfl)).symm.trans hv
          cases this; rfl
    nodup := by
      dsimp only
      rw [List.map_append, List.nodup_append]
      have := h.nodup
      rw [List.append_nil] at this
      refine ⟨this, by simp, fun a ha b hb hab => ?_⟩
      simp only [List.map_cons, List.map_nil, List.mem_singleton] at hb
      obtain ⟨d, hd, rfl⟩ := List.mem_map.1 ha
      obtain ⟨⟨c1, hc1, _⟩, _⟩ := h.pend d (List.mem_append_left _ hd)
      exact hks _ c1 hc1 (hab.trans hb)
    bound := h.bound
    settled := fun i hi => by
      dsimp only at hi ⊢
      by_cases hi' : i = w.size
      · subst hi'; left; simp
      · rcases h.settled i (by omega) with h' | h' | h' | h'
        · left
          rw [List.append_nil] at h'
          rw [List.map_append]
          exact List.mem_append_left _ h'
        · exact .inr (.inl h')
        · exact .inr (.inr (.inl h'))
        · exact .inr (.inr (.inr h')) }

theorem Inv.subscribe (t y : Nat) (h : Inv c [] w.despawns w) :
    Inv c [] (w.subscribe c t y).despawns (w.subscribe c t y) :=
  Inv.apply (todo := []) (h.subscribe_todo t y)

theorem Inv.applyAll (l : List Command) (h : Inv c l w.despawns w) :
    Inv c [] (l.foldl (fun w cmd => w.apply c cmd) w).despawns (l.foldl (fun w cmd => w.apply c cmd) w) := by
  induction l generalizing w with
  | nil => exact h
  | cons cmd l ih => exact ih h.apply

theorem Inv.requeue (h : Inv c [] q w) : Inv c w.pending q { w with pending := [] } :=
  { h with
    pend := fun cmd hc => h.pend cmd (by simpa using hc)
    nodup := by simpa using h.nodup
    settled := fun k hk => by simpa using h.settled k hk }

theorem Inv.retry (h : Inv c [] w.despawns w) : Inv c [] (w.retry c).despawns (w.retry c) :=
  Inv.applyAll _ (w := { w with pending := [] }) h.requeue

theorem Inv.despawnAll (l : List Nat) (h : Inv c todo (l ++ q) w) :
    Inv c todo q (l.foldl (fun w e => w.despawn e) w) := by
  induction l generalizing w with
  | nil => exact h
  | cons e l ih => exact ih (h.despawn e)

theorem despawnAll_despawns (l : List Nat) (hp : w.Plain) :
    ∀ d ∈ w.despawns, d ∈ (l.foldl (fun w e => w.despawn e) w).despawns := by
  induction l generalizing w with
  | nil => exact fun _ h => h
  | cons e l ih =>
    intro d hd
    have a := despawn_lose (e := e) hp
    exact ih (a.plain hp) d (a.despawns d hd)

theorem Inv.clean (h : Inv c todo w.despawns w) : Inv c todo w.clean.despawns w.clean := by
  unfold World.clean
  refine ((h.mono ?_).despawnAll _).mono (despawnAll_despawns _ h.plain)
  exact fun d hd => List.mem_append_right _ hd

theorem Inv.tick_none (h : Inv c todo w.despawns w) : Inv c todo [] w.tick := by
  unfold World.tick
  refine Inv.despawnAll (w := { w with despawns := [] }) _ ?_
  rw [List.append_nil]
  exact { h with }

theorem Inv.tick (h : Inv c todo w.despawns w) : Inv c todo w.tick.despawns w.tick :=
  h.tick_none.mono fun _ hd => (nomatch hd)

theorem Inv.closeAll (l : List Nat) (h : Inv c todo w.despawns w) :
    Inv c todo (l.foldl (fun w k => w.close k) w).despawns (l.foldl (fun w k => w.close k) w) := by
  induction l generalizing w with
  | nil => exact h
  | cons k l ih => exact ih (h.close k)

theorem Inv.exit (h : Inv c [] w.despawns w) : Inv c [] (w.exit c).despawns (w.exit c) := h.retry.closeAll _

theorem Inv.step (h : Inv c [] w.despawns w) (op : Op) : Inv c [] (w.step c op).despawns (w.step c op) := by
  cases op with
  | spawn => exact h.spawn
  | insertObservable e o =>
    have := h.insertObservable e o
    refine this.mono fun d hd => ?_
    unfold World.step World.insertObservable
    dsimp only
    repeat' split
    all_goals exact hd
  | removeObservable e o =>
    have := h.removeObservable e o
    refine this.mono fun d hd => ?_
    unfold World.step World.removeObservable
    dsimp only
    repeat' split
    all_goals first | exact hd | (rw [despawnSatellite_despawns]; exact hd)
  | removeSubscription e => exact h.removeSubscription e
  | despawn e =>
    exact ((h.mono fun d hd => List.mem_cons_of_mem e hd).despawn e).mono (despawn_lose h.plain).despawns
  | subscribe t y => exact h.subscribe t y
  | close k =>
    unfold World.step
    dsimp only
    split
    · exact h.close k
    · exact h
  | retry => exact h.retry
  | clean => exact h.clean
  | tick => exact h.tick
  | exit => exact h.exit

theorem Inv.run (c : Cfg) (ops : List Op) : Inv c [] (World.run c ops).despawns (World.run c ops) := by
  unfold World.run
  suffices ∀ w : World, Inv c [] w.despawns w →
      Inv c [] (ops.foldl (World.step c) w).despawns (ops.foldl (World.step c) w) from this _ .start
  induction ops with
  | nil => exact fun _ h => h
  | cons op ops ih => exact fun w h => ih _ (h.step op)

end World
end Rx.Bevy
