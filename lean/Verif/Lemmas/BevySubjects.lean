import Verif.Spec.BevySubjects

/-! Subjects on entities: the invariant. -/

namespace Rx.BevySubjects

variable {I E : Type} {c : Cfg} {w : World I E}

namespace World

/-- The satellites of this type on this entity. -/
def watchers (w : World I E) (e o : Nat) : List (Nat × Nat × Nat) := w.satellites.filter fun s => s.2 == (e, o)

/-- What holds of the world, after a history in which `x` was seen of the pair. -/
structure Inv (w : World I E) (e o : Nat) (x : Seen) : Prop where
  spawned : w.spawned = x.spawned
  alive : w.alive e = x.alive
  unborn : x.spawned ≤ e → x.alive = false ∧ w.watchers e o = [] ∧ x.here = false ∧ x.again = 0
  dead : x.alive = false → x.here = false ∧ w.watchers e o = []
  here : x.here = true ↔ ∃ k, k < w.subjects ∧ w.place k = some (e, o)
  fresh : ∀ k, w.subjects ≤ k → w.place k = none
  one : ∀ i j, w.place i = some (e, o) → w.place j = some (e, o) → i = j
  count : x.alive = true → (w.watchers e o).length = x.again + if x.here then 1 else 0
  ref : x.here = true → (w.ref e o).isSome = true
  refs : ∀ e' o' s, w.ref e' o' = some s → (s, e', o') ∈ w.satellites
  ids : (w.satellites.map Prod.fst).Nodup
  lt : ∀ s ∈ w.satellites, s.1 < w.nextSatellite

theorem has_iff {e o : Nat} : w.has e o = true ↔ ∃ k, k < w.subjects ∧ w.place k = some (e, o) := by
  rw [has, List.any_eq_true]
  constructor
  · rintro ⟨k, h1, h2⟩
    exact ⟨k, List.mem_range.1 h1, beq_iff_eq.1 h2⟩
  · rintro ⟨k, h1, h2⟩
    exact ⟨k, List.mem_range.2 h1, beq_iff_eq.2 h2⟩

/-- Observers are run: only calls change. -/
theorem pushes (n : ObserverNotification I E) : ∀ (l : List (Nat × Nat × Nat)) (w : World I E),
    ∃ f, l.foldl (push n) w = { w with calls := f } ∧
      ∀ k, f k = w.calls k ++ List.replicate (l.countP fun s => w.place k == some s.2) (.note n)
  | [], w => ⟨w.calls, rfl, fun k => by simp⟩
  | s :: l, w => by
    obtain ⟨f, h1, h2⟩ := pushes n l (push n w s)
    refine ⟨f, h1, fun k => ?_⟩
    rw [h2 k, List.countP_cons]
    show (if (w.place k == some s.2) = true then w.calls k ++ [.note n] else w.calls k) ++
      List.replicate (l.countP fun s => w.place k == some s.2) (.note n) = _
    split
    · rw [List.append_assoc, List.replicate_succ]; rfl
    · rfl

/-- A signal is given to a subject once for each of its satellites. -/
theorem signal_spec (ho : ∀ l, (c.ord l).Perm l) (e y : Nat) (n : ObserverNotification I E) :
    ∃ f, w.signal c e y n = { w with calls := f } ∧
      (∀ k e' o, w.place k = some (e', o) → f k = if e' = e ∧ y = c.inp o then
        w.calls k ++ List.replicate (w.watchers e o).length (.note n) else w.calls k) ∧
      ∀ k, w.place k = none → f k = w.calls k := by
  obtain ⟨f, h1, h2⟩ := pushes n (c.ord (w.satellites.filter fun s => s.2.1 == e && c.inp s.2.2 == y)) w
  refine ⟨f, h1, fun k e' o hk => ?_, fun k hk => ?_⟩
  · rw [h2 k, (ho _).countP_eq, List.countP_filter, hk]
    split
    · rename_i h
      obtain ⟨rfl, rfl⟩ := h
      rw [watchers, ← List.countP_eq_length_filter]
      congr 2
      refine List.countP_congr fun s _ => ?_
      obtain ⟨a, b, d⟩ := s
      simp only [Bool.and_eq_true, beq_iff_eq, Option.some.injEq, Prod.mk.injEq]
      constructor
      · rintro ⟨⟨rfl, rfl⟩, _⟩; exact ⟨rfl, rfl⟩
      · rintro ⟨rfl, rfl⟩; exact ⟨⟨rfl, rfl⟩, rfl, rfl⟩
    · rename_i h
      have : (w.satellites.countP fun s => (some (e', o) == some s.2) && (s.2.1 == e && c.inp s.2.2 == y)) = 0 := by
        rw [List.countP_eq_zero]
        rintro ⟨a, b, d⟩ _ hh
        simp only [Bool.and_eq_true, beq_iff_eq, Option.some.injEq, Prod.mk.injEq] at hh
        obtain ⟨⟨rfl, rfl⟩, rfl, rfl⟩ := hh
        exact h ⟨rfl, rfl⟩
      rw [this]; simp
  · rw [h2 k, hk]
    have : ((c.ord (w.satellites.filter fun s => s.2.1 == e && c.inp s.2.2 == y)).countP
        fun s => (none : Option (Nat × Nat)) == some s.2) = 0 := by
      rw [List.countP_eq_zero]; intro s _ hh; exact absurd hh (by simp)
    rw [this]; simp

theorem Inv.start (e o : Nat) : ({} : World I E).Inv e o {} where
  spawned := rfl
  alive := rfl
  unborn _ := ⟨rfl, rfl, rfl, rfl⟩
  dead _ := ⟨rfl, rfl⟩
  here := ⟨fun h => absurd h (by decide), fun ⟨_, h, _⟩ => absurd h (Nat.not_lt_zero _)⟩
  fresh _ _ := rfl
  one _ _ h := absurd (show none = _ from h) (by simp)
  count h := absurd h (by decide)
  ref h := absurd h (by decide)
  refs _ _ _ h := absurd (show none = _ from h) (by simp)
  ids := List.nodup_nil
  lt _ h := absurd h (by simp)

/-- Calls do not matter. -/
theorem Inv.calls {e o : Nat} {x : Seen} (h : w.Inv e o x) (f : Nat → List (Call I E)) :
    ({ w with calls := f } : World I E).Inv e o x :=
  ⟨h.spawned, h.alive, h.unborn, h.dead, h.here, h.fresh, h.one, h.count, h.ref, h.refs, h.ids, h.lt⟩

theorem watchers_insert {e o e' o' i : Nat} {l : List (Nat × Nat × Nat)} :
    (l ++ [(i, e', o')]).filter (fun s => s.2 == (e, o)) =
      l.filter (fun s => s.2 == (e, o)) ++ if e' = e ∧ o' = o then [(i, e', o')] else [] := by
  rw [List.filter_append]
  congr 1
  by_cases h : e' = e ∧ o' = o
  · rw [if_pos h, List.filter_cons_of_pos (by simp [h])]; rfl
  · rw [if_neg h, List.filter_cons_of_neg (by simpa using h)]; rfl

theorem Inv.insert {e o e' o' : Nat} {x : Seen} (h : w.Inv e o x) :
    (w.insert e' o').Inv e o (x.see e o (.insert e' o' : Op I E)) := by
  rw [World.insert]
  split
  · rename_i ha
    have hids : ((w.satellites ++ [(w.nextSatellite, e', o')]).map Prod.fst).Nodup := by
      rw [List.map_append, List.nodup_append]
      refine ⟨h.ids, by simp, ?_⟩
      intro a ha b hb
      obtain ⟨s, hs, rfl⟩ := List.mem_map.1 ha
      have : b = w.nextSatellite := by simpa using hb
      rw [this]; exact Nat.ne_of_lt (h.lt s hs)
    have hlt : ∀ s ∈ w.satellites ++ [(w.nextSatellite, e', o')], s.1 < w.nextSatellite + 1 := by
      intro s hs
      rcases List.mem_append.1 hs with hs | hs
      · exact Nat.lt_succ_of_lt (h.lt s hs)
      · have : s = (w.nextSatellite, e', o') := by simpa using hs
        rw [this]; exact Nat.lt_succ_self _
    have hrefs : ∀ e1 o1 s, (if e1 = e' ∧ o1 = o' then some w.nextSatellite else w.ref e1 o1) = some s →
        (s, e1, o1) ∈ w.satellites ++ [(w.nextSatellite, e', o')] := fun e1 o1 s hs => by
      split at hs
      · rename_i hh
        rw [← Option.some.inj hs, hh.1, hh.2]
        exact List.mem_append_right _ (by simp)
      · exact List.mem_append_left _ (h.refs _ _ _ hs)
    by_cases he : e' = e ∧ o' = o
    · obtain ⟨rfl, rfl⟩ := he
      have hx : x.alive = true := h.alive ▸ ha
      rw [Seen.see, if_pos ⟨rfl, rfl, hx⟩]
      refine ⟨h.spawned, h.alive, fun hs => ?_, fun hs => ?_, ⟨fun _ => ⟨w.subjects, Nat.lt_succ_self _, if_pos rfl⟩,
        fun _ => rfl⟩, fun k hk => ?_, fun i j hi hj => ?_, fun _ => ?_, fun _ => congrArg Option.isSome (if_pos ⟨rfl, rfl⟩),
        hrefs, hids, hlt⟩
      · exact absurd ((h.unborn hs).1) (by rw [hx]; decide)
      · exact absurd (show x.alive = false from hs) (by rw [hx]; decide)
      · have hk : w.subjects + 1 ≤ k := hk
        show (if k = w.subjects then _ else if w.place k = some (e', o') then none else w.place k) = none
        rw [if_neg (by omega), h.fresh k (by omega)]; simp
      · have key : ∀ i, (if i = w.subjects then some (e', o') else if w.place i = some (e', o') then none else w.place i) =
            some (e', o') → i = w.subjects := fun i hi => by
          split at hi
          · assumption
          · split at hi
            · exact absurd hi (by simp)
            · exact absurd hi ‹_›
        rw [key i hi, key j hj]
      · show ((w.satellites ++ [(w.nextSatellite, e', o')]).filter _).length = _
        rw [watchers_insert, if_pos ⟨rfl, rfl⟩, List.length_append]
        have := h.count hx
        rw [watchers] at this
        rw [this]
        cases x.here <;> simp
    · have hse : x.see e o (.insert e' o' : Op I E) = x := by
        rw [Seen.see, if_neg fun k => he ⟨k.1, k.2.1⟩]
      rw [hse]
      have hwa : ∀ z : World I E, z.satellites = w.satellites ++ [(w.nextSatellite, e', o')] → z.watchers e o = w.watchers e o := by
        intro z hz
        rw [watchers, hz, watchers_insert, if_neg he, List.append_nil]; rfl
      have hpl : ∀ k, (if k = w.subjects then some (e', o') else if w.place k = some (e', o') then none else w.place k) =
          some (e, o) ↔ w.place k = some (e, o) := fun k => by
        have hne : some (e', o') ≠ some (e, o) := fun hh => he (by simpa using hh)
        split
        · rename_i hk
          rw [hk, h.fresh _ (Nat.le_refl _)]
          simp [hne]
        · split
          · rename_i hk; rw [hk]; simp; simpa using he
          · rfl
      refine ⟨h.spawned, h.alive, fun hs => ?_, fun hs => ?_, ?_, fun k hk => ?_, fun i j hi hj => ?_, fun hs => ?_, fun hs => ?_,
        hrefs, hids, hlt⟩
      · rw [hwa _ rfl]; exact h.unborn hs
      · rw [hwa _ rfl]; exact h.dead hs
      · rw [h.here]
        constructor
        · rintro ⟨k, h1, h2⟩; exact ⟨k, Nat.lt_succ_of_lt h1, (hpl k).2 h2⟩
        · rintro ⟨k, h1, h2⟩
          have h2 := (hpl k).1 h2
          refine ⟨k, ?_, h2⟩
          rcases Nat.lt_or_ge k w.subjects with hk | hk
          · exact hk
          · rw [h.fresh k hk] at h2; exact absurd h2 (by simp)
      · have hk : w.subjects + 1 ≤ k := hk
        show (if k = w.subjects then _ else if w.place k = some (e', o') then none else w.place k) = none
        rw [if_neg (by omega), h.fresh k (by omega)]; simp
      · exact h.one i j ((hpl i).1 hi) ((hpl j).1 hj)
      · rw [hwa _ rfl]; exact h.count hs
      · exact (congrArg Option.isSome (if_neg fun k => he ⟨k.1.symm, k.2.symm⟩)).trans (h.ref hs)
  · rename_i ha
    have hse : x.see e o (.insert e' o' : Op I E) = x := by
      rw [Seen.see, if_neg]
      rintro ⟨rfl, rfl, k⟩
      rw [h.alive] at ha; exact ha k
    rw [hse]
    refine ⟨h.spawned, h.alive, h.unborn, h.dead, ?_, fun k hk => h.fresh k (Nat.le_of_succ_le hk), h.one, h.count, h.ref, h.refs, h.ids,
      h.lt⟩
    rw [h.here]
    constructor
    · rintro ⟨k, h1, h2⟩; exact ⟨k, Nat.lt_succ_of_lt h1, h2⟩
    · rintro ⟨k, h1, h2⟩
      refine ⟨k, ?_, h2⟩
      rcases Nat.lt_or_ge k w.subjects with hk | hk
      · exact hk
      · have h2 : w.place k = _ := h2
        rw [h.fresh k hk] at h2; exact absurd h2 (by simp)

theorem unique_id {l : List (Nat × Nat × Nat)} (h : (l.map Prod.fst).Nodup) {a b : Nat × Nat × Nat} (ha : a ∈ l) (hb : b ∈ l)
    (e : a.1 = b.1) : a = b := by
  induction l with
  | nil => exact absurd ha (by simp)
  | cons s l ih =>
    rw [List.map_cons, List.nodup_cons] at h
    rcases List.mem_cons.1 ha with ha | ha
    · rcases List.mem_cons.1 hb with hb | hb
      · rw [ha, hb]
      · exact absurd (List.mem_map.2 ⟨b, hb, by rw [← e, ha]⟩) h.1
    · rcases List.mem_cons.1 hb with hb | hb
      · exact absurd (List.mem_map.2 ⟨a, ha, by rw [e, hb]⟩) h.1
      · exact ih h.2 ha hb

/-- One satellite less. -/
theorem length_erase_id {l : List (Nat × Nat × Nat)} (h : (l.map Prod.fst).Nodup) {i : Nat} {p : Nat × Nat} (hi : (i, p) ∈ l) :
    ((l.filter fun s => some i != some s.1).filter fun s => s.2 == p).length + 1 = (l.filter fun s => s.2 == p).length := by
  induction l with
  | nil => exact absurd hi (by simp)
  | cons s l ih =>
    have hn := h
    rw [List.map_cons, List.nodup_cons] at hn
    by_cases e : s = (i, p)
    · subst e
      have : l.filter (fun s => some i != some s.1) = l := by
        rw [List.filter_eq_self]
        intro a ha
        rw [bne_iff_ne]
        exact fun hh => hn.1 (List.mem_map.2 ⟨a, ha, (Option.some.inj hh).symm⟩)
      rw [List.filter_cons_of_neg (by simp), this, List.filter_cons_of_pos (by simp)]
      rfl
    · have hi' : (i, p) ∈ l := by
        rcases List.mem_cons.1 hi with hh | hh
        · exact absurd hh.symm e
        · exact hh
      have hs : (some i != some s.1) = true := by
        rw [bne_iff_ne]
        intro hh
        exact hn.1 (List.mem_map.2 ⟨_, hi', Option.some.inj hh⟩)
      rw [List.filter_cons_of_pos (p := fun s : Nat × Nat × Nat => some i != some s.1) hs]
      have := ih hn.2 hi'
      by_cases hp : (s.2 == p) = true
      · rw [List.filter_cons_of_pos (p := fun s : Nat × Nat × Nat => s.2 == p) hp,
          List.filter_cons_of_pos (p := fun s : Nat × Nat × Nat => s.2 == p) hp, List.length_cons, List.length_cons]
        omega
      · rw [List.filter_cons_of_neg (p := fun s : Nat × Nat × Nat => s.2 == p) hp,
          List.filter_cons_of_neg (p := fun s : Nat × Nat × Nat => s.2 == p) hp]
        exact this

theorem Inv.remove {e o e' o' : Nat} {x : Seen} (h : w.Inv e o x) :
    (w.remove e' o').Inv e o (x.see e o (.remove e' o' : Op I E)) := by
  rw [World.remove]
  split
  · rename_i hh
    have hids : ((w.satellites.filter fun s => w.ref e' o' != some s.1).map Prod.fst).Nodup :=
      List.Nodup.sublist (List.Sublist.map _ List.filter_sublist) h.ids
    have hlt : ∀ s ∈ w.satellites.filter (fun s => w.ref e' o' != some s.1), s.1 < w.nextSatellite :=
      fun s hs => h.lt s (List.mem_filter.1 hs).1
    have hrefs : ∀ e1 o1 s, (if e1 = e' ∧ o1 = o' then none else w.ref e1 o1) = some s →
        (s, e1, o1) ∈ w.satellites.filter (fun s => w.ref e' o' != some s.1) := fun e1 o1 s hs => by
      split at hs
      · exact absurd hs (by simp)
      · rename_i hne
        refine List.mem_filter.2 ⟨h.refs _ _ _ hs, ?_⟩
        rw [bne_iff_ne]
        intro hr
        have := unique_id h.ids (h.refs _ _ _ hs) (h.refs _ _ _ hr) rfl
        exact hne ⟨congrArg (·.2.1) this, congrArg (·.2.2) this⟩
    have hfresh : ∀ k, w.subjects ≤ k → (if w.place k = some (e', o') then none else w.place k) = none := fun k hk => by
      rw [h.fresh k hk]; simp
    by_cases he : e' = e ∧ o' = o
    · obtain ⟨rfl, rfl⟩ := he
      rw [Seen.see, if_pos ⟨rfl, rfl⟩]
      have hx : x.here = true := h.here.2 (has_iff.1 hh)
      obtain ⟨s, hs⟩ := Option.isSome_iff_exists.1 (h.ref hx)
      have hm := h.refs _ _ _ hs
      have hal : x.alive = true := by
        cases ha : x.alive with
        | true => rfl
        | false => have := (h.dead ha).1; rw [hx] at this; exact absurd this (by decide)
      have hc := h.count hal
      have hlen := length_erase_id h.ids hm
      rw [watchers, hx, if_pos rfl] at hc
      refine ⟨h.spawned, h.alive, fun hs' => ?_, fun hs' => ?_, ⟨fun hs => absurd hs Bool.false_ne_true, ?_⟩, hfresh, fun i j hi hj => ?_,
        fun _ => ?_, fun hs => absurd hs Bool.false_ne_true, hrefs, hids, hlt⟩
      · have := (h.unborn hs').1; rw [hal] at this; exact absurd this (by decide)
      · exact absurd (show x.alive = false from hs') (by rw [hal]; decide)
      · rintro ⟨k, _, hk⟩
        have hk : (if w.place k = some (e', o') then none else w.place k) = some (e', o') := hk
        split at hk
        · exact absurd hk (by simp)
        · exact absurd hk ‹_›
      · have hi : (if w.place i = some (e', o') then none else w.place i) = some (e', o') := hi
        split at hi
        · exact absurd hi (by simp)
        · exact absurd hi ‹_›
      · show ((w.satellites.filter fun s => w.ref e' o' != some s.1).filter _).length = _
        rw [hs]
        show _ = x.again + 0
        omega
    · have hse : x.see e o (.remove e' o' : Op I E) = x := by rw [Seen.see, if_neg he]
      rw [hse]
      have hpl : ∀ k, (if w.place k = some (e', o') then none else w.place k) = some (e, o) ↔ w.place k = some (e, o) :=
        fun k => by
          split
          · rename_i hk
            rw [hk]
            have hne : some (e', o') ≠ some (e, o) := fun hh => he (by simpa using hh)
            exact ⟨fun h => absurd h (by simp), fun h => absurd h hne⟩
          · rfl
      have hwa : (w.satellites.filter fun s => w.ref e' o' != some s.1).filter (fun s => s.2 == (e, o)) = w.watchers e o := by
        rw [watchers, List.filter_filter]
        refine List.filter_congr fun s hs => ?_
        cases hq : (s.2 == (e, o)) with
        | false => rfl
        | true =>
          rw [Bool.true_and, bne_iff_ne]
          intro hr
          have := unique_id h.ids hs (h.refs _ _ _ hr) rfl
          rw [beq_iff_eq] at hq
          rw [this] at hq
          exact he (by simpa using hq)
      refine ⟨h.spawned, h.alive, fun hs => ?_, fun hs => ?_, ?_, hfresh, fun i j hi hj => ?_, fun hs => ?_, fun hs => ?_,
        hrefs, hids, hlt⟩
      · exact ⟨(h.unborn hs).1, hwa.trans (h.unborn hs).2.1, (h.unborn hs).2.2⟩
      · exact ⟨(h.dead hs).1, hwa.trans (h.dead hs).2⟩
      · rw [h.here]
        exact exists_congr fun k => and_congr_right fun _ => (hpl k).symm
      · exact h.one i j ((hpl i).1 hi) ((hpl j).1 hj)
      · exact (congrArg List.length hwa).trans (h.count hs)
      · exact (congrArg Option.isSome (if_neg fun k => he ⟨k.1.symm, k.2.symm⟩)).trans (h.ref hs)
  · rename_i hh
    have hse : x.see e o (.remove e' o' : Op I E) = x := by
      rw [Seen.see]
      split
      · rename_i k
        obtain ⟨rfl, rfl⟩ := k
        cases hx : x.here with
        | false => cases x; cases hx; rfl
        | true => exact absurd (has_iff.2 (h.here.1 hx)) hh
      · rfl
    rw [hse]; exact h

theorem isOn_iff {e k : Nat} : w.isOn e k = true ↔ ∃ o, w.place k = some (e, o) := by
  rw [isOn]
  split
  · rename_i a b hk
    rw [hk, beq_iff_eq]
    exact ⟨fun h => ⟨b, by rw [h]⟩, fun ⟨o, h⟩ => by cases h; rfl⟩
  · rename_i hk
    rw [hk]
    exact ⟨fun h => absurd h (by decide), fun ⟨o, h⟩ => absurd h (by simp)⟩

theorem Inv.despawn {e o e' : Nat} {x : Seen} (h : w.Inv e o x) :
    (w.despawn e').Inv e o (x.see e o (.despawn e' : Op I E)) := by
  rw [World.despawn]
  have hids : ((w.satellites.filter fun s => s.2.1 != e').map Prod.fst).Nodup :=
    List.Nodup.sublist (List.Sublist.map _ List.filter_sublist) h.ids
  have hlt : ∀ s ∈ w.satellites.filter (fun s => s.2.1 != e'), s.1 < w.nextSatellite :=
    fun s hs => h.lt s (List.mem_filter.1 hs).1
  have hrefs : ∀ e1 o1 s, (if e1 = e' then none else w.ref e1 o1) = some s →
      (s, e1, o1) ∈ w.satellites.filter (fun s => s.2.1 != e') := fun e1 o1 s hs => by
    split at hs
    · exact absurd hs (by simp)
    · exact List.mem_filter.2 ⟨h.refs _ _ _ hs, by rw [bne_iff_ne]; assumption⟩
  have hfresh : ∀ k, w.subjects ≤ k → (if w.isOn e' k = true then none else w.place k) = none := fun k hk => by
    rw [h.fresh k hk]; simp
  by_cases he : e' = e
  · subst he
    rw [Seen.see, if_pos rfl]
    have hwa : (w.satellites.filter fun s => s.2.1 != e').filter (fun s => s.2 == (e', o)) = [] := by
      rw [List.filter_filter, List.filter_eq_nil_iff]
      intro s _ hh
      rw [Bool.and_eq_true, beq_iff_eq, bne_iff_ne] at hh
      exact hh.2 (congrArg Prod.fst hh.1)
    have hpl : ∀ k, (if w.isOn e' k = true then none else w.place k) ≠ some (e', o) := fun k hk => by
      split at hk
      · exact absurd hk (by simp)
      · exact absurd (isOn_iff.2 ⟨o, hk⟩) ‹_›
    exact ⟨h.spawned, if_pos rfl, fun hs => ⟨rfl, hwa, rfl, (h.unborn hs).2.2.2⟩, fun _ => ⟨rfl, hwa⟩,
      ⟨fun hs => absurd hs Bool.false_ne_true, fun ⟨k, _, hk⟩ => absurd hk (hpl k)⟩, hfresh, fun i _ hi => absurd hi (hpl i),
      fun hs => absurd hs Bool.false_ne_true, fun hs => absurd hs Bool.false_ne_true, hrefs, hids, hlt⟩
  · have hse : x.see e o (.despawn e' : Op I E) = x := by rw [Seen.see, if_neg he]
    rw [hse]
    have hwa : (w.satellites.filter fun s => s.2.1 != e').filter (fun s => s.2 == (e, o)) = w.watchers e o := by
      rw [watchers, List.filter_filter]
      refine List.filter_congr fun s _ => ?_
      cases hq : (s.2 == (e, o)) with
      | false => rfl
      | true =>
        rw [Bool.true_and, bne_iff_ne]
        rw [beq_iff_eq] at hq
        intro hh
        rw [hq] at hh
        exact he hh.symm
    have hpl : ∀ k, (if w.isOn e' k = true then none else w.place k) = some (e, o) ↔ w.place k = some (e, o) := fun k => by
      split
      · rename_i hk
        obtain ⟨o1, h1⟩ := isOn_iff.1 hk
        rw [h1]
        exact ⟨fun h => absurd h (by simp), fun h => absurd (congrArg Prod.fst (Option.some.inj h)) he⟩
      · rfl
    refine ⟨h.spawned, (if_neg (Ne.symm he)).trans h.alive, fun hs => ⟨(h.unborn hs).1, hwa.trans (h.unborn hs).2.1, (h.unborn hs).2.2⟩,
      fun hs => ⟨(h.dead hs).1, hwa.trans (h.dead hs).2⟩, ?_, hfresh, fun i j hi hj => h.one i j ((hpl i).1 hi) ((hpl j).1 hj),
      fun hs => (congrArg List.length hwa).trans (h.count hs),
      fun hs => (congrArg Option.isSome (if_neg (Ne.symm he))).trans (h.ref hs), hrefs, hids, hlt⟩
    rw [h.here]
    exact exists_congr fun k => and_congr_right fun _ => (hpl k).symm

theorem Inv.step (ho : ∀ l, (c.ord l).Perm l) {e o : Nat} {x : Seen} (h : w.Inv e o x) (op : Op I E) :
    (w.step c op).Inv e o (x.see e o op) := by
  cases op with
  | spawn =>
    have hsp := h.spawned
    by_cases he : e = w.spawned
    · have hu := h.unborn (by omega)
      have hb : (x.alive || x.spawned == e) = true := by rw [he, hsp]; simp
      refine ⟨congrArg (· + 1) hsp, (if_pos he).trans hb.symm, fun hs => ?_, fun hs => ?_, h.here, h.fresh, h.one, fun _ => ?_, h.ref,
        h.refs, h.ids, h.lt⟩
      · have : x.spawned + 1 ≤ e := hs
        omega
      · exact absurd (hb.symm.trans hs) (by decide)
      · show (w.watchers e o).length = x.again + if x.here = true then 1 else 0
        rw [hu.2.1, hu.2.2.1, hu.2.2.2]; rfl
    · have hb : (x.alive || x.spawned == e) = x.alive := by
        have : (x.spawned == e) = false := by rw [beq_eq_false_iff_ne]; omega
        rw [this, Bool.or_false]
      refine ⟨congrArg (· + 1) hsp, ((if_neg he).trans h.alive).trans hb.symm, fun hs => ?_, fun hs => ?_, h.here, h.fresh, h.one,
        fun hs => h.count (hb.symm.trans hs), h.ref, h.refs, h.ids, h.lt⟩
      · have := h.unborn (show x.spawned ≤ e from Nat.le_of_succ_le hs)
        exact ⟨hb.trans this.1, this.2⟩
      · exact h.dead (hb.symm.trans hs)
  | insert e' o' => exact h.insert
  | remove e' o' => exact h.remove
  | despawn e' => exact h.despawn
  | signal e' y n =>
    obtain ⟨f, h1, _⟩ := signal_spec (w := w) ho e' y n
    show (w.signal c e' y n).Inv e o x
    rw [h1]; exact h.calls f
  | direct k y => exact h.calls _

theorem Inv.steps (ho : ∀ l, (c.ord l).Perm l) {e o : Nat} : ∀ (l : List (Op I E)) {w : World I E} {x : Seen}, w.Inv e o x →
    (l.foldl (World.step c) w).Inv e o (l.foldl (Seen.see e o) x)
  | [], _, _, h => h
  | op :: l, _, _, h => Inv.steps ho l (h.step ho op)

theorem Inv.run (ho : ∀ l, (c.ord l).Perm l) (e o : Nat) (l : List (Op I E)) : (World.run c l).Inv e o (seen e o l) :=
  Inv.steps ho l (Inv.start e o)

theorem subjects_step (ho : ∀ l, (c.ord l).Perm l) (op : Op I E) : (w.step c op).subjects = w.subjects + insertions [op] := by
  cases op with
  | spawn => rfl
  | insert e o => show (w.insert e o).subjects = _; rw [World.insert]; split <;> rfl
  | remove e o => show (w.remove e o).subjects = _; rw [World.remove]; split <;> rfl
  | despawn e => rfl
  | signal e y n =>
    obtain ⟨f, h1, _⟩ := signal_spec (w := w) ho e y n
    show (w.signal c e y n).subjects = _
    rw [h1]; rfl
  | direct k y => rfl

theorem insertions_cons (op : Op I E) (l : List (Op I E)) : insertions (op :: l) = insertions [op] + insertions l := by
  cases op <;> simp [insertions] <;> omega

theorem subjects_steps (ho : ∀ l, (c.ord l).Perm l) : ∀ (l : List (Op I E)) (w : World I E),
    (l.foldl (World.step c) w).subjects = w.subjects + insertions l
  | [], _ => rfl
  | op :: l, w => by
    rw [List.foldl_cons, subjects_steps ho l, subjects_step ho, insertions_cons op l]; omega

/-- A subject that is on no entity is told what others tell it. -/
theorem off (ho : ∀ l, (c.ord l).Perm l) (k : Nat) : ∀ (l : List (Op I E)) (w : World I E), w.place k = none →
    (k < w.subjects ∨ w.subjects + insertions l ≤ k) → (l.foldl (World.step c) w).place k = none ∧
      (l.foldl (World.step c) w).calls k = w.calls k ++ directly k l
  | [], w, h, _ => ⟨h, by simp [directly]⟩
  | op :: l, w, h, hk => by
    have hs := subjects_step (w := w) ho op
    have hi := insertions_cons op l
    have key : (w.step c op).place k = none ∧ (w.step c op).calls k = w.calls k ++ directly k [op] := by
      cases op with
      | spawn => exact ⟨h, by simp [World.step, directly]⟩
      | insert e o =>
        show (w.insert e o).place k = none ∧ (w.insert e o).calls k = _
        rw [World.insert]
        have hne : k ≠ w.subjects := by
          have : insertions [(.insert e o : Op I E)] = 1 := rfl
          omega
        split
        · exact ⟨(if_neg hne).trans (by rw [h]; simp), by simp [directly]⟩
        · exact ⟨h, by simp [directly]⟩
      | remove e o =>
        show (w.remove e o).place k = none ∧ (w.remove e o).calls k = _
        rw [World.remove]
        split
        · refine ⟨?_, ?_⟩
          · show (if w.place k = some (e, o) then none else w.place k) = none
            rw [h]; simp
          · show (if (w.place k == some (e, o)) = true then _ else w.calls k) = _
            rw [h]; simp [directly]
        · exact ⟨h, by simp [directly]⟩
      | despawn e =>
        have hn : ¬ w.isOn e k = true := fun hh => by
          obtain ⟨o, h1⟩ := isOn_iff.1 hh
          rw [h] at h1; exact absurd h1 (by simp)
        exact ⟨(if_neg hn).trans h, (if_neg hn).trans (by simp [directly])⟩
      | signal e y n =>
        obtain ⟨f, h1, _, h3⟩ := signal_spec (w := w) ho e y n
        show (w.signal c e y n).place k = none ∧ (w.signal c e y n).calls k = _
        rw [h1]
        exact ⟨h, (h3 k h).trans (by simp [directly])⟩
      | direct k' y =>
        refine ⟨h, ?_⟩
        show (if (k == k') = true then w.calls k ++ [y] else w.calls k) = _
        by_cases hk : k = k'
        · subst hk; simp [directly]
        · have : ¬ k' = k := fun h => hk h.symm
          simp [directly, hk, this]
    obtain ⟨h1, h2⟩ := off ho k l (w.step c op) key.1 (by omega)
    refine ⟨h1, h2.trans ?_⟩
    rw [key.2, List.append_assoc]
    congr 1
    cases op <;> simp only [directly, List.nil_append]
    split <;> rfl

/-- A subject on an entity. -/
theorem on (ho : ∀ l, (c.ord l).Perm l) (e o k m : Nat) : ∀ (l : List (Op I E)) (w : World I E) (x : Seen), w.Inv e o x →
    w.place k = some (e, o) → (w.watchers e o).length = m →
      (l.foldl (World.step c) w).calls k = w.calls k ++ told c e o k m l
  | [], w, x, _, _, _ => by simp [told]
  | op :: l, w, x, h, hp, hm => by
    have hks : k < w.subjects := Nat.lt_of_not_le fun hh => by
      have := h.fresh k hh; rw [hp] at this; exact absurd this (by simp)
    have hx : x.here = true := h.here.2 ⟨k, hks, hp⟩
    have hal : x.alive = true := by
      cases ha : x.alive with
      | true => rfl
      | false => have := (h.dead ha).1; rw [hx] at this; exact absurd this (by decide)
    have hst := h.step ho op
    have hc := h.count hal
    have stay : (w.step c op).place k = some (e, o) → x.see e o op = { x with spawned := (x.see e o op).spawned } →
        ((op :: l).foldl (World.step c) w).calls k = (w.step c op).calls k ++ told c e o k m l := fun h1 h2 => by
      refine on ho e o k m l (w.step c op) _ hst h1 ?_
      have h3 := hst.count (by rw [h2]; exact hal)
      rw [h2] at h3
      rw [h3, ← hm, hc]
    have gone : (w.step c op).place k = none →
        ((op :: l).foldl (World.step c) w).calls k = (w.step c op).calls k ++ directly k l := fun h1 =>
      (off ho k l (w.step c op) h1 (Or.inl (by rw [subjects_step ho]; omega))).2
    cases op with
    | spawn =>
      rw [stay hp (by simp [Seen.see, hal])]
      rfl
    | insert e' o' =>
      by_cases he : e' = e ∧ o' = o
      · obtain ⟨rfl, rfl⟩ := he
        have hw : w.alive e' = true := h.alive.trans hal
        have h1 : (w.step c (.insert e' o')).place k = none := by
          show (w.insert e' o').place k = none
          rw [World.insert, if_pos hw]
          exact (if_neg (by omega)).trans (if_pos hp)
        have h2 : (w.step c (.insert e' o')).calls k = w.calls k := by
          show (w.insert e' o').calls k = _
          rw [World.insert, if_pos hw]
        rw [gone h1, h2, told, if_pos ⟨rfl, rfl⟩]
      · have h2 : (w.step c (.insert e' o')).calls k = w.calls k := by
          show (w.insert e' o').calls k = _
          rw [World.insert]; split <;> rfl
        have h1 : (w.step c (.insert e' o')).place k = some (e, o) := by
          show (w.insert e' o').place k = _
          rw [World.insert]
          split
          · refine (if_neg (by omega)).trans ((if_neg ?_).trans hp)
            rw [hp]
            exact fun hh => he (by have := Option.some.inj hh; exact ⟨(congrArg Prod.fst this).symm, (congrArg Prod.snd this).symm⟩)
          · exact hp
        rw [stay h1 (by rw [Seen.see, if_neg (fun hh => he ⟨hh.1, hh.2.1⟩)]), h2, told, if_neg he]
    | remove e' o' =>
      by_cases he : e' = e ∧ o' = o
      · obtain ⟨rfl, rfl⟩ := he
        have hw : w.has e' o' = true := has_iff.2 ⟨k, hks, hp⟩
        have h1 : (w.step c (.remove e' o')).place k = none := by
          show (w.remove e' o').place k = none
          rw [World.remove, if_pos hw]
          exact if_pos hp
        have h2 : (w.step c (.remove e' o')).calls k = w.calls k ++ [.unsubscribe] := by
          show (w.remove e' o').calls k = _
          rw [World.remove, if_pos hw]
          exact if_pos (beq_iff_eq.2 hp)
        rw [gone h1, h2, told, if_pos ⟨rfl, rfl⟩, List.append_assoc]; rfl
      · have hne : ¬ w.place k = some (e', o') := by
          rw [hp]
          exact fun hh => he (by have := Option.some.inj hh; exact ⟨(congrArg Prod.fst this).symm, (congrArg Prod.snd this).symm⟩)
        have h1 : (w.step c (.remove e' o')).place k = some (e, o) := by
          show (w.remove e' o').place k = _
          rw [World.remove]
          split
          · exact (if_neg hne).trans hp
          · exact hp
        have h2 : (w.step c (.remove e' o')).calls k = w.calls k := by
          show (w.remove e' o').calls k = _
          rw [World.remove]
          split
          · exact if_neg (fun hh => hne (beq_iff_eq.1 hh))
          · rfl
        rw [stay h1 (by rw [Seen.see, if_neg he]), h2, told, if_neg he]
    | despawn e' =>
      by_cases he : e' = e
      · subst he
        have hw : w.isOn e' k = true := isOn_iff.2 ⟨o, hp⟩
        have h1 : (w.step c (.despawn e')).place k = none := if_pos hw
        have h2 : (w.step c (.despawn e')).calls k = w.calls k ++ [.unsubscribe] := if_pos hw
        rw [gone h1, h2, told, if_pos rfl, List.append_assoc]; rfl
      · have hw : ¬ w.isOn e' k = true := fun hh => by
          obtain ⟨o1, h1⟩ := isOn_iff.1 hh
          rw [hp] at h1
          exact he (congrArg Prod.fst (Option.some.inj h1)).symm
        have h1 : (w.step c (.despawn e')).place k = some (e, o) := (if_neg hw).trans hp
        have h2 : (w.step c (.despawn e')).calls k = w.calls k := if_neg hw
        rw [stay h1 (by rw [Seen.see, if_neg he]), h2, told, if_neg he]
    | signal e' y n =>
      obtain ⟨f, h1, h2, _⟩ := signal_spec (w := w) ho e' y n
      have h3 : (w.step c (.signal e' y n)) = { w with calls := f } := h1
      rw [stay (by rw [h3]; exact hp) rfl, h3, told]
      show f k ++ _ = _
      rw [h2 k e o hp]
      by_cases he : e = e' ∧ y = c.inp o
      · obtain ⟨rfl, rfl⟩ := he
        rw [if_pos ⟨rfl, rfl⟩, if_pos ⟨rfl, rfl⟩, hm, List.append_assoc]
      · rw [if_neg he, if_neg (fun hh => he ⟨hh.1.symm, hh.2⟩)]
    | direct k' y =>
      rw [stay hp rfl, told]
      show (if (k == k') = true then w.calls k ++ [y] else w.calls k) ++ _ = _
      by_cases hk : k = k'
      · subst hk; simp
      · have : ¬ k' = k := fun h => hk h.symm
        simp [hk, this]

end World
end Rx.BevySubjects
