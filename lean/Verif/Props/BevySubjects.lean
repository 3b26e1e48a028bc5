import Verif.Lemmas.BevySubjects

/-!
# C79: subjects on entities
-/

namespace Rx.BevySubjects

variable {I E : Type}

/-- C79. A subject that is inserted into an entity is told exactly: each signal for its types that is triggered on the entity
while it is there, once, and once more for each time that a subject of the type was inserted where there was one (the full
statement has once, and is false, see `C79_twice_counterexample`); that it is unsubscribed when it is removed, or its entity is
despawned; and what others tell it. The order in which the observers of an event are run does not matter. -/
theorem C79_told_partial (c : Cfg) (ho : ∀ l, (c.ord l).Perm l) (e o : Nat) (l1 l2 : List (Op I E))
    (h : (seen e o l1).alive = true) :
    (World.run c (l1 ++ .insert e o :: l2)).calls (insertions l1) =
      directly (insertions l1) l1 ++
        told c e o (insertions l1) (1 + (seen e o (l1 ++ [.insert e o])).again) l2 := by
  have hi := World.Inv.run ho e o l1
  have h0 := World.off ho (insertions l1) l1 {} rfl (Or.inr (Nat.le_of_eq (Nat.zero_add _)))
  have hs : (World.run c l1).subjects = insertions l1 := (World.subjects_steps ho l1 {}).trans (Nat.zero_add _)
  have hw : (World.run c l1).alive e = true := hi.alive.trans h
  have hn := hi.step ho (.insert e o)
  have hx : (seen e o l1).see e o (.insert e o : Op I E) = seen e o (l1 ++ [.insert e o]) := by
    rw [seen, seen, List.foldl_append]; rfl
  rw [hx] at hn
  have hhere : (seen e o (l1 ++ [.insert e o])).here = true ∧ (seen e o (l1 ++ [.insert e o])).alive = true := by
    rw [← hx, Seen.see, if_pos ⟨rfl, rfl, h⟩]; exact ⟨rfl, h⟩
  have hp : ((World.run c l1).step c (.insert e o)).place (insertions l1) = some (e, o) := by
    show ((World.run c l1).insert e o).place (insertions l1) = _
    rw [World.insert, if_pos hw]; exact if_pos hs.symm
  have hc : ((World.run c l1).step c (.insert e o)).calls (insertions l1) = directly (insertions l1) l1 := by
    show ((World.run c l1).insert e o).calls (insertions l1) = _
    rw [World.insert, if_pos hw]; exact h0.2
  have hm := hn.count hhere.2
  rw [if_pos hhere.1, Nat.add_comm] at hm
  have := World.on ho e o (insertions l1) _ l2 _ _ hn hp hm
  rw [hc] at this
  rw [← this, World.run, List.foldl_append]
  rfl

/-- C79. Where subjects of a type were only inserted into the entity when it had none, each signal is pushed once. -/
theorem C79_once_partial (c : Cfg) (ho : ∀ l, (c.ord l).Perm l) (e o : Nat) (l1 l2 : List (Op I E))
    (h : (seen e o l1).alive = true) (h0 : (seen e o (l1 ++ [.insert e o])).again = 0) :
    (World.run c (l1 ++ .insert e o :: l2)).calls (insertions l1) =
      directly (insertions l1) l1 ++ told c e o (insertions l1) 1 l2 := by
  rw [C79_told_partial c ho e o l1 l2 h, h0]

/-- C79. A subject that is inserted into an entity that does not exist, not yet or not any more, is told only what others tell
it. -/
theorem C79_missing (c : Cfg) (ho : ∀ l, (c.ord l).Perm l) (e o : Nat) (l1 l2 : List (Op I E))
    (h : (seen e o l1).alive = false) :
    (World.run c (l1 ++ .insert e o :: l2)).calls (insertions l1) =
      directly (insertions l1) l1 ++ directly (insertions l1) l2 := by
  have hi := World.Inv.run ho e o l1
  have h0 := World.off ho (insertions l1) l1 {} rfl (Or.inr (Nat.le_of_eq (Nat.zero_add _)))
  have hs : (World.run c l1).subjects = insertions l1 := (World.subjects_steps ho l1 {}).trans (Nat.zero_add _)
  have hw : ¬ (World.run c l1).alive e = true := by rw [hi.alive, h]; decide
  have hp : ((World.run c l1).step c (.insert e o)) =
      { World.run c l1 with subjects := (World.run c l1).subjects + 1 } := by
    show (World.run c l1).insert e o = _
    rw [World.insert, if_neg hw]
  have := (World.off ho (insertions l1) l2 ((World.run c l1).step c (.insert e o)) (by rw [hp]; exact h0.1)
    (Or.inl (by rw [hp]; show _ < (World.run c l1).subjects + 1; omega))).2
  rw [World.run, List.foldl_append, List.foldl_cons]
  refine this.trans ?_
  rw [hp]
  show (World.run c l1).calls _ ++ _ = _
  rw [show (World.run c l1).calls (insertions l1) = directly (insertions l1) l1 from h0.2]

/-- C79. The entities that watch for signals for the subjects of a type on an entity: none if it does not exist, else one if it
has such a subject, and one more for each time one was inserted where there was one (the full statement has none, and is false,
see `C79_left_counterexample`). -/
theorem C79_satellites_partial (c : Cfg) (ho : ∀ l, (c.ord l).Perm l) (e o : Nat) (l : List (Op I E)) :
    ((World.run c l).satellites.filter fun s => s.2 == (e, o)).length =
      if (seen e o l).alive then (seen e o l).again + if (seen e o l).here then 1 else 0 else 0 := by
  have hi := World.Inv.run ho e o l
  split
  · exact hi.count ‹_›
  · have := (hi.dead (Bool.eq_false_iff.2 ‹_›)).2
    exact congrArg List.length this

/-- The observers in the order in which they were spawned, and one type of signals for all. -/
def plain : Cfg := ⟨fun _ => 0, id⟩

/-- Where the code is not as stated: a subject inserted into an entity that has one of that type is pushed each signal twice. -/
theorem C79_twice_counterexample :
    (World.run (I := Nat) (E := Nat) plain [.spawn, .insert 0 0, .insert 0 0, .signal 0 0 (.next 7)]).calls 1 =
      [.note (.next 7), .note (.next 7)] := by decide +kernel

/-- Where the code is not as stated: the subject that was replaced is not unsubscribed, not even when the entity is despawned. -/
theorem C79_replaced_counterexample :
    (World.run (I := Nat) (E := Nat) plain [.spawn, .insert 0 0, .insert 0 0, .despawn 0]).calls 0 = [] := by decide +kernel

/-- Where the code is not as stated: an entity that watches for signals is left after the last subject was removed, and the next
subject is pushed each signal twice. -/
theorem C79_left_counterexample :
    (World.run (I := Nat) (E := Nat) plain [.spawn, .insert 0 0, .insert 0 0, .remove 0 0]).satellites.length = 1 ∧
    (World.run (I := Nat) (E := Nat) plain
      [.spawn, .insert 0 0, .insert 0 0, .remove 0 0, .insert 0 0, .signal 0 0 .complete]).calls 2 =
      [.note .complete, .note .complete] := by decide +kernel

/-! The hypotheses are met. -/

example : ∀ l, (plain.ord l).Perm l := fun l => List.Perm.refl l

def first : List (Op Nat Nat) := [.spawn, .spawn, .insert 0 5, .insert 1 5, .direct 2 (.note (.next 9))]

def later : List (Op Nat Nat) :=
  [.signal 1 0 (.next 1), .signal 0 0 (.next 2), .direct 2 (.note (.next 3)), .signal 1 1 (.next 4), .remove 1 5, .signal 1 0 (.next 6),
    .despawn 1, .signal 1 0 (.next 8), .direct 2 .unsubscribe, .signal 1 0 (.next 10)]

/-- Two types of subjects on an entity: the one is told of what is done to it only. -/
example : (seen 1 6 first).alive = true ∧ (seen 1 6 (first ++ [.insert 1 6])).again = 0 ∧
    directly (insertions first) first ++ told plain 1 6 (insertions first) 1 later =
      [.note (.next 9), .note (.next 1), .note (.next 3), .note (.next 6), .unsubscribe, .unsubscribe] := by decide +kernel

/-- And the one that was there before. -/
example : (World.run plain (first ++ .insert 1 6 :: later)).calls 1 = [.note (.next 1), .unsubscribe] := by decide +kernel

example : (seen 1 5 (first ++ [.insert 1 5])).again = 1 ∧ (seen 1 5 (first ++ [.insert 1 5])).here = true := by decide +kernel

example : (seen 2 5 first).alive = false ∧ (seen 1 5 (first ++ [.despawn 1])).alive = false := by decide +kernel

end Rx.BevySubjects
