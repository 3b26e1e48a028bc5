import Verif.Lemmas.BevySources

/-!
# What is found, for each of the sources
-/

namespace Rx.Poll
open Rx.Timed

theorem snoc_split {α : Type} {es : List α} {x : α} {a : List α} {y : α} {b : List α} :
    es ++ [x] = a ++ y :: b ↔ (b = [] ∧ a = es ∧ y = x) ∨ ∃ b', b = b' ++ [x] ∧ es = a ++ y :: b' := by
  constructor
  · intro h
    rcases List.eq_nil_or_concat b with rfl | ⟨b', z, rfl⟩
    · obtain ⟨h1, h2⟩ := List.append_inj' h rfl
      simp only [List.cons.injEq, and_true] at h2
      exact .inl ⟨rfl, h1.symm, h2.symm⟩
    · have : es ++ [x] = (a ++ y :: b') ++ [z] := by rw [h]; simp
      obtain ⟨h1, h2⟩ := List.append_inj' this rfl
      simp only [List.cons.injEq, and_true] at h2
      exact .inr ⟨b', by rw [h2]; simp, h1⟩
  · rintro (⟨rfl, rfl, rfl⟩ | ⟨b', rfl, rfl⟩)
    · rfl
    · simp

theorem not_nil_split {α : Type} {a : List α} {y : α} {b : List α} : ¬ [] = a ++ y :: b := by simp

namespace Resource
variable {V O : Type} {opt : Options} {reader : V → O} {es : List (Event (Op V))}

theorem current_snoc (es : List (Event (Op V))) (e : Event (Op V)) : current (es ++ [e]) =
    match e with | .world (.write v) => some v | .world .remove => none | _ => current es := by
  simp only [current, List.foldl_append, List.foldl_cons, List.foldl_nil]
  cases e with
  | look => rfl
  | world o => cases o <;> rfl

theorem written_snoc (es : List (Event (Op V))) (e : Event (Op V)) : Written (es ++ [e]) ↔
    (∃ v, e = .world (.write v)) ∨ (e ≠ .world .ran ∧ Written es) := by
  constructor
  · rintro ⟨a, v, b, h, hb⟩
    rcases snoc_split.1 h with ⟨rfl, rfl, g⟩ | ⟨b', rfl, g⟩
    · exact .inl ⟨v, g.symm⟩
    · simp only [List.mem_append, List.mem_singleton, not_or] at hb
      exact .inr ⟨fun h => hb.2 h.symm, a, v, b', g, hb.1⟩
  · rintro (⟨v, rfl⟩ | ⟨he, a, v, b, rfl, hb⟩)
    · exact ⟨es, v, [], rfl, by simp⟩
    · refine ⟨a, v, b ++ [e], by simp, ?_⟩
      simp only [List.mem_append, List.mem_singleton, not_or]
      exact ⟨hb, fun h => he h.symm⟩

theorem wasThere_look (es : List (Event (Op V))) : WasThere (es ++ [.look]) ↔ (current es).isSome = true := by
  constructor
  · rintro ⟨a, b, h, hb, hc⟩
    rcases snoc_split.1 h with ⟨rfl, rfl, g⟩ | ⟨b', rfl, g⟩
    · exact hc
    · simp at hb
  · intro h
    exact ⟨es, [], rfl, by simp, h⟩

theorem wasThere_world (es : List (Event (Op V))) (o : Op V) : WasThere (es ++ [.world o]) ↔ WasThere es := by
  constructor
  · rintro ⟨a, b, h, hb, hc⟩
    rcases snoc_split.1 h with ⟨rfl, rfl, g⟩ | ⟨b', rfl, g⟩
    · cases g
    · simp only [List.mem_append, List.mem_singleton, not_or] at hb
      exact ⟨a, b', g, hb.1, hc⟩
  · rintro ⟨a, b, rfl, hb, hc⟩
    exact ⟨a, b ++ [.world o], by simp, by simpa using hb, hc⟩

theorem after_spec (es : List (Event (Op V))) :
    ((resource opt reader).after es).1.value = current es ∧
    ((current es).isSome = true → (((resource opt reader).after es).1.changed = true ↔ Written es)) ∧
    (((resource opt reader).after es).2 = true ↔ WasThere es) := by
  induction es using Rx.snoc_induction with
  | nil => exact ⟨rfl, (fun h => by cases h), iff_of_false (by simp [Poll.after]) (fun ⟨a, b, h, _⟩ => not_nil_split h)⟩
  | snoc es e ih =>
    obtain ⟨i1, i2, i3⟩ := ih
    cases e with
    | look =>
      rw [Poll.after_look, current_snoc, written_snoc, wasThere_look]
      refine ⟨i1, ?_, ?_⟩
      · intro h
        simpa using i2 h
      · show (((resource opt reader).after es).1.value.isSome = true) ↔ _
        rw [i1]
    | world o =>
      rw [Poll.after_world, current_snoc, written_snoc, wasThere_world]
      cases o with
      | write v => exact ⟨rfl, fun _ => iff_of_true rfl (.inl ⟨v, rfl⟩), i3⟩
      | remove => exact ⟨rfl, fun h => (by cases h), i3⟩
      | ran =>
        refine ⟨i1, fun _ => iff_of_false (by simp [World.apply]) ?_, i3⟩
        rintro (⟨v, h⟩ | ⟨h, _⟩)
        · cases h
        · exact h rfl

theorem found_eq (es : List (Event (Op V))) : (resource opt reader).found es = found opt reader es := by
  obtain ⟨i1, i2, i3⟩ := after_spec (opt := opt) (reader := reader) es
  unfold Poll.found found
  generalize (resource opt reader).after es = x at *
  obtain ⟨⟨v, ch⟩, m⟩ := x
  simp only at i1 i2 i3
  subst i1
  simp only [read]
  cases hv : current es with
  | none => simp
  | some v =>
    have i2 := i2 (by rw [hv]; rfl)
    have : (opt.changed && ch && !(!m && (some v).isSome) || opt.added && (!m && (some v).isSome)) = true ↔ Shows opt es := by
      unfold Shows
      rw [← i2, ← i3]
      cases opt.changed <;> cases opt.added <;> cases m <;> cases ch <;> simp
    by_cases h : Shows opt es
    · rw [if_pos h, if_pos (this.2 h)]; rfl
    · rw [if_neg h, if_neg (fun h' => h (this.1 h'))]

end Resource

namespace Keyboard
variable {K : Type} [DecidableEq K] {es : List (Event (Op K))}

theorem mem_insert {j k : K} {l : List K} : j ∈ insert k l ↔ j = k ∨ j ∈ l := by
  unfold insert
  split
  · constructor
    · exact .inr
    · rintro (rfl | h)
      · assumption
      · exact h
  · simp [or_comm]

omit [DecidableEq K] in
theorem nodup_snoc {k : K} {l : List K} (h : l.Nodup) (hk : k ∉ l) : (l ++ [k]).Nodup := by
  rw [List.nodup_append]
  refine ⟨h, by simp, ?_⟩
  intro a ha b hb hab
  rw [List.mem_singleton] at hb
  subst hb hab
  exact hk ha

theorem nodup_insert {k : K} {l : List K} (h : l.Nodup) : (insert k l).Nodup := by
  unfold insert
  split
  · exact h
  · exact nodup_snoc h (by assumption)

theorem mem_foldl_insert {j : K} (ks : List K) : ∀ {l : List K}, j ∈ ks.foldl (fun l k => insert k l) l ↔ j ∈ ks ∨ j ∈ l := by
  induction ks with
  | nil => simp
  | cons k ks ih =>
    intro l
    rw [List.foldl_cons, ih, mem_insert, List.mem_cons]
    constructor
    · rintro (h | h | h)
      · exact .inl (.inr h)
      · exact .inl (.inl h)
      · exact .inr h
    · rintro ((h | h) | h)
      · exact .inr (.inl h)
      · exact .inl h
      · exact .inr (.inr h)

theorem nodup_foldl_insert (ks : List K) : ∀ {l : List K}, l.Nodup → (ks.foldl (fun l k => insert k l) l).Nodup := by
  induction ks with
  | nil => intro l h; exact h
  | cons k ks ih => intro l h; exact ih (nodup_insert h)

omit [DecidableEq K] in
theorem down_snoc (k : K) (es : List (Event (Op K))) (e : Event (Op K)) : Down k (es ++ [e]) ↔
    e = .world (.press k) ∨ (e ≠ .world (.release k) ∧ e ≠ .world .releaseAll ∧ Down k es) := by
  constructor
  · rintro ⟨a, b, h, hb, hc⟩
    rcases snoc_split.1 h with ⟨rfl, rfl, g⟩ | ⟨b', rfl, g⟩
    · exact .inl g.symm
    · simp only [List.mem_append, List.mem_singleton, not_or] at hb hc
      exact .inr ⟨fun h => hb.2 h.symm, fun h => hc.2 h.symm, a, b', g, hb.1, hc.1⟩
  · rintro (rfl | ⟨h1, h2, a, b, rfl, hb, hc⟩)
    · exact ⟨es, [], rfl, by simp, by simp⟩
    · refine ⟨a, b ++ [e], by simp, ?_, ?_⟩
      · simp only [List.mem_append, List.mem_singleton, not_or]
        exact ⟨hb, fun h => h1 h.symm⟩
      · simp only [List.mem_append, List.mem_singleton, not_or]
        exact ⟨hc, fun h => h2 h.symm⟩

omit [DecidableEq K] in
theorem pressed_snoc (k : K) (es : List (Event (Op K))) (e : Event (Op K)) : Pressed k (es ++ [e]) ↔
    (e = .world (.press k) ∧ ¬ Down k es) ∨ (e ≠ .world .clear ∧ Pressed k es) := by
  constructor
  · rintro ⟨a, b, h, hb, hc⟩
    rcases snoc_split.1 h with ⟨rfl, rfl, g⟩ | ⟨b', rfl, g⟩
    · exact .inl ⟨g.symm, hb⟩
    · simp only [List.mem_append, List.mem_singleton, not_or] at hc
      exact .inr ⟨fun h => hc.2 h.symm, a, b', g, hb, hc.1⟩
  · rintro (⟨rfl, h⟩ | ⟨h1, a, b, rfl, hb, hc⟩)
    · exact ⟨es, [], rfl, h, by simp⟩
    · refine ⟨a, b ++ [e], by simp, hb, ?_⟩
      simp only [List.mem_append, List.mem_singleton, not_or]
      exact ⟨hc, fun h => h1 h.symm⟩

omit [DecidableEq K] in
theorem released_snoc (k : K) (es : List (Event (Op K))) (e : Event (Op K)) : Released k (es ++ [e]) ↔
    ((e = .world (.release k) ∨ e = .world .releaseAll) ∧ Down k es) ∨ (e ≠ .world .clear ∧ Released k es) := by
  constructor
  · rintro ⟨a, x, b, h, hx, hb, hc⟩
    rcases snoc_split.1 h with ⟨rfl, rfl, g⟩ | ⟨b', rfl, g⟩
    · refine .inl ⟨?_, hb⟩
      rw [← g]
      rcases hx with rfl | rfl
      · exact .inl rfl
      · exact .inr rfl
    · simp only [List.mem_append, List.mem_singleton, not_or] at hc
      exact .inr ⟨fun h => hc.2 h.symm, a, x, b', g, hx, hb, hc.1⟩
  · rintro (⟨hx, h⟩ | ⟨h1, a, x, b, rfl, hx, hb, hc⟩)
    · rcases hx with rfl | rfl
      · exact ⟨es, _, [], rfl, .inl rfl, h, by simp⟩
      · exact ⟨es, _, [], rfl, .inr rfl, h, by simp⟩
    · refine ⟨a, x, b ++ [e], by simp, hx, hb, ?_⟩
      simp only [List.mem_append, List.mem_singleton, not_or]
      exact ⟨hc, fun h => h1 h.symm⟩

/-- The sets are right. -/
structure Right (es : List (Event (Op K))) (w : World K) : Prop where
  pressed : ∀ k, k ∈ w.pressed ↔ Down k es
  justPressed : ∀ k, k ∈ w.justPressed ↔ Pressed k es
  justReleased : ∀ k, k ∈ w.justReleased ↔ Released k es
  nodup1 : w.pressed.Nodup
  nodup2 : w.justPressed.Nodup
  nodup3 : w.justReleased.Nodup

omit [DecidableEq K] in
theorem right_look {w : World K} (h : Right es w) : Right (es ++ [.look]) w :=
  ⟨fun k => by rw [down_snoc, h.pressed]; simp, fun k => by rw [pressed_snoc, h.justPressed]; simp,
    fun k => by rw [released_snoc, h.justReleased]; simp, h.nodup1, h.nodup2, h.nodup3⟩

theorem right_world {w : World K} (h : Right es w) (o : Op K) : Right (es ++ [.world o]) (w.apply o) := by
  cases o with
  | press k =>
    unfold World.apply
    dsimp only
    split
    · rename_i hk
      have hd := (h.pressed k).1 hk
      refine ⟨fun j => ?_, fun j => ?_, fun j => ?_, h.nodup1, h.nodup2, h.nodup3⟩
      · rw [down_snoc, h.pressed]
        constructor
        · exact fun h => .inr ⟨by simp, by simp, h⟩
        · rintro (h | h)
          · cases h; exact hd
          · exact h.2.2
      · rw [pressed_snoc, h.justPressed]
        constructor
        · exact fun h => .inr ⟨by simp, h⟩
        · rintro (⟨h1, h2⟩ | h)
          · cases h1; exact absurd hd h2
          · exact h.2
      · rw [released_snoc, h.justReleased]; simp
    · rename_i hk
      have hd := fun h' => hk ((h.pressed k).2 h')
      refine ⟨fun j => ?_, fun j => ?_, fun j => ?_, nodup_snoc h.nodup1 hk, nodup_insert h.nodup2, h.nodup3⟩
      · rw [down_snoc, List.mem_append, h.pressed, List.mem_singleton]
        constructor
        · rintro (h | rfl)
          · exact .inr ⟨by simp, by simp, h⟩
          · exact .inl rfl
        · rintro (h | h)
          · cases h; exact .inr rfl
          · exact .inl h.2.2
      · rw [pressed_snoc, mem_insert, h.justPressed]
        constructor
        · rintro (rfl | h)
          · exact .inl ⟨rfl, hd⟩
          · exact .inr ⟨by simp, h⟩
        · rintro (⟨h1, h2⟩ | h)
          · cases h1; exact .inl rfl
          · exact .inr h.2
      · rw [released_snoc, h.justReleased]; simp
  | release k =>
    unfold World.apply
    dsimp only
    split
    · rename_i hk
      have hd := (h.pressed k).1 hk
      refine ⟨fun j => ?_, fun j => ?_, fun j => ?_, h.nodup1.filter _, h.nodup2, nodup_insert h.nodup3⟩
      · rw [down_snoc, List.mem_filter, h.pressed]
        constructor
        · rintro ⟨h1, h2⟩
          refine .inr ⟨?_, by simp, h1⟩
          simp only [decide_eq_true_eq] at h2
          intro h; cases h; exact h2 rfl
        · rintro (h | h)
          · cases h
          · refine ⟨h.2.2, ?_⟩
            simp only [decide_eq_true_eq]
            rintro rfl
            exact h.1 rfl
      · rw [pressed_snoc, h.justPressed]; simp
      · rw [released_snoc, mem_insert, h.justReleased]
        constructor
        · rintro (rfl | h)
          · exact .inl ⟨.inl rfl, hd⟩
          · exact .inr ⟨by simp, h⟩
        · rintro (⟨h1 | h1, h2⟩ | h)
          · cases h1; exact .inl rfl
          · cases h1
          · exact .inr h.2
    · rename_i hk
      have hd := fun h' => hk ((h.pressed k).2 h')
      refine ⟨fun j => ?_, fun j => ?_, fun j => ?_, h.nodup1, h.nodup2, h.nodup3⟩
      · rw [down_snoc, h.pressed]
        constructor
        · intro h
          refine .inr ⟨?_, by simp, h⟩
          intro h'; cases h'; exact hd h
        · rintro (h | h)
          · cases h
          · exact h.2.2
      · rw [pressed_snoc, h.justPressed]; simp
      · rw [released_snoc, h.justReleased]
        constructor
        · exact fun h => .inr ⟨by simp, h⟩
        · rintro (⟨h1 | h1, h2⟩ | h)
          · cases h1; exact absurd h2 hd
          · cases h1
          · exact h.2
  | releaseAll =>
    refine ⟨fun j => ?_, fun j => ?_, fun j => ?_, List.nodup_nil, h.nodup2, nodup_foldl_insert _ h.nodup3⟩
    · rw [down_snoc]
      simp [World.apply]
    · rw [pressed_snoc, ← h.justPressed]; simp [World.apply]
    · rw [released_snoc]
      show j ∈ w.pressed.foldl (fun l k => insert k l) w.justReleased ↔ _
      rw [mem_foldl_insert, h.pressed, h.justReleased]
      simp
  | clear =>
    refine ⟨fun j => ?_, fun j => ?_, fun j => ?_, h.nodup1, List.nodup_nil, List.nodup_nil⟩
    · rw [down_snoc, ← h.pressed]; simp [World.apply]
    · rw [pressed_snoc]; simp [World.apply]
    · rw [released_snoc]; simp [World.apply]

theorem after_right (emit : Emit) (es : List (Event (Op K))) : Right es ((keyboard (K := K) emit).after es).1 := by
  induction es using Rx.snoc_induction with
  | nil =>
    refine ⟨fun k => ?_, fun k => ?_, fun k => ?_, List.nodup_nil, List.nodup_nil, List.nodup_nil⟩
    · exact iff_of_false (by simp [Poll.after]) (fun ⟨a, b, h, _⟩ => not_nil_split h)
    · exact iff_of_false (by simp [Poll.after]) (fun ⟨a, b, h, _⟩ => not_nil_split h)
    · exact iff_of_false (by simp [Poll.after]) (fun ⟨a, x, b, h, _⟩ => not_nil_split h)
  | snoc es e ih =>
    cases e with
    | look => rw [Poll.after_look]; exact right_look ih
    | world o => rw [Poll.after_world]; exact right_world ih o

theorem found_spec (emit : Emit) (es : List (Event (Op K))) : ((keyboard (K := K) emit).found es).Nodup ∧
    ∀ k, k ∈ (keyboard (K := K) emit).found es ↔ Wanted k es emit := by
  have h := after_right emit es
  show (((keyboard (K := K) emit).after es).1.keys emit).Nodup ∧ ∀ k, k ∈ ((keyboard (K := K) emit).after es).1.keys emit ↔ _
  generalize ((keyboard (K := K) emit).after es).1 = w at h
  cases emit with
  | justPressed => exact ⟨h.nodup2, h.justPressed⟩
  | justReleased => exact ⟨h.nodup3, h.justReleased⟩
  | whilePressed => exact ⟨h.nodup1, h.pressed⟩

end Keyboard

namespace Message
variable {M : Type} {es : List (Event (Op M))}

/-- How many updates. -/
abbrev updates (es : List (Event (Op M))) : Nat := es.countP (fun e => match e with | .world .update => true | _ => false)

/-- `Kept`, with another number of updates. -/
def KeptN (n : Nat) (es : List (Event (Op M))) : Prop :=
  .look ∉ es ∧ .world .clear ∉ es ∧ updates es ≤ n

open Classical in
/-- `found`, with another number of updates. -/
noncomputable def foundN (n : Nat) : List (Event (Op M)) → List M
  | [] => []
  | .world (.write m) :: es => if KeptN n es then m :: foundN n es else foundN n es
  | _ :: es => foundN n es

theorem found_eq_one (es : List (Event (Op M))) : found es = foundN 1 es := by
  induction es with
  | nil => rfl
  | cons e es ih =>
    cases e with
    | look => exact ih
    | world o =>
      cases o with
      | write m =>
        simp only [found, foundN]
        rw [ih]
        rfl
      | update => exact ih
      | clear => exact ih

theorem foundN_stop {n : Nat} {e : Event (Op M)} (he : e = .look ∨ e = .world .clear ∨ (n = 0 ∧ e = .world .update)) (es : List (Event (Op M))) :
    foundN n (es ++ [e]) = [] := by
  have hk : ∀ es, ¬ KeptN n (es ++ [e]) := by
    rintro es ⟨h1, h2, h3⟩
    rcases he with rfl | rfl | ⟨rfl, rfl⟩
    · simp at h1
    · simp at h2
    · simp [updates] at h3
  induction es with
  | nil => rcases he with rfl | rfl | ⟨rfl, rfl⟩ <;> rfl
  | cons x es ih =>
    cases x with
    | look => exact ih
    | world o =>
      cases o with
      | write m =>
        simp only [List.cons_append, foundN]
        rw [if_neg (hk es)]
        exact ih
      | update => exact ih
      | clear => exact ih

theorem foundN_write (n : Nat) (m : M) (es : List (Event (Op M))) :
    foundN n (es ++ [.world (.write m)]) = foundN n es ++ [m] := by
  have hk : ∀ es : List (Event (Op M)), KeptN n (es ++ [.world (.write m)]) ↔ KeptN n es := by
    intro es
    simp [KeptN, updates]
  induction es with
  | nil =>
    simp only [List.nil_append, foundN]
    rw [if_pos ⟨by simp, by simp, by simp [updates]⟩]
  | cons x es ih =>
    cases x with
    | look => exact ih
    | world o =>
      cases o with
      | write m' =>
        simp only [List.cons_append, foundN]
        by_cases h : KeptN n es
        · rw [if_pos h, if_pos ((hk es).2 h), ih]; rfl
        · rw [if_neg h, if_neg (fun h' => h ((hk es).1 h'))]; exact ih
      | update => exact ih
      | clear => exact ih

theorem foundN_update (n : Nat) (es : List (Event (Op M))) :
    foundN (n + 1) (es ++ [.world .update]) = foundN n es := by
  have hk : ∀ es : List (Event (Op M)), KeptN (n + 1) (es ++ [.world .update]) ↔ KeptN n es := by
    intro es
    simp [KeptN, updates]
  induction es with
  | nil => rfl
  | cons x es ih =>
    cases x with
    | look => exact ih
    | world o =>
      cases o with
      | write m' =>
        simp only [List.cons_append, foundN]
        by_cases h : KeptN n es
        · rw [if_pos h, if_pos ((hk es).2 h), ih]
        · rw [if_neg h, if_neg (fun h' => h ((hk es).1 h'))]; exact ih
      | update => exact ih
      | clear => exact ih

/-- The buffers are right. -/
structure Right (es : List (Event (Op M))) (w : World M) (c : Nat) : Prop where
  new : w.new.drop (c - w.newStart) = foundN 0 es
  all : w.old.drop (c - w.oldStart) ++ w.new.drop (c - w.newStart) = foundN 1 es
  le : c ≤ w.count
  start : w.oldStart + w.old.length = w.newStart
  count : w.newStart + w.new.length = w.count

theorem after_right (es : List (Event (Op M))) : Right es ((message M).after es).1 ((message M).after es).2 := by
  induction es using Rx.snoc_induction with
  | nil => exact ⟨rfl, rfl, Nat.le_refl _, rfl, rfl⟩
  | snoc es e ih =>
    cases e with
    | look =>
      rw [Poll.after_look]
      generalize (message M).after es = x at *
      obtain ⟨w, c⟩ := x
      have h1 : w.new.drop (w.count - w.newStart) = [] := List.drop_eq_nil_of_le (by have := ih.count; dsimp only at this; omega)
      have h2 : w.old.drop (w.count - w.oldStart) = [] := List.drop_eq_nil_of_le (by
        have h3 := ih.count; have h4 := ih.start; simp only at h3 h4; omega)
      refine ⟨?_, ?_, Nat.le_refl _, ih.start, ih.count⟩
      · rw [foundN_stop (.inl rfl)]
        exact h1
      · rw [foundN_stop (.inl rfl)]
        show w.old.drop (w.count - w.oldStart) ++ w.new.drop (w.count - w.newStart) = []
        rw [h1, h2]; rfl
    | world o =>
      rw [Poll.after_world]
      generalize (message M).after es = x at *
      obtain ⟨w, c⟩ := x
      obtain ⟨k1, k2, k3, k4, k5⟩ := ih
      dsimp only at k1 k2 k3 k4 k5
      cases o with
      | write m =>
        have hd : (w.new ++ [m]).drop (c - w.newStart) = w.new.drop (c - w.newStart) ++ [m] :=
          List.drop_append_of_le_length (by omega)
        refine ⟨?_, ?_, ?_, k4, ?_⟩
        · rw [foundN_write, ← k1]; exact hd
        · rw [foundN_write, ← k2, List.append_assoc, ← hd]; rfl
        · exact Nat.le_succ_of_le k3
        · show w.newStart + (w.new ++ [m]).length = w.count + 1
          rw [List.length_append, List.length_singleton]; omega
      | update =>
        refine ⟨?_, ?_, k3, k5, ?_⟩
        · rw [foundN_stop (.inr (.inr ⟨rfl, rfl⟩))]
          exact List.drop_nil
        · rw [foundN_update, ← k1]
          show w.new.drop (c - w.newStart) ++ [].drop _ = _
          rw [List.drop_nil, List.append_nil]
        · rfl
      | clear =>
        refine ⟨?_, ?_, k3, rfl, rfl⟩
        · rw [foundN_stop (.inr (.inl rfl))]
          exact List.drop_nil
        · rw [foundN_stop (.inr (.inl rfl))]
          show ([] : List M).drop _ ++ [].drop _ = _
          rw [List.drop_nil, List.drop_nil]; rfl

theorem found_eq (es : List (Event (Op M))) : (message M).found es = found es := by
  rw [found_eq_one, ← (after_right es).all]
  rfl

theorem foundN_mono (es : List (Event (Op M))) : (foundN 0 es).Sublist (foundN 1 es) := by
  induction es with
  | nil => exact .slnil
  | cons x es ih =>
    cases x with
    | look => exact ih
    | world o =>
      cases o with
      | write m' =>
        simp only [foundN]
        by_cases h : KeptN 0 es
        · rw [if_pos h, if_pos ⟨h.1, h.2.1, by have := h.2.2; omega⟩]
          exact ih.cons_cons _
        · rw [if_neg h]
          split
          · exact ih.cons _
          · exact ih
      | update => exact ih
      | clear => exact ih

theorem written_snoc (es : List (Event (Op M))) (e : Event (Op M)) : written (es ++ [e]) = written es ++
    match e with | .world (.write m) => [m] | _ => [] := by
  unfold written
  rw [List.filterMap_append]
  cases e with
  | look => rfl
  | world o => cases o <;> rfl

/-- Nothing is given twice, or out of order. -/
theorem due_sublist (es : List (Event (Op M) × Nat)) :
    ((due found es).map (·.1) ++ found (es.map (·.1))).Sublist (written (es.map (·.1))) := by
  induction es using Rx.snoc_induction with
  | nil => exact .slnil
  | snoc es e ih =>
    obtain ⟨e, k⟩ := e
    rw [List.map_append, List.map_singleton, written_snoc, found_eq_one]
    rw [found_eq_one] at ih
    cases e with
    | look =>
      rw [due_look, foundN_stop (.inl rfl), List.append_nil, List.append_nil, List.map_append, List.map_map,
        show ((fun x : M × Nat => x.1) ∘ fun x => (x, k)) = id from rfl, List.map_id, found_eq_one]
      exact ih
    | world o =>
      rw [due_world]
      cases o with
      | write m =>
        rw [foundN_write, ← List.append_assoc]
        exact ih.append (.refl _)
      | update =>
        rw [foundN_update, List.append_nil]
        exact ((List.Sublist.refl _).append (foundN_mono _)).trans ih
      | clear =>
        rw [foundN_stop (.inr (.inl rfl)), List.append_nil, List.append_nil]
        exact (List.sublist_append_left _ _).trans ih

theorem foundN_prompt (h : ∀ a b, es = a ++ b → .look ∉ b → updates b = 0) : foundN 1 es = foundN 0 es := by
  induction es with
  | nil => rfl
  | cons x es ih =>
    have ih := ih (fun a b he hb => h (x :: a) b (by rw [he]; rfl) hb)
    cases x with
    | look => exact ih
    | world o =>
      cases o with
      | write m' =>
        simp only [foundN]
        by_cases h1 : KeptN 1 es
        · rw [if_pos h1, if_pos ⟨h1.1, h1.2.1, by rw [h [.world (.write m')] es rfl h1.1]; exact Nat.le_refl _⟩, ih]
        · rw [if_neg h1, if_neg (fun h0 => h1 ⟨h0.1, h0.2.1, by have := h0.2.2; omega⟩), ih]
      | update => exact ih
      | clear => exact ih

/-- Nothing is lost. -/
theorem due_prompt (es : List (Event (Op M) × Nat)) (h : Prompt (es.map (·.1))) :
    (due found es).map (·.1) ++ found (es.map (·.1)) = written (es.map (·.1)) := by
  induction es using Rx.snoc_induction with
  | nil => rfl
  | snoc es e ih =>
    obtain ⟨e, k⟩ := e
    rw [List.map_append, List.map_singleton] at h ⊢
    have ih := ih (fun a b c he hb => h a b (c ++ [e]) (by rw [he]; simp) hb)
    rw [written_snoc, found_eq_one]
    rw [found_eq_one] at ih
    cases e with
    | look =>
      rw [due_look, foundN_stop (.inl rfl), List.append_nil, List.append_nil, List.map_append, List.map_map,
        show ((fun x : M × Nat => x.1) ∘ fun x => (x, k)) = id from rfl, List.map_id, found_eq_one]
      exact ih
    | world o =>
      rw [due_world]
      cases o with
      | write m => rw [foundN_write, ← List.append_assoc, ih]
      | update =>
        rw [foundN_update, List.append_nil, ← foundN_prompt, ih]
        intro a b he hb
        have : updates (b ++ [.world .update]) ≤ 1 := (h a (b ++ [.world .update]) [] (by rw [he]; simp) (by simp [hb])).1
        unfold updates at this ⊢
        rw [List.countP_append, List.countP_singleton] at this
        simp only [if_true] at this
        omega
      | clear => exact absurd (by simp) (h (es.map (·.1)) [.world .clear] [] (by simp) (by simp)).2

end Message

end Rx.Poll
