import Verif.Model.SubjectDrops
import Verif.Lemmas.Panics

namespace Rx.SubjectDrops

open Rx.Panics (Fragile Out)
open Rx.Panics.Subject (cancel giveAll greet locked)

variable {S I E : Type} {D : Fragile S I E} {ord : Nat → List Nat → List Nat}

/-- What giving a notification to some leaves as it is. -/
structure Kept (D : Fragile S I E) (x y : Publish.State S I E) : Prop where
  members : ∀ k ∈ y.members, k ∈ x.members
  count : y.count = x.count
  held : y.held = x.held
  queue : y.queue = x.queue
  dest : ∀ k, D.isClosed (x.dest k) = true → y.dest k = x.dest k

theorem Kept.trans {x y z : Publish.State S I E} (h : Kept D x y) (k : Kept D y z) : Kept D x z :=
  ⟨fun i hi => h.members i (k.members i hi), k.count.trans h.count, k.held.trans h.held, k.queue.trans h.queue,
    fun i hi => (k.dest i (by rw [h.dest i hi]; exact hi)).trans (h.dest i hi)⟩

theorem giveAll_kept (c : Nat) (n : SubscriberNotification I E) (js : List Nat) (x : Publish.State S I E) :
    Kept D x (giveAll D c n js x).1 ∧ (giveAll D c n js x).1.closedFlag = x.closedFlag := by
  induction js generalizing x with
  | nil => exact ⟨⟨fun _ h => h, rfl, rfl, rfl, fun _ _ => rfl⟩, rfl⟩
  | cons j js ih =>
    unfold giveAll
    split
    · exact ih x
    · rename_i hc
      have h1 : Kept D x (Publish.State.setDest { x with log := x.log ++ [(c, j, n)] } j (D.push (x.dest j) n).st) :=
        ⟨fun _ h => h, rfl, rfl, rfl, fun k hk => by
          have : k ≠ j := fun e => hc (e ▸ hk)
          simp [Publish.State.setDest, this]⟩
      dsimp only
      split
      · exact ⟨h1, rfl⟩
      · obtain ⟨g1, g2⟩ := ih (Publish.State.setDest { x with log := x.log ++ [(c, j, n)] } j (D.push (x.dest j) n).st)
        exact ⟨h1.trans g1, g2⟩

theorem giveAll_who (c : Nat) (n : SubscriberNotification I E) (js : List Nat) (x : Publish.State S I E) (j : Nat)
    (h : (giveAll D c n js x).2 = some j) : j ∈ js ∧ D.isClosed (x.dest j) = false := by
  induction js generalizing x with
  | nil => cases h
  | cons k js ih =>
    unfold giveAll at h
    split at h
    · obtain ⟨h1, h2⟩ := ih x h
      exact ⟨List.mem_cons_of_mem _ h1, h2⟩
    · rename_i hc
      dsimp only at h
      split at h
      · cases h
        exact ⟨List.mem_cons_self, by simpa using hc⟩
      · obtain ⟨h1, h2⟩ := ih _ h
        refine ⟨List.mem_cons_of_mem _ h1, ?_⟩
        by_cases hk : j = k
        · subst hk; simpa using hc
        · simpa [Publish.State.setDest, hk] using h2

theorem apply_kept (c : Nat) (x : Publish.State S I E) (n : SubscriberNotification I E) :
    Kept D x (Panics.Subject.apply D ord c x (.note n)).1 := by
  cases n with
  | unsubscribe =>
    have h1 : Kept D x { x with members := [] } := ⟨fun _ h => (by cases h), rfl, rfl, rfl, fun _ _ => rfl⟩
    exact h1.trans (giveAll_kept _ _ _ _).1
  | next v => exact (giveAll_kept _ _ _ _).1
  | error v => exact (giveAll_kept _ _ _ _).1
  | complete => exact (giveAll_kept _ _ _ _).1

theorem note_kept {x : Panics.Subject.State S I E} (hp : x.poisoned = none) (n : SubscriberNotification I E) :
    Kept D x.pub (Panics.Subject.note D ord x n).st.pub := by
  have hr : Kept D x.pub (x.pub.record (.note n)) := ⟨fun _ h => h, rfl, rfl, rfl, fun _ _ => rfl⟩
  unfold Panics.Subject.note
  rw [if_neg (by simp [hp])]
  cases n with
  | next v =>
    dsimp only
    split
    · exact hr
    · exact hr.trans (apply_kept _ _ _)
  | error e =>
    dsimp only
    split
    · exact hr
    · exact (⟨fun _ h => h, rfl, rfl, rfl, fun _ _ => rfl⟩ : Kept D x.pub
        { x.pub.record (.note (.error e)) with observedError := some e }).trans (apply_kept _ _ _)
  | complete =>
    dsimp only
    split
    · exact hr
    · exact (⟨fun _ h => h, rfl, rfl, rfl, fun _ _ => rfl⟩ : Kept D x.pub
        { x.pub.record (.note .complete) with completed := true }).trans (apply_kept _ _ _)
  | unsubscribe =>
    dsimp only
    split
    · exact hr
    · exact (⟨fun _ h => h, rfl, rfl, rfl, fun _ _ => rfl⟩ : Kept D x.pub
        { x.pub.record (.note .unsubscribe) with unsubscribed := true, closedFlag := true }).trans (apply_kept _ _ _)

theorem greet_held {x : Publish.State S I E} {s : S} : (greet D x s).st.held = x.held := by
  unfold greet
  dsimp only
  repeat' (first | rfl | split)

/-- Who is in the list is either closed or has a subscription that somebody owns. -/
structure Owned (D : Fragile S I E) (p : Publish.State S I E) (subs : List Nat) : Prop where
  known : ∀ k ∈ p.members, k < p.count
  owned : ∀ k ∈ p.members, (p.held k = true ∧ k ∈ subs) ∨ D.isClosed (p.dest k) = true
  queue : p.queue = []

theorem Owned.kept {x y : Publish.State S I E} {subs : List Nat} (h : Owned D x subs) (k : Kept D x y) : Owned D y subs := by
  refine ⟨fun i hi => (by rw [k.count]; exact h.known i (k.members i hi)), fun i hi => ?_, k.queue.trans h.queue⟩
  rcases h.owned i (k.members i hi) with g | g
  · left; rw [k.held]; exact g
  · right; rw [k.dest i g]; exact g

theorem subscribe_owned {x : Panics.Subject.State S I E} {subs : List Nat} (hp : x.poisoned = none) (h : Owned D x.pub subs) (s : S) :
    Owned D (Panics.Subject.subscribe D ord x s).st.pub
      (if (Panics.Subject.subscribe D ord x s).panicked then subs else subs ++ [x.pub.count]) := by
  obtain ⟨g1, g2, g3, -, -, g6, -⟩ := Panics.Subject.greet_frame (D := D) (x := x.pub.record (.subscribe x.pub.count)) (s := s)
  have gh := greet_held (D := D) (x := x.pub.record (.subscribe x.pub.count)) (s := s)
  have ho : ∀ l, (∀ k ∈ subs, k ∈ l) → Owned D (greet D (x.pub.record (.subscribe x.pub.count)) s).st l := by
    intro l hl
    refine ⟨fun k hk => ?_, fun k hk => ?_, g1.trans h.queue⟩
    · rw [g2] at hk
      rw [g3]
      exact Nat.lt_succ_of_lt (h.known k hk)
    · rw [g2] at hk
      have hne : k ≠ x.pub.count := Nat.ne_of_lt (h.known k hk)
      rw [gh, g6 k hne]
      rcases h.owned k hk with a | a
      · exact .inl ⟨a.1, hl k a.2⟩
      · exact .inr a
  unfold Panics.Subject.subscribe Out.andThen
  dsimp only
  split
  · exact ho _ (fun _ h => h)
  · split
    · exact ho _ (fun k hk => List.mem_append_left _ hk)
    · rw [if_neg (by simp [hp])]
      have hb := ho (subs ++ [x.pub.count]) (fun k hk => List.mem_append_left _ hk)
      have hc : x.pub.count < (greet D (x.pub.record (.subscribe x.pub.count)) s).st.count := by
        rw [g3]; exact Nat.lt_succ_self _
      generalize (greet D (x.pub.record (.subscribe x.pub.count)) s).st = q at *
      simp only [locked, Panics.Subject.apply, Option.isSome_none, Bool.false_eq_true, if_false]
      refine ⟨fun k hk => ?_, fun k hk => ?_, hb.queue⟩
      · simp only [List.mem_append, List.mem_filter, List.mem_singleton] at hk
        rcases hk with a | a
        · exact hb.known k a.1
        · rw [a]; exact hc
      · simp only [List.mem_append, List.mem_filter, List.mem_singleton] at hk
        by_cases hk2 : k = x.pub.count
        · left; simp [hk2]
        · rcases hk with a | a
          · simpa [hk2] using hb.owned k a.1
          · exact absurd a hk2

theorem cancel_owned {x : Panics.Subject.State S I E} {subs : List Nat} (hp : x.poisoned = none) (h : Owned D x.pub subs) (i : Nat)
    (hs : (cancel D ord x i).st.poisoned = none) :
    Owned D (cancel D ord x i).st.pub (subs.filter (· != i)) := by
  have key : ∀ q : Publish.State S I E, Owned D q subs → (i ∈ q.members → D.isClosed (q.dest i) = true) →
      Owned D (Panics.Subject.release i q) (subs.filter (· != i)) := by
    intro q hq hi
    refine ⟨hq.known, fun k hk => ?_, hq.queue⟩
    by_cases hki : k = i
    · subst hki; exact .inr (hi hk)
    · rcases hq.owned k hk with a | a
      · left
        refine ⟨?_, by simp [hki, a.2]⟩
        simp [Panics.Subject.release, hki, a.1]
      · exact .inr a
  have hr : Kept D x.pub (x.pub.record (.cancel i)) := ⟨fun _ h => h, rfl, rfl, rfl, fun _ _ => rfl⟩
  have h0 := h.kept hr
  unfold cancel at hs ⊢
  dsimp only at hs ⊢
  split
  · rename_i hb
    refine key _ h0 (fun hi => ?_)
    rcases h0.owned i hi with a | a
    · simpa [a.1, hp] using hb
    · exact a
  · rename_i hb
    rw [if_neg hb, if_neg (by simp [hp])] at hs
    rw [if_neg (by simp [hp])]
    unfold Out.andThen at hs ⊢
    split
    · rename_i hpan
      rw [if_pos hpan] at hs
      simp only [locked, id] at hs hpan
      rw [hs] at hpan
      cases hpan
    · simp only [locked]
      by_cases hi : i ∈ (x.pub.record (.cancel i)).members
      · have e : Kept D (x.pub.record (.cancel i))
            { x.pub.record (.cancel i) with members := (x.pub.record (.cancel i)).members.filter (· != i) } :=
          ⟨fun k hk => (List.mem_filter.1 hk).1, rfl, rfl, rfl, fun _ _ => rfl⟩
        simp only [Panics.Subject.apply, if_pos hi]
        refine key _ (h0.kept (e.trans (giveAll_kept _ _ _ _).1)) (fun hm => ?_)
        have := (giveAll_kept _ _ _ _).1.members i hm
        simp at this
      · simp only [Panics.Subject.apply, if_neg hi]
        exact key _ h0 (fun hm => absurd hm hi)

theorem Owned.more {p : Publish.State S I E} {a b : List Nat} (h : Owned D p a) (hab : ∀ k ∈ a, k ∈ b) : Owned D p b :=
  ⟨h.known, fun k hk => (h.owned k hk).imp (fun g => ⟨g.1, hab k g.2⟩) id, h.queue⟩

/-- What is true of every history. -/
structure Inv (D : Fragile S I E) (x : State S I E) : Prop where
  owned : x.core.poisoned = none → Owned D x.core.pub x.subs
  freed : x.freed = if x.subjects = 0 ∧ x.subs = [] then 1 else 0
  asserted : x.asserted = true → x.core.poisoned ≠ none ∧ x.subjects = 0 ∧ x.subs = []

theorem Inv.new (s : S) : Inv D (State.new s : State S I E) :=
  ⟨fun _ => ⟨fun _ h => (by cases h), fun _ h => (by cases h), rfl⟩, rfl, fun h => by cases h⟩

theorem dead {x : Panics.Subject.State S I E} (op : Publish.Op S I E) (h : (Panics.Subject.step D ord x op).st.poisoned = none) :
    x.poisoned = none := by
  cases hx : x.poisoned with
  | none => rfl
  | some j =>
    have := (Panics.Subject.step_dead (D := D) (ord := ord) (x := x) (by simp [hx]) op).poisoned
    rw [h, hx] at this
    cases this

theorem release_inv {x : State S I E} (h1 : x.core.poisoned = none → Owned D x.core.pub x.subs) (h2 : x.freed = 0)
    (h3 : x.asserted = false) : Inv D x.release := by
  unfold State.release
  split
  · rename_i hz
    refine ⟨h1, by simp [hz, h2], fun ha => ⟨fun hp => ?_, hz⟩⟩
    simp [(h1 hp).queue] at ha
  · rename_i hz
    exact ⟨h1, by rw [if_neg hz]; exact h2, fun ha => by rw [h3] at ha; cases ha⟩

theorem Inv.step {x : State S I E} (h : Inv D x) (op : Op S I E) : Inv D (step D ord x op).st := by
  have alive : ¬ (x.subjects = 0 ∧ x.subs = []) → x.freed = 0 ∧ x.asserted = false := by
    intro hz
    refine ⟨by rw [h.freed, if_neg hz], ?_⟩
    cases ha : x.asserted with
    | false => rfl
    | true => exact absurd (h.asserted ha).2 hz
  cases op with
  | clone =>
    simp only [SubjectDrops.step]
    split
    · exact h
    · rename_i h0
      obtain ⟨a, b⟩ := alive (fun k => h0 k.1)
      exact ⟨h.owned, by simp [a], fun k => by rw [show x.asserted = true from k] at b; cases b⟩
  | dropSubject =>
    simp only [SubjectDrops.step]
    split
    · exact h
    · rename_i h0
      obtain ⟨a, b⟩ := alive (fun k => h0 k.1)
      exact release_inv h.owned a b
  | dropSub i =>
    simp only [SubjectDrops.step]
    split
    · rename_i hi
      obtain ⟨a, b⟩ := alive (fun k => by rw [k.2] at hi; cases hi)
      refine release_inv (fun hp => ?_) a b
      have hx := dead (D := D) (ord := ord) (.cancel i) hp
      exact cancel_owned hx (h.owned hx) i hp
    · exact h
  | call op =>
    cases op with
    | note n =>
      simp only [SubjectDrops.step]
      split
      · exact h
      · rename_i h0
        obtain ⟨a, b⟩ := alive (fun k => h0 k.1)
        refine ⟨fun hp => ?_, by simp [a, h0], fun k => by rw [show x.asserted = true from k] at b; cases b⟩
        have hx := dead (D := D) (ord := ord) (.note n) hp
        exact (h.owned hx).kept (note_kept hx n)
    | subscribe s =>
      simp only [SubjectDrops.step]
      split
      · exact h
      · rename_i h0
        obtain ⟨a, b⟩ := alive (fun k => h0 k.1)
        refine ⟨fun hp => ?_, by simp [a, h0], fun k => by rw [show x.asserted = true from k] at b; cases b⟩
        have hx := dead (D := D) (ord := ord) (.subscribe s) hp
        exact subscribe_owned hx (h.owned hx) s
    | cancel i =>
      simp only [SubjectDrops.step]
      split
      · rename_i hi
        have hz : ¬ (x.subjects = 0 ∧ x.subs = []) := fun k => by rw [k.2] at hi; cases hi
        obtain ⟨a, b⟩ := alive hz
        refine ⟨fun hp => ?_, by rw [if_neg hz]; exact a, fun k => by rw [show x.asserted = true from k] at b; cases b⟩
        have hx := dead (D := D) (ord := ord) (.cancel i) hp
        exact (cancel_owned hx (h.owned hx) i hp).more (fun k hk => (List.mem_filter.1 hk).1)
      · exact h

theorem Inv.run {x : State S I E} (h : Inv D x) (ops : List (Op S I E)) : Inv D (run D ord x ops) := by
  induction ops generalizing x with
  | nil => exact h
  | cons op ops ih => exact ih (h.step op)

/-- A subscriber has panicked on a value: its own subscription is still there, or something is pending. -/
structure Doomed (x : State S I E) (j : Nat) : Prop where
  poisoned : x.core.poisoned = some j
  flag : x.core.pub.closedFlag = false
  cause : (x.core.pub.held j = true ∧ j ∈ x.subs) ∨ x.core.pub.queue ≠ []
  said : x.subjects = 0 → x.subs = [] → x.asserted = true

theorem Doomed.release {x : State S I E} {j : Nat} (h1 : x.core.poisoned = some j) (h2 : x.core.pub.closedFlag = false)
    (h3 : (x.core.pub.held j = true ∧ j ∈ x.subs) ∨ x.core.pub.queue ≠ []) : Doomed x.release j := by
  unfold State.release
  split
  · rename_i hz
    refine ⟨h1, h2, h3, fun _ _ => ?_⟩
    rcases h3 with a | a
    · rw [hz.2] at a; cases a.2
    · simpa using a
  · rename_i hz
    exact ⟨h1, h2, h3, fun a b => absurd ⟨a, b⟩ hz⟩

theorem cancel_doomed {x : Panics.Subject.State S I E} {j i : Nat} (h1 : x.poisoned = some j) (h2 : x.pub.closedFlag = false) :
    (cancel D ord x i).st.poisoned = some j ∧ (cancel D ord x i).st.pub.closedFlag = false ∧
    (x.pub.queue ≠ [] → (cancel D ord x i).st.pub.queue ≠ []) ∧
    (x.pub.held j = true → (i ≠ j → (cancel D ord x i).st.pub.held j = true) ∧
      (i = j → (cancel D ord x i).st.pub.queue ≠ [])) := by
  unfold cancel
  dsimp only
  split
  · rename_i hb
    refine ⟨h1, h2, fun h => h, fun hh => ⟨fun hij => ?_, fun hij => ?_⟩⟩
    · simp [Panics.Subject.release, Ne.symm hij, hh, Publish.State.record]
    · subst hij
      simp [Publish.State.record, hh, h1] at hb
  · have hf : (x.pub.record (.cancel i)).closedFlag = false := h2
    simp only [h1, Option.isSome_some, if_true, Publish.State.defer, hf, Bool.false_eq_true, if_false]
    refine ⟨trivial, rfl, fun _ => by simp [Panics.Subject.release], fun hh => ⟨fun hij => ?_, fun _ => by simp [Panics.Subject.release]⟩⟩
    simp [Panics.Subject.release, Ne.symm hij, hh, Publish.State.record]

theorem Doomed.step {x : State S I E} {j : Nat} (h : Doomed x j) (op : Op S I E)
    (ho : op = .dropSubject ∨ ∃ i, op = .dropSub i) : Doomed (step D ord x op).st j := by
  rcases ho with rfl | ⟨i, rfl⟩
  · simp only [SubjectDrops.step]
    split
    · exact h
    · exact Doomed.release h.poisoned h.flag h.cause
  · simp only [SubjectDrops.step]
    split
    · obtain ⟨a, b, c, d⟩ := cancel_doomed (D := D) (ord := ord) (i := i) h.poisoned h.flag
      refine Doomed.release a b ?_
      rcases h.cause with g | g
      · obtain ⟨d1, d2⟩ := d g.1
        by_cases hij : i = j
        · exact .inr (d2 hij)
        · exact .inl ⟨d1 hij, by simp [g.2, Ne.symm hij]⟩
      · exact .inr (c g)
    · exact h

theorem Doomed.run {x : State S I E} {j : Nat} (h : Doomed x j) (ops : List (Op S I E))
    (ho : ∀ op ∈ ops, op = .dropSubject ∨ ∃ i, op = .dropSub i) : Doomed (run D ord x ops) j := by
  induction ops generalizing x with
  | nil => exact h
  | cons op ops ih =>
    exact ih (h.step op (ho op List.mem_cons_self)) (fun o hm => ho o (List.mem_cons_of_mem _ hm))

theorem give_doomed (hord : ∀ c l, (ord c l).Perm l) {x : State S I E} (h : Owned D x.core.pub x.subs) (h0 : x.subjects ≠ 0)
    (c : Nat) (n : SubscriberNotification I E) {q : Publish.State S I E} (hm : q.members = x.core.pub.members)
    (hh : q.held = x.core.pub.held) (hde : q.dest = x.core.pub.dest) (hf : q.closedFlag = false)
    (hpan : (giveAll D c n (ord c q.members) q).2.isSome = true) :
    ∃ j, Doomed { x with core := (locked (giveAll D c n (ord c q.members) q)).st } j := by
  obtain ⟨j, hj⟩ := Option.isSome_iff_exists.1 hpan
  obtain ⟨w1, w2⟩ := giveAll_who _ _ _ _ _ hj
  obtain ⟨k1, k2⟩ := giveAll_kept (D := D) c n (ord c q.members) q
  have hmem : j ∈ x.core.pub.members := by rw [← hm]; exact (hord _ _).mem_iff.1 w1
  rw [hde] at w2
  have this : x.core.pub.held j = true ∧ j ∈ x.subs := by
    rcases h.owned j hmem with g | g
    · exact g
    · rw [w2] at g; cases g
  refine ⟨j, hj, ?_, .inl ⟨?_, this.2⟩, fun a => absurd a h0⟩
  · exact k2.trans hf
  · show (giveAll D c n (ord c q.members) q).1.held j = true
    rw [k1.held, hh]
    exact this.1

theorem note_doomed (hord : ∀ c l, (ord c l).Perm l) {x : State S I E} (h : Inv D x) (hp : x.core.poisoned = none)
    (n : SubscriberNotification I E) (hn : n ≠ .unsubscribe)
    (hpan : (SubjectDrops.step D ord x (.call (.note n))).panicked = true) :
    ∃ j, Doomed (SubjectDrops.step D ord x (.call (.note n))).st j := by
  simp only [SubjectDrops.step] at hpan ⊢
  split
  · rename_i h0; rw [if_pos h0] at hpan; cases hpan
  · rename_i h0
    rw [if_neg h0] at hpan
    have hw := h.owned hp
    have flag : ∀ c, ¬ (x.core.pub.record c).isClosed = true → x.core.pub.closedFlag = false := by
      intro c hc
      cases hf : x.core.pub.closedFlag with
      | false => rfl
      | true => exact absurd (by simp [Publish.State.isClosed, Publish.State.record, hf]) hc
    simp only [Panics.Subject.note, hp, Option.isSome_none, Bool.false_eq_true, if_false] at hpan ⊢
    cases n with
    | unsubscribe => exact absurd rfl hn
    | next v =>
      dsimp only at hpan ⊢
      split at hpan
      · cases hpan
      · rename_i hc
        rw [if_neg hc]
        exact give_doomed hord hw h0 (x.core.pub.record (.note (.next v))).now (.next v)
          (q := x.core.pub.record (.note (.next v))) rfl rfl rfl (flag _ hc) hpan
    | error e =>
      dsimp only at hpan ⊢
      split at hpan
      · cases hpan
      · rename_i hc
        rw [if_neg hc]
        exact give_doomed hord hw h0 (x.core.pub.record (.note (.error e))).now (.error e)
          (q := { x.core.pub.record (.note (.error e)) with observedError := some e }) rfl rfl rfl (flag _ hc) hpan
    | complete =>
      dsimp only at hpan ⊢
      split at hpan
      · cases hpan
      · rename_i hc
        rw [if_neg hc]
        exact give_doomed hord hw h0 (x.core.pub.record (.note .complete)).now .complete
          (q := { x.core.pub.record (.note .complete) with completed := true }) rfl rfl rfl (flag _ hc) hpan

theorem defer_flag (x : Publish.State S I E) (d : Publish.Deferred I E) : (x.defer d).closedFlag = x.closedFlag := by
  unfold Publish.State.defer
  split <;> rfl

theorem apply_flag (c : Nat) (x : Publish.State S I E) (d : Publish.Deferred I E) :
    (Panics.Subject.apply D ord c x d).1.closedFlag = x.closedFlag := by
  unfold Panics.Subject.apply
  split
  · exact (giveAll_kept _ _ _ _).2
  · exact (giveAll_kept _ _ _ _).2
  · split
    · exact (giveAll_kept _ _ _ _).2
    · rfl
  · rfl

theorem cancel_flag (x : Panics.Subject.State S I E) (i : Nat) : (cancel D ord x i).st.pub.closedFlag = x.pub.closedFlag := by
  unfold cancel
  dsimp only
  split
  · rfl
  · split
    · exact defer_flag _ _
    · unfold Panics.Out.andThen
      split <;> exact apply_flag _ _ _

/-- Only unsubscribing the subject closes it at once. -/
theorem step_flag {x : State S I E} {op : Op S I E} (hn : op ≠ .call (.note .unsubscribe)) :
    (SubjectDrops.step D ord x op).st.core.pub.closedFlag = x.core.pub.closedFlag := by
  have hr : ∀ y : State S I E, y.release.core = y.core := by
    intro y
    unfold State.release
    split <;> rfl
  unfold SubjectDrops.step
  split
  · split <;> rfl
  · rename_i n
    split
    · rfl
    · dsimp only
      unfold Panics.Subject.note
      split
      · unfold Publish.State.noteLocked
        cases n with
        | unsubscribe => exact absurd rfl hn
        | next v => dsimp only; split; rfl; exact defer_flag _ _
        | error e => dsimp only; split; rfl; exact defer_flag _ _
        | complete => dsimp only; split; rfl; exact defer_flag _ _
      · cases n with
        | unsubscribe => exact absurd rfl hn
        | next v => dsimp only; split; rfl; exact apply_flag _ _ _
        | error e => dsimp only; split; rfl; exact apply_flag _ _ _
        | complete => dsimp only; split; rfl; exact apply_flag _ _ _
  · rename_i s
    split
    · rfl
    · dsimp only
      obtain ⟨-, -, -, g, -⟩ := Panics.Subject.greet_frame (D := D) (x := x.core.pub.record (.subscribe x.core.pub.count)) (s := s)
      unfold Panics.Subject.subscribe Panics.Out.andThen
      dsimp only
      split
      · exact g
      · split
        · exact g
        · split
          · exact (defer_flag _ _).trans g
          · exact (apply_flag _ _ _).trans g
  · split
    · exact cancel_flag _ _
    · rfl
  · split
    · rfl
    · dsimp only
      rw [hr]
  · split
    · dsimp only
      rw [hr]
      exact cancel_flag _ _
    · rfl

theorem run_flag (ops : List (Op S I E)) (hn : Op.call (.note .unsubscribe) ∉ ops) (x : State S I E) :
    (SubjectDrops.run D ord x ops).core.pub.closedFlag = x.core.pub.closedFlag := by
  induction ops generalizing x with
  | nil => rfl
  | cons op ops ih =>
    exact (ih (fun h => hn (List.mem_cons_of_mem _ h)) _).trans (step_flag fun h => hn (h ▸ List.mem_cons_self))

theorem cancelled_doomed {x : State S I E} (hp : x.core.poisoned = none) (hf : x.core.pub.closedFlag = false)
    (i : Nat) (hpan : (SubjectDrops.step D ord x (.call (.cancel i))).panicked = true) :
    Doomed (SubjectDrops.step D ord x (.call (.cancel i))).st i := by
  simp only [SubjectDrops.step] at hpan ⊢
  split
  · rename_i hi
    rw [if_pos hi] at hpan
    have hx : ∀ r : Panics.Out (Panics.Subject.State S I E), r = cancel D ord x.core i → r.panicked = true →
        r.st.poisoned = some i ∧ r.st.pub.held i = true := by
      intro r hr hpr
      unfold cancel at hr
      simp only [hp, Option.isSome_none, Bool.false_eq_true, if_false] at hr
      split at hr
      · subst hr; cases hpr
      · rename_i hh
        have hheld : x.core.pub.held i = true := by
          cases hb : x.core.pub.held i with
          | true => rfl
          | false => exact absurd (by simp [Publish.State.record, hb]) hh
        unfold Panics.Out.andThen at hr
        split at hr
        · rename_i hl
          subst hr
          simp only [Panics.Subject.apply] at hl ⊢
          split at hl
          · rename_i hm
            rw [if_pos hm]
            obtain ⟨j, hj⟩ := Option.isSome_iff_exists.1 hl
            obtain ⟨w, -⟩ := giveAll_who _ _ _ _ _ hj
            obtain rfl := List.mem_singleton.1 w
            refine ⟨hj, ?_⟩
            exact (congrFun (giveAll_kept (D := D) _ _ _ _).1.held j).trans hheld
          · cases hl
        · subst hr; cases hpr
    obtain ⟨a, b⟩ := hx _ rfl hpan
    exact ⟨a, (cancel_flag _ _).trans hf, .inl ⟨b, hi⟩, fun _ h1 => by rw [show x.subs = [] from h1] at hi; cases hi⟩
  · rename_i hi
    rw [if_neg hi] at hpan
    cases hpan

/-- Unsubscribed: nothing is pending, and nothing ever will be. -/
def Quiet (p : Publish.State S I E) : Prop := p.closedFlag = true ∧ p.queue = []

theorem Quiet.defer {p : Publish.State S I E} (h : Quiet p) (d : Publish.Deferred I E) : Quiet (p.defer d) := by
  unfold Publish.State.defer
  rw [if_pos h.1]
  exact h

theorem Quiet.giveAll {p : Publish.State S I E} (h : Quiet p) (c : Nat) (n : SubscriberNotification I E) (js : List Nat) :
    Quiet (Panics.Subject.giveAll D c n js p).1 :=
  have k := giveAll_kept (D := D) c n js p
  ⟨k.2.trans h.1, k.1.queue.trans h.2⟩

theorem Quiet.apply {p : Publish.State S I E} (h : Quiet p) (c : Nat) (d : Publish.Deferred I E) :
    Quiet (Panics.Subject.apply D ord c p d).1 := by
  unfold Panics.Subject.apply
  split
  · exact Quiet.giveAll (p := { p with members := [] }) h _ _ _
  · exact h.giveAll _ _ _
  · split
    · exact Quiet.giveAll (p := { p with members := p.members.filter _ }) h _ _ _
    · exact h
  · exact h

theorem Quiet.cancel {x : Panics.Subject.State S I E} (h : Quiet x.pub) (i : Nat) : Quiet (cancel D ord x i).st.pub := by
  have hr : Quiet (x.pub.record (.cancel i)) := h
  unfold Panics.Subject.cancel
  dsimp only
  split
  · exact h
  · split
    · exact hr.defer _
    · unfold Panics.Out.andThen
      split <;> exact hr.apply _ _

theorem Quiet.note {x : Panics.Subject.State S I E} (h : Quiet x.pub) (n : SubscriberNotification I E) :
    Quiet (Panics.Subject.note D ord x n).st.pub := by
  unfold Panics.Subject.note
  split
  · unfold Publish.State.noteLocked
    cases n <;> dsimp only <;> split <;> first | exact h | (refine Quiet.defer ?_ _; exact h)
  · cases n <;> dsimp only <;> split <;> first | exact h | (refine Quiet.apply ?_ _ _; first | exact h | exact ⟨rfl, h.2⟩)

theorem Quiet.subscribe {x : Panics.Subject.State S I E} (h : Quiet x.pub) (s : S) :
    Quiet (Panics.Subject.subscribe D ord x s).st.pub := by
  obtain ⟨g1, -, -, g2, -⟩ := Panics.Subject.greet_frame (D := D) (x := x.pub.record (.subscribe x.pub.count)) (s := s)
  have g : Quiet (Panics.Subject.greet D (x.pub.record (.subscribe x.pub.count)) s).st := ⟨g2.trans h.1, g1.trans h.2⟩
  unfold Panics.Subject.subscribe Panics.Out.andThen
  dsimp only
  split
  · exact g
  · split
    · exact g
    · split
      · refine Quiet.defer ?_ _
        exact g
      · refine Quiet.apply ?_ _ _
        exact g

theorem Quiet.release {x : State S I E} (h : Quiet x.core.pub) (ha : x.asserted = false) :
    Quiet x.release.core.pub ∧ x.release.asserted = false := by
  unfold State.release
  split
  · exact ⟨h, by simp [h.2]⟩
  · exact ⟨h, ha⟩

theorem Quiet.step {x : State S I E} (h : Quiet x.core.pub) (ha : x.asserted = false) (op : Op S I E) :
    Quiet (SubjectDrops.step D ord x op).st.core.pub ∧ (SubjectDrops.step D ord x op).st.asserted = false := by
  unfold SubjectDrops.step
  split
  · split <;> exact ⟨h, ha⟩
  · split
    · exact ⟨h, ha⟩
    · exact ⟨h.note _, ha⟩
  · split
    · exact ⟨h, ha⟩
    · exact ⟨h.subscribe _, ha⟩
  · split
    · exact ⟨h.cancel _, ha⟩
    · exact ⟨h, ha⟩
  · split
    · exact ⟨h, ha⟩
    · exact Quiet.release (x := { x with subjects := x.subjects - 1 }) h ha
  · rename_i i
    split
    · exact Quiet.release (x := { x with core := (Panics.Subject.cancel D ord x.core i).st, subs := x.subs.filter (· != i) })
        (h.cancel _) ha
    · exact ⟨h, ha⟩

theorem Quiet.run {x : State S I E} (h : Quiet x.core.pub) (ha : x.asserted = false) (ops : List (Op S I E)) :
    (SubjectDrops.run D ord x ops).asserted = false := by
  induction ops generalizing x with
  | nil => exact ha
  | cons op ops ih =>
    obtain ⟨a, b⟩ := Quiet.step (D := D) (ord := ord) h ha op
    exact ih a b

theorem unsubscribed_quiet {x : State S I E} (h : Inv D x) (hp : x.core.poisoned = none) (h0 : x.subjects ≠ 0)
    (hu : x.core.pub.unsubscribed = true → x.core.pub.closedFlag = true) :
    Quiet (SubjectDrops.step D ord x (.call (.note .unsubscribe))).st.core.pub ∧
      (SubjectDrops.step D ord x (.call (.note .unsubscribe))).st.asserted = false := by
  have hq := (h.owned hp).queue
  have ha : x.asserted = false := by
    cases hb : x.asserted with
    | false => rfl
    | true => exact absurd hp (h.asserted hb).1
  simp only [SubjectDrops.step, if_neg h0, Panics.Subject.note, hp, Option.isSome_none, Bool.false_eq_true, if_false]
  refine ⟨?_, ha⟩
  split
  · rename_i hc
    exact ⟨hu hc, hq⟩
  · refine Quiet.apply ?_ _ _
    exact ⟨rfl, hq⟩

theorem giveAll_unsub (c : Nat) (n : SubscriberNotification I E) (js : List Nat) (x : Publish.State S I E) :
    (Panics.Subject.giveAll D c n js x).1.unsubscribed = x.unsubscribed := by
  induction js generalizing x with
  | nil => rfl
  | cons j js ih =>
    unfold Panics.Subject.giveAll
    split
    · exact ih _
    · dsimp only
      split
      · rfl
      · exact (ih _).trans rfl

theorem greet_unsub (x : Publish.State S I E) (s : S) : (Panics.Subject.greet D x s).st.unsubscribed = x.unsubscribed := by
  unfold Panics.Subject.greet
  dsimp only
  repeat' split
  all_goals rfl

theorem defer_unsub (x : Publish.State S I E) (d : Publish.Deferred I E) : (x.defer d).unsubscribed = x.unsubscribed := by
  unfold Publish.State.defer
  split <;> rfl

theorem apply_unsub (c : Nat) (x : Publish.State S I E) (d : Publish.Deferred I E) :
    (Panics.Subject.apply D ord c x d).1.unsubscribed = x.unsubscribed := by
  unfold Panics.Subject.apply
  split
  · exact giveAll_unsub _ _ _ _
  · exact giveAll_unsub _ _ _ _
  · split
    · exact giveAll_unsub _ _ _ _
    · rfl
  · rfl

theorem cancel_unsub (x : Panics.Subject.State S I E) (i : Nat) : (cancel D ord x i).st.pub.unsubscribed = x.pub.unsubscribed := by
  unfold cancel
  dsimp only
  split
  · rfl
  · split
    · exact defer_unsub _ _
    · unfold Panics.Out.andThen
      split <;> exact apply_unsub _ _ _

/-- Only unsubscribing the subject unsubscribes it. -/
theorem step_unsub {x : State S I E} {op : Op S I E} (hn : op ≠ .call (.note .unsubscribe)) :
    (SubjectDrops.step D ord x op).st.core.pub.unsubscribed = x.core.pub.unsubscribed := by
  have hr : ∀ y : State S I E, y.release.core = y.core := by
    intro y
    unfold State.release
    split <;> rfl
  unfold SubjectDrops.step
  split
  · split <;> rfl
  · rename_i n
    split
    · rfl
    · dsimp only
      unfold Panics.Subject.note
      split
      · unfold Publish.State.noteLocked
        cases n with
        | unsubscribe => exact absurd rfl hn
        | next v => dsimp only; split; rfl; exact defer_unsub _ _
        | error e => dsimp only; split; rfl; exact defer_unsub _ _
        | complete => dsimp only; split; rfl; exact defer_unsub _ _
      · cases n with
        | unsubscribe => exact absurd rfl hn
        | next v => dsimp only; split; rfl; exact apply_unsub _ _ _
        | error e => dsimp only; split; rfl; exact apply_unsub _ _ _
        | complete => dsimp only; split; rfl; exact apply_unsub _ _ _
  · rename_i s
    split
    · rfl
    · dsimp only
      have g := greet_unsub (D := D) (x.core.pub.record (.subscribe x.core.pub.count)) s
      unfold Panics.Subject.subscribe Panics.Out.andThen
      dsimp only
      split
      · exact g
      · split
        · exact g
        · split
          · exact (defer_unsub _ _).trans g
          · exact (apply_unsub _ _ _).trans g
  · split
    · exact cancel_unsub _ _
    · rfl
  · split
    · rfl
    · dsimp only
      rw [hr]
  · split
    · dsimp only
      rw [hr]
      exact cancel_unsub _ _
    · rfl

theorem run_unsub (ops : List (Op S I E)) (hn : Op.call (.note .unsubscribe) ∉ ops) (x : State S I E) :
    (SubjectDrops.run D ord x ops).core.pub.unsubscribed = x.core.pub.unsubscribed := by
  induction ops generalizing x with
  | nil => rfl
  | cons op ops ih =>
    exact (ih (fun h => hn (List.mem_cons_of_mem _ h)) _).trans (step_unsub fun h => hn (h ▸ List.mem_cons_self))

end Rx.SubjectDrops
