import Verif.Lemmas.CachingThreads
import Verif.Lemmas.SubjectThreadsPrimed
import Verif.Spec.AsyncThreads

/-!
# Several threads that share an async subject
-/

namespace Rx.Awaiting

open Closing (Dest)

variable {S I E : Type} {f : I → I → I} {D : Dest S I E} {debug : Bool} {s : Nat → S} {x : State S I E} {t : Nat}

/-! ## Traces -/

theorem inner_append (a b : List (Mark I E)) : inner (a ++ b) = inner a ++ inner b := by simp [inner]
theorem stored_append (a b : List (Mark I E)) : stored (a ++ b) = stored a ++ stored b := by simp [stored]
theorem heardBy_append (i : Nat) (a b : List (Mark I E)) : heardBy i (a ++ b) = heardBy i a ++ heardBy i b := by simp [heardBy]
theorem replaysTo_append (i : Nat) (a b : List (Mark I E)) : replaysTo i (a ++ b) = replaysTo i a ++ replaysTo i b := by
  simp [replaysTo]

theorem inner_core (b : List (Crowd.Mark I E)) : inner (b.map .core) = b := by
  induction b with
  | nil => rfl
  | cons m b ih => simp only [List.map_cons, inner, List.filterMap_cons]; exact congrArg _ ih

theorem replaysTo_core (i : Nat) (b : List (Crowd.Mark I E)) : replaysTo i (b.map .core) = [] := by
  induction b with
  | nil => rfl
  | cons m b ih => simpa only [List.map_cons, replaysTo, List.filterMap_cons] using ih

theorem stored_core (b : List (Crowd.Mark I E)) : stored (b.map .core) = [] := by
  induction b with
  | nil => rfl
  | cons m b ih => simpa only [List.map_cons, stored, List.filterMap_cons] using ih

theorem heardBy_core (i : Nat) (b : List (Crowd.Mark I E)) : heardBy i (b.map .core) = Crowd.givesTo i b := by
  induction b with
  | nil => rfl
  | cons m b ih =>
    simp only [List.map_cons, heardBy, Crowd.givesTo, List.filterMap_cons] at ih ⊢
    cases m with
    | give k j n => by_cases h : j = i <;> simp [h, ih]
    | call k t op => simpa using ih
    | ret k => simpa using ih
    | answer t b => simpa using ih

theorem mem_inner {tr : List (Mark I E)} {m : Crowd.Mark I E} : m ∈ inner tr ↔ .core m ∈ tr := by
  simp only [inner, List.mem_filterMap]
  constructor
  · rintro ⟨n, h1, h2⟩
    cases n with
    | core n => cases h2; exact h1
    | _ => cases h2
  · exact fun h => ⟨_, h, rfl⟩

theorem result_same {a b : List (Mark I E)} (h : stored b = []) : result f (a ++ b) = result f a := by
  simp [result, stored_append, h]

theorem result_store (a : List (Mark I E)) (t : Nat) (v : I) :
    result f (a ++ [.store t v]) = store f (result f a) v := by
  have : stored (a ++ [(.store t v : Mark I E)]) = stored a ++ [v] := by rw [stored_append]; rfl
  rw [result, result, this]
  cases stored a with
  | nil => rfl
  | cons w ws => simp [store]

/-- What comes after what. -/
def Explained (f : I → I → I) (a : List (Mark I E)) : Mark I E → Prop
  | .core (.call _ t (.next v)) => ∃ a', a = a' ++ [.finish t] ∧ result f a' = some v
  | .core (.call _ t .complete) => (∃ a', a = a' ++ [.finish t] ∧ result f a' = none) ∨
      ∃ a' k v c, a = a' ++ .finish t :: .core (.call k t (.next v)) :: c ∧ result f a' = some v ∧ Silent t c ∧
        .ret k ∈ inner c
  | .core (.call i t .subscribe) => ∃ a1 a2, a = a1 ++ .enter t :: a2 ∧ Silent t a2 ∧
      ((a2 = [] ∧ replaysTo i a = [] ∧ ¬ Crowd.Ended (inner a1)) ∨
        (Crowd.Ending (inner a1) ∧ ∃ c d, a2 = c ++ d ∧
          ((replaysTo i a = (result f (a1 ++ .enter t :: c)).toList ∧
              ∃ j u op, .call j u op ∈ inner a ∧ (op = .complete ∨ op = .unsubscribe)) ∨
            (replaysTo i a = [] ∧ ∃ j u e, .call j u (.error e) ∈ inner a))))
  | .read _ o => o = result f a
  | .replay i v => (∀ t op, .core (.call i t op) ∉ a) ∧ replaysTo i a = [] ∧ ∃ c d, a = c ++ d ∧ result f c = some v ∧ Crowd.Ending (inner c) ∧
      ∃ j u op, .call j u op ∈ inner a ∧ (op = .complete ∨ op = .unsubscribe)
  | _ => True

/-- All of it. -/
def Law (f : I → I → I) (tr : List (Mark I E)) : Prop := ∀ a m b, tr = a ++ m :: b → Explained f a m

theorem Law.nil : Law f ([] : List (Mark I E)) := fun a m b h => by have := congrArg List.length h; simp at this

theorem Law.snoc {tr : List (Mark I E)} {m : Mark I E} (h : Law f tr) (hm : Explained f tr m) : Law f (tr ++ [m]) := by
  intro a n b e
  rcases List.append_eq_append_iff.1 e with ⟨as, ha, hb⟩ | ⟨bs, ha, hb⟩
  · cases as with
    | nil =>
      simp only [List.nil_append, List.cons.injEq] at hb
      rw [List.append_nil] at ha
      rw [ha, ← hb.1]; exact hm
    | cons n' as => have := congrArg List.length hb; simp at this
  · cases bs with
    | nil =>
      simp only [List.nil_append, List.cons.injEq] at hb
      rw [List.append_nil] at ha
      rw [← ha, hb.1]; exact hm
    | cons n' bs =>
      simp only [List.cons_append, List.cons.injEq] at hb
      exact h a n bs (by rw [ha, hb.1])

theorem Law.quiet {tr : List (Mark I E)} (h : Law f tr) : ∀ b : List (Crowd.Mark I E), (∀ k u op, .call k u op ∉ b) →
    Law f (tr ++ b.map .core) := by
  intro b
  induction b using Rx.snoc_induction with
  | nil => intro _; simpa using h
  | snoc b m ih =>
    intro hb
    rw [List.map_append, ← List.append_assoc]
    refine (ih fun k u op hk => hb k u op (by simp [hk])).snoc ?_
    cases m with
    | call k u op => exact absurd (by simp) (hb k u op)
    | _ => trivial

/-! ## Silence -/

theorem Silent.nil : Silent t ([] : List (Mark I E)) := ⟨by simp, by simp, by simp, by simp⟩

theorem Silent.append {a b : List (Mark I E)} (h : Silent t a) (g : Silent t b) : Silent t (a ++ b) :=
  ⟨fun hm => (List.mem_append.1 hm).elim h.1 g.1, fun hm => (List.mem_append.1 hm).elim h.2.1 g.2.1,
    fun v hm => (List.mem_append.1 hm).elim (h.2.2.1 v) (g.2.2.1 v),
    fun k op hm => (List.mem_append.1 hm).elim (h.2.2.2 k op) (g.2.2.2 k op)⟩

theorem Silent.core {b : List (Crowd.Mark I E)} (h : ∀ k op, .call k t op ∉ b) : Silent t (b.map .core : List (Mark I E)) :=
  ⟨by simp, by simp, by simp, fun k op hm => by
    simp only [List.mem_map, Mark.core.injEq, exists_eq_right] at hm
    exact h k op hm⟩

theorem Silent.replay (i : Nat) (vs : List I) : Silent t (vs.map (.replay i) : List (Mark I E)) :=
  ⟨by simp, by simp, by simp, by simp⟩

/-! ## What is known of a thread -/

def Known (f : I → I → I) (tr : List (Mark I E)) (t : Nat) : Stage I → Prop
  | .out => True
  | .finishing => ∃ a k v c, tr = a ++ .finish t :: .core (.call k t (.next v)) :: c ∧ result f a = some v ∧ Silent t c
  | .found => ∃ a b, tr = a ++ .enter t :: b ∧ Silent t b ∧ Crowd.Ending (inner a)
  | .copied o => ∃ a c d, tr = a ++ .enter t :: (c ++ d) ∧ Silent t (c ++ d) ∧ Crowd.Ending (inner a) ∧
      o = result f (a ++ .enter t :: c)

theorem Known.append {tr d : List (Mark I E)} {p : Stage I} (h : Known f tr t p) (hd : Silent t d) : Known f (tr ++ d) t p := by
  cases p with
  | out => trivial
  | finishing =>
    obtain ⟨a, k, v, c, rfl, h1, h2⟩ := h
    exact ⟨a, k, v, c ++ d, by simp, h1, h2.append hd⟩
  | found =>
    obtain ⟨a, b, rfl, h1, h2⟩ := h
    exact ⟨a, b ++ d, by simp, h1.append hd, h2⟩
  | copied o =>
    obtain ⟨a, c, d', rfl, h1, h2, h3⟩ := h
    exact ⟨a, c, d' ++ d, by simp, by rw [← List.append_assoc]; exact h1.append hd, h2, h3⟩

/-! ## What a turn does -/

theorem turn_eq {y : Crowd.State S I E} {b : List (Crowd.Mark I E)} (h : y.trace = x.core.trace ++ b) :
    x.moves y = { x with core := y, trace := x.trace ++ b.map .core } := by
  unfold State.moves
  rw [h]
  simp

/-- The publish subject inside begins call `op`. -/
theorem call_eq {op : Crowd.Op I E} (hp : x.core.pc t = .idle) (hv : op.void x.core.handles = false) :
    x.turn D debug t (.call op) = { x with
      core := Crowd.step D debug x.core t (.call op), trace := x.trace ++ [.core (.call x.core.calls t op)] } := by
  unfold State.turn
  rw [turn_eq (b := [.call x.core.calls t op]) (by rw [Keeping.step_call hp hv]; rfl)]
  rfl

/-- What the new subscriber is given. -/
def gift (x : State S I E) (o : Option I) : List I := if x.core.error.isNone then o.toList else []

/-- What a turn of thread `t` can do. -/
inductive Change (f : I → I → I) (D : Dest S I E) (debug : Bool) (x : State S I E) (t : Nat) (y : State S I E) : Prop
  | quiet (a : Crowd.Turn I E) (b : List (Crowd.Mark I E)) (st : x.stage t = .out ∨ x.stage t = .finishing)
      (core : y.core = Crowd.step D debug x.core t a) (marks : y.core.trace = x.core.trace ++ b)
      (calls : ∀ k u op, .call k u op ∉ b) (trace : y.trace = x.trace ++ b.map .core)
      (value : y.value = x.value) (stage : y.stage = x.stage)
  | call (d : List (Mark I E)) (op : Crowd.Op I E) (p : Stage I) (pc : x.core.pc t = .idle)
      (void : op.void x.core.handles = false)
      (core : y.core = Crowd.step D debug x.core t (.call op))
      (trace : y.trace = x.trace ++ d ++ [.core (.call x.core.calls t op)])
      (value : y.value = x.value) (stage : y.stage = fun u => if u = t then p else x.stage u)
      (why : (x.stage t = .out ∧ d = [] ∧ p = .out ∧ op ≠ .subscribe ∧ op ≠ .complete ∧ ∀ v, op ≠ .next v) ∨
        (x.stage t = .out ∧ d = [.finish t] ∧ p = .out ∧ op = .complete ∧ x.value = none) ∨
        (x.stage t = .out ∧ d = [.finish t] ∧ p = .finishing ∧ ∃ v, op = .next v ∧ x.value = some v) ∨
        (x.stage t = .finishing ∧ d = [] ∧ p = .out ∧ op = .complete) ∨
        (x.stage t = .out ∧ d = [.enter t] ∧ p = .out ∧ op = .subscribe ∧ x.core.shut = false))
  | store (v : I) (st : x.stage t = .out) (core : y.core = x.core) (trace : y.trace = x.trace ++ [.store t v])
      (value : y.value = Awaiting.store f x.value v) (stage : y.stage = x.stage)
  | found (st : x.stage t = .out) (pc : x.core.pc t = .idle) (shut : x.core.shut = true) (core : y.core = x.core)
      (trace : y.trace = x.trace ++ [.enter t]) (value : y.value = x.value)
      (stage : y.stage = fun u => if u = t then .found else x.stage u)
  | copy (st : x.stage t = .found) (core : y.core = x.core) (trace : y.trace = x.trace) (value : y.value = x.value)
      (stage : y.stage = fun u => if u = t then .copied x.value else x.stage u)
  | subscribe (o : Option I) (st : x.stage t = .copied o)
      (core : y.core = Crowd.step D debug (Keeping.primed D (gift x o) x.core) t (.call .subscribe))
      (trace : y.trace = x.trace ++ (gift x o).map (.replay x.core.calls) ++ [.core (.call x.core.calls t .subscribe)])
      (value : y.value = x.value) (stage : y.stage = fun u => if u = t then .out else x.stage u)
  | read (core : y.core = x.core) (trace : y.trace = x.trace ++ [.read t x.value]) (value : y.value = x.value)
      (stage : y.stage = x.stage)

theorem change_quiet (hD : D.Contract) {s : Nat → S} (h : Crowd.Inv D s x.core)
    (hs : x.stage t = .out ∨ x.stage t = .finishing) (a : Crowd.Turn I E)
    (hc : (Crowd.step D debug x.core t a).calls = x.core.calls) : Change f D debug x t (x.turn D debug t a) := by
  obtain ⟨b, h1, h2⟩ := Keeping.turn_trace (debug := debug) hD h t a hc
  unfold State.turn
  rw [turn_eq h1]
  exact .quiet a b hs rfl h1 h2 rfl rfl rfl

theorem same_stage {p : Stage I} (h : x.stage t = p) : x.stage = fun u => if u = t then p else x.stage u := by
  funext u
  by_cases e : u = t
  · rw [if_pos e, e, h]
  · rw [if_neg e]

theorem primed_nil (x : Crowd.State S I E) : Keeping.primed D [] x = x := by
  unfold Keeping.primed
  simp

theorem change_step (hD : D.Contract) {s : Nat → S} (h : Crowd.Inv D s x.core)
    (hi : ∀ t, (x.stage t = .found ∨ ∃ o, x.stage t = .copied o) → x.core.pc t = .idle) (a : Turn I E) :
    Change f D debug x t (step f D debug x t a) := by
  unfold step
  split
  · rename_i hs
    split
    · rename_i hp
      have hp := Crowd.isIdle_eq hp
      rw [call_eq (x := x.goto t .out) hp rfl]
      exact .call [] .complete .out hp rfl rfl (by simp [State.goto]) rfl rfl (.inr (.inr (.inr (.inl ⟨hs, rfl, rfl, rfl⟩))))
    · rename_i hp
      exact change_quiet hD h (.inr hs) _ (Keeping.step_busy (Bool.eq_false_iff.2 hp) _)
  · rename_i hs
    exact .copy hs rfl rfl rfl rfl
  · rename_i o hs
    have hp := hi t (.inr ⟨o, hs⟩)
    have hnone : gift x o = [] → Change f D debug x t ((x.goto t .out).turn D debug t (.call .subscribe)) := by
      intro hg
      rw [call_eq (x := x.goto t .out) hp rfl]
      refine .subscribe o hs ?_ (by rw [hg]; simp [State.goto]) rfl rfl
      rw [hg, primed_nil]
      rfl
    cases o with
    | none => exact hnone (by simp [gift])
    | some v =>
      dsimp only
      cases he : x.core.error.isNone with
      | false =>
        rw [if_neg (by show ¬ (x.core.error.isNone = true); rw [he]; simp)]
        exact hnone (by simp [gift, he])
      | true =>
        rw [if_pos (by show x.core.error.isNone = true; exact he)]
        rw [call_eq (x := (x.goto t .out).replay D v) hp rfl]
        have hg : gift x (some v) = [v] := by simp [gift, he]
        refine .subscribe (some v) hs ?_ ?_ rfl rfl
        · rw [hg]; rfl
        · rw [hg]; rfl
  · rename_i hs
    split
    · rename_i hp
      have hp := Crowd.isIdle_eq hp
      have call : ∀ op : Crowd.Op I E, op ≠ .subscribe → op ≠ .complete → (∀ v, op ≠ .next v) →
          Change f D debug x t (x.turn D debug t (.call op)) := by
        intro op h1 h2 h3
        cases hv : op.void x.core.handles with
        | true =>
          refine change_quiet hD h (.inl hs) _ ?_
          unfold Crowd.step
          rw [hp]
          simp [Crowd.PC.isIdle, hv]
        | false =>
          rw [call_eq hp hv]
          exact .call [] op .out hp hv rfl (by simp) rfl (same_stage hs) (.inl ⟨hs, rfl, rfl, h1, h2, h3⟩)
      cases a with
      | read => exact .read rfl rfl rfl rfl
      | core a =>
        cases a with
        | go => exact change_quiet hD h (.inl hs) _ (by unfold Crowd.step; rw [hp]; rfl)
        | ask => exact change_quiet hD h (.inl hs) _ (by unfold Crowd.step; rw [hp]; rfl)
        | drop => exact change_quiet hD h (.inl hs) _ (by unfold Crowd.step; rw [hp]; rfl)
        | call op =>
          cases op with
          | next v => exact .store v hs rfl rfl rfl rfl
          | complete =>
            dsimp only
            split
            · rename_i v hv
              rw [call_eq (x := (x.note (.finish t)).goto t .finishing) hp rfl]
              exact .call [.finish t] (.next v) .finishing hp rfl rfl rfl rfl rfl
                (.inr (.inr (.inl ⟨hs, rfl, rfl, v, rfl, hv⟩)))
            · rename_i hv
              rw [call_eq (x := x.note (.finish t)) hp rfl]
              exact .call [.finish t] .complete .out hp rfl rfl rfl rfl (same_stage hs)
                (.inr (.inl ⟨hs, rfl, rfl, rfl, hv⟩))
          | subscribe =>
            dsimp only
            split
            · rename_i he
              exact .found hs hp he rfl rfl rfl rfl
            · rename_i he
              rw [call_eq (x := x.note (.enter t)) hp rfl]
              exact .call [.enter t] .subscribe .out hp rfl rfl rfl rfl (same_stage hs)
                (.inr (.inr (.inr (.inr ⟨hs, rfl, rfl, rfl, by simpa [State.note] using he⟩))))
          | error e => exact call _ (by simp) (by simp) (by simp)
          | unsubscribe => exact call _ (by simp) (by simp) (by simp)
          | cancel k => exact call _ (by simp) (by simp) (by simp)
    · rename_i hp
      exact change_quiet hD h (.inl hs) _ (Keeping.step_busy (Bool.eq_false_iff.2 hp) _)

/-! ## The invariant -/

/-- All that is known. -/
structure Good (f : I → I → I) (D : Dest S I E) (debug : Bool) (s : Nat → S) (x : State S I E) : Prop where
  inner : inner x.trace = x.core.trace
  follows : Crowd.Follows D debug s (fun i => replaysTo i x.trace) x.core
  heard : ∀ i, heardBy i x.trace = (replaysTo i x.trace).map .next ++ Crowd.givesTo i (Awaiting.inner x.trace)
  value : x.value = result f x.trace
  law : Law f x.trace
  idle : ∀ t, (x.stage t = .found ∨ ∃ o, x.stage t = .copied o) → x.core.pc t = .idle
  shut : ∀ t, (x.stage t = .found ∨ ∃ o, x.stage t = .copied o) → x.core.shut = true
  known : ∀ t, Known f x.trace t (x.stage t)
  shunned : ∀ i, replaysTo i x.trace ≠ [] → Crowd.Shunned i x.core

theorem Good.inv (h : Good f D debug s x) (hD : D.Contract) :
    Crowd.Inv D (Crowd.given D s fun i => replaysTo i x.trace) x.core := h.follows.inv hD

theorem Good.init : Good f D debug s (init s) where
  inner := rfl
  follows := .init
  heard _ := rfl
  value := rfl
  law := .nil
  idle _ h := by rcases h with h | ⟨o, h⟩ <;> cases h
  shut _ h := by rcases h with h | ⟨o, h⟩ <;> cases h
  known _ := trivial
  shunned _ h := absurd rfl h

theorem Good.back (h : Good f D debug s x) (hD : D.Contract) {k u op} (hk : .call k u op ∈ x.core.trace) :
    .ret k ∈ x.core.trace ∨ (x.core.pc u).cur = some ⟨k, op⟩ := by
  obtain ⟨l, e⟩ := h.follows.run
  have := Crowd.run_back (D := D) (debug := debug) hD (Crowd.given D s fun i => replaysTo i x.trace) l
  rw [← e] at this
  exact this _ _ _ hk

theorem Good.times (h : Good f D debug s x) (hD : D.Contract) : Crowd.Times x.core.trace := by
  obtain ⟨l, e⟩ := h.follows.run
  rw [e]
  exact Crowd.run_times hD _ l

theorem Good.kinds (h : Good f D debug s x) (hD : D.Contract) : Crowd.Kinds x.core := by
  obtain ⟨l, e⟩ := h.follows.run
  rw [e]
  exact Crowd.run_kinds hD _ l

/-- Whoever is back from `next`. -/
theorem Good.finished (h : Good f D debug s x) (hD : D.Contract) (hs : x.stage t = .finishing) (hp : x.core.pc t = .idle) :
    ∃ a' k v c, x.trace = a' ++ .finish t :: .core (.call k t (.next v)) :: c ∧ result f a' = some v ∧ Silent t c ∧
      .ret k ∈ Awaiting.inner c := by
  have hk := h.known t
  rw [hs] at hk
  obtain ⟨a, k, v, c, e, h1, h2⟩ := hk
  refine ⟨a, k, v, c, e, h1, h2, ?_⟩
  have hin : x.core.trace = Awaiting.inner a ++ .call k t (.next v) :: Awaiting.inner c := by
    rw [← h.inner, e]; simp [Awaiting.inner]
  have hr : .ret k ∈ x.core.trace := (h.back hD (k := k) (u := t) (op := .next v) (by rw [hin]; simp)).resolve_right
    (by rw [hp]; exact fun e => by cases e)
  rw [hin] at hr
  simp only [List.mem_append, List.mem_cons] at hr
  rcases hr with hr | hr | hr
  · have ht := h.times hD
    obtain ⟨u, op, h3⟩ := ht.began_mem hin hr
    have := ht.ascending
    rw [hin, Crowd.callIds_append, List.pairwise_append] at this
    have := this.2.2 k (Crowd.mem_callIds.2 ⟨_, _, h3⟩) k (Crowd.mem_callIds.2 ⟨t, .next v, by simp⟩)
    omega
  · cases hr
  · exact hr

theorem unfailed (hD : D.Contract) (h : Good f D debug s x) (hs : x.core.shut = true) (he : x.core.error = none) :
    ∃ j u op, .call j u op ∈ inner x.trace ∧ (op = .complete ∨ op = .unsubscribe) := by
  refine Classical.byContradiction fun hno => ?_
  have := (h.kinds hD).error (fun j u op hj hc => ?_) hs
  · rw [he] at this; cases this
  · rw [← h.inner] at hj
    cases op with
    | error e => exact ⟨e, rfl⟩
    | complete => exact (hno ⟨j, u, _, hj, .inl rfl⟩).elim
    | unsubscribe => exact (hno ⟨j, u, _, hj, .inr rfl⟩).elim
    | _ => cases hc

theorem ending (hD : D.Contract) (h : Good f D debug s x) (hs : x.core.shut = true) : Crowd.Ending (inner x.trace) := by
  have hi := h.inv hD
  rw [h.inner]
  rcases hi.ends.why hs with ⟨c, h1, h2⟩ | ⟨u, c, h1, h2⟩
  · obtain ⟨t, h3⟩ := hi.ids.line c h1
    exact ⟨_, _, _, h3, h2⟩
  · exact ⟨_, _, _, (hi.ids.cur u c (Crowd.cur_of_pend (Crowd.pend_of_armed h1))).1, h2⟩

/-- What does not touch the publish subject. -/
theorem Good.aside {y : State S I E} (h : Good f D debug s x) (d : List (Mark I E)) (core : y.core = x.core)
    (trace : y.trace = x.trace ++ d) (hin : Awaiting.inner d = []) (hr : ∀ i, replaysTo i d = []) (hh : ∀ i, heardBy i d = [])
    (value : y.value = result f y.trace) (law : Law f y.trace)
    (idle : ∀ t, (y.stage t = .found ∨ ∃ o, y.stage t = .copied o) → x.core.pc t = .idle ∧ x.core.shut = true)
    (known : ∀ t, Known f y.trace t (y.stage t)) : Good f D debug s y := by
  have hr' : ∀ i, replaysTo i y.trace = replaysTo i x.trace := fun i => by
    rw [trace, replaysTo_append, hr, List.append_nil]
  have hin' : Awaiting.inner y.trace = Awaiting.inner x.trace := by rw [trace, inner_append, hin, List.append_nil]
  refine ⟨by rw [hin', core, h.inner], ?_, fun i => ?_, value, law, fun t ht => ?_, fun t ht => ?_, known, fun i hi => ?_⟩
  · simp only [hr', core]; exact h.follows
  · rw [hr', hin', trace, heardBy_append, hh, List.append_nil]; exact h.heard i
  · rw [core]; exact (idle t ht).1
  · rw [core]; exact (idle t ht).2
  · rw [core]; exact h.shunned i (by rwa [hr'] at hi)

theorem Good.step (h : Good f D debug s x) (hD : D.Contract) (t : Nat) (a : Turn I E) :
    Good f D debug s (Awaiting.step f D debug x t a) := by
  have hi := h.inv hD
  have hc := change_step (debug := debug) (f := f) (t := t) hD hi h.idle a
  generalize Awaiting.step f D debug x t a = y at *
  have others : ∀ (b : Crowd.Turn I E), ∀ u, u ≠ t →
      (Crowd.step D debug x.core t b).pc u = x.core.pc u := fun b u hu => (hi.locks.held_step t b).other hu
  have shut : ∀ b, x.core.shut = true → (Crowd.step D debug x.core t b).shut = true := fun b hs =>
    (Crowd.fine_step (D := D) (debug := debug) x.core hi.join hi.look t b).shut_mono hs
  cases hc with
  | quiet a b st core marks calls trace value stage =>
    have hr : ∀ i, replaysTo i y.trace = replaysTo i x.trace := fun i => by
      rw [trace, replaysTo_append, replaysTo_core, List.append_nil]
    have hne : ∀ u, (x.stage u = .found ∨ ∃ o, x.stage u = .copied o) → u ≠ t := by
      rintro u hu rfl
      rcases st with e | e <;> rw [e] at hu <;> rcases hu with hu | ⟨o, hu⟩ <;> cases hu
    refine ⟨?_, ?_, fun i => ?_, ?_, ?_, fun u hu => ?_, fun u hu => ?_, fun u => ?_, fun i hr' => ?_⟩
    · rw [trace, inner_append, inner_core, marks, h.inner]
    · simp only [hr, core]; exact h.follows.step t a
    · rw [hr, trace, heardBy_append, heardBy_core, inner_append, inner_core, Keeping.givesTo_append, h.heard, List.append_assoc]
    · rw [value, trace, result_same (stored_core b), h.value]
    · rw [trace]; exact h.law.quiet b calls
    · rw [stage] at hu; rw [core, others _ u (hne u hu)]; exact h.idle u hu
    · rw [stage] at hu; rw [core]; exact shut _ (h.shut u hu)
    · rw [stage, trace]; exact (h.known u).append (.core fun k op => calls _ _ _)
    · rw [hr] at hr'; rw [core]; exact (h.shunned i hr').step hi hD t a
  | call d op p pc void core trace value stage why =>
    have hdr : ∀ i, replaysTo i d = [] := by
      rcases why with ⟨-, rfl, -⟩ | ⟨-, rfl, -⟩ | ⟨-, rfl, -⟩ | ⟨-, rfl, -⟩ | ⟨-, rfl, -⟩ <;> exact fun i => rfl
    have hdh : ∀ i, heardBy i d = [] := by
      rcases why with ⟨-, rfl, -⟩ | ⟨-, rfl, -⟩ | ⟨-, rfl, -⟩ | ⟨-, rfl, -⟩ | ⟨-, rfl, -⟩ <;> exact fun i => rfl
    have hdi : Awaiting.inner d = [] := by
      rcases why with ⟨-, rfl, -⟩ | ⟨-, rfl, -⟩ | ⟨-, rfl, -⟩ | ⟨-, rfl, -⟩ | ⟨-, rfl, -⟩ <;> rfl
    have hds : stored d = [] := by
      rcases why with ⟨-, rfl, -⟩ | ⟨-, rfl, -⟩ | ⟨-, rfl, -⟩ | ⟨-, rfl, -⟩ | ⟨-, rfl, -⟩ <;> rfl
    have hdn : ∀ u, u ≠ t → Silent u d := by
      intro u hu
      rcases why with ⟨-, rfl, -⟩ | ⟨-, rfl, -⟩ | ⟨-, rfl, -⟩ | ⟨-, rfl, -⟩ | ⟨-, rfl, -⟩ <;>
        simp [Silent, hu]
    have hp : p = .out ∨ p = .finishing := by
      rcases why with ⟨-, -, h, -⟩ | ⟨-, -, h, -⟩ | ⟨-, -, h, -⟩ | ⟨-, -, h, -⟩ | ⟨-, -, h, -⟩ <;> simp [h]
    have hr : ∀ i, replaysTo i y.trace = replaysTo i x.trace := fun i => by
      rw [trace, replaysTo_append, replaysTo_append, hdr, List.append_nil]
      exact List.append_nil _
    have hy := core
    rw [Keeping.step_call pc void] at hy
    have hbusy : ∀ u, (y.stage u = .found ∨ ∃ o, y.stage u = .copied o) → u ≠ t ∧
        (x.stage u = .found ∨ ∃ o, x.stage u = .copied o) := by
      intro u hu
      rw [stage] at hu
      by_cases e : u = t
      · simp only [e, if_true] at hu
        rcases hp with e | e <;> rw [e] at hu <;> rcases hu with hu | ⟨o, hu⟩ <;> cases hu
      · simp only [e, if_false] at hu
        exact ⟨e, hu⟩
    refine ⟨?_, ?_, fun i => ?_, ?_, ?_, fun u hu => ?_, fun u hu => ?_, fun u => ?_, fun i hr' => ?_⟩
    · rw [trace, inner_append, inner_append, hdi, hy, h.inner, List.append_nil]; rfl
    · simp only [hr, core]; exact h.follows.step t _
    · rw [hr, trace, heardBy_append, heardBy_append, hdh, inner_append, inner_append, hdi, List.append_nil, List.append_nil,
        Keeping.givesTo_append, h.heard, List.append_assoc]
      rfl
    · rw [value, trace, List.append_assoc, result_same (by rw [stored_append, hds]; rfl), h.value]
    · rw [trace]
      have hl : Law f (x.trace ++ d) := by
        rcases why with ⟨-, rfl, -⟩ | ⟨-, rfl, -⟩ | ⟨-, rfl, -⟩ | ⟨-, rfl, -⟩ | ⟨-, rfl, -⟩
        · simpa using h.law
        · exact h.law.snoc trivial
        · exact h.law.snoc trivial
        · simpa using h.law
        · exact h.law.snoc trivial
      refine hl.snoc ?_
      rcases why with ⟨-, rfl, -, h1, h2, h3⟩ | ⟨-, rfl, -, rfl, h1⟩ | ⟨-, rfl, -, v, rfl, h1⟩ | ⟨h1, rfl, -, rfl⟩ |
        ⟨-, rfl, -, rfl, h1⟩
      · cases op with
        | next v => exact absurd rfl (h3 v)
        | subscribe => exact absurd rfl h1
        | complete => exact absurd rfl h2
        | _ => trivial
      · exact .inl ⟨_, rfl, by rw [← h.value, h1]⟩
      · exact ⟨_, rfl, by rw [← h.value, h1]⟩
      · rw [List.append_nil]
        exact .inr (h.finished hD h1 pc)
      · refine ⟨x.trace, [], rfl, .nil, .inl ⟨rfl, ?_, ?_⟩⟩
        · rw [replaysTo_append, hdr, h.follows.later _ (Nat.le_refl _)]; rfl
        · rintro ⟨j, u, op, h2, h3, h4⟩
          rw [h.inner] at h2 h4
          rw [hi.ends.retd j u op h2 h3 h4] at h1
          cases h1
    · obtain ⟨h1, h2⟩ := hbusy u hu
      rw [core, others _ u h1]; exact h.idle u h2
    · obtain ⟨h1, h2⟩ := hbusy u hu
      rw [core]; exact shut _ (h.shut u h2)
    · rw [stage]
      by_cases e : u = t
      · subst e
        simp only [if_true]
        rcases why with ⟨-, -, rfl, -⟩ | ⟨-, -, rfl, -⟩ | ⟨-, rfl, rfl, v, rfl, h1⟩ | ⟨-, -, rfl, -⟩ | ⟨-, -, rfl, -⟩
        · trivial
        · trivial
        · exact ⟨x.trace, x.core.calls, v, [], by rw [trace]; simp, by rw [← h.value, h1], .nil⟩
        · trivial
        · trivial
      · simp only [e, if_false]
        rw [trace, List.append_assoc]
        exact (h.known u).append ((hdn u e).append ⟨by simp, by simp, by simp, by simp [e]⟩)
    · rw [hr] at hr'; rw [core]; exact (h.shunned i hr').step hi hD t _
  | store v st core trace value stage =>
    have hne : ∀ u, (x.stage u = .found ∨ ∃ o, x.stage u = .copied o) → u ≠ t := by
      rintro u hu rfl
      rw [st] at hu; rcases hu with hu | ⟨o, hu⟩ <;> cases hu
    refine h.aside [.store t v] core trace rfl (fun _ => rfl) (fun _ => rfl) ?_ ?_ (fun u hu => ?_) (fun u => ?_)
    · rw [value, trace, result_store, h.value]
    · rw [trace]; exact h.law.snoc trivial
    · rw [stage] at hu; exact ⟨h.idle u hu, h.shut u hu⟩
    · rw [stage, trace]
      by_cases e : u = t
      · subst e; rw [st]; trivial
      · exact (h.known u).append ⟨by simp, by simp, by simp [e], by simp⟩
  | found st pc shut' core trace value stage =>
    refine h.aside [.enter t] core trace rfl (fun _ => rfl) (fun _ => rfl) ?_ ?_ (fun u hu => ?_) (fun u => ?_)
    · rw [value, trace, result_same rfl, h.value]
    · rw [trace]; exact h.law.snoc trivial
    · by_cases e : u = t
      · subst e; exact ⟨pc, shut'⟩
      · rw [stage] at hu; simp only [e, if_false] at hu; exact ⟨h.idle u hu, h.shut u hu⟩
    · rw [stage, trace]
      by_cases e : u = t
      · subst e
        simp only [if_true]
        exact ⟨x.trace, [], rfl, .nil, ending hD h shut'⟩
      · simp only [e, if_false]
        exact (h.known u).append ⟨by simp [e], by simp, by simp, by simp⟩
  | copy st core trace value stage =>
    refine h.aside [] core (by rw [trace]; simp) rfl (fun _ => rfl) (fun _ => rfl) ?_ ?_ (fun u hu => ?_) (fun u => ?_)
    · rw [value, trace, h.value]
    · rw [trace]; exact h.law
    · by_cases e : u = t
      · subst e; exact ⟨h.idle u (.inl st), h.shut u (.inl st)⟩
      · rw [stage] at hu; simp only [e, if_false] at hu; exact ⟨h.idle u hu, h.shut u hu⟩
    · rw [stage, trace]
      by_cases e : u = t
      · subst e
        simp only [if_true]
        have hk := h.known u
        rw [st] at hk
        obtain ⟨a, b, e, h1, h2⟩ := hk
        exact ⟨a, b, [], by rw [e]; simp, by simpa using h1, h2, by rw [h.value, e]⟩
      · simp only [e, if_false]
        exact h.known u
  | read core trace value stage =>
    refine h.aside [.read t x.value] core trace rfl (fun _ => rfl) (fun _ => rfl) ?_ ?_ (fun u hu => ?_) (fun u => ?_)
    · rw [value, trace, result_same rfl, h.value]
    · rw [trace]; exact h.law.snoc h.value
    · rw [stage] at hu; exact ⟨h.idle u hu, h.shut u hu⟩
    · rw [stage, trace]
      exact (h.known u).append ⟨by simp, by simp, by simp, by simp⟩
  | subscribe o st core trace value stage =>
    have pc := h.idle t (.inr ⟨o, st⟩)
    have hnew : ∀ u op, .core (.call x.core.calls u op) ∉ x.trace := fun u op hu => by
      have := hi.ids.ids _ _ _ (h.inner ▸ mem_inner.2 hu)
      omega
    have hg : ∀ i, replaysTo i ((gift x o).map (.replay x.core.calls) : List (Mark I E)) =
        if i = x.core.calls then gift x o else [] := by
      intro i
      generalize gift x o = vs
      induction vs with
      | nil => simp [replaysTo]
      | cons v vs ih =>
        simp only [List.map_cons, replaysTo, List.filterMap_cons] at ih ⊢
        by_cases e : i = x.core.calls
        · subst e; simpa using ih
        · simp [e, Ne.symm e]
    have hg1 : ∀ i, heardBy i ((gift x o).map (.replay x.core.calls) : List (Mark I E)) =
        if i = x.core.calls then (gift x o).map .next else [] := by
      intro i
      generalize gift x o = vs
      induction vs with
      | nil => simp [heardBy]
      | cons v vs ih =>
        simp only [List.map_cons, heardBy, List.filterMap_cons] at ih ⊢
        by_cases e : i = x.core.calls
        · subst e; simpa using ih
        · simp [e, Ne.symm e]
    have hg2 : Awaiting.inner ((gift x o).map (.replay x.core.calls) : List (Mark I E)) = [] := by
      generalize gift x o = vs
      induction vs with
      | nil => rfl
      | cons v vs ih => simpa only [List.map_cons, Awaiting.inner, List.filterMap_cons] using ih
    have hg3 : stored ((gift x o).map (.replay x.core.calls) : List (Mark I E)) = [] := by
      generalize gift x o = vs
      induction vs with
      | nil => rfl
      | cons v vs ih => simpa only [List.map_cons, stored, List.filterMap_cons] using ih
    have hlater := h.follows.later _ (Nat.le_refl _)
    have hr : ∀ i, replaysTo i y.trace = if i = x.core.calls then gift x o else replaysTo i x.trace := fun i => by
      rw [trace, replaysTo_append, replaysTo_append, hg, show replaysTo i [(.core (.call x.core.calls t .subscribe) : Mark I E)] = [] from rfl]
      by_cases hn : i = x.core.calls
      · subst hn; simp [hlater]
      · simp [hn]
    have hy := core
    rw [Keeping.step_call (by exact pc) rfl] at hy
    have hf := h.follows.subscribe hD pc (gift x o)
    have hpc : ∀ u, u ≠ t → y.core.pc u = x.core.pc u := fun u hu => by
      rw [hy]; simp [Crowd.State.goto, hu, Keeping.primed, Crowd.State.note]
    have hbusy : ∀ u, (y.stage u = .found ∨ ∃ o, y.stage u = .copied o) → u ≠ t ∧
        (x.stage u = .found ∨ ∃ o, x.stage u = .copied o) := by
      intro u hu
      rw [stage] at hu
      by_cases e : u = t
      · simp only [e, if_true] at hu
        rcases hu with hu | ⟨o, hu⟩ <;> cases hu
      · simp only [e, if_false] at hu
        exact ⟨e, hu⟩
    have hshut : y.core.shut = true := by
      rw [hy]; exact h.shut t (.inr ⟨o, st⟩)
    refine ⟨?_, ?_, fun i => ?_, ?_, ?_, fun u hu => ?_, fun u hu => hshut, fun u => ?_, fun i hr' => ?_⟩
    · rw [trace, inner_append, inner_append, hg2, hy, h.inner, List.append_nil]; rfl
    · simp only [hr, core]; exact hf
    · rw [hr, trace, heardBy_append, heardBy_append, hg1, inner_append, inner_append, hg2, List.append_nil,
        Keeping.givesTo_append, h.heard]
      by_cases hn : i = x.core.calls
      · subst hn
        have h0 := (hi.fresh (Nat.le_refl _)).2
        rw [← h.inner] at h0
        rw [hlater, h0]
        simp [heardBy, Awaiting.inner, Crowd.givesTo]
      · simp [hn, heardBy, Awaiting.inner, Crowd.givesTo]
    · rw [value, trace, List.append_assoc, result_same (by rw [stored_append, hg3]; rfl), h.value]
    · rw [trace]
      have hk := h.known t
      rw [st] at hk
      obtain ⟨a, c, d, e, h1, h2, h3⟩ := hk
      have hl : Law f (x.trace ++ (gift x o).map (.replay x.core.calls)) := by
        cases he : x.core.error with
        | some e' => rw [show gift x o = [] by simp [gift, he]]; simpa using h.law
        | none =>
          cases o with
          | none => rw [show gift x none = [] by simp [gift]]; simpa using h.law
          | some v =>
            rw [show gift x (some v) = [v] by simp [gift, he]]
            refine h.law.snoc ⟨hnew, hlater, a ++ .enter t :: c, d, by rw [e]; simp, h3.symm, ?_,
              unfailed hD h (h.shut t (.inr ⟨_, st⟩)) he⟩
            obtain ⟨j, u, op, h4, h5⟩ := h2
            exact ⟨j, u, op, by rw [inner_append]; exact List.mem_append_left _ h4, h5⟩
      refine hl.snoc ?_
      refine ⟨a, c ++ d ++ (gift x o).map (.replay x.core.calls), by rw [e]; simp, h1.append (.replay _ _), .inr ⟨h2, c,
        d ++ (gift x o).map (.replay x.core.calls), by simp, ?_⟩⟩
      rw [replaysTo_append, hg, hlater, if_pos rfl, List.nil_append, inner_append, hg2, List.append_nil]
      cases he : x.core.error with
      | none => exact .inl ⟨by simp [gift, he, h3], unfailed hD h (h.shut t (.inr ⟨o, st⟩)) he⟩
      | some e' =>
        refine .inr ⟨by simp [gift, he], ?_⟩
        obtain ⟨j, u, hj⟩ := hi.ends.error _ he
        exact ⟨j, u, e', by rw [h.inner]; exact hj⟩
    · obtain ⟨h1, h2⟩ := hbusy u hu
      rw [hpc u h1]; exact h.idle u h2
    · rw [stage]
      by_cases e : u = t
      · simp only [e, if_true]; trivial
      · simp only [e, if_false]
        rw [trace, List.append_assoc]
        exact (h.known u).append ((Silent.replay _ _).append ⟨by simp, by simp, by simp, by simp [e]⟩)
    · rw [hr] at hr'
      rw [core]
      have hi' := h.follows.primed hD (gift x o)
      by_cases hn : i = x.core.calls
      · exact Crowd.Shunned.begin (x := Keeping.primed D (gift x o) x.core) (h.shut t (.inr ⟨o, st⟩)) hi' pc hn
      · rw [if_neg hn] at hr'
        obtain ⟨h1, h2, h3⟩ := h.shunned i hr'
        exact Crowd.Shunned.step (x := Keeping.primed D (gift x o) x.core) ⟨h1, h2, h3⟩ hi' hD t _

theorem run_snoc (x : State S I E) (l : List (Nat × Turn I E)) (a : Nat × Turn I E) :
    run f D debug x (l ++ [a]) = step f D debug (run f D debug x l) a.1 a.2 := by simp [run]

theorem run_good (hD : D.Contract) (s : Nat → S) (l : List (Nat × Turn I E)) :
    Good f D debug s (run f D debug (init s) l) := by
  induction l using Rx.snoc_induction with
  | nil => exact .init
  | snoc l a ih => rw [run_snoc]; exact ih.step hD _ _

end Rx.Awaiting
