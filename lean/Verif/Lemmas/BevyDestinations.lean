import Verif.Lemmas.Released
import Verif.Spec.BevyDestinations

/-!
# EntityDestination, ResourceDestination
-/

namespace Rx.Deliver
open Rx.Sched

variable {W T N : Type} {write : W → T → N → W × T}

theorem sent_append (a b : Line T N) : sent (a ++ b) = sent a ++ sent b := List.filterMap_append

theorem ran_append (a b : Line T N) : ran (a ++ b) = ran a ++ ran b := List.filterMap_append

/-- The trace after a closure was run. -/
theorem exec_trace (n : N) (t now : Nat) (s : State W T N) :
    ((destination write).exec n t now s).2.1.trace = s.trace ++ [(.ran n, now)] := by
  dsimp only
  split <;> rfl

theorem exec_rest (n : N) (t now : Nat) (s : State W T N) :
    ((destination write).exec n t now s).2.2 = ([], .done) := by
  dsimp only
  split <;> rfl

/-- The works waiting are for what was sent and not run. -/
structure Inv (s : Solo (destination write)) (act q : List N) : Prop where
  active : s.active = act.map fun n => (.immediate (some n), false)
  queue : s.queue = q.map fun n => .schedule (.immediate (some n))
  pending : sent s.st.trace = ran s.st.trace ++ act ++ q

theorem process_immediate (q : List N) : ∀ act : List N,
    (q.map fun n => (.schedule (.immediate (some n)) : Req N)).foldl (Solo.process (c := destination write))
      (act.map fun n => (.immediate (some n), false)) = (act ++ q).map fun n => (.immediate (some n), false) := by
  induction q with
  | nil => intro act; simp
  | cons n q ih =>
    intro act
    have := ih (act ++ [n])
    simp only [List.map_append, List.map_cons, List.map_nil, List.append_assoc, List.cons_append, List.nil_append] at this
    simpa [Solo.process] using this

theorem Inv.step {s s' : Solo (destination write)} (hs : Solo.Step s s') (h : ∃ act q, Inv s act q) :
    ∃ act q, Inv s' act q := by
  obtain ⟨act, q, h⟩ := h
  cases hs with
  | input i =>
    cases i with
    | note n =>
      refine ⟨act, q ++ [n], h.active, ?_, ?_⟩
      · rw [Solo.input_queue, h.queue]
        simp [Solo.onQueue, Work.onScheduled, Work.newImmediate]
      · rw [Solo.input_st]
        show sent (_ ++ _) = ran (_ ++ _) ++ _ ++ _
        rw [sent_append, ran_append, h.pending]
        simp [sent, ran]
    | world t =>
      refine ⟨act, q, h.active, h.queue, ?_⟩
      rw [Solo.input_st]
      show sent (_ ++ _) = ran (_ ++ _) ++ _ ++ _
      rw [sent_append, ran_append, h.pending]
      simp [sent, ran]
  | start t h0 =>
    refine ⟨act ++ q, [], ?_, rfl, ?_⟩
    · simp only [Solo.drain]
      rw [h.active, h.queue, List.map_map]
      exact process_immediate q act
    · show sent s.st.trace = ran s.st.trace ++ _ ++ _
      rw [h.pending]; simp
  | work s1 t pre post w w' res h1 h2 h3 h4 =>
    have hpre : pre = [] := by
      cases pre with
      | nil => rfl
      | cons p pre =>
        have hp := h3 p List.mem_cons_self
        have : p ∈ s.active := by rw [h2]; simp
        rw [h.active] at this
        obtain ⟨n, _, rfl⟩ := List.mem_map.1 this
        cases hp
    subst hpre
    rw [h.active] at h2
    cases act with
    | nil => cases h2
    | cons n act =>
      simp only [List.map_cons, List.nil_append, List.cons.injEq, Prod.mk.injEq, and_true] at h2
      obtain ⟨rfl, rfl⟩ := h2
      cases h4
      refine ⟨act, q, by simp, ?_, ?_⟩
      · dsimp only
        rw [Solo.runBody_queue, exec_rest, h.queue]
        simp
      · dsimp only
        rw [Solo.runBody_st, exec_trace, sent_append, ran_append, h.pending]
        simp [sent, ran]
  | pass t h1 h2 =>
    refine ⟨act ++ q, [], ?_, rfl, ?_⟩
    · simp only [Solo.drain]
      rw [h.active, h.queue]
      exact process_immediate q act
    · show sent s.st.trace = ran s.st.trace ++ _ ++ _
      rw [h.pending]; simp
  | finish t h1 h2 h3 => exact ⟨act, q, h.active, h.queue, h.pending⟩

theorem Inv.steps {s s' : Solo (destination write)} (hs : Solo.Steps s s') (h : ∃ act q, Inv s act q) :
    ∃ act q, Inv s' act q := by
  induction hs with
  | refl => exact h
  | tail _ h2 ih => exact Inv.step h2 ih

theorem Inv.reach {w : W} {t : Option T} {s : Solo (destination write)} (hs : Solo.Reachable (⟨w, t, []⟩ : State W T N) s) :
    ∃ act q, Inv s act q := Inv.steps hs ⟨[], [], rfl, rfl, rfl⟩

theorem outcome_append (x : W × Option T) (a b : Line T N) :
    outcome write x (a ++ b) = outcome write (outcome write x a) b := List.foldl_append

/-- Writer and target are what happened made of them; time does not go back. -/
structure Told (write : W → T → N → W × T) (x : W × Option T) (now : Nat) (s : State W T N) : Prop where
  outcome : outcome write x s.trace = (s.writer, s.target)
  sorted : s.trace.Pairwise fun a b => a.2 ≤ b.2
  time : ∀ m ∈ s.trace, m.2 ≤ now

theorem Told.snoc {x : W × Option T} {now : Nat} {s s' : State W T N} {m : Mark T N} (h : Told write x now s)
    (ht : s'.trace = s.trace ++ [(m, now)]) (he : effect write (s.writer, s.target) m = (s'.writer, s'.target)) :
    Told write x now s' := by
  refine ⟨?_, ?_, ?_⟩
  · rw [ht, outcome_append, h.outcome]; exact he
  · rw [ht, List.pairwise_append]
    exact ⟨h.sorted, by simp, fun a ha b hb => by rw [List.mem_singleton.1 hb]; exact h.time a ha⟩
  · intro a ha
    rw [ht] at ha
    rcases List.mem_append.1 ha with ha | ha
    · exact h.time a ha
    · rw [List.mem_singleton.1 ha]; exact Nat.le_refl _

theorem told_stable (x : W × Option T) : Solo.Stable (destination write) (fun _ _ => True) (fun now s => Told write x now s) where
  mono _ _ _ hk h := ⟨h.outcome, h.sorted, fun m hm => Nat.le_trans (h.time m hm) hk⟩
  exec n t now s _ h := by
    refine h.snoc (m := .ran n) (exec_trace n t now s) ?_
    dsimp only
    split <;> rename_i h1 <;> simp [effect, h1]
  input i now s h := by
    cases i with
    | note n => exact h.snoc (m := .sent n) rfl rfl
    | world t => exact h.snoc (m := .world t) rfl rfl

theorem kinds (write : W → T → N → W × T) : Solo.Kinds (destination write) (fun _ w => ∃ b, w = .immediate b) where
  exec _ _ _ _ _ h := h
  input _ _ _ _ h := h
  exec_new b t now s w h := by rw [exec_rest] at h; cases h
  input_new i now s w h := by
    cases i with
    | note n => cases List.mem_singleton.1 h; exact ⟨_, rfl⟩
    | world t => cases h
  work t s s' w w' res h hw := by
    obtain ⟨b, rfl⟩ := h
    cases b <;> (cases hw; exact ⟨_, rfl⟩)

theorem quits (write : W → T → N → W × T) (t : Nat) :
    Solo.Quits (destination write) t (fun _ _ => True) (fun _ w => ∃ b, w = .immediate b) (fun _ => False) where
  exec _ _ _ _ _ := trivial
  input _ _ _ _ := trivial
  stay_exec _ _ _ h := h
  stay_input _ _ _ h := h
  work s s' w w' res _ _ h hw := by
    obtain ⟨b, rfl⟩ := h
    cases b <;> (cases hw; exact .inl rfl)

theorem handled_sublist : ∀ (τ : Line T N) (b : Bool), (handled b τ).Sublist (ran τ) := by
  intro τ
  induction τ with
  | nil => intro b; cases b <;> exact .refl _
  | cons m τ ih =>
    obtain ⟨m, k⟩ := m
    intro b
    cases m with
    | sent n => cases b <;> exact ih _
    | ran n =>
      cases b with
      | true => exact (ih true).cons_cons n
      | false => exact (ih false).cons n
    | world t => cases b <;> exact ih _

theorem handled_all : ∀ (τ : Line T N), (∀ k, (.world none, k) ∉ τ) → handled true τ = ran τ := by
  intro τ
  induction τ with
  | nil => intro _; rfl
  | cons m τ ih =>
    obtain ⟨m, k⟩ := m
    intro h
    have h' : ∀ k, (.world none, k) ∉ τ := fun k hk => h k (List.mem_cons_of_mem _ hk)
    cases m with
    | sent n => exact ih h'
    | ran n => exact congrArg (n :: ·) (ih h')
    | world t =>
      cases t with
      | none => exact absurd List.mem_cons_self (h k)
      | some t => exact ih h'

/-- Nobody else changes the target. -/
theorem outcome_alone (w : W) (t : T) : ∀ (τ : Line T N), (∀ u k, (.world u, k) ∉ τ) →
    outcome write (w, some t) τ =
      (((ran τ).foldl (fun x n => write x.1 x.2 n) (w, t)).1, some ((ran τ).foldl (fun x n => write x.1 x.2 n) (w, t)).2) := by
  intro τ
  induction τ generalizing w t with
  | nil => intro _; rfl
  | cons m τ ih =>
    obtain ⟨m, k⟩ := m
    intro h
    have h' : ∀ u k, (.world u, k) ∉ τ := fun u k hk => h u k (List.mem_cons_of_mem _ hk)
    cases m with
    | sent n => exact ih w t h'
    | ran n => exact ih (write w t n).1 (write w t n).2 h'
    | world u => exact absurd List.mem_cons_self (h u k)

/-- The events on an entity. -/
theorem outcome_entity {I E : Type} (t : List (ObserverNotification I E)) : ∀ (τ : Line _ (ObserverNotification I E)),
    (∀ u k, (.world (some u), k) ∉ τ) →
    (outcome (fun _ seen n => ((), seen ++ [n])) ((), none) τ).2 = none ∧
    ((outcome (fun _ seen n => ((), seen ++ [n])) ((), some t) τ).2 = none ∨
      (outcome (fun _ seen n => ((), seen ++ [n])) ((), some t) τ).2 = some (t ++ ran τ)) := by
  intro τ
  induction τ generalizing t with
  | nil => intro _; exact ⟨rfl, .inr (by simp [outcome, ran])⟩
  | cons m τ ih =>
    obtain ⟨m, k⟩ := m
    intro h
    have h' : ∀ u k, (.world (some u), k) ∉ τ := fun u k hk => h u k (List.mem_cons_of_mem _ hk)
    cases m with
    | sent n => exact ih t h'
    | ran n =>
      refine ⟨(ih t h').1, (ih (t ++ [n]) h').2.imp id fun h => ?_⟩
      rw [List.append_assoc] at h
      exact h
    | world u =>
      cases u with
      | none => exact ⟨(ih t h').1, .inl (ih t h').1⟩
      | some u => exact absurd List.mem_cons_self (h u k)

end Rx.Deliver
