import Verif.Spec.BevyProxy
import Verif.Lemmas.BevyEvents

/-!
# What is always true of a subscription that lives on an entity
-/

namespace Rx.Proxy

open Rx.Closing (Dest)
open Rx.Events (takes takes_closed takes_append)

variable {D : Dest S I E} {K : Kind} {s : S}

/-! ## What the destination hears -/

/-- The destination has heard what it was offered. -/
structure Heard (D : Dest S I E) (s : S) (w : World S I E) : Prop where
  hears : takes D s (offers w.trace) = (given w.trace, w.dest)
  connected : (seen w.trace).connected = decide (w.source = .open)
  closed : w.source = .closed → D.isClosed w.dest = true

theorem seen_snoc (tr : List (Mark I E)) (m : Mark I E) : seen (tr ++ [m]) = (seen tr).see m := by
  simp [seen, List.foldl_append]

theorem given_snoc_gave (tr : List (Mark I E)) (n : SubscriberNotification I E) : given (tr ++ [.gave n]) = given tr ++ [n] := by
  simp [given]

/-- A notification that has been offered is given, unless the destination is closed. -/
theorem give_hears {w : World S I E} {o : List (SubscriberNotification I E)} {n : SubscriberNotification I E}
    (ho : offers w.trace = o ++ [n]) (h : takes D s o = (given w.trace, w.dest)) :
    takes D s (offers (w.give D K n).trace) = (given (w.give D K n).trace, (w.give D K n).dest) := by
  unfold World.give
  by_cases hc : D.isClosed w.dest = true
  · rw [if_pos hc, ho, takes_append, h]
    simp [takes_closed D hc]
  · rw [if_neg hc]
    have : offers (w.trace ++ [.gave n]) = o ++ [n] := by rw [offers, seen_snoc]; exact ho
    rw [this, takes_append, h]
    simp [takes, hc, given_snoc_gave]

theorem give_seen (w : World S I E) (n) : seen (w.give D K n).trace = seen w.trace := by
  unfold World.give
  split
  · rfl
  · simp [seen_snoc, Seen.see]

@[simp] theorem give_ent (w : World S I E) (n) : (w.give D K n).ent = w.ent := by unfold World.give; split <;> rfl
@[simp] theorem give_source (w : World S I E) (n) : (w.give D K n).source = w.source := by unfold World.give; split <;> rfl
@[simp] theorem give_made (w : World S I E) (n) : (w.give D K n).made = w.made := by unfold World.give; split <;> rfl
@[simp] theorem give_waiting (w : World S I E) (n) : (w.give D K n).waiting = w.waiting := by unfold World.give; split <;> rfl
@[simp] theorem give_target (w : World S I E) (n) : (w.give D K n).target = w.target := by unfold World.give; split <;> rfl
@[simp] theorem give_active (w : World S I E) (n) : (w.give D K n).active = w.active := by unfold World.give; split <;> rfl
@[simp] theorem give_invokable (w : World S I E) (n) : (w.give D K n).invokable = w.invokable := by unfold World.give; split <;> rfl
@[simp] theorem give_invoked (w : World S I E) (n) : (w.give D K n).invoked = w.invoked := by unfold World.give; split <;> rfl
@[simp] theorem give_despawns (w : World S I E) (n) : (w.give D K n).despawns = w.despawns := by unfold World.give; split <;> rfl
@[simp] theorem give_mine (w : World S I E) (n) : (w.give D K n).mine = w.mine := by unfold World.give; split <;> rfl
@[simp] theorem give_cmds (w : World S I E) (n) : (w.give D K n).cmds = w.cmds := by unfold World.give; split <;> rfl

theorem give_unsubscribe_closed (hD : D.Contract) (w : World S I E) : D.isClosed (w.give D K .unsubscribe).dest = true := by
  unfold World.give
  split
  · assumption
  · exact hD.closes _ _ rfl

theorem give_closed (hD : D.Contract) (w : World S I E) (n) (h : D.isClosed w.dest = true) : D.isClosed (w.give D K n).dest = true := by
  unfold World.give
  rw [if_pos h]; exact h

theorem Heard.emit (hD : D.Contract) {w : World S I E} (h : Heard D s w) (n) : Heard D s (w.emit D K n) := by
  unfold World.emit
  by_cases ho : w.source = .open
  · simp only [ho, if_true]
    have hc := h.connected
    rw [ho] at hc
    simp only [decide_true] at hc
    refine ⟨give_hears (o := offers w.trace) ?_ ?_, ?_, ?_⟩
    · show (seen (w.trace ++ [_])).offers = _
      rw [seen_snoc]
      simp [Seen.see, hc, offers]
    · rw [h.hears]
      simp [given]
    · rw [give_seen]
      show (seen (w.trace ++ [_])).connected = _
      rw [seen_snoc]
      simp [Seen.see, hc, ho]
    · simp [ho]
  · simp only [ho, if_false]
    have hc := h.connected
    simp only [ho, decide_false] at hc
    refine ⟨?_, ?_, ?_⟩
    · show takes D s (offers (w.trace ++ [_])) = (given (w.trace ++ [_]), _)
      rw [offers, seen_snoc]
      simp only [Seen.see, hc]
      have : given (w.trace ++ [.emitted n]) = given w.trace := by simp [given]
      rw [this]
      exact h.hears
    · show (seen (w.trace ++ [_])).connected = _
      rw [seen_snoc]
      simp [Seen.see, hc, ho]
    · exact h.closed

theorem Heard.close (hD : D.Contract) {w : World S I E} (h : Heard D s w) : Heard D s (w.close D K) := by
  unfold World.close
  by_cases ho : w.source = .open
  · simp only [ho, if_true]
    refine ⟨give_hears (o := offers w.trace) ?_ ?_, ?_, ?_⟩
    · show (seen (w.trace ++ [_])).offers = _
      rw [seen_snoc]
      simp [Seen.see, offers]
    · rw [h.hears]
      simp [given]
    · rw [give_seen]
      show (seen (w.trace ++ [_])).connected = _
      rw [seen_snoc]
      simp [Seen.see]
    · intro _
      exact give_unsubscribe_closed hD _
  · simpa only [ho, if_false] using h

/-- What matters for hearing. -/
theorem Heard.congr {w w' : World S I E} (h : Heard D s w) (h1 : w'.trace = w.trace) (h2 : w'.dest = w.dest)
    (h3 : w'.source = w.source) : Heard D s w' := by
  refine ⟨?_, ?_, ?_⟩
  · rw [h1, h2]; exact h.hears
  · rw [h1, h3]; exact h.connected
  · rw [h2, h3]; exact h.closed

/-- Unsubscribing because of something that happens: the handle, or nobody there. -/
theorem Heard.told (hD : D.Contract) {w : World S I E} (h : Heard D s w) (m : Mark I E)
    (hm : m = .unsubscribed ∨ m = .missed) : Heard D s (World.give D K .unsubscribe { w with trace := w.trace ++ [m] }) := by
  have hc := h.connected
  refine ⟨give_hears (o := offers w.trace) ?_ ?_, ?_, ?_⟩
  · show (seen (w.trace ++ [_])).offers = _
    rw [seen_snoc]
    rcases hm with rfl | rfl <;> simp [Seen.see, offers]
  · rw [h.hears]
    rcases hm with rfl | rfl <;> simp [given]
  · rw [give_seen]
    show (seen (w.trace ++ [_])).connected = _
    rw [seen_snoc]
    rcases hm with rfl | rfl <;> simpa [Seen.see] using hc
  · intro _
    exact give_unsubscribe_closed hD _

theorem Heard.despawn (hD : D.Contract) {w : World S I E} (h : Heard D s w) : Heard D s (w.despawn D K) := by
  unfold World.despawn
  split
  · exact h
  · exact h
  · exact Heard.close hD (h.congr rfl rfl rfl)
  · exact h.congr rfl rfl rfl
  · exact h.congr rfl rfl rfl

theorem Heard.emits (hD : D.Contract) (l : List (SubscriberNotification I E)) {w : World S I E} (h : Heard D s w) :
    Heard D s (l.foldl (World.emit D K) w) := by
  induction l generalizing w with
  | nil => exact h
  | cons n l ih => exact ih (h.emit hD n)

theorem Heard.join (hD : D.Contract) {w : World S I E} (h : Heard D s w) (t : Target I E) :
    Heard D s (w.join D K t) := by
  unfold World.join
  refine Heard.emits hD _ ⟨?_, ?_, by simp⟩
  · show takes D s (offers (w.trace ++ [_])) = (given (w.trace ++ [_]), _)
    rw [offers, seen_snoc]
    have : given (w.trace ++ [.joined]) = given w.trace := by simp [given]
    rw [this]
    exact h.hears
  · show (seen (w.trace ++ [_])).connected = _
    rw [seen_snoc]
    simp [Seen.see]

/-! ## What the parts of a step leave alone -/

@[simp] theorem emit_ent (w : World S I E) (n) : (w.emit D K n).ent = w.ent := by unfold World.emit; dsimp only; split <;> simp
@[simp] theorem emit_source (w : World S I E) (n) : (w.emit D K n).source = w.source := by unfold World.emit; dsimp only; split <;> simp
@[simp] theorem emit_made (w : World S I E) (n) : (w.emit D K n).made = w.made := by unfold World.emit; dsimp only; split <;> simp
@[simp] theorem emit_waiting (w : World S I E) (n) : (w.emit D K n).waiting = w.waiting := by unfold World.emit; dsimp only; split <;> simp
@[simp] theorem emit_active (w : World S I E) (n) : (w.emit D K n).active = w.active := by unfold World.emit; dsimp only; split <;> simp
@[simp] theorem emit_invokable (w : World S I E) (n) : (w.emit D K n).invokable = w.invokable := by unfold World.emit; dsimp only; split <;> simp
@[simp] theorem emit_invoked (w : World S I E) (n) : (w.emit D K n).invoked = w.invoked := by unfold World.emit; dsimp only; split <;> simp
@[simp] theorem emit_despawns (w : World S I E) (n) : (w.emit D K n).despawns = w.despawns := by unfold World.emit; dsimp only; split <;> simp
@[simp] theorem emit_mine (w : World S I E) (n) : (w.emit D K n).mine = w.mine := by unfold World.emit; dsimp only; split <;> simp
@[simp] theorem emit_cmds (w : World S I E) (n) : (w.emit D K n).cmds = w.cmds := by unfold World.emit; dsimp only; split <;> simp

/-- What a join leaves alone. -/
theorem emits_fields (l : List (SubscriberNotification I E)) (w : World S I E) :
    let w' := l.foldl (World.emit D K) w
    w'.ent = w.ent ∧ w'.source = w.source ∧ w'.made = w.made ∧ w'.waiting = w.waiting ∧ w'.active = w.active ∧
    w'.invokable = w.invokable ∧ w'.invoked = w.invoked ∧ w'.despawns = w.despawns ∧ w'.mine = w.mine ∧ w'.cmds = w.cmds := by
  induction l generalizing w with
  | nil => simp
  | cons n l ih =>
    have := ih (w.emit D K n)
    simpa using this

@[simp] theorem join_ent (w : World S I E) (t) : (w.join D K t).ent = w.ent := (emits_fields t.sync _).1
@[simp] theorem join_source (w : World S I E) (t) : (w.join D K t).source = .open := (emits_fields t.sync _).2.1
@[simp] theorem join_made (w : World S I E) (t) : (w.join D K t).made = w.made := (emits_fields t.sync _).2.2.1
@[simp] theorem join_waiting (w : World S I E) (t) : (w.join D K t).waiting = w.waiting := (emits_fields t.sync _).2.2.2.1
@[simp] theorem join_active (w : World S I E) (t) : (w.join D K t).active = w.active := (emits_fields t.sync _).2.2.2.2.1
@[simp] theorem join_invokable (w : World S I E) (t) : (w.join D K t).invokable = w.invokable := (emits_fields t.sync _).2.2.2.2.2.1
@[simp] theorem join_invoked (w : World S I E) (t) : (w.join D K t).invoked = w.invoked := (emits_fields t.sync _).2.2.2.2.2.2.1
@[simp] theorem join_despawns (w : World S I E) (t) : (w.join D K t).despawns = w.despawns := (emits_fields t.sync _).2.2.2.2.2.2.2.1
@[simp] theorem join_mine (w : World S I E) (t) : (w.join D K t).mine = w.mine := (emits_fields t.sync _).2.2.2.2.2.2.2.2.1
@[simp] theorem join_cmds (w : World S I E) (t) : (w.join D K t).cmds = w.cmds := (emits_fields t.sync _).2.2.2.2.2.2.2.2.2

@[simp] theorem close_ent (w : World S I E) : (w.close D K).ent = w.ent := by unfold World.close; split <;> simp
@[simp] theorem close_made (w : World S I E) : (w.close D K).made = w.made := by unfold World.close; split <;> simp
@[simp] theorem close_waiting (w : World S I E) : (w.close D K).waiting = w.waiting := by unfold World.close; split <;> simp
@[simp] theorem close_active (w : World S I E) : (w.close D K).active = w.active := by unfold World.close; split <;> simp
@[simp] theorem close_invokable (w : World S I E) : (w.close D K).invokable = w.invokable := by unfold World.close; split <;> simp
@[simp] theorem close_invoked (w : World S I E) : (w.close D K).invoked = w.invoked := by unfold World.close; split <;> simp
@[simp] theorem close_mine (w : World S I E) : (w.close D K).mine = w.mine := by unfold World.close; split <;> simp
@[simp] theorem close_cmds (w : World S I E) : (w.close D K).cmds = w.cmds := by unfold World.close; split <;> simp
theorem close_source (w : World S I E) : (w.close D K).source = if w.source = .open then .closed else w.source := by
  unfold World.close; split <;> simp
theorem close_despawns (w : World S I E) :
    (w.close D K).despawns = w.despawns + (if w.source = .open ∧ w.made = true then 1 else 0) := by
  unfold World.close; split <;> simp [*]

@[simp] theorem despawn_made (w : World S I E) : (w.despawn D K).made = w.made := by unfold World.despawn; split <;> simp
@[simp] theorem despawn_waiting (w : World S I E) : (w.despawn D K).waiting = w.waiting := by unfold World.despawn; split <;> simp
@[simp] theorem despawn_active (w : World S I E) : (w.despawn D K).active = w.active := by unfold World.despawn; split <;> simp
@[simp] theorem despawn_invokable (w : World S I E) : (w.despawn D K).invokable = w.invokable := by unfold World.despawn; split <;> simp
@[simp] theorem despawn_invoked (w : World S I E) : (w.despawn D K).invoked = w.invoked := by unfold World.despawn; split <;> simp
@[simp] theorem despawn_mine (w : World S I E) : (w.despawn D K).mine = w.mine := by unfold World.despawn; split <;> simp
@[simp] theorem despawn_cmds (w : World S I E) : (w.despawn D K).cmds = w.cmds := by unfold World.despawn; split <;> simp
theorem despawn_ent (w : World S I E) : (w.despawn D K).ent = if w.ent = .none then .none else .gone := by
  unfold World.despawn; split <;> simp [*]
theorem despawn_source (w : World S I E) :
    (w.despawn D K).source = if w.ent = .attached ∧ w.source = .open then .closed else w.source := by
  unfold World.despawn; split <;> simp [*, close_source]
theorem despawn_dead (w : World S I E) : ¬ (w.despawn D K).ent.alive := by
  rw [despawn_ent]; split <;> simp [Ent.alive]

theorem Heard.connect (hD : D.Contract) {w : World S I E} (h : Heard D s w) (r : Nat) : Heard D s (w.connect D K r) := by
  unfold World.connect
  split
  · rename_i t _
    dsimp only
    split
    · split
      · exact (h.join hD t).congr rfl rfl rfl
      · exact Heard.close hD ((h.join hD t).congr rfl rfl rfl)
    · exact ((h.join hD t).close hD).despawn hD
  · split
    · exact h.congr rfl rfl rfl
    · exact h.told hD .missed (.inr rfl)

theorem Heard.apply (hD : D.Contract) {w : World S I E} (h : Heard D s w) (c : Cmd) : Heard D s (w.apply D K c) := by
  cases c with
  | subscribe => exact Heard.connect (w := { w with ent := .unfinished }) hD (h.congr rfl rfl rfl) _
  | spawn => exact h.congr rfl rfl rfl
  | despawn => exact h.despawn hD

theorem Heard.applies (hD : D.Contract) (l : List Cmd) {w : World S I E} (h : Heard D s w) :
    Heard D s (l.foldl (World.apply D K) w) := by
  induction l generalizing w with
  | nil => exact h
  | cons c l ih => exact ih (h.apply hD c)

/-- What draining the queue leaves alone. -/
theorem acts_fields (l : List Act) (w : World S I E) :
    let w' := l.foldl World.act w
    w'.dest = w.dest ∧ w'.ent = w.ent ∧ w'.source = w.source ∧ w'.made = w.made ∧ w'.waiting = w.waiting ∧ w'.despawns = w.despawns ∧
    w'.mine = w.mine ∧ w'.cmds = w.cmds ∧ w'.trace = w.trace ∧ w'.queue = w.queue ∧
    w'.invokable = w.invokable + l.count .addInvoked ∧ w'.invoked = w.invoked + l.count .invoke := by
  induction l generalizing w with
  | nil => simp
  | cons a l ih =>
    have := ih (w.act a)
    cases a <;> simp_all [World.act] <;> omega

/-- Nothing is active once a `cancel` has been received after the last `add`. -/
theorem acts_active (l : List Act) (w : World S I E) :
    (l.foldl World.act w).active ≤ w.active + l.count .add ∧
      (.cancel ∈ l → .add ∉ l.tail → (l.foldl World.act w).active = 0) := by
  induction l generalizing w with
  | nil => simp
  | cons a l ih =>
    refine ⟨?_, ?_⟩
    · have := (ih (w.act a)).1
      cases a <;> simp [World.act] at this ⊢ <;> omega
    · intro hc ha
      simp only [List.tail_cons] at ha
      have hct : l.count .add = 0 := List.count_eq_zero.2 ha
      by_cases h1 : a = .cancel
      · have := (ih (w.act a)).1
        simp only [h1, World.act, hct] at this
        simp only [List.foldl_cons, h1, World.act]
        omega
      · have hcl : .cancel ∈ l := by
          rcases List.mem_cons.1 hc with h | h
          · exact (h1 h.symm).elim
          · exact h
        exact (ih (w.act a)).2 hcl (fun h => ha (List.mem_of_mem_tail h))

/-- A handle made of the subscription itself is unsubscribed. -/
theorem Heard.unsubscribeDirect (hD : D.Contract) {w : World S I E} (h : Heard D s w) (hn : w.source ≠ .none) :
    Heard D s (World.close D K { w with trace := w.trace ++ [.unsubscribed] }) := by
  have hc := h.connected
  have hg : given (w.trace ++ [Mark.unsubscribed]) = given w.trace := by simp [given]
  unfold World.close
  by_cases ho : w.source = .open
  · simp only [ho, if_true]
    have hof : offers (w.trace ++ [.unsubscribed] ++ [.ended]) = offers w.trace ++ [.unsubscribe] ++ [.unsubscribe] := by
      rw [offers, seen_snoc, seen_snoc]; simp [Seen.see, offers]
    refine ⟨?_, ?_, ?_⟩
    · unfold World.give
      dsimp only
      by_cases hcl : D.isClosed w.dest = true
      · rw [if_pos hcl]
        dsimp only
        rw [hof, takes_append, takes_append, h.hears]
        simp [takes_closed D hcl, given]
      · rw [if_neg hcl]
        dsimp only
        have : offers (w.trace ++ [.unsubscribed] ++ [.ended] ++ [.gave .unsubscribe]) =
            offers w.trace ++ [.unsubscribe] ++ [.unsubscribe] := by rw [offers, seen_snoc]; exact hof
        rw [this, takes_append, takes_append, h.hears]
        have hcl2 := hD.closes w.dest .unsubscribe rfl
        simp [takes, hcl, hcl2, given]
    · rw [give_seen]
      show (seen (w.trace ++ [_] ++ [_])).connected = _
      rw [seen_snoc]
      simp [Seen.see]
    · intro _
      exact give_unsubscribe_closed hD _
  · simp only [ho, if_false]
    have hcl := h.closed (by cases hs : w.source <;> simp_all)
    refine ⟨?_, ?_, ?_⟩
    · show takes D s (offers (w.trace ++ [_])) = (given (w.trace ++ [_]), _)
      rw [hg]
      have : offers (w.trace ++ [.unsubscribed]) = offers w.trace ++ [.unsubscribe] := by
        rw [offers, seen_snoc]; simp [Seen.see, offers]
      rw [this, takes_append, h.hears]
      simp [takes_closed D hcl]
    · show (seen (w.trace ++ [_])).connected = _
      rw [seen_snoc]
      simpa [Seen.see, ho] using hc
    · exact h.closed

/-! ## The subscription of the observable does not come back -/

theorem connect_source (w : World S I E) (r : Nat) (h : w.source ≠ .none) : (w.connect D K r).source ≠ .none := by
  unfold World.connect
  split
  · dsimp only
    split
    · split
      · simp
      · rw [close_source]; simp
    · rw [despawn_source, close_source]; simp
  · split
    · exact h
    · simpa using h

theorem apply_source (w : World S I E) (c : Cmd) (h : w.source ≠ .none) : (w.apply D K c).source ≠ .none := by
  cases c with
  | subscribe => exact connect_source _ _ h
  | spawn => exact h
  | despawn =>
    show (w.despawn D K).source ≠ .none
    rw [despawn_source]; split <;> simp_all

theorem applies_source (l : List Cmd) (w : World S I E) (h : w.source ≠ .none) : (l.foldl (World.apply D K) w).source ≠ .none := by
  induction l generalizing w with
  | nil => exact h
  | cons c l ih => exact ih _ (apply_source w c h)

theorem step_source (w : World S I E) (o : Op I E) (h : w.source ≠ .none) : (w.step D K o).source ≠ .none := by
  cases o with
  | target t => exact h
  | emit n => simpa [World.step] using h
  | close => simp only [World.step, close_source]; split <;> simp_all
  | unsubscribe =>
    simp only [World.step]
    split
    · rw [close_source]; dsimp only; split <;> simp_all
    · simpa using h
  | kill => simp only [World.step, despawn_source]; split <;> simp_all
  | remove =>
    simp only [World.step]
    split
    · rw [close_source]; dsimp only; split <;> simp_all
    · exact h
  | flushMine => exact applies_source _ _ h
  | drain => simp only [World.step, (acts_fields w.queue { w with queue := [] }).2.2.1]; exact h
  | work => simp only [World.step]; split <;> exact h
  | reap => simp only [World.step]; split <;> exact h
  | flush => exact applies_source _ _ h
  | retry =>
    simp only [World.step]
    split
    · exact connect_source _ _ h
    · exact h
  | clean => simp only [World.step]; split; · rw [despawn_source]; split <;> simp_all
             · exact h
  | last => simp only [World.step]; split; · rw [despawn_source]; dsimp only; split <;> simp_all
            · exact h

theorem Heard.step (hD : D.Contract) {w : World S I E} (h : Heard D s w) (hn : K = .direct → w.source ≠ .none) (o : Op I E) :
    Heard D s (w.step D K o) := by
  cases o with
  | target t => exact h.congr rfl rfl rfl
  | emit n => exact h.emit hD n
  | close => exact h.close hD
  | unsubscribe =>
    simp only [World.step]
    split
    · exact h.unsubscribeDirect hD (hn rfl)
    · exact h.told hD .unsubscribed (.inl rfl)
  | kill => exact h.despawn hD
  | remove =>
    simp only [World.step]
    split
    · exact Heard.close hD (h.congr rfl rfl rfl)
    · exact h
  | flushMine => exact Heard.applies hD _ (h.congr rfl rfl rfl)
  | drain =>
    obtain ⟨h1, -, h2, -, -, -, -, -, h3, -⟩ := acts_fields w.queue { w with queue := [] }
    exact h.congr h3 h1 h2
  | work =>
    simp only [World.step]
    split
    · exact h.congr rfl rfl rfl
    · exact h
  | reap =>
    simp only [World.step]
    split
    · exact h.congr rfl rfl rfl
    · exact h.congr rfl rfl rfl
  | flush => exact Heard.applies hD _ (h.congr rfl rfl rfl)
  | retry =>
    simp only [World.step]
    split
    · exact Heard.connect (w := { w with waiting := Option.none }) hD (h.congr rfl rfl rfl) _
    · exact h
  | clean =>
    simp only [World.step]
    split
    · exact h.despawn hD
    · exact h
  | last =>
    simp only [World.step]
    split
    · exact Heard.despawn (w := { w with despawns := 0 }) hD (h.congr rfl rfl rfl)
    · exact h

theorem start_heard (hD : D.Contract) (t : Target I E) :
    Heard D s (World.start D K t s) ∧ (K = .direct → (World.start D K t s : World S I E).source ≠ .none) := by
  unfold World.start
  split
  · exact ⟨⟨rfl, rfl, by simp⟩, by simp⟩
  · exact ⟨⟨rfl, rfl, by simp⟩, by simp⟩
  · have hj : Heard D s (World.join D .direct t { dest := s, queue := [.addInvoked], mine := [.spawn], made := true }) :=
      Heard.join hD ⟨rfl, rfl, by simp⟩ t
    dsimp only
    split
    · exact ⟨hj, by simp⟩
    · exact ⟨hj.close hD, by rw [close_source]; simp⟩

theorem run_heard (hD : D.Contract) (t : Target I E) (l : List (Op I E)) : Heard D s ((World.start D K t s).run D K l) := by
  suffices h : ∀ (w : World S I E), Heard D s w → (K = .direct → w.source ≠ .none) → Heard D s (w.run D K l) from
    h _ (start_heard hD t).1 (start_heard hD t).2
  intro w h hn
  induction l generalizing w with
  | nil => exact h
  | cons o l ih => exact ih _ (h.step hD hn o) (fun hk => step_source w o (hn hk))

end Rx.Proxy
