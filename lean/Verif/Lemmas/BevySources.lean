import Verif.Spec.BevySources
import Verif.Lemmas.TimedSources

/-!
# Sources that look at a resource of the Bevy world
-/

namespace Rx.Poll
open Rx.Sched Rx.Timed
open Rx.HigherOrder (Closes)

section Due
variable {Ω O : Type} {found found' : List (Event Ω) → List O}

theorem due_go_append (past : List (Event Ω)) (a b : List (Event Ω × Nat)) :
    due.go found past (a ++ b) = due.go found past a ++ due.go found (past ++ a.map (·.1)) b := by
  induction a generalizing past with
  | nil => simp [due.go]
  | cons x a ih =>
    obtain ⟨e, k⟩ := x
    cases e <;> simp [due.go, ih]

theorem due_look (es : List (Event Ω × Nat)) (k : Nat) :
    due found (es ++ [(.look, k)]) = due found es ++ (found (es.map (·.1))).map (·, k) := by
  unfold due
  rw [due_go_append]
  simp [due.go]

theorem due_world (es : List (Event Ω × Nat)) (o : Ω) (k : Nat) :
    due found (es ++ [(.world o, k)]) = due found es := by
  unfold due
  rw [due_go_append]
  simp [due.go]

theorem due_congr (h : ∀ es, found es = found' es) : due found = due found' := by
  rw [show found = found' from funext h]

end Due

variable {S O E : Type} {D : Sub S O E} {s0 : S} {P : Poll O} {now : Nat}

/-- The world and what the closure captured, after `es`. -/
def Poll.after (P : Poll O) (es : List (Event P.Op)) : P.W × P.M :=
  es.foldl (fun x e => match e with
    | .world o => (P.apply o x.1, x.2)
    | .look => (x.1, (P.read x.2 x.1).1)) (P.w0, P.m0)

theorem Poll.after_world (es : List (Event P.Op)) (o : P.Op) :
    P.after (es ++ [.world o]) = (P.apply o (P.after es).1, (P.after es).2) := by
  simp [Poll.after, List.foldl_append]

theorem Poll.after_look (es : List (Event P.Op)) :
    P.after (es ++ [.look]) = ((P.after es).1, (P.read (P.after es).2 (P.after es).1).1) := by
  simp [Poll.after, List.foldl_append]

/-- What is found after `es`. -/
def Poll.found (P : Poll O) (es : List (Event P.Op)) : List O := (P.read (P.after es).2 (P.after es).1).2

/-- What happened. -/
abbrev events {Ω : Type} (τ : Line (Event Ω) O E) : List (Event Ω) := (arrivals τ).map (·.1)

/-- Everything was given. -/
def Settled (P : Poll O) (τ : Line (Event P.Op) O E) : Prop := outs τ = due P.found (arrivals τ)

/-- What always holds. -/
abbrev Safe (D : Sub S O E) (s0 : S) (P : Poll O) (now : Nat) (p : Port S (Event P.Op) O E) : Prop :=
  p.Fits (Allowed D s0 P.found) D s0 now

theorem Safe.arrive {p : Port S (Event P.Op) O E} (h : Safe D s0 P now p) (hc : D.isClosed p.dest = true ∨ Settled P p.trace)
    (n : SubscriberNotification (Event P.Op) E) (hn : (∃ x, n = .next x) ∨ n = .unsubscribe) :
    Safe D s0 P now (p.mark (.arrived n) now) :=
  h.mark ⟨h.right.orderly (fun h => absurd rfl (h n)), (fun n' h => by cases h; exact hn), (fun v h => by cases h),
    (fun h1 h2 => by
      rcases hc with hc | hc
      · rw [← h.right.fed, hc] at h2; cases h2
      · exact absurd hc h1),
    (fun h => by cases h), (fun e h => by cases h), (fun h => by cases h)⟩

theorem settled_world {p : Port S (Event P.Op) O E} (h : Settled P p.trace) (o : P.Op) :
    Settled P (p.mark (.arrived (.next (.world o))) now).trace := by
  unfold Settled
  rw [Port.mark_trace, outs_append, arrivals_append, arrivals_next, due_world, outs_of_ne (by intro v h; cases h), List.append_nil]
  exact h

theorem settled_unsubscribe {p : Port S (Event P.Op) O E} (h : Settled P p.trace) :
    Settled P (p.mark (.arrived .unsubscribe) now).trace := by
  unfold Settled
  rw [Port.mark_trace, outs_append, arrivals_append, arrivals_of_ne (by intro v h; cases h), outs_of_ne (by intro v h; cases h),
    List.append_nil, List.append_nil]
  exact h

theorem Safe.unsubscribe {p : Port S (Event P.Op) O E} (h : Safe D s0 P now p) (hc : D.isClosed p.dest = true ∨ Settled P p.trace) :
    Safe D s0 P now ((p.mark (.arrived .unsubscribe) now).give D .unsubscribe now) := by
  have h1 := h.arrive hc .unsubscribe (.inr rfl)
  have hl : (p.mark (.arrived .unsubscribe) now).trace.getLast? = some (.arrived .unsubscribe, now) := by simp [Port.mark]
  exact h1.give (fun ho => ⟨h1.right.orderly (fun _ => ho), (fun n h => by cases h), (fun v h => by cases h),
    (fun h1' h2 => by
      rcases hc with hc | hc
      · rw [Port.mark_dest, hc] at ho; cases ho
      · exact absurd (settled_unsubscribe hc) h1'),
    (fun h => by cases h), (fun e h => by cases h), (fun _ => hl)⟩)

theorem Safe.closed {p : Port S (Event P.Op) O E} (h : Safe D s0 P now p) (hc : D.isClosed p.dest = true ∨ Settled P p.trace) :
    Safe D s0 P now (p.close D now) :=
  h.close (fun ho => ⟨h.right.orderly (fun _ => ho), (fun n h => by cases h), (fun v h => by cases h),
    (fun h1' h2 => by
      rcases hc with hc | hc
      · rw [hc] at ho; cases ho
      · exact absurd hc h1'),
    (fun h => by cases h), (fun e h => by cases h), (fun h => by cases h)⟩)

/-- The loop. -/
theorem giveAll_safe (vs : List O) : ∀ {p : Port S (Event P.Op) O E}, Safe D s0 P now p →
    outs p.trace ++ vs.map (·, now) = due P.found (arrivals p.trace) →
    Safe D s0 P now (giveAll D now vs p).1 ∧ arrivals (giveAll D now vs p).1.trace = arrivals p.trace ∧
    (D.isClosed (giveAll D now vs p).1.dest = false → Settled P (giveAll D now vs p).1.trace ∧ (giveAll D now vs p).2 = false) := by
  induction vs with
  | nil =>
    intro p h hd
    exact ⟨h, rfl, fun _ => ⟨by simpa [Settled, giveAll] using hd, rfl⟩⟩
  | cons v vs ih =>
    intro p h hd
    cases hc : D.isClosed p.dest with
    | true =>
      have : giveAll D now (v :: vs) p = (p, true) := by simp [giveAll, hc]
      rw [this]
      exact ⟨h, rfl, fun ho => by rw [hc] at ho; cases ho⟩
    | false =>
      have he : giveAll D now (v :: vs) p = giveAll D now vs (p.give D (.next v) now) := by simp [giveAll, hc]
      rw [he]
      have ho : outs (p.give D (.next v) now).trace = outs p.trace ++ [(v, now)] := by
        rw [Port.give_open hc]
        show outs (p.trace ++ _) = _
        rw [outs_append, outs_next]
      have ha : arrivals (p.give D (.next v) now).trace = arrivals p.trace := by
        rw [Port.give_open hc]
        show arrivals (p.trace ++ _) = _
        rw [arrivals_append, arrivals_of_ne (by intro v h; cases h), List.append_nil]
      have hs : Safe D s0 P now (p.give D (.next v) now) := h.give (fun _ => ⟨h.right.orderly (fun _ => hc),
        (fun n h => by cases h), (fun v' hv' => by
          cases hv'
          refine ⟨vs.map (·, now), ?_⟩
          rw [← hd]; simp),
        (fun _ _ => ⟨v, rfl⟩), (fun h => by cases h), (fun e h => by cases h), (fun h => by cases h)⟩)
      obtain ⟨i1, i2, i3⟩ := ih hs (by rw [ho, ha, ← hd]; simp)
      exact ⟨i1, i2.trans ha, i3⟩

theorem giveAll_closed (vs : List O) {p : Port S (Event P.Op) O E} (h : D.isClosed p.dest = true) :
    (giveAll D now vs p).1 = p := by
  cases vs with
  | nil => rfl
  | cons v vs => simp [giveAll, h]

theorem giveAll_grew {I : Type} (vs : List O) : ∀ (p : Port S I O E), Grew now p.trace (giveAll D now vs p).1.trace := by
  induction vs with
  | nil => intro p; exact .refl _ _
  | cons v vs ih =>
    intro p
    unfold giveAll
    split
    · exact .refl _ _
    · exact (Port.give_grew _ _ _ _).trans (ih _)

/-- Closed. -/
def Dead (D : Sub S O E) (s0 : S) (P : Poll O) (now : Nat) (s : State P S E) : Prop :=
  D.isClosed s.port.dest = true ∧ Safe D s0 P now s.port ∧ (s.begun = none → looks s.port.trace = 0)

/-- Not subscribed yet. -/
structure Idle (D : Sub S O E) (s0 : S) (P : Poll O) (now : Nat) (s : State P S E) : Prop where
  safe : Safe D s0 P now s.port
  settled : Settled P s.port.trace
  begun : s.begun = none
  looks : looks s.port.trace = 0
  after : P.after (events s.port.trace) = (s.world, P.m0)

/-- How often it has looked: `acc` says what is known before it does in this tick. -/
def Counted (acc : Nat → Prop) (n : Nat) : Solo.Phase → Prop
  | .ticked => ∃ k, acc k ∧ n = k + 1
  | _ => acc n

/-- Subscribed. -/
structure Busy (D : Sub S O E) (s0 : S) (P : Poll O) (acc : Nat → Prop) (now : Nat) (ph : Solo.Phase) (w : Work P.M)
    (s : State P S E) : Prop where
  live : D.isClosed s.port.dest = false
  safe : Safe D s0 P now s.port
  settled : Settled P s.port.trace
  begun : s.begun.isSome = true
  counted : Counted acc (looks s.port.trace) ph
  work : ∃ l m, w = .continuous l m ∧ P.after (events s.port.trace) = (s.world, m)

variable {acc : Nat → Prop}

theorem looks_snoc {Ω : Type} (τ : Line (Event Ω) O E) {m : Mark (Event Ω) O E × Nat} (h : m.1 ≠ .arrived (.next .look)) :
    looks (τ ++ [m]) = looks τ := by
  obtain ⟨m, k⟩ := m
  unfold looks
  rw [arrivals_append, List.countP_append]
  cases m with
  | arrived n =>
    cases n with
    | next e =>
      rw [arrivals_next]
      cases e with
      | look => exact absurd rfl h
      | world o => simp
    | _ => rw [arrivals_of_ne (by intro v h; cases h)]; simp
  | out n => rw [arrivals_of_ne (by intro v h; cases h)]; simp
  | closed => rw [arrivals_of_ne (by intro v h; cases h)]; simp

theorem looks_world {p : Port S (Event P.Op) O E} (o : P.Op) :
    looks (p.mark (.arrived (.next (.world o))) now).trace = looks p.trace := by
  rw [Port.mark_trace, looks_snoc _ (by simp)]

theorem looks_give {p : Port S (Event P.Op) O E} (n : SubscriberNotification O E) :
    looks (p.give D n now).trace = looks p.trace := by
  unfold Port.give
  split
  · rfl
  · rw [Port.mark_trace, looks_snoc _ (by simp)]

theorem looks_close {p : Port S (Event P.Op) O E} : looks (p.close D now).trace = looks p.trace := by
  unfold Port.close
  split
  · rfl
  · rw [Port.mark_trace, looks_snoc _ (by simp)]

theorem exec_dead (m : P.M) (t : Nat) {s : State P S E} (h : Dead D s0 P now s) :
    ((poll D P).exec m t now s).2.1 = s := by
  show ({ s with port := (giveAll D now (P.read m s.world).2 (if D.isClosed s.port.dest then s.port else _)).1 } : State P S E) = s
  rw [if_pos h.1, giveAll_closed _ h.1]

theorem looked {p : Port S (Event P.Op) O E} (hs : Safe D s0 P now p)
    (hd : Settled P p.trace) {w : P.W} {m : P.M} (ha : P.after (events p.trace) = (w, m)) :
    Safe D s0 P now (giveAll D now (P.read m w).2 (p.mark (.arrived (.next .look)) now)).1 ∧
    arrivals (giveAll D now (P.read m w).2 (p.mark (.arrived (.next .look)) now)).1.trace =
      arrivals p.trace ++ [(.look, now)] ∧
    (D.isClosed (giveAll D now (P.read m w).2 (p.mark (.arrived (.next .look)) now)).1.dest = false →
      Settled P (giveAll D now (P.read m w).2 (p.mark (.arrived (.next .look)) now)).1.trace ∧
      (giveAll D now (P.read m w).2 (p.mark (.arrived (.next .look)) now)).2 = false) := by
  have h1 := hs.arrive (.inr hd) (.next .look) (.inl ⟨_, rfl⟩)
  have harr : arrivals (p.mark (.arrived (.next .look)) now).trace = arrivals p.trace ++ [(.look, now)] := by
    rw [Port.mark_trace, arrivals_append, arrivals_next]
  have := giveAll_safe (P.read m w).2 h1 (by
    rw [harr, due_look, Port.mark_trace, outs_append, outs_of_ne (by intro v h; cases h), List.append_nil, hd]
    unfold Poll.found
    rw [ha])
  rw [harr] at this
  exact this

theorem exec_busy {m : P.M} {t tk l : Nat} {s : State P S E} (h : Busy D s0 P acc now (.due tk) (.continuous l m) s) (l' : Nat) :
    Dead D s0 P now ((poll D P).exec m t now s).2.1 ∨
      (((poll D P).exec m t now s).2.2.1 = [] ∧
        ((P.done false false = true ∨ ((poll D P).exec m t now s).2.2.2 ≠ .done)) ∧
        Busy D s0 P acc now .ticked (.continuous l' ((poll D P).exec m t now s).1) ((poll D P).exec m t now s).2.1) := by
  obtain ⟨_, _, hw, ha⟩ := h.work
  cases hw
  obtain ⟨k1, k2, k3⟩ := looked h.safe h.settled ha
  have he : (poll D P).exec m t now s = ((P.read m s.world).1,
      { s with port := (giveAll D now (P.read m s.world).2 (s.port.mark (.arrived (.next .look)) now)).1 },
      s.port.teardown D (giveAll D now (P.read m s.world).2 (s.port.mark (.arrived (.next .look)) now)).1,
      if P.done (D.isClosed (giveAll D now (P.read m s.world).2 (s.port.mark (.arrived (.next .look)) now)).1.dest)
        (giveAll D now (P.read m s.world).2 (s.port.mark (.arrived (.next .look)) now)).2 then .done else .pending) := by
    show (_, ({ s with port := (giveAll D now (P.read m s.world).2 (if D.isClosed s.port.dest then s.port else _)).1 } : State P S E), _, _) = _
    rw [if_neg (by rw [h.live]; simp)]
  rw [he]
  dsimp only
  cases hc : D.isClosed (giveAll D now (P.read m s.world).2 (s.port.mark (.arrived (.next .look)) now)).1.dest with
  | true => exact .inl ⟨hc, k1, fun hn => by
      have := h.begun
      dsimp only at hn
      rw [hn] at this; cases this⟩
  | false =>
    obtain ⟨k3, k4⟩ := k3 hc
    refine .inr ⟨Port.teardown_of_open hc, ?_, hc, k1, k3, h.begun, ⟨looks s.port.trace, h.counted, ?_⟩, l', _, rfl, ?_⟩
    · rw [k4]
      cases P.done false false with
      | true => exact .inl rfl
      | false => exact .inr (by simp)
    · unfold looks
      dsimp only
      rw [k2, List.countP_append]
      simp
    · dsimp only
      unfold events
      rw [k2, List.map_append]
      show P.after (_ ++ [.look]) = _
      rw [Poll.after_look, ha]

variable {idle : Nat → State P S E → Prop}

theorem events_world {p : Port S (Event P.Op) O E} {w : P.W} {m : P.M} (h : P.after (events p.trace) = (w, m)) (o : P.Op) :
    P.after (events (p.mark (.arrived (.next (.world o))) now).trace) = (P.apply o w, m) := by
  unfold events at h ⊢
  rw [Port.mark_trace, arrivals_append, arrivals_next, List.map_append]
  show P.after (_ ++ [.world o]) = _
  rw [Poll.after_world, h]

theorem busy_single (hD : Closes D) (hP : P.done false false = false)
    (hidle : ∀ i now s, idle now s → Dead D s0 P now ((poll D P).input i now s).1 ∨
      (((poll D P).input i now s).2 = [] ∧ idle now ((poll D P).input i now s).1) ∨
      ∃ w, ((poll D P).input i now s).2 = [.schedule w] ∧
        Busy D s0 P acc now .queued (w.onScheduled now) ((poll D P).input i now s).1) :
    Solo.Single (poll D P) (Dead D s0 P) idle (Busy D s0 P acc) where
  dead_exec b t now s _ h := by rw [exec_dead b t h]; exact h
  dead_input i now s h := by
    cases i with
    | subscribe =>
      show Dead D s0 P now (if s.begun.isSome = true then (s, []) else _ : State P S E × List (Req P.M)).1
      split
      · exact h
      · exact ⟨h.1, h.2.1, fun hn => by cases hn⟩
    | unsubscribe =>
      show Dead D s0 P now (if s.begun.isNone = true then (s, []) else _ : State P S E × List (Req P.M)).1
      split
      · exact h
      · rename_i hb
        exact ⟨Port.give_isClosed hD _ _ rfl, h.2.1.unsubscribe (.inl h.1), fun hn => absurd (by rw [show s.begun = none from hn]; rfl) hb⟩
    | close => exact ⟨Port.close_isClosed hD _ _, h.2.1.closed (.inl h.1), fun hn => looks_close.trans (h.2.2 hn)⟩
    | world o => exact ⟨h.1, h.2.1.arrive (.inl h.1) _ (.inl ⟨_, rfl⟩), fun hn => (looks_world o).trans (h.2.2 hn)⟩
  idle_input := hidle
  busy_input i now f' w s h := by
    cases i with
    | subscribe =>
      refine .inr ?_
      show (if s.begun.isSome = true then (s, []) else _ : State P S E × List (Req P.M)).2 = _ ∧
        Busy D s0 P acc now f' w (if s.begun.isSome = true then (s, []) else _ : State P S E × List (Req P.M)).1
      rw [if_pos h.begun]
      exact ⟨rfl, h⟩
    | unsubscribe =>
      refine .inl ?_
      show Dead D s0 P now (if s.begun.isNone = true then (s, []) else _ : State P S E × List (Req P.M)).1
      rw [if_neg (by
        have := h.begun
        cases hb : s.begun with
        | none => rw [hb] at this; cases this
        | some k => simp)]
      exact ⟨Port.give_isClosed hD _ _ rfl, h.safe.unsubscribe (.inr h.settled), fun hn => by
        have := h.begun
        rw [show s.begun = none from hn] at this; cases this⟩
    | close =>
      exact .inl ⟨Port.close_isClosed hD _ _, h.safe.closed (.inr h.settled), fun hn => by
        have := h.begun
        rw [show s.begun = none from hn] at this; cases this⟩
    | world o =>
      obtain ⟨l, m, hw, ha⟩ := h.work
      refine .inr ⟨rfl, h.live, h.safe.arrive (.inr h.settled) _ (.inl ⟨_, rfl⟩), settled_world h.settled o, h.begun, ?_,
        l, m, hw, events_world ha o⟩
      rw [looks_world]
      exact h.counted
  work t s w w' s' res ht h hw := by
    obtain ⟨l, o, rfl, hp⟩ := h.work
    simp only [Solo.tickWork] at hw
    cases hw
    have h2 := exec_busy (t := t) h (updateTick l t)
    rw [Solo.runBody_st, Solo.runBody_queue]
    rcases h2 with h2 | ⟨h1, h2, h3⟩
    · exact .inl h2
    · rw [h1]
      refine .inr ⟨by simp, .inr ⟨h2.resolve_left (by rw [hP]; simp), h3⟩⟩
  pass t now w s ht h := ⟨h.live, h.safe, h.settled, h.begun, h.counted, h.work⟩

theorem idle_input (hD : Closes D) (i : Input P.Op) {now : Nat} {s : State P S E} (hacc : acc 0)
    (h : Idle D s0 P now s) : Dead D s0 P now ((poll D P).input i now s).1 ∨
      (((poll D P).input i now s).2 = [] ∧ Idle D s0 P now ((poll D P).input i now s).1) ∨
      ∃ w, ((poll D P).input i now s).2 = [.schedule w] ∧
        Busy D s0 P acc now .queued (w.onScheduled now) ((poll D P).input i now s).1 := by
  cases i with
  | subscribe =>
    have hi : (poll D P).input .subscribe now s = ({ s with begun := some now },
          .schedule (.newContinuous P.m0) :: if D.isClosed s.port.dest then [.cancel] else []) := by
      show (if s.begun.isSome = true then (s, []) else _ : State P S E × List (Req P.M)) = _
      rw [h.begun, if_neg (by simp)]
    rw [hi]
    cases hc : D.isClosed s.port.dest with
    | true => exact .inl ⟨hc, h.safe, fun hn => by cases hn⟩
    | false =>
      refine .inr (.inr ⟨_, rfl, hc, h.safe, h.settled, rfl, ?_, 0, P.m0, rfl, h.after⟩)
      show Counted acc (looks s.port.trace) .queued
      rw [h.looks]
      exact hacc
  | unsubscribe =>
    refine .inr (.inl ?_)
    show (if s.begun.isNone = true then (s, []) else _ : State P S E × List (Req P.M)).2 = _ ∧
      Idle D s0 P now (if s.begun.isNone = true then (s, []) else _ : State P S E × List (Req P.M)).1
    rw [h.begun]
    exact ⟨rfl, h⟩
  | close => exact .inl ⟨Port.close_isClosed hD _ _, h.safe.closed (.inr h.settled), fun _ => looks_close.trans h.looks⟩
  | world o =>
    exact .inr (.inl ⟨rfl, h.safe.arrive (.inr h.settled) _ (.inl ⟨_, rfl⟩), settled_world h.settled o, h.begun,
      (looks_world o).trans h.looks, events_world h.after o⟩)

theorem single (hD : Closes D) (hP : P.done false false = false) :
    Solo.Single (poll D P) (Dead D s0 P) (Idle D s0 P) (Busy D s0 P (fun _ => True)) :=
  busy_single hD hP (fun i _ _ h => idle_input hD i trivial h)

theorem Busy.go {acc' : Nat → Prop} {ph : Solo.Phase} {w : Work P.M} {s : State P S E} (t : Nat)
    (h : Busy D s0 P acc now ph w s) (ha : acc' (Poll.looks s.port.trace)) :
    Busy D s0 P acc' (max now t) (.due t) w s :=
  ⟨h.live, h.safe.mono (Nat.le_max_left ..), h.settled, h.begun, ha, h.work⟩

theorem mono : Solo.Mono (c := poll D P) (Dead D s0 P) (Idle D s0 P) (Busy D s0 P (fun _ => True)) where
  dead _ _ _ hk h := ⟨h.1, h.2.1.mono hk, h.2.2⟩
  idle _ _ _ hk h := ⟨h.safe.mono hk, h.settled, h.begun, h.looks, h.after⟩
  busy t _ _ _ _ _ h := h.go t trivial

theorem holds (hD : Closes D) (hP : P.done false false = false) {y : Solo (poll D P)}
    (h : Solo.Reachable (c := poll D P) { port := { dest := s0 } } y) :
    Solo.Holds (Dead D s0 P) (Idle D s0 P) (Busy D s0 P (fun _ => True)) y :=
  (single hD hP).reach mono (show Idle D s0 P 0 { port := { dest := s0 } } from
    ⟨Port.Fits.init _ _ _ _, show outs [] = due P.found (arrivals []) from rfl, rfl, rfl, rfl⟩) h

theorem safe {y : Solo (poll D P)} (h : Solo.Holds (Dead D s0 P) (Idle D s0 P) (Busy D s0 P (fun _ => True)) y) :
    Safe D s0 P y.clock y.st.port := by
  cases h with
  | dead h => exact h.2.1
  | idle h _ _ => exact h.safe
  | queued _ h _ _ => exact h.safe
  | due _ _ _ h _ _ => exact h.safe
  | ticked _ h _ _ => exact h.safe

theorem settled {y : Solo (poll D P)} (h : Solo.Holds (Dead D s0 P) (Idle D s0 P) (Busy D s0 P (fun _ => True)) y)
    (ho : D.isClosed y.st.port.dest = false) : Settled P y.st.port.trace := by
  cases h with
  | dead h => rw [h.1] at ho; cases ho
  | idle h _ _ => exact h.settled
  | queued _ h _ _ => exact h.settled
  | due _ _ _ h _ _ => exact h.settled
  | ticked _ h _ _ => exact h.settled

/-- It does not look before it is subscribed. -/
theorem unbegun {y : Solo (poll D P)} (h : Solo.Holds (Dead D s0 P) (Idle D s0 P) (Busy D s0 P (fun _ => True)) y)
    (hb : y.st.begun = none) : looks y.st.port.trace = 0 := by
  cases h with
  | dead h => exact h.2.2 hb
  | idle h _ _ => exact h.looks
  | queued _ h _ _ => have := h.begun; rw [hb] at this; cases this
  | due _ _ _ h _ _ => have := h.begun; rw [hb] at this; cases this
  | ticked _ h _ _ => have := h.begun; rw [hb] at this; cases this

/-- A tick looks once. -/
theorem tick (hD : Closes D) (hP : P.done false false = false) {y0 y : Solo (poll D P)} {t : Nat}
    (h : Solo.Reachable (c := poll D P) { port := { dest := s0 } } y0) (ht : y0.tick = none)
    (hi : Solo.Inner (Solo.drain t { y0 with tick := some t, active := y0.active.map fun p => (p.1, false) }) y)
    (ha : y.allTicked) (hq : y.queue = []) (hb : y0.st.begun.isSome = true) (ho : D.isClosed y.st.port.dest = false) :
    looks y.st.port.trace = looks y0.st.port.trace + 1 ∧ y.st.begun.isSome = true := by
  have hs := (busy_single (idle := fun _ _ => False) (acc := fun k => k = looks y0.st.port.trace) hD hP (fun i now s h => h.elim)).inner hi (by
    intro t' ht'
    cases ht'
    show _ ≤ updateTick _ _
    rw [updateTick_max]; omega) ((holds hD hP h).start (mono.dead _ _ _ (Nat.le_max_left ..))
      (fun h => by rw [h.begun] at hb; cases hb)
      (fun f w hf h => h.go t rfl) ht)
  cases hs.ended ha hq with
  | dead h => rw [h.1] at ho; cases ho
  | idle h _ => exact h.elim
  | busy w h _ =>
    obtain ⟨k, rfl, hk⟩ := h.counted
    exact ⟨hk, h.begun⟩

theorem input_looks (i : Input P.Op) (now : Nat) (s : State P S E) :
    looks ((poll D P).input i now s).1.port.trace = looks s.port.trace ∧
    (s.begun.isSome = true → ((poll D P).input i now s).1.begun.isSome = true) := by
  cases i with
  | subscribe =>
    show looks (if s.begun.isSome = true then (s, []) else _ : State P S E × List (Req P.M)).1.port.trace = _ ∧
      (_ → (if s.begun.isSome = true then (s, []) else _ : State P S E × List (Req P.M)).1.begun.isSome = true)
    split
    · exact ⟨rfl, id⟩
    · exact ⟨rfl, fun _ => rfl⟩
  | unsubscribe =>
    show looks (if s.begun.isNone = true then (s, []) else _ : State P S E × List (Req P.M)).1.port.trace = _ ∧
      (_ → (if s.begun.isNone = true then (s, []) else _ : State P S E × List (Req P.M)).1.begun.isSome = true)
    split
    · exact ⟨rfl, id⟩
    · refine ⟨?_, id⟩
      rw [looks_give, Port.mark_trace, looks_snoc _ (by simp)]
  | close =>
    refine ⟨?_, id⟩
    exact looks_close
  | world o => exact ⟨looks_world o, id⟩

/-- Only ticks look. -/
theorem inner_looks {y0 y : Solo (poll D P)} (hi : Solo.Inner y0 y) (ht : y0.tick = none) :
    looks y.st.port.trace = looks y0.st.port.trace ∧ (y0.st.begun.isSome = true → y.st.begun.isSome = true) := by
  induction hi with
  | refl => exact ⟨rfl, id⟩
  | tail h1 h2 h3 ih =>
    have ht1 := h1.tick.trans ht
    cases h2 with
    | input i =>
      rw [Solo.input_st, ← ih.1]
      exact ⟨(input_looks i _ _).1, fun h => (input_looks i _ _).2 (ih.2 h)⟩
    | start t h0 => rw [ht1] at h3; cases h3
    | work s' t pre post w w' res k1 k2 k3 k4 => rw [ht1] at k1; cases k1
    | pass t k1 k2 => rw [ht1] at k1; cases k1
    | finish t k1 k2 k3 => rw [ht1] at k1; cases k1

theorem stamps (D : Sub S O E) (P : Poll O) : Stamps (poll D P) (fun s : State P S E => s.port.trace) := by
  refine ⟨fun b t now s => ?_, fun i now s => ?_⟩
  · show Grew now s.port.trace (giveAll D now (P.read b s.world).2 (if D.isClosed s.port.dest then s.port else _)).1.trace
    refine Grew.trans ?_ (giveAll_grew _ _)
    split
    · exact .refl _ _
    · exact Port.mark_grew _ _ _
  cases i with
  | subscribe =>
    show Grew now s.port.trace (if s.begun.isSome = true then (s, []) else _ : State P S E × List (Req P.M)).1.port.trace
    split <;> exact Grew.refl _ _
  | unsubscribe =>
    show Grew now s.port.trace (if s.begun.isNone = true then (s, []) else _ : State P S E × List (Req P.M)).1.port.trace
    split
    · exact Grew.refl _ _
    · exact (Port.mark_grew _ _ _).trans (Port.give_grew _ _ _ _)
  | close => exact Port.close_grew _ _ _
  | world o => exact Port.mark_grew _ _ _

theorem looks_append {Ω : Type} (τ τ' : Line (Event Ω) O E) : looks (τ ++ τ') = looks τ + looks τ' := by
  unfold looks
  rw [arrivals_append, List.countP_append]

theorem due_prefix {Ω : Type} {found : List (Event Ω) → List O} (a b : List (Event Ω × Nat)) : due found a <+: due found (a ++ b) := by
  unfold due
  rw [due_go_append]
  exact List.prefix_append _ _

theorem allowed_prefix {Ω : Type} {found : List (Event Ω) → List O} {τ : Line (Event Ω) O E}
    (h : Throughout (Allowed D s0 found) τ) : outs τ <+: due found (arrivals τ) := by
  induction τ using Rx.snoc_induction with
  | nil => exact List.prefix_refl _
  | snoc τ m ih =>
    have ih := ih h.prefix
    have hm := h.last
    obtain ⟨m, k⟩ := m
    rw [outs_append, arrivals_append]
    by_cases hv : ∃ v, m = .out (.next v)
    · obtain ⟨v, rfl⟩ := hv
      rw [outs_next, arrivals_of_ne (by intro v h; cases h), List.append_nil]
      exact hm.value v rfl
    · rw [outs_of_ne (fun v h => hv ⟨v, h⟩), List.append_nil]
      exact ih.trans (due_prefix _ _)

theorem due_unlooked {Ω : Type} {found : List (Event Ω) → List O} {τ : Line (Event Ω) O E} (h : looks τ = 0) :
    due found (arrivals τ) = [] := by
  have key : ∀ (past : List (Event Ω)) (es : List (Event Ω × Nat)),
      es.countP (fun e => match e.1 with | .look => true | .world _ => false) = 0 → due.go found past es = [] := by
    intro past es
    induction es generalizing past with
    | nil => intro _; rfl
    | cons x es ih =>
      intro h
      obtain ⟨e, k⟩ := x
      cases e with
      | look => simp at h
      | world o =>
        simp only [List.countP_cons] at h
        exact ih _ (by simpa using h)
  exact key [] _ h

end Rx.Poll
