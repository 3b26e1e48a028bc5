import Verif.Lemmas.BevyFound
import Verif.Props.IntervalTimer

/-!
# C62, C63, C64: ResourceObservable, KeyboardObservable, MessageObservable

`R` is the rest of the program, with its own works on the executor, before and after the ones of the source in a tick, or
scheduled by whatever happens downstream. It changes the world whenever it wants.
-/

namespace Rx.Poll.Props
open Rx.Sched Rx.Timed Rx.Timed.Props
open Rx.HigherOrder (Closes)

section Any
variable {S O E : Type} {D : Sub S O E} {s : S} {P : Poll O} {R : Rest (poll D P)} {x : R.Ctx} {fuel t : Nat} {ops : List R.Op}
  {e e0 : Exec R.env}

theorem follows (hD : Closes D) (hP : P.done false false = false)
    (h : R.run (R.start { port := { dest := s } } x fuel) ops = .ok e) : Follows D s P.found e.world.ctx.1.port := by
  obtain ⟨y, h1, h2, h3, h4⟩ := solo_of_run h
  rw [← h3]
  have hh := holds hD hP h1
  have hs := safe hh
  exact ⟨hs.all, hs.right.fed, allowed_prefix hs.all, settled hh⟩

theorem tick_looks (hD : Closes D) (hP : P.done false false = false)
    (h0 : R.run (R.start { port := { dest := s } } x fuel) ops = .ok e0) (hb : e0.world.ctx.1.begun.isSome = true)
    (h : e0.tickTo t = .ok e) (ho : D.isClosed e.world.ctx.1.port.dest = false) :
    ∃ new, e.world.ctx.1.port.trace = e0.world.ctx.1.port.trace ++ new ∧ looks new = 1 ∧
      ∀ m ∈ new, m.2 = e.world.sched.currentTick := by
  obtain ⟨g1, new, g2, g3⟩ := (stamps D P).tickTo h0 h
  refine ⟨new, g2, ?_, g3⟩
  obtain ⟨y0, y, k1, k2, k3, k4, k5, k6, k7, k8, k9, k10⟩ := solo_of_tick h0 h
  rw [← k3] at hb
  rw [← k9] at ho
  have := (Poll.tick hD hP k1 k2 k5 k7 k8 hb ho).1
  have g2' : y.st.port.trace = y0.st.port.trace ++ new := by rw [k9, k3]; exact g2
  rw [g2', looks_append] at this
  omega

theorem act_looks {a : Act (poll D P) R.B} (h0 : R.run (R.start { port := { dest := s } } x fuel) ops = .ok e0) :
    ∃ new, (R.act a e0.world).ctx.1.port.trace = e0.world.ctx.1.port.trace ++ new ∧ looks new = 0 := by
  obtain ⟨y0, y, k1, k2, k3, k4, k5, k6, k7, k8⟩ := solo_of_act (a := a) h0
  obtain ⟨_, new, g2, g3⟩ := (stamps D P).inner k5 (by rw [k2]; intro t ht; cases ht)
  refine ⟨new, by rw [← k6, ← k3]; exact g2, ?_⟩
  have := (inner_looks k5 k2).1
  have g2' : y.st.port.trace = y0.st.port.trace ++ new := g2
  rw [g2', looks_append] at this
  omega

theorem nothing_before (hD : Closes D) (hP : P.done false false = false)
    (h : R.run (R.start { port := { dest := s } } x fuel) ops = .ok e) (hb : e.world.ctx.1.begun = none) :
    looks e.world.ctx.1.port.trace = 0 ∧ outs e.world.ctx.1.port.trace = [] := by
  have hf := (follows hD hP h).only
  obtain ⟨y, h1, h2, h3, h4⟩ := solo_of_run h
  rw [← h3] at hb hf ⊢
  have hl := unbegun (holds hD hP h1) hb
  rw [due_unlooked hl] at hf
  exact ⟨hl, List.prefix_nil.1 hf⟩

end Any

/-! ### C62: a resource -/

section Resource
variable {S O E V : Type} {D : Sub S O E} {s : S} {opt : Resource.Options} {reader : V → O}
  {R : Rest (poll D (resource opt reader))} {x : R.Ctx} {fuel t : Nat} {ops : List R.Op} {e e0 : Exec R.env}

/-- C62. In every history, the destination is given, at each look, the value of the resource, if it was added since the last
look, or was there and was written since the last run of the executor (as far as the options ask for it); and nothing else,
until it is closed. -/
theorem C62_follows (hD : Closes D) (h : R.run (R.start { port := { dest := s } } x fuel) ops = .ok e) :
    Follows D s (Resource.found opt reader) e.world.ctx.1.port := by
  have := follows hD rfl h
  rwa [show (resource opt reader).found = _ from funext Resource.found_eq] at this

/-- C62. Every tick after the subscription looks once, at the time of the tick, ... -/
theorem C62_tick (hD : Closes D) (h0 : R.run (R.start { port := { dest := s } } x fuel) ops = .ok e0)
    (hb : e0.world.ctx.1.begun.isSome = true) (h : e0.tickTo t = .ok e) (ho : D.isClosed e.world.ctx.1.port.dest = false) :
    ∃ new, e.world.ctx.1.port.trace = e0.world.ctx.1.port.trace ++ new ∧ looks new = 1 ∧
      ∀ m ∈ new, m.2 = e.world.sched.currentTick := tick_looks hD rfl h0 hb h ho

/-- ... between ticks it does not look, ... -/
theorem C62_between {a : Act (poll D (resource opt reader)) R.B}
    (h0 : R.run (R.start { port := { dest := s } } x fuel) ops = .ok e0) :
    ∃ new, (R.act a e0.world).ctx.1.port.trace = e0.world.ctx.1.port.trace ++ new ∧ looks new = 0 := act_looks h0

/-- ... and not before it is subscribed. -/
theorem C62_before (hD : Closes D) (h : R.run (R.start { port := { dest := s } } x fuel) ops = .ok e)
    (hb : e.world.ctx.1.begun = none) : looks e.world.ctx.1.port.trace = 0 ∧ outs e.world.ctx.1.port.trace = [] :=
  nothing_before hD rfl h hb

/-- C62, with both options: a value written between two ticks (and not removed or overwritten before the look) is given in
the next tick, once. -/
theorem C62_write_partial (hD : Closes D) (h1 : opt.added = true) (h2 : opt.changed = true)
    (h0 : R.run (R.start { port := { dest := s } } x fuel) ops = .ok e0) (hb : e0.world.ctx.1.begun.isSome = true)
    (v : V) (hv : ∃ past k, e0.world.ctx.1.port.trace = past ++ [(.arrived (.next (.world (.write v))), k)])
    (h : e0.tickTo t = .ok e) (ho : D.isClosed e.world.ctx.1.port.dest = false)
    (hw : ∀ o k, (.arrived (.next (.world o)), k) ∉ e.world.ctx.1.port.trace.drop e0.world.ctx.1.port.trace.length) :
    outs e.world.ctx.1.port.trace = outs e0.world.ctx.1.port.trace ++ [(reader v, e.world.sched.currentTick)] := by
  obtain ⟨new, n1, n2, n3⟩ := C62_tick hD h0 hb h ho
  have f := (C62_follows hD (ops := ops ++ [.tickTo t]) (by rw [Rest.run_snoc, h0]; exact h)).all ho
  obtain ⟨past, k, hv⟩ := hv
  have ho0 : D.isClosed e0.world.ctx.1.port.dest = false := by
    cases hc : D.isClosed e0.world.ctx.1.port.dest with
    | false => rfl
    | true =>
      have f0 := (C62_follows hD h0).fed
      have fa := C62_follows hD (ops := ops ++ [.tickTo t]) (by rw [Rest.run_snoc, h0]; exact h)
      have fd := fa.fed
      have fa := fa.allowed
      rw [n1] at fa fd
      have hcl := closed_end (D := D) (s := s) (fa.imp (fun _ _ h => h.orderly)) (by rw [← f0]; exact hc)
      have : ∀ (r : Line (Event (Resource.Op V)) O E), (∀ m ∈ r, ∃ n, m.1 = .arrived n) →
          fed D s (e0.world.ctx.1.port.trace ++ r) = fed D s e0.world.ctx.1.port.trace := by
        intro r
        induction r using Rx.snoc_induction with
        | nil => simp
        | snoc r m ih =>
          intro hr
          obtain ⟨n, hn⟩ := hr m (by simp)
          obtain ⟨m, k⟩ := m
          simp only at hn
          subst hn
          rw [← List.append_assoc, fed_arrived, ih (fun m hm => hr m (List.mem_append_left _ hm))]
      rw [fd, this new hcl, ← f0, hc] at ho
      cases ho
  have f0 := (C62_follows hD h0).all ho0
  have harr : arrivals new = [(.look, e.world.sched.currentTick)] := by
    rw [n1, List.drop_left] at hw
    have hall : ∀ p ∈ arrivals new, p = (.look, e.world.sched.currentTick) := by
      rintro ⟨ev, k⟩ hp
      simp only [arrivals, List.mem_filterMap] at hp
      obtain ⟨m, hm, hp⟩ := hp
      have hk := n3 m hm
      split at hp
      · cases hp
        cases ev with
        | look => simp only at hk; rw [hk]
        | world o => exact absurd hm (hw _ _)
      · cases hp
    unfold looks at n2
    generalize arrivals new = l at hall n2
    cases l with
    | nil => cases n2
    | cons p l =>
      have hp := hall p (by simp)
      subst hp
      cases l with
      | nil => rfl
      | cons q l =>
        have hq := hall q (by simp)
        subst hq
        simp at n2
  rw [f, n1, arrivals_append, harr, due_look, ← f0]
  congr 1
  have hes : (arrivals e0.world.ctx.1.port.trace).map (·.1) = (arrivals past).map (·.1) ++ [.world (.write v)] := by
    rw [hv, arrivals_append, arrivals_next, List.map_append]; rfl
  rw [hes]
  unfold Resource.found
  rw [Resource.current_snoc, if_pos]
  · rfl
  · by_cases hw : Resource.WasThere ((arrivals past).map (·.1) ++ [.world (.write v)])
    · exact .inr ⟨h2, hw, _, v, [], rfl, by simp⟩
    · exact .inl ⟨h1, hw⟩

/-- The full claim of C62 includes values that are written in a tick, after the look. But if the resource was there, they are
never given: when the tick is over, the write counts as seen. -/
theorem C62_late_write_missed (es : List (Event (Resource.Op V))) (v : V) (hc : (Resource.current es).isSome = true) :
    Resource.current (es ++ [.look, .world (.write v), .world .ran]) = some v ∧
    Resource.found opt reader (es ++ [.look, .world (.write v), .world .ran]) = [] := by
  have e1 : es ++ [.look, .world (.write v), .world .ran] = es ++ [.look] ++ [.world (.write v)] ++ [.world .ran] := by simp
  have hw : ¬ Resource.Shows opt (es ++ [.look, .world (.write v), .world .ran]) := by
    rw [e1]
    rintro (⟨_, h⟩ | ⟨_, _, h⟩)
    · rw [Resource.wasThere_world, Resource.wasThere_world, Resource.wasThere_look] at h
      exact h hc
    · rw [Resource.written_snoc] at h
      rcases h with ⟨_, h⟩ | ⟨h, _⟩
      · cases h
      · exact h rfl
  unfold Resource.found
  rw [if_neg hw]
  refine ⟨?_, rfl⟩
  rw [e1, Resource.current_snoc, Resource.current_snoc]

/-- Neither is a resource that is removed and inserted again between two looks, if only additions are asked for. -/
theorem C62_readded_missed (h2 : opt.changed = false) (es : List (Event (Resource.Op V))) (v : V)
    (hc : (Resource.current es).isSome = true) :
    Resource.found opt reader (es ++ [.look, .world .ran, .world .remove, .world (.write v)]) = [] := by
  have e1 : es ++ [.look, .world .ran, .world .remove, .world (.write v)] =
      es ++ [.look] ++ [.world .ran] ++ [.world .remove] ++ [.world (.write v)] := by simp
  unfold Resource.found
  rw [if_neg]
  rintro (⟨_, h⟩ | ⟨h, _⟩)
  · rw [e1, Resource.wasThere_world, Resource.wasThere_world, Resource.wasThere_world, Resource.wasThere_look] at h
    exact h hc
  · rw [h2] at h; cases h

end Resource

/-! ### C63: the keyboard -/

section Keyboard
variable {S E K : Type} [DecidableEq K] {D : Sub S K E} {s : S} {emit : Keyboard.Emit}
  {R : Rest (poll D (keyboard (K := K) emit))} {x : R.Ctx} {fuel t : Nat} {ops : List R.Op} {e e0 : Exec R.env}

/-- C63. In every history, the destination is given, at each look, every key that was pressed (or released) since the input was
last cleared, or is down, and each of them once; and nothing else, until it is closed. -/
theorem C63_follows (hD : Closes D) (h : R.run (R.start { port := { dest := s } } x fuel) ops = .ok e) :
    ∃ found, (∀ es, (found es).Nodup ∧ ∀ k, k ∈ found es ↔ Keyboard.Wanted k es emit) ∧
      Follows D s found e.world.ctx.1.port :=
  ⟨_, Keyboard.found_spec emit, follows hD rfl h⟩

/-- C63. Every tick after the subscription looks once, at the time of the tick, ... -/
theorem C63_tick (hD : Closes D) (h0 : R.run (R.start { port := { dest := s } } x fuel) ops = .ok e0)
    (hb : e0.world.ctx.1.begun.isSome = true) (h : e0.tickTo t = .ok e) (ho : D.isClosed e.world.ctx.1.port.dest = false) :
    ∃ new, e.world.ctx.1.port.trace = e0.world.ctx.1.port.trace ++ new ∧ looks new = 1 ∧
      ∀ m ∈ new, m.2 = e.world.sched.currentTick := tick_looks hD rfl h0 hb h ho

/-- ... between ticks it does not look, ... -/
theorem C63_between {a : Act (poll D (keyboard (K := K) emit)) R.B}
    (h0 : R.run (R.start { port := { dest := s } } x fuel) ops = .ok e0) :
    ∃ new, (R.act a e0.world).ctx.1.port.trace = e0.world.ctx.1.port.trace ++ new ∧ looks new = 0 := act_looks h0

/-- ... and not before it is subscribed. -/
theorem C63_before (hD : Closes D) (h : R.run (R.start { port := { dest := s } } x fuel) ops = .ok e)
    (hb : e.world.ctx.1.begun = none) : looks e.world.ctx.1.port.trace = 0 ∧ outs e.world.ctx.1.port.trace = [] :=
  nothing_before hD rfl h hb

end Keyboard

/-! ### C64: messages -/

section Message
variable {S E M : Type} {D : Sub S M E} {s : S}
  {R : Rest (poll D (message M))} {x : R.Ctx} {fuel t : Nat} {ops : List R.Op} {e e0 : Exec R.env}

/-- C64. In every history, the destination is given, at each look, the messages written since the last look, unless they were
thrown away by a clear or two updates since, in order; and nothing else, until it is closed. -/
theorem C64_follows (hD : Closes D) (h : R.run (R.start { port := { dest := s } } x fuel) ops = .ok e) :
    Follows D s Message.found e.world.ctx.1.port := by
  have := follows hD rfl h
  rwa [show (message M).found = _ from funext Message.found_eq] at this

/-- C64. No message is given twice, or out of order. -/
theorem C64_once (hD : Closes D) (h : R.run (R.start { port := { dest := s } } x fuel) ops = .ok e) :
    ((outs e.world.ctx.1.port.trace).map (·.1)).Sublist (Message.written ((arrivals e.world.ctx.1.port.trace).map (·.1))) :=
  ((C64_follows hD h).only.map _).sublist.trans ((List.sublist_append_left _ _).trans (Message.due_sublist _))

/-- C64. If there is at most one update, and no clear, between two looks, then all messages written before the last look were
given, those before the subscription included: only those written since are missing. -/
theorem C64_all (hD : Closes D) (h : R.run (R.start { port := { dest := s } } x fuel) ops = .ok e)
    (ho : D.isClosed e.world.ctx.1.port.dest = false)
    (hp : Message.Prompt ((arrivals e.world.ctx.1.port.trace).map (·.1))) :
    (outs e.world.ctx.1.port.trace).map (·.1) ++ Message.found ((arrivals e.world.ctx.1.port.trace).map (·.1)) =
      Message.written ((arrivals e.world.ctx.1.port.trace).map (·.1)) := by
  rw [(C64_follows hD h).all ho]
  exact Message.due_prompt _ hp

/-- C64. After a look, none is missing. -/
theorem C64_none_left (es : List (Event (Message.Op M))) : Message.found (es ++ [.look]) = [] := by
  rw [Message.found_eq_one]
  exact Message.foundN_stop (.inl rfl) es

/-- C64. Two updates without a look lose what was written before. -/
theorem C64_lost (es : List (Event (Message.Op M))) : Message.found (es ++ [.world .update, .world .update]) = [] := by
  rw [Message.found_eq_one, show es ++ [.world .update, .world .update] = es ++ [.world .update] ++ [.world .update] by simp,
    Message.foundN_update]
  exact Message.foundN_stop (.inr (.inr ⟨rfl, rfl⟩)) es

/-- C64. Every tick after the subscription looks once, at the time of the tick, ... -/
theorem C64_tick (hD : Closes D) (h0 : R.run (R.start { port := { dest := s } } x fuel) ops = .ok e0)
    (hb : e0.world.ctx.1.begun.isSome = true) (h : e0.tickTo t = .ok e) (ho : D.isClosed e.world.ctx.1.port.dest = false) :
    ∃ new, e.world.ctx.1.port.trace = e0.world.ctx.1.port.trace ++ new ∧ looks new = 1 ∧
      ∀ m ∈ new, m.2 = e.world.sched.currentTick := tick_looks hD rfl h0 hb h ho

/-- ... between ticks it does not look, ... -/
theorem C64_between {a : Act (poll D (message M)) R.B}
    (h0 : R.run (R.start { port := { dest := s } } x fuel) ops = .ok e0) :
    ∃ new, (R.act a e0.world).ctx.1.port.trace = e0.world.ctx.1.port.trace ++ new ∧ looks new = 0 := act_looks h0

/-- ... and not before it is subscribed. -/
theorem C64_before (hD : Closes D) (h : R.run (R.start { port := { dest := s } } x fuel) ops = .ok e)
    (hb : e.world.ctx.1.begun = none) : looks e.world.ctx.1.port.trace = 0 ∧ outs e.world.ctx.1.port.trace = [] :=
  nothing_before hD rfl h hb

end Message

/-! ### Concrete cases -/

/-- A resource: written before the subscription, written and not written between ticks, removed, inserted again; then
unsubscribed. -/
example : (after (c := poll obs (resource {} (fun v : Nat => v))) { port := { dest := .new } }
    [.act (.input (.world (.write 1))), .act (.input .subscribe), .tickTo 1, .act (.input (.world .ran)),
     .act (.input (.world (.write 2))), .tickTo 2, .act (.input (.world .ran)), .tickTo 3, .act (.input (.world .ran)),
     .act (.input (.world .remove)), .tickTo 4, .act (.input (.world .ran)), .act (.input (.world (.write 3))), .tickTo 5,
     .act (.input .unsubscribe), .act (.input (.world (.write 4))), .tickTo 6]).map (fun s => outs s.port.trace) =
      some [(1, 1), (2, 2), (3, 5)] := by
  decide +kernel

/-- A write after the look of a tick is missed. -/
example : (after (c := poll obs (resource {} (fun v : Nat => v))) { port := { dest := .new } }
    [.act (.input (.world (.write 1))), .act (.input .subscribe), .tickTo 1, .act (.input (.world (.write 2))),
     .act (.input (.world .ran)), .tickTo 2, .act (.input (.world .ran)), .tickTo 3]).map
      (fun s => (outs s.port.trace, s.world.value)) = some ([(1, 1)], some 2) := by
  decide +kernel

/-- Keys. -/
example : (after (c := poll obs (keyboard (K := Nat) .justPressed)) { port := { dest := .new } }
    [.act (.input .subscribe), .act (.input (.world (.press 7))), .act (.input (.world (.press 8))),
     .act (.input (.world (.press 7))), .tickTo 1, .act (.input (.world .clear)), .act (.input (.world (.press 7))), .tickTo 2,
     .act (.input (.world .clear)), .act (.input (.world (.release 7))), .act (.input (.world (.press 7))), .tickTo 3]).map
      (fun s => outs s.port.trace) = some [(7, 1), (8, 1), (7, 3)] := by
  decide +kernel

/-- Messages: those before the subscription too, and none twice; but what was updated twice is lost. -/
example : (after (c := poll obs (message Nat)) { port := { dest := .new } }
    [.act (.input (.world (.write 1))), .act (.input (.world .update)), .act (.input .subscribe),
     .act (.input (.world (.write 2))), .tickTo 1, .act (.input (.world .update)), .tickTo 2, .act (.input (.world (.write 3))),
     .act (.input (.world .update)), .act (.input (.world .update)), .act (.input (.world (.write 4))), .tickTo 3]).map
      (fun s => outs s.port.trace) = some [(1, 1), (2, 1), (4, 3)] := by
  decide +kernel

set_option synthInstance.maxSize 1024 in
set_option synthInstance.maxHeartbeats 200000 in
/-- The hypothesis of `C64_all` holds of a history with one update per look. -/
example : Message.Prompt ([.world (.write 1), .world .update, .look, .world .update, .world (.write 2)] :
    List (Event (Message.Op Nat))) := by
  intro a b c h
  have hb : b = (List.drop a.length [.world (.write 1), .world .update, .look, .world .update, .world (.write 2)]).take b.length := by
    rw [h]; simp
  have hl := congrArg List.length h
  simp only [List.length_append, List.length_cons, List.length_nil] at hl
  have hi : a.length < 6 := by omega
  have hj : b.length < 6 := by omega
  rw [hb]
  generalize a.length = i at hi
  generalize b.length = j at hj
  revert i j
  decide +kernel

end Rx.Poll.Props
