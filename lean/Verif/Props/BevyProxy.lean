import Verif.Lemmas.BevyProxyOnce
import Verif.Props.SharedClosing

/-!
# C81: subscriptions that live on entities, made through the API of observables
-/

namespace Rx.Proxy

open Rx.Closing (Dest)
open Rx.Events (takes)

variable {D : Dest S I E} {K : Kind} {s : S}

/-- C81: whatever happens to the entities, the commands and the works, the destination hears exactly what there is to hear, in order, until
it is closed: what the observable has for its subscribers while it is subscribed to, and that it is unsubscribed when that
subscription is closed, when the handle is unsubscribed, or when there is no such observable. -/
theorem C81_heard (hD : D.Contract) (t : Target I E) (l : List (Op I E)) :
    let w := (World.start D K t s).run D K l
    given w.trace = (takes D s (offers w.trace)).1 ∧ w.dest = (takes D s (offers w.trace)).2 := by
  intro w
  have h := (run_heard (K := K) (s := s) hD t l).hears.symm
  exact ⟨congrArg Prod.fst h, congrArg Prod.snd h⟩

/-- C81: the observable is subscribed to at most once, whatever is retried. -/
theorem C81_once (t : Target I E) (l : List (Op I E)) : joins ((World.start D K t s).run D K l).trace ≤ 1 := by
  have h := Nat.le_trans (tickets_run (D := D) (K := K) (World.start D K t s) l) (tickets_start (D := D) (K := K) (s := s) t)
  exact Nat.le_trans (Nat.le_add_left _ _) h

/-- C81: a `ProxyObservable` whose observable is there subscribes to it with the first tick, if it is still open, and its subscription is kept on
an entity. -/
theorem C81_subscribes (t u : Target I E) (l : List (Op I E)) (h : .drain ∉ l) :
    let w0 := (World.start D .proxy t s).run D .proxy l
    let w := (World.start D .proxy t s).run D .proxy (l ++ [.drain, .work, .flush])
    w0.target = some u → D.isClosed w0.dest = false →
      joins w.trace = 1 ∧ (u.stays = true → w.ent = .attached ∧ w.source = .open) ∧
        (u.stays = false → ¬ w.ent.alive ∧ w.source = .closed) := by
  intro w0 w ht ho
  have x : Queued D w0 := (start_queued t).run l h
  have e : w = w0.run D .proxy [.drain, .work, .flush] := by simp only [w, w0, World.run, List.foldl_append]
  have hq : w0.queue = [.add] := by rw [x.queue, ho]; rfl
  have e' : w = World.connect D .proxy maxRetries { w0 with queue := [.addInvoked], ent := .unfinished } := by
    rw [e]
    simp [World.run, World.step, hq, World.act, x.active, x.cmds, World.apply]
  rw [e']
  unfold World.connect
  simp only [ht]
  cases hs : u.stays
  · refine ⟨by simp [x.joins], by simp, fun _ => ⟨despawn_dead _, by simp [despawn_source, close_source]⟩⟩
  · simp [x.joins]

/-- C81: a `ProxyObservable` whose handle is unsubscribed before the executor is ticked never subscribes to the observable, and
never spawns an entity. -/
theorem C81_cancelled (hD : D.Contract) (t : Target I E) (l l' : List (Op I E)) (h : .drain ∉ l) :
    let w := (World.start D .proxy t s).run D .proxy (l ++ .unsubscribe :: l')
    joins w.trace = 0 ∧ w.ent = .none := by
  intro w
  have h1 : Queued D ((World.start D .proxy t s).run D .proxy (l ++ [.unsubscribe])) :=
    (start_queued t).run _ (by simp [h])
  have h2 : D.isClosed ((World.start D .proxy t s).run D .proxy (l ++ [.unsubscribe])).dest = true := by
    rw [World.run, List.foldl_append]
    simp only [List.foldl_cons, List.foldl_nil, World.step, World.give]
    split
    · assumption
    · exact hD.closes _ .unsubscribe rfl
  have h3 := (h1.off h2).run l'
  have e : w = ((World.start D .proxy t s).run D .proxy (l ++ [.unsubscribe])).run D .proxy l' := by
    simp [w, World.run, List.foldl_append]
  rw [e]
  exact ⟨h3.joins, h3.ent⟩

/-- C81: once the handle is closed, by whomever, the next tick of the executor despawns the entity and releases the subscription, also if
it is closed before there is either, and nothing comes back. The full statement has no `Timely`, and is false, see `C81_left_counterexample`. -/
theorem C81_released_partial (t : Target I E) (l l' : List (Op I E)) (h : Timely K l)
    (hc : ((World.start D K t s).run D K l).isClosed D K = true) :
    ((World.start D K t s).run D K (l ++ [.drain, .reap, .flush])).Idle ∧
    ((World.start D K t s).run D K (l ++ [.drain, .reap, .flush] ++ l')).Over := by
  obtain ⟨h1, h2⟩ := (timely_inv t h).ends hc
  simp only [World.run, List.foldl_append] at h1 h2 ⊢
  refine ⟨h2, ?_⟩
  exact (h1.run (by rw [h2.cmds]; simp) l').over

/-- C81: once the subscription of the observable is closed, the entity does not outlive the frame. The full statement has no `Timely`, and is
false, see `C81_left_counterexample`. -/
theorem C81_last_partial (t : Target I E) (l : List (Op I E)) (h : Timely K l)
    (hc : ((World.start D K t s).run D K l).source = .closed) :
    ¬ ((World.start D K t s).run D K (l ++ [.last])).ent.alive := by
  have := (timely_inv t h).last hc
  simpa only [World.run, List.foldl_append, List.foldl_cons, List.foldl_nil] using this

/-- C81: the entity of a subscription made with `with_commands` that is unsubscribed, and whose despawn works are run before the commands of the
system that subscribed are applied, is left behind: it is there until somebody else despawns it, whatever else happens. -/
theorem C81_left_counterexample (D : Dest S I E) (s : S) : ∃ l : List (Op I E), .unsubscribe ∈ l ∧
    ∀ l', .kill ∉ l' → ((World.start D .direct {} s).run D .direct (l ++ l')).isClosed D .direct = true ∧
      ((World.start D .direct {} s).run D .direct (l ++ l')).ent.alive := by
  refine ⟨[.unsubscribe, .drain, .reap, .flush, .last, .flushMine], by simp, fun l' h => ?_⟩
  have x := (stuck_start D s).run (D := D) l' h
  rw [show (World.start D .direct {} s).run D .direct ([.unsubscribe, .drain, .reap, .flush, .last, .flushMine] ++ l') =
    ((World.start D .direct {} s).run D .direct [.unsubscribe, .drain, .reap, .flush, .last, .flushMine]).run D .direct l' from by
      simp only [World.run, List.foldl_append]]
  refine ⟨by simp [World.isClosed, x.source], ?_⟩
  rcases x.ent with e | e <;> rw [e] <;> trivial

/-! ### Examples -/

abbrev recorder := Rx.recorder

/-- A proxy whose observable is there. -/
def proxied : List (Op Nat Unit) :=
  [.target (some { sync := [.next 1] }), .drain, .work, .reap, .flush, .clean, .retry, .emit (.next 2), .drain, .reap, .flush, .emit (.next 3)]

/-- It hears what the observable has for it, is subscribed to once, and its entity is there. -/
example :
    let w := (World.start recorder .proxy {} ([], false)).run recorder .proxy proxied
    given w.trace = [.next 1, .next 2, .next 3] ∧ joins w.trace = 1 ∧ w.ent = .attached ∧ w.source = .open ∧ w.faults = 0 := by
  decide +kernel

/-- Unsubscribed, it meets the hypotheses of `C81_released_partial`: before, the entity and the subscription are there. -/
example :
    let w := (World.start recorder .proxy {} ([], false)).run recorder .proxy (proxied ++ [.unsubscribe])
    w.isClosed recorder .proxy = true ∧ w.ent = .attached ∧ w.source = .open ∧
      given w.trace = [.next 1, .next 2, .next 3, .unsubscribe] ∧ Timely .proxy (proxied ++ [.unsubscribe]) :=
  ⟨by decide +kernel, by decide +kernel, by decide +kernel, by decide +kernel, .inl rfl⟩

/-- One that closes while it is subscribed to, made with entity commands: the entity is despawned at once. -/
example :
    let l : List (Op Nat Unit) := [.target (some { sync := [.next 1, .complete], stays := false }), .flushMine]
    let w := (World.start recorder .command {} ([], false)).run recorder .command l
    Timely .command l ∧ w.isClosed recorder .command = true ∧ w.ent = .gone ∧ given w.trace = [.next 1, .complete] ∧
      w.queue = [.addInvoked, .invoke] :=
  ⟨.inr ⟨[.target (some { sync := [.next 1, .complete], stays := false })], [], rfl, by simp⟩, by decide +kernel, by decide +kernel,
    by decide +kernel, by decide +kernel⟩

/-- One made with `with_commands` whose subscription is closed by the observable. -/
example :
    let l : List (Op Nat Unit) := [.emit (.next 1), .flushMine, .emit .complete, .close]
    let w := (World.start recorder .direct {} ([], false)).run recorder .direct l
    Timely .direct l ∧ w.source = .closed ∧ w.ent = .attached ∧ given w.trace = [.next 1, .complete] :=
  ⟨.inr ⟨[.emit (.next 1)], [.emit .complete, .close], rfl, by simp⟩, by decide +kernel, by decide +kernel, by decide +kernel⟩

/-- One that is unsubscribed before the tick. -/
example : .drain ∉ ([.target (some {}), .emit (.next 1)] : List (Op Nat Unit)) := by simp

/-- C81: the documentation of `ProxyObservable` says that the observable may be added to its entity later. If it is there
one frame later, it is found, subscribed to, and given up at once: the entity of the subscription, unfinished, was despawned at the end of the
frame. The destination is unsubscribed. -/
theorem C81_late_counterexample :
    let l : List (Op Nat Unit) := [.drain, .work, .reap, .flush, .clean, .target (some { sync := [.next 1] }), .retry, .emit (.next 2)]
    let w := (World.start recorder .proxy {} ([], false)).run recorder .proxy l
    joins w.trace = 1 ∧ given w.trace = [.next 1, .unsubscribe] ∧ w.source = .closed ∧ w.faults = 1 := by
  decide +kernel

end Rx.Proxy
