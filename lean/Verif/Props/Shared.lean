import Verif.Lemmas.Shared
import Verif.Lemmas.SharedThreads

/-!
# C25, C26: the shared subscriber
-/

namespace Rx

open Spec

variable {S I E : Type}

/-! ## C25 -/

/-- C25. Whatever the destination does when called (calling back any number of times, in any order,
depending on its state and on what `is_closed` answers), if no panic happens then all calls, from outside
and from inside, were served one at a time, first-in first-out, up to the first closing one; nothing is
left over; and `is_closed` tells whether there was a closing one. No call nested more than 9 deep was
dropped silently: with one, the program panics. -/
theorem C25_served_in_order (R : ReDest S I E) (hR : Contract R) (s : S)
    (ns : List (SubscriberNotification I E)) (x : S × Deferred I E)
    (h : Shared.run R (Shared.new s) ns = some x) :
    ∃ ended, Served R 9 s false ns x.1 ended ∧ x.2.queue = [] ∧
      Shared.isClosed R x = (ended || R.isClosed x.1) := by
  have h0 : Idle R false (Shared.new (I := I) (E := E) s) := ⟨rfl, fun _ => ⟨rfl, rfl⟩⟩
  obtain ⟨ended, h1, h2, h3⟩ := run_served hR ns h0 h
  refine ⟨ended, h1, h2, ?_⟩
  rw [Shared.isClosed]
  cases hc : R.isClosed x.1 with
  | true => simp
  | false => obtain ⟨h4, h5⟩ := h3 hc; rw [h4, h5]

/-- C25. If calls are nested at most 8 deep, there is no panic. -/
theorem C25_no_panic (R : ReDest S I E) (hR : Contract R) (s : S)
    (ns : List (SubscriberNotification I E)) (s' : S) (ended : Bool) (h : Served R 8 s false ns s' ended) :
    ∃ x, Shared.run R (Shared.new s) ns = some x :=
  served_run hR ns (x := Shared.new s) ⟨rfl, fun _ => ⟨rfl, rfl⟩⟩ h

/-- C25. Serving order is a function of the destination and the calls. -/
theorem C25_order_unique (R : ReDest S I E) (L L' : Nat) (s : S) (p ended s₁ e₁ s₂ e₂)
    (f : Fifo R L s p ended s₁ e₁) (g : Fifo R L' s p ended s₂ e₂) : s₁ = s₂ ∧ e₁ = e₂ :=
  f.unique g

/-- A recording destination that calls back: on 1 it sends 2 and 3, on 2 it sends 4, completes and
sends 5. -/
def echo : ReDest (List (SubscriberNotification Nat Unit) × Bool) Nat Unit where
  push s n :=
    if s.2 then .done s
    else
      let s' := (s.1 ++ [n], n.isClosing)
      match n with
      | .next 1 => .call (.next 2) (.call (.next 3) (.done s'))
      | .next 2 => .call (.next 4) (.isClosed fun b => if b then .done s' else
          .call .complete (.isClosed fun b => if b then .call (.next 5) (.done s') else .done s'))
      | .complete => .call (.next 6) (.done s')
      | _ => .done s'
  isClosed s := s.2

theorem echo_contract : Contract echo where
  inert s n h := by simp only [echo] at h ⊢; rw [if_pos h]
  closes s n h := by
    simp only [echo]
    split
    · rename_i hs; exact hs
    · cases n with
      | next v => cases h
      | _ => exact h

example : (Shared.run echo (Shared.new ([], false)) [.next 0, .next 1, .next 7]).map (·.1) =
    some ([.next 0, .next 1, .next 2, .next 3, .next 4, .complete], true) := by decide +kernel

/-- A destination that calls back on every value. -/
def endless : ReDest Bool Nat Unit where
  push s n := if s then .done s else match n with
    | .next v => .call (.next (v + 1)) (.done s)
    | _ => .done true
  isClosed s := s

example : (Shared.run endless (Shared.new false) [.next 0]).isNone = true := by decide +kernel

/-! ## C26 -/

open Threads

/-- C26. In any interleaving of any number of threads sending values (and asking `is_closed`), once all
calls have returned, the values of each thread have either been delivered or wait in the queue, none is
lost or duplicated, and delivery is in the order in which the thread sent them.
Missing: that they *are* delivered, which is false (`C26_lost_wakeup_counterexample`). -/
theorem C26_none_lost_partial (x : State I) (h : Reachable x) (hi : ∀ t, x.pc t = .idle) (t : Nat) :
    mine t x.delivered ++ mine t x.queue = mine t x.sent := by
  have hv := h.inv
  have hl : x.lock = none := by
    cases e : x.lock with
    | none => rfl
    | some u => have := (hv.holds u).mpr e; rw [hi u] at this; cases this
  have := hv.order t
  rw [hi t, rest_free hl] at this
  simpa [PC.pending] using this

/-- C26. At every moment, what has been delivered of a thread's values is an initial part of what it
sent. -/
theorem C26_order (x : State I) (h : Reachable x) (t : Nat) : mine t x.delivered <+: mine t x.sent := by
  have := h.inv.order t
  rw [← this]
  simp only [mine_append, List.append_assoc]
  exact List.prefix_append _ _

/-- C26. Only one thread at a time is inside the destination. -/
theorem C26_exclusive (x : State I) (h : Reachable x) (t u : Nat) (ht : (x.pc t).holds = true)
    (hu : (x.pc u).holds = true) : t = u := by
  have h1 := (h.inv.holds t).mp ht
  have h2 := (h.inv.holds u).mp hu
  rw [h1] at h2
  exact Option.some.inj h2

/-- C26. What waits is delivered by the next call: from any state in which all calls have returned, a
call by one thread, with the others staying idle, delivers everything that waits and then its value. -/
theorem C26_recovers_partial (x : State I) (h : Reachable x) (hi : ∀ t, x.pc t = .idle) (t : Nat) (v : I)
    (y z : State I) (hc : y = { x with sent := x.sent ++ [(t, v)] }.goto t (.asking v))
    (hr : Busy t y z) (hz : z.pc t = .idle) :
    z.queue = [] ∧ z.delivered = x.delivered ++ x.queue ++ [(t, v)] := by
  have hl : x.lock = none := by
    cases e : x.lock with
    | none => rfl
    | some u => have := (h.inv.holds u).mpr e; rw [hi u] at this; cases this
  subst hc
  rw [hl] at hr
  have := hr.unique (busy_call t v x.pc x.queue x.delivered (x.sent ++ [(t, v)]) (hi t)) hz (goto_pc _ _ _)
  rw [this]
  exact ⟨rfl, rfl⟩

/-- Three threads. -/
def three (a b c : PC Nat) : Nat → PC Nat
  | 0 => a
  | 1 => b
  | 2 => c
  | _ => .idle

theorem three_go0 {a b c l q d s p} (h : Reachable ((⟨three a b c, l, q, d, s⟩ : State Nat).goto 0 p)) :
    Reachable (⟨three p b c, l, q, d, s⟩ : State Nat) := by
  have : (⟨three a b c, l, q, d, s⟩ : State Nat).goto 0 p = ⟨three p b c, l, q, d, s⟩ := by
    simp only [State.goto]
    congr 1
    funext u
    match u with
    | 0 => rfl
    | 1 => rfl
    | 2 => rfl
    | _ + 3 => rfl
  exact this ▸ h

theorem three_go1 {a b c l q d s p} (h : Reachable ((⟨three a b c, l, q, d, s⟩ : State Nat).goto 1 p)) :
    Reachable (⟨three a p c, l, q, d, s⟩ : State Nat) := by
  have : (⟨three a b c, l, q, d, s⟩ : State Nat).goto 1 p = ⟨three a p c, l, q, d, s⟩ := by
    simp only [State.goto]
    congr 1
    funext u
    match u with
    | 0 => rfl
    | 1 => rfl
    | 2 => rfl
    | _ + 3 => rfl
  exact this ▸ h

theorem three_go2 {a b c l q d s p} (h : Reachable ((⟨three a b c, l, q, d, s⟩ : State Nat).goto 2 p)) :
    Reachable (⟨three a b p, l, q, d, s⟩ : State Nat) := by
  have : (⟨three a b c, l, q, d, s⟩ : State Nat).goto 2 p = ⟨three a b p, l, q, d, s⟩ := by
    simp only [State.goto]
    congr 1
    funext u
    match u with
    | 0 => rfl
    | 1 => rfl
    | 2 => rfl
    | _ + 3 => rfl
  exact this ▸ h

/-- C26 fails: three threads send one value each; all calls return, but the value of thread 2 was not
delivered. (Thread 1, applying deferred values for others, found the queue empty and was about to release
the lock when thread 2 failed to get it twice.) -/
theorem C26_lost_wakeup_counterexample : ∃ x : State Nat, Reachable x ∧ (∀ t, x.pc t = .idle) ∧
    mine 2 x.sent = [12] ∧ mine 2 x.delivered = [] := by
  have r : Reachable (⟨three .idle .idle .idle, none, [], [], []⟩ : State Nat) := by
    have : (Threads.init : State Nat) = ⟨three .idle .idle .idle, none, [], [], []⟩ := by
      simp only [Threads.init]
      congr 1
      funext u
      match u with
      | 0 => rfl
      | 1 => rfl
      | 2 => rfl
      | _ + 3 => rfl
    exact this ▸ Reachable.init
  -- thread 0 gets the lock and passes on its value
  have r := three_go0 (r.step (.call _ 0 10 rfl))
  have r := three_go0 (r.step (.ask _ 0 10 rfl rfl))
  have r := three_go0 (r.step (.asked _ 0 10 rfl))
  have r := three_go0 (r.step (.lock _ 0 10 rfl rfl))
  have r := three_go0 (r.step (.ownEmpty _ 0 10 rfl rfl))
  have r := three_go0 (r.step (.give _ 0 10 rfl))
  -- thread 1 defers
  have r := three_go1 (r.step (.call _ 1 11 rfl))
  have r := three_go1 (r.step (.askFails _ 1 11 rfl (by simp)))
  have r := three_go1 (r.step (.lockFails _ 1 11 rfl (by simp)))
  have r := three_go1 (r.step (.defer _ 1 11 rfl))
  have r := three_go1 (r.step (.dirty _ 1 rfl (by simp)))
  -- thread 0 releases, and sees that there is work
  have r := three_go0 (r.step (.unlock1 _ 0 rfl))
  have r := three_go0 (r.step (.dirty _ 0 rfl (by simp)))
  -- thread 1 gets the lock first and empties the queue
  have r := three_go1 (r.step (.apply _ 1 rfl rfl))
  have r := three_go1 (r.step (.applyDrain _ 1 rfl (by simp)))
  have r := three_go1 (r.step (.applyDeliver _ 1 (1, 11) [] rfl))
  have r := three_go1 (r.step (.applyDelivered _ 1 rfl))
  have r := three_go1 (r.step (.applyEmpty _ 1 rfl rfl))
  have r := three_go0 (r.step (.applyFails _ 0 rfl (by simp)))
  -- thread 2 comes too late for thread 1 to notice, and too early to get the lock
  have r := three_go2 (r.step (.call _ 2 12 rfl))
  have r := three_go2 (r.step (.askFails _ 2 12 rfl (by simp)))
  have r := three_go2 (r.step (.lockFails _ 2 12 rfl (by simp)))
  have r := three_go2 (r.step (.defer _ 2 12 rfl))
  have r := three_go2 (r.step (.dirty _ 2 rfl (by simp)))
  have r := three_go2 (r.step (.applyFails _ 2 rfl (by simp)))
  have r := three_go1 (r.step (.unlock2 _ 1 rfl))
  refine ⟨_, r, ?_, rfl, rfl⟩
  intro t
  match t with
  | 0 => rfl
  | 1 => rfl
  | 2 => rfl
  | _ + 3 => rfl

end Rx
