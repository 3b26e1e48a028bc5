/-!
# `SharedSubscriber` used by several threads

Models `next` and `is_closed` of `crates/rx_core_common/src/subscribers/subscriber_shared.rs` at lock
granularity: a step is what one thread does between two operations on the two mutexes. The mutex of the
deferred state is only held within a step; the mutex of the destination is `lock`.

Simplifications: only values are sent (no closing notification, so all `closed` flags stay unset and the
checks of them are left out); the destination records what it is given and does not call back; the panic
after ten rounds of `apply_notification_queue` is left out (the loop may go on).
-/

namespace Rx.Threads

/-- Where a thread is. Line numbers are of subscriber_shared.rs. -/
inductive PC (I : Type) where
  | idle
  /-- `next` (325-335): about to `try_lock` in `is_closed` (368-375) -/
  | asking (v : I)
  /-- inside `is_closed`, holding the lock -/
  | askHeld (v : I)
  /-- about to `try_lock` in `try_next` (251) -/
  | attempt (v : I)
  /-- `try_next`, at the top of the loop of `apply_notification_queue` (209), holding the lock -/
  | own (v : I)
  /-- `try_next`, applying drained notifications (231-242), holding the lock -/
  | ownDeliver (rest : List (Nat × I)) (v : I)
  /-- `try_next`, about to pass on its own value (255), holding the lock -/
  | give (v : I)
  /-- `try_next`, about to release the lock (257) -/
  | unlock1
  /-- about to defer the value (329-331) -/
  | deferring (v : I)
  /-- `try_apply_deferred` (193), about to look at the queue -/
  | recheck
  /-- `try_apply_deferred` (194), about to `try_lock` -/
  | apply
  /-- `try_apply_deferred`, at the top of the loop, holding the lock -/
  | applying
  /-- `try_apply_deferred`, applying drained notifications, holding the lock -/
  | applyDeliver (rest : List (Nat × I))
  /-- `try_apply_deferred`, after the loop, about to release the lock (200) -/
  | unlock2
  /-- `is_closed` called on its own, holding the lock (371-374) -/
  | queryHeld

/-- All threads, the lock of the destination, the deferred queue, what the destination was given, and
what was sent (each value with the thread that sent it). -/
structure State (I : Type) where
  pc : Nat → PC I
  lock : Option Nat
  queue : List (Nat × I)
  delivered : List (Nat × I)
  sent : List (Nat × I)

variable {I : Type}

def init : State I := ⟨fun _ => .idle, none, [], [], []⟩

/-- Thread `t` moves on. -/
def State.goto (x : State I) (t : Nat) (p : PC I) : State I :=
  { x with pc := fun u => if u = t then p else x.pc u }

/-- A step of thread `t`. -/
inductive Step : State I → Nat → State I → Prop
  | call (x : State I) (t : Nat) (v : I) : x.pc t = .idle →
      Step x t ({ x with sent := x.sent ++ [(t, v)] }.goto t (.asking v))
  | ask (x : State I) (t : Nat) (v : I) : x.pc t = .asking v → x.lock = none →
      Step x t ({ x with lock := some t }.goto t (.askHeld v))
  | askFails (x : State I) (t : Nat) (v : I) : x.pc t = .asking v → x.lock ≠ none →
      Step x t (x.goto t (.attempt v))
  | asked (x : State I) (t : Nat) (v : I) : x.pc t = .askHeld v →
      Step x t ({ x with lock := none }.goto t (.attempt v))
  | lock (x : State I) (t : Nat) (v : I) : x.pc t = .attempt v → x.lock = none →
      Step x t ({ x with lock := some t }.goto t (.own v))
  | lockFails (x : State I) (t : Nat) (v : I) : x.pc t = .attempt v → x.lock ≠ none →
      Step x t (x.goto t (.deferring v))
  | ownEmpty (x : State I) (t : Nat) (v : I) : x.pc t = .own v → x.queue = [] →
      Step x t (x.goto t (.give v))
  | ownDrain (x : State I) (t : Nat) (v : I) : x.pc t = .own v → x.queue ≠ [] →
      Step x t ({ x with queue := [] }.goto t (.ownDeliver x.queue v))
  | ownDeliver (x : State I) (t : Nat) (n rest) (v : I) : x.pc t = .ownDeliver (n :: rest) v →
      Step x t ({ x with delivered := x.delivered ++ [n] }.goto t (.ownDeliver rest v))
  | ownDelivered (x : State I) (t : Nat) (v : I) : x.pc t = .ownDeliver [] v →
      Step x t (x.goto t (.own v))
  | give (x : State I) (t : Nat) (v : I) : x.pc t = .give v →
      Step x t ({ x with delivered := x.delivered ++ [(t, v)] }.goto t .unlock1)
  | unlock1 (x : State I) (t : Nat) : x.pc t = .unlock1 →
      Step x t ({ x with lock := none }.goto t .recheck)
  | defer (x : State I) (t : Nat) (v : I) : x.pc t = .deferring v →
      Step x t ({ x with queue := x.queue ++ [(t, v)] }.goto t .recheck)
  | clean (x : State I) (t : Nat) : x.pc t = .recheck → x.queue = [] →
      Step x t (x.goto t .idle)
  | dirty (x : State I) (t : Nat) : x.pc t = .recheck → x.queue ≠ [] →
      Step x t (x.goto t .apply)
  | apply (x : State I) (t : Nat) : x.pc t = .apply → x.lock = none →
      Step x t ({ x with lock := some t }.goto t .applying)
  | applyFails (x : State I) (t : Nat) : x.pc t = .apply → x.lock ≠ none →
      Step x t (x.goto t .idle)
  | applyEmpty (x : State I) (t : Nat) : x.pc t = .applying → x.queue = [] →
      Step x t (x.goto t .unlock2)
  | applyDrain (x : State I) (t : Nat) : x.pc t = .applying → x.queue ≠ [] →
      Step x t ({ x with queue := [] }.goto t (.applyDeliver x.queue))
  | applyDeliver (x : State I) (t : Nat) (n rest) : x.pc t = .applyDeliver (n :: rest) →
      Step x t ({ x with delivered := x.delivered ++ [n] }.goto t (.applyDeliver rest))
  | applyDelivered (x : State I) (t : Nat) : x.pc t = .applyDeliver [] →
      Step x t (x.goto t .applying)
  | unlock2 (x : State I) (t : Nat) : x.pc t = .unlock2 →
      Step x t ({ x with lock := none }.goto t .idle)
  | query (x : State I) (t : Nat) : x.pc t = .idle → x.lock = none →
      Step x t ({ x with lock := some t }.goto t .queryHeld)
  | queried (x : State I) (t : Nat) : x.pc t = .queryHeld →
      Step x t ({ x with lock := none }.goto t .idle)

/-- Any interleaving. -/
inductive Reachable : State I → Prop
  | init : Reachable init
  | step {x y : State I} {t : Nat} : Reachable x → Step x t y → Reachable y

end Rx.Threads
