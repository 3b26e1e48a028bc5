import Verif.Model.SharedSubscriber

/-!
# What a shared subscriber must do

Notifications are served first-in first-out. Each has a generation: a call from outside has generation
0, a call made while a notification of generation `g` is handled has generation `g + 1`.
-/

namespace Rx.Spec

open Rx

variable {S I E : Type}

/-- However the handling goes, the destination is closed in the end. -/
def EndsClosed (R : ReDest S I E) : React S I E → Prop
  | .done s => R.isClosed s = true
  | .call _ k => EndsClosed R k
  | .isClosed k => ∀ b, EndsClosed R (k b)

/-- A destination that keeps to the subscriber contract: closed, it does nothing; a closing notification
closes it. -/
structure Contract (R : ReDest S I E) : Prop where
  inert : ∀ (s : S) (n : SubscriberNotification I E), R.isClosed s = true → R.push s n = .done s
  closes : ∀ (s : S) (n : SubscriberNotification I E), n.isClosing = true → EndsClosed R (R.push s n)

/-- The state after handling, the calls to be served, and whether a closing call has been made.
Calls after a closing call do not count; that there was one is what `is_closed` answers. -/
def handle (ended : Bool) : React S I E → S × List (SubscriberNotification I E) × Bool
  | .done s => (s, [], ended)
  | .call n k =>
    if ended then handle ended k
    else
      let r := handle n.isClosing k
      (r.1, n :: r.2.1, r.2.2)
  | .isClosed k => handle ended (k ended)

/-- `Fifo R L s pending ended s' ended'`: serving `pending` (with generations) in order, and the calls
this gives rise to, up to and including the first closing one, takes the destination from `s` to `s'`;
no generation exceeds `L`. -/
inductive Fifo (R : ReDest S I E) (L : Nat) :
    S → List (Nat × SubscriberNotification I E) → Bool → S → Bool → Prop
  | nil (s ended) : Fifo R L s [] ended s ended
  | next {s g n pending ended s' ended'} : n.isClosing = false → g ≤ L →
      Fifo R L (handle ended (R.push s n)).1
        (pending ++ (handle ended (R.push s n)).2.1.map fun c => (g + 1, c))
        (handle ended (R.push s n)).2.2 s' ended' →
      Fifo R L s ((g, n) :: pending) ended s' ended'
  | closing {s g n pending ended} : n.isClosing = true → g ≤ L →
      Fifo R L s ((g, n) :: pending) ended (handle true (R.push s n)).1 true

/-- Calls from outside, one after the other; nothing is served once a closing call has been made, or
the destination is closed. -/
inductive Served (R : ReDest S I E) (L : Nat) :
    S → Bool → List (SubscriberNotification I E) → S → Bool → Prop
  | nil (s ended) : Served R L s ended [] s ended
  | ignored {s ended n ns s' ended'} : (ended || R.isClosed s) = true →
      Served R L s ended ns s' ended' → Served R L s ended (n :: ns) s' ended'
  | served {s n ns s₁ ended₁ s' ended'} : R.isClosed s = false →
      Fifo R L s [(0, n)] n.isClosing s₁ ended₁ → Served R L s₁ ended₁ ns s' ended' →
      Served R L s false (n :: ns) s' ended'

end Rx.Spec
