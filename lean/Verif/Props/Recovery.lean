import Verif.Lemmas.Recovery
import Verif.Props.HigherOrder

/-!
# C44: catch
-/

namespace Rx.Catch.Props
open Rx.HigherOrder

variable {S I E F : Type} {D : Sub S I F} {s : S} {f : E → Src I F} {es : List (Event I E F)}

/-- C44. Whatever the source and the recovery observable do, the destination is notified what the source notifies
up to its error, then what the recovery observable notifies, until it is closed. Nothing panics. -/
theorem C44_delivers (hD : Closes D) (hs : D.isClosed s = false) (hc : Conforming (sourceNotes es)) :
    ∃ y, run D f s es = .ok y ∧ y.higher.dest = feed D s (expected f es) := by
  obtain ⟨y, hy, h, _⟩ := src_run (f := f) hD es hs (l := []) ⟨rfl, rfl⟩ hc
  exact ⟨y, hy, h⟩

/-- C44. The recovery observable is subscribed exactly once if the source fails while the destination is open, and
otherwise never. -/
theorem C44_subscribed (hD : Closes D) (hs : D.isClosed s = false) (hc : Conforming (sourceNotes es)) {y : State S I F}
    (hy : run D f s es = .ok y) :
    ((∃ p e q, es = p ++ .source (.error e) :: q ∧ D.isClosed (feed D s (expected f p)) = false) →
      subsOf y.higher.log = [0]) ∧
    ((¬ ∃ p e q, es = p ++ .source (.error e) :: q ∧ D.isClosed (feed D s (expected f p)) = false) →
      subsOf y.higher.log = []) := by
  obtain ⟨z, hz, _, h1, h2⟩ := src_run (f := f) hD es hs (l := []) ⟨rfl, rfl⟩ hc
  have := hy.symm.trans hz
  cases this
  refine ⟨fun h => ?_, fun h => (h2 h).1⟩
  rcases h1 h with h | h
  · exact h.2.1
  · exact h.2.1

/-- C44. It does not outlive the destination. -/
theorem C44_ended (hD : Closes D) (hs : D.isClosed s = false) (hc : Conforming (sourceNotes es)) {y : State S I F}
    (hy : run D f s es = .ok y) (ho : D.isClosed y.higher.dest = true) : live y.higher.log = [] := by
  obtain ⟨z, hz, _, h1, h2⟩ := src_run (f := f) hD es hs (l := []) ⟨rfl, rfl⟩ hc
  have := hy.symm.trans hz
  cases this
  by_cases h : Handled D f s es
  · rcases h1 h with h | h
    · rw [h.1] at ho; cases ho
    · simp [live, h.2.1, h.2.2]
  · simp [live, (h2 h).1]

/-- C44. Without an error it is transparent. -/
theorem C44_transparent (hD : Closes D) (hs : D.isClosed s = false) (ns : List (SubscriberNotification I Empty))
    (hc : Conforming ns) (f : Empty → Src I F) :
    ∃ y : State S I F, run D f s (ns.map .source) = .ok y ∧
      y.higher.dest = feed D s (ns.filterMap fun
        | .next v => some (.next v)
        | .complete => some .complete
        | .unsubscribe => some .unsubscribe
        | .error e => nomatch e) := by
  have hn : sourceNotes (ns.map (Event.source (F := F))) = ns := by
    simp only [sourceNotes, List.filterMap_map]
    exact List.filterMap_some
  obtain ⟨y, hy, h⟩ := C44_delivers (f := f) (es := ns.map .source) hD hs (by rw [hn]; exact hc)
  refine ⟨y, hy, h.trans ?_⟩
  clear hy h hn hc
  induction ns generalizing s with
  | nil => rfl
  | cons n ns ih =>
    cases n with
    | error e => exact e.elim
    | next v =>
      simp only [List.map_cons, expected, List.filterMap_cons]
      rw [feed_open hs, feed_open hs]
      cases hv : D.isClosed (D.push s (.next v))
      · exact ih hv
      · rw [feed_closed hv, feed_closed hv]
    | complete =>
      simp only [List.map_cons, expected, List.filterMap_cons]
      rw [feed_open hs, feed_open hs, feed_closed (hD s _ rfl), feed_closed (hD s _ rfl)]
    | unsubscribe =>
      simp only [List.map_cons, expected, List.filterMap_cons]
      rw [feed_open hs, feed_open hs, feed_closed (hD s _ rfl), feed_closed (hD s _ rfl)]

/-! ## Concrete cases -/

/-- What an observer sees, and what happens to the recovery observable. -/
def catchLog (f : Nat → Src Nat Nat) (es : List (Event Nat Nat Nat)) :
    Option (List (ObserverNotification Nat Nat) × List (Log Nat Nat)) :=
  match run (observerSubscriber Nat Nat) f .new es with
  | .ok y => some (y.higher.dest.seen, y.higher.log)
  | .error _ => none

/-- The recovery observable emits the error, and more later. -/
example : Closes (observerSubscriber Nat Nat) ∧
    Conforming (sourceNotes [(.source (.next 1) : Event Nat Nat Nat), .source (.error 7), .recovery (.next 2), .recovery .complete]) ∧
    catchLog (fun e => [.next e]) [.source (.next 1), .source (.error 7), .recovery (.next 2), .recovery .complete] =
      some ([.next 1, .next 7, .next 2, .complete],
        [.out none (.next 1), .sub 0, .out (some 0) (.next 7), .out (some 0) (.next 2), .done 0, .out (some 0) .complete]) := by
  refine ⟨HigherOrder.Props.observer_closes _ _, by simp [sourceNotes, Conforming, SubscriberNotification.isTerminal], by decide +kernel⟩

/-- Its own error is not caught. -/
example : (catchLog (fun e => [.error (e + 1)]) [.source (.error 7), .source .unsubscribe]).map (·.1) = some [.error 8] := by
  decide +kernel

/-- Unsubscribing unsubscribes it. -/
example : catchLog (fun _ => []) [.source (.error 7), .source .unsubscribe, .recovery (.next 2)] =
    some ([], [.sub 0, .done 0, .out none .unsubscribe]) := by
  decide +kernel

/-- A subject that has already failed hands a new subscriber its error and then unsubscribes it if it is still open
(publish_subject.rs:122-133). `catch` cannot tell this from being unsubscribed, so the recovery observable, if it
does not end at once, is cut off. -/
theorem C44_cut_off :
    catchLog (fun _ => [.next 3]) [.source (.error 7), .source .unsubscribe, .recovery (.next 2), .recovery .complete] =
      some ([.next 3], [.sub 0, .out (some 0) (.next 3), .done 0, .out none .unsubscribe]) := by
  decide +kernel

end Rx.Catch.Props
