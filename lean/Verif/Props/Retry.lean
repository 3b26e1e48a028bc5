import Verif.Lemmas.RetryInv
import Verif.Props.HigherOrder

/-!
# C45: retry
-/

namespace Rx.Retry.Props
open Rx.HigherOrder (Closes)
open Rx.Catch (feed)

variable {S I E : Type} {D : Sub S I E} {s : S} {max : Nat} {src : Source I E} {es : List (Event I E)}

theorem rel_dest {c : Nat} {x : State S I E} {i : Ideal I E} (h : Rel D c s x i) :
    x.dest = feed D s i.out ∧ x.count ≤ i.made + c ∧
      (D.isClosed x.dest = false → x.opened = i.current.toList ∧ x.count = i.made) ∧
      (D.isClosed x.dest = true → x.opened = []) := by
  rcases h with ⟨h1, h2, h3, h4⟩ | ⟨a, f, l, h1, h2, h3, h4, rfl⟩
  · exact ⟨h2, h4, (fun h => by rw [h1] at h; cases h), fun _ => h3⟩
  · refine ⟨rfl, ?_, fun _ => ?_, fun h => ?_⟩
    · simp [going, h2]
    · simp [going, h1, h2]
    · simp only [going] at h; rw [h4] at h; cases h

/-- C45. As long as not all the retries have been needed, `retry(max)` does what it should: the destination is
notified the values of all the attempts, and how the last one ends, until it is closed; attempts are made one after
the other, no more than should be, and as long as the destination is open exactly the ones that should be; only
the last one is left going on, if it should be and the destination is open. -/
theorem C45_delivers_partial (hD : Closes D) (hs : D.isClosed s = false) (hm : (ideal max src es).made ≤ max) :
    (run D max src s es).dest = feed D s (ideal max src es).out ∧
    (∃ n ≤ (ideal max src es).made, subsOf (run D max src s es).log = List.range n) ∧
    (D.isClosed (run D max src s es).dest = false →
      subsOf (run D max src s es).log = List.range (ideal max src es).made ∧
      live (run D max src s es).log = (ideal max src es).current.toList) ∧
    (D.isClosed (run D max src s es).dest = true → live (run D max src s es).log = []) := by
  have hle : ∀ p, p <+: es → (ideal max src p).made ≤ max := fun p hp =>
    Nat.le_trans (made_mono hp (ideal_ok max src p)) hm
  have hcur : ∀ p, p <+: es → (ideal max src p).current ≠ some max := fun p hp h => by
    have := (ideal_ok max src p).1 max h
    have := hle p hp
    omega
  have h := run_rel (src := src) hD hs 0 (hcur [] (List.nil_prefix)) es
    (fun p a u hp ha hlt hex => by
      obtain ⟨out, e, h⟩ := hex
      have h1 := hle _ hp
      have h2 : ideal max src (p ++ [.source a (.error u)]) = (ideal max src p).step max src (.source a (.error u)) := by
        simp [ideal, List.foldl_append]
      rw [h2] at h1
      simp only [Ideal.step, ha, if_true, hlt, h] at h1
      omega)
    (fun p u hp ha => absurd ha (hcur p ((List.prefix_append _ _).trans hp)))
  have hg := good_run (D := D) (src := src) (max := max) s es
  obtain ⟨h1, h2, h3, h4⟩ := rel_dest h.2
  refine ⟨h1, ⟨_, h2, hg.inv.subs⟩, fun ho => ?_, fun ho => ?_⟩
  · rw [hg.inv.subs, live_eq hg.inv, (h3 ho).1, (h3 ho).2]
    exact ⟨rfl, rfl⟩
  · rw [live_eq hg.inv]; exact h4 ho

/-- C45. If the source always ends while being subscribed, `retry(max)` does what it should, without any restriction:
the error of the last allowed attempt is delivered, after at most `max + 1` attempts. -/
theorem C45_synchronous (hD : Closes D) (hs : D.isClosed s = false) (hsrc : ∀ k ≤ max, (outcome (src k)).2 ≠ none) :
    (run D max src s es).dest = feed D s (ideal max src []).out ∧
    (∃ n ≤ (ideal max src []).made, subsOf (run D max src s es).log = List.range n) ∧
    live (run D max src s es).log = [] := by
  have hcur : ∀ left k, k + left = max → (Ideal.start src left k).current = none := by
    intro left
    induction left with
    | zero =>
      intro k hk
      rcases h : outcome (src k) with ⟨vs, _ | t⟩
      · exact absurd (by rw [h]) (hsrc k (by omega))
      · by_cases ht : ∃ e, t = .error e
        · obtain ⟨e, rfl⟩ := ht; rw [start_error_zero h]
        · rw [start_end h (fun e he => ht ⟨e, he⟩)]
    | succ left ih =>
      intro k hk
      rcases h : outcome (src k) with ⟨vs, _ | t⟩
      · exact absurd (by rw [h]) (hsrc k (by omega))
      · by_cases ht : ∃ e, t = .error e
        · obtain ⟨e, rfl⟩ := ht; rw [start_error_succ h]; exact ih (k + 1) (by omega)
        · rw [start_end h (fun e he => ht ⟨e, he⟩)]
  have h0 : ∀ es, (ideal max src es).current = none ∧ ideal max src es = ideal max src [] := by
    intro es
    induction es using Rx.snoc_induction with
    | nil => exact ⟨hcur max 0 (Nat.zero_add _), rfl⟩
    | snoc es e ih =>
      have : ideal max src (es ++ [e]) = ideal max src es := by
        have : ideal max src (es ++ [e]) = (ideal max src es).step max src e := by simp [ideal, List.foldl_append]
        rw [this]
        cases e <;> simp [Ideal.step, ih.1]
      rw [this]
      exact ih
  have h := run_rel (src := src) hD hs 0 (by rw [hcur max 0 (Nat.zero_add _)]; simp) es
    (fun p a u _ ha => by rw [(h0 p).1] at ha; cases ha) (fun p u _ ha => by rw [(h0 p).1] at ha; cases ha)
  have hg := good_run (D := D) (src := src) (max := max) s es
  obtain ⟨h1, h2, h3, h4⟩ := rel_dest h.2
  rw [(h0 es).2] at h1 h2 h3
  refine ⟨h1, ⟨_, h2, hg.inv.subs⟩, ?_⟩
  rw [live_eq hg.inv]
  cases hc : D.isClosed (run D max src s es).dest
  · rw [(h3 hc).1, (h0 []).1]; rfl
  · exact h4 hc

/-- C45. If no attempt ends while being subscribed, and at least one retry is allowed, the destination is notified
what it should be: the values of all the attempts and the error of the last allowed one. (One attempt too many may
be made; it must not emit.) -/
theorem C45_later (hD : Closes D) (hs : D.isClosed s = false) (h0 : 0 < max) (hsrc : ∀ k, (outcome (src k)).2 = none)
    (hq : src (max + 1) = []) :
    (run D max src s es).dest = feed D s (ideal max src es).out ∧
    (D.isClosed (run D max src s es).dest = false →
      subsOf (run D max src s es).log = List.range (ideal max src es).made ∧
      live (run D max src s es).log = (ideal max src es).current.toList) ∧
    (D.isClosed (run D max src s es).dest = true → live (run D max src s es).log = []) := by
  have hst : ∀ left k, Ideal.start src left k = ⟨(outcome (src k)).1.map .next, some k, k + 1⟩ := fun left k =>
    start_none (by rw [← hsrc k]) left
  have h := run_rel (src := src) hD hs 1 (by rw [hst]; intro h; have : 0 = max := Option.some.inj h; omega) es
    (fun p a u _ ha _ hex => by
      obtain ⟨out, e, h⟩ := hex
      rw [hst] at h
      simp at h)
    (fun p u _ _ => ⟨Nat.le_refl _, by rw [hq]; rfl⟩)
  have hg := good_run (D := D) (src := src) (max := max) s es
  obtain ⟨h1, h2, h3, h4⟩ := rel_dest h.2
  refine ⟨h1, fun ho => ?_, fun ho => ?_⟩
  · rw [hg.inv.subs, live_eq hg.inv, (h3 ho).1, (h3 ho).2]
    exact ⟨rfl, rfl⟩
  · rw [live_eq hg.inv]; exact h4 ho

/-- C45. In every history the source is subscribed at most `max + 2` times, one attempt after the other.
(It should be at most `max + 1` times.) -/
theorem C45_attempts_partial : ∃ n ≤ max + 2, subsOf (run D max src s es).log = List.range n ∧
    (live (run D max src s es).log).length ≤ 1 := by
  have hg := good_run (D := D) (src := src) (max := max) s es
  refine ⟨_, hg.le, hg.inv.subs, ?_⟩
  rw [live_eq hg.inv]
  have hn := hg.inv.nodup
  have hl := hg.inv.latest
  revert hn hl
  cases (run D max src s es).opened with
  | nil => simp
  | cons a l =>
    cases l with
    | nil => simp
    | cons b l =>
      intro hn hl
      have h1 := hl a (by simp)
      have h2 := hl b (by simp)
      simp at hn
      omega

/-- C45. In every history an error is delivered only after `max + 1` attempts have been made. -/
theorem C45_error_last {e : E} (h : .out (.error e) ∈ (run D max src s es).log) :
    ∃ n, max + 1 ≤ n ∧ subsOf (run D max src s es).log = List.range n := by
  have hg := good_run (D := D) (src := src) (max := max) s es
  exact ⟨_, hg.failed ⟨e, h⟩, hg.inv.subs⟩

/-! ## Concrete cases -/

/-- What an observer sees, and what happens to the source. -/
def retryLog (max : Nat) (src : Source Nat Nat) (es : List (Event Nat Nat)) :
    List (ObserverNotification Nat Nat) × List (Log Nat Nat) :=
  let y := run (observerSubscriber Nat Nat) max src .new es
  (y.dest.seen, y.log)

/-- Two of three retries are needed, one at once, one later. -/
example : (ideal 3 (fun k => if k = 1 then [.next 10, .error 0] else [.next k]) [(.source 0 (.error 5) : Event Nat Nat), .source 2 (.next 7)]).made ≤ 3 ∧
    retryLog 3 (fun k => if k = 1 then [.next 10, .error 0] else [.next k]) [.source 0 (.error 5), .source 2 (.next 7)] =
      ([.next 0, .next 10, .next 2, .next 7],
       [.sub 0, .out (.next 0), .done 0, .sub 1, .out (.next 10), .done 1, .sub 2, .out (.next 2), .out (.next 7)]) := by
  decide +kernel

/-- All retries are needed. -/
example : (∀ k ≤ 2, (outcome ([.next k, .error k] : List (SubscriberNotification Nat Nat))).2 ≠ none) ∧
    retryLog 2 (fun k => [.next k, .error k]) [] =
      ([.next 0, .next 1, .next 2, .error 2],
       [.sub 0, .out (.next 0), .done 0, .sub 1, .out (.next 1), .done 1, .sub 2, .out (.next 2), .done 2, .out (.error 2)]) := by
  refine ⟨fun k _ => by simp [outcome], by decide +kernel⟩

/-- All retries are needed, later: the observer sees what it should. But the source is subscribed once more than
`max + 1` times; this attempt is cut off at once. -/
theorem C45_extra_attempt :
    retryLog 1 (fun _ => []) [.source 0 (.next 3), .source 0 (.error 5), .source 1 (.error 6)] =
      ([.next 3, .error 6], [.sub 0, .out (.next 3), .done 0, .sub 1, .done 1, .sub 2, .out (.error 6), .done 2]) := by
  decide +kernel

/-- What that attempt emits while being subscribed is delivered. -/
theorem C45_extra_values :
    (retryLog 1 (fun k => [.next k]) [.source 0 (.error 5), .source 1 (.error 6)]).1 =
      [.next 0, .next 1, .next 2, .error 6] ∧
    (ideal 1 (fun k => [.next k]) [(.source 0 (.error 5) : Event Nat Nat), .source 1 (.error 6)]).out =
      [.next 0, .next 1, .error 6] := by
  decide +kernel

/-- A live attempt is not left alone if it is the last one allowed and the ones before failed at once; in particular
`retry(0)` cuts off every source that does not end while being subscribed. -/
theorem C45_cut_off :
    retryLog 0 (fun _ => [.next 1]) [.source 0 (.next 2)] =
      ([.next 1], [.sub 0, .out (.next 1), .out .unsubscribe, .done 0]) ∧
    (ideal 0 (fun _ => [.next 1]) [(.source 0 (.next 2) : Event Nat Nat)]).out = [.next 1, .next 2] := by
  decide +kernel

/-- If the first attempt fails later and all others at once, the error delivered is the one of the first. -/
theorem C45_stale_error :
    (retryLog 1 (fun k => if k = 0 then [] else [.error k]) [.source 0 (.error 7)]).1 = [.error 7] ∧
    (ideal 1 (fun k => if k = 0 then [] else [.error k]) [(.source 0 (.error 7) : Event Nat Nat)]).out = [.error 1] := by
  decide +kernel

end Rx.Retry.Props
