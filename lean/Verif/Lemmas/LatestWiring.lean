import Verif.Model.LatestWiring
import Verif.Lemmas.Lawful

/-!
# Lemmas for C85
-/

namespace Rx.LatestWiring

open Rx Rx.Wiring

variable {A B F S α : Type} {D : Sub S (A × B) F} {obs : S → α} {Inv : S → Prop}


/-- What is true at all times. -/
structure Ok (D : Sub S (A × B) F) (Inv : S → Prop) (w : World B S) : Prop where
  inv : Inv w.s
  closed : w.p1 = .gone → D.isClosed w.s = true
  drop : w.dropped = true → w.p1 = .gone

theorem guarded_inv (hD : Lawful D obs Inv true) {s : S} (hs : Inv s) (n) : Inv (D.guarded s n) := by
  unfold Sub.guarded; split
  · exact hs
  · exact hD.inv s (.note n) hs

theorem guarded_mono (hD : Lawful D obs Inv true) {s : S} (hs : Inv s) (n) (hc : D.isClosed s = true) : D.guarded s n = s := by
  unfold Sub.guarded; rw [if_pos hc]

theorem guarded_unsub (hD : Lawful D obs Inv true) {s : S} (hs : Inv s) : D.isClosed (D.guarded s .unsubscribe) = true := by
  unfold Sub.guarded; split
  · assumption
  · exact hD.unsubscribeCloses s hs

theorem step_inv (hD : Lawful D obs Inv true) (x : WithLatestSt B × S) (hs : Inv x.2) (n : Either2 A F B F) :
    Inv (withLatestStep D x n).2 ∧ (D.isClosed x.2 = true → (withLatestStep D x n).2 = x.2) := by
  have h : ∀ m, Inv (D.guarded x.2 m) ∧ (D.isClosed x.2 = true → D.guarded x.2 m = x.2) :=
    fun m => ⟨guarded_inv hD hs m, guarded_mono hD hs m⟩
  have h0 : Inv x.2 ∧ (D.isClosed x.2 = true → x.2 = x.2) := ⟨hs, fun _ => rfl⟩
  unfold withLatestStep
  repeat' split
  all_goals first | exact h _ | exact h0

theorem leave_ok (hD : Lawful D obs Inv true) {w : World B S} (hs : Inv w.s) :
    Inv (w.leave D).s ∧ D.isClosed (w.leave D).s = true ∧ (w.leave D).p2 = .gone ∧ (w.leave D).p1 = w.p1 ∧
      (w.leave D).dropped = w.dropped ∧ (D.isClosed w.s = true → (w.leave D).s = w.s) :=
  ⟨guarded_inv hD hs _, guarded_unsub hD hs, rfl, rfl, rfl, guarded_mono hD hs _⟩

/-- What a step does. -/
structure Step (D : Sub S (A × B) F) (Inv : S → Prop) (w w' : World B S) : Prop where
  ok : Ok D Inv w'
  gone : w.p2 = .gone → w'.p2 = .gone
  shut : D.isClosed w.s = true → w'.s = w.s

theorem release_ok (k : Kind) (hD : Lawful D obs Inv true) {w : World B S} (h : Ok D Inv w) : Step D Inv w (w.release k D) := by
  obtain ⟨h1, h2, h3, _, _, h6⟩ := leave_ok hD h.inv
  unfold World.release
  split
  · rename_i hc
    simp only [Bool.and_eq_true] at hc
    exact ⟨⟨h.inv, fun _ => hc.2, fun _ => rfl⟩, id, fun _ => rfl⟩
  · exact ⟨⟨h1, fun _ => h2, fun _ => rfl⟩, fun _ => h3, h6⟩

theorem may_gone {I E : Type} (n : SubscriberNotification I E) : Phase.may .gone n = false := by cases n <;> rfl

theorem send1_ok (k : Kind) (hD : Lawful D obs Inv true) {w : World B S} (h : Ok D Inv w) (n) : Step D Inv w (w.send1 k D n) := by
  unfold World.send1
  split
  · rename_i hm
    have hp : w.p1 ≠ .gone := by intro e; rw [e, may_gone] at hm; cases hm
    have hd : w.dropped = true → False := fun e => hp (h.drop e)
    obtain ⟨h1, h2⟩ := step_inv hD (w.st, w.s) h.inv (.o1 n)
    cases n with
    | unsubscribe => exact release_ok k hD h
    | _ => exact ⟨⟨h1, fun e => (by cases e), fun e => (hd e).elim⟩, id, h2⟩
  · exact ⟨h, id, fun _ => rfl⟩

theorem send2_ok (hD : Lawful D obs Inv true) {w : World B S} (h : Ok D Inv w) (n) : Step D Inv w (w.send2 D n) := by
  unfold World.send2
  split
  · rename_i hm
    have hp : w.p2 ≠ .gone := by intro e; rw [e, may_gone] at hm; cases hm
    obtain ⟨h1, h2⟩ := step_inv hD (w.st, w.s) h.inv (.o2 n)
    refine ⟨⟨h1, fun e => ?_, h.drop⟩, fun e => absurd e hp, h2⟩
    have hc := h.closed e
    have := h2 hc
    show D.isClosed (withLatestStep D (w.st, w.s) (.o2 n)).2 = true
    rw [this]; exact hc
  · exact ⟨h, id, fun _ => rfl⟩

theorem act_ok (k : Kind) (hD : Lawful D obs Inv true) {w : World B S} (h : Ok D Inv w) (a : Act A F B F) : Step D Inv w (w.act k D a) := by
  cases a with
  | send1 n => exact send1_ok k hD h n
  | send2 n => exact send2_ok hD h n
  | unsubscribe =>
    unfold World.act; dsimp only
    split
    · exact ⟨h, id, fun _ => rfl⟩
    · exact release_ok k hD h
  | shut => exact ⟨⟨guarded_inv hD h.inv _, fun _ => guarded_unsub hD h.inv, h.drop⟩, id, guarded_mono hD h.inv _⟩
  | drop =>
    obtain ⟨h1, h2, h3, _, _, h6⟩ := leave_ok hD h.inv
    unfold World.act; dsimp only
    split
    · exact ⟨h, id, fun _ => rfl⟩
    · split
      · rename_i hc
        exact ⟨⟨h.inv, fun _ => hc, fun _ => rfl⟩, fun e => by dsimp only; split; rfl; exact e, fun _ => rfl⟩
      · exact ⟨⟨h1, fun _ => h2, fun _ => rfl⟩, fun e => by dsimp only; split; rfl; exact h3, h6⟩

theorem acts_ok (k : Kind) (hD : Lawful D obs Inv true) (l : List (Act A F B F)) : ∀ {w : World B S}, Ok D Inv w →
    Step D Inv w (l.foldl (World.act k D) w) := by
  induction l with
  | nil => exact fun h => ⟨h, id, fun _ => rfl⟩
  | cons a l ih =>
    intro w h
    have h1 := act_ok k hD h a
    have h2 := ih h1.ok
    refine ⟨h2.ok, fun e => h2.gone (h1.gone e), fun e => ?_⟩
    have h3 := h1.shut e
    rw [← h3]
    exact h2.shut (by rw [h3]; exact e)

theorem subscribe_ok (k : Kind) (hD : Lawful D obs Inv true) {s : S} (hs : Inv s) (l2 : List (SubscriberNotification B F))
    (l1 : List (SubscriberNotification A F)) : Ok D Inv (World.subscribe k D s l2 l1) := by
  have h1 : ∀ (l2 : List (SubscriberNotification B F)) (w : World B S), Ok D Inv w → Ok D Inv (l2.foldl (World.send2 D) w) ∧ (l2.foldl (World.send2 D) w).dropped = w.dropped := by
    intro l2
    induction l2 with
    | nil => exact fun w h => ⟨h, rfl⟩
    | cons n l ih =>
      intro w h
      have := ih _ (send2_ok hD h n).ok
      refine ⟨this.1, this.2.trans ?_⟩
      unfold World.send2; split <;> rfl
  have h2 : ∀ (l1 : List (SubscriberNotification A F)) (w : World B S), Ok D Inv w → Ok D Inv (l1.foldl (World.send1 k D) w) := by
    intro l1
    induction l1 with
    | nil => exact fun w h => h
    | cons n l ih => exact fun w h => ih _ (send1_ok k hD h n).ok
  obtain ⟨h3, h4⟩ := h1 l2 ⟨withLatestInit, s, .waiting, .live, false⟩ ⟨hs, fun e => (by cases e), fun e => (by cases e)⟩
  exact h2 l1 _ ⟨h3.inv, fun e => (by cases e), fun e => by rw [h4] at e; cases e⟩

theorem run_append (k : Kind) (D : Sub S (A × B) F) (s : S) (l2 : List (SubscriberNotification B F)) (l1 : List (SubscriberNotification A F))
    (a b : List (Act A F B F)) : run k D s l2 l1 (a ++ b) = b.foldl (World.act k D) (run k D s l2 l1 a) := by simp [run]

theorem run_ok (k : Kind) (hD : Lawful D obs Inv true) {s : S} (hs : Inv s) (l2 : List (SubscriberNotification B F))
    (l1 : List (SubscriberNotification A F)) (a : List (Act A F B F)) : Ok D Inv (run k D s l2 l1 a) :=
  (acts_ok k hD a (subscribe_ok k hD hs l2 l1)).ok

end Rx.LatestWiring
