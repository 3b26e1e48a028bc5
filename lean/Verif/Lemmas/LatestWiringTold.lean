import Verif.Lemmas.LatestWiring
import Verif.Lemmas.CombineWiring
import Verif.Lemmas.Stray
import Verif.Spec.LatestWiring

/-!
# Lemmas for C85: what the destination is told
-/

namespace Rx.LatestWiring

open Rx Rx.Wiring Rx.Spec

variable {A B F S α : Type} {D : Sub S (A × B) F} {obs : S → α} {Inv : S → Prop} {s0 : S}

/-- The phase of an input that has said `ns`. -/
structure PhaseOf {I E : Type} (p : Phase) (ns : List (SubscriberNotification I E)) : Prop where
  unsub : unsubscribed ns = decide (p = .gone)
  fin : finished ns = decide (p = .ended ∨ p = .gone)

theorem PhaseOf.may {I E : Type} {p : Phase} {ns : List (SubscriberNotification I E)} (h : PhaseOf p ns) (hp : p ≠ .waiting) (n) :
    p.may n = allows ns n := by
  refine may_allows hp (fun e => ?_) (fun e => ?_) h.unsub
  · rw [h.fin]; rcases e with rfl | rfl <;> rfl
  · rw [h.fin]; subst e; rfl

theorem PhaseOf.after {I E : Type} {p : Phase} {ns : List (SubscriberNotification I E)} (h : PhaseOf p ns) {n} (hm : p.may n = true) :
    PhaseOf (.after n) (ns ++ [n]) := by
  have h1 := h.unsub
  have h2 := h.fin
  cases n <;> cases p <;> simp [Phase.may] at hm <;>
    exact ⟨by simp_all [Phase.after, unsubscribed_snoc], by simp_all [Phase.after, finished, unsubscribed_snoc, completed_snoc, errorOf_snoc]⟩

/-- The world after the inputs have said `h`. -/
structure Told (D : Sub S (A × B) F) (s0 : S) (w : World B S) (h : List (Either2 A F B F)) : Prop where
  conf : Conforming h
  s : w.s = (withLatestRun D (withLatestInit, s0) h).2
  st : D.isClosed w.s = false → w.st = (withLatestRun D (withLatestInit, s0) h).1
  p1 : D.isClosed w.s = false → PhaseOf w.p1 (left h)
  p2 : D.isClosed w.s = false → PhaseOf w.p2 (right h)

theorem hear_conf {h : List (Either2 A F B F)} (hc : Conforming h) (e) : Conforming (hear h e) := by
  unfold hear; split
  · rename_i ha
    cases e with
    | o1 n => exact ⟨by rw [left_snoc1]; exact grammar_snoc hc.1 (allows_mayFollow.mp ha), by rw [right_snoc1]; exact hc.2⟩
    | o2 n => exact ⟨by rw [left_snoc2]; exact hc.1, by rw [right_snoc2]; exact grammar_snoc hc.2 (allows_mayFollow.mp ha)⟩
  · exact hc

theorem run_snoc (h : List (Either2 A F B F)) (e) :
    withLatestRun D (withLatestInit, s0) (h ++ [e]) = withLatestStep D (withLatestRun D (withLatestInit, s0) h) e := by
  simp [withLatestRun]

theorem hear_closed {h : List (Either2 A F B F)} (hc : D.isClosed (withLatestRun D (withLatestInit, s0) h).2 = true) (e) :
    (withLatestRun D (withLatestInit, s0) (hear h e)).2 = (withLatestRun D (withLatestInit, s0) h).2 := by
  unfold hear; split
  · rw [run_snoc]; exact withLatestStep_closed D _ e hc
  · rfl

/-- Nothing matters once the destination is closed. -/
theorem Told.closed {w w' : World B S} {h : List (Either2 A F B F)} (t : Told D s0 w h) (hc : D.isClosed w.s = true) (hs : w'.s = w.s) (e) :
    Told D s0 w' (hear h e) := by
  have : D.isClosed w'.s = false → False := fun e => by rw [hs, hc] at e; cases e
  exact ⟨hear_conf t.conf e, by rw [hear_closed (by rw [← t.s]; exact hc), hs, t.s], fun e => (this e).elim, fun e => (this e).elim, fun e => (this e).elim⟩

theorem Told.send2 (hD : Lawful D obs Inv true) {w : World B S} {h : List (Either2 A F B F)} (t : Told D s0 w h) (ho : Ok D Inv w)
    (hp : w.p2 ≠ .waiting) (n) : Told D s0 (w.send2 D n) (hear h (.o2 n)) := by
  cases hc : D.isClosed w.s with
  | true => exact t.closed hc ((send2_ok hD ho n).shut hc) _
  | false =>
    have hm : w.p2.may n = allows2 h (.o2 n) := (t.p2 hc).may hp n
    have e1 : (w.st, w.s) = withLatestRun D (withLatestInit, s0) h := by rw [t.st hc]; conv => lhs; rw [t.s]
    unfold World.send2 hear
    rw [← hm]
    split
    · rename_i hm'
      have hcf : Conforming (h ++ [.o2 n]) := by
        have := hear_conf t.conf (.o2 n); rwa [hear, if_pos (hm ▸ hm')] at this
      refine ⟨hcf, ?_, fun _ => ?_, fun _ => ?_, fun _ => ?_⟩
      · rw [run_snoc, ← e1]
      · rw [run_snoc, ← e1]
      · rw [left_snoc2]; exact t.p1 hc
      · rw [right_snoc2]; exact (t.p2 hc).after hm'
    · exact t

/-- Leaving an open destination, in whatever way. -/
theorem Told.leave (hD : Lawful D obs Inv true) {w w' : World B S} {h : List (Either2 A F B F)} (t : Told D s0 w h) (ho : Ok D Inv w)
    (hp : w.p1 ≠ .waiting) (hw : D.isClosed w.s = true ∧ w'.s = w.s ∨ w'.s = D.guarded w.s .unsubscribe) :
    Told D s0 w' (hear h (.o1 .unsubscribe)) := by
  cases hc : D.isClosed w.s with
  | true =>
    refine t.closed hc ?_ _
    rcases hw with hw | hw
    · exact hw.2
    · rw [hw]; exact guarded_mono hD ho.inv _ hc
  | false =>
    have hw : w'.s = D.guarded w.s .unsubscribe := by
      rcases hw with hw | hw
      · rw [hc] at hw; exact absurd hw.1 (by simp)
      · exact hw
    have hg : w.p1 ≠ .gone := fun e => by have := ho.closed e; rw [hc] at this; cases this
    have hm : w.p1.may (.unsubscribe : SubscriberNotification A F) = allows2 h (.o1 .unsubscribe) := (t.p1 hc).may hp .unsubscribe
    have hm' : w.p1.may (.unsubscribe : SubscriberNotification A F) = true := by
      revert hp hg; cases w.p1 <;> simp [Phase.may]
    have e1 : (w.st, w.s) = withLatestRun D (withLatestInit, s0) h := by rw [t.st hc]; conv => lhs; rw [t.s]
    have hcl : D.isClosed w'.s = false → False := fun e => by
      rw [hw, guarded_unsub hD ho.inv] at e; cases e
    refine ⟨hear_conf t.conf _, ?_, fun e => (hcl e).elim, fun e => (hcl e).elim, fun e => (hcl e).elim⟩
    rw [hear, if_pos (hm ▸ hm'), run_snoc, ← e1, hw]
    rfl

theorem release_s (k : Kind) (D : Sub S (A × B) F) (w : World B S) :
    D.isClosed w.s = true ∧ (w.release k D).s = w.s ∨ (w.release k D).s = D.guarded w.s .unsubscribe := by
  unfold World.release; split
  · rename_i h; simp only [Bool.and_eq_true] at h; exact .inl ⟨h.2, rfl⟩
  · exact .inr rfl

theorem Told.send1 (k : Kind) (hD : Lawful D obs Inv true) {w : World B S} {h : List (Either2 A F B F)} (t : Told D s0 w h) (ho : Ok D Inv w)
    (hp : w.p1 ≠ .waiting) (n) : Told D s0 (w.send1 k D n) (hear h (.o1 n)) := by
  cases hc : D.isClosed w.s with
  | true => exact t.closed hc ((send1_ok k hD ho n).shut hc) _
  | false =>
    have hm : w.p1.may n = allows2 h (.o1 n) := (t.p1 hc).may hp n
    have e1 : (w.st, w.s) = withLatestRun D (withLatestInit, s0) h := by rw [t.st hc]; conv => lhs; rw [t.s]
    by_cases hm' : w.p1.may n = true
    · by_cases hn : n = .unsubscribe
      · subst hn
        unfold World.send1; rw [if_pos hm']
        exact t.leave hD ho hp (release_s k D w)
      · have hcf : Conforming (h ++ [.o1 n]) := by
          have := hear_conf t.conf (.o1 n); rwa [hear, if_pos (hm ▸ hm')] at this
        rw [hear, if_pos (hm ▸ hm')]
        have hw : w.send1 k D n = { w with st := (withLatestStep D (w.st, w.s) (.o1 n)).1, s := (withLatestStep D (w.st, w.s) (.o1 n)).2, p1 := .after n } := by
          unfold World.send1; rw [if_pos hm']
          cases n with
          | unsubscribe => exact absurd rfl hn
          | _ => rfl
        rw [hw]
        refine ⟨hcf, ?_, fun _ => ?_, fun _ => ?_, fun _ => ?_⟩
        · rw [run_snoc, ← e1]
        · rw [run_snoc, ← e1]
        · rw [left_snoc1]; exact (t.p1 hc).after hm'
        · rw [right_snoc1]; exact t.p2 hc
    · unfold World.send1; rw [if_neg hm', hear, if_neg (hm ▸ hm')]; exact t

/-- Both inputs have been subscribed to. -/
def Begun (w : World B S) : Prop := w.p1 ≠ .waiting ∧ w.p2 ≠ .waiting

theorem after_waiting {I E : Type} (n : SubscriberNotification I E) : Phase.after n ≠ .waiting := by cases n <;> simp [Phase.after]

theorem send2_p (D : Sub S (A × B) F) (w : World B S) (n) : (w.send2 D n).p1 = w.p1 ∧ (w.p2 ≠ .waiting → (w.send2 D n).p2 ≠ .waiting) := by
  unfold World.send2; split
  · exact ⟨rfl, fun _ => after_waiting n⟩
  · exact ⟨rfl, id⟩

theorem release_begun (k : Kind) (D : Sub S (A × B) F) {w : World B S} (h : Begun w) : Begun (w.release k D) := by
  unfold World.release World.leave; split
  · exact ⟨by simp, h.2⟩
  · exact ⟨by simp, by simp⟩

theorem act_begun (k : Kind) (D : Sub S (A × B) F) {w : World B S} (h : Begun w) (a : Act A F B F) : Begun (w.act k D a) := by
  cases a with
  | send1 n =>
    unfold World.act World.send1; dsimp only
    split
    · cases n with
      | unsubscribe => exact release_begun k D h
      | next v => exact ⟨after_waiting (.next v : SubscriberNotification A F), h.2⟩
      | error e => exact ⟨after_waiting (.error e : SubscriberNotification A F), h.2⟩
      | complete => exact ⟨after_waiting (.complete : SubscriberNotification A F), h.2⟩
    · exact h
  | send2 n => exact ⟨by rw [World.act, (send2_p D w n).1]; exact h.1, (send2_p D w n).2 h.2⟩
  | unsubscribe =>
    unfold World.act; dsimp only
    split
    · exact h
    · exact release_begun k D h
  | shut => exact h
  | drop =>
    unfold World.act; dsimp only
    split
    · exact h
    · refine ⟨by simp, ?_⟩
      show (if k.letsGo then Phase.gone else _) ≠ Phase.waiting
      split
      · simp
      · split
        · exact h.2
        · simp [World.leave]

theorem Told.act (k : Kind) (hD : Lawful D obs Inv true) {w : World B S} {h : List (Either2 A F B F)} (t : Told D s0 w h) (ho : Ok D Inv w)
    (hb : Begun w) (a : Act A F B F) : Told D s0 (w.act k D a) (heardLatest h a) := by
  cases a with
  | send1 n => exact t.send1 k hD ho hb.1 n
  | send2 n => exact t.send2 hD ho hb.2 n
  | unsubscribe =>
    refine t.leave hD ho hb.1 ?_
    unfold World.act; dsimp only
    split
    · rename_i hg; exact .inl ⟨ho.closed hg, rfl⟩
    · exact release_s k D w
  | shut => exact t.leave hD ho hb.1 (.inr rfl)
  | drop =>
    refine t.leave hD ho hb.1 ?_
    unfold World.act; dsimp only
    split
    · rename_i hd; exact .inl ⟨ho.closed (ho.drop hd), rfl⟩
    · split
      · rename_i hc; exact .inl ⟨hc, rfl⟩
      · exact .inr rfl

theorem told_acts (k : Kind) (hD : Lawful D obs Inv true) (l : List (Act A F B F)) : ∀ {w : World B S} {h}, Told D s0 w h → Ok D Inv w → Begun w →
    Told D s0 (l.foldl (World.act k D) w) (l.foldl heardLatest h) := by
  induction l with
  | nil => exact fun t _ _ => t
  | cons a l ih => exact fun t ho hb => ih (t.act k hD ho hb a) (act_ok k hD ho a).ok (act_begun k D hb a)

theorem told_run (k : Kind) (hD : Lawful D obs Inv true) (hs : Inv s0) (l2 : List (SubscriberNotification B F))
    (l1 : List (SubscriberNotification A F)) (acts : List (Act A F B F)) : Told D s0 (run k D s0 l2 l1 acts) (saidLatest l2 l1 acts) := by
  have q2 : ∀ (l : List (SubscriberNotification B F)) {w : World B S} {h : List (Either2 A F B F)}, Told D s0 w h → Ok D Inv w → w.p2 ≠ .waiting →
      Told D s0 (l.foldl (World.send2 D) w) ((l.map .o2).foldl hear h) ∧ Ok D Inv (l.foldl (World.send2 D) w) ∧
        (l.foldl (World.send2 D) w).p2 ≠ .waiting ∧ (l.foldl (World.send2 D) w).p1 = w.p1 ∧ (l.foldl (World.send2 D) w).dropped = w.dropped := by
    intro l
    induction l with
    | nil => exact fun t ho hp => ⟨t, ho, hp, rfl, rfl⟩
    | cons n l ih =>
      intro w h t ho hp
      obtain ⟨i1, i2, i3, i4, i5⟩ := ih (t.send2 hD ho hp n) (send2_ok hD ho n).ok ((send2_p D w n).2 hp)
      refine ⟨i1, i2, i3, i4.trans (send2_p D w n).1, i5.trans ?_⟩
      unfold World.send2; split <;> rfl
  have q1 : ∀ (l : List (SubscriberNotification A F)) {w : World B S} {h : List (Either2 A F B F)}, Told D s0 w h → Ok D Inv w → Begun w →
      Told D s0 (l.foldl (World.send1 k D) w) ((l.map .o1).foldl hear h) ∧ Begun (l.foldl (World.send1 k D) w) := by
    intro l
    induction l with
    | nil => exact fun t _ hb => ⟨t, hb⟩
    | cons n l ih => exact fun t ho hb => ih (t.send1 k hD ho hb.1 n) (send1_ok k hD ho n).ok (act_begun k D hb (.send1 n))
  have t0 : Told D s0 (⟨withLatestInit, s0, .waiting, .live, false⟩ : World B S) ([] : List (Either2 A F B F)) :=
    ⟨⟨⟨⟨[], none, false⟩, rfl⟩, ⟨⟨[], none, false⟩, rfl⟩⟩, rfl, fun _ => rfl, fun _ => ⟨rfl, rfl⟩, fun _ => ⟨rfl, rfl⟩⟩
  obtain ⟨i1, i2, i3, i4, i5⟩ := q2 l2 t0 ⟨hs, fun e => (by cases e), fun e => (by cases e)⟩ (by simp)
  let w := l2.foldl (World.send2 D) (⟨withLatestInit, s0, .waiting, .live, false⟩ : World B S)
  have t1 : Told D s0 ({ w with p1 := .live } : World B S) ((l2.map .o2).foldl hear []) := by
    refine ⟨i1.conf, i1.s, i1.st, fun hc => ?_, i1.p2⟩
    have := i1.p1 hc
    rw [i4] at this
    exact ⟨this.unsub, this.fin⟩
  have o1 : Ok D Inv ({ w with p1 := .live } : World B S) := ⟨i2.inv, fun e => (by cases e), fun e => by rw [show w.dropped = false from i5] at e; cases e⟩
  obtain ⟨j1, j2⟩ := q1 l1 t1 o1 ⟨by simp, i3⟩
  exact told_acts k hD acts j1 (subscribe_ok k hD hs l2 l1) j2

end Rx.LatestWiring
