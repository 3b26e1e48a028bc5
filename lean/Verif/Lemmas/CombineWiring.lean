import Verif.Spec.CombineWiring
import Verif.Lemmas.Stray

/-!
# Lemmas about the wiring of combination observables
-/

namespace Rx.Wiring

open Rx Spec

variable {A E₁ B E₂ O F S α : Type}

/-- `Unsubscribe` of the first input. -/
def isU1 : Either2 A E₁ B E₂ → Bool
  | .o1 .unsubscribe => true
  | _ => false

/-- `Unsubscribe` of the second input. -/
def isU2 : Either2 A E₁ B E₂ → Bool
  | .o2 .unsubscribe => true
  | _ => false

/-- What is needed of a combiner whose destination is closed: it takes an `Unsubscribe` of an input
that has not sent one, and does nothing. `Good b₁ b₂` are its states when `bᵢ` says that the input
has not been unsubscribed. -/
structure Tame (C : Combiner A E₁ B E₂ O F) (Good : Bool → Bool → C.St → Prop) : Prop where
  init : Good true true C.init
  mono : ∀ {b1 b2 c1 c2 st}, Good b1 b2 st → (c1 = true → b1 = true) → (c2 = true → b2 = true) → Good c1 c2 st
  keep : ∀ {S : Type} {D : Sub S O F} {b1 b2 st s e st' s'}, Good b1 b2 st → C.next D (st, s) e = some (st', s') →
    Good (b1 && !isU1 e) (b2 && !isU2 e) st'
  quiet1 : ∀ {S : Type} {D : Sub S O F} {b st s}, Good true b st → D.isClosed s = true →
    ∃ st', C.next D (st, s) (.o1 .unsubscribe) = some (st', s)
  quiet2 : ∀ {S : Type} {D : Sub S O F} {b st s}, Good b true st → D.isClosed s = true →
    ∃ st', C.next D (st, s) (.o2 .unsubscribe) = some (st', s)

theorem deliverFrom_append (R : Rule A E₁ B E₂ O F) (es : List (Either2 A E₁ B E₂)) :
    ∀ (l pre : List (Either2 A E₁ B E₂)), (∀ p, p <+: l → p ≠ [] → R.ends (pre ++ p) = none) →
      R.deliverFrom pre (l ++ es) = R.deliverFrom pre l ++ R.deliverFrom (pre ++ l) es := by
  intro l
  induction l with
  | nil => intro pre _; simp [Rule.deliverFrom]
  | cons e l ih =>
    intro pre h
    have h1 : R.ends (pre ++ [e]) = none := h [e] (by simp) (by simp)
    have h2 := ih (pre ++ [e]) (fun p hp hne => by
      have := h (e :: p) (by simpa using hp) (by simp)
      simpa using this)
    simp only [List.cons_append, Rule.deliverFrom, h1]
    rw [h2]
    simp [List.append_assoc]

theorem deliver_snoc {R : Rule A E₁ B E₂ O F} {h : List (Either2 A E₁ B E₂)} {e}
    (hh : ∀ p, p <+: h → p ≠ [] → R.ends p = none) :
    R.deliver (h ++ [e]) = R.deliver h ++ ((R.emits (h ++ [e])).map .next ++ (R.ends (h ++ [e])).toList) := by
  rw [Rule.deliver, deliverFrom_append R [e] h [] (by simpa using hh)]
  simp only [Rule.deliver, List.nil_append, Rule.deliverFrom]
  cases R.ends (h ++ [e]) <;> simp

variable {C : Combiner A E₁ B E₂ O F}

/-- While the destination is open. -/
structure Open (R : Rule A E₁ B E₂ O F) (Rep : List (Either2 A E₁ B E₂) → C.St → Prop) (D : Sub S O F) (s0 : S)
    (q1 q2 : Bool) (k1 k2 : Nat) (w : World C S) : Prop where
  rep : Rep w.hist w.st
  ends : ∀ p, p <+: w.hist → p ≠ [] → R.ends p = none
  conf : Conforming w.hist
  state : w.s = D.run s0 (R.deliver w.hist)
  noShut : w.shut = false
  un1 : unsubscribed (left w.hist) = (decide (w.p1 = .gone) && !q1)
  un2 : unsubscribed (right w.hist) = (decide (w.p2 = .gone) && !q2)
  live1 : w.p1 = .live ∨ w.p1 = .waiting → finished (left w.hist) = false
  live2 : w.p2 = .live ∨ w.p2 = .waiting → finished (right w.hist) = false
  end1 : w.p1 = .ended → finished (left w.hist) = true
  end2 : w.p2 = .ended → finished (right w.hist) = true
  c1 : (valsOf (left w.hist)).length ≤ k1
  c2 : (valsOf (right w.hist)).length ≤ k2

/-- Before `n` is processed. -/
structure Ready (R : Rule A E₁ B E₂ O F) (Rep : List (Either2 A E₁ B E₂) → C.St → Prop) (D : Sub S O F) (s0 : S)
    (q1 q2 : Bool) (k1 k2 : Nat) (w : World C S) (n : Either2 A E₁ B E₂) : Prop where
  rep : Rep w.hist w.st
  ends : ∀ p, p <+: w.hist → p ≠ [] → R.ends p = none
  conf : Conforming (w.hist ++ [n])
  state : w.s = D.run s0 (R.deliver w.hist)
  noShut : w.shut = false
  un1 : unsubscribed (left (w.hist ++ [n])) = (decide (w.p1 = .gone) && !q1)
  un2 : unsubscribed (right (w.hist ++ [n])) = (decide (w.p2 = .gone) && !q2)
  live1 : w.p1 = .live ∨ w.p1 = .waiting → finished (left (w.hist ++ [n])) = false ∨ R.ends (w.hist ++ [n]) ≠ none
  live2 : w.p2 = .live ∨ w.p2 = .waiting → finished (right (w.hist ++ [n])) = false ∨ R.ends (w.hist ++ [n]) ≠ none
  end1 : w.p1 = .ended → finished (left (w.hist ++ [n])) = true
  end2 : w.p2 = .ended → finished (right (w.hist ++ [n])) = true
  c1 : (valsOf (left (w.hist ++ [n]))).length ≤ k1
  c2 : (valsOf (right (w.hist ++ [n]))).length ≤ k2

/-- What the destination has heard. -/
def tail (shut : Bool) : List (SubscriberNotification O F) := if shut then [.unsubscribe] else []

/-- The invariant; `q1` and `q2` say which `Unsubscribe`s are deferred. -/
structure K (R : Rule A E₁ B E₂ O F) (Rep : List (Either2 A E₁ B E₂) → C.St → Prop) (Good : Bool → Bool → C.St → Prop)
    (D : Sub S O F) (obs : S → α) (s0 : S) (q1 q2 : Bool) (k1 k2 : Nat) (w : World C S) : Prop where
  queue : w.queue = []
  good : Good (decide (w.p1 ≠ .gone) || q1) (decide (w.p2 ≠ .gone) || q2) w.st
  pg1 : q1 = true → w.p1 = .gone
  pg2 : q2 = true → w.p2 = .gone
  isOpen : D.isClosed w.s = false → Open R Rep D s0 q1 q2 k1 k2 w
  heard : obs w.s = obs (D.run s0 (R.deliver w.hist ++ tail w.shut)) ∧
    D.isClosed w.s = D.isClosed (D.run s0 (R.deliver w.hist ++ tail w.shut))

/-- The handle is closed when the destination is or when somebody asked, and only then. -/
structure L (D : Sub S O F) (w : World C S) : Prop where
  fresh : w.linked = false → w.closed = false ∧ w.asked = false
  why : w.closed = true → D.isClosed w.s = true ∨ w.asked = true
  done : w.linked = true → D.isClosed w.s = true ∨ w.asked = true → w.closed = true

/-- What processing does not change. -/
structure Same (asks : S → Bool) (w w' : World C S) : Prop where
  p1 : w'.p1 = w.p1
  p2 : w'.p2 = w.p2
  linked : w'.linked = w.linked
  closed : w'.closed = w.closed
  shut : w'.shut = w.shut
  asked : w.asked = true → w'.asked = true
  whose : w'.asked = true → w.asked = true ∨ ∃ s, asks s = true

theorem Same.refl {asks : S → Bool} (w : World C S) : Same asks w w := ⟨rfl, rfl, rfl, rfl, rfl, id, .inl⟩
theorem Same.trans {asks : S → Bool} {w w' w'' : World C S} (h : Same asks w w') (h' : Same asks w' w'') : Same asks w w'' :=
  ⟨h'.p1.trans h.p1, h'.p2.trans h.p2, h'.linked.trans h.linked, h'.closed.trans h.closed,
    h'.shut.trans h.shut, h'.asked ∘ h.asked, fun x => (h'.whose x).elim h.whose .inr⟩

section
variable {R : Rule A E₁ B E₂ O F} {P : List (Either2 A E₁ B E₂) → Prop}
  {Rep : List (Either2 A E₁ B E₂) → C.St → Prop} {Good : Bool → Bool → C.St → Prop}
  {D : Sub S O F} {obs : S → α} {Inv : S → Prop} {s0 : S}

/-- The world after the combination's subscriber is done, before anybody reacts. -/
def World.mid (D : Sub S O F) (asks : S → Bool) (w : World C S) (n : Either2 A E₁ B E₂) (x : C.St × S) : World C S :=
  { w with st := x.1, s := x.2, hist := if D.isClosed w.s then w.hist else w.hist ++ [n],
           asked := w.asked || (w.linked && asks x.2) }

theorem process_eq (asks : S → Bool) (w : World C S) (n : Either2 A E₁ B E₂) {x} (hx : C.next D (w.st, w.s) n = some x) :
    w.process D asks n = some (if w.linked && (D.isClosed x.2 || asks x.2) then (w.mid D asks n x).releaseLocked
      else w.mid D asks n x) := by
  simp only [World.process, hx, Option.map_some, World.mid]
  cases w.linked <;> cases asks x.2 <;> simp

theorem mid_same (asks : S → Bool) (w : World C S) (n : Either2 A E₁ B E₂) (x) : Same asks w (w.mid D asks n x) :=
  ⟨rfl, rfl, rfl, rfl, rfl, fun h => by simp [World.mid, h], fun h => by
    simp only [World.mid, Bool.or_eq_true, Bool.and_eq_true] at h
    exact h.imp id fun h => ⟨_, h.2⟩⟩

theorem mid_L (asks : S → Bool) {w : World C S} (n : Either2 A E₁ B E₂) {x} (hL : L D w)
    (hm : D.isClosed w.s = true → D.isClosed x.2 = true) :
    ((w.linked && (D.isClosed x.2 || asks x.2)) = false → L D (w.mid D asks n x)) ∧
    (w.closed = true → L D (w.mid D asks n x)) := by
  obtain ⟨l1, l2, l3⟩ := hL
  constructor
  · intro hc
    refine ⟨fun hl => ⟨(l1 hl).1, ?_⟩, fun hcl => ?_, fun hl h => ?_⟩
    · show (w.asked || (w.linked && asks x.2)) = false
      have hl : w.linked = false := hl
      simp [(l1 hl).2, hl]
    · rcases l2 hcl with h | h
      · exact .inl (hm h)
      · exact .inr (by simp [World.mid, h])
    · have hl : w.linked = true := hl
      simp only [hl, Bool.true_and, Bool.or_eq_false_iff] at hc
      apply l3 hl
      rcases h with h | h
      · have h : D.isClosed x.2 = true := h
        simp [hc.1] at h
      · have h : (w.asked || (w.linked && asks x.2)) = true := h
        simp [hc.2] at h
        exact .inr h
  · intro hcl
    refine ⟨fun hl => ?_, fun _ => ?_, fun _ _ => hcl⟩
    · have := (l1 hl).1; simp [hcl] at this
    · rcases l2 hcl with h | h
      · exact .inl (hm h)
      · exact .inr (by simp [World.mid, h])

/-- Processing while the destination is open. -/
theorem mid_open (hC : C.Implements R P Rep) (hG : Tame C Good) (hD : Lawful D obs Inv true) (asks : S → Bool)
    {q1 q2 k1 k2} {w : World C S} {n} (hi0 : Inv s0) (hq : w.queue = []) (ho : D.isClosed w.s = false)
    {b1 b2} (hg : Good b1 b2 w.st) (hg1 : (w.p1 ≠ .gone ∨ q1 = true) → b1 = true ∧ isU1 n = false)
    (hg2 : (w.p2 ≠ .gone ∨ q2 = true) → b2 = true ∧ isU2 n = false)
    (pg1 : q1 = true → w.p1 = .gone) (pg2 : q2 = true → w.p2 = .gone)
    (hr : Ready R Rep D s0 q1 q2 k1 k2 w n) (hp : P (w.hist ++ [n])) :
    ∃ x, C.next D (w.st, w.s) n = some x ∧ K R Rep Good D obs s0 q1 q2 k1 k2 (w.mid D asks n x) := by
  have hi : Inv w.s := hr.state ▸ hD.run_inv hi0 _
  obtain ⟨st', s', h1, h2, h3⟩ := hC.step D obs Inv hD w.s hi ho w.hist n w.st hp hr.rep
  refine ⟨(st', s'), h1, ?_⟩
  have hrun : D.run w.s ((R.emits (w.hist ++ [n])).map .next ++ (R.ends (w.hist ++ [n])).toList) =
      D.run s0 (R.deliver (w.hist ++ [n])) := by
    rw [deliver_snoc hr.ends, Sub.run_append D s0, ← hr.state]
  have hend : R.ends (w.hist ++ [n]) ≠ none → D.isClosed s' = true := by
    intro hne
    rw [h3.obs.2]
    cases he : R.ends (w.hist ++ [n]) with
    | none => exact absurd he hne
    | some t =>
      rw [Option.toList_some, Sub.run_append]
      exact hD.closing (hD.run_inv hi _) t (hC.ends _ _ he)
  rw [hrun] at h3
  refine ⟨hq, ?_, pg1, pg2, ?_, ?_⟩
  · refine hG.mono (hG.keep hg h1) ?_ ?_
    · intro h
      have := hg1 (by
        rcases Bool.or_eq_true_iff.1 h with h | h
        · exact .inl (of_decide_eq_true h)
        · exact .inr h)
      simp [this]
    · intro h
      have := hg2 (by
        rcases Bool.or_eq_true_iff.1 h with h | h
        · exact .inl (of_decide_eq_true h)
        · exact .inr h)
      simp [this]
  · intro hcl
    have hcl : D.isClosed s' = false := hcl
    have he : R.ends (w.hist ++ [n]) = none := by
      cases he : R.ends (w.hist ++ [n]) with
      | none => rfl
      | some t => have := hend (by simp [he]); simp [hcl] at this
    have hh : (w.mid D asks n (st', s')).hist = w.hist ++ [n] := by simp [World.mid, ho]
    refine ⟨?_, ?_, ?_, ?_, hr.noShut, ?_, ?_, ?_, ?_, ?_, ?_, ?_, ?_⟩ <;> rw [hh]
    · exact h2 he
    · intro p hp hne
      rcases List.prefix_concat_iff.1 hp with rfl | hp
      · exact he
      · exact hr.ends p hp hne
    · exact hr.conf
    · rcases h3 with h | h
      · exact h
      · simp [hcl] at h
    · exact hr.un1
    · exact hr.un2
    · intro h; rcases hr.live1 h with h | h
      · exact h
      · exact absurd he h
    · intro h; rcases hr.live2 h with h | h
      · exact h
      · exact absurd he h
    · exact hr.end1
    · exact hr.end2
    · exact hr.c1
    · exact hr.c2
  · have hh : (w.mid D asks n (st', s')).hist = w.hist ++ [n] := by simp [World.mid, ho]
    have hs : (w.mid D asks n (st', s')).shut = false := hr.noShut
    rw [hh, hs]
    simpa [tail, World.mid] using h3.obs

/-- Processing a deferred `Unsubscribe` while the destination is closed. -/
theorem mid_closed1 (hG : Tame C Good) (asks : S → Bool) {q2 k1 k2} {w : World C S} (hc : D.isClosed w.s = true)
    (h : K R Rep Good D obs s0 true q2 k1 k2 w) :
    ∃ x, C.next D (w.st, w.s) (.o1 .unsubscribe) = some x ∧ x.2 = w.s ∧
      K R Rep Good D obs s0 false q2 k1 k2 (w.mid D asks (.o1 .unsubscribe) x) := by
  obtain ⟨st', hx⟩ := hG.quiet1 (D := D) (s := w.s) (hG.mono h.good (c1 := true) (by simp) id) hc
  refine ⟨_, hx, rfl, h.queue, ?_, by simp, h.pg2, fun ho => ?_, ?_⟩
  · refine hG.mono (hG.keep h.good hx) ?_ ?_
    · have := h.pg1 rfl; simp [World.mid, this]
    · intro hh; simp only [isU2, Bool.not_false, Bool.and_true]; exact hh
  · have ho : D.isClosed w.s = false := ho
    simp [hc] at ho
  · have := h.heard
    simpa [World.mid, hc] using this

theorem mid_closed2 (hG : Tame C Good) (asks : S → Bool) {q1 k1 k2} {w : World C S} (hc : D.isClosed w.s = true)
    (h : K R Rep Good D obs s0 q1 true k1 k2 w) :
    ∃ x, C.next D (w.st, w.s) (.o2 .unsubscribe) = some x ∧ x.2 = w.s ∧
      K R Rep Good D obs s0 q1 false k1 k2 (w.mid D asks (.o2 .unsubscribe) x) := by
  obtain ⟨st', hx⟩ := hG.quiet2 (D := D) (s := w.s) (hG.mono h.good (c2 := true) id (by simp)) hc
  refine ⟨_, hx, rfl, h.queue, ?_, h.pg1, by simp, fun ho => ?_, ?_⟩
  · refine hG.mono (hG.keep h.good hx) ?_ ?_
    · intro hh; simp only [isU1, Bool.not_false, Bool.and_true]; exact hh
    · have := h.pg2 rfl; simp [World.mid, this]
  · have ho : D.isClosed w.s = false := ho
    simp [hc] at ho
  · have := h.heard
    simpa [World.mid, hc] using this

theorem finished_unsub {I E : Type} {ns : List (SubscriberNotification I E)} (h : finished ns = false) :
    unsubscribed ns = false := by
  simp only [finished, Bool.or_eq_false_iff] at h; exact h.1.2

/-- The `Unsubscribe` of an input that has not sent one may follow. -/
theorem ready_u1 {q1 q2 k1 k2} {w w0 : World C S} (h : Open R Rep D s0 q1 q2 k1 k2 w0) (hun : unsubscribed (left w0.hist) = false)
    (hst : w.st = w0.st) (hs : w.s = w0.s) (hh : w.hist = w0.hist) (hsh : w.shut = w0.shut) (h1 : w.p1 = .gone) (h2 : w.p2 = w0.p2) :
    Ready R Rep D s0 false q2 k1 k2 w (.o1 .unsubscribe) := by
  have hl : left (w0.hist ++ [.o1 .unsubscribe]) = left w0.hist ++ [.unsubscribe] := left_snoc1 _ _
  have hrr : right (w0.hist ++ [.o1 .unsubscribe]) = right w0.hist := right_snoc1 _ _
  refine ⟨?_, ?_, ?_, ?_, hsh ▸ h.noShut, ?_, ?_, ?_, ?_, ?_, ?_, ?_, ?_⟩ <;> rw [hh]
  · rw [hst]; exact h.rep
  · exact h.ends
  · refine ⟨?_, ?_⟩
    · rw [hl]; exact grammar_snoc h.conf.1 hun
    · rw [hrr]; exact h.conf.2
  · rw [hs]; exact h.state
  · rw [hl, unsubscribed_snoc]; simp [h1]
  · rw [hrr, h2]; exact h.un2
  · rw [h1]; simp
  · rw [h2, hrr]; exact fun hx => .inl (h.live2 hx)
  · rw [h1]; simp
  · rw [h2, hrr]; exact h.end2
  · rw [hl, valsOf_snoc]; simpa using h.c1
  · rw [hrr]; exact h.c2

theorem ready_u2 {q1 q2 k1 k2} {w w0 : World C S} (h : Open R Rep D s0 q1 q2 k1 k2 w0) (hun : unsubscribed (right w0.hist) = false)
    (hst : w.st = w0.st) (hs : w.s = w0.s) (hh : w.hist = w0.hist) (hsh : w.shut = w0.shut) (h1 : w.p1 = w0.p1) (h2 : w.p2 = .gone) :
    Ready R Rep D s0 q1 false k1 k2 w (.o2 .unsubscribe) := by
  have hl : left (w0.hist ++ [.o2 .unsubscribe]) = left w0.hist := left_snoc2 _ _
  have hrr : right (w0.hist ++ [.o2 .unsubscribe]) = right w0.hist ++ [.unsubscribe] := right_snoc2 _ _
  refine ⟨?_, ?_, ?_, ?_, hsh ▸ h.noShut, ?_, ?_, ?_, ?_, ?_, ?_, ?_, ?_⟩ <;> rw [hh]
  · rw [hst]; exact h.rep
  · exact h.ends
  · refine ⟨?_, ?_⟩
    · rw [hl]; exact h.conf.1
    · rw [hrr]; exact grammar_snoc h.conf.2 hun
  · rw [hs]; exact h.state
  · rw [hl, h1]; exact h.un1
  · rw [hrr, unsubscribed_snoc]; simp [h2]
  · rw [h1, hl]; exact fun hx => .inl (h.live1 hx)
  · rw [h2]; simp
  · rw [h1, hl]; exact h.end1
  · rw [h2]; simp
  · rw [hl]; exact h.c1
  · rw [hrr, valsOf_snoc]; simpa using h.c2

/-- What the histories that occur are like. -/
def Fits (P : List (Either2 A E₁ B E₂) → Prop) (k1 k2 : Nat) : Prop :=
  ∀ h, Conforming h → (valsOf (left h)).length ≤ k1 → (valsOf (right h)).length ≤ k2 → P h

theorem Ready.fits {q1 q2 k1 k2} {w : World C S} {n} (h : Ready R Rep D s0 q1 q2 k1 k2 w n) (hf : Fits P k1 k2) :
    P (w.hist ++ [n]) := hf _ h.conf h.c1 h.c2

/-- A deferred `Unsubscribe` of the first input is processed. -/
theorem pend1 (hC : C.Implements R P Rep) (hG : Tame C Good) (hD : Lawful D obs Inv true) (asks : S → Bool) (hi0 : Inv s0)
    {q2 k1 k2} (hf : Fits P k1 k2) {w : World C S} (h : K R Rep Good D obs s0 true q2 k1 k2 w) (hL : L D w) (hcl : w.closed = true) :
    ∃ w', w.process D asks (.o1 .unsubscribe) = some w' ∧ K R Rep Good D obs s0 false q2 k1 k2 w' ∧ L D w' ∧ Same asks w w' ∧
      (D.isClosed w.s = true → w'.hist = w.hist ∧ D.isClosed w'.s = true) := by
  have close : ∀ {x}, C.next D (w.st, w.s) (.o1 .unsubscribe) = some x →
      w.process D asks (.o1 .unsubscribe) = some (w.mid D asks (.o1 .unsubscribe) x) := by
    intro x hx
    rw [process_eq asks w _ hx]
    have : (w.mid D asks (.o1 .unsubscribe) x).closed = true := hcl
    split
    · rw [World.releaseLocked, if_pos this]
    · rfl
  cases hc : D.isClosed w.s with
  | true =>
    obtain ⟨x, hx, hs, hk⟩ := mid_closed1 hG asks hc h
    exact ⟨_, close hx, hk, (mid_L asks _ hL (fun _ => hs ▸ hc)).2 hcl, mid_same .., fun _ => ⟨by simp [World.mid, hc], by simp [World.mid, hs, hc]⟩⟩
  | false =>
    have ho := h.isOpen hc
    have hr : Ready R Rep D s0 false q2 k1 k2 w (.o1 .unsubscribe) :=
      ready_u1 ho (by rw [ho.un1]; simp) rfl rfl rfl rfl (h.pg1 rfl) rfl
    obtain ⟨x, hx, hk⟩ := mid_open hC hG hD asks hi0 h.queue hc h.good
      (by rw [h.pg1 rfl]; simp) (by
        intro hh
        refine ⟨?_, rfl⟩
        simpa using hh) (by simp) h.pg2 hr (hr.fits hf)
    exact ⟨_, close hx, hk, (mid_L asks _ hL (by simp [hc])).2 hcl, mid_same .., by simp⟩

theorem pend2 (hC : C.Implements R P Rep) (hG : Tame C Good) (hD : Lawful D obs Inv true) (asks : S → Bool) (hi0 : Inv s0)
    {q1 k1 k2} (hf : Fits P k1 k2) {w : World C S} (h : K R Rep Good D obs s0 q1 true k1 k2 w) (hL : L D w) (hcl : w.closed = true) :
    ∃ w', w.process D asks (.o2 .unsubscribe) = some w' ∧ K R Rep Good D obs s0 q1 false k1 k2 w' ∧ L D w' ∧ Same asks w w' ∧
      (D.isClosed w.s = true → w'.hist = w.hist ∧ D.isClosed w'.s = true) := by
  have close : ∀ {x}, C.next D (w.st, w.s) (.o2 .unsubscribe) = some x →
      w.process D asks (.o2 .unsubscribe) = some (w.mid D asks (.o2 .unsubscribe) x) := by
    intro x hx
    rw [process_eq asks w _ hx]
    have : (w.mid D asks (.o2 .unsubscribe) x).closed = true := hcl
    split
    · rw [World.releaseLocked, if_pos this]
    · rfl
  cases hc : D.isClosed w.s with
  | true =>
    obtain ⟨x, hx, hs, hk⟩ := mid_closed2 hG asks hc h
    exact ⟨_, close hx, hk, (mid_L asks _ hL (fun _ => hs ▸ hc)).2 hcl, mid_same .., fun _ => ⟨by simp [World.mid, hc], by simp [World.mid, hs, hc]⟩⟩
  | false =>
    have ho := h.isOpen hc
    have hr : Ready R Rep D s0 q1 false k1 k2 w (.o2 .unsubscribe) :=
      ready_u2 ho (by rw [ho.un2]; simp) rfl rfl rfl rfl rfl (h.pg2 rfl)
    obtain ⟨x, hx, hk⟩ := mid_open hC hG hD asks hi0 h.queue hc h.good
      (by
        intro hh
        refine ⟨?_, rfl⟩
        simpa using hh) (by rw [h.pg2 rfl]; simp) h.pg1 (by simp) hr (hr.fits hf)
    exact ⟨_, close hx, hk, (mid_L asks _ hL (by simp [hc])).2 hcl, mid_same .., by simp⟩

/-- The world in which the handle was unsubscribed, with what was deferred set apart. -/
def World.let1 (w : World C S) : World C S := { w with closed := true, p1 := .gone, p2 := .gone }

theorem let1_K {k1 k2} {w : World C S} (h : K R Rep Good D obs s0 false false k1 k2 w) :
    K R Rep Good D obs s0 (decide (w.p1 ≠ .gone)) (decide (w.p2 ≠ .gone)) k1 k2 w.let1 := by
  refine ⟨h.queue, ?_, fun _ => rfl, fun _ => rfl, fun ho => ?_, h.heard⟩
  · have := h.good
    simpa [World.let1] using this
  · obtain ⟨a1, a2, a3, a4, a5, a6, a7, a8, a9, _, _, a10, a11⟩ := h.isOpen ho
    refine ⟨a1, a2, a3, a4, a5, ?_, ?_, ?_, ?_, ?_, ?_, a10, a11⟩
    · simpa [World.let1] using a6
    · simpa [World.let1] using a7
    all_goals simp [World.let1]

/-- What a notification does to the handle and to the inputs. -/
inductive Moved (asks : S → Bool) (w w' : World C S) : Prop where
  | same : Same asks w w' → Moved asks w w'
  | released : w.closed = false → w.linked = true → w'.linked = true → w'.closed = true → w'.p1 = .gone → w'.p2 = .gone →
      w'.shut = w.shut → (w.asked = true → w'.asked = true) →
      (w'.asked = true → w.asked = true ∨ ∃ s, asks s = true) → Moved asks w w'

/-- Deferred `Unsubscribe`s are processed. -/
theorem drained (hC : C.Implements R P Rep) (hG : Tame C Good) (hD : Lawful D obs Inv true) (asks : S → Bool) (hi0 : Inv s0)
    {k1 k2} (hf : Fits P k1 k2) {w : World C S} (h : K R Rep Good D obs s0 false false k1 k2 w) (hw : w.closed = false)
    (hL : L D w.let1) :
    ∃ w', World.drain D asks 10 w.releaseLocked = some w' ∧ K R Rep Good D obs s0 false false k1 k2 w' ∧ L D w' ∧
      Same asks w.let1 w' ∧ (D.isClosed w.s = true → w'.hist = w.hist) := by
  have hK := let1_K h
  have hrel : w.releaseLocked = { w.let1 with queue := (if w.p1 = .gone then [] else [.o1 .unsubscribe]) ++
      (if w.p2 = .gone then [] else [.o2 .unsubscribe]) } := by
    simp [World.releaseLocked, hw, World.let1, h.queue]
  have hq : ({ w.let1 with queue := [] } : World C S) = w.let1 := by
    have : w.let1.queue = [] := h.queue
    rw [← this]
  have hfin : ∀ {w' : World C S} (n : Nat), K R Rep Good D obs s0 false false k1 k2 w' → World.drain D asks (n + 1) w' = some w' := by
    intro w' n hk
    rw [World.drain, if_pos (by rw [hk.queue]; rfl)]
  rw [hrel]
  by_cases g1 : w.p1 = .gone <;> by_cases g2 : w.p2 = .gone
  · simp only [g1, g2, if_true, ne_eq, not_true_eq_false, decide_false, List.append_nil] at hK ⊢
    rw [hq]
    exact ⟨_, hfin 9 hK, hK, hL, Same.refl _, fun _ => rfl⟩
  · simp only [g1, g2, if_true, if_false, ne_eq, not_true_eq_false, not_false_eq_true, decide_false, decide_true, List.nil_append] at hK ⊢
    obtain ⟨w', e1, e2, e3, e4, e5⟩ := pend2 hC hG hD asks hi0 hf hK hL rfl
    refine ⟨w', ?_, e2, e3, e4, fun hc => (e5 hc).1⟩
    rw [World.drain, if_neg (by simp)]
    simp only [List.foldlM_cons, List.foldlM_nil]
    rw [hq, e1]
    exact hfin 8 e2
  · simp only [g1, g2, if_true, if_false, ne_eq, not_true_eq_false, not_false_eq_true, decide_false, decide_true, List.append_nil] at hK ⊢
    obtain ⟨w', e1, e2, e3, e4, e5⟩ := pend1 hC hG hD asks hi0 hf hK hL rfl
    refine ⟨w', ?_, e2, e3, e4, fun hc => (e5 hc).1⟩
    rw [World.drain, if_neg (by simp)]
    simp only [List.foldlM_cons, List.foldlM_nil]
    rw [hq, e1]
    exact hfin 8 e2
  · simp only [g1, g2, if_false, ne_eq, not_false_eq_true, decide_true, List.cons_append, List.nil_append] at hK ⊢
    obtain ⟨w', e1, e2, e3, e4, e5⟩ := pend1 hC hG hD asks hi0 hf hK hL rfl
    obtain ⟨w'', f1, f2, f3, f4, f5⟩ := pend2 hC hG hD asks hi0 hf e2 e3 (e4.closed.trans rfl)
    refine ⟨w'', ?_, f2, f3, e4.trans f4, fun hc => ((f5 (e5 hc).2).1).trans (e5 hc).1⟩
    rw [World.drain, if_neg (by simp)]
    simp only [List.foldlM_cons, List.foldlM_nil]
    rw [hq, e1]
    simp only [Option.bind_eq_bind, Option.bind_some]
    rw [f1]
    exact hfin 8 f2

/-- `next` of the `SharedSubscriber`. -/
theorem give_open (hC : C.Implements R P Rep) (hG : Tame C Good) (hD : Lawful D obs Inv true) (asks : S → Bool) (hi0 : Inv s0)
    {k1 k2} (hf : Fits P k1 k2) {w : World C S} {n} (hq : w.queue = []) (ho : D.isClosed w.s = false)
    {b1 b2} (hg : Good b1 b2 w.st) (hg1 : w.p1 ≠ .gone → b1 = true ∧ isU1 n = false)
    (hg2 : w.p2 ≠ .gone → b2 = true ∧ isU2 n = false)
    (hr : Ready R Rep D s0 false false k1 k2 w n) (hL : L D w) :
    ∃ w', w.give D asks n = some w' ∧ K R Rep Good D obs s0 false false k1 k2 w' ∧ L D w' ∧ Moved asks w w' ∧
      ((∀ s, asks s = false) → w'.hist = w.hist ++ [n]) := by
  obtain ⟨x, hx, hk⟩ := mid_open hC hG hD asks hi0 hq ho hg (by simpa using hg1) (by simpa using hg2) (by simp) (by simp) hr (hr.fits hf)
  have hsame : Same asks w (w.mid D asks n x) := mid_same ..
  have hh : (w.mid D asks n x).hist = w.hist ++ [n] := by simp [World.mid, ho]
  have hfin : ∀ {w' : World C S}, K R Rep Good D obs s0 false false k1 k2 w' → World.drain D asks 10 w' = some w' := by
    intro w' hk
    rw [World.drain, if_pos (by rw [hk.queue]; rfl)]
  rw [World.give, if_neg (by simp [ho]), process_eq asks w n hx]
  simp only [Option.bind_some]
  cases hc : (w.linked && (D.isClosed x.2 || asks x.2)) with
  | false =>
    simp only [Bool.false_eq_true, if_false]
    exact ⟨_, hfin hk, hk, (mid_L asks n hL (by simp [ho])).1 hc, .same hsame, fun _ => hh⟩
  | true =>
    simp only [if_true]
    cases hcl : w.closed with
    | true =>
      have : (w.mid D asks n x).closed = true := hcl
      rw [World.releaseLocked, if_pos this]
      exact ⟨_, hfin hk, hk, (mid_L asks n hL (by simp [ho])).2 hcl, .same hsame, fun _ => hh⟩
    | false =>
      simp only [Bool.and_eq_true, Bool.or_eq_true] at hc
      have hL' : L D (w.mid D asks n x).let1 := by
        refine ⟨fun hl => ?_, fun _ => ?_, fun _ _ => rfl⟩
        · have hl : w.linked = false := hl
          simp [hc.1] at hl
        · rcases hc.2 with h | h
          · exact .inl h
          · exact .inr (by simp [World.let1, World.mid, hc.1, h])
      obtain ⟨w', e1, e2, e3, e4, e5⟩ := drained hC hG hD asks hi0 hf hk (hsame.closed.trans hcl) hL'
      refine ⟨w', e1, e2, e3, .released hcl hc.1 (e4.linked.trans hc.1) e4.closed e4.p1 e4.p2 e4.shut (fun h => e4.asked (hsame.asked h))
        (fun h => (e4.whose h).elim hsame.whose .inr), fun ha => ?_⟩
      rw [e5, hh]
      rcases hc.2 with h | h
      · exact h
      · simp [ha] at h

theorem give_closed (asks : S → Bool) {w : World C S} (n) (hc : D.isClosed w.s = true) : w.give D asks n = some w := by
  rw [World.give, if_pos hc]

/-- The histories of a combination nobody interferes with. -/
structure N (D : Sub S O F) (w : World C S) (H : List (Either2 A E₁ B E₂)) : Prop where
  pre : w.hist <+: H
  eq : D.isClosed w.s = false → w.hist = H

/-- One if this is a value. -/
def nx {I E : Type} : SubscriberNotification I E → Nat
  | .next _ => 1
  | _ => 0

theorem nx_vals {I E : Type} (ns : List (SubscriberNotification I E)) (n) :
    (valsOf (ns ++ [n])).length = (valsOf ns).length + nx n := by
  rw [valsOf_snoc]; cases n <;> simp [nx]

theorem may_follow {I E : Type} {p : Phase} {n : SubscriberNotification I E} {ns} (hm : p.may n = true)
    (hl : p = .live ∨ p = .waiting → finished ns = false) (hu : unsubscribed ns = decide (p = .gone)) : MayFollow ns n := by
  cases n with
  | unsubscribe =>
    simp only [Phase.may, Bool.or_eq_true, beq_iff_eq] at hm
    show unsubscribed ns = false
    rw [hu]
    rcases hm with rfl | rfl <;> simp
  | _ =>
    simp only [Phase.may, beq_iff_eq] at hm
    have := hl (.inl hm)
    simp only [finished, Bool.or_eq_false_iff] at this
    exact ⟨this.1.1, this.1.2, by simpa using this.2⟩

theorem may_ne {I E : Type} {p : Phase} {n : SubscriberNotification I E} (hm : p.may n = true) : p ≠ .gone := by
  rintro rfl
  cases n <;> simp [Phase.may] at hm

theorem after_gone {I E : Type} {n : SubscriberNotification I E} : Phase.after n = .gone ↔ n = .unsubscribe := by
  cases n <;> simp [Phase.after]

theorem may_allows {I E : Type} {p : Phase} {n : SubscriberNotification I E} {ns} (hp : p ≠ .waiting)
    (hl : p = .live ∨ p = .waiting → finished ns = false) (he : p = .ended → finished ns = true)
    (hu : unsubscribed ns = decide (p = .gone)) : p.may n = allows ns n := by
  have hf : p = .gone → finished ns = true := by
    rintro rfl
    simp only [decide_true] at hu
    simp [finished, hu]
  cases p with
  | waiting => simp at hp
  | live => cases n <;> simp [Phase.may, allows, hu, hl]
  | ended => cases n <;> simp [Phase.may, allows, hu, he]
  | gone => cases n <;> simp [Phase.may, allows, hu, hf]

/-- Between actions. -/
structure W (R : Rule A E₁ B E₂ O F) (Rep : List (Either2 A E₁ B E₂) → C.St → Prop) (Good : Bool → Bool → C.St → Prop)
    (D : Sub S O F) (obs : S → α) (s0 : S) (k1 k2 : Nat) (w : World C S) : Prop where
  k : K R Rep Good D obs s0 false false k1 k2 w
  l : L D w
  rel : w.closed = true → w.p1 = .gone ∧ w.p2 = .gone

theorem K.mono {q1 q2 k1 k2 k1' k2'} {w : World C S} (h : K R Rep Good D obs s0 q1 q2 k1 k2 w) (h1 : k1 ≤ k1') (h2 : k2 ≤ k2') :
    K R Rep Good D obs s0 q1 q2 k1' k2' w := by
  obtain ⟨a1, a2, a3, a4, a5, a6⟩ := h
  refine ⟨a1, a2, a3, a4, fun ho => ?_, a6⟩
  obtain ⟨b1, b2, b3, b4, b5, b6, b7, b8, b9, b10, b11, b12, b13⟩ := a5 ho
  exact ⟨b1, b2, b3, b4, b5, b6, b7, b8, b9, b10, b11, Nat.le_trans b12 h1, Nat.le_trans b13 h2⟩

/-- What an action leaves as it was. -/
structure Kept (asks : S → Bool) (w w' : World C S) : Prop where
  linked : w'.linked = w.linked
  asked : w.asked = true → w'.asked = true
  whose : w'.asked = true → w.asked = true ∨ ∃ s, asks s = true
  shut : w'.shut = w.shut
  wait1 : w.p1 ≠ .waiting → w'.p1 ≠ .waiting
  wait2 : w.p2 ≠ .waiting → w'.p2 ≠ .waiting

theorem Kept.refl {asks : S → Bool} (w : World C S) : Kept asks w w := ⟨rfl, id, .inl, rfl, id, id⟩

theorem Kept.trans {asks : S → Bool} {w w' w'' : World C S} (h : Kept asks w w') (h' : Kept asks w' w'') : Kept asks w w'' :=
  ⟨h'.linked.trans h.linked, h'.asked ∘ h.asked, fun x => (h'.whose x).elim h.whose .inr, h'.shut.trans h.shut, h'.wait1 ∘ h.wait1, h'.wait2 ∘ h.wait2⟩

theorem Moved.kept {asks : S → Bool} {w w' : World C S} (h : Moved asks w w') : Kept asks w w' := by
  cases h with
  | same h => exact ⟨h.linked, h.asked, h.whose, h.shut, by rw [h.p1]; exact id, by rw [h.p2]; exact id⟩
  | released a b c d e f g i j => exact ⟨c.trans b.symm, i, j, g, by rw [e]; simp, by rw [f]; simp⟩

theorem Moved.rel {asks : S → Bool} {w w' : World C S} (h : Moved asks w w') (hr : w.closed = true → w.p1 = .gone ∧ w.p2 = .gone) :
    w'.closed = true → w'.p1 = .gone ∧ w'.p2 = .gone := by
  cases h with
  | same h => rw [h.closed, h.p1, h.p2]; exact hr
  | released a b c d e f => exact fun _ => ⟨e, f⟩

theorem after_wait {I E : Type} (n : SubscriberNotification I E) : Phase.after n ≠ .waiting := by
  cases n <;> simp [Phase.after]

theorem send1_ok (hC : C.Implements R P Rep) (hG : Tame C Good) (hD : Lawful D obs Inv true) (asks : S → Bool) (hi0 : Inv s0)
    {k1 k2} {w : World C S} (hw : W R Rep Good D obs s0 k1 k2 w) (n : SubscriberNotification A E₁)
    (hf : Fits P (k1 + nx n) k2) :
    ∃ w', w.send1 D asks n = some w' ∧ W R Rep Good D obs s0 (k1 + nx n) k2 w' ∧ Kept asks w w' ∧
      (w.p1.may n = false → w' = w) ∧ (D.isClosed w.s = true → w'.s = w.s ∧ w'.hist = w.hist) ∧
      ((∀ s, asks s = false) → D.isClosed w.s = false → w.p1.may n = true → w'.hist = w.hist ++ [.o1 n]) ∧
      (w.linked = false → w'.p2 = w.p2) := by
  cases hm : w.p1.may n with
  | false =>
    refine ⟨w, by simp [World.send1, hm], ⟨hw.k.mono (by omega) (Nat.le_refl _), hw.l, hw.rel⟩, Kept.refl w, by simp, by simp, by simp, fun _ => rfl⟩
  | true =>
    have hne := may_ne hm
    have hncl : w.closed = false := by
      cases hc : w.closed with
      | false => rfl
      | true => exact absurd (hw.rel hc).1 hne
    have hkept : Kept asks w ({ w with p1 := .after n } : World C S) := ⟨rfl, id, .inl, rfl, fun _ => after_wait n, id⟩
    have hL : L D ({ w with p1 := .after n } : World C S) := ⟨hw.l.fresh, hw.l.why, hw.l.done⟩
    have hrel : ({ w with p1 := .after n } : World C S).closed = true → Phase.after n = .gone ∧ w.p2 = .gone := by
      intro h
      have h : w.closed = true := h
      simp [hncl] at h
    simp only [World.send1, hm, if_true]
    cases hc : D.isClosed w.s with
    | true =>
      rw [give_closed asks _ (by exact hc)]
      refine ⟨_, rfl, ⟨⟨hw.k.queue, hG.mono hw.k.good ?_ id, by simp, by simp, fun h => ?_, hw.k.heard⟩, hL, hrel⟩, hkept, by simp, by simp, by simp, fun _ => rfl⟩
      · simp [hne]
      · have h : D.isClosed w.s = false := h
        simp [hc] at h
    | false =>
      have ho := hw.k.isOpen hc
      have hu := ho.un1
      simp only [Bool.not_false, Bool.and_true] at hu
      have hmf := may_follow hm ho.live1 hu
      have hl : left (w.hist ++ [.o1 n]) = left w.hist ++ [n] := left_snoc1 _ _
      have hrr : right (w.hist ++ [.o1 n]) = right w.hist := right_snoc1 _ _
      have hr : Ready R Rep D s0 false false (k1 + nx n) k2 ({ w with p1 := .after n } : World C S) (.o1 n) := by
        refine ⟨ho.rep, ho.ends, ⟨?_, ?_⟩, ho.state, ho.noShut, ?_, ?_, ?_, ?_, ?_, ?_, ?_, ?_⟩ <;> (try simp only [hl, hrr])
        · exact grammar_snoc ho.conf.1 hmf
        · exact ho.conf.2
        · rw [unsubscribed_snoc, hu]
          cases n <;> simp [hne, Phase.after]
        · exact ho.un2
        · intro h
          cases n with
          | next v =>
            obtain ⟨m1, m2, m3⟩ := hmf
            exact .inl (by simp [finished, completed_snoc, unsubscribed_snoc, errorOf_snoc, m1, m2, m3])
          | _ => simp [Phase.after] at h
        · exact fun h => .inl (ho.live2 h)
        · intro h
          cases n with
          | next v => simp [Phase.after] at h
          | error e => simp [finished, errorOf_snoc]
          | complete => simp [finished, completed_snoc]
          | unsubscribe => simp [Phase.after] at h
        · exact ho.end2
        · rw [nx_vals]; have := ho.c1; omega
        · exact ho.c2
      obtain ⟨w', e1, e2, e3, e4, e5⟩ := give_open hC hG hD asks hi0 hf (w := ({ w with p1 := .after n } : World C S)) (n := .o1 n)
        hw.k.queue hc hw.k.good (fun h => ⟨by simp [hne], by
          cases n with
          | unsubscribe => simp [Phase.after] at h
          | _ => rfl⟩) (fun h => ⟨by simpa using h, rfl⟩) hr hL
      refine ⟨w', e1, ⟨e2, e3, e4.rel hrel⟩, hkept.trans e4.kept, by simp, by simp, fun ha _ _ => e5 ha, fun hl => ?_⟩
      cases e4 with
      | same h => exact h.p2
      | released _ h =>
        have h : w.linked = true := h
        simp [hl] at h

theorem send2_ok (hC : C.Implements R P Rep) (hG : Tame C Good) (hD : Lawful D obs Inv true) (asks : S → Bool) (hi0 : Inv s0)
    {k1 k2} {w : World C S} (hw : W R Rep Good D obs s0 k1 k2 w) (n : SubscriberNotification B E₂)
    (hf : Fits P k1 (k2 + nx n)) :
    ∃ w', w.send2 D asks n = some w' ∧ W R Rep Good D obs s0 k1 (k2 + nx n) w' ∧ Kept asks w w' ∧
      (w.p2.may n = false → w' = w) ∧ (D.isClosed w.s = true → w'.s = w.s ∧ w'.hist = w.hist) ∧
      ((∀ s, asks s = false) → D.isClosed w.s = false → w.p2.may n = true → w'.hist = w.hist ++ [.o2 n]) := by
  cases hm : w.p2.may n with
  | false =>
    refine ⟨w, by simp [World.send2, hm], ⟨hw.k.mono (Nat.le_refl _) (by omega), hw.l, hw.rel⟩, Kept.refl w, by simp, by simp, by simp⟩
  | true =>
    have hne := may_ne hm
    have hncl : w.closed = false := by
      cases hc : w.closed with
      | false => rfl
      | true => exact absurd (hw.rel hc).2 hne
    have hkept : Kept asks w ({ w with p2 := .after n } : World C S) := ⟨rfl, id, .inl, rfl, id, fun _ => after_wait n⟩
    have hL : L D ({ w with p2 := .after n } : World C S) := ⟨hw.l.fresh, hw.l.why, hw.l.done⟩
    have hrel : ({ w with p2 := .after n } : World C S).closed = true → w.p1 = .gone ∧ Phase.after n = .gone := by
      intro h
      have h : w.closed = true := h
      simp [hncl] at h
    simp only [World.send2, hm, if_true]
    cases hc : D.isClosed w.s with
    | true =>
      rw [give_closed asks _ (by exact hc)]
      refine ⟨_, rfl, ⟨⟨hw.k.queue, hG.mono hw.k.good id ?_, by simp, by simp, fun h => ?_, hw.k.heard⟩, hL, hrel⟩, hkept, by simp, by simp, by simp⟩
      · simp [hne]
      · have h : D.isClosed w.s = false := h
        simp [hc] at h
    | false =>
      have ho := hw.k.isOpen hc
      have hu := ho.un2
      simp only [Bool.not_false, Bool.and_true] at hu
      have hmf := may_follow hm ho.live2 hu
      have hl : left (w.hist ++ [.o2 n]) = left w.hist := left_snoc2 _ _
      have hrr : right (w.hist ++ [.o2 n]) = right w.hist ++ [n] := right_snoc2 _ _
      have hr : Ready R Rep D s0 false false k1 (k2 + nx n) ({ w with p2 := .after n } : World C S) (.o2 n) := by
        refine ⟨ho.rep, ho.ends, ⟨?_, ?_⟩, ho.state, ho.noShut, ?_, ?_, ?_, ?_, ?_, ?_, ?_, ?_⟩ <;> (try simp only [hl, hrr])
        · exact ho.conf.1
        · exact grammar_snoc ho.conf.2 hmf
        · exact ho.un1
        · rw [unsubscribed_snoc, hu]
          cases n <;> simp [hne, Phase.after]
        · exact fun h => .inl (ho.live1 h)
        · intro h
          cases n with
          | next v =>
            obtain ⟨m1, m2, m3⟩ := hmf
            exact .inl (by simp [finished, completed_snoc, unsubscribed_snoc, errorOf_snoc, m1, m2, m3])
          | _ => simp [Phase.after] at h
        · exact ho.end1
        · intro h
          cases n with
          | next v => simp [Phase.after] at h
          | error e => simp [finished, errorOf_snoc]
          | complete => simp [finished, completed_snoc]
          | unsubscribe => simp [Phase.after] at h
        · exact ho.c1
        · rw [nx_vals]; have := ho.c2; omega
      obtain ⟨w', e1, e2, e3, e4, e5⟩ := give_open hC hG hD asks hi0 hf (w := ({ w with p2 := .after n } : World C S)) (n := .o2 n)
        hw.k.queue hc hw.k.good (fun h => ⟨by simpa using h, rfl⟩) (fun h => ⟨by simp [hne], by
          cases n with
          | unsubscribe => simp [Phase.after] at h
          | _ => rfl⟩) hr hL
      exact ⟨w', e1, ⟨e2, e3, e4.rel hrel⟩, hkept.trans e4.kept, by simp, by simp, fun ha _ _ => e5 ha⟩

/-- The first input's subscription is unsubscribed by the handle. -/
theorem drop1_ok (hC : C.Implements R P Rep) (hG : Tame C Good) (hD : Lawful D obs Inv true) (asks : S → Bool) (hi0 : Inv s0)
    {k1 k2} (hf : Fits P k1 k2) {w : World C S} (hk : K R Rep Good D obs s0 false false k1 k2 w) (hL : L D w) (hcl : w.closed = true) :
    ∃ w', w.drop1 D asks = some w' ∧ K R Rep Good D obs s0 false false k1 k2 w' ∧ L D w' ∧ Kept asks w w' ∧ w'.closed = true ∧
      w'.p1 = .gone ∧ w'.p2 = w.p2 ∧ (D.isClosed w.s = true → w'.s = w.s ∧ w'.hist = w.hist) ∧
      ((∀ s, asks s = false) → D.isClosed w.s = false →
        w'.hist = w.hist ++ (if w.p1 = .gone then [] else [.o1 .unsubscribe])) := by
  by_cases hg : w.p1 = .gone
  · exact ⟨w, by simp [World.drop1, hg], hk, hL, Kept.refl w, hcl, hg, rfl, by simp, by simp [hg]⟩
  · simp only [World.drop1, hg, if_false]
    have hkept : Kept asks w ({ w with p1 := .gone } : World C S) := ⟨rfl, id, .inl, rfl, by simp, id⟩
    have hL' : L D ({ w with p1 := .gone } : World C S) := ⟨hL.fresh, hL.why, hL.done⟩
    cases hc : D.isClosed w.s with
    | true =>
      rw [give_closed asks _ (by exact hc)]
      refine ⟨_, rfl, ⟨hk.queue, hG.mono hk.good (by simp) id, by simp, by simp, fun h => ?_, hk.heard⟩, hL', hkept, hcl, rfl, rfl, by simp, by simp⟩
      have h : D.isClosed w.s = false := h
      simp [hc] at h
    | false =>
      have ho := hk.isOpen hc
      have hr := ready_u1 (w := ({ w with p1 := .gone } : World C S)) ho (by rw [ho.un1]; simp [hg]) rfl rfl rfl rfl rfl rfl
      obtain ⟨w', e1, e2, e3, e4, e5⟩ := give_open hC hG hD asks hi0 hf (w := ({ w with p1 := .gone } : World C S))
        hk.queue hc hk.good (by simp) (fun h => ⟨by simpa using h, rfl⟩) hr hL'
      cases e4 with
      | same h => exact ⟨w', e1, e2, e3, hkept.trans (Moved.same h).kept, h.closed.trans hcl, h.p1, h.p2, by simp, fun ha _ => e5 ha⟩
      | released h =>
        have h : w.closed = false := h
        simp [hcl] at h

theorem drop2_ok (hC : C.Implements R P Rep) (hG : Tame C Good) (hD : Lawful D obs Inv true) (asks : S → Bool) (hi0 : Inv s0)
    {k1 k2} (hf : Fits P k1 k2) {w : World C S} (hk : K R Rep Good D obs s0 false false k1 k2 w) (hL : L D w) (hcl : w.closed = true) :
    ∃ w', w.drop2 D asks = some w' ∧ K R Rep Good D obs s0 false false k1 k2 w' ∧ L D w' ∧ Kept asks w w' ∧ w'.closed = true ∧
      w'.p1 = w.p1 ∧ w'.p2 = .gone ∧ (D.isClosed w.s = true → w'.s = w.s ∧ w'.hist = w.hist) ∧
      ((∀ s, asks s = false) → D.isClosed w.s = false →
        w'.hist = w.hist ++ (if w.p2 = .gone then [] else [.o2 .unsubscribe])) := by
  by_cases hg : w.p2 = .gone
  · exact ⟨w, by simp [World.drop2, hg], hk, hL, Kept.refl w, hcl, rfl, hg, by simp, by simp [hg]⟩
  · simp only [World.drop2, hg, if_false]
    have hkept : Kept asks w ({ w with p2 := .gone } : World C S) := ⟨rfl, id, .inl, rfl, id, by simp⟩
    have hL' : L D ({ w with p2 := .gone } : World C S) := ⟨hL.fresh, hL.why, hL.done⟩
    cases hc : D.isClosed w.s with
    | true =>
      rw [give_closed asks _ (by exact hc)]
      refine ⟨_, rfl, ⟨hk.queue, hG.mono hk.good id (by simp), by simp, by simp, fun h => ?_, hk.heard⟩, hL', hkept, hcl, rfl, rfl, by simp, by simp⟩
      have h : D.isClosed w.s = false := h
      simp [hc] at h
    | false =>
      have ho := hk.isOpen hc
      have hr := ready_u2 (w := ({ w with p2 := .gone } : World C S)) ho (by rw [ho.un2]; simp [hg]) rfl rfl rfl rfl rfl rfl
      obtain ⟨w', e1, e2, e3, e4, e5⟩ := give_open hC hG hD asks hi0 hf (w := ({ w with p2 := .gone } : World C S))
        hk.queue hc hk.good (fun h => ⟨by simpa using h, rfl⟩) (by simp) hr hL'
      cases e4 with
      | same h => exact ⟨w', e1, e2, e3, hkept.trans (Moved.same h).kept, h.closed.trans hcl, h.p1, h.p2, by simp, fun ha _ => e5 ha⟩
      | released h =>
        have h : w.closed = false := h
        simp [hcl] at h

/-- What an unsubscribed handle sends. -/
def goodbyes (w : World C S) : List (Either2 A E₁ B E₂) :=
  (if w.p1 = .gone then [] else [.o1 .unsubscribe]) ++ (if w.p2 = .gone then [] else [.o2 .unsubscribe])

theorem drops_ok (hC : C.Implements R P Rep) (hG : Tame C Good) (hD : Lawful D obs Inv true) (asks : S → Bool) (hi0 : Inv s0)
    {k1 k2} (hf : Fits P k1 k2) {w : World C S} (hk : K R Rep Good D obs s0 false false k1 k2 w) (hL : L D w) (hcl : w.closed = true) :
    ∃ w', (w.drop1 D asks).bind (World.drop2 D asks) = some w' ∧ W R Rep Good D obs s0 k1 k2 w' ∧ Kept asks w w' ∧ w'.closed = true ∧
      (D.isClosed w.s = true → w'.s = w.s ∧ w'.hist = w.hist) ∧
      ((∀ s, asks s = false) → D.isClosed w.s = false → N D w' (w.hist ++ goodbyes w)) := by
  obtain ⟨w', e1, e2, e3, e4, e5, e6, e7, e8, e9⟩ := drop1_ok hC hG hD asks hi0 hf hk hL hcl
  obtain ⟨w'', f1, f2, f3, f4, f5, f6, f7, f8, f9⟩ := drop2_ok hC hG hD asks hi0 hf e2 e3 e5
  refine ⟨w'', by rw [e1]; exact f1, ⟨f2, f3, fun _ => ⟨f6.trans e6, f7⟩⟩, e4.trans f4, f5, fun hc => ?_, fun ha hc => ?_⟩
  · have := e8 hc
    have g := f8 (this.1 ▸ hc)
    exact ⟨g.1.trans this.1, g.2.trans this.2⟩
  · have := e9 ha hc
    cases hc' : D.isClosed w'.s with
    | true =>
      have g := f8 hc'
      refine ⟨?_, fun h => ?_⟩
      · rw [g.2, this, goodbyes, ← List.append_assoc]; exact List.prefix_append _ _
      · rw [g.1, hc'] at h; cases h
    | false =>
      have g := f9 ha hc'
      rw [this, e7, List.append_assoc] at g
      exact ⟨by rw [g]; exact List.prefix_rfl, fun _ => g⟩

theorem K.closing {k1 k2} {w : World C S} (h : K R Rep Good D obs s0 false false k1 k2 w) (lk cl ak : Bool) :
    K R Rep Good D obs s0 false false k1 k2 ({ w with linked := lk, closed := cl, asked := ak } : World C S) := by
  obtain ⟨a1, a2, a3, a4, a5, a6⟩ := h
  refine ⟨a1, a2, a3, a4, fun ho => ?_, a6⟩
  obtain ⟨b1, b2, b3, b4, b5, b6, b7, b8, b9, b10, b11, b12, b13⟩ := a5 ho
  exact ⟨b1, b2, b3, b4, b5, b6, b7, b8, b9, b10, b11, b12, b13⟩

/-- The handle is connected. -/
theorem link_ok (hC : C.Implements R P Rep) (hG : Tame C Good) (hD : Lawful D obs Inv true) (asks : S → Bool) (hi0 : Inv s0)
    {k1 k2} (hf : Fits P k1 k2) {w : World C S} (hw : W R Rep Good D obs s0 k1 k2 w) (hl : w.linked = false) :
    ∃ w', w.link D asks = some w' ∧ W R Rep Good D obs s0 k1 k2 w' ∧ w'.linked = true ∧
      (w.p1 ≠ .waiting → w'.p1 ≠ .waiting) ∧ (w.p2 ≠ .waiting → w'.p2 ≠ .waiting) ∧ w'.s = w.s ∧ w'.hist = w.hist ∧
      w'.shut = w.shut ∧ (w'.asked = true → w.asked = true ∨ ∃ s, asks s = true) := by
  cases hc : D.isClosed w.s with
  | true =>
    simp only [World.link, hc, if_true]
    have hk := hw.k.closing true true w.asked
    obtain ⟨w', e1, e2, e3, e4, e5, e6⟩ := drops_ok hC hG hD asks hi0 hf hk
      ⟨fun h => by simp at h, fun _ => .inl hc, fun _ _ => rfl⟩ rfl
    exact ⟨w', e1, e2, e3.linked, e3.wait1, e3.wait2, (e5 hc).1, (e5 hc).2, e3.shut, e3.whose⟩
  | false =>
    simp only [World.link, hc, Bool.false_eq_true, if_false]
    have hfr := hw.l.fresh hl
    refine ⟨_, rfl, ⟨?_, ⟨fun h => by simp at h, ?_, ?_⟩, hw.rel⟩, rfl, id, id, rfl, rfl, rfl, .inl⟩
    · have := hw.k.closing true w.closed w.asked
      exact this
    · exact hw.l.why
    · rintro _ (h | h)
      · have h : D.isClosed w.s = true := h
        simp [hc] at h
      · have h : w.asked = true := h
        simp [hfr.2] at h

/-- The handle is unsubscribed. -/
theorem release_ok (hC : C.Implements R P Rep) (hG : Tame C Good) (hD : Lawful D obs Inv true) (asks : S → Bool) (hi0 : Inv s0)
    {k1 k2} (hf : Fits P k1 k2) {w : World C S} (hk : K R Rep Good D obs s0 false false k1 k2 w)
    (hrel : w.closed = true → w.p1 = .gone ∧ w.p2 = .gone) (hl : w.linked = true)
    (hwhy : D.isClosed w.s = true ∨ w.asked = true) :
    ∃ w', w.release D asks = some w' ∧ W R Rep Good D obs s0 k1 k2 w' ∧ Kept asks w w' ∧ w'.closed = true ∧
      (D.isClosed w.s = true → w'.s = w.s ∧ w'.hist = w.hist) ∧
      ((∀ s, asks s = false) → D.isClosed w.s = false → N D w' (w.hist ++ goodbyes w)) := by
  cases hcl : w.closed with
  | true =>
    refine ⟨w, by simp [World.release, hcl], ⟨hk, ⟨fun h => by simp [hl] at h, fun _ => hwhy, fun _ _ => hcl⟩, hrel⟩, Kept.refl w, hcl, by simp, fun _ _ => ?_⟩
    obtain ⟨h1, h2⟩ := hrel hcl
    simp only [goodbyes, h1, h2, if_true, List.append_nil]
    exact ⟨List.prefix_rfl, fun _ => rfl⟩
  | false =>
    simp only [World.release, hcl, Bool.false_eq_true, if_false]
    have hk' := hk.closing w.linked true w.asked
    obtain ⟨w', e1, e2, e3, e4, e5, e6⟩ := drops_ok hC hG hD asks hi0 hf hk'
      ⟨fun h => by simp [hl] at h, fun _ => hwhy, fun _ _ => rfl⟩ rfl
    exact ⟨w', e1, e2, ⟨e3.linked, e3.asked, e3.whose, e3.shut, e3.wait1, e3.wait2⟩, e4, e5, e6⟩

theorem sends1_ok (hC : C.Implements R P Rep) (hG : Tame C Good) (hD : Lawful D obs Inv true) (asks : S → Bool) (hi0 : Inv s0)
    {K1 K2} (hf : ∀ a b, a ≤ K1 → b ≤ K2 → Fits P a b) (l : List (SubscriberNotification A E₁)) :
    ∀ {k1 k2} {w : World C S}, W R Rep Good D obs s0 k1 k2 w → k1 + (valsOf l).length ≤ K1 → k2 ≤ K2 →
    ∃ w', l.foldlM (World.send1 D asks) w = some w' ∧ W R Rep Good D obs s0 (k1 + (valsOf l).length) k2 w' ∧ Kept asks w w' ∧
      (D.isClosed w.s = true → w'.s = w.s ∧ w'.hist = w.hist) ∧ (w.linked = false → w'.p2 = w.p2) := by
  induction l with
  | nil => intro k1 k2 w hw h1 h2; exact ⟨w, rfl, hw, Kept.refl w, by simp, fun _ => rfl⟩
  | cons n l ih =>
    intro k1 k2 w hw h1 h2
    have hv : (valsOf (n :: l)).length = nx n + (valsOf l).length := by cases n <;> simp [valsOf, nx]; omega
    rw [hv] at h1 ⊢
    obtain ⟨w', e1, e2, e3, e4, e5, e6, e7⟩ := send1_ok hC hG hD asks hi0 hw n (hf _ _ (by omega) h2)
    obtain ⟨w'', f1, f2, f3, f4, f5⟩ := ih e2 (by omega) h2
    refine ⟨w'', by simp only [List.foldlM_cons, e1]; exact f1, by rw [← Nat.add_assoc]; exact f2, e3.trans f3, fun hc => ?_, fun hl => (f5 (e3.linked.trans hl)).trans (e7 hl)⟩
    have g := e5 hc
    have g' := f4 (g.1 ▸ hc)
    exact ⟨g'.1.trans g.1, g'.2.trans g.2⟩

theorem sends2_ok (hC : C.Implements R P Rep) (hG : Tame C Good) (hD : Lawful D obs Inv true) (asks : S → Bool) (hi0 : Inv s0)
    {K1 K2} (hf : ∀ a b, a ≤ K1 → b ≤ K2 → Fits P a b) (l : List (SubscriberNotification B E₂)) :
    ∀ {k1 k2} {w : World C S}, W R Rep Good D obs s0 k1 k2 w → k1 ≤ K1 → k2 + (valsOf l).length ≤ K2 →
    ∃ w', l.foldlM (World.send2 D asks) w = some w' ∧ W R Rep Good D obs s0 k1 (k2 + (valsOf l).length) w' ∧ Kept asks w w' ∧
      (D.isClosed w.s = true → w'.s = w.s ∧ w'.hist = w.hist) := by
  induction l with
  | nil => intro k1 k2 w hw h1 h2; exact ⟨w, rfl, hw, Kept.refl w, by simp⟩
  | cons n l ih =>
    intro k1 k2 w hw h1 h2
    have hv : (valsOf (n :: l)).length = nx n + (valsOf l).length := by cases n <;> simp [valsOf, nx]; omega
    rw [hv] at h2 ⊢
    obtain ⟨w', e1, e2, e3, e4, e5, e6⟩ := send2_ok hC hG hD asks hi0 hw n (hf _ _ h1 (by omega))
    obtain ⟨w'', f1, f2, f3, f4⟩ := ih e2 h1 (by omega)
    refine ⟨w'', by simp only [List.foldlM_cons, e1]; exact f1, by rw [← Nat.add_assoc]; exact f2, e3.trans f3, fun hc => ?_⟩
    have g := e5 hc
    have g' := f4 (g.1 ▸ hc)
    exact ⟨g'.1.trans g.1, g'.2.trans g.2⟩

theorem prefix_hear (H : List (Either2 A E₁ B E₂)) (e) : H <+: hear H e := by
  rw [hear]; split
  · exact List.prefix_append _ _
  · exact List.prefix_rfl

/-- Nobody interferes. -/
structure M (D : Sub S O F) (w : World C S) (x : List (Either2 A E₁ B E₂) × Bool) : Prop where
  pre : w.hist <+: x.1
  eq : D.isClosed w.s = false → w.hist = x.1 ∧ x.2 = false
  shut : w.shut = true → x.2 = true ∧ w.hist = x.1

theorem M.send1 {k1 k2 k1' k2'} {w w' : World C S} (hw : W R Rep Good D obs s0 k1 k2 w) (hw' : W R Rep Good D obs s0 k1' k2' w') {n : SubscriberNotification A E₁} {H}
    (hm : M D w (H, false)) (hp : w.p1 ≠ .waiting) (hk : w'.shut = w.shut) (h4 : w.p1.may n = false → w' = w)
    (h5 : D.isClosed w.s = true → w'.s = w.s ∧ w'.hist = w.hist)
    (h6 : D.isClosed w.s = false → w.p1.may n = true → w'.hist = w.hist ++ [.o1 n]) : M D w' (hear H (.o1 n), false) := by
  have hns : w'.shut = false := by
    rw [hk]
    cases h : w.shut with
    | false => rfl
    | true => exact absurd (hm.shut h).1 (by simp)
  cases hc : D.isClosed w.s with
  | true =>
    have := h5 hc
    refine ⟨?_, fun h => ?_, fun h => by simp [hns] at h⟩
    · rw [this.2]; exact hm.pre.trans (prefix_hear _ _)
    · rw [this.1, hc] at h; cases h
  | false =>
    have he := (hm.eq hc).1
    have ho := hw.k.isOpen hc
    have ha := may_allows (n := n) hp ho.live1 ho.end1 (by simpa using ho.un1)
    have hh : w'.hist = hear H (.o1 n) := by
      rw [hear, allows2, ← show w.hist = H from he, ← ha]
      cases hmay : w.p1.may n with
      | false => simp [h4 hmay]
      | true => simp [h6 hc hmay]
    exact ⟨by rw [hh]; exact List.prefix_rfl, fun _ => ⟨hh, rfl⟩, fun h => by simp [hns] at h⟩

theorem M.send2 {k1 k2 k1' k2'} {w w' : World C S} (hw : W R Rep Good D obs s0 k1 k2 w) (hw' : W R Rep Good D obs s0 k1' k2' w') {n : SubscriberNotification B E₂} {H}
    (hm : M D w (H, false)) (hp : w.p2 ≠ .waiting) (hk : w'.shut = w.shut) (h4 : w.p2.may n = false → w' = w)
    (h5 : D.isClosed w.s = true → w'.s = w.s ∧ w'.hist = w.hist)
    (h6 : D.isClosed w.s = false → w.p2.may n = true → w'.hist = w.hist ++ [.o2 n]) : M D w' (hear H (.o2 n), false) := by
  have hns : w'.shut = false := by
    rw [hk]
    cases h : w.shut with
    | false => rfl
    | true => exact absurd (hm.shut h).1 (by simp)
  cases hc : D.isClosed w.s with
  | true =>
    have := h5 hc
    refine ⟨?_, fun h => ?_, fun h => by simp [hns] at h⟩
    · rw [this.2]; exact hm.pre.trans (prefix_hear _ _)
    · rw [this.1, hc] at h; cases h
  | false =>
    have he := (hm.eq hc).1
    have ho := hw.k.isOpen hc
    have ha := may_allows (n := n) hp ho.live2 ho.end2 (by simpa using ho.un2)
    have hh : w'.hist = hear H (.o2 n) := by
      rw [hear, allows2, ← show w.hist = H from he, ← ha]
      cases hmay : w.p2.may n with
      | false => simp [h4 hmay]
      | true => simp [h6 hc hmay]
    exact ⟨by rw [hh]; exact List.prefix_rfl, fun _ => ⟨hh, rfl⟩, fun h => by simp [hns] at h⟩

theorem M.sends1 (hC : C.Implements R P Rep) (hG : Tame C Good) (hD : Lawful D obs Inv true) {asks : S → Bool} (ha : ∀ s, asks s = false) (hi0 : Inv s0)
    {K1 K2} (hf : ∀ a b, a ≤ K1 → b ≤ K2 → Fits P a b) (l : List (SubscriberNotification A E₁)) :
    ∀ {k1 k2} {w w' : World C S} {H}, W R Rep Good D obs s0 k1 k2 w → k1 + (valsOf l).length ≤ K1 → k2 ≤ K2 →
    w.p1 ≠ .waiting → M D w (H, false) →
    l.foldlM (World.send1 D asks) w = some w' → M D w' ((l.map .o1).foldl hear H, false) := by
  induction l with
  | nil => intro k1 k2 w w' H hw h1 h2 hp hm h; cases h; exact hm
  | cons n l ih =>
    intro k1 k2 w w' H hw h1 h2 hp hm h
    have hv : (valsOf (n :: l)).length = nx n + (valsOf l).length := by cases n <;> simp [valsOf, nx]; omega
    rw [hv] at h1
    obtain ⟨w1, e1, e2, e3, e4, e5, e6, _⟩ := send1_ok hC hG hD asks hi0 hw n (hf _ _ (by omega) h2)
    simp only [List.foldlM_cons, e1] at h
    exact ih e2 (by omega) h2 (e3.wait1 hp) (hm.send1 hw e2 hp e3.shut e4 e5 (e6 ha)) h

theorem M.sends2 (hC : C.Implements R P Rep) (hG : Tame C Good) (hD : Lawful D obs Inv true) {asks : S → Bool} (ha : ∀ s, asks s = false) (hi0 : Inv s0)
    {K1 K2} (hf : ∀ a b, a ≤ K1 → b ≤ K2 → Fits P a b) (l : List (SubscriberNotification B E₂)) :
    ∀ {k1 k2} {w w' : World C S} {H}, W R Rep Good D obs s0 k1 k2 w → k1 ≤ K1 → k2 + (valsOf l).length ≤ K2 →
    w.p2 ≠ .waiting → M D w (H, false) →
    l.foldlM (World.send2 D asks) w = some w' → M D w' ((l.map .o2).foldl hear H, false) := by
  induction l with
  | nil => intro k1 k2 w w' H hw h1 h2 hp hm h; cases h; exact hm
  | cons n l ih =>
    intro k1 k2 w w' H hw h1 h2 hp hm h
    have hv : (valsOf (n :: l)).length = nx n + (valsOf l).length := by cases n <;> simp [valsOf, nx]; omega
    rw [hv] at h2
    obtain ⟨w1, e1, e2, e3, e4, e5, e6⟩ := send2_ok hC hG hD asks hi0 hw n (hf _ _ h1 (by omega))
    simp only [List.foldlM_cons, e1] at h
    exact ih e2 h1 (by omega) (e3.wait2 hp) (hm.send2 hw e2 hp e3.shut e4 e5 (e6 ha)) h

theorem goodbyes_hear {k1 k2} {w : World C S} (hw : Open R Rep D s0 false false k1 k2 w) :
    w.hist ++ goodbyes w = hear (hear w.hist (.o1 .unsubscribe)) (.o2 .unsubscribe) := by
  have h1 := hw.un1
  have h2 := hw.un2
  simp only [Bool.not_false, Bool.and_true] at h1 h2
  by_cases g1 : w.p1 = .gone <;> by_cases g2 : w.p2 = .gone <;>
    simp only [g1, g2, decide_true, decide_false] at h1 h2 <;>
    simp [goodbyes, g1, g2, hear, allows2, allows, h1, h2, right_snoc1]

/-- One if the first input sends a value. -/
def nx1 : Act A E₁ B E₂ → Nat
  | .send1 n => nx n
  | _ => 0

def nx2 : Act A E₁ B E₂ → Nat
  | .send2 n => nx n
  | _ => 0

/-- One action. -/
theorem act_ok (hC : C.Implements R P Rep) (hG : Tame C Good) (hD : Lawful D obs Inv true) (asks : S → Bool) (hi0 : Inv s0)
    {k1 k2} {w : World C S} (hw : W R Rep Good D obs s0 k1 k2 w) (hl : w.linked = true) (hp1 : w.p1 ≠ .waiting) (hp2 : w.p2 ≠ .waiting)
    (a : Act A E₁ B E₂) (hf : Fits P (k1 + nx1 a) (k2 + nx2 a)) :
    ∃ w', w.act D asks a = some w' ∧ W R Rep Good D obs s0 (k1 + nx1 a) (k2 + nx2 a) w' ∧ w'.linked = true ∧
      w'.p1 ≠ .waiting ∧ w'.p2 ≠ .waiting ∧ (w.asked = true → w'.asked = true) ∧ (a = .unsubscribe → w'.asked = true) ∧
      (w'.asked = true → w.asked = true ∨ a = .unsubscribe ∨ ∃ s, asks s = true) ∧
      ((∀ s, asks s = false) → ∀ x, M D w x → M D w' (heardBy x a)) := by
  have frozen : ∀ {w' : World C S} {x}, M D w x → x.2 = true → w'.s = w.s → w'.hist = w.hist → w'.shut = w.shut → M D w' (heardBy x a) := by
    intro w' x hm hx h1 h2 h3
    obtain ⟨H, sh⟩ := x
    cases hx
    have : heardBy (H, true) a = (H, true) := rfl
    rw [this]
    refine ⟨by rw [h2]; exact hm.pre, fun h => ?_, fun h => ⟨rfl, ?_⟩⟩
    · exact absurd (hm.eq (h1 ▸ h)).2 (by simp)
    · rw [h2]; exact (hm.shut (h3 ▸ h)).2
  have hsh : ∀ {x}, M D w x → x.2 = true → D.isClosed w.s = true := by
    intro x hm hx
    cases hc : D.isClosed w.s with
    | true => rfl
    | false => exact absurd (hm.eq hc).2 (by simp [hx])
  cases a with
  | send1 n =>
    obtain ⟨w', e1, e2, e3, e4, e5, e6, _⟩ := send1_ok hC hG hD asks hi0 hw n hf
    refine ⟨w', e1, e2, e3.linked.trans hl, e3.wait1 hp1, e3.wait2 hp2, e3.asked, by simp, fun h => (e3.whose h).imp id .inr, fun ha x hm => ?_⟩
    obtain ⟨H, sh⟩ := x
    cases sh with
    | true => exact frozen hm rfl (e5 (hsh hm rfl)).1 (e5 (hsh hm rfl)).2 e3.shut
    | false => exact hm.send1 hw e2 hp1 e3.shut e4 e5 (e6 ha)
  | send2 n =>
    obtain ⟨w', e1, e2, e3, e4, e5, e6⟩ := send2_ok hC hG hD asks hi0 hw n hf
    refine ⟨w', e1, e2, e3.linked.trans hl, e3.wait1 hp1, e3.wait2 hp2, e3.asked, by simp, fun h => (e3.whose h).imp id .inr, fun ha x hm => ?_⟩
    obtain ⟨H, sh⟩ := x
    cases sh with
    | true => exact frozen hm rfl (e5 (hsh hm rfl)).1 (e5 (hsh hm rfl)).2 e3.shut
    | false => exact hm.send2 hw e2 hp2 e3.shut e4 e5 (e6 ha)
  | unsubscribe =>
    have hk := hw.k.closing w.linked w.closed true
    obtain ⟨w', e1, e2, e3, e4, e5, e6⟩ := release_ok hC hG hD asks hi0 hf hk hw.rel hl (.inr rfl)
    refine ⟨w', e1, e2, e3.linked.trans hl, e3.wait1 hp1, e3.wait2 hp2, fun _ => e3.asked rfl, fun _ => e3.asked rfl, fun _ => .inr (.inl rfl), fun ha x hm => ?_⟩
    obtain ⟨H, sh⟩ := x
    cases sh with
    | true => exact frozen hm rfl (e5 (hsh hm rfl)).1 (e5 (hsh hm rfl)).2 e3.shut
    | false =>
      have hns : w'.shut = false := by
        rw [e3.shut]
        cases h : w.shut with
        | false => rfl
        | true => exact absurd (hm.shut h).1 (by simp)
      show M D w' (hear (hear H (.o1 .unsubscribe)) (.o2 .unsubscribe), false)
      cases hc : D.isClosed w.s with
      | true =>
        have := e5 hc
        refine ⟨?_, fun h => ?_, fun h => by simp [hns] at h⟩
        · rw [this.2]; exact (hm.pre.trans (prefix_hear _ _)).trans (prefix_hear _ _)
        · rw [this.1] at h; have h : D.isClosed w.s = false := h; simp [hc] at h
      | false =>
        have hN := e6 ha hc
        have he := (hm.eq hc).1
        have hg : w.hist ++ goodbyes w = _ := goodbyes_hear (hw.k.isOpen hc)
        have hN' : N D w' (w.hist ++ goodbyes w) := hN
        rw [hg, show w.hist = H from he] at hN'
        exact ⟨hN'.pre, fun h => ⟨hN'.eq h, rfl⟩, fun h => by simp [hns] at h⟩
  | shut =>
    cases hc : D.isClosed w.s with
    | true =>
      refine ⟨w, by simp [World.act, hc], hw, hl, hp1, hp2, id, by simp, .inl, fun ha x hm => ?_⟩
      obtain ⟨H, sh⟩ := x
      refine ⟨?_, fun h => by simp [hc] at h, fun h => ?_⟩
      · cases sh <;> exact hm.pre
      · have := hm.shut h
        cases sh <;> exact ⟨rfl, this.2⟩
    | false =>
      have ho := hw.k.isOpen hc
      have hi : Inv w.s := ho.state ▸ hD.run_inv hi0 _
      have hcl := hD.unsubscribeCloses _ hi
      have hk : K R Rep Good D obs s0 false false k1 k2 ({ w with s := D.unsubscribe w.s, shut := true } : World C S) := by
        refine ⟨hw.k.queue, hw.k.good, by simp, by simp, fun h => ?_, ?_⟩
        · have h : D.isClosed (D.unsubscribe w.s) = false := h
          simp [hcl] at h
        · show obs (D.unsubscribe w.s) = obs (D.run s0 (R.deliver w.hist ++ tail true)) ∧ _
          have : D.run s0 (R.deliver w.hist ++ tail true) = D.unsubscribe w.s := by
            rw [Sub.run_append, ← ho.state]; rfl
          show _ ∧ D.isClosed (D.unsubscribe w.s) = D.isClosed (D.run s0 (R.deliver w.hist ++ tail true))
          rw [this]
          exact ⟨rfl, rfl⟩
      obtain ⟨w', e1, e2, e3, e4, e5, e6⟩ := release_ok hC hG hD asks hi0 hf hk hw.rel hl (.inl hcl)
      refine ⟨w', by simp only [World.act, hc, Bool.false_eq_true, if_false]; exact e1, e2, e3.linked.trans hl, e3.wait1 hp1, e3.wait2 hp2, e3.asked, by simp, fun h => (e3.whose h).imp id .inr, fun ha x hm => ?_⟩
      obtain ⟨H, sh⟩ := x
      have he := hm.eq hc
      cases sh with
      | true => exact absurd he.2 (by simp)
      | false =>
        have g := e5 hcl
        have gh : w'.hist = H := g.2.trans he.1
        refine ⟨by rw [gh]; exact List.prefix_rfl, fun h => ?_, fun _ => ⟨rfl, gh⟩⟩
        rw [g.1] at h
        have h : D.isClosed (D.unsubscribe w.s) = false := h
        simp [hcl] at h
  | drop =>
    refine ⟨w, rfl, hw, hl, hp1, hp2, id, by simp, .inl, fun ha x hm => ?_⟩
    obtain ⟨H, sh⟩ := x
    cases sh <;> exact hm

def sum1 (acts : List (Act A E₁ B E₂)) : Nat := (acts.map nx1).sum
def sum2 (acts : List (Act A E₁ B E₂)) : Nat := (acts.map nx2).sum

theorem acts_ok (hC : C.Implements R P Rep) (hG : Tame C Good) (hD : Lawful D obs Inv true) (asks : S → Bool) (hi0 : Inv s0)
    {K1 K2} (hf : ∀ a b, a ≤ K1 → b ≤ K2 → Fits P a b) (acts : List (Act A E₁ B E₂)) :
    ∀ {k1 k2} {w : World C S}, W R Rep Good D obs s0 k1 k2 w → w.linked = true → w.p1 ≠ .waiting → w.p2 ≠ .waiting →
    k1 + sum1 acts ≤ K1 → k2 + sum2 acts ≤ K2 →
    ∃ w', acts.foldlM (World.act D asks) w = some w' ∧ W R Rep Good D obs s0 K1 K2 w' ∧ w'.linked = true ∧
      (w.asked = true → w'.asked = true) ∧ (.unsubscribe ∈ acts → w'.asked = true) ∧
      (w'.asked = true → w.asked = true ∨ .unsubscribe ∈ acts ∨ ∃ s, asks s = true) ∧
      ((∀ s, asks s = false) → ∀ x, M D w x → M D w' (acts.foldl heardBy x)) := by
  induction acts with
  | nil =>
    intro k1 k2 w hw hl hp1 hp2 h1 h2
    exact ⟨w, rfl, ⟨hw.k.mono (by simpa [sum1] using h1) (by simpa [sum2] using h2), hw.l, hw.rel⟩, hl, id, by simp, .inl, fun _ x hm => hm⟩
  | cons a acts ih =>
    intro k1 k2 w hw hl hp1 hp2 h1 h2
    have hs1 : sum1 (a :: acts) = nx1 a + sum1 acts := by simp [sum1]
    have hs2 : sum2 (a :: acts) = nx2 a + sum2 acts := by simp [sum2]
    rw [hs1] at h1
    rw [hs2] at h2
    obtain ⟨w', e1, e2, e3, e4, e5, e6, e7, e8, e9⟩ := act_ok hC hG hD asks hi0 hw hl hp1 hp2 a (hf _ _ (by omega) (by omega))
    obtain ⟨w'', f1, f2, f3, f4, f5, f6, f7⟩ := ih e2 e3 e4 e5 (by omega) (by omega)
    refine ⟨w'', by simp only [List.foldlM_cons, e1]; exact f1, f2, f3, f4 ∘ e6, fun h => ?_, fun h => ?_, fun ha x hm => f7 ha _ (e9 ha x hm)⟩
    · rcases List.mem_cons.1 h with h | h
      · exact f4 (e7 h.symm)
      · exact f5 h
    · rcases f6 h with h | h | h
      · rcases e8 h with h | h | h
        · exact .inl h
        · exact .inr (.inl (by simp [h]))
        · exact .inr (.inr h)
      · exact .inr (.inl (List.mem_cons_of_mem _ h))
      · exact .inr (.inr h)

theorem deliverFrom_prefix (R : Rule A E₁ B E₂ O F) (m : List (Either2 A E₁ B E₂)) :
    ∀ l pre, R.deliverFrom pre l <+: R.deliverFrom pre (l ++ m) := by
  intro l
  induction l with
  | nil => intro pre; simp [Rule.deliverFrom]
  | cons e l ih =>
    intro pre
    simp only [List.cons_append, Rule.deliverFrom]
    cases R.ends (pre ++ [e]) with
    | some t => exact List.prefix_rfl
    | none => exact (List.prefix_append_right_inj _).2 (ih _)

theorem deliver_prefix (R : Rule A E₁ B E₂ O F) {h H : List (Either2 A E₁ B E₂)} (hp : h <+: H) : R.deliver h <+: R.deliver H := by
  obtain ⟨m, rfl⟩ := hp
  exact deliverFrom_prefix R m h []

theorem told_of {k1 k2} (hD : Lawful D obs Inv true) (hi0 : Inv s0) {w : World C S} (hk : K R Rep Good D obs s0 false false k1 k2 w) {x} (hm : M D w x) :
    obs w.s = obs (D.run s0 (toldTo R x)) ∧ D.isClosed w.s = D.isClosed (D.run s0 (toldTo R x)) := by
  obtain ⟨H, sh⟩ := x
  obtain ⟨h1, h2⟩ := hk.heard
  cases hc : D.isClosed w.s with
  | false =>
    have := hm.eq hc
    have ho := hk.isOpen hc
    obtain ⟨g1, g2⟩ := this
    have g1 : w.hist = H := g1
    have g2 : sh = false := g2
    subst g2
    rw [ho.noShut, g1] at h1 h2
    exact ⟨h1, hc.symm.trans h2⟩
  | true =>
    cases hs : w.shut with
    | true =>
      obtain ⟨g1, g2⟩ := hm.shut hs
      have g1 : sh = true := g1
      have g2 : w.hist = H := g2
      subst g1
      rw [hs, g2] at h1 h2
      exact ⟨h1, hc.symm.trans h2⟩
    | false =>
      rw [hs] at h1 h2
      simp only [tail, Bool.false_eq_true, if_false, List.append_nil] at h1 h2
      obtain ⟨m, hmm⟩ := deliver_prefix R hm.pre
      have hmm : R.deliver w.hist ++ m = R.deliver H := hmm
      have : toldTo R (H, sh) = R.deliver w.hist ++ (m ++ if sh then [.unsubscribe] else []) := by
        rw [← List.append_assoc, hmm]; rfl
      rw [this, Sub.run_append]
      have := hD.run_closed (hD.run_inv hi0 (R.deliver w.hist)) (h2 ▸ hc) (m ++ if sh then [.unsubscribe] else [])
      exact ⟨h1.trans this.1.symm, this.2.symm⟩

/-- Everything together. -/
theorem run_ok (hC : C.Implements R P Rep) (hG : Tame C Good) (hD : Lawful D obs Inv true) (asks : S → Bool) (hi0 : Inv s0)
    (l1 : List (SubscriberNotification A E₁)) (l2 : List (SubscriberNotification B E₂)) (acts : List (Act A E₁ B E₂))
    (hf : ∀ a b, a ≤ (valsOf l1).length + sum1 acts → b ≤ (valsOf l2).length + sum2 acts → Fits P a b) :
    ∃ w, Wiring.run C D asks s0 l1 l2 acts = some w ∧ Outcome R D obs asks s0 l1 l2 acts w ∧
      (∃ k1 k2, W R Rep Good D obs s0 k1 k2 w) := by
  have h0 : W R Rep Good D obs s0 0 0 ({ st := C.init, s := s0, p1 := .live } : World C S) := by
    refine ⟨⟨rfl, hG.mono hG.init (fun _ => rfl) (fun _ => rfl), by simp, by simp, fun _ => ?_, ?_⟩, ⟨fun _ => ⟨rfl, rfl⟩, by simp, by simp⟩, by simp⟩
    · refine ⟨hC.init, ?_, ⟨⟨⟨[], none, false⟩, rfl⟩, ⟨⟨[], none, false⟩, rfl⟩⟩, rfl, rfl, rfl, rfl, fun _ => rfl, fun _ => rfl, ?_, ?_, ?_, ?_⟩
      · intro p hp hne
        exact absurd (List.prefix_nil.1 hp) hne
      · intro h; cases h
      · intro h; cases h
      · exact Nat.le_refl _
      · exact Nat.le_refl _
    · exact ⟨rfl, rfl⟩
  have hm0 : M D ({ st := C.init, s := s0, p1 := .live } : World C S) ([], false) := ⟨List.prefix_rfl, fun _ => ⟨rfl, rfl⟩, by simp⟩
  obtain ⟨w1, a1, a2, a3, a4, a5⟩ := sends1_ok hC hG hD asks hi0 hf l1 h0 (by omega) (by omega)
  rw [Nat.zero_add] at a2
  have hm1 : (∀ s, asks s = false) → M D w1 ((l1.map .o1).foldl hear [], false) := fun ha =>
    M.sends1 hC hG hD ha hi0 hf l1 h0 (by omega) (by omega) (by simp) hm0 a1
  have hp2 : w1.p2 = .waiting := a5 rfl
  have hw1 : W R Rep Good D obs s0 (valsOf l1).length 0 ({ w1 with p2 := .live } : World C S) := by
    obtain ⟨⟨b1, b2, b3, b4, b5, b6⟩, b7, b8⟩ := a2
    refine ⟨⟨b1, hG.mono b2 id (fun _ => by simp [hp2]), b3, by simp, fun ho => ?_, b6⟩, ⟨b7.fresh, b7.why, b7.done⟩, fun h => ?_⟩
    · obtain ⟨c1, c2, c3, c4, c5, c6, c7, c8, c9, c10, c11, c12, c13⟩ := b5 ho
      refine ⟨c1, c2, c3, c4, c5, c6, ?_, c8, fun _ => c9 (.inr hp2), c10, (fun h => by cases h), c12, c13⟩
      rw [hp2] at c7
      simpa using c7
    · have := (b8 h).2
      rw [hp2] at this; cases this
  obtain ⟨w2, c1, c2, c3, c4⟩ := sends2_ok hC hG hD asks hi0 hf l2 hw1 (by omega) (by omega)
  rw [Nat.zero_add] at c2
  have hm2 : (∀ s, asks s = false) → M D w2 ((l2.map .o2).foldl hear ((l1.map .o1).foldl hear []), false) := fun ha =>
    M.sends2 hC hG hD ha hi0 hf l2 hw1 (by omega) (by omega) (by simp) ⟨(hm1 ha).pre, (hm1 ha).eq, (hm1 ha).shut⟩ c1
  obtain ⟨w3, d1, d2, d3, d4, d5, d6, d7, d8, d9⟩ := link_ok hC hG hD asks hi0 (hf _ _ (by omega) (by omega)) c2 (c3.linked.trans a3.linked)
  have hm3 : (∀ s, asks s = false) → M D w3 ((l2.map .o2).foldl hear ((l1.map .o1).foldl hear []), false) := fun ha =>
    ⟨by rw [d7]; exact (hm2 ha).pre, fun h => by rw [d7]; exact (hm2 ha).eq (d6 ▸ h), fun h => by rw [d7]; exact (hm2 ha).shut (d8 ▸ h)⟩
  obtain ⟨w, e1, e2, e3, e4, e5, e6, e7⟩ := acts_ok hC hG hD asks hi0 hf acts d2 d3
    (d4 (c3.wait1 (a3.wait1 (by simp)))) (d5 (c3.wait2 (by simp))) (Nat.le_refl _) (Nat.le_refl _)
  have hasked : w3.asked = true → ∃ s, asks s = true := by
    intro h
    rcases d9 h with h | h
    · rcases c3.whose h with h | h
      · have h : w1.asked = true := h
        rcases a3.whose h with h | h
        · cases h
        · exact h
      · exact h
    · exact h
  have hrel : D.isClosed w.s = true ∨ w.asked = true → Released w := by
    intro h
    have hc := e2.l.done e3 h
    exact ⟨(e2.rel hc).1, (e2.rel hc).2, hc⟩
  refine ⟨w, ?_, ⟨fun h => hrel (.inl h), ?_, ?_, fun ha => told_of hD hi0 e2.k (e7 ha _ (hm3 ha)), fun ha ho => ?_, e2.k.queue⟩, _, _, e2⟩
  · rw [Wiring.run, World.subscribe, a1]
    simp only [Option.bind_some]
    rw [c1]
    simp only [Option.bind_some]
    rw [d1]
    exact e1
  · rintro (h | h)
    · exact hrel (.inr (e5 h))
    · exact hrel (.inr h)
  · intro h
    rcases e2.l.why h with h | h
    · exact .inl h
    · rcases e6 h with h | h | h
      · exact .inr (.inr (hasked h))
      · exact .inr (.inl h)
      · exact .inr (.inr h)
  · have hh := ((e7 ha _ (hm3 ha)).eq ho).1
    have hop := e2.k.isOpen ho
    have u1 := hop.un1
    have u2 := hop.un2
    rw [hh] at u1 u2
    simp only [Bool.not_false, Bool.and_true] at u1 u2
    exact ⟨by rw [said, u1]; simp, by rw [said, u2]; simp⟩

/-- Unsubscribing the handle closes the destination, if two unsubscribed inputs end the combination. -/
theorem closes_ok {k1 k2} {w : World C S} (hw : W R Rep Good D obs s0 k1 k2 w) (hc : w.closed = true)
    (hR : ∀ h, unsubscribed (left h) = true → unsubscribed (right h) = true → R.ends h ≠ none) :
    D.isClosed w.s = true := by
  cases ho : D.isClosed w.s with
  | true => rfl
  | false =>
    have hop := hw.k.isOpen ho
    obtain ⟨g1, g2⟩ := hw.rel hc
    have u1 := hop.un1
    have u2 := hop.un2
    rw [g1] at u1
    rw [g2] at u2
    refine absurd (hop.ends _ List.prefix_rfl ?_) (hR _ (by simpa using u1) (by simpa using u2))
    intro h
    rw [h] at u1
    cases u1
end

/-! ## The combiners -/

/-- No error is waiting to be taken. -/
def NGood (_ _ : Bool) (st : NotificationState A E₁ × NotificationState B E₂) : Prop := st.1.err = none ∧ st.2.err = none

theorem push_unsub {I E : Type} (v : Option I) (st : SubscriberState) :
    ∃ v' st', (⟨v, none, st⟩ : NotificationState I E).push .unsubscribe = some ⟨v', none, st'⟩ := by
  cases hu : st.isUnsubscribed with
  | true => exact ⟨v, st, by simp [NotificationState.push, hu]⟩
  | false => exact ⟨v, { st with waiting := false, unsubscribed := true }, by simp [NotificationState.push, SubscriberState.unsubscribe, hu]⟩

theorem tame_changes (i₁ : E₁ → F) (i₂ : E₂ → F) : Tame (combineChangesCombiner (A := A) (B := B) i₁ i₂) NGood where
  init := ⟨rfl, rfl⟩
  mono h _ _ := h
  keep {S D b1 b2 st s e st' s'} h hx := by
    obtain ⟨⟨v₁, e₁, t₁⟩, ⟨v₂, e₂, t₂⟩⟩ := st
    obtain ⟨h1, h2⟩ := h
    simp only at h1 h2
    subst h1 h2
    cases e with
    | o1 n =>
      simp only [combineChangesCombiner] at hx
      cases hp : NotificationState.push ⟨v₁, none, t₁⟩ n with
      | none => simp [hp] at hx
      | some q =>
        simp only [hp, Option.map_some, Option.bind_eq_bind, Option.bind_some, NotificationState.takeError] at hx
        split at hx <;> cases hx <;> exact ⟨rfl, rfl⟩
    | o2 n =>
      simp only [combineChangesCombiner] at hx
      cases hp : NotificationState.push ⟨v₂, none, t₂⟩ n with
      | none => simp [hp] at hx
      | some q =>
        simp only [hp, Option.map_some, Option.bind_eq_bind, Option.bind_some, NotificationState.takeError] at hx
        split at hx <;> cases hx <;> exact ⟨rfl, rfl⟩
  quiet1 {S D b st s} h hc := by
    obtain ⟨⟨v₁, e₁, t₁⟩, ⟨v₂, e₂, t₂⟩⟩ := st
    obtain ⟨h1, h2⟩ := h
    simp only at h1 h2
    subst h1 h2
    obtain ⟨v', t', hq⟩ := push_unsub (E := E₁) v₁ t₁
    exact ⟨(⟨v', none, t'⟩, ⟨v₂, none, t₂⟩), by simp [combineChangesCombiner, hq, NotificationState.takeError, hc, SubscriberNotification.isNext]⟩
  quiet2 {S D b st s} h hc := by
    obtain ⟨⟨v₁, e₁, t₁⟩, ⟨v₂, e₂, t₂⟩⟩ := st
    obtain ⟨h1, h2⟩ := h
    simp only at h1 h2
    subst h1 h2
    obtain ⟨v', t', hq⟩ := push_unsub (E := E₂) v₂ t₂
    exact ⟨(⟨v₁, none, t₁⟩, ⟨v', none, t'⟩), by simp [combineChangesCombiner, hq, NotificationState.takeError, hc, SubscriberNotification.isNext]⟩

theorem tame_latest (i₁ : E₁ → F) (i₂ : E₂ → F) : Tame (combineLatestCombiner (A := A) (B := B) i₁ i₂) NGood where
  init := ⟨rfl, rfl⟩
  mono h _ _ := h
  keep {S D b1 b2 st s e st' s'} h hx := by
    obtain ⟨⟨v₁, e₁, t₁⟩, ⟨v₂, e₂, t₂⟩⟩ := st
    obtain ⟨h1, h2⟩ := h
    simp only at h1 h2
    subst h1 h2
    cases e with
    | o1 n =>
      simp only [combineLatestCombiner] at hx
      cases hp : NotificationState.push ⟨v₁, none, t₁⟩ n with
      | none => simp [hp] at hx
      | some q =>
        simp only [hp, Option.map_some, Option.bind_eq_bind, Option.bind_some, NotificationState.takeError] at hx
        split at hx <;> cases hx <;> exact ⟨rfl, rfl⟩
    | o2 n =>
      simp only [combineLatestCombiner] at hx
      cases hp : NotificationState.push ⟨v₂, none, t₂⟩ n with
      | none => simp [hp] at hx
      | some q =>
        simp only [hp, Option.map_some, Option.bind_eq_bind, Option.bind_some, NotificationState.takeError] at hx
        split at hx <;> cases hx <;> exact ⟨rfl, rfl⟩
  quiet1 {S D b st s} h hc := by
    obtain ⟨⟨v₁, e₁, t₁⟩, ⟨v₂, e₂, t₂⟩⟩ := st
    obtain ⟨h1, h2⟩ := h
    simp only at h1 h2
    subst h1 h2
    obtain ⟨v', t', hq⟩ := push_unsub (E := E₁) v₁ t₁
    exact ⟨(⟨v', none, t'⟩, ⟨v₂, none, t₂⟩), by simp [combineLatestCombiner, hq, NotificationState.takeError, hc, SubscriberNotification.isNext]⟩
  quiet2 {S D b st s} h hc := by
    obtain ⟨⟨v₁, e₁, t₁⟩, ⟨v₂, e₂, t₂⟩⟩ := st
    obtain ⟨h1, h2⟩ := h
    simp only at h1 h2
    subst h1 h2
    obtain ⟨v', t', hq⟩ := push_unsub (E := E₂) v₂ t₂
    exact ⟨(⟨v₁, none, t₁⟩, ⟨v', none, t'⟩), by simp [combineLatestCombiner, hq, NotificationState.takeError, hc, SubscriberNotification.isNext]⟩

theorem tame_join (i₁ : E₁ → F) (i₂ : E₂ → F) : Tame (joinCombiner (A := A) (B := B) i₁ i₂) NGood where
  init := ⟨rfl, rfl⟩
  mono h _ _ := h
  keep {S D b1 b2 st s e st' s'} h hx := by
    obtain ⟨⟨v₁, e₁, t₁⟩, ⟨v₂, e₂, t₂⟩⟩ := st
    obtain ⟨h1, h2⟩ := h
    simp only at h1 h2
    subst h1 h2
    cases e with
    | o1 n =>
      simp only [joinCombiner] at hx
      cases hg : t₁.updateWouldBeInvalid n with
      | true =>
        simp only [hg, Bool.not_true, Bool.false_eq_true, if_false, Option.bind_eq_bind, Option.bind_some, NotificationState.takeError] at hx
        cases hx; exact ⟨rfl, rfl⟩
      | false =>
        cases hp : NotificationState.push ⟨v₁, none, t₁⟩ n with
        | none => simp [hp, hg] at hx
        | some q =>
          simp only [hp, hg, Bool.not_false, if_true, Option.map_some, Option.bind_eq_bind, Option.bind_some, NotificationState.takeError] at hx
          split at hx <;> cases hx <;> exact ⟨rfl, rfl⟩
    | o2 n =>
      simp only [joinCombiner] at hx
      cases hg : t₂.updateWouldBeInvalid n with
      | true =>
        simp only [hg, Bool.not_true, Bool.false_eq_true, if_false, Option.bind_eq_bind, Option.bind_some, NotificationState.takeError] at hx
        cases hx; exact ⟨rfl, rfl⟩
      | false =>
        cases hp : NotificationState.push ⟨v₂, none, t₂⟩ n with
        | none => simp [hp, hg] at hx
        | some q =>
          simp only [hp, hg, Bool.not_false, if_true, Option.map_some, Option.bind_eq_bind, Option.bind_some, NotificationState.takeError] at hx
          split at hx <;> cases hx <;> exact ⟨rfl, rfl⟩
  quiet1 {S D b st s} h hc := by
    obtain ⟨⟨v₁, e₁, t₁⟩, ⟨v₂, e₂, t₂⟩⟩ := st
    obtain ⟨h1, h2⟩ := h
    simp only at h1 h2
    subst h1 h2
    cases hg : t₁.updateWouldBeInvalid (I := A) (E := E₁) .unsubscribe with
    | true => exact ⟨(⟨v₁, none, t₁⟩, ⟨v₂, none, t₂⟩), by simp [joinCombiner, hg, NotificationState.takeError, hc]⟩
    | false =>
      obtain ⟨v', t', hq⟩ := push_unsub (E := E₁) v₁ t₁
      exact ⟨(⟨v', none, t'⟩, ⟨v₂, none, t₂⟩), by simp [joinCombiner, hq, hg, NotificationState.takeError, hc, SubscriberNotification.isNext]⟩
  quiet2 {S D b st s} h hc := by
    obtain ⟨⟨v₁, e₁, t₁⟩, ⟨v₂, e₂, t₂⟩⟩ := st
    obtain ⟨h1, h2⟩ := h
    simp only at h1 h2
    subst h1 h2
    cases hg : t₂.updateWouldBeInvalid (I := B) (E := E₂) .unsubscribe with
    | true => exact ⟨(⟨v₁, none, t₁⟩, ⟨v₂, none, t₂⟩), by simp [joinCombiner, hg, NotificationState.takeError, hc]⟩
    | false =>
      obtain ⟨v', t', hq⟩ := push_unsub (E := E₂) v₂ t₂
      exact ⟨(⟨v₁, none, t₁⟩, ⟨v', none, t'⟩), by simp [joinCombiner, hq, hg, NotificationState.takeError, hc, SubscriberNotification.isNext]⟩

theorem ends_changes (i₁ : E₁ → F) (i₂ : E₂ → F) (h : List (Either2 A E₁ B E₂)) (u1 : unsubscribed (left h) = true)
    (u2 : unsubscribed (right h) = true) : (combineChangesRule i₁ i₂).ends h ≠ none := by
  simp only [combineChangesRule, finished, u1, u2]
  split <;> (try split) <;> simp

theorem ends_latest (i₁ : E₁ → F) (i₂ : E₂ → F) (h : List (Either2 A E₁ B E₂)) (u1 : unsubscribed (left h) = true)
    (u2 : unsubscribed (right h) = true) : (combineLatestActualRule i₁ i₂).ends h ≠ none := by
  simp only [combineLatestActualRule, finished, u1, u2]
  (repeat' split) <;> simp_all

theorem ends_join (i₁ : E₁ → F) (i₂ : E₂ → F) (h : List (Either2 A E₁ B E₂)) (u1 : unsubscribed (left h) = true)
    (u2 : unsubscribed (right h) = true) : (joinRule i₁ i₂).ends h ≠ none := by
  simp only [joinRule, finished, u1, u2]
  (repeat' split) <;> simp_all

/-! ### zip -/

/-- The input of this queue was not unsubscribed. -/
structure QClean {I E : Type} (q : NotificationQueue I E) : Prop where
  state : q.state.unsubscribed = false
  queue : SubscriberNotification.unsubscribe ∉ q.queue

theorem update_unsub {I E : Type} {s s' : SubscriberState} {n : SubscriberNotification I E} (h : s.updateWithNotification n = some s')
    (hn : n ≠ .unsubscribe) : s'.unsubscribed = s.unsubscribed := by
  cases n with
  | unsubscribe => exact absurd rfl hn
  | _ =>
    simp only [SubscriberState.updateWithNotification, SubscriberState.next, SubscriberState.error, SubscriberState.complete] at h
    split at h
    · cases h
    · cases h; rfl

theorem QClean.dropOldest {I E : Type} {q : NotificationQueue I E} (h : QClean q) : QClean q.dropOldest := by
  rw [NotificationQueue.dropOldest]
  split
  · exact ⟨h.state, fun hm => h.queue (List.mem_of_mem_eraseIdx hm)⟩
  · exact h

theorem QClean.push {I E : Type} {q q' : NotificationQueue I E} (h : QClean q) {n} (hn : n ≠ .unsubscribe) (hp : q.push n = some q') : QClean q' := by
  have key : ∀ {q0 : NotificationQueue I E}, QClean q0 →
      (match (generalizing := false) n with
        | .error e => (q0.state.error).map fun s => { q0 with err := some e, state := s }
        | n =>
          if q0.queue.isEmpty then
            (q0.state.updateWithNotification n).map fun s => { q0 with queue := q0.queue ++ [n], state := s }
          else some { q0 with queue := q0.queue ++ [n] }) = some q' → QClean q' := by
    intro q0 hq hx
    have gen : n ≠ .unsubscribe → ((if q0.queue.isEmpty then
            (q0.state.updateWithNotification n).map fun s => { q0 with queue := q0.queue ++ [n], state := s }
          else some { q0 with queue := q0.queue ++ [n] }) = some q') → QClean q' := by
      intro hn hx
      split at hx
      · simp only [Option.map_eq_some_iff] at hx
        obtain ⟨s', h1, rfl⟩ := hx
        exact ⟨(update_unsub h1 hn).trans hq.state, by simp [hq.queue, hn.symm]⟩
      · cases hx
        exact ⟨hq.state, by simp [hq.queue, hn.symm]⟩
    cases n with
    | error e =>
      simp only [Option.map_eq_some_iff] at hx
      obtain ⟨s', h1, rfl⟩ := hx
      exact ⟨(update_unsub (I := I) (n := .error e) h1 hn).trans hq.state, hq.queue⟩
    | _ => exact gen hn hx
  rw [NotificationQueue.push] at hp
  split at hp
  · cases hp; exact h
  · refine key (q0 := if _ then q.dropOldest else q) ?_ hp
    split
    · exact h.dropOldest
    · exact h

theorem QClean.pop {I E : Type} {q q' : NotificationQueue I E} {v} (h : QClean q) (hp : q.popNextIfInFront = some (q', v)) : QClean q' := by
  obtain ⟨l, e, st, o⟩ := q
  obtain ⟨h1, h2⟩ := h
  simp only at h1 h2
  rcases l with _ | ⟨n, l⟩
  · cases hp; exact ⟨h1, h2⟩
  · cases n with
    | next a =>
      simp only [NotificationQueue.popNextIfInFront, Option.map_eq_some_iff] at hp
      obtain ⟨q'', hq, he⟩ := hp
      cases he
      rcases l with _ | ⟨m, l⟩
      · cases hq; exact ⟨h1, by simp⟩
      · simp only [NotificationQueue.updateWithFront, Option.map_eq_some_iff] at hq
        obtain ⟨s', hs, rfl⟩ := hq
        simp only [List.mem_cons, not_or] at h2
        exact ⟨(update_unsub hs (fun hm => h2.2.1 hm.symm)).trans h1, by simp [h2.2]⟩
    | _ => cases hp; exact ⟨h1, h2⟩

theorem pop_err {I E : Type} {q q' : NotificationQueue I E} {v} (hp : q.popNextIfInFront = some (q', v)) : q'.err = q.err := by
  obtain ⟨l, e, st, o⟩ := q
  rcases l with _ | ⟨n, l⟩
  · cases hp; rfl
  · cases n with
    | next a =>
      simp only [NotificationQueue.popNextIfInFront, Option.map_eq_some_iff] at hp
      obtain ⟨q'', hq, he⟩ := hp
      cases he
      rcases l with _ | ⟨m, l⟩
      · cases hq; rfl
      · simp only [NotificationQueue.updateWithFront, Option.map_eq_some_iff] at hq
        obtain ⟨s', hs, rfl⟩ := hq
        rfl
    | _ => cases hp; rfl

/-- No error is waiting to be taken, and inputs that were not unsubscribed are not in the queues. -/
def ZGood (b1 b2 : Bool) (st : NotificationQueue A E₁ × NotificationQueue B E₂) : Prop :=
  (st.1.err = none ∧ (b1 = true → QClean st.1)) ∧ (st.2.err = none ∧ (b2 = true → QClean st.2))

theorem QClean.take {I E : Type} {q : NotificationQueue I E} (h : QClean q) : QClean { q with err := none } := ⟨h.state, h.queue⟩

/-- What zip does after it has taken something in. -/
theorem zip_rest (i₁ : E₁ → F) (i₂ : E₂ → F) {D : Sub S (A × B) F} {b1 b2 : Bool} {q₁ : NotificationQueue A E₁} {q₂ : NotificationQueue B E₂}
    {w : Bool} {s : S} {st'} {s' : S} (h1 : q₁.err = none ∨ q₂.err = none) (g1 : b1 = true → QClean q₁) (g2 : b2 = true → QClean q₂)
    (hx : (let (q₁, r₁) := q₁.takeError
      match r₁ with
      | some e => some ((q₁, q₂), D.error s (i₁ e))
      | none =>
        let (q₂, r₂) := q₂.takeError
        match r₂ with
        | some e => some ((q₁, q₂), D.error s (i₂ e))
        | none => do
          let (q₁, q₂, s) ←
            if w && !D.isClosed s && (q₁.hasNext && q₂.hasNext) then do
              let (q₁, v₁) ← q₁.popNextIfInFront
              let (q₂, v₂) ← q₂.popNextIfInFront
              match v₁, v₂ with
              | some v₁, some v₂ => pure (q₁, q₂, D.next s (v₁, v₂))
              | _, _ => pure (q₁, q₂, s)
            else pure (q₁, q₂, s)
          pure ((q₁, q₂), zipEnd D q₁ q₂ s)) = some (st', s')) : ZGood b1 b2 st' := by
  obtain ⟨l₁, e₁, t₁, o₁⟩ := q₁
  obtain ⟨l₂, e₂, t₂, o₂⟩ := q₂
  simp only [NotificationQueue.takeError] at hx h1
  cases e₁ with
  | some e =>
    simp only at hx
    cases hx
    rcases h1 with h1 | h1
    · cases h1
    · exact ⟨⟨rfl, fun h => (g1 h).take⟩, ⟨h1, g2⟩⟩
  | none =>
    cases e₂ with
    | some e =>
      simp only at hx
      cases hx
      exact ⟨⟨rfl, g1⟩, ⟨rfl, fun h => (g2 h).take⟩⟩
    | none =>
      cases hw : (w && !D.isClosed s && ((⟨l₁, none, t₁, o₁⟩ : NotificationQueue A E₁).hasNext &&
          (⟨l₂, none, t₂, o₂⟩ : NotificationQueue B E₂).hasNext)) with
      | true =>
        simp only [hw, if_true] at hx
        cases hp1 : (⟨l₁, none, t₁, o₁⟩ : NotificationQueue A E₁).popNextIfInFront with
        | none => simp [hp1] at hx
        | some x1 =>
          obtain ⟨q1, v1⟩ := x1
          cases hp2 : (⟨l₂, none, t₂, o₂⟩ : NotificationQueue B E₂).popNextIfInFront with
          | none => simp [hp1, hp2] at hx
          | some x2 =>
            obtain ⟨q2, v2⟩ := x2
            have : st' = (q1, q2) := by
              simp only [hp1, hp2, Option.bind_eq_bind, Option.bind_some] at hx
              cases v1 <;> cases v2 <;> cases hx <;> rfl
            subst this
            exact ⟨⟨pop_err hp1, fun h => (g1 h).pop hp1⟩, ⟨pop_err hp2, fun h => (g2 h).pop hp2⟩⟩
      | false =>
        simp only [hw, Bool.false_eq_true, if_false] at hx
        cases hx
        exact ⟨⟨rfl, g1⟩, ⟨rfl, g2⟩⟩

theorem clean_unsub {I E : Type} {q : NotificationQueue I E} (h : QClean q) : ∃ q', q.push .unsubscribe = some q' ∧ q'.err = q.err := by
  have hu : q.state.isUnsubscribed = false := h.state
  cases he : q.queue.isEmpty with
  | true => exact ⟨{ q with queue := q.queue ++ [.unsubscribe], state := { q.state with waiting := false, unsubscribed := true } }, by simp only [NotificationQueue.push, SubscriberNotification.isNext, Bool.and_false, Bool.false_and, Bool.false_eq_true, if_false, he, if_true, SubscriberState.updateWithNotification, SubscriberState.unsubscribe, hu]; rfl, rfl⟩
  | false => exact ⟨{ q with queue := q.queue ++ [.unsubscribe] }, by simp only [NotificationQueue.push, SubscriberNotification.isNext, Bool.and_false, Bool.false_and, Bool.false_eq_true, if_false, he], rfl⟩

theorem tame_zip (o : QueueOverflowOptions) (i₁ : E₁ → F) (i₂ : E₂ → F) : Tame (zipCombiner (A := A) (B := B) o i₁ i₂) ZGood where
  init := ⟨⟨rfl, fun _ => ⟨rfl, by simp [zipCombiner, NotificationQueue.new]⟩⟩, ⟨rfl, fun _ => ⟨rfl, by simp [zipCombiner, NotificationQueue.new]⟩⟩⟩
  mono h h1 h2 := ⟨⟨h.1.1, fun hh => h.1.2 (h1 hh)⟩, ⟨h.2.1, fun hh => h.2.2 (h2 hh)⟩⟩
  keep {S D b1 b2 st s e st' s'} h hx := by
    obtain ⟨q₁, q₂⟩ := st
    obtain ⟨⟨h1, h2⟩, ⟨h3, h4⟩⟩ := h
    cases e with
    | o1 n =>
      cases hp : q₁.push n with
      | none => simp [zipCombiner, hp] at hx
      | some q =>
        refine zip_rest i₁ i₂ (D := D) (w := n.isNext) (s := s) (s' := s') (q₁ := q) (q₂ := q₂) (.inr h3) ?_ ?_ ?_
        · intro hb
          simp only [Bool.and_eq_true] at hb
          exact (h2 hb.1).push (by rintro rfl; simp [isU1] at hb) hp
        · intro hb
          simp only [Bool.and_eq_true] at hb
          exact h4 hb.1
        · simp only [zipCombiner, hp, Option.map_some, Option.bind_eq_bind, Option.bind_some] at hx
          exact hx
    | o2 n =>
      cases hp : q₂.push n with
      | none => simp [zipCombiner, hp] at hx
      | some q =>
        refine zip_rest i₁ i₂ (D := D) (w := n.isNext) (s := s) (s' := s') (q₁ := q₁) (q₂ := q) (.inl h1) ?_ ?_ ?_
        · intro hb
          simp only [Bool.and_eq_true] at hb
          exact h2 hb.1
        · intro hb
          simp only [Bool.and_eq_true] at hb
          exact (h4 hb.1).push (by rintro rfl; simp [isU2] at hb) hp
        · simp only [zipCombiner, hp, Option.map_some, Option.bind_eq_bind, Option.bind_some] at hx
          exact hx
  quiet1 {S D b st s} h hc := by
    obtain ⟨q₁, q₂⟩ := st
    obtain ⟨⟨h1, h2⟩, ⟨h3, h4⟩⟩ := h
    obtain ⟨q', hq, he⟩ := clean_unsub (h2 rfl)
    have he' : q'.err = none := he.trans h1
    have h3' : q₂.err = none := h3
    exact ⟨({ q' with err := none }, { q₂ with err := none }), by
      simp [zipCombiner, hq, NotificationQueue.takeError, he', h3', hc, SubscriberNotification.isNext]⟩
  quiet2 {S D b st s} h hc := by
    obtain ⟨q₁, q₂⟩ := st
    obtain ⟨⟨h1, h2⟩, ⟨h3, h4⟩⟩ := h
    obtain ⟨q', hq, he⟩ := clean_unsub (h4 rfl)
    have he' : q'.err = none := he.trans h3
    have h1' : q₁.err = none := h1
    exact ⟨({ q₁ with err := none }, { q' with err := none }), by
      simp [zipCombiner, hq, NotificationQueue.takeError, he', h1', hc, SubscriberNotification.isNext]⟩

/-- Inputs that send no more values than fit into the queues. -/
theorem fits_zip {n k1 k2 : Nat} (h1 : k1 ≤ n) (h2 : k2 ≤ n) :
    Fits (A := A) (E₁ := E₁) (B := B) (E₂ := E₂) (fun h => Conforming h ∧ WithinLimit n h) k1 k2 := by
  intro h hc c1 c2
  refine ⟨hc, fun p hp => ?_⟩
  obtain ⟨m, rfl⟩ := hp
  simp only [left, right, valsOf, List.filterMap_append, List.length_append] at c1 c2 ⊢
  omega

theorem nx_filter {I E : Type} (l : List (SubscriberNotification I E)) : (valsOf l).length = (l.filter (·.isNext)).length := by
  induction l with
  | nil => rfl
  | cons n l ih => cases n <;> simp_all [valsOf, SubscriberNotification.isNext]

theorem sum1_eq (acts : List (Act A E₁ B E₂)) : sum1 acts = (acts.filter fun | .send1 n => n.isNext | _ => false).length := by
  induction acts with
  | nil => rfl
  | cons a acts ih =>
    rw [List.filter_cons]
    have hs : sum1 (a :: acts) = nx1 a + sum1 acts := by simp [sum1]
    rw [hs, ih]
    cases a with
    | send1 n => cases n <;> simp [nx1, nx, SubscriberNotification.isNext]; omega
    | _ => simp [nx1]

theorem sum2_eq (acts : List (Act A E₁ B E₂)) : sum2 acts = (acts.filter fun | .send2 n => n.isNext | _ => false).length := by
  induction acts with
  | nil => rfl
  | cons a acts ih =>
    rw [List.filter_cons]
    have hs : sum2 (a :: acts) = nx2 a + sum2 acts := by simp [sum2]
    rw [hs, ih]
    cases a with
    | send2 n => cases n <;> simp [nx2, nx, SubscriberNotification.isNext]; omega
    | _ => simp [nx2]

theorem fits_any {k1 k2 : Nat} : Fits (A := A) (E₁ := E₁) (B := B) (E₂ := E₂) Conforming k1 k2 := fun _ h _ _ => h

end Rx.Wiring
