import Verif.Lemmas.SubjectThreadsOrder

/-!
# Several threads that share a subject: what a step does
-/

namespace Rx.Crowd

open Closing (Dest append_eq_snoc)

variable {S I E : Type} {D : Dest S I E} {debug : Bool}

/-- Is refused when the subject is closed. -/
def Op.checked : Op I E → Bool
  | .next _ | .error _ | .complete | .subscribe => true
  | _ => false

/-- What else a step of thread `t` does. -/
structure Fine (x : State S I E) (t : Nat) (y : State S I E) : Prop where
  join : ∀ c, (y.pc t).joining = some c → c.op = .subscribe
  look : ∀ c, y.pc t = .look c → ∃ k, c.op = .cancel k
  shut_mono : x.shut = true → y.shut = true
  closed_mono : x.closed = true → y.closed = true
  unsub_mono : x.unsubscribed = true → y.unsubscribed = true
  shut : y.shut = true → x.shut = true ∨ (∃ c, (y.pc t).armed = some c ∧ c.op.isClosing = true) ∨
    (∃ c, (x.pc t).hand = some c ∧ c.op.isClosing = true) ∨ ∃ c, x.pc t = .sealing c
  closed : y.closed = true → x.closed = true ∨
    (∃ c, (x.pc t).hand = some c ∧ c.op.isClosing = true ∧ y.dests = x.dests ∧ y.rest = x.rest ∧
      y.queue = x.queue ∧ y.done = x.done) ∨
    ∃ c, x.pc t = .sealing c ∧ y.pc t = .give c ∧ y.done = x.done
  noted : ∀ c, (y.pc t).noted = some c → (x.pc t).noted = some c ∨ y.shut = true ∨ c.op.isClosing = false
  armedShut : ∀ c, (y.pc t).armed = some c → (x.pc t).armed = some c ∨ y.shut = true ∨ c.op.isClosing = false
  armedUnsub : ∀ c, (y.pc t).armed = some c → c.op = .unsubscribe → (x.pc t).armed = some c ∨ y.unsubscribed = true
  passed : ∀ c, (y.pc t).passed = some c → (x.pc t).passed = some c ∨ c.op.checked = false ∨
    (x.shut = false ∧ (x.pc t).pend = some c)
  armed : ∀ c, (x.pc t).armed = some c → (y.pc t).armed = some c ∨ c ∈ y.queue ∨ c ∈ y.done ∨
    (x.closed = true ∧ x.pc t = .deferring c)
  refuse : ∀ c, y.pc t = .refuse c → x.shut = true
  sealing : ∀ c, y.pc t = .sealing c → c.op = .unsubscribe
  give : ∀ c, y.pc t = .give c → x.pc t = .sealing c ∨ (c.op ≠ .unsubscribe ∧ y.queue = [])
  gave : ∀ c, x.pc t = .give c → y.done = x.done ++ [c]
  hand : ∀ c, (y.pc t).hand = some c → y.done = x.done ++ [c]
  error : ∀ e, y.error = some e → x.error = some e ∨ ∃ c, (x.pc t).cur = some c ∧ c.op = .error e
  completed : y.completed = true → x.completed = true ∨ ∃ c, (x.pc t).cur = some c ∧ c.op = .complete
  handles : ∀ k ∈ y.handles, k ∈ x.handles ∨ ∃ c, (x.pc t).cur = some c ∧ c.id = k ∧ c.op = .subscribe ∧
    y.trace = x.trace ++ [.ret k]

local macro "fine" : tactic => `(tactic| (constructor <;> simp_all [State.goto, State.shut, State.note, State.ret, State.clean,
  PC.armed, PC.cur, PC.pend, PC.hand, PC.noted, PC.passed, PC.joining, Why.pend, Why.cur, Why.armed, Why.noted, Why.later, Op.isClosing,
  Op.checked]))

theorem fine_greet {x y : State S I E} (h : Keeps x y) {t : Nat} {c : Call I E} (hp : x.pc t = .greet c) :
    Fine x t (y.goto t (.check c)) := by
  obtain ⟨h1, h2, h3, h4, h5, h6, h7, h8, h9, h10, h11, h12⟩ := h
  constructor <;> simp_all [State.goto, State.shut,
    PC.armed, PC.cur, PC.pend, PC.hand, PC.noted, PC.passed, PC.joining]

set_option maxHeartbeats 4000000 in
theorem fine_advance (x : State S I E) (hj : Join x) (hl : Look x) (t : Nat) : Fine x t (advance D debug x t) := by
  have hj' := hj t
  have hl' := hl t
  unfold advance
  cases hp : x.pc t with
  | idle => fine
  | panicked w => cases w <;> fine
  | pre c => dsimp only; split <;> fine
  | preApply c => dsimp only; split <;> fine
  | greet c =>
    dsimp only
    refine fine_greet ?_ hp
    split
    · exact keeps_tell _ _ _ _
    · split
      · exact keeps_tell _ _ _ _
      · exact Keeps.refl x
  | check c =>
    dsimp only
    split
    · split
      · rename_i hs
        have hs := isSubscribe_iff.1 hs
        fine
      · fine
    · cases hc : c.op <;> simp only [Op.isClosing, if_true, if_false, Bool.false_eq_true] <;> fine
  | refuse c => fine
  | leaving c => fine
  | observe c =>
    dsimp only
    split
    · fine
    · split <;> fine <;> grind
    · split <;> fine
    · cases hc : c.op <;> fine
  | look c =>
    obtain ⟨k, hk⟩ := hl t c hp
    dsimp only
    split
    · split <;> fine
    · fine
  | attempt c => dsimp only; split <;> fine
  | top w k =>
    dsimp only
    split
    · cases w <;> fine
    · split
      · cases w with
        | own c =>
          dsimp only
          split
          · rename_i hs
            have hs := isUnsubscribe_iff.1 hs
            fine
          · rename_i hs
            have hs : c.op ≠ .unsubscribe := fun h => hs (isUnsubscribe_iff.2 h)
            fine
        | pre c => fine
        | after o => fine
      · cases w <;> fine
  | deliver w k =>
    dsimp only
    split
    · cases w <;> fine
    · cases w <;> fine
  | marking w k c => cases w <;> fine <;> grind
  | sealing c => fine
  | give c => fine
  | unlock w =>
    cases w with
    | own c => dsimp only; split <;> fine
    | pre c => fine
    | after o =>
      cases o with
      | none => fine
      | some c => cases hc : c.op <;> fine <;> grind
  | deferring c =>
    dsimp only
    split
    · split
      · split <;> fine
      · split <;> fine
    · split <;> fine
  | recheck o =>
    dsimp only
    split
    · cases o with
      | none => fine
      | some c => cases hc : c.op <;> fine <;> grind
    · fine
  | apply o =>
    dsimp only
    split
    · fine
    · cases o with
      | none => fine
      | some c => cases hc : c.op <;> fine <;> grind

set_option maxHeartbeats 1000000 in
theorem fine_step (x : State S I E) (hj : Join x) (hl : Look x) (t : Nat) (a : Turn I E) : Fine x t (step D debug x t a) := by
  unfold step
  split
  · rename_i hi
    have hp := isIdle_eq hi
    have hj' := hj t
    have hl' := hl t
    cases a with
    | go => fine
    | call op =>
      dsimp only
      split
      · fine
      · cases op <;> simp only [entry, Op.used] <;> fine
        intro k hk
        exact List.mem_of_mem_erase hk
    | ask => fine
    | drop => fine
  · exact fine_advance x hj hl t

end Rx.Crowd
