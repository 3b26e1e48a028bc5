import Verif.Lemmas.Share

/-! While there are subscribers, `share` is connected, and when there are none, it is not. -/

namespace Rx.Share
open Rx.HigherOrder (Closes Patient)

variable {S I E : Type} {c : Cfg S I E} {x y : State S I E}

namespace State

theorem give_ok {em : Option Nat} {i : Nat} {n : SubscriberNotification I E} (h : x.give c em n i = .ok y) :
    y = x ∨ (c.D.isClosed (x.dest i) = false ∧
      ((c.D.isClosed (c.D.push (x.dest i) n) = false ∧ y = { x with dest := set x.dest i (c.D.push (x.dest i) n) }) ∨
       (c.D.isClosed (c.D.push (x.dest i) n) = true ∧
        State.leave c em { x with dest := set x.dest i (c.D.push (x.dest i) n) } i = .ok y))) := by
  rw [give] at h
  split at h
  · exact .inl (Except.ok.inj h).symm
  · refine .inr ⟨Bool.eq_false_iff.2 ‹_›, ?_⟩
    change (if c.D.isClosed (set x.dest i (c.D.push (x.dest i) n) i) = true then _ else _) = _ at h
    rw [set_self] at h
    split at h
    · exact .inr ⟨‹_›, h⟩
    · exact .inl ⟨Bool.eq_false_iff.2 ‹_›, (Except.ok.inj h).symm⟩

theorem gives_keep {p em : Option Nat} {n : SubscriberNotification I E} (P : State S I E → Prop)
    (hs : ∀ {x y i}, Base p x → Counts c x → i < x.size → x.member i = true → P x → x.give c em n i = .ok y → P y) :
    ∀ (l : List Nat) {x : State S I E}, Base p x → Counts c x → (∀ i ∈ l, i < x.size ∧ x.member i = true) → P x →
    l.foldlM (give c em n) x = .ok y → P y
  | [], x, _, _, _, hp, h => by rw [← Except.ok.inj h]; exact hp
  | i :: l, x, hb, hc, hl, hp, h => by
    rw [List.foldlM_cons] at h
    cases e : x.give c em n i with
    | error f => rw [e] at h; exact absurd h (by intro h; cases h)
    | ok z =>
      rw [e] at h
      have hi := hl i List.mem_cons_self
      obtain ⟨h1, h2, h3, _, h5⟩ := give_counts hb hc hi.1 hi.2 e
      exact gives_keep P hs l h1 h2 (fun k hk => by rw [h3.size, h5]; exact hl k (List.mem_cons_of_mem _ hk))
        (hs hb hc hi.1 hi.2 hp e) h

theorem tell_keep (ho : c.Fair) {p em : Option Nat} {n : SubscriberNotification I E} {k : Nat} (P : State S I E → Prop)
    (hs : ∀ {x y i}, Base p x → Counts c x → i < x.size → x.member i = true → P x → x.give c em n i = .ok y → P y)
    (hb : Base p x) (hc : Counts c x) (hp : P x) (h : x.tell c em n k = .ok y) : P y :=
  gives_keep P hs _ hb hc
    (fun i hi => by have := mem_members.1 ((ho (x.members k)).mem_iff.1 hi); exact ⟨this.1, this.2.1⟩) hp h

theorem CountsBut.dest {i : Nat} {d : S} (h : CountsBut c i x) : CountsBut c i { x with dest := set x.dest i d } :=
  ⟨h.count, fun k hk e => (h.live k hk e).trans (by
    show _ = (x.member k && !c.D.isClosed (set x.dest i _ k)); rw [set_ne e]), h.connLt⟩

/-- Nobody is counted. -/
def Nobody (x : State S I E) : Prop := ∀ i, i < x.size → x.counted i = false

theorem nobody_iff (h : x.count = x.tally.length) : x.count = 0 ↔ x.Nobody := by
  rw [h, List.length_eq_zero_iff, tally, List.filter_eq_nil_iff]
  exact ⟨fun h i hi => Bool.eq_false_iff.2 (h i (List.mem_range.2 hi)),
    fun h i hi => Bool.eq_false_iff.1 (h i (List.mem_range.1 hi))⟩

/-- The last one left. -/
theorem last_nobody {i : Nat} (hc : CountsBut c i x) (hi : i < x.size) (he : x.counted i = true) (h : x.last c = true) :
    (x.uncount i).Nobody := by
  refine (nobody_iff (hc.uncount hi he).count).1 ?_
  simp only [last, Bool.and_eq_true, beq_iff_eq] at h
  exact h.1.1.2

theorem Nobody.disconnect (h : x.Nobody) : (x.disconnect c).Nobody := by
  obtain ⟨_, e, _⟩ := counts_disconnect (c := c) (x := x)
  intro i hi
  rw [e]
  exact h i (by rwa [(frame_disconnect (c := c) (x := x)).size] at hi)

/-- Each subscriber's connector is fed by an open subscription to the source. -/
def Linked (x : State S I E) : Prop := ∀ i, i < x.size → x.counted i = true → ∃ j, x.Open j ∧ x.target j = x.conn i

theorem Nobody.linked (h : x.Nobody) : x.Linked := fun i hi hc => absurd hc (by rw [h i hi]; decide)

theorem leave_linked {em : Option Nat} {i : Nat} (hc : CountsBut c i x) (hi : i < x.size) (hl : x.Linked)
    (h : x.leave c em i = .ok y) : y.Linked := by
  rcases leave_ok h with ⟨_, e'⟩ | ⟨e, e'⟩
  · rw [e']; exact hl
  · split at e'
    · rw [e']; exact (last_nobody hc hi e ‹_›).disconnect.linked
    · rw [e']; exact fun k hk hk' => hl k hk ((frame_uncount i).counted k hk')

theorem give_linked {em : Option Nat} {i : Nat} {n : SubscriberNotification I E} (hc : CountsBut c i x) (hi : i < x.size)
    (hl : x.Linked) (h : x.give c em n i = .ok y) : y.Linked := by
  rcases give_ok h with e | ⟨_, ⟨_, e⟩ | ⟨_, h⟩⟩
  · rw [e]; exact hl
  · rw [e]; exact hl
  · exact leave_linked hc.dest hi (show State.Linked { x with dest := set x.dest i (c.D.push (x.dest i) n) } from hl) h

theorem Kept.open_iff (h : Kept x y) (e : y.torn = x.torn) (e' : y.ended = x.ended) (j : Nat) : y.Open j ↔ x.Open j := by
  rw [Open, Open, isClosed, isClosed, h.sources, h.target, e, e']

theorem emit_linked (hD : Closes c.D) (ho : c.Fair) {p : Option Nat} {j : Nat} {n : SubscriberNotification I E}
    (hn : n ≠ .unsubscribe) (hb : Base p x) (hc : Counts c x) (hj : j < x.sources) (hl : x.Linked)
    (h : x.emit c j n = .ok y) : y.Linked := by
  cases e : x.isClosed j with
  | true => rw [emit_closed e] at h; rw [← Except.ok.inj h]; exact hl
  | false =>
    rcases note_cases n with ⟨v, rfl⟩ | rfl | hn
    · rw [emit_next e] at h
      exact tell_keep ho Linked (fun _ hc hi _ hl h => give_linked (hc.but _) hi hl h) hb hc hl h
    · exact absurd rfl hn
    · obtain ⟨er, co, z, -, h1, h2, h3, h4, h5, h6, h7⟩ := emit_end_spec ho hn hb hc ⟨hj, e⟩ h
      have : z.Nobody := fun i hi => by
        have hi' : i < x.size := h1.size ▸ hi
        cases e' : z.counted i with
        | false => rfl
        | true =>
          have hx := h1.counted i e'
          obtain ⟨j', k1, k2⟩ := hl i hi' hx
          rw [hb.unique k1 ⟨hj, e⟩] at k2
          have := (hc.live i hi').symm.trans hx
          rw [Bool.and_eq_true, Bool.not_eq_true'] at this
          have hz := (h3.live i hi).symm.trans e'
          rw [h7, if_pos ⟨mem_members.2 ⟨hi', this.1, k2.symm⟩, this.2⟩, hD _ _ (by
            rcases hn with rfl | ⟨_, rfl⟩ <;> rfl)] at hz
          exact absurd hz (by simp)
      rw [h6]
      exact Nobody.linked (x := { z with torn := set z.torn j true }) this

/-- A subscriber's connector is the current one, and it has not ended. -/
def Ready (x : State S I E) : Prop :=
  ∀ i, i < x.size → x.counted i = true → x.current = some (x.conn i) ∧ x.ended (x.conn i) = none

theorem Open.target_open {j : Nat} (h : x.Open j) : x.ended (x.target j) = none := by
  have := h.2
  rw [isClosed, Bool.or_eq_false_iff] at this
  cases e : x.ended (x.target j) with
  | none => rfl
  | some n => rw [e] at this; exact absurd this.2 (by simp)

theorem Linked.ready {p : Option Nat} (h : x.Linked) (hb : Base p x) : x.Ready := fun i hi hc => by
  obtain ⟨j, h1, h2⟩ := h i hi hc
  rw [← h2]
  exact ⟨hb.cur j h1, h1.target_open⟩

theorem Ready.linked {p : Option Nat} (h : x.Ready) (hb : Base p x) {j : Nat} (hj : x.Open j) : x.Linked := fun i hi hc =>
  ⟨j, hj, Option.some.inj ((hb.cur j hj).symm.trans (h i hi hc).1)⟩

theorem connect_linked (hD : Closes c.D) (ho : c.Fair) (hq : ∀ j, ∀ n ∈ c.script j, n ≠ .unsubscribe) (hb : Base none x)
    (hc : Counts c x) (hr : x.Ready) (h : x.connect c = .ok y) : y.Linked := by
  rw [connect] at h
  split at h
  · rename_i j e
    rw [← Except.ok.inj h]
    exact hr.linked hb (hb.active_some e)
  · rename_i e
    have hx := hb.active_none e
    obtain ⟨f1, f2, f3, f4, f5, f6, f7, f8, f9, f10, f11, f12, f13, f14⟩ := fresh_fields (x := x)
    have hp : x.fresh.Linked := fun i hi hci => by
      rw [f1] at hi
      rw [f5] at hci
      have := hr i hi hci
      have e := Option.some.inj (f12.symm.trans (fresh_current this.1))
      refine ⟨x.sources, ⟨by rw [f13]; exact Nat.lt_succ_self _, ?_⟩, by rw [e, f3]⟩
      rw [isClosed, f14, f8, e, this.2]; rfl
    obtain ⟨_, _, _, z, h1, _, _, h3⟩ := createConnection_spec ho hb hc hx Linked hp
      (fun hn hb hc hj hl h => emit_linked hD ho (hq _ _ hn) hb hc hj hl h) h
    rw [h3]
    exact h1

theorem shareConnect_linked (hD : Closes c.D) (ho : c.Fair) (hq : ∀ j, ∀ n ∈ c.script j, n ≠ .unsubscribe) {k : Nat}
    (hb : Base none x) (hc : Counts c x) (hr : x.Ready) (h : x.shareConnect c k = .ok y) : y.Linked := by
  rcases shareConnect_ok h with ⟨j, h1, h2, e⟩ | ⟨z, e, h⟩
  · rw [e]; exact hr.linked hb ⟨hb.hdl k j h1, h2⟩
  · rw [h]
    exact (show z.Linked from connect_linked hD ho hq hb hc hr e)

theorem getConnector_fields : x.getConnector.1.size = x.size ∧ x.getConnector.1.counted = x.counted ∧
    x.getConnector.1.conn = x.conn ∧ x.getConnector.1.ended = x.ended ∧ x.getConnector.1.errored = x.errored ∧
    x.getConnector.1.completed = x.completed ∧ x.getConnector.1.current = some x.getConnector.2 := by
  rw [getConnector]
  split
  · exact ⟨rfl, rfl, rfl, rfl, rfl, rfl, ‹_›⟩
  · exact ⟨rfl, rfl, rfl, rfl, rfl, rfl, rfl⟩

theorem getConnector_current {k : Nat} (h : x.current = some k) : x.getConnector = (x, k) := by
  rw [getConnector, h]

/-- What subscribing does. -/
theorem attach_fields {s : S} : (x.attach c s).size = x.size + 1 ∧
    (x.attach c s).conn = set x.conn x.size x.getConnector.2 ∧ (x.attach c s).ended = x.ended ∧
    (x.attach c s).errored = x.errored ∧ (x.attach c s).completed = x.completed ∧
    (x.attach c s).current = some x.getConnector.2 ∧
    (x.attach c s).counted = set x.counted x.size ((x.ended x.getConnector.2).isNone && !c.D.isClosed s) := by
  obtain ⟨g1, g2, g3, g4, g5, g6, g7⟩ := getConnector_fields (x := x)
  rw [attach]
  simp only []
  split
  · rename_i e
    rw [g4] at e
    refine ⟨congrArg (· + 1) g1, ?_, g4, g5, g6, g7, ?_⟩
    · show set x.getConnector.1.conn _ _ = _; rw [g1, g3]
    · show set x.getConnector.1.counted _ _ = _; rw [g1, g2, e]; rfl
  · rename_i e
    rw [g4] at e
    split
    · rename_i e'
      refine ⟨congrArg (· + 1) g1, ?_, g4, g5, g6, g7, ?_⟩
      · show set x.getConnector.1.conn _ _ = _; rw [g1, g3]
      · show set x.getConnector.1.counted _ _ = _; rw [g1, g2, e, e']; rfl
    · rename_i e'
      refine ⟨congrArg (· + 1) g1, ?_, g4, g5, g6, g7, ?_⟩
      · show set x.getConnector.1.conn _ _ = _; rw [g1, g3]
      · show set (set x.getConnector.1.counted _ _) _ _ = _
        rw [g1, g2, e, Bool.eq_false_iff.2 e']
        funext i
        by_cases h : i = x.size
        · rw [h, set_self, set_self]; rfl
        · rw [set_ne h, set_ne h, set_ne h]

theorem attach_ready {s : S} (hr : x.Ready) : (x.attach c s).Ready := by
  obtain ⟨a1, a2, a3, _, _, a6, a7⟩ := attach_fields (c := c) (x := x) (s := s)
  intro i hi hc
  rw [a1] at hi
  rw [a6, a2, a3]
  rw [a7] at hc
  by_cases e : i = x.size
  · rw [e, set_self] at hc ⊢
    rw [Bool.and_eq_true, Option.isNone_iff_eq_none] at hc
    exact ⟨rfl, hc.1⟩
  · rw [set_ne e] at hc ⊢
    have := hr i (by omega) hc
    rw [getConnector_current this.1]
    exact ⟨rfl, this.2⟩

theorem step_linked (hD : Closes c.D) (ho : c.Fair) (hq : ∀ j, ∀ n ∈ c.script j, n ≠ .unsubscribe) {op : Op S I E}
    (hop : op.Plain) (hb : Base none x) (hc : Counts c x) (hl : x.Linked) (h : x.step c op = .ok y) : y.Linked := by
  cases op with
  | subscribe k s =>
    obtain ⟨h1, h2⟩ := attach_spec (s := s) hb hc
    exact shareConnect_linked hD ho hq h1 h2 (attach_ready (hl.ready hb)) h
  | unsubscribe i =>
    change (if i < x.size then _ else _) = _ at h
    split at h
    · rename_i hi
      by_cases e : x.member i = true
      · obtain ⟨_, _, _, h4⟩ := unsubscribe_spec hD hi hb hc h
        exact give_linked (x := { x with member := set x.member i false })
          ⟨hc.count, fun k hk e => (hc.live k hk).trans (by
            show _ = (set x.member i false k && _); rw [set_ne e]), hc.connLt⟩ hi hl (h4 e).2
      · rw [unsubscribe, if_neg e] at h
        rw [← Except.ok.inj h]; exact hl
    · rw [← Except.ok.inj h]; exact hl
  | emit j n =>
    change (if j < x.sources then _ else _) = _ at h
    split at h
    · exact emit_linked hD ho hop hb hc ‹_› hl h
    · rw [← Except.ok.inj h]; exact hl
  | connect k => exact shareConnect_linked hD ho hq hb hc (hl.ready hb) h
  | link => exact connect_linked hD ho hq hb hc (hl.ready hb) h
  | disconnect k => exact hop.elim
  | attach s => exact hop.elim
  | unlink => exact hop.elim
  | reset => exact hop.elim

/-- The current connector has ended. -/
def Over (x : State S I E) : Prop := ∃ k, x.current = some k ∧ (x.ended k).isSome = true

theorem Over.shut {p : Option Nat} (h : x.Over) (hb : Base p x) (j : Nat) : ¬ x.Open j := fun hj => by
  obtain ⟨k, h1, h2⟩ := h
  have := hb.cur j hj
  rw [h1] at this
  rw [Option.some.inj this, hj.target_open] at h2
  exact absurd h2 (by simp)

/-- When nobody is counted, nothing is open; the source has ended only if the connector has. -/
structure Idle (x : State S I E) : Prop where
  idle : x.Nobody → ∀ j, ¬ x.Open j
  flag : (x.errored || x.completed) = true → x.Over

theorem leave_idle (hr : c.refCount = true) {em : Option Nat} {i : Nat} (hb : Base none x) (hc : CountsBut c i x)
    (hi : i < x.size) (hl : x.Idle) (h : x.leave c em i = .ok y) : y.Idle := by
  rcases leave_ok h with ⟨_, e'⟩ | ⟨e, e'⟩
  · rw [e']; exact hl
  · split at e'
    · rename_i e2
      rw [e']
      refine ⟨fun _ => (hb.uncount i).disconnected, fun h => ?_⟩
      have f := (frame_uncount i).trans (frame_disconnect (c := c) (x := x.uncount i))
      rw [f.errored, f.completed] at h
      simp only [last, Bool.and_eq_true, Bool.not_eq_true'] at e2
      rw [e2.2, e2.1.2] at h
      exact absurd h (by decide)
    · rename_i e2
      rw [e']
      refine ⟨fun hn => ?_, hl.flag⟩
      have := (nobody_iff (hc.uncount hi e).count).2 hn
      change x.count - 1 = 0 at this
      have : (x.errored || x.completed) = true := by
        rw [last, hr, this] at e2
        cases h1 : x.errored <;> cases h2 : x.completed <;> simp_all
      exact Over.shut (x := x.uncount i) (hl.flag this) (hb.uncount i)

theorem give_idle (hr : c.refCount = true) {em : Option Nat} {i : Nat} {n : SubscriberNotification I E} (hb : Base none x)
    (hc : CountsBut c i x) (hi : i < x.size) (hl : x.Idle) (h : x.give c em n i = .ok y) : y.Idle := by
  rcases give_ok h with e | ⟨_, ⟨_, e⟩ | ⟨_, h⟩⟩
  · rw [e]; exact hl
  · rw [e]; exact ⟨hl.idle, hl.flag⟩
  · exact leave_idle hr (x := { x with dest := set x.dest i (c.D.push (x.dest i) n) })
      ⟨hb.regs, hb.pend, hb.cur, hb.curLt, hb.tgtLt, hb.fresh, hb.reg, hb.hdl⟩ hc.dest hi ⟨hl.idle, hl.flag⟩ h

theorem unsubscribeSource_idle {p : Option Nat} {j : Nat} (hb : Base p x) (hj : j < x.sources) (hl : x.Idle) :
    (x.unsubscribeSource c j).Idle := by
  have f := frame_unsubscribeSource (c := c) (x := x) j
  obtain ⟨_, e2, _⟩ := counts_unsubscribeSource (c := c) (x := x) j
  refine ⟨fun hn i hi => hl.idle (fun k hk => ?_) i (hi.of_frame f), fun h => ?_⟩
  · rw [← e2]; exact hn k (by rw [f.size]; exact hk)
  · rw [f.errored, f.completed] at h
    have := hl.flag h
    have e : x.isClosed j = true := by
      cases e : x.isClosed j with
      | true => rfl
      | false => exact absurd ⟨hj, e⟩ (this.shut hb j)
    rw [unsubscribeSource, if_pos e]
    exact this

/-- The source ends, and the connector is kept. -/
theorem emit_end_idle (ho : c.Fair) {p : Option Nat} {j : Nat} {n : SubscriberNotification I E} (hn : IsEnd n)
    (hr : c.resets n = false) (hb : Base p x) (hc : Counts c x) (hj : x.Open j) (h : x.emit c j n = .ok y) : y.Idle := by
  obtain ⟨er, co, h0, h1⟩ := emit_end (c := c) hn hj.2
  obtain ⟨k1, k2, _⟩ := emit_spec ho hb hc hj.1 h
  rw [h1] at h
  split at h
  · rename_i z e
    have b := hb.ending (n := n) (r := c.resets n) (er := er) (co := co) hj
    have k : Counts c (x.ending (x.target j) n (c.resets n) er co) := ⟨hc.count, hc.live, hc.connLt⟩
    have f := (tell_spec ho b k e).2.2.1
    have hz : z.current = x.current ∧ (z.errored || z.completed) = true := tell_keep ho
      (fun z => z.current = x.current ∧ (z.errored || z.completed) = true) (fun {z w i} _ hc hi _ hp h => by
        have key : ∀ {u : State S I E}, u.current = x.current ∧ (u.errored || u.completed) = true →
            u.leave c (some j) i = .ok w → w.current = x.current ∧ (w.errored || w.completed) = true := fun {u} hu h => by
          rcases leave_ok h with ⟨_, e⟩ | ⟨_, e⟩
          · rw [e]; exact hu
          · rw [if_neg (by rw [last]; cases h1 : u.errored <;> cases h2 : u.completed <;> simp_all)] at e
            rw [e]; exact hu
        rcases give_ok h with e | ⟨_, ⟨_, e⟩ | ⟨_, h⟩⟩
        · rw [e]; exact hp
        · rw [e]; exact hp
        · exact key (u := { z with dest := set z.dest i (c.D.push (z.dest i) n) }) hp h) b k ⟨by rw [State.ending, hr]; rfl, h0⟩ e
    have hy := Except.ok.inj h
    have o : y.Over := by
      refine ⟨x.target j, ?_, ?_⟩
      · rw [← hy]; exact hz.1.trans (hb.cur j hj)
      · rw [← hy]
        show (z.ended _).isSome = true
        rw [f.ended]
        exact congrArg Option.isSome (set_self ..)
    exact ⟨fun _ => o.shut k1, fun _ => o⟩
  · exact absurd h (by simp)

theorem emit_idle (ho : c.Fair) (hr : c.refCount = true) {j : Nat} {n : SubscriberNotification I E}
    (hn : c.resets n = false) (hb : Base none x) (hc : Counts c x) (hj : j < x.sources) (hl : x.Idle)
    (h : x.emit c j n = .ok y) : y.Idle := by
  cases e : x.isClosed j with
  | true => rw [emit_closed e] at h; rw [← Except.ok.inj h]; exact hl
  | false =>
    rcases note_cases n with ⟨v, rfl⟩ | rfl | hn'
    · rw [emit_next e] at h
      exact tell_keep ho Idle (fun hb hc hi _ hl h => give_idle hr hb (hc.but _) hi hl h) hb hc hl h
    · rw [emit_unsubscribe] at h
      rw [← Except.ok.inj h]
      exact unsubscribeSource_idle hb hj hl
    · exact emit_end_idle ho hn' hn hb hc ⟨hj, e⟩ h

/-- While the source is being subscribed to. -/
theorem emit_idle_mild (ho : c.Fair) {q j : Nat} {n : SubscriberNotification I E}
    (hn : c.resets n = false ∧ ∀ v, n = .next v → ∀ s, c.D.isClosed s = false → c.D.isClosed (c.D.next s v) = false)
    (hb : Base (some q) x) (hc : Counts c x) (hj : j < x.sources) (hl : x.Idle)
    (h : x.emit c j n = .ok y) : y.Idle := by
  cases e : x.isClosed j with
  | true => rw [emit_closed e] at h; rw [← Except.ok.inj h]; exact hl
  | false =>
    rcases note_cases n with ⟨v, rfl⟩ | rfl | hn'
    · rw [emit_next e] at h
      refine tell_keep ho Idle (fun {z w i} hb hc hi _ hl h => ?_) hb hc hl h
      rcases give_ok h with e | ⟨e0, ⟨_, e⟩ | ⟨e, h⟩⟩
      · rw [e]; exact hl
      · rw [e]; exact ⟨hl.idle, hl.flag⟩
      · exact absurd (show c.D.isClosed (c.D.next (z.dest i) v) = true from e) (by rw [hn.2 v rfl _ e0]; decide)
    · rw [emit_unsubscribe] at h
      rw [← Except.ok.inj h]
      exact unsubscribeSource_idle hb hj hl
    · exact emit_end_idle ho hn' hn.1 hb hc ⟨hj, e⟩ h

/-- Somebody is counted, or the connector has ended. -/
theorem connect_idle (ho : c.Fair) (hm : c.Mild) (hb : Base none x) (hc : Counts c x) (hl : x.Idle)
    (hx : x.Over ∨ ¬ x.Nobody) (h : x.connect c = .ok y) : y.Idle := by
  rw [connect] at h
  split at h
  · rw [← Except.ok.inj h]; exact hl
  · rename_i e
    obtain ⟨f1, f2, f3, f4, f5, f6, f7, f8, f9, f10, f11, f12, f13, f14⟩ := fresh_fields (x := x)
    obtain ⟨b, k⟩ := fresh_spec hb hc (hb.active_none e)
    have ov : x.Over → x.fresh.Over := fun ⟨k, h1, h2⟩ => ⟨k, fresh_current h1, by rw [f8]; exact h2⟩
    have hp : x.fresh.Idle := by
      refine ⟨fun hn => ?_, fun h => ov (hl.flag (by rwa [f9, f10] at h))⟩
      rcases hx with h | h
      · exact (ov h).shut b
      · refine absurd (fun i hi => ?_) h
        rw [← f5]; exact hn i (by rw [f1]; exact hi)
    obtain ⟨_, _, _, z, h1, _, _, h3⟩ := createConnection_spec ho hb hc (hb.active_none e) Idle hp
      (fun hn hb hc hj hl h => emit_idle_mild ho (hm _ _ hn) hb hc hj hl h) h
    rw [h3]
    exact ⟨h1.idle, h1.flag⟩

theorem attach_idle {s : S} (hs : c.D.isClosed s = false) (hb : Base none x) (hc : Counts c x) (hl : x.Idle) :
    (x.attach c s).Idle ∧ ((x.attach c s).Over ∨ ¬ (x.attach c s).Nobody) := by
  obtain ⟨a1, a2, a3, a4, a5, a6, a7⟩ := attach_fields (c := c) (x := x) (s := s)
  obtain ⟨b, _⟩ := attach_spec (c := c) (s := s) hb hc
  have or : (x.attach c s).Over ∨ ¬ (x.attach c s).Nobody := by
    cases e : x.ended x.getConnector.2 with
    | some n => exact .inl ⟨_, a6, by rw [a3, e]; rfl⟩
    | none =>
      refine .inr fun h => ?_
      have := h x.size (by rw [a1]; exact Nat.lt_succ_self _)
      rw [a7, e, hs, set_self] at this
      exact absurd this (by simp)
  refine ⟨⟨fun h => ?_, fun h => ?_⟩, or⟩
  · rcases or with h' | h'
    · exact h'.shut b
    · exact absurd h h'
  · obtain ⟨k, h1, h2⟩ := hl.flag (by rwa [a4, a5] at h)
    rw [getConnector_current h1] at a6
    exact ⟨k, a6, by rw [a3]; exact h2⟩

theorem step_idle (hD : Closes c.D) (ho : c.Fair) (hr : c.refCount = true) (hm : c.Mild) {op : Op S I E}
    (hop : op.Calm c) (hb : Base none x) (hc : Counts c x) (hl : x.Idle) (h : x.step c op = .ok y) : y.Idle := by
  cases op with
  | subscribe k s =>
    obtain ⟨h1, h2⟩ := attach_spec (s := s) hb hc
    obtain ⟨k1, k2⟩ := attach_idle hop hb hc hl
    rcases shareConnect_ok h with ⟨_, _, _, e⟩ | ⟨z, e, h⟩
    · rw [e]; exact k1
    · have := connect_idle ho hm h1 h2 k1 k2 e
      rw [h]
      exact ⟨this.idle, this.flag⟩
  | attach s => rw [← Except.ok.inj h]; exact (attach_idle hop hb hc hl).1
  | unsubscribe i =>
    change (if i < x.size then _ else _) = _ at h
    split at h
    · rename_i hi
      by_cases e : x.member i = true
      · obtain ⟨_, _, _, h4⟩ := unsubscribe_spec hD hi hb hc h
        exact give_idle hr (x := { x with member := set x.member i false })
          ⟨hb.regs, hb.pend, hb.cur, hb.curLt, hb.tgtLt, hb.fresh, hb.reg, hb.hdl⟩
          ⟨hc.count, fun k hk e => (hc.live k hk).trans (by
            show _ = (set x.member i false k && _); rw [set_ne e]), hc.connLt⟩ hi ⟨hl.idle, hl.flag⟩ (h4 e).2
      · rw [unsubscribe, if_neg e] at h
        rw [← Except.ok.inj h]; exact hl
    · rw [← Except.ok.inj h]; exact hl
  | emit j n =>
    change (if j < x.sources then _ else _) = _ at h
    split at h
    · exact emit_idle ho hr hop hb hc ‹_› hl h
    · rw [← Except.ok.inj h]; exact hl
  | disconnect k =>
    rw [← Except.ok.inj h, shareDisconnect]
    split
    · rename_i j e
      refine unsubscribeSource_idle (x := { x with handle := set x.handle k none }) (p := none)
        ⟨hb.regs, hb.pend, hb.cur, hb.curLt, hb.tgtLt, hb.fresh, hb.reg, fun i j h => ?_⟩ (hb.hdl k j e) ⟨hl.idle, hl.flag⟩
      by_cases e' : i = k
      · rw [e'] at h; exact absurd ((set_self ..).symm.trans h) (by simp)
      · exact hb.hdl i j ((set_ne e').symm.trans h)
    · exact hl
  | unlink =>
    rw [← Except.ok.inj h]
    refine ⟨fun _ => hb.disconnected, fun h => ?_⟩
    have f := frame_disconnect (c := c) (x := x)
    rw [f.errored, f.completed] at h
    have o := hl.flag h
    rw [disconnect_eq]
    split
    · rename_i j e
      have : State.isClosed { x with connection := none } j = true := by
        cases e' : State.isClosed { x with connection := none } j with
        | true => rfl
        | false => exact absurd ⟨hb.reg j e, e'⟩ (o.shut hb j)
      rw [unsubscribeSource, if_pos this]
      exact o
    · exact o
  | connect k => exact hop.elim
  | link => exact hop.elim
  | reset => exact hop.elim

/-! No deadlock. -/

theorem leave_total {em : Option Nat} {i : Nat}
    (h : c.blocks = false ∨ em = none ∨ (x.errored || x.completed) = true) : ∃ y, x.leave c em i = .ok y := by
  rw [leave]
  split
  · change ∃ y, (if x.last c = true then _ else _) = _
    split
    · rename_i e
      simp only []
      split
      · rename_i j _
        rw [if_neg]
        · exact ⟨_, rfl⟩
        · rcases h with h | h | h
          · rw [h]; simp
          · rw [h]; simp
          · rw [last] at e
            cases h1 : x.errored <;> cases h2 : x.completed <;> simp_all
      · exact ⟨_, rfl⟩
    · exact ⟨_, rfl⟩
  · exact ⟨_, rfl⟩

theorem give_total {em : Option Nat} {i : Nat} {n : SubscriberNotification I E}
    (h : c.blocks = false ∨ em = none ∨ (x.errored || x.completed) = true ∨ ∃ v, n = .next v ∧ Patient c.D) :
    ∃ y, x.give c em n i = .ok y := by
  rw [give]
  split
  · exact ⟨_, rfl⟩
  · rename_i e
    change ∃ y, (if c.D.isClosed (set x.dest i (c.D.push (x.dest i) n) i) = true then _ else _) = _
    split
    · rename_i e'
      apply leave_total
      rcases h with h | h | h | ⟨v, rfl, h⟩
      · exact .inl h
      · exact .inr (.inl h)
      · exact .inr (.inr h)
      · rw [set_self] at e'
        exact absurd (show c.D.isClosed (c.D.next (x.dest i) v) = true from e') (by rw [h _ v (Bool.eq_false_iff.2 e)]; decide)
    · exact ⟨_, rfl⟩

theorem give_flags {em : Option Nat} {i : Nat} {n : SubscriberNotification I E} (h : x.give c em n i = .ok y) :
    y.errored = x.errored ∧ y.completed = x.completed := by
  have key : ∀ {u : State S I E}, u.leave c em i = .ok y → y.errored = u.errored ∧ y.completed = u.completed := fun {u} h => by
    rcases leave_ok h with ⟨_, e⟩ | ⟨_, e⟩
    · rw [e]; exact ⟨rfl, rfl⟩
    · split at e
      · have f := (frame_uncount i).trans (frame_disconnect (c := c) (x := u.uncount i))
        rw [e]; exact ⟨f.errored, f.completed⟩
      · rw [e]; exact ⟨rfl, rfl⟩
  rcases give_ok h with e | ⟨_, ⟨_, e⟩ | ⟨_, h⟩⟩
  · rw [e]; exact ⟨rfl, rfl⟩
  · rw [e]; exact ⟨rfl, rfl⟩
  · exact key (u := { x with dest := set x.dest i (c.D.push (x.dest i) n) }) h

theorem gives_total {em : Option Nat} {n : SubscriberNotification I E} : ∀ (l : List Nat) {x : State S I E},
    (c.blocks = false ∨ em = none ∨ (x.errored || x.completed) = true ∨ ∃ v, n = .next v ∧ Patient c.D) →
    ∃ y, l.foldlM (give c em n) x = .ok y
  | [], x, _ => ⟨x, rfl⟩
  | i :: l, x, h => by
    obtain ⟨z, e⟩ := give_total (i := i) h
    rw [List.foldlM_cons, e]
    obtain ⟨e1, e2⟩ := give_flags e
    exact gives_total l (by rw [e1, e2]; exact h)

theorem emit_total (hf : c.Free) (x : State S I E) (j : Nat) (n : SubscriberNotification I E) :
    ∃ y, x.emit c j n = .ok y := by
  cases e : x.isClosed j with
  | true => exact ⟨_, emit_closed e⟩
  | false =>
    rcases note_cases n with ⟨v, rfl⟩ | rfl | hn
    · rw [emit_next e]
      exact gives_total _ (hf.imp id fun h => .inr (.inr ⟨v, rfl, h⟩))
    · exact ⟨_, emit_unsubscribe⟩
    · obtain ⟨er, co, h0, h1⟩ := emit_end (c := c) hn e
      rw [h1]
      obtain ⟨z, e⟩ := gives_total (c := c) (em := some j) (n := n)
        (c.ord ((x.ending (x.target j) n (c.resets n) er co).members (x.target j)))
        (x := x.ending (x.target j) n (c.resets n) er co) (.inr (.inr (.inl h0)))
      rw [tell, e]
      exact ⟨_, rfl⟩

theorem connect_total (hf : c.Free) (x : State S I E) : ∃ y, x.connect c = .ok y := by
  have sc : ∀ (j : Nat) (l : List (SubscriberNotification I E)) (x : State S I E),
      ∃ y, l.foldlM (fun y n => y.emit c j n) x = .ok y := by
    intro j l
    induction l with
    | nil => exact fun x => ⟨x, rfl⟩
    | cons n l ih =>
      intro x
      obtain ⟨z, e⟩ := emit_total hf x j n
      rw [List.foldlM_cons, e]
      exact ih z
  rw [connect]
  split
  · exact ⟨_, rfl⟩
  · rw [createConnection]
    obtain ⟨z, e⟩ := sc x.getConnector.1.sources (c.script x.getConnector.1.sources) x.fresh
    change ∃ y, (do
      let z ← (c.script x.getConnector.1.sources).foldlM (fun y n => y.emit c x.getConnector.1.sources n) x.fresh
      pure { z.disconnect c with connection := some x.getConnector.1.sources } : Except Fault (State S I E)) = _
    rw [e]
    exact ⟨_, rfl⟩

theorem shareConnect_total (hf : c.Free) (x : State S I E) (k : Nat) : ∃ y, x.shareConnect c k = .ok y := by
  have key : ∀ b : Bool, ∃ y, (if b = true then
      match x.connect c with
      | .ok x => .ok { x with handle := set x.handle k x.connection }
      | .error f => .error f
      else .ok x : Except Fault (State S I E)) = .ok y := by
    intro b
    obtain ⟨z, e⟩ := connect_total hf x
    rw [e]
    split
    · exact ⟨_, rfl⟩
    · exact ⟨_, rfl⟩
  rw [shareConnect]
  exact key _

theorem step_total (hf : c.Free) (x : State S I E) (op : Op S I E) : ∃ y, x.step c op = .ok y := by
  cases op with
  | subscribe k s => exact shareConnect_total hf _ k
  | unsubscribe i =>
    change ∃ y, (if i < x.size then _ else _) = _
    split
    · rw [unsubscribe]
      split
      · exact give_total (.inr (.inl rfl))
      · exact ⟨_, rfl⟩
    · exact ⟨_, rfl⟩
  | emit j n =>
    change ∃ y, (if j < x.sources then _ else _) = _
    split
    · exact emit_total hf x j n
    · exact ⟨_, rfl⟩
  | connect k => exact shareConnect_total hf _ k
  | link => exact connect_total hf x
  | attach s => exact ⟨_, rfl⟩
  | disconnect k => exact ⟨_, rfl⟩
  | unlink => exact ⟨_, rfl⟩
  | reset => exact ⟨_, rfl⟩

theorem run_total (hf : c.Free) : ∀ (ops : List (Op S I E)) (x : State S I E), ∃ y, x.run c ops = .ok y
  | [], x => ⟨x, rfl⟩
  | op :: ops, x => by
    obtain ⟨z, e⟩ := step_total hf x op
    rw [run, List.foldlM_cons, e]
    exact run_total hf ops z

/-! How often the source is subscribed to. -/

theorem connect_sources (ho : c.Fair) (hb : Base none x) (hc : Counts c x) (h : x.connect c = .ok y) :
    y.sources = x.sources ∨ (y.sources = x.sources + 1 ∧ ∀ j, ¬ x.Open j) := by
  rw [connect] at h
  split at h
  · rw [← Except.ok.inj h]; exact .inl rfl
  · rename_i e
    obtain ⟨_, _, _, z, _, _, h2, h3⟩ := createConnection_spec ho hb hc (hb.active_none e) (fun _ => True) trivial
      (fun _ _ _ _ _ _ => trivial) h
    refine .inr ⟨?_, hb.active_none e⟩
    rw [h3]
    exact h2.sources.trans (fresh_fields (x := x)).2.2.2.2.2.2.2.2.2.2.2.2.1

theorem shareConnect_sources (ho : c.Fair) {k : Nat} (hb : Base none x) (hc : Counts c x) (h : x.shareConnect c k = .ok y) :
    y.sources = x.sources ∨ (y.sources = x.sources + 1 ∧ ∀ j, ¬ x.Open j) := by
  rcases shareConnect_ok h with ⟨_, _, _, e⟩ | ⟨z, e, h⟩
  · rw [e]; exact .inl rfl
  · rw [h]; exact connect_sources (y := z) ho hb hc e

theorem attach_open {s : S} (j : Nat) : (x.attach c s).sources = x.sources ∧ ((x.attach c s).Open j ↔ x.Open j) := by
  have e : (x.attach c s).sources = x.sources ∧ (x.attach c s).torn = x.torn ∧ (x.attach c s).target = x.target := by
    rw [attach]
    have g : x.getConnector.1.sources = x.sources ∧ x.getConnector.1.torn = x.torn ∧ x.getConnector.1.target = x.target := by
      rw [getConnector]; split <;> exact ⟨rfl, rfl, rfl⟩
    simp only []
    split
    · exact g
    · split <;> exact g
  refine ⟨e.1, ?_⟩
  rw [Open, Open, isClosed, isClosed, e.1, e.2.1, e.2.2, (attach_fields (c := c) (x := x) (s := s)).2.2.1]

theorem step_sources (hD : Closes c.D) (ho : c.Fair) {op : Op S I E} (hb : Base none x) (hc : Counts c x)
    (h : x.step c op = .ok y) : y.sources = x.sources ∨ (y.sources = x.sources + 1 ∧ ∀ j, ¬ x.Open j) := by
  cases op with
  | subscribe k s =>
    obtain ⟨h1, h2⟩ := attach_spec (s := s) hb hc
    rcases shareConnect_sources ho h1 h2 h with h | ⟨h, k⟩
    · exact .inl (h.trans (attach_open 0).1)
    · exact .inr ⟨h.trans (congrArg (· + 1) (attach_open 0).1), fun j hj => k j ((attach_open j).2.2 hj)⟩
  | unsubscribe i =>
    change (if i < x.size then _ else _) = _ at h
    split at h
    · obtain ⟨_, _, h3, _⟩ := unsubscribe_spec hD ‹_› hb hc h
      exact .inl h3.sources
    · rw [← Except.ok.inj h]; exact .inl rfl
  | emit j n =>
    change (if j < x.sources then _ else _) = _ at h
    split at h
    · obtain ⟨_, _, h3⟩ := emit_spec ho hb hc ‹_› h
      exact .inl h3.sources
    · rw [← Except.ok.inj h]; exact .inl rfl
  | connect k => exact shareConnect_sources ho hb hc h
  | link => exact connect_sources ho hb hc h
  | attach s => rw [← Except.ok.inj h]; exact .inl (attach_open 0).1
  | disconnect k =>
    rw [← Except.ok.inj h, shareDisconnect]
    split
    · exact .inl (frame_unsubscribeSource (c := c) _).sources
    · exact .inl rfl
  | unlink => rw [← Except.ok.inj h]; exact .inl frame_disconnect.sources
  | reset => rw [← Except.ok.inj h]; exact .inl (frame_disconnect (c := c) (x := x)).sources

end State
end Rx.Share
