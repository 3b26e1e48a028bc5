import Verif.Lemmas.ShareHeld

/-! Whether the connector is kept when the source is disconnected from. -/

namespace Rx.Share
open Rx.HigherOrder (Closes Patient)

variable {S I E : Type} {c : Cfg S I E} {x y : State S I E}

namespace State

/-- The connector is kept, or dropped as the options say. -/
def Same (c : Cfg S I E) (x y : State S I E) : Prop :=
  y.current = x.current ∨ (y.current = none ∧ c.resetOnDisconnect = true)

theorem Same.trans {z : State S I E} (h : Same c x y) (k : Same c y z) : Same c x z := by
  rcases k with e | e
  · rcases h with e' | e'
    · exact .inl (e.trans e')
    · exact .inr ⟨e.trans e'.1, e'.2⟩
  · exact .inr e

theorem Same.ne {k : Nat} (h : Same c x y) (hx : x.current ≠ some k) : y.current ≠ some k := by
  rcases h with e | e
  · rw [e]; exact hx
  · rw [e.1]; simp

theorem Same.kept (h : Same c x y) (hr : c.resetOnDisconnect = false) : y.current = x.current := by
  rcases h with e | e
  · exact e
  · rw [hr] at e; exact absurd e.2 (by decide)

theorem same_unsubscribeSource (j : Nat) : Same c x (x.unsubscribeSource c j) := by
  rw [Same, unsubscribeSource]
  split
  · exact .inl rfl
  · split
    · exact .inr ⟨rfl, ‹_›⟩
    · exact .inl rfl

theorem same_disconnect : Same c x (x.disconnect c) := by
  rw [disconnect_eq]
  split
  · exact same_unsubscribeSource (x := { x with connection := none }) _
  · exact .inl rfl

theorem same_leave {em : Option Nat} {i : Nat} (h : x.leave c em i = .ok y) : Same c x y := by
  rcases leave_ok h with ⟨_, e⟩ | ⟨_, e⟩
  · rw [e]; exact .inl rfl
  · rw [e]
    split
    · exact same_disconnect (x := x.uncount i)
    · exact .inl rfl

theorem same_give {em : Option Nat} {i : Nat} {n : SubscriberNotification I E} (h : x.give c em n i = .ok y) : Same c x y := by
  rcases give_ok h with e | ⟨_, ⟨_, e⟩ | ⟨_, e⟩⟩
  · rw [e]; exact .inl rfl
  · rw [e]; exact .inl rfl
  · exact same_leave (x := { x with dest := set x.dest i (c.D.push (x.dest i) n) }) e

theorem same_tell (ho : c.Fair) {p em : Option Nat} {n : SubscriberNotification I E} {k : Nat} (hb : Base p x)
    (hc : Counts c x) (h : x.tell c em n k = .ok y) : Same c x y :=
  tell_keep ho (Same c x) (fun _ _ _ _ hp h => hp.trans (same_give h)) hb hc (.inl rfl) h

theorem Ready.frame (hr : x.Ready) (f : Frame x y) (e : y.current = x.current) : y.Ready := fun i hi hc => by
  rw [e, f.conn, f.ended]
  exact hr i (f.size ▸ hi) (f.counted i hc)

theorem emit_ready (hD : Closes c.D) (ho : c.Fair) (hk : c.resetOnDisconnect = false) {p : Option Nat} {j : Nat}
    {n : SubscriberNotification I E} (hb : Base p x) (hc : Counts c x) (hj : j < x.sources) (hr : x.Ready)
    (h : x.emit c j n = .ok y) : y.Ready := by
  cases e : x.isClosed j with
  | true =>
    rw [emit_closed e] at h
    rw [← Except.ok.inj h]
    exact hr
  | false =>
    by_cases hn : n = .unsubscribe
    · rw [hn, emit_unsubscribe] at h
      rw [← Except.ok.inj h]
      exact hr.frame (frame_unsubscribeSource j) ((same_unsubscribeSource j).kept hk)
    · have b := (emit_spec ho hb hc hj h).1
      exact (emit_linked hD ho hn hb hc hj (hr.linked hb ⟨hj, e⟩) h).ready b

theorem connect_ready (hD : Closes c.D) (ho : c.Fair) (hk : c.resetOnDisconnect = false) (hb : Base none x)
    (hc : Counts c x) (hr : x.Ready) (h : x.connect c = .ok y) : y.Ready := by
  rw [connect] at h
  split at h
  · rw [← Except.ok.inj h]; exact hr
  · rename_i e
    obtain ⟨f1, f2, f3, f4, f5, f6, f7, f8, f9, f10, f11, f12, f13, f14⟩ := fresh_fields (x := x)
    have hp : x.fresh.Ready := fun i hi hci => by
      rw [f1] at hi
      rw [f5] at hci
      have := hr i hi hci
      rw [f3, f8]
      exact ⟨fresh_current this.1, this.2⟩
    obtain ⟨_, _, _, z, h1, _, _, h3⟩ := createConnection_spec ho hb hc (hb.active_none e) Ready hp
      (fun _ hb hc hj hl h => emit_ready hD ho hk hb hc hj hl h) h
    rw [h3]
    exact h1

theorem shareConnect_ready (hD : Closes c.D) (ho : c.Fair) (hk : c.resetOnDisconnect = false) {k : Nat}
    (hb : Base none x) (hc : Counts c x) (hr : x.Ready) (h : x.shareConnect c k = .ok y) : y.Ready := by
  rcases shareConnect_ok h with ⟨j, h1, h2, e⟩ | ⟨z, e, h⟩
  · rw [e]; exact hr
  · rw [h]
    exact (show z.Ready from connect_ready hD ho hk hb hc hr e)

/-- If the connector is kept, subscribers stay with the current connector, whatever happens but a reset. -/
theorem step_ready (hD : Closes c.D) (ho : c.Fair) (hk : c.resetOnDisconnect = false) {op : Op S I E} (hop : op ≠ .reset)
    (hb : Base none x) (hc : Counts c x) (hr : x.Ready) (h : x.step c op = .ok y) : y.Ready := by
  cases op with
  | subscribe k s =>
    obtain ⟨h1, h2⟩ := attach_spec (s := s) hb hc
    exact shareConnect_ready hD ho hk h1 h2 (attach_ready hr) h
  | unsubscribe i =>
    change (if i < x.size then _ else _) = _ at h
    split at h
    · rename_i hi
      obtain ⟨_, _, h3, h4⟩ := unsubscribe_spec hD hi hb hc h
      by_cases e : x.member i = true
      · exact hr.frame h3 ((same_give (x := { x with member := set x.member i false }) (h4 e).2).kept hk)
      · rw [unsubscribe, if_neg e] at h
        rw [← Except.ok.inj h]; exact hr
    · rw [← Except.ok.inj h]; exact hr
  | emit j n =>
    change (if j < x.sources then _ else _) = _ at h
    split at h
    · exact emit_ready hD ho hk hb hc ‹_› hr h
    · rw [← Except.ok.inj h]; exact hr
  | connect k => exact shareConnect_ready hD ho hk hb hc hr h
  | link => exact connect_ready hD ho hk hb hc hr h
  | disconnect k =>
    rw [← Except.ok.inj h, shareDisconnect]
    split
    · rename_i j _
      exact Ready.frame (x := { x with handle := set x.handle k none }) hr (frame_unsubscribeSource j)
        ((same_unsubscribeSource j).kept hk)
    · exact hr
  | attach s => rw [← Except.ok.inj h]; exact attach_ready hr
  | unlink => rw [← Except.ok.inj h]; exact hr.frame frame_disconnect (same_disconnect.kept hk)
  | reset => exact absurd rfl hop

/-! A connector that is not the current one. -/

/-- Subscriber `i` is with a connector that is not the current one, and is as it was. -/
structure Past (i : Nat) (d : S) (x : State S I E) : Prop where
  size : i < x.size
  cur : x.current ≠ some (x.conn i)
  dest : x.dest i = d

theorem emit_past (ho : c.Fair) {p : Option Nat} {i j : Nat} {d : S} {n : SubscriberNotification I E} (hb : Base p x)
    (hc : Counts c x) (hj : j < x.sources) (hp : x.Past i d) (h : x.emit c j n = .ok y) : y.Past i d := by
  cases e : x.isClosed j with
  | true =>
    rw [emit_closed e] at h
    rw [← Except.ok.inj h]
    exact hp
  | false =>
    have hne : x.conn i ≠ x.target j := fun e' => hp.cur (by rw [e']; exact hb.cur j ⟨hj, e⟩)
    have nm : ∀ P : Prop, ¬ (i ∈ x.members (x.target j) ∧ P) := fun P h => hne (mem_members.1 h.1).2.2
    rcases note_cases n with ⟨v, rfl⟩ | rfl | hn
    · rw [emit_next e] at h
      obtain ⟨_, _, h3, _, h5⟩ := tell_spec ho hb hc h
      refine ⟨h3.size ▸ hp.size, ?_, ?_⟩
      · rw [h3.conn]; exact (same_tell ho hb hc h).ne hp.cur
      · rw [h5, if_neg (nm _)]; exact hp.dest
    · rw [emit_unsubscribe] at h
      rw [← Except.ok.inj h]
      have f := frame_unsubscribeSource (c := c) (x := x) j
      refine ⟨f.size ▸ hp.size, ?_, ?_⟩
      · rw [f.conn]; exact (same_unsubscribeSource j).ne hp.cur
      · rw [(counts_unsubscribeSource (c := c) (x := x) j).2.2.2.1]; exact hp.dest
    · obtain ⟨er, co, -, h1⟩ := emit_end (c := c) hn e
      rw [h1] at h
      split at h
      · rename_i z e'
        have k : Counts c (x.ending (x.target j) n (c.resets n) er co) := ⟨hc.count, hc.live, hc.connLt⟩
        obtain ⟨_, _, h3, _, h5⟩ := tell_spec ho (hb.ending ⟨hj, e⟩) k e'
        rw [← Except.ok.inj h]
        refine ⟨?_, ?_, ?_⟩
        · show i < z.size; rw [h3.size]; exact hp.size
        · show z.current ≠ some (z.conn i)
          rw [h3.conn]
          refine (same_tell ho (hb.ending ⟨hj, e⟩) k e').ne ?_
          show (if c.resets n = true then none else x.current) ≠ some (x.conn i)
          split
          · simp
          · exact hp.cur
        · show z.dest i = d
          rw [h5]
          exact (if_neg (nm _)).trans hp.dest
      · exact absurd h (by simp)

theorem getConnector_past {i : Nat} {d : S} (hc : Counts c x) (hp : x.Past i d) :
    x.getConnector.2 ≠ x.conn i ∧ x.getConnector.1.dest = x.dest := by
  rw [getConnector]
  split
  · rename_i k e
    exact ⟨fun e' => hp.cur (by rw [e, ← e']), rfl⟩
  · exact ⟨fun e' => absurd (hc.connLt i hp.size) (by rw [← e']; exact Nat.lt_irrefl _), rfl⟩

theorem connect_past (ho : c.Fair) {i : Nat} {d : S} (hb : Base none x) (hc : Counts c x) (hp : x.Past i d)
    (h : x.connect c = .ok y) : y.Past i d := by
  rw [connect] at h
  split at h
  · rw [← Except.ok.inj h]; exact hp
  · rename_i e
    obtain ⟨f1, f2, f3, f4, f5, f6, f7, f8, f9, f10, f11, f12, f13, f14⟩ := fresh_fields (x := x)
    have hf : x.fresh.Past i d := by
      refine ⟨f1 ▸ hp.size, ?_, f2 ▸ hp.dest⟩
      have e1 : x.fresh.current = some x.getConnector.2 := (getConnector_fields (x := x)).2.2.2.2.2.2
      rw [e1, f3]
      exact fun e => (getConnector_past hc hp).1 (Option.some.inj e)
    obtain ⟨_, _, _, z, h1, _, _, h3⟩ := createConnection_spec ho hb hc (hb.active_none e) (Past i d) hf
      (fun _ hb hc hj hl h => emit_past ho hb hc hj hl h) h
    rw [h3]
    exact ⟨h1.size, h1.cur, h1.dest⟩

theorem shareConnect_past (ho : c.Fair) {i k : Nat} {d : S} (hb : Base none x) (hc : Counts c x) (hp : x.Past i d)
    (h : x.shareConnect c k = .ok y) : y.Past i d := by
  rcases shareConnect_ok h with ⟨j, h1, h2, e⟩ | ⟨z, e, h⟩
  · rw [e]; exact hp
  · rw [h]
    have := connect_past ho hb hc hp e
    exact ⟨this.size, this.cur, this.dest⟩

theorem attach_past {i : Nat} {d s : S} (hc : Counts c x) (hp : x.Past i d) : (x.attach c s).Past i d := by
  obtain ⟨a1, a2, _, _, _, a6, _⟩ := attach_fields (c := c) (x := x) (s := s)
  obtain ⟨g1, g2⟩ := getConnector_past hc hp
  have hne : i ≠ x.size := Nat.ne_of_lt hp.size
  refine ⟨by rw [a1]; exact Nat.lt_succ_of_lt hp.size, ?_, ?_⟩
  · rw [a6, a2, set_ne hne]; exact fun e => g1 (Option.some.inj e)
  · have hs : x.getConnector.1.size = x.size := (getConnector_fields (x := x)).1
    have key : ∀ v, set x.getConnector.1.dest x.getConnector.1.size v i = d := fun v => by
      rw [hs, set_ne hne, g2]; exact hp.dest
    rw [attach]
    simp only []
    split
    · exact key _
    · split <;> exact key _

/-- Nothing comes to a subscriber whose connector is not the current one. -/
theorem step_past (hD : Closes c.D) (ho : c.Fair) {i : Nat} {d : S} {op : Op S I E} (hop : op ≠ .unsubscribe i)
    (hb : Base none x) (hc : Counts c x) (hp : x.Past i d) (h : x.step c op = .ok y) : y.Past i d := by
  cases op with
  | subscribe k s =>
    obtain ⟨h1, h2⟩ := attach_spec (s := s) hb hc
    exact shareConnect_past ho h1 h2 (attach_past hc hp) h
  | unsubscribe k =>
    have hne : i ≠ k := fun e => hop (by rw [e])
    change (if k < x.size then _ else _) = _ at h
    split at h
    · rename_i hk
      obtain ⟨_, _, h3, h4⟩ := unsubscribe_spec hD hk hb hc h
      by_cases e : x.member k = true
      · have g := (h4 e).2
        refine ⟨h3.size ▸ hp.size, ?_, ?_⟩
        · rw [h3.conn]
          exact (same_give (x := { x with member := set x.member k false }) g).ne hp.cur
        · have hl := hc.live k hk
          rw [e, Bool.true_and] at hl
          have := (give_spec (x := { x with member := set x.member k false })
            ⟨hb.regs, hb.pend, hb.cur, hb.curLt, hb.tgtLt, hb.fresh, hb.reg, hb.hdl⟩
            ⟨hc.count, fun k' hk' e' => (hc.live k' hk').trans (by
              show _ = (set x.member k false k' && _); rw [set_ne e']), hc.connLt⟩ hk hl g).2.2.2.2.1
          rw [this, set_ne hne]
          exact hp.dest
      · rw [unsubscribe, if_neg e] at h
        rw [← Except.ok.inj h]; exact hp
    · rw [← Except.ok.inj h]; exact hp
  | emit j n =>
    change (if j < x.sources then _ else _) = _ at h
    split at h
    · exact emit_past ho hb hc ‹_› hp h
    · rw [← Except.ok.inj h]; exact hp
  | connect k => exact shareConnect_past ho hb hc hp h
  | link => exact connect_past ho hb hc hp h
  | disconnect k =>
    rw [← Except.ok.inj h, shareDisconnect]
    split
    · rename_i j _
      have f := frame_unsubscribeSource (c := c) (x := { x with handle := set x.handle k none }) j
      have n := counts_unsubscribeSource (c := c) (x := { x with handle := set x.handle k none }) j
      refine ⟨?_, ?_, ?_⟩
      · rw [f.size]; exact hp.size
      · rw [f.conn]; exact (same_unsubscribeSource j).ne hp.cur
      · rw [n.2.2.2.1]; exact hp.dest
    · exact hp
  | attach s => rw [← Except.ok.inj h]; exact attach_past hc hp
  | unlink =>
    rw [← Except.ok.inj h]
    have f := frame_disconnect (c := c) (x := x)
    refine ⟨?_, ?_, ?_⟩
    · rw [f.size]; exact hp.size
    · rw [f.conn]; exact same_disconnect.ne hp.cur
    · rw [counts_disconnect.2.2.2]; exact hp.dest
  | reset =>
    rw [← Except.ok.inj h]
    have f := frame_disconnect (c := c) (x := x)
    refine ⟨?_, ?_, ?_⟩
    · show i < (x.disconnect c).size; rw [f.size]; exact hp.size
    · show none ≠ _; simp
    · show (x.disconnect c).dest i = d; rw [counts_disconnect.2.2.2]; exact hp.dest

/-- A connection that is cut by the user or the source, and the connector is dropped. -/
theorem cut_current (hr : c.resetOnDisconnect = true) {j : Nat} (hj : x.isClosed j = false) :
    (x.unsubscribeSource c j).current = none := by
  rw [unsubscribeSource, if_neg (by rw [hj]; decide), if_pos hr]

end State
end Rx.Share
