import Verif.Spec.Share

/-! Lemmas about `share`. -/

namespace Rx.Share
open Rx.HigherOrder (Closes)

variable {S I E : Type} {c : Cfg S I E} {x y : State S I E}

theorem set_self {α : Type} (f : Nat → α) (i : Nat) (v : α) : set f i v i = v := if_pos rfl

theorem set_ne {α : Type} {f : Nat → α} {i k : Nat} {v : α} (h : k ≠ i) : set f i v k = f k := if_neg h

namespace State

/-- The subscribers that are counted. -/
def tally (x : State S I E) : List Nat := (List.range x.size).filter x.counted

/-- What holds of connectors and connections; `p` is the subscription being made. -/
structure Base (p : Option Nat) (x : State S I E) : Prop where
  regs : ∀ j, x.Open j → (p = none ∧ x.connection = some j) ∨ p = some j
  pend : ∀ j, p = some j → x.connection ≠ some j
  cur : ∀ j, x.Open j → x.current = some (x.target j)
  curLt : ∀ k, x.current = some k → k < x.connectors
  tgtLt : ∀ j, j < x.sources → x.target j < x.connectors
  fresh : ∀ k, x.connectors ≤ k → x.ended k = none
  reg : ∀ j, x.connection = some j → j < x.sources
  hdl : ∀ k j, x.handle k = some j → j < x.sources

/-- What holds of the subscribers. -/
structure Counts (c : Cfg S I E) (x : State S I E) : Prop where
  count : x.count = x.tally.length
  live : ∀ i, i < x.size → x.counted i = (x.member i && !c.D.isClosed (x.dest i))
  connLt : ∀ i, i < x.size → x.conn i < x.connectors

/-- What notifying subscribers leaves alone. -/
structure Frame (x y : State S I E) : Prop where
  size : y.size = x.size
  conn : y.conn = x.conn
  connectors : y.connectors = x.connectors
  ended : y.ended = x.ended
  sources : y.sources = x.sources
  target : y.target = x.target
  handle : y.handle = x.handle
  errored : y.errored = x.errored
  completed : y.completed = x.completed
  torn : ∀ j, x.torn j = true → y.torn j = true
  counted : ∀ i, y.counted i = true → x.counted i = true

theorem Frame.rfl : Frame x x := ⟨.refl _, .refl _, .refl _, .refl _, .refl _, .refl _, .refl _, .refl _, .refl _,
  fun _ h => h, fun _ h => h⟩

theorem Frame.trans {z : State S I E} (h : Frame x y) (k : Frame y z) : Frame x z :=
  ⟨k.size.trans h.size, k.conn.trans h.conn, k.connectors.trans h.connectors, k.ended.trans h.ended,
    k.sources.trans h.sources, k.target.trans h.target, k.handle.trans h.handle, k.errored.trans h.errored,
    k.completed.trans h.completed, fun j e => k.torn j (h.torn j e), fun i e => h.counted i (k.counted i e)⟩

theorem Open.of_frame {j : Nat} (f : Frame x y) (h : y.Open j) : x.Open j := by
  obtain ⟨h1, h2⟩ := h
  rw [isClosed, f.ended, f.target, Bool.or_eq_false_iff] at h2
  refine ⟨f.sources ▸ h1, ?_⟩
  rw [isClosed, h2.2, Bool.or_false]
  cases e : x.torn j with
  | true => rw [f.torn j e] at h2; exact absurd h2.1 (by decide)
  | false => rfl

/-- Two open subscriptions are the same. -/
theorem Base.unique {p : Option Nat} (h : Base p x) {i j : Nat} (hi : x.Open i) (hj : x.Open j) : i = j := by
  rcases h.regs i hi with ⟨e, a⟩ | a <;> rcases h.regs j hj with ⟨e', b⟩ | b
  · rw [a] at b; exact Option.some.inj b
  · rw [e] at b; exact absurd b (by simp)
  · rw [e'] at a; exact absurd a (by simp)
  · rw [a] at b; exact Option.some.inj b

theorem frame_unsubscribeSource (j : Nat) : Frame x (x.unsubscribeSource c j) := by
  rw [unsubscribeSource]
  split
  · exact .rfl
  · have : ∀ k, x.torn k = true → set x.torn j true k = true := fun k e => by
      by_cases h : k = j
      · rw [h, set_self]
      · rw [set_ne h, e]
    split <;> exact ⟨.refl _, .refl _, .refl _, .refl _, .refl _, .refl _, .refl _, .refl _, .refl _, this, fun _ e => e⟩

theorem closed_unsubscribeSource (j : Nat) : (x.unsubscribeSource c j).isClosed j = true := by
  rw [unsubscribeSource]
  split
  · assumption
  · split <;> exact (congrArg (· || _) (set_self ..)).trans (Bool.true_or _)

/-- It leaves subscribers alone. -/
theorem counts_unsubscribeSource (j : Nat) : (x.unsubscribeSource c j).count = x.count ∧
    (x.unsubscribeSource c j).counted = x.counted ∧ (x.unsubscribeSource c j).member = x.member ∧
    (x.unsubscribeSource c j).dest = x.dest ∧ (x.unsubscribeSource c j).connection = x.connection := by
  rw [unsubscribeSource]
  split
  · exact ⟨rfl, rfl, rfl, rfl, rfl⟩
  · split <;> exact ⟨rfl, rfl, rfl, rfl, rfl⟩

theorem current_unsubscribeSource (j : Nat) : (x.unsubscribeSource c j).current = x.current ∨
    ((x.unsubscribeSource c j).current = none ∧ x.isClosed j = false) := by
  rw [unsubscribeSource]
  split
  · exact .inl rfl
  · split
    · exact .inr ⟨rfl, Bool.eq_false_iff.2 ‹¬ x.isClosed j = true›⟩
    · exact .inl rfl

theorem Base.unsubscribeSource {p : Option Nat} (h : Base p x) {j : Nat} (hj : j < x.sources) :
    Base p (x.unsubscribeSource c j) := by
  have f := frame_unsubscribeSource (c := c) (x := x) j
  have e := (counts_unsubscribeSource (c := c) (x := x) j).2.2.2.2
  refine ⟨fun k hk => ?_, fun k hk => e ▸ h.pend k hk, fun k hk => ?_, fun k hk => ?_, ?_, ?_, ?_, ?_⟩
  · rw [e]; exact h.regs k (hk.of_frame f)
  · have := hk.of_frame f
    rcases current_unsubscribeSource (c := c) (x := x) j with e | ⟨e, e'⟩
    · rw [e, f.target]; exact h.cur k this
    · have : k = j := h.unique this ⟨hj, e'⟩
      rw [this] at hk
      rw [Open, closed_unsubscribeSource] at hk
      exact absurd hk.2 (by decide)
  · rcases current_unsubscribeSource (c := c) (x := x) j with e | ⟨e, e'⟩
    · rw [f.connectors]; exact h.curLt k (e ▸ hk)
    · rw [e] at hk; exact absurd hk (by simp)
  · rw [f.connectors, f.sources, f.target]; exact h.tgtLt
  · rw [f.connectors, f.ended]; exact h.fresh
  · rw [e, f.sources]; exact h.reg
  · rw [f.handle, f.sources]; exact h.hdl

theorem disconnect_eq : x.disconnect c = match x.connection with
    | some j => { x with connection := none }.unsubscribeSource c j
    | none => x := rfl

theorem connection_disconnect : (x.disconnect c).connection = none := by
  rw [disconnect_eq]
  split
  · exact (counts_unsubscribeSource (c := c) _).2.2.2.2
  · assumption

theorem frame_disconnect : Frame x (x.disconnect c) := by
  rw [disconnect_eq]
  split
  · rename_i j _
    exact Frame.trans (y := { x with connection := none })
      ⟨.refl _, .refl _, .refl _, .refl _, .refl _, .refl _, .refl _, .refl _, .refl _, fun _ h => h, fun _ h => h⟩
      (frame_unsubscribeSource j)
  · exact .rfl

theorem counts_disconnect : (x.disconnect c).count = x.count ∧ (x.disconnect c).counted = x.counted ∧
    (x.disconnect c).member = x.member ∧ (x.disconnect c).dest = x.dest := by
  rw [disconnect_eq]
  split
  · rename_i j _
    have := counts_unsubscribeSource (c := c) (x := { x with connection := none }) j
    exact ⟨this.1, this.2.1, this.2.2.1, this.2.2.2.1⟩
  · exact ⟨rfl, rfl, rfl, rfl⟩

/-- When nothing is pending, disconnecting leaves nothing open. -/
theorem Base.disconnected (h : Base none x) (j : Nat) : ¬ (x.disconnect c).Open j := by
  intro k
  have f := frame_disconnect (c := c) (x := x)
  have := k.of_frame f
  rcases h.regs j this with ⟨_, e⟩ | e
  · rw [disconnect_eq, e] at k
    have := k.2
    rw [closed_unsubscribeSource] at this
    exact absurd this (by decide)
  · exact absurd e (by simp)

/-- When a subscription is pending, there is nothing to disconnect. -/
theorem Base.disconnect_pending {q : Nat} (h : Base (some q) x) : x.disconnect c = { x with connection := none } := by
  rw [disconnect_eq]
  split
  · rename_i j e
    rw [State.unsubscribeSource, if_pos]
    cases e' : State.isClosed { x with connection := none } j with
    | true => rfl
    | false =>
      rcases h.regs j ⟨h.reg j e, e'⟩ with ⟨e, _⟩ | e'
      · exact absurd e (by simp)
      · exact absurd e (h.pend j e')
  · rename_i e
    cases x; cases e; rfl

theorem Base.disconnect {p : Option Nat} (h : Base p x) : Base p (x.disconnect c) := by
  cases p with
  | some q =>
    rw [h.disconnect_pending]
    refine ⟨fun j k => .inr ?_, fun _ _ e => ?_, h.cur, h.curLt, h.tgtLt, h.fresh, fun _ e => ?_, h.hdl⟩
    · rcases h.regs j k with ⟨e, _⟩ | e
      · exact absurd e (by simp)
      · exact e
    · exact absurd (show none = _ from e) (by simp)
    · exact absurd (show none = _ from e) (by simp)
  | none =>
    have f := frame_disconnect (c := c) (x := x)
    refine ⟨fun j k => absurd k (h.disconnected j), fun _ e => absurd e (by simp), fun j k => absurd k (h.disconnected j),
      fun k hk => ?_, ?_, ?_, fun j e => ?_, ?_⟩
    · rw [f.connectors]
      rw [disconnect_eq] at hk
      split at hk
      · rename_i j _
        rcases current_unsubscribeSource (c := c) (x := { x with connection := none }) j with e | ⟨e, _⟩
        · rw [e] at hk; exact h.curLt k hk
        · rw [e] at hk; exact absurd hk (by simp)
      · exact h.curLt k hk
    · rw [f.connectors, f.sources, f.target]; exact h.tgtLt
    · rw [f.connectors, f.ended]; exact h.fresh
    · rw [connection_disconnect] at e; exact absurd e (by simp)
    · rw [f.handle, f.sources]; exact h.hdl

theorem filter_congr' {f g : Nat → Bool} {l : List Nat} (h : ∀ i ∈ l, f i = g i) : l.filter f = l.filter g :=
  List.filter_congr h

theorem length_set_false {f : Nat → Bool} {i : Nat} (hf : f i = true) :
    ∀ n, i < n → ((List.range n).filter f).length = ((List.range n).filter (set f i false)).length + 1
  | 0, h => absurd h (Nat.not_lt_zero _)
  | n + 1, h => by
    rw [List.range_succ, List.filter_append, List.filter_append, List.length_append, List.length_append]
    by_cases e : i = n
    · subst e
      have : (List.range i).filter (set f i false) = (List.range i).filter f :=
        filter_congr' fun k hk => set_ne (Nat.ne_of_lt (List.mem_range.1 hk))
      rw [this, List.filter_cons_of_pos hf, List.filter_cons_of_neg (by rw [set_self]; decide)]
      rfl
    · have e1 : [n].filter (set f i false) = [n].filter f :=
        filter_congr' fun k hk => set_ne (by rw [List.mem_singleton.1 hk]; exact fun h => e h.symm)
      rw [e1, length_set_false hf n (by omega)]
      omega

/-- A subscriber is no longer counted. -/
def uncount (x : State S I E) (i : Nat) : State S I E := { x with counted := set x.counted i false, count := x.count - 1 }

/-- The last one left, and the source has not ended. -/
def last (c : Cfg S I E) (x : State S I E) : Bool := c.refCount && x.count - 1 == 0 && !x.errored && !x.completed

theorem leave_ok {em : Option Nat} {i : Nat} (h : x.leave c em i = .ok y) :
    (x.counted i = false ∧ y = x) ∨
    (x.counted i = true ∧ y = if x.last c then (x.uncount i).disconnect c else x.uncount i) := by
  rw [leave] at h
  split at h
  · rename_i e
    refine .inr ⟨e, ?_⟩
    change (if x.last c = true then _ else _) = _ at h
    split at h
    · rw [if_pos ‹_›, disconnect_eq]
      change (match x.connection with | some j => _ | none => _) = _ at h
      change _ = match x.connection with | some j => _ | none => _
      split at h
      · split at h
        · exact absurd h (by simp)
        · exact (Except.ok.inj h).symm
      · rename_i e'
        rw [← Except.ok.inj h]
        show _ = x.uncount i
        cases x; cases e'; rfl
    · rw [if_neg ‹_›]
      exact (Except.ok.inj h).symm
  · rename_i e
    exact .inl ⟨Bool.eq_false_iff.2 e, (Except.ok.inj h).symm⟩

/-- What holds of the subscribers, but for `i`. -/
structure CountsBut (c : Cfg S I E) (i : Nat) (x : State S I E) : Prop where
  count : x.count = x.tally.length
  live : ∀ k, k < x.size → k ≠ i → x.counted k = (x.member k && !c.D.isClosed (x.dest k))
  connLt : ∀ k, k < x.size → x.conn k < x.connectors

theorem Base.uncount {p : Option Nat} (h : Base p x) (i : Nat) : Base p (x.uncount i) :=
  ⟨h.regs, h.pend, h.cur, h.curLt, h.tgtLt, h.fresh, h.reg, h.hdl⟩

theorem frame_uncount (i : Nat) : Frame x (x.uncount i) :=
  ⟨.refl _, .refl _, .refl _, .refl _, .refl _, .refl _, .refl _, .refl _, .refl _, fun _ h => h, fun k h => by
    by_cases e : k = i
    · rw [e] at h; exact absurd ((set_self ..).symm.trans h) (by decide)
    · exact (set_ne e).symm.trans h⟩

theorem CountsBut.uncount {i : Nat} (h : CountsBut c i x) (hi : i < x.size) (hc : x.counted i = true) :
    CountsBut c i (x.uncount i) := by
  refine ⟨?_, fun k hk e => ?_, h.connLt⟩
  · have := length_set_false hc x.size hi
    show x.count - 1 = ((List.range x.size).filter (set x.counted i false)).length
    rw [h.count, tally]
    omega
  · exact (set_ne e).trans (h.live k hk e)

theorem CountsBut.disconnect {i : Nat} (h : CountsBut c i x) : CountsBut c i (x.disconnect c) := by
  have f := frame_disconnect (c := c) (x := x)
  obtain ⟨e1, e2, e3, e4⟩ := counts_disconnect (c := c) (x := x)
  refine ⟨?_, ?_, ?_⟩
  · rw [e1, tally, f.size, e2]; exact h.count
  · rw [f.size, e2, e3, e4]; exact h.live
  · rw [f.size, f.conn, f.connectors]; exact h.connLt

theorem leave_spec {p em : Option Nat} {i : Nat} (hb : Base p x) (hc : CountsBut c i x) (hi : i < x.size)
    (h : x.leave c em i = .ok y) :
    Base p y ∧ CountsBut c i y ∧ Frame x y ∧ y.counted i = false ∧ y.dest = x.dest ∧ y.member = x.member := by
  rcases leave_ok h with ⟨e, e'⟩ | ⟨e, e'⟩
  · rw [e']; exact ⟨hb, hc, .rfl, e, rfl, rfl⟩
  · split at e'
    · obtain ⟨e1, e2, e3, e4⟩ := counts_disconnect (c := c) (x := x.uncount i)
      rw [e']
      refine ⟨(hb.uncount i).disconnect, (hc.uncount hi e).disconnect, (frame_uncount i).trans frame_disconnect, ?_, e4, e3⟩
      rw [e2]; exact set_self ..
    · rw [e']
      exact ⟨hb.uncount i, hc.uncount hi e, frame_uncount i, set_self .., rfl, rfl⟩

/-- A subscriber given a notification. -/
theorem give_spec {p em : Option Nat} {i : Nat} {n : SubscriberNotification I E} (hb : Base p x) (hc : CountsBut c i x)
    (hi : i < x.size) (hl : x.counted i = !c.D.isClosed (x.dest i)) (h : x.give c em n i = .ok y) :
    Base p y ∧ CountsBut c i y ∧ Frame x y ∧ y.counted i = !c.D.isClosed (y.dest i) ∧
    y.dest = set x.dest i (if c.D.isClosed (x.dest i) then x.dest i else c.D.push (x.dest i) n) ∧ y.member = x.member := by
  rw [give] at h
  split at h
  · rename_i e
    rw [← Except.ok.inj h]
    refine ⟨hb, hc, .rfl, hl, ?_, rfl⟩
    rw [if_pos e]
    funext k
    by_cases e : k = i
    · rw [e, set_self]
    · rw [set_ne e]
  · rename_i e
    rw [if_neg e]
    have b : Base p { x with dest := set x.dest i (c.D.push (x.dest i) n) } :=
      ⟨hb.regs, hb.pend, hb.cur, hb.curLt, hb.tgtLt, hb.fresh, hb.reg, hb.hdl⟩
    have k : CountsBut c i { x with dest := set x.dest i (c.D.push (x.dest i) n) } :=
      ⟨hc.count, fun k hk e => (hc.live k hk e).trans (by
        show _ = (x.member k && !c.D.isClosed (set x.dest i _ k)); rw [set_ne e]), hc.connLt⟩
    have f : Frame x { x with dest := set x.dest i (c.D.push (x.dest i) n) } :=
      ⟨.refl _, .refl _, .refl _, .refl _, .refl _, .refl _, .refl _, .refl _, .refl _, fun _ h => h, fun _ h => h⟩
    change (if c.D.isClosed (set x.dest i (c.D.push (x.dest i) n) i) = true then _ else _) = _ at h
    split at h
    · rename_i e'
      obtain ⟨h1, h2, h3, h4, h5, h6⟩ := leave_spec b k hi h
      refine ⟨h1, h2, f.trans h3, ?_, h5, h6⟩
      rw [h4, h5]
      exact (congrArg (!·) e').symm
    · rename_i e'
      rw [← Except.ok.inj h]
      refine ⟨b, k, f, ?_, rfl, rfl⟩
      show x.counted i = !c.D.isClosed (set x.dest i _ i)
      rw [Bool.eq_false_iff.2 e', hl, Bool.eq_false_iff.2 e]

theorem Counts.but (h : Counts c x) (i : Nat) : CountsBut c i x := ⟨h.count, fun k hk _ => h.live k hk, h.connLt⟩

theorem CountsBut.counts {i : Nat} (h : CountsBut c i x) (hl : i < x.size → x.counted i = (x.member i && !c.D.isClosed (x.dest i))) :
    Counts c x := ⟨h.count, fun k hk => if e : k = i then e ▸ hl (e ▸ hk) else h.live k hk e, h.connLt⟩

theorem give_counts {p em : Option Nat} {i : Nat} {n : SubscriberNotification I E} (hb : Base p x) (hc : Counts c x)
    (hi : i < x.size) (hm : x.member i = true) (h : x.give c em n i = .ok y) :
    Base p y ∧ Counts c y ∧ Frame x y ∧
    y.dest = set x.dest i (if c.D.isClosed (x.dest i) then x.dest i else c.D.push (x.dest i) n) ∧ y.member = x.member := by
  have hl := hc.live i hi
  rw [hm, Bool.true_and] at hl
  obtain ⟨h1, h2, h3, h4, h5, h6⟩ := give_spec hb (hc.but i) hi hl h
  refine ⟨h1, h2.counts fun _ => ?_, h3, h5, h6⟩
  rw [h6, hm, Bool.true_and, h4]

theorem mem_members {k i : Nat} : i ∈ x.members k ↔ i < x.size ∧ x.member i = true ∧ x.conn i = k := by
  rw [members, List.mem_filter, List.mem_range, Bool.and_eq_true, beq_iff_eq]

/-- Some subscribers are given a notification. -/
theorem gives_spec {p em : Option Nat} {n : SubscriberNotification I E} :
    ∀ (l : List Nat) {x : State S I E}, Base p x → Counts c x → (∀ i ∈ l, i < x.size ∧ x.member i = true) → l.Nodup →
    l.foldlM (give c em n) x = .ok y →
    Base p y ∧ Counts c y ∧ Frame x y ∧ y.member = x.member ∧
    ∀ i, y.dest i = if i ∈ l ∧ c.D.isClosed (x.dest i) = false then c.D.push (x.dest i) n else x.dest i
  | [], x, hb, hc, _, _, h => by
    rw [← Except.ok.inj h]
    exact ⟨hb, hc, .rfl, rfl, fun i => by simp⟩
  | i :: l, x, hb, hc, hl, hn, h => by
    rw [List.foldlM_cons] at h
    cases e : x.give c em n i with
    | error f => rw [e] at h; exact absurd h (by intro h; cases h)
    | ok z =>
      rw [e] at h
      have hi := hl i List.mem_cons_self
      obtain ⟨h1, h2, h3, h4, h5⟩ := give_counts hb hc hi.1 hi.2 e
      have := List.nodup_cons.1 hn
      obtain ⟨k1, k2, k3, k4, k5⟩ := gives_spec l h1 h2
        (fun k hk => by rw [h3.size, h5]; exact hl k (List.mem_cons_of_mem _ hk)) this.2 h
      refine ⟨k1, k2, h3.trans k3, k4.trans h5, fun k => ?_⟩
      rw [k5, h4]
      by_cases e : k = i
      · subst e
        rw [set_self, if_neg (fun h => this.1 h.1)]
        cases c.D.isClosed (x.dest k) <;> simp
      · rw [set_ne e]
        simp [e]

theorem tell_spec (ho : c.Fair) {p em : Option Nat} {k : Nat} {n : SubscriberNotification I E} (hb : Base p x)
    (hc : Counts c x) (h : x.tell c em n k = .ok y) :
    Base p y ∧ Counts c y ∧ Frame x y ∧ y.member = x.member ∧
    ∀ i, y.dest i = if i ∈ x.members k ∧ c.D.isClosed (x.dest i) = false then c.D.push (x.dest i) n else x.dest i := by
  have hp := ho (x.members k)
  obtain ⟨h1, h2, h3, h4, h5⟩ := gives_spec _ hb hc
    (fun i hi => by have := mem_members.1 (hp.mem_iff.1 hi); exact ⟨this.1, this.2.1⟩)
    (hp.nodup_iff.2 (List.nodup_range.filter _)) h
  exact ⟨h1, h2, h3, h4, fun i => by rw [h5 i]; simp only [hp.mem_iff]⟩

/-- The state in which the subscribers are told of the end of the source. -/
def ending (x : State S I E) (k : Nat) (n : SubscriberNotification I E) (r er co : Bool) : State S I E :=
  { x with current := if r then none else x.current, errored := er, completed := co, ended := set x.ended k (some n) }

theorem emit_next {j : Nat} {v : I} (h : x.isClosed j = false) :
    x.emit c j (.next v) = x.tell c (some j) (.next v) (x.target j) := by
  rw [emit, if_neg (by rw [h]; decide)]

theorem emit_unsubscribe {j : Nat} : x.emit c j .unsubscribe = .ok (x.unsubscribeSource c j) := by
  rw [emit]
  split
  · rw [unsubscribeSource, if_pos ‹_›]
  · rfl

theorem emit_closed {j : Nat} {n : SubscriberNotification I E} (h : x.isClosed j = true) : x.emit c j n = .ok x := by
  rw [emit, if_pos h]

theorem emit_end {j : Nat} {n : SubscriberNotification I E} (hn : IsEnd n) (h : x.isClosed j = false) :
    ∃ er co, (er || co) = true ∧ x.emit c j n =
      match (x.ending (x.target j) n (c.resets n) er co).tell c (some j) n (x.target j) with
      | .ok y => .ok { y with torn := set y.torn j true }
      | .error f => .error f := by
  rcases hn with rfl | ⟨e, rfl⟩
  · refine ⟨if c.resetOnComplete then false else x.errored, true, Bool.or_true _, ?_⟩
    rw [emit, if_neg (by rw [h]; decide)]
    have : c.resets (.complete : SubscriberNotification I E) = c.resetOnComplete := rfl
    cases e : c.resetOnComplete <;> rw [this, e] <;> rfl
  · refine ⟨true, if c.resetOnError then false else x.completed, rfl, ?_⟩
    rw [emit, if_neg (by rw [h]; decide)]
    have : c.resets (.error e : SubscriberNotification I E) = c.resetOnError := rfl
    cases e : c.resetOnError <;> rw [this, e] <;> rfl

/-- After the source ended, nothing is open. -/
theorem Base.ending_shut {p : Option Nat} (h : Base p x) {j : Nat} {n : SubscriberNotification I E} {r er co : Bool}
    (hj : x.Open j) (i : Nat) : ¬ (x.ending (x.target j) n r er co).Open i := by
  intro ⟨h1, h2⟩
  change (x.torn i || (set x.ended (x.target j) (some n) (x.target i)).isSome) = false at h2
  by_cases e : x.target i = x.target j
  · rw [e, set_self] at h2
    exact absurd h2 (by simp)
  · rw [set_ne e] at h2
    exact e (congrArg _ (h.unique ⟨h1, h2⟩ hj))

theorem Base.ending {p : Option Nat} (h : Base p x) {j : Nat} {n : SubscriberNotification I E} {r er co : Bool}
    (hj : x.Open j) : Base p (x.ending (x.target j) n r er co) := by
  refine ⟨fun i k => absurd k (h.ending_shut hj i), h.pend, fun i k => absurd k (h.ending_shut hj i), fun k hk => ?_,
    h.tgtLt, fun k hk => ?_, h.reg, h.hdl⟩
  · cases r with
    | true => exact absurd (show none = _ from hk) (by simp)
    | false => exact h.curLt k hk
  · have := h.tgtLt j hj.1
    exact (set_ne (fun e => absurd (e ▸ hk) (by show ¬ (x.connectors ≤ _); omega))).trans (h.fresh k hk)

/-- What the source does leaves alone. -/
structure Kept (x y : State S I E) : Prop where
  size : y.size = x.size
  conn : y.conn = x.conn
  connectors : y.connectors = x.connectors
  sources : y.sources = x.sources
  target : y.target = x.target
  handle : y.handle = x.handle

theorem Frame.kept (h : Frame x y) : Kept x y := ⟨h.size, h.conn, h.connectors, h.sources, h.target, h.handle⟩

theorem Kept.trans {z : State S I E} (h : Kept x y) (k : Kept y z) : Kept x z :=
  ⟨k.size.trans h.size, k.conn.trans h.conn, k.connectors.trans h.connectors, k.sources.trans h.sources,
    k.target.trans h.target, k.handle.trans h.handle⟩

/-- What happens when the source ends. -/
theorem emit_end_spec (ho : c.Fair) {p : Option Nat} {j : Nat} {n : SubscriberNotification I E} (hn : IsEnd n)
    (hb : Base p x) (hc : Counts c x) (hj : x.Open j) (h : x.emit c j n = .ok y) :
    ∃ er co z, (er || co) = true ∧ Frame (x.ending (x.target j) n (c.resets n) er co) z ∧ Base p z ∧ Counts c z ∧
      z.member = x.member ∧ (∀ i, ¬ z.Open i) ∧ y = { z with torn := set z.torn j true } ∧
      ∀ i, z.dest i = if i ∈ x.members (x.target j) ∧ c.D.isClosed (x.dest i) = false then c.D.push (x.dest i) n
        else x.dest i := by
  obtain ⟨er, co, h0, h1⟩ := emit_end (c := c) hn hj.2
  rw [h1] at h
  split at h
  · rename_i z e
    obtain ⟨k1, k2, k3, k4, k5⟩ := tell_spec ho (hb.ending hj)
      (show Counts c (x.ending (x.target j) n (c.resets n) er co) from ⟨hc.count, hc.live, hc.connLt⟩) e
    exact ⟨er, co, z, h0, k3, k1, k2, k4, fun i k => hb.ending_shut hj i (k.of_frame k3), (Except.ok.inj h).symm, k5⟩
  · exact absurd h (by simp)

theorem Base.tear {p : Option Nat} (h : Base p x) (hx : ∀ i, ¬ x.Open i) (j : Nat) :
    Base p { x with torn := set x.torn j true } ∧ ∀ i, ¬ State.Open { x with torn := set x.torn j true } i := by
  have f : Frame x { x with torn := set x.torn j true } :=
    ⟨.refl _, .refl _, .refl _, .refl _, .refl _, .refl _, .refl _, .refl _, .refl _, fun k e => by
      by_cases h : k = j
      · rw [h]; exact set_self ..
      · exact (set_ne h).trans e, fun _ e => e⟩
  have : ∀ i, ¬ State.Open { x with torn := set x.torn j true } i := fun i hi => hx i (hi.of_frame f)
  exact ⟨⟨fun i k => absurd k (this i), h.pend, fun i k => absurd k (this i), h.curLt, h.tgtLt, h.fresh, h.reg, h.hdl⟩, this⟩

theorem note_cases (n : SubscriberNotification I E) : (∃ v, n = .next v) ∨ n = .unsubscribe ∨ IsEnd n := by
  cases n with
  | next v => exact .inl ⟨v, rfl⟩
  | unsubscribe => exact .inr (.inl rfl)
  | complete => exact .inr (.inr (.inl rfl))
  | error e => exact .inr (.inr (.inr ⟨e, rfl⟩))

theorem emit_spec (ho : c.Fair) {p : Option Nat} {j : Nat} {n : SubscriberNotification I E} (hb : Base p x)
    (hc : Counts c x) (hj : j < x.sources) (h : x.emit c j n = .ok y) : Base p y ∧ Counts c y ∧ Kept x y := by
  cases e : x.isClosed j with
  | true =>
    rw [emit_closed e] at h
    rw [← Except.ok.inj h]
    exact ⟨hb, hc, Frame.rfl.kept⟩
  | false =>
    rcases note_cases n with ⟨v, rfl⟩ | rfl | hn
    · rw [emit_next e] at h
      obtain ⟨h1, h2, h3, _⟩ := tell_spec ho hb hc h
      exact ⟨h1, h2, h3.kept⟩
    · rw [emit_unsubscribe] at h
      rw [← Except.ok.inj h]
      have f := frame_unsubscribeSource (c := c) (x := x) j
      obtain ⟨e1, e2, e3, e4, _⟩ := counts_unsubscribeSource (c := c) (x := x) j
      refine ⟨hb.unsubscribeSource hj, ⟨?_, ?_, ?_⟩, f.kept⟩
      · rw [e1, tally, f.size, e2]; exact hc.count
      · rw [f.size, e2, e3, e4]; exact hc.live
      · rw [f.size, f.conn, f.connectors]; exact hc.connLt
    · obtain ⟨er, co, z, -, h1, h2, h3, h4, h5, h6, -⟩ := emit_end_spec ho hn hb hc ⟨hj, e⟩ h
      rw [h6]
      exact ⟨(h2.tear h5 j).1, ⟨h3.count, h3.live, h3.connLt⟩, h1.size, h1.conn, h1.connectors, h1.sources, h1.target, h1.handle⟩

/-- `getConnector` -/
theorem getConnector_spec {p : Option Nat} (hb : Base p x) (hc : Counts c x) :
    Base p x.getConnector.1 ∧ Counts c x.getConnector.1 ∧ x.getConnector.1.current = some x.getConnector.2 := by
  rw [getConnector]
  split
  · rename_i k e
    exact ⟨hb, hc, e⟩
  · rename_i e
    refine ⟨⟨hb.regs, hb.pend, fun j h => ?_, fun k h => ?_, fun j h => Nat.lt_succ_of_lt (hb.tgtLt j h),
      fun k h => hb.fresh k (Nat.le_of_succ_le h), hb.reg, hb.hdl⟩,
      ⟨hc.count, hc.live, fun i h => Nat.lt_succ_of_lt (hc.connLt i h)⟩, rfl⟩
    · have := hb.cur j h
      rw [e] at this
      exact absurd this (by simp)
    · have h := Option.some.inj (show some x.connectors = some k from h)
      rw [← h]; exact Nat.lt_succ_self _

/-- A new subscription to the source. -/
def fresh (x : State S I E) : State S I E :=
  { x.getConnector.1 with
    sources := x.getConnector.1.sources + 1
    target := set x.getConnector.1.target x.getConnector.1.sources x.getConnector.2
    torn := set x.getConnector.1.torn x.getConnector.1.sources false }

theorem getConnector_sources : x.getConnector.1.sources = x.sources := by rw [getConnector]; split <;> rfl

theorem createConnection_ok (h : x.createConnection c = .ok y) : ∃ z,
    (c.script x.sources).foldlM (fun y n => y.emit c x.sources n) x.fresh = .ok z ∧
    y = { z.disconnect c with connection := some x.sources } := by
  rw [createConnection] at h
  change (do
    let z ← (c.script x.getConnector.1.sources).foldlM (fun y n => y.emit c x.getConnector.1.sources n) x.fresh
    pure { z.disconnect c with connection := some x.getConnector.1.sources } : Except Fault (State S I E)) = _ at h
  rw [getConnector_sources] at h
  cases e : (c.script x.sources).foldlM (fun y n => y.emit c x.sources n) x.fresh with
  | error f => rw [e] at h; exact absurd h (by intro h; cases h)
  | ok z => rw [e] at h; exact ⟨z, rfl, (Except.ok.inj h).symm⟩

theorem Base.active_none (h : Base none x) (ha : x.active = none) (j : Nat) : ¬ x.Open j := by
  intro k
  rcases h.regs j k with ⟨_, e⟩ | e
  · rw [active, e] at ha
    change (if x.isClosed j = true then none else some j) = none at ha
    rw [k.2] at ha
    exact absurd ha (by simp)
  · exact absurd e (by simp)

theorem Base.active_some (h : Base none x) {j : Nat} (ha : x.active = some j) : x.Open j := by
  rw [active] at ha
  split at ha
  · rename_i i e
    split at ha
    · exact absurd ha (by simp)
    · rw [← Option.some.inj ha]
      exact ⟨h.reg i e, Bool.eq_false_iff.2 ‹_›⟩
  · exact absurd ha (by simp)

/-- What a new subscription to the source leaves alone. -/
theorem fresh_fields : x.fresh.size = x.size ∧ x.fresh.dest = x.dest ∧ x.fresh.conn = x.conn ∧ x.fresh.member = x.member ∧
    x.fresh.counted = x.counted ∧ x.fresh.count = x.count ∧ x.fresh.handle = x.handle ∧ x.fresh.ended = x.ended ∧
    x.fresh.errored = x.errored ∧ x.fresh.completed = x.completed ∧ x.fresh.connection = x.connection ∧
    x.fresh.current = some (x.fresh.target x.sources) ∧ x.fresh.sources = x.sources + 1 ∧
    x.fresh.torn x.sources = false := by
  rw [fresh, getConnector]
  split
  · rename_i k e
    exact ⟨rfl, rfl, rfl, rfl, rfl, rfl, rfl, rfl, rfl, rfl, rfl, e.trans (congrArg some (set_self ..).symm), rfl, set_self ..⟩
  · exact ⟨rfl, rfl, rfl, rfl, rfl, rfl, rfl, rfl, rfl, rfl, rfl, congrArg some (set_self ..).symm, rfl, set_self ..⟩

theorem fresh_current {k : Nat} (h : x.current = some k) : x.fresh.current = some k := by
  rw [fresh, getConnector, h]
  exact h

theorem fresh_open (hx : ∀ j, ¬ x.Open j) {j : Nat} (h : x.fresh.Open j) : j = x.sources := by
  by_cases e : j = x.sources
  · exact e
  · refine absurd ?_ (hx j)
    obtain ⟨h1, h2⟩ := h
    rw [fresh, getConnector] at h1 h2
    split at h1
    all_goals
      rename_i e'
      try rw [e'] at h2
      refine ⟨?_, ?_⟩
      · change j < x.sources + 1 at h1
        omega
      · refine Eq.trans ?_ h2
        show (x.torn j || (x.ended (x.target j)).isSome) =
          (set x.torn x.sources false j || (x.ended (set x.target x.sources _ j)).isSome)
        rw [set_ne e, set_ne e]

theorem fresh_spec (hb : Base none x) (hc : Counts c x) (hx : ∀ j, ¬ x.Open j) :
    Base (some x.sources) x.fresh ∧ Counts c x.fresh := by
  obtain ⟨b, k, e⟩ := getConnector_spec (c := c) hb hc
  obtain ⟨-, -, -, -, -, -, e7, -, -, -, e11, e12, e13, -⟩ := fresh_fields (x := x)
  refine ⟨⟨fun j h => .inr (congrArg some (fresh_open hx h).symm), fun j h h' => ?_, fun j h => ?_, b.curLt, fun j h => ?_,
    b.fresh, fun j h => ?_, fun i j h => ?_⟩, ⟨k.count, k.live, k.connLt⟩⟩
  · rw [e11] at h'
    have := hb.reg j h'
    rw [Option.some.inj h] at this
    exact absurd this (Nat.lt_irrefl _)
  · rw [fresh_open hx h]; exact e12
  · show set x.getConnector.1.target x.getConnector.1.sources x.getConnector.2 j < _
    by_cases e' : j = x.getConnector.1.sources
    · rw [e', set_self]; exact b.curLt _ e
    · rw [set_ne e']
      exact b.tgtLt j (by change j < x.getConnector.1.sources + 1 at h; omega)
  · rw [e13]; rw [e11] at h; exact Nat.lt_succ_of_lt (hb.reg j h)
  · rw [e13]; rw [e7] at h; exact Nat.lt_succ_of_lt (hb.hdl i j h)

/-- What the source does while it is subscribed to. -/
theorem script_spec (ho : c.Fair) {j : Nat} (P : State S I E → Prop) :
    ∀ (l : List (SubscriberNotification I E)) {x : State S I E}, Base (some j) x → Counts c x → j < x.sources → P x →
    (∀ {x y n}, n ∈ l → Base (some j) x → Counts c x → j < x.sources → P x → x.emit c j n = .ok y → P y) →
    l.foldlM (fun y n => y.emit c j n) x = .ok y → Base (some j) y ∧ Counts c y ∧ Kept x y ∧ P y
  | [], x, hb, hc, _, hp, _, h => by
    rw [← Except.ok.inj h]
    exact ⟨hb, hc, Frame.rfl.kept, hp⟩
  | n :: l, x, hb, hc, hj, hp, hs, h => by
    rw [List.foldlM_cons] at h
    cases e : x.emit c j n with
    | error f => rw [e] at h; exact absurd h (by intro h; cases h)
    | ok z =>
      rw [e] at h
      obtain ⟨h1, h2, h3⟩ := emit_spec ho hb hc hj e
      obtain ⟨k1, k2, k3, k4⟩ := script_spec ho P l h1 h2 (h3.sources ▸ hj) (hs List.mem_cons_self hb hc hj hp e)
        (fun hn => hs (List.mem_cons_of_mem _ hn)) h
      exact ⟨k1, k2, h3.trans k3, k4⟩

/-- Connecting, when nothing is open: `P` is what holds while the source gives notifications. -/
theorem createConnection_spec (ho : c.Fair) (hb : Base none x) (hc : Counts c x) (hx : ∀ j, ¬ x.Open j)
    (P : State S I E → Prop) (hp : P x.fresh)
    (hs : ∀ {z y n}, n ∈ c.script x.sources → Base (some x.sources) z → Counts c z → x.sources < z.sources → P z →
      z.emit c x.sources n = .ok y → P y)
    (h : x.createConnection c = .ok y) :
    Base none y ∧ Counts c y ∧ y.connection = some x.sources ∧ ∃ z, P z ∧ Base (some x.sources) z ∧ Kept x.fresh z ∧
      y = { z with connection := some x.sources } := by
  obtain ⟨z, h1, h2⟩ := createConnection_ok h
  obtain ⟨b, k⟩ := fresh_spec hb hc hx
  have e := (fresh_fields (x := x)).2.2.2.2.2.2.2.2.2.2.2.2.1
  obtain ⟨k1, k2, k3, k4⟩ := script_spec ho P _ b k (by rw [e]; exact Nat.lt_succ_self _) hp hs h1
  rw [k1.disconnect_pending] at h2
  refine ⟨?_, ?_, ?_, z, k4, k1, k3, h2⟩
  · rw [h2]
    refine ⟨fun j h => .inl ⟨rfl, ?_⟩, fun _ h => absurd h (by simp), k1.cur, k1.curLt, k1.tgtLt, k1.fresh, fun j h => ?_,
      k1.hdl⟩
    · rcases k1.regs j h with ⟨e, _⟩ | e
      · exact absurd e (by simp)
      · exact e
    · rw [← Option.some.inj (show some x.sources = some j from h)]
      show x.sources < z.sources
      rw [k3.sources, e]; exact Nat.lt_succ_self _
  · rw [h2]; exact ⟨k2.count, k2.live, k2.connLt⟩
  · rw [h2]

/-- A subscriber is added. -/
theorem attach_spec {s : S} (hb : Base none x) (hc : Counts c x) :
    Base none (x.attach c s) ∧ Counts c (x.attach c s) := by
  obtain ⟨b, k, e⟩ := getConnector_spec (c := c) hb hc
  have lt : ∀ i, i < x.getConnector.1.size + 1 →
      set x.getConnector.1.conn x.getConnector.1.size x.getConnector.2 i < x.getConnector.1.connectors := fun i hi => by
    by_cases e' : i = x.getConnector.1.size
    · rw [e', set_self]; exact b.curLt _ e
    · rw [set_ne e']; exact k.connLt i (by omega)
  have old : ∀ (m d : Bool) (s' : S), d = (m && !c.D.isClosed s') → ∀ i, i < x.getConnector.1.size + 1 →
      set x.getConnector.1.counted x.getConnector.1.size d i =
      (set x.getConnector.1.member x.getConnector.1.size m i &&
        !c.D.isClosed (set x.getConnector.1.dest x.getConnector.1.size s' i)) := fun m d s' hd i hi => by
    by_cases e' : i = x.getConnector.1.size
    · rw [e', set_self, set_self, set_self]; exact hd
    · rw [set_ne e', set_ne e', set_ne e']; exact k.live i (by omega)
  have len : ∀ d : Bool, ((List.range (x.getConnector.1.size + 1)).filter
      (set x.getConnector.1.counted x.getConnector.1.size d)).length =
      x.getConnector.1.count + if d then 1 else 0 := fun d => by
    rw [List.range_succ, List.filter_append, List.length_append, k.count, tally]
    have : (List.range x.getConnector.1.size).filter (set x.getConnector.1.counted x.getConnector.1.size d) =
        (List.range x.getConnector.1.size).filter x.getConnector.1.counted :=
      filter_congr' fun i hi => set_ne (Nat.ne_of_lt (List.mem_range.1 hi))
    rw [this]
    cases d with
    | true => rw [List.filter_cons_of_pos (set_self ..)]; rfl
    | false => rw [List.filter_cons_of_neg (by rw [set_self]; decide)]; rfl
  rw [attach]
  simp only []
  split
  · exact ⟨⟨b.regs, b.pend, b.cur, b.curLt, b.tgtLt, b.fresh, b.reg, b.hdl⟩,
      ⟨(len false).symm, old false false _ rfl, lt⟩⟩
  · split
    · rename_i e'
      exact ⟨⟨b.regs, b.pend, b.cur, b.curLt, b.tgtLt, b.fresh, b.reg, b.hdl⟩,
        ⟨(len false).symm, old true false _ (by rw [e']; rfl), lt⟩⟩
    · rename_i e'
      have e2 : set (set x.getConnector.1.counted x.getConnector.1.size false) x.getConnector.1.size true =
          set x.getConnector.1.counted x.getConnector.1.size true := by
        funext i
        by_cases h : i = x.getConnector.1.size
        · rw [h, set_self, set_self]
        · rw [set_ne h, set_ne h, set_ne h]
      refine ⟨⟨b.regs, b.pend, b.cur, b.curLt, b.tgtLt, b.fresh, b.reg, b.hdl⟩, ⟨?_, fun i hi => ?_, lt⟩⟩
      · show _ = ((List.range (x.getConnector.1.size + 1)).filter (set (set _ _ _) _ _)).length
        rw [e2]; exact (len true).symm
      · refine Eq.trans (congrFun e2 i) (old true true s ?_ i hi)
        rw [Bool.eq_false_iff.2 e']; rfl

theorem connect_spec (ho : c.Fair) (hb : Base none x) (hc : Counts c x) (h : x.connect c = .ok y) :
    Base none y ∧ Counts c y := by
  rw [connect] at h
  split at h
  · rw [← Except.ok.inj h]; exact ⟨hb, hc⟩
  · rename_i e
    obtain ⟨h1, h2, _⟩ := createConnection_spec ho hb hc (hb.active_none e) (fun _ => True) trivial (fun _ _ _ _ _ _ => trivial) h
    exact ⟨h1, h2⟩

theorem shareConnect_ok {k : Nat} (h : x.shareConnect c k = .ok y) :
    (∃ j, x.handle k = some j ∧ x.isClosed j = false ∧ y = x) ∨
    ∃ z, x.connect c = .ok z ∧ y = { z with handle := set z.handle k z.connection } := by
  have key : ∀ b : Bool, (if b = true then
      match x.connect c with
      | .ok x => .ok { x with handle := set x.handle k x.connection }
      | .error f => .error f
      else .ok x : Except Fault (State S I E)) = .ok y →
      (b = false ∧ y = x) ∨ ∃ z, x.connect c = .ok z ∧ y = { z with handle := set z.handle k z.connection } := by
    intro b h
    split at h
    · split at h
      · exact .inr ⟨_, ‹_›, (Except.ok.inj h).symm⟩
      · exact absurd h (by simp)
    · exact .inl ⟨Bool.eq_false_iff.2 ‹_›, (Except.ok.inj h).symm⟩
  rw [shareConnect] at h
  rcases key _ h with ⟨e, e'⟩ | h
  · split at e
    · exact .inl ⟨_, ‹_›, e, e'⟩
    · exact absurd e (by decide)
  · exact .inr h

theorem shareConnect_spec (ho : c.Fair) {k : Nat} (hb : Base none x) (hc : Counts c x) (h : x.shareConnect c k = .ok y) :
    Base none y ∧ Counts c y := by
  rcases shareConnect_ok h with ⟨_, _, _, e⟩ | ⟨z, e, h⟩
  · rw [e]; exact ⟨hb, hc⟩
  · obtain ⟨h1, h2⟩ := connect_spec ho hb hc e
    rw [h]
    refine ⟨⟨h1.regs, h1.pend, h1.cur, h1.curLt, h1.tgtLt, h1.fresh, h1.reg, fun i j hj => ?_⟩, ⟨h2.count, h2.live, h2.connLt⟩⟩
    by_cases e' : i = k
    · rw [e'] at hj
      exact h1.reg j ((set_self ..).symm.trans hj)
    · exact h1.hdl i j ((set_ne e').symm.trans hj)

theorem Counts.unsubscribeSource (hc : Counts c x) (j : Nat) : Counts c (x.unsubscribeSource c j) := by
  have f := frame_unsubscribeSource (c := c) (x := x) j
  obtain ⟨e1, e2, e3, e4, _⟩ := counts_unsubscribeSource (c := c) (x := x) j
  refine ⟨?_, ?_, ?_⟩
  · rw [e1, tally, f.size, e2]; exact hc.count
  · rw [f.size, e2, e3, e4]; exact hc.live
  · rw [f.size, f.conn, f.connectors]; exact hc.connLt

theorem Counts.disconnect (hc : Counts c x) : Counts c (x.disconnect c) := by
  have f := frame_disconnect (c := c) (x := x)
  obtain ⟨e1, e2, e3, e4⟩ := counts_disconnect (c := c) (x := x)
  refine ⟨?_, ?_, ?_⟩
  · rw [e1, tally, f.size, e2]; exact hc.count
  · rw [f.size, e2, e3, e4]; exact hc.live
  · rw [f.size, f.conn, f.connectors]; exact hc.connLt

theorem shareDisconnect_spec (k : Nat) (hb : Base none x) (hc : Counts c x) :
    Base none (x.shareDisconnect c k) ∧ Counts c (x.shareDisconnect c k) := by
  rw [shareDisconnect]
  split
  · rename_i j e
    have b : Base none { x with handle := set x.handle k none } :=
      ⟨hb.regs, hb.pend, hb.cur, hb.curLt, hb.tgtLt, hb.fresh, hb.reg, fun i j h => by
        by_cases e' : i = k
        · rw [e'] at h; exact absurd ((set_self ..).symm.trans h) (by simp)
        · exact hb.hdl i j ((set_ne e').symm.trans h)⟩
    exact ⟨b.unsubscribeSource (hb.hdl k j e),
      Counts.unsubscribeSource (x := { x with handle := set x.handle k none }) ⟨hc.count, hc.live, hc.connLt⟩ j⟩
  · exact ⟨hb, hc⟩

theorem unsubscribe_spec (hD : Closes c.D) {i : Nat} (hi : i < x.size) (hb : Base none x) (hc : Counts c x)
    (h : x.unsubscribe c i = .ok y) :
    Base none y ∧ Counts c y ∧ Frame x y ∧ (x.member i = true → y.counted i = false ∧
      State.give c none .unsubscribe { x with member := set x.member i false } i = .ok y) := by
  rw [unsubscribe] at h
  split at h
  · rename_i e
    have hl := hc.live i hi
    rw [e, Bool.true_and] at hl
    have b : Base none { x with member := set x.member i false } :=
      ⟨hb.regs, hb.pend, hb.cur, hb.curLt, hb.tgtLt, hb.fresh, hb.reg, hb.hdl⟩
    have k : CountsBut c i { x with member := set x.member i false } :=
      ⟨hc.count, fun k hk e => (hc.live k hk).trans (by
        show _ = (set x.member i false k && _); rw [set_ne e]), hc.connLt⟩
    obtain ⟨h1, h2, h3, h4, h5, h6⟩ := give_spec b k hi hl h
    have : y.counted i = false := by
      rw [h4, h5, set_self]
      change (!c.D.isClosed (if c.D.isClosed (x.dest i) = true then x.dest i else c.D.push (x.dest i) .unsubscribe)) = false
      split
      · rw [‹c.D.isClosed _ = true›]; rfl
      · rw [hD _ _ rfl]; rfl
    refine ⟨h1, h2.counts fun _ => ?_, ⟨h3.size, h3.conn, h3.connectors, h3.ended, h3.sources, h3.target, h3.handle, h3.errored,
      h3.completed, h3.torn, h3.counted⟩, fun _ => ⟨this, h⟩⟩
    rw [this, h6]
    show false = (set x.member i false i && _)
    rw [set_self]
    rfl
  · rename_i e
    rw [← Except.ok.inj h]
    exact ⟨hb, hc, .rfl, fun h => absurd h e⟩

/-- Whatever happens. -/
theorem step_spec (hD : Closes c.D) (ho : c.Fair) {op : Op S I E} (hb : Base none x) (hc : Counts c x)
    (h : x.step c op = .ok y) : Base none y ∧ Counts c y := by
  cases op with
  | subscribe k s =>
    obtain ⟨h1, h2⟩ := attach_spec (s := s) hb hc
    exact shareConnect_spec ho h1 h2 h
  | unsubscribe i =>
    change (if i < x.size then _ else _) = _ at h
    split at h
    · obtain ⟨h1, h2, _⟩ := unsubscribe_spec hD ‹_› hb hc h
      exact ⟨h1, h2⟩
    · rw [← Except.ok.inj h]; exact ⟨hb, hc⟩
  | emit j n =>
    change (if j < x.sources then _ else _) = _ at h
    split at h
    · obtain ⟨h1, h2, _⟩ := emit_spec ho hb hc ‹_› h
      exact ⟨h1, h2⟩
    · rw [← Except.ok.inj h]; exact ⟨hb, hc⟩
  | connect k => exact shareConnect_spec ho hb hc h
  | disconnect k => rw [← Except.ok.inj h]; exact shareDisconnect_spec k hb hc
  | attach s => rw [← Except.ok.inj h]; exact attach_spec hb hc
  | link => exact connect_spec ho hb hc h
  | unlink => rw [← Except.ok.inj h]; exact ⟨hb.disconnect, hc.disconnect⟩
  | reset =>
    rw [← Except.ok.inj h]
    have b := hb.disconnect (c := c)
    have k := hc.disconnect
    have n := hb.disconnected (c := c)
    exact ⟨⟨b.regs, b.pend, fun j hj => absurd hj (n j), fun _ hk => absurd (show none = _ from hk) (by simp), b.tgtLt, b.fresh,
      b.reg, b.hdl⟩, ⟨k.count, k.live, k.connLt⟩⟩

/-- Whatever happens, if `P` is kept. -/
theorem run_spec (hD : Closes c.D) (ho : c.Fair) (P : State S I E → Prop) :
    ∀ (ops : List (Op S I E)) {x : State S I E}, Base none x → Counts c x → P x →
    (∀ {x y op}, op ∈ ops → Base none x → Counts c x → P x → x.step c op = .ok y → P y) →
    x.run c ops = .ok y → Base none y ∧ Counts c y ∧ P y
  | [], x, hb, hc, hp, _, h => by
    rw [← Except.ok.inj h]
    exact ⟨hb, hc, hp⟩
  | op :: ops, x, hb, hc, hp, hs, h => by
    rw [run, List.foldlM_cons] at h
    cases e : x.step c op with
    | error f => rw [e] at h; exact absurd h (by intro h; cases h)
    | ok z =>
      rw [e] at h
      obtain ⟨h1, h2⟩ := step_spec hD ho hb hc e
      exact run_spec hD ho P ops h1 h2 (hs List.mem_cons_self hb hc hp e) (fun hn => hs (List.mem_cons_of_mem _ hn)) h

/-- The start. -/
theorem start_spec (f : Nat → S) : Base none ({ dest := f } : State S I E) ∧ Counts c ({ dest := f } : State S I E) :=
  ⟨⟨fun _ h => absurd h.1 (Nat.not_lt_zero _), fun _ h => absurd h (by simp), fun _ h => absurd h.1 (Nat.not_lt_zero _),
    fun _ h => absurd (show none = _ from h) (by simp), fun _ h => absurd h (Nat.not_lt_zero _), fun _ _ => rfl,
    fun _ h => absurd (show none = _ from h) (by simp), fun _ _ h => absurd (show none = _ from h) (by simp)⟩,
    ⟨rfl, fun _ h => absurd h (Nat.not_lt_zero _), fun _ h => absurd h (Nat.not_lt_zero _)⟩⟩

end State
end Rx.Share
