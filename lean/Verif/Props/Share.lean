import Verif.Lemmas.ShareKept

/-!
# C46: share

A history is a list of what happens to a `share` (or to the connectable observable in it), its subscribers, and the source.
`Open j` says that the `j`-th subscription to the source is open, `Subscribed c i` that the `i`-th subscriber is.
-/

namespace Rx.Share.Props
open Rx.HigherOrder (Closes Patient)

variable {S I E : Type} {c : Cfg S I E} {s : S} {x y : State S I E} {ops : List (Op S I E)}

/-- C46. Whatever happens, the source is subscribed to at most once at a time. -/
theorem C46_once (hD : Closes c.D) (ho : c.Fair) (h : (State.start s).run c ops = .ok x) {i j : Nat} (hi : x.Open i)
    (hj : x.Open j) : i = j :=
  (State.run_spec hD ho (fun _ => True) ops (State.start_spec (c := c) _).1 (State.start_spec _).2 trivial (fun _ _ _ _ _ => trivial)
    h).1.unique hi hj

/-- C46. The source is subscribed to again only when no subscription to it is open, and once. -/
theorem C46_again (hD : Closes c.D) (ho : c.Fair) (h : (State.start s).run c ops = .ok x) {op : Op S I E}
    (hy : x.step c op = .ok y) : y.sources = x.sources ∨ (y.sources = x.sources + 1 ∧ ∀ j, ¬ x.Open j) := by
  obtain ⟨hb, hc, _⟩ := State.run_spec hD ho (fun _ => True) ops (State.start_spec (c := c) _).1 (State.start_spec _).2 trivial
    (fun _ _ _ _ _ => trivial) h
  exact State.step_sources hD ho hb hc hy

/-- C46. While there is a subscriber, `share` is connected, and the subscriber's connector is what is fed; unless it is told to
disconnect, or the source unsubscribes its subscriber. -/
theorem C46_connected (hD : Closes c.D) (ho : c.Fair) (hq : ∀ j, ∀ n ∈ c.script j, n ≠ .unsubscribe)
    (hops : ∀ op ∈ ops, op.Plain) (h : (State.start s).run c ops = .ok x) {i : Nat} (hi : x.Subscribed c i) :
    ∃ j, x.Open j ∧ x.target j = x.conn i := by
  obtain ⟨_, hc, hl⟩ := State.run_spec hD ho State.Linked ops (State.start_spec (c := c) _).1 (State.start_spec _).2
    (fun i hi => absurd hi (Nat.not_lt_zero _))
    (fun hm hb hc hl h => State.step_linked hD ho hq (hops _ hm) hb hc hl h) h
  exact hl i hi.1 (by rw [hc.live i hi.1, hi.2.1, hi.2.2]; rfl)

/-- C46. With reference counting, `share` is not connected when there is no subscriber: it is disconnected when the last one
leaves. Missing: rounds after one that ended and made `share` take a new connector (`C46_second_round`); subscribers that leave
while the source is being subscribed to (`C46_left_while_connecting`); subscribers that are closed when they subscribe
(`C46_closed_subscriber`). -/
theorem C46_disconnected_partial (hD : Closes c.D) (ho : c.Fair) (hr : c.refCount = true) (hm : c.Mild)
    (hops : ∀ op ∈ ops, op.Calm c) (h : (State.start s).run c ops = .ok x) (hi : ∀ i, ¬ x.Subscribed c i) (j : Nat) :
    ¬ x.Open j := by
  obtain ⟨_, hc, hl⟩ := State.run_spec hD ho State.Idle ops (State.start_spec (c := c) _).1 (State.start_spec _).2
    ⟨fun _ _ h => absurd h.1 (Nat.not_lt_zero _), fun h => absurd h Bool.false_ne_true⟩
    (fun hmem hb hc hl h => State.step_idle hD ho hr hm (hops _ hmem) hb hc hl h) h
  refine hl.idle (fun i hi' => ?_) j
  cases e : x.counted i with
  | false => rfl
  | true =>
    have := (hc.live i hi').symm.trans e
    rw [Bool.and_eq_true, Bool.not_eq_true'] at this
    exact absurd ⟨hi', this.1, this.2⟩ (hi i)

/-- C46. A value from the source is given to each subscriber, once, and to nobody else. -/
theorem C46_value (hD : Closes c.D) (ho : c.Fair) (hq : ∀ j, ∀ n ∈ c.script j, n ≠ .unsubscribe)
    (hops : ∀ op ∈ ops, op.Plain) (h : (State.start s).run c ops = .ok x) {j : Nat} (hj : x.Open j) {v : I}
    (hy : x.step c (.emit j (.next v)) = .ok y) (i : Nat) :
    (x.Subscribed c i → y.dest i = c.D.next (x.dest i) v) ∧ (¬ x.Subscribed c i → y.dest i = x.dest i) := by
  obtain ⟨hb, hc, hl⟩ := State.run_spec hD ho State.Linked ops (State.start_spec (c := c) _).1 (State.start_spec _).2
    (fun i hi => absurd hi (Nat.not_lt_zero _))
    (fun hm hb hc hl h => State.step_linked hD ho hq (hops _ hm) hb hc hl h) h
  change (if j < x.sources then _ else _) = _ at hy
  rw [if_pos hj.1, State.emit_next hj.2] at hy
  have := (State.tell_spec ho hb hc hy).2.2.2.2 i
  refine ⟨fun hi => ?_, fun hi => ?_⟩
  · obtain ⟨j', h1, h2⟩ := hl i hi.1 (by rw [hc.live i hi.1, hi.2.1, hi.2.2]; rfl)
    rw [hb.unique h1 hj] at h2
    rw [this, if_pos ⟨State.mem_members.2 ⟨hi.1, hi.2.1, h2.symm⟩, hi.2.2⟩]
    rfl
  · rw [this, if_neg fun h => hi ⟨(State.mem_members.1 h.1).1, (State.mem_members.1 h.1).2.1, h.2⟩]

/-- C46. The end of the source is given to each subscriber, once; then nobody is subscribed, and nothing is open. -/
theorem C46_end (hD : Closes c.D) (ho : c.Fair) (hq : ∀ j, ∀ n ∈ c.script j, n ≠ .unsubscribe)
    (hops : ∀ op ∈ ops, op.Plain) (h : (State.start s).run c ops = .ok x) {j : Nat} (hj : x.Open j)
    {n : SubscriberNotification I E} (hn : State.IsEnd n) (hy : x.step c (.emit j n) = .ok y) :
    (∀ i, x.Subscribed c i → y.dest i = c.D.push (x.dest i) n) ∧ (∀ i, ¬ x.Subscribed c i → y.dest i = x.dest i) ∧
    (∀ i, ¬ y.Subscribed c i) ∧ ∀ i, ¬ y.Open i := by
  obtain ⟨hb, hc, hl⟩ := State.run_spec hD ho State.Linked ops (State.start_spec (c := c) _).1 (State.start_spec _).2
    (fun i hi => absurd hi (Nat.not_lt_zero _))
    (fun hm hb hc hl h => State.step_linked hD ho hq (hops _ hm) hb hc hl h) h
  change (if j < x.sources then _ else _) = _ at hy
  rw [if_pos hj.1] at hy
  obtain ⟨er, co, z, -, h1, h2, h3, h4, h5, h6, h7⟩ := State.emit_end_spec ho hn hb hc hj hy
  have a : ∀ i, x.Subscribed c i → y.dest i = c.D.push (x.dest i) n := fun i hi => by
    obtain ⟨j', k1, k2⟩ := hl i hi.1 (by rw [hc.live i hi.1, hi.2.1, hi.2.2]; rfl)
    rw [hb.unique k1 hj] at k2
    rw [h6]
    exact (h7 i).trans (if_pos ⟨State.mem_members.2 ⟨hi.1, hi.2.1, k2.symm⟩, hi.2.2⟩)
  have b : ∀ i, ¬ x.Subscribed c i → y.dest i = x.dest i := fun i hi => by
    rw [h6]
    exact (h7 i).trans (if_neg fun h => hi ⟨(State.mem_members.1 h.1).1, (State.mem_members.1 h.1).2.1, h.2⟩)
  refine ⟨a, b, fun i hi => ?_, fun i => by rw [h6]; exact (h2.tear h5 j).2 i⟩
  have hs : y.size = x.size := by rw [h6]; exact h1.size
  have hm : y.member = x.member := by rw [h6]; exact h4
  have := hi.2.2
  cases e : c.D.isClosed (x.dest i) with
  | false =>
    rw [a i ⟨hs ▸ hi.1, hm ▸ hi.2.1, e⟩, hD _ _ (by rcases hn with rfl | ⟨_, rfl⟩ <;> rfl)] at this
    exact absurd this (by decide)
  | true =>
    rw [b i (fun h => by rw [h.2.2] at e; exact absurd e (by decide)), e] at this
    exact absurd this (by decide)

/-- C46. If the connector is kept when the source is disconnected from, a value from the source is given to each subscriber,
once, and to nobody else, however often `share` has been disconnected and connected before, by the user, by the source, or because
the last subscriber left; unless it is reset. -/
theorem C46_kept_value (hD : Closes c.D) (ho : c.Fair) (hk : c.resetOnDisconnect = false) (hops : .reset ∉ ops)
    (h : (State.start s).run c ops = .ok x) {j : Nat} (hj : x.Open j) {v : I}
    (hy : x.step c (.emit j (.next v)) = .ok y) (i : Nat) :
    (x.Subscribed c i → y.dest i = c.D.next (x.dest i) v) ∧ (¬ x.Subscribed c i → y.dest i = x.dest i) := by
  obtain ⟨hb, hc, hr⟩ := State.run_spec hD ho State.Ready ops (State.start_spec (c := c) _).1 (State.start_spec _).2
    (fun i hi => absurd hi (Nat.not_lt_zero _))
    (fun hm hb hc hl h => State.step_ready hD ho hk (fun e => hops (e ▸ hm)) hb hc hl h) h
  have hl := hr.linked hb hj
  change (if j < x.sources then _ else _) = _ at hy
  rw [if_pos hj.1, State.emit_next hj.2] at hy
  have := (State.tell_spec ho hb hc hy).2.2.2.2 i
  refine ⟨fun hi => ?_, fun hi => ?_⟩
  · obtain ⟨j', h1, h2⟩ := hl i hi.1 (by rw [hc.live i hi.1, hi.2.1, hi.2.2]; rfl)
    rw [hb.unique h1 hj] at h2
    rw [this, if_pos ⟨State.mem_members.2 ⟨hi.1, hi.2.1, h2.symm⟩, hi.2.2⟩]
    rfl
  · rw [this, if_neg fun h => hi ⟨(State.mem_members.1 h.1).1, (State.mem_members.1 h.1).2.1, h.2⟩]

/-- C46. If the connector is dropped when the source is disconnected from, then whoever was subscribed by then hears nothing from
later connections, whatever happens, until they unsubscribe. The source is disconnected from by the connectable observable
(`unlink`), or a clone of `share`, or itself. -/
theorem C46_left_behind (hD : Closes c.D) (ho : c.Fair) (hk : c.resetOnDisconnect = true)
    (h : (State.start s).run c ops = .ok x) {j : Nat} (hj : x.Open j) {op : Op S I E}
    (hop : op = .unlink ∨ (∃ k, op = .disconnect k) ∨ op = .emit j .unsubscribe) (hy : x.step c op = .ok y)
    (hcut : ¬ y.Open j) {i : Nat} (hi : i < x.size) {ops' : List (Op S I E)} {z : State S I E} (hz : y.run c ops' = .ok z)
    (hn : .unsubscribe i ∉ ops') : z.dest i = x.dest i := by
  obtain ⟨hb, hc, -⟩ := State.run_spec hD ho (fun _ => True) ops (State.start_spec (c := c) _).1 (State.start_spec _).2 trivial
    (fun _ _ _ _ _ => trivial) h
  obtain ⟨kb, kc⟩ := State.step_spec hD ho hb hc hy
  have hp : y.Past i (x.dest i) := by
    rcases hop with rfl | ⟨k, rfl⟩ | rfl
    · rw [← Except.ok.inj hy]
      have e : x.connection = some j := by
        rcases hb.regs j hj with ⟨_, e⟩ | e
        · exact e
        · exact absurd e (by simp)
      have f := State.frame_disconnect (c := c) (x := x)
      refine ⟨f.size ▸ hi, ?_, by rw [State.counts_disconnect.2.2.2]⟩
      rw [State.disconnect_eq, e]
      show (State.unsubscribeSource c { x with connection := none } j).current ≠ _
      rw [State.cut_current (x := { x with connection := none }) hk hj.2]
      simp
    · rw [← Except.ok.inj hy] at hcut ⊢
      cases e : x.handle k with
      | none =>
        rw [State.shareDisconnect, e] at hcut
        exact absurd hj hcut
      | some j' =>
        rw [State.shareDisconnect, e] at hcut ⊢
        simp only [] at hcut ⊢
        have f := State.frame_unsubscribeSource (c := c) (x := { x with handle := set x.handle k none }) j'
        have n := State.counts_unsubscribeSource (c := c) (x := { x with handle := set x.handle k none }) j'
        refine ⟨by rw [f.size]; exact hi, ?_, by rw [n.2.2.2.1]⟩
        cases e' : x.isClosed j' with
        | false =>
          rw [State.cut_current (x := { x with handle := set x.handle k none }) hk e']
          simp
        | true =>
          rw [State.unsubscribeSource, if_pos (show State.isClosed { x with handle := set x.handle k none } j' = true from e')]
            at hcut
          exact absurd hj hcut
    · change (if j < x.sources then _ else _) = _ at hy
      rw [if_pos hj.1, State.emit_unsubscribe] at hy
      rw [← Except.ok.inj hy]
      have f := State.frame_unsubscribeSource (c := c) (x := x) j
      refine ⟨f.size ▸ hi, ?_, by rw [(State.counts_unsubscribeSource (c := c) (x := x) j).2.2.2.1]⟩
      rw [State.cut_current hk hj.2]
      simp
  exact (State.run_spec hD ho (State.Past i (x.dest i)) ops' kb kc hp
    (fun hm hb hc hp h => State.step_past hD ho (fun e => hn (e ▸ hm)) hb hc hp h) hz).2.2.dest

/-- C46. Nothing deadlocks, if asking a source's subscription whether it is closed never blocks, or nobody closes on a value. -/
theorem C46_no_deadlock (hf : c.Free) (ops : List (Op S I E)) : ∃ y, (State.start s).run c ops = .ok y :=
  State.run_total hf ops _

/-! Examples and counterexamples. A subscriber is whether it closes on the first value, whether it is closed, and what it got. -/

section Examples

abbrev Dst := Bool × Bool × List (SubscriberNotification Nat Nat)

def dst : Sub Dst Nat Nat where
  next d v := if d.2.1 then d else (d.1, d.1, d.2.2 ++ [.next v])
  error d e := if d.2.1 then d else (d.1, true, d.2.2 ++ [.error e])
  complete d := if d.2.1 then d else (d.1, true, d.2.2 ++ [.complete])
  unsubscribe d := if d.2.1 then d else (d.1, true, d.2.2 ++ [.unsubscribe])
  isClosed d := d.2.1
  addTeardown d _ := d

/-- Reference counting, with a source that gives `l` when it is subscribed to. -/
def cfg (resets : Bool) (l : List (SubscriberNotification Nat Nat) := []) (blocks : Bool := false) : Cfg Dst Nat Nat where
  D := dst
  ord := List.reverse
  refCount := true
  resetOnDisconnect := resets
  resetOnError := resets
  resetOnComplete := resets
  script _ := l
  blocks := blocks

def patient : Dst := (false, false, [])
def hasty : Dst := (true, false, [])

theorem closes_dst : Closes dst := fun s n hn => by
  obtain ⟨a, b, l⟩ := s
  cases n <;> first | exact absurd hn Bool.false_ne_true | (cases b <;> rfl)

theorem fair_cfg {r b : Bool} {l : List (SubscriberNotification Nat Nat)} : (cfg r l b).Fair := fun l => l.reverse_perm

def ops0 : List (Op Dst Nat Nat) :=
  [.subscribe 0 patient, .subscribe 1 hasty, .emit 0 (.next 1), .emit 0 (.next 2), .unsubscribe 0, .subscribe 0 patient,
   .emit 1 (.next 3)]

/-- Two subscribers, of which one closes on its first value; the other leaves; a new subscriber makes a new connection. -/
example : ∃ x, (State.start patient).run (cfg true) ops0 = .ok x ∧ x.sources = 2 ∧ x.Open 1 ∧ ¬ x.Open 0 ∧
    x.Subscribed (cfg true) 2 ∧ x.dest 0 = (false, true, [.next 1, .next 2, .unsubscribe]) ∧
    x.dest 1 = (true, true, [.next 1]) ∧ x.dest 2 = (false, false, [.next 3]) :=
  ⟨_, rfl, rfl, ⟨by decide, rfl⟩, fun h => absurd h.2 (by decide), ⟨by decide, rfl, rfl⟩, rfl, rfl, rfl⟩

example : (∀ op ∈ ops0, op.Plain) ∧ (∀ op ∈ ops0, op.Calm (cfg true)) ∧ (cfg true).Mild ∧ (cfg true).Free :=
  ⟨by simp [ops0, Op.Plain], by simp [ops0, Op.Calm, cfg, dst, patient, hasty, Cfg.resets], by simp [Cfg.Mild, cfg], .inl rfl⟩

/-- The last one left: nobody is subscribed, and nothing is open. -/
example : ∃ x, (State.start patient).run (cfg true) (ops0 ++ [.unsubscribe 2]) = .ok x ∧
    (∀ i, ¬ x.Subscribed (cfg true) i) ∧ x.connection = none :=
  ⟨_, rfl, fun i hi => by
    have : i < 3 := hi.1
    have e : i = 0 ∨ i = 1 ∨ i = 2 := by omega
    have h := hi.2.2
    rcases e with rfl | rfl | rfl <;> exact absurd h (by decide), rfl⟩

/-- Disconnected and connected again: with the connector kept, the subscriber hears what comes then. -/
example : ∃ x y, (State.start patient).run (cfg false) [.subscribe 0 patient, .emit 0 (.next 1), .unlink, .link] = .ok x ∧
    x.Open 1 ∧ x.Subscribed (cfg false) 0 ∧ x.step (cfg false) (.emit 1 (.next 2)) = .ok y ∧
    y.dest 0 = (false, false, [.next 1, .next 2]) ∧ (cfg false).resetOnDisconnect = false :=
  ⟨_, _, rfl, ⟨by decide, rfl⟩, ⟨by decide, rfl, rfl⟩, rfl, rfl, rfl⟩

/-- With the connector dropped, it does not, though it stays subscribed. -/
example : ∃ x y z, (State.start patient).run (cfg true) [.subscribe 0 patient, .emit 0 (.next 1)] = .ok x ∧ x.Open 0 ∧
    x.step (cfg true) .unlink = .ok y ∧ ¬ y.Open 0 ∧
    y.run (cfg true) [.subscribe 1 patient, .emit 1 (.next 2)] = .ok z ∧ z.Subscribed (cfg true) 0 ∧
    z.dest 0 = (false, false, [.next 1]) ∧ z.dest 1 = (false, false, [.next 2]) :=
  ⟨_, _, _, rfl, ⟨by decide, rfl⟩, rfl, fun h => absurd h.2 (by decide), rfl, ⟨by decide, rfl, rfl⟩, rfl, rfl⟩

/-- The source completes. -/
example : ∃ x, (State.start patient).run (cfg false) [.subscribe 0 patient, .emit 0 .complete] = .ok x ∧
    x.dest 0 = (false, true, [.complete]) ∧ x.isClosed 0 = true := ⟨_, rfl, rfl, rfl⟩

/-- C46 fails. After a round in which the source completed, and with a new connector, the source is not disconnected from when
the last subscriber leaves: that the source completed is not forgotten. -/
theorem C46_second_round : ∃ x, (State.start patient).run (cfg true)
      [.subscribe 0 patient, .emit 0 .complete, .subscribe 0 patient, .unsubscribe 1] = .ok x ∧
    (∀ i, ¬ x.Subscribed (cfg true) i) ∧ x.Open 1 :=
  ⟨_, rfl, fun i hi => by
    have : i < 2 := hi.1
    have e : i = 0 ∨ i = 1 := by omega
    have h := hi.2.2
    rcases e with rfl | rfl <;> exact absurd h (by decide), ⟨by decide, rfl⟩⟩

/-- C46 fails. The same, after a round in which the source failed. -/
theorem C46_second_round_error : ∃ x, (State.start patient).run (cfg true)
      [.subscribe 0 patient, .emit 0 (.error 7), .subscribe 0 patient, .unsubscribe 1] = .ok x ∧
    (∀ i, ¬ x.Subscribed (cfg true) i) ∧ x.Open 1 :=
  ⟨_, rfl, fun i hi => by
    have : i < 2 := hi.1
    have e : i = 0 ∨ i = 1 := by omega
    have h := hi.2.2
    rcases e with rfl | rfl <;> exact absurd h (by decide), ⟨by decide, rfl⟩⟩

/-- C46 fails. The same, after the connectable observable has been reset. -/
theorem C46_after_reset : ∃ x, (State.start patient).run (cfg false)
      [.attach patient, .link, .emit 0 .complete, .reset, .attach patient, .link, .unsubscribe 1] = .ok x ∧
    (∀ i, ¬ x.Subscribed (cfg false) i) ∧ x.Open 1 :=
  ⟨_, rfl, fun i hi => by
    have : i < 2 := hi.1
    have e : i = 0 ∨ i = 1 := by omega
    have h := hi.2.2
    rcases e with rfl | rfl <;> exact absurd h (by decide), ⟨by decide, rfl⟩⟩

/-- C46 fails. The only subscriber leaves while the source is being subscribed to: the source stays subscribed to. -/
theorem C46_left_while_connecting : ∃ x, (State.start patient).run (cfg true [.next 1]) [.subscribe 0 hasty] = .ok x ∧
    (∀ i, ¬ x.Subscribed (cfg true [.next 1]) i) ∧ x.Open 0 :=
  ⟨_, rfl, fun i hi => by
    have : i < 1 := hi.1
    have e : i = 0 := by omega
    have h := hi.2.2
    rcases e with rfl
    exact absurd h (by decide), ⟨by decide, rfl⟩⟩

/-- C46 fails. A subscriber that is closed when it subscribes makes `share` connect, and it stays connected. -/
theorem C46_closed_subscriber : ∃ x, (State.start patient).run (cfg true) [.subscribe 0 (false, true, [])] = .ok x ∧
    (∀ i, ¬ x.Subscribed (cfg true) i) ∧ x.Open 0 :=
  ⟨_, rfl, fun i hi => by
    have : i < 1 := hi.1
    have e : i = 0 := by omega
    have h := hi.2.2
    rcases e with rfl
    exact absurd h (by decide), ⟨by decide, rfl⟩⟩

/-- C46 fails. The source unsubscribes its subscriber: those of `share` stay subscribed, but nothing is connected. -/
theorem C46_source_unsubscribed : ∃ x, (State.start patient).run (cfg true)
      [.subscribe 0 patient, .emit 0 .unsubscribe] = .ok x ∧ x.Subscribed (cfg true) 0 ∧ x.sources = 1 ∧ ¬ x.Open 0 :=
  ⟨_, rfl, ⟨by decide, rfl, rfl⟩, rfl, fun h => absurd h.2 (by decide)⟩

/-- C46. If the only subscriber closes on a value that a source such as `PublishSubject` gives, that is a deadlock. -/
theorem C46_deadlock : (State.start patient).run (cfg true [] true) [.subscribe 0 hasty, .emit 0 (.next 1)] =
    .error .deadlock := rfl

/-- C46. After the source completed, if the connector is kept, each new subscriber makes `share` subscribe to the source again,
though nothing can come of it. -/
theorem C46_subscribed_again : ∃ x, (State.start patient).run (cfg false)
      [.subscribe 0 patient, .emit 0 .complete, .subscribe 0 patient, .subscribe 0 patient] = .ok x ∧ x.sources = 3 ∧
    (∀ j, j < 3 → x.isClosed j = true) ∧ x.dest 1 = (false, true, [.complete]) :=
  ⟨_, rfl, rfl, fun j hj => by
    have e : j = 0 ∨ j = 1 ∨ j = 2 := by omega
    rcases e with rfl | rfl | rfl <;> rfl, rfl⟩

end Examples

end Rx.Share.Props
