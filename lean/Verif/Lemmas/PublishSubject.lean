import Verif.Spec.PublishSubject

/-!
# Lemmas about the publish subject
-/

namespace Rx.Publish

variable {S I E : Type}

abbrev Note (I E : Type) := SubscriberNotification I E

/-- Up to the first closing notification. -/
def trunc : List (Note I E) → List (Note I E)
  | [] => []
  | n :: ns => if n.isClosing then [n] else n :: trunc ns

def hasClosing (ns : List (Note I E)) : Bool := ns.any (·.isClosing)

theorem trunc_append (a b : List (Note I E)) :
    trunc (a ++ b) = if hasClosing a then trunc a else a ++ trunc b := by
  induction a with
  | nil => simp [hasClosing]
  | cons n a ih =>
    simp only [List.cons_append, trunc, ih, hasClosing, List.any_cons]
    by_cases h : n.isClosing = true
    · simp [h]
    · simp only [h, Bool.false_eq_true, if_false, Bool.false_or]
      by_cases h' : (a.any fun x => x.isClosing) = true <;> simp [h']

theorem trunc_open {a : List (Note I E)} (h : hasClosing a = false) : trunc a = a := by
  have := trunc_append a []
  simpa [h, trunc] using this

theorem hasClosing_append (a b : List (Note I E)) :
    hasClosing (a ++ b) = (hasClosing a || hasClosing b) := by simp [hasClosing]

/-- What pending notifications will give subscriber `k`, and whether it is a member in the end. -/
def raw (k : Nat) : Bool → List (Deferred I E) → List (Note I E) × Bool
  | m, [] => ([], m)
  | m, .note n :: ds => ((if m then [n] else []) ++ (raw k m ds).1, (raw k m ds).2)
  | m, .cancel i :: ds =>
    if i = k then ((if m then [.unsubscribe] else []) ++ (raw k false ds).1, (raw k false ds).2)
    else raw k m ds
  | m, .add i :: ds => if i = k then raw k true ds else raw k m ds

theorem raw_append (k : Nat) (m : Bool) (a b : List (Deferred I E)) :
    raw k m (a ++ b) = ((raw k m a).1 ++ (raw k (raw k m a).2 b).1, (raw k (raw k m a).2 b).2) := by
  induction a generalizing m with
  | nil => simp [raw]
  | cons d a ih =>
    cases d with
    | note n => simp [raw, ih]
    | cancel i =>
      simp only [List.cons_append, raw]
      split <;> simp [ih]
    | add i =>
      simp only [List.cons_append, raw]
      split <;> simp [ih]

theorem raw_none (k : Nat) (ds : List (Deferred I E)) (h : .add k ∉ ds) : raw k false ds = ([], false) := by
  induction ds with
  | nil => rfl
  | cons d ds ih =>
    have h' : .add k ∉ ds := fun hm => h (List.mem_cons_of_mem _ hm)
    cases d with
    | note n => simp [raw, ih h']
    | cancel i => simp only [raw]; split <;> simp [ih h']
    | add i =>
      simp only [raw]
      split
      · rename_i hi; subst hi; exact absurd List.mem_cons_self h
      · exact ih h'

/-- Whether the pending notifications close the subject; `none` if something other than unsubscribing
follows the closing one. -/
def wfRun : Bool → List (Deferred I E) → Option Bool
  | c, [] => some c
  | true, .note .unsubscribe :: ds => wfRun true ds
  | true, .cancel _ :: ds => wfRun true ds
  | true, _ => none
  | false, d :: ds => wfRun (State.isClosing d) ds

theorem wfRun_append {c : Bool} {a b : List (Deferred I E)} :
    wfRun c (a ++ b) = (wfRun c a).bind fun c => wfRun c b := by
  induction a generalizing c with
  | nil => cases c <;> rfl
  | cons d a ih =>
    cases c with
    | false => simp [wfRun, ih]
    | true =>
      cases d with
      | note n => cases n <;> simp [wfRun, ih]
      | cancel i => simp [wfRun, ih]
      | add i => simp [wfRun]

theorem wfRun_true {ds : List (Deferred I E)} {b : Bool} (h : wfRun true ds = some b) :
    b = true ∧ ∀ d ∈ ds, d = .note .unsubscribe ∨ ∃ i, d = .cancel i := by
  induction ds with
  | nil => simp [wfRun] at h; subst h; simp
  | cons d ds ih =>
    cases d with
    | note n =>
      cases n <;> simp [wfRun] at h
      obtain ⟨h1, h2⟩ := ih h
      refine ⟨h1, fun d hd => ?_⟩
      rcases List.mem_cons.1 hd with rfl | hd
      · exact .inl rfl
      · exact h2 d hd
    | cancel i =>
      simp [wfRun] at h
      obtain ⟨h1, h2⟩ := ih h
      refine ⟨h1, fun d hd => ?_⟩
      rcases List.mem_cons.1 hd with rfl | hd
      · exact .inr ⟨i, rfl⟩
      · exact h2 d hd
    | add i => simp [wfRun] at h

/-! ## The view -/

theorem view_snoc (k : Nat) (calls : List (Call I E)) (c : Call I E) :
    view k (calls ++ [c]) = (view k calls).step k c := by simp [view]

theorem View.step_out (k : Nat) (e : View I E) (c : Call I E) : ∃ t, (e.step k c).out = e.out ++ t := by
  cases c with
  | note n =>
    simp only [View.step]
    split
    · exact ⟨[], by simp⟩
    · simp only
      split
      · exact ⟨_, rfl⟩
      · exact ⟨[], by simp⟩
  | subscribe i =>
    simp only [View.step]
    split
    · exact ⟨[], by simp⟩
    · split
      · exact ⟨[], by simp⟩
      · exact ⟨_, rfl⟩
  | cancel i =>
    simp only [View.step]
    split
    · exact ⟨_, rfl⟩
    · exact ⟨[], by simp⟩

theorem expected_mono (k : Nat) (calls : List (Call I E)) (c : Call I E) :
    expected k calls <+: expected k (calls ++ [c]) := by
  obtain ⟨t, ht⟩ := View.step_out k (view k calls) c
  exact ⟨t, by rw [expected, expected, view_snoc, ht]⟩

/-! ## The invariant -/

/-- How the subject ended. -/
def reason (x : State S I E) : Option (Note I E) :=
  match x.observedError with
  | some e => some (.error e)
  | none => if x.completed then some .complete else if x.unsubscribed then some .unsubscribe else none

/-- How things stand with an open subscriber `k`: `v` is its view, `rcv` what it was given, `u` what it is
about to be given in the round going on, `m` whether it is a member, `P` what is pending. -/
structure Per (k : Nat) (closed : Bool) (v : View I E) (rcv u : List (Note I E)) (m : Bool)
    (P : List (Deferred I E)) (held : Bool) : Prop where
  out : v.out = rcv ++ trunc (u ++ (raw k m P).1)
  mem : closed = false → v.member = (raw k m P).2
  memOpen : closed = false → v.member = true → hasClosing (u ++ (raw k m P).1) = false
  sealed : closed = true → hasClosing (u ++ (raw k m P).1) = true ∨ (raw k m P).2 = false
  taken : closed = false → held = false → v.member = false

namespace Per
variable {k : Nat} {closed : Bool} {v : View I E} {rcv u : List (Note I E)} {m : Bool}
  {P : List (Deferred I E)} {held : Bool}

/-- Appending to what is pending. -/
theorem snoc_note (h : Per k false v rcv u m P held) (hv : v.ended = none) (n : Note I E) :
    Per k n.isClosing (v.step k (.note n)) rcv u m (P ++ [.note n]) held := by
  have hm := h.mem rfl
  have hraw : raw k m (P ++ [.note n]) =
      ((raw k m P).1 ++ (if v.member then [n] else []), v.member) := by
    rw [raw_append, hm]; simp [raw]
  have hstep : v.step k (.note n) = { v with
      ended := if n.isClosing then some n else none
      out := if v.member then v.out ++ [n] else v.out } := by simp [View.step, hv]
  rw [hstep]
  cases hmem : v.member with
  | false =>
    rw [hmem] at hraw
    simp only [Bool.false_eq_true, if_false, List.append_nil] at hraw
    refine ⟨?_, fun _ => ?_, fun _ hx => (by cases hx), fun _ => .inr ?_, fun _ _ => rfl⟩
    · rw [hraw]; exact h.out
    · rw [hraw]
    · rw [hraw]
  | true =>
    have ho := h.memOpen rfl hmem
    rw [hmem] at hraw
    simp only [if_true] at hraw
    refine ⟨?_, fun _ => ?_, fun hc _ => ?_, fun hc => .inl ?_, fun _ hh => ?_⟩
    · rw [hraw]
      simp only [if_true]
      rw [← List.append_assoc, trunc_append, ho, h.out, trunc_open ho]
      by_cases hn : n.isClosing = true <;> simp [trunc, hn]
    · rw [hraw]
    · rw [hraw, ← List.append_assoc, hasClosing_append, ho]; simp [hasClosing, hc]
    · rw [hraw, ← List.append_assoc, hasClosing_append]; simp [hasClosing, hc]
    · have := h.taken rfl hh; rw [hmem] at this; cases this

theorem snoc_closed (h : Per k true v rcv u m P held) {d : Deferred I E} {held' : Bool}
    (hd : d = .note .unsubscribe ∨ ∃ i, d = .cancel i) : Per k true v rcv u m (P ++ [d]) held' := by
  have hraw : ∃ t, raw k m (P ++ [d]) = ((raw k m P).1 ++ t, (raw k (raw k m P).2 [d]).2) ∧
      ((raw k m P).2 = false → t = []) ∧ ((raw k m P).2 = false → (raw k (raw k m P).2 [d]).2 = false) := by
    refine ⟨(raw k (raw k m P).2 [d]).1, raw_append .., fun hf => ?_, fun hf => ?_⟩
    all_goals
      rw [hf, raw_none]
      rcases hd with rfl | ⟨i, rfl⟩ <;> simp
  obtain ⟨t, ht, h1, h2⟩ := hraw
  refine ⟨?_, fun hc => (by cases hc), fun hc => (by cases hc), fun _ => ?_, fun hc => (by cases hc)⟩
  · rw [ht, ← List.append_assoc, trunc_append]
    rcases h.sealed rfl with hs | hs
    · rw [hs]; simp only [if_true]; exact h.out
    · rw [h1 hs]
      have := h.out
      split
      · exact this
      · rename_i hc
        rw [this]
        rw [trunc_open (by simpa using hc)]
        simp [trunc]
  · rw [ht]
    simp only
    rcases h.sealed rfl with hs | hs
    · exact .inl (by rw [← List.append_assoc, hasClosing_append, hs]; rfl)
    · exact .inr (h2 hs)

theorem snoc_add_other (h : Per k false v rcv u m P held) {i : Nat} (hi : i ≠ k) :
    Per k false v rcv u m (P ++ [.add i]) held := by
  have : raw k m (P ++ [.add i]) = raw k m P := by
    rw [raw_append]; simp [raw, hi]
  refine ⟨?_, ?_, ?_, ?_, h.taken⟩ <;> rw [this]
  · exact h.out
  · exact h.mem
  · exact h.memOpen
  · exact h.sealed

theorem snoc_cancel (h : Per k false v rcv u m P held) (hv : v.ended = none) (i : Nat) :
    Per k false (v.step k (.cancel i)) rcv u m (P ++ [.cancel i]) (if i = k then false else held) := by
  have hm := h.mem rfl
  by_cases hi : i = k
  · have hraw : raw k m (P ++ [.cancel i]) =
        ((raw k m P).1 ++ (if v.member then [.unsubscribe] else []), false) := by
      rw [raw_append, hm]; simp [raw, hi]
    cases hmem : v.member with
    | false =>
      have hs : v.step k (.cancel i) = v := by simp [View.step, hmem]
      rw [hs]
      rw [hmem] at hraw
      simp only [Bool.false_eq_true, if_false, List.append_nil] at hraw
      refine ⟨?_, fun _ => ?_, fun _ hx => ?_, fun hc => (by cases hc), fun _ _ => hmem⟩
      · rw [hraw]; exact h.out
      · rw [hraw]; exact hmem
      · rw [hmem] at hx; cases hx
    | true =>
      have ho := h.memOpen rfl hmem
      have hs : v.step k (.cancel i) = { v with member := false, out := v.out ++ [.unsubscribe] } := by
        simp [View.step, hmem, hi, hv]
      rw [hs]
      rw [hmem] at hraw
      simp only [if_true] at hraw
      refine ⟨?_, fun _ => ?_, fun _ hx => (by cases hx), fun hc => (by cases hc), fun _ _ => rfl⟩
      · rw [hraw]
        simp only
        rw [← List.append_assoc, trunc_append, ho, h.out, trunc_open ho]
        simp [trunc, SubscriberNotification.isClosing]
      · rw [hraw]
  · have hraw : raw k m (P ++ [.cancel i]) = raw k m P := by rw [raw_append]; simp [raw, hi]
    have hs : v.step k (.cancel i) = v := by simp [View.step, hi]
    rw [hs, if_neg hi]
    refine ⟨?_, ?_, ?_, ?_, h.taken⟩ <;> rw [hraw]
    · exact h.out
    · exact h.mem
    · exact h.memOpen
    · exact h.sealed

theorem held_false (h : Per k closed v rcv u m P held) (hm : closed = false → v.member = false) :
    Per k closed v rcv u m P false :=
  ⟨h.out, h.mem, h.memOpen, h.sealed, fun hc _ => hm hc⟩

/-- A notification is taken from the queue. -/
theorem pop_note {n : Note I E} (h : Per k closed v rcv [] m (.note n :: P) held) :
    Per k closed v rcv (if m then [n] else []) m P held := by
  have h1 : ([] : List (Note I E)) ++ (raw k m (.note n :: P)).1 =
      (if m then [n] else []) ++ (raw k m P).1 := by simp [raw]
  have h2 : (raw k m (.note n :: P)).2 = (raw k m P).2 := by simp [raw]
  refine ⟨?_, ?_, ?_, ?_, h.taken⟩
  · rw [← h1]; exact h.out
  · rw [← h2]; exact h.mem
  · rw [← h1]; exact h.memOpen
  · rw [← h1, ← h2]; exact h.sealed

theorem pop_cancel {i : Nat} (h : Per k closed v rcv [] m (.cancel i :: P) held) :
    Per k closed v rcv (if i = k ∧ m = true then [.unsubscribe] else []) (m && decide (i ≠ k)) P held := by
  have h1 : ([] : List (Note I E)) ++ (raw k m (.cancel i :: P)).1 =
      (if i = k ∧ m = true then [.unsubscribe] else []) ++ (raw k (m && decide (i ≠ k)) P).1 := by
    by_cases hi : i = k <;> cases m <;> simp [raw, hi]
  have h2 : (raw k m (.cancel i :: P)).2 = (raw k (m && decide (i ≠ k)) P).2 := by
    by_cases hi : i = k <;> cases m <;> simp [raw, hi]
  refine ⟨?_, ?_, ?_, ?_, h.taken⟩
  · rw [← h1]; exact h.out
  · rw [← h2]; exact h.mem
  · rw [← h1]; exact h.memOpen
  · rw [← h1, ← h2]; exact h.sealed

theorem pop_add {i : Nat} (h : Per k closed v rcv [] m (.add i :: P) held) :
    Per k closed v rcv [] (m || decide (i = k)) P held := by
  have h1 : raw k m (.add i :: P) = raw k (m || decide (i = k)) P := by
    by_cases hi : i = k <;> cases m <;> simp [raw, hi]
  refine ⟨?_, ?_, ?_, ?_, h.taken⟩
  · rw [← h1]; exact h.out
  · rw [← h1]; exact h.mem
  · rw [← h1]; exact h.memOpen
  · rw [← h1]; exact h.sealed

/-- A value is given. -/
theorem deliver {n : Note I E} (h : Per k closed v rcv [n] m P held) (hn : n.isClosing = false) :
    Per k closed v (rcv ++ [n]) [] m P held := by
  have h1 : hasClosing ([n] ++ (raw k m P).1) = hasClosing ([] ++ (raw k m P).1) := by
    simp [hasClosing, hn]
  refine ⟨?_, h.mem, ?_, ?_, h.taken⟩
  · rw [h.out]; simp [trunc, hn]
  · rw [← h1]; exact h.memOpen
  · rw [← h1]; exact h.sealed

/-- The members are dropped while they are about to be given a closing notification. -/
theorem drop_member {n : Note I E} (h : Per k closed v rcv [n] m P held) (hn : n.isClosing = true)
    (hc : closed = true) : Per k closed v rcv [n] false P held := by
  subst hc
  refine ⟨?_, fun hc => (by cases hc), fun hc => (by cases hc), fun _ => .inl ?_, fun hc => (by cases hc)⟩
  · rw [h.out]; simp [trunc, hn]
  · simp [hasClosing, hn]

end Per

/-- `c0`: a closing notification was or is being served. `dead`: subscribers not to bother about.
`u`: what subscribers are about to be given in the round that is going on. `ns`: taken from the queue. -/
structure Inv (R : Dest S I E) (x : State S I E) (c0 : Bool) (dead : Nat → Prop)
    (u : Nat → List (Note I E)) (ns : List (Deferred I E)) : Prop where
  wf : wfRun c0 (ns ++ x.queue.map (·.2)) = some x.isClosed
  flag : x.closedFlag = true → (reason x).isSome = true
  ended : ∀ k, (view k x.calls).ended = reason x
  pre : ∀ k, received k x <+: expected k x.calls
  per : ∀ k, k < x.count → R.isClosed (x.dest k) = false → ¬ dead k →
    Per k x.isClosed (view k x.calls) (received k x) (u k) (decide (k ∈ x.members))
      (ns ++ x.queue.map (·.2)) (x.held k)
  fresh : ∀ k, x.count ≤ k → received k x = [] ∧ (view k x.calls).member = false ∧
    (view k x.calls).out = [] ∧ k ∉ x.members ∧ x.held k = false ∧ u k = [] ∧
    .add k ∉ ns ++ x.queue.map (·.2)
  about : c0 = true → ∀ k ∈ x.members, R.isClosed (x.dest k) = false → ¬ dead k → u k ≠ []
  nodup : x.members.Nodup
  grammar : ∀ k, trunc (received k x) = received k x
  unended : ∀ k, R.isClosed (x.dest k) = false → ¬ dead k → hasClosing (received k x) = false

theorem isClosed_eq {R : Dest S I E} {x : State S I E} {c0 dead u ns} (h : Inv R x c0 dead u ns) :
    x.isClosed = (reason x).isSome := by
  have hf := h.flag
  unfold State.isClosed
  cases hcf : x.closedFlag with
  | true => rw [hf hcf]; rfl
  | false =>
    unfold reason
    cases x.observedError with
    | some e => simp
    | none => cases x.completed <;> cases x.unsubscribed <;> rfl

theorem received_log (k : Nat) (x : State S I E) (c j : Nat) (n : Note I E) :
    received k { x with log := x.log ++ [(c, j, n)] } = received k x ++ if j = k then [n] else [] := by
  simp only [received, List.filterMap_append]
  congr 1
  by_cases h : j = k <;> simp [h]

/-! ## Calls while locked -/

section Locked
variable {R : Dest S I E} {x : State S I E} {c0 : Bool} {dead : Nat → Prop} {u : Nat → List (Note I E)}
  {ns : List (Deferred I E)}

theorem expected_snoc_pre {k : Nat} {rcv : List (Note I E)} {calls : List (Call I E)} (c : Call I E)
    (h : rcv <+: expected k calls) : rcv <+: expected k (calls ++ [c]) :=
  h.trans (expected_mono k calls c)

theorem view_ended_note {k : Nat} {calls : List (Call I E)} {n : Note I E}
    (h : (view k calls).ended.isSome = true) : view k (calls ++ [.note n]) = view k calls := by
  rw [view_snoc]; simp [View.step, h]

theorem view_ended_cancel {k i : Nat} {calls : List (Call I E)}
    (h : (view k calls).ended.isSome = true) : view k (calls ++ [.cancel i]) = view k calls := by
  rw [view_snoc]
  simp only [View.step]
  rw [if_neg]
  rintro ⟨-, -, hn⟩
  rw [hn] at h
  cases h

/-- A call without effect. -/
theorem Inv.record (h : Inv R x c0 dead u ns) {c : Call I E}
    (hv : ∀ k, view k (x.calls ++ [c]) = view k x.calls) : Inv R (x.record c) c0 dead u ns where
  wf := h.wf
  flag := h.flag
  ended k := (congrArg View.ended (hv k)).trans (h.ended k)
  pre k := expected_snoc_pre c (h.pre k)
  per k hk ho hd := by
    show Per k x.isClosed (view k (x.calls ++ [c])) _ _ _ _ _
    rw [hv k]; exact h.per k hk ho hd
  fresh k hk := by
    show _ ∧ (view k (x.calls ++ [c])).member = false ∧ (view k (x.calls ++ [c])).out = [] ∧ _
    rw [hv k]; exact h.fresh k hk
  about := h.about
  nodup := h.nodup
  grammar := h.grammar
  unended := h.unended

theorem Inv.ended_some (h : Inv R x c0 dead u ns) (hc : x.isClosed = true) (k : Nat) :
    (view k x.calls).ended.isSome = true := by
  rw [h.ended k, ← isClosed_eq h]; exact hc

theorem Inv.ended_none (h : Inv R x c0 dead u ns) (hc : x.isClosed = false) (k : Nat) :
    (view k x.calls).ended = none := by
  have := isClosed_eq h
  rw [hc] at this
  rw [h.ended k]
  cases hr : reason x with
  | none => rfl
  | some n => rw [hr] at this; cases this

/-- An open subject accepts a notification. -/
theorem Inv.accept (h : Inv R x c0 dead u ns) (hc : x.isClosed = false) (n : Note I E) (q : Nat)
    (x' : State S I E) (hq : x'.queue = x.queue ++ [(q, .note n)]) (hcalls : x'.calls = x.calls ++ [.note n])
    (hlog : x'.log = x.log) (hdest : x'.dest = x.dest) (hm : x'.members = x.members)
    (hcount : x'.count = x.count) (hheld : x'.held = x.held)
    (hflag : x'.closedFlag = false) (hr : reason x' = if n.isClosing then some n else none)
    (hcl : x'.isClosed = n.isClosing) : Inv R x' c0 dead u ns := by
  have hrec : ∀ k, received k x' = received k x := fun k => by simp only [received, hlog]
  have hP : ns ++ x'.queue.map (·.2) = ns ++ x.queue.map (·.2) ++ [.note n] := by rw [hq]; simp
  refine ⟨?_, fun hf => ?_, fun k => ?_, fun k => ?_, fun k hk ho hd => ?_, fun k hk => ?_,
    fun hc0 => ?_, ?_, fun k => ?_, fun k ho hd => ?_⟩
  · rw [hP, wfRun_append, h.wf, hc, hcl]
    simp [wfRun, State.isClosing]
  · rw [hflag] at hf; cases hf
  · rw [hcalls, view_snoc, hr]; simp [View.step, h.ended_none hc k]
  · rw [hrec, hcalls]; exact expected_snoc_pre _ (h.pre k)
  · rw [hP, hrec, hm, hheld, hcalls, view_snoc, hcl]
    rw [hcount] at hk
    rw [hdest] at ho
    have := h.per k hk ho hd
    rw [hc] at this
    exact this.snoc_note (h.ended_none hc k) n
  · rw [hcount] at hk
    obtain ⟨h1, h2, h3, h4, h5, h6, h7⟩ := h.fresh k hk
    rw [hP, hrec, hm, hheld, hcalls, view_snoc]
    simp only [View.step, h.ended_none hc k, h2]
    exact ⟨h1, by simp, by simp [h3], h4, h5, h6, by simpa using h7⟩
  · rw [hm, hdest]; exact h.about hc0
  · rw [hm]; exact h.nodup
  · rw [hrec]; exact h.grammar k
  · rw [hrec]; rw [hdest] at ho; exact h.unended k ho (by assumption)

/-- A closed subject is unsubscribed. -/
theorem Inv.late (h : Inv R x c0 dead u ns) (hc : x.isClosed = true) {c : Call I E}
    (hv : ∀ k, view k (x.calls ++ [c]) = view k x.calls)
    {d : Deferred I E} (hd : d = .note .unsubscribe ∨ ∃ i, d = .cancel i)
    (x' : State S I E) (hq : x'.queue = x.queue ∨ ∃ q, x'.queue = x.queue ++ [(q, d)])
    (hcalls : x'.calls = x.calls ++ [c])
    (hlog : x'.log = x.log) (hdest : x'.dest = x.dest) (hm : x'.members = x.members)
    (hcount : x'.count = x.count) (hheld : ∀ k, x.held k = false → x'.held k = false)
    (hr : reason x' = reason x)
    (hcl : x'.isClosed = true) : Inv R x' c0 dead u ns := by
  have hrec : ∀ k, received k x' = received k x := fun k => by simp only [received, hlog]
  have hP : ns ++ x'.queue.map (·.2) = ns ++ x.queue.map (·.2) ∨
      ns ++ x'.queue.map (·.2) = ns ++ x.queue.map (·.2) ++ [d] := by
    rcases hq with hq | ⟨q, hq⟩ <;> rw [hq] <;> simp
  have hrs : (reason x).isSome = true := by rw [← isClosed_eq h]; exact hc
  refine ⟨?_, fun hf => by rw [hr]; exact hrs, fun k => ?_, fun k => ?_, fun k hk ho hd' => ?_, fun k hk => ?_,
    fun hc0 => ?_, ?_, fun k => ?_, fun k ho hd => ?_⟩
  · rcases hP with hP | hP
    · rw [hP, h.wf, hc, hcl]
    · rw [hP, wfRun_append, h.wf, hc, hcl]
      rcases hd with rfl | ⟨i, rfl⟩ <;> rfl
  · rw [hcalls, hv, hr]; exact h.ended k
  · rw [hrec, hcalls]; exact expected_snoc_pre _ (h.pre k)
  · rw [hcount] at hk
    rw [hdest] at ho
    have := h.per k hk ho hd'
    rw [hc] at this
    rw [hrec, hm, hcalls, hv, hcl]
    rcases hP with hP | hP
    · rw [hP]
      exact ⟨this.out, fun hc => (by cases hc), fun hc => (by cases hc), this.sealed, fun hc => by cases hc⟩
    · rw [hP]; exact this.snoc_closed hd
  · rw [hcount] at hk
    obtain ⟨h1, h2, h3, h4, h5, h6, h7⟩ := h.fresh k hk
    rw [hrec, hm, hcalls, hv]
    refine ⟨h1, h2, h3, h4, hheld k h5, h6, ?_⟩
    rcases hP with hP | hP
    · rw [hP]; exact h7
    · rw [hP]
      intro hmem
      rcases List.mem_append.1 hmem with hmem | hmem
      · exact h7 hmem
      · rcases hd with rfl | ⟨i, rfl⟩ <;> simp at hmem
  · rw [hm, hdest]; exact h.about hc0
  · rw [hm]; exact h.nodup
  · rw [hrec]; exact h.grammar k
  · rw [hrec]; rw [hdest] at ho; exact h.unended k ho (by assumption)

theorem isClosed_false_iff (x : State S I E) : x.isClosed = false ↔
    x.closedFlag = false ∧ x.completed = false ∧ x.unsubscribed = false ∧ x.observedError = none := by
  unfold State.isClosed
  cases x.closedFlag <;> cases x.completed <;> cases x.unsubscribed <;> cases x.observedError <;> simp

theorem Inv.noteLocked (h : Inv R x c0 dead u ns) (n : Note I E) :
    Inv R (x.noteLocked n) c0 dead u ns := by
  cases hc : x.isClosed with
  | false =>
    obtain ⟨h1, h2, h3, h4⟩ := (isClosed_false_iff x).1 hc
    have hc' : (x.record (.note n)).isClosed = false := hc
    have h1' : (x.record (.note n)).closedFlag = false := h1
    cases n with
    | next v =>
      refine h.accept hc (.next v) (x.record (.note (.next v))).now _ ?_ ?_ ?_ ?_ ?_ ?_ ?_ ?_ ?_ ?_
      all_goals simp only [State.noteLocked, hc', State.defer, h1', Bool.false_eq_true, if_false]
      all_goals first | rfl | skip
      · simp [reason, State.record, h2, h3, h4, SubscriberNotification.isClosing,
          SubscriberNotification.isTerminal]
      · simp [State.isClosed, State.record, h1, h2, h3, h4, SubscriberNotification.isClosing,
          SubscriberNotification.isTerminal]
    | error e =>
      refine h.accept hc (.error e) (x.record (.note (.error e))).now _ ?_ ?_ ?_ ?_ ?_ ?_ ?_ ?_ ?_ ?_
      all_goals simp only [State.noteLocked, hc', State.defer, h1', Bool.false_eq_true, if_false]
      all_goals first | rfl | skip
      · simp [State.isClosed, State.record, h1, h2, h3, SubscriberNotification.isClosing,
          SubscriberNotification.isTerminal]
    | complete =>
      refine h.accept hc .complete (x.record (.note .complete)).now _ ?_ ?_ ?_ ?_ ?_ ?_ ?_ ?_ ?_ ?_
      all_goals simp only [State.noteLocked, hc', State.defer, h1', Bool.false_eq_true, if_false]
      all_goals first | rfl | skip
      · simp [reason, State.record, h4, SubscriberNotification.isClosing,
          SubscriberNotification.isTerminal]
    | unsubscribe =>
      have h3' : (x.record (.note .unsubscribe)).unsubscribed = false := h3
      refine h.accept hc .unsubscribe (x.record (.note .unsubscribe)).now _ ?_ ?_ ?_ ?_ ?_ ?_ ?_ ?_ ?_ ?_
      all_goals simp only [State.noteLocked, State.defer, h1', h3', Bool.false_eq_true, if_false]
      all_goals first | rfl | skip
      · simp [reason, State.record, h2, h4, SubscriberNotification.isClosing,
          SubscriberNotification.isTerminal]
      · simp [State.isClosed, State.record, SubscriberNotification.isClosing,
          SubscriberNotification.isTerminal]
  | true =>
    have hv : ∀ k, view k (x.calls ++ [.note n]) = view k x.calls := fun k =>
      view_ended_note (h.ended_some hc k)
    have hc' : (x.record (.note n)).isClosed = true := hc
    have hrec := h.record (c := .note n) hv
    cases n with
    | next v => simp only [State.noteLocked, hc', if_true]; exact hrec
    | error e => simp only [State.noteLocked, hc', if_true]; exact hrec
    | complete => simp only [State.noteLocked, hc', if_true]; exact hrec
    | unsubscribe =>
      simp only [State.noteLocked]
      cases hu : x.unsubscribed with
      | true =>
        rw [show (x.record (.note .unsubscribe)).unsubscribed = true from hu]
        simp only [if_true]; exact hrec
      | false =>
        rw [show (x.record (.note .unsubscribe)).unsubscribed = false from hu]
        simp only [Bool.false_eq_true, if_false]
        have hr : ∀ q, reason { (x.record (.note .unsubscribe)) with unsubscribed := true, queue := q } =
            reason x := by
          intro q
          have := isClosed_eq h
          rw [hc] at this
          unfold reason at this ⊢
          simp only [State.record]
          cases hoe : x.observedError with
          | some e => rfl
          | none =>
            rw [hoe] at this
            cases hco : x.completed with
            | true => rfl
            | false => rw [hco, hu] at this; cases this
        refine h.late hc hv (.inl rfl) _ ?_ ?_ ?_ ?_ ?_ ?_ ?_ ?_ ?_
        all_goals
          simp only [State.defer]
          split
        all_goals first | rfl | skip
        · exact .inl rfl
        · exact .inr ⟨_, rfl⟩
        · exact fun _ h => h
        · exact fun _ h => h
        · exact hr _
        · exact hr _
        all_goals simp [State.isClosed, State.record]

theorem View.step_ended_cancel (k i : Nat) (v : View I E) : (v.step k (.cancel i)).ended = v.ended := by
  simp only [View.step]; split <;> rfl

theorem view_cancel_absent {k i : Nat} {calls : List (Call I E)}
    (h : i = k → (view k calls).ended = none → (view k calls).member = false) :
    view k (calls ++ [.cancel i]) = view k calls := by
  rw [view_snoc]
  simp only [View.step]
  rw [if_neg]
  rintro ⟨h1, h2, h3⟩
  rw [h h1 h3] at h2
  cases h2

/-- Cancelling what is not subscribed, or closed. -/
theorem Inv.cancelIdle (h : Inv R x c0 dead u ns) (i : Nat)
    (hi : x.held i = false ∨ (R.isClosed (x.dest i) = true ∨ dead i)) :
    Inv R { (x.record (.cancel i)) with held := fun k => if k = i then false else x.held k } c0 dead u ns := by
  have hend : ∀ k, (view k (x.calls ++ [.cancel i])).ended = (view k x.calls).ended := fun k => by
    rw [view_snoc, View.step_ended_cancel]
  have hclosed : ∀ k, x.isClosed = true → view k (x.calls ++ [.cancel i]) = view k x.calls :=
    fun k hc => view_ended_cancel (h.ended_some hc k)
  refine ⟨h.wf, h.flag, fun k => (hend k).trans (h.ended k), fun k => expected_snoc_pre _ (h.pre k),
    fun k hk ho hd => ?_, fun k hk => ?_, h.about, h.nodup, h.grammar, h.unended⟩
  · show Per k x.isClosed (view k (x.calls ++ [.cancel i])) (received k x) (u k) (decide (k ∈ x.members))
      (ns ++ x.queue.map (·.2)) (if k = i then false else x.held k)
    have hp := h.per k hk ho hd
    have hm : k = i → x.isClosed = false → (view k x.calls).member = false := by
      rintro rfl hc
      rcases hi with hi | hi | hi
      · exact hp.taken hc hi
      · rw [show R.isClosed (x.dest k) = false from ho] at hi; cases hi
      · exact absurd hi hd
    have hv : view k (x.calls ++ [.cancel i]) = view k x.calls := by
      cases hc : x.isClosed with
      | true => exact hclosed k hc
      | false => exact view_cancel_absent fun hi _ => hm hi.symm hc
    rw [hv]
    split
    · rename_i hki
      exact hp.held_false (hm hki)
    · exact hp
  · obtain ⟨h1, h2, h3, h4, h5, h6, h7⟩ := h.fresh k hk
    show received k x = [] ∧ (view k (x.calls ++ [.cancel i])).member = false ∧
      (view k (x.calls ++ [.cancel i])).out = [] ∧ k ∉ x.members ∧
      (if k = i then false else x.held k) = false ∧ u k = [] ∧ .add k ∉ ns ++ x.queue.map (·.2)
    rw [view_cancel_absent fun _ _ => h2]
    exact ⟨h1, h2, h3, h4, by simp [h5], h6, h7⟩

/-- An open subject accepts a cancellation. -/
theorem Inv.cancelOpen (h : Inv R x c0 dead u ns) (hc : x.isClosed = false) (i q : Nat) :
    Inv R { (x.record (.cancel i)) with
      queue := x.queue ++ [(q, .cancel i)]
      held := fun k => if k = i then false else x.held k } c0 dead u ns := by
  have hP : ns ++ (x.queue ++ [(q, Deferred.cancel i)] : List (Nat × Deferred I E)).map (·.2) =
      ns ++ x.queue.map (·.2) ++ [.cancel i] := by simp
  refine ⟨?_, h.flag, fun k => ?_, fun k => expected_snoc_pre _ (h.pre k), fun k hk ho hd => ?_,
    fun k hk => ?_, h.about, h.nodup, h.grammar, h.unended⟩
  · show wfRun c0 (ns ++ (x.queue ++ [(q, Deferred.cancel i)] : List (Nat × Deferred I E)).map (·.2)) = some x.isClosed
    rw [hP, wfRun_append, h.wf, hc]
    rfl
  · show (view k (x.calls ++ [.cancel i])).ended = reason x
    rw [view_snoc, View.step_ended_cancel]; exact h.ended k
  · show Per k x.isClosed (view k (x.calls ++ [.cancel i])) (received k x) (u k) (decide (k ∈ x.members))
      (ns ++ (x.queue ++ [(q, Deferred.cancel i)] : List (Nat × Deferred I E)).map (·.2)) (if k = i then false else x.held k)
    rw [hP, view_snoc, hc]
    have hp := h.per k hk ho hd
    rw [hc] at hp
    have := hp.snoc_cancel (h.ended_none hc k) i
    simpa [eq_comm] using this
  · obtain ⟨h1, h2, h3, h4, h5, h6, h7⟩ := h.fresh k hk
    show received k x = [] ∧ (view k (x.calls ++ [.cancel i])).member = false ∧
      (view k (x.calls ++ [.cancel i])).out = [] ∧ k ∉ x.members ∧
      (if k = i then false else x.held k) = false ∧ u k = [] ∧
      .add k ∉ ns ++ (x.queue ++ [(q, Deferred.cancel i)] : List (Nat × Deferred I E)).map (·.2)
    rw [view_cancel_absent fun _ _ => h2, hP]
    exact ⟨h1, h2, h3, h4, by simp [h5], h6, by simpa using h7⟩

theorem Inv.cancelClosed (h : Inv R x c0 dead u ns) (hc : x.isClosed = true) (i q : Nat) :
    Inv R { (x.record (.cancel i)) with
      queue := x.queue ++ [(q, .cancel i)]
      held := fun k => if k = i then false else x.held k } c0 dead u ns := by
  refine h.late hc (c := .cancel i) (fun k => view_ended_cancel (h.ended_some hc k)) (.inr ⟨i, rfl⟩) _
    (.inr ⟨q, rfl⟩) rfl rfl rfl rfl rfl (fun k hk => ?_) rfl hc
  show (if k = i then false else x.held k) = false
  simp [hk]

theorem Inv.cancelLocked (h : Inv R x c0 dead u ns) (j i : Nat) :
    Inv R (x.cancelLocked R j i) c0 dead u ns := by
  unfold State.cancelLocked
  simp only
  by_cases hi : (!(x.record (.cancel i)).held i || (i != j && R.isClosed ((x.record (.cancel i)).dest i))) = true
  · rw [if_pos hi]
    refine h.cancelIdle i ?_
    rcases Bool.or_eq_true _ _ ▸ hi with h1 | h1
    · exact .inl (show x.held i = false by simpa [State.record] using h1)
    · exact .inr (.inl (show R.isClosed (x.dest i) = true from (Bool.and_eq_true _ _ ▸ h1).2))
  · rw [if_neg hi]
    unfold State.defer
    split
    · rename_i hf
      have hc : x.isClosed = true := by
        have : x.closedFlag = true := hf
        simp [State.isClosed, this]
      refine h.late hc (c := .cancel i) (fun k => view_ended_cancel (h.ended_some hc k)) (.inr ⟨i, rfl⟩) _
        (.inl rfl) rfl rfl rfl rfl rfl (fun k hk => ?_) rfl hc
      show (if k = i then false else x.held k) = false
      simp [hk]
    · cases hc : x.isClosed with
      | true => exact h.cancelClosed hc i _
      | false => exact h.cancelOpen hc i _

/-- Someone is subscribed to a closed subject, and given the notification it ended with unless it is
closed anyway. -/
theorem Inv.greetClosed (h : Inv R x c0 dead u ns) {n : Note I E}
    (hr : reason x = some n)
    (hn : n.isClosing = true) (s : S) (hs : R.isClosed s = true) (c : Nat)
    (x' : State S I E) (hq : x'.queue = x.queue) (hcalls : x'.calls = x.calls ++ [.subscribe x.count])
    (hlog : x'.log = x.log ++ [(c, x.count, n)] ∨ x'.log = x.log)
    (hdest : x'.dest = fun k => if k = x.count then s else x.dest k) (hm : x'.members = x.members)
    (hcount : x'.count = x.count + 1) (hheld : x'.held = x.held)
    (hr' : reason x' = reason x) (hcl : x'.isClosed = x.isClosed) : Inv R x' c0 dead u ns := by
  have hrec : ∀ k, k ≠ x.count → received k x' = received k x := fun k hk => by
    rcases hlog with hlog | hlog
    · simp only [received, hlog, List.filterMap_append]; simp [hk.symm]
    · simp only [received, hlog]
  have hrecn : received x.count x' = [] ∨ received x.count x' = [n] := by
    have h0 := (h.fresh x.count (Nat.le_refl _)).1
    rcases hlog with hlog | hlog
    · right
      simp only [received] at h0 ⊢
      rw [hlog, List.filterMap_append, h0]; simp
    · left
      simp only [received] at h0 ⊢
      rw [hlog, h0]
  have hv : ∀ k, k ≠ x.count → view k (x.calls ++ [.subscribe x.count]) = view k x.calls := fun k hk => by
    rw [view_snoc]; simp [View.step, hk.symm]
  have hvn : view x.count (x.calls ++ [.subscribe x.count]) =
      { (view x.count x.calls) with out := (view x.count x.calls).out ++ [n] } := by
    rw [view_snoc]; simp [View.step, h.ended, hr]
  refine ⟨?_, fun hf => by rw [hr', hr]; rfl, fun k => ?_, fun k => ?_, fun k hk ho hd => ?_, fun k hk => ?_,
    fun hc0 k hk => ?_, ?_, fun k => ?_, fun k ho hd => ?_⟩
  · rw [hq, hcl]; exact h.wf
  · rw [hcalls, hr']
    by_cases hk : k = x.count
    · subst hk; rw [hvn]; exact h.ended _
    · rw [hv k hk]; exact h.ended k
  · rw [hcalls]
    by_cases hk : k = x.count
    · subst hk
      rw [expected, hvn, (h.fresh x.count (Nat.le_refl _)).2.2.1]
      rcases hrecn with hrecn | hrecn <;> rw [hrecn] <;> simp
    · rw [hrec k hk]; exact expected_snoc_pre _ (h.pre k)
  · rw [hdest] at ho
    simp only at ho
    by_cases hk' : k = x.count
    · rw [if_pos hk', hs] at ho; cases ho
    · rw [if_neg hk'] at ho
      rw [hq, hrec k hk', hm, hheld, hcalls, hv k hk', hcl]
      exact h.per k (by omega) ho hd
  · obtain ⟨h1, h2, h3, h4, h5, h6, h7⟩ := h.fresh k (by omega)
    have hk' : k ≠ x.count := by omega
    rw [hq, hrec k hk', hm, hheld, hcalls, hv k hk']
    exact ⟨h1, h2, h3, h4, h5, h6, h7⟩
  · rw [hm] at hk
    have hk' : k ≠ x.count := fun he => (h.fresh k (by omega)).2.2.2.1 hk
    rw [hdest]
    simp only [if_neg hk']
    exact h.about hc0 k hk
  · rw [hm]; exact h.nodup
  · by_cases hk : k = x.count
    · subst hk
      rcases hrecn with hrecn | hrecn <;> rw [hrecn] <;> simp [trunc, hn]
    · rw [hrec k hk]; exact h.grammar k
  · rw [hdest] at ho
    simp only at ho
    by_cases hk' : k = x.count
    · rw [if_pos hk', hs] at ho; cases ho
    · rw [if_neg hk'] at ho
      rw [hrec k hk']; exact h.unended k ho hd

/-- Someone is subscribed to an open subject. -/
theorem Inv.greetOpen (h : Inv R x c0 dead u ns) (hc : x.isClosed = false) (s : S) (q : Nat)
    (x' : State S I E) (hq : x'.queue = x.queue ++ [(q, .add x.count)])
    (hcalls : x'.calls = x.calls ++ [.subscribe x.count])
    (hlog : x'.log = x.log)
    (hdest : x'.dest = fun k => if k = x.count then s else x.dest k) (hm : x'.members = x.members)
    (hcount : x'.count = x.count + 1) (hheld : x'.held = fun k => if k = x.count then true else x.held k)
    (hflag : x'.closedFlag = x.closedFlag)
    (hr' : reason x' = reason x) (hcl : x'.isClosed = x.isClosed) : Inv R x' c0 dead u ns := by
  have hrec : ∀ k, received k x' = received k x := fun k => by simp only [received, hlog]
  have hP : ns ++ x'.queue.map (·.2) = ns ++ x.queue.map (·.2) ++ [.add x.count] := by rw [hq]; simp
  have hv : ∀ k, k ≠ x.count → view k (x.calls ++ [.subscribe x.count]) = view k x.calls := fun k hk => by
    rw [view_snoc]; simp [View.step, hk.symm]
  have hvn : view x.count (x.calls ++ [.subscribe x.count]) =
      { (view x.count x.calls) with member := true } := by
    rw [view_snoc]; simp [View.step, h.ended_none hc]
  obtain ⟨f1, f2, f3, f4, f5, f6, f7⟩ := h.fresh x.count (Nat.le_refl _)
  refine ⟨?_, fun hf => by rw [hr']; exact h.flag (hflag ▸ hf), fun k => ?_, fun k => ?_, fun k hk ho hd => ?_,
    fun k hk => ?_, fun hc0 k hk => ?_, ?_, fun k => ?_, fun k ho hd => ?_⟩
  · rw [hP, wfRun_append, h.wf, hcl, hc]; rfl
  · rw [hcalls, hr']
    by_cases hk : k = x.count
    · subst hk; rw [hvn]; exact h.ended _
    · rw [hv k hk]; exact h.ended k
  · rw [hcalls, hrec]; exact expected_snoc_pre _ (h.pre k)
  · rw [hP, hrec, hm, hheld, hcalls, hcl, hc]
    by_cases hk' : k = x.count
    · subst hk'
      rw [hvn]
      have hmf : decide (x.count ∈ x.members) = false := by simp [f4]
      have hraw : raw x.count (decide (x.count ∈ x.members)) (ns ++ x.queue.map (·.2) ++ [.add x.count]) =
          ([], true) := by
        rw [hmf, raw_append, raw_none _ _ f7]; simp [raw]
      refine ⟨?_, fun _ => ?_, fun _ _ => ?_, fun h => (by cases h), fun _ hh => ?_⟩
      · rw [hraw, f1, f6]; simpa [trunc] using f3
      · rw [hraw]
      · rw [hraw, f6]; rfl
      · simp at hh
    · rw [hv k hk']
      simp only [if_neg hk']
      rw [hdest] at ho
      simp only [if_neg hk'] at ho
      have := h.per k (by omega) ho hd
      rw [hc] at this
      exact this.snoc_add_other (Ne.symm hk')
  · obtain ⟨h1, h2, h3, h4, h5, h6, h7⟩ := h.fresh k (by omega)
    have hk' : k ≠ x.count := by omega
    rw [hP, hrec k, hm, hheld, hcalls, hv k hk']
    exact ⟨h1, h2, h3, h4, by simp [hk', h5], h6, by simpa [hk'] using h7⟩
  · rw [hm] at hk
    have hk' : k ≠ x.count := fun he => (h.fresh k (by omega)).2.2.2.1 hk
    rw [hdest]
    simp only [if_neg hk']
    exact h.about hc0 k hk
  · rw [hm]; exact h.nodup
  · rw [hrec]; exact h.grammar k
  · rw [hrec]
    by_cases hk' : k = x.count
    · subst hk'; rw [f1]; rfl
    · rw [hdest] at ho
      simp only [if_neg hk'] at ho
      exact h.unended k ho hd

theorem pushQuiet_ok {f : Fault} {a : Act S I E} {s : S} (h : State.pushQuiet f a = .ok s) : a = .done s := by
  cases a <;> simp [State.pushQuiet] at h
  rw [h]

theorem greet_open (hc : x.isClosed = false) (s : S) :
    (x.record (.subscribe x.count)).greet R s =
      .ok (State.setDest { (x.record (.subscribe x.count)) with count := x.count + 1 } x.count s) := by
  obtain ⟨h1, h2, h3, h4⟩ := (isClosed_false_iff x).1 hc
  simp [State.greet, State.replay, State.record, State.isClosed, h1, h2, h3, h4, bind, Except.bind, pure,
    Except.pure]

/-- What handling a notification leaves alone. -/
structure Frame (x y : State S I E) : Prop where
  members : y.members = x.members
  closedFlag : y.closedFlag = x.closedFlag
  count : x.count ≤ y.count
  dest : ∀ k, k < x.count → y.dest k = x.dest k

theorem Frame.rfl {x : State S I E} : Frame x x := ⟨Eq.refl _, Eq.refl _, Nat.le_refl _, fun _ _ => Eq.refl _⟩

theorem Frame.trans {x y z : State S I E} (h : Frame x y) (h' : Frame y z) : Frame x z :=
  ⟨h'.members.trans h.members, h'.closedFlag.trans h.closedFlag, Nat.le_trans h.count h'.count,
    fun k hk => (h'.dest k (Nat.lt_of_lt_of_le hk h.count)).trans (h.dest k hk)⟩

theorem replay_ok {z z' : State S I E} {i : Nat} {s s' : S} (h : z.replay R i s = .ok (s', z')) :
    (∃ n : Note I E, reason z = some n ∧ n.isClosing = true ∧ R.push s n = .done s' ∧
      z' = { z with log := z.log ++ [(z.now, i, n)] }) ∨
    ((∀ n, reason z = some n → n = .unsubscribe) ∧ s' = s ∧ z' = z) := by
  unfold State.replay at h
  split at h
  · rename_i e he
    cases hp : State.pushQuiet .deadlock (R.push s (.error e)) with
    | error f => rw [hp] at h; cases h
    | ok t =>
      rw [hp] at h
      simp only [bind, Except.bind, pure, Except.pure, Except.ok.injEq, Prod.mk.injEq] at h
      obtain ⟨rfl, rfl⟩ := h
      exact .inl ⟨_, by simp [reason, he], rfl, pushQuiet_ok hp, rfl⟩
  · rename_i he
    split at h
    · rename_i hc
      cases hp : State.pushQuiet .deadlock (R.push s .complete) with
      | error f => rw [hp] at h; cases h
      | ok t =>
        rw [hp] at h
        simp only [bind, Except.bind, pure, Except.pure, Except.ok.injEq, Prod.mk.injEq] at h
        obtain ⟨rfl, rfl⟩ := h
        exact .inl ⟨_, by simp [reason, he, hc], rfl, pushQuiet_ok hp, rfl⟩
    · rename_i hc
      simp only [pure, Except.pure, Except.ok.injEq, Prod.mk.injEq] at h
      obtain ⟨rfl, rfl⟩ := h
      refine .inr ⟨fun n hn => ?_, rfl, rfl⟩
      simp only [reason, he, hc] at hn
      simp at hn
      exact hn.2.symm

theorem greet_ok (hR : Closes R) {z y : State S I E} {s : S} (hc : z.isClosed = true) {n : Note I E}
    (hr : reason z = some n) (hn : n.isClosing = true) (h : z.greet R s = .ok y) :
    ∃ s', R.isClosed s' = true ∧
      (y = State.setDest { z with count := z.count + 1, log := z.log ++ [(z.now, z.count, n)] } z.count s' ∨
       y = State.setDest { z with count := z.count + 1 } z.count s') := by
  have hend : ∀ {s s' : S} {n : Note I E}, n.isClosing = true → R.push s n = .done s' →
      R.isClosed s' = true := fun {s s' n} hn hp => by
    have := hR s n hn
    rwa [hp] at this
  unfold State.greet at h
  simp only [bind, Except.bind] at h
  cases hp : ({ z with count := z.count + 1 } : State S I E).replay R z.count s with
  | error f => rw [hp] at h; cases h
  | ok sx =>
    obtain ⟨s', z'⟩ := sx
    rw [hp] at h
    simp only at h
    rcases replay_ok hp with ⟨n', h1, h2, h3, h4⟩ | ⟨h1, h2, h3⟩
    · have : n' = n := by
        have : reason z = some n' := h1
        rw [hr] at this
        exact (Option.some.inj this).symm
      subst this
      have hs := hend h2 h3
      rw [hs] at h
      simp only [Bool.not_true, Bool.and_false, Bool.false_eq_true, if_false, pure, Except.pure,
        Except.ok.injEq] at h
      subst h h4
      exact ⟨s', hs, .inl rfl⟩
    · have hnu : n = .unsubscribe := h1 n hr
      subst hnu h2 h3
      rw [show ({ z with count := z.count + 1 } : State S I E).isClosed = true from hc] at h
      cases hs : R.isClosed s' with
      | true =>
        rw [hs] at h
        simp only [Bool.not_true, Bool.and_false, Bool.false_eq_true, if_false, pure, Except.pure,
          Except.ok.injEq] at h
        subst h
        exact ⟨s', hs, .inr rfl⟩
      | false =>
        rw [hs] at h
        simp only [Bool.not_false, Bool.and_true, if_true] at h
        cases hp : State.pushQuiet .unmodelled (R.push s' .unsubscribe) with
        | error f => rw [hp] at h; cases h
        | ok t =>
          rw [hp] at h
          simp only [pure, Except.pure, Except.ok.injEq] at h
          subst h
          exact ⟨t, hend rfl (pushQuiet_ok hp), .inl rfl⟩

theorem reason_closing {n : Note I E} (h : reason x = some n) : n.isClosing = true := by
  unfold reason at h
  split at h
  · cases h; rfl
  · split at h
    · cases h; rfl
    · split at h
      · cases h; rfl
      · cases h

theorem Inv.greet (hR : Closes R) (h : Inv R x c0 dead u ns) (hc : x.isClosed = true) {s : S}
    {y : State S I E} (hg : (x.record (.subscribe x.count)).greet R s = .ok y) :
    Inv R y c0 dead u ns ∧ Frame x y ∧ y.isClosed = true ∧ y.queue = x.queue := by
  have hrs : (reason x).isSome = true := by rw [← isClosed_eq h]; exact hc
  obtain ⟨n, hn⟩ := Option.isSome_iff_exists.1 hrs
  obtain ⟨s', hs, hy | hy⟩ := greet_ok hR (z := x.record (.subscribe x.count)) hc hn (reason_closing hn) hg
  all_goals
    subst hy
    refine ⟨?_, ⟨rfl, rfl, Nat.le_succ _, fun k hk => ?_⟩, hc, rfl⟩
  · exact h.greetClosed hn (reason_closing hn) s' hs _ _ rfl rfl (.inl rfl) rfl rfl rfl rfl rfl rfl
  · show (if k = x.count then s' else x.dest k) = x.dest k
    rw [if_neg (by omega)]
  · exact h.greetClosed hn (reason_closing hn) s' hs 0 _ rfl rfl (.inr rfl) rfl rfl rfl rfl rfl rfl
  · show (if k = x.count then s' else x.dest k) = x.dest k
    rw [if_neg (by omega)]

theorem Inv.subscribeLocked (hR : Closes R) (h : Inv R x c0 dead u ns) {s : S} {y : State S I E}
    (hs : x.subscribeLocked R s = .ok y) : Inv R y c0 dead u ns ∧ Frame x y := by
  unfold State.subscribeLocked at hs
  simp only [bind, Except.bind, pure, Except.pure] at hs
  cases hc : x.isClosed with
  | true =>
    cases hg : (x.record (.subscribe x.count)).greet R s with
    | error f => rw [hg] at hs; cases hs
    | ok z =>
      obtain ⟨h1, h2, h3, -⟩ := h.greet hR hc hg
      rw [hg] at hs
      simp only [h3, if_true, Except.ok.injEq] at hs
      subst hs
      exact ⟨h1, h2⟩
  | false =>
    have hf := ((isClosed_false_iff x).1 hc).1
    rw [greet_open hc] at hs
    have hc' : (State.setDest { (x.record (.subscribe x.count)) with count := x.count + 1 }
      x.count s).isClosed = false := hc
    simp only [hc', Bool.false_eq_true, if_false, Except.ok.injEq] at hs
    subst hs
    unfold State.defer
    rw [if_neg (by simp [State.setDest, State.record, hf])]
    refine ⟨h.greetOpen hc s _ _ rfl rfl rfl rfl rfl rfl rfl rfl rfl rfl, rfl, rfl, Nat.le_succ _, fun k hk => ?_⟩
    show (if k = x.count then s else x.dest k) = x.dest k
    rw [if_neg (by omega)]

theorem Frame.noteLocked (x : State S I E) (n : Note I E) : Frame x (x.noteLocked n) := by
  unfold State.noteLocked State.defer
  cases n <;> simp only
  all_goals
    repeat' split
  all_goals exact ⟨Eq.refl _, Eq.refl _, Nat.le_refl _, fun _ _ => Eq.refl _⟩

theorem Frame.cancelLocked (x : State S I E) (j i : Nat) : Frame x (x.cancelLocked R j i) := by
  unfold State.cancelLocked State.defer
  simp only
  repeat' split
  all_goals exact ⟨Eq.refl _, Eq.refl _, Nat.le_refl _, fun _ _ => Eq.refl _⟩

theorem Inv.react (hR : Closes R) {j : Nat} {a : Act S I E} {s : S} {y : State S I E}
    (h : Inv R x c0 dead u ns) (hr : State.react R j a x = .ok (s, y)) :
    Inv R y c0 dead u ns ∧ Frame x y ∧ (EndsClosed R a → R.isClosed s = true) := by
  induction a generalizing x with
  | done s' =>
    simp only [State.react, Except.ok.injEq, Prod.mk.injEq] at hr
    obtain ⟨rfl, rfl⟩ := hr
    exact ⟨h, Frame.rfl, id⟩
  | note n k ih =>
    obtain ⟨h1, h2, h3⟩ := ih (h.noteLocked n) hr
    exact ⟨h1, (Frame.noteLocked x n).trans h2, h3⟩
  | subscribe s' k ih =>
    simp only [State.react] at hr
    cases hs : x.subscribeLocked R s' with
    | error f => rw [hs] at hr; cases hr
    | ok z =>
      rw [hs] at hr
      obtain ⟨h1, h2⟩ := h.subscribeLocked hR hs
      obtain ⟨h3, h4, h5⟩ := ih _ h1 hr
      exact ⟨h3, h2.trans h4, fun he => h5 (he _)⟩
  | cancel i k ih =>
    obtain ⟨h1, h2, h3⟩ := ih (h.cancelLocked j i) hr
    exact ⟨h1, (Frame.cancelLocked x j i).trans h2, h3⟩
  | isClosed k ih =>
    obtain ⟨h1, h2, h3⟩ := ih _ h hr
    exact ⟨h1, h2, fun he => h3 (he _)⟩

end Locked

/-! ## Applying what is pending -/

section Apply
variable {R : Dest S I E} {x y : State S I E} {c0 : Bool} {u : Nat → List (Note I E)}
  {ns : List (Deferred I E)} {ord : Nat → List Nat → List Nat}

abbrev nobody : Nat → Prop := fun _ => False
abbrev nothing : Nat → List (Note I E) := fun _ => []

/-- What applying does not change. -/
structure Kept (x y : State S I E) : Prop where
  closedFlag : y.closedFlag = x.closedFlag
  count : x.count ≤ y.count

theorem Kept.rfl {x : State S I E} : Kept x x := ⟨Eq.refl _, Nat.le_refl _⟩
theorem Kept.trans {x y z : State S I E} (h : Kept x y) (h' : Kept y z) : Kept x z :=
  ⟨h'.closedFlag.trans h.closedFlag, Nat.le_trans h.count h'.count⟩

theorem Inv.give (hR : Closes R) {c j : Nat} {n : Note I E} (h : Inv R x c0 nobody u ns)
    (hj : j < x.count) (hu : u j = [n]) (hn : n.isClosing = false → c0 = false)
    (hg : State.give R c n x j = .ok y) :
    Inv R y c0 nobody (fun k => if k = j then [] else u k) ns ∧ Kept x y ∧ y.members = x.members ∧
      (n.isClosing = true → R.isClosed (y.dest j) = true) := by
  unfold State.give at hg
  split at hg
  · rename_i hcl
    simp only [Except.ok.injEq] at hg
    subst hg
    refine ⟨⟨h.wf, h.flag, h.ended, h.pre, fun k hk ho hd => ?_, fun k hk => ?_, fun hc0 k hk ho hd => ?_,
      h.nodup, h.grammar, h.unended⟩, Kept.rfl, rfl, fun _ => hcl⟩
    · have : k ≠ j := by rintro rfl; rw [hcl] at ho; cases ho
      simp only [if_neg this]; exact h.per k hk ho hd
    · have : k ≠ j := by omega
      simp only [if_neg this]; exact h.fresh k hk
    · have : k ≠ j := by rintro rfl; rw [hcl] at ho; cases ho
      simp only [if_neg this]; exact h.about hc0 k hk ho hd
  · rename_i hop
    have hop : R.isClosed (x.dest j) = false := by simpa using hop
    simp only [bind, Except.bind, pure, Except.pure] at hg
    cases hr : State.react R j (R.push (x.dest j) n) { x with log := x.log ++ [(c, j, n)] } with
    | error f => rw [hr] at hg; cases hg
    | ok sy =>
      obtain ⟨s, z⟩ := sy
      rw [hr] at hg
      simp only [Except.ok.injEq] at hg
      subst hg
      have hp := h.per j hj hop (fun h => h)
      rw [hu] at hp
      have hrj : received j { x with log := x.log ++ [(c, j, n)] } = received j x ++ [n] := by
        rw [received_log]; simp
      have hrk : ∀ k, k ≠ j → received k { x with log := x.log ++ [(c, j, n)] } = received k x :=
        fun k hk => by rw [received_log]; simp [hk.symm]
      have hpre : ∀ k, received k { x with log := x.log ++ [(c, j, n)] } <+: expected k x.calls := fun k => by
        by_cases hk : k = j
        · subst hk
          rw [hrj, expected, hp.out]
          refine (List.prefix_append_right_inj _).2 ?_
          simp only [List.singleton_append, trunc]
          split <;> simp
        · rw [hrk k hk]; exact h.pre k
      have hgr : ∀ k, trunc (received k { x with log := x.log ++ [(c, j, n)] }) =
          received k { x with log := x.log ++ [(c, j, n)] } := fun k => by
        by_cases hk : k = j
        · subst hk
          rw [hrj, trunc_append, h.unended k hop (fun h => h)]
          by_cases hn' : n.isClosing = true <;> simp [trunc, hn']
        · rw [hrk k hk]; exact h.grammar k
      by_cases hnc : n.isClosing = true
      · -- a closing notification
        have hi : Inv R { x with log := x.log ++ [(c, j, n)] } c0 (fun k => k = j) (fun k => if k = j then [] else u k) ns := by
          refine ⟨h.wf, h.flag, h.ended, hpre, fun k hk ho hd => ?_, fun k hk => ?_, fun hc0 k hk ho hd => ?_,
            h.nodup, hgr, fun k ho hd => ?_⟩
          · simp only [if_neg hd, hrk k hd]; exact h.per k hk ho (fun h => h)
          · have : k ≠ j := by rintro rfl; exact absurd hj (Nat.not_lt.2 hk)
            simp only [if_neg this, hrk k this]; exact h.fresh k hk
          · simp only [if_neg hd]; exact h.about hc0 k hk ho (fun h => h)
          · rw [hrk k hd]; exact h.unended k ho (fun h => h)
        obtain ⟨h1, h2, h3⟩ := hi.react hR hr
        have hs : R.isClosed s = true := h3 (hR _ _ hnc)
        have hdest : ∀ k, R.isClosed ((z.setDest j s).dest k) = false → k ≠ j ∧ R.isClosed (z.dest k) = false := by
          intro k ho
          simp only [State.setDest] at ho
          by_cases hk : k = j
          · rw [if_pos hk, hs] at ho; cases ho
          · rw [if_neg hk] at ho; exact ⟨hk, ho⟩
        refine ⟨⟨h1.wf, h1.flag, h1.ended, h1.pre, fun k hk ho _ => ?_, h1.fresh, fun hc0 k hk ho _ => ?_,
          h1.nodup, h1.grammar, fun k ho _ => ?_⟩, ⟨h2.closedFlag, h2.count⟩, h2.members,
          fun _ => by simp [State.setDest, hs]⟩
        · obtain ⟨a, b⟩ := hdest k ho; exact h1.per k hk b a
        · obtain ⟨a, b⟩ := hdest k ho; exact h1.about hc0 k hk b a
        · obtain ⟨a, b⟩ := hdest k ho; exact h1.unended k b a
      · have hnc : n.isClosing = false := by simpa using hnc
        have hc0 := hn hnc
        have hi : Inv R { x with log := x.log ++ [(c, j, n)] } c0 nobody (fun k => if k = j then [] else u k) ns := by
          refine ⟨h.wf, h.flag, h.ended, hpre, fun k hk ho hd => ?_, fun k hk => ?_, fun hc => ?_,
            h.nodup, hgr, fun k ho hd => ?_⟩
          · by_cases hkj : k = j
            · subst hkj
              simp only [if_true, hrj]; exact hp.deliver hnc
            · simp only [if_neg hkj, hrk k hkj]; exact h.per k hk ho hd
          · have : k ≠ j := by rintro rfl; exact absurd hj (Nat.not_lt.2 hk)
            simp only [if_neg this, hrk k this]; exact h.fresh k hk
          · rw [hc0] at hc; cases hc
          · by_cases hkj : k = j
            · subst hkj
              rw [hrj, hasClosing_append, h.unended k ho hd]; simp [hasClosing, hnc]
            · rw [hrk k hkj]; exact h.unended k ho hd
        obtain ⟨h1, h2, -⟩ := hi.react hR hr
        have hdest : ∀ k, R.isClosed ((z.setDest j s).dest k) = false → R.isClosed (z.dest k) = false := by
          intro k ho
          simp only [State.setDest] at ho
          by_cases hk : k = j
          · subst hk; rw [h2.dest k hj]; exact hop
          · rw [if_neg hk] at ho; exact ho
        refine ⟨⟨h1.wf, h1.flag, h1.ended, h1.pre, fun k hk ho hd => ?_, h1.fresh, fun hc => ?_,
          h1.nodup, h1.grammar, fun k ho hd => ?_⟩, ⟨h2.closedFlag, h2.count⟩, h2.members,
          fun h => by rw [hnc] at h; cases h⟩
        · exact h1.per k hk (hdest k ho) hd
        · rw [hc0] at hc; cases hc
        · exact h1.unended k (hdest k ho) hd

/-- A round of notifications. -/
theorem Inv.round (hR : Closes R) {c : Nat} {n : Note I E} {l : List Nat} (hl : l.Nodup)
    (h : Inv R x c0 nobody (fun k => if k ∈ l then [n] else []) ns)
    (hj : ∀ j ∈ l, j < x.count) (hn : n.isClosing = false → c0 = false)
    (hg : l.foldlM (State.give R c n) x = .ok y) :
    Inv R y c0 nobody nothing ns ∧ Kept x y ∧ y.members = x.members := by
  induction l generalizing x with
  | nil =>
    simp only [List.foldlM_nil, pure, Except.pure, Except.ok.injEq] at hg
    subst hg
    exact ⟨by simpa using h, Kept.rfl, rfl⟩
  | cons j l ih =>
    simp only [List.foldlM_cons, bind, Except.bind] at hg
    cases hr : State.give R c n x j with
    | error f => rw [hr] at hg; cases hg
    | ok z =>
      rw [hr] at hg
      obtain ⟨h1, h2, h3, -⟩ := h.give hR (hj j List.mem_cons_self) (by simp) hn hr
      obtain ⟨hjl, hl'⟩ := List.nodup_cons.1 hl
      obtain ⟨h4, h5, h6⟩ := ih hl' (by
        have : (fun k => if k = j then [] else if k ∈ j :: l then [n] else []) =
            fun k => if k ∈ l then [n] else [] := by
          funext k
          by_cases hk : k = j
          · subst hk; simp [hjl]
          · simp [hk]
        rw [this] at h1
        exact h1) (fun k hk => Nat.lt_of_lt_of_le (hj k (List.mem_cons_of_mem _ hk)) h2.count) hg
      exact ⟨h4, h2.trans h5, h6.trans h3⟩

theorem Inv.members_lt {dead : Nat → Prop} (h : Inv R x c0 dead u ns) {k : Nat} (hk : k ∈ x.members) :
    k < x.count := by
  rcases Nat.lt_or_ge k x.count with hlt | hge
  · exact hlt
  · exact absurd hk (h.fresh k hge).2.2.2.1

theorem wfRun_cons {c : Bool} {d : Deferred I E} {ds : List (Deferred I E)} {b : Bool}
    (h : wfRun c (d :: ds) = some b) : wfRun (c || State.isClosing d) ds = some b ∧
      (c = true → d = .note .unsubscribe ∨ ∃ i, d = .cancel i) := by
  cases c with
  | false => exact ⟨by simpa [wfRun] using h, fun h => by cases h⟩
  | true =>
    cases d with
    | note n =>
      cases n <;> simp only [wfRun, reduceCtorEq] at h
      exact ⟨h, fun _ => .inl rfl⟩
    | cancel i => exact ⟨h, fun _ => .inr ⟨i, rfl⟩⟩
    | add i => simp [wfRun] at h

/-- A notification is taken from the queue. -/
theorem Inv.pop_note {n : Note I E} (h : Inv R x c0 nobody nothing (.note n :: ns)) :
    Inv R x (c0 || n.isClosing) nobody (fun k => if k ∈ x.members then [n] else []) ns := by
  refine ⟨(wfRun_cons h.wf).1, h.flag, h.ended, h.pre, fun k hk ho hd => ?_, fun k hk => ?_,
    fun _ k hk _ _ => by simp [hk], h.nodup, h.grammar, h.unended⟩
  · have := (h.per k hk ho hd).pop_note
    simpa using this
  · obtain ⟨h1, h2, h3, h4, h5, h6, h7⟩ := h.fresh k hk
    exact ⟨h1, h2, h3, h4, h5, by simp [h4], fun hm => h7 (List.mem_cons_of_mem _ hm)⟩

theorem Inv.apply_note (hR : Closes R) (hord : ∀ c l, (ord c l).Perm l) {c : Nat} {n : Note I E}
    (h : Inv R x c0 nobody nothing (.note n :: ns)) (hg : x.apply R ord c (.note n) = .ok y) :
    Inv R y (c0 || n.isClosing) nobody nothing ns ∧ Kept x y := by
  have hu : (fun k => if k ∈ x.members then [n] else []) = fun k => if k ∈ ord c x.members then [n] else [] := by
    funext k; simp [(hord c x.members).mem_iff]
  have hnod : (ord c x.members).Nodup := (hord c x.members).nodup_iff.2 h.nodup
  have hlt : ∀ j ∈ ord c x.members, j < x.count := fun j hj =>
    h.members_lt ((hord c x.members).mem_iff.1 hj)
  have hi := h.pop_note
  have hn : n.isClosing = false → (c0 || n.isClosing) = false := by
    intro hn
    cases hc : c0 with
    | false => simpa using hn
    | true =>
      rcases (wfRun_cons h.wf).2 hc with he | ⟨i, he⟩
      · cases he; cases hn
      · cases he
  have key : ∀ m, n ≠ .unsubscribe → (ord c x.members).foldlM (State.give R c n) x = .ok m →
      Inv R m (c0 || n.isClosing) nobody nothing ns ∧ Kept x m := fun m _ hg => by
    rw [hu] at hi
    obtain ⟨h1, h2, -⟩ := hi.round hR hnod hlt hn hg
    exact ⟨h1, h2⟩
  cases n with
  | next v => exact key _ (by simp) hg
  | error e => exact key _ (by simp) hg
  | complete => exact key _ (by simp) hg
  | unsubscribe =>
    simp only [State.apply] at hg
    have hcl : x.isClosed = true := by
      have := (wfRun_cons h.wf).1
      simp only [State.isClosing, SubscriberNotification.isClosing, Bool.or_true] at this
      exact (wfRun_true this).1
    have hi' : Inv R { x with members := [] } (c0 || true) nobody
        (fun k => if k ∈ ord c x.members then [.unsubscribe] else []) ns := by
      rw [← hu]
      refine ⟨hi.wf, hi.flag, hi.ended, hi.pre, fun k hk ho hd => ?_, fun k hk => ?_,
        fun _ k hk => (by cases hk), List.nodup_nil, hi.grammar, hi.unended⟩
      · have hp := hi.per k hk ho hd
        show Per k x.isClosed (view k x.calls) (received k x) (if k ∈ x.members then [.unsubscribe] else [])
          (decide (k ∈ [])) (ns ++ x.queue.map (·.2)) (x.held k)
        by_cases hm : k ∈ x.members
        · simp only [if_pos hm] at hp ⊢
          have := hp.drop_member rfl hcl
          simpa using this
        · simp only [if_neg hm] at hp ⊢
          rw [show decide (k ∈ x.members) = false by simp [hm]] at hp
          simpa using hp
      · obtain ⟨h1, h2, h3, h4, h5, h6, h7⟩ := hi.fresh k hk
        exact ⟨h1, h2, h3, by simp, h5, h6, h7⟩
    obtain ⟨h1, h2, -⟩ := hi'.round hR hnod hlt (fun h => by cases h) hg
    exact ⟨h1, h2.closedFlag, h2.count⟩

theorem Inv.apply_cancel (hR : Closes R) {c i : Nat}
    (h : Inv R x c0 nobody nothing (.cancel i :: ns)) (hg : x.apply R ord c (.cancel i) = .ok y) :
    Inv R y c0 nobody nothing ns ∧ Kept x y ∧ (R.isClosed (y.dest i) = true ∨ i ∉ x.members ∧ y = x) := by
  have hw := (wfRun_cons h.wf).1
  simp only [State.isClosing, Bool.or_false] at hw
  simp only [State.apply] at hg
  split at hg
  · rename_i hm
    have hi : Inv R { x with members := x.members.filter (· != i) } c0 nobody
        (fun k => if k = i then [.unsubscribe] else []) ns := by
      refine ⟨hw, h.flag, h.ended, h.pre, fun k hk ho hd => ?_, fun k hk => ?_,
        fun hc0 k hk ho hd => ?_, h.nodup.filter _, h.grammar, h.unended⟩
      · have hp := (h.per k hk ho hd).pop_cancel
        show Per k x.isClosed (view k x.calls) (received k x) (if k = i then [.unsubscribe] else [])
          (decide (k ∈ x.members.filter (· != i))) (ns ++ x.queue.map (·.2)) (x.held k)
        have e1 : decide (k ∈ x.members.filter (· != i)) = (decide (k ∈ x.members) && decide (i ≠ k)) := by
          by_cases hk : k = i
          · subst hk; simp
          · have hk' : ¬ i = k := fun h => hk h.symm
            simp [hk, hk']
        rw [e1]
        by_cases hk : k = i
        · subst hk
          simpa [hm] using hp
        · have hk' : ¬ i = k := fun h => hk h.symm
          simpa [hk, hk'] using hp
      · obtain ⟨h1, h2, h3, h4, h5, h6, h7⟩ := h.fresh k hk
        have hk' : k ≠ i := fun he => h4 (he ▸ hm)
        exact ⟨h1, h2, h3, by simp [h4], h5, by simp [hk'], fun hm => h7 (List.mem_cons_of_mem _ hm)⟩
      · exact absurd rfl (h.about hc0 k (List.mem_filter.1 hk).1 ho hd)
    obtain ⟨h1, h2, -, h4⟩ := hi.give hR (h.members_lt hm) (by simp) (fun h => by cases h) hg
    refine ⟨?_, ⟨h2.closedFlag, h2.count⟩, .inl (h4 rfl)⟩
    have : (fun k => if k = i then ([] : List (Note I E)) else if k = i then [.unsubscribe] else []) = nothing := by
      funext k; by_cases hk : k = i <;> simp [hk]
    rwa [this] at h1
  · rename_i hm
    simp only [Except.ok.injEq] at hg
    subst hg
    refine ⟨⟨hw, h.flag, h.ended, h.pre, fun k hk ho hd => ?_, fun k hk => ?_, h.about, h.nodup, h.grammar,
      h.unended⟩, Kept.rfl, .inr ⟨hm, rfl⟩⟩
    · have hp := (h.per k hk ho hd).pop_cancel
      by_cases hk : i = k
      · subst hk; simpa [hm] using hp
      · simpa [hk] using hp
    · obtain ⟨h1, h2, h3, h4, h5, h6, h7⟩ := h.fresh k hk
      exact ⟨h1, h2, h3, h4, h5, h6, fun hm => h7 (List.mem_cons_of_mem _ hm)⟩

theorem Inv.apply_add {c i : Nat}
    (h : Inv R x c0 nobody nothing (.add i :: ns)) (hg : x.apply R ord c (.add i) = .ok y) :
    Inv R y c0 nobody nothing ns ∧ Kept x y := by
  obtain ⟨hw, hw'⟩ := wfRun_cons h.wf
  simp only [State.isClosing, Bool.or_false] at hw
  simp only [State.apply, Except.ok.injEq] at hg
  subst hg
  have hc0 : c0 = false := by
    cases hc : c0 with
    | false => rfl
    | true => rcases hw' hc with he | ⟨i, he⟩ <;> cases he
  refine ⟨⟨hw, h.flag, h.ended, h.pre, fun k hk ho hd => ?_, fun k hk => ?_, fun hc => ?_, ?_, h.grammar,
    h.unended⟩, rfl, Nat.le_refl _⟩
  · have hp := (h.per k hk ho hd).pop_add
    show Per k x.isClosed _ _ _ (decide (k ∈ x.members.filter (· != i) ++ [i])) _ _
    have : decide (k ∈ x.members.filter (· != i) ++ [i]) = (decide (k ∈ x.members) || decide (i = k)) := by
      by_cases hk : k = i
      · subst hk; simp
      · have hk' : ¬ i = k := fun h => hk h.symm
        simp [hk, hk']
    rw [this]; exact hp
  · obtain ⟨h1, h2, h3, h4, h5, h6, h7⟩ := h.fresh k hk
    have hk' : k ≠ i := by rintro rfl; exact h7 List.mem_cons_self
    exact ⟨h1, h2, h3, by simp [h4, hk'], h5, h6, fun hm => h7 (List.mem_cons_of_mem _ hm)⟩
  · rw [hc0] at hc; cases hc
  · refine List.nodup_append.2 ⟨h.nodup.filter _, by simp, ?_⟩
    intro a ha b hb
    simp at ha hb
    subst hb
    exact ha.2

theorem Inv.apply (hR : Closes R) (hord : ∀ c l, (ord c l).Perm l) {c : Nat} {d : Deferred I E}
    (h : Inv R x c0 nobody nothing (d :: ns)) (hg : x.apply R ord c d = .ok y) :
    Inv R y (c0 || State.isClosing d) nobody nothing ns ∧ Kept x y := by
  cases d with
  | note n => exact h.apply_note hR hord hg
  | cancel i =>
    obtain ⟨h1, h2, -⟩ := h.apply_cancel hR hg
    exact ⟨by simpa [State.isClosing] using h1, h2⟩
  | add i => simpa [State.isClosing] using h.apply_add hg

/-- Only closed members change. -/
theorem Inv.set_members (h : Inv R x c0 nobody nothing ns) (ms : List Nat) (hn : ms.Nodup)
    (hsub : ∀ k ∈ ms, k ∈ x.members)
    (hm : ∀ k, R.isClosed (x.dest k) = false → k ∈ x.members → k ∈ ms) :
    Inv R { x with members := ms } c0 nobody nothing ns := by
  refine ⟨h.wf, h.flag, h.ended, h.pre, fun k hk ho hd => ?_, fun k hk => ?_, fun hc k hk => ?_, hn, h.grammar,
    h.unended⟩
  · show Per k x.isClosed _ _ _ (decide (k ∈ ms)) _ _
    have : decide (k ∈ ms) = decide (k ∈ x.members) := by
      rw [decide_eq_decide]; exact ⟨hsub k, hm k ho⟩
    rw [this]; exact h.per k hk ho hd
  · obtain ⟨h1, h2, h3, h4, h5, h6, h7⟩ := h.fresh k hk
    exact ⟨h1, h2, h3, fun hm => h4 (hsub k hm), h5, h6, h7⟩
  · exact h.about hc k (hsub k hk)

/-- Nothing more is to be done for what follows a closing notification. -/
theorem Inv.skip {d : Deferred I E} (h : Inv R x true nobody nothing (d :: ns)) :
    Inv R x true nobody nothing ns := by
  obtain ⟨hw, hw'⟩ := wfRun_cons h.wf
  refine ⟨by simpa using hw, h.flag, h.ended, h.pre, fun k hk ho hd => ?_, fun k hk => ?_, h.about, h.nodup,
    h.grammar, h.unended⟩
  · have hp := h.per k hk ho hd
    have hm : k ∉ x.members := fun hm => h.about rfl k hm ho hd rfl
    rw [show decide (k ∈ x.members) = false by simp [hm]] at hp ⊢
    rcases hw' rfl with rfl | ⟨i, rfl⟩
    · simpa using hp.pop_note
    · simpa using hp.pop_cancel
  · obtain ⟨h1, h2, h3, h4, h5, h6, h7⟩ := h.fresh k hk
    exact ⟨h1, h2, h3, h4, h5, h6, fun hm => h7 (List.mem_cons_of_mem _ hm)⟩

theorem give_all_closed {c : Nat} {n : Note I E} {l : List Nat} (x : State S I E)
    (h : ∀ k ∈ l, R.isClosed (x.dest k) = true) : l.foldlM (State.give R c n) x = .ok x := by
  induction l with
  | nil => rfl
  | cons j l ih =>
    simp only [List.foldlM_cons, State.give, h j List.mem_cons_self, if_true, bind, Except.bind]
    exact ih fun k hk => h k (List.mem_cons_of_mem _ hk)

theorem Inv.setClosed {dead : Nat → Prop} (h : Inv R x c0 dead u ns) (hc : x.isClosed = true) :
    Inv R { x with closedFlag := true } c0 dead u ns := by
  have hcl : ({ x with closedFlag := true } : State S I E).isClosed = x.isClosed := by
    rw [hc]; simp [State.isClosed]
  refine ⟨?_, fun _ => ?_, h.ended, h.pre, fun k hk ho hd => ?_, h.fresh, h.about, h.nodup, h.grammar, h.unended⟩
  · rw [hcl]; exact h.wf
  · show (reason x).isSome = true
    rw [← isClosed_eq h]; exact hc
  · rw [hcl]; exact h.per k hk ho hd

theorem Inv.applyChecked (hR : Closes R) (hord : ∀ c l, (ord c l).Perm l) {c : Nat} {d : Deferred I E}
    (h : Inv R x c0 nobody nothing (d :: ns)) (hf : x.closedFlag = true → c0 = true)
    (hg : x.applyChecked R ord c d = .ok y) :
    ∃ c1, Inv R y c1 nobody nothing ns ∧ (y.closedFlag = true → c1 = true) := by
  unfold State.applyChecked at hg
  simp only [bind, Except.bind, pure, Except.pure] at hg
  -- the first step
  have key : ∀ z, State.applyUnlessClosed R ord c d x = .ok z →
      Inv R z (c0 || State.isClosing d) nobody nothing ns ∧ z.closedFlag = x.closedFlag := by
    intro z hz
    unfold State.applyUnlessClosed at hz
    split at hz
    · rename_i hcf
      simp only [Except.ok.injEq] at hz
      subst hz
      have := hf hcf
      subst this
      exact ⟨h.skip, rfl⟩
    · obtain ⟨h1, h2⟩ := h.apply hR hord hz
      exact ⟨h1, h2.closedFlag⟩
  cases hz : State.applyUnlessClosed R ord c d x with
  | error f => rw [hz] at hg; cases hg
  | ok z =>
    rw [hz] at hg
    simp only at hg
    obtain ⟨h1, h2⟩ := key z hz
    by_cases hcl : State.isClosing d = true
    · rw [hcl, Bool.or_true] at h1
      have hclosed : z.isClosed = true := (wfRun_true h1.wf).1
      have h3 : ∀ z', State.drainAfter R ord c d z = .ok z' → Inv R z' true nobody nothing ns ∧ z'.isClosed = true := by
        intro z' hz'
        unfold State.drainAfter at hz'
        split at hz'
        · simp only [State.apply] at hz'
          have hall : ∀ k ∈ ord c z.members, R.isClosed (({ z with members := [] } : State S I E).dest k) = true := by
            intro k hk
            have hk := (hord c z.members).mem_iff.1 hk
            cases ho : R.isClosed (z.dest k) with
            | true => rfl
            | false => exact absurd rfl (h1.about rfl k hk ho (fun h => h))
          rw [give_all_closed _ hall] at hz'
          simp only [Except.ok.injEq] at hz'
          subst hz'
          refine ⟨h1.set_members [] List.nodup_nil (by simp) fun k ho hk => ?_, hclosed⟩
          exact absurd rfl (h1.about rfl k hk ho (fun h => h))
        · simp only [Except.ok.injEq] at hz'
          subst hz'
          exact ⟨h1, hclosed⟩
      cases hz' : State.drainAfter R ord c d z with
      | error f => rw [hz'] at hg; cases hg
      | ok z' =>
        rw [hz'] at hg
        simp only [hcl, if_true, Except.ok.injEq] at hg
        subst hg
        obtain ⟨h4, h5⟩ := h3 z' hz'
        exact ⟨true, h4.setClosed h5, fun _ => rfl⟩
    · have hcl' : State.isClosing d = false := by simpa using hcl
      have ht : State.isTerminal d = false := by
        cases d with
        | note n => cases n <;> simp_all [State.isTerminal, State.isClosing, SubscriberNotification.isTerminal, SubscriberNotification.isClosing]
        | cancel i => rfl
        | add i => rfl
      simp only [State.drainAfter, ht, hcl', Bool.false_eq_true, if_false, Except.ok.injEq] at hg
      subst hg
      rw [hcl', Bool.or_false] at h1
      exact ⟨c0, h1, fun hh => hf (h2 ▸ hh)⟩

theorem Inv.applyOne (hR : Closes R) (hord : ∀ c l, (ord c l).Perm l) {d : Nat × Deferred I E}
    (h : Inv R x c0 nobody nothing (d.2 :: ns)) (hf : x.closedFlag = true → c0 = true)
    (hg : x.applyOne R ord d = .ok y) :
    ∃ c1, Inv R y c1 nobody nothing ns ∧ (y.closedFlag = true → c1 = true) := by
  obtain ⟨c, d⟩ := d
  unfold State.applyOne at hg
  cases d with
  | note n => exact h.applyChecked hR hord hf hg
  | cancel i => exact h.applyChecked hR hord hf hg
  | add i =>
    simp only at hg
    split at hg
    · rename_i hcl
      simp only [Except.ok.injEq] at hg
      subst hg
      refine ⟨c0, ?_, hf⟩
      have hw := (wfRun_cons h.wf).1
      simp only [State.isClosing, Bool.or_false] at hw
      refine ⟨hw, h.flag, h.ended, h.pre, fun k hk ho hd => ?_, fun k hk => ?_, h.about, h.nodup, h.grammar,
        h.unended⟩
      · have hp := (h.per k hk ho hd).pop_add
        have hk' : i ≠ k := by rintro rfl; rw [hcl] at ho; cases ho
        simpa [hk'] using hp
      · obtain ⟨h1, h2, h3, h4, h5, h6, h7⟩ := h.fresh k hk
        exact ⟨h1, h2, h3, h4, h5, h6, fun hm => h7 (List.mem_cons_of_mem _ hm)⟩
    · split at hg
      · rename_i hcf
        rcases (wfRun_cons h.wf).2 (hf hcf) with he | ⟨i, he⟩ <;> cases he
      · exact h.applyChecked hR hord hf hg

/-- Nothing is being served. -/
def Idle (R : Dest S I E) (x : State S I E) : Prop :=
  ∃ c0, Inv R x c0 nobody nothing [] ∧ (x.closedFlag = true → c0 = true)

theorem Inv.take {q : List (Nat × Deferred I E)} {dead : Nat → Prop} (h : Inv R x c0 dead u [])
    (hq : x.queue = q) : Inv R { x with queue := [] } c0 dead u (q.map (·.2)) := by
  subst hq
  have e : ∀ (l : List (Deferred I E)), l ++ ([] : List (Nat × Deferred I E)).map (·.2) = l := fun l => by simp
  refine ⟨?_, h.flag, h.ended, h.pre, fun k hk ho hd => ?_, fun k hk => ?_, h.about, h.nodup, h.grammar,
    h.unended⟩
  · show wfRun c0 (_ ++ ([] : List (Nat × Deferred I E)).map (·.2)) = some x.isClosed
    rw [e]; exact h.wf
  · show Per k x.isClosed _ _ _ _ (_ ++ ([] : List (Nat × Deferred I E)).map (·.2)) _
    rw [e]; exact h.per k hk ho hd
  · have := h.fresh k hk
    show _ ∧ _ ∧ _ ∧ _ ∧ _ ∧ _ ∧ .add k ∉ _ ++ ([] : List (Nat × Deferred I E)).map (·.2)
    rw [e]; exact this

theorem Inv.applyAll (hR : Closes R) (hord : ∀ c l, (ord c l).Perm l) {q : List (Nat × Deferred I E)}
    (h : Inv R x c0 nobody nothing (q.map (·.2))) (hf : x.closedFlag = true → c0 = true)
    (hg : q.foldlM (State.applyOne R ord) x = .ok y) : Idle R y := by
  induction q generalizing x c0 with
  | nil =>
    simp only [List.foldlM_nil, pure, Except.pure, Except.ok.injEq] at hg
    subst hg
    exact ⟨c0, h, hf⟩
  | cons d q ih =>
    simp only [List.foldlM_cons, bind, Except.bind] at hg
    cases hz : State.applyOne R ord x d with
    | error f => rw [hz] at hg; cases hg
    | ok z =>
      rw [hz] at hg
      obtain ⟨c1, h1, h2⟩ := h.applyOne hR hord hf hz
      exact ih h1 h2 hg

theorem Idle.clean (h : Idle R x) : Idle R (x.clean R) := by
  obtain ⟨c0, h1, h2⟩ := h
  refine ⟨c0, h1.set_members _ (h1.nodup.filter _) (fun k hk => (List.mem_filter.1 hk).1) fun k ho hk => ?_, h2⟩
  exact List.mem_filter.2 ⟨hk, by simp [ho]⟩

theorem Idle.applyQueue (hR : Closes R) (hord : ∀ c l, (ord c l).Perm l) {t : Nat} (h : Idle R x)
    (hg : State.applyQueue R ord t x = .ok y) : Idle R y ∧ y.queue = [] := by
  induction t generalizing x with
  | zero => cases hg
  | succ t ih =>
    simp only [State.applyQueue] at hg
    split at hg
    · rename_i he
      simp only [Except.ok.injEq] at hg
      subst hg
      exact ⟨h, List.isEmpty_iff.1 he⟩
    · cases hz : x.queue.foldlM (State.applyOne R ord) { x with queue := [] } with
      | error f => rw [hz] at hg; cases hg
      | ok z =>
        rw [hz] at hg
        obtain ⟨c0, h1, h2⟩ := h
        exact ih ((h1.take rfl).applyAll hR hord h2 hz).clean hg

theorem Idle.tryApplyDeferred (hR : Closes R) (hord : ∀ c l, (ord c l).Perm l) (h : Idle R x)
    (hg : x.tryApplyDeferred R ord = .ok y) : Idle R y ∧ y.queue = [] := by
  unfold State.tryApplyDeferred at hg
  split at hg
  · rename_i he
    simp only [Except.ok.injEq] at hg
    subst hg
    exact ⟨h, List.isEmpty_iff.1 he⟩
  · exact h.applyQueue hR hord hg

/-! ## Calls from outside -/

theorem queue_nil {z : State S I E} (h : z.queue = []) : ({ z with queue := [] } : State S I E) = z := by
  cases z; simp only at h; subst h; rfl

theorem applyQueue_nil {z : State S I E} (h : z.queue = []) :
    State.applyQueue R ord State.maxRecursionDepth z = .ok z := by
  simp [State.maxRecursionDepth, State.applyQueue, h]

theorem tryApplyDeferred_nil {z : State S I E} (h : z.queue = []) : z.tryApplyDeferred R ord = .ok z := by
  simp [State.tryApplyDeferred, h]

theorem Inv.put {dead : Nat → Prop} {d : Deferred I E} {q : Nat} {z : State S I E} (hz : z.queue = [])
    (h : Inv R { z with queue := [(q, d)] } c0 dead u []) : Inv R z c0 dead u [d] := by
  have := h.take rfl
  rw [show ({ ({ z with queue := [(q, d)] } : State S I E) with queue := [] } : State S I E) = z from
    queue_nil hz] at this
  simpa using this

theorem Idle.tryNote (hR : Closes R) (hord : ∀ c l, (ord c l).Perm l) {n : Note I E} (hq : x.queue = [])
    (h : Inv R x c0 nobody nothing [.note n]) (hc : n = .unsubscribe → x.isClosed = true)
    (hf : x.closedFlag = true → (c0 || n.isClosing) = true) (hg : x.tryNote R ord n = .ok y) : Idle R y := by
  unfold State.tryNote at hg
  rw [applyQueue_nil hq] at hg
  have key : ∀ z, z.closedFlag = true → (c0 || n.isClosing) = true →
      Inv R z c0 nobody nothing [.note n] → z.apply R ord x.now (.note n) = .ok y → Idle R y :=
    fun z _ hc h hg => by
      obtain ⟨h1, -⟩ := h.apply_note hR hord hg
      exact ⟨_, h1, fun _ => hc⟩
  have key2 : x.apply R ord x.now (.note n) = .ok y → Idle R y := fun hg => by
    obtain ⟨h1, h2⟩ := h.apply_note hR hord hg
    exact ⟨_, h1, fun hh => hf (h2.closedFlag ▸ hh)⟩
  cases n with
  | unsubscribe => exact key _ rfl (by simp [SubscriberNotification.isClosing]) (h.setClosed (hc rfl)) hg
  | next v => exact key2 hg
  | error e => exact key2 hg
  | complete => exact key2 hg

theorem Inv.c0_eq {dead : Nat → Prop} (h : Inv R x c0 dead u []) (hq : x.queue = []) : c0 = x.isClosed := by
  have := h.wf
  rw [hq] at this
  simpa [wfRun] using this

theorem Idle.noteDirect (hR : Closes R) (hord : ∀ c l, (ord c l).Perm l) {n : Note I E} (h : Idle R x)
    (hq : x.queue = []) (hg : (x.record (.note n)).noteDirect R ord n = .ok y) : Idle R y := by
  obtain ⟨c0, hi, hf⟩ := h
  have hc0 := hi.c0_eq hq
  unfold State.noteDirect at hg
  cases hc : x.isClosed with
  | true =>
    have hv : ∀ k, view k (x.calls ++ [.note n]) = view k x.calls := fun k =>
      view_ended_note (hi.ended_some hc k)
    have hc' : (x.record (.note n)).isClosed = true := hc
    have same : Idle R (x.record (.note n)) := ⟨c0, hi.record hv, hf⟩
    cases n with
    | next v => simp only [hc', if_true, Except.ok.injEq] at hg; subst hg; exact same
    | error e => simp only [hc', if_true, Except.ok.injEq] at hg; subst hg; exact same
    | complete => simp only [hc', if_true, Except.ok.injEq] at hg; subst hg; exact same
    | unsubscribe =>
      simp only at hg
      split at hg
      · simp only [Except.ok.injEq] at hg; subst hg; exact same
      · rename_i hu
        have hu : x.unsubscribed = false := by simpa [State.record] using hu
        have hcl : ({ (x.record (.note .unsubscribe)) with unsubscribed := true } : State S I E).isClosed =
            true := by simp [State.isClosed]
        refine Idle.tryNote hR hord (by exact hq) (c0 := c0) ?_ (fun _ => hcl)
          (fun _ => by simp [SubscriberNotification.isClosing]) hg
        refine Inv.put (q := 0) hq ?_
        refine hi.late hc hv (d := .note .unsubscribe) (.inl rfl) _ (.inr ⟨0, ?_⟩) rfl rfl rfl rfl rfl
          (fun _ h => h) ?_ ?_
        · rw [hq]; rfl
        · have := isClosed_eq hi
          rw [hc] at this
          unfold reason at this ⊢
          simp only [State.record]
          cases hoe : x.observedError with
          | some e => rfl
          | none =>
            rw [hoe] at this
            cases hco : x.completed with
            | true => rfl
            | false => rw [hco, hu] at this; cases this
        · simp [State.isClosed]
  | false =>
    obtain ⟨h1, h2, h3, h4⟩ := (isClosed_false_iff x).1 hc
    have hc' : (x.record (.note n)).isClosed = false := hc
    rw [hc] at hc0
    subst hc0
    cases n with
    | next v =>
      simp only [hc', Bool.false_eq_true, if_false] at hg
      refine Idle.tryNote (c0 := false) hR hord (by exact hq) ?_ (fun h => by cases h) (fun h => ?_) hg
      · refine Inv.put (q := 0) hq ?_
        refine hi.accept hc (.next v) 0 _ ?_ rfl rfl rfl rfl rfl rfl h1 ?_ ?_
        · rw [hq]; rfl
        · simp [reason, State.record, h2, h3, h4, SubscriberNotification.isClosing,
            SubscriberNotification.isTerminal]
        · simpa [State.isClosed, State.record, SubscriberNotification.isClosing,
            SubscriberNotification.isTerminal] using hc'
      · rw [show x.closedFlag = true from h] at h1; cases h1
    | error e =>
      simp only [hc', Bool.false_eq_true, if_false] at hg
      refine Idle.tryNote (c0 := false) hR hord (by exact hq) ?_ (fun h => by cases h) (fun h => rfl) hg
      refine Inv.put (q := 0) hq ?_
      refine hi.accept hc (.error e) 0 _ ?_ rfl rfl rfl rfl rfl rfl h1 ?_ ?_
      · rw [hq]; rfl
      · rfl
      · simp [State.isClosed, State.record, SubscriberNotification.isClosing,
          SubscriberNotification.isTerminal]
    | complete =>
      simp only [hc', Bool.false_eq_true, if_false] at hg
      refine Idle.tryNote (c0 := false) hR hord (by exact hq) ?_ (fun h => by cases h) (fun h => rfl) hg
      refine Inv.put (q := 0) hq ?_
      refine hi.accept hc .complete 0 _ ?_ rfl rfl rfl rfl rfl rfl h1 ?_ ?_
      · rw [hq]; rfl
      · simp [reason, State.record, h4, SubscriberNotification.isClosing, SubscriberNotification.isTerminal]
      · simp [State.isClosed, State.record, SubscriberNotification.isClosing,
          SubscriberNotification.isTerminal]
    | unsubscribe =>
      simp only at hg
      rw [if_neg (by simp [State.record, h3])] at hg
      refine Idle.tryNote (c0 := false) hR hord (by exact hq) ?_ (fun h => by simp [State.isClosed]) (fun h => rfl) hg
      refine Inv.put (q := 0) hq ?_
      refine hi.accept hc .unsubscribe 0 _ ?_ rfl rfl rfl rfl rfl rfl h1 ?_ ?_
      · rw [hq]; rfl
      · simp [reason, State.record, h2, h4, SubscriberNotification.isClosing]
      · simp [State.isClosed, State.record, SubscriberNotification.isClosing]

theorem Idle.note (hR : Closes R) (hord : ∀ c l, (ord c l).Perm l) {n : Note I E} (h : Idle R x)
    (hq : x.queue = []) (hg : x.note R ord n = .ok y) : Idle R y ∧ y.queue = [] := by
  unfold State.note at hg
  cases hz : (x.record (.note n)).noteDirect R ord n with
  | error f => rw [hz] at hg; cases hg
  | ok z =>
    rw [hz] at hg
    exact (h.noteDirect hR hord hq hz).tryApplyDeferred hR hord hg

theorem Idle.subscribe (hR : Closes R) (hord : ∀ c l, (ord c l).Perm l) {s : S} (h : Idle R x)
    (hg : x.subscribe R ord s = .ok y) : Idle R y ∧ y.queue = [] := by
  unfold State.subscribe at hg
  cases hz : x.tryApplyDeferred R ord with
  | error f => rw [hz] at hg; cases hg
  | ok z =>
    rw [hz] at hg
    simp only at hg
    obtain ⟨⟨c0, hi, hf⟩, hq⟩ := h.tryApplyDeferred hR hord hz
    cases hc : z.isClosed with
    | true =>
      cases hw : (z.record (.subscribe z.count)).greet R s with
      | error f => rw [hw] at hg; cases hg
      | ok w =>
        obtain ⟨h1, h2, h3, h4⟩ := hi.greet hR hc hw
        rw [hw] at hg
        simp only [h3, if_true, Except.ok.injEq] at hg
        subst hg
        exact ⟨⟨c0, h1, fun hh => hf (h2.closedFlag ▸ hh)⟩, h4.trans hq⟩
    | false =>
      rw [greet_open hc] at hg
      have hc' : (State.setDest { (z.record (.subscribe z.count)) with count := z.count + 1 }
        z.count s).isClosed = false := hc
      have hi' := hi.greetOpen hc s 0
        { (State.setDest { (z.record (.subscribe z.count)) with count := z.count + 1 } z.count s) with
          queue := [(0, .add z.count)]
          held := fun k => if k = z.count then true else z.held k }
        (by rw [hq]; rfl) rfl rfl rfl rfl rfl rfl rfl rfl rfl
      simp only [hc', Bool.false_eq_true, if_false, State.tryAdd] at hg
      rw [applyQueue_nil (by exact hq)] at hg
      simp only at hg
      generalize hw : State.apply R ord _ _ (Deferred.add z.count) = w at hg
      cases w with
      | error f => cases hg
      | ok w =>
        simp only at hg
        obtain ⟨h1, h2⟩ := (Inv.put (by exact hq) hi').apply_add hw
        exact Idle.tryApplyDeferred hR hord ⟨_, h1, fun hh => hf (h2.closedFlag ▸ hh)⟩ hg

theorem Idle.cancel (hR : Closes R) {i : Nat} (h : Idle R x) (hq : x.queue = [])
    (hg : x.cancel R ord i = .ok y) : Idle R y := by
  obtain ⟨c0, hi, hf⟩ := h
  unfold State.cancel at hg
  cases hz : (x.record (.cancel i)).tryCancel R ord i with
  | error f => rw [hz] at hg; cases hg
  | ok z =>
    rw [hz] at hg
    simp only [Except.ok.injEq] at hg
    subst hg
    unfold State.tryCancel at hz
    split at hz
    · rename_i hcl
      simp only [Except.ok.injEq] at hz
      subst hz
      refine ⟨c0, hi.cancelIdle i ?_, hf⟩
      rcases Bool.or_eq_true _ _ ▸ hcl with h1 | h1
      · exact .inl (show x.held i = false by simpa [State.record] using h1)
      · exact .inr (.inl h1)
    · rw [applyQueue_nil (by exact hq)] at hz
      simp only at hz
      rename_i hcl
      have hheld : x.held i = true := by
        cases hh : x.held i with
        | true => rfl
        | false => exact absurd (by simp [State.record, hh]) hcl
      have hdest : R.isClosed (x.dest i) = false := by
        cases hh : R.isClosed (x.dest i) with
        | false => rfl
        | true => exact absurd (by simp [State.record, hh]) hcl
      have hlt : i < x.count := by
        rcases Nat.lt_or_ge i x.count with h | h
        · exact h
        · rw [(hi.fresh i h).2.2.2.2.1] at hheld; cases hheld
      have hi' : Inv R (x.record (.cancel i)) c0 nobody nothing [.cancel i] := by
        have : Inv R { (x.record (.cancel i)) with
            held := fun k => if k = i then false else x.held k } c0 nobody nothing [.cancel i] := by
          refine Inv.put (q := 0) hq ?_
          cases hc : x.isClosed with
          | true => have := hi.cancelClosed hc i 0; rw [hq] at this; exact this
          | false => have := hi.cancelOpen hc i 0; rw [hq] at this; exact this
        refine ⟨this.wf, this.flag, this.ended, this.pre, fun k hk ho hd => ?_, fun k hk => ?_, this.about,
          this.nodup, this.grammar, this.unended⟩
        · have hp := this.per k hk ho hd
          refine ⟨hp.out, hp.mem, hp.memOpen, hp.sealed, fun hc hh => hp.taken hc ?_⟩
          show (if k = i then false else x.held k) = false
          split
          · rfl
          · exact hh
        · obtain ⟨h1, h2, h3, h4, h5, h6, h7⟩ := this.fresh k hk
          exact ⟨h1, h2, h3, h4, (hi.fresh k hk).2.2.2.2.1, h6, h7⟩
      obtain ⟨h1, h2, h3⟩ := hi'.apply_cancel hR hz
      refine ⟨c0, ⟨h1.wf, h1.flag, h1.ended, h1.pre, fun k hk ho hd => ?_, fun k hk => ?_, h1.about,
          h1.nodup, h1.grammar, h1.unended⟩, fun hh => hf (h2.closedFlag ▸ hh)⟩
      · have hp := h1.per k hk ho hd
        refine ⟨hp.out, hp.mem, hp.memOpen, hp.sealed, fun hc hh => ?_⟩
        by_cases hki : k = i
        · subst hki
          rcases h3 with h3 | ⟨h3, h4⟩
          · rw [show R.isClosed (z.dest k) = false from ho] at h3; cases h3
          · subst h4
            have h6 := hp.mem hc
            have h7 : k ∉ x.members := h3
            rw [show (x.record (.cancel k)).queue = [] from hq] at h6
            rw [show (x.record (.cancel k)).members = x.members from rfl] at h6
            simpa [raw, h7] using h6
        · refine hp.taken hc ?_
          have hh : (if k = i then false else z.held k) = false := hh
          rwa [if_neg hki] at hh
      · obtain ⟨h1, h2, h3, h4, h5, h6, h7⟩ := h1.fresh k hk
        refine ⟨h1, h2, h3, h4, ?_, h6, h7⟩
        show (if k = i then false else z.held k) = false
        simp [h5]

end Apply

/-! ## The order of calls -/

def DJust (calls : List (Call I E)) (d : Nat × Deferred I E) : Prop :=
  match d.2 with
  | .note n => calls[d.1]? = some (.note n)
  | .cancel i => calls[d.1]? = some (.cancel i)
  | .add i => calls[d.1]? = some (.subscribe i)

/-- `lo` is the number of the call being served, `ps` what was taken from the queue. -/
structure Ord (x : State S I E) (lo : Nat) (ps : List (Nat × Deferred I E)) : Prop where
  just : ∀ l ∈ x.log, Justified x.calls l
  sorted : (rounds x).Pairwise (fun a b => a.1 ≤ b.1)
  le : ∀ l ∈ rounds x, l.1 ≤ lo
  qjust : ∀ d ∈ ps ++ x.queue, DJust x.calls d
  qsorted : (ps ++ x.queue).Pairwise (fun a b => a.1 ≤ b.1)
  qge : ∀ d ∈ ps ++ x.queue, lo ≤ d.1
  lo_le : lo ≤ x.calls.length

section Ord
variable {R : Dest S I E} {x y : State S I E} {lo : Nat} {ps : List (Nat × Deferred I E)}
  {ord : Nat → List Nat → List Nat}

theorem Justified.lt {calls : List (Call I E)} {l : Nat × Nat × Note I E} (h : Justified calls l) :
    l.1 < calls.length := by
  rcases h with ⟨n, h, -⟩ | ⟨h, -⟩ | h <;> exact (List.getElem?_eq_some_iff.1 h).1

theorem DJust.lt {calls : List (Call I E)} {d : Nat × Deferred I E} (h : DJust calls d) :
    d.1 < calls.length := by
  unfold DJust at h
  split at h <;> exact (List.getElem?_eq_some_iff.1 h).1

theorem Justified.mono {calls : List (Call I E)} {l : Nat × Nat × Note I E} (h : Justified calls l)
    (t : List (Call I E)) : Justified (calls ++ t) l := by
  have := h.lt
  unfold Justified at h ⊢
  rw [List.getElem?_append_left this]
  exact h

theorem DJust.mono {calls : List (Call I E)} {d : Nat × Deferred I E} (h : DJust calls d)
    (t : List (Call I E)) : DJust (calls ++ t) d := by
  have := h.lt
  unfold DJust at h ⊢
  rw [List.getElem?_append_left this]
  exact h

theorem rounds_grow (hj : ∀ l ∈ x.log, Justified x.calls l) (t : List (Call I E))
    (ls : List (Nat × Nat × Note I E)) (hcalls : y.calls = x.calls ++ t) (hlog : y.log = x.log ++ ls)
    (hls : ∀ l ∈ ls, isGreeting y.calls l.1 = true) : rounds y = rounds x := by
  unfold rounds
  rw [hlog, List.filter_append]
  have h1 : ls.filter (fun l => !isGreeting y.calls l.1) = [] := by
    rw [List.filter_eq_nil_iff]
    intro l hl
    simp [hls l hl]
  rw [h1, List.append_nil]
  refine List.filter_congr fun l hl => ?_
  have := (hj l hl).lt
  unfold isGreeting
  rw [hcalls, List.getElem?_append_left this]

theorem Ord.grow (h : Ord x lo ps) (c : Call I E) (hcalls : y.calls = x.calls ++ [c])
    (ls : List (Nat × Nat × Note I E)) (hlog : y.log = x.log ++ ls)
    (hls : ∀ l ∈ ls, l.1 = x.calls.length ∧ c = .subscribe l.2.1)
    (hq : y.queue = x.queue ∨ ∃ d, y.queue = x.queue ++ [(x.calls.length, d)] ∧
      DJust y.calls (x.calls.length, d)) : Ord y lo ps := by
  have hget : y.calls[x.calls.length]? = some c := by rw [hcalls]; simp
  have hr : rounds y = rounds x := by
    refine rounds_grow h.just [c] ls hcalls hlog fun l hl => ?_
    obtain ⟨h1, h2⟩ := hls l hl
    unfold isGreeting
    rw [h1, hget, h2]
  refine ⟨fun l hl => ?_, by rw [hr]; exact h.sorted, by rw [hr]; exact h.le, ?_, ?_, ?_, ?_⟩
  · rw [hlog] at hl
    rcases List.mem_append.1 hl with hl | hl
    · rw [hcalls]; exact (h.just l hl).mono _
    · obtain ⟨h1, h2⟩ := hls l hl
      exact .inr (.inr (by rw [h1, hget, h2]))
  · rcases hq with hq | ⟨d, hq, hd⟩
    · rw [hq, hcalls]; exact fun d hd => (h.qjust d hd).mono _
    · rw [hq, ← List.append_assoc]
      intro e he
      rcases List.mem_append.1 he with he | he
      · rw [hcalls]; exact (h.qjust e he).mono _
      · rw [List.mem_singleton.1 he]; exact hd
  · rcases hq with hq | ⟨d, hq, hd⟩
    · rw [hq]; exact h.qsorted
    · rw [hq, ← List.append_assoc]
      refine List.pairwise_append.2 ⟨h.qsorted, by simp, fun a ha b hb => ?_⟩
      rw [List.mem_singleton.1 hb]
      exact Nat.le_of_lt (h.qjust a ha).lt
  · rcases hq with hq | ⟨d, hq, hd⟩
    · rw [hq]; exact h.qge
    · rw [hq, ← List.append_assoc]
      intro e he
      rcases List.mem_append.1 he with he | he
      · exact h.qge e he
      · rw [List.mem_singleton.1 he]; exact h.lo_le
  · rw [hcalls]; have := h.lo_le; simp; omega

theorem record_now (x : State S I E) (c : Call I E) : (x.record c).now = x.calls.length := by
  simp [State.record, State.now]

theorem Ord.noteLocked (h : Ord x lo ps) (n : Note I E) : Ord (x.noteLocked n) lo ps := by
  have hget : ∀ c : Call I E, (x.calls ++ [c])[x.calls.length]? = some c := fun c => by simp
  unfold State.noteLocked State.defer
  cases n <;> simp only
  all_goals repeat' split
  all_goals
    first
    | exact h.grow _ rfl [] (by simp [State.record]) (by simp) (.inl rfl)
    | exact h.grow _ rfl [] (by simp [State.record]) (by simp)
        (.inr ⟨_, by simp [State.record, State.now]; rfl, by exact hget _⟩)

theorem Ord.cancelLocked (h : Ord x lo ps) (j i : Nat) : Ord (x.cancelLocked R j i) lo ps := by
  have hget : ∀ c : Call I E, (x.calls ++ [c])[x.calls.length]? = some c := fun c => by simp
  unfold State.cancelLocked State.defer
  simp only
  repeat' split
  all_goals
    first
    | exact h.grow _ rfl [] (by simp [State.record]) (by simp) (.inl rfl)
    | exact h.grow _ rfl [] (by simp [State.record]) (by simp)
        (.inr ⟨_, by simp [State.record, State.now]; rfl, by exact hget _⟩)

theorem replay_log {z z' : State S I E} {i : Nat} {s s' : S} (h : z.replay R i s = .ok (s', z')) :
    ∃ ls, z' = { z with log := z.log ++ ls } ∧ ∀ l ∈ ls, l.1 = z.now ∧ l.2.1 = i := by
  rcases replay_ok h with ⟨n, -, -, -, h⟩ | ⟨-, -, h⟩
  · exact ⟨_, h, by simp⟩
  · exact ⟨[], by simp [h], by simp⟩

theorem greet_log {z y : State S I E} {s : S} (h : z.greet R s = .ok y) :
    ∃ ls d, y = { z with log := z.log ++ ls, count := z.count + 1, dest := d } ∧
      ∀ l ∈ ls, l.1 = z.now ∧ l.2.1 = z.count := by
  unfold State.greet at h
  simp only [bind, Except.bind] at h
  cases hp : ({ z with count := z.count + 1 } : State S I E).replay R z.count s with
  | error f => rw [hp] at h; cases h
  | ok sx =>
    obtain ⟨s', z'⟩ := sx
    obtain ⟨ls, hz, hls⟩ := replay_log hp
    rw [hp] at h
    simp only at h
    split at h
    · cases hp : State.pushQuiet .unmodelled (R.push s' .unsubscribe) with
      | error f => rw [hp] at h; cases h
      | ok t =>
        rw [hp] at h
        simp only [pure, Except.pure, Except.ok.injEq] at h
        subst hz h
        refine ⟨ls ++ [(z.now, z.count, .unsubscribe)], fun i => if i = z.count then t else z.dest i,
          by simp [State.setDest, State.now], fun l hl => ?_⟩
        rcases List.mem_append.1 hl with hl | hl
        · exact hls l hl
        · rw [List.mem_singleton.1 hl]; exact ⟨rfl, rfl⟩
    · simp only [pure, Except.pure, Except.ok.injEq] at h
      subst hz h
      exact ⟨ls, _, rfl, hls⟩

theorem Ord.subscribeLocked (h : Ord x lo ps) {s : S} (hs : x.subscribeLocked R s = .ok y) : Ord y lo ps := by
  unfold State.subscribeLocked at hs
  simp only [bind, Except.bind, pure, Except.pure] at hs
  cases hg : (x.record (.subscribe x.count)).greet R s with
  | error f => rw [hg] at hs; cases hs
  | ok z =>
    obtain ⟨ls, d, hz, hls⟩ := greet_log hg
    rw [record_now] at hls
    have hls' : ∀ l ∈ ls, l.1 = x.calls.length ∧ Call.subscribe x.count = (.subscribe l.2.1 : Call I E) :=
      fun l hl => ⟨(hls l hl).1, by rw [(hls l hl).2]; rfl⟩
    rw [hg] at hs
    simp only at hs
    subst hz
    split at hs
    · simp only [Except.ok.injEq] at hs
      subst hs
      exact h.grow _ rfl ls rfl hls' (.inl rfl)
    · simp only [Except.ok.injEq] at hs
      subst hs
      unfold State.defer
      split
      · exact h.grow _ rfl ls rfl hls' (.inl rfl)
      · refine h.grow _ rfl ls rfl hls' (.inr ⟨.add x.count, ?_, ?_⟩)
        · simp [State.record, State.now]
        · show (x.calls ++ [Call.subscribe x.count])[x.calls.length]? = some (.subscribe x.count)
          simp

theorem noteLocked_calls (x : State S I E) (n : Note I E) : x.calls <+: (x.noteLocked n).calls := by
  unfold State.noteLocked State.defer
  cases n <;> simp only
  all_goals repeat' split
  all_goals simp [State.record]

theorem cancelLocked_calls (x : State S I E) (j i : Nat) : x.calls <+: (x.cancelLocked R j i).calls := by
  unfold State.cancelLocked State.defer
  simp only
  repeat' split
  all_goals simp [State.record]

theorem subscribeLocked_calls {s : S} (hs : x.subscribeLocked R s = .ok y) : x.calls <+: y.calls := by
  unfold State.subscribeLocked at hs
  simp only [bind, Except.bind, pure, Except.pure] at hs
  cases hg : (x.record (.subscribe x.count)).greet R s with
  | error f => rw [hg] at hs; cases hs
  | ok z =>
    obtain ⟨ls, d, hz, -⟩ := greet_log hg
    rw [hg] at hs
    simp only at hs
    subst hz
    split at hs
    · simp only [Except.ok.injEq] at hs
      subst hs
      simp [State.record]
    · simp only [Except.ok.injEq] at hs
      subst hs
      unfold State.defer
      split <;> simp [State.record]

theorem Ord.react {j : Nat} {a : Act S I E} {s : S} (h : Ord x lo ps)
    (hr : State.react R j a x = .ok (s, y)) : Ord y lo ps ∧ x.calls <+: y.calls := by
  induction a generalizing x with
  | done s' =>
    simp only [State.react, Except.ok.injEq, Prod.mk.injEq] at hr
    obtain ⟨rfl, rfl⟩ := hr
    exact ⟨h, List.prefix_refl _⟩
  | note n k ih =>
    obtain ⟨h1, h2⟩ := ih (h.noteLocked n) hr
    exact ⟨h1, (noteLocked_calls x n).trans h2⟩
  | subscribe s' k ih =>
    simp only [State.react] at hr
    cases hs : x.subscribeLocked R s' with
    | error f => rw [hs] at hr; cases hr
    | ok z =>
      rw [hs] at hr
      obtain ⟨h1, h2⟩ := ih _ (h.subscribeLocked hs) hr
      exact ⟨h1, (subscribeLocked_calls hs).trans h2⟩
  | cancel i k ih =>
    obtain ⟨h1, h2⟩ := ih (h.cancelLocked j i) hr
    exact ⟨h1, (cancelLocked_calls x j i).trans h2⟩
  | isClosed k ih => exact ih _ h hr

theorem Justified.prefix {calls calls' : List (Call I E)} {l : Nat × Nat × Note I E} (h : Justified calls l)
    (hp : calls <+: calls') : Justified calls' l := by
  obtain ⟨t, rfl⟩ := hp; exact h.mono t

theorem DJust.prefix {calls calls' : List (Call I E)} {d : Nat × Deferred I E} (h : DJust calls d)
    (hp : calls <+: calls') : DJust calls' d := by
  obtain ⟨t, rfl⟩ := hp; exact h.mono t

theorem Ord.give {j : Nat} {n : Note I E} (h : Ord x lo ps) (hj : Justified x.calls (lo, j, n))
    (hg : State.give R lo n x j = .ok y) : Ord y lo ps ∧ x.calls <+: y.calls := by
  unfold State.give at hg
  split at hg
  · simp only [Except.ok.injEq] at hg
    subst hg
    exact ⟨h, List.prefix_refl _⟩
  · simp only [bind, Except.bind, pure, Except.pure] at hg
    cases hr : State.react R j (R.push (x.dest j) n) { x with log := x.log ++ [(lo, j, n)] } with
    | error f => rw [hr] at hg; cases hg
    | ok sy =>
      obtain ⟨s, z⟩ := sy
      rw [hr] at hg
      simp only [Except.ok.injEq] at hg
      subst hg
      have hi : Ord { x with log := x.log ++ [(lo, j, n)] } lo ps := by
        have hrd : rounds { x with log := x.log ++ [(lo, j, n)] } =
            rounds x ++ [(lo, j, n)].filter (fun l => !isGreeting x.calls l.1) := by
          simp [rounds, List.filter_append]
        refine ⟨fun l hl => ?_, ?_, fun l hl => ?_, h.qjust, h.qsorted, h.qge, h.lo_le⟩
        · rcases List.mem_append.1 hl with hl | hl
          · exact h.just l hl
          · rw [List.mem_singleton.1 hl]; exact hj
        · rw [hrd]
          refine List.pairwise_append.2 ⟨h.sorted, List.Pairwise.filter _ (by simp), fun a ha b hb => ?_⟩
          have hb := List.mem_singleton.1 (List.mem_filter.1 hb).1
          rw [hb]; exact h.le a ha
        · rw [hrd] at hl
          rcases List.mem_append.1 hl with hl | hl
          · exact h.le l hl
          · rw [List.mem_singleton.1 (List.mem_filter.1 hl).1]; exact Nat.le_refl _
      obtain ⟨h1, h2⟩ := hi.react hr
      exact ⟨⟨h1.just, h1.sorted, h1.le, h1.qjust, h1.qsorted, h1.qge, h1.lo_le⟩, h2⟩

theorem Ord.round {n : Note I E} {l : List Nat} (h : Ord x lo ps) (hj : ∀ j, Justified x.calls (lo, j, n))
    (hg : l.foldlM (State.give R lo n) x = .ok y) : Ord y lo ps ∧ x.calls <+: y.calls := by
  induction l generalizing x with
  | nil =>
    simp only [List.foldlM_nil, pure, Except.pure, Except.ok.injEq] at hg
    subst hg
    exact ⟨h, List.prefix_refl _⟩
  | cons j l ih =>
    simp only [List.foldlM_cons, bind, Except.bind] at hg
    cases hr : State.give R lo n x j with
    | error f => rw [hr] at hg; cases hg
    | ok z =>
      rw [hr] at hg
      obtain ⟨h1, h2⟩ := h.give (hj j) hr
      obtain ⟨h3, h4⟩ := ih h1 (fun j => (hj j).prefix h2) hg
      exact ⟨h3, h2.trans h4⟩

theorem Ord.set_members (h : Ord x lo ps) (ms : List Nat) : Ord { x with members := ms } lo ps :=
  ⟨h.just, h.sorted, h.le, h.qjust, h.qsorted, h.qge, h.lo_le⟩

theorem Ord.set_closed (h : Ord x lo ps) (b : Bool) : Ord { x with closedFlag := b } lo ps :=
  ⟨h.just, h.sorted, h.le, h.qjust, h.qsorted, h.qge, h.lo_le⟩

theorem Ord.apply {d : Deferred I E} (h : Ord x lo ps)
    (hd : DJust x.calls (lo, d) ∨ d = .note .unsubscribe ∧
      ∃ m : Note I E, m.isTerminal = true ∧ DJust x.calls (lo, .note m))
    (hg : x.apply R ord lo d = .ok y) : Ord y lo ps ∧ x.calls <+: y.calls := by
  have key : ∀ n : Note I E, d = .note n → ∀ j, Justified x.calls (lo, j, n) := by
    rintro n rfl j
    rcases hd with hd | ⟨hd, m, hm, hm'⟩
    · exact .inl ⟨n, hd, .inl rfl⟩
    · cases hd
      exact .inl ⟨m, hm', .inr ⟨hm, rfl⟩⟩
  cases d with
  | note n =>
    cases n with
    | unsubscribe => exact (h.set_members []).round (by exact key _ rfl) hg
    | next v => exact h.round (key _ rfl) hg
    | error e => exact h.round (key _ rfl) hg
    | complete => exact h.round (key _ rfl) hg
  | cancel i =>
    simp only [State.apply] at hg
    split at hg
    · refine Ord.give (x := { x with members := x.members.filter (· != i) })
        (h.set_members (x.members.filter (· != i))) (.inr (.inl ⟨?_, rfl⟩)) hg
      rcases hd with hd | ⟨hd, -⟩
      · exact hd
      · cases hd
    · simp only [Except.ok.injEq] at hg
      subst hg
      exact ⟨h, List.prefix_refl _⟩
  | add i =>
    simp only [State.apply, Except.ok.injEq] at hg
    subst hg
    exact ⟨h.set_members _, List.prefix_refl _⟩

theorem Ord.pop {c : Nat} {d : Deferred I E} (h : Ord x lo ((c, d) :: ps)) :
    Ord x c ps ∧ DJust x.calls (c, d) := by
  have hd := h.qjust _ List.mem_cons_self
  refine ⟨⟨h.just, h.sorted, fun l hl => Nat.le_trans (h.le l hl) (h.qge _ List.mem_cons_self),
    fun d hd => h.qjust d (List.mem_cons_of_mem _ hd), (List.pairwise_cons.1 h.qsorted).2,
    (List.pairwise_cons.1 h.qsorted).1, Nat.le_of_lt hd.lt⟩, hd⟩

theorem Ord.applyChecked {d : Deferred I E} (h : Ord x lo ps) (hd : DJust x.calls (lo, d))
    (hg : x.applyChecked R ord lo d = .ok y) : Ord y lo ps := by
  unfold State.applyChecked at hg
  simp only [bind, Except.bind, pure, Except.pure] at hg
  cases hz : State.applyUnlessClosed R ord lo d x with
  | error f => rw [hz] at hg; cases hg
  | ok z =>
    rw [hz] at hg
    simp only at hg
    have h1 : Ord z lo ps ∧ x.calls <+: z.calls := by
      unfold State.applyUnlessClosed at hz
      split at hz
      · simp only [Except.ok.injEq] at hz
        subst hz
        exact ⟨h, List.prefix_refl _⟩
      · exact h.apply (.inl hd) hz
    cases hz' : State.drainAfter R ord lo d z with
    | error f => rw [hz'] at hg; cases hg
    | ok z' =>
      rw [hz'] at hg
      simp only [Except.ok.injEq] at hg
      have h2 : Ord z' lo ps := by
        unfold State.drainAfter at hz'
        split at hz'
        · rename_i ht
          refine (h1.1.apply (.inr ⟨rfl, ?_⟩) hz').1
          cases d with
          | note n => exact ⟨n, ht, hd.prefix h1.2⟩
          | cancel i => cases ht
          | add i => cases ht
        · simp only [Except.ok.injEq] at hz'
          subst hz'
          exact h1.1
      subst hg
      split
      · exact h2.set_closed _
      · exact h2

theorem Ord.applyOne {d : Nat × Deferred I E} (h : Ord x lo (d :: ps)) (hg : x.applyOne R ord d = .ok y) :
    Ord y d.1 ps := by
  obtain ⟨c, d⟩ := d
  obtain ⟨h1, h2⟩ := h.pop
  unfold State.applyOne at hg
  cases d with
  | note n => exact h1.applyChecked h2 hg
  | cancel i => exact h1.applyChecked h2 hg
  | add i =>
    simp only at hg
    split at hg
    · simp only [Except.ok.injEq] at hg
      subst hg
      exact h1
    · split at hg
      · exact (h1.give (.inr (.inr h2)) hg).1
      · exact h1.applyChecked h2 hg

theorem Ord.applyAll {q : List (Nat × Deferred I E)} (h : Ord x lo q)
    (hg : q.foldlM (State.applyOne R ord) x = .ok y) : ∃ lo', Ord y lo' [] := by
  induction q generalizing x lo with
  | nil =>
    simp only [List.foldlM_nil, pure, Except.pure, Except.ok.injEq] at hg
    subst hg
    exact ⟨lo, h⟩
  | cons d q ih =>
    simp only [List.foldlM_cons, bind, Except.bind] at hg
    cases hz : State.applyOne R ord x d with
    | error f => rw [hz] at hg; cases hg
    | ok z =>
      rw [hz] at hg
      exact ih (h.applyOne hz) hg

theorem Ord.take (h : Ord x lo []) : Ord { x with queue := [] } lo x.queue :=
  ⟨h.just, h.sorted, h.le, by simpa using h.qjust, by simpa using h.qsorted, by simpa using h.qge, h.lo_le⟩

theorem Ord.applyQueue {t : Nat} (h : Ord x lo [])
    (hg : State.applyQueue R ord t x = .ok y) : ∃ lo', Ord y lo' [] := by
  induction t generalizing x lo with
  | zero => cases hg
  | succ t ih =>
    simp only [State.applyQueue] at hg
    split at hg
    · simp only [Except.ok.injEq] at hg
      subst hg
      exact ⟨lo, h⟩
    · cases hz : x.queue.foldlM (State.applyOne R ord) { x with queue := [] } with
      | error f => rw [hz] at hg; cases hg
      | ok z =>
        rw [hz] at hg
        obtain ⟨lo', h'⟩ := h.take.applyAll hz
        exact ih (h'.set_members _) hg

theorem Ord.tryApplyDeferred (h : Ord x lo []) (hg : x.tryApplyDeferred R ord = .ok y) :
    ∃ lo', Ord y lo' [] := by
  unfold State.tryApplyDeferred at hg
  split at hg
  · simp only [Except.ok.injEq] at hg
    subst hg
    exact ⟨lo, h⟩
  · exact h.applyQueue hg

/-- Nothing is pending: the next call comes after everything. -/
theorem Ord.call (h : Ord x lo []) (hq : x.queue = []) (c : Call I E) :
    Ord (x.record c) x.calls.length [] ∧ (x.record c).calls[x.calls.length]? = some c := by
  have h1 : Ord (x.record c) lo [] := h.grow c rfl [] (by simp [State.record]) (by simp) (.inl rfl)
  refine ⟨⟨h1.just, h1.sorted, fun l hl => Nat.le_trans (h1.le l hl) h.lo_le, h1.qjust, h1.qsorted,
    fun d hd => ?_, by simp [State.record]⟩, by simp [State.record]⟩
  rw [show (x.record c).queue = [] from hq] at hd
  cases hd

theorem Ord.tryNote {n : Note I E} (h : Ord x x.now []) (hq : x.queue = [])
    (hd : DJust x.calls (x.now, .note n)) (hg : x.tryNote R ord n = .ok y) : ∃ lo', Ord y lo' [] := by
  unfold State.tryNote at hg
  rw [applyQueue_nil hq] at hg
  cases n with
  | unsubscribe => exact ⟨_, ((h.set_closed true).apply (.inl hd) hg).1⟩
  | next v => exact ⟨_, (h.apply (.inl hd) hg).1⟩
  | error e => exact ⟨_, (h.apply (.inl hd) hg).1⟩
  | complete => exact ⟨_, (h.apply (.inl hd) hg).1⟩

theorem Ord.note {n : Note I E} (h : Ord x lo []) (hq : x.queue = []) (hg : x.note R ord n = .ok y) :
    ∃ lo', Ord y lo' [] := by
  unfold State.note at hg
  obtain ⟨h1, h2⟩ := h.call hq (.note n)
  rw [← record_now x (.note n)] at h1 h2
  cases hz : (x.record (.note n)).noteDirect R ord n with
  | error f => rw [hz] at hg; cases hg
  | ok z =>
    rw [hz] at hg
    suffices ∃ lo', Ord z lo' [] by
      obtain ⟨lo', h'⟩ := this
      exact h'.tryApplyDeferred hg
    have key : ∀ z' : State S I E, z'.calls = (x.record (.note n)).calls → z'.log = (x.record (.note n)).log →
        z'.queue = [] → z'.tryNote R ord n = .ok z → ∃ lo', Ord z lo' [] := fun z' hc hl hq' hg => by
      have hn : z'.now = (x.record (.note n)).now := by simp only [State.now, hc]
      refine Ord.tryNote (x := z') ?_ hq' ?_ hg
      · rw [hn]
        have hr : rounds z' = rounds (x.record (.note n)) := by simp only [rounds, hc, hl]
        refine ⟨?_, ?_, ?_, ?_, ?_, ?_, ?_⟩
        · rw [hc, hl]; exact h1.just
        · rw [hr]; exact h1.sorted
        · rw [hr]; exact h1.le
        · rw [hq']; simp
        · rw [hq']; simp
        · rw [hq']; simp
        · rw [hc]; exact h1.lo_le
      · rw [hn, hc]; exact h2
    unfold State.noteDirect at hz
    cases n with
    | next v =>
      simp only at hz
      split at hz
      · simp only [Except.ok.injEq] at hz; subst hz; exact ⟨_, h1⟩
      · exact key _ (by rfl) (by rfl) (by exact hq) hz
    | error e =>
      simp only at hz
      split at hz
      · simp only [Except.ok.injEq] at hz; subst hz; exact ⟨_, h1⟩
      · exact key _ (by rfl) (by rfl) (by exact hq) hz
    | complete =>
      simp only at hz
      split at hz
      · simp only [Except.ok.injEq] at hz; subst hz; exact ⟨_, h1⟩
      · exact key _ (by rfl) (by rfl) (by exact hq) hz
    | unsubscribe =>
      simp only at hz
      split at hz
      · simp only [Except.ok.injEq] at hz; subst hz; exact ⟨_, h1⟩
      · exact key _ (by rfl) (by rfl) (by exact hq) hz

theorem Ord.set_held (h : Ord x lo ps) (f : Nat → Bool) : Ord { x with held := f } lo ps :=
  ⟨h.just, h.sorted, h.le, h.qjust, h.qsorted, h.qge, h.lo_le⟩

theorem Ord.subscribe {s : S} (h : Ord x lo []) (hg : x.subscribe R ord s = .ok y)
    (hq : ∀ z, x.tryApplyDeferred R ord = .ok z → z.queue = []) : ∃ lo', Ord y lo' [] := by
  unfold State.subscribe at hg
  cases hz : x.tryApplyDeferred R ord with
  | error f => rw [hz] at hg; cases hg
  | ok z =>
    have hq := hq z hz
    rw [hz] at hg
    simp only at hg
    obtain ⟨lo', h1⟩ := h.tryApplyDeferred hz
    cases hw : (z.record (.subscribe z.count)).greet R s with
    | error f => rw [hw] at hg; cases hg
    | ok w =>
      obtain ⟨ls, d, hw', hls⟩ := greet_log hw
      rw [hw] at hg
      simp only at hg
      rw [record_now] at hls
      have h2 : Ord w lo' [] := by
        subst hw'
        exact h1.grow _ rfl ls rfl (fun l hl => ⟨(hls l hl).1, by rw [(hls l hl).2]; rfl⟩) (.inl rfl)
      have hwq : w.queue = [] := by subst hw'; exact hq
      have hwc : w.calls = z.calls ++ [.subscribe z.count] := by subst hw'; rfl
      split at hg
      · simp only [Except.ok.injEq] at hg
        subst hg
        exact ⟨_, h2⟩
      · unfold State.tryAdd at hg
        rw [applyQueue_nil (by exact hwq)] at hg
        simp only [State.apply] at hg
        exact Ord.tryApplyDeferred
          ((h2.set_held fun k => if k = z.count then true else w.held k).set_members
            (w.members.filter (· != z.count) ++ [z.count])) hg

theorem Ord.cancel {i : Nat} (h : Ord x lo []) (hq : x.queue = []) (hg : x.cancel R ord i = .ok y) :
    ∃ lo', Ord y lo' [] := by
  unfold State.cancel at hg
  obtain ⟨h1, h2⟩ := h.call hq (.cancel i)
  rw [← record_now x (.cancel i)] at h1 h2
  cases hz : (x.record (.cancel i)).tryCancel R ord i with
  | error f => rw [hz] at hg; cases hg
  | ok z =>
    rw [hz] at hg
    simp only [Except.ok.injEq] at hg
    subst hg
    unfold State.tryCancel at hz
    split at hz
    · simp only [Except.ok.injEq] at hz
      subst hz
      exact ⟨_, h1.set_held _⟩
    · rw [applyQueue_nil (by exact hq)] at hz
      exact ⟨_, (h1.apply (d := .cancel i) (.inl h2) hz).1.set_held _⟩

end Ord

end Rx.Publish
