import Verif.Lemmas.PublishSubject
import Verif.Lemmas.Delivers

/-!
# The publish subject with subscribers that do not call back
-/

namespace Rx.Publish

variable {S I E : Type}

/-! ## Runs -/

section Run
variable {R : Dest S I E} {x y : State S I E} {ord : Nat → List Nat → List Nat}

theorem Idle.init (R : Dest S I E) (s : S) : Idle R (State.init s : State S I E) := by
  refine ⟨false, ⟨rfl, (fun h => by cases h), (fun _ => rfl), (fun _ => List.prefix_refl _), fun k hk => ?_,
    (fun k _ => ⟨rfl, rfl, rfl, by simp [State.init], rfl, rfl, by simp [State.init]⟩), (fun h => by cases h),
    List.nodup_nil, (fun _ => rfl), (fun _ _ _ => rfl)⟩, (fun h => by cases h)⟩
  exact absurd hk (Nat.not_lt_zero k)

theorem Ord.init (s : S) : Ord (State.init s : State S I E) 0 [] := by
  refine ⟨?_, ?_, ?_, ?_, ?_, ?_, Nat.zero_le _⟩ <;> simp [State.init, rounds]

theorem cancel_quiet (hR : Quiet R) (hq : x.queue = []) {i : Nat} (hg : x.cancel R ord i = .ok y) :
    y.queue = [] := by
  unfold State.cancel at hg
  cases hz : (x.record (.cancel i)).tryCancel R ord i with
  | error f => rw [hz] at hg; cases hg
  | ok z =>
    rw [hz] at hg
    simp only [Except.ok.injEq] at hg
    subst hg
    show z.queue = []
    unfold State.tryCancel at hz
    split at hz
    · simp only [Except.ok.injEq] at hz
      subst hz
      exact hq
    · rw [applyQueue_nil (by exact hq)] at hz
      simp only [State.apply] at hz
      split at hz
      · unfold State.give at hz
        split at hz
        · simp only [Except.ok.injEq] at hz
          subst hz
          exact hq
        · obtain ⟨s', hs'⟩ := hR (x.dest i)
          rw [show (({ (x.record (.cancel i)) with members := (x.record (.cancel i)).members.filter (· != i) } :
            State S I E).dest i) = x.dest i from rfl, hs'] at hz
          simp only [State.react, bind, Except.bind, pure, Except.pure, Except.ok.injEq] at hz
          subst hz
          exact hq
      · simp only [Except.ok.injEq] at hz
        subst hz
        exact hq

theorem run_cons {op : Op S I E} {ops : List (Op S I E)} :
    run R ord x (op :: ops) = match step R ord x op with
      | .ok y => run R ord y ops
      | .error f => .error f := by
  simp only [run, List.foldlM_cons, bind, Except.bind]
  cases step R ord x op <;> rfl

theorem run_settled (hR : Closes R) (hord : ∀ c l, (ord c l).Perm l) {ops : List (Op S I E)}
    (hq : (∀ i, .cancel i ∉ ops) ∨ Quiet R) {lo : Nat}
    (h : Idle R x) (ho : Ord x lo []) (hx : x.queue = []) (hr : run R ord x ops = .ok y) :
    Idle R y ∧ (∃ lo', Ord y lo' []) ∧ y.queue = [] := by
  induction ops generalizing x lo with
  | nil =>
    simp only [run, List.foldlM_nil, pure, Except.pure, Except.ok.injEq] at hr
    subst hr
    exact ⟨h, ⟨lo, ho⟩, hx⟩
  | cons op ops ih =>
    rw [run_cons] at hr
    have hq' : (∀ i, .cancel i ∉ ops) ∨ Quiet R := hq.imp (fun h i hi => h i (List.mem_cons_of_mem _ hi)) id
    cases hz : step R ord x op with
    | error f => rw [hz] at hr; cases hr
    | ok z =>
      rw [hz] at hr
      cases op with
      | note n =>
        obtain ⟨h1, h2⟩ := h.note hR hord hx hz
        obtain ⟨lo', h3⟩ := ho.note hx hz
        exact ih hq' h1 h3 h2 hr
      | subscribe s =>
        obtain ⟨h1, h2⟩ := h.subscribe hR hord hz
        obtain ⟨lo', h3⟩ := ho.subscribe hz fun w hw => (h.tryApplyDeferred hR hord hw).2
        exact ih hq' h1 h3 h2 hr
      | cancel i =>
        obtain ⟨lo', h3⟩ := ho.cancel hx hz
        rcases hq with hq | hq
        · exact absurd List.mem_cons_self (hq i)
        · exact ih hq' (h.cancel hR hx hz) h3 (cancel_quiet hq hx hz) hr

theorem round_closed (c : Nat) (n : Note I E) (l : List Nat) (h : ∀ k ∈ l, R.isClosed (x.dest k) = true) :
    l.foldlM (State.give R c n) x = .ok x := by
  induction l with
  | nil => rfl
  | cons j l ih =>
    have : State.give R c n x j = .ok x := by
      unfold State.give
      rw [if_pos (h j List.mem_cons_self)]
    simp only [List.foldlM_cons, bind, Except.bind, this]
    exact ih fun k hk => h k (List.mem_cons_of_mem _ hk)

/-- Notifications sent to a subject that has ended reach nobody. -/
theorem note_ended (hR : Closes R) (hord : ∀ c l, (ord c l).Perm l) (h : Idle R x) (hq : x.queue = [])
    (hc : x.isClosed = true) (n : Note I E) :
    ∃ y, x.note R ord n = .ok y ∧ Idle R y ∧ y.queue = [] ∧ y.isClosed = true ∧ y.dest = x.dest := by
  have key : ∃ y, x.note R ord n = .ok y ∧ y.isClosed = true ∧ y.dest = x.dest := by
    have hrec : (x.record (.note n)).isClosed = true := hc
    have hsame : (x.record (.note n)).tryApplyDeferred R ord = .ok (x.record (.note n)) :=
      tryApplyDeferred_nil hq
    unfold State.note
    cases n with
    | next v =>
      simp only [State.noteDirect, hrec, if_true, hsame]
      exact ⟨_, rfl, hc, rfl⟩
    | error e =>
      simp only [State.noteDirect, hrec, if_true, hsame]
      exact ⟨_, rfl, hc, rfl⟩
    | complete =>
      simp only [State.noteDirect, hrec, if_true, hsame]
      exact ⟨_, rfl, hc, rfl⟩
    | unsubscribe =>
      simp only [State.noteDirect]
      by_cases hu : (x.record (.note .unsubscribe)).unsubscribed = true
      · simp only [hu, if_true, hsame]
        exact ⟨_, rfl, hc, rfl⟩
      · simp only [hu, Bool.false_eq_true, if_false, State.tryNote]
        rw [applyQueue_nil (by exact hq)]
        simp only [State.apply]
        obtain ⟨c0, hi, -⟩ := h
        have hc0 : c0 = true := (hi.c0_eq hq).trans hc
        rw [round_closed]
        · simp only
          rw [tryApplyDeferred_nil (by exact hq)]
          exact ⟨_, rfl, by simp [State.isClosed], rfl⟩
        · intro k hk
          have hk' := (hord _ _).mem_iff.1 hk
          cases hcl : R.isClosed (x.dest k) with
          | true => exact hcl
          | false => exact absurd rfl (hi.about hc0 k hk' hcl (fun h => h))
  obtain ⟨y, hy, h1, h2⟩ := key
  obtain ⟨h3, h4⟩ := h.note hR hord hq hy
  exact ⟨y, hy, h3, h4, h1, h2⟩

theorem notes_ended (hR : Closes R) (hord : ∀ c l, (ord c l).Perm l) (h : Idle R x) (hq : x.queue = [])
    (hc : x.isClosed = true) (ns : List (Note I E)) :
    ∃ y, run R ord x (ns.map .note) = .ok y ∧ y.dest = x.dest := by
  induction ns generalizing x with
  | nil => exact ⟨x, rfl, rfl⟩
  | cons n ns ih =>
    obtain ⟨z, hz, h1, h2, h3, h4⟩ := note_ended hR hord h hq hc n
    obtain ⟨y, hy, h5⟩ := ih h1 h2 h3
    refine ⟨y, ?_, h5.trans h4⟩
    rw [List.map_cons, run_cons]
    simpa only [step, hz] using hy

end Run

/-- A closing notification is the last. -/
theorem trunc_last {ns pre post : List (Note I E)} {n : Note I E} (h : trunc ns = ns)
    (he : ns = pre ++ n :: post) (hn : n.isClosing = true) : post = [] := by
  subst he
  induction pre with
  | nil =>
    rw [List.nil_append, trunc, if_pos hn] at h
    exact (List.cons.inj h).2.symm
  | cons a pre ih =>
    rw [List.cons_append, trunc] at h
    split at h
    · have := (List.cons.inj h).2
      simp at this
    · exact ih (List.cons.inj h).2

/-- Something that has ended does not go on. -/
theorem prefix_trunc {a b : List (Note I E)} (h : a <+: b) (ha : hasClosing a = true) (hb : trunc b = b) :
    a = b := by
  obtain ⟨t, rfl⟩ := h
  rw [trunc_append, ha, if_pos rfl] at hb
  have h1 : (trunc a).length ≤ a.length := by
    clear hb ha
    induction a with
    | nil => simp [trunc]
    | cons n a ih =>
      simp only [trunc]
      split
      · simp
      · simp; exact ih
  have h2 := congrArg List.length hb
  simp at h2
  have : t.length = 0 := by omega
  rw [List.length_eq_zero_iff.1 this, List.append_nil]

@[simp] theorem startsOf_note (n : Note I E) (ops : List (Op S I E)) : startsOf (.note n :: ops) = startsOf ops := rfl
@[simp] theorem startsOf_cancel (i : Nat) (ops : List (Op S I E)) : startsOf (.cancel i :: ops) = startsOf ops := rfl
@[simp] theorem startsOf_subscribe (s : S) (ops : List (Op S I E)) :
    startsOf (.subscribe s :: ops) = s :: startsOf ops := rfl

/-! ## No call-backs -/

section Passive
variable {D : Sub S I E} {x y : State S I E} {ord : Nat → List Nat → List Nat}

theorem passive_quiet (D : Sub S I E) : Quiet (passive D) := fun s => ⟨D.unsubscribe s, rfl⟩

/-- Subscribers are as they were when they were subscribed, plus what they were given. -/
structure Fed (D : Sub S I E) (x : State S I E) (calls : List (Call I E)) (starts : List S) : Prop where
  queue : x.queue = []
  calls : x.calls = calls
  count : x.count = starts.length
  dest : ∀ k s, starts[k]? = some s → x.dest k = D.run s (received k x)

variable {calls : List (Call I E)} {starts : List S}

theorem Fed.give (h : Fed D x calls starts) (c : Nat) (n : Note I E) (j : Nat) :
    ∃ y, State.give (passive D) c n x j = .ok y ∧ Fed D y calls starts := by
  unfold State.give
  split
  · exact ⟨x, rfl, h⟩
  · refine ⟨_, rfl, h.queue, h.calls, h.count, fun k s hs => ?_⟩
    show (if k = j then D.push (x.dest j) n else x.dest k) = D.run s (received k { x with log := x.log ++ [(c, j, n)] })
    rw [received_log]
    have := h.dest k s hs
    by_cases hk : k = j
    · subst hk
      rw [if_pos rfl, if_pos rfl, this]
      simp [Sub.run]
    · rw [if_neg hk, if_neg (fun h => hk h.symm), this]
      simp

theorem Fed.round (h : Fed D x calls starts) (c : Nat) (n : Note I E) (l : List Nat) :
    ∃ y, l.foldlM (State.give (passive D) c n) x = .ok y ∧ Fed D y calls starts := by
  induction l generalizing x with
  | nil => exact ⟨x, rfl, h⟩
  | cons j l ih =>
    obtain ⟨z, hz, h1⟩ := h.give c n j
    obtain ⟨y, hy, h2⟩ := ih h1
    exact ⟨y, by simp only [List.foldlM_cons, bind, Except.bind, hz, hy], h2⟩

theorem Fed.congr (h : Fed D x calls starts) (hq : y.queue = x.queue) (hc : y.calls = x.calls)
    (hn : y.count = x.count) (hd : y.dest = x.dest) (hl : y.log = x.log) : Fed D y calls starts := by
  refine ⟨hq.trans h.queue, hc.trans h.calls, hn.trans h.count, fun k s hs => ?_⟩
  rw [hd, h.dest k s hs]
  simp only [received, hl]

theorem Fed.apply (h : Fed D x calls starts) (c : Nat) (d : Deferred I E) :
    ∃ y, x.apply (passive D) ord c d = .ok y ∧ Fed D y calls starts := by
  cases d with
  | note n =>
    cases n with
    | unsubscribe =>
      simp only [State.apply]
      exact Fed.round (Fed.congr h (by rfl) (by rfl) (by rfl) (by rfl) (by rfl)) c _ _
    | next v => exact h.round c _ _
    | error e => exact h.round c _ _
    | complete => exact h.round c _ _
  | cancel i =>
    simp only [State.apply]
    split
    · exact Fed.give (Fed.congr h (by rfl) (by rfl) (by rfl) (by rfl) (by rfl)) c _ _
    · exact ⟨x, rfl, h⟩
  | add i => exact ⟨_, rfl, h.congr rfl rfl rfl rfl rfl⟩

theorem Fed.tryNote (h : Fed D x calls starts) (n : Note I E) :
    ∃ y, x.tryNote (passive D) ord n = .ok y ∧ Fed D y calls starts := by
  unfold State.tryNote
  rw [applyQueue_nil h.queue]
  cases n with
  | unsubscribe =>
    exact Fed.apply (x := { x with closedFlag := true }) (h.congr rfl rfl rfl rfl rfl) _ _
  | next v => exact h.apply _ _
  | error e => exact h.apply _ _
  | complete => exact h.apply _ _

theorem Fed.record (h : Fed D x calls starts) (c : Call I E) : Fed D (x.record c) (calls ++ [c]) starts :=
  ⟨h.queue, by simp [State.record, h.calls], h.count, h.dest⟩

theorem Fed.note (h : Fed D x calls starts) (n : Note I E) :
    ∃ y, x.note (passive D) ord n = .ok y ∧ Fed D y (calls ++ [.note n]) starts := by
  have h' := h.record (.note n)
  have key : ∃ z, (x.record (.note n)).noteDirect (passive D) ord n = .ok z ∧
      Fed D z (calls ++ [.note n]) starts := by
    unfold State.noteDirect
    cases n with
    | next v =>
      simp only
      split
      · exact ⟨_, rfl, h'⟩
      · exact h'.tryNote _
    | error e =>
      simp only
      split
      · exact ⟨_, rfl, h'⟩
      · exact Fed.tryNote (Fed.congr h' (by rfl) (by rfl) (by rfl) (by rfl) (by rfl)) _
    | complete =>
      simp only
      split
      · exact ⟨_, rfl, h'⟩
      · exact Fed.tryNote (Fed.congr h' (by rfl) (by rfl) (by rfl) (by rfl) (by rfl)) _
    | unsubscribe =>
      simp only
      split
      · exact ⟨_, rfl, h'⟩
      · exact Fed.tryNote (Fed.congr h' (by rfl) (by rfl) (by rfl) (by rfl) (by rfl)) _
  obtain ⟨z, hz, h1⟩ := key
  refine ⟨z, ?_, h1⟩
  unfold State.note
  rw [hz]
  exact tryApplyDeferred_nil h1.queue

theorem replay_passive (z : State S I E) (i : Nat) (s : S) :
    ∃ ls : List (Note I E), z.replay (passive D) i s =
      .ok (D.run s ls, { z with log := z.log ++ ls.map fun n => (z.now, i, n) }) := by
  unfold State.replay
  split
  · rename_i e _; exact ⟨[.error e], rfl⟩
  · split
    · exact ⟨[.complete], rfl⟩
    · exact ⟨[], by simp [pure, Except.pure, Sub.run]⟩

theorem greet_passive (z : State S I E) (s : S) :
    ∃ ls : List (Note I E), z.greet (passive D) s =
      .ok (State.setDest { z with count := z.count + 1, log := z.log ++ ls.map fun n => (z.now, z.count, n) }
        z.count (D.run s ls)) := by
  obtain ⟨ls, hls⟩ := replay_passive (D := D) { z with count := z.count + 1 } z.count s
  unfold State.greet
  simp only [bind, Except.bind, hls]
  split
  · refine ⟨ls ++ [.unsubscribe], ?_⟩
    simp [passive, State.pushQuiet, pure, Except.pure, State.now, Sub.run]
  · exact ⟨ls, rfl⟩

theorem Fed.greet (h : Fed D x calls starts) (hfresh : received x.count x = []) (s : S) :
    ∃ y, (x.record (.subscribe x.count)).greet (passive D) s = .ok y ∧
      Fed D y (calls ++ [.subscribe x.count]) (starts ++ [s]) := by
  have key : ∀ (ls : List (Note I E)) (t : S), t = D.run s ls →
      Fed D (State.setDest { (x.record (.subscribe x.count)) with
        count := x.count + 1
        log := x.log ++ ls.map fun n => ((x.record (.subscribe x.count)).now, x.count, n) } x.count t)
        (calls ++ [.subscribe x.count]) (starts ++ [s]) := by
    intro ls t ht
    refine ⟨h.queue, by simp [State.record, State.setDest, h.calls], by simp [State.setDest, h.count],
      fun k s' hs' => ?_⟩
    show (if k = x.count then t else x.dest k) = D.run s' ((x.log ++ ls.map fun n =>
      ((x.record (.subscribe x.count)).now, x.count, n)).filterMap
        fun l => if l.2.1 = k then some l.2.2 else none)
    rw [List.filterMap_append]
    by_cases hk : k = x.count
    · subst hk
      rw [h.count] at hs'
      simp only [List.getElem?_append_right (Nat.le_refl _), Nat.sub_self, List.getElem?_cons_zero,
        Option.some.injEq] at hs'
      subst hs'
      have h0 : x.log.filterMap (fun l => if l.2.1 = x.count then some l.2.2 else none) = [] := hfresh
      rw [h0, if_pos rfl, ht, List.filterMap_map]
      congr 1
      simp [Function.comp_def]
    · rw [if_neg hk]
      have hk' : k < starts.length := by
        have := (List.getElem?_eq_some_iff.1 hs').1
        rw [List.length_append, List.length_singleton, ← h.count] at this
        rw [← h.count]; omega
      rw [List.getElem?_append_left hk'] at hs'
      rw [h.dest k s' hs']
      have : (ls.map fun n => ((x.record (.subscribe x.count)).now, x.count, n)).filterMap
          (fun l => if l.2.1 = k then some l.2.2 else none) = [] := by
        rw [List.filterMap_map]
        have hk'' : ¬ x.count = k := fun h => hk h.symm
        simp [Function.comp_def, hk'']
      rw [this, List.append_nil]
      rfl
  obtain ⟨ls, hls⟩ := greet_passive (D := D) (x.record (.subscribe x.count)) s
  exact ⟨_, hls, key ls _ rfl⟩

theorem Fed.subscribe (hD : Closes (passive D)) (hord : ∀ c l, (ord c l).Perm l) (h : Fed D x calls starts)
    (hi : Idle (passive D) x) (s : S) :
    ∃ y, x.subscribe (passive D) ord s = .ok y ∧
      Fed D y (calls ++ [.subscribe starts.length]) (starts ++ [s]) := by
  obtain ⟨c0, hi, -⟩ := hi
  obtain ⟨y, hy, h1⟩ := h.greet (hi.fresh x.count (Nat.le_refl _)).1 s
  rw [← h.count]
  unfold State.subscribe
  rw [tryApplyDeferred_nil h.queue]
  simp only [hy]
  split
  · exact ⟨_, rfl, h1⟩
  · unfold State.tryAdd
    rw [applyQueue_nil (by exact h1.queue)]
    simp only [State.apply]
    rw [tryApplyDeferred_nil (by exact h1.queue)]
    exact ⟨_, rfl, Fed.congr h1 (by rfl) (by rfl) (by rfl) (by rfl) (by rfl)⟩

theorem Fed.cancel (h : Fed D x calls starts) (i : Nat) :
    ∃ y, x.cancel (passive D) ord i = .ok y ∧ Fed D y (calls ++ [.cancel i]) starts := by
  have h' := h.record (.cancel i)
  have key : ∃ z, (x.record (.cancel i)).tryCancel (passive D) ord i = .ok z ∧
      Fed D z (calls ++ [.cancel i]) starts := by
    unfold State.tryCancel
    split
    · exact ⟨_, rfl, h'⟩
    · rw [applyQueue_nil h'.queue]
      exact h'.apply _ _
  obtain ⟨z, hz, h1⟩ := key
  unfold State.cancel
  rw [hz]
  exact ⟨_, rfl, Fed.congr h1 (by rfl) (by rfl) (by rfl) (by rfl) (by rfl)⟩

theorem Fed.run (hD : Closes (passive D)) (hord : ∀ c l, (ord c l).Perm l) (ops : List (Op S I E))
    (h : Fed D x calls starts) (hi : Idle (passive D) x) :
    ∃ y, Publish.run (passive D) ord x ops = .ok y ∧ Idle (passive D) y ∧
      Fed D y (calls ++ callsFrom starts.length ops) (starts ++ startsOf ops) := by
  induction ops generalizing x calls starts with
  | nil => exact ⟨x, rfl, hi, by simpa [callsFrom, startsOf, Op.subscriber] using h⟩
  | cons op ops ih =>
    rw [run_cons]
    cases op with
    | note n =>
      obtain ⟨z, hz, h1⟩ := h.note (ord := ord) n
      obtain ⟨y, hy, h2, h3⟩ := ih h1 (hi.note hD hord h.queue hz).1
      refine ⟨y, by simpa only [step, hz] using hy, h2, ?_⟩
      simpa [callsFrom] using h3
    | subscribe s =>
      obtain ⟨z, hz, h1⟩ := h.subscribe hD hord hi s
      obtain ⟨y, hy, h2, h3⟩ := ih h1 (hi.subscribe hD hord hz).1
      refine ⟨y, by simpa only [step, hz] using hy, h2, ?_⟩
      simpa [callsFrom] using h3
    | cancel i =>
      obtain ⟨z, hz, h1⟩ := h.cancel (ord := ord) i
      obtain ⟨y, hy, h2, h3⟩ := ih h1 (hi.cancel hD h.queue hz)
      refine ⟨y, by simpa only [step, hz] using hy, h2, ?_⟩
      simpa [callsFrom] using h3

theorem passive_run (hD : Closes (passive D)) (hord : ∀ c l, (ord c l).Perm l) (s0 : S)
    (ops : List (Op S I E)) :
    ∃ x, Publish.run (passive D) ord (State.init s0) ops = .ok x ∧ Idle (passive D) x ∧
      Fed D x (callsOf ops) (startsOf ops) := by
  have h0 : Fed D (State.init s0 : State S I E) [] [] :=
    ⟨rfl, rfl, rfl, fun k s hs => by simp at hs⟩
  obtain ⟨x, h1, h2, h3⟩ := h0.run hD hord ops (Idle.init _ _)
  exact ⟨x, h1, h2, by simpa [callsOf] using h3⟩

end Passive

/-! ## What is expected, from the calls -/

theorem callsFrom_append (i : Nat) (a b : List (Op S I E)) :
    callsFrom i (a ++ b) = callsFrom i a ++ callsFrom (i + (startsOf a).length) b := by
  induction a generalizing i with
  | nil => simp [callsFrom, startsOf]
  | cons op a ih =>
    cases op with
    | note n => simp [callsFrom, ih]
    | subscribe s =>
      simp only [List.cons_append, callsFrom, ih, startsOf_subscribe, List.length_cons]
      rw [show i + 1 + (startsOf a).length = i + ((startsOf a).length + 1) by omega]
    | cancel k => simp [callsFrom, ih]

/-- Before it is subscribed. -/
theorem view_before (k : Nat) (ops : List (Op S I E)) (i : Nat) (hk : i + (startsOf ops).length ≤ k)
    (v : View I E) (hm : v.member = false) :
    (callsFrom i ops).foldl (View.step k) v =
      { v with ended := v.ended.or (endOf ops) } := by
  induction ops generalizing i v with
  | nil => simp [callsFrom, endOf]
  | cons op ops ih =>
    cases op with
    | note n =>
      simp only [callsFrom, List.foldl_cons]
      have hk' : i + (startsOf ops).length ≤ k := by simpa using hk
      have he : endOf (.note n :: ops) = if n.isClosing then some n else endOf ops := by
        show (n :: ops.filterMap Op.sent).find? _ = _
        rw [List.find?_cons]
        cases n.isClosing <;> rfl
      cases hv : v.ended with
      | some m =>
        have : View.step k v (.note n) = v := by simp [View.step, hv]
        rw [this, ih i hk' v hm, hv]
        simp
      | none =>
        have : View.step k v (.note n) = { v with ended := if n.isClosing then some n else none } := by
          simp [View.step, hv, hm]
        rw [this, ih i hk' { v with ended := if n.isClosing then some n else none } hm, he]
        by_cases hn : n.isClosing = true <;> simp [hn]
    | subscribe s =>
      simp only [callsFrom, List.foldl_cons]
      have hk' : i + 1 + (startsOf ops).length ≤ k := by
        have : (startsOf (.subscribe s :: ops)).length = (startsOf ops).length + 1 := by simp
        omega
      have : View.step k v (.subscribe i) = v := by
        simp only [View.step]
        rw [if_pos (by omega)]
      rw [this, ih (i + 1) hk' v hm]
      rfl
    | cancel j =>
      simp only [callsFrom, List.foldl_cons]
      have hk' : i + (startsOf ops).length ≤ k := by simpa using hk
      have : View.step k v (.cancel j) = v := by simp [View.step, hm]
      rw [this, ih i hk' v hm]
      rfl

/-- When it is no longer subscribed, or the subject has ended. -/
theorem view_after (k : Nat) (ops : List (Op S I E)) (i : Nat) (hk : k < i)
    (v : View I E) (hm : v.member = false ∨ v.ended.isSome = true) :
    ((callsFrom i ops).foldl (View.step k) v).out = v.out := by
  induction ops generalizing i v with
  | nil => simp [callsFrom]
  | cons op ops ih =>
    cases op with
    | note n =>
      simp only [callsFrom, List.foldl_cons]
      cases hv : v.ended with
      | some m =>
        have : View.step k v (.note n) = v := by simp [View.step, hv]
        rw [this, ih i hk v hm]
      | none =>
        rw [hv] at hm
        have hm' : v.member = false := by simpa using hm
        have : View.step k v (.note n) = { v with ended := if n.isClosing then some n else none } := by
          simp [View.step, hv, hm']
        rw [this, ih i hk { v with ended := if n.isClosing then some n else none } (.inl hm')]
    | subscribe s =>
      simp only [callsFrom, List.foldl_cons]
      have : View.step k v (.subscribe i) = v := by
        simp only [View.step]
        rw [if_pos (by omega)]
      rw [this, ih (i + 1) (by omega) v hm]
    | cancel j =>
      simp only [callsFrom, List.foldl_cons]
      have : View.step k v (.cancel j) = v := by
        simp only [View.step]
        rw [if_neg]
        rintro ⟨-, h1, h2⟩
        rcases hm with hm | hm
        · rw [hm] at h1; cases h1
        · rw [h2] at hm; cases hm
      rw [this, ih i hk v hm]

/-- While it is subscribed. -/
theorem view_during (k : Nat) (ops : List (Op S I E)) (i : Nat) (hk : k < i)
    (v : View I E) (hm : v.member = true) (he : v.ended = none) :
    ((callsFrom i ops).foldl (View.step k) v).out = v.out ++ window k ops := by
  induction ops generalizing i v with
  | nil => simp [callsFrom, window]
  | cons op ops ih =>
    cases op with
    | note n =>
      simp only [callsFrom, List.foldl_cons, window]
      have : View.step k v (.note n) =
          { v with ended := if n.isClosing then some n else none, out := v.out ++ [n] } := by
        simp [View.step, he, hm]
      rw [this]
      by_cases hn : n.isClosing = true
      · rw [if_pos hn, if_pos hn, view_after k ops i hk _ (.inr rfl)]
      · rw [if_neg hn, if_neg hn, ih i hk { v with ended := none, out := v.out ++ [n] } hm rfl]
        simp
    | subscribe s =>
      simp only [callsFrom, List.foldl_cons, window]
      have : View.step k v (.subscribe i) = v := by
        simp only [View.step]
        rw [if_pos (by omega)]
      rw [this, ih (i + 1) (by omega) v hm he]
    | cancel j =>
      simp only [callsFrom, List.foldl_cons, window]
      by_cases hj : j = k
      · have : View.step k v (.cancel j) = { v with member := false, out := v.out ++ [.unsubscribe] } := by
          simp [View.step, hj, hm, he]
        rw [this, if_pos hj, view_after k ops i hk _ (.inl rfl)]
      · have : View.step k v (.cancel j) = v := by simp [View.step, hj]
        rw [this, if_neg hj, ih i hk v hm he]

theorem expected_open (a b : List (Op S I E)) (s : S) (h : endOf a = none) :
    expected (startsOf a).length (callsOf (a ++ .subscribe s :: b)) = window (startsOf a).length b := by
  unfold expected view callsOf
  rw [callsFrom_append, List.foldl_append, view_before _ a 0 (by simp) _ rfl, h]
  simp only [callsFrom, List.foldl_cons, Nat.zero_add]
  rw [view_during _ _ _ (Nat.lt_succ_self _) _ (by simp [View.step]) (by simp [View.step])]
  simp [View.step]

theorem expected_ended (a b : List (Op S I E)) (s : S) {n : Note I E} (h : endOf a = some n) :
    expected (startsOf a).length (callsOf (a ++ .subscribe s :: b)) = [n] := by
  unfold expected view callsOf
  rw [callsFrom_append, List.foldl_append, view_before _ a 0 (by simp) _ rfl, h]
  simp only [callsFrom, List.foldl_cons, Nat.zero_add]
  rw [view_after _ _ _ (Nat.lt_succ_self _) _ (.inr (by simp [View.step]))]
  simp [View.step]

theorem trunc_window (k : Nat) (ops : List (Op S I E)) : trunc (window k ops) = window k ops := by
  induction ops with
  | nil => rfl
  | cons op ops ih =>
    cases op with
    | note n =>
      simp only [window]
      by_cases hn : n.isClosing = true
      · simp [hn, trunc]
      · simp [hn, trunc, ih]
    | subscribe s => simpa [window] using ih
    | cancel j =>
      simp only [window]
      split
      · simp [trunc, SubscriberNotification.isClosing]
      · exact ih

/-! ## Observers -/

theorem observer_closes (I E : Type) : Closes (passive (observerSubscriber I E)) := by
  intro s n hn
  show (observerSubscriber I E).isClosed ((observerSubscriber I E).push s n) = true
  have hl := observerSubscriber_lawful I E
  cases n with
  | next v => cases hn
  | error e => exact hl.errorCloses rfl s e trivial
  | complete => exact hl.completeCloses s trivial
  | unsubscribe => exact hl.unsubscribeCloses s trivial

theorem observer_open_push (s : ObsState I E) (h : s.teardown.isClosed = false) (n : Note I E) :
    ((observerSubscriber I E).push s n).seen = s.seen ++ (asObserved n).toList ∧
      ((observerSubscriber I E).push s n).teardown.isClosed = n.isClosing := by
  have hs : ∀ (l : List Nat), (l.map (Event.tornDown (I := I) (E := E))).filterMap Event.asSeen = [] := by
    intro l; rw [List.filterMap_map]; simp [Function.comp_def, Event.asSeen]
  cases n with
  | next v =>
    simp [Sub.push, observerSubscriber, h, ObsState.seen, Event.asSeen, asObserved,
      SubscriberNotification.isClosing, SubscriberNotification.isTerminal]
  | error e =>
    simp [Sub.push, observerSubscriber, h, ObsState.seen, Event.asSeen, asObserved,
      SubscriberNotification.isClosing, SubscriberNotification.isTerminal, ObsState.unsubscribe,
      SubscriptionData.unsubscribe, hs]
    rfl
  | complete =>
    simp [Sub.push, observerSubscriber, h, ObsState.seen, Event.asSeen, asObserved,
      SubscriberNotification.isClosing, SubscriberNotification.isTerminal, ObsState.unsubscribe,
      SubscriptionData.unsubscribe, hs]
    rfl
  | unsubscribe =>
    simp [Sub.push, observerSubscriber, h, ObsState.seen, Event.asSeen, asObserved,
      SubscriberNotification.isClosing, SubscriberNotification.isTerminal, ObsState.unsubscribe,
      SubscriptionData.unsubscribe, hs]
    rfl

theorem observer_run (ns : List (Note I E)) (hns : trunc ns = ns) (s : ObsState I E)
    (h : s.teardown.isClosed = false) :
    ((observerSubscriber I E).run s ns).seen = s.seen ++ ns.filterMap asObserved ∧
      ((observerSubscriber I E).run s ns).teardown.isClosed = hasClosing ns := by
  induction ns generalizing s with
  | nil => simpa [Sub.run, hasClosing] using h
  | cons n ns ih =>
    obtain ⟨h1, h2⟩ := observer_open_push s h n
    have hr : (observerSubscriber I E).run s (n :: ns) =
      (observerSubscriber I E).run ((observerSubscriber I E).push s n) ns := rfl
    by_cases hn : n.isClosing = true
    · have : ns = [] := by
        rw [trunc, if_pos hn] at hns
        exact (List.cons.inj hns).2.symm
      subst this
      rw [hr]
      refine ⟨?_, ?_⟩
      · show ((observerSubscriber I E).push s n).seen = _
        rw [h1]
        cases hn' : asObserved n <;> simp [hn']
      · show ((observerSubscriber I E).push s n).teardown.isClosed = _
        rw [h2]; simp [hasClosing]
    · rw [trunc, if_neg hn] at hns
      rw [hr]
      obtain ⟨h3, h4⟩ := ih (List.cons.inj hns).2 _ (by rw [h2]; simpa using hn)
      refine ⟨?_, ?_⟩
      · rw [h3, h1]
        cases hn' : asObserved n <;> simp [hn']
      · rw [h4]; simp [hasClosing, hn]

/-- A fresh observer sees everything it should. -/
theorem observer_exact {x : State (ObsState I E) I E} {calls : List (Call I E)} {starts : List (ObsState I E)}
    (hi : Idle (passive (observerSubscriber I E)) x)
    (hf : Fed (observerSubscriber I E) x calls starts) {k : Nat} (hk : starts[k]? = some ObsState.new)
    (ht : trunc (expected k calls) = expected k calls) :
    (x.dest k).seen = (expected k calls).filterMap asObserved ∧
      (observerSubscriber I E).isClosed (x.dest k) = hasClosing (expected k calls) := by
  obtain ⟨c0, hi, -⟩ := hi
  have hlt : k < x.count := by rw [hf.count]; exact (List.getElem?_eq_some_iff.1 hk).1
  obtain ⟨h1, h2⟩ := observer_run (received k x) (hi.grammar k) ObsState.new rfl
  rw [← hf.dest k _ hk] at h1 h2
  have he : received k x = expected k calls := by
    have hp := hi.pre k
    rw [hf.calls] at hp
    cases hc : hasClosing (received k x) with
    | true => exact prefix_trunc hp hc ht
    | false =>
      have hop : (passive (observerSubscriber I E)).isClosed (x.dest k) = false := h2.trans hc
      have := (hi.per k hlt hop (fun h => h)).out
      have hq : x.queue = [] := hf.queue
      have hmem := hi.per k hlt hop (fun h => h)
      rw [hf.calls, hq] at this
      simpa [raw, trunc, expected] using this.symm
  rw [he] at h1 h2
  exact ⟨by rw [h1]; simp [ObsState.seen, ObsState.new], h2⟩

end Rx.Publish
