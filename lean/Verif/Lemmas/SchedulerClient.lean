import Verif.Model.SchedulerClient
import Verif.Lemmas.SchedulerExec

/-!
# Every history on the executor is one of the small machine

`solo_of_run` and `solo_of_tick`.
-/

namespace Rx.Sched

variable {c : Client} {R : Rest c}

/-- The work with the operator's closures only. -/
def Work.left {A B : Type} : Work (A ⊕ B) → Option (Work A)
  | .delayed none s c d => some (.delayed none s c d)
  | .delayed (some (.inl a)) s c d => some (.delayed (some a) s c d)
  | .delayed (some (.inr _)) _ _ _ => none
  | .immediate none => some (.immediate none)
  | .immediate (some (.inl a)) => some (.immediate (some a))
  | .immediate (some (.inr _)) => none
  | .repeating si cu c i m (.inl a) => some (.repeating si cu c i m a)
  | .repeating _ _ _ _ _ (.inr _) => none
  | .continuous l (.inl a) => some (.continuous l a)
  | .continuous _ (.inr _) => none
  | .invoked (.inl a) => some (.invoked a)
  | .invoked (.inr _) => none

theorem Work.left_map {A B : Type} (w : Work A) : (w.map (Sum.inl : A → A ⊕ B)).left = some w := by
  cases w with
  | delayed w s c d => cases w <;> rfl
  | immediate w => cases w <;> rfl
  | repeating => rfl
  | continuous => rfl
  | invoked => rfl

theorem Work.onScheduled_map {A B : Type} (f : A → B) (t : Nat) (w : Work A) :
    (w.map f).onScheduled t = (w.onScheduled t).map f := by
  cases w <;> rfl

/-- The operator's part of an action. -/
def Action.own {A B : Type} : Action (A ⊕ B) → Option (Req A)
  | .activate cid _ w => if cid = ownCid then w.left.map .schedule else none
  | .cancel cid => if cid = ownCid then some .cancel else none
  | _ => none

/-- An action that keeps to the rules. -/
def Action.Fair {A B : Type} : Action (A ⊕ B) → Prop
  | .activate cid _ w => (cid = ownCid → ∃ v : Work A, w = v.map .inl) ∧ (cid ≠ ownCid → ∃ v : Work B, w = v.map .inr)
  | .addInvoked _ w => ∃ v : Work B, w = v.map .inr
  | _ => True

/-- The scheduler as the small machine sees it. -/
structure SView {A B : Type} (sc : Scheduler (A ⊕ B)) (clock : Nat) (queue : List (Req A)) : Prop where
  clock : sc.currentTick = clock
  queue : sc.queue.filterMap Action.own = queue
  fair : ∀ a ∈ sc.queue, a.Fair

/-- The world as the small machine sees it. -/
structure WView (w : World R.env) (s : Solo c) : Prop where
  st : w.ctx.1 = s.st
  sched : SView w.sched s.clock s.queue

/-! ## The steps of the small machine keep what they do not touch -/

namespace Solo

theorem request_keep (s : Solo c) (r : Req c.B) :
    (s.request r).active = s.active ∧ (s.request r).tick = s.tick ∧ (s.request r).clock = s.clock ∧
      (s.request r).st = s.st := by
  cases r <;> simp [request]

theorem requests_keep (rs : List (Req c.B)) (s : Solo c) :
    (rs.foldl request s).active = s.active ∧ (rs.foldl request s).tick = s.tick ∧
      (rs.foldl request s).clock = s.clock ∧ (rs.foldl request s).st = s.st := by
  induction rs generalizing s with
  | nil => simp
  | cons r rs ih =>
    obtain ⟨h1, h2, h3, h4⟩ := ih (s.request r)
    obtain ⟨k1, k2, k3, k4⟩ := request_keep s r
    simp only [List.foldl_cons]
    exact ⟨h1.trans k1, h2.trans k2, h3.trans k3, h4.trans k4⟩

theorem input_keep (i : c.In) (s : Solo c) :
    (s.input i).active = s.active ∧ (s.input i).tick = s.tick ∧ (s.input i).clock = s.clock := by
  obtain ⟨h1, h2, h3, _⟩ := requests_keep (c.input i s.clock s.st).2
    { s with st := (c.input i s.clock s.st).1 }
  exact ⟨h1, h2, h3⟩

/-- `s'` differs from `s` in the operator's state and queue only. -/
structure Keeps (s s' : Solo c) : Prop where
  active : s'.active = s.active
  tick : s'.tick = s.tick
  clock : s'.clock = s.clock

theorem Keeps.refl (s : Solo c) : Keeps s s := ⟨rfl, rfl, rfl⟩

theorem Keeps.trans {a b d : Solo c} (h : Keeps a b) (h' : Keeps b d) : Keeps a d :=
  ⟨h'.active.trans h.active, h'.tick.trans h.tick, h'.clock.trans h.clock⟩

theorem runBody_keeps (t : Nat) (b : c.B) (s : Solo c) : Keeps s (runBody t b s).2.1 := by
  obtain ⟨h1, h2, h3, _⟩ := requests_keep (c.exec b t s.clock s.st).2.2.1
    { s with st := (c.exec b t s.clock s.st).2.1 }
  exact ⟨h1, h2, h3⟩

theorem Steps.trans {a b d : Solo c} (h : Steps a b) (h' : Steps b d) : Steps a d := by
  induction h' with
  | refl => exact h
  | tail _ hs ih => exact ih.tail hs

theorem Steps.one {a b : Solo c} (h : Step a b) : Steps a b := (Steps.refl a).tail h

/-- Steps that neither start nor end a tick. -/
inductive Inner : Solo c → Solo c → Prop where
  | refl (s : Solo c) : Inner s s
  | tail {a b d : Solo c} : Inner a b → Step b d → d.tick = b.tick → Inner a d

theorem Inner.trans {a b d : Solo c} (h : Inner a b) (h' : Inner b d) : Inner a d := by
  induction h' with
  | refl => exact h
  | tail _ hs ht ih => exact ih.tail hs ht

theorem Inner.one {a b : Solo c} (h : Step a b) (ht : b.tick = a.tick) : Inner a b := (Inner.refl a).tail h ht

theorem Inner.steps {a b : Solo c} (h : Inner a b) : Steps a b := by
  induction h with
  | refl => exact .refl _
  | tail _ hs _ ih => exact ih.tail hs

theorem Inner.tick {a b : Solo c} (h : Inner a b) : b.tick = a.tick := by
  induction h with
  | refl => rfl
  | tail _ _ ht ih => exact ht.trans ih

end Solo

/-! ## Calls of the scheduler -/

theorem SView.snoc {A B : Type} {sc sc' : Scheduler (A ⊕ B)} {k : Nat} {q : List (Req A)} (h : SView sc k q)
    (a : Action (A ⊕ B)) (ha : a.Fair) (h1 : sc'.currentTick = sc.currentTick) (h2 : sc'.queue = sc.queue ++ [a]) :
    SView sc' k (q ++ a.own.toList) := by
  refine ⟨h1.trans h.clock, ?_, ?_⟩
  · rw [h2, List.filterMap_append, h.queue]
    cases h3 : a.own <;> simp [h3]
  · rw [h2]
    intro b hb
    rcases List.mem_append.1 hb with hb | hb
    · exact h.fair b hb
    · rw [List.mem_singleton.1 hb]; exact ha

theorem SView.own {w : World R.env} {s : Solo c} (h : SView w.sched s.clock s.queue) (r : Req c.B) :
    SView (w.call r.toCall).sched (s.request r).clock (s.request r).queue := by
  cases r with
  | schedule wk =>
    have := h.snoc (.activate ownCid w.sched.nextUid ((wk.map .inl).onScheduled w.sched.currentTick))
      ⟨fun _ => ⟨_, Work.onScheduled_map _ _ _⟩, fun hc => absurd rfl hc⟩
      (sc' := (w.call (Req.schedule wk).toCall).sched) rfl rfl
    simp only [Action.own, if_true, Work.onScheduled_map, Work.left_map, h.clock] at this
    exact this
  | cancel => exact h.snoc (.cancel ownCid) trivial rfl rfl

theorem World.call_ctx {env : Env} (w : World env) (k : Call env.B) : (w.call k).ctx = w.ctx := by
  cases k <;> rfl

theorem World.calls_ctx {env : Env} (ks : List (Call env.B)) (w : World env) : (ks.foldl World.call w).ctx = w.ctx := by
  induction ks generalizing w with
  | nil => rfl
  | cons k ks ih => rw [List.foldl_cons, ih, World.call_ctx]

theorem SView.owns (rs : List (Req c.B)) : ∀ {w : World R.env} {s : Solo c}, SView w.sched s.clock s.queue →
    SView ((rs.map Req.toCall).foldl World.call w).sched (rs.foldl Solo.request s).clock
      (rs.foldl Solo.request s).queue := by
  induction rs with
  | nil => intro w s h; exact h
  | cons r rs ih => intro w s h; exact ih (h.own r)

theorem SView.foreign {w : World R.env} {k : Nat} {q : List (Req c.B)} (h : SView w.sched k q) (f : Call R.B)
    {f' : Call (c.B ⊕ R.B)} (hf : f.foreign = some f') : SView (w.call f').sched k q := by
  have key : ∀ a : Action (c.B ⊕ R.B), a.own = none → a.Fair →
      (w.call f').sched.currentTick = w.sched.currentTick → (w.call f').sched.queue = w.sched.queue ++ [a] →
      SView (w.call f').sched k q := by
    intro a h1 h2 h3 h4
    have := h.snoc a h2 h3 h4
    rwa [h1, Option.toList_none, List.append_nil] at this
  have key0 : (w.call f').sched.currentTick = w.sched.currentTick → (w.call f').sched.queue = w.sched.queue →
      SView (w.call f').sched k q := fun h1 h2 => ⟨h1.trans h.clock, h2 ▸ h.queue, h2 ▸ h.fair⟩
  cases f with
  | scheduleWork wk cid =>
    simp only [Call.foreign] at hf
    split at hf
    · cases hf
    · rename_i hc
      cases hf
      refine key (.activate cid w.sched.nextUid ((wk.map .inr).onScheduled w.sched.currentTick)) ?_ ?_ rfl rfl
      · simp [Action.own, hc]
      · exact ⟨fun h => absurd h hc, fun _ => ⟨_, Work.onScheduled_map _ _ _⟩⟩
  | scheduleInvokedWork wk iid =>
    cases hf
    exact key (.addInvoked iid ((wk.map .inr).onScheduled w.sched.currentTick)) rfl ⟨_, Work.onScheduled_map _ _ _⟩
      rfl rfl
  | cancel cid =>
    simp only [Call.foreign] at hf
    split at hf
    · cases hf
    · rename_i hc
      cases hf
      exact key (.cancel cid) (by simp [Action.own, hc]) trivial rfl rfl
  | invoke iid => cases hf; exact key (.invoke iid) rfl trivial rfl rfl
  | cancelInvoked iid => cases hf; exact key (.cancelInvoked iid) rfl trivial rfl rfl
  | generateCancellationId => cases hf; exact key0 rfl rfl
  | generateInvokeId => cases hf; exact key0 rfl rfl

theorem SView.foreigns (fs : List (Call R.B)) : ∀ {w : World R.env} {k : Nat} {q : List (Req c.B)},
    SView w.sched k q →
    SView ((fs.filterMap (Call.foreign (A := c.B))).foldl World.call w).sched k q := by
  induction fs with
  | nil => intro w k q h; exact h
  | cons f fs ih =>
    intro w k q h
    rw [List.filterMap_cons]
    split
    · exact ih h
    · rename_i f' hf
      exact ih (h.foreign f hf)

/-- Acts of the rest of the program. -/
theorem WView.perform (as : List (Act c R.B)) : ∀ {w : World R.env} {x : c.St × R.Ctx} {s : Solo c}
    {sc : Scheduler (c.B ⊕ R.B)}, sc.currentTick = s.clock → x.1 = s.st → SView w.sched s.clock s.queue →
    ∃ s', Solo.Inner s s' ∧ Solo.Keeps s s' ∧
      WView (R := R) ((R.perform sc as x).2.foldl World.call { w with ctx := (R.perform sc as x).1 }) s' := by
  induction as with
  | nil => intro w x s sc _ hx h; exact ⟨s, .refl s, .refl s, ⟨hx, h⟩⟩
  | cons a as ih =>
    intro w x s sc hc hx h
    cases a with
    | input i =>
      simp only [Rest.perform, List.foldl_append]
      let s1 := s.input i
      have hs1 : Solo.Keeps s s1 := by
        obtain ⟨h1, h2, h3⟩ := Solo.input_keep i s; exact ⟨h1, h2, h3⟩
      have hv : SView (((c.input i sc.currentTick x.1).2.map Req.toCall).foldl World.call w).sched s1.clock s1.queue := by
        have := SView.owns (R := R) (c.input i s.clock s.st).2 (w := w)
          (s := { s with st := (c.input i s.clock s.st).1 }) h
        rw [hc, hx]; exact this
      have hv2 := SView.foreigns (R.react x.1 (c.input i sc.currentTick x.1).1 x.2 sc).2 hv
      obtain ⟨s', h1, h2, h3⟩ := ih (x := ((c.input i sc.currentTick x.1).1,
        (R.react x.1 (c.input i sc.currentTick x.1).1 x.2 sc).1)) (s := s1) (sc := sc) (hc.trans hs1.clock.symm)
        (by
          show _ = s1.st
          have := (Solo.requests_keep (c.input i s.clock s.st).2 { s with st := (c.input i s.clock s.st).1 }).2.2.2
          rw [hc, hx]; exact this.symm) hv2
      refine ⟨s', (Solo.Inner.one (.input s i) (Solo.input_keep i s).2.1).trans h1, hs1.trans h2, ?_⟩
      have hctx : ∀ (ks : List (Call (c.B ⊕ R.B))) (w : World R.env) (x : c.St × R.Ctx),
          ({ ks.foldl World.call w with ctx := x } : World R.env) = ks.foldl World.call { w with ctx := x } := by
        intro ks
        induction ks with
        | nil => intro w x; rfl
        | cons k ks ih =>
          intro w x
          rw [List.foldl_cons, List.foldl_cons, ih]
          congr 1
          cases k <;> rfl
      rw [hctx, hctx] at h3
      exact h3
    | call k =>
      simp only [Rest.perform, List.foldl_append]
      have hctx : ∀ (ks : List (Call (c.B ⊕ R.B))) (w : World R.env) (x : c.St × R.Ctx),
          ({ ks.foldl World.call w with ctx := x } : World R.env) = ks.foldl World.call { w with ctx := x } := by
        intro ks
        induction ks with
        | nil => intro w x; rfl
        | cons k ks ih =>
          intro w x
          rw [List.foldl_cons, List.foldl_cons, ih]
          congr 1
          cases k <;> rfl
      have hv := SView.foreigns [k] h
      have hk : [k].filterMap (Call.foreign (A := c.B)) = k.foreign.toList := by
        cases hk : (k.foreign : Option (Call (c.B ⊕ R.B))) <;> simp [hk]
      rw [hk] at hv
      obtain ⟨s', h1, h2, h3⟩ := ih (x := x) (sc := sc) hc hx hv
      rw [hctx] at h3
      exact ⟨s', h1, h2, h3⟩

/-! ## Running closures -/

theorem WView.emit {w : World R.env} {s : Solo c} (h : WView w s) (ev : Ev R.env.B) : WView (w.emit ev) s :=
  ⟨h.st, h.sched⟩

theorem WView.runOwn {w : World R.env} {s : Solo c} (h : WView w s) (src : Src) (t : Nat) (b : c.B) :
    (runBody (env := R.env) src (.inl b) t w).1 = .inl (Solo.runBody t b s).1 ∧
      WView (runBody (env := R.env) src (.inl b) t w).2.1 (Solo.runBody t b s).2.1 ∧
      (runBody (env := R.env) src (.inl b) t w).2.2 = (Solo.runBody t b s).2.2 := by
  have hc := h.sched.clock
  have hs := h.st
  refine ⟨?_, ⟨?_, ?_⟩, ?_⟩
  · simp only [runBody, Rest.env, World.emit, Solo.runBody, hc, hs]
  · simp only [runBody]
    have := (Solo.requests_keep (c.exec b t s.clock s.st).2.2.1 { s with st := (c.exec b t s.clock s.st).2.1 }).2.2.2
    simp only [World.emit, Solo.runBody, hc, hs, this]
    exact congrArg Prod.fst (World.calls_ctx (env := R.env) _ _)
  · simp only [runBody, Rest.env, World.emit, List.foldl_append]
    apply SView.foreigns
    have := SView.owns (R := R) (c.exec b t s.clock s.st).2.2.1
      (w := ⟨((c.exec b t s.clock s.st).2.1, (R.react s.st (c.exec b t s.clock s.st).2.1 w.ctx.2 w.sched).1),
        w.sched, w.log ++ [.run src t]⟩)
      (s := { s with st := (c.exec b t s.clock s.st).2.1 }) h.sched
    rw [hc, hs]
    exact this
  · simp only [runBody, Rest.env, World.emit, Solo.runBody, hc, hs]

theorem WView.runForeign {w : World R.env} {s : Solo c} (h : WView w s) (src : Src) (t : Nat) (b : R.B) :
    ∃ b' s', (runBody (env := R.env) src (.inr b) t w).1 = .inr b' ∧ Solo.Inner s s' ∧ Solo.Keeps s s' ∧
      WView (runBody (env := R.env) src (.inr b) t w).2.1 s' := by
  have := WView.perform (R := R) (R.exec b t w.ctx.1 w.ctx.2 w.sched).2.2.1
    (w := w.emit (.run src t)) (x := (w.ctx.1, (R.exec b t w.ctx.1 w.ctx.2 w.sched).2.1)) (s := s) (sc := w.sched)
    h.sched.clock h.st h.sched
  obtain ⟨s', h1, h2, h3⟩ := this
  exact ⟨_, s', rfl, h1, h2, h3⟩

theorem WView.repOwn {t cur i m : Nat} {src : Src} : ∀ (fuel : Nat) {start : Bool} {cu ex : Nat} {res : WorkResult}
    {b : c.B} {w : World R.env} {s : Solo c}, WView w s →
    (repLoop (env := R.env) src t cur i m fuel start cu ex res (.inl b) w = none ∧
      Solo.repLoop t cur i m fuel start cu ex res b s = none) ∨
    ∃ cu' b' w' s' res', repLoop (env := R.env) src t cur i m fuel start cu ex res (.inl b) w =
        some (cu', .inl b', w', res') ∧
      Solo.repLoop t cur i m fuel start cu ex res b s = some (cu', b', s', res') ∧ WView w' s' ∧ Solo.Keeps s s' := by
  intro fuel
  induction fuel with
  | zero => intros; exact .inl ⟨rfl, rfl⟩
  | succ fuel ih =>
    intro start cu ex res b w s h
    simp only [repLoop, Solo.repLoop]
    by_cases hc : (cu + i ≤ cur ∧ res ≠ .done) ∨ start = true
    · rw [if_pos hc, if_pos hc]
      by_cases he : ex < m
      · simp only [if_pos he]
        obtain ⟨h1, h2, h3⟩ := h.runOwn src t b
        rw [h1, h3]
        rcases ih (start := false) (cu := if start then cu else cu + i) (ex := ex + 1)
          (res := res.addAssign (Solo.runBody t b s).2.2) (b := (Solo.runBody t b s).1) h2 with h4 | h4
        · exact .inl h4
        · obtain ⟨cu', b', w', s', res', k1, k2, k3, k4⟩ := h4
          exact .inr ⟨cu', b', w', s', res', k1, k2, k3, (Solo.runBody_keeps t b s).trans k4⟩
      · simp only [if_neg he]
        exact ih h
    · rw [if_neg hc, if_neg hc]
      exact .inr ⟨cu, b, w, s, res, rfl, rfl, h, .refl s⟩

theorem WView.repForeign {t cur i m : Nat} {src : Src} : ∀ (fuel : Nat) {start : Bool} {cu ex : Nat}
    {res : WorkResult} {b : R.B} {w : World R.env} {s : Solo c}, WView w s → ∀ {y},
    repLoop (env := R.env) src t cur i m fuel start cu ex res (.inr b) w = some y →
    ∃ b' s', y.2.1 = .inr b' ∧ Solo.Inner s s' ∧ Solo.Keeps s s' ∧ WView y.2.2.1 s' := by
  intro fuel
  induction fuel with
  | zero => intro start cu ex res b w s h y hy; cases hy
  | succ fuel ih =>
    intro start cu ex res b w s h y hy
    simp only [repLoop] at hy
    by_cases hc : (cu + i ≤ cur ∧ res ≠ .done) ∨ start = true
    · rw [if_pos hc] at hy
      by_cases he : ex < m
      · simp only [if_pos he] at hy
        obtain ⟨b1, s1, h1, h2, h3, h4⟩ := h.runForeign src t b
        rw [h1] at hy
        obtain ⟨b', s', k1, k2, k3, k4⟩ := ih h4 hy
        exact ⟨b', s', k1, h2.trans k2, h3.trans k3, k4⟩
      · simp only [if_neg he] at hy
        exact ih h hy
    · rw [if_neg hc] at hy
      cases hy
      exact ⟨b, s, rfl, .refl s, .refl s, h⟩

theorem WView.tickOwn {w : World R.env} {s : Solo c} (h : WView w s) (src : Src) (t : Nat) (v : Work c.B) {y}
    (hy : (v.map (Sum.inl : c.B → c.B ⊕ R.B)).tick (env := R.env) src t w = some y) :
    ∃ v' s', Solo.tickWork t s v = some (v', s', y.2.2) ∧ y.1 = v'.map .inl ∧ Solo.Keeps s s' ∧ WView y.2.1 s' := by
  cases v with
  | delayed wk sch cu d =>
    simp only [Work.map, Work.tick, Solo.tickWork] at hy ⊢
    by_cases hd : sch + d ≤ updateTick cu t
    · rw [if_pos hd] at hy ⊢
      cases wk with
      | none =>
        simp only [Option.map_none] at hy
        cases hy
        exact ⟨_, s, rfl, rfl, .refl s, h⟩
      | some b =>
        simp only [Option.map_some] at hy
        cases hy
        exact ⟨_, _, rfl, rfl, Solo.runBody_keeps t b s, (h.runOwn src t b).2.1⟩
    · rw [if_neg hd] at hy ⊢
      cases hy
      exact ⟨_, s, rfl, rfl, .refl s, h⟩
  | immediate wk =>
    simp only [Work.map, Work.tick, Solo.tickWork] at hy ⊢
    cases wk with
    | none =>
      simp only [Option.map_none] at hy
      cases hy
      exact ⟨_, s, rfl, rfl, .refl s, h⟩
    | some b =>
      simp only [Option.map_some] at hy
      cases hy
      exact ⟨_, _, rfl, rfl, Solo.runBody_keeps t b s, (h.runOwn src t b).2.1⟩
  | repeating si cu cur i m b =>
    simp only [Work.map, Work.tick, Solo.tickWork] at hy ⊢
    rcases WView.repOwn (t := t) (cur := updateTick cur t) (i := i) (m := m) (src := src) (repFuel (updateTick cur t) m)
      (start := si) (cu := cu) (ex := 0) (res := .pending) (b := b) h with ⟨h1, h2⟩ | ⟨cu', b', w', s', res', h1, h2, h3, h4⟩
    · rw [h1] at hy; cases hy
    · rw [h1] at hy
      cases hy
      rw [h2]
      exact ⟨_, s', rfl, rfl, h4, h3⟩
  | continuous l b =>
    simp only [Work.map, Work.tick, Solo.tickWork] at hy ⊢
    obtain ⟨h1, h2, h3⟩ := h.runOwn src t b
    cases hy
    refine ⟨.continuous (updateTick l t) (Solo.runBody t b s).1, _, ?_, ?_, Solo.runBody_keeps t b s, h2⟩
    · simp only [h3]
    · simp only [h1]
  | invoked b =>
    simp only [Work.map, Work.tick, Solo.tickWork] at hy ⊢
    obtain ⟨h1, h2, h3⟩ := h.runOwn src t b
    cases hy
    refine ⟨.invoked (Solo.runBody t b s).1, _, ?_, ?_, Solo.runBody_keeps t b s, h2⟩
    · simp only [h3]
    · simp only [h1]

theorem WView.tickForeign {w : World R.env} {s : Solo c} (h : WView w s) (src : Src) (t : Nat) (v : Work R.B) {y}
    (hy : (v.map (Sum.inr : R.B → c.B ⊕ R.B)).tick (env := R.env) src t w = some y) :
    ∃ (v' : Work R.B) (s' : Solo c), y.1 = v'.map .inr ∧ Solo.Inner s s' ∧ Solo.Keeps s s' ∧ WView y.2.1 s' := by
  cases v with
  | delayed wk sch cu d =>
    simp only [Work.map, Work.tick] at hy
    by_cases hd : sch + d ≤ updateTick cu t
    · rw [if_pos hd] at hy
      cases wk with
      | none =>
        simp only [Option.map_none] at hy
        cases hy
        exact ⟨.delayed none sch _ d, s, rfl, .refl s, .refl s, h⟩
      | some b =>
        simp only [Option.map_some] at hy
        cases hy
        obtain ⟨b', s', h1, h2, h3, h4⟩ := h.runForeign src t b
        exact ⟨.delayed none sch _ d, s', rfl, h2, h3, h4⟩
    · rw [if_neg hd] at hy
      cases hy
      exact ⟨.delayed wk sch _ d, s, rfl, .refl s, .refl s, h⟩
  | immediate wk =>
    simp only [Work.map, Work.tick] at hy
    cases wk with
    | none =>
      simp only [Option.map_none] at hy
      cases hy
      exact ⟨.immediate none, s, rfl, .refl s, .refl s, h⟩
    | some b =>
      simp only [Option.map_some] at hy
      cases hy
      obtain ⟨b', s', h1, h2, h3, h4⟩ := h.runForeign src t b
      exact ⟨.immediate none, s', rfl, h2, h3, h4⟩
  | repeating si cu cur i m b =>
    simp only [Work.map, Work.tick] at hy
    cases hr : repLoop (env := R.env) src t (updateTick cur t) i m (repFuel (updateTick cur t) m) si cu 0 .pending
      (.inr b) w with
    | none => rw [hr] at hy; cases hy
    | some z =>
      rw [hr] at hy
      cases hy
      obtain ⟨b', s', h1, h2, h3, h4⟩ := WView.repForeign (repFuel (updateTick cur t) m) h hr
      exact ⟨.repeating false z.1 (updateTick cur t) i m b', s', by simp [Work.map, h1], h2, h3, h4⟩
  | continuous l b =>
    simp only [Work.map, Work.tick] at hy
    cases hy
    obtain ⟨b', s', h1, h2, h3, h4⟩ := h.runForeign src t b
    exact ⟨.continuous (updateTick l t) b', s', by simp only [h1, Work.map], h2, h3, h4⟩
  | invoked b =>
    simp only [Work.map, Work.tick] at hy
    cases hy
    obtain ⟨b', s', h1, h2, h3, h4⟩ := h.runForeign src t b
    exact ⟨.invoked b', s', by simp only [h1, Work.map], h2, h3, h4⟩

/-! ## A pass over the active work -/

/-- The operator's work among the active work, with the flags. -/
def ownWork {A B : Type} (mine al : Nat → Bool) (l : List (Nat × Work (A ⊕ B))) : List (Work A × Bool) :=
  l.filterMap fun p => if mine p.1 then p.2.left.map fun w => (w, al p.1) else none

/-- Work is the operator's or not according to its id. -/
def Sorted {A B : Type} (mine : Nat → Bool) (l : List (Nat × Work (A ⊕ B))) : Prop :=
  ∀ p ∈ l, (mine p.1 = true → ∃ v : Work A, p.2 = v.map .inl) ∧ (mine p.1 = false → ∃ v : Work B, p.2 = v.map .inr)

theorem ownWork_nil {A B : Type} (mine al : Nat → Bool) : ownWork mine al ([] : List (Nat × Work (A ⊕ B))) = [] := rfl

theorem ownWork_cons_own {A B : Type} {mine al : Nat → Bool} {id : Nat} (h : mine id = true) (v : Work A)
    (l : List (Nat × Work (A ⊕ B))) :
    ownWork mine al ((id, v.map .inl) :: l) = (v, al id) :: ownWork mine al l := by
  simp [ownWork, h, Work.left_map]

theorem ownWork_cons_foreign {A B : Type} {mine al : Nat → Bool} {p : Nat × Work (A ⊕ B)} (h : mine p.1 = false)
    (l : List (Nat × Work (A ⊕ B))) : ownWork mine al (p :: l) = ownWork mine al l := by
  simp [ownWork, h]

theorem ownWork_append {A B : Type} (mine al : Nat → Bool) (l l' : List (Nat × Work (A ⊕ B))) :
    ownWork mine al (l ++ l') = ownWork mine al l ++ ownWork mine al l' := by
  simp [ownWork]

theorem ownWork_congr {A B : Type} {mine mine' al al' : Nat → Bool} {l : List (Nat × Work (A ⊕ B))}
    (hm : ∀ p ∈ l, mine p.1 = mine' p.1) (ha : ∀ p ∈ l, mine p.1 = true → al p.1 = al' p.1) :
    ownWork mine al l = ownWork mine' al' l := by
  induction l with
  | nil => rfl
  | cons p l ih =>
    have hp := hm p List.mem_cons_self
    have ih := ih (fun q hq => hm q (List.mem_cons_of_mem _ hq)) (fun q hq => ha q (List.mem_cons_of_mem _ hq))
    simp only [ownWork] at ih
    simp only [ownWork, List.filterMap_cons, ← hp, ih]
    by_cases h : mine p.1 = true
    · rw [if_pos h, if_pos h, ha p List.mem_cons_self h]
    · rw [if_neg h, if_neg h]

/-- What stays after a pass. -/
def kept {B : Type} (out : List (Nat × Work B × Option WorkResult)) : List (Nat × Work B) :=
  (out.filter fun p => !(p.2.2 == some .done)).map fun p => (p.1, p.2.1)

theorem kept_nil {B : Type} : kept ([] : List (Nat × Work B × Option WorkResult)) = [] := rfl

theorem kept_cons {B : Type} (p : Nat × Work B × Option WorkResult) (out : List (Nat × Work B × Option WorkResult)) :
    kept (p :: out) = (if p.2.2 = some .done then [] else [(p.1, p.2.1)]) ++ kept out := by
  by_cases h : p.2.2 = some .done
  · simp [kept, h]
  · simp [kept, h]

theorem WView.tickPass {mine al : Nat → Bool} {t : Nat} : ∀ (l : List (Nat × Work (c.B ⊕ R.B))) {w : World R.env}
    {s : Solo c} {pre : List (Work c.B × Bool)} {out} {w' : World R.env}, WView w s →
    tickPass (env := R.env) al t l w = some (out, w') → Sorted mine l → s.tick = some t →
    s.active = pre ++ ownWork mine al l → (∀ p ∈ pre, p.2 = true) →
    ∃ s', Solo.Inner s s' ∧ WView w' s' ∧ s'.tick = some t ∧ s'.clock = s.clock ∧
      s'.active = pre ++ ownWork mine (fun _ => true) (kept out) ∧ Sorted mine (out.map fun p => (p.1, p.2.1)) ∧
      ∀ p ∈ out, p.2.2 = none → al p.1 = true := by
  intro l
  induction l with
  | nil =>
    intro w s pre out w' h hp _ ht ha _
    cases hp
    exact ⟨s, .refl s, h, ht, rfl, ha, by simp [Sorted], by simp⟩
  | cons p l ih =>
    obtain ⟨id, wk⟩ := p
    intro w s pre out w' h hp hs ht ha hpre
    have hs' : Sorted mine l := fun q hq => hs q (List.mem_cons_of_mem _ hq)
    have hsp := hs _ List.mem_cons_self
    simp only [Sched.tickPass] at hp
    cases hal : al id with
    | true =>
      rw [hal, if_pos rfl] at hp
      cases hr : Sched.tickPass (env := R.env) al t l w with
      | none => rw [hr] at hp; cases hp
      | some y =>
        obtain ⟨out1, w1⟩ := y
        rw [hr] at hp
        cases hp
        cases hm : mine id with
        | true =>
          obtain ⟨v, rfl⟩ := hsp.1 hm
          obtain ⟨s', h1, h2, h3, h4, h5, h6, h7⟩ := ih (pre := pre ++ [(v, true)]) h hr hs' ht
            (by rw [ha, ownWork_cons_own hm, hal]; simp)
            (by simpa [or_imp, forall_and] using hpre)
          refine ⟨s', h1, h2, h3, h4, ?_, ?_, ?_⟩
          · rw [h5, kept_cons, if_neg (by simp), ownWork_append]
            simp only []
            rw [ownWork_cons_own hm, ownWork_nil]
            simp
          · intro q hq
            rcases List.mem_cons.1 hq with rfl | hq
            · exact hsp
            · exact h6 q hq
          · intro q hq hq2
            rcases List.mem_cons.1 hq with rfl | hq
            · exact hal
            · exact h7 q hq hq2
        | false =>
          obtain ⟨s', h1, h2, h3, h4, h5, h6, h7⟩ := ih (pre := pre) h hr hs' ht
            (by rw [ha, ownWork_cons_foreign (p := (id, wk)) hm]) hpre
          refine ⟨s', h1, h2, h3, h4, ?_, ?_, ?_⟩
          · rw [h5, kept_cons, if_neg (by simp)]
            rw [List.singleton_append, ownWork_cons_foreign hm]
          · intro q hq
            rcases List.mem_cons.1 hq with rfl | hq
            · exact hsp
            · exact h6 q hq
          · intro q hq hq2
            rcases List.mem_cons.1 hq with rfl | hq
            · exact hal
            · exact h7 q hq hq2
    | false =>
      rw [hal, if_neg (by simp)] at hp
      cases hk : wk.tick (env := R.env) (.work id) t (w.emit (.ticked id t)) with
      | none => rw [hk] at hp; cases hp
      | some y =>
        obtain ⟨wk1, w1, res⟩ := y
        rw [hk] at hp
        dsimp only at hp
        cases hr : Sched.tickPass (env := R.env) al t l (if res = .done then w1.emit (.done (.work id)) else w1) with
        | none => rw [hr] at hp; cases hp
        | some y =>
          obtain ⟨out1, w2⟩ := y
          rw [hr] at hp
          cases hp
          have hemit : ∀ {s : Solo c}, WView w1 s →
              WView (R := R) (if res = .done then w1.emit (.done (.work id)) else w1) s := by
            intro s h
            split
            · exact h.emit _
            · exact h
          cases hm : mine id with
          | true =>
            obtain ⟨v, rfl⟩ := hsp.1 hm
            obtain ⟨v1, s1, k1, k2, k3, k4⟩ := (h.emit (.ticked id t)).tickOwn (.work id) t v hk
            have hstep := Solo.Step.work s s1 t pre (ownWork mine al l) v v1 res ht
              (by rw [ha, ownWork_cons_own hm, hal]) hpre k1
            have hv : WView (R := R) (if res = .done then w1.emit (.done (.work id)) else w1)
                { s1 with active := pre ++ (if res = .done then [] else [(v1, true)]) ++ ownWork mine al l } :=
              hemit ⟨k4.st, k4.sched⟩
            obtain ⟨s', h1, h2, h3, h4, h5, h6, h7⟩ := ih (pre := pre ++ (if res = .done then [] else [(v1, true)]))
              hv hr hs' (k3.tick.trans ht) rfl (by
                intro q hq
                rcases List.mem_append.1 hq with hq | hq
                · exact hpre q hq
                · split at hq
                  · cases hq
                  · rw [List.mem_singleton.1 hq])
            simp only at k2
            subst k2
            refine ⟨s', (Solo.Inner.one hstep k3.tick).trans h1, h2, h3, h4.trans k3.clock, ?_, ?_, ?_⟩
            · rw [h5, kept_cons, ownWork_append]
              simp only [Option.some.injEq]
              split
              · simp [ownWork_nil]
              · rw [ownWork_cons_own hm, ownWork_nil]
                simp
            · intro q hq
              rcases List.mem_cons.1 hq with rfl | hq
              · exact ⟨fun _ => ⟨v1, rfl⟩, fun h => by rw [hm] at h; cases h⟩
              · exact h6 q hq
            · intro q hq hq2
              rcases List.mem_cons.1 hq with rfl | hq
              · cases hq2
              · exact h7 q hq hq2
          | false =>
            obtain ⟨v, rfl⟩ := hsp.2 hm
            obtain ⟨v1, s1, k2, k5, k3, k4⟩ := (h.emit (.ticked id t)).tickForeign (.work id) t v hk
            obtain ⟨s', h1, h2, h3, h4, h5, h6, h7⟩ := ih (pre := pre) (hemit k4) hr hs' (k3.tick.trans ht)
              (by rw [k3.active, ha, ownWork_cons_foreign (p := (id, _)) hm]) hpre
            simp only at k2
            subst k2
            refine ⟨s', k5.trans h1, h2, h3, h4.trans k3.clock, ?_, ?_, ?_⟩
            · rw [h5, kept_cons]
              split
              · simp
              · rw [List.singleton_append, ownWork_cons_foreign hm]
            · intro q hq
              rcases List.mem_cons.1 hq with rfl | hq
              · exact ⟨fun h => (by rw [hm] at h; cases h), fun _ => ⟨v1, rfl⟩⟩
              · exact h6 q hq
            · intro q hq hq2
              rcases List.mem_cons.1 hq with rfl | hq
              · cases hq2
              · exact h7 q hq hq2

/-! ## The executor -/

/-- The executor's tables as the small machine sees them. -/
structure AView (e : Exec R.env) (act : List (Work c.B × Bool)) : Prop where
  active : act = ownWork (fun id => (e.cancellationMap ownCid).contains id) e.alreadyTicked e.active
  sorted : Sorted (fun id => (e.cancellationMap ownCid).contains id) e.active
  disjoint : ∀ k, k ≠ ownCid → ∀ id ∈ e.cancellationMap k, id ∉ e.cancellationMap ownCid
  bound : ∀ k, ∀ id ∈ e.cancellationMap k, id < e.nextWorkId
  tables : Tables e
  invokable : ∀ i wk, e.invokable i = some wk → ∃ v : Work R.B, wk = v.map .inr

theorem imRemoves_eq {α : Type} (ks : List Nat) (l : List (Nat × α)) :
    ks.foldl imRemove l = l.filter fun p => !ks.contains p.1 := by
  induction ks generalizing l with
  | nil => exact (List.filter_eq_self.2 (by simp)).symm
  | cons k ks ih =>
    rw [List.foldl_cons, ih, imRemove, List.filter_filter]
    apply List.filter_congr
    intro p _
    rw [List.contains_cons, Bool.not_or, Bool.and_comm]

theorem eq_of_key {α : Type} : ∀ {l : List (Nat × α)}, l.Pairwise (fun a b => a.1 < b.1) →
    ∀ {p q}, p ∈ l → q ∈ l → p.1 = q.1 → p = q := by
  intro l
  induction l with
  | nil => intro _ p q hp; cases hp
  | cons a l ih =>
    intro h p q hp hq hpq
    rw [List.pairwise_cons] at h
    rcases List.mem_cons.1 hp with hp' | hp' <;> rcases List.mem_cons.1 hq with hq' | hq'
    · rw [hp', hq']
    · exact absurd hpq (by rw [hp']; exact Nat.ne_of_lt (h.1 q hq'))
    · exact absurd hpq.symm (by rw [hq']; exact Nat.ne_of_lt (h.1 p hp'))
    · exact ih h.2 hp' hq' hpq

theorem AView.process {e : Exec R.env} {act : List (Work c.B × Bool)} (h : AView e act)
    (a : Action (c.B ⊕ R.B)) (ha : a.Fair) :
    AView (R := R) (e.processAction a) (match a.own with | some r => Solo.process act r | none => act) := by
  cases a with
  | activate cid uid wk =>
    have hfresh : ∀ p ∈ e.active, p.1 ≠ e.nextWorkId := fun p hp => Nat.ne_of_lt (h.tables.bound p hp)
    have htab : Tables (e.processAction (.activate cid uid wk)) := by
      refine ⟨?_, ?_, ?_⟩
      · simp only [Exec.processAction, imInsert_fresh hfresh]
        exact List.pairwise_append.2 ⟨h.tables.sorted, List.pairwise_singleton _ _, fun a ha b hb => by
          rw [List.mem_singleton.1 hb]; exact h.tables.bound a ha⟩
      · simp only [Exec.processAction, imInsert_fresh hfresh]
        intro p hp
        rcases List.mem_append.1 hp with hp | hp
        · exact Nat.lt_succ_of_lt (h.tables.bound p hp)
        · rw [List.mem_singleton.1 hp]; exact Nat.lt_succ_self _
      · intro id hid
        exact Nat.lt_succ_of_lt (h.tables.already id hid)
    have hbound : ∀ k, ∀ id ∈ (e.processAction (.activate cid uid wk)).cancellationMap k,
        id < (e.processAction (.activate cid uid wk)).nextWorkId := by
      intro k id hid
      simp only [Exec.processAction, fset] at hid ⊢
      split at hid
      · rcases List.mem_append.1 hid with hid | hid
        · exact Nat.lt_succ_of_lt (h.bound _ id hid)
        · rw [List.mem_singleton.1 hid]; exact Nat.lt_succ_self _
      · exact Nat.lt_succ_of_lt (h.bound _ id hid)
    by_cases hc : cid = ownCid
    · obtain ⟨v, rfl⟩ := ha.1 hc
      subst hc
      have hmap : (e.processAction (.activate ownCid uid (v.map .inl))).cancellationMap ownCid =
          e.cancellationMap ownCid ++ [e.nextWorkId] := by
        simp [Exec.processAction, fset]
      have hsame : ∀ p ∈ e.active, (e.cancellationMap ownCid).contains p.1 =
          (e.cancellationMap ownCid ++ [e.nextWorkId]).contains p.1 := by
        intro p hp
        have := hfresh p hp
        simp [this]
      refine ⟨?_, ?_, ?_, hbound, htab, h.invokable⟩
      · simp only [Action.own, if_true, Work.left_map, Option.map_some, Solo.process, hmap]
        simp only [Exec.processAction, imInsert_fresh hfresh]
        rw [ownWork_append, ownWork_cons_own (by simp), ownWork_nil, h.active]
        congr 1
        · exact ownWork_congr hsame (fun _ _ _ => rfl)
        · have : e.alreadyTicked e.nextWorkId = false := by
            cases hx : e.alreadyTicked e.nextWorkId with
            | false => rfl
            | true => exact absurd (h.tables.already _ hx) (Nat.lt_irrefl _)
          rw [this]
      · rw [hmap]
        simp only [Exec.processAction, imInsert_fresh hfresh]
        intro p hp
        rcases List.mem_append.1 hp with hp | hp
        · have := h.sorted p hp
          simp only [hsame p hp] at this
          exact this
        · rw [List.mem_singleton.1 hp]
          exact ⟨fun _ => ⟨v, rfl⟩, fun h => by simp at h⟩
      · intro k hk id hid
        rw [hmap]
        have : id ∈ e.cancellationMap k := by simpa [Exec.processAction, fset, hk] using hid
        intro hx
        rcases List.mem_append.1 hx with hx | hx
        · exact h.disjoint k hk id this hx
        · rw [List.mem_singleton.1 hx] at this
          exact absurd (h.bound k _ this) (Nat.lt_irrefl _)
    · obtain ⟨v, rfl⟩ := ha.2 hc
      have hmap : (e.processAction (.activate cid uid (v.map .inr))).cancellationMap ownCid =
          e.cancellationMap ownCid := by
        simp [Exec.processAction, fset, Ne.symm hc]
      have hnew : (e.cancellationMap ownCid).contains e.nextWorkId = false := by
        rw [Bool.eq_false_iff]
        intro hx
        exact absurd (h.bound ownCid e.nextWorkId (by simpa using hx)) (Nat.lt_irrefl _)
      refine ⟨?_, ?_, ?_, hbound, htab, h.invokable⟩
      · simp only [Action.own, if_neg hc, hmap]
        simp only [Exec.processAction, imInsert_fresh hfresh]
        rw [ownWork_append, ownWork_cons_foreign hnew, ownWork_nil, h.active, List.append_nil]
      · rw [hmap]
        simp only [Exec.processAction, imInsert_fresh hfresh]
        intro p hp
        rcases List.mem_append.1 hp with hp | hp
        · exact h.sorted p hp
        · rw [List.mem_singleton.1 hp]
          exact ⟨fun hx => (by simp only [hnew] at hx; cases hx), fun _ => ⟨v, rfl⟩⟩
      · intro k hk id hid
        rw [hmap]
        simp only [Exec.processAction, fset] at hid
        split at hid
        · rename_i hk2
          rcases List.mem_append.1 hid with hid | hid
          · exact h.disjoint _ (by rw [← hk2]; exact hk) id hid
          · rw [List.mem_singleton.1 hid]
            simpa using hnew
        · exact h.disjoint k hk id hid
  | cancel cid =>
    have htab : Tables (e.processAction (.cancel cid)) := by
      refine ⟨?_, ?_, h.tables.already⟩
      · exact h.tables.sorted.sublist (imRemoves_sublist _ _)
      · intro p hp
        exact h.tables.bound p ((imRemoves_sublist _ _).subset hp)
    by_cases hc : cid = ownCid
    · subst hc
      have hmap : (e.processAction (.cancel ownCid)).cancellationMap ownCid = [] := by
        simp [Exec.processAction, fset]
      have hact : ∀ p ∈ (e.processAction (.cancel ownCid)).active,
          p ∈ e.active ∧ (e.cancellationMap ownCid).contains p.1 = false := by
        intro p hp
        simp only [Exec.processAction] at hp
        rw [imRemoves_eq] at hp
        simpa using hp
      refine ⟨?_, ?_, ?_, ?_, htab, h.invokable⟩
      · simp only [Action.own, if_true, Solo.process, hmap]
        symm
        rw [ownWork, List.filterMap_eq_nil_iff]
        intro p _
        simp
      · rw [hmap]
        intro p hp
        obtain ⟨h1, h2⟩ := hact p hp
        exact ⟨fun h => (by simp at h), fun _ => (h.sorted p h1).2 h2⟩
      · intro k hk id _
        rw [hmap]
        simp
      · intro k id hid
        simp only [Exec.processAction, fset] at hid
        split at hid
        · cases hid
        · exact h.bound k id hid
    · have hmap : (e.processAction (.cancel cid)).cancellationMap ownCid = e.cancellationMap ownCid := by
        simp [Exec.processAction, fset, Ne.symm hc]
      refine ⟨?_, ?_, ?_, ?_, htab, h.invokable⟩
      · simp only [Action.own, if_neg hc, hmap]
        simp only [Exec.processAction, imRemoves_eq]
        rw [h.active]
        have : ∀ l : List (Nat × Work (c.B ⊕ R.B)),
            ownWork (fun id => (e.cancellationMap ownCid).contains id) e.alreadyTicked l =
            ownWork (fun id => (e.cancellationMap ownCid).contains id) e.alreadyTicked
              (l.filter fun p => !(e.cancellationMap cid).contains p.1) := by
          intro l
          induction l with
          | nil => rfl
          | cons p l ih =>
            by_cases hp : p.1 ∈ e.cancellationMap cid
            · have hno : (e.cancellationMap ownCid).contains p.1 = false := by
                simpa using h.disjoint cid hc p.1 hp
              rw [List.filter_cons_of_neg (by simpa using hp), ownWork_cons_foreign (p := p) hno, ih]
            · rw [List.filter_cons_of_pos (by simpa using hp)]
              simp only [ownWork, List.filterMap_cons] at ih ⊢
              rw [ih]
        exact this e.active
      · rw [hmap]
        intro p hp
        exact h.sorted p ((imRemoves_sublist _ _).subset hp)
      · intro k hk id hid
        rw [hmap]
        simp only [Exec.processAction, fset] at hid
        split at hid
        · cases hid
        · exact h.disjoint k hk id hid
      · intro k id hid
        simp only [Exec.processAction, fset] at hid
        split at hid
        · cases hid
        · exact h.bound k id hid
  | addInvoked iid wk =>
    refine ⟨h.active, h.sorted, h.disjoint, h.bound, ⟨h.tables.sorted, h.tables.bound, h.tables.already⟩, ?_⟩
    intro i wk' hi
    simp only [Exec.processAction, fset] at hi
    split at hi
    · cases hi; exact ha
    · exact h.invokable i wk' hi
  | invoke iid =>
    exact ⟨h.active, h.sorted, h.disjoint, h.bound, ⟨h.tables.sorted, h.tables.bound, h.tables.already⟩, h.invokable⟩
  | cancelInvoked iid =>
    refine ⟨h.active, h.sorted, h.disjoint, h.bound, ⟨h.tables.sorted, h.tables.bound, h.tables.already⟩, ?_⟩
    intro i wk' hi
    simp only [Exec.processAction, fset] at hi
    split at hi
    · cases hi
    · exact h.invokable i wk' hi

theorem AView.processAll (q : List (Action (c.B ⊕ R.B))) : ∀ {e : Exec R.env} {act : List (Work c.B × Bool)},
    AView e act → (∀ a ∈ q, a.Fair) →
    AView (R := R) (q.foldl Exec.processAction e) ((q.filterMap Action.own).foldl Solo.process act) := by
  induction q with
  | nil => intro e act h _; exact h
  | cons a q ih =>
    intro e act h hq
    have := ih (h.process a (hq a List.mem_cons_self)) (fun b hb => hq b (List.mem_cons_of_mem _ hb))
    rw [List.filterMap_cons]
    cases ha : a.own with
    | none => rw [ha] at this; exact this
    | some r => rw [ha] at this; exact this

/-- The executor as the small machine sees it. -/
structure EView (e : Exec R.env) (s : Solo c) : Prop where
  world : WView e.world s
  tables : AView e s.active

theorem EView.drain {e : Exec R.env} {s : Solo c} (h : EView e s) (t : Nat) : EView (e.drain t).1 (s.drain t) := by
  have hw : (e.drain t).1.world =
      { e.world with
        sched := { e.world.sched with currentTick := updateTick e.world.sched.currentTick t, queue := [] }
        log := e.world.log ++ [.drained] } := by
    simp only [Exec.drain]
    rw [processAll_world]
  refine ⟨⟨?_, ⟨?_, ?_, ?_⟩⟩, ?_⟩
  · rw [hw]; exact h.world.st
  · rw [hw]
    show updateTick _ _ = _
    rw [h.world.sched.clock]; rfl
  · rw [hw]; rfl
  · rw [hw]; intro a ha; cases ha
  · have h0 : AView (R := R) { e with world :=
        { e.world with
          sched := { e.world.sched with currentTick := updateTick e.world.sched.currentTick t, queue := [] }
          log := e.world.log ++ [.drained] } } s.active :=
      ⟨h.tables.active, h.tables.sorted, h.tables.disjoint, h.tables.bound,
        ⟨h.tables.tables.sorted, h.tables.tables.bound, h.tables.tables.already⟩, h.tables.invokable⟩
    have := AView.processAll (R := R) e.world.sched.queue h0 h.world.sched.fair
    rw [h.world.sched.queue] at this
    exact this

theorem EView.drain_invoked {e : Exec R.env} (t : Nat) (hi : e.invoked = []) (hq : e.world.sched.queue = []) :
    (e.drain t).1.invoked = [] := by
  simp [Exec.drain, hq, hi]

theorem EView.tickScheduled {e e' : Exec R.env} {s : Solo c} {b : Bool} (h : EView e s) {t : Nat}
    (ht : s.tick = some t) (he : e.tickScheduled t = some (e', b)) :
    ∃ s', Solo.Inner s s' ∧ EView e' s' ∧ s'.tick = some t ∧ s'.allTicked ∧
      (b = true → e'.world.sched.queue = e.world.sched.queue) ∧ e'.invoked = e.invoked := by
  simp only [Exec.tickScheduled] at he
  cases hp : Sched.tickPass (env := R.env) e.alreadyTicked t e.active e.world with
  | none => rw [hp] at he; cases he
  | some y =>
    obtain ⟨out, w'⟩ := y
    rw [hp] at he
    cases he
    obtain ⟨s', h1, h2, h3, h4, h5, h6, h7⟩ := WView.tickPass e.active (pre := []) h.world hp h.tables.sorted ht
      (by rw [h.tables.active]; rfl) (by simp)
    have hkeys := tickPass_keys e.active e.world _ hp
    have hsorted : (out.map fun p => (p.1, p.2.1)).Pairwise (fun a b => a.1 < b.1) := by
      refine pairwise_of_keys ?_ h.tables.tables.sorted
      rw [List.map_map]
      exact hkeys
    have hact : ((out.filter (fun p => p.2.2 == some .done)).map (·.1)).foldl imRemove
        (out.map (fun p => (p.1, p.2.1))) = kept out := by
      rw [imRemoves_eq, kept, List.filter_map]
      congr 1
      apply List.filter_congr
      intro p hp
      have hnd : out.Pairwise (fun a b => a.1 < b.1) := by
        rw [List.pairwise_map] at hsorted; exact hsorted
      have : ((out.filter (fun p => p.2.2 == some .done)).map (·.1)).contains p.1 = (p.2.2 == some .done) := by
        rw [Bool.eq_iff_iff]
        constructor
        · intro hx
          simp only [List.contains_eq_mem, List.mem_map, List.mem_filter, decide_eq_true_eq] at hx
          obtain ⟨q, ⟨hq1, hq2⟩, hq3⟩ := hx
          have : q = p := eq_of_key hnd hq1 hp hq3
          rw [← this]; exact hq2
        · intro hx
          simp only [List.contains_eq_mem, List.mem_map, List.mem_filter, decide_eq_true_eq]
          exact ⟨p, ⟨hp, hx⟩, rfl⟩
      simp only [Function.comp_apply, this]
    have hticked : ∀ p ∈ out, (e.alreadyTicked p.1 ||
        ((out.filter (fun p => p.2.2.isSome)).map (·.1)).contains p.1) = true := by
      intro p hp
      cases hx : p.2.2 with
      | none => simp [h7 p hp hx]
      | some r =>
        simp only [Bool.or_eq_true, List.contains_eq_mem, List.mem_map, List.mem_filter, decide_eq_true_eq]
        exact .inr ⟨p, ⟨hp, by simp [hx]⟩, rfl⟩
    have hkept : ∀ p ∈ kept out, ∃ q ∈ out, p = (q.1, q.2.1) := by
      intro p hp
      simp only [kept, List.mem_map, List.mem_filter] at hp
      obtain ⟨q, ⟨hq, _⟩, rfl⟩ := hp
      exact ⟨q, hq, rfl⟩
    have hsub : (kept out).Sublist (out.map fun p => (p.1, p.2.1)) := List.filter_sublist.map _
    have hmem : ∀ p ∈ out, ∃ q ∈ e.active, q.1 = p.1 := by
      intro p hp
      have : p.1 ∈ e.active.map (·.1) := by rw [← hkeys]; exact List.mem_map_of_mem hp
      obtain ⟨q, hq, hq2⟩ := List.mem_map.1 this
      exact ⟨q, hq, hq2⟩
    refine ⟨s', h1, ⟨h2, ⟨?_, ?_, h.tables.disjoint, h.tables.bound, ⟨?_, ?_, ?_⟩, h.tables.invokable⟩⟩, h3, ?_, ?_, rfl⟩
    · rw [h5, hact, List.nil_append]
      refine ownWork_congr (fun _ _ => rfl) ?_
      intro p hp _
      obtain ⟨q, hq, rfl⟩ := hkept p hp
      exact (hticked q hq).symm
    · rw [hact]
      exact fun p hp => h6 p (hsub.subset hp)
    · rw [hact]; exact hsorted.sublist hsub
    · rw [hact]
      intro p hp
      obtain ⟨q, hq, rfl⟩ := hkept p hp
      obtain ⟨r, hr, hr2⟩ := hmem q hq
      rw [← hr2]; exact h.tables.tables.bound r hr
    · intro id hid
      simp only [Bool.or_eq_true, List.contains_eq_mem, List.mem_map, List.mem_filter, decide_eq_true_eq] at hid
      rcases hid with hid | ⟨q, ⟨hq, _⟩, rfl⟩
      · exact h.tables.tables.already id hid
      · obtain ⟨r, hr, hr2⟩ := hmem q hq
        rw [← hr2]; exact h.tables.tables.bound r hr
    · intro p hp
      rw [h5, List.nil_append, ownWork, List.mem_filterMap] at hp
      obtain ⟨q, _, hq⟩ := hp
      split at hq
      · obtain ⟨v, _, rfl⟩ := Option.map_eq_some_iff.1 hq
        rfl
      · cases hq
    · intro hb
      have hnone : ∀ p ∈ out, p.2.2 = none := by
        intro p hp
        simp only [List.isEmpty_iff, List.map_eq_nil_iff, List.filter_eq_nil_iff] at hb
        cases hx : p.2.2 with
        | none => rfl
        | some r => exact absurd (by simp [hx]) (hb p hp)
      have : ∀ (l : List (Nat × Work (c.B ⊕ R.B))) {w : World R.env} {out w'},
          Sched.tickPass (env := R.env) e.alreadyTicked t l w = some (out, w') → (∀ p ∈ out, p.2.2 = none) → w' = w := by
        intro l
        induction l with
        | nil => intro w out w' hx _; cases hx; rfl
        | cons p l ih =>
          intro w out w' hx hn
          simp only [Sched.tickPass] at hx
          split at hx
          · split at hx
            · rename_i hy
              cases hx
              exact ih hy (fun q hq => hn q (List.mem_cons_of_mem _ hq))
            · cases hx
          · split at hx
            · cases hx
            · split at hx
              · cases hx
                have := hn _ List.mem_cons_self
                cases this
              · cases hx
      rw [this e.active hp hnone]

theorem EView.executeInvoked {e e' : Exec R.env} {s : Solo c} (h : EView e s) {t : Nat}
    (he : e.executeInvoked t = some e') :
    ∃ s', Solo.Inner s s' ∧ EView e' s' ∧ s'.tick = s.tick ∧ s'.active = s.active ∧ e'.invoked = [] ∧
      (e.invoked = [] → e' = e) := by
  have key : ∀ (is : List Nat) {inv : Nat → Option (Work (c.B ⊕ R.B))} {w : World R.env} {s : Solo c} {inv' w'},
      WView w s → (∀ i wk, inv i = some wk → ∃ v : Work R.B, wk = v.map .inr) →
      execInvoked (env := R.env) t is inv w = some (inv', w') →
      ∃ s', Solo.Inner s s' ∧ Solo.Keeps s s' ∧ WView w' s' ∧
        (∀ i wk, inv' i = some wk → ∃ v : Work R.B, wk = v.map .inr) := by
    intro is
    induction is with
    | nil => intro inv w s inv' w' hw hi hx; cases hx; exact ⟨s, .refl s, .refl s, hw, hi⟩
    | cons i is ih =>
      intro inv w s inv' w' hw hi hx
      simp only [execInvoked] at hx
      cases hiv : inv i with
      | none => rw [hiv] at hx; exact ih hw hi hx
      | some wk =>
        rw [hiv] at hx
        obtain ⟨v, rfl⟩ := hi i wk hiv
        dsimp only at hx
        cases hk : (v.map (Sum.inr : R.B → c.B ⊕ R.B)).tick (env := R.env) (.invoked i) t w with
        | none => rw [hk] at hx; cases hx
        | some y =>
          obtain ⟨wk1, w1, res⟩ := y
          rw [hk] at hx
          dsimp only at hx
          obtain ⟨v1, s1, k2, k5, k3, k4⟩ := hw.tickForeign (.invoked i) t v hk
          split at hx
          · obtain ⟨s', h1, h2, h3, h4⟩ := ih (k4.emit _) (by
              intro j wk' hj
              simp only [fset] at hj
              split at hj
              · cases hj
              · exact hi j wk' hj) hx
            exact ⟨s', k5.trans h1, k3.trans h2, h3, h4⟩
          · obtain ⟨s', h1, h2, h3, h4⟩ := ih k4 (by
              intro j wk' hj
              simp only [fset] at hj
              split at hj
              · cases hj; exact ⟨v1, k2⟩
              · exact hi j wk' hj) hx
            exact ⟨s', k5.trans h1, k3.trans h2, h3, h4⟩
  simp only [Exec.executeInvoked] at he
  cases hx : execInvoked (env := R.env) t e.invoked e.invokable e.world with
  | none => rw [hx] at he; cases he
  | some y =>
    obtain ⟨inv', w'⟩ := y
    rw [hx] at he
    cases he
    obtain ⟨s', h1, h2, h3, h4⟩ := key e.invoked h.world h.tables.invokable hx
    refine ⟨s', h1, ⟨h3, ⟨?_, h.tables.sorted, h.tables.disjoint, h.tables.bound,
      ⟨h.tables.tables.sorted, h.tables.tables.bound, h.tables.tables.already⟩, h4⟩⟩, h2.tick, h2.active, rfl, ?_⟩
    · rw [h2.active]; exact h.tables.active
    · intro hi
      rw [hi] at hx
      cases hx
      cases e
      simp only at hi
      subst hi
      rfl

/-- One pass of a tick, after its queue was processed. -/
theorem EView.passRest {e e' : Exec R.env} {s : Solo c} {b : Bool} (h : EView e s) {t : Nat} (ht : s.tick = some t)
    (hi : e.invoked = []) (he : e.pass t = some (e', b)) :
    ∃ s', Solo.Inner (s.drain t) s' ∧ EView e' s' ∧ s'.tick = some t ∧ s'.allTicked ∧ e'.invoked = [] ∧
      (b = true → s'.queue = []) := by
  simp only [Exec.pass] at he
  have hd := h.drain t
  cases h1 : (e.drain t).1.tickScheduled t with
  | none => rw [h1] at he; cases he
  | some y =>
    obtain ⟨e1, b1⟩ := y
    rw [h1] at he
    dsimp only at he
    cases h2 : e1.executeInvoked t with
    | none => rw [h2] at he; cases he
    | some e2 =>
      rw [h2] at he
      cases he
      obtain ⟨s1, k1, k2, k3, k4, k5, k6⟩ := hd.tickScheduled (t := t) ht h1
      obtain ⟨s2, l1, l2, l3, l4, l5, l6⟩ := k2.executeInvoked h2
      refine ⟨s2, k1.trans l1, l2, l3.trans k3, ?_, l5, ?_⟩
      · intro p hp
        rw [l4] at hp
        exact k4 p hp
      · intro hb
        simp only [Bool.and_eq_true, Bool.not_eq_true'] at hb
        have hq : e.world.sched.queue = [] := by
          have := hb.2
          simp only [Exec.drain] at this
          simpa using this
        have hinv : e1.invoked = [] := by rw [k6]; exact EView.drain_invoked t hi hq
        have : e' = e1 := l6 hinv
        have hq1 : e1.world.sched.queue = [] := by
          rw [k5 hb.1]
          simp [Exec.drain, hq]
        rw [← l2.world.sched.queue, this, hq1]
        rfl

theorem EView.loop {t : Nat} : ∀ (n : Nat) {e e' : Exec R.env} {s : Solo c}, EView e s → s.tick = some t →
    e.invoked = [] → Exec.loop t n e = .ok e' →
    ∃ s', Solo.Inner (s.drain t) s' ∧ EView e' s' ∧ s'.tick = some t ∧ s'.allTicked ∧ e'.invoked = [] ∧
      s'.queue = [] := by
  intro n
  induction n with
  | zero =>
    intro e e' s h ht hi he
    rw [Exec.loop] at he
    split at he
    · cases he
    · rename_i e1 b hp
      split at he
      · cases he
        rename_i hb
        obtain ⟨s1, k1, k2, k3, k4, k5, k6⟩ := h.passRest ht hi hp
        exact ⟨s1, k1, k2, k3, k4, k5, k6 hb⟩
      · cases he
  | succ n ih =>
    intro e e' s h ht hi he
    rw [Exec.loop] at he
    split at he
    · cases he
    · rename_i e1 b hp
      obtain ⟨s1, k1, k2, k3, k4, k5, k6⟩ := h.passRest ht hi hp
      split at he
      · cases he
        rename_i hb
        exact ⟨s1, k1, k2, k3, k4, k5, k6 hb⟩
      · obtain ⟨s2, l1, l2, l3, l4, l5, l6⟩ := ih k2 k3 k5 he
        exact ⟨s2, k1.trans ((Solo.Inner.one (.pass s1 t k3 k4) rfl).trans l1), l2, l3, l4, l5, l6⟩

/-- A tick is a sequence of steps of the small machine, the last of which is its end. -/
theorem EView.tickTo {t : Nat} {e e' : Exec R.env} {s : Solo c} (h : EView e s)
    (hi : e.invoked = []) (he : e.tickTo t = .ok e') :
    ∃ s1, Solo.Inner (Solo.drain t { s with tick := some t, active := s.active.map fun p => (p.1, false) }) s1 ∧
      s1.tick = some t ∧ s1.allTicked ∧ s1.queue = [] ∧
      EView e' { s1 with tick := none } ∧ e'.invoked = [] := by
  simp only [Exec.tickTo] at he
  split at he
  · rename_i e1 hl
    cases he
    have h0 : EView (R := R) { e with
        currentTick := updateTick e.currentTick t
        alreadyTicked := fun _ => false
        world := e.world.emit (.tickStart t) }
        { s with tick := some t, active := s.active.map fun p => (p.1, false) } := by
      refine ⟨⟨h.world.st, h.world.sched⟩, ⟨?_, h.tables.sorted, h.tables.disjoint, h.tables.bound,
        ⟨h.tables.tables.sorted, h.tables.tables.bound, fun _ h => by cases h⟩, h.tables.invokable⟩⟩
      simp only [h.tables.active, ownWork, List.map_filterMap]
      congr 1
      funext p
      split
      · cases p.2.left <;> rfl
      · rfl
    obtain ⟨s1, k1, k2, k3, k4, k5, k6⟩ := h0.loop _ rfl hi hl
    refine ⟨s1, k1, k3, k4, k6, ⟨⟨k2.world.st, k2.world.sched⟩, ?_⟩, k5⟩
    exact ⟨k2.tables.active, k2.tables.sorted, k2.tables.disjoint, k2.tables.bound,
      ⟨k2.tables.tables.sorted, k2.tables.tables.bound, k2.tables.tables.already⟩, k2.tables.invokable⟩
  · rename_i hx
    exact absurd he (hx e')

theorem EView.step {e e' : Exec R.env} {s : Solo c} (h : EView e s) (ht : s.tick = none) (hi : e.invoked = [])
    {op : R.Op} (he : R.step e op = .ok e') :
    ∃ s', Solo.Steps s s' ∧ s'.tick = none ∧ EView e' s' ∧ e'.invoked = [] := by
  have tk : ∀ t, e.tickTo t = .ok e' → ∃ s', Solo.Steps s s' ∧ s'.tick = none ∧ EView e' s' ∧ e'.invoked = [] := by
    intro t he
    obtain ⟨s1, k1, k2, k3, k4, k5, k6⟩ := h.tickTo hi he
    exact ⟨_, ((Solo.Steps.one (.start s t ht)).trans k1.steps).tail (.finish s1 t k2 k3 k4), rfl, k5, k6⟩
  cases op with
  | act a =>
    cases he
    obtain ⟨s', h1, h2, h3⟩ := WView.perform (R := R) [a] (w := e.world) (x := e.world.ctx) (sc := e.world.sched)
      h.world.sched.clock h.world.st h.world.sched
    refine ⟨s', h1.steps, h2.tick.trans ht, ⟨h3, ?_⟩, hi⟩
    rw [h2.active]
    exact ⟨h.tables.active, h.tables.sorted, h.tables.disjoint, h.tables.bound,
      ⟨h.tables.tables.sorted, h.tables.tables.bound, h.tables.tables.already⟩, h.tables.invokable⟩
  | tickTo t => exact tk t he
  | tick d => exact tk _ he

theorem EView.start (R : Rest c) (st : c.St) (x : R.Ctx) (n : Nat) :
    EView (R.start st x n) ({ st := st } : Solo c) ∧ (R.start st x n).invoked = [] := by
  refine ⟨⟨⟨rfl, ⟨rfl, rfl, fun a ha => by cases ha⟩⟩, ⟨rfl, ?_, ?_, ?_, ⟨List.Pairwise.nil, ?_, ?_⟩, ?_⟩⟩, rfl⟩
  · intro p hp; cases hp
  · intro k _ id hid; cases hid
  · intro k id hid; cases hid
  · intro p hp; cases hp
  · intro id hid; cases hid
  · intro i wk hi; cases hi

theorem EView.run : ∀ (ops : List R.Op) {e e' : Exec R.env} {s : Solo c}, EView e s → s.tick = none →
    e.invoked = [] → R.run e ops = .ok e' →
    ∃ s', Solo.Steps s s' ∧ s'.tick = none ∧ EView e' s' ∧ e'.invoked = [] := by
  intro ops
  induction ops with
  | nil => intro e e' s h ht hi he; cases he; exact ⟨s, .refl s, ht, h, hi⟩
  | cons op ops ih =>
    intro e e' s h ht hi he
    simp only [Rest.run] at he
    split at he
    · rename_i e1 h1
      obtain ⟨s1, k1, k2, k3, k4⟩ := h.step ht hi h1
      obtain ⟨s2, l1, l2, l3, l4⟩ := ih k3 k2 k4 he
      exact ⟨s2, k1.trans l1, l2, l3, l4⟩
    · rename_i hx
      exact absurd he (hx e')

/-- Every history on the executor is a history of the small machine. -/
theorem solo_of_run {st : c.St} {x : R.Ctx} {n : Nat} {ops : List R.Op} {e : Exec R.env}
    (h : R.run (R.start st x n) ops = .ok e) :
    ∃ s, Solo.Reachable st s ∧ s.tick = none ∧ s.st = e.world.ctx.1 ∧ s.clock = e.world.sched.currentTick := by
  obtain ⟨h1, h2⟩ := EView.start R st x n
  obtain ⟨s, k1, k2, k3, _⟩ := EView.run ops h1 rfl h2 h
  exact ⟨s, k1, k2, k3.world.st.symm, k3.world.sched.clock.symm⟩

theorem Rest.run_append (ops : List R.Op) (op : R.Op) : ∀ {e e' : Exec R.env}, R.run e (ops ++ [op]) = .ok e' →
    ∃ e1, R.run e ops = .ok e1 ∧ R.step e1 op = .ok e' := by
  induction ops with
  | nil =>
    intro e e' h
    simp only [List.nil_append, Rest.run] at h
    refine ⟨e, rfl, ?_⟩
    split at h
    · rename_i h1; rw [h1, h]
    · rename_i hx; exact absurd h (hx e')
  | cons o ops ih =>
    intro e e' h
    simp only [List.cons_append, Rest.run] at h ⊢
    split at h
    · rename_i e1 h1
      exact ih h
    · rename_i hx; exact absurd h (hx e')

/-- A tick at the end of a history: the small machine starts the tick in a state it has reached between ticks,
goes through the tick, and ends it. -/
theorem solo_of_tick {st : c.St} {x : R.Ctx} {n : Nat} {ops : List R.Op} {t : Nat} {e0 e : Exec R.env}
    (h0 : R.run (R.start st x n) ops = .ok e0) (h1 : e0.tickTo t = .ok e) :
    ∃ s0 s, Solo.Reachable st s0 ∧ s0.tick = none ∧
      s0.st = e0.world.ctx.1 ∧ s0.clock = e0.world.sched.currentTick ∧
      Solo.Inner (Solo.drain t { s0 with tick := some t, active := s0.active.map fun p => (p.1, false) }) s ∧
      s.tick = some t ∧ s.allTicked ∧ s.queue = [] ∧
      s.st = e.world.ctx.1 ∧ s.clock = e.world.sched.currentTick := by
  obtain ⟨k1, k2⟩ := EView.start R st x n
  obtain ⟨s0, l1, l2, l3, l4⟩ := EView.run ops k1 rfl k2 h0
  obtain ⟨s, m1, m2, m3, m4, m5, _⟩ := l3.tickTo l4 h1
  exact ⟨s0, s, l1, l2, l3.world.st.symm, l3.world.sched.clock.symm, m1, m2, m3, m4, m5.world.st.symm,
    m5.world.sched.clock.symm⟩

/-- Something done between ticks. -/
theorem solo_of_act {st : c.St} {x : R.Ctx} {n : Nat} {ops : List R.Op} {a : Act c R.B} {e0 : Exec R.env}
    (h0 : R.run (R.start st x n) ops = .ok e0) :
    ∃ s0 s, Solo.Reachable st s0 ∧ s0.tick = none ∧
      s0.st = e0.world.ctx.1 ∧ s0.clock = e0.world.sched.currentTick ∧
      Solo.Inner s0 s ∧ s.st = (R.act a e0.world).ctx.1 ∧ s.clock = (R.act a e0.world).sched.currentTick ∧
      s.clock = s0.clock := by
  obtain ⟨k1, k2⟩ := EView.start R st x n
  obtain ⟨s0, l1, l2, l3, l4⟩ := EView.run ops k1 rfl k2 h0
  obtain ⟨s, h1, h2, h3⟩ := WView.perform (R := R) [a] (w := e0.world) (x := e0.world.ctx) (sc := e0.world.sched)
    l3.world.sched.clock l3.world.st l3.world.sched
  exact ⟨s0, s, l1, l2, l3.world.st.symm, l3.world.sched.clock.symm, h1, h3.st.symm, h3.sched.clock.symm, h2.clock⟩

theorem Rest.run_snoc (ops : List R.Op) (op : R.Op) (e : Exec R.env) :
    R.run e (ops ++ [op]) = match R.run e ops with | .ok e => R.step e op | r => r := by
  induction ops generalizing e with
  | nil =>
    simp only [List.nil_append, Rest.run]
    split <;> simp_all
  | cons o ops ih =>
    simp only [List.cons_append, Rest.run]
    split
    · exact ih _
    · rename_i hx
      split
      · rename_i e' he; exact absurd he (hx e')
      · rfl

theorem foldl_call_ctx (ks : List (Call R.env.B)) (w : World R.env) : (ks.foldl World.call w).ctx = w.ctx := by
  induction ks generalizing w with
  | nil => rfl
  | cons k ks ih =>
    rw [List.foldl_cons, ih]
    cases k <;> rfl

theorem Rest.act_input_st (i : c.In) (w : World R.env) :
    (R.act (.input i) w).ctx.1 = (c.input i w.sched.currentTick w.ctx.1).1 := by
  unfold Rest.act
  dsimp only
  rw [foldl_call_ctx]
  rfl

end Rx.Sched
