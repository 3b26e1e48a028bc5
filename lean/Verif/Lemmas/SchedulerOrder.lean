import Verif.Lemmas.SchedulerWork

/-!
# Order of ticks, finished work, clock, ids
-/

namespace Rx.Sched

open Spec

variable {env : Env}

/-! ## Lifting invariants to histories -/

theorem loop_inv {P : Exec env → Prop} {t : Nat}
    (hp : ∀ e e' b, P e → e.pass t = some (e', b) → P e') :
    ∀ (n : Nat) {e e' : Exec env}, P e → Exec.loop t n e = .ok e' → P e' := by
  intro n
  induction n with
  | zero =>
    intro e e' h hl
    unfold Exec.loop at hl
    split at hl
    · cases hl
    · rename_i e1 q heq
      split at hl
      · cases hl; exact hp _ _ _ h heq
      · cases hl
  | succ n ih =>
    intro e e' h hl
    unfold Exec.loop at hl
    split at hl
    · cases hl
    · rename_i e1 q heq
      split at hl
      · cases hl; exact hp _ _ _ h heq
      · exact ih (hp _ _ _ h heq) hl

/-- The state in which the loop of `tick_to` starts. -/
def Exec.begin (e : Exec env) (t : Nat) : Exec env :=
  { e with
    currentTick := updateTick e.currentTick t
    alreadyTicked := fun _ => false
    world := e.world.emit (.tickStart t) }

theorem tickTo_ok {e e' : Exec env} {t : Nat} (h : e.tickTo t = .ok e') :
    ∃ e1, Exec.loop t e.maxDepth (e.begin t) = .ok e1 ∧
      e' = { e1 with world := e1.world.emit .tickEnd } := by
  unfold Exec.tickTo at h
  simp only at h
  split at h
  · rename_i e1 heq
    cases h
    exact ⟨e1, heq, rfl⟩
  · rename_i hno
    exfalso
    cases hl : Exec.loop t e.maxDepth { e with
          currentTick := updateTick e.currentTick t
          alreadyTicked := fun _ => false
          world := e.world.emit (.tickStart t) } with
    | ok a => exact hno a hl
    | panic a => rw [hl] at h; cases h
    | diverges => rw [hl] at h; cases h

theorem run_inv {P : Exec env → Prop} (hc : ∀ e c, P e → P { e with world := e.world.call c })
    (ht : ∀ e e' t, P e → e.tickTo t = .ok e' → P e') :
    ∀ (ops : List (Op env.B)) {e e' : Exec env}, P e → e.run ops = .ok e' → P e' := by
  intro ops
  induction ops with
  | nil => intro e e' h hr; simp only [Exec.run] at hr; cases hr; exact h
  | cons op ops ih =>
    intro e e' h hr
    simp only [Exec.run] at hr
    cases op with
    | call c => exact ih (hc _ _ h) hr
    | tickTo t =>
      simp only [Exec.step] at hr
      cases htk : e.tickTo t with
      | ok e1 => rw [htk] at hr; exact ih (ht _ _ _ h htk) hr
      | panic e1 => rw [htk] at hr; cases hr
      | diverges => rw [htk] at hr; cases hr
    | tick d =>
      simp only [Exec.step, Exec.tick] at hr
      cases htk : e.tickTo (e.currentTick + d) with
      | ok e1 => rw [htk] at hr; exact ih (ht _ _ _ h htk) hr
      | panic e1 => rw [htk] at hr; cases hr
      | diverges => rw [htk] at hr; cases hr

theorem run_append (ops₁ ops₂ : List (Op env.B)) (e : Exec env) :
    e.run (ops₁ ++ ops₂) = match e.run ops₁ with
      | .ok e => e.run ops₂
      | .panic e => .panic e
      | .diverges => .diverges := by
  induction ops₁ generalizing e with
  | nil => rfl
  | cons op ops ih =>
    simp only [List.cons_append, Exec.run]
    cases e.step op with
    | ok e1 => exact ih e1
    | panic e1 => rfl
    | diverges => rfl

/-! ## The trivial laws -/

theorem runCount_mono {src s : Src} {t : Nat} {a b : World env} (h : Steps src t a b) :
    runCount s a.log ≤ runCount s b.log := by
  refine h.inv (P := fun b => runCount s a.log ≤ runCount s b.log) ?_ (Nat.le_refl _)
  intro x y h hx
  cases h with
  | run => simp only [World.emit, runCount, List.countP_append] at hx ⊢; omega
  | ctx => exact hx
  | call c => rw [runCount_call]; exact hx

theorem triv (u s0 : Nat) (wk0 : Work env.B) :
    WorkLaws u s0 wk0 (fun _ _ _ _ => True) (fun _ _ => True) where
  initOut := trivial
  initIn _ _ := trivial
  begin _ _ _ _ _ := trivial
  tick := by
    intro ts t wk rs w wk' w' res _ h
    have := runCount_mono (s := .work u) (Steps.tick h)
    simp only at this
    refine ⟨_, (Nat.add_sub_cancel' this).symm, ?_⟩
    cases res <;> trivial
  finished _ _ _ _ := trivial

/-- The invariant between ticks that mentions no particular kind of work. -/
def Base (u : Nat) (e : Exec env) : Prop := Outside (triv u 0 (.immediate none)) e

/-! ## Order -/

/-- Events closures can cause. -/
def Ev.isBody {B : Type} : Ev B → Bool
  | .scheduled .. | .cancel _ | .addInvoked .. | .invoke _ | .cancelInvoked _
  | .newCancellationId _ | .newInvokeId _ | .run .. => true
  | _ => false

theorem WStep.log {src : Src} {t : Nat} {a b : World env} (h : WStep src t a b) :
    ∃ ext, b.log = a.log ++ ext ∧ ∀ x ∈ ext, x.isBody = true := by
  cases h with
  | run => exact ⟨[_], rfl, by simp [Ev.isBody]⟩
  | ctx => exact ⟨[], by simp, by simp⟩
  | call c => cases c <;> exact ⟨[_], rfl, by simp [Ev.isBody]⟩

theorem Steps.log {src : Src} {t : Nat} {a b : World env} (h : Steps src t a b) :
    ∃ ext, b.log = a.log ++ ext ∧ ∀ x ∈ ext, x.isBody = true := by
  refine h.inv (P := fun b => ∃ ext, b.log = a.log ++ ext ∧ ∀ x ∈ ext, x.isBody = true) ?_
    ⟨[], by simp, by simp⟩
  rintro x y h ⟨ext, h1, h2⟩
  obtain ⟨ext', h3, h4⟩ := h.log
  refine ⟨ext ++ ext', by rw [h3, h1, List.append_assoc], ?_⟩
  intro z hz
  rcases List.mem_append.1 hz with hz | hz
  · exact h2 z hz
  · exact h4 z hz

theorem tickBatches_snoc {B : Type} (log : List (Ev B)) (e : Ev B) :
    tickBatches (log ++ [e]) = match e with
      | .tickStart _ => [] :: tickBatches log
      | .ticked u _ =>
        match tickBatches log with
        | b :: bs => (b ++ [u]) :: bs
        | [] => []
      | _ => tickBatches log := by
  unfold tickBatches
  rw [List.foldl_append]
  simp only [List.foldl_cons, List.foldl_nil]
  cases e <;> rfl

theorem tickBatches_body {B : Type} (log ext : List (Ev B)) (h : ∀ x ∈ ext, x.isBody = true) :
    tickBatches (log ++ ext) = tickBatches log := by
  induction ext generalizing log with
  | nil => simp
  | cons x ext ih =>
    rw [show log ++ x :: ext = (log ++ [x]) ++ ext by simp, ih _ fun y hy => h y (by simp [hy]),
      tickBatches_snoc]
    have := h x (by simp)
    cases x <;> simp_all [Ev.isBody]

theorem Steps.batches {src : Src} {t : Nat} {a b : World env} (h : Steps src t a b) :
    tickBatches b.log = tickBatches a.log := by
  obtain ⟨ext, h1, h2⟩ := h.log
  rw [h1, tickBatches_body _ _ h2]

/-- The log says that `u` is done. -/
def isDone {B : Type} (u : Nat) (log : List (Ev B)) : Prop := Ev.done (.work u) ∈ log

/-- Work that is done is not ticked again. -/
def NoTickAfterDone {B : Type} (log : List (Ev B)) : Prop :=
  ∀ u pre post, log = pre ++ Ev.done (.work u) :: post → ∀ t, Ev.ticked u t ∉ post

theorem append_cons_snoc {α : Type} {l pre post : List α} {x y : α}
    (h : l ++ [x] = pre ++ y :: post) :
    (post = [] ∧ x = y ∧ l = pre) ∨ ∃ post', post = post' ++ [x] ∧ l = pre ++ y :: post' := by
  rcases List.eq_nil_or_concat post with rfl | ⟨post', z, rfl⟩
  · left
    have := List.append_inj' h rfl
    simp only [List.cons.injEq, and_true] at this
    exact ⟨rfl, this.2, this.1⟩
  · right
    rw [List.concat_eq_append, ← List.cons_append, ← List.append_assoc] at h
    have := List.append_inj' h rfl
    simp only [List.cons.injEq, and_true] at this
    exact ⟨post', by rw [this.2]; simp, this.1⟩

theorem NoTickAfterDone.snoc {B : Type} {log : List (Ev B)} (h : NoTickAfterDone log) (e : Ev B)
    (he : ∀ u t, e = .ticked u t → ¬ isDone u log) : NoTickAfterDone (log ++ [e]) := by
  intro u pre post heq t hm
  rcases append_cons_snoc heq with ⟨rfl, _, _⟩ | ⟨post', rfl, hl⟩
  · simp at hm
  · rcases List.mem_append.1 hm with hm | hm
    · exact h u pre post' hl t hm
    · simp only [List.mem_singleton] at hm
      refine he u t hm.symm ?_
      unfold isDone; rw [hl]; simp

theorem NoTickAfterDone.body {B : Type} {log : List (Ev B)} (h : NoTickAfterDone log)
    (ext : List (Ev B)) (hx : ∀ x ∈ ext, x.isBody = true) : NoTickAfterDone (log ++ ext) := by
  induction ext generalizing log with
  | nil => simpa using h
  | cons x ext ih =>
    rw [show log ++ x :: ext = (log ++ [x]) ++ ext by simp]
    refine ih (h.snoc x ?_) fun y hy => hx y (by simp [hy])
    rintro u t rfl
    have := hx _ (List.mem_cons_self)
    simp [Ev.isBody] at this

theorem isDone_body {B : Type} {log : List (Ev B)} {u : Nat}
    (ext : List (Ev B)) (hx : ∀ x ∈ ext, x.isBody = true) :
    isDone u (log ++ ext) ↔ isDone u log := by
  unfold isDone
  rw [List.mem_append]
  constructor
  · rintro (h | h)
    · exact h
    · have := hx _ h; simp [Ev.isBody] at this
  · exact .inl

theorem isDone_snoc {B : Type} {log : List (Ev B)} {u : Nat} {e : Ev B}
    (he : e ≠ .done (.work u)) : isDone u (log ++ [e]) ↔ isDone u log := by
  unfold isDone
  simp only [List.mem_append, List.mem_singleton]
  constructor
  · rintro (h | h)
    · exact h
    · exact absurd h.symm he
  · exact .inl

/-- A pass ticks exactly the works not yet ticked, in order; and only they can become done. -/
theorem tickPass_order {already : Nat → Bool} {t : Nat} : ∀ (l : List (Nat × Work env.B))
    (w : World env) (r), tickPass already t l w = some r →
    l.Pairwise (fun a b => a.1 < b.1) →
    (∀ p ∈ l, ¬ isDone p.1 w.log) → NoTickAfterDone w.log →
    (∀ b bs, tickBatches w.log = b :: bs →
      tickBatches r.2.log = (b ++ (l.filter fun p => !already p.1).map (·.1)) :: bs) ∧
    NoTickAfterDone r.2.log ∧
    (∀ u, isDone u r.2.log → isDone u w.log ∨ ∃ wk, (u, wk, some WorkResult.done) ∈ r.1) := by
  intro l
  induction l with
  | nil =>
    intro w r h _ _ hn
    simp only [tickPass] at h; cases h
    exact ⟨fun b bs h => by simpa using h, hn, fun u h => .inl h⟩
  | cons p l ih =>
    obtain ⟨id, wk⟩ := p
    intro w r h hpw hd hn
    obtain ⟨hlt, hpw'⟩ := List.pairwise_cons.1 hpw
    simp only [tickPass] at h
    split at h
    · rename_i hal
      split at h
      · rename_i out w1 heq
        cases h
        obtain ⟨h1, h2, h3⟩ := ih _ _ heq hpw' (fun p hp => hd p (List.mem_cons_of_mem _ hp)) hn
        refine ⟨fun b bs hb => ?_, h2, fun u hu => ?_⟩
        · rw [h1 b bs hb]; simp [hal]
        · rcases h3 u hu with h | ⟨wk', h⟩
          · exact .inl h
          · exact .inr ⟨wk', List.mem_cons_of_mem _ h⟩
      · cases h
    · rename_i hal
      split at h
      · cases h
      · rename_i wk' w1 res hk
        split at h
        · rename_i out w2 heq
          cases h
          obtain ⟨ext, hx1, hx2⟩ := (Steps.tick hk).log
          simp only [World.emit] at hx1
          have hn1 : NoTickAfterDone w1.log := by
            rw [hx1]
            refine NoTickAfterDone.body (hn.snoc _ ?_) _ hx2
            intro u t' he
            cases he
            exact hd (id, wk) (by simp)
          have hd1 : ∀ u, isDone u w1.log ↔ isDone u w.log := by
            intro u; rw [hx1, isDone_body _ hx2, isDone_snoc (by simp)]
          have hn2 : NoTickAfterDone
              (if res = WorkResult.done then w1.emit (Ev.done (Src.work id)) else w1).log := by
            split
            · exact hn1.snoc _ (by simp)
            · exact hn1
          have hd2 : ∀ u, u ≠ id → (isDone u
              (if res = WorkResult.done then w1.emit (Ev.done (Src.work id)) else w1).log ↔
                isDone u w.log) := by
            intro u hu
            split
            · rw [← hd1 u]
              exact isDone_snoc (by intro h; cases h; exact hu rfl)
            · exact hd1 u
          have hb2 : tickBatches
              (if res = WorkResult.done then w1.emit (Ev.done (Src.work id)) else w1).log =
              tickBatches w1.log := by
            split
            · simp only [World.emit]; rw [tickBatches_snoc]
            · rfl
          obtain ⟨h1, h2, h3⟩ := ih _ _ heq hpw' (fun p hp => by
            have := hlt p hp
            simp only at this
            rw [hd2 p.1 (by omega)]
            exact hd p (List.mem_cons_of_mem _ hp)) hn2
          refine ⟨fun b bs hb => ?_, h2, fun u hu => ?_⟩
          · rw [h1 (b ++ [id]) bs]
            · simp [hal]
            · rw [hb2, (Steps.tick hk).batches]
              simp only [World.emit]; rw [tickBatches_snoc, hb]
          · rcases h3 u hu with h | ⟨wk', h⟩
            · by_cases hu' : u = id
              · subst hu'
                right
                split at h
                · rename_i hres; subst hres; exact ⟨wk', by simp⟩
                · exact absurd ((hd1 u).1 h) (hd (u, wk) (by simp))
              · exact .inl ((hd2 u hu').1 h)
            · exact .inr ⟨wk', List.mem_cons_of_mem _ h⟩
        · cases h

/-- The invariant about order and finished work at the boundaries of passes. -/
structure OMid (e : Exec env) : Prop where
  tables : Tables e
  batch : ∃ b bs, tickBatches e.world.log = b :: bs ∧ (∀ x ∈ b :: bs, x.Pairwise (· < ·)) ∧
    (∀ id, e.alreadyTicked id = true ↔ id ∈ b) ∧
    (∀ p ∈ e.active, e.alreadyTicked p.1 = false → ∀ k ∈ b, k < p.1)
  noTick : NoTickAfterDone e.world.log
  notDone : ∀ p ∈ e.active, ¬ isDone p.1 e.world.log
  fresh : ∀ u, e.nextWorkId ≤ u → ¬ isDone u e.world.log

theorem OMid.process {e : Exec env} (h : OMid e) (a : Action env.B) : OMid (e.processAction a) := by
  obtain ⟨⟨hs, hb, hal⟩, ⟨b, bs, h1, h2, h3, h4⟩, hn, hd, hf⟩ := h
  cases a with
  | activate c v wk =>
    have hfresh : ∀ p ∈ e.active, p.1 ≠ e.nextWorkId := fun p hp => by have := hb p hp; omega
    simp only [Exec.processAction, imInsert_fresh hfresh]
    refine ⟨⟨?_, ?_, ?_⟩, ⟨b, bs, h1, h2, h3, ?_⟩, hn, ?_, ?_⟩
    · rw [List.pairwise_append]
      refine ⟨hs, by simp, ?_⟩
      intro p hp q hq
      simp only [List.mem_singleton] at hq
      subst hq; exact hb p hp
    · intro p hp
      rcases List.mem_append.1 hp with hp | hp
      · have := hb p hp; simp only; omega
      · simp only [List.mem_singleton] at hp; subst hp; simp
    · intro id hid
      have := hal id hid; simp only; omega
    · intro p hp hpa k hk
      rcases List.mem_append.1 hp with hp | hp
      · exact h4 p hp hpa k hk
      · simp only [List.mem_singleton] at hp; subst hp
        exact hal k ((h3 k).2 hk)
    · intro p hp
      rcases List.mem_append.1 hp with hp | hp
      · exact hd p hp
      · simp only [List.mem_singleton] at hp; subst hp
        exact hf _ (Nat.le_refl _)
    · intro u hu; exact hf u (by simp only at hu; omega)
  | cancel c =>
    exact ⟨⟨hs.sublist (imRemoves_sublist _ _), fun p hp => hb p ((imRemoves_sublist _ _).mem hp),
      hal⟩, ⟨b, bs, h1, h2, h3, fun p hp => h4 p ((imRemoves_sublist _ _).mem hp)⟩, hn,
      fun p hp => hd p ((imRemoves_sublist _ _).mem hp), hf⟩
  | addInvoked i wk => exact ⟨⟨hs, hb, hal⟩, ⟨b, bs, h1, h2, h3, h4⟩, hn, hd, hf⟩
  | invoke i => exact ⟨⟨hs, hb, hal⟩, ⟨b, bs, h1, h2, h3, h4⟩, hn, hd, hf⟩
  | cancelInvoked i => exact ⟨⟨hs, hb, hal⟩, ⟨b, bs, h1, h2, h3, h4⟩, hn, hd, hf⟩

theorem OMid.processAll (q : List (Action env.B)) {e : Exec env} (h : OMid e) :
    OMid (q.foldl Exec.processAction e) := by
  induction q generalizing e with
  | nil => exact h
  | cons a q ih => exact ih (h.process a)

theorem OMid.drain {e : Exec env} (h : OMid e) (t : Nat) : OMid (e.drain t).1 := by
  simp only [Exec.drain]
  refine OMid.processAll _ ?_
  obtain ⟨⟨hs, hb, hal⟩, ⟨b, bs, h1, h2, h3, h4⟩, hn, hd, hf⟩ := h
  refine ⟨⟨hs, hb, hal⟩, ⟨b, bs, ?_, h2, h3, h4⟩, hn.snoc _ (by simp), ?_, ?_⟩
  · simp only; rw [tickBatches_snoc]; exact h1
  · intro p hp; simp only; rw [isDone_snoc (by simp)]; exact hd p hp
  · intro u hu; simp only; rw [isDone_snoc (by simp)]; exact hf u hu

theorem OMid.tickScheduled {e e' : Exec env} {t : Nat} {q : Bool} (h : OMid e)
    (ht : e.tickScheduled t = some (e', q)) :
    OMid e' ∧ (∀ p ∈ e'.active, e'.alreadyTicked p.1 = true) := by
  obtain ⟨⟨hs, hb, hal⟩, ⟨b, bs, h1, h2, h3, h4⟩, hn, hd, hf⟩ := h
  unfold Exec.tickScheduled at ht
  split at ht
  · cases ht
  · rename_i out w heq
    have hkeys := tickPass_keys _ _ _ heq
    have hres := tickPass_results _ _ _ heq
    obtain ⟨k1, k2, k3⟩ := tickPass_order _ _ _ heq hs hd hn
    simp only at hkeys hres k1 k2 k3
    have hso := pairwise_of_keys hkeys hs
    have hmo : ∀ p ∈ out, p.1 < e.nextWorkId := fun p hp => by
      obtain ⟨q, hq, hqe⟩ := mem_of_keys hkeys hp
      rw [← hqe]; exact hb q hq
    have hticked : (out.filter fun p => p.2.2.isSome).map (·.1) =
        (e.active.filter fun p => !e.alreadyTicked p.1).map (·.1) := by
      have e1 : out.filter (fun p => p.2.2.isSome) = out.filter (fun p => !e.alreadyTicked p.1) :=
        List.filter_congr hres
      rw [e1]
      have e2 : ∀ {α : Type} (l : List (Nat × α)), (l.filter fun p => !e.alreadyTicked p.1).map (·.1)
          = (l.map (·.1)).filter (fun id => !e.alreadyTicked id) := by
        intro α l; rw [List.filter_map]; rfl
      rw [e2, e2, hkeys]
    have hact : ∀ p ∈ ((out.filter fun p => p.2.2 == some .done).map (·.1)).foldl imRemove
        (out.map fun p => (p.1, p.2.1)), (∃ x, (p.1, x) ∈ out) ∧
          ∀ wk, (p.1, wk, some WorkResult.done) ∉ out := by
      intro p hp
      have hmem := (imRemoves_sublist _ _).mem hp
      obtain ⟨x, hx, hxe⟩ := List.mem_map.1 hmem
      refine ⟨⟨x.2, by rw [← hxe]; exact hx⟩, ?_⟩
      intro wk hwk
      have hin : p.1 ∈ (out.filter fun p => p.2.2 == some .done).map (·.1) :=
        List.mem_map.2 ⟨_, List.mem_filter.2 ⟨hwk, by simp⟩, rfl⟩
      have := imFind_removes p.1 ((out.filter fun p => p.2.2 == some .done).map (·.1))
        (out.map fun p => (p.1, p.2.1))
      rw [if_pos hin] at this
      obtain ⟨y, hy⟩ := imFind_some_of_mem (u := p.1) (x := p.2) hp
      rw [this] at hy; cases hy
    cases ht
    have hall : ∀ p ∈ ((out.filter fun p => p.2.2 == some .done).map (·.1)).foldl imRemove
        (out.map fun p => (p.1, p.2.1)), (e.alreadyTicked p.1 ||
          ((out.filter fun p => p.2.2.isSome).map (·.1)).contains p.1) = true := by
      intro p hp
      obtain ⟨⟨x, hx⟩, _⟩ := hact p hp
      have := hres _ hx
      simp only at this
      cases hal' : e.alreadyTicked p.1 with
      | true => simp
      | false =>
        rw [hal'] at this
        simp only [Bool.not_false] at this
        simp only [Bool.false_or, List.contains_eq_mem, decide_eq_true_eq]
        exact List.mem_map.2 ⟨_, List.mem_filter.2 ⟨hx, this⟩, rfl⟩
    refine ⟨⟨⟨?_, ?_, ?_⟩, ⟨_, bs, k1 b bs h1, ?_, ?_, ?_⟩, k2, ?_, ?_⟩, hall⟩
    · have hmap : (out.map fun p => (p.1, p.2.1)).Pairwise (fun a b => a.1 < b.1) := by
        rw [List.pairwise_map]; exact hso
      exact hmap.sublist (imRemoves_sublist _ _)
    · intro p hp
      obtain ⟨⟨x, hx⟩, _⟩ := hact p hp
      exact hmo _ hx
    · intro id hid
      simp only [Bool.or_eq_true] at hid
      rcases hid with hid | hid
      · exact hal id hid
      · rw [List.contains_eq_mem, decide_eq_true_eq] at hid
        obtain ⟨q, hq, hqe⟩ := List.mem_map.1 hid
        rw [← hqe]; exact hmo q (List.mem_filter.1 hq).1
    · intro x hx
      rcases List.mem_cons.1 hx with rfl | hx
      · rw [List.pairwise_append]
        refine ⟨h2 b (by simp), ?_, ?_⟩
        · exact List.pairwise_map.2 (hs.sublist List.filter_sublist)
        · intro k hk y hy
          obtain ⟨q, hq, hqe⟩ := List.mem_map.1 hy
          obtain ⟨hq1, hq2⟩ := List.mem_filter.1 hq
          rw [← hqe]
          exact h4 q hq1 (by simpa using hq2) k hk
      · exact h2 x (List.mem_cons_of_mem _ hx)
    · intro id
      simp only [Bool.or_eq_true, List.mem_append, hticked, h3, List.contains_eq_mem,
        decide_eq_true_eq]
    · intro p hp hpa
      have := hall p hp
      simp only at hpa
      rw [this] at hpa; cases hpa
    · intro p hp hdn
      obtain ⟨⟨x, hx⟩, hno⟩ := hact p hp
      rcases k3 _ hdn with h | ⟨wk, h⟩
      · obtain ⟨q, hq, hqe⟩ := mem_of_keys hkeys hx
        exact hd q hq (by rw [hqe]; exact h)
      · exact hno wk h
    · intro u hu hdn
      rcases k3 _ hdn with h | ⟨wk, h⟩
      · exact hf u hu h
      · have := hmo _ h
        simp only at this hu
        omega

theorem OMid.executeInvoked {e e' : Exec env} {t : Nat} (h : OMid e)
    (he : e.executeInvoked t = some e') : OMid e' := by
  unfold Exec.executeInvoked at he
  split at he
  · cases he
  · rename_i inv w heq
    cases he
    have key := execInvoked_inv (P := fun w : World env =>
        tickBatches w.log = tickBatches e.world.log ∧ NoTickAfterDone w.log ∧
        ∀ u, isDone u w.log ↔ isDone u e.world.log)
      (fun i x a b h hp => by
        obtain ⟨ext, hx1, hx2⟩ := h.log
        rw [hx1]
        exact ⟨by rw [tickBatches_body _ _ hx2]; exact hp.1, hp.2.1.body _ hx2,
          fun u => by rw [isDone_body _ hx2]; exact hp.2.2 u⟩)
      (fun i w hp => ⟨by simp only [World.emit]; rw [tickBatches_snoc]; exact hp.1,
        hp.2.1.snoc _ (by simp),
        fun u => by simp only [World.emit]; rw [isDone_snoc (by simp)]; exact hp.2.2 u⟩)
      _ _ _ _ heq ⟨rfl, h.noTick, fun _ => Iff.rfl⟩
    simp only at key
    obtain ⟨k1, k2, k3⟩ := key
    obtain ⟨⟨hs, hb, hal⟩, ⟨b, bs, h1, h2, h3, h4⟩, hn, hd, hf⟩ := h
    exact ⟨⟨hs, hb, hal⟩, ⟨b, bs, by rw [k1]; exact h1, h2, h3, h4⟩, k2,
      fun p hp => by rw [k3]; exact hd p hp, fun u hu => by rw [k3]; exact hf u hu⟩

theorem executeInvoked_tables {e e' : Exec env} {t : Nat} (he : e.executeInvoked t = some e') :
    e'.active = e.active ∧ e'.alreadyTicked = e.alreadyTicked ∧ e'.nextWorkId = e.nextWorkId ∧
      e'.cancellationMap = e.cancellationMap := by
  unfold Exec.executeInvoked at he
  split at he
  · cases he
  · cases he; exact ⟨rfl, rfl, rfl, rfl⟩

theorem OMid.pass {e e' : Exec env} {t : Nat} {q : Bool} (h : OMid e)
    (hp : e.pass t = some (e', q)) :
    OMid e' ∧ ∀ p ∈ e'.active, e'.alreadyTicked p.1 = true := by
  unfold Exec.pass at hp
  simp only at hp
  split at hp
  · cases hp
  · rename_i e1 nw heq
    obtain ⟨h1, h2⟩ := (h.drain t).tickScheduled heq
    split at hp
    · cases hp
    · rename_i e2 heq2
      cases hp
      obtain ⟨k1, k2, _⟩ := executeInvoked_tables heq2
      exact ⟨h1.executeInvoked heq2, by rw [k1, k2]; exact h2⟩

/-- The invariant about order between ticks. -/
structure OOut (e : Exec env) : Prop where
  sorted : e.active.Pairwise (fun a b => a.1 < b.1)
  bound : ∀ p ∈ e.active, p.1 < e.nextWorkId
  batch : ∀ b ∈ tickBatches e.world.log, b.Pairwise (· < ·)
  noTick : NoTickAfterDone e.world.log
  notDone : ∀ p ∈ e.active, ¬ isDone p.1 e.world.log
  fresh : ∀ u, e.nextWorkId ≤ u → ¬ isDone u e.world.log

theorem OOut.begin {e : Exec env} (h : OOut e) (t : Nat) : OMid (e.begin t) := by
  obtain ⟨hs, hb, h1, hn, hd, hf⟩ := h
  refine ⟨⟨hs, hb, by simp [Exec.begin]⟩, ⟨[], tickBatches e.world.log, ?_, ?_, ?_, ?_⟩,
    hn.snoc _ (by simp), ?_, ?_⟩
  · simp only [Exec.begin, World.emit]; rw [tickBatches_snoc]
  · intro x hx
    rcases List.mem_cons.1 hx with rfl | hx
    · exact .nil
    · exact h1 x hx
  · simp [Exec.begin]
  · simp
  · intro p hp; simp only [Exec.begin, World.emit]; rw [isDone_snoc (by simp)]; exact hd p hp
  · intro u hu; simp only [Exec.begin, World.emit]; rw [isDone_snoc (by simp)]; exact hf u hu

theorem OOut.tickTo {e e' : Exec env} {t : Nat} (h : OOut e) (ht : e.tickTo t = .ok e') :
    OOut e' ∧ ∃ b bs, tickBatches e'.world.log = b :: bs ∧ ∀ p ∈ e'.active, p.1 ∈ b := by
  obtain ⟨e1, hl, rfl⟩ := tickTo_ok ht
  have hm : OMid e1 ∧ True := loop_inv (P := fun e => OMid e ∧ True)
    (fun e e' b h hp => ⟨(h.1.pass hp).1, trivial⟩) _ ⟨h.begin t, trivial⟩ hl
  have hlast : ∀ (n : Nat) (e : Exec env), OMid e → Exec.loop t n e = .ok e1 →
      ∀ p ∈ e1.active, e1.alreadyTicked p.1 = true := by
    intro n
    induction n with
    | zero =>
      intro e he hl
      unfold Exec.loop at hl
      split at hl
      · cases hl
      · rename_i e2 q heq
        split at hl
        · cases hl; exact (he.pass heq).2
        · cases hl
    | succ n ih =>
      intro e he hl
      unfold Exec.loop at hl
      split at hl
      · cases hl
      · rename_i e2 q heq
        split at hl
        · cases hl; exact (he.pass heq).2
        · exact ih _ (he.pass heq).1 hl
  have hl2 := hlast _ _ (h.begin t) hl
  obtain ⟨⟨⟨hs, hb, hal⟩, ⟨b, bs, h1, h2, h3, h4⟩, hn, hd, hf⟩, -⟩ := hm
  refine ⟨⟨hs, hb, ?_, hn.snoc _ (by simp), ?_, ?_⟩, b, bs, ?_, ?_⟩
  · simp only [World.emit]; rw [tickBatches_snoc]; simp only; rw [h1]; exact h2
  · intro p hp; simp only [World.emit]; rw [isDone_snoc (by simp)]; exact hd p hp
  · intro u hu; simp only [World.emit]; rw [isDone_snoc (by simp)]; exact hf u hu
  · simp only [World.emit]; rw [tickBatches_snoc]; exact h1
  · intro p hp; exact (h3 _).1 (hl2 p hp)

theorem OOut.call {e : Exec env} (h : OOut e) (c : Call env.B) :
    OOut { e with world := e.world.call c } := by
  obtain ⟨ext, hx1, hx2⟩ := (WStep.call (src := .work 0) (t := 0) e.world c).log
  obtain ⟨hs, hb, h1, hn, hd, hf⟩ := h
  refine ⟨hs, hb, ?_, ?_, ?_, ?_⟩
  · simp only; rw [hx1, tickBatches_body _ _ hx2]; exact h1
  · simp only; rw [hx1]; exact hn.body _ hx2
  · intro p hp; simp only; rw [hx1, isDone_body _ hx2]; exact hd p hp
  · intro u hu; simp only; rw [hx1, isDone_body _ hx2]; exact hf u hu

theorem OOut.init (ctx : env.Ctx) (n : Nat) : OOut (Exec.new ctx n) := by
  refine ⟨by simp [Exec.new], by simp [Exec.new], by simp [Exec.new, tickBatches], ?_, by simp [Exec.new],
    by simp [Exec.new, isDone]⟩
  intro u pre post h
  simp [Exec.new] at h

theorem OOut.run {ops : List (Op env.B)} {e e' : Exec env} (h : OOut e) (hr : e.run ops = .ok e') :
    OOut e' :=
  run_inv (P := OOut) (fun _ c h => h.call c) (fun _ _ _ h ht => (h.tickTo ht).1) ops h hr

end Rx.Sched
