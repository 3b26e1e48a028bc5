import Verif.Lemmas.BevyProxy

/-!
# How a subscription that lives on an entity ends
-/

namespace Rx.Proxy

open Rx.Closing (Dest)

variable {D : Dest S I E} {K : Kind} {s : S}

/-! ## What is sent to the executor -/

/-- The handle's teardown is run, or is about to be. -/
def Over (D : Dest S I E) (K : Kind) (w : World S I E) : Prop :=
  match K with
  | .direct => w.source ≠ .open
  | _ => D.isClosed w.dest = true

/-- What was sent to the executor meanwhile: no more than teardowns, and one if the subscription is closed now. -/
structure Grew (D : Dest S I E) (K : Kind) (w w' : World S I E) : Prop where
  ex : ∃ l, w'.queue = w.queue ++ l ∧ (∀ a ∈ l, a = .invoke ∨ a = .cancel) ∧ (K = .proxy → .invoke ∈ l → .cancel ∈ l) ∧
    (K ≠ .direct → D.isClosed w.dest = false → D.isClosed w'.dest = true → .invoke ∈ l) ∧
    (K = .direct → w.source = .open → w'.source ≠ .open → .invoke ∈ l)

theorem Grew.of_eq {w w' : World S I E} (h1 : w'.queue = w.queue) (h2 : w'.dest = w.dest)
    (h3 : w.source = .open → w'.source = .open) : Grew D K w w' :=
  ⟨[], by simp [h1], by simp, by simp, by rw [h2]; intro _ h h'; simp [h] at h', fun _ h h' => (h' (h3 h)).elim⟩

theorem Grew.trans {w w' w'' : World S I E} (h : Grew D K w w') (h' : Grew D K w' w'') : Grew D K w w'' := by
  obtain ⟨l, a1, a2, a3, a4, a5⟩ := h.ex
  obtain ⟨r, b1, b2, b3, b4, b5⟩ := h'.ex
  refine ⟨l ++ r, by rw [b1, a1, List.append_assoc], ?_, ?_, ?_, ?_⟩
  · intro a ha
    rcases List.mem_append.1 ha with h | h
    · exact a2 a h
    · exact b2 a h
  · intro hk ha
    rcases List.mem_append.1 ha with h | h
    · exact List.mem_append_left _ (a3 hk h)
    · exact List.mem_append_right _ (b3 hk h)
  · intro hk h1 h2
    cases hc : D.isClosed w'.dest with
    | true => exact List.mem_append_left _ (a4 hk h1 hc)
    | false => exact List.mem_append_right _ (b4 hk hc h2)
  · intro hk h1 h2
    by_cases hc : w'.source = .open
    · exact List.mem_append_right _ (b5 hk hc h2)
    · exact List.mem_append_left _ (a5 hk h1 hc)

theorem grew_give (w : World S I E) (n) : Grew D K w (w.give D K n) := by
  unfold World.give
  split
  · exact .of_eq rfl rfl (fun h => h)
  · rename_i h
    refine ⟨_, rfl, ?_, ?_, ?_, fun _ h1 h2 => (h2 h1).elim⟩
    · intro a ha
      split at ha
      · cases K <;> simp_all [teardown]
      · simp at ha
    · intro hk ha
      split at ha
      · rename_i h2
        rw [if_pos h2, hk]
        simp [teardown]
      · simp at ha
    · intro hk _ h2
      dsimp only at h2
      rw [if_pos h2]
      cases K <;> simp_all [teardown]

theorem grew_close (w : World S I E) : Grew D K w (w.close D K) := by
  unfold World.close
  split
  · refine Grew.trans (w' := { w with
      source := .closed
      despawns := w.despawns + (if w.made then 1 else 0)
      queue := w.queue ++ (if K = .direct then [.invoke] else [])
      trace := w.trace ++ [.ended] }) ⟨_, rfl, ?_, ?_, ?_, ?_⟩ (grew_give _ _)
    · intro a ha
      split at ha <;> simp_all
    · intro hk; simp [hk]
    · intro _ h1 h2; simp [h1] at h2
    · intro hk; simp [hk]
  · exact .of_eq rfl rfl (fun h => h)

theorem grew_emit (w : World S I E) (n) : Grew D K w (w.emit D K n) := by
  unfold World.emit
  dsimp only
  split
  · exact Grew.trans (w' := { w with trace := w.trace ++ [.emitted n] }) (.of_eq rfl rfl (fun h => h)) (grew_give _ _)
  · exact .of_eq rfl rfl (fun h => h)

theorem grew_emits (l : List (SubscriberNotification I E)) (w : World S I E) : Grew D K w (l.foldl (World.emit D K) w) := by
  induction l generalizing w with
  | nil => exact .of_eq rfl rfl (fun h => h)
  | cons n l ih => exact (grew_emit w n).trans (ih _)

theorem grew_join (w : World S I E) (t) : Grew D K w (w.join D K t) :=
  Grew.trans (w' := { w with source := .open, trace := w.trace ++ [.joined] }) (.of_eq rfl rfl (fun _ => rfl)) (grew_emits _ _)

theorem grew_despawn (w : World S I E) : Grew D K w (w.despawn D K) := by
  unfold World.despawn
  split
  · exact .of_eq rfl rfl (fun h => h)
  · exact .of_eq rfl rfl (fun h => h)
  · exact Grew.trans (w' := { w with ent := .gone }) (.of_eq rfl rfl (fun h => h)) (grew_close _)
  · exact .of_eq rfl rfl (fun h => h)
  · exact .of_eq rfl rfl (fun h => h)

theorem grew_connect (w : World S I E) (r : Nat) : Grew D K w (w.connect D K r) := by
  unfold World.connect
  split
  · rename_i t _
    dsimp only
    split
    · split
      · exact (grew_join w t).trans (.of_eq rfl rfl (fun h => h))
      · exact (grew_join w t).trans (Grew.trans
          (w' := { { w.join D K t with made := true } with faults := ({ w.join D K t with made := true } : World S I E).faults + 1 })
          (.of_eq rfl rfl (fun h => h)) (grew_close _))
    · exact ((grew_join w t).trans (grew_close _)).trans (grew_despawn _)
  · split
    · exact .of_eq rfl rfl (fun h => h)
    · exact Grew.trans (w' := { w with trace := w.trace ++ [.missed] }) (.of_eq rfl rfl (fun h => h)) (grew_give _ _)

@[simp] theorem connect_active (w : World S I E) (r) : (w.connect D K r).active = w.active := by
  unfold World.connect; dsimp only; (repeat' split) <;> simp
@[simp] theorem connect_invokable (w : World S I E) (r) : (w.connect D K r).invokable = w.invokable := by
  unfold World.connect; dsimp only; (repeat' split) <;> simp
@[simp] theorem connect_invoked (w : World S I E) (r) : (w.connect D K r).invoked = w.invoked := by
  unfold World.connect; dsimp only; (repeat' split) <;> simp
@[simp] theorem connect_mine (w : World S I E) (r) : (w.connect D K r).mine = w.mine := by
  unfold World.connect; dsimp only; (repeat' split) <;> simp
@[simp] theorem connect_cmds (w : World S I E) (r) : (w.connect D K r).cmds = w.cmds := by
  unfold World.connect; dsimp only; (repeat' split) <;> simp

/-! ## The executor -/

/-- The work that is to despawn the entity has been scheduled, and has not been run. -/
def Armed (w : World S I E) : Prop := .addInvoked ∈ w.queue ∨ 0 < w.invokable

/-- The work that is to subscribe has been scheduled, and neither run nor cancelled, or its command has not been applied. -/
def Pre (w : World S I E) : Prop := .add ∈ w.queue ∨ 0 < w.active ∨ .subscribe ∈ w.cmds

structure Exec (D : Dest S I E) (K : Kind) (w : World S I E) : Prop where
  tail : .add ∉ w.queue.tail
  one : w.queue.count .add + w.active ≤ 1
  shape : w.cmds = [] ∨ w.cmds = [.despawn] ∨ (w.cmds = [.subscribe] ∧ Armed w) ∨ w.cmds = [.subscribe, .despawn]
  fresh : .add ∈ w.queue ∨ 0 < w.active → ¬ Armed w ∧ w.cmds = []
  armed : w.invokable + w.queue.count .addInvoked ≤ 1
  reaped : .despawn ∈ w.cmds → ¬ Armed w
  torn : Over D K w → (.invoke ∈ w.queue ∧ (K = .proxy → .cancel ∈ w.queue)) ∨
    (.add ∉ w.queue ∧ w.active = 0 ∧ (0 < w.invoked ∨ ¬ Armed w))
  asked : 0 < w.invoked → .addInvoked ∉ w.queue ∧ w.active = 0 ∧ .add ∉ w.queue
  both : K = .proxy → .invoke ∈ w.queue → .cancel ∈ w.queue
  other : K ≠ .proxy → .add ∉ w.queue ∧ w.active = 0 ∧ .subscribe ∉ w.cmds

theorem Grew.mem {w w' : World S I E} (h : Grew D K w w') (a : Act) (ha : a = .add ∨ a = .addInvoked) :
    (a ∈ w'.queue ↔ a ∈ w.queue) ∧ w'.queue.count a = w.queue.count a ∧ (a ∈ w'.queue.tail ↔ a ∈ w.queue.tail) := by
  obtain ⟨l, a1, a2, -⟩ := h.ex
  have hl : a ∉ l := by
    intro hm
    rcases ha with rfl | rfl <;> simpa using a2 _ hm
  refine ⟨?_, ?_, ?_⟩
  · rw [a1]; simp [hl]
  · rw [a1, List.count_append, List.count_eq_zero.2 hl]; rfl
  · rw [a1]
    cases hq : w.queue with
    | nil =>
      simp only [List.nil_append, List.tail_nil, List.not_mem_nil, iff_false]
      exact fun h => hl (List.mem_of_mem_tail h)
    | cons x q => simp [hl]

theorem Grew.armed {w w' : World S I E} (h : Grew D K w w') (hi : w'.invokable = w.invokable) : Armed w' ↔ Armed w := by
  unfold Armed
  rw [(h.mem .addInvoked (.inr rfl)).1, hi]

theorem Exec.grow {w w' : World S I E} (x : Exec D K w) (h : Grew D K w w') (h1 : w'.active = w.active) (h2 : w'.invokable = w.invokable)
    (h3 : w'.invoked = w.invoked) (h4 : w'.cmds = w.cmds)
    (h5 : Over D K w' → Over D K w ∨ .invoke ∈ w'.queue) : Exec D K w' := by
  have ha := h.mem .add (.inl rfl)
  have hi := h.mem .addInvoked (.inr rfl)
  have hA := h.armed h2
  obtain ⟨l, a1, a2, a3, -⟩ := h.ex
  have hb : K = .proxy → .invoke ∈ w'.queue → .cancel ∈ w'.queue := by
    intro hk hm
    rw [a1] at hm ⊢
    rcases List.mem_append.1 hm with hm | hm
    · exact List.mem_append_left _ (x.both hk hm)
    · exact List.mem_append_right _ (a3 hk hm)
  constructor
  · rw [ha.2.2]; exact x.tail
  · rw [ha.2.1, h1]; exact x.one
  · rw [h4, hA]; exact x.shape
  · rw [ha.1, h1, hA, h4]; exact x.fresh
  · rw [hi.2.1, h2]; exact x.armed
  · rw [h4, hA]; exact x.reaped
  · intro ho
    rcases h5 ho with ho | hm
    · rcases x.torn ho with ⟨t1, t2⟩ | ⟨t1, t2, t3⟩
      · have hm : .invoke ∈ w'.queue := by rw [a1]; exact List.mem_append_left _ t1
        exact .inl ⟨hm, fun hk => hb hk hm⟩
      · exact .inr ⟨by rw [ha.1]; exact t1, by rw [h1]; exact t2, by rw [h3, hA]; exact t3⟩
    · exact .inl ⟨hm, fun hk => hb hk hm⟩
  · rw [h3, hi.1, h1, ha.1]; exact x.asked
  · exact hb
  · rw [ha.1, h1, h4]; exact x.other

/-- Over, one way or the other, because of what was sent. -/
theorem Grew.over {w w' : World S I E} (h : Grew D K w w') : Over D K w' → Over D K w ∨ .invoke ∈ w'.queue := by
  obtain ⟨l, a1, -, -, a4, a5⟩ := h.ex
  intro ho
  unfold Over at ho ⊢
  cases K with
  | direct =>
    dsimp only at ho ⊢
    by_cases hs : w.source = .open
    · exact .inr (by rw [a1]; exact List.mem_append_right _ (a5 rfl hs ho))
    · exact .inl hs
  | proxy =>
    dsimp only at ho ⊢
    cases hc : D.isClosed w.dest with
    | true => exact .inl rfl
    | false => exact .inr (by rw [a1]; exact List.mem_append_right _ (a4 (by simp) hc ho))
  | command =>
    dsimp only at ho ⊢
    cases hc : D.isClosed w.dest with
    | true => exact .inl rfl
    | false => exact .inr (by rw [a1]; exact List.mem_append_right _ (a4 (by simp) hc ho))

theorem Exec.grow' {w w' : World S I E} (x : Exec D K w) (h : Grew D K w w') (h1 : w'.active = w.active) (h2 : w'.invokable = w.invokable)
    (h3 : w'.invoked = w.invoked) (h4 : w'.cmds = w.cmds) : Exec D K w' := x.grow h h1 h2 h3 h4 h.over

theorem Exec.drain {w : World S I E} (x : Exec D K w) : Exec D K (w.step D K .drain) := by
  obtain ⟨f1, -, f3, -, -, -, -, f8, -, f10, f11, f12⟩ := acts_fields w.queue { w with queue := [] }
  obtain ⟨g1, g2⟩ := acts_active w.queue { w with queue := [] }
  dsimp only at f1 f3 f8 f10 f11 f12 g1 g2
  have hq : (w.step D K .drain).queue = [] := f10
  have hA : Armed (w.step D K .drain) ↔ Armed w := by
    unfold Armed
    rw [hq]
    show _ ∨ 0 < (List.foldl World.act { w with queue := [] } w.queue).invokable ↔ _
    rw [f11]
    have := List.count_pos_iff (a := Act.addInvoked) (l := w.queue)
    simp only [List.not_mem_nil, false_or]
    rw [← this]
    omega
  have ho : Over D K (w.step D K .drain) ↔ Over D K w := by
    unfold Over
    cases K
    · exact by rw [show (w.step D .proxy .drain).dest = w.dest from f1]
    · exact by rw [show (w.step D .command .drain).dest = w.dest from f1]
    · exact by rw [show (w.step D .direct .drain).source = w.source from f3]
  have hact : (w.step D K .drain).active ≤ w.queue.count .add + w.active := by
    show (List.foldl World.act { w with queue := [] } w.queue).active ≤ _
    omega
  have hadd := List.count_pos_iff (a := Act.add) (l := w.queue)
  have hone := x.one
  have hgone : .invoke ∈ w.queue ∨ (.add ∉ w.queue ∧ w.active = 0) → (w.step D K .drain).active = 0 := by
    rintro (hm | ⟨h1, h2⟩)
    · by_cases hk : K = .proxy
      · exact g2 (x.both hk hm) x.tail
      · obtain ⟨h1, h2, -⟩ := x.other hk
        have := List.count_eq_zero.2 h1
        omega
    · have := List.count_eq_zero.2 h1
      omega
  constructor
  · rw [hq]; simp
  · rw [hq]; simp; omega
  · rw [show (w.step D K .drain).cmds = w.cmds from f8, hA]; exact x.shape
  · rw [show (w.step D K .drain).cmds = w.cmds from f8, hA, hq]
    simp only [List.not_mem_nil, false_or]
    intro h
    exact x.fresh (by rw [← hadd]; omega)
  · rw [hq, show (w.step D K .drain).invokable = _ from f11]; simpa using x.armed
  · rw [show (w.step D K .drain).cmds = w.cmds from f8, hA]; exact x.reaped
  · intro h
    refine .inr ⟨by rw [hq]; simp, ?_⟩
    rw [hA, show (w.step D K .drain).invoked = _ from f12]
    rcases x.torn (ho.1 h) with ⟨t1, -⟩ | ⟨t1, t2, t3⟩
    · have := List.count_pos_iff.2 t1
      exact ⟨hgone (.inl t1), .inl (by omega)⟩
    · exact ⟨hgone (.inr ⟨t1, t2⟩), t3.elim (fun h => .inl (by omega)) .inr⟩
  · rw [hq, show (w.step D K .drain).invoked = _ from f12]
    intro h
    refine ⟨by simp, hgone ?_, by simp⟩
    by_cases h0 : 0 < w.invoked
    · exact .inr ⟨(x.asked h0).2.2, (x.asked h0).2.1⟩
    · exact .inl (List.count_pos_iff.1 (by omega))
  · rw [hq]; simp
  · rw [hq, show (w.step D K .drain).cmds = w.cmds from f8]
    intro hk
    exact ⟨by simp, hgone (.inr ⟨(x.other hk).1, (x.other hk).2.1⟩), (x.other hk).2.2⟩

theorem Exec.work {w : World S I E} (x : Exec D K w) : Exec D K (w.step D K .work) := by
  simp only [World.step]
  split
  · rename_i h0
    obtain ⟨f1, f2⟩ := x.fresh (.inr h0)
    have h1 := x.one
    have h3 : w.active = 1 := by omega
    have h4 : .add ∉ w.queue := List.count_eq_zero.1 (by omega)
    have h5 : .addInvoked ∉ w.queue := fun h => f1 (.inl h)
    have h6 : w.invokable = 0 := by
      have : ¬ 0 < w.invokable := fun h => f1 (.inr h)
      omega
    have h7 : ¬ 0 < w.invoked := fun h => by have := (x.asked h).2.1; omega
    have h8 : K = .proxy := by
      cases K with
      | proxy => rfl
      | command => have := (x.other (by simp)).2.1; omega
      | direct => have := (x.other (by simp)).2.1; omega
    have hA : Armed ({ w with active := w.active - 1, queue := w.queue ++ [.addInvoked], cmds := w.cmds ++ [.subscribe] } : World S I E) :=
      .inl (by simp)
    constructor
    · dsimp only
      intro hm
      have := List.mem_of_mem_tail hm
      simp [h4] at this
    · simp [List.count_append, h3]
      omega
    · exact .inr (.inr (.inl ⟨by simp [f2], hA⟩))
    · simp [h4, h3]
    · simp [List.count_append, h6, List.count_eq_zero.2 h5]
    · simp [f2]
    · intro ho
      have ho' : Over D K w := by subst h8; exact ho
      rcases x.torn ho' with ⟨t1, t2⟩ | ⟨-, t2, -⟩
      · exact .inl ⟨List.mem_append_left _ t1, fun hk => List.mem_append_left _ (t2 hk)⟩
      · omega
    · intro h; exact (h7 h).elim
    · intro hk hm
      have : .invoke ∈ w.queue := by simpa using hm
      exact List.mem_append_left _ (x.both hk this)
    · intro hk; exact (hk h8).elim
  · exact x

theorem Exec.reap {w : World S I E} (x : Exec D K w) : Exec D K (w.step D K .reap) := by
  have hov : ∀ n m : Nat, ∀ l : List Cmd, Over D K ({ w with invoked := n, invokable := m, cmds := l } : World S I E) ↔ Over D K w := by
    intro n m l; unfold Over; cases K <;> rfl
  simp only [World.step]
  split
  · rename_i h0
    obtain ⟨h1, h2⟩ := h0
    obtain ⟨a1, a2, a3⟩ := x.asked h1
    have h3 := x.armed
    have hA : Armed w := .inr h2
    have hA' : ¬ Armed ({ w with invoked := 0, invokable := w.invokable - 1, cmds := w.cmds ++ [.despawn] } : World S I E) := by
      rintro (h | h)
      · exact a1 h
      · dsimp only at h; omega
    constructor
    · exact x.tail
    · exact x.one
    · rcases x.shape with h | h | ⟨h, -⟩ | h
      · exact .inr (.inl (by simp [h]))
      · exact (x.reaped (by simp [h]) hA).elim
      · exact .inr (.inr (.inr (by simp [h])))
      · exact (x.reaped (by simp [h]) hA).elim
    · intro h
      exact ((x.fresh h).1 hA).elim
    · dsimp only; omega
    · exact fun _ => hA'
    · intro _
      exact .inr ⟨a3, a2, .inr hA'⟩
    · intro h; simp at h
    · exact x.both
    · intro hk
      obtain ⟨b1, b2, b3⟩ := x.other hk
      exact ⟨b1, b2, by simpa using b3⟩
  · rename_i h0
    constructor
    · exact x.tail
    · exact x.one
    · exact x.shape
    · exact x.fresh
    · exact x.armed
    · exact x.reaped
    · intro ho
      have ho' : Over D K w := by revert ho; unfold Over; cases K <;> exact fun h => h
      rcases x.torn ho' with h | ⟨t1, t2, t3⟩
      · exact .inl h
      · refine .inr ⟨t1, t2, .inr ?_⟩
        rcases t3 with t3 | t3
        · rintro (h | h)
          · exact (x.asked t3).1 h
          · exact h0 ⟨t3, h⟩
        · exact t3
    · intro h; simp at h
    · exact x.both
    · exact x.other

/-! ## The entity -/

/-- `pre`: the entity is still to come. `arm`: it is going to be despawned when the executor is asked to, or the commands are applied. -/
structure Life (pre arm : Prop) (K : Kind) (w : World S I E) : Prop where
  fresh : pre → w.ent = .none ∧ w.source = .none ∧ w.waiting = none
  alive : w.ent.alive → arm
  link : w.source = .open → w.ent = .attached
  direct : K = .direct → w.waiting = none ∧ w.source ≠ .none
  made : w.ent = .attached → w.made = true
  last : w.source = .closed → w.ent.alive → 0 < w.despawns
  unf : w.ent = .unfinished → w.source = .none
  wait : w.waiting ≠ none → w.source = .none

theorem Life.mono {pre arm pre' arm' : Prop} {w : World S I E} (h : Life pre arm K w) (h1 : pre' → pre) (h2 : arm → arm') :
    Life pre' arm' K w :=
  ⟨fun p => h.fresh (h1 p), fun a => h2 (h.alive a), h.link, h.direct, h.made, h.last, h.unf, h.wait⟩

theorem Life.congr {pre arm : Prop} {w w' : World S I E} (h : Life pre arm K w) (h1 : w'.ent = w.ent) (h2 : w'.source = w.source)
    (h3 : w'.made = w.made) (h4 : w'.waiting = w.waiting) (h5 : w'.despawns = w.despawns) : Life pre arm K w' := by
  obtain ⟨a, b, c, d, e, f, g, i⟩ := h
  constructor <;> (first | rw [h1] | skip) <;> (first | rw [h2] | skip) <;> (first | rw [h3] | skip) <;> (first | rw [h4] | skip) <;>
    (first | rw [h5] | skip) <;> assumption

theorem Life.close {pre arm : Prop} {w : World S I E} (h : Life pre arm K w) : Life pre arm K (w.close D K) := by
  obtain ⟨a, b, c, d, e, f, g, i⟩ := h
  constructor
  · simp only [close_ent, close_source, close_waiting]
    intro p
    obtain ⟨p1, p2, p3⟩ := a p
    simp [p1, p2, p3]
  · simpa using b
  · rw [close_source, close_ent]
    split
    · simp
    · exact c
  · rw [close_source, close_waiting]
    intro hk
    refine ⟨(d hk).1, ?_⟩
    split
    · simp
    · exact (d hk).2
  · simpa using e
  · rw [close_source, close_ent, close_despawns]
    split
    · rename_i ho
      intro _ _
      simp [ho, e (c ho)]
    · intro h1 h2
      have := f h1 h2
      omega
  · rw [close_source, close_ent]
    intro hu
    simp [g hu]
  · rw [close_source, close_waiting]
    intro hu
    simp [i hu]

theorem Life.despawn {pre arm arm' : Prop} {w : World S I E} (h : Life pre arm K w) : Life pre arm' K (w.despawn D K) := by
  obtain ⟨a, b, c, d, e, f, g, i⟩ := h
  have hdead := despawn_dead (D := D) (K := K) w
  constructor
  · rw [despawn_ent, despawn_source, despawn_waiting]
    intro p
    obtain ⟨p1, p2, p3⟩ := a p
    simp [p1, p2, p3]
  · exact fun h => (hdead h).elim
  · rw [despawn_source]
    intro ho
    split at ho
    · simp at ho
    · rename_i hn
      exact (hn ⟨c ho, ho⟩).elim
  · rw [despawn_source, despawn_waiting]
    intro hk
    refine ⟨(d hk).1, ?_⟩
    split
    · simp
    · exact (d hk).2
  · rw [despawn_ent]; split <;> simp
  · exact fun _ h => (hdead h).elim
  · rw [despawn_ent]; split <;> simp
  · rw [despawn_source, despawn_waiting]
    intro hu
    simp [i hu]

theorem Life.remove {pre arm : Prop} {w : World S I E} (h : Life pre arm K w) (ha : w.ent = .attached) :
    Life pre arm K (World.close D K { w with ent := .bare }) := by
  obtain ⟨a, b, c, d, e, f, g, i⟩ := h
  constructor
  · intro p
    have := (a p).1
    simp [ha] at this
  · intro _; exact b (by rw [ha]; trivial)
  · rw [close_source]
    intro ho
    split at ho
    · simp at ho
    · rename_i hn; exact (hn ho).elim
  · rw [close_source, close_waiting]
    intro hk
    refine ⟨(d hk).1, ?_⟩
    split
    · simp
    · exact (d hk).2
  · rw [close_ent]; simp
  · rw [close_source, close_despawns]
    dsimp only
    split
    · rename_i ho
      intro _ _
      simp [ho, e ha]
    · intro h1 _
      have := f h1 (by rw [ha]; trivial)
      omega
  · rw [close_ent]; simp
  · rw [close_source, close_waiting]
    intro hu
    have := i hu
    simp [this]

theorem Life.connect {arm : Prop} {w : World S I E} (h : Life False arm K w) (hk : K ≠ .direct) (hs : w.source = .none)
    (hw : w.waiting = none) (r : Nat) : Life False arm K (w.connect D K r) := by
  obtain ⟨a, b, c, d, e, f, g, i⟩ := h
  unfold World.connect
  split
  · rename_i t _
    dsimp only
    split
    · split
      · rename_i hu
        constructor <;> simp_all [Ent.alive]
      · rename_i hu
        constructor
        · exact False.elim
        · simpa using b
        · rw [close_source]; simp
        · exact fun h => (hk h).elim
        · simp
        · rw [close_source, close_ent, close_despawns]
          simp
        · intro h; exact (hu (by simpa using h)).elim
        · rw [close_waiting]
          intro h; exact (h (by simpa using hw)).elim
    · constructor
      · exact False.elim
      · exact fun h => (despawn_dead _ h).elim
      · rw [despawn_source, close_source]; simp
      · exact fun h => (hk h).elim
      · rw [despawn_ent]; split <;> simp
      · exact fun _ h => (despawn_dead _ h).elim
      · rw [despawn_ent]; split <;> simp
      · intro h; simp [hw] at h
  · split
    · constructor <;> simp_all
    · constructor <;> simp_all

/-! ## All of it -/

structure Inv (D : Dest S I E) (K : Kind) (w : World S I E) : Prop where
  exec : Exec D K w
  life : Life (Pre w) (Armed w ∨ .despawn ∈ w.cmds) K w
  mine : w.mine = []

theorem Grew.pre {w w' : World S I E} (h : Grew D K w w') (h1 : w'.active = w.active) (h2 : w'.cmds = w.cmds) : Pre w' ↔ Pre w := by
  unfold Pre
  rw [(h.mem .add (.inl rfl)).1, h1, h2]

/-- A step that has nothing to do with the executor. -/
theorem Inv.grow {w w' : World S I E} (x : Inv D K w) (h : Grew D K w w') (h1 : w'.active = w.active) (h2 : w'.invokable = w.invokable)
    (h3 : w'.invoked = w.invoked) (h4 : w'.cmds = w.cmds) (h5 : w'.mine = w.mine)
    (hl : Life (Pre w) (Armed w ∨ .despawn ∈ w.cmds) K w') : Inv D K w' := by
  refine ⟨x.exec.grow' h h1 h2 h3 h4, ?_, h5.trans x.mine⟩
  rw [h.pre h1 h4, h.armed h2, h4]
  exact hl

theorem Exec.clear {w : World S I E} (x : Exec D K w) : Exec D K { w with cmds := [] } := by
  constructor
  · exact x.tail
  · exact x.one
  · exact .inl rfl
  · exact fun h => ⟨(x.fresh h).1, rfl⟩
  · exact x.armed
  · intro h; simp at h
  · intro ho
    exact x.torn (by revert ho; unfold Over; cases K <;> exact fun h => h)
  · exact x.asked
  · exact x.both
  · exact fun hk => ⟨(x.other hk).1, (x.other hk).2.1, by simp⟩

/-- A subscribe command is applied for the first time. -/
theorem Life.subscribe {pre arm : Prop} {w : World S I E} (h : Life pre arm K w) (hp : pre) (hk : K ≠ .direct) :
    Life False True K (World.connect D K maxRetries { { w with cmds := [] } with ent := .unfinished }) := by
  obtain ⟨p1, p2, p3⟩ := h.fresh hp
  refine Life.connect (w := { { w with cmds := [] } with ent := .unfinished }) ?_ hk p2 p3 _
  constructor <;> simp_all

theorem Inv.flush {w : World S I E} (x : Inv D K w) : Inv D K (w.step D K .flush) := by
  have hc := x.exec.clear
  rcases x.exec.shape with h | h | ⟨h, hA⟩ | h
  · have : w.step D K .flush = w := by
      simp only [World.step, h, List.foldl_nil]
      cases w; simp_all
    rw [this]; exact x
  · have : w.step D K .flush = World.despawn D K { w with cmds := [] } := by simp only [World.step, h, List.foldl_cons, List.foldl_nil, World.apply]
    rw [this]
    have hg := grew_despawn (D := D) (K := K) ({ w with cmds := [] } : World S I E)
    refine ⟨hc.grow' hg (by simp) (by simp) (by simp) (by simp), ?_, by simpa using x.mine⟩
    refine Life.despawn (arm := True) (Life.mono (Life.congr x.life rfl rfl rfl rfl rfl) ?_ (fun _ => trivial))
    rw [hg.pre (by simp) (by simp)]
    rintro (h | h | h)
    · exact .inl h
    · exact .inr (.inl h)
    · simp at h
  · have hk : K ≠ .direct := by
      intro hk
      exact (x.exec.other (by simp [hk])).2.2 (by simp [h])
    have hp : Pre w := .inr (.inr (by simp [h]))
    have : w.step D K .flush = World.connect D K maxRetries { { w with cmds := [] } with ent := .unfinished } := by
      simp only [World.step, h, List.foldl_cons, List.foldl_nil, World.apply]
    rw [this]
    have hg : Grew D K { w with cmds := [] } (World.connect D K maxRetries { { w with cmds := [] } with ent := .unfinished }) :=
      Grew.trans (w' := { { w with cmds := [] } with ent := .unfinished }) (.of_eq rfl rfl (fun h => h)) (grew_connect _ _)
    refine ⟨hc.grow' hg (by simp) (by simp) (by simp) (by simp), ?_, by simpa using x.mine⟩
    refine (Life.subscribe x.life hp hk).mono ?_ ?_
    · rw [hg.pre (by simp) (by simp)]
      rintro (h' | h' | h')
      · have := (x.exec.fresh (.inl h')).2; simp [h] at this
      · have := (x.exec.fresh (.inr h')).2; simp [h] at this
      · simp at h'
    · intro _
      exact .inl ((hg.armed (by simp)).2 hA)
  · have hk : K ≠ .direct := by
      intro hk
      exact (x.exec.other (by simp [hk])).2.2 (by simp [h])
    have hp : Pre w := .inr (.inr (by simp [h]))
    have : w.step D K .flush = World.despawn D K (World.connect D K maxRetries { { w with cmds := [] } with ent := .unfinished }) := by
      simp only [World.step, h, List.foldl_cons, List.foldl_nil, World.apply]
    rw [this]
    have hg : Grew D K { w with cmds := [] } (World.despawn D K (World.connect D K maxRetries { { w with cmds := [] } with ent := .unfinished })) :=
      Grew.trans (w' := World.connect D K maxRetries { { w with cmds := [] } with ent := .unfinished })
        (Grew.trans (w' := { { w with cmds := [] } with ent := .unfinished }) (.of_eq rfl rfl (fun h => h)) (grew_connect _ _)) (grew_despawn _)
    refine ⟨hc.grow' hg (by simp) (by simp) (by simp) (by simp), ?_, by simpa using x.mine⟩
    refine ((Life.subscribe x.life hp hk).despawn (arm' := _)).mono ?_ (fun h => h)
    rw [hg.pre (by simp) (by simp)]
    rintro (h' | h' | h')
    · have := (x.exec.fresh (.inl h')).2; simp [h] at this
    · have := (x.exec.fresh (.inr h')).2; simp [h] at this
    · simp at h'

theorem Inv.step {w : World S I E} (x : Inv D K w) (o : Op I E) : Inv D K (w.step D K o) := by
  cases o with
  | target t => exact x.grow (.of_eq rfl rfl (fun h => h)) rfl rfl rfl rfl rfl (x.life.congr rfl rfl rfl rfl rfl)
  | emit n =>
    exact x.grow (grew_emit _ _) (by simp [World.step]) (by simp [World.step]) (by simp [World.step]) (by simp [World.step])
      (by simp [World.step]) (x.life.congr (by simp [World.step]) (by simp [World.step]) (by simp [World.step]) (by simp [World.step])
      (by simp [World.step]))
  | close =>
    exact x.grow (grew_close _) (by simp [World.step]) (by simp [World.step]) (by simp [World.step]) (by simp [World.step])
      (by simp [World.step]) x.life.close
  | unsubscribe =>
    simp only [World.step]
    split
    · exact x.grow (Grew.trans (w' := { w with trace := w.trace ++ [.unsubscribed] }) (.of_eq rfl rfl (fun h => h)) (grew_close _))
        (by simp) (by simp) (by simp) (by simp) (by simp) (Life.close (x.life.congr rfl rfl rfl rfl rfl))
    · exact x.grow (Grew.trans (w' := { w with trace := w.trace ++ [.unsubscribed] }) (.of_eq rfl rfl (fun h => h)) (grew_give _ _))
        (by simp) (by simp) (by simp) (by simp) (by simp) (x.life.congr (by simp) (by simp) (by simp) (by simp) (by simp))
  | kill =>
    exact x.grow (grew_despawn _) (by simp [World.step]) (by simp [World.step]) (by simp [World.step]) (by simp [World.step])
      (by simp [World.step]) x.life.despawn
  | remove =>
    simp only [World.step]
    split
    · rename_i h
      exact x.grow (Grew.trans (w' := { w with ent := .bare }) (.of_eq rfl rfl (fun h => h)) (grew_close _))
        (by simp) (by simp) (by simp) (by simp) (by simp) (x.life.remove h)
    · exact x
  | flushMine =>
    have : w.step D K .flushMine = w := by
      simp only [World.step, x.mine, List.foldl_nil]
      have := x.mine
      cases w; simp_all
    rw [this]; exact x
  | drain =>
    have hA := x.exec.drain
    obtain ⟨-, f2, f3, f4, f5, f6, f7, f8, -, f10, f11, -⟩ := acts_fields w.queue { w with queue := [] }
    obtain ⟨g1, -⟩ := acts_active w.queue { w with queue := [] }
    dsimp only at f2 f3 f4 f5 f6 f7 f8 f10 f11 g1
    refine ⟨hA, (x.life.congr f2 f3 f4 f5 f6).mono ?_ ?_, f7.trans x.mine⟩
    · rintro (h | h | h)
      · rw [show (w.step D K .drain).queue = [] from f10] at h; simp at h
      · unfold Pre
        rw [← List.count_pos_iff (a := Act.add) (l := w.queue)]
        have : 0 < (List.foldl World.act { w with queue := [] } w.queue).active := h
        omega
      · exact .inr (.inr (by rw [← f8]; exact h))
    · rintro (h | h)
      · refine .inl (.inr ?_)
        show 0 < (List.foldl World.act { w with queue := [] } w.queue).invokable
        rw [f11]
        rcases h with h | h
        · have := List.count_pos_iff.2 h
          omega
        · omega
      · exact .inr (by rw [show (w.step D K .drain).cmds = w.cmds from f8]; exact h)
  | work =>
    have hA := x.exec.work
    revert hA
    simp only [World.step]
    split
    · rename_i h0
      intro hA
      refine ⟨hA, Life.congr (w := w) (x.life.mono (fun _ => .inr (.inl h0)) ?_) rfl rfl rfl rfl rfl, x.mine⟩
      intro _
      exact .inl (.inl (by simp))
    · exact fun _ => x
  | reap =>
    have hA := x.exec.reap
    revert hA
    simp only [World.step]
    split
    · intro hA
      refine ⟨hA, Life.congr (w := w) (x.life.mono ?_ (fun _ => .inr (by simp))) rfl rfl rfl rfl rfl, x.mine⟩
      rintro (h | h | h)
      · exact .inl h
      · exact .inr (.inl h)
      · exact .inr (.inr (by simpa using h))
    · intro hA
      exact ⟨hA, Life.congr x.life rfl rfl rfl rfl rfl, x.mine⟩
  | flush => exact x.flush
  | retry =>
    simp only [World.step]
    split
    · rename_i r hr
      have hw : w.waiting ≠ none := by rw [hr]; simp
      have hs := x.life.wait hw
      have hk : K ≠ .direct := fun hk => hw (x.life.direct hk).1
      have hp : ¬ Pre w := fun hp => hw (x.life.fresh hp).2.2
      have hg : Grew D K w (World.connect D K r { w with waiting := none }) :=
        Grew.trans (w' := { w with waiting := none }) (.of_eq rfl rfl (fun h => h)) (grew_connect _ _)
      refine x.grow hg (by simp) (by simp) (by simp) (by simp) (by simp) ?_
      refine (Life.connect (arm := Armed w ∨ .despawn ∈ w.cmds) (w := { w with waiting := none }) ?_ hk hs rfl r).mono hp (fun h => h)
      obtain ⟨a, b, c, d, e, f, g, i⟩ := x.life
      exact ⟨False.elim, b, c, fun h => (hk h).elim, e, f, g, fun h => (h rfl).elim⟩
    · exact x
  | clean =>
    simp only [World.step]
    split
    · exact x.grow (grew_despawn _) (by simp) (by simp) (by simp) (by simp) (by simp) x.life.despawn
    · exact x
  | last =>
    simp only [World.step]
    split
    · refine x.grow (Grew.trans (w' := { w with despawns := 0 }) (.of_eq rfl rfl (fun h => h)) (grew_despawn _))
        (by simp) (by simp) (by simp) (by simp) (by simp) ?_
      obtain ⟨a, b, c, d, e, f, g, i⟩ := x.life
      have hdead := despawn_dead (D := D) (K := K) ({ w with despawns := 0 } : World S I E)
      constructor
      · rw [despawn_ent, despawn_source, despawn_waiting]
        intro p
        obtain ⟨p1, p2, p3⟩ := a p
        simp [p1, p2, p3]
      · exact fun h => (hdead h).elim
      · rw [despawn_source]
        intro ho
        split at ho
        · simp at ho
        · rename_i hn
          exact (hn ⟨c ho, ho⟩).elim
      · rw [despawn_source, despawn_waiting]
        intro hk
        refine ⟨(d hk).1, ?_⟩
        split
        · simp
        · exact (d hk).2
      · rw [despawn_ent]; split <;> simp
      · exact fun _ h => (hdead h).elim
      · rw [despawn_ent]; split <;> simp
      · rw [despawn_source, despawn_waiting]
        intro hu
        simp [i hu]
    · exact x

theorem Inv.run {w : World S I E} (x : Inv D K w) (l : List (Op I E)) : Inv D K (w.run D K l) := by
  induction l generalizing w with
  | nil => exact x
  | cons o l ih => exact ih (x.step o)

theorem over_iff {w : World S I E} : Over D K w ↔ w.isClosed D K = true := by
  unfold Over World.isClosed
  cases K <;> simp

theorem step_queue_nil (w : World S I E) : (w.step D K .drain).queue = [] :=
  (acts_fields w.queue { w with queue := [] }).2.2.2.2.2.2.2.2.2.1

/-! ## The commands of the system that subscribes -/

/-- They have not been applied. -/
structure Early (D : Dest S I E) (K : Kind) (w : World S I E) : Prop where
  exec : Exec D K w
  armed : Armed w
  cmds : w.cmds = []
  ent : w.ent = .none
  waiting : w.waiting = none
  command : K = .command → w.mine = [.subscribe] ∧ w.source = .none
  direct : K = .direct → w.mine = [.spawn] ∧ w.source ≠ .none ∧ w.made = true ∧ (w.source = .closed → 0 < w.despawns)
  kind : K ≠ .proxy

theorem Early.step {w : World S I E} (x : Early D K w) (o : Op I E) (h1 : o ≠ .reap) (h2 : o ≠ .last) (h3 : o ≠ .flushMine) :
    Early D K (w.step D K o) := by
  have hdesp : w.despawn D K = w := by unfold World.despawn; rw [x.ent]
  cases o with
  | target t =>
    exact ⟨x.exec.grow' (.of_eq rfl rfl (fun h => h)) rfl rfl rfl rfl, x.armed, x.cmds, x.ent, x.waiting, x.command, x.direct, x.kind⟩
  | emit n =>
    show Early D K (w.emit D K n)
    have hg := grew_emit (D := D) (K := K) w n
    exact ⟨x.exec.grow' hg (by simp) (by simp) (by simp) (by simp), (hg.armed (by simp)).2 x.armed, by simpa using x.cmds,
      by simpa using x.ent, by simpa using x.waiting, by simpa using x.command,
      by simpa using x.direct, x.kind⟩
  | close =>
    show Early D K (w.close D K)
    have hg := grew_close (D := D) (K := K) w
    refine ⟨x.exec.grow' hg (by simp) (by simp) (by simp) (by simp), (hg.armed (by simp)).2 x.armed, by simpa using x.cmds,
      by simpa using x.ent, by simpa using x.waiting, ?_, ?_, x.kind⟩
    · intro hk
      obtain ⟨a, b⟩ := x.command hk
      simp only [close_mine, close_source, a, b]
      simp
    · intro hk
      obtain ⟨a, b, c, d⟩ := x.direct hk
      simp only [close_mine, close_source, close_made, close_despawns, a, c]
      by_cases ho : w.source = .open
      · simp [ho]
      · simp only [ho, if_false]
        exact ⟨trivial, b, trivial, fun h => by have := d h; omega⟩
  | unsubscribe =>
    simp only [World.step]
    split
    · have hg : Grew D .direct w (World.close D .direct { w with trace := w.trace ++ [.unsubscribed] }) :=
        Grew.trans (w' := { w with trace := w.trace ++ [.unsubscribed] }) (.of_eq rfl rfl (fun h => h)) (grew_close _)
      refine ⟨x.exec.grow' hg (by simp) (by simp) (by simp) (by simp), (hg.armed (by simp)).2 x.armed, by simpa using x.cmds,
        by simpa using x.ent, by simpa using x.waiting, by simp, ?_, x.kind⟩
      intro hk
      obtain ⟨a, b, c, d⟩ := x.direct hk
      simp only [close_mine, close_source, close_made, close_despawns, a, c]
      by_cases ho : w.source = .open
      · simp [ho]
      · simp only [ho, if_false]
        exact ⟨trivial, b, trivial, fun h => by have := d h; omega⟩
    · have hg : Grew D K w (World.give D K .unsubscribe { w with trace := w.trace ++ [.unsubscribed] }) :=
        Grew.trans (w' := { w with trace := w.trace ++ [.unsubscribed] }) (.of_eq rfl rfl (fun h => h)) (grew_give _ _)
      exact ⟨x.exec.grow' hg (by simp) (by simp) (by simp) (by simp), (hg.armed (by simp)).2 x.armed, by simpa using x.cmds,
        by simpa using x.ent, by simpa using x.waiting, by simpa using x.command, by simpa using x.direct, x.kind⟩
  | kill => simp only [World.step, hdesp]; exact x
  | remove =>
    simp only [World.step]
    rw [if_neg (by rw [x.ent]; simp)]
    exact x
  | flushMine => exact (h3 rfl).elim
  | drain =>
    obtain ⟨-, f2, f3, f4, f5, f6, f7, f8, -, f10, f11, -⟩ := acts_fields w.queue { w with queue := [] }
    dsimp only at f2 f3 f4 f5 f6 f7 f8 f10 f11
    refine ⟨x.exec.drain, ?_, f8.trans x.cmds, f2.trans x.ent, f5.trans x.waiting, ?_, ?_, x.kind⟩
    · refine .inr ?_
      show 0 < (List.foldl World.act { w with queue := [] } w.queue).invokable
      rw [f11]
      rcases x.armed with h | h
      · have := List.count_pos_iff.2 h
        omega
      · omega
    · intro hk; exact ⟨f7.trans (x.command hk).1, f3.trans (x.command hk).2⟩
    · intro hk
      obtain ⟨a, b, c, d⟩ := x.direct hk
      refine ⟨f7.trans a, ?_, f4.trans c, ?_⟩
      · rw [show (w.step D K .drain).source = w.source from f3]; exact b
      · rw [show (w.step D K .drain).source = w.source from f3, show (w.step D K .drain).despawns = w.despawns from f6]; exact d
  | work =>
    simp only [World.step]
    rw [if_neg (by rw [(x.exec.other x.kind).2.1]; simp)]
    exact x
  | reap => exact (h1 rfl).elim
  | flush =>
    have : w.step D K .flush = w := by
      have := x.cmds
      simp only [World.step, this, List.foldl_nil]
      cases w; simp_all
    rw [this]; exact x
  | retry => simp only [World.step, x.waiting]; exact x
  | clean =>
    simp only [World.step]
    rw [if_neg (by rw [x.ent]; simp)]
    exact x
  | last => exact (h2 rfl).elim

theorem Early.run {w : World S I E} (x : Early D K w) (l : List (Op I E)) (h : ∀ o ∈ l, o ≠ .reap ∧ o ≠ .last ∧ o ≠ .flushMine) :
    Early D K (w.run D K l) := by
  induction l generalizing w with
  | nil => exact x
  | cons o l ih =>
    obtain ⟨a, b, c⟩ := h o (by simp)
    exact ih (x.step o a b c) (fun o ho => h o (List.mem_cons_of_mem _ ho))

theorem Early.flushMine {w : World S I E} (x : Early D K w) : Inv D K (w.step D K .flushMine) := by
  obtain ⟨o1, o2, o3⟩ := x.exec.other x.kind
  cases K with
  | proxy => exact (x.kind rfl).elim
  | command =>
    obtain ⟨m, hs⟩ := x.command rfl
    have : w.step D .command .flushMine = World.connect D .command maxRetries { { w with mine := [] } with ent := .unfinished } := by
      simp only [World.step, m, List.foldl_cons, List.foldl_nil, World.apply]
    rw [this]
    have hg : Grew D .command w (World.connect D .command maxRetries { { w with mine := [] } with ent := .unfinished }) :=
      Grew.trans (w' := { { w with mine := [] } with ent := .unfinished }) (.of_eq rfl rfl (fun h => h)) (grew_connect _ _)
    refine ⟨x.exec.grow' hg (by simp) (by simp) (by simp) (by simp), ?_, by simp⟩
    refine (Life.connect (K := .command) (arm := True) (w := { { w with mine := [] } with ent := .unfinished }) ?_ (by simp) hs x.waiting _).mono ?_ ?_
    · have := x.waiting
      constructor <;> simp_all
    · have : w.cmds = [] := x.cmds
      rw [hg.pre (by simp) (by simp)]
      rintro (h | h | h)
      · exact o1 h
      · omega
      · exact o3 h
    · intro _
      exact .inl ((hg.armed (by simp)).2 x.armed)
  | direct =>
    obtain ⟨m, a, b, c⟩ := x.direct rfl
    have : w.step D .direct .flushMine = { { w with mine := [] } with ent := .attached } := by
      simp only [World.step, m, List.foldl_cons, List.foldl_nil, World.apply]
    rw [this]
    have hg : Grew D .direct w { { w with mine := [] } with ent := .attached } := .of_eq rfl rfl (fun h => h)
    refine ⟨x.exec.grow' hg rfl rfl rfl rfl, ?_, rfl⟩
    have := x.waiting
    constructor
    · intro hp
      rcases (hg.pre rfl rfl).1 hp with h | h | h
      · exact (o1 h).elim
      · omega
      · exact (o3 h).elim
    · intro _; exact .inl ((hg.armed rfl).2 x.armed)
    · intro _; rfl
    · intro _; exact ⟨this, a⟩
    · intro _; exact b
    · intro h _; exact c h
    · intro h; simp at h
    · intro h; exact (h this).elim

theorem start_early (t : Target I E) (hk : K ≠ .proxy) : Early D K (World.start D K t s) := by
  cases K with
  | proxy => exact (hk rfl).elim
  | command =>
    have hA : Armed (World.start D .command t s : World S I E) := .inl (by simp [World.start])
    refine ⟨?_, hA, rfl, rfl, rfl, fun _ => ⟨rfl, rfl⟩, by simp, hk⟩
    constructor
    · simp only [World.start, List.tail_cons]; split <;> simp [teardown]
    · simp only [World.start]; split <;> simp [teardown]
    · exact .inl rfl
    · simp only [World.start]; split <;> simp [teardown]
    · simp only [World.start]; split <;> simp [teardown]
    · simp [World.start]
    · intro ho
      have ho' : D.isClosed s = true := ho
      simp [World.start, ho', teardown]
    · simp [World.start]
    · simp
    · simp only [World.start]; split <;> simp [teardown]
  | direct =>
    have h0 : Exec D .direct ({ dest := s, source := .open, queue := [.addInvoked], mine := [.spawn], made := true } : World S I E) := by
      constructor <;> simp [Armed, Over]
    let w0 : World S I E := { dest := s, source := .open, queue := [.addInvoked], mine := [.spawn], made := true }
    let w1 : World S I E := World.join D .direct t { dest := s, queue := [.addInvoked], mine := [.spawn], made := true }
    have hg : Grew D .direct w0 w1 := 
      Grew.trans (w' := { dest := s, source := .open, queue := [.addInvoked], mine := [.spawn], made := true, trace := [.joined] })
        (.of_eq rfl rfl (fun h => h)) (grew_emits t.sync _)
    have he : Early D .direct w1 := by
      refine ⟨h0.grow' hg ?_ ?_ ?_ ?_, (hg.armed ?_).2 (.inl (by simp [w0])), ?_, ?_, ?_, by simp, ?_, hk⟩ <;> simp [w0, w1]
    have : World.start D .direct t s = if t.stays then w1 else w1.close D .direct := rfl
    rw [this]
    split
    · exact he
    · exact he.step .close (by simp) (by simp) (by simp)

theorem start_proxy (t : Target I E) : Inv D .proxy (World.start D .proxy t s) := by
  refine ⟨?_, ?_, rfl⟩
  · constructor
    · simp only [World.start, List.tail_cons]; split <;> simp [teardown]
    · simp only [World.start]; split <;> simp [teardown]
    · exact .inl rfl
    · simp only [World.start, Armed]; split <;> simp [teardown]
    · simp only [World.start]; split <;> simp [teardown]
    · simp [World.start]
    · intro ho
      have ho' : D.isClosed s = true := ho
      simp [World.start, ho', teardown]
    · simp [World.start]
    · intro _; simp only [World.start]; split <;> simp [teardown]
    · simp
  · constructor <;> simp [World.start, Ent.alive]

theorem timely_first {l : List (Op I E)} (h : ∃ a b, l = a ++ .flushMine :: b ∧ ∀ o ∈ a, o ≠ .reap ∧ o ≠ .last) :
    ∃ a b, l = a ++ .flushMine :: b ∧ ∀ o ∈ a, o ≠ .reap ∧ o ≠ .last ∧ o ≠ .flushMine := by
  obtain ⟨a, b, rfl, h⟩ := h
  induction a with
  | nil => exact ⟨[], b, rfl, by simp⟩
  | cons o a ih =>
    by_cases ho : o = .flushMine
    · subst ho
      exact ⟨[], a ++ .flushMine :: b, rfl, by simp⟩
    · obtain ⟨c, d, e, f⟩ := ih (fun o ho => h o (List.mem_cons_of_mem _ ho))
      refine ⟨o :: c, d, by rw [List.cons_append, e]; rfl, ?_⟩
      intro o' ho'
      rcases List.mem_cons.1 ho' with rfl | h'
      · exact ⟨(h o' (by simp)).1, (h o' (by simp)).2, ho⟩
      · exact f o' h'

theorem run_append (w : World S I E) (a b : List (Op I E)) : w.run D K (a ++ b) = (w.run D K a).run D K b := by
  simp [World.run, List.foldl_append]

theorem timely_inv (t : Target I E) {l : List (Op I E)} (h : Timely K l) : Inv D K ((World.start D K t s).run D K l) := by
  by_cases hk : K = .proxy
  · subst hk
    exact (start_proxy t).run l
  · rcases h with h | h
    · exact (hk h).elim
    · obtain ⟨a, b, rfl, h'⟩ := timely_first h
      rw [run_append]
      exact (((start_early t hk).run a h').flushMine).run b

/-! ## The end -/

/-- It is over, and nothing is to come. -/
structure Done (w : World S I E) : Prop where
  over : w.Over
  pre : ¬ Pre w
  mine : w.mine = []

theorem Done.grow {w w' : World S I E} (x : Done w) (h : Grew D K w w') (h1 : w'.active = w.active) (h2 : w'.cmds = w.cmds)
    (h3 : w'.mine = w.mine) (h4 : ¬ w'.ent.alive) (h5 : w'.source ≠ .open) : Done w' :=
  ⟨⟨h4, h5⟩, by rw [h.pre h1 h2]; exact x.pre, h3.trans x.mine⟩

theorem despawn_over {w : World S I E} (h : w.Over) : w.despawn D K = w ∨ w.despawn D K = { w with ent := .gone } := by
  obtain ⟨h1, -⟩ := h
  unfold World.despawn
  cases he : w.ent <;> simp_all [Ent.alive]

theorem close_over {w : World S I E} (h : w.source ≠ .open) : w.close D K = w := by
  unfold World.close
  rw [if_neg h]

theorem connect_over (w : World S I E) (r : Nat) (h : w.Over) : (w.connect D K r).Over := by
  obtain ⟨h1, h2⟩ := h
  unfold World.connect
  split
  · rename_i t _
    dsimp only
    split
    · split
      · rename_i hu
        simp only [join_ent] at hu
        rw [hu] at h1
        exact (h1 trivial).elim
      · exact ⟨by simpa using h1, by rw [close_source]; simp⟩
    · exact ⟨despawn_dead _, by rw [despawn_source, close_source]; simp⟩
  · split
    · exact ⟨h1, h2⟩
    · exact ⟨by simpa using h1, by simpa using h2⟩

theorem Done.flush {w : World S I E} (x : Done w) (l : List Cmd) (hl : .subscribe ∉ l) (hs : .spawn ∉ l) :
    Done (l.foldl (World.apply D K) w) := by
  induction l generalizing w with
  | nil => exact x
  | cons c l ih =>
    have hc : c = .despawn := by cases c <;> simp_all
    subst hc
    simp only [List.mem_cons, not_or] at hl hs
    refine ih ?_ hl.2 hs.2
    show Done (w.despawn D K)
    exact x.grow (grew_despawn _) (by simp) (by simp) (by simp) (despawn_dead _)
      (by rw [despawn_source]; split; · simp
          · exact x.over.source)

/-- What is over stays over. -/
theorem Done.step {w : World S I E} (x : Done w) (hs : .spawn ∉ w.cmds) (o : Op I E) :
    Done (w.step D K o) ∧ .spawn ∉ (w.step D K o).cmds := by
  have hcl := close_over (D := D) (K := K) x.over.source
  cases o with
  | target t => exact ⟨⟨⟨x.over.ent, x.over.source⟩, x.pre, x.mine⟩, hs⟩
  | emit n =>
    show Done (w.emit D K n) ∧ .spawn ∉ (w.emit D K n).cmds
    exact ⟨x.grow (grew_emit _ _) (by simp) (by simp) (by simp) (by simpa using x.over.ent) (by simpa using x.over.source), by simpa using hs⟩
  | close => simp only [World.step, hcl]; exact ⟨x, hs⟩
  | unsubscribe =>
    simp only [World.step]
    split
    · rw [close_over (by exact x.over.source)]
      exact ⟨⟨⟨x.over.ent, x.over.source⟩, x.pre, x.mine⟩, hs⟩
    · exact ⟨x.grow (Grew.trans (w' := { w with trace := w.trace ++ [.unsubscribed] }) (.of_eq rfl rfl (fun h => h)) (grew_give (K := K) _ _))
        (by simp) (by simp) (by simp) (by simpa using x.over.ent) (by simpa using x.over.source), by simpa using hs⟩
  | kill =>
    show Done (w.despawn D K) ∧ .spawn ∉ (w.despawn D K).cmds
    refine ⟨x.grow (grew_despawn _) (by simp) (by simp) (by simp) (despawn_dead _) ?_, by simpa using hs⟩
    rw [despawn_source]; split
    · simp
    · exact x.over.source
  | remove =>
    simp only [World.step]
    rw [if_neg (fun h => x.over.ent (by rw [h]; trivial))]
    exact ⟨x, hs⟩
  | flushMine =>
    have : w.step D K .flushMine = w := by
      have := x.mine
      simp only [World.step, this, List.foldl_nil]
      cases w; simp_all
    rw [this]; exact ⟨x, hs⟩
  | drain =>
    obtain ⟨-, f2, f3, -, -, -, f7, f8, -, f10, -⟩ := acts_fields w.queue { w with queue := [] }
    obtain ⟨g1, -⟩ := acts_active w.queue { w with queue := [] }
    dsimp only at f2 f3 f7 f8 f10 g1
    refine ⟨⟨⟨?_, ?_⟩, ?_, f7.trans x.mine⟩, ?_⟩
    · rw [show (w.step D K .drain).ent = w.ent from f2]; exact x.over.ent
    · rw [show (w.step D K .drain).source = w.source from f3]; exact x.over.source
    · rintro (h | h | h)
      · rw [step_queue_nil] at h; simp at h
      · have h' : 0 < (List.foldl World.act { w with queue := [] } w.queue).active := h
        have h1 : .add ∉ w.queue := fun h => x.pre (.inl h)
        have h2 : ¬ 0 < w.active := fun h => x.pre (.inr (.inl h))
        have := List.count_eq_zero.2 h1
        omega
      · exact x.pre (.inr (.inr (by rw [← f8]; exact h)))
    · rw [show (w.step D K .drain).cmds = w.cmds from f8]; exact hs
  | work =>
    simp only [World.step]
    rw [if_neg (fun h => x.pre (.inr (.inl h)))]
    exact ⟨x, hs⟩
  | reap =>
    simp only [World.step]
    split
    · refine ⟨⟨⟨x.over.ent, x.over.source⟩, ?_, x.mine⟩, by simpa using hs⟩
      rintro (h | h | h)
      · exact x.pre (.inl h)
      · exact x.pre (.inr (.inl h))
      · exact x.pre (.inr (.inr (by simpa using h)))
    · exact ⟨⟨⟨x.over.ent, x.over.source⟩, x.pre, x.mine⟩, hs⟩
  | flush =>
    have h0 : Done ({ w with cmds := [] } : World S I E) := ⟨⟨x.over.ent, x.over.source⟩, by
      rintro (h | h | h)
      · exact x.pre (.inl h)
      · exact x.pre (.inr (.inl h))
      · simp at h, x.mine⟩
    have hc : .subscribe ∉ w.cmds := fun h => x.pre (.inr (.inr h))
    refine ⟨h0.flush w.cmds hc hs, ?_⟩
    show Cmd.spawn ∉ (List.foldl (World.apply D K) { w with cmds := [] } w.cmds).cmds
    suffices ∀ (l : List Cmd) (v : World S I E), (l.foldl (World.apply D K) v).cmds = v.cmds by rw [this]; simp
    intro l
    induction l with
    | nil => intro v; rfl
    | cons c l ih =>
      intro v
      rw [List.foldl_cons, ih]
      cases c <;> simp [World.apply]
  | retry =>
    simp only [World.step]
    split
    · rename_i r _
      have hg : Grew D K w (World.connect D K r { w with waiting := none }) :=
        Grew.trans (w' := { w with waiting := none }) (.of_eq rfl rfl (fun h => h)) (grew_connect _ _)
      obtain ⟨h1, h2⟩ := connect_over (D := D) (K := K) { w with waiting := none } r ⟨x.over.ent, x.over.source⟩
      exact ⟨x.grow hg (by simp) (by simp) (by simp) h1 h2, by simpa using hs⟩
    · exact ⟨x, hs⟩
  | clean =>
    simp only [World.step]
    rw [if_neg (fun h => x.over.ent (by rw [h]; trivial))]
    exact ⟨x, hs⟩
  | last =>
    simp only [World.step]
    split
    · have hg : Grew D K w (World.despawn D K { w with despawns := 0 }) :=
        Grew.trans (w' := { w with despawns := 0 }) (.of_eq rfl rfl (fun h => h)) (grew_despawn _)
      refine ⟨x.grow hg (by simp) (by simp) (by simp) (despawn_dead _) ?_, by simpa using hs⟩
      rw [despawn_source]; split
      · simp
      · exact x.over.source
    · exact ⟨x, hs⟩

theorem Done.run {w : World S I E} (x : Done w) (hs : .spawn ∉ w.cmds) (l : List (Op I E)) : Done (w.run D K l) := by
  induction l generalizing w with
  | nil => exact x
  | cons o l ih => exact ih (x.step hs o).1 (x.step hs o).2

/-- Once the handle is closed, a tick ends it all. -/
theorem Inv.ends {w : World S I E} (x : Inv D K w) (hc : w.isClosed D K = true) :
    Done (w.run D K [.drain, .reap, .flush]) ∧ (w.run D K [.drain, .reap, .flush]).Idle := by
  let w1 := w.step D K .drain
  let w2 := w1.step D K .reap
  let w3 := w2.step D K .flush
  have x1 : Inv D K w1 := x.step .drain
  have x2 : Inv D K w2 := x1.step .reap
  have x3 : Inv D K w3 := x2.step .flush
  have q1 : w1.queue = [] := step_queue_nil w
  have o1 : Over D K w1 := by
    obtain ⟨f1, -, f3, -⟩ := acts_fields w.queue { w with queue := [] }
    have := over_iff.2 hc
    revert this
    unfold Over
    cases K with
    | direct => show _ → w1.source ≠ _; rw [show w1.source = w.source from f3]; exact fun h => h
    | proxy => show _ → D.isClosed w1.dest = _; rw [show w1.dest = w.dest from f1]; exact fun h => h
    | command => show _ → D.isClosed w1.dest = _; rw [show w1.dest = w.dest from f1]; exact fun h => h
  obtain ⟨a1, a2, a3⟩ : .add ∉ w1.queue ∧ w1.active = 0 ∧ (0 < w1.invoked ∨ ¬ Armed w1) := by
    rcases x1.exec.torn o1 with ⟨h, -⟩ | h
    · rw [q1] at h; simp at h
    · exact h
  have hi := x1.exec.armed
  have e2 : w2 = w1.step D K .reap := rfl
  obtain ⟨b1, b2, b3, b4, b5⟩ : w2.queue = [] ∧ w2.active = 0 ∧ w2.invokable = 0 ∧ w2.invoked = 0 ∧ Over D K w2 := by
    rw [e2]
    simp only [World.step]
    have h6 : ∀ v : World S I E, v.dest = w1.dest → v.source = w1.source → Over D K v := by
      intro v h1 h2
      revert o1
      unfold Over
      cases K <;> simp [h1, h2]
    split
    · rename_i h
      refine ⟨q1, a2, ?_, rfl, h6 _ rfl rfl⟩
      dsimp only; omega
    · rename_i h
      refine ⟨q1, a2, ?_, rfl, h6 _ rfl rfl⟩
      show w1.invokable = 0
      have : ¬ 0 < w1.invokable := by
        intro h'
        rcases a3 with a3 | a3
        · exact h ⟨a3, h'⟩
        · exact a3 (.inr h')
      omega
  have hA2 : ¬ Armed w2 := by
    rintro (h | h)
    · rw [b1] at h; simp at h
    · omega
  -- applying the commands sends nothing to the executor
  have hstill : ∀ v : World S I E, v.queue = [] → Over D K v →
      ((v.close D K).queue = [] ∧ Over D K (v.close D K)) := by
    intro v hq ho
    unfold World.close
    split
    · rename_i hopen
      cases K with
      | direct => exact (ho hopen).elim
      | proxy =>
        have ho' : D.isClosed v.dest = true := ho
        simp only [World.give, ho', if_true]
        exact ⟨by simpa using hq, ho'⟩
      | command =>
        have ho' : D.isClosed v.dest = true := ho
        simp only [World.give, ho', if_true]
        exact ⟨by simpa using hq, ho'⟩
    · exact ⟨hq, ho⟩
  have hdesp : ∀ v : World S I E, v.queue = [] → Over D K v → (v.despawn D K).queue = [] ∧ Over D K (v.despawn D K) := by
    intro v hq ho
    have hg : Over D K { v with ent := Ent.gone } := by revert ho; unfold Over; cases K <;> exact fun h => h
    unfold World.despawn
    split
    · exact ⟨hq, ho⟩
    · exact ⟨hq, ho⟩
    · exact hstill _ hq hg
    · exact ⟨hq, hg⟩
    · exact ⟨hq, hg⟩
  have hemits : ∀ (l : List (SubscriberNotification I E)) (v : World S I E), D.isClosed v.dest = true → v.queue = [] →
      (l.foldl (World.emit D K) v).queue = [] ∧ D.isClosed (l.foldl (World.emit D K) v).dest = true := by
    intro l
    induction l with
    | nil => intro v h1 h2; exact ⟨h2, h1⟩
    | cons n l ih =>
      intro v h1 h2
      refine ih _ ?_ ?_ <;> (unfold World.emit; dsimp only; split <;> simp [World.give, h1, h2])
  have hconn : K ≠ .direct → ∀ (r : Nat) (v : World S I E), v.queue = [] → Over D K v →
      (v.connect D K r).queue = [] ∧ Over D K (v.connect D K r) := by
    intro hk r v hq ho
    have hiff : ∀ u : World S I E, Over D K u ↔ D.isClosed u.dest = true := by
      intro u; unfold Over; cases K <;> simp_all
    have hcv := (hiff v).1 ho
    unfold World.connect
    split
    · rename_i t _
      obtain ⟨j1, j2⟩ := hemits t.sync { v with source := .open, trace := v.trace ++ [.joined] } hcv hq
      dsimp only
      split
      · split
        · exact ⟨j1, (hiff _).2 j2⟩
        · exact hstill _ j1 ((hiff _).2 j2)
      · obtain ⟨k1, k2⟩ := hstill (v.join D K t) j1 ((hiff _).2 j2)
        exact hdesp _ k1 k2
    · split
      · exact ⟨hq, (hiff _).2 hcv⟩
      · simp only [World.give, hcv, if_true]
        exact ⟨hq, (hiff _).2 hcv⟩
  have happ : K = .direct ∧ .subscribe ∈ w2.cmds → False := by
    rintro ⟨hk, h⟩
    exact (x2.exec.other (by simp [hk])).2.2 h
  have q3 : w3.queue = [] ∧ w3.cmds = [] ∧ w3.active = w2.active ∧ w3.invokable = w2.invokable ∧ w3.invoked = w2.invoked := by
    have hb : Over D K { w2 with cmds := [] } := by revert b5; unfold Over; cases K <;> exact fun h => h
    have hu : ∀ v : World S I E, Over D K v → Over D K { v with ent := Ent.unfinished } := by
      intro v; unfold Over; cases K <;> exact fun h => h
    rcases x2.exec.shape with h | h | ⟨h, hA⟩ | h
    · simp only [w3, World.step, h, List.foldl_nil]
      exact ⟨b1, trivial, trivial, trivial, trivial⟩
    · simp only [w3, World.step, h, List.foldl_cons, List.foldl_nil, World.apply]
      exact ⟨(hdesp { w2 with cmds := [] } b1 hb).1, by simp, by simp, by simp, by simp⟩
    · exact (hA2 hA).elim
    · have hk : K ≠ .direct := fun hk => happ ⟨hk, by simp [h]⟩
      simp only [w3, World.step, h, List.foldl_cons, List.foldl_nil, World.apply]
      obtain ⟨c1, c2⟩ := hconn hk maxRetries { { w2 with cmds := [] } with ent := .unfinished } b1 (hu _ hb)
      exact ⟨(hdesp _ c1 c2).1, by simp, by simp, by simp, by simp⟩
  have hr : w.run D K [.drain, .reap, .flush] = w3 := rfl
  rw [hr]
  have hdead : ¬ w3.ent.alive := by
    intro h
    rcases x3.life.alive h with (h' | h') | h'
    · rw [q3.1] at h'; simp at h'
    · omega
    · rw [q3.2.1] at h'; simp at h'
  refine ⟨⟨⟨hdead, fun h => hdead (by rw [x3.life.link h]; trivial)⟩, ?_, x3.mine⟩, ⟨q3.1, by omega, by omega, by omega, q3.2.1⟩⟩
  rintro (h | h | h)
  · rw [q3.1] at h; simp at h
  · omega
  · rw [q3.2.1] at h; simp at h

/-- Once the subscription to the observable is closed, the work in `Last` despawns the entity. -/
theorem Inv.last {w : World S I E} (x : Inv D K w) (hc : w.source = .closed) : ¬ (w.step D K .last).ent.alive := by
  simp only [World.step]
  split
  · exact despawn_dead _
  · rename_i h
    exact fun ha => h (x.life.last hc ha)

end Rx.Proxy
