import Verif.Lemmas.SubjectThreadsAlone

/-!
# Several threads that share a subject: what those are told who subscribe when it has ended
-/

namespace Rx.Crowd

open Closing (Dest append_eq_snoc)

variable {S I E : Type} {D : Dest S I E} {debug : Bool}

/-- The call of `subscribe` which has not yet told its subscriber how the subject has ended. -/
def PC.fresh : PC I E → Option (Call I E)
  | .pre c | .preApply c | .greet c => some c
  | .top w _ | .deliver w _ | .marking w _ _ | .unlock w | .panicked w => w.later
  | _ => none

theorem cur_of_fresh {p : PC I E} {c : Call I E} (h : p.fresh = some c) : p.cur = some c := by
  have this' : ∀ w : Why I E, w.later = some c → w.cur = some c := by
    intro w h
    cases w with
    | own d => cases h
    | pre d => exact h
    | after o => cases h
  cases p <;> first | exact h | exact this' _ h | cases h

theorem pend_of_fresh {p : PC I E} {c : Call I E} (h : p.fresh = some c) : p.pend = some c := by
  have this' : ∀ w : Why I E, w.later = some c → w.pend = some c := by
    intro w h
    cases w with
    | own d => cases h
    | pre d => exact h
    | after o => cases h
  cases p <;> first | exact h | exact this' _ h | cases h

section
variable {s : Nat → S} {x y : State S I E} {t : Nat}

theorem givesTo_nil {i : Nat} {tr : List (Mark I E)} : givesTo i tr = [] ↔ ∀ k n, .give k i n ∉ tr := by
  unfold givesTo
  rw [List.filterMap_eq_nil_iff]
  constructor
  · intro h k n hk
    have := h _ hk
    simp at this
  · intro h m hm
    cases m with
    | give k j n =>
      by_cases e : j = i
      · subst e; exact absurd hm (h k n)
      · simp [e]
    | _ => rfl

/-- How a thread gets to where it has not yet told its subscriber. -/
theorem fresh_from (x : State S I E) (t : Nat) (a : Turn I E) (c : Call I E)
    (h : ((step D debug x t a).pc t).fresh = some c) :
    ((x.pc t).fresh = some c ∧ ((step D debug x t a).trace = x.trace ∨ ∃ d r, x.rest = d :: r ∧
      (step D debug x t a).trace = ({ x with rest := r, done := x.done ++ [d] }.handle D d).trace)) ∨
    (c = ⟨x.calls, .subscribe⟩ ∧ (step D debug x t a).trace = x.trace ++ [.call x.calls t .subscribe]) := by
  have pcs : ∀ (z : State S I E) p, (z.goto t p).pc t = p := fun z p => by rw [pc_goto, if_pos rfl]
  revert h
  unfold step
  split
  · rename_i hi
    have hp := isIdle_eq hi
    cases a with
    | go => rw [hp]; intro h; cases h
    | ask => show (x.pc t).fresh = some c → _; rw [hp]; intro h; cases h
    | drop => dsimp only; rw [pcs]; intro h; cases h
    | call op =>
      dsimp only
      split
      · rw [hp]; intro h; cases h
      · rw [pcs]
        cases op with
        | subscribe => intro h; cases h; exact .inr ⟨rfl, rfl⟩
        | _ => intro h; cases h
  · unfold advance
    have rets : ∀ (z : State S I E) o, (z.ret t o).pc t = .idle := fun z o => by cases o <;> exact pcs _ _
    cases hp : x.pc t with
    | idle => intro h; rw [hp] at h; cases h
    | panicked w => intro h; rw [hp] at h; exact .inl ⟨h, .inl rfl⟩
    | pre d => dsimp only; rw [pcs]; split <;> exact fun h => .inl ⟨h, .inl rfl⟩
    | preApply d => dsimp only; split <;> (rw [pcs]; exact fun h => .inl ⟨h, .inl rfl⟩)
    | greet d => dsimp only; rw [pcs]; intro h; cases h
    | check d => dsimp only; rw [pcs]; intro h; split at h <;> (split at h <;> cases h)
    | refuse d => dsimp only; rw [pcs]; intro h; cases h
    | leaving d => dsimp only; rw [pcs]; intro h; cases h
    | observe d =>
      dsimp only
      split
      · rw [pcs]; intro h; cases h
      · split <;> (rw [pcs]; intro h; cases h)
      · rw [pcs]; intro h; split at h <;> cases h
      · rw [pcs]; intro h; cases h
    | look d =>
      dsimp only
      split
      · split <;> (rw [pcs]; intro h; cases h)
      · rw [pcs]; intro h; cases h
    | attempt d => dsimp only; split <;> (rw [pcs]; intro h; cases h)
    | top w k =>
      dsimp only
      split
      · rw [pcs]; exact fun h => .inl ⟨h, .inl rfl⟩
      · split
        · rw [pcs]
          cases w with
          | own d => dsimp only; intro h; split at h <;> cases h
          | pre d => exact fun h => .inl ⟨h, .inl rfl⟩
          | after o => intro h; cases h
        · rw [pcs]; exact fun h => .inl ⟨h, .inl rfl⟩
    | deliver w k =>
      dsimp only
      split
      · rw [pcs]; exact fun h => .inl ⟨h, .inl rfl⟩
      · rename_i d r hr
        rw [pcs]; exact fun h => .inl ⟨h, .inr ⟨d, r, hr, rfl⟩⟩
    | marking w k d => dsimp only; rw [pcs]; exact fun h => .inl ⟨h, .inl rfl⟩
    | sealing d => dsimp only; rw [pcs]; intro h; cases h
    | give d => dsimp only; rw [pcs]; intro h; cases h
    | unlock w =>
      cases w with
      | own d => dsimp only; rw [pcs]; intro h; split at h <;> cases h
      | pre d => dsimp only; rw [pcs]; exact fun h => .inl ⟨h, .inl rfl⟩
      | after o => dsimp only; rw [rets]; intro h; cases h
    | deferring d => dsimp only; rw [pcs]; intro h; split at h <;> cases h
    | recheck o =>
      dsimp only
      split
      · rw [rets]; intro h; cases h
      · rw [pcs]; intro h; cases h
    | apply o =>
      dsimp only
      split
      · rw [pcs]; intro h; cases h
      · rw [rets]; intro h; cases h

/-- Where it goes from there. -/
theorem fresh_to (x : State S I E) (t : Nat) (a : Turn I E) (c : Call I E) (h : (x.pc t).fresh = some c) :
    ((step D debug x t a).pc t).fresh = some c ∨ x.pc t = .greet c := by
  have pcs : ∀ (z : State S I E) p, (z.goto t p).pc t = p := fun z p => by rw [pc_goto, if_pos rfl]
  unfold step
  split
  · rename_i hi
    rw [isIdle_eq hi] at h
    cases h
  · unfold advance
    cases hp : x.pc t with
    | panicked w => left; rw [hp]; rw [hp] at h; exact h
    | pre d => rw [hp] at h; left; dsimp only; rw [pcs]; split <;> exact h
    | preApply d => rw [hp] at h; left; dsimp only; split <;> (rw [pcs]; exact h)
    | greet d => rw [hp] at h; cases h; exact .inr rfl
    | top w k =>
      rw [hp] at h
      left
      dsimp only
      split
      · rw [pcs]; exact h
      · split
        · rw [pcs]
          cases w with
          | own d => cases h
          | pre d => exact h
          | after o => cases h
        · rw [pcs]; exact h
    | deliver w k =>
      rw [hp] at h
      left
      dsimp only
      split <;> (rw [pcs]; exact h)
    | marking w k d => rw [hp] at h; left; dsimp only; rw [pcs]; exact h
    | unlock w =>
      rw [hp] at h
      cases w with
      | own d => cases h
      | pre d => left; dsimp only; rw [pcs]; exact h
      | after o => cases h
    | _ => rw [hp] at h; cases h

/-- The subscriber of call `i` was closed from the beginning, or was told this and nothing else. -/
def Greeted (D : Dest S I E) (s : Nat → S) (x : State S I E) (i : Nat) (p : SubscriberNotification I E → Prop) : Prop :=
  (D.isClosed (s i) = true ∧ givesTo i x.trace = []) ∨ ∃ n, p n ∧ n.isClosing = true ∧ givesTo i x.trace = [n]

/-- Those who subscribe when the subject has ended. -/
structure Greets (D : Dest S I E) (s : Nat → S) (x : State S I E) : Prop where
  new : ∀ u c, (x.pc u).fresh = some c → givesTo c.id x.trace = []
  error : Only (fun op => ∃ e, op = .error e) x.trace → ∀ i u, .call i u .subscribe ∈ x.trace →
    Late x.trace i →
    (x.pc u).fresh = some ⟨i, .subscribe⟩ ∨ Greeted D s x i fun n => ∃ e, n = .error e
  complete : Only (fun op => op = .complete) x.trace → ∀ i u, .call i u .subscribe ∈ x.trace →
    Late x.trace i →
    (x.pc u).fresh = some ⟨i, .subscribe⟩ ∨ Greeted D s x i fun n => n = .complete
  unsubscribe : Only (fun op => op = .unsubscribe) x.trace → ∀ i u, .call i u .subscribe ∈ x.trace →
    Late x.trace i →
    (x.pc u).fresh = some ⟨i, .subscribe⟩ ∨
    ((x.pc u = .check ⟨i, .subscribe⟩ ∨ x.pc u = .refuse ⟨i, .subscribe⟩) ∧ givesTo i x.trace = []) ∨
    Greeted D s x i fun n => n = .unsubscribe

theorem Greeted.deaf {p : SubscriberNotification I E → Prop} {i : Nat} {b} (h : Greeted D s x i p) (hD : D.Contract)
    (hx : x.dests i = afterTo D s i x.trace) (ht : Tells D x y b) : Greeted D s y i p := by
  have hc : D.isClosed (x.dests i) = true := by
    rw [hx, afterTo]
    rcases h with ⟨h1, h2⟩ | ⟨n, -, h1, h2⟩
    · rw [h2]; exact h1
    · rw [h2]; exact hD.closes _ _ h1
  unfold Greeted
  rw [ht.deaf hc]
  exact h

/-- A subscriber that has heard nothing is told. -/
theorem Greeted.tell {p : SubscriberNotification I E → Prop} {i : Nat} (n : SubscriberNotification I E)
    (hx : x.dests i = afterTo D s i x.trace) (hg : givesTo i x.trace = []) (hp : p n) (hn : n.isClosing = true)
    (hy : y.trace = (x.tell D i n i).trace) : Greeted D s y i p := by
  have hs : x.dests i = s i := by rw [hx, afterTo, hg]; rfl
  unfold Greeted
  rw [hy, State.tell]
  split
  · rename_i hc
    rw [hs] at hc
    exact .inl ⟨hc, hg⟩
  · refine .inr ⟨n, hp, hn, ?_⟩
    rw [givesTo_append, hg]
    simp [givesTo]

theorem Greets.init (s : Nat → S) : Greets D s (init s : State S I E) :=
  ⟨fun _ _ h => (by cases h), fun _ _ _ h => (by cases h), fun _ _ _ h => (by cases h), fun _ _ _ h => (by cases h)⟩

theorem Greets.step (h : Greets D s x) (hi : Inv D s x) (hk : Kinds x) (hD : D.Contract) (t : Nat) (a : Turn I E) :
    Greets D s (step D debug x t a) := by
  obtain ⟨m, g, hh, mk⟩ := hi.moves (debug := debug) hD t a
  obtain ⟨b, hb⟩ := g.trace
  obtain ⟨b', ht⟩ := m.tells
  have hy := hi.step (debug := debug) hD t a
  -- a subscriber which has been told nothing is told nothing by others
  have quiet : ∀ u c, u ≠ t → (x.pc u).pend = some c → givesTo c.id x.trace = [] →
      givesTo c.id (Crowd.step D debug x t a).trace = [] := by
    intro u c hu hc hg
    rw [givesTo_nil] at hg ⊢
    intro k n hk
    rcases g.gives _ _ _ hk with e | ⟨-, e | e⟩
    · exact hg _ _ e
    · exact hi.ids.pend u c hc (List.mem_map.2 ⟨_, e, rfl⟩)
    · exact hu (hi.ids.one _ _ _ _ _ (hi.ids.cur u c (cur_of_pend hc)).1 (hi.ids.cur t _ (cur_of_pend e)).1).1
  -- of calls that are not new
  have back : ∀ {i u}, .call i u .subscribe ∈ (Crowd.step D debug x t a).trace →
      (∃ j v op, .call j v op ∈ (Crowd.step D debug x t a).trace ∧ op.isClosing = true ∧
        Before (Crowd.step D debug x t a).trace j i) →
      ((Crowd.step D debug x t a).pc u).fresh = some ⟨i, .subscribe⟩ ∨
      (.call i u .subscribe ∈ x.trace ∧ ∃ j v op, .call j v op ∈ x.trace ∧ op.isClosing = true ∧ Before x.trace j i) := by
    rintro i u hc ⟨j, v, op, h1, h2, h3⟩
    rcases g.calls _ _ _ hc with e | ⟨rfl, -, -, -, e⟩
    · right
      rw [hb] at h3
      have h3 := h3.backs e
      refine ⟨e, j, v, op, ?_, h2, h3⟩
      rcases g.calls _ _ _ h1 with e' | ⟨-, e', -⟩
      · exact e'
      · obtain ⟨u₁, op₁, h4⟩ := hi.ids.rets _ h3.ret
        have := hi.ids.ids _ _ _ h4
        omega
    · left; rw [e]; rfl
  have shut : ∀ {i}, Late x.trace i → x.shut = true := by
    rintro i ⟨j, v, op, h1, h2, h3⟩
    exact hi.ends.retd _ _ _ h1 h2 h3.ret
  have greetStep : ∀ i, x.pc t = .greet ⟨i, .subscribe⟩ → Crowd.step D debug x t a =
      (match x.error with
      | some e => x.tell D i (.error e) i
      | none => if x.completed then x.tell D i .complete i else x).goto t (.check ⟨i, .subscribe⟩) := by
    intro i hp
    unfold Crowd.step advance
    rw [hp]
    rfl
  refine ⟨fun u c hc => ?_, fun ho i u hc hj => ?_, fun ho i u hc hj => ?_, fun ho i u hc hj => ?_⟩
  · by_cases e : u = t
    · subst e
      rcases fresh_from x u a c hc with ⟨h1, h2 | ⟨d, r, h2, h3⟩⟩ | ⟨rfl, h2⟩
      · rw [h2]; exact h.new u c h1
      · have hg := h.new u c h1
        obtain ⟨d', hd⟩ := handle_handled hD { x with rest := r, done := x.done ++ [d] } d hi.heard.nodup
        rw [h3, hd.trace, givesTo_append]
        show givesTo c.id x.trace ++ _ = []
        rw [hg, List.nil_append, givesTo_nil]
        intro k n hk
        have hpend := hi.ids.pend u c (pend_of_fresh h1)
        rcases hd.to _ _ _ hk with e | ⟨e, -⟩
        · exact hpend (List.mem_map.2 ⟨⟨c.id, .subscribe⟩, by simp [State.line, hi.heard.subs _ e], rfl⟩)
        · exact hpend (List.mem_map.2 ⟨d, by simp [State.line, h2], e.symm⟩)
      · rw [h2, givesTo_append, givesTo_nil.2]
        · rfl
        · intro k n hk
          obtain ⟨-, u', h3⟩ := hi.kept.gives _ _ _ hk
          have := hi.ids.ids _ _ _ h3
          exact absurd this (Nat.lt_irrefl _)
    · rw [hh.other e] at hc
      exact quiet u c e (pend_of_fresh hc) (h.new u c hc)
  · rcases back hc hj with e | ⟨hc', hj'⟩
    · exact .inl e
    · rcases h.error (hb ▸ ho).back i u hc' hj' with e | e
      · by_cases hu : u = t
        · subst hu
          rcases fresh_to (D := D) (debug := debug) x u a _ e with e' | e'
          · exact .inl e'
          · right
            have hf := hk.error (hb ▸ ho).back (shut hj')
            obtain ⟨v, hv⟩ := Option.isSome_iff_exists.1 hf
            refine .tell (.error v) (hi.heard.dests i) (h.new u _ e) ⟨v, rfl⟩ rfl ?_
            rw [greetStep i e', hv]
            rfl
        · rw [hh.other hu]; exact .inl e
      · exact .inr (e.deaf hD (hi.heard.dests i) ht)
  · rcases back hc hj with e | ⟨hc', hj'⟩
    · exact .inl e
    · rcases h.complete (hb ▸ ho).back i u hc' hj' with e | e
      · by_cases hu : u = t
        · subst hu
          rcases fresh_to (D := D) (debug := debug) x u a _ e with e' | e'
          · exact .inl e'
          · right
            have hf := hk.complete (hb ▸ ho).back (shut hj')
            have he : x.error = none := by
              cases hv : x.error with
              | none => rfl
              | some v =>
                obtain ⟨j, w, hv⟩ := hi.ends.error v hv
                cases (hb ▸ ho).back _ _ _ hv rfl
            refine .tell .complete (hi.heard.dests i) (h.new u _ e) rfl rfl ?_
            rw [greetStep i e', he]
            dsimp only
            rw [hf]
            rfl
        · rw [hh.other hu]; exact .inl e
      · exact .inr (e.deaf hD (hi.heard.dests i) ht)
  · rcases back hc hj with e | ⟨hc', hj'⟩
    · exact .inl e
    · rcases h.unsubscribe (hb ▸ ho).back i u hc' hj' with e | ⟨e, hg⟩ | e
      · by_cases hu : u = t
        · subst hu
          rcases fresh_to (D := D) (debug := debug) x u a _ e with e' | e'
          · exact .inl e'
          · right; left
            have he : x.error = none := by
              cases hv : x.error with
              | none => rfl
              | some v =>
                obtain ⟨j, w, hv⟩ := hi.ends.error v hv
                cases (hb ▸ ho).back _ _ _ hv rfl
            have hf : x.completed = false := by
              cases hv : x.completed with
              | false => rfl
              | true =>
                obtain ⟨j, w, hv⟩ := hi.ends.completed hv
                cases (hb ▸ ho).back _ _ _ hv rfl
            rw [greetStep i e', he]
            dsimp only
            rw [hf]
            exact ⟨.inl (by rw [pc_goto, if_pos rfl]), h.new u _ e⟩
        · rw [hh.other hu]; exact .inl e
      · right
        by_cases hu : u = t
        · subst hu
          rcases e with e | e
          · left
            have : Crowd.step D debug x u a = x.goto u (.refuse ⟨i, .subscribe⟩) := by
              unfold Crowd.step advance
              rw [e]
              show x.goto u (if x.shut = true then .refuse _ else _) = _
              rw [shut hj']
              rfl
            rw [this]
            exact ⟨.inr (by rw [pc_goto, if_pos rfl]), hg⟩
          · right
            have : Crowd.step D debug x u a = (x.tell D i .unsubscribe i).goto u (.leaving ⟨i, .subscribe⟩) := by
              unfold Crowd.step advance
              rw [e]
              rfl
            exact .tell .unsubscribe (hi.heard.dests i) hg rfl rfl (by rw [this]; rfl)
        · left
          rw [hh.other hu]
          refine ⟨e, quiet u ⟨i, .subscribe⟩ hu ?_ hg⟩
          rcases e with e | e <;> rw [e] <;> rfl
      · exact .inr (.inr (e.deaf hD (hi.heard.dests i) ht))

theorem run_greets (hD : D.Contract) (s : Nat → S) (l : List (Nat × Turn I E)) : Greets D s (run D debug (Crowd.init s) l) :=
  (run_induction hD s (P := fun x => Kinds x ∧ Greets D s x) ⟨run_kinds (debug := debug) hD s [], .init s⟩
    (fun x t a hi h => by
      obtain ⟨-, g, -, mk⟩ := hi.moves (debug := debug) hD t a
      exact ⟨h.1.step hi g mk, h.2.step hi h.1 hD t a⟩) l).2

/-! ## What the properties need -/

theorem run_reason (hD : D.Contract) (s : Nat → S) (l : List (Nat × Turn I E)) : ∀ a k i n b,
    (run D debug (Crowd.init s) l).trace = a ++ .give k i n :: b →
    (∃ u op, .call k u op ∈ a ∧ Reason a k i op n) ∧ ∃ u, .call i u .subscribe ∈ a :=
  run_induction hD s (P := fun x => ∀ a k i n b, x.trace = a ++ .give k i n :: b →
      (∃ u op, .call k u op ∈ a ∧ Reason a k i op n) ∧ ∃ u, .call i u .subscribe ∈ a)
    (fun a k i n b e => by have := congrArg List.length e; simp [Crowd.init] at this)
    (fun x t a hi h a' k i n b e => by
      obtain ⟨-, g, -, -⟩ := hi.moves (debug := debug) hD t a
      obtain ⟨d, hd⟩ := g.trace
      have hg : .give k i n ∈ (Crowd.step D debug x t a).trace := by rw [e]; simp
      have hx : (∃ u op, .call k u op ∈ x.trace ∧ Reason x.trace k i op n) ∧ ∃ u, .call i u .subscribe ∈ x.trace := by
        rcases g.gives _ _ _ hg with h' | ⟨⟨op, e1, e2⟩, e3⟩
        · exact hi.kept.gives _ _ _ h'
        · refine ⟨?_, ?_⟩
          · rcases e2 with e2 | e2
            · obtain ⟨u, hu⟩ := hi.ids.line _ e2
              exact ⟨u, op, hu, hi.ends.reason hi.ids e1⟩
            · exact ⟨t, op, (hi.ids.cur t _ (cur_of_pend e2)).1, hi.ends.reason hi.ids e1⟩
          · rcases e3 with e3 | e3
            · exact hi.ids.line _ e3
            · exact ⟨t, (hi.ids.cur t _ (cur_of_pend e3)).1⟩
      rw [hd] at e
      rcases List.append_eq_append_iff.1 e with ⟨as, ha, -⟩ | ⟨bs, ha, hb⟩
      · obtain ⟨⟨u, op, h1, h2⟩, u', h3⟩ := hx
        rw [ha]
        exact ⟨⟨u, op, List.mem_append_left _ h1, h2.mono _⟩, u', List.mem_append_left _ h3⟩
      · cases bs with
        | nil =>
          obtain ⟨⟨u, op, h1, h2⟩, u', h3⟩ := hx
          simp only [List.append_nil] at ha
          rw [← ha]
          exact ⟨⟨u, op, h1, h2⟩, u', h3⟩
        | cons m bs =>
          simp only [List.cons_append, List.cons.injEq] at hb
          obtain ⟨rfl, -⟩ := hb
          exact h _ _ _ _ _ ha) l

/-- In a list without repetition, of two members one comes first. -/
theorem before_or {α : Type} {l : List α} {p q : α} (hp : p ∈ l) (hq : q ∈ l) (hne : p ≠ q) :
    (∃ a b, l = a ++ p :: b ∧ q ∈ b) ∨ ∃ a b, l = a ++ q :: b ∧ p ∈ b := by
  obtain ⟨a, b, rfl⟩ := List.append_of_mem hp
  rcases List.mem_append.1 hq with h | h
  · obtain ⟨c, d, rfl⟩ := List.append_of_mem h
    exact .inr ⟨c, d ++ p :: b, by simp, by simp⟩
  · rcases List.mem_cons.1 h with rfl | h
    · exact absurd rfl hne
    · exact .inl ⟨a, b, rfl, h⟩

theorem mem_nexts {l : List (Call I E)} {k : Nat} {v : I} : (k, v) ∈ nexts l ↔ ⟨k, .next v⟩ ∈ l := by
  unfold nexts
  rw [List.mem_filterMap]
  constructor
  · rintro ⟨c, hc, e⟩
    obtain ⟨id, op⟩ := c
    cases op <;> simp at e
    obtain ⟨rfl, rfl⟩ := e
    exact hc
  · intro h
    exact ⟨_, h, rfl⟩

theorem Inv.order_of {a b : List (Call I E)} {p q : Call I E} (h : Inv D s x) (e : x.done = a ++ p :: b) (hq : q ∈ b) :
    ¬ Before x.trace q.id p.id := by
  have := h.ids.order
  rw [State.line, e, List.append_assoc, List.pairwise_append] at this
  have := this.2.1
  rw [List.cons_append, List.pairwise_cons] at this
  exact this.1 q (List.mem_append_left _ hq)

theorem Inv.missed (h : Inv D s x) {i k t u : Nat} {v : I} (hi : .call i t .subscribe ∈ x.trace)
    (hk : .call k u (.next v) ∈ x.trace) (hr : .ret k ∈ x.trace) (hb : Before x.trace i k) :
    (k, v) ∈ valuesTo i x.trace ∨ D.isClosed (x.dests i) = true ∨ ⟨k, .next v⟩ ∈ x.rest ++ x.queue ∨ Excused x.trace k := by
  rcases h.kept.kept _ _ _ hk with h1 | h1 | h1
  · rw [State.line, List.mem_append] at h1
    rcases h1 with h1 | h1
    · rcases h.kept.kept _ _ _ hi with h2 | h2 | h2
      · rw [State.line, List.mem_append] at h2
        rcases h2 with h2 | h2
        · rcases before_or h2 h1 (by simp) with ⟨a, b, e, hb'⟩ | ⟨a, b, e, hb'⟩
          · cases hc : D.isClosed (x.dests i) with
            | true => exact .inr (.inl rfl)
            | false =>
              left
              rw [(h.heard.vals i a b e).2 hc]
              exact mem_nexts.2 hb'
          · exact absurd hb (h.order_of e hb')
        · have := h.ids.order
          rw [State.line, List.pairwise_append] at this
          exact absurd hb (this.2.2 _ h1 _ h2)
      · exact absurd hb.ret (h.ids.cur _ _ (cur_of_pend h2)).2
      · exact .inr (.inl h2)
    · exact .inr (.inr (.inl h1))
  · exact absurd hr (h.ids.cur _ _ (cur_of_pend h1)).2
  · exact .inr (.inr (.inr h1))

/-- A thread that gets no turn stays idle. -/
theorem run_untouched (hD : D.Contract) (s : Nat → S) (t : Nat) (l : List (Nat × Turn I E)) (h : ∀ a ∈ l, a.1 ≠ t) :
    (run D debug (Crowd.init s) l).pc t = .idle := by
  induction l using Rx.snoc_induction with
  | nil => rfl
  | snoc l a ih =>
    obtain ⟨-, -, hh, -⟩ := (run_inv (debug := debug) hD s l).moves (debug := debug) hD a.1 a.2
    rw [run_snoc, hh.other (fun e => h a (by simp) e.symm)]
    exact ih fun b hb => h b (by simp [hb])

theorem Inv.late_line (h : Inv D s x) {c : Call I E} (hc : c ∈ x.line) (hk : c.op = .subscribe ∨ ∃ v, c.op = .next v) :
    ¬ Late x.trace c.id := by
  rintro ⟨j, t, op, h1, h2, h3⟩
  refine h.ends.lined c hc ?_ j t op h1 h2 h3
  rcases hk with hk | ⟨v, hk⟩ <;> rw [hk] <;> rfl

theorem Inv.late (h : Inv D s x) {i t : Nat} (hi : .call i t .subscribe ∈ x.trace) (hl : Late x.trace i) :
    valuesTo i x.trace = [] ∧ (.ret i ∈ x.trace → D.isClosed (x.dests i) = true) := by
  have no : (⟨i, .subscribe⟩ : Call I E) ∉ x.line := fun hc => h.late_line hc (.inl rfl) hl
  refine ⟨h.heard.none i fun hc => no (by simp [State.line, hc]), fun hr => ?_⟩
  rcases h.kept.kept _ _ _ hi with h1 | h1 | h1
  · exact absurd h1 no
  · exact absurd hr (h.ids.cur _ _ (cur_of_pend h1)).2
  · exact h1

theorem Inv.late_value (h : Inv D s x) {i k : Nat} {v : I} (hk : (k, v) ∈ valuesTo i x.trace) : ¬ Late x.trace k := by
  have hd : (⟨i, .subscribe⟩ : Call I E) ∈ x.done := by
    apply Classical.byContradiction
    intro hd
    rw [h.heard.none i hd] at hk
    cases hk
  obtain ⟨a, b, e⟩ := List.append_of_mem hd
  have := mem_nexts.1 ((h.heard.vals i a b e).1.subset hk)
  exact h.late_line (c := ⟨k, .next v⟩) (by simp [State.line, e, this]) (.inr ⟨v, rfl⟩)

/-- Nobody is inside a call, and nothing waits. -/
structure Settled (x : State S I E) : Prop where
  rest : AtRest x
  empty : x.rest = []
  queue : x.queue = []

theorem Settled.done {c : Call I E} (h : Settled x) (hc : c ∈ x.line) : c ∈ x.done := by
  simpa [State.line, h.empty, h.queue] using hc

theorem Settled.armed {u : Nat} {c : Call I E} (h : Settled x) (hc : (x.pc u).armed = some c) : False := by
  rw [isIdle_eq (h.rest u)] at hc; cases hc

theorem Settled.pend {u : Nat} {c : Call I E} (h : Settled x) (hc : (x.pc u).pend = some c) : False := by
  rw [isIdle_eq (h.rest u)] at hc; cases hc

theorem Inv.ends_all (h : Inv D s x) (hs : Settled x)
    (hback : ∀ k u n, .call k u n ∈ x.trace → .ret k ∈ x.trace ∨ (x.pc u).cur = some ⟨k, n⟩)
    (he : Ending x.trace) {i t : Nat} (hi : .call i t .subscribe ∈ x.trace) (hu : Undisturbed x.trace i) :
    D.isClosed (x.dests i) = true := by
  obtain ⟨j, u, op, h1, h2⟩ := he
  have hr : .ret j ∈ x.trace := (hback j u op h1).resolve_right fun e => by rw [isIdle_eq (hs.rest u)] at e; cases e
  rcases h.ends.why (h.ends.retd j u op h1 h2 hr) with ⟨c, h3, h4⟩ | ⟨v, c, h3, -⟩
  · have h3 := hs.done h3
    rcases h.kept.kept _ _ _ hi with h5 | h5 | h5
    · have h6 := hs.done h5
      obtain ⟨w, hw⟩ := h.ids.line c (by simp [State.line, h3])
      rcases before_or h6 h3 (by rintro rfl; cases h4) with ⟨a, b, e, hb⟩ | ⟨a, b, e, hb⟩
      · exact h.heard.closing i a b e c hb h4
      · rcases hu _ _ _ hw h4 with h7 | h7
        · exact absurd h7 (h.order_of e hb)
        · exact absurd ⟨_, _, _, hw, h4, h7⟩ (h.late_line h5 (.inl rfl))
    · exact (hs.pend h5).elim
    · exact h5
  · exact (hs.armed h3).elim

theorem Inv.cancels_all (h : Inv D s x) (hs : Settled x)
    (hback : ∀ k u n, .call k u n ∈ x.trace → .ret k ∈ x.trace ∨ (x.pc u).cur = some ⟨k, n⟩)
    {i j t u : Nat} (hi : .call i t .subscribe ∈ x.trace) (hj : .call j u (.cancel i) ∈ x.trace)
    (hu : Undisturbed x.trace i) : D.isClosed (x.dests i) = true := by
  rcases Classical.em (Ending x.trace) with he | he
  · exact h.ends_all hs hback he hi hu
  · rcases h.kept.kept _ _ _ hj with h1 | h1 | h1
    · rcases h.kept.kept _ _ _ hi with h2 | h2 | h2
      · rcases before_or (hs.done h2) (hs.done h1) (by simp) with ⟨a, b, e, hb⟩ | ⟨a, b, e, hb⟩
        · exact h.heard.cancel i a b e _ hb rfl
        · exact absurd (h.ends.cancels j u i hj).1 (h.order_of e hb)
      · exact (hs.pend h2).elim
      · exact h2
    · exact (hs.pend h1).elim
    · rcases h1 with h1 | ⟨h1, -⟩
      · exact h1
      · obtain ⟨a, b, e, -, j, t, op, h2, h3⟩ := h1
        exact absurd ⟨j, t, op, by rw [e]; exact List.mem_append_left _ h2, h3⟩ he

theorem AtRest.settled {l : List (Nat × Turn I E)} (h : AtRest (run D debug (Crowd.init s) l)) (hD : D.Contract)
    (hq : (run D debug (Crowd.init s) l).queue = []) : Settled (run D debug (Crowd.init s) l) :=
  ⟨h, (h.at (run_inv hD s l).locks (h.sound hD) 0).rest, hq⟩

/-- Any call but `unsubscribe` of a subscription, and the drop of a clone, empties the queue. -/
theorem AtRest.recovers {l : List (Nat × Turn I E)} (h : AtRest (run D debug (Crowd.init s) l)) (hD : D.Contract) (t : Nat)
    (a : Turn I E) (ha : a = .drop ∨ ∃ n, a = .call n) : ∃ m,
    AtRest (run D debug (Crowd.init s) (l ++ (t, a) :: List.replicate m (t, .go))) ∧
    ((run D debug (Crowd.init s) (l ++ (t, a) :: List.replicate m (t, .go))).queue = [] ∨ ∃ k, a = .call (.cancel k)) := by
  obtain ⟨y, q, ⟨m, hm⟩, h1, h2⟩ := h.flush (D := D) (debug := debug) (run_inv hD s l).locks (h.sound hD) t a ha
  have e : run D debug (Crowd.init s) (l ++ (t, a) :: List.replicate m (t, .go)) = y := by
    rw [run_append, hm]
    rfl
  refine ⟨m, ?_⟩
  rw [e]
  refine ⟨fun u => ?_, h2.imp (fun e => by rw [h1.queue, e]) fun e => e⟩
  by_cases eu : u = t
  · subst eu; rw [h1.pc]; rfl
  · exact h1.others u eu

theorem give_of_mem_givesTo {b : List (Mark I E)} {i : Nat} {n} (h : n ∈ givesTo i b) : ∃ k, .give k i n ∈ b := by
  unfold givesTo at h
  rw [List.mem_filterMap] at h
  obtain ⟨m, h1, h2⟩ := h
  split at h2
  · split at h2
    · rename_i e
      subst e
      cases h2
      exact ⟨_, h1⟩
    · cases h2
  · cases h2

end

end Rx.Crowd
