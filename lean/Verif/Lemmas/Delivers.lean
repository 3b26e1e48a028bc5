import Verif.Lemmas.PipelineLaws
import Verif.Spec.Operators

/-!
# Tools for proving that an operator delivers what its specification says
-/

namespace Rx

variable {I E O F S α : Type}

/-- `P` delivers `spec`: over every lawful destination `D` in every state, feeding the operator a
history has the same effect on the destination - as far as can be observed, including whether it is
closed - as feeding the destination the specified history; and the operator's own `is_closed()`
agrees with it. `needsEc` says that the destination must close on error. -/
def Delivers (P : OpImpl I E O F) (needsEc : Bool) (spec : Hist I E → Hist O F) : Prop :=
  ∀ (S α : Type) (D : Sub S O F) (obs : S → α) (Inv : S → Prop) (ec : Bool), Lawful D obs Inv ec →
    (needsEc = true → ec = true) → ∀ s, Inv s → ∀ h : Hist I E,
    obs ((P.sub D).run (P.init D s) h.notes).2 = obs (D.run s (spec h).notes) ∧
    (P.sub D).isClosed ((P.sub D).run (P.init D s) h.notes) = D.isClosed (D.run s (spec h).notes)

namespace Sub

def nexts (D : Sub S I E) (s : S) (vs : List I) : S := vs.foldl D.next s

def term (D : Sub S I E) (s : S) : Option (Term E) → S
  | none => s
  | some (.error e) => D.error s e
  | some .complete => D.complete s

def unsubIf (D : Sub S I E) (s : S) (b : Bool) : S := if b then D.unsubscribe s else s

theorem run_notes (D : Sub S I E) (s : S) (h : Hist I E) :
    D.run s h.notes = D.unsubIf (D.term (D.nexts s h.vals) h.term) h.unsub := by
  obtain ⟨vals, t, u⟩ := h
  have : ∀ (vs : List I) s, List.foldl D.push s (vs.map .next) = D.nexts s vs := by
    intro vs
    induction vs with
    | nil => intro s; rfl
    | cons v vs ih => intro s; exact ih _
  simp only [run, Hist.notes, List.foldl_append, this]
  cases t with
  | none => cases u <;> rfl
  | some t => cases t <;> cases u <;> rfl

@[simp] theorem nexts_nil (D : Sub S I E) (s : S) : D.nexts s [] = s := rfl
@[simp] theorem nexts_cons (D : Sub S I E) (s : S) (v : I) (vs) :
    D.nexts s (v :: vs) = D.nexts (D.next s v) vs := rfl
theorem nexts_append (D : Sub S I E) (s : S) (vs ws : List I) :
    D.nexts s (vs ++ ws) = D.nexts (D.nexts s vs) ws := by simp [nexts]

theorem path_nexts (D : Sub S I E) (s : S) (vs : List I) : Path D s [] (D.nexts s vs) := by
  have : ∀ (vs : List I) t, Path D s [] t → Path D s [] (D.nexts t vs) := by
    intro vs
    induction vs with
    | nil => intro t h; exact h
    | cons v vs ih => intro t h; exact ih _ h.next
  exact this vs s .refl

theorem path_run (D : Sub S I E) (s : S) (ns : List (SubscriberNotification I E)) :
    Path D s [] (D.run s ns) := by
  have : ∀ (ns : List (SubscriberNotification I E)) t, Path D s [] t → Path D s [] (D.run t ns) := by
    intro ns
    induction ns with
    | nil => intro t h; exact h
    | cons v vs ih => intro t h; exact ih _ (h.push v)
  exact this ns s .refl

theorem path_term (D : Sub S I E) (s : S) (t : Option (Term E)) : Path D s [] (D.term s t) := by
  rcases t with _ | (e | _)
  · exact .refl
  · exact .error .refl
  · exact .complete .refl

theorem path_unsubIf (D : Sub S I E) (s : S) (b : Bool) : Path D s [] (D.unsubIf s b) := by
  cases b
  · exact .refl
  · exact .unsubscribe .refl

end Sub

/-- Induction from the end of a list. -/
theorem snoc_induction {motive : List α → Prop} (nil : motive [])
    (snoc : ∀ vs v, motive vs → motive (vs ++ [v])) (vs : List α) : motive vs := by
  rw [← vs.reverse_reverse]
  induction vs.reverse with
  | nil => exact nil
  | cons v vs ih => rw [List.reverse_cons]; exact snoc _ _ ih

/-- State after values, from what one more value does. -/
theorem nexts_of_step {P : OpImpl I E O F} (D : Sub S O F) (s : S) (st : List I → P.St)
    (out : List I → List O) (step : List I → I → List O)
    (h0 : P.init D s = (st [], D.nexts s (out [])))
    (hstep : ∀ vs v (s : S), (P.sub D).next (st vs, s) v = (st (vs ++ [v]), D.nexts s (step vs v)))
    (hout : ∀ vs v, out (vs ++ [v]) = out vs ++ step vs v) (vs : List I) :
    (P.sub D).nexts (P.init D s) vs = (st vs, D.nexts s (out vs)) := by
  induction vs using snoc_induction with
  | nil => exact h0
  | snoc vs v ih =>
    rw [Sub.nexts_append, ih, hout, Sub.nexts_append]
    exact hstep vs v _

/-- An operator that delegates `unsubscribe`/`is_closed` and never closes early. `st vs` is its
state after the values `vs`, `step vs v` what it emits for one more, `extra vs t` what it emits on
the terminal signal. -/
theorem Delivers.ofStep {P : OpImpl I E O F} {needsEc : Bool} {spec : Hist I E → Hist O F}
    (st : List I → P.St) (out : List I → List O) (step : List I → I → List O)
    (extra : List I → Term E → List O) (endT : Term E → Option (Term F))
    (h0 : ∀ {S : Type} (D : Sub S O F) s, P.init D s = (st [], D.nexts s (out [])))
    (hstep : ∀ {S : Type} (D : Sub S O F) vs v s,
      (P.sub D).next (st vs, s) v = (st (vs ++ [v]), D.nexts s (step vs v)))
    (hout : ∀ vs v, out (vs ++ [v]) = out vs ++ step vs v)
    (herr : ∀ {S : Type} (D : Sub S O F) vs s e,
      ((P.sub D).error (st vs, s) e).2 = D.term (D.nexts s (extra vs (.error e))) (endT (.error e)))
    (hcomp : ∀ {S : Type} (D : Sub S O F) vs s,
      ((P.sub D).complete (st vs, s)).2 = D.term (D.nexts s (extra vs .complete)) (endT .complete))
    (hunsub : ∀ {S : Type} (D : Sub S O F) (x : P.St × S),
      ((P.sub D).unsubscribe x).2 = D.unsubscribe x.2)
    (hc : ∀ {S : Type} (D : Sub S O F) (x : P.St × S), (P.sub D).isClosed x = D.isClosed x.2)
    (hspec : ∀ h, spec h = ⟨out h.vals ++ (match h.term with | some t => extra h.vals t | none => []),
      h.term.bind endT, h.unsub⟩) :
    Delivers P needsEc spec := by
  intro S α D obs Inv ec hD _ s hs h
  have key : ((P.sub D).run (P.init D s) h.notes).2 = D.run s (spec h).notes := by
    rw [hspec, Sub.run_notes, Sub.run_notes, nexts_of_step D s st out step (h0 D s) (hstep D) hout,
      Sub.nexts_append]
    have hu : ∀ (x : P.St × S) (b : Bool), ((P.sub D).unsubIf x b).2 = D.unsubIf x.2 b := by
      intro x b; cases b
      · rfl
      · exact hunsub D x
    rw [hu]
    congr 1
    rcases h.term with _ | (e | _)
    · rfl
    · exact herr D _ _ _
    · exact hcomp D _ _
  exact ⟨by rw [key], by rw [hc, key]⟩

/-- Once operator and destination are closed with the same observable state, nothing more happens
on either side. -/
theorem settled {P : OpImpl I E O F} {m : OpMeta P.St} (hP : P.Good m) {D : Sub S O F}
    {obs : S → α} {Inv : S → Prop} {ec : Bool} (hD : Lawful D obs Inv ec) (hr : m.req ec = true)
    {s : S} (hs : Inv s) {x : P.St × S} {ns} (hx : x = (P.sub D).run (P.init D s) ns)
    {t : S} {ms} (ht : t = D.run s ms) (hcx : D.isClosed x.2 = true) (hct : D.isClosed t = true)
    (hobs : obs x.2 = obs t) (ns' : List (SubscriberNotification I E))
    (ms' : List (SubscriberNotification O F)) :
    obs ((P.sub D).run x ns').2 = obs (D.run t ms') ∧
    (P.sub D).isClosed ((P.sub D).run x ns') = D.isClosed (D.run t ms') := by
  have hL := hP.lawful D obs Inv ec hD hr
  have hi : Inv (P.init D s).2 ∧ (m.latched (P.init D s).1 = true → D.isClosed (P.init D s).2 = true) := by
    obtain ⟨ts, _, hp⟩ := hP.pathInit D s
    exact ⟨hD.path_inv hp hs, hP.initLatch D obs Inv ec hD hr s hs⟩
  have hxi := hL.path_inv (hx ▸ Sub.path_run (P.sub D) (P.init D s) ns) hi
  have hti := hD.path_inv (ht ▸ Sub.path_run D s ms) hs
  have hxc : (P.sub D).isClosed x = true := by rw [hP.closed D x hxi.2]; exact hcx
  have p1 := Sub.path_run (P.sub D) x ns'
  have p2 := Sub.path_run D t ms'
  refine ⟨?_, ?_⟩
  · rw [hD.path_frozen p2 hti hct]
    exact (hL.path_frozen p1 hxi hxc).trans hobs
  · rw [hD.path_mono p2 hti hct]
    exact hL.path_mono p1 hxi hxc

/-- Notifications after the first `n` values. -/
def Hist.notesFrom (h : Hist I E) (n : Nat) : List (SubscriberNotification I E) :=
  Hist.notes ⟨h.vals.drop n, h.term, h.unsub⟩

theorem Sub.run_split (D : Sub S I E) (s : S) (h : Hist I E) (n : Nat) :
    D.run s h.notes = D.run (D.nexts s (h.vals.take n)) (h.notesFrom n) := by
  rw [Hist.notesFrom, Sub.run_notes, Sub.run_notes, ← Sub.nexts_append, List.take_append_drop]

theorem Sub.run_vals (D : Sub S I E) (s : S) (vs : List I) :
    D.run s (Hist.notes ⟨vs, none, false⟩) = D.nexts s vs := by
  rw [Sub.run_notes]; rfl

theorem Sub.run_term (D : Sub S I E) (s : S) (vs : List I) (t : Option (Term E)) (u : Bool) :
    D.run s (Hist.notes ⟨vs, t, u⟩) =
      D.run (D.term (D.nexts s vs) t) (if u then [.unsubscribe] else []) := by
  rw [Sub.run_notes]; cases u <;> rfl

theorem Sub.run_nil_term (D : Sub S I E) (s : S) (vs : List I) (t : Option (Term E)) :
    D.run s (Hist.notes ⟨vs, t, false⟩) = D.term (D.nexts s vs) t := by
  rw [Sub.run_notes]; rfl

/-- The operator closes its destination after `n` of the values. -/
theorem Delivers.cut {P : OpImpl I E O F} {m : OpMeta P.St} (hP : P.Good m) {D : Sub S O F}
    {obs : S → α} {Inv : S → Prop} {ec : Bool} (hD : Lawful D obs Inv ec) (hr : m.req ec = true)
    {s : S} (hs : Inv s) (h : Hist I E) (n : Nat) (out : List O) (t : Term F)
    (hcx : D.isClosed ((P.sub D).nexts (P.init D s) (h.vals.take n)).2 = true)
    (hct : D.isClosed (D.term (D.nexts s out) (some t)) = true)
    (hobs : obs ((P.sub D).nexts (P.init D s) (h.vals.take n)).2 =
      obs (D.term (D.nexts s out) (some t))) :
    obs ((P.sub D).run (P.init D s) h.notes).2 = obs (D.run s (Hist.notes ⟨out, some t, h.unsub⟩)) ∧
    (P.sub D).isClosed ((P.sub D).run (P.init D s) h.notes) =
      D.isClosed (D.run s (Hist.notes ⟨out, some t, h.unsub⟩)) := by
  rw [Sub.run_split _ _ h n, Sub.run_term]
  exact settled hP hD hr hs (ns := Hist.notes ⟨h.vals.take n, none, false⟩)
    (ms := Hist.notes ⟨out, some t, false⟩) (by rw [Sub.run_vals]) (by rw [Sub.run_nil_term])
    hcx hct hobs _ _

/-- The operator closes its destination on the terminal signal. -/
theorem Delivers.atTerm {P : OpImpl I E O F} {m : OpMeta P.St} (hP : P.Good m) {D : Sub S O F}
    {obs : S → α} {Inv : S → Prop} {ec : Bool} (hD : Lawful D obs Inv ec) (hr : m.req ec = true)
    {s : S} (hs : Inv s) (vals : List I) (t : Term E) (u : Bool) (out : List O) (t' : Term F)
    (hcx : D.isClosed ((P.sub D).term ((P.sub D).nexts (P.init D s) vals) (some t)).2 = true)
    (hct : D.isClosed (D.term (D.nexts s out) (some t')) = true)
    (hobs : obs ((P.sub D).term ((P.sub D).nexts (P.init D s) vals) (some t)).2 =
      obs (D.term (D.nexts s out) (some t'))) :
    obs ((P.sub D).run (P.init D s) (Hist.notes ⟨vals, some t, u⟩)).2 =
      obs (D.run s (Hist.notes ⟨out, some t', u⟩)) ∧
    (P.sub D).isClosed ((P.sub D).run (P.init D s) (Hist.notes ⟨vals, some t, u⟩)) =
      D.isClosed (D.run s (Hist.notes ⟨out, some t', u⟩)) := by
  rw [Sub.run_term, Sub.run_term]
  exact settled hP hD hr hs (ns := Hist.notes ⟨vals, some t, false⟩)
    (ms := Hist.notes ⟨out, some t', false⟩) (by rw [Sub.run_nil_term]) (by rw [Sub.run_nil_term])
    hcx hct hobs _ _

/-- Only values: the operator has not done anything but forward some. -/
theorem Delivers.openEnd {P : OpImpl I E O F} {m : OpMeta P.St} (hP : P.Good m) {D : Sub S O F}
    {obs : S → α} {Inv : S → Prop} {ec : Bool} (hD : Lawful D obs Inv ec) (hr : m.req ec = true)
    {s : S} (hs : Inv s) (vals : List I) (u : Bool) (out : List O)
    (hx : ((P.sub D).nexts (P.init D s) vals).2 = D.nexts s out)
    (hu : ∀ st, (m.latched st = true → D.isClosed (D.nexts s out) = true) →
      obs ((P.sub D).unsubscribe (st, D.nexts s out)).2 = obs (D.unsubscribe (D.nexts s out)) ∧
      D.isClosed ((P.sub D).unsubscribe (st, D.nexts s out)).2 = true) :
    obs ((P.sub D).run (P.init D s) (Hist.notes ⟨vals, none, u⟩)).2 =
      obs (D.run s (Hist.notes ⟨out, none, u⟩)) ∧
    (P.sub D).isClosed ((P.sub D).run (P.init D s) (Hist.notes ⟨vals, none, u⟩)) =
      D.isClosed (D.run s (Hist.notes ⟨out, none, u⟩)) := by
  have hL := hP.lawful D obs Inv ec hD hr
  have hi : Inv (P.init D s).2 ∧ (m.latched (P.init D s).1 = true → D.isClosed (P.init D s).2 = true) := by
    obtain ⟨ts, _, hp⟩ := hP.pathInit D s
    exact ⟨hD.path_inv hp hs, hP.initLatch D obs Inv ec hD hr s hs⟩
  have hxi := hL.path_inv (Sub.path_nexts (P.sub D) (P.init D s) vals) hi
  have hsi := hD.path_inv (Sub.path_nexts D s out) hs
  rw [Sub.run_notes, Sub.run_notes]
  simp only [Sub.term]
  generalize (P.sub D).nexts (P.init D s) vals = x at hx hxi ⊢
  obtain ⟨st, y⟩ := x
  simp only at hx hxi
  subst hx
  cases u with
  | false => exact ⟨rfl, hP.closed D _ hxi.2⟩
  | true =>
    obtain ⟨h1, h2⟩ := hu st hxi.2
    refine ⟨h1, ?_⟩
    simp only [Sub.unsubIf, if_true]
    rw [hL.unsubscribeCloses _ hxi, hD.unsubscribeCloses _ hsi]

end Rx
