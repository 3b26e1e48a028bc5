import Verif.Lemmas.Lawful
import Verif.Model.Pipeline

/-!
# Every operator preserves the subscriber contract
-/

namespace Rx

/-- Bookkeeping about an operator implementation. -/
structure OpMeta (St : Type) where
  /-- which destinations it needs: `req ec` -/
  req : Bool → Bool := fun _ => true
  /-- whether its subscriber closes on error, given whether the destination does -/
  gives : Bool → Bool := id
  /-- operator states in which the operator has closed its destination -/
  latched : St → Bool := fun _ => false
  /-- no user closure gets to see the subscriber -/
  quiet : Bool := true
  /-- teardowns added while subscribing -/
  itds : List Nat := []

/-- An operator implementation behaves: it acts on the destination by calls only, and preserves the
contract. -/
structure OpImpl.Good {I E O F : Type} (P : OpImpl I E O F) (m : OpMeta P.St) : Prop where
  path : ∀ {S : Type} (D : Sub S O F) (x : P.St × S) (c : Call I E),
    ∃ ts, (m.quiet = true → ts = c.tds) ∧ Path D x.2 ts ((P.sub D).call x c).2
  pathInit : ∀ {S : Type} (D : Sub S O F) (s : S),
    ∃ ts, (m.quiet = true → ts = m.itds) ∧ Path D s ts (P.init D s).2
  lawful : ∀ {S α : Type} (D : Sub S O F) (obs : S → α) (Inv : S → Prop) (ec : Bool),
    Lawful D obs Inv ec → m.req ec = true →
    Lawful (P.sub D) (fun x => obs x.2)
      (fun x => Inv x.2 ∧ (m.latched x.1 = true → D.isClosed x.2 = true)) (m.gives ec)
  initLatch : ∀ {S α : Type} (D : Sub S O F) (obs : S → α) (Inv : S → Prop) (ec : Bool),
    Lawful D obs Inv ec → m.req ec = true → ∀ s, Inv s →
    m.latched (P.init D s).1 = true → D.isClosed (P.init D s).2 = true
  closed : ∀ {S : Type} (D : Sub S O F) (x : P.St × S),
    (m.latched x.1 = true → D.isClosed x.2 = true) → (P.sub D).isClosed x = D.isClosed x.2
  add : ∀ {S : Type} (D : Sub S O F) (x : P.St × S) (t : Teardown),
    (P.sub D).addTeardown x t = (x.1, D.addTeardown x.2 t)

/-- proves a `Path` -/
macro "mk_path" : tactic => `(tactic|
  repeat (first
    | exact Path.refl
    | apply Path.next
    | apply Path.error
    | apply Path.complete
    | apply Path.unsubscribe
    | exact Path.addTeardown _ Path.refl))

/-- splits a goal about an operator's step into its branches -/
macro "splits" : tactic => `(tactic| repeat' split)

variable {I E O F : Type}

/-- The `path` and `lawful` obligations of an operator whose subscriber is built by `mkSub`. -/
theorem Good.ofMkSub {P : OpImpl I E O F} {m : OpMeta P.St}
    (nx : ∀ {S : Type}, Sub S O F → P.St × S → I → P.St × S)
    (er : ∀ {S : Type}, Sub S O F → P.St × S → E → P.St × S)
    (co : ∀ {S : Type}, Sub S O F → P.St × S → P.St × S)
    (hsub : ∀ {S : Type} (D : Sub S O F), P.sub D = mkSub D (nx D) (er D) (co D))
    (hn : ∀ {S : Type} (D : Sub S O F) x v,
      ∃ ts, (m.quiet = true → ts = []) ∧ Path D x.2 ts (nx D x v).2)
    (he : ∀ {S : Type} (D : Sub S O F) x e, Path D x.2 [] (er D x e).2)
    (hc : ∀ {S : Type} (D : Sub S O F) x, Path D x.2 [] (co D x).2)
    (hi : ∀ {S : Type} (D : Sub S O F) s,
      ∃ ts, (m.quiet = true → ts = m.itds) ∧ Path D s ts (P.init D s).2)
    (hlatch : ∀ {S α : Type} (D : Sub S O F) (obs : S → α) (Inv : S → Prop) (ec : Bool),
      Lawful D obs Inv ec → m.req ec = true → ∀ st s, Inv s →
      (m.latched st = true → D.isClosed s = true) →
      (∀ v, m.latched (nx D (st, s) v).1 = true → D.isClosed (nx D (st, s) v).2 = true) ∧
      (∀ e, m.latched (er D (st, s) e).1 = true → D.isClosed (er D (st, s) e).2 = true) ∧
      D.isClosed (co D (st, s)).2 = true ∧
      (m.gives ec = true → ∀ e, D.isClosed (er D (st, s) e).2 = true))
    (hil : ∀ {S : Type} (D : Sub S O F) s, m.latched (P.init D s).1 = false) :
    P.Good m := by
  have hp : ∀ {S : Type} (D : Sub S O F) (x : P.St × S) (c : Call I E),
      ∃ ts, (m.quiet = true → ts = c.tds) ∧ Path D x.2 ts ((P.sub D).call x c).2 := by
    intro S D x c
    rw [hsub]
    cases c with
    | note n => cases n with
      | next v => exact hn D x v
      | error e => exact ⟨_, fun _ => rfl, he D x e⟩
      | complete => exact ⟨_, fun _ => rfl, hc D x⟩
      | unsubscribe => exact ⟨_, fun _ => rfl, .unsubscribe .refl⟩
    | addTeardown t => exact ⟨_, fun _ => rfl, .addTeardown t .refl⟩
  refine ⟨hp, hi, ?_, ?_, ?_, ?_⟩
  · intro S α D obs Inv ec hD hr
    refine hD.lift m.latched (fun _ => false) (fun x c => (hp D x c).imp fun _ h => h.2) ?_ ?_ ?_ ?_
      ?_ ?_ ?_
    · intro st s; rw [hsub]; rfl
    · intro st h; cases h
    · intro st s t; rw [hsub]; rfl
    · intro st s n hs hl
      obtain ⟨h1, h2, h3, h4⟩ := hlatch D obs Inv ec hD hr st s hs hl
      rw [hsub]
      cases n with
      | next v => exact h1 v
      | error e => exact h2 e
      | complete => exact fun _ => h3
      | unsubscribe => exact fun _ => hD.unsubscribeCloses s hs
    · intro st s hs hl
      rw [hsub]; exact (hlatch D obs Inv ec hD hr st s hs hl).2.2.1
    · intro st s hs hl
      rw [hsub]; exact hD.unsubscribeCloses s hs
    · intro hg st s e hs hl
      rw [hsub]; exact (hlatch D obs Inv ec hD hr st s hs hl).2.2.2 hg e
  · intro S α D obs Inv ec hD hr s hs h
    rw [hil] at h; cases h
  · intro S D x _; rw [hsub]; rfl
  · intro S D x t; rw [hsub]; rfl

/-- Operators with the default bookkeeping. -/
macro "good_simple" : tactic => `(tactic|
  (refine Good.ofMkSub _ _ _ (fun D => rfl) ?_ ?_ ?_ ?_ ?_ ?_
   · intro S D x v; refine ⟨_, fun _ => rfl, ?_⟩; try splits
     all_goals mk_path
   · intro S D x e; try splits
     all_goals mk_path
   · intro S D x; try splits
     all_goals mk_path
   · intro S D s; exact ⟨_, fun _ => rfl, by mk_path⟩
   · intro S α D obs Inv ec hD hr st s hs hl
     refine ⟨fun v h => ?_, fun e h => ?_, ?_, fun hg e => ?_⟩
     · cases h
     · cases h
     · first
         | exact hD.completeCloses _ hs
         | exact hD.completeCloses _ (hD.path_inv (by mk_path) hs)
         | (splits <;> exact hD.completeCloses _ (hD.path_inv (by mk_path) hs))
     · exact hD.errorCloses hg _ _ hs
   · intro S D s; rfl))

theorem mapOp_good (f : I → O) : (mapOp (E := E) f).Good {} := by good_simple
theorem mapIntoOp_good (f : I → O) (g : E → F) : (mapIntoOp f g).Good {} := by good_simple
theorem filterOp_good (p : I → Nat → Bool) : (filterOp (E := E) p).Good {} := by good_simple
theorem liftOptionOp_good : (liftOptionOp (I := I) (E := E)).Good {} := by good_simple
theorem tapNextOp_good {σ : Type} (f : σ → I → σ) (c : σ) : (tapNextOp (E := E) f c).Good {} := by
  good_simple
theorem identityOp_good : (identityOp (I := I) (E := E)).Good {} := by good_simple
theorem skipOp_good (n : Nat) : (skipOp (I := I) (E := E) n).Good {} := by good_simple
theorem scanOp_good (f : O → I → O) (c : O) : (scanOp (E := E) f c).Good {} := by good_simple
theorem reduceOp_good (f : O → I → O) (c : O) : (reduceOp (E := E) f c).Good {} := by good_simple
theorem countOp_good : (countOp (I := I) (E := E)).Good {} := by good_simple
theorem enumerateOp_good : (enumerateOp (I := I) (E := E)).Good {} := by good_simple
theorem pairwiseOp_good : (pairwiseOp (I := I) (E := E)).Good {} := by good_simple
theorem tapOp_good (v : ObsState I E) : (tapOp v).Good {} := by good_simple
theorem startWithOp_good (v : I) : (startWithOp (E := E) v).Good {} := by good_simple

theorem bufferCountOp_good (n : Nat) : (bufferCountOp (I := I) (E := E) n).Good {} := by
  refine Good.ofMkSub _ _ _ (fun D => rfl) ?_ ?_ ?_ ?_ ?_ ?_
  · rintro S D ⟨st, s⟩ v
    refine ⟨_, fun _ => rfl, ?_⟩
    by_cases h : ((st.getD [] ++ [v]).length == n) = true
    · simp only [h, if_true]; mk_path
    · simp only [h, if_false]; mk_path
  · rintro S D ⟨st, s⟩ e; mk_path
  · rintro S D ⟨_ | b, s⟩ <;> mk_path
  · intro S D s; exact ⟨_, fun _ => rfl, .refl⟩
  · intro S α D obs Inv ec hD hr st s hs hl
    refine ⟨fun v h => (by cases h), fun e h => (by cases h), ?_, fun hg e => hD.errorCloses hg _ _ hs⟩
    cases st with
    | none => exact hD.completeCloses _ hs
    | some b => exact hD.completeCloses _ (hD.path_inv (ts := []) (by mk_path) hs)
  · intro S D s; rfl

theorem endWithOp_good (v : I) : (endWithOp (E := E) v).Good {} := by
  refine Good.ofMkSub _ _ _ (fun D => rfl) ?_ ?_ ?_ ?_ ?_ ?_
  · rintro S D ⟨st, s⟩ v
    exact ⟨_, fun _ => rfl, by mk_path⟩
  · rintro S D ⟨st, s⟩ e; mk_path
  · rintro S D ⟨_ | b, s⟩ <;> mk_path
  · intro S D s; exact ⟨_, fun _ => rfl, .refl⟩
  · intro S α D obs Inv ec hD hr st s hs hl
    refine ⟨fun v h => (by cases h), fun e h => (by cases h), ?_, fun hg e => hD.errorCloses hg _ _ hs⟩
    cases st with
    | none => exact hD.completeCloses _ hs
    | some b => exact hD.completeCloses _ (hD.path_inv (ts := []) (by mk_path) hs)
  · intro S D s; rfl

theorem mapErrorOp_good (f : E → F) :
    (mapErrorOp (I := I) f).Good { req := id, latched := fun st => st.isNone } := by
  refine Good.ofMkSub _ _ _ (fun D => rfl) ?_ ?_ ?_ ?_ ?_ ?_
  · rintro S D ⟨st, s⟩ v
    exact ⟨_, fun _ => rfl, by mk_path⟩
  · rintro S D ⟨st, s⟩ e
    cases hc : D.isClosed s <;> cases st <;> simp only [hc] <;> mk_path
  · rintro S D ⟨st, s⟩; mk_path
  · intro S D s; exact ⟨_, fun _ => rfl, .refl⟩
  · intro S α D obs Inv ec hD hr st s hs hl
    refine ⟨fun v h => hD.mono s (.note (.next v)) hs (hl h), fun e h => ?_, hD.completeCloses _ hs,
      fun hg e => ?_⟩
    · cases hc : D.isClosed s with
      | true => simp [hc]
      | false => cases st with
        | none => rw [hl rfl] at hc; cases hc
        | some g => simpa [hc] using hD.errorCloses hr _ _ hs
    · cases hc : D.isClosed s with
      | true => simp [hc]
      | false => cases st with
        | none => rw [hl rfl] at hc; cases hc
        | some g => simpa [hc] using hD.errorCloses hr _ _ hs
  · intro S D s; rfl

theorem mapNeverErrorOp_good : (mapNeverErrorOp (I := I) F).Good {} := by
  refine Good.ofMkSub _ _ _ (fun D => rfl) ?_ ?_ ?_ ?_ ?_ ?_
  · rintro S D ⟨st, s⟩ v
    exact ⟨_, fun _ => rfl, by mk_path⟩
  · rintro S D ⟨st, s⟩ ⟨⟩
  · rintro S D ⟨st, s⟩; mk_path
  · intro S D s; exact ⟨_, fun _ => rfl, .refl⟩
  · intro S α D obs Inv ec hD hr st s hs hl
    exact ⟨fun v h => (by cases h), fun e h => (by cases h), hD.completeCloses _ hs, fun _ e => nomatch e⟩
  · intro S D s; rfl

theorem mapNeverNextOp_good : (mapNeverNextOp (E := E) O).Good {} := by
  refine Good.ofMkSub _ _ _ (fun D => rfl) ?_ ?_ ?_ ?_ ?_ ?_
  · rintro S D ⟨st, s⟩ ⟨⟩
  · rintro S D ⟨st, s⟩ e; mk_path
  · rintro S D ⟨st, s⟩; mk_path
  · intro S D s; exact ⟨_, fun _ => rfl, .refl⟩
  · intro S α D obs Inv ec hD hr st s hs hl
    exact ⟨fun v h => (by cases h), fun e h => (by cases h), hD.completeCloses _ hs,
      fun hg e => hD.errorCloses hg _ _ hs⟩
  · intro S D s; rfl

theorem mapNeverBothOp_good : (mapNeverBothOp O F).Good {} := by
  refine Good.ofMkSub _ _ _ (fun D => rfl) ?_ ?_ ?_ ?_ ?_ ?_
  · rintro S D ⟨st, s⟩ ⟨⟩
  · rintro S D ⟨st, s⟩ ⟨⟩
  · rintro S D ⟨st, s⟩; mk_path
  · intro S D s; exact ⟨_, fun _ => rfl, .refl⟩
  · intro S α D obs Inv ec hD hr st s hs hl
    exact ⟨fun v h => (by cases h), fun e h => (by cases h), hD.completeCloses _ hs, fun _ e => nomatch e⟩
  · intro S D s; rfl

theorem filterMapOp_good (f : I → Option O) : (filterMapOp (E := E) f).Good {} := by
  refine Good.ofMkSub (P := filterMapOp (E := E) f)
    (fun D x v => match f v with | some w => (x.1, D.next x.2 w) | none => x)
    (fun D x e => (x.1, D.error x.2 e))
    (fun D x => (x.1, D.complete x.2)) ?_ ?_ ?_ ?_ ?_ ?_ ?_
  · intro S D
    simp only [filterMapOp, compositeOp, Sub.transport, mapOp, liftOptionOp, mkSub]
    congr 1
    funext x v
    cases f v <;> rfl
  · rintro S D ⟨st, s⟩ v
    refine ⟨_, fun _ => rfl, ?_⟩
    cases h : f v <;> simp only [h] <;> mk_path
  · rintro S D ⟨st, s⟩ e; mk_path
  · rintro S D ⟨st, s⟩; mk_path
  · intro S D s; exact ⟨_, fun _ => rfl, .refl⟩
  · intro S α D obs Inv ec hD hr st s hs hl
    exact ⟨fun v h => (by cases h), fun e h => (by cases h), hD.completeCloses _ hs,
      fun hg e => hD.errorCloses hg _ _ hs⟩
  · intro S D s; rfl

theorem onNextOp_good {σ : Type} (f : σ → I → Prog I E (Bool × σ)) (c : σ) :
    (onNextOp f c).Good { quiet := false } := by
  refine Good.ofMkSub _ _ _ (fun D => rfl) ?_ ?_ ?_ ?_ ?_ ?_
  · rintro S D ⟨st, s⟩ v
    obtain ⟨ts, h⟩ := Path.prog (D := D) (f st v) s
    refine ⟨ts, fun h => (by cases h), ?_⟩
    simp only
    split
    · exact .next h
    · exact h
  · rintro S D ⟨st, s⟩ e; mk_path
  · rintro S D ⟨st, s⟩; mk_path
  · intro S D s; exact ⟨_, fun h => (by cases h), .refl⟩
  · intro S α D obs Inv ec hD hr st s hs hl
    exact ⟨fun v h => (by cases h), fun e h => (by cases h), hD.completeCloses _ hs,
      fun hg e => hD.errorCloses hg _ _ hs⟩
  · intro S D s; rfl

theorem firstOp_good : (firstOp (I := I) (E := E)).Good { req := id, latched := id } := by
  refine Good.ofMkSub _ _ _ (fun D => rfl) ?_ ?_ ?_ ?_ ?_ ?_
  · rintro S D ⟨_ | _, s⟩ v
    · exact ⟨_, fun _ => rfl, by mk_path⟩
    · exact ⟨_, fun _ => rfl, .refl⟩
  · rintro S D ⟨st, s⟩ e; mk_path
  · rintro S D ⟨_ | _, s⟩ <;> mk_path
  · intro S D s; exact ⟨_, fun _ => rfl, .refl⟩
  · intro S α D obs Inv ec hD hr st s hs hl
    refine ⟨fun v h => ?_, fun e h => ?_, ?_, fun hg e => hD.errorCloses hg _ _ hs⟩
    · cases st with
      | false => exact hD.completeCloses _ (hD.path_inv (ts := []) (by mk_path) hs)
      | true => exact hl rfl
    · exact hD.errorCloses hr _ _ hs
    · cases st with
      | false => exact hD.errorCloses hr _ _ hs
      | true => exact hl rfl
  · intro S D s; rfl

theorem findOp_good (p : I → Bool) :
    (findOp (E := E) p).Good { req := id, latched := fun st => st.matchObserved } := by
  refine Good.ofMkSub _ _ _ (fun D => rfl) ?_ ?_ ?_ ?_ ?_ ?_
  · rintro S D ⟨⟨nx, mt⟩, s⟩ v
    refine ⟨_, fun _ => rfl, ?_⟩
    cases mt <;> cases h : p v <;> simp [h] <;> mk_path
  · rintro S D ⟨st, s⟩ e; mk_path
  · rintro S D ⟨⟨_ | _, _ | _⟩, s⟩ <;> mk_path
  · intro S D s; exact ⟨_, fun _ => rfl, .refl⟩
  · rintro S α D obs Inv ec hD hr ⟨nx, mt⟩ s hs hl
    refine ⟨fun v h => ?_, fun e h => hD.errorCloses hr _ _ hs, ?_, fun hg e => hD.errorCloses hg _ _ hs⟩
    · cases mt with
      | false =>
        cases hp : p v with
        | false => simp [hp] at h
        | true => simpa [hp] using hD.completeCloses _ (hD.path_inv (ts := []) (by mk_path) hs)
      | true => simpa using hl rfl
    · cases mt with
      | false => cases nx <;> exact hD.errorCloses hr _ _ hs
      | true =>
        cases nx
        · exact hD.errorCloses hr _ _ hs
        · exact hl rfl
  · intro S D s; rfl

theorem findIndexOp_good (p : I → Bool) :
    (findIndexOp (E := E) p).Good { req := id, latched := fun st => st.matchObserved } := by
  refine Good.ofMkSub _ _ _ (fun D => rfl) ?_ ?_ ?_ ?_ ?_ ?_
  · rintro S D ⟨⟨nx, mt⟩, s⟩ v
    refine ⟨_, fun _ => rfl, ?_⟩
    cases mt <;> cases h : p v <;> simp [h] <;> mk_path
  · rintro S D ⟨st, s⟩ e; mk_path
  · rintro S D ⟨⟨_ | _, _ | _⟩, s⟩ <;> mk_path
  · intro S D s; exact ⟨_, fun _ => rfl, .refl⟩
  · rintro S α D obs Inv ec hD hr ⟨nx, mt⟩ s hs hl
    refine ⟨fun v h => ?_, fun e h => hD.errorCloses hr _ _ hs, ?_, fun hg e => hD.errorCloses hg _ _ hs⟩
    · cases mt with
      | false =>
        cases hp : p v with
        | false => simp [hp] at h
        | true => simpa [hp] using hD.completeCloses _ (hD.path_inv (ts := []) (by mk_path) hs)
      | true => simpa using hl rfl
    · cases mt with
      | false => cases nx <;> exact hD.errorCloses hr _ _ hs
      | true =>
        cases nx
        · exact hD.errorCloses hr _ _ hs
        · exact hl rfl
  · intro S D s; rfl

theorem isEmptyOp_good : (isEmptyOp (I := I) (E := E)).Good {} := by
  refine Good.ofMkSub _ _ _ (fun D => rfl) ?_ ?_ ?_ ?_ ?_ ?_
  · rintro S D ⟨st, s⟩ v
    refine ⟨_, fun _ => rfl, ?_⟩
    simp only; split <;> mk_path
  · rintro S D ⟨st, s⟩ e; mk_path
  · rintro S D ⟨st, s⟩
    simp only; split <;> mk_path
  · intro S D s; exact ⟨_, fun _ => rfl, .refl⟩
  · intro S α D obs Inv ec hD hr st s hs hl
    refine ⟨fun v h => (by cases h), fun e h => (by cases h), ?_, fun hg e => hD.errorCloses hg _ _ hs⟩
    cases h : D.isClosed (D.next s true) with
    | true => simp [h]
    | false => simpa [h] using hD.completeCloses _ (hD.path_inv (ts := []) (by mk_path) hs)
  · intro S D s; rfl

theorem finalizeOp_good (cb : Nat) : (finalizeOp (I := I) (E := E) cb).Good { itds := [cb] } := by
  refine Good.ofMkSub _ _ _ (fun D => rfl) ?_ ?_ ?_ ?_ ?_ ?_
  · rintro S D ⟨st, s⟩ v
    exact ⟨_, fun _ => rfl, by mk_path⟩
  · rintro S D ⟨st, s⟩ e; mk_path
  · rintro S D ⟨st, s⟩; mk_path
  · intro S D s; exact ⟨_, fun _ => rfl, .addTeardown (some cb) .refl⟩
  · intro S α D obs Inv ec hD hr st s hs hl
    exact ⟨fun v h => (by cases h), fun e h => (by cases h), hD.completeCloses _ hs,
      fun hg e => hD.errorCloses hg _ _ hs⟩
  · intro S D s; rfl

theorem onSubscribeOp_good (p : Prog I E Unit) : (onSubscribeOp p).Good { quiet := false } := by
  refine Good.ofMkSub _ _ _ (fun D => rfl) ?_ ?_ ?_ ?_ ?_ ?_
  · rintro S D ⟨st, s⟩ v
    exact ⟨_, fun _ => rfl, by mk_path⟩
  · rintro S D ⟨st, s⟩ e; mk_path
  · rintro S D ⟨st, s⟩; mk_path
  · intro S D s
    obtain ⟨ts, h⟩ := Path.prog (D := D) p s
    exact ⟨ts, fun h => (by cases h), h⟩
  · intro S α D obs Inv ec hD hr st s hs hl
    exact ⟨fun v h => (by cases h), fun e h => (by cases h), hD.completeCloses _ hs,
      fun hg e => hD.errorCloses hg _ _ hs⟩
  · intro S D s; rfl

theorem materializeOp_good : (materializeOp (I := I) (E := E)).Good { gives := fun _ => true } := by
  refine Good.ofMkSub _ _ _ (fun D => rfl) ?_ ?_ ?_ ?_ ?_ ?_
  · rintro S D ⟨st, s⟩ v
    exact ⟨_, fun _ => rfl, by mk_path⟩
  · rintro S D ⟨st, s⟩ e; mk_path
  · rintro S D ⟨st, s⟩; mk_path
  · intro S D s; exact ⟨_, fun _ => rfl, .refl⟩
  · intro S α D obs Inv ec hD hr st s hs hl
    exact ⟨fun v h => (by cases h), fun e h => (by cases h),
      hD.completeCloses _ (hD.path_inv (ts := []) (by mk_path) hs),
      fun hg e => hD.completeCloses _ (hD.path_inv (ts := []) (by mk_path) hs)⟩
  · intro S D s; rfl

theorem dematerializeOp_good :
    (dematerializeOp (I := I) (E := E)).Good { req := id } := by
  refine Good.ofMkSub _ _ _ (fun D => rfl) ?_ ?_ ?_ ?_ ?_ ?_
  · rintro S D ⟨st, s⟩ n
    refine ⟨_, fun _ => rfl, ?_⟩
    cases n <;> simp only <;> split <;> mk_path
  · rintro S D ⟨st, s⟩ ⟨⟩
  · rintro S D ⟨st, s⟩
    simp only; split <;> mk_path
  · intro S D s; exact ⟨_, fun _ => rfl, .refl⟩
  · intro S α D obs Inv ec hD hr st s hs hl
    refine ⟨fun v h => (by cases h), fun e h => (by cases h), ?_, fun _ e => nomatch e⟩
    cases h : D.isClosed s with
    | true => simp [h]
    | false => simpa [h] using hD.completeCloses _ hs
  · intro S D s; rfl

theorem intoResultOp_good : (intoResultOp (I := I) (E := E)).Good { gives := fun _ => false } := by
  refine Good.ofMkSub _ _ _ (fun D => rfl) ?_ ?_ ?_ ?_ ?_ ?_
  · rintro S D ⟨st, s⟩ v
    exact ⟨_, fun _ => rfl, by mk_path⟩
  · rintro S D ⟨st, s⟩ e; mk_path
  · rintro S D ⟨st, s⟩; mk_path
  · intro S D s; exact ⟨_, fun _ => rfl, .refl⟩
  · intro S α D obs Inv ec hD hr st s hs hl
    exact ⟨fun v h => (by cases h), fun e h => (by cases h), hD.completeCloses _ hs,
      fun hg e => (by cases hg)⟩
  · intro S D s; rfl

theorem liftResultOp_good :
    (liftResultOp (I := I) (E := E)).Good { req := id } := by
  refine Good.ofMkSub _ _ _ (fun D => rfl) ?_ ?_ ?_ ?_ ?_ ?_
  · rintro S D ⟨st, s⟩ n
    refine ⟨_, fun _ => rfl, ?_⟩
    cases n <;> simp only <;> mk_path
  · rintro S D ⟨st, s⟩ ⟨⟩
  · rintro S D ⟨st, s⟩; mk_path
  · intro S D s; exact ⟨_, fun _ => rfl, .refl⟩
  · intro S α D obs Inv ec hD hr st s hs hl
    exact ⟨fun v h => (by cases h), fun e h => (by cases h), hD.completeCloses _ hs, fun _ e => nomatch e⟩
  · intro S D s; rfl

theorem takeOp_good (n : Nat) :
    (takeOp (I := I) (E := E) n).Good { req := id, latched := fun st => st.closed } := by
  have hp : ∀ {S : Type} (D : Sub S I E) (x : TakeSt × S) (c : Call I E),
      ∃ ts, (true = true → ts = c.tds) ∧ Path D x.2 ts (((takeOp n).sub D).call x c).2 := by
    rintro S D ⟨⟨k, cl⟩, s⟩ c
    refine ⟨_, fun _ => rfl, ?_⟩
    cases c with
    | note m =>
      cases m with
      | next v =>
        simp only [Sub.call, Sub.push, takeOp]
        split
        · split <;> (dsimp only [Call.tds]; mk_path)
        · exact .refl
      | error e => exact .error .refl
      | complete => exact .complete .refl
      | unsubscribe =>
        simp only [Sub.call, Sub.push, takeOp]
        split <;> (dsimp only [Call.tds]; mk_path)
    | addTeardown t => exact .addTeardown t .refl
  have hinit : ∀ {S α : Type} (D : Sub S I E) (obs : S → α) (Inv : S → Prop) (ec : Bool),
      Lawful D obs Inv ec → ∀ s, Inv s →
      ((takeOp n).init D s).1.closed = true → D.isClosed ((takeOp n).init D s).2 = true := by
    intro S α D obs Inv ec hD s hs h
    exact h
  refine ⟨hp, ?_, ?_, fun D obs Inv ec hD _ s hs => hinit D obs Inv ec hD s hs, ?_, fun _ _ _ => rfl⟩
  · intro S D s
    refine ⟨_, fun _ => rfl, ?_⟩
    simp only [takeOp]
    split <;> mk_path
  · intro S α D obs Inv ec hD hr
    refine hD.lift (fun st : TakeSt => st.closed) (fun st => st.closed)
      (fun x c => (hp D x c).imp fun _ h => h.2) (fun _ _ => rfl) (fun _ h => h) (fun _ _ _ => rfl)
      ?_ ?_ ?_ ?_
    · rintro ⟨k, cl⟩ s m hs hl
      cases m with
      | next v =>
        simp only [Sub.push, takeOp]
        intro h
        split at h
        · rename_i hk
          simp only [hk, if_true]
          split
          · exact hD.completeCloses _ (hD.inv s (.note (.next v)) hs)
          · rename_i h2
            simp only [h2] at h
            exact hD.mono s (.note (.next v)) hs (hl (by simpa using h))
        · rename_i hk
          simp only [hk]
          exact hl h
      | error e => exact fun _ => hD.errorCloses hr _ _ hs
      | complete => exact fun _ => hD.completeCloses _ hs
      | unsubscribe =>
        intro _
        simp only [Sub.push, takeOp]
        cases cl with
        | true => simpa using hl rfl
        | false =>
          cases hc : D.isClosed s with
          | true => simpa using hc
          | false => simpa using hD.unsubscribeCloses _ hs
    · rintro ⟨k, cl⟩ s hs hl
      exact hD.completeCloses _ hs
    · rintro ⟨k, cl⟩ s hs hl
      simp only [takeOp]
      cases cl with
      | true => simpa using hl rfl
      | false =>
        cases hc : D.isClosed s with
        | true => simpa using hc
        | false => simpa using hD.unsubscribeCloses _ hs
    · rintro hg ⟨k, cl⟩ s e hs hl
      exact hD.errorCloses hg _ _ hs
  · rintro S D ⟨⟨k, cl⟩, s⟩ h
    simp only [takeOp]
    cases cl with
    | false => rfl
    | true => simpa using (h rfl).symm

theorem elementAtOp_good (i : Nat) (d : Option I) :
    (elementAtOp (E := E) i d).Good { req := id, latched := fun st => st.closed } := by
  have hp : ∀ {S : Type} (D : Sub S I (ElementAtError E)) (x : ElementAtSt × S) (c : Call I E),
      ∃ ts, (true = true → ts = c.tds) ∧ Path D x.2 ts (((elementAtOp i d).sub D).call x c).2 := by
    rintro S D ⟨⟨k, cl⟩, s⟩ c
    refine ⟨_, fun _ => rfl, ?_⟩
    cases c with
    | note m =>
      cases m with
      | next v =>
        simp only [Sub.call, Sub.push, elementAtOp]
        split
        · exact .refl
        · split <;> (dsimp only [Call.tds]; mk_path)
      | error e =>
        simp only [Sub.call, Sub.push, elementAtOp]
        split <;> (dsimp only [Call.tds]; mk_path)
      | complete =>
        simp only [Sub.call, Sub.push, elementAtOp]
        split
        · exact .refl
        · cases d <;> (dsimp only [Call.tds]; mk_path)
      | unsubscribe =>
        simp only [Sub.call, Sub.push, elementAtOp]
        split <;> (dsimp only [Call.tds]; mk_path)
    | addTeardown t => exact .addTeardown t .refl
  refine ⟨hp, fun D s => ⟨_, fun _ => rfl, .refl⟩, ?_, fun D obs Inv ec hD _ s hs h => h, ?_,
    fun _ _ _ => rfl⟩
  · intro S α D obs Inv ec hD hr
    have hrun : ∀ s v, Inv s → D.isClosed (D.complete (D.next s v)) = true := fun s v hs =>
      hD.completeCloses _ (hD.inv s (.note (.next v)) hs)
    refine hD.lift (fun st : ElementAtSt => st.closed) (fun st => st.closed)
      (fun x c => (hp D x c).imp fun _ h => h.2) (fun _ _ => rfl) (fun _ h => h) (fun _ _ _ => rfl)
      ?_ ?_ ?_ ?_
    · rintro ⟨k, cl⟩ s m hs hl
      cases m with
      | next v =>
        simp only [Sub.push, elementAtOp]
        cases cl with
        | true => simpa using hl rfl
        | false =>
          cases hc : D.isClosed s with
          | true => simp [hc]
          | false =>
            simp only [Bool.or_self, Bool.false_eq_true, if_false]
            split
            · exact fun _ => hrun s v hs
            · intro h; cases h
      | error e =>
        simp only [Sub.push, elementAtOp]
        cases cl with
        | true => simpa using hl rfl
        | false =>
          cases hc : D.isClosed s with
          | true => simp [hc]
          | false => simpa using hD.errorCloses hr _ _ hs
      | complete =>
        simp only [Sub.push, elementAtOp]
        cases cl with
        | true => simpa using hl rfl
        | false =>
          cases hc : D.isClosed s with
          | true => simp [hc]
          | false =>
            cases d with
            | some v => simpa using hrun s v hs
            | none => simpa using hD.errorCloses hr _ _ hs
      | unsubscribe =>
        intro _
        simp only [Sub.push, elementAtOp]
        cases cl with
        | true => simpa using hl rfl
        | false =>
          cases hc : D.isClosed s with
          | true => simpa using hc
          | false => simpa using hD.unsubscribeCloses _ hs
    · rintro ⟨k, cl⟩ s hs hl
      simp only [elementAtOp]
      cases cl with
      | true => simpa using hl rfl
      | false =>
        cases hc : D.isClosed s with
        | true => simp [hc]
        | false =>
          cases d with
          | some v => simpa using hrun s v hs
          | none => simpa using hD.errorCloses hr _ _ hs
    · rintro ⟨k, cl⟩ s hs hl
      simp only [elementAtOp]
      cases cl with
      | true => simpa using hl rfl
      | false =>
        cases hc : D.isClosed s with
        | true => simpa using hc
        | false => simpa using hD.unsubscribeCloses _ hs
    · rintro hg ⟨k, cl⟩ s e hs hl
      simp only [elementAtOp]
      cases cl with
      | true => simpa using hl rfl
      | false =>
        cases hc : D.isClosed s with
        | true => simp [hc]
        | false => simpa using hD.errorCloses hr _ _ hs
  · rintro S D ⟨⟨k, cl⟩, s⟩ h
    simp only [elementAtOp]
    cases cl with
    | false => rfl
    | true => simpa using (h rfl).symm

end Rx
