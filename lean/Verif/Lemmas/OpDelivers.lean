import Verif.Lemmas.Delivers

/-!
# Each operator delivers its specification (proofs)
-/

namespace Rx

variable {I E O F S α : Type}

theorem mapOp_delivers (f : I → O) : Delivers (mapOp (E := E) f) false (Spec.map f) :=
  Delivers.ofStep (fun _ => ()) (·.map f) (fun _ v => [f v]) (fun _ _ => []) some
    (fun _ _ => rfl) (fun _ _ _ _ => rfl) (by simp) (fun _ _ _ _ => rfl) (fun _ _ _ => rfl)
    (fun _ _ => rfl) (fun _ _ => rfl)
    (by rintro ⟨vals, _ | (e | _), u⟩ <;> simp [Spec.map])

theorem mapIntoOp_delivers (f : I → O) (g : E → F) :
    Delivers (mapIntoOp f g) false (Spec.mapBoth f g) :=
  Delivers.ofStep (fun _ => ()) (·.map f) (fun _ v => [f v]) (fun _ _ => []) (fun t => some (Spec.mapTermError g t))
    (fun _ _ => rfl) (fun _ _ _ _ => rfl) (by simp) (fun _ _ _ _ => rfl) (fun _ _ _ => rfl)
    (fun _ _ => rfl) (fun _ _ => rfl)
    (by rintro ⟨vals, _ | (e | _), u⟩ <;> simp [Spec.mapBoth, Spec.mapTermError])

theorem mapNeverErrorOp_delivers :
    Delivers (mapNeverErrorOp (I := I) F) false (Spec.mapBoth id (nomatch ·)) :=
  Delivers.ofStep (fun _ => ()) (·.map id) (fun _ v => [v]) (fun _ _ => [])
    (fun t => some (Spec.mapTermError (nomatch ·) t))
    (fun _ _ => rfl) (fun _ _ _ _ => rfl) (by simp) (fun _ _ _ e => nomatch e) (fun _ _ _ => rfl)
    (fun _ _ => rfl) (fun _ _ => rfl)
    (by rintro ⟨vals, _ | (⟨⟨⟩⟩ | _), u⟩ <;> simp [Spec.mapBoth, Spec.mapTermError])

theorem mapNeverNextOp_delivers :
    Delivers (mapNeverNextOp (E := E) O) false (Spec.mapBoth (nomatch ·) id) :=
  Delivers.ofStep (fun _ => ()) (·.map (nomatch ·)) (fun _ v => nomatch v) (fun _ _ => []) some
    (fun _ _ => rfl) (fun _ _ v _ => nomatch v) (fun _ v => nomatch v) (fun _ _ _ e => rfl) (fun _ _ _ => rfl)
    (fun _ _ => rfl) (fun _ _ => rfl)
    (by rintro ⟨vals, _ | (e | _), u⟩ <;> simp [Spec.mapBoth, Spec.mapTermError])

theorem mapNeverBothOp_delivers :
    Delivers (mapNeverBothOp O F) false (Spec.mapBoth (nomatch ·) (nomatch ·)) :=
  Delivers.ofStep (fun _ => ()) (·.map (nomatch ·)) (fun _ v => nomatch v) (fun _ _ => [])
    (fun t => some (Spec.mapTermError (nomatch ·) t))
    (fun _ _ => rfl) (fun _ _ v _ => nomatch v) (fun _ v => nomatch v) (fun _ _ _ e => nomatch e) (fun _ _ _ => rfl)
    (fun _ _ => rfl) (fun _ _ => rfl)
    (by rintro ⟨vals, _ | (⟨⟨⟩⟩ | _), u⟩ <;> simp [Spec.mapBoth, Spec.mapTermError])

theorem identityOp_delivers : Delivers (identityOp (I := I) (E := E)) false id :=
  Delivers.ofStep (fun _ => ()) id (fun _ v => [v]) (fun _ _ => []) some
    (fun _ _ => rfl) (fun _ _ _ _ => rfl) (by simp) (fun _ _ _ _ => rfl) (fun _ _ _ => rfl)
    (fun _ _ => rfl) (fun _ _ => rfl)
    (by rintro ⟨vals, _ | (e | _), u⟩ <;> simp)

theorem tapNextOp_delivers {σ : Type} (f : σ → I → σ) (c : σ) :
    Delivers (tapNextOp (E := E) f c) false id :=
  Delivers.ofStep (fun vs => vs.foldl f c) id (fun _ v => [v]) (fun _ _ => []) some
    (fun _ _ => rfl) (fun _ _ _ _ => by simp [tapNextOp, mkSub, Sub.nexts]) (by simp)
    (fun _ _ _ _ => rfl) (fun _ _ _ => rfl) (fun _ _ => rfl) (fun _ _ => rfl)
    (by rintro ⟨vals, _ | (e | _), u⟩ <;> simp)

theorem tapOp_delivers (side : ObsState I E) : Delivers (tapOp side) false id :=
  Delivers.ofStep (fun vs => (observerSubscriber I E).nexts side vs) id (fun _ v => [v]) (fun _ _ => []) some
    (fun _ _ => rfl) (fun _ _ _ _ => by rw [Sub.nexts_append]; rfl) (by simp)
    (fun _ _ _ _ => rfl) (fun _ _ _ => rfl) (fun _ _ => rfl) (fun _ _ => rfl)
    (by rintro ⟨vals, _ | (e | _), u⟩ <;> simp)

theorem satSucc_idx (i : Nat) : satSucc (Spec.idx i) = Spec.idx (i + 1) := by
  simp only [satSucc, Spec.idx, usizeMax]; omega

theorem filterOp_delivers (p : I → Nat → Bool) : Delivers (filterOp (E := E) p) false (Spec.filter p) :=
  Delivers.ofStep (fun vs => Spec.idx vs.length)
    (fun vs => (vs.zipIdx.filter fun vi => p vi.1 (Spec.idx vi.2)).map Prod.fst)
    (fun vs v => if p v (Spec.idx vs.length) then [v] else []) (fun _ _ => []) some
    (fun _ _ => by simp [filterOp, Spec.idx])
    (fun D vs v s => by
      simp only [filterOp, mkSub, satSucc_idx, List.length_append, List.length_singleton]
      split <;> rfl)
    (fun vs v => by
      simp only [List.zipIdx_append, List.filter_append, List.map_append]
      congr 1
      simp only [List.zipIdx_cons, List.zipIdx_nil, List.filter_cons, List.filter_nil, Nat.zero_add]
      split <;> simp_all)
    (fun _ _ _ _ => rfl) (fun _ _ _ => rfl) (fun _ _ => rfl) (fun _ _ => rfl)
    (by rintro ⟨vals, _ | (e | _), u⟩ <;> simp [Spec.filter])

theorem liftOptionOp_delivers : Delivers (liftOptionOp (I := I) (E := E)) false (Spec.filterMap id) :=
  Delivers.ofStep (fun _ => ()) (·.filterMap id) (fun _ v => v.toList) (fun _ _ => []) some
    (fun _ _ => rfl) (fun _ _ v _ => by cases v <;> rfl)
    (fun vs v => by cases v <;> simp) (fun _ _ _ _ => rfl) (fun _ _ _ => rfl)
    (fun _ _ => rfl) (fun _ _ => rfl)
    (by rintro ⟨vals, _ | (e | _), u⟩ <;> simp [Spec.filterMap])

theorem filterMapOp_delivers (f : I → Option O) :
    Delivers (filterMapOp (E := E) f) false (Spec.filterMap f) :=
  Delivers.ofStep (P := filterMapOp (E := E) f) (fun _ => ((), ())) (·.filterMap f) (fun _ v => (f v).toList) (fun _ _ => []) some
    (fun _ _ => rfl)
    (fun D vs v s => by
      simp only [filterMapOp, compositeOp, Sub.transport, mapOp, liftOptionOp, mkSub]
      cases f v <;> rfl)
    (fun vs v => by simp only [List.filterMap_append]; congr 1) (fun _ _ _ _ => rfl) (fun _ _ _ => rfl)
    (fun _ _ => rfl) (fun _ _ => rfl)
    (by rintro ⟨vals, _ | (e | _), u⟩ <;> simp [Spec.filterMap])

theorem skipOp_delivers (n : Nat) : Delivers (skipOp (I := I) (E := E) n) false (Spec.skip n) :=
  Delivers.ofStep (fun vs => n - vs.length) (·.drop n) (fun vs v => if n ≤ vs.length then [v] else [])
    (fun _ _ => []) some (fun _ _ => by simp [skipOp])
    (fun D vs v s => by
      simp only [skipOp, mkSub, List.length_append, List.length_singleton, beq_iff_eq]
      split <;> rename_i h
      · rw [if_pos (by omega)]; simp only [Sub.nexts_cons, Sub.nexts_nil]; congr 1; omega
      · rw [if_neg (by omega)]; simp only [Sub.nexts_nil]; congr 1)
    (fun vs v => by
      split <;> rename_i h
      · rw [List.drop_append_of_le_length h]
      · rw [List.drop_eq_nil_of_le (by simp; omega), List.drop_eq_nil_of_le (by omega)]; rfl)
    (fun _ _ _ _ => rfl) (fun _ _ _ => rfl) (fun _ _ => rfl) (fun _ _ => rfl)
    (by rintro ⟨vals, _ | (e | _), u⟩ <;> simp [Spec.skip])

theorem scanOp_delivers (f : O → I → O) (seed : O) :
    Delivers (scanOp (E := E) f seed) false (Spec.scan f seed) :=
  Delivers.ofStep (fun vs => vs.foldl f seed)
    (fun vs => (List.range vs.length).map fun i => (vs.take (i + 1)).foldl f seed)
    (fun vs v => [f (vs.foldl f seed) v]) (fun _ _ => []) some
    (fun _ _ => rfl) (fun _ _ _ _ => by simp [scanOp, mkSub, Sub.nexts])
    (fun vs v => by
      simp only [List.length_append, List.length_singleton, List.range_succ, List.map_append,
        List.map_cons, List.map_nil]
      congr 1
      · apply List.map_congr_left
        intro i hi
        rw [List.take_append_of_le_length]
        simp at hi; omega
      · rw [List.take_of_length_le (by simp)]; simp)
    (fun _ _ _ _ => rfl) (fun _ _ _ => rfl) (fun _ _ => rfl) (fun _ _ => rfl)
    (by rintro ⟨vals, _ | (e | _), u⟩ <;> simp [Spec.scan])

/-- What is emitted on the terminal signal by operators that emit on completion only. -/
def whenComplete (vs : List O) : Term E → List O
  | .complete => vs
  | .error _ => []

theorem reduceOp_delivers (f : O → I → O) (seed : O) :
    Delivers (reduceOp (E := E) f seed) false (Spec.reduce f seed) :=
  Delivers.ofStep (fun vs => vs.foldl f seed) (fun _ => []) (fun _ _ => [])
    (fun vs t => whenComplete [vs.foldl f seed] t) some
    (fun _ _ => rfl) (fun _ _ _ _ => by simp [reduceOp, mkSub, Sub.nexts]) (by simp)
    (fun _ _ _ _ => rfl) (fun _ _ _ => rfl) (fun _ _ => rfl) (fun _ _ => rfl)
    (by rintro ⟨vals, _ | (e | _), u⟩ <;> simp [Spec.reduce, Spec.onComplete, whenComplete])

theorem countOp_delivers : Delivers (countOp (I := I) (E := E)) false Spec.count :=
  Delivers.ofStep (fun vs => vs.length) (fun _ => []) (fun _ _ => [])
    (fun vs t => whenComplete [vs.length] t) some
    (fun _ _ => rfl) (fun _ _ _ _ => by simp [countOp, mkSub, Sub.nexts]) (by simp)
    (fun _ _ _ _ => rfl) (fun _ _ _ => rfl) (fun _ _ => rfl) (fun _ _ => rfl)
    (by rintro ⟨vals, _ | (e | _), u⟩ <;> simp [Spec.count, Spec.onComplete, whenComplete])

theorem enumerateOp_delivers : Delivers (enumerateOp (I := I) (E := E)) false Spec.enumerate :=
  Delivers.ofStep (fun vs => Spec.idx vs.length) (fun vs => vs.zipIdx.map fun vi => (vi.1, Spec.idx vi.2))
    (fun vs v => [(v, Spec.idx vs.length)]) (fun _ _ => []) some
    (fun _ _ => by simp [enumerateOp, Spec.idx])
    (fun D vs v s => by
      simp only [enumerateOp, mkSub, satSucc_idx, List.length_append, List.length_singleton]; rfl)
    (fun vs v => by simp [List.zipIdx_append])
    (fun _ _ _ _ => rfl) (fun _ _ _ => rfl) (fun _ _ => rfl) (fun _ _ => rfl)
    (by rintro ⟨vals, _ | (e | _), u⟩ <;> simp [Spec.enumerate])

theorem zip_drop_snoc (vs : List I) (v : I) :
    (vs ++ [v]).zip ((vs ++ [v]).drop 1) = vs.zip (vs.drop 1) ++ (vs.getLast?.map (·, v)).toList := by
  induction vs with
  | nil => rfl
  | cons a vs ih =>
    cases vs with
    | nil => rfl
    | cons b vs => simpa using ih

theorem pairwiseOp_delivers : Delivers (pairwiseOp (I := I) (E := E)) false Spec.pairwise :=
  Delivers.ofStep (fun vs => vs.getLast?) (fun vs => vs.zip (vs.drop 1))
    (fun vs v => (vs.getLast?.map (·, v)).toList) (fun _ _ => []) some
    (fun _ _ => rfl)
    (fun D vs v s => by
      simp only [pairwiseOp, mkSub, List.getLast?_append, List.getLast?_singleton, Option.some_or]
      cases vs.getLast? <;> rfl)
    zip_drop_snoc
    (fun _ _ _ _ => rfl) (fun _ _ _ => rfl) (fun _ _ => rfl) (fun _ _ => rfl)
    (by rintro ⟨vals, _ | (e | _), u⟩ <;> simp [Spec.pairwise])

theorem startWithOp_delivers (v : I) : Delivers (startWithOp (E := E) v) false (Spec.startWith v) :=
  Delivers.ofStep (fun _ => ()) (v :: ·) (fun _ w => [w]) (fun _ _ => []) some
    (fun _ _ => rfl) (fun _ _ _ _ => rfl) (by simp) (fun _ _ _ _ => rfl) (fun _ _ _ => rfl)
    (fun _ _ => rfl) (fun _ _ => rfl)
    (by rintro ⟨vals, _ | (e | _), u⟩ <;> simp [Spec.startWith])

theorem endWithOp_delivers (v : I) : Delivers (endWithOp (E := E) v) false (Spec.endWith v) :=
  Delivers.ofStep (fun _ => some v) id (fun _ w => [w]) (fun _ t => whenComplete [v] t) some
    (fun _ _ => rfl) (fun _ _ _ _ => rfl) (by simp) (fun _ _ _ _ => rfl) (fun _ _ _ => rfl)
    (fun _ _ => rfl) (fun _ _ => rfl)
    (by rintro ⟨vals, _ | (e | _), u⟩ <;> simp [Spec.endWith, whenComplete])

theorem materializeOp_delivers : Delivers (materializeOp (I := I) (E := E)) false Spec.materialize :=
  Delivers.ofStep (fun _ => ()) (·.map .next) (fun _ v => [.next v]) (fun _ t => [Spec.termNotification t])
    (fun _ => some .complete)
    (fun _ _ => rfl) (fun _ _ _ _ => rfl) (by simp) (fun _ _ _ _ => rfl) (fun _ _ _ => rfl)
    (fun _ _ => rfl) (fun _ _ => rfl)
    (by rintro ⟨vals, _ | (e | _), u⟩ <;> simp [Spec.materialize])

/-- What `into_result` emits on the terminal signal. -/
def errValue : Term E → List (Except E I)
  | .error e => [.error e]
  | .complete => []

def completeOnly : Term E → Option (Term F)
  | .error _ => none
  | .complete => some .complete

theorem intoResultOp_delivers : Delivers (intoResultOp (I := I) (E := E)) false Spec.intoResult :=
  Delivers.ofStep (fun _ => ()) (·.map .ok) (fun _ v => [.ok v]) (fun _ t => errValue t) completeOnly
    (fun _ _ => rfl) (fun _ _ _ _ => rfl) (by simp) (fun _ _ _ _ => rfl) (fun _ _ _ => rfl)
    (fun _ _ => rfl) (fun _ _ => rfl)
    (by rintro ⟨vals, _ | (e | _), u⟩ <;> simp [Spec.intoResult, errValue, completeOnly])

/-! ## buffer_count -/

theorem div_succ_of_full {len n : Nat} (hn : 0 < n) (h : len % n + 1 = n) :
    (len + 1) / n = len / n + 1 ∧ (len / n + 1) * n = len + 1 := by
  have h1 := Nat.div_add_mod len n
  have h2 : (len / n + 1) * n = len + 1 := by
    rw [Nat.add_mul, Nat.one_mul, Nat.mul_comm]; omega
  exact ⟨by rw [← h2, Nat.mul_div_cancel _ hn], h2⟩

theorem div_succ_of_not_full {len n : Nat} (hn : 0 < n) (h : len % n + 1 ≠ n) :
    (len + 1) / n = len / n := by
  have h1 := Nat.div_add_mod len n
  have h3 := Nat.mod_lt len hn
  have : len + 1 = n * (len / n) + (len % n + 1) := by omega
  rw [this, Nat.mul_add_div hn, Nat.div_eq_of_lt (a := len % n + 1) (by omega)]; rfl

theorem remainder_length (n : Nat) (vs : List I) :
    (Spec.remainder n vs).length = vs.length % n := by
  have h1 := Nat.div_add_mod vs.length n
  rw [Nat.mul_comm] at h1
  simp only [Spec.remainder, List.length_drop]; omega

theorem fullChunks_snoc {n : Nat} (hn : 0 < n) (vs : List I) (v : I) :
    Spec.fullChunks n (vs ++ [v]) = Spec.fullChunks n vs ++
      if (Spec.remainder n vs).length + 1 = n then [Spec.remainder n vs ++ [v]] else [] := by
  have hle := Nat.div_mul_le_self vs.length n
  have hpre : ∀ i < vs.length / n, Spec.chunk n (vs ++ [v]) i = Spec.chunk n vs i := by
    intro i hi
    have h2 : (i + 1) * n ≤ vs.length / n * n := Nat.mul_le_mul_right _ hi
    rw [Nat.add_mul] at h2
    simp only [Spec.chunk]
    rw [List.drop_append_of_le_length (by omega), List.take_append_of_le_length (by simp; omega)]
  have hmap : (List.range (vs.length / n)).map (Spec.chunk n (vs ++ [v])) =
      (List.range (vs.length / n)).map (Spec.chunk n vs) :=
    List.map_congr_left (fun i hi => hpre i (List.mem_range.1 hi))
  rw [remainder_length]
  split <;> rename_i h
  · obtain ⟨h1, h2⟩ := div_succ_of_full hn h
    simp only [Spec.fullChunks, List.length_append, List.length_singleton, h1, List.range_succ,
      List.map_append, hmap, List.map_cons, List.map_nil]
    congr 2
    simp only [Spec.chunk]
    rw [List.drop_append_of_le_length hle, List.take_of_length_le]
    · rfl
    · have := remainder_length n vs
      simp only [Spec.remainder] at this
      simp only [List.length_append, List.length_singleton]; omega
  · simp only [Spec.fullChunks, List.length_append, List.length_singleton,
      div_succ_of_not_full hn h, hmap, List.append_nil]

theorem remainder_snoc {n : Nat} (hn : 0 < n) (vs : List I) (v : I) :
    Spec.remainder n (vs ++ [v]) =
      if (Spec.remainder n vs).length + 1 = n then [] else Spec.remainder n vs ++ [v] := by
  have hle := Nat.div_mul_le_self vs.length n
  rw [remainder_length]
  split <;> rename_i h
  · obtain ⟨h1, h2⟩ := div_succ_of_full hn h
    simp only [Spec.remainder, List.length_append, List.length_singleton, h1, h2]
    exact List.drop_eq_nil_of_le (by simp)
  · simp only [Spec.remainder, List.length_append, List.length_singleton, div_succ_of_not_full hn h]
    rw [List.drop_append_of_le_length hle]

/-- The operator's buffer for pending values. -/
def pendingBuffer (r : List I) : Option (List I) := if r = [] then none else some r

theorem pendingBuffer_getD (r : List I) : (pendingBuffer r).getD [] = r := by
  unfold pendingBuffer; split <;> simp_all

theorem bufferCountOp_delivers {n : Nat} (hn : 0 < n) :
    Delivers (bufferCountOp (I := I) (E := E) n) false (Spec.bufferCount n) :=
  Delivers.ofStep (fun vs => pendingBuffer (Spec.remainder n vs)) (Spec.fullChunks n)
    (fun vs v => if (Spec.remainder n vs).length + 1 = n then [Spec.remainder n vs ++ [v]] else [])
    (fun vs t => whenComplete (if Spec.remainder n vs = [] then [] else [Spec.remainder n vs]) t) some
    (fun D s => by simp [bufferCountOp, Spec.remainder, Spec.fullChunks, pendingBuffer])
    (fun D vs v s => by
      simp only [bufferCountOp, mkSub, pendingBuffer_getD, remainder_snoc hn, beq_iff_eq,
        List.length_append, List.length_singleton]
      split
      · rfl
      · simp [pendingBuffer])
    (fullChunks_snoc hn)
    (fun _ _ _ _ => rfl)
    (fun D vs s => by
      simp only [bufferCountOp, mkSub, whenComplete, pendingBuffer]
      by_cases h : Spec.remainder n vs = []
      · simp [h, Sub.term]
      · simp [h, Sub.term])
    (fun _ _ => rfl) (fun _ _ => rfl)
    (by rintro ⟨vals, _ | (e | _), u⟩ <;> simp [Spec.bufferCount, whenComplete])

/-! ## Operators that need their destination to close on error -/

theorem mapErrorOp_delivers (f : E → F) : Delivers (mapErrorOp (I := I) f) true (Spec.mapError f) := by
  intro S α D obs Inv ec hD hec s hs h
  have hr := hec rfl; subst hr
  have hn := nexts_of_step (P := mapErrorOp (I := I) f) D s (fun _ => some f) id (fun _ v => [v])
    rfl (fun _ _ _ => rfl) (by simp)
  have hinv := fun vs => hD.path_inv (Sub.path_nexts D s vs) hs
  obtain ⟨vals, _ | (e | _), u⟩ := h
  · exact Delivers.openEnd (mapErrorOp_good f) hD rfl hs vals u vals (by rw [hn]; rfl)
      (fun st _ => ⟨rfl, hD.unsubscribeCloses _ (hinv _)⟩)
  · refine Delivers.atTerm (mapErrorOp_good f) hD rfl hs vals _ u vals (.error (f e)) ?_ ?_ ?_
    · rw [hn]
      simp only [Sub.term, mapErrorOp, mkSub, id]
      cases hc : D.isClosed (D.nexts s vals) with
      | true => simp [hc]
      | false => simp [hD.errorCloses rfl _ _ (hinv _)]
    · exact hD.errorCloses rfl _ _ (hinv _)
    · rw [hn]
      simp only [Sub.term, mapErrorOp, mkSub, id]
      cases hc : D.isClosed (D.nexts s vals) with
      | true => simp; exact (hD.frozen _ (.error (f e)) (hinv _) hc).symm
      | false => simp
  · refine Delivers.atTerm (mapErrorOp_good f) hD rfl hs vals _ u vals .complete ?_ ?_ ?_
    · rw [hn]; exact hD.completeCloses _ (hinv _)
    · exact hD.completeCloses _ (hinv _)
    · rw [hn]; rfl

theorem takeOp_nexts (n : Nat) (D : Sub S I E) (s : S) (vs : List I) (h : vs.length < n) :
    ((takeOp n).sub D).nexts ((takeOp n).init D s) vs = (⟨n - vs.length, D.isClosed s⟩, D.nexts s vs) := by
  induction vs using snoc_induction with
  | nil =>
    have : n ≠ 0 := by simp at h; omega
    simp [takeOp, this]
  | snoc vs v ih =>
    simp only [List.length_append, List.length_singleton] at h ⊢
    rw [Sub.nexts_append, ih (by omega), Sub.nexts_append]
    simp only [Sub.nexts_cons, Sub.nexts_nil, takeOp]
    rw [if_pos (by omega), if_neg (by simp; omega)]
    simp; omega

theorem takeOp_delivers (n : Nat) : Delivers (takeOp (I := I) (E := E) n) true (Spec.take n) := by
  intro S α D obs Inv ec hD hec s hs h
  have hr := hec rfl; subst hr
  have hinv := fun vs => hD.path_inv (Sub.path_nexts D s vs) hs
  unfold Spec.take
  split <;> rename_i hle
  · -- the n-th value is there
    have hfin : ∀ t, Inv t → (D.isClosed s = true → D.isClosed t = true) →
        D.isClosed (if !(D.isClosed s || D.isClosed t) then D.complete t else t) = true ∧
        obs (if !(D.isClosed s || D.isClosed t) then D.complete t else t) = obs (D.complete t) := by
      intro t ht hm
      cases hc : D.isClosed t with
      | true => simp [hc]; exact (hD.frozen t .complete ht hc).symm
      | false =>
        have : D.isClosed s = false := by
          cases h : D.isClosed s
          · rfl
          · rw [hm h] at hc; cases hc
        simp [this, hD.completeCloses t ht]
    have hm := fun vs => hD.path_mono (Sub.path_nexts D s vs) hs
    obtain ⟨vals, t, u⟩ := h
    simp only at hle ⊢
    have hx : D.isClosed (((takeOp n).sub D).nexts ((takeOp n).init D s) (vals.take n)).2 = true ∧
        obs (((takeOp n).sub D).nexts ((takeOp n).init D s) (vals.take n)).2 =
          obs (D.complete (D.nexts s (vals.take n))) := by
      cases n with
      | zero =>
        have := hfin s hs id
        simpa [takeOp] using this
      | succ k =>
        have hk : k < vals.length := by omega
        rw [List.take_succ_eq_append_getElem hk, Sub.nexts_append, Sub.nexts_append,
          takeOp_nexts _ _ _ _ (by simp; omega)]
        simp only [Sub.nexts_cons, Sub.nexts_nil, takeOp, List.length_take]
        have hmin : min k vals.length = k := by omega
        simp only [hmin, Nat.add_sub_cancel_left, Nat.lt_add_one, if_true, Nat.sub_self]
        have h1 : Inv (D.next (D.nexts s (vals.take k)) vals[k]) :=
          hD.path_inv (.next (Sub.path_nexts D s _)) hs
        have h2 := hfin (D.next (D.nexts s (vals.take k)) vals[k]) h1
          (hD.path_mono (.next (Sub.path_nexts D s _)) hs)
        simp only [beq_self_eq_true, Bool.true_and]
        split <;> rename_i hc
        · simpa [hc] using h2
        · simpa [hc] using h2
    exact Delivers.cut (takeOp_good n) hD rfl hs ⟨vals, t, u⟩ n (vals.take n) .complete hx.1
      (hD.completeCloses _ (hinv _)) hx.2
  · obtain ⟨vals, t, u⟩ := h
    simp only at hle ⊢
    have hn := takeOp_nexts n D s vals (by omega)
    obtain _ | (e | _) := t
    · refine Delivers.openEnd (takeOp_good n) hD rfl hs vals u vals (by rw [hn]) (fun st hl => ?_)
      simp only [takeOp]
      cases hc : D.isClosed (D.nexts s vals) with
      | true => simp [hc]; exact (hD.frozen _ .unsubscribe (hinv _) hc).symm
      | false =>
        have : st.closed = false := by
          cases h : st.closed
          · rfl
          · rw [hl h] at hc; cases hc
        simp [this, hD.unsubscribeCloses _ (hinv _)]
    · refine Delivers.atTerm (takeOp_good n) hD rfl hs vals _ u vals _ ?_ ?_ ?_
      · rw [hn]; exact hD.errorCloses rfl _ _ (hinv _)
      · exact hD.errorCloses rfl _ _ (hinv _)
      · rw [hn]; rfl
    · refine Delivers.atTerm (takeOp_good n) hD rfl hs vals _ u vals _ ?_ ?_ ?_
      · rw [hn]; exact hD.completeCloses _ (hinv _)
      · exact hD.completeCloses _ (hinv _)
      · rw [hn]; rfl

/-! ## first, find, find_index, element_at, is_empty -/

theorem firstOp_delivers : Delivers (firstOp (I := I) (E := E)) true Spec.first := by
  intro S α D obs Inv ec hD hec s hs h
  have hr := hec rfl; subst hr
  obtain ⟨_ | ⟨v, vals⟩, t, u⟩ := h
  · obtain _ | (e | _) := t
    · exact Delivers.openEnd firstOp_good hD rfl hs [] u [] rfl
        (fun st _ => ⟨rfl, hD.unsubscribeCloses _ hs⟩)
    · exact Delivers.atTerm firstOp_good hD rfl hs [] _ u [] _ (hD.errorCloses rfl _ _ hs)
        (hD.errorCloses rfl _ _ hs) rfl
    · exact Delivers.atTerm firstOp_good hD rfl hs [] _ u [] _ (hD.errorCloses rfl _ _ hs)
        (hD.errorCloses rfl _ _ hs) rfl
  · have hi : Inv (D.next s v) := hD.path_inv (.next .refl) hs
    exact Delivers.cut firstOp_good hD rfl hs _ 1 [v] .complete (hD.completeCloses _ hi)
      (hD.completeCloses _ hi) rfl

theorem findOp_quiet (p : I → Bool) (D : Sub S I (FindError E)) (s : S) (vs : List I)
    (h : ∀ v ∈ vs, p v = false) :
    ((findOp p).sub D).nexts ((findOp p).init D s) vs = (⟨!vs.isEmpty, false⟩, s) := by
  induction vs using snoc_induction with
  | nil => rfl
  | snoc vs v ih =>
    rw [Sub.nexts_append, ih (fun w hw => h w (by simp [hw]))]
    simp [findOp, mkSub, h v (by simp)]

theorem findOp_delivers (p : I → Bool) : Delivers (findOp (E := E) p) true (Spec.find p) := by
  intro S α D obs Inv ec hD hec s hs h
  have hr := hec rfl; subst hr
  obtain ⟨vals, t, u⟩ := h
  cases hf : vals.find? p with
  | none =>
    have hq := findOp_quiet (E := E) p D s vals (by simpa using hf)
    simp only [Spec.find, Spec.search, hf]
    obtain _ | (e | _) := t
    · exact Delivers.openEnd (findOp_good p) hD rfl hs vals u [] (by rw [hq]; rfl)
        (fun st _ => ⟨rfl, hD.unsubscribeCloses _ hs⟩)
    · refine Delivers.atTerm (findOp_good p) hD rfl hs vals _ u [] _ ?_ (hD.errorCloses rfl _ _ hs) ?_
      · rw [hq]; exact hD.errorCloses rfl _ _ hs
      · rw [hq]; rfl
    · refine Delivers.atTerm (findOp_good p) hD rfl hs vals _ u [] _ ?_ (hD.errorCloses rfl _ _ hs) ?_
      · rw [hq]
        cases vals <;> exact hD.errorCloses rfl _ _ hs
      · rw [hq]
        cases vals <;> rfl
  | some v =>
    obtain ⟨hpv, as, bs, rfl, has⟩ := List.find?_eq_some_iff_append.1 hf
    simp only [Spec.find, Spec.search, hf]
    have hi : Inv (D.next s v) := hD.path_inv (.next .refl) hs
    have hx : (((findOp (E := E) p).sub D).nexts ((findOp p).init D s)
        ((as ++ v :: bs).take (as.length + 1))).2 = D.complete (D.next s v) := by
      have : (as ++ v :: bs).take (as.length + 1) = as ++ [v] := by
        rw [List.take_append, List.take_of_length_le (by omega)]; simp
      rw [this, Sub.nexts_append, findOp_quiet p D s as (by simpa using has)]
      simp [findOp, mkSub, hpv]
    exact Delivers.cut (findOp_good p) hD rfl hs ⟨as ++ v :: bs, t, u⟩ (as.length + 1) [v] .complete
      (by rw [hx]; exact hD.completeCloses _ hi) (hD.completeCloses _ hi) (by rw [hx]; rfl)

theorem findIndexOp_quiet (p : I → Bool) (D : Sub S Nat (FindError E)) (s : S) (vs : List I)
    (h : ∀ v ∈ vs, p v = false) :
    ((findIndexOp p).sub D).nexts ((findIndexOp p).init D s) vs = (⟨vs.length, false⟩, s) := by
  induction vs using snoc_induction with
  | nil => rfl
  | snoc vs v ih =>
    rw [Sub.nexts_append, ih (fun w hw => h w (by simp [hw]))]
    simp [findIndexOp, mkSub, h v (by simp)]

theorem findIndexOp_delivers (p : I → Bool) :
    Delivers (findIndexOp (E := E) p) true (Spec.findIndex p) := by
  intro S α D obs Inv ec hD hec s hs h
  have hr := hec rfl; subst hr
  obtain ⟨vals, t, u⟩ := h
  cases hf : vals.findIdx? p with
  | none =>
    have hq := findIndexOp_quiet (E := E) p D s vals (by simpa using hf)
    simp only [Spec.findIndex, Spec.search, hf]
    obtain _ | (e | _) := t
    · exact Delivers.openEnd (findIndexOp_good p) hD rfl hs vals u [] (by rw [hq]; rfl)
        (fun st _ => ⟨rfl, hD.unsubscribeCloses _ hs⟩)
    · refine Delivers.atTerm (findIndexOp_good p) hD rfl hs vals _ u [] _ ?_ (hD.errorCloses rfl _ _ hs) ?_
      · rw [hq]; exact hD.errorCloses rfl _ _ hs
      · rw [hq]; rfl
    · refine Delivers.atTerm (findIndexOp_good p) hD rfl hs vals _ u [] _ ?_ (hD.errorCloses rfl _ _ hs) ?_
      · rw [hq]
        cases vals <;> exact hD.errorCloses rfl _ _ hs
      · rw [hq]
        cases vals <;> rfl
  | some n =>
    obtain ⟨hlt, hpv, hbefore⟩ := List.findIdx?_eq_some_iff_getElem.1 hf
    simp only [Spec.findIndex, Spec.search, hf]
    have hi : Inv (D.next s n) := hD.path_inv (.next .refl) hs
    have hx : (((findIndexOp (E := E) p).sub D).nexts ((findIndexOp p).init D s)
        (vals.take (n + 1))).2 = D.complete (D.next s n) := by
      have hq := findIndexOp_quiet (E := E) p D s (vals.take n) (by
        intro v hv
        obtain ⟨j, hj, rfl⟩ := List.mem_take_iff_getElem.1 hv
        simpa using hbefore j (by omega))
      rw [List.take_succ_eq_append_getElem hlt, Sub.nexts_append, hq]
      have : min n vals.length = n := by omega
      simp [findIndexOp, mkSub, hpv, this]
    exact Delivers.cut (findIndexOp_good p) hD rfl hs ⟨vals, t, u⟩ (n + 1) [n] .complete
      (by rw [hx]; exact hD.completeCloses _ hi) (hD.completeCloses _ hi) (by rw [hx]; rfl)

theorem elementAtOp_quiet (i : Nat) (d : Option I) (D : Sub S I (ElementAtError E)) (s : S)
    (hc : D.isClosed s = false) (vs : List I) (h : vs.length ≤ i) :
    ((elementAtOp i d).sub D).nexts ((elementAtOp i d).init D s) vs = (⟨vs.length, false⟩, s) := by
  induction vs using snoc_induction with
  | nil => simp [elementAtOp, hc]
  | snoc vs v ih =>
    simp only [List.length_append, List.length_singleton] at h
    rw [Sub.nexts_append, ih (by omega)]
    simp only [Sub.nexts_cons, Sub.nexts_nil, elementAtOp, hc]
    have : (vs.length == i) = false := by simp; omega
    simp [this]

theorem elementAtOp_closed (i : Nat) (d : Option I) (D : Sub S I (ElementAtError E)) (s : S)
    (hc : D.isClosed s = true) (ns : List (SubscriberNotification I E)) :
    (((elementAtOp i d).sub D).run ((elementAtOp i d).init D s) ns).1.closed = true ∧
    (((elementAtOp i d).sub D).run ((elementAtOp i d).init D s) ns).2 = s := by
  have : ∀ (x : ElementAtSt × S), x.1.closed = true → x.2 = s →
      (((elementAtOp (E := E) i d).sub D).run x ns).1.closed = true ∧
      (((elementAtOp (E := E) i d).sub D).run x ns).2 = s := by
    induction ns with
    | nil => intro x h1 h2; exact ⟨h1, h2⟩
    | cons n ns ih =>
      rintro ⟨st, y⟩ h1 h2
      simp only at h1 h2; subst h2
      apply ih
      · cases n <;> simp [Sub.push, elementAtOp, h1]
      · cases n <;> simp [Sub.push, elementAtOp, h1]
  exact this _ (by simp [elementAtOp, hc]) rfl

theorem elementAtOp_delivers (i : Nat) (d : Option I) :
    Delivers (elementAtOp (E := E) i d) true (Spec.elementAt i d) := by
  intro S α D obs Inv ec hD hec s hs h
  have hr := hec rfl; subst hr
  cases hc : D.isClosed s with
  | true =>
    obtain ⟨h1, h2⟩ := elementAtOp_closed i d D s hc h.notes
    have hp := Sub.path_run D s (Spec.elementAt i d h).notes
    refine ⟨?_, ?_⟩
    · rw [h2, hD.path_frozen hp hs hc]
    · rw [hD.path_mono hp hs hc]
      generalize ((elementAtOp i d).sub D).run ((elementAtOp i d).init D s) h.notes = x at h1 h2
      obtain ⟨st, y⟩ := x
      simp only at h1
      simp [elementAtOp, h1]
  | false =>
  obtain ⟨vals, t, u⟩ := h
  cases hf : vals[i]? with
  | none =>
    have hlen : vals.length ≤ i := by simpa using hf
    have hq := elementAtOp_quiet (E := E) i d D s hc vals hlen
    obtain _ | (e | _) := t
    · simp only [Spec.elementAt, hf]
      refine Delivers.openEnd (elementAtOp_good i d) hD rfl hs vals u [] (by rw [hq]; rfl) ?_
      intro st hl
      have : st.closed = false := by
        cases h : st.closed
        · rfl
        · have := hl h; simp [hc] at this
      simp [elementAtOp, this, hc, hD.unsubscribeCloses _ hs]
    · simp only [Spec.elementAt, hf]
      refine Delivers.atTerm (elementAtOp_good i d) hD rfl hs vals _ u [] _ ?_ (hD.errorCloses rfl _ _ hs) ?_
      · rw [hq]
        simp [Sub.term, elementAtOp, hc, hD.errorCloses rfl _ _ hs]
      · rw [hq]
        simp [Sub.term, elementAtOp, hc]
    · cases d with
      | none =>
        simp only [Spec.elementAt, hf]
        refine Delivers.atTerm (elementAtOp_good i none) hD rfl hs vals _ u [] _ ?_ (hD.errorCloses rfl _ _ hs) ?_
        · rw [hq]
          simp [Sub.term, elementAtOp, hc, hD.errorCloses rfl _ _ hs]
        · rw [hq]
          simp [Sub.term, elementAtOp, hc]
      | some v =>
        have hi : Inv (D.next s v) := hD.path_inv (.next .refl) hs
        simp only [Spec.elementAt, hf]
        refine Delivers.atTerm (elementAtOp_good i (some v)) hD rfl hs vals _ u [v] .complete ?_ (hD.completeCloses _ hi) ?_
        · rw [hq]
          simp [Sub.term, elementAtOp, hc, hD.completeCloses _ hi]
        · rw [hq]
          simp [Sub.term, elementAtOp, hc]
  | some v =>
    obtain ⟨hlt, hv⟩ := List.getElem?_eq_some_iff.1 hf
    simp only [Spec.elementAt, hf]
    have hi : Inv (D.next s v) := hD.path_inv (.next .refl) hs
    have hx : (((elementAtOp (E := E) i d).sub D).nexts ((elementAtOp i d).init D s)
        (vals.take (i + 1))).2 = D.complete (D.next s v) := by
      have hq := elementAtOp_quiet (E := E) i d D s hc (vals.take i) (by simp; omega)
      rw [List.take_succ_eq_append_getElem hlt, Sub.nexts_append, hq]
      have : min i vals.length = i := by omega
      simp [elementAtOp, hc, this, hv]
    exact Delivers.cut (elementAtOp_good i d) hD rfl hs ⟨vals, t, u⟩ (i + 1) [v] .complete
      (by rw [hx]; exact hD.completeCloses _ hi) (hD.completeCloses _ hi) (by rw [hx]; rfl)

theorem completeOnce (D : Sub S O F) (obs : S → α) (Inv : S → Prop) (ec : Bool)
    (hD : Lawful D obs Inv ec) (t : S) (ht : Inv t) :
    D.isClosed (if !D.isClosed t then D.complete t else t) = true ∧
    obs (if !D.isClosed t then D.complete t else t) = obs (D.complete t) := by
  cases hc : D.isClosed t with
  | true => simp [hc]; exact (hD.frozen t .complete ht hc).symm
  | false => simp [hD.completeCloses t ht]

theorem isEmptyOp_delivers : Delivers (isEmptyOp (I := I) (E := E)) false Spec.isEmpty := by
  intro S α D obs Inv ec hD _ s hs h
  obtain ⟨_ | ⟨v, vals⟩, t, u⟩ := h
  · obtain _ | (e | _) := t
    · exact Delivers.openEnd isEmptyOp_good hD rfl hs [] u [] rfl
        (fun st _ => ⟨rfl, hD.unsubscribeCloses _ hs⟩)
    · rw [Sub.run_notes, Sub.run_notes]
      cases u <;> exact ⟨rfl, rfl⟩
    · have hi : Inv (D.next s true) := hD.path_inv (.next .refl) hs
      obtain ⟨h1, h2⟩ := completeOnce D obs Inv ec hD _ hi
      exact Delivers.atTerm isEmptyOp_good hD rfl hs [] _ u [true] .complete h1
        (hD.completeCloses _ hi) h2
  · have hi : Inv (D.next s false) := hD.path_inv (.next .refl) hs
    obtain ⟨h1, h2⟩ := completeOnce D obs Inv ec hD _ hi
    exact Delivers.cut isEmptyOp_good hD rfl hs _ 1 [false] .complete h1 (hD.completeCloses _ hi) h2

/-! ## dematerialize, lift_result -/

theorem liveValues_map (vs : List I) (rest : List (ObserverNotification I E)) :
    Spec.liveValues (vs.map .next ++ rest) = vs ++ Spec.liveValues rest ∧
    Spec.firstTerminal (vs.map .next ++ rest) = Spec.firstTerminal rest := by
  induction vs with
  | nil => simp
  | cons v vs ih => simp [Spec.liveValues, Spec.firstTerminal, ih]

theorem dematerialize_split (ns : List (ObserverNotification I E)) :
    (ns = (Spec.liveValues ns).map .next ∧ Spec.firstTerminal ns = none) ∨
    ∃ t rest, ns = (Spec.liveValues ns).map .next ++ Spec.termNotification t :: rest ∧
      Spec.firstTerminal ns = some t := by
  induction ns with
  | nil => exact .inl ⟨rfl, rfl⟩
  | cons n ns ih =>
    cases n with
    | next v =>
      rcases ih with ⟨h1, h2⟩ | ⟨t, rest, h1, h2⟩
      · exact .inl ⟨by rw [Spec.liveValues, List.map_cons, ← h1], h2⟩
      · exact .inr ⟨t, rest, by rw [Spec.liveValues, List.map_cons, List.cons_append, ← h1], h2⟩
    | error e => exact .inr ⟨.error e, ns, rfl, rfl⟩
    | complete => exact .inr ⟨.complete, ns, rfl, rfl⟩

/-- Dematerializing values: the guarded `next`s have the effect of the unguarded ones. -/
theorem dematerializeOp_nexts {D : Sub S I E} {obs : S → α} {Inv : S → Prop} {ec : Bool}
    (hD : Lawful D obs Inv ec) {s : S} (hs : Inv s) (vs : List I) :
    Inv ((dematerializeOp.sub D).nexts (dematerializeOp.init D s) (vs.map .next)).2 ∧
    (((dematerializeOp.sub D).nexts (dematerializeOp.init D s) (vs.map .next)).2 = D.nexts s vs ∨
     (D.isClosed ((dematerializeOp.sub D).nexts (dematerializeOp.init D s) (vs.map .next)).2 = true ∧
      D.isClosed (D.nexts s vs) = true ∧
      obs ((dematerializeOp.sub D).nexts (dematerializeOp.init D s) (vs.map .next)).2 =
        obs (D.nexts s vs))) := by
  induction vs using snoc_induction with
  | nil => exact ⟨hs, .inl rfl⟩
  | snoc vs v ih =>
    have hinv := hD.path_inv (Sub.path_nexts D s vs) hs
    rw [List.map_append, Sub.nexts_append, Sub.nexts_append]
    generalize (dematerializeOp.sub D).nexts (dematerializeOp.init D s) (vs.map .next) = x at ih ⊢
    obtain ⟨st, y⟩ := x
    simp only [List.map_cons, List.map_nil, Sub.nexts_cons, Sub.nexts_nil, dematerializeOp, mkSub] at ih ⊢
    obtain ⟨hy, ih⟩ := ih
    refine ⟨?_, ?_⟩
    · split
      · exact hD.path_inv (.next .refl) hy
      · exact hy
    rcases ih with rfl | ⟨h1, h2, h3⟩
    · cases hc : D.isClosed (D.nexts s vs) with
      | true =>
        refine .inr ⟨by simp [hc], hD.path_mono (.next .refl) hinv hc, ?_⟩
        simp; exact (hD.frozen _ (.next v) hinv hc).symm
      | false => simp
    · exact .inr ⟨by simp [h1], hD.path_mono (.next .refl) hinv h2, by
        simp [h1]; rw [h3]; exact (hD.frozen _ (.next v) hinv h2).symm⟩

theorem termOnce (D : Sub S I E) (obs : S → α) (Inv : S → Prop)
    (hD : Lawful D obs Inv true) (t : Term E) (y y' : S) (hy : Inv y) (hy' : Inv y')
    (h : y = y' ∨ (D.isClosed y = true ∧ D.isClosed y' = true ∧ obs y = obs y')) :
    D.isClosed (if !D.isClosed y then D.term y (some t) else y) = true ∧
    obs (if !D.isClosed y then D.term y (some t) else y) = obs (D.term y' (some t)) := by
  have hcl : ∀ z, Inv z → D.isClosed (D.term z (some t)) = true := by
    intro z hz
    cases t with
    | error e => exact hD.errorCloses rfl _ _ hz
    | complete => exact hD.completeCloses _ hz
  have hfr : ∀ z, Inv z → D.isClosed z = true → obs (D.term z (some t)) = obs z := by
    intro z hz hc
    exact hD.path_frozen (Sub.path_term D z (some t)) hz hc
  rcases h with rfl | ⟨h1, h2, h3⟩
  · cases hc : D.isClosed y with
    | true => simp [hc, hfr y hy hc]
    | false => simp [hcl y hy]
  · simp [h1, h3, hfr y' hy' h2]

theorem closesTerm {D : Sub S I E} {obs : S → α} {Inv : S → Prop}
    (hD : Lawful D obs Inv true) (t : Term E) (y : S) (hy : Inv y) :
    D.isClosed (D.term y (some t)) = true := by
  cases t with
  | error e => exact hD.errorCloses rfl _ _ hy
  | complete => exact hD.completeCloses _ hy

theorem dematerializeOp_delivers :
    Delivers (dematerializeOp (I := I) (E := E)) true Spec.dematerialize := by
  intro S α D obs Inv ec hD hec s hs h
  have hr := hec rfl; subst hr
  obtain ⟨vals, t, u⟩ := h
  obtain ⟨hxi, hx⟩ := dematerializeOp_nexts hD hs (Spec.liveValues vals)
  have hinv := hD.path_inv (Sub.path_nexts D s (Spec.liveValues vals)) hs
  rcases dematerialize_split vals with ⟨h1, h2⟩ | ⟨tm, rest, h1, h2⟩
  · simp only [Spec.dematerialize, h2, Option.none_or]
    rcases t with _ | (⟨⟨⟩⟩ | _)
    · -- still open
      generalize hl : Spec.liveValues vals = lv at *
      subst h1
      rw [Sub.run_notes, Sub.run_notes]
      simp only [Sub.term, Option.map_none]
      generalize (dematerializeOp.sub D).nexts (dematerializeOp.init D s) (lv.map .next) = x at hx hxi ⊢
      obtain ⟨st, y⟩ := x
      simp only at hx hxi
      rcases hx with rfl | ⟨h1, h2, h3⟩
      · cases u <;> exact ⟨rfl, rfl⟩
      · cases u with
        | false => exact ⟨h3, h1.trans h2.symm⟩
        | true =>
          refine ⟨?_, ?_⟩
          · exact (hD.frozen _ .unsubscribe hxi h1).trans
              (h3.trans (hD.frozen _ .unsubscribe hinv h2).symm)
          · exact (hD.unsubscribeCloses _ hxi).trans (hD.unsubscribeCloses _ hinv).symm
    · have := termOnce D obs Inv hD .complete _ _ hxi hinv hx
      refine Delivers.atTerm dematerializeOp_good hD rfl hs vals _ u _ .complete ?_
        (closesTerm hD _ _ hinv) ?_
      · rw [h1]; exact this.1
      · conv => lhs; rw [h1]
        exact this.2
  · simp only [Spec.dematerialize, h2, Option.some_or]
    have := termOnce D obs Inv hD tm _ _ hxi hinv hx
    generalize hl : Spec.liveValues vals = lv at *
    subst h1
    have ht : (lv.map ObserverNotification.next ++ Spec.termNotification tm :: rest).take (lv.length + 1) =
        lv.map .next ++ [Spec.termNotification tm] := by
      rw [List.take_append, List.take_of_length_le (by simp)]; simp
    have hx' : ((dematerializeOp.sub D).nexts (dematerializeOp.init D s)
        ((lv.map ObserverNotification.next ++ Spec.termNotification tm :: rest).take (lv.length + 1))).2 =
        if !D.isClosed ((dematerializeOp.sub D).nexts (dematerializeOp.init D s) (lv.map .next)).2
        then D.term ((dematerializeOp.sub D).nexts (dematerializeOp.init D s) (lv.map .next)).2 (some tm)
        else ((dematerializeOp.sub D).nexts (dematerializeOp.init D s) (lv.map .next)).2 := by
      rw [ht, Sub.nexts_append]
      cases tm <;> rfl
    exact Delivers.cut dematerializeOp_good hD rfl hs ⟨_, t, u⟩ (lv.length + 1) lv tm
      (by rw [hx']; exact this.1) (closesTerm hD _ _ hinv) (by rw [hx']; exact this.2)

theorem liftResult_split (ns : List (Except E I)) :
    (ns = (Spec.okPrefix ns).map .ok ∧ Spec.firstErr ns = none) ∨
    ∃ e rest, ns = (Spec.okPrefix ns).map .ok ++ .error e :: rest ∧ Spec.firstErr ns = some e := by
  induction ns with
  | nil => exact .inl ⟨rfl, rfl⟩
  | cons n ns ih =>
    cases n with
    | ok v =>
      rcases ih with ⟨h1, h2⟩ | ⟨t, rest, h1, h2⟩
      · exact .inl ⟨by rw [Spec.okPrefix, List.map_cons, ← h1], h2⟩
      · exact .inr ⟨t, rest, by rw [Spec.okPrefix, List.map_cons, List.cons_append, ← h1], h2⟩
    | error e => exact .inr ⟨e, ns, rfl, rfl⟩

theorem liftResultOp_nexts (D : Sub S I E) (s : S) (vs : List I) :
    (liftResultOp.sub D).nexts (liftResultOp.init D s) (vs.map .ok) = ((), D.nexts s vs) := by
  induction vs using snoc_induction with
  | nil => rfl
  | snoc vs v ih => rw [List.map_append, Sub.nexts_append, ih, Sub.nexts_append]; rfl

theorem liftResultOp_delivers : Delivers (liftResultOp (I := I) (E := E)) true Spec.liftResult := by
  intro S α D obs Inv ec hD hec s hs h
  have hr := hec rfl; subst hr
  obtain ⟨vals, t, u⟩ := h
  have hn := liftResultOp_nexts D s (Spec.okPrefix vals)
  have hinv := hD.path_inv (Sub.path_nexts D s (Spec.okPrefix vals)) hs
  rcases liftResult_split vals with ⟨h1, h2⟩ | ⟨e, rest, h1, h2⟩
  · simp only [Spec.liftResult, h2, Option.map_none, Option.none_or]
    generalize hl : Spec.okPrefix vals = lv at *
    subst h1
    rcases t with _ | (⟨⟨⟩⟩ | _)
    · exact Delivers.openEnd liftResultOp_good hD rfl hs _ u lv (by rw [hn])
        (fun st _ => ⟨rfl, hD.unsubscribeCloses _ hinv⟩)
    · exact Delivers.atTerm liftResultOp_good hD rfl hs _ _ u lv .complete
        (by rw [hn]; exact hD.completeCloses _ hinv) (hD.completeCloses _ hinv) (by rw [hn]; rfl)
  · simp only [Spec.liftResult, h2, Option.map_some, Option.some_or]
    generalize hl : Spec.okPrefix vals = lv at *
    subst h1
    have ht : (lv.map Except.ok ++ Except.error e :: rest).take (lv.length + 1) =
        lv.map .ok ++ [(.error e : Except E I)] := by
      rw [List.take_append, List.take_of_length_le (by simp)]; simp
    have hx : ((liftResultOp.sub D).nexts (liftResultOp.init D s)
        ((lv.map Except.ok ++ Except.error e :: rest).take (lv.length + 1))).2 = D.error (D.nexts s lv) e := by
      rw [ht, Sub.nexts_append, hn]; rfl
    exact Delivers.cut liftResultOp_good hD rfl hs ⟨_, t, u⟩ (lv.length + 1) lv (.error e)
      (by rw [hx]; exact hD.errorCloses rfl _ _ hinv) (hD.errorCloses rfl _ _ hinv) (by rw [hx]; rfl)

end Rx
