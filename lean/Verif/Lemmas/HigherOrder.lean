import Verif.Spec.HigherOrder

/-!
# Bookkeeping of higher-order subscribers
-/

namespace Rx.HigherOrder

variable {S I E : Type}

/-! ## The log -/

section Log
variable {l : List (Log I E)} {a : Nat} {src : Option Nat} {n : SubscriberNotification I E}

@[simp] theorem subsOf_sub : subsOf (l ++ [.sub a]) = subsOf l ++ [a] := by simp [subsOf, Log.asSub]
@[simp] theorem subsOf_done : subsOf (l ++ [.done a]) = subsOf l := by simp [subsOf, Log.asSub]
@[simp] theorem subsOf_out : subsOf (l ++ [.out src n]) = subsOf l := by simp [subsOf, Log.asSub]
@[simp] theorem donesOf_sub : donesOf (l ++ [.sub a]) = donesOf l := by simp [donesOf, Log.asDone]
@[simp] theorem donesOf_done : donesOf (l ++ [.done a]) = donesOf l ++ [a] := by simp [donesOf, Log.asDone]
@[simp] theorem donesOf_out : donesOf (l ++ [.out src n]) = donesOf l := by simp [donesOf, Log.asDone]
@[simp] theorem outsOf_sub : outsOf (l ++ [.sub a]) = outsOf l := by simp [outsOf, Log.asOut]
@[simp] theorem outsOf_done : outsOf (l ++ [.done a]) = outsOf l := by simp [outsOf, Log.asOut]
@[simp] theorem outsOf_out : outsOf (l ++ [.out src n]) = outsOf l ++ [n] := by simp [outsOf, Log.asOut]

theorem mem_live {b : Nat} : b ∈ live l ↔ b ∈ subsOf l ∧ b ∉ donesOf l := by
  simp [live, List.mem_filter]

@[simp] theorem live_out : live (l ++ [.out src n]) = live l := by simp [live]

theorem live_sub (h : a ∉ donesOf l) : live (l ++ [.sub a]) = live l ++ [a] := by
  simp [live, List.filter_append, h]

theorem live_done : live (l ++ [.done a]) = (live l).filter (· != a) := by
  simp only [live, subsOf_done, donesOf_done, List.filter_filter]
  refine List.filter_congr fun b _ => ?_
  by_cases h : b = a <;> simp [h]

theorem live_nodup (h : (subsOf l).Nodup) : (live l).Nodup := h.sublist List.filter_sublist

theorem length_filter_ne {l : List Nat} (h : l.Nodup) (ha : a ∈ l) :
    (l.filter (· != a)).length + 1 = l.length := by
  rw [← h.erase_eq_filter a, List.length_erase_of_mem ha]
  have := List.length_pos_of_mem ha
  omega

theorem filter_ne_self {l : List Nat} (ha : a ∉ l) : l.filter (· != a) = l := by
  rw [List.filter_eq_self]
  intro b hb
  simp only [bne_iff_ne, ne_eq]
  rintro rfl
  exact ha hb

theorem prefix_snoc {α : Type} {p l : List α} {a : α} (h : p <+: l ++ [a]) : p <+: l ∨ p = l ++ [a] := by
  rcases List.prefix_concat_iff.1 h with h | h
  · exact .inr h
  · exact .inl h

end Log

/-! ## Invariants -/

/-- What always holds. `c`: inner observables that have completed and whose subscribers are still busy with that;
`d`: slots known to be free. -/
structure Base (limit : Nat) (tidy clean : Prop) (c : List Nat) (d : Nat) (closed : Bool)
    (queue : List (Nat × Src I E)) (opened : List Nat) (log : List (Log I E)) (arrived : Nat)
    (upCompleted : Bool) : Prop where
  nodup : opened.Nodup
  mem : ∀ a, a ∈ opened ↔ a ∈ live log ∨ a ∈ c
  len : (live log).length + c.length = opened.length
  cdone : ∀ a ∈ c, a ∈ donesOf log
  dsub : ∀ a ∈ donesOf log, a ∈ subsOf log
  once : (subsOf log ++ queue.map (·.1)).Nodup
  lt : ∀ a ∈ subsOf log ++ queue.map (·.1), a < arrived
  bound : ∀ p, p <+: log → (live p).length ≤ limit
  room : opened.length + d ≤ limit + c.length
  order : tidy → (subsOf log ++ queue.map (·.1)).Pairwise (· < ·)
  srcs : tidy → ∀ q ∈ queue, ∀ n ∈ q.2, n ≠ .unsubscribe
  srcsC : clean → ∀ q ∈ queue, ∀ n ∈ q.2, ∀ f, n ≠ .error f
  quiet : closed = false → ∀ n ∈ outsOf log, n.isClosing = false
  outs : ∀ n ∈ (outsOf log).dropLast, n.isClosing = false
  compl : .complete ∈ outsOf log →
    upCompleted = true ∧ live log = [] ∧ queue = [] ∧ (tidy → subsOf log = List.range arrived)
  endc : clean → closed = true → .complete ∈ outsOf log
  source : ∀ p b v q, log = p ++ .out (some b) (.next v) :: q → b ∈ live p
  ended : ∀ p b q, log = p ++ .done b :: q → b ∈ subsOf p

/-- The last element of a split list. -/
theorem split_snoc {α : Type} {p q l : List α} {x y : α} (h : l ++ [y] = p ++ x :: q) :
    (q = [] ∧ x = y ∧ p = l) ∨ ∃ q', l = p ++ x :: q' := by
  rcases List.eq_nil_or_concat q with rfl | ⟨q', z, rfl⟩
  · have := List.append_inj' h rfl
    exact .inl ⟨rfl, by simpa using this.2.symm, this.1.symm⟩
  · have h' : l ++ [y] = (p ++ x :: q') ++ [z] := by simpa using h
    exact .inr ⟨q', (List.append_inj' h' rfl).1⟩

namespace Base
variable {limit : Nat} {tidy clean : Prop} {c : List Nat} {d : Nat} {closed : Bool}
  {queue : List (Nat × Src I E)} {opened : List Nat} {log : List (Log I E)} {arrived : Nat} {upCompleted : Bool}
  {a : Nat}

theorem weaken (h : Base limit tidy clean c d closed queue opened log arrived upCompleted) {d' : Nat}
    (hd : d' ≤ d) : Base limit tidy clean c d' closed queue opened log arrived upCompleted :=
  { h with room := by have := h.room; omega }

theorem live_bound (h : Base limit tidy clean c d closed queue opened log arrived upCompleted) :
    (live log).length + d ≤ limit := by
  have := h.room
  have := h.len
  omega

/-- The destination is called. -/
theorem out (h : Base limit tidy clean c d false queue opened log arrived upCompleted) (src : Option Nat)
    (n : SubscriberNotification I E) (closed' : Bool) (hc : closed' = false → n.isClosing = false)
    (hn : n = .complete → upCompleted = true ∧ live log = [] ∧ queue = [] ∧
      (tidy → subsOf log = List.range arrived))
    (he : clean → closed' = true → n = .complete) (hv : ∀ b v, src = some b → n = .next v → b ∈ live log) :
    Base limit tidy clean c d closed' queue opened (log ++ [.out src n]) arrived upCompleted where
  nodup := h.nodup
  mem := by simpa using h.mem
  len := by simpa using h.len
  cdone := by simpa using h.cdone
  dsub := by simpa using h.dsub
  once := by simpa using h.once
  lt := by simpa using h.lt
  bound p hp := by
    rcases prefix_snoc hp with hp | rfl
    · exact h.bound p hp
    · simpa using h.bound log (List.prefix_refl _)
  room := h.room
  order := by simpa using h.order
  srcs := h.srcs
  srcsC := h.srcsC
  quiet hcl m hm := by
    rw [outsOf_out, List.mem_append, List.mem_singleton] at hm
    rcases hm with hm | rfl
    · exact h.quiet rfl m hm
    · exact hc hcl
  outs m hm := by
    rw [outsOf_out, List.dropLast_concat] at hm
    exact h.quiet rfl m hm
  compl hm := by
    rw [outsOf_out, List.mem_append, List.mem_singleton] at hm
    rcases hm with hm | hm
    · simpa using h.compl hm
    · simpa using hn hm.symm
  endc hcl hcd := by
    rw [outsOf_out, he hcl hcd]
    simp
  source p b v q hl := by
    rcases split_snoc hl with ⟨_, h2, rfl⟩ | ⟨q', hq⟩
    · cases h2
      exact hv b v rfl rfl
    · exact h.source p b v q' hq
  ended p b q hl := by
    rcases split_snoc hl with ⟨_, h2, _⟩ | ⟨q', hq⟩
    · cases h2
    · exact h.ended p b q' hq

/-- The inner subscriber `a` is closed before it completed. -/
theorem close (h : Base limit tidy clean c d closed queue opened log arrived upCompleted)
    (ha : a ∈ opened) (hac : a ∉ c) :
    Base limit tidy clean c (d + 1) closed queue (opened.erase a) (log ++ [.done a]) arrived upCompleted := by
  have hlive : a ∈ live log := ((h.mem a).1 ha).resolve_right hac
  have hsub : (subsOf log).Nodup := (List.nodup_append.1 h.once).1
  have hlen := length_filter_ne (live_nodup hsub) hlive
  have hlo : (opened.erase a).length + 1 = opened.length := by
    rw [List.length_erase_of_mem ha]
    have := List.length_pos_of_mem ha
    omega
  constructor
  · exact h.nodup.erase a
  · intro b
    rw [h.nodup.mem_erase_iff, live_done, List.mem_filter, h.mem b]
    constructor
    · rintro ⟨hba, hb | hb⟩
      · exact .inl ⟨hb, by simpa using hba⟩
      · exact .inr hb
    · rintro (⟨hb, hba⟩ | hb)
      · exact ⟨by simpa using hba, .inl hb⟩
      · exact ⟨fun hba => hac (hba ▸ hb), .inr hb⟩
  · rw [live_done]; have := h.len; omega
  · intro b hb
    simp [h.cdone b hb]
  · intro b hb
    rw [donesOf_done, List.mem_append, List.mem_singleton] at hb
    rw [subsOf_done]
    rcases hb with hb | rfl
    · exact h.dsub b hb
    · exact (mem_live.1 hlive).1
  · simpa using h.once
  · simpa using h.lt
  · intro p hp
    rcases prefix_snoc hp with hp | rfl
    · exact h.bound p hp
    · rw [live_done]
      have := h.bound log (List.prefix_refl _)
      omega
  · have := h.room; omega
  · simpa using h.order
  · exact h.srcs
  · exact h.srcsC
  · simpa using h.quiet
  · simpa using h.outs
  · intro hm
    rw [outsOf_done] at hm
    rw [(h.compl hm).2.1] at hlive
    cases hlive
  · simpa using h.endc
  · intro p b v q hl
    rcases split_snoc hl with ⟨_, h2, _⟩ | ⟨q', hq⟩
    · cases h2
    · exact h.source p b v q' hq
  · intro p b q hl
    rcases split_snoc hl with ⟨_, h2, rfl⟩ | ⟨q', hq⟩
    · cases h2
      exact (mem_live.1 hlive).1
    · exact h.ended p b q' hq

/-- The inner observable `a` completes. -/
theorem begin (h : Base limit tidy clean c d closed queue opened log arrived upCompleted)
    (ha : a ∈ opened) (hac : a ∉ c) :
    Base limit tidy clean (a :: c) (d + 1) closed queue opened (log ++ [.done a]) arrived upCompleted := by
  have hlive : a ∈ live log := ((h.mem a).1 ha).resolve_right hac
  have hsub : (subsOf log).Nodup := (List.nodup_append.1 h.once).1
  have hlen := length_filter_ne (live_nodup hsub) hlive
  constructor
  · exact h.nodup
  · intro b
    rw [live_done, List.mem_filter, h.mem b, List.mem_cons]
    constructor
    · rintro (hb | hb)
      · by_cases hba : b = a
        · exact .inr (.inl hba)
        · exact .inl ⟨hb, by simpa using hba⟩
      · exact .inr (.inr hb)
    · rintro (⟨hb, _⟩ | rfl | hb)
      · exact .inl hb
      · exact .inl hlive
      · exact .inr hb
  · rw [live_done, List.length_cons]; have := h.len; omega
  · intro b hb
    rcases List.mem_cons.1 hb with rfl | hb
    · simp
    · simp [h.cdone b hb]
  · intro b hb
    rw [donesOf_done, List.mem_append, List.mem_singleton] at hb
    rw [subsOf_done]
    rcases hb with hb | rfl
    · exact h.dsub b hb
    · exact (mem_live.1 hlive).1
  · simpa using h.once
  · simpa using h.lt
  · intro p hp
    rcases prefix_snoc hp with hp | rfl
    · exact h.bound p hp
    · rw [live_done]
      have := h.bound log (List.prefix_refl _)
      omega
  · rw [List.length_cons]; have := h.room; omega
  · simpa using h.order
  · exact h.srcs
  · exact h.srcsC
  · simpa using h.quiet
  · simpa using h.outs
  · intro hm
    rw [outsOf_done] at hm
    rw [(h.compl hm).2.1] at hlive
    cases hlive
  · simpa using h.endc
  · intro p b v q hl
    rcases split_snoc hl with ⟨_, h2, _⟩ | ⟨q', hq⟩
    · cases h2
    · exact h.source p b v q' hq
  · intro p b q hl
    rcases split_snoc hl with ⟨_, h2, rfl⟩ | ⟨q', hq⟩
    · cases h2
      exact (mem_live.1 hlive).1
    · exact h.ended p b q' hq

/-- The subscriber of the inner observable `a`, which has completed, is closed. -/
theorem finish (h : Base limit tidy clean (a :: c) d closed queue opened log arrived upCompleted)
    (hac : a ∉ c) :
    Base limit tidy clean c d closed queue (opened.erase a) log arrived upCompleted := by
  have ha : a ∈ opened := (h.mem a).2 (.inr List.mem_cons_self)
  have hlive : a ∉ live log := fun hl => (mem_live.1 hl).2 (h.cdone a List.mem_cons_self)
  have hlo : (opened.erase a).length + 1 = opened.length := by
    rw [List.length_erase_of_mem ha]
    have := List.length_pos_of_mem ha
    omega
  refine { h with nodup := h.nodup.erase a, mem := ?_, len := ?_, cdone := ?_, room := ?_ }
  · intro b
    rw [h.nodup.mem_erase_iff, h.mem b, List.mem_cons]
    constructor
    · rintro ⟨hba, hb | rfl | hb⟩
      · exact .inl hb
      · exact absurd rfl hba
      · exact .inr hb
    · rintro (hb | hb)
      · exact ⟨fun hba => hlive (hba ▸ hb), .inl hb⟩
      · exact ⟨fun hba => hac (hba ▸ hb), .inr (.inr hb)⟩
  · have := h.len; rw [List.length_cons] at this; omega
  · exact fun b hb => h.cdone b (List.mem_cons_of_mem _ hb)
  · have := h.room; rw [List.length_cons] at this; omega

/-- The inner observable `a` is subscribed. -/
theorem open_ (h : Base limit tidy clean c (d + 1) closed queue opened log arrived upCompleted)
    {queue' : List (Nat × Src I E)} {arrived' : Nat} (ha : a ∉ subsOf log)
    (hq : ∀ q ∈ queue', q ∈ queue) (hcl : .complete ∉ outsOf log)
    (honce : (subsOf log ++ a :: queue'.map (·.1)).Nodup)
    (hlt : ∀ b ∈ subsOf log ++ a :: queue'.map (·.1), b < arrived')
    (horder : tidy → (subsOf log ++ a :: queue'.map (·.1)).Pairwise (· < ·)) :
    Base limit tidy clean c d closed queue' (opened ++ [a]) (log ++ [.sub a]) arrived' upCompleted := by
  have hd : a ∉ donesOf log := fun hd => ha (h.dsub a hd)
  have ho : a ∉ opened := fun ho => by
    rcases (h.mem a).1 ho with hl | hl
    · exact ha (mem_live.1 hl).1
    · exact hd (h.cdone a hl)
  have hb := h.live_bound
  constructor
  · rw [List.nodup_append]
    exact ⟨h.nodup, by simp, fun b hb b' hb' => by
      rw [List.mem_singleton] at hb'
      rintro rfl
      exact ho (hb' ▸ hb)⟩
  · intro b
    rw [live_sub hd, List.mem_append, List.mem_append, h.mem b, List.mem_singleton]
    exact or_right_comm
  · rw [live_sub hd, List.length_append, List.length_append]; have := h.len; simp only [List.length_singleton]; omega
  · simpa using h.cdone
  · intro b hb
    rw [donesOf_sub] at hb
    simp [h.dsub b hb]
  · simpa using honce
  · simpa using hlt
  · intro p hp
    rcases prefix_snoc hp with hp | rfl
    · exact h.bound p hp
    · rw [live_sub hd, List.length_append, List.length_singleton]; omega
  · rw [List.length_append, List.length_singleton]; have := h.room; omega
  · simpa using horder
  · exact fun ht q hq' => h.srcs ht q (hq q hq')
  · exact fun ht q hq' => h.srcsC ht q (hq q hq')
  · simpa using h.quiet
  · simpa using h.outs
  · intro hm
    rw [outsOf_sub] at hm
    exact absurd hm hcl
  · simpa using h.endc
  · intro p b v q hl
    rcases split_snoc hl with ⟨_, h2, _⟩ | ⟨q', hq⟩
    · cases h2
    · exact h.source p b v q' hq
  · intro p b q hl
    rcases split_snoc hl with ⟨_, h2, _⟩ | ⟨q', hq⟩
    · cases h2
    · exact h.ended p b q' hq

/-- With a limit of one, all earlier ones have ended when one is subscribed. -/
theorem one_after {log : List (Log I E)} (hi : Base 1 tidy clean c d closed queue opened log arrived upCompleted)
    {p q : List (Log I E)} {b : Nat} (h : log = p ++ .sub b :: q) : ∀ a ∈ subsOf p, a ∈ donesOf p := by
  have hb := hi.bound (p ++ [.sub b]) ⟨q, by rw [h]; simp⟩
  intro a ha
  refine Classical.not_not.1 fun hd => ?_
  have hnd : (subsOf (p ++ [.sub b])).Nodup := by
    have h1 := (List.nodup_append.1 hi.once).1
    rw [h] at h1
    have h2 : p ++ .sub b :: q = (p ++ [.sub b]) ++ q := by simp
    rw [h2] at h1
    simp only [subsOf, List.filterMap_append] at h1 ⊢
    exact (List.nodup_append.1 h1).1
  rw [subsOf_sub] at hnd
  have hab : a ≠ b := (List.nodup_append.1 hnd).2.2 a ha b (List.mem_singleton_self b)
  have hbd : b ∉ donesOf p → False := fun hbd => by
    rw [live_sub hbd, List.length_append] at hb
    have := List.length_pos_of_mem (mem_live.2 ⟨ha, hd⟩)
    simp at hb
    simp [hb] at this
  -- `b` has not ended before it was subscribed
  refine hbd fun hbd => ?_
  obtain ⟨x, hx, hxb⟩ := List.mem_filterMap.1 hbd
  obtain ⟨p₁, p₂, rfl⟩ := List.append_of_mem hx
  cases x with
  | sub _ => cases hxb
  | out _ _ => cases hxb
  | done c =>
    simp only [Log.asDone, Option.some.injEq] at hxb
    subst hxb
    have := hi.ended p₁ c (p₂ ++ .sub c :: q) (by rw [h]; simp)
    refine (List.nodup_append.1 hnd).2.2 c ?_ c (List.mem_singleton_self c) rfl
    simp only [subsOf, List.filterMap_append] at this ⊢
    exact List.mem_append_left _ this

/-- With a limit of one, all others have ended when a value is delivered. -/
theorem alone {log : List (Log I E)} (hi : Base 1 tidy clean c d closed queue opened log arrived upCompleted)
    {p q : List (Log I E)} {b : Nat} {v : I} (h : log = p ++ .out (some b) (.next v) :: q) :
    b ∈ live p ∧ ∀ a ∈ subsOf p, a ≠ b → a ∈ donesOf p := by
  have hbl := hi.source p b v q h
  refine ⟨hbl, fun a ha hab => Classical.not_not.1 fun hd => ?_⟩
  have hb := hi.bound p ⟨_, h.symm⟩
  have hal := mem_live.2 ⟨ha, hd⟩
  match hlv : live p with
  | [] => rw [hlv] at hbl; cases hbl
  | [c] =>
    rw [hlv] at hbl hal
    exact hab ((List.mem_singleton.1 hal).trans (List.mem_singleton.1 hbl).symm)
  | _ :: _ :: _ => rw [hlv] at hb; simp at hb

/-- With a limit of one, a value delivered is one of the latest subscribed. -/
theorem latest {log : List (Log I E)} (hi : Base 1 tidy clean c d closed queue opened log arrived upCompleted)
    {p q : List (Log I E)} {b : Nat} {v : I} (h : log = p ++ .out (some b) (.next v) :: q) :
    (subsOf p).getLast? = some b := by
  have hb := hi.source p b v q h
  rcases List.eq_nil_or_concat (subsOf p) with h0 | ⟨l, c, hl⟩
  · have := (mem_live.1 hb).1
    rw [h0] at this
    cases this
  · rw [List.concat_eq_append] at hl
    rw [hl, List.getLast?_concat]
    refine congrArg some (Classical.not_not.1 fun hcb => ?_)
    obtain ⟨l₁, l₂, hp, h1, h2⟩ := List.filterMap_eq_append_iff.1 hl
    obtain ⟨l₃, x, l₄, rfl, h3, h4, h5⟩ := List.filterMap_eq_cons_iff.1 h2
    cases x with
    | done _ => cases h4
    | out _ _ => cases h4
    | sub c' =>
      simp only [Log.asSub, Option.some.injEq] at h4
      subst h4
      have hbm := (mem_live.1 hb).1
      rw [hl, List.mem_append, List.mem_singleton] at hbm
      have hbl := hbm.resolve_right fun h => hcb h.symm
      have := hi.one_after (p := l₁ ++ l₃) (b := c') (q := l₄ ++ .out (some b) (.next v) :: q) (by rw [h, hp]; simp) b
        (by
          simp only [subsOf, List.filterMap_append, List.mem_append]
          exact .inl (h1 ▸ hbl))
      refine (mem_live.1 hb).2 ?_
      rw [hp]
      simp only [donesOf, List.filterMap_append, List.mem_append] at this ⊢
      rcases this with h | h
      · exact .inl h
      · exact .inr (.inl h)

end Base

end Rx.HigherOrder
