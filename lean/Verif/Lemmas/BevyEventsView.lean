import Verif.Spec.BevyEvents

/-!
# One subscription to the events of an entity, seen apart from the others
-/

set_option linter.unusedSimpArgs false

namespace Rx.Events

open Rx.Closing (Dest)

/-- What concerns the `k`-th subscription. -/
structure View (S I E : Type) where
  known : Bool
  alive : Bool
  dest : S
  sat : Nat
  queue : List Act
  active : Nat
  invokable : Nat
  invoked : Nat
  cmds : List Cmd
  given : List (SubscriberNotification I E)
  seen : Seen I E
  starts : Nat

/-- How often the satellite of the `k`-th subscription is spawned. -/
def starts (k : Nat) (tr : List (Mark I E)) : Nat := tr.countP fun m => match m with | .started j => j = k | _ => false

def view (k : Nat) (w : World S I E) : View S I E where
  known := Nat.blt k w.size
  alive := w.alive (w.target k)
  dest := w.dest k
  sat := w.sats.count k
  queue := w.queue.filter (·.of k)
  active := w.active.count k
  invokable := w.invokable.count k
  invoked := w.invoked.count k
  cmds := w.cmds.filter (·.of k)
  given := given k w.trace
  seen := seen k (w.target k) w.trace
  starts := starts k w.trace

def times (f : α → α) : Nat → α → α
  | 0, x => x
  | n + 1, x => times f n (f x)

namespace View

def give (D : Dest S I E) (k : Nat) (n : SubscriberNotification I E) (v : View S I E) : View S I E :=
  if D.isClosed v.dest then v
  else { v with
    dest := D.push v.dest n
    queue := v.queue ++ (if D.isClosed (D.push v.dest n) then teardown k else [])
    given := v.given ++ [n] }

def act (v : View S I E) : Act → View S I E
  | .add _ => { v with active := v.active + 1 }
  | .addInvoked _ => { v with invokable := v.invokable + 1 }
  | .invoke _ => { v with invoked := v.invoked + 1 }
  | .cancel _ => { v with active := 0 }

def runInvoked (k : Nat) (v : View S I E) : View S I E :=
  if v.invokable ≠ 0 then { v with invokable := 0, cmds := v.cmds ++ [.despawn k] } else v

def offer (ns : List (SubscriberNotification I E)) (v : View S I E) : View S I E :=
  { v with seen := { v.seen with offers := v.seen.offers ++ ns } }

def despawnSat (D : Dest S I E) (k : Nat) (v : View S I E) : View S I E :=
  if v.sat ≠ 0 then ({ v with sat := 0 }.offer [.complete]).give D k .complete else v

def start (v : View S I E) : View S I E :=
  { v with
    sat := v.sat + 1
    starts := v.starts + 1
    seen := { v.seen with started := true, offers := v.seen.offers ++ (if v.seen.alive then [] else [.complete]) } }

def apply (D : Dest S I E) (k : Nat) (v : View S I E) : Cmd → View S I E
  | .spawn _ => if v.alive then v.start else v.start.give D k .complete
  | .despawn _ => v.despawnSat D k

def doomed (v : View S I E) : View S I E :=
  { v with
    alive := false
    sat := 0
    seen := { v.seen with alive := false, offers := v.seen.offers ++ (if v.seen.started then [.complete] else []) } }

def born (v : View S I E) : View S I E := { v with alive := true, seen := { v.seen with alive := true } }

def work (k : Nat) (v : View S I E) : View S I E :=
  if v.active ≠ 0 then { v with active := 0, queue := v.queue ++ [.addInvoked k], cmds := v.cmds ++ [.spawn k] } else v

/-- What may happen to the view of the `k`-th subscription. -/
inductive Step (D : Dest S I E) (k : Nat) : Op I → View S I E → View S I E → Prop
  | same (v) (op) (h : op ≠ .drain) (h1 : op ≠ .reap) (h2 : op ≠ .flush) (h3 : op ≠ .work k) : Step D k op v v
  | born (v) : Step D k .spawn v v.born
  | doomed (v) (e) : Step D k (.despawn e) v (times (give D k .complete) v.sat v.doomed)
  | event (v) (e x) (h : v.alive = true) : Step D k (.trigger e x) v
      (times (give D k (.next x)) v.sat (v.offer (if v.seen.started then [.next x] else [])))
  | unsubscribe (v) (h : v.known = true) : Step D k (.unsubscribe k) v ((v.offer [.unsubscribe]).give D k .unsubscribe)
  | kill (v) : Step D k (.kill k) v (v.despawnSat D k)
  | drain (v) : Step D k .drain v (v.queue.foldl act { v with queue := [] })
  | work (v) : Step D k (.work k) v (v.work k)
  | reap (v) : Step D k .reap v (times (runInvoked k) v.invoked { v with invoked := 0 })
  | flush (v) : Step D k .flush v (v.cmds.foldl (apply D k) { v with cmds := [] })

end View

variable {D : Dest S I E}

theorem given_snoc (k : Nat) (tr : List (Mark I E)) (m : Mark I E) :
    given k (tr ++ [m]) = given k tr ++ given k [m] := by simp [given, List.filterMap_append]

theorem seen_snoc (k e : Nat) (tr : List (Mark I E)) (m : Mark I E) :
    seen k e (tr ++ [m]) = (seen k e tr).see k e m := by simp [seen]

theorem starts_snoc (k : Nat) (tr : List (Mark I E)) (m : Mark I E) :
    starts k (tr ++ [m]) = starts k tr + starts k [m] := by simp [starts, List.countP_append]

theorem teardown_filter_ne {j k : Nat} (h : j ≠ k) : (teardown j).filter (·.of k) = [] := by
  simp [teardown, Act.of, h]

theorem teardown_filter_self (k : Nat) : (teardown k).filter (·.of k) = teardown k := by
  simp [teardown, Act.of]

theorem count_filter_ne_self (l : List Nat) (k : Nat) : (l.filter (· ≠ k)).count k = 0 :=
  List.count_eq_zero.2 (by simp)

theorem view_give_ne (n : SubscriberNotification I E) (w : World S I E) {j k : Nat} (h : j ≠ k) :
    view k (w.give D n j) = view k w := by
  unfold World.give
  split
  · rfl
  · simp only [view, given_snoc, seen_snoc, starts_snoc, Seen.see, List.filter_append]
    have h2 : (if D.isClosed (D.push (w.dest j) n) = true then teardown j else []).filter (·.of k) = [] := by
      split
      · exact teardown_filter_ne h
      · rfl
    rw [h2]
    have h3 : ¬k = j := fun hh => h hh.symm
    simp [given, starts, set, h, h3]

theorem view_give (n : SubscriberNotification I E) (w : World S I E) (k : Nat) :
    view k (w.give D n k) = (view k w).give D k n := by
  unfold World.give View.give
  by_cases hc : D.isClosed (w.dest k) = true
  · simp [view, hc]
  · have hc2 : ¬D.isClosed (view k w).dest = true := hc
    rw [if_neg hc, if_neg hc2]
    simp only [view, given_snoc, seen_snoc, starts_snoc, Seen.see, List.filter_append]
    have h2 : (if D.isClosed (D.push (w.dest k) n) = true then teardown k else []).filter (·.of k)
        = if D.isClosed (D.push (w.dest k) n) = true then teardown k else [] := by
      split
      · exact teardown_filter_self k
      · rfl
    rw [h2]
    simp [given, starts, set]
    rfl

theorem times_comm (f : α → α) (n : Nat) (x : α) : times f n (f x) = f (times f n x) := by
  induction n generalizing x with
  | zero => rfl
  | succ n ih => exact ih (f x)

theorem view_gives (n : SubscriberNotification I E) (k : Nat) (l : List Nat) (w : World S I E) :
    view k (l.foldl (World.give D n) w) = times (View.give D k n) (l.count k) (view k w) := by
  induction l generalizing w with
  | nil => rfl
  | cons j l ih =>
    rw [List.foldl_cons, ih]
    by_cases h : j = k
    · subst h
      rw [view_give, List.count_cons_self, times]
    · rw [view_give_ne n w h, List.count_cons_of_ne h]

theorem view_act_ne (w : World S I E) (a : Act) {k : Nat} (h : a.of k = false) : view k (w.act a) = view k w := by
  cases a with
  | cancel j =>
    simp [Act.of] at h
    simp only [World.act, view]
    rw [List.count_filter (by simpa using fun hh : k = j => h hh.symm)]
  | _ => simp [Act.of] at h; simp [World.act, view, List.count_append, h]

theorem view_act (w : World S I E) (a : Act) {k : Nat} (h : a.of k = true) : view k (w.act a) = (view k w).act a := by
  cases a with
  | cancel j =>
    simp [Act.of] at h
    subst h
    simp only [World.act, View.act, view]
    rw [count_filter_ne_self]
  | _ => simp [Act.of] at h; subst h; simp [World.act, View.act, view, List.count_append]

theorem view_acts (k : Nat) (q : List Act) (w : World S I E) :
    view k (q.foldl World.act w) = (q.filter (·.of k)).foldl View.act (view k w) := by
  induction q generalizing w with
  | nil => rfl
  | cons a q ih =>
    rw [List.foldl_cons, ih]
    by_cases h : a.of k = true
    · rw [List.filter_cons_of_pos h, List.foldl_cons, view_act w a h]
    · rw [List.filter_cons_of_neg h, view_act_ne w a (Bool.eq_false_iff.2 h)]

theorem view_runInvoked_ne (w : World S I E) {j k : Nat} (h : j ≠ k) : view k (w.runInvoked j) = view k w := by
  unfold World.runInvoked
  split
  · simp only [view]
    rw [List.count_filter (by simpa using fun hh : k = j => h hh.symm)]
    simp [Cmd.of, h]
  · rfl

theorem view_runInvoked (w : World S I E) (k : Nat) : view k (w.runInvoked k) = (view k w).runInvoked k := by
  unfold World.runInvoked View.runInvoked
  by_cases h : k ∈ w.invokable
  · have h2 : w.invokable.count k ≠ 0 := fun h3 => List.count_eq_zero.1 h3 h
    rw [if_pos h, if_pos (by simpa [view] using h2)]
    simp only [view]
    rw [count_filter_ne_self]
    simp [Cmd.of]
  · have h2 : w.invokable.count k = 0 := List.count_eq_zero.2 h
    rw [if_neg h, if_neg (by simpa [view] using h2)]

theorem view_runInvokeds (k : Nat) (l : List Nat) (w : World S I E) :
    view k (l.foldl World.runInvoked w) = times (View.runInvoked k) (l.count k) (view k w) := by
  induction l generalizing w with
  | nil => rfl
  | cons j l ih =>
    rw [List.foldl_cons, ih]
    by_cases h : j = k
    · subst h
      rw [view_runInvoked, List.count_cons_self, times]
    · rw [view_runInvoked_ne w h, List.count_cons_of_ne h]

theorem view_despawnSat_ne (w : World S I E) {j k : Nat} (h : j ≠ k) : view k (w.despawnSat D j) = view k w := by
  unfold World.despawnSat
  split
  · rw [view_give_ne _ _ h]
    simp only [view]
    rw [List.count_filter (by simpa using fun hh : k = j => h hh.symm)]
    simp [given_snoc, seen_snoc, starts_snoc, Seen.see, given, starts, h]
  · rfl

theorem view_despawnSat (w : World S I E) (k : Nat) : view k (w.despawnSat D k) = (view k w).despawnSat D k := by
  unfold World.despawnSat View.despawnSat
  by_cases h : k ∈ w.sats
  · have h2 : w.sats.count k ≠ 0 := fun h3 => List.count_eq_zero.1 h3 h
    rw [if_pos h, if_pos (by simpa [view] using h2), view_give]
    congr 1
    simp only [view, View.offer]
    rw [count_filter_ne_self]
    simp [given_snoc, seen_snoc, starts_snoc, Seen.see, given, starts]
  · have h2 : w.sats.count k = 0 := List.count_eq_zero.2 h
    rw [if_neg h, if_neg (by simpa [view] using h2)]

theorem view_started_ne (w : World S I E) {j k : Nat} (h : j ≠ k) :
    view k { w with sats := w.sats ++ [j], trace := w.trace ++ [.started j] } = view k w := by
  simp [view, given_snoc, seen_snoc, starts_snoc, Seen.see, given, starts, h, List.count_append]

theorem view_started (w : World S I E) (k : Nat) :
    view k { w with sats := w.sats ++ [k], trace := w.trace ++ [.started k] } = (view k w).start := by
  simp [view, given_snoc, seen_snoc, starts_snoc, Seen.see, given, starts, View.start, List.count_append]
  rfl

theorem view_apply_ne (w : World S I E) (c : Cmd) {k : Nat} (h : c.of k = false) :
    view k (w.apply D c) = view k w := by
  cases c with
  | spawn j =>
    have h : j ≠ k := by simpa [Cmd.of] using h
    simp only [World.apply]
    split
    · exact view_started_ne w h
    · rw [view_give_ne _ _ h]
      exact view_started_ne w h
  | despawn j => exact view_despawnSat_ne w (by simpa [Cmd.of] using h)

theorem view_apply (w : World S I E) (c : Cmd) {k : Nat} (h : c.of k = true) :
    view k (w.apply D c) = (view k w).apply D k c := by
  cases c with
  | spawn j =>
    obtain rfl : j = k := by simpa [Cmd.of] using h
    simp only [World.apply, View.apply]
    by_cases ha : w.alive (w.target j) = true
    · rw [if_pos ha, if_pos (by simpa [view] using ha)]
      exact view_started w j
    · rw [if_neg ha, if_neg (by simpa [view] using ha), view_give]
      congr 1
      exact view_started w j
  | despawn j =>
    obtain rfl : j = k := by simpa [Cmd.of] using h
    exact view_despawnSat w j

theorem view_applies (k : Nat) (q : List Cmd) (w : World S I E) :
    view k (q.foldl (World.apply D) w) = (q.filter (·.of k)).foldl (View.apply D k) (view k w) := by
  induction q generalizing w with
  | nil => rfl
  | cons a q ih =>
    rw [List.foldl_cons, ih]
    by_cases h : a.of k = true
    · rw [List.filter_cons_of_pos h, List.foldl_cons, view_apply w a h]
    · rw [List.filter_cons_of_neg h, view_apply_ne w a (Bool.eq_false_iff.2 h)]

/-- Every step but the subscribing itself, seen from the `k`-th subscription. -/
theorem view_step (k : Nat) (w : World S I E) (op : Op I) (hop : ∀ e, op = .subscribe e → w.size ≠ k) :
    View.Step D k op (view k w) (view k (w.step D op)) := by
  cases op with
  | spawn =>
    by_cases h : w.target k = w.next
    · have h1 : view k (w.step D .spawn) = (view k w).born := by
        simp [World.step, view, View.born, set, h, given_snoc, seen_snoc, starts_snoc, Seen.see, given, starts]
      rw [h1]
      exact .born _
    · have h2 : ¬w.next = w.target k := fun hh => h hh.symm
      have h1 : view k (w.step D .spawn) = view k w := by
        simp [World.step, view, set, h, h2, given_snoc, seen_snoc, starts_snoc, Seen.see, given, starts]
      rw [h1]
      exact .same _ _ (by simp) (by simp) (by simp) (by simp)
  | despawn e =>
    simp only [World.step]
    by_cases ha : w.alive e = true
    · rw [if_pos ha, view_gives]
      by_cases h : w.target k = e
      · have h1 : view k { w with
            alive := set w.alive e false
            sats := w.sats.filter (w.target · ≠ e)
            trace := w.trace ++ [.despawned e] } = (view k w).doomed := by
          simp only [view, View.doomed]
          rw [List.count_eq_zero.2 (by simp [h])]
          simp [set, h, given_snoc, seen_snoc, starts_snoc, Seen.see, given, starts]
        have h3 : (w.sats.filter (w.target · = e)).count k = (view k w).sat :=
          List.count_filter (by simpa using h)
        rw [h1, h3]
        exact .doomed _ _
      · have h2 : ¬e = w.target k := fun hh => h hh.symm
        have h1 : view k { w with
            alive := set w.alive e false
            sats := w.sats.filter (w.target · ≠ e)
            trace := w.trace ++ [.despawned e] } = view k w := by
          simp only [view]
          rw [List.count_filter (by simpa using h)]
          simp [set, h, h2, given_snoc, seen_snoc, starts_snoc, Seen.see, given, starts]
        have h3 : (w.sats.filter (w.target · = e)).count k = 0 := List.count_eq_zero.2 (by simp [h])
        rw [h1, h3]
        exact .same _ _ (by simp) (by simp) (by simp) (by simp)
    · rw [if_neg ha]
      exact .same _ _ (by simp) (by simp) (by simp) (by simp)
  | trigger e x =>
    simp only [World.step]
    by_cases ha : w.alive e = true
    · rw [if_pos ha, view_gives]
      by_cases h : w.target k = e
      · have h1 : view k { w with trace := w.trace ++ [.triggered e x] }
            = (view k w).offer (if (view k w).seen.started then [.next x] else []) := by
          simp only [view, View.offer, given_snoc, seen_snoc, starts_snoc, Seen.see, given, starts, h]
          cases hs : seen k e w.trace with
          | mk st al of => cases st <;> simp
        have h3 : (w.sats.filter (w.target · = e)).count k = (view k w).sat :=
          List.count_filter (by simpa using h)
        rw [h1, h3]
        exact .event _ _ _ (by simpa [view, h] using ha)
      · have h2 : ¬e = w.target k := fun hh => h hh.symm
        have h1 : view k { w with trace := w.trace ++ [.triggered e x] } = view k w := by
          simp [view, h2, given_snoc, seen_snoc, starts_snoc, Seen.see, given, starts]
        have h3 : (w.sats.filter (w.target · = e)).count k = 0 := List.count_eq_zero.2 (by simp [h])
        rw [h1, h3]
        exact .same _ _ (by simp) (by simp) (by simp) (by simp)
    · rw [if_neg ha]
      exact .same _ _ (by simp) (by simp) (by simp) (by simp)
  | subscribe e =>
    have hk := hop e rfl
    have hk2 : ¬k = w.size := fun hh => hk hh.symm
    have h1 : view k (w.step D (.subscribe e)) = view k w := by
      have h2 : (if D.isClosed (w.dest w.size) = true then teardown w.size else []).filter (·.of k) = [] := by
        split
        · exact teardown_filter_ne hk
        · rfl
      have h3 : Nat.blt k (w.size + 1) = Nat.blt k w.size := by
        rw [Bool.eq_iff_iff, Nat.blt_eq, Nat.blt_eq]
        omega
      simp only [World.step, view, List.filter_append]
      rw [List.filter_cons_of_neg (by simpa [Act.of] using hk), h2, h3]
      simp [set, hk2, given_snoc, seen_snoc, starts_snoc, Seen.see, given, starts]
    rw [h1]
    exact .same _ _ (by simp) (by simp) (by simp) (by simp)
  | unsubscribe j =>
    simp only [World.step]
    by_cases hj : j < w.size
    · rw [if_pos hj]
      by_cases h : j = k
      · subst h
        rw [view_give]
        have h1 : view j { w with trace := w.trace ++ [.unsubscribed j] } = (view j w).offer [.unsubscribe] := by
          simp [view, View.offer, given_snoc, seen_snoc, starts_snoc, Seen.see, given, starts]
        rw [h1]
        exact .unsubscribe _ (by simpa [view] using hj)
      · rw [view_give_ne _ _ h]
        have h1 : view k { w with trace := w.trace ++ [.unsubscribed j] } = view k w := by
          simp [view, given_snoc, seen_snoc, starts_snoc, Seen.see, given, starts, h]
        rw [h1]
        exact .same _ _ (by simp) (by simp) (by simp) (by simp)
    · rw [if_neg hj]
      exact .same _ _ (by simp) (by simp) (by simp) (by simp)
  | kill j =>
    by_cases h : j = k
    · subst h
      have h1 : view j (w.step D (.kill j)) = _ := view_despawnSat w j
      rw [h1]
      exact .kill _
    · have h1 : view k (w.step D (.kill j)) = _ := view_despawnSat_ne w h
      rw [h1]
      exact .same _ _ (by simp) (by simp) (by simp) (by simp)
  | drain =>
    have h1 : view k (w.step D .drain) = _ := view_acts k w.queue _
    rw [h1]
    exact .drain _
  | work j =>
    simp only [World.step]
    by_cases h : j = k
    · subst h
      have h1 : view j (if j ∈ w.active then { w with
          active := w.active.filter (· ≠ j)
          queue := w.queue ++ [.addInvoked j]
          cmds := w.cmds ++ [.spawn j] } else w) = (view j w).work j := by
        unfold View.work
        by_cases ha : j ∈ w.active
        · have h2 : (view j w).active ≠ 0 := fun h3 => List.count_eq_zero.1 h3 ha
          rw [if_pos ha, if_pos h2]
          simp only [view]
          rw [count_filter_ne_self]
          simp [Act.of, Cmd.of]
        · have h2 : (view j w).active = 0 := List.count_eq_zero.2 ha
          rw [if_neg ha, if_neg (by simpa using h2)]
      rw [h1]
      exact .work _
    · have h1 : view k (if j ∈ w.active then { w with
          active := w.active.filter (· ≠ j)
          queue := w.queue ++ [.addInvoked j]
          cmds := w.cmds ++ [.spawn j] } else w) = view k w := by
        split
        · simp only [view]
          rw [List.count_filter (by simpa using fun hh : k = j => h hh.symm)]
          simp [Act.of, Cmd.of, h]
        · rfl
      rw [h1]
      exact .same _ _ (by simp) (by simp) (by simp) (by simpa using h)
  | reap =>
    have h1 : view k (w.step D .reap) = _ := view_runInvokeds k w.invoked _
    rw [h1]
    exact .reap _
  | flush =>
    have h1 : view k (w.step D .flush) = _ := view_applies k w.cmds _
    rw [h1]
    exact .flush _

end Rx.Events
