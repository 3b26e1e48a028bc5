import Verif.Model.BevyDestinations
import Verif.Spec.Released

/-!
# What a destination has to do, in terms of what happened
-/

namespace Rx.Deliver

variable {W T N : Type}

abbrev Line (T N : Type) := List (Mark T N × Nat)

/-- The notifications sent to the destination, in order. -/
def sent (τ : Line T N) : List N := τ.filterMap fun m => match m.1 with | .sent n => some n | _ => none

/-- The notifications whose time came, in order. -/
def ran (τ : Line T N) : List N := τ.filterMap fun m => match m.1 with | .ran n => some n | _ => none

/-- The notifications whose time came while the target existed, if it is there at first. -/
def handled : (exists_ : Bool) → Line T N → List N
  | _, [] => []
  | b, (.sent _, _) :: τ => handled b τ
  | true, (.ran n, _) :: τ => n :: handled true τ
  | false, (.ran _, _) :: τ => handled false τ
  | _, (.world t, _) :: τ => handled t.isSome τ

/-- What one of the things that happen makes of writer and target. -/
def effect (write : W → T → N → W × T) (x : W × Option T) : Mark T N → W × Option T
  | .sent _ => x
  | .ran n => match x.2 with
    | some t => ((write x.1 t n).1, some (write x.1 t n).2)
    | none => x
  | .world t => (x.1, t)

/-- Writer and target in the end. -/
def outcome (write : W → T → N → W × T) (x : W × Option T) (τ : Line T N) : W × Option T :=
  τ.foldl (fun x m => effect write x m.1) x

end Rx.Deliver
