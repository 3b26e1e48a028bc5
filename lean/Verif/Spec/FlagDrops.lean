import Verif.Model.FlagDrops

/-!
# `take` and `element_at`: what the destination was given
-/

namespace Rx.FlagDrops

variable {I E : Type}

/-- The values the destination was given. -/
def values (l : List (SubscriberNotification I E)) : List I := l.filterMap fun | .next v => some v | _ => none

end Rx.FlagDrops
