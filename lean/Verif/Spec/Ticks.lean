import Verif.Spec.Late
import Verif.Spec.Session

/-!
# A sender whose ticks are late

The timer interrupt that calls `tick` comes late now and then.
-/

namespace Infrared.Spec

/-- Tick number `k` of a timer of `fs` Hz happens at time `tick k` (in units of `1 / u` seconds): never early, at most
`late` units late, and in order. -/
def Ticking (u fs late : Nat) (tick : Nat → Nat) : Prop :=
  ∀ k, k * u ≤ tick k * fs ∧ tick k * fs ≤ k * u + late * fs ∧ tick k ≤ tick (k + 1)

/-- The line, with distances in units of `1 / u` seconds, if the pin has level `levels[k]` after tick `k`. -/
def ticked (tick : Nat → Nat) (levels : List Bool) : List (Bool × Nat) :=
  match edgesFrom false 0 levels with
  | [] => []
  | (b, k) :: es => (b, tick k) :: clockedBy tick k es

end Infrared.Spec
