import Verif.Spec.Physical
import Verif.Spec.Streams

/-!
# What is assumed of a fugit clock

`fugit::TimerInstantU32<HZ>` / `TimerInstantU64<HZ>` are not part of the repository.  The statements about
receivers with such a clock (C63, C64) assume what fugit documents: microseconds are converted to the number of
ticks up to rounding (down, up or to nearest), and instants are compared modulo wrap-around: an instant up to half
the range ahead is later by that much, the others are in the past.
-/

namespace Infrared.Spec

/-- `n` is the number of ticks of a `hz` clock in `p` microseconds, rounded somehow. -/
def Rounded (hz p n : Nat) : Prop := 1000000 * n < p * hz + 1000000 ∧ p * hz < 1000000 * n + 1000000

/-- What is assumed of the two fugit operations the receivers use. -/
structure FugitClock (hz w : Nat) (micros : Nat → Option Nat) (since : Nat → Nat → Option Nat) :
    Prop where
  /-- `p.micros()`, for the pulse lengths that occur -/
  rounds : ∀ p ≤ 13500, ∃ n, micros p = some n ∧ Rounded hz p n
  /-- `checked_duration_since` of a later instant, across wrap-around -/
  ahead : ∀ a d, a < 2 ^ w → d < 2 ^ (w - 1) → since ((a + d) % 2 ^ w) a = some d
  /-- `checked_duration_since` of an earlier instant -/
  behind : ∀ a d, a < 2 ^ w → 2 ^ (w - 1) ≤ d → d < 2 ^ w → since ((a + d) % 2 ^ w) a = none

/-- Readings of a wrapping counter of `w` bits and `f` Hz at the edges of a signal given in units of `1 / u`
seconds, the first edge counted from time `t`. -/
def stamps (u f phase w : Nat) : (t : Nat) → List (Bool × Nat) → List (Bool × Nat)
  | _, [] => []
  | t, (edge, x) :: es => (edge, reading u f phase (t + x) % 2 ^ w) :: stamps u f phase w (t + x) es

/-- What a receiver that has seen no edge yet takes for the time before the first one, if the counter reads `s`
there: the time since 0, or 0 if the counter is in its upper half. -/
def firstGap (w s : Nat) : Nat := if s < 2 ^ (w - 1) then s else 0

/-- A NEC-family item in real time: every period within `j` percent of the documented length. -/
def NecItem.Near (u j sync rep : Nat) : NecItem → Prop
  | .frame w ps => NearPeriods u j (necPeriods sync w) ps
  | .rep p => Spec.Near u j rep (p.1 + p.2)

end Infrared.Spec
