import Verif.Spec.Fugit
import Verif.Spec.Sampling

/-!
# Clocks that are not what the receiver was told

A receiver is built for a clock of `f` Hz; the clock that is used really runs at `r` Hz.
-/

namespace Infrared.Spec

/-- The real rate `r` is within `d` percent of `f`. -/
def ClockWithin (d f r : Nat) : Prop := (100 - d) * f ≤ 100 * r ∧ 100 * r ≤ (100 + d) * f

/-- A clock `d` percent off and a transmitter `e` percent off are together at most `j` percent off. -/
def Together (d e j : Nat) : Prop :=
  100 * (100 - j) ≤ (100 - d) * (100 - e) ∧ (100 + d) * (100 + e) ≤ 100 * (100 + j)

/-- To the receiver, a time `x` seems to be between `lo` and `hi` percent of `l` microseconds. -/
def Seems (u f r lo hi l x : Nat) : Prop :=
  lo * l * (u * f) ≤ 100000000 * (x * r) ∧ 100000000 * (x * r) ≤ hi * l * (u * f)

/-- To the receiver, every period of the pulses seems to be between `lo` and `hi` percent of its nominal length. -/
def SeemPeriods (u f r lo hi : Nat) (us : List Nat) (ps : List (Nat × Nat)) : Prop :=
  ps.length = us.length ∧ ∀ (i : Nat) (p : Nat × Nat) (l : Nat), ps[i]? = some p → us[i]? = some l →
    Seems u f r lo hi l (p.1 + p.2)

def NecItem.Seems (u f r lo hi sync rep : Nat) : NecItem → Prop
  | .frame w ps => SeemPeriods u f r lo hi (necPeriods sync w) ps
  | .rep p => Spec.Seems u f r lo hi rep (p.1 + p.2)

/-- Every frame taken for a repeat code, every repeat code missed. -/
def necMistaken {C : Type} (unpack : BitVec 32 → Bool → Option C) (is : List NecItem) : List C :=
  is.filterMap fun
    | .frame _ _ => unpack 0 true
    | .rep _ => none

end Infrared.Spec
