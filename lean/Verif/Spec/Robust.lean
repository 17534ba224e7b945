import Verif.Spec.Run

/-!
# Vocabulary for statements about robustness
-/

namespace Infrared.Spec

/-- Mark + space sums a pulse-distance receiver has to compute, without reduction. -/
def sumsFrom : (saved : Nat) → List Ev → List Nat
  | _, [] => []
  | _, (false, dt) :: es => sumsFrom dt es
  | saved, (true, dt) :: es => (saved + dt) :: sumsFrom 0 es

/-- The sums of a history starting at power-up. -/
def sums (evs : List Ev) : List Nat := sumsFrom 0 evs

/-- A duration that matches no interval of the table. -/
def Gap (tbl : PulseSpans) (d : Nat) : Prop := ∀ i, ¬ InTol tbl i d

end Infrared.Spec
