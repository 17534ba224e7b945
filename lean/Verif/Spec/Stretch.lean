import Verif.Spec.Run

/-!
# Receiver modules that change the length of marks

The demodulating module in front of a receiver answers to the end of a mark sooner or later than to its beginning, so
that marks come out longer and spaces shorter, or the other way round.
-/

namespace Infrared.Spec

/-- The samples at which the line rises, numbered from `i`; `level` is the level before. -/
def rises : (i : Nat) → (level : Bool) → List Bool → List Nat
  | _, _, [] => []
  | i, level, s :: ss => if s && !level then i :: rises (i + 1) s ss else rises (i + 1) s ss

/-- The times of the rising edges among time-stamped edges. -/
def riseTimes (calls : List (Bool × Nat)) : List Nat := (calls.filter fun c => c.1).map fun c => c.2

/-- Time stamps do not decrease. -/
def Ordered : (prev : Nat) → List (Bool × Nat) → Prop
  | _, [] => True
  | prev, (_, t) :: cs => prev ≤ t ∧ Ordered t cs

/-- All falling edges come `e` later: marks are longer and spaces shorter. -/
def stretch (e : Nat) (line : List (Bool × Nat)) : List (Bool × Nat) :=
  line.map fun x => (x.1, if x.1 then x.2 - e else x.2 + e)

/-- All falling edges come `e` sooner: marks are shorter and spaces longer. -/
def shorten (e : Nat) (line : List (Bool × Nat)) : List (Bool × Nat) :=
  line.map fun x => (x.1, if x.1 then x.2 + e else x.2 - e)

end Infrared.Spec
