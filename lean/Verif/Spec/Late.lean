import Verif.Spec.Sampling

/-!
# Edges handled late, polls that are not evenly spaced

A program does not always get to look at the clock the moment an edge arrives (interrupts are delayed by other
interrupts), and polls do not always happen exactly one polling period apart.
-/

namespace Infrared.Spec

/-- What a receiver measures for edges whose distances are given in units of `1 / u` seconds, the first one counted
from time `t`, when an edge at time `t` finds the clock at `read t`. -/
def clockedBy (read : Nat → Nat) : (t : Nat) → List (Bool × Nat) → List Ev
  | _, [] => []
  | t, (edge, x) :: es => (edge, read (t + x) - read t) :: clockedBy read (t + x) es

/-- What a receiver measures with a clock of `f` Hz if an edge at time `t` is handled `late t` units of time after it
happened. -/
def handled (u f phase : Nat) (late : Nat → Nat) (t : Nat) (es : List (Bool × Nat)) : List Ev :=
  clockedBy (fun t => reading u f phase (t + late t)) t es

/-- Level found by poll number `k` if it happens at `(k * u + delay k - phase) / f` units of `1 / u` seconds. -/
def unevenAt (u f phase : Nat) (delay : Nat → Nat) : (level : Bool) → (t : Nat) → List (Bool × Nat) → (k : Nat) → Bool
  | level, _, [], _ => level
  | level, t, (b, x) :: es, k =>
    if (t + x) * f + phase < k * u + delay k then unevenAt u f phase delay b (t + x) es k else level

/-- What polls number 1 to `n` find on a line that is low at first, poll `k` happening `delay k` (in units of
`1 / (u * f)` seconds) after its turn. -/
def unevenly (u f phase : Nat) (delay : Nat → Nat) (es : List (Bool × Nat)) (n : Nat) : List Bool :=
  (List.range n).map fun i => unevenAt u f phase delay false 0 es (i + 1)

/-- Number of those polls that happen at or before time `t`. -/
def pollsBefore (u f phase : Nat) (delay : Nat → Nat) (t : Nat) : Nat :=
  if t * f + phase < reading u f phase t * u + delay (reading u f phase t) then reading u f phase t - 1
  else reading u f phase t

end Infrared.Spec
