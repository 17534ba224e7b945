import Verif.Spec.Manchester
import Verif.Spec.Frames

/-!
# Real time

Signals with edges at arbitrary (rational) points in time, seen through a clock of `f` Hz.  Written from the
protocol documentation (nominal lengths in µs), independently of the receivers' tolerance tables.
-/

namespace Infrared.Spec

/-- Protocols by timing. -/
inductive Kind
  | nec | samsung | rc5 | rc6 | sbp | denon
deriving DecidableEq

/-- Nominal length in µs and tolerance in percent of the symbols: for NEC, Samsung sync, repeat,
zero, one; SBP sync, divider, zero, one; Denon sync, zero, one; RC5, RC6 multiples of half a bit. -/
def Kind.symbols : Kind → List (Nat × Nat)
  | .nec => [(9000 + 4500, 7), (9000 + 2250, 7), (560 + 560, 25), (560 + 1690, 12)]
  | .samsung => [(4500 + 4500, 7), (4500 + 2250, 7), (560 + 560, 25), (560 + 1690, 12)]
  | .sbp => [(4500 + 4500, 5), (500 + 4500, 5), (500 + 500, 10), (500 + 1500, 10)]
  | .denon => [(3400 + 1600, 8), (480 + 360, 10), (480 + 1200, 10)]
  | .rc5 => [(889, 12), (2 * 889, 10)]
  | .rc6 => [(444, 12), (2 * 444, 12), (3 * 444, 12), (4 * 444, 12), (5 * 444, 12), (6 * 444, 12)]

/-- Reading of a clock of `f` Hz at a time given in units of `1 / u` seconds; `phase` (below `u`) is
where the clock was between two ticks at time 0. -/
def reading (u f phase time : Nat) : Nat := (time * f + phase) / u

/-- What a receiver with that clock measures for edges whose distances are given in units of
`1 / u` seconds, the first one counted from time `t`. -/
def clocked (u f phase : Nat) : (t : Nat) → List (Bool × Nat) → List Ev
  | _, [] => []
  | t, (edge, x) :: es =>
    (edge, reading u f phase (t + x) - reading u f phase t) :: clocked u f phase (t + x) es

/-- `x` units of `1 / u` seconds are within `j` percent of `us` microseconds. -/
def Near (u j us x : Nat) : Prop :=
  (100 - j) * us * u ≤ 100000000 * x ∧ 100000000 * x ≤ (100 + j) * us * u

/-- Every period of the pulses (mark and space in units of `1 / u` seconds) is within `j` percent of
its nominal length in microseconds. -/
def NearPeriods (u j : Nat) (us : List Nat) (ps : List (Nat × Nat)) : Prop :=
  ps.length = us.length ∧
    ∀ (i : Nat) (p : Nat × Nat) (l : Nat), ps[i]? = some p → us[i]? = some l → Near u j l (p.1 + p.2)

/-- Every period of the pulses lies between the given percentages (depending on the symbol, i.e. on
its nominal length in microseconds) of its nominal length. -/
def PeriodsBetween (u : Nat) (lim : Nat → Nat × Nat) (us : List Nat) (ps : List (Nat × Nat)) : Prop :=
  ps.length = us.length ∧
    ∀ (i : Nat) (p : Nat × Nat) (l : Nat), ps[i]? = some p → us[i]? = some l →
      (lim l).1 * l * u ≤ 100000000 * (p.1 + p.2) ∧ 100000000 * (p.1 + p.2) ≤ (lim l).2 * l * u

/-- What a NEC-family receiver of 20 kHz or more tolerates, in percent: zeros of 80 to 114, ones of 91
to 106, sync pulses of 94 to 105. -/
def necLimits (l : Nat) : Nat × Nat :=
  if l = 560 + 560 then (80, 114) else if l = 560 + 1690 then (91, 106) else (94, 105)

/-- Periods in µs of a NEC-family frame. -/
def necPeriods (sync : Nat) (w : BitVec 32) : List Nat :=
  sync :: (List.range 32).map fun i => if w.getLsbD i then 560 + 1690 else 560 + 560

/-- Periods in µs of an SBP frame. -/
def sbpPeriods (a : BitVec 16) (w : BitVec 20) : List Nat :=
  [4500 + 4500] ++ (List.range 16).map (fun i => if a.getLsbD i then 500 + 1500 else 500 + 500) ++
    [500 + 4500] ++ (List.range 20).map (fun i => if w.getLsbD i then 500 + 1500 else 500 + 500)

/-- Periods in µs of a Denon frame. -/
def denonPeriods (w : BitVec 48) : List Nat :=
  [3400 + 1600] ++ (List.range 48).map fun i => if w.getLsbD i then 480 + 1200 else 480 + 360

end Infrared.Spec
