import Verif.Spec.Broken
import Verif.Spec.Inverted

/-!
# Counters that wrap around

A receiver that is given the reading of a counter at every edge loses the interval in which the counter wraps around.
This says what that does to a series of transmissions: the one that is under way is answered as if it had broken off.
-/

namespace Infrared.Spec

/-- How often a counter of `w` bits has wrapped around. -/
def laps (u f phase w t : Nat) : Nat := reading u f phase t / 2 ^ w

/-- The period, counted from 0, of a transmission that begins at `t`, in which the counter wraps around. -/
def wrapAt (u f phase w : Nat) : (t : Nat) → List (Nat × Nat) → Option Nat
  | _, [] => none
  | t, p :: ps =>
    if laps u f phase w t = laps u f phase w (t + p.1 + p.2) then
      (wrapAt u f phase w (t + p.1 + p.2) ps).map (· + 1)
    else some 0

/-- What is left of the transmissions of a series: `cut s k` if the counter wraps around in period `k` of `s`, and `s` if
it does not wrap around, or in the pause after `s`. -/
def leftOf {S : Type} (cut : S → Nat → S) (u f phase w : Nat) :
    (t : Nat) → List ((S × List (Nat × Nat)) × (Nat × Nat)) → List S
  | _, [] => []
  | t, i :: is =>
    (match wrapAt u f phase w t i.1.2 with
      | none => i.1.1
      | some k => cut i.1.1 k) ::
      leftOf cut u f phase w (t + (i.1.2.map fun p => p.1 + p.2).sum + i.2.1 + i.2.2) is

/-- NEC family: of a frame the periods before the wrap-around are left, of a repeat code nothing. -/
def necCut : NecSent → Nat → NecSent
  | .frame w _, k => .frame w k
  | .rep, _ => .frame 0 0

/-- SBP: the periods before the wrap-around are left. -/
def sbpCut (s : BitVec 16 × BitVec 20 × Nat) (k : Nat) : BitVec 16 × BitVec 20 × Nat := (s.1, s.2.1, k)

/-- Denon: the periods before the wrap-around are left. -/
def denonCut (s : BitVec 48 × Nat) (k : Nat) : BitVec 48 × Nat := (s.1, k)

/-- Marks and spaces of a transmission in µs. -/
def NecSent.nominal (high low rep : Nat) : NecSent → List (Nat × Nat)
  | .frame w k => (necNominal high low w).take k
  | .rep => [(high, rep)]

/-- The mark after a transmission and the pause: 16 ms or more, and less than the counter can count from the beginning of
the transmission to the next one. -/
def StopAndRest (u f j w mark : Nat) (ps : List (Nat × Nat)) (p : Nat × Nat) : Prop :=
  Near u j mark p.1 ∧ 16000 * u ≤ 1000000 * p.2 ∧
    ((ps.map fun p => p.1 + p.2).sum + p.1 + p.2) * f + u < 2 ^ w * u

end Infrared.Spec
