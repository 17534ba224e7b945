import Verif.Spec.Fugit
import Verif.Spec.Manchester
import Verif.Spec.Sampling

/-!
# Lines of the wrong polarity

Infrared receiver modules pull their output low while they see light.  What a receiver of this crate gets if that is
not taken into account: high while nothing is sent, low during the marks.
-/

namespace Infrared.Spec

/-- The same edges with high and low swapped. -/
def inverted (es : List (Bool × Nat)) : List (Bool × Nat) := es.map fun e => (!e.1, e.2)

/-- Every mark and every space is within `j` percent of its nominal length in microseconds. -/
def NearPulses (u j : Nat) (nominal ps : List (Nat × Nat)) : Prop :=
  ps.length = nominal.length ∧ ∀ (i : Nat) (p q : Nat × Nat), ps[i]? = some p → nominal[i]? = some q →
    Near u j q.1 p.1 ∧ Near u j q.2 p.2

/-- Marks and spaces in µs of a NEC-family frame with the given header. -/
def necNominal (high low : Nat) (w : BitVec 32) : List (Nat × Nat) :=
  (high, low) :: (List.range 32).map fun i => (560, if w.getLsbD i then 1690 else 560)

/-- Marks and spaces in µs of an SBP frame. -/
def sbpNominal (a : BitVec 16) (w : BitVec 20) : List (Nat × Nat) :=
  [(4500, 4500)] ++ (List.range 16).map (fun i => (500, if a.getLsbD i then 1500 else 500)) ++
    [(500, 4500)] ++ (List.range 20).map (fun i => (500, if w.getLsbD i then 1500 else 500))

/-- Marks and spaces in µs of a Denon frame. -/
def denonNominal (w : BitVec 48) : List (Nat × Nat) :=
  (3400, 1600) :: (List.range 48).map fun i => (480, if w.getLsbD i then 1200 else 360)

/-- Frames and repeat codes with all marks and spaces within `j` percent. -/
def NecItem.NearPulses (u j high low rep : Nat) : NecItem → Prop
  | .frame w ps => Spec.NearPulses u j (necNominal high low w) ps
  | .rep p => Spec.NearPulses u j [(high, rep)] [p]

/-- The mark that ends a transmission, and the pause after it: at least 20 ms, and less than half of what a clock of 32
bits can count. -/
def StopAndPause (u f j mark : Nat) (p : Nat × Nat) : Prop :=
  Near u j mark p.1 ∧ 20000 * u ≤ 1000000 * p.2 ∧ p.2 * f < 2 ^ 31 * u

/-- The edges of a transmission of half-bits of `unit` microseconds, each within `j` percent, at least 16 ms after whatever
came before it, and perhaps the end of its last mark. -/
def SentApart (u j unit : Nat) (edges evs : List (Bool × Nat)) (tail : Option Nat) : Prop :=
  ManchesterFrame (fun x n => Near u j (unit * n) x) edges evs ∧ (∀ x, tail = some x → Near u j (unit * 1) x) ∧
    ∀ e, evs.head? = some e → 16000 * u ≤ 1000000 * e.2

end Infrared.Spec
