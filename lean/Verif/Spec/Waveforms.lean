import Verif.Spec.Manchester
import Verif.Spec.Frames

/-!
# Waveforms to be sent

Lists of durations in ticks: entry 0 is the time before the first rising edge (0), then marks and
spaces alternate.  Written from the protocol documentation.
-/

namespace Infrared.Spec

/-- `enc` overwrites exactly a prefix of its slice with `wave` and returns the length of `wave`;
it panics exactly if the slice is shorter than that. -/
def Writes (enc : List Nat → Option (List Nat × Nat)) (wave : List Nat) : Prop :=
  ∀ b, enc b = if wave.length ≤ b.length then some (wave ++ b.drop wave.length, wave.length)
    else none

/-- NEC family: header mark and space, then for each bit, least significant first, a mark and a
short or long space. -/
def necWave (headerMark headerSpace mark zeroSpace oneSpace : Nat) (w : BitVec 32) : List Nat :=
  [0, headerMark, headerSpace] ++
    (List.range 32).flatMap fun i => [mark, if w.getLsbD i then oneSpace else zeroSpace]

/-- A Manchester waveform with half-bits of `len` ticks: the time before the first edge is 0. -/
def manchesterWave (len : Nat) (edges : List (Bool × Nat)) : List Nat :=
  match edges with
  | [] => []
  | _ :: es => 0 :: es.map fun e => e.2 * len

/-- RC5: the edges of the 14-bit word. -/
def rc5Wave (len : Nat) (w : BitVec 14) : List Nat := manchesterWave len (rc5Edges w)

/-- RC6: the edges of the mode 0 transmission, followed by silence (so that a final mark is
ended). -/
def rc6Wave (len : Nat) (w : BitVec 16) (toggle : Bool) : List Nat :=
  manchesterWave len (edgesFrom false 0 (rc6LevelsMode 0 w toggle ++ List.replicate 6 false))

/-- `t` is the number of ticks of `us` microseconds at `f` Hz, rounded down, when the frequency
itself is first rounded down to whole kHz. -/
def TicksOf (us f t : Nat) : Prop :=
  t * 1000000 ≤ us * f ∧ us * f < (t + 1) * 1000000 + us * 1000

end Infrared.Spec
