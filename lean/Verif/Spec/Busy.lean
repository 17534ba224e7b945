import Verif.Spec.Sending

/-!
# How long a sender is busy, and how a transmission ends
-/

namespace Infrared.Spec

/-- The number of ones in a word. -/
def ones {n : Nat} (w : BitVec n) : Nat := ((List.range n).filter fun i => w.getLsbD i).length

/-- Microseconds from the beginning of the header to the beginning of the stop mark of a NEC frame with `k` ones. -/
def necMicros (headerMark headerSpace k : Nat) : Nat :=
  headerMark + headerSpace + k * (560 + 1690) + (32 - k) * (560 + 560)

/-- `t` is the number of ticks of `n` durations, `us` microseconds together, at `f` Hz, each rounded down (and the
frequency rounded down to whole kHz). -/
def TicksOfAll (n us f t : Nat) : Prop :=
  t * 1000000 ≤ us * f ∧ us * f < (t + n) * 1000000 + us * 1000

/-- A freshly loaded sender is not idle (ignores loads) exactly from its first to its `n`-th tick. -/
def BusyFor (s : Sender) (n : Nat) : Prop :=
  ∀ k, (s.ticks k).buffer.status = .idle ↔ k = 0 ∨ n < k

/-- After `t` ticks the output changes to `level`, and then it is what a buffer with the contents `rest` makes of it;
afterwards it stays off. -/
def TrailsOff (s : Sender) (t : Nat) (level : Bool) (rest : List Nat) : Prop :=
  0 < t ∧ ∀ m, t ≤ m → (s.pins m)[t - 1]? = some (!level) ∧
    (s.pins m).drop t = (heldLevels level rest ++ List.replicate m false).take (m - t)

end Infrared.Spec
