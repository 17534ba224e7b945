/-!
# A receiver module that swallows short pulses

Between a sender and the pin of a receiver there is a demodulating module.  It needs a number of cycles of the carrier
before it recognises a mark; shorter marks do not come through.
-/

namespace Infrared.Spec

/-- What comes through if marks of fewer than `n` ticks are swallowed; `run` ticks of a mark have been seen so far. -/
def swallow (n : Nat) : (run : Nat) → List Bool → List Bool
  | run, [] => List.replicate run (decide (n ≤ run))
  | run, true :: ls => swallow n (run + 1) ls
  | run, false :: ls => List.replicate run (decide (n ≤ run)) ++ false :: swallow n 0 ls

end Infrared.Spec
