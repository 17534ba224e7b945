import Verif.Spec.Session
import Verif.Spec.Latency
import Verif.Spec.Relay

/-!
# When the commands of a session are complete on the line, and reported
-/

namespace Infrared.Spec

variable {A K : Type}

/-- When each command of a session is complete on the line, if the first one is loaded at time `t`, each takes the time
`len` and the next one is loaded the given time after it. -/
def completes (len : A → Nat) : (t : Nat) → List (A × Nat) → List (Nat × A)
  | _, [] => []
  | t, (a, n) :: l => (t + len a, a) :: completes len (t + n) l

/-- The length of a NEC frame with `n` one bits, up to the end of its last bit: header, and a mark and a space for each
of 32 bits. -/
def frameTicks (headerMark headerSpace mark zeroSpace oneSpace n : Nat) : Nat :=
  headerMark + headerSpace + n * (mark + oneSpace) + (32 - n) * (mark + zeroSpace)

/-- Entries with the difference of their position from that of the next one, or from the end. -/
def distances (last : Nat) : List (Nat × K) → List (K × Nat)
  | [] => []
  | [(p, c)] => [(c, last - p)]
  | (p, c) :: (q, c') :: l => (c, q - p) :: distances last ((q, c') :: l)

end Infrared.Spec
