import Verif.Spec.Latency
import Verif.Spec.Examples

/-!
# How close together results can be
-/

namespace Infrared.Spec

variable {K : Type}

/-- Every result `r` comes at least `need r` microseconds after the one before it (the first one: after the time `t`), by
a clock with `f` ticks per second. -/
def SpacedBy (f : Nat) (need : Res K → Nat) : (t : Nat) → List (Nat × Res K) → Prop
  | _, [] => True
  | t, (t', r) :: xs => need r * f ≤ 1000000 * (t' - t) ∧ t ≤ t' ∧ SpacedBy f need t' xs

/-- The same time for all results. -/
def always (us : Nat) : Res K → Nat := fun _ => us

/-- One time for the results that satisfy `p`, another for all others. -/
def forThose (p : Res K → Bool) (yes no : Nat) : Res K → Nat := fun r => if p r then yes else no

/-- Is it a command (not an error)? -/
def isCommand : Res K → Bool
  | .ok (some _) => true
  | _ => false

/-- Is it a command that satisfies `p`? -/
def isCommandWith (p : K → Bool) : Res K → Bool
  | .ok (some c) => p c
  | _ => false

/-- The main loop of `polled.rs` gets a turn at least once in `n` timer interrupts, and one at the end; `k` interrupts have
come since its last turn. -/
def TurnsEvery (n : Nat) : (k : Nat) → List PolledAct → Prop
  | k, [] => k = 0
  | k, .timer _ :: acts => k + 1 ≤ n ∧ TurnsEvery n (k + 1) acts
  | _, .main :: acts => TurnsEvery n 0 acts

end Infrared.Spec
