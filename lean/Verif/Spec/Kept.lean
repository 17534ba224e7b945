import Verif.Spec.Session
import Verif.Spec.Sending

/-!
# Which commands a sender of any protocol takes

The buffer of a sender keeps what earlier commands left behind the end of the last one, and this is sent as well.  So the
time for which a command keeps the sender busy depends on the commands before.
-/

namespace Infrared.Spec

variable {A : Type}

/-- The durations in the buffer after a command that has the waveform `wave`. -/
def overwrite (wave buf : List Nat) : List Nat := wave ++ buf.drop wave.length

/-- `d` ticks after a command was loaded that made the buffer `buf`, another one is ignored: from the first edge to the end
of the transmission. -/
def Ignores (buf : List Nat) (d : Nat) : Prop := buf.headD 0 < d ∧ d ≤ (transmission buf).length

instance (buf : List Nat) (d : Nat) : Decidable (Ignores buf d) := by unfold Ignores; infer_instance

/-- The command `c` was taken `d` ticks ago and made the buffer `buf`; then come the others, each with the number of ticks
after it. -/
def keptFrom (wave : A → List Nat) (buf : List Nat) (c : A) (d : Nat) : List (A × Nat) → List (A × Nat)
  | [] => [(c, d)]
  | x :: l =>
    if Ignores buf d then keptFrom wave buf c (d + x.2) l
    else (c, d) :: keptFrom wave (overwrite (wave x.1) buf) x.1 x.2 l

/-- The commands that are not ignored, each with the number of ticks until the next one that is not, or until the end. -/
def kept (wave : A → List Nat) (buf : List Nat) : List (A × Nat) → List (A × Nat)
  | [] => []
  | x :: l => keptFrom wave (overwrite (wave x.1) buf) x.1 x.2 l

/-- A key press: a command, the number of ticks after it, and further commands (as of a key that bounces), each with the
number of ticks after it. -/
structure Press (A : Type) where
  cmd : A
  first : Nat
  more : List (A × Nat)

/-- What the sender is given. -/
def Press.loads (p : Press A) : List (A × Nat) := (p.cmd, p.first) :: p.more

/-- The number of ticks until the next press. -/
def Press.ticks (p : Press A) : Nat := p.first + sessionTicks p.more

/-- The further commands come after the first tick and not more than `n` ticks after the first command. -/
def Press.Within (p : Press A) (n : Nat) : Prop :=
  0 < p.first ∧ ∀ i < p.more.length, p.first + sessionTicks (p.more.take i) ≤ n

end Infrared.Spec
