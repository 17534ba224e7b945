import Verif.Spec.Session

/-!
# Which commands a sender takes

A sender ignores a command that it is given while it is still busy with another one.
-/

namespace Infrared.Spec

variable {A : Type}

/-- The command `c` was taken `d` ticks ago; then come the others, each with the number of ticks after it.  `busy` says for
how many ticks a command keeps the sender busy. -/
def takenFrom (busy : A → Nat) (c : A) (d : Nat) : List (A × Nat) → List (A × Nat)
  | [] => [(c, d)]
  | x :: l =>
    if d = 0 then takenFrom busy x.1 x.2 l              -- not begun yet: the new command takes its place
    else if d ≤ busy c then takenFrom busy c (d + x.2) l -- busy: the new command is lost
    else (c, d) :: takenFrom busy x.1 x.2 l

/-- The commands that are taken, each with the number of ticks until the next one that is, or until the end. -/
def taken (busy : A → Nat) : List (A × Nat) → List (A × Nat)
  | [] => []
  | x :: l => takenFrom busy x.1 x.2 l

end Infrared.Spec
