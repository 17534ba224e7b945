import Verif.Spec.Sampling

/-!
# Polls that fail

A poll whose pin read fails returns the error of the pin and does not count as a poll.
-/

namespace Infrared.Spec

variable {E K : Type}

/-- What the reads of the pin return at polls number 1 to `n` of a line that is low at first: poll `k` fails with
`fails k` or finds the level of the line. -/
def failing (u f phase : Nat) (fails : Nat → Option E) (es : List (Bool × Nat)) (n : Nat) : List (Except E Bool) :=
  (List.range n).map fun i =>
    match fails (i + 1) with
    | some e => .error e
    | none => .ok (levelAt u f phase false 0 es (i + 1))

/-- Of any `w` successive polls at most `e` fail. -/
def FewFail (fails : Nat → Option E) (w e : Nat) : Prop :=
  ∀ k, ((List.range' (k + 1) w).countP fun i => (fails i).isSome) ≤ e

/-- Number of successful polls among the first `n`. -/
def goodPolls (fails : Nat → Option E) (n : Nat) : Nat := (List.range n).countP fun i => (fails (i + 1)).isNone

/-- Results other than `Ok(None)` and errors of the pin, in order. -/
def pinSaid : List (PinRes E K) → List (PinRes E K)
  | [] => []
  | .ok none :: outs => pinSaid outs
  | .error (.hal _) :: outs => pinSaid outs
  | r :: outs => r :: pinSaid outs

/-- Errors of the pin, in order. -/
def pinErrors : List (PinRes E K) → List E
  | [] => []
  | .error (.hal e) :: outs => e :: pinErrors outs
  | _ :: outs => pinErrors outs

end Infrared.Spec
