import Verif.Spec.Physical
import Verif.Spec.Drivers

/-!
# A real line looked at from time to time

A receiver polled `f` times per second looks at a line whose level changes at arbitrary moments.
-/

namespace Infrared.Spec

/-- Level found by poll number `k`, which happens at `(k * u - phase) / f` units of `1 / u` seconds: the direction of
the last edge before that moment.  Edges are given by direction and distance from the previous
one, the first one counted from `t`; `level` is the level before. -/
def levelAt (u f phase : Nat) : (level : Bool) → (t : Nat) → List (Bool × Nat) → (k : Nat) → Bool
  | level, _, [], _ => level
  | level, t, (b, x) :: es, k =>
    if (t + x) * f + phase < k * u then levelAt u f phase b (t + x) es k else level

/-- What polls number 1 to `n` find on a line that is low (no light) at first. -/
def polled (u f phase : Nat) (es : List (Bool × Nat)) (n : Nat) : List Bool :=
  (List.range n).map fun i => levelAt u f phase false 0 es (i + 1)

/-- What polls number 1 to `n` find on a pin that another device, working at `fs` Hz, sets to the
given levels one after the other (low afterwards): poll `k` comes `(k * fs - phase) / f` ticks after
the first level was set. -/
def looked (fs f phase : Nat) (levels : List Bool) (n : Nat) : List Bool :=
  (List.range n).map fun i => levels.getD (((i + 1) * fs - phase - 1) / f) false

/-- Time of the last edge. -/
def duration (es : List (Bool × Nat)) : Nat := (es.map Prod.snd).sum

/-- The edges alternate, beginning with a change away from `level`. -/
def Changes : (level : Bool) → List (Bool × Nat) → Prop
  | _, [] => True
  | level, (b, _) :: es => b = !level ∧ Changes b es

/-- Results other than `Ok(None)`, in order. -/
def said {K : Type} (outs : List (Res K)) : List (Res K) :=
  outs.filter fun
    | .ok none => false
    | _ => true

end Infrared.Spec
