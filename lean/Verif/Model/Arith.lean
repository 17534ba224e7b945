/-!
# Rust integer semantics used by the model

Panics are `none`.  Which arithmetic panics depends on the build profile, so every
operation that may overflow takes a `Target`.
-/

namespace Infrared

/-- Compilation target: is `overflow-checks` on (debug profile) and how wide is `usize`
(16 on the AVR example board, 32 on the ARM boards, 64 on hosts). -/
structure Target where
  overflowChecks : Bool
  usizeBits : Nat
deriving Repr

/-- `a + b` on a `w`-bit unsigned type: exact if it fits, else panic (checks on) or wrap. -/
def uadd (t : Target) (w a b : Nat) : Option Nat :=
  if a + b < 2 ^ w then some (a + b)
  else if t.overflowChecks then none else some ((a + b) % 2 ^ w)

/-- `a - b` on a `w`-bit unsigned type. -/
def usub (t : Target) (w a b : Nat) : Option Nat :=
  if b ≤ a then some (a - b)
  else if t.overflowChecks then none else some ((2 ^ w + a - b) % 2 ^ w)

/-- `a * b` on a `w`-bit unsigned type. -/
def umul (t : Target) (w a b : Nat) : Option Nat :=
  if a * b < 2 ^ w then some (a * b)
  else if t.overflowChecks then none else some ((a * b) % 2 ^ w)

/-- `1 << k` on a `w`-bit type: shifting by `w` or more panics (checks on) or masks the
shift amount (checks off; `w` is a power of two). -/
def shl1 (t : Target) (w k : Nat) : Option (BitVec w) :=
  if k < w then some ((1 : BitVec w) <<< k)
  else if t.overflowChecks then none else some ((1 : BitVec w) <<< (k % w))

/-- `u32::wrapping_add` (any width). -/
def wrappingAdd (w a b : Nat) : Nat := (a + b) % 2 ^ w

/-- `u32::wrapping_sub` (any width; arguments are below `2 ^ w`). -/
def wrappingSub (w a b : Nat) : Nat := (2 ^ w + a - b) % 2 ^ w

/-- `b[i] = v` on a slice: out of bounds panics. -/
def store (b : List Nat) (i v : Nat) : Option (List Nat) :=
  if i < b.length then some (b.set i v) else none

end Infrared
