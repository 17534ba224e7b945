import Verif.Model.Arith

/-!
# Clocks, tolerance intervals and pulse classification

Models `/repo/src/protocol/utils.rs`, `/repo/src/receiver/time.rs`,
`/repo/src/receiver/time/primitives.rs`, `/repo/src/receiver/time/fgt.rs`.
-/

namespace Infrared

/-- The loop and final division of `scale_with_samplerate`, `protocol/utils.rs:4-9`:
`while len.checked_mul(samplerate).is_none() { div /= 1000; samplerate /= 1000 }`,
then `(len * samplerate) / div`.  `none` is the division-by-zero panic.  The recursion is
well-founded because `len * 0` always fits. -/
def scaleLoop (len samplerate div : Nat) : Option Nat :=
  if len * samplerate < 2 ^ 32 then
    if div = 0 then none else some (len * samplerate / div)
  else
    scaleLoop len (samplerate / 1000) (div / 1000)
termination_by samplerate
decreasing_by
  have : samplerate ≠ 0 := by
    intro h; subst h; simp at *
  omega

/-- `scale_with_samplerate`, `protocol/utils.rs:1-10`. -/
def scaleWithSamplerate (len samplerate : Nat) : Option Nat :=
  scaleLoop len samplerate 1000000

/-- `Span<Dur>`, `receiver/time.rs:26-30`; durations are tick counts. -/
structure Span where
  low : Nat
  high : Nat
deriving Repr, DecidableEq

/-- `Span::contains`, `receiver/time.rs:84-86`. -/
def Span.contains (s : Span) (d : Nat) : Bool := decide (s.low ≤ d) && decide (d ≤ s.high)

/-- `Span::overlaps`, `receiver/time.rs:88-90`. -/
def Span.overlaps (s o : Span) : Bool := s.contains o.low || s.contains o.high

/-- `Span::<u32>::new`, `receiver/time/primitives.rs:37-43`.  `Span::<u64>::new`
(`receiver/time/primitives.rs:52-61`) performs the same `u32` arithmetic and then widens. -/
def Span.newU32 (t : Target) (base tol : Nat) : Option Span := do
  let m ← umul t 32 base tol
  let tol := m / 100
  let low ← usub t 32 base tol
  let high ← uadd t 32 base tol
  some { low, high }

/-- `Span::<u32>::scaled` / `Span::<u64>::scaled`, `receiver/time/primitives.rs:45-48,62-65`. -/
def Span.scaled (t : Target) (pulse freq tol : Nat) : Option Span := do
  let base ← scaleWithSamplerate pulse freq
  Span.newU32 t base tol

/-- `trait InfraMonotonic`, `receiver/time.rs:7-24`.  Durations and instants are `Nat`
tick counts; `ZERO_DURATION` and `ZERO_INSTANT` are `0` in all instances. -/
structure Mono where
  /-- bit width of the tick counter -/
  width : Nat
  /-- `Duration + Duration` -/
  add : Target → Nat → Nat → Option Nat
  /-- `checked_sub` -/
  checkedSub : Nat → Nat → Option Nat
  /-- `create_span(freq, p, t)` -/
  createSpan : Target → (freq p tol : Nat) → Option Span

/-- `u32::checked_sub` / `u64::checked_sub`. -/
def checkedSubPrim (a b : Nat) : Option Nat := if b ≤ a then some (a - b) else none

/-- `impl InfraMonotonic for u32`, `receiver/time/primitives.rs:6-19`. -/
def Mono.u32 : Mono where
  width := 32
  add t a b := uadd t 32 a b
  checkedSub := checkedSubPrim
  createSpan t freq p tol := Span.scaled t p freq tol

/-- `impl InfraMonotonic for u64`, `receiver/time/primitives.rs:21-34`. -/
def Mono.u64 : Mono where
  width := 64
  add t a b := uadd t 64 a b
  checkedSub := checkedSubPrim
  createSpan t freq p tol := Span.scaled t p freq tol

/-- `impl InfraMonotonic for fugit::Instant<u32/u64, NOM, DENOM>`,
`receiver/time/fgt.rs:5-28,30-54`.  fugit's source is not part of the repository:
`micros` (conversion of microseconds to ticks) and `since` (`checked_duration_since`) are
parameters; `Duration + Duration` and `Duration - Duration` are assumed to panic on
overflow in every profile, `Duration * u32` to follow the profile.  `freq` is ignored. -/
def Mono.fugit (width : Nat) (micros : Nat → Option Nat) (since : Nat → Nat → Option Nat) :
    Mono where
  width := width
  add _ a b := if a + b < 2 ^ width then some (a + b) else none
  checkedSub := since
  createSpan t _freq p tol := do
    let base ← micros p
    let m ← umul t width base tol
    let tol := m / 100
    if tol ≤ base ∧ base + tol < 2 ^ width then some { low := base - tol, high := base + tol }
    else none

/-- `PulseSpans<Mono>`, `receiver/time.rs:32-35` (the array has 8 entries). -/
structure PulseSpans where
  spans : List Span
deriving Repr, DecidableEq

/-- `PulseSpans::new`, `receiver/time.rs:41-54`: `create_span` on the eight
(pulse, tolerance) pairs in order. -/
def PulseSpans.new (t : Target) (m : Mono) (freq : Nat) (pulse tol : List Nat) :
    Option PulseSpans := do
  let spans ← (List.zip pulse tol).mapM fun pt => m.createSpan t freq pt.1 pt.2
  some { spans }

/-- `PulseSpans::get::<usize>`, `receiver/time.rs:56-61`: index of the first interval
containing the duration (`position`). -/
def PulseSpans.get (ps : PulseSpans) (d : Nat) : Option Nat :=
  ps.spans.findIdx? fun s => s.contains d

/-- `PulseSpans::check_overlaps`, `receiver/time.rs:63-77`: the double loop over `i ≠ j`. -/
def PulseSpans.checkOverlaps (ps : PulseSpans) : Bool :=
  (List.range ps.spans.length).any fun i =>
    (List.range ps.spans.length).any fun j =>
      i != j &&
        match ps.spans[i]?, ps.spans[j]? with
        | some a, some b => a.overlaps b
        | _, _ => false

end Infrared
