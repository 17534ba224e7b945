import Verif.Spec.Streams

/-!
# When something is said

The time at which a receiver says something, and the time at which what it says was finished on the line.
-/

namespace Infrared.Spec

variable {A C K : Type}

/-- Is it anything other than `Ok(None)`? -/
def audible : Res K → Bool
  | .ok none => false
  | _ => true

/-- The times of the edges of a line, of which each entry gives the time since the one before; the line starts at
time `t`. -/
def edgeTimes : (t : Nat) → List (Bool × Nat) → List Nat
  | _, [] => []
  | t, (_, x) :: es => (t + x) :: edgeTimes (t + x) es

/-- The results other than `Ok(None)` of a receiver that is called at every edge of a line, with the time of the edge
at which it was called. -/
def timedSaid (t : Nat) (es : List (Bool × Nat)) (outs : List (Res K)) : List (Nat × Res K) :=
  ((edgeTimes t es).zip outs).filter fun x => audible x.2

/-- The results other than `Ok(None)` of a series of calls, with the number of the call; the first call has number
`k`. -/
def numberedSaid (k : Nat) (outs : List (Res K)) : List (Nat × Res K) :=
  ((List.range' k outs.length).zip outs).filter fun x => audible x.2

/-- How long a series of pulses (mark and space) takes. -/
def lasting (ps : List (Nat × Nat)) : Nat := (ps.map fun p => p.1 + p.2).sum

/-- When each item of a series is finished, if the first starts at time `t`, each takes the time `len` and the next one
starts the time `gap` later. -/
def finishes (len gap : A → Nat) : (t : Nat) → List A → List (Nat × A)
  | _, [] => []
  | t, a :: as => (t + len a, a) :: finishes len gap (t + len a + gap a) as

/-- What the listener to a NEC remote hears (`necHeard`), and when each frame or repeat code is finished. -/
def necHeardAt (unpack : BitVec 32 → Bool → Option C) : (t : Nat) → (last : BitVec 32) →
    List (NecItem × (Nat × Nat)) → List (Nat × C)
  | _, _, [] => []
  | t, _, (.frame w ps, p) :: is =>
    ((unpack w false).toList.map fun c => (t + lasting ps, c)) ++
      necHeardAt unpack (t + lasting ps + (p.1 + p.2)) w is
  | t, last, (.rep q, p) :: is =>
    ((unpack last true).toList.map fun c => (t + (q.1 + q.2), c)) ++
      necHeardAt unpack (t + (q.1 + q.2) + (p.1 + p.2)) last is

end Infrared.Spec
